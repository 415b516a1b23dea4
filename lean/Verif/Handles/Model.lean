import Verif.Outcome

/-!
# Model of the objects that refer to variables: `util::value`, `util::semantic_action_impl`, `util::attribute`
(strtk.hpp 20839-21156, 21162-21333)

`util::value` and `semantic_action_impl` keep a small polymorphic object inside a byte buffer of their own, and a pointer to it. Objects are
named by their address (a number). The variable (or function) referred to is a value of `X`.
-/

namespace Strtk.Handles
open Outcome

variable {X T : Type}

/-- The members of a `value` (21330-21332; `semantic_action_impl`: 21085-21087): `holder` is the address of the object whose buffer
`type_holder_` points to (`none`: null), `buf` what has been constructed in the buffer. -/
structure Handle (X : Type) where
  holder : Option Nat
  buf : Option X
  deriving DecidableEq, Repr

/-- The objects that live, by address. -/
abbrev Objects (X : Type) := Nat → Option (Handle X)

/-- What a program can do with handles. -/
inductive Op (X : Type)
  | create (id : Nat)
  | bind (id : Nat) (x : X)
  | rebind (id : Nat) (x : X)
  | copy (src dst : Nat)
  | assign (src dst : Nat)
  | destroy (id : Nat)

/-- Changing one object. -/
def put (objs : Objects X) (id : Nat) (h : Option (Handle X)) : Objects X := fun i => if i = id then h else objs i

/-- One operation: `value()` (21224-21228), `value(t)` (21230-21235), `assign` (21284-21289, with the placement `new` of 21321-21328; the
holder of any `T` fits the buffer since it is a virtual table pointer and one pointer), the implicit copy constructor (members copied as they
are; the class declares none), `operator=` (21249-21262), the implicit destructor. Constructing where an object lives, or using an object that
does not live, is undefined. `semantic_action_impl` has the same members and the same implicit copy constructor (21004-21059), but no
`operator=`. -/
def Op.run (objs : Objects X) : Op X → Outcome (Objects X)
  | .create id => match objs id with
    | some _ => ub
    | none => ok (put objs id (some ⟨none, none⟩))
  | .bind id x => match objs id with
    | some _ => ub
    | none => ok (put objs id (some ⟨some id, some x⟩))
  | .rebind id x => match objs id with
    | some _ => ok (put objs id (some ⟨some id, some x⟩))
    | none => ub
  | .copy src dst => match objs src, objs dst with
    | some v, none => ok (put objs dst (some v))
    | _, _ => ub
  | .assign src dst => match objs src, objs dst with
    | some v, some _ =>
      if src = dst then ok objs
      else match v.holder with
        | none => ok objs
        | some _ => ok (put objs dst (some ⟨some dst, v.buf⟩))
    | _, _ => ub
  | .destroy id => match objs id with
    | some _ => ok (put objs id none)
    | none => ub

/-- A sequence of operations. -/
def runAll : List (Op X) → Objects X → Outcome (Objects X)
  | [], objs => ok objs
  | op :: ops, objs => do
    let objs ← op.run objs
    runAll ops objs

/-- Which variable `operator()` of the object delivers to (21264-21271; `semantic_action_impl`: 21029-21036); `none` is the result `false` of
an unbound handle. Following a pointer to an object that does not live is undefined. -/
def target (objs : Objects X) (id : Nat) : Outcome (Option X) :=
  match objs id with
  | none => ub
  | some v => match v.holder with
    | none => ok none
    | some o => match objs o with
      | none => ub
      | some w => match w.buf with
        | none => ub
        | some x => ok (some x)

/-! ## `util::attribute` -/

/-- The members of an `attribute<T>` (20935-20937); `none` is an indeterminate value. -/
structure Attr (T : Type) where
  t : Option T
  prev : Option T
  init : Bool

/-- Reading a member. -/
def get (v : Option T) : Outcome T := match v with
  | some t => ok t
  | none => ub

/-- `attribute()` (20844-20846): `dflt` is what default initialisation gives (`none` for arithmetic types). -/
def Attr.make (dflt : Option T) : Attr T := ⟨dflt, dflt, false⟩

/-- `attribute(t)` (20848-20852). -/
def Attr.ofValue (t : T) : Attr T := ⟨some t, some t, true⟩

/-- `operator=` (20854-20859). -/
def Attr.assign (a : Attr T) (t : T) : Outcome (Attr T) := do
  let p ← get a.t
  ok ⟨some t, some p, true⟩

/-- Parsing into an attribute (21120-21130): `conv` is the converter of `T`. -/
def Attr.parse {S : Type} (conv : S → Option T) (a : Attr T) (s : S) : Bool × Attr T := match conv s with
  | some t => (true, { a with t := some t, init := true })
  | none => (false, a)

/-- `changed` (20902-20905). -/
def Attr.changed [DecidableEq T] (a : Attr T) : Outcome Bool :=
  if a.init then do
    let t ← get a.t
    let p ← get a.prev
    ok (decide (t ≠ p))
  else ok false

/-- `operator==` (20861-20864). -/
def Attr.equals [DecidableEq T] (a : Attr T) (t : T) : Outcome Bool :=
  if a.init then do
    let u ← get a.t
    ok (decide (u = t))
  else ok false

/-- A sequence of assignments. -/
def Attr.assignAll : List T → Attr T → Outcome (Attr T)
  | [], a => ok a
  | t :: ts, a => do
    let a ← a.assign t
    Attr.assignAll ts a

end Strtk.Handles
