import Verif.Find.Props
import Verif.Strings.Props
import Verif.Codec.Props

/-!
# Model of the text conditions, the guarded parse targets and the token filters (strtk.hpp 7613-7798, 16248-16650, 17297-17358,
19516-19650)

Texts are lists of bytes.  A converter to a type `T` is a parameter `List Byte → Option T`.
-/

namespace Strtk.Guards
open Outcome Find

abbrev Byte := BitVec 8

/-- `operator==` on characters. -/
def eqc (a b : Byte) : Bool := a == b

/-! ## string_condition -/

/-- `string_condition::condition_type` (19591-19600). -/
inductive Kind
  | equal | notequal | like | beginsWith | endsWith | within | notwithin
  deriving DecidableEq, Repr

/-- The seven `condition_...` methods (19522-19585), selected by the constructor (19609-19625).  `size` is `s.size()`, `pat` is what the
pointers `s_begin`/`s_end` (19605-19606) lead to when the method uses them; a size comparison that decides alone does not. -/
def condition (kind : Kind) (size : Nat) (pat : Outcome (List Byte)) (t : List Byte) : Outcome Bool :=
  match kind with
  | .equal => if size = t.length then do let s ← pat; stdEqual eqc t s 0 else ok false
  | .notequal => if size = t.length then do let s ← pat; let b ← stdEqual eqc t s 0; ok (!b) else ok true
  | .like => do let s ← pat; matchImpl eqc 42 63 s t
  | .beginsWith => if size = t.length then do let s ← pat; Find.beginsWith eqc s t else ok false
  | .endsWith => if size = t.length then do let s ← pat; Find.endsWith eqc s t else ok false
  | .within => if size ≤ t.length then do let s ← pat; ok (decide (t.length ≠ search eqc t s 0)) else ok false
  | .notwithin => if size ≤ t.length then do let s ← pat; ok (decide (t.length = search eqc t s 0)) else ok true

/-- A `string_condition` constructed from `s` (19602-19626) and applied to `t` (19628-19641). -/
def stringCondition (kind : Kind) (s t : List Byte) : Outcome Bool := condition kind s.length (ok s) t

/-- A `string_condition` object (19645-19649): the kind, its own string, and the object into whose string `s_begin`/`s_end` point. -/
structure Obj where
  kind : Kind
  s : List Byte
  target : Nat

/-- The objects alive, by identity.  Identities are never reused (addresses may be; a reused address would only change which wrong
memory is read). -/
abbrev Objects := Nat → Option Obj

/-- What a program can do with condition objects: construct (19602), copy (implicitly declared copy constructor of 19516: memberwise, the
pointers are copied as they are), destroy. -/
inductive Op
  | construct (id : Nat) (kind : Kind) (s : List Byte)
  | copy (src dst : Nat)
  | destroy (id : Nat)

/-- Effect of an operation. -/
def Op.run (objs : Objects) : Op → Objects
  | .construct id kind s => fun i => if i = id then some ⟨kind, s, id⟩ else objs i
  | .copy src dst => fun i => if i = dst then objs src else objs i
  | .destroy id => fun i => if i = id then none else objs i

/-- `operator()` on an object (19628-19641): the pattern is read through the pointers. -/
def apply (objs : Objects) (id : Nat) (t : List Byte) : Outcome Bool :=
  match objs id with
  | none => ub
  | some o => condition o.kind o.s.length (match objs o.target with | none => ub | some p => ok p.s) t

/-! ## Guarded parse targets -/

/-- `std::equal` with a predicate that may itself misbehave, checked reads. -/
def stdEqualM (eq : Byte → Byte → Outcome Bool) (s : List Byte) : List Byte → Nat → Outcome Bool
  | [], _ => ok true
  | b :: p, i => do
    let a ← deref s i
    let e ← eq b a
    if e then stdEqualM eq s p (i + 1) else ok false

/-- `expect_impl::operator()` (16256-16263). -/
def expect (s token : List Byte) : Outcome Bool := if token.length ≠ s.length then ok false else stdEqual eqc token s 0

/-- `iexpect_impl::operator()` (16288-16295). -/
def iexpect (s token : List Byte) : Outcome Bool := if token.length ≠ s.length then ok false else stdEqualM imatchChar token s 0

/-- `like_impl::operator()` (16320-16327). -/
def like (s token : List Byte) : Outcome Bool := matchImpl eqc 42 63 s token

/-- `inrange_impl::operator()` (16355-16367), for a type with the comparison `lt`; `t` is the target before, the result the target after. -/
def inrange {T : Type} (conv : List Byte → Option T) (lt : T → T → Bool) (low hi t : T) (token : List Byte) : Bool × T :=
  match conv token with
  | none => (false, t)
  | some temp => if lt temp low then (false, t) else if lt hi temp then (false, t) else (true, temp)

/-- The switch of `trim_details::convert_impl` (16401-16407, 16425-16431); `none` is the early `return false`. -/
def trimText (rem s : List Byte) (mode : Nat) : Outcome (Option (List Byte)) :=
  match mode with
  | 0 => do let r ← Strings.removeLeadingTrailing (fun c => decide (c ∈ rem)) s; ok (some r)
  | 1 => do let r ← Strings.removeLeading (fun c => decide (c ∈ rem)) s; ok (some r)
  | 2 => do let r ← Strings.removeTrailing (fun c => decide (c ∈ rem)) s; ok (some r)
  | _ => ok none

/-- `trim_impl<T>::operator()` (16390-16411, 16451-16455). -/
def trimConv {T : Type} (conv : List Byte → Option T) (rem : List Byte) (mode : Nat) (t : T) (token : List Byte) : Outcome (Bool × T) := do
  match ← trimText rem token mode with
  | none => ok (false, t)
  | some s => match conv s with
    | none => ok (false, t)
    | some v => ok (true, v)

/-- `trim_impl<std::string>::operator()` (16413-16435): the target is trimmed in place. -/
def trimString (rem : List Byte) (mode : Nat) (token : List Byte) : Outcome (Bool × List Byte) := do
  match ← trimText rem token mode with
  | none => ok (false, token)
  | some s => ok (true, s)

/-- `conv_to_lcase_impl::operator()` (16477-16484). -/
def lcase (token : List Byte) : Bool × List Byte := (true, Codec.toLowercase token)

/-- `conv_to_ucase_impl::operator()` (16504-16511). -/
def ucase (token : List Byte) : Bool × List Byte := (true, Codec.toUppercase token)

/-- `fill_array_impl::operator()` (16532-16540): the memory behind `data_` is `mem`, the declared size `size`. -/
def fillArray (mem : List Byte) (size : Nat) (token : List Byte) : Outcome (Bool × List Byte) :=
  if token.length ≠ size then ok (false, mem) else do
    let mem ← Mem.copyTo mem 0 token
    ok (true, mem)

/-- The converters of 17297-17358: on success the iterator moves to the end, on failure it stays. -/
def guarded {R : Type} (begin_ end_ : Nat) (r : Outcome (Bool × R)) : Outcome (Bool × R × Nat) := do
  let (b, v) ← r
  if !b then ok (false, v, begin_) else ok (true, v, end_)

/-! ## Filters -/

/-- `filter_non_empty_range::operator()` (7652-7659): what is appended to the output. -/
def filterNonEmpty (range : List Byte) : List (List Byte) := if range ≠ [] then [range] else []

/-- `filter_on_wildcard_match::operator()` (7679-7694): the calls of the predicate. -/
def filterOnWildcard (pattern : List Byte) (allow : Bool) (token : List Byte) : Outcome (List (List Byte)) := do
  let m ← matchImpl eqc 42 63 pattern token
  if xor m allow then ok [token] else ok []

/-- The condition 7727-7731 (7752-7756) for one string of the list: the token is `mem[b..e)`, and `std::equal` compares as many characters
as the string has, starting at the token, without looking at the token's end.  `mem` is everything that may be dereferenced; for the buffer of a
`std::string` implementations keep one zero behind the last character, which can be made part of `mem`. -/
def filterHit (icase : Bool) (mem : List Byte) (b e : Nat) (s : List Byte) : Outcome Bool := do
  let token ← Mem.slice mem b (e - b)
  if icase then imatch s token else stdEqual eqc mem s b

/-- `filter_on_match::operator()` on ranges (7722-7746). -/
def filterOnMatchRange (icase allow : Bool) (mem : List Byte) (b e : Nat) : List (List Byte) → Outcome (List (Nat × Nat))
  | [] => if !allow then ok [(b, e)] else ok []
  | s :: rest => do
    let hit ← filterHit icase mem b e s
    if hit then (if allow then ok [(b, e)] else ok []) else filterOnMatchRange icase allow mem b e rest

/-- `filter_on_match::operator()` on strings (7748-7771). -/
def filterOnMatchString (icase allow : Bool) (t : List Byte) : List (List Byte) → Outcome (List (List Byte))
  | [] => if !allow then ok [t] else ok []
  | s :: rest => do
    let hit ← filterHit icase t 0 t.length s
    if hit then (if allow then ok [t] else filterOnMatchString icase allow t rest) else filterOnMatchString icase allow t rest

/-- `skip_while_matching` (7786-7798). -/
def skipWhileMatching (p : Byte → Bool) (s : List Byte) : Nat → Nat → Outcome Nat
  | 0, _ => diverge
  | fuel + 1, itr =>
    if s.length ≠ itr then do
      let c ← deref s itr
      if p c then skipWhileMatching p s fuel (itr + 1) else ok itr
    else ok itr

end Strtk.Guards
