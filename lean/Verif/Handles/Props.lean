import Verif.Handles.Model

/-!
# C96, C97: handles of variables and attributes
-/

namespace Strtk.Handles
open Outcome

variable {X T : Type}

/-! ## C96 -/

/-- **Specification.** What the user expects of one operation, as a map from the live handles to what they are bound to. -/
def expected (m : Nat → Option (Option X)) : Op X → (Nat → Option (Option X))
  | .create id => fun i => if i = id then some none else m i
  | .bind id x => fun i => if i = id then some (some x) else m i
  | .rebind id x => fun i => if i = id then some (some x) else m i
  | .copy src dst => fun i => if i = dst then m src else m i
  | .assign src dst => fun i => if i = dst then m src else m i
  | .destroy id => fun i => if i = id then none else m i

/-- **Specification.** The operation is allowed: constructors on free places, everything else on live handles. -/
def Allowed (m : Nat → Option (Option X)) : Op X → Prop
  | .create id => m id = none
  | .bind id _ => m id = none
  | .rebind id _ => m id ≠ none
  | .copy src dst => m src ≠ none ∧ m dst = none
  | .assign src dst => m src ≠ none ∧ m dst ≠ none
  | .destroy id => m id ≠ none

/-- **Specification.** The operation neither copy-constructs nor assigns from an unbound handle. -/
def Plain (m : Nat → Option (Option X)) : Op X → Prop
  | .copy _ _ => False
  | .assign src _ => m src ≠ some none
  | _ => True

/-- **Specification.** Histories: `Reach P ops m` says that `ops` is a list of allowed operations satisfying `P`, and that `m` is what the user
expects after them. -/
inductive Reach (P : (Nat → Option (Option X)) → Op X → Prop) : List (Op X) → (Nat → Option (Option X)) → Prop
  | start : Reach P [] fun _ => none
  | step {ops m} (op : Op X) : Reach P ops m → Allowed m op → P m op → Reach P (ops ++ [op]) (expected m op)

theorem runAll_append (a b : List (Op X)) : ∀ objs, runAll (a ++ b) objs = (runAll a objs >>= fun o => runAll b o) := by
  induction a with
  | nil => intro objs; rfl
  | cons op a ih =>
    intro objs
    simp only [List.cons_append, runAll, bind_assoc]
    congr 1
    funext o
    exact ih o

/-- The handle that stands for a binding of the object at `id`. -/
def ofBinding (id : Nat) : Option (Option X) → Option (Handle X)
  | none => none
  | some none => some ⟨none, none⟩
  | some (some x) => some ⟨some id, some x⟩

/-- The state that stands for a map of bindings. -/
def ofMap (m : Nat → Option (Option X)) : Objects X := fun i => ofBinding i (m i)

theorem put_ofMap (m : Nat → Option (Option X)) (id : Nat) (b : Option (Option X)) :
    put (ofMap m) id (ofBinding id b) = ofMap fun i => if i = id then b else m i := by
  funext i
  simp only [put, ofMap]
  split
  · rename_i h; subst h; rfl
  · rfl

theorem live_of {m : Nat → Option (Option X)} {id : Nat} (h : m id ≠ none) : ∃ v, ofMap m id = some v := by
  obtain ⟨b, hb⟩ := Option.ne_none_iff_exists'.mp h
  simp only [ofMap, hb]
  cases b <;> exact ⟨_, rfl⟩

theorem run_plain (m : Nat → Option (Option X)) (op : Op X) (ha : Allowed m op) (hp : Plain m op) :
    op.run (ofMap m) = ok (ofMap (expected m op)) := by
  cases op with
  | create id =>
    have : ofMap m id = none := by simp only [Allowed] at ha; simp [ofMap, ha, ofBinding]
    simp only [Op.run, this]
    exact congrArg ok (put_ofMap m id (some none))
  | bind id x =>
    have : ofMap m id = none := by simp only [Allowed] at ha; simp [ofMap, ha, ofBinding]
    simp only [Op.run, this]
    exact congrArg ok (put_ofMap m id (some (some x)))
  | rebind id x =>
    obtain ⟨v, hv⟩ := live_of ha
    simp only [Op.run, hv]
    exact congrArg ok (put_ofMap m id (some (some x)))
  | copy src dst => exact hp.elim
  | assign src dst =>
    obtain ⟨h1, h2⟩ := ha
    obtain ⟨b, hb⟩ := Option.ne_none_iff_exists'.mp h1
    obtain ⟨v, hv⟩ := live_of h2
    have hx : ∃ x, b = some x := by
      cases b with
      | none => exact absurd hb hp
      | some x => exact ⟨x, rfl⟩
    obtain ⟨x, rfl⟩ := hx
    have hs : ofMap m src = some ⟨some src, some x⟩ := by simp [ofMap, hb, ofBinding]
    simp only [Op.run, hs, hv]
    by_cases he : src = dst
    · rw [if_pos he]
      congr 1
      subst he
      simp only [expected]
      congr 1
      funext i
      split
      · rename_i h; rw [h]
      · rfl
    · rw [if_neg he]
      have := put_ofMap m dst (m src)
      rw [hb] at this
      simp only [expected, hb]
      exact congrArg ok this
  | destroy id =>
    obtain ⟨v, hv⟩ := live_of ha
    simp only [Op.run, hv]
    exact congrArg ok (put_ofMap m id none)

/-- **C96** (part): after any history of constructions, bindings, assignments and destructions in which no handle is copy-constructed and none
is assigned from an unbound one, nothing undefined has happened and every live handle delivers to exactly the variable it was last bound to or
assigned (an unbound one delivers nothing). Missing: copy construction and assignment from unbound handles, see the next theorems. -/
theorem C96_values_partial {ops : List (Op X)} {m : Nat → Option (Option X)} (h : Reach Plain ops m) :
    ∃ objs, runAll ops (fun _ => none) = ok objs ∧ ∀ id b, m id = some b → target objs id = ok b := by
  refine ⟨ofMap m, ?_, ?_⟩
  · induction h with
    | start => rfl
    | step op _ ha hp ih =>
      rw [runAll_append, ih, ok_bind]
      simp only [runAll]
      rw [run_plain _ op ha hp, ok_bind]
  · intro id b hb
    cases b with
    | none => simp [target, ofMap, hb, ofBinding]
    | some x => simp [target, ofMap, hb, ofBinding]

/-- Non-vacuity: two handles, one assigned to the other, the original destroyed. -/
example : ∃ m, Reach Plain [Op.bind 0 7, .create 1, .assign 0 1, .destroy 0] m ∧ m 1 = some (some 7) := by
  refine ⟨_, ((((Reach.start (P := Plain)).step (Op.bind 0 7) rfl trivial).step (.create 1) ?_ trivial).step (.assign 0 1) ?_ ?_).step
    (.destroy 0) ?_ trivial, ?_⟩ <;> simp [Allowed, Plain, expected]

/-- The operation leaves the object at `id` as it is. -/
def Leaves (id : Nat) : Op X → Prop
  | .create i => i ≠ id
  | .bind i _ => i ≠ id
  | .rebind i _ => i ≠ id
  | .copy _ dst => dst ≠ id
  | .assign _ dst => dst ≠ id
  | .destroy i => i ≠ id

theorem run_leaves {objs objs' : Objects X} {op : Op X} {id : Nat} (h : op.run objs = ok objs') (hl : Leaves id op) :
    objs' id = objs id := by
  have key : ∀ (i : Nat) (v : Option (Handle X)), i ≠ id → put objs i v id = objs id := by
    intro i v hi; simp only [put]; rw [if_neg (fun e => hi e.symm)]
  cases op with
  | create i =>
    simp only [Op.run] at h
    split at h
    · cases h
    · cases h; exact key _ _ hl
  | bind i x =>
    simp only [Op.run] at h
    split at h
    · cases h
    · cases h; exact key _ _ hl
  | rebind i x =>
    simp only [Op.run] at h
    split at h
    · cases h; exact key _ _ hl
    · cases h
  | copy s d =>
    simp only [Op.run] at h
    split at h
    · cases h; exact key _ _ hl
    · cases h
  | assign s d =>
    simp only [Op.run] at h
    split at h
    · split at h
      · cases h; rfl
      · split at h
        · cases h; rfl
        · cases h; exact key _ _ hl
    · cases h
  | destroy i =>
    simp only [Op.run] at h
    split at h
    · cases h; exact key _ _ hl
    · cases h

theorem runAll_leaves {id : Nat} : ∀ (ops : List (Op X)) {objs objs' : Objects X}, runAll ops objs = ok objs' → (∀ op ∈ ops, Leaves id op) →
    objs' id = objs id := by
  intro ops
  induction ops with
  | nil => intro objs objs' h _; cases h; rfl
  | cons op ops ih =>
    intro objs objs' h hl
    simp only [runAll] at h
    obtain ⟨o, h1, h2⟩ := bind_eq_ok.mp h
    rw [ih h2 fun op hop => hl op (List.mem_cons_of_mem _ hop), run_leaves h1 (hl op (List.mem_cons_self ..))]

/-- **C96** (part): a handle copy-constructed from a bound one delivers to the same variable during every further history that touches
neither of the two. -/
theorem C96_copy_while_original_partial {objs objs1 objs2 : Objects X} {src dst : Nat} {x : X} (hsrc : objs src = some ⟨some src, some x⟩)
    (h1 : (Op.copy src dst).run objs = ok objs1) (ops : List (Op X)) (h2 : runAll ops objs1 = ok objs2)
    (hs : ∀ op ∈ ops, Leaves src op) (hd : ∀ op ∈ ops, Leaves dst op) : target objs2 dst = ok (some x) ∧ target objs2 src = ok (some x) := by
  have hne : src ≠ dst := by
    rintro rfl
    simp [Op.run, hsrc] at h1
  simp only [Op.run, hsrc] at h1
  split at h1
  · rename_i v heq hd0
    injection heq with heq
    injection h1 with h1
    have a : objs2 src = some ⟨some src, some x⟩ := by
      rw [runAll_leaves ops h2 hs, ← h1]; simp only [put]; rw [if_neg hne, hsrc]
    have b : objs2 dst = some ⟨some src, some x⟩ := by
      rw [runAll_leaves ops h2 hd, ← h1, ← heq]; simp [put]
    constructor
    · simp [target, a, b]
    · simp [target, a]
  · cases h1

/-- Non-vacuity: the state of one bound handle. -/
example : (Op.bind 0 7).run (fun _ => none) = ok (put (fun _ => none) 0 (some ⟨some 0, some 7⟩)) := rfl

/-- **C96** (negative result): the implicit copy constructor copies the pointer into the original's buffer. When the original is destroyed, using
the copy is undefined; when the original is bound to another variable, the copy follows it. -/
theorem C96_copy_dangles (x y : X) :
    (∃ objs, runAll [.bind 0 x, .copy 0 1, .destroy 0] (fun _ => none) = ok objs ∧ (objs 1).isSome ∧ target objs 1 = ub) ∧
    (∃ objs, runAll [.bind 0 x, .copy 0 1, .rebind 0 y] (fun _ => none) = ok objs ∧ target objs 1 = ok (some y)) :=
  ⟨⟨_, rfl, rfl, rfl⟩, ⟨_, rfl, rfl⟩⟩

/-- **C96** (negative result): assigning an unbound value does not unbind. -/
theorem C96_assign_unbound (x : X) :
    ∃ objs, runAll [.bind 0 x, .create 1, .assign 1 0] (fun _ => none) = ok objs ∧ target objs 0 = ok (some x) ∧ target objs 1 = ok none :=
  ⟨_, rfl, rfl, rfl⟩

/-! ## C97 -/

/-- **C97** (part): an attribute constructed from `t0` and then assigned `ts` has the last of these values, remembers the one before it, is
initialised, compares equal to exactly its value, and has changed exactly when the last two values differ. Missing: values that arrive
by parsing, default-constructed attributes of arithmetic types. -/
theorem C97_attribute_partial [DecidableEq T] (t0 : T) (ts : List T) (last before : T) (h : ∃ l, t0 :: t0 :: ts = l ++ [before, last]) :
    ∃ a, Attr.assignAll ts (Attr.ofValue t0) = ok a ∧ a.t = some last ∧ a.prev = some before ∧ a.init = true ∧
      a.changed = ok (decide (last ≠ before)) ∧ ∀ t, a.equals t = ok (decide (last = t)) := by
  have key : ∀ (ts : List T) (p t0 last before : T), (∃ l, p :: t0 :: ts = l ++ [before, last]) →
      Attr.assignAll ts ⟨some t0, some p, true⟩ = ok ⟨some last, some before, true⟩ := by
    intro ts
    induction ts with
    | nil =>
      rintro p t0 last before ⟨l, hl⟩
      have hlen := congrArg List.length hl
      simp at hlen
      subst hlen
      simp at hl
      obtain ⟨rfl, rfl⟩ := hl
      rfl
    | cons t ts ih =>
      rintro p t0 last before ⟨l, hl⟩
      simp only [Attr.assignAll, Attr.assign, get, ok_bind]
      apply ih
      cases l with
      | nil => simp at hl
      | cons a l => exact ⟨l, by simpa using (List.cons.inj hl).2⟩
  refine ⟨_, key ts t0 t0 last before h, rfl, rfl, rfl, ?_, ?_⟩
  · simp [Attr.changed, get]
  · intro t; simp [Attr.equals, get]

/-- Non-vacuity: 1, then 2, then 3. -/
example : ∃ l, (1 : Nat) :: 1 :: [2, 3] = l ++ [2, 3] := ⟨[1, 1], rfl⟩

/-- **C97** (part): the same for a default-constructed attribute of a class type, whose default value is then the previous one of the first
assignment; before any assignment it equals nothing and has not changed. -/
theorem C97_default_class [DecidableEq T] (d t : T) :
    (Attr.make (some d)).changed = ok false ∧ (∀ u, (Attr.make (some d)).equals u = ok false) ∧
      (Attr.make (some d)).assign t = ok ⟨some t, some d, true⟩ := ⟨rfl, fun _ => rfl, rfl⟩

/-- **C97** (negative result): the first assignment to a default-constructed attribute of an arithmetic type copies the indeterminate value. -/
theorem C97_default_scalar (t : T) : (Attr.make (none : Option T)).assign t = ub := rfl

/-- **C97** (negative result): parsing does not move the value to the previous one: after parsing two different texts, an attribute that went back
to its first value is reported as unchanged by the last update, and one whose value did not change in the last update as changed. -/
theorem C97_parse_not_remembered [DecidableEq T] (a b : T) (hab : a ≠ b) :
    (((Attr.ofValue a).parse some b).2.parse some a).2.changed = ok false ∧
    (((Attr.ofValue a).parse some b).2.parse some b).2.changed = ok true := by
  constructor
  · simp [Attr.parse, Attr.changed, Attr.ofValue, get]
  · simp [Attr.parse, Attr.changed, Attr.ofValue, get, hab.symm]

/-- **C97** (part): parsing into an attribute sets its value exactly when the text converts and leaves it alone otherwise. -/
theorem C97_parse {S : Type} [DecidableEq T] (conv : S → Option T) (a : Attr T) (s : S) :
    (∀ t, conv s = some t → (a.parse conv s).1 = true ∧ ∀ u, (a.parse conv s).2.equals u = ok (decide (t = u))) ∧
    (conv s = none → a.parse conv s = (false, a)) := by
  constructor
  · intro t h; simp [Attr.parse, h, Attr.equals, get]
  · intro h; simp [Attr.parse, h]

example : (((Attr.ofValue 1).parse some 2).2.parse some 1).2.changed = ok false := (C97_parse_not_remembered 1 2 (by decide)).1

end Strtk.Handles
