/-!
# Specifications for matching and searching
-/

namespace Strtk.Find

variable {α : Type}

/-- The documented meaning of a wildcard pattern: `star` stands for any (possibly empty) text, `quest` for at most one character, any other
pattern character for one character equal to it under `cmp`. -/
inductive Glob (cmp : α → α → Bool) (star quest : α) : List α → List α → Prop
  | nil : Glob cmp star quest [] []
  | starSkip {p d} : Glob cmp star quest p d → Glob cmp star quest (star :: p) d
  | starTake {p d} (x) : Glob cmp star quest (star :: p) d → Glob cmp star quest (star :: p) (x :: d)
  | questSkip {p d} : Glob cmp star quest p d → Glob cmp star quest (quest :: p) d
  | questTake {p d} (x) : Glob cmp star quest p d → Glob cmp star quest (quest :: p) (x :: d)
  | lit {p d} (c x) : c ≠ star → c ≠ quest → cmp c x = true → Glob cmp star quest p d → Glob cmp star quest (c :: p) (x :: d)

/-- The pattern `p` occurs in `s` at offset `i`. -/
def OccursAt (eq : α → α → Bool) (p s : List α) (i : Nat) : Prop :=
  ∃ u m v, s = u ++ m ++ v ∧ u.length = i ∧ m.length = p.length ∧ ∀ x ∈ m.zip p, eq x.1 x.2 = true

/-- `L` lists, from offset `start` on, the leftmost occurrence, then the leftmost occurrence after the end of that one, and so on. -/
inductive Leftmost (eq : α → α → Bool) (p s : List α) : Nat → List Nat → Prop
  | done {start} : (∀ i, start ≤ i → ¬ OccursAt eq p s i) → Leftmost eq p s start []
  | step {start i L} : start ≤ i → OccursAt eq p s i → (∀ j, start ≤ j → j < i → ¬ OccursAt eq p s j) →
      Leftmost eq p s (i + p.length) L → Leftmost eq p s start (i :: L)

/-- ASCII upper-casing of a 7-bit character. -/
def asciiUpper (c : BitVec 8) : BitVec 8 := if 97 ≤ c ∧ c ≤ 122 then c - 32 else c

end Strtk.Find
