import Verif.Outcome

/-!
# Specification of decimal numerals
-/

namespace Strtk.Number

/-- The characters '0'..'9'. -/
def isDigit (c : BitVec 8) : Prop := 48 ≤ c.toNat ∧ c.toNat ≤ 57

instance (c : BitVec 8) : Decidable (isDigit c) := by unfold isDigit; infer_instance

/-- The number a string of digits denotes (most significant digit first). -/
def decVal (s : List (BitVec 8)) : Nat := s.foldl (fun a c => 10 * a + (c.toNat - 48)) 0

/-- A non-empty string of digits. -/
def Digits (s : List (BitVec 8)) : Prop := s ≠ [] ∧ ∀ c ∈ s, isDigit c

/-- `s` is an unsigned numeral with value `v`: digits with an optional '+'. -/
def UNumeral (s : List (BitVec 8)) (v : Nat) : Prop :=
  ∃ ds, Digits ds ∧ (s = ds ∨ s = 43 :: ds) ∧ v = decVal ds

/-- `s` is a signed numeral with value `v`: digits with an optional '+' or '-'. -/
def SNumeral (s : List (BitVec 8)) (v : Int) : Prop :=
  ∃ ds, Digits ds ∧ (((s = ds ∨ s = 43 :: ds) ∧ v = decVal ds) ∨ (s = 45 :: ds ∧ v = -(decVal ds : Int)))

/-- The canonical decimal text of a natural number. -/
def decText (n : Nat) : List (BitVec 8) :=
  if h : n < 10 then [BitVec.ofNat 8 (48 + n)] else decText (n / 10) ++ [BitVec.ofNat 8 (48 + n % 10)]
termination_by n

/-- The canonical decimal text of an integer. -/
def intText (v : Int) : List (BitVec 8) := if v < 0 then 45 :: decText v.natAbs else decText v.natAbs

end Strtk.Number
