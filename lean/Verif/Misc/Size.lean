import Verif.Outcome

/-! # Size predicates (strtk.hpp 7800-8021) -/

namespace Strtk.Size

/-- The five predicate structs (7800, 7845, 7890, 7935, 7979); the bound is a template parameter of type `size_t`. -/
inductive Test
  | equalTo (n : BitVec 64)
  | lessThan (n : BitVec 64)
  | greaterThan (n : BitVec 64)
  | even
  | odd

/-- The calls with two iterators (7804-7807, 7849-7852, 7894-7897, 7938-7941, 7982-7985) and with a pair (7810-7813, 7855-7858, 7900-7903, 7944-7947,
7988-7991); `d` is `std::distance`, of type `ptrdiff_t`. `size_equal_to` compares after converting the distance to `size_t`, the next two after converting
the bound to `ptrdiff_t`; `%` rounds towards zero. -/
def onRange : Test → BitVec 64 → Bool
  | .equalTo n, d => n == d
  | .lessThan n, d => d.slt n
  | .greaterThan n, d => n.slt d
  | .even, d => Int.tmod d.toInt 2 == 0
  | .odd, d => Int.tmod d.toInt 2 != 0

/-- The calls with a sequence, set, multiset or string (7818-7842, 7863-7887, 7908-7932, 7952-7976, 7996-8020); `k` is `size()`, of type `size_t`. -/
def onContainer : Test → BitVec 64 → Bool
  | .equalTo n, k => n == k
  | .lessThan n, k => k.ult n
  | .greaterThan n, k => n.ult k
  | .even, k => k % 2 == 0
  | .odd, k => k % 2 != 0

/-! ## Specification -/

/-- What each predicate says about a length. -/
def Says : Test → Nat → Prop
  | .equalTo n, k => k = n.toNat
  | .lessThan n, k => k < n.toNat
  | .greaterThan n, k => k > n.toNat
  | .even, k => k % 2 = 0
  | .odd, k => k % 2 = 1

/-- The bound of a predicate, if it has one, is below 2^63. -/
def Small : Test → Prop
  | .equalTo _ => True
  | .lessThan n => n.toNat < 2 ^ 63
  | .greaterThan n => n.toNat < 2 ^ 63
  | _ => True

/-! ## Proofs -/

/-- On containers each predicate says what its name says. -/
theorem C105_container (t : Test) {α : Type} (xs : List α) (h : xs.length < 2 ^ 64) :
    onContainer t (BitVec.ofNat 64 xs.length) = true ↔ Says t xs.length := by
  have hn : (BitVec.ofNat 64 xs.length).toNat = xs.length := by rw [BitVec.toNat_ofNat]; omega
  cases t with
  | equalTo n =>
    simp only [onContainer, Says, beq_iff_eq, ← BitVec.toNat_inj, hn]
    exact eq_comm
  | lessThan n => simp only [onContainer, Says, BitVec.ult_iff_lt, BitVec.lt_def, hn]
  | greaterThan n => simp only [onContainer, Says, BitVec.ult_iff_lt, BitVec.lt_def, hn, gt_iff_lt]
  | even =>
    simp only [onContainer, Says, beq_iff_eq, ← BitVec.toNat_inj, BitVec.toNat_umod, hn]
    exact Iff.rfl
  | odd =>
    simp only [onContainer, Says, bne_iff_ne, ne_eq, ← BitVec.toNat_inj, BitVec.toNat_umod, hn]
    show ¬ (xs.length % 2 = 0) ↔ _
    omega

theorem toInt_small (k : Nat) (h : k < 2 ^ 63) : (BitVec.ofNat 64 k).toInt = k := by
  rw [BitVec.toInt_ofNat', Int.bmod_eq_of_le] <;> omega

theorem toInt_of_lt (n : BitVec 64) (h : n.toNat < 2 ^ 63) : n.toInt = n.toNat := by
  rw [BitVec.toInt_eq_toNat_cond, if_pos (by omega)]

theorem toInt_neg (n : BitVec 64) (h : 2 ^ 63 ≤ n.toNat) : n.toInt < 0 := by
  have := n.isLt
  rw [BitVec.toInt_eq_toNat_cond, if_neg (by omega)]
  omega

/-- On ranges too, as long as the bound is below 2^63. -/
theorem C105_range_partial (t : Test) {α : Type} (xs : List α) (h : xs.length < 2 ^ 63) (ht : Small t) :
    onRange t (BitVec.ofNat 64 xs.length) = true ↔ Says t xs.length := by
  have hn : (BitVec.ofNat 64 xs.length).toNat = xs.length := by rw [BitVec.toNat_ofNat]; omega
  have hi := toInt_small _ h
  cases t with
  | equalTo n =>
    simp only [onRange, Says, beq_iff_eq, ← BitVec.toNat_inj, hn]
    exact eq_comm
  | lessThan n =>
    simp only [onRange, Says, BitVec.slt_iff_toInt_lt, hi, toInt_of_lt n ht]
    omega
  | greaterThan n =>
    simp only [onRange, Says, BitVec.slt_iff_toInt_lt, hi, toInt_of_lt n ht]
    omega
  | even =>
    simp only [onRange, Says, beq_iff_eq, hi]
    rw [Int.tmod_eq_emod_of_nonneg (by omega)]
    omega
  | odd =>
    simp only [onRange, Says, bne_iff_ne, ne_eq, hi]
    rw [Int.tmod_eq_emod_of_nonneg (by omega)]
    omega

/-- With a bound of 2^63 or more the calls with iterators disagree with the ones with containers and with their names: no range is less, every range is
greater. -/
theorem C105_range_disagrees (n : BitVec 64) (hn : 2 ^ 63 ≤ n.toNat) {α : Type} (xs : List α) (h : xs.length < 2 ^ 63) :
    onRange (.lessThan n) (BitVec.ofNat 64 xs.length) = false ∧ onContainer (.lessThan n) (BitVec.ofNat 64 xs.length) = true ∧
    onRange (.greaterThan n) (BitVec.ofNat 64 xs.length) = true ∧ onContainer (.greaterThan n) (BitVec.ofNat 64 xs.length) = false := by
  have hi := toInt_small _ h
  have hneg := toInt_neg n hn
  refine ⟨?_, (C105_container (.lessThan n) xs (by omega)).mpr (show xs.length < n.toNat by omega), ?_, ?_⟩
  · rw [Bool.eq_false_iff]
    simp only [onRange, ne_eq, BitVec.slt_iff_toInt_lt, hi]
    omega
  · simp only [onRange, BitVec.slt_iff_toInt_lt, hi]
    omega
  · rw [Bool.eq_false_iff]
    intro hc
    have : xs.length > n.toNat := (C105_container (.greaterThan n) xs (by omega)).mp hc
    omega

example : onRange (.lessThan 4) (BitVec.ofNat 64 [1, 2, 3].length) = true ∧ onRange .odd (BitVec.ofNat 64 [1, 2, 3].length) = true ∧
    onContainer (.greaterThan 3) (BitVec.ofNat 64 [1, 2, 3].length) = false := by decide
example : (2 : Nat) ^ 63 ≤ (0x8000000000000000 : BitVec 64).toNat ∧
    onRange (.lessThan 0x8000000000000000) (BitVec.ofNat 64 [1, 2, 3].length) = false := by decide

end Strtk.Size
