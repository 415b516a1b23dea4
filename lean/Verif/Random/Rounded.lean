import Verif.Random.Props
import Verif.Real.Rounding
import Mathlib.Tactic.Linarith
import Mathlib.Tactic.Positivity
import Mathlib.Tactic.FieldSimp
import Mathlib.Tactic.Ring

/-! # Random selection in floating-point arithmetic (C81, C82)

The draws are numbers of `p` bits (`double`: p = 53) and every product and quotient is rounded to nearest, ties to even. -/

namespace Strtk.Random
open Outcome Real

variable {α : Type}

/-- The value of a draw. -/
def Draw.val (d : Draw) : ℚ := d.num / d.den

/-- The expressions of 11997, 12044, 12117 and 12115, 12147 in arithmetic with `p` bits: the count is converted to a floating-point number, the result of
the multiplication or division is rounded.  Underflow is not modelled. -/
def rounded (p : Nat) : Arith where
  index d size := ⌊rnd p (rnd p size * d.val)⌋.toNat
  less d k n := decide (d.val < rnd p (rnd p k / rnd p n))

/-- What a generator of floating-point numbers in [0,1) may return. -/
def Draw.Float (p : Nat) (d : Draw) : Prop := d.Below ∧ Rep p d.val

theorem Draw.val_nonneg (d : Draw) : 0 ≤ d.val := by unfold Draw.val; positivity

theorem Draw.val_lt {d : Draw} (h : d.Below) : d.val < 1 := by
  unfold Draw.Below at h
  unfold Draw.val
  rw [div_lt_one (by exact_mod_cast (by omega : 0 < d.den))]
  exact_mod_cast h

/-- A number of `p` bits below 1 is at most 1 - 2^-p. -/
theorem rep_below_one (p : Nat) (hp : 1 ≤ p) (u : ℚ) (h0 : 0 ≤ u) (h1 : u < 1) (h : Rep p u) : u ≤ 1 - 1 / 2 ^ p := by
  obtain ⟨k, j, hk, rfl⟩ := h
  have hp' : (1 : ℚ) / 2 ^ p ≤ 1 / 2 := by
    apply one_div_le_one_div_of_le (by norm_num)
    calc (2 : ℚ) = 2 ^ 1 := by norm_num
      _ ≤ 2 ^ p := pow_le_pow_right₀ (by norm_num) hp
  have hk' : (k : ℚ) ≤ 2 ^ p := by
    have : k ≤ 2 ^ p := le_trans (le_abs_self k) hk
    exact_mod_cast this
  rcases le_or_gt 0 j with hj | hj
  · obtain ⟨n, rfl⟩ := Int.eq_ofNat_of_zero_le hj
    have e : (k : ℚ) * (2 : ℚ) ^ ((n : ℕ) : ℤ) = ((k * 2 ^ n : ℤ) : ℚ) := by push_cast; rw [zpow_natCast]
    rw [e] at h0 h1 ⊢
    have h2 : k * 2 ^ n < 1 := by exact_mod_cast h1
    have h3 : ((k * 2 ^ n : ℤ) : ℚ) ≤ 0 := by exact_mod_cast (by omega : k * 2 ^ n ≤ 0)
    linarith
  · obtain ⟨n, rfl⟩ : ∃ n : ℕ, j = -(n : ℤ) := ⟨j.natAbs, by omega⟩
    rw [zpow_neg, zpow_natCast] at *
    have hpos : (0 : ℚ) < 2 ^ n := by positivity
    rw [← div_eq_mul_inv] at *
    rw [div_lt_one hpos] at h1
    rcases Nat.lt_or_ge p n with hn | hn
    · have : (k : ℚ) / 2 ^ n ≤ 1 / 2 := by
        rw [div_le_div_iff₀ hpos (by norm_num)]
        have h4 : (2 : ℚ) ^ (p + 1) ≤ 2 ^ n := pow_le_pow_right₀ (by norm_num) hn
        rw [pow_succ] at h4
        linarith
      linarith
    · have h5 : k + 1 ≤ 2 ^ n := by
        have : k < 2 ^ n := by exact_mod_cast h1
        omega
      have h6 : (k : ℚ) ≤ 2 ^ n - 1 := by
        have : ((k + 1 : ℤ) : ℚ) ≤ ((2 ^ n : ℤ) : ℚ) := by exact_mod_cast h5
        push_cast at this
        linarith
      have h7 : (k : ℚ) / 2 ^ n ≤ 1 - 1 / 2 ^ n := by
        rw [div_le_iff₀ hpos, sub_mul, one_mul, one_div, inv_mul_cancel₀ (ne_of_gt hpos)]
        exact h6
      have h8 : (1 : ℚ) / 2 ^ p ≤ 1 / 2 ^ n := one_div_le_one_div_of_le hpos (pow_le_pow_right₀ (by norm_num) hn)
      linarith

/-- The rounded product of a count and a number below 1 stays below the count. -/
theorem rnd_mul_lt (p : Nat) (hp : 1 ≤ p) (u : ℚ) (h0 : 0 ≤ u) (h1 : u < 1) (hu : Rep p u) (n : Nat) (hn : 0 < n) (hn2 : n ≤ 2 ^ p) :
    rnd p (n * u) < n := by
  have hnq : (0 : ℚ) < n := by exact_mod_cast hn
  have hb := rep_below_one p hp u h0 h1 hu
  have hlt : (n : ℚ) * u < n := by nlinarith
  have hrepn : Rep p (n : ℚ) := by
    have := rep_int p (n : ℤ) (by rw [abs_of_nonneg (by omega)]; exact_mod_cast hn2)
    exact_mod_cast this
  obtain ⟨hr, hnear⟩ := rnd_nearest p hp ((n : ℚ) * u)
  have hle := hnear n hrepn
  rw [abs_of_pos (by linarith : (0 : ℚ) < n - n * u)] at hle
  have hle' : rnd p (n * u) ≤ n := by linarith [le_abs_self (rnd p (n * u) - n * u)]
  rcases lt_or_eq_of_le hle' with h | heq
  · exact h
  · exfalso
    -- the largest power of two not above n
    obtain ⟨e, he1, he2⟩ : ∃ e, 2 ^ e ≤ n ∧ n < 2 ^ (e + 1) :=
      ⟨Nat.log 2 n, Nat.pow_log_le_self 2 (by omega), Nat.lt_pow_succ_log_self (by norm_num) n⟩
    rcases Nat.eq_or_lt_of_le he1 with hpow | hgt
    · -- a power of two: the product is exact
      have hex : rnd p ((n : ℚ) * u) = n * u := by
        apply rnd_exact p hp
        obtain ⟨k, j, hk, rfl⟩ := hu
        refine ⟨k, j + e, hk, ?_⟩
        rw [← hpow, zpow_add₀ (by norm_num), zpow_natCast]
        push_cast
        ring
      rw [hex] at heq
      linarith
    · have hep : e + 1 ≤ p := by
        have : 2 ^ e < 2 ^ p := lt_of_lt_of_le hgt hn2
        exact (Nat.pow_lt_pow_iff_right (by norm_num)).mp this
      obtain ⟨c, rfl⟩ : ∃ c, p = e + 1 + c := ⟨p - (e + 1), by omega⟩
      -- the number before n
      have hs : Rep (e + 1 + c) ((n : ℚ) - 1 / 2 ^ c) := by
        refine ⟨(n : ℤ) * 2 ^ c - 1, -(c : ℤ), ?_, ?_⟩
        · have h3 : (1 : ℤ) ≤ n * 2 ^ c := by
            have : 1 ≤ n * 2 ^ c := Nat.mul_pos hn (by positivity)
            exact_mod_cast this
          rw [abs_of_nonneg (by omega)]
          have h4 : n * 2 ^ c ≤ 2 ^ (e + 1) * 2 ^ c := Nat.mul_le_mul_right _ (by omega)
          rw [← pow_add] at h4
          have h5 : (n : ℤ) * 2 ^ c ≤ 2 ^ (e + 1 + c) := by exact_mod_cast h4
          omega
        · rw [zpow_neg, zpow_natCast]
          push_cast
          have : (2 : ℚ) ^ c ≠ 0 := by positivity
          field_simp
      have hd := hnear _ hs
      rw [heq, abs_of_pos (by linarith : (0 : ℚ) < n - n * u)] at hd
      have hgap : (1 : ℚ) / 2 ^ c < 2 * (n - n * u) := by
        have hge : (2 : ℚ) ^ e < n := by exact_mod_cast hgt
        have h6 : (n : ℚ) - n * u ≥ n * (1 / 2 ^ (e + 1 + c)) := by nlinarith
        have h7 : (n : ℚ) * (1 / 2 ^ (e + 1 + c)) > 2 ^ e * (1 / 2 ^ (e + 1 + c)) := by
          apply mul_lt_mul_of_pos_right hge
          positivity
        have h8 : (2 : ℚ) * (2 ^ e * (1 / 2 ^ (e + 1 + c))) = 1 / 2 ^ c := by
          rw [pow_add, pow_succ]
          have : (2 : ℚ) ^ c ≠ 0 := by positivity
          field_simp
        linarith
      have hcpos : (0 : ℚ) < 1 / 2 ^ c := by positivity
      rcases abs_cases ((n : ℚ) - 1 / 2 ^ c - n * u) with ⟨ha, _⟩ | ⟨ha, _⟩ <;> rw [ha] at hd <;> linarith

theorem rnd_count (p : Nat) (hp : 1 ≤ p) (n : Nat) (hn : n ≤ 2 ^ p) : rnd p (n : ℚ) = n := by
  apply rnd_exact p hp
  have := rep_int p (n : ℤ) (by rw [abs_of_nonneg (by omega)]; exact_mod_cast hn)
  exact_mod_cast this

theorem rounded_inside (p : Nat) (hp : 1 ≤ p) (rng : Nat → Draw) (hr : ∀ i, (rng i).Float p) (bound : Nat) (hb : bound ≤ 2 ^ p) :
    Inside (rounded p) rng bound := by
  intro i size h0 hle
  obtain ⟨h1, h2⟩ := hr i
  show ⌊rnd p (rnd p size * (rng i).val)⌋.toNat < size
  rw [rnd_count p hp size (by omega)]
  have h3 := rnd_mul_lt p hp (rng i).val (rng i).val_nonneg (Draw.val_lt h1) h2 size h0 (by omega)
  have h4 : ⌊rnd p (size * (rng i).val)⌋ < (size : ℤ) := by
    rw [Int.floor_lt]
    exact_mod_cast h3
  omega

theorem rounded_reaches (p : Nat) (hp : 1 ≤ p) (bound : Nat) (hb : 8 * bound ≤ 2 ^ p) : Reaches (rounded p) (Draw.Float p) bound := by
  intro size j hle hj
  have hs : (0 : ℚ) < size := by exact_mod_cast (by omega : 0 < size)
  have hj' : (j : ℚ) + 1 ≤ size := by exact_mod_cast hj
  have hj0 : (0 : ℚ) ≤ j := by positivity
  have hP : (8 : ℚ) * size ≤ 2 ^ p := by
    have : 8 * size ≤ 2 ^ p := by omega
    exact_mod_cast this
  have hPpos : (0 : ℚ) < 2 ^ p := by positivity
  -- the middle of the j-th part
  set q : ℚ := (j + 1 / 2) / size with hq
  have hq0 : 0 < q := by rw [hq]; positivity
  have hqs : (size : ℚ) * q = j + 1 / 2 := by rw [hq]; field_simp
  have herr := rnd_error p q
  rw [abs_of_pos hq0] at herr
  set u := rnd p q with hu
  have hε : (1 : ℚ) / 2 ^ p ≤ 1 / (8 * size) := one_div_le_one_div_of_le (by positivity) hP
  have hε1 : (1 : ℚ) / 2 ^ p ≤ 1 / 8 := by
    refine le_trans hε (one_div_le_one_div_of_le (by norm_num) ?_)
    have : (1 : ℚ) ≤ size := by linarith
    linarith
  have hεpos : (0 : ℚ) < 1 / 2 ^ p := by positivity
  have hεs : (1 : ℚ) / 2 ^ p * size ≤ 1 / 8 := by
    have := mul_le_mul_of_nonneg_right hε (le_of_lt hs)
    refine le_trans this (le_of_eq ?_)
    field_simp
  obtain ⟨e1, e2⟩ := abs_le.mp herr
  -- size * u is within 1/8 of j + 1/2
  have hprod : |(size : ℚ) * u - (j + 1 / 2)| ≤ 1 / 8 := by
    have h1 : (size : ℚ) * (1 / 2 ^ p * q) ≤ 1 / 8 := by
      have : (size : ℚ) * (1 / 2 ^ p * q) = 1 / 2 ^ p * (j + 1 / 2) := by rw [← hqs]; ring
      rw [this]
      have h2 : (1 : ℚ) / 2 ^ p * (j + 1 / 2) ≤ 1 / 2 ^ p * size := mul_le_mul_of_nonneg_left (by linarith) (le_of_lt hεpos)
      linarith
    rw [abs_le, ← hqs]
    constructor <;> nlinarith
  obtain ⟨p1, p2⟩ := abs_le.mp hprod
  have hu0 : 0 ≤ u := by
    have : 1 / 2 ^ p * q ≤ q := by nlinarith
    linarith
  have hu1 : u < 1 := by
    have : (size : ℚ) * u < size * 1 := by linarith
    exact lt_of_mul_lt_mul_left this (le_of_lt hs)
  have hden : (u.den : ℚ) ≠ 0 := by exact_mod_cast u.den_nz
  have hnum : ((u.num.toNat : ℕ) : ℚ) = (u.num : ℚ) := by
    have : ((u.num.toNat : ℕ) : ℤ) = u.num := Int.toNat_of_nonneg (Rat.num_nonneg.mpr hu0)
    exact_mod_cast this
  have hval : Draw.val ⟨u.num.toNat, u.den⟩ = u := by
    unfold Draw.val
    simp only [hnum]
    exact Rat.num_div_den u
  refine ⟨⟨u.num.toNat, u.den⟩, ⟨?_, ?_⟩, ?_⟩
  · unfold Draw.Below
    have : ((u.num.toNat : ℕ) : ℚ) < (u.den : ℚ) := by
      rw [hnum]
      have h3 : (u.num : ℚ) / u.den < 1 := by rw [Rat.num_div_den]; exact hu1
      rwa [div_lt_one (by exact_mod_cast u.den_pos)] at h3
    exact_mod_cast this
  · rw [hval]; exact rnd_rep p hp q
  · show ⌊rnd p (rnd p size * Draw.val ⟨u.num.toNat, u.den⟩)⌋.toNat = j
    rw [hval, rnd_count p hp size (by omega)]
    have herr2 := rnd_error p ((size : ℚ) * u)
    have hnn : (0 : ℚ) ≤ size * u := by positivity
    rw [abs_of_nonneg hnn] at herr2
    obtain ⟨f1, f2⟩ := abs_le.mp herr2
    have h4 : (1 : ℚ) / 2 ^ p * (size * u) ≤ 1 / 8 := by
      have : (1 : ℚ) / 2 ^ p * (size * u) = (1 / 2 ^ p * size) * u := by ring
      rw [this]
      nlinarith
    have h5 : ⌊rnd p (size * u)⌋ = (j : ℤ) := by
      rw [Int.floor_eq_iff]
      push_cast
      constructor <;> linarith
    rw [h5]
    rfl

/-- **C81** with `p`-bit floating-point numbers: whatever the generator returns in [0,1), the output is a permutation of the range. -/
theorem C81_random_permutation (p : Nat) (hp : 1 ≤ p) (rng : Nat → Draw) (hr : ∀ i, (rng i).Float p) (s : List α) (hs : s.length ≤ 2 ^ p) :
    ∃ out, randomPermutation (rounded p) true rng s = ok out ∧ out.Perm s :=
  randomPermutation_perm _ rng s (rounded_inside p hp rng hr _ hs)

/-- **C81**: every permutation can come out. -/
theorem C81_every_permutation_rounded (p : Nat) (hp : 1 ≤ p) (s out : List α) (hs : 8 * s.length ≤ 2 ^ p) (h : out.Perm s) :
    ∃ rng : Nat → Draw, (∀ m, (rng m).Float p) ∧ randomPermutation (rounded p) true rng s = ok out :=
  randomPermutation_attain _ _ s out (rounded_reaches p hp _ hs) ⟨0, 1⟩ ⟨by simp [Draw.Below], ⟨0, 0, by simp, by simp [Draw.val]⟩⟩ h

/-- **C81**: `random_combination` gives exactly `set_size` elements from different positions, or false when there are not enough. -/
theorem C81_random_combination (p : Nat) (hp : 1 ≤ p) (rng : Nat → Draw) (hr : ∀ i, (rng i).Float p) (s : List α) (hs : s.length ≤ 2 ^ p) (k : Nat) :
    (s.length < k → randomCombination (rounded p) true rng s k = ok none) ∧
    (k ≤ s.length → ∃ out, randomCombination (rounded p) true rng s k = ok (some out) ∧ out.length = k ∧ out.Subperm s) :=
  randomCombination_subperm _ rng s (rounded_inside p hp rng hr _ hs) k

/-- **C81**: every selection in every order can come out. -/
theorem C81_every_combination_rounded (p : Nat) (hp : 1 ≤ p) (s out : List α) (hs : 8 * s.length ≤ 2 ^ p) (h : out.Subperm s) :
    ∃ rng : Nat → Draw, (∀ m, (rng m).Float p) ∧ randomCombination (rounded p) true rng s out.length = ok (some out) :=
  randomCombination_attain _ _ s out (rounded_reaches p hp _ hs) ⟨0, 1⟩ ⟨by simp [Draw.Below], ⟨0, 0, by simp, by simp [Draw.val]⟩⟩ h

/-- **C82** with `p`-bit floating-point numbers: `select_k_randomly` gives min(k, n) elements from different positions, all of the input when it has at most
`k` elements. -/
theorem C82_select_k_rounded (p : Nat) (hp : 1 ≤ p) (rng : Nat → Draw) (hr : ∀ i, (rng i).Float p) (s : List α) (hs : s.length ≤ 2 ^ p) (k : Nat) :
    ∃ out, selectK (rounded p) rng s k = ok out ∧ out.length = min k s.length ∧ out.Subperm s ∧ (s.length ≤ k → out = s) :=
  selectK_subperm _ rng s k (fun hk => rounded_inside p hp rng hr k (by omega))

/-- **C82**: `select_1_randomly` gives nothing for an empty range, otherwise one of its elements. -/
theorem C82_select_1_rounded (p : Nat) (hp : 1 ≤ p) (rng : Nat → Draw) (hr : ∀ i, (rng i).Float p) (s : List α) :
    (s = [] → selectOne (rounded p) rng s = ok []) ∧ (s ≠ [] → ∃ x ∈ s, selectOne (rounded p) rng s = ok [x]) := by
  apply selectOne_mem
  show decide ((rng 0).val < rnd p (rnd p (1 : ℕ) / rnd p (1 : ℕ))) = true
  rw [rnd_count p hp 1 (Nat.one_le_two_pow)]
  have : rnd p ((1 : ℕ) / (1 : ℕ) : ℚ) = 1 := by
    have := rnd_count p hp 1 (Nat.one_le_two_pow)
    simpa using this
  rw [this]
  exact decide_eq_true (Draw.val_lt (hr 0).1)

/-- `double` has numbers below 1 such as 1/2 and 1 - 2^-53. -/
example : Draw.Float 53 ⟨1, 2⟩ ∧ Draw.Float 53 ⟨2 ^ 53 - 1, 2 ^ 53⟩ := by
  refine ⟨⟨by unfold Draw.Below; decide, ⟨1, -1, by norm_num, by norm_num [Draw.val]⟩⟩, ⟨by unfold Draw.Below; decide, ⟨2 ^ 53 - 1, -53, by norm_num, ?_⟩⟩⟩
  norm_num [Draw.val, zpow_neg]

end Strtk.Random
