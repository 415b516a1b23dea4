import Mathlib.Data.Int.Log
import Mathlib.Data.Rat.Floor
import Mathlib.Algebra.Order.Field.Rat
import Mathlib.Algebra.Order.Field.Power
import Mathlib.Tactic.Linarith
import Mathlib.Tactic.Ring
import Mathlib.Tactic.FieldSimp
import Mathlib.Tactic.Positivity
import Mathlib.Tactic.NormNum

/-!
# Binary floating point numbers with `p` significant bits

The numbers of a binary format without limits on the exponent (overflow and underflow are not modelled), and rounding to nearest, ties to even,
as IEEE 754 prescribes it for `double` (`p = 53`).
-/

namespace Strtk.Real

/-- `r` has at most `p` significant bits. -/
def Rep (p : Nat) (r : ℚ) : Prop := ∃ k j : ℤ, |k| ≤ 2 ^ p ∧ r = k * (2 : ℚ) ^ j

/-- `r` is a representable number nearest to `q`. -/
def Nearest (p : Nat) (q r : ℚ) : Prop := Rep p r ∧ ∀ s, Rep p s → |r - q| ≤ |s - q|

/-- The nearest integer, ties to even. -/
def rne (x : ℚ) : ℤ :=
  if x - ⌊x⌋ < 1 / 2 then ⌊x⌋ else if 1 / 2 < x - ⌊x⌋ then ⌊x⌋ + 1 else if ⌊x⌋ % 2 = 0 then ⌊x⌋ else ⌊x⌋ + 1

/-- Rounding to `p` significant bits. -/
def rnd (p : Nat) (q : ℚ) : ℚ :=
  if q = 0 then 0 else rne (q / 2 ^ (Int.log 2 |q| - (p - 1 : ℤ))) * 2 ^ (Int.log 2 |q| - (p - 1 : ℤ))

theorem rne_int (n : ℤ) : rne n = n := by simp [rne]

theorem rne_nearest (x : ℚ) (n : ℤ) : |(rne x : ℚ) - x| ≤ |(n : ℚ) - x| := by
  have h1 := Int.floor_le x
  have h2 := Int.lt_floor_add_one x
  have key : n ≤ ⌊x⌋ ∨ ⌊x⌋ + 1 ≤ n := by omega
  have hn : min (x - ⌊x⌋) (⌊x⌋ + 1 - x) ≤ |(n : ℚ) - x| := by
    rcases key with h | h
    · have : (n : ℚ) ≤ ⌊x⌋ := by exact_mod_cast h
      rw [abs_of_nonpos (by linarith)]
      exact le_trans (min_le_left _ _) (by linarith)
    · have : (⌊x⌋ + 1 : ℚ) ≤ n := by exact_mod_cast h
      rw [abs_of_nonneg (by linarith)]
      exact le_trans (min_le_right _ _) (by linarith)
  refine le_trans ?_ hn
  unfold rne
  split
  · rw [abs_of_nonpos (by linarith)]; exact le_min (by linarith) (by linarith)
  · split
    · push_cast; rw [abs_of_nonneg (by linarith)]; exact le_min (by linarith) (by linarith)
    · split
      · rw [abs_of_nonpos (by linarith)]; exact le_min (by linarith) (by linarith)
      · push_cast; rw [abs_of_nonneg (by linarith)]; exact le_min (by linarith) (by linarith)

theorem rne_half (x : ℚ) : |(rne x : ℚ) - x| ≤ 1 / 2 := by
  have h1 := Int.floor_le x
  have h2 := Int.lt_floor_add_one x
  have a := rne_nearest x ⌊x⌋
  have b := rne_nearest x (⌊x⌋ + 1)
  push_cast at b
  rw [abs_of_nonpos (by linarith : (⌊x⌋ : ℚ) - x ≤ 0)] at a
  rw [abs_of_nonneg (by linarith : (0 : ℚ) ≤ ⌊x⌋ + 1 - x)] at b
  linarith

theorem log_le {q : ℚ} (hq : q ≠ 0) : (2 : ℚ) ^ Int.log 2 |q| ≤ |q| := by
  have := Int.zpow_log_le_self (b := 2) (R := ℚ) (by omega) (abs_pos.mpr hq)
  simpa using this

theorem lt_log {q : ℚ} (hq : q ≠ 0) : |q| < (2 : ℚ) ^ (Int.log 2 |q| + 1) := by
  have := Int.lt_zpow_succ_log_self (b := 2) (R := ℚ) (by omega) |q|
  simpa using this

/-- Rounding changes a number by at most the fraction `2^-p` of itself. -/
theorem rnd_error (p : Nat) (q : ℚ) : |rnd p q - q| ≤ (1 / 2 ^ p) * |q| := by
  unfold rnd
  by_cases hq : q = 0
  · simp [hq]
  · rw [if_neg hq]
    have hl := log_le hq
    generalize Int.log 2 |q| = l at *
    have hpos : (0 : ℚ) < 2 ^ (l - (p - 1 : ℤ)) := by positivity
    have e : (rne (q / 2 ^ (l - (p - 1 : ℤ))) : ℚ) * 2 ^ (l - (p - 1 : ℤ)) - q =
        ((rne (q / 2 ^ (l - (p - 1 : ℤ))) : ℚ) - q / 2 ^ (l - (p - 1 : ℤ))) * 2 ^ (l - (p - 1 : ℤ)) := by
      field_simp
    rw [e, abs_mul, abs_of_pos hpos]
    have h := rne_half (q / 2 ^ (l - (p - 1 : ℤ)))
    calc _ ≤ 1 / 2 * (2 : ℚ) ^ (l - (p - 1 : ℤ)) := mul_le_mul_of_nonneg_right h hpos.le
      _ = 1 / 2 ^ p * 2 ^ l := by
        rw [show l - (p - 1 : ℤ) = l + 1 - p by ring, zpow_sub₀ (by norm_num), zpow_add₀ (by norm_num), zpow_natCast]
        field_simp
      _ ≤ _ := mul_le_mul_of_nonneg_left hl (by positivity)

/-- A number with at most `p` significant bits is not changed. -/
theorem rnd_exact (p : Nat) (hp : 1 ≤ p) (q : ℚ) (h : Rep p q) : rnd p q = q := by
  unfold rnd
  by_cases hq : q = 0
  · simp [hq]
  rw [if_neg hq]
  obtain ⟨k, j, hk, rfl⟩ := h
  -- find an exponent not below the one used for rounding
  obtain ⟨k, j, hk, e⟩ : ∃ k' j' : ℤ, |k'| < 2 ^ p ∧ (k : ℚ) * 2 ^ j = k' * 2 ^ j' := by
    rcases lt_or_eq_of_le hk with h | h
    · exact ⟨k, j, h, rfl⟩
    · rcases (abs_eq (by positivity)).mp h with h | h
      · refine ⟨1, j + p, ?_, ?_⟩
        · rw [abs_one]; exact one_lt_pow₀ (by norm_num) (by omega)
        · rw [h, zpow_add₀ (by norm_num)]; push_cast; ring_nf; simp
      · refine ⟨-1, j + p, ?_, ?_⟩
        · rw [abs_neg, abs_one]; exact one_lt_pow₀ (by norm_num) (by omega)
        · rw [h, zpow_add₀ (by norm_num)]; push_cast; ring_nf; simp
  rw [e] at hq ⊢
  have hlt : |(k : ℚ) * 2 ^ j| < 2 ^ ((p : ℤ) + j) := by
    rw [abs_mul, abs_of_pos (by positivity : (0 : ℚ) < 2 ^ j), zpow_add₀ (by norm_num), zpow_natCast]
    exact mul_lt_mul_of_pos_right (by exact_mod_cast hk) (by positivity)
  have hle := log_le hq
  have hj : Int.log 2 |(k : ℚ) * 2 ^ j| < p + j := by
    have := lt_of_le_of_lt hle hlt
    exact (zpow_lt_zpow_iff_right₀ (by norm_num)).mp this
  generalize Int.log 2 |(k : ℚ) * 2 ^ j| = l at *
  obtain ⟨n, hn⟩ := Int.eq_ofNat_of_zero_le (show 0 ≤ j - (l - (p - 1 : ℤ)) by omega)
  have hj2 : j = (l - (p - 1 : ℤ)) + n := by omega
  have e2 : (k : ℚ) * 2 ^ j / 2 ^ (l - (p - 1 : ℤ)) = ((k * 2 ^ n : ℤ) : ℚ) := by
    rw [hj2, zpow_add₀ (by norm_num)]
    push_cast
    rw [zpow_natCast]
    field_simp
  rw [e2, rne_int, ← e2]
  field_simp

/-- The result has at most `p` significant bits. -/
theorem rnd_rep (p : Nat) (hp : 1 ≤ p) (q : ℚ) : Rep p (rnd p q) := by
  unfold rnd
  by_cases hq : q = 0
  · rw [if_pos hq]; exact ⟨0, 0, by simp, by simp⟩
  rw [if_neg hq]
  refine ⟨_, _, ?_, rfl⟩
  have hlt := lt_log hq
  generalize Int.log 2 |q| = l at *
  have hpos : (0 : ℚ) < 2 ^ (l - (p - 1 : ℤ)) := by positivity
  have hx : |q / 2 ^ (l - (p - 1 : ℤ))| < 2 ^ p := by
    rw [abs_div, abs_of_pos hpos, div_lt_iff₀ hpos]
    refine lt_of_lt_of_eq hlt ?_
    rw [← zpow_natCast, ← zpow_add₀ (by norm_num)]
    congr 1
    omega
  generalize q / 2 ^ (l - (p - 1 : ℤ)) = x at hx
  rw [abs_lt] at hx
  have a := rne_nearest x (2 ^ p)
  have b := rne_nearest x (-2 ^ p)
  push_cast at a b
  have hlo : -(2 : ℚ) ^ p ≤ rne x := by
    rw [abs_of_nonpos (by linarith : -(2 : ℚ) ^ p - x ≤ 0)] at b
    have := neg_abs_le ((rne x : ℚ) - x)
    linarith
  have hhi : (rne x : ℚ) ≤ 2 ^ p := by
    rw [abs_of_nonneg (by linarith : 0 ≤ (2 : ℚ) ^ p - x)] at a
    have := le_abs_self ((rne x : ℚ) - x)
    linarith
  rw [abs_le]
  constructor
  · have : ((-2 ^ p : ℤ) : ℚ) ≤ rne x := by push_cast; exact hlo
    exact_mod_cast this
  · have : (rne x : ℚ) ≤ ((2 ^ p : ℤ) : ℚ) := by push_cast; exact hhi
    exact_mod_cast this

/-- Rounding gives a nearest representable number. -/
theorem rnd_nearest (p : Nat) (hp : 1 ≤ p) (q : ℚ) : Nearest p q (rnd p q) := by
  refine ⟨rnd_rep p hp q, fun s hs => ?_⟩
  by_cases hq : q = 0
  · subst hq; simp [rnd]
  unfold rnd
  rw [if_neg hq]
  obtain ⟨k, j, hk, rfl⟩ := hs
  have hle := log_le hq
  generalize Int.log 2 |q| = l at *
  have hpos : (0 : ℚ) < 2 ^ (l - (p - 1 : ℤ)) := by positivity
  -- multiples of the unit
  have hmul : ∀ n : ℤ, |(rne (q / 2 ^ (l - (p - 1 : ℤ))) : ℚ) * 2 ^ (l - (p - 1 : ℤ)) - q| ≤ |(n : ℚ) * 2 ^ (l - (p - 1 : ℤ)) - q| := by
    intro n
    have h := rne_nearest (q / 2 ^ (l - (p - 1 : ℤ))) n
    have e : ∀ r : ℚ, r * 2 ^ (l - (p - 1 : ℤ)) - q = (r - q / 2 ^ (l - (p - 1 : ℤ))) * 2 ^ (l - (p - 1 : ℤ)) := by intro r; field_simp
    rw [e, e, abs_mul, abs_mul, abs_of_pos hpos]
    exact mul_le_mul_of_nonneg_right h hpos.le
  by_cases hj : l - (p - 1 : ℤ) ≤ j
  · obtain ⟨n, hn⟩ := Int.eq_ofNat_of_zero_le (show 0 ≤ j - (l - (p - 1 : ℤ)) by omega)
    have hj2 : j = n + (l - (p - 1 : ℤ)) := by omega
    have := hmul (k * 2 ^ n)
    have e : (k : ℚ) * 2 ^ j = ((k * 2 ^ n : ℤ) : ℚ) * 2 ^ (l - (p - 1 : ℤ)) := by
      rw [hj2, zpow_add₀ (by norm_num), zpow_natCast]; push_cast; ring
    rw [e]
    exact this
  · have hs : |(k : ℚ) * 2 ^ j| ≤ 2 ^ l := by
      rw [abs_mul, abs_of_pos (by positivity : (0 : ℚ) < 2 ^ j)]
      have h1 : |(k : ℚ)| ≤ 2 ^ p := by exact_mod_cast hk
      calc |(k : ℚ)| * 2 ^ j ≤ 2 ^ p * 2 ^ j := mul_le_mul_of_nonneg_right h1 (by positivity)
        _ = 2 ^ ((p : ℤ) + j) := by rw [zpow_add₀ (by norm_num), zpow_natCast]
        _ ≤ 2 ^ l := zpow_le_zpow_right₀ (by norm_num) (by omega)
    have hs' := abs_le.mp hs
    obtain ⟨n, hn⟩ := Int.eq_ofNat_of_zero_le (show (0 : ℤ) ≤ (p - 1 : ℤ) by omega)
    have e : (2 : ℚ) ^ l = ((2 ^ n : ℤ) : ℚ) * 2 ^ (l - (p - 1 : ℤ)) := by
      push_cast; rw [← zpow_natCast, ← zpow_add₀ (by norm_num), hn]; congr 1; ring
    rcases le_total 0 q with h0 | h0
    · rw [abs_of_nonneg h0] at hle
      have := hmul (2 ^ n)
      rw [← e] at this
      refine le_trans this ?_
      rw [abs_of_nonpos (by linarith), abs_of_nonpos (by linarith)]
      linarith
    · rw [abs_of_nonpos h0] at hle
      have := hmul (-2 ^ n)
      have e' : ((-2 ^ n : ℤ) : ℚ) * 2 ^ (l - (p - 1 : ℤ)) = -2 ^ l := by rw [e]; push_cast; ring
      rw [e'] at this
      refine le_trans this ?_
      rw [abs_of_nonneg (by linarith), abs_of_nonneg (by linarith)]
      linarith

theorem rep_int (p : Nat) (n : ℤ) (h : |n| ≤ 2 ^ p) : Rep p n := ⟨n, 0, h, by simp⟩

theorem rep_pow10 (p k : Nat) (h : 5 ^ k ≤ 2 ^ p) : Rep p (10 ^ k) := by
  refine ⟨5 ^ k, k, ?_, ?_⟩
  · rw [abs_of_pos (by positivity)]; exact_mod_cast h
  · push_cast; rw [zpow_natCast, ← mul_pow]; norm_num

end Strtk.Real
