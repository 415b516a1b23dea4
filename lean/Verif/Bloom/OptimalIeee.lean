import Verif.Bloom.Optimal
import Verif.Real.Ieee
import Mathlib.Analysis.Convex.SpecificFunctions.Basic

/-!
# compute_optimal_parameters in IEEE double arithmetic (strtk.hpp 19950-19961, 20018-20068), C181

The arithmetic is that of `Verif/Real/Ieee.lean` (zeros have no sign; the zero of `std::log(1.0)` is a positive one).  `std::log` and `std::pow` belong to the
library: they are parameters of which an accuracy is assumed.
-/

namespace Strtk.Bloom.Rounded
open Outcome Mem Strtk.Real

set_option exponentiation.threshold 2000

/-- `std::log` and `std::pow`. -/
structure Libm where
  log : Val → Val
  pow : Val → Val → Val

/-- `a < b`. -/
def lt : Val → Val → Bool
  | .nan, _ => false
  | _, .nan => false
  | .num a, .num b => decide (a < b)
  | .num _, .inf s => !s
  | .inf s, .num _ => s
  | .inf s, .inf t => s && !t

/-- `-a`. -/
def neg : Val → Val
  | .num q => .num (-q)
  | .inf s => .inf !s
  | .nan => .nan

/-- The bits needed with `k` hash functions (20038-20040); the count is converted to `double`. -/
def required (L : Libm) (n : Nat) (p : Val) (k : Nat) : Val :=
  div64 (mul64 (.num (-k)) (rnd64 n)) (L.log (add64 (.num 1) (neg (L.pow p (div64 (.num 1) (.num k))))))

/-- The search loop (20036-20049): `fuel` values of `k` are left; `min_m` and `min_k`.  (`k` is a `double` in the code; it stays below 1000, without rounding.) -/
def search (L : Libm) (n : Nat) (p : Val) : Nat → Nat → Val → Nat → Val × Nat
  | 0, _, m, mk => (m, mk)
  | fuel + 1, k, m, mk => if lt (required L n p k) m then search L n p fuel (k + 1) (required L n p k) k else search L n p fuel (k + 1) m mk

/-- `static_cast<unsigned long long int>` (20054): undefined unless the truncated number can be represented. -/
def toU64 : Val → Outcome Nat
  | .num x => if -1 < x ∧ x < 2 ^ 64 then ok ⌊x⌋₊ else ub
  | _ => ub

/-- The members of `parameters` a user sets (19963-19981). -/
structure Settings where
  minSize : Nat
  maxSize : Nat
  minHashes : Nat
  maxHashes : Nat
  count : Nat
  prob : Val
  seed : Nat

/-- `operator!` (19950-19961). -/
def Settings.bad (s : Settings) : Bool :=
  decide (s.minSize > s.maxSize) || decide (s.minHashes > s.maxHashes) || decide (s.minHashes < 1) || decide (0 = s.maxHashes) || decide (0 = s.count) ||
    lt s.prob (.num 0) || (match s.prob with | .inf _ => true | _ => false) || decide (0 = s.seed) || decide (0xFFFFFFFFFFFFFFFF = s.seed)

/-- `compute_optimal_parameters` (20018-20068): `none` for the result `false`, otherwise the number of hashes and the table size. -/
def computeOptimal (L : Libm) (s : Settings) : Outcome (Option (Nat × Nat)) :=
  if s.bad then ok none
  else do
    let m ← toU64 (search L s.count s.prob 999 1 (.inf false) 0).1
    let t := (m + (if m % 8 ≠ 0 then 8 - m % 8 else 0)) % 2 ^ 64
    ok (some (optimalHashes (search L s.count s.prob 999 1 (.inf false) 0).2 s.minHashes s.maxHashes,
      if t < s.minSize then s.minSize else if t > s.maxSize then s.maxSize else t))

/-! ## Specification -/

/-- `x` is a `double`. -/
def Double (x : ℚ) : Prop := rnd64 x = .num x

/-- What is assumed of the library: relative errors of at most `2^-50` (four units in the last place) between zero and one, and `log(1) = 0`. -/
structure Accurate (L : Libm) : Prop where
  pow : ∀ p y : ℚ, Double p → Double y → 1 / 2 ^ 1000 ≤ p → p < 1 → 0 < y → y ≤ 1 →
    ∃ r : ℚ, L.pow (.num p) (.num y) = .num r ∧ |(r : ℝ) - (p : ℝ) ^ (y : ℝ)| ≤ 1 / 2 ^ 50 * (p : ℝ) ^ (y : ℝ)
  log : ∀ x : ℚ, Double x → 0 < x → x < 1 → ∃ r : ℚ, L.log (.num x) = .num r ∧ |(r : ℝ) - Real.log x| ≤ 1 / 2 ^ 50 * |Real.log x|
  log_one : L.log (.num 1) = .num 0

/-- What besides is assumed next to one, as of a `std::pow` that gives the nearest number: no result lies between the number below one and one, or above one, and one is the
result where it is the nearest; and `log(0)` is minus infinity. -/
structure NearOne (L : Libm) : Prop where
  pow : ∀ p y : ℚ, Double p → Double y → 1 / 2 ^ 1000 ≤ p → p < 1 → 0 < y → y ≤ 1 →
    ∃ r : ℚ, L.pow (.num p) (.num y) = .num r ∧ (r = 1 ∨ r ≤ 1 - 1 / 2 ^ 54) ∧ (1 - 1 / 2 ^ 54 ≤ (p : ℝ) ^ (y : ℝ) → r = 1)
  log_zero : L.log (.num 0) = .inf true

/-- The relative error of a computed requirement if the root of the probability `p` is at least `b`. -/
noncomputable def errAt (p b : ℝ) : ℝ := 1 / (2 ^ 33 * (1 - p)) + 1 / (2 ^ 51 * b)

/-- The relative error of the computed requirement.  (For small probabilities at least two hash functions are chosen, so a square root is taken at least.) -/
noncomputable def err (p : ℝ) : ℝ := errAt p (if p < 1 / 2 ^ 12 then √p else p)

/-! ## Rounding -/

theorem rnd64_medium {q : ℚ} (h1 : 1 / 2 ^ 1000 ≤ |q|) (h2 : |q| ≤ 2 ^ 1000) : ∃ r : ℚ, rnd64 q = .num r ∧ |r - q| ≤ 1 / 2 ^ 53 * |q| ∧ Double r := by
  have hz : (2 : ℚ) ^ (-1022 : ℤ) ≤ 1 / 2 ^ 1001 := by norm_num
  have hz' : (1 : ℚ) / 2 ^ 1001 ≤ 1 / 2 ^ 1000 := by norm_num
  have hbig : (2 : ℚ) ^ 1000 * (1 + 1 / 2 ^ 53) < 2 ^ 1024 := by norm_num
  have he := rnd_error 53 q
  have h3 : |rnd 53 q| ≤ |q| * (1 + 1 / 2 ^ 53) := by
    have := abs_sub_abs_le_abs_sub (rnd 53 q) q
    linarith
  have h4 : |q| / 2 ≤ |rnd 53 q| := by
    have := abs_sub_abs_le_abs_sub q (rnd 53 q)
    rw [abs_sub_comm] at this
    have h0 := abs_nonneg q
    linarith
  have h5 : |rnd 53 q| < 2 ^ 1024 := by
    refine lt_of_le_of_lt h3 (lt_of_le_of_lt (mul_le_mul_of_nonneg_right h2 (by norm_num)) hbig)
  have h6 : (1 : ℚ) / 2 ^ 1001 ≤ 1 / 2 ^ 1000 / 2 := by norm_num
  refine ⟨rnd 53 q, ?_, he, ?_⟩
  · rw [rnd64_eq q (.inr (le_trans hz (le_trans hz' h1))), if_pos h5]
  · unfold Double
    rw [rnd64_eq _ (.inr (le_trans hz (le_trans h6 (le_trans (div_le_div_of_nonneg_right h1 (by norm_num)) h4)))), rnd_exact 53 (by omega) _ (rnd_rep 53 (by omega) q), if_pos h5]

/-- The same over the real numbers, for positive numbers. -/
theorem rnd64_real {q : ℚ} (h1 : 1 / 2 ^ 1000 ≤ q) (h2 : q ≤ 2 ^ 1000) :
    ∃ r : ℚ, rnd64 q = .num r ∧ |(r : ℝ) - q| ≤ 1 / 2 ^ 53 * (q : ℝ) ∧ Double r := by
  have hq : (0 : ℚ) ≤ q := le_trans (by positivity) h1
  obtain ⟨r, a, b, c⟩ := rnd64_medium (q := q) (by rwa [abs_of_nonneg hq]) (by rwa [abs_of_nonneg hq])
  refine ⟨r, a, ?_, c⟩
  rw [abs_of_nonneg hq] at b
  have := (Rat.cast_le (K := ℝ)).mpr b
  push_cast at this
  exact this

/-! ## The error of one requirement -/

theorem abs_log_one_add {a : ℝ} (h : |a| ≤ 1 / 2) : |Real.log (1 + a)| ≤ 2 * |a| := by
  have ha := abs_le.mp h
  have hpos : 0 < 1 + a := by linarith
  have h1 := Real.log_le_sub_one_of_pos hpos
  have h2 := Real.one_sub_inv_le_log_of_pos hpos
  have h3 : 1 - (1 + a)⁻¹ = a / (1 + a) := by field_simp; ring
  rw [h3] at h2
  have h4 : -(2 * |a|) ≤ a / (1 + a) := by
    rw [le_div_iff₀ hpos]
    have := neg_abs_le a
    have := abs_nonneg a
    nlinarith
  have := le_abs_self a
  have := abs_nonneg a
  rw [abs_le]
  constructor <;> linarith

/-- `1 - r` rounded, in place of `1 - q`: what its logarithm is off by. -/
theorem log_off {q r s d : ℝ} (hq : 0 < q) (hd31 : 1 / 2 ^ 31 ≤ d) (hd : d / 2 ^ 10 ≤ 1 - q) (hr : |r - q| ≤ 1 / 2 ^ 46 * q) (hs : |s - (1 - r)| ≤ 1 / 2 ^ 53 * (1 - r)) :
    0 < s ∧ |Real.log s - Real.log (1 - q)| ≤ (1 / (2 ^ 34 * d) + 1 / (2 ^ 52 * q)) * -Real.log (1 - q) := by
  have hdpos : 0 < d := lt_of_lt_of_le (by positivity) hd31
  have hd0 : 0 < 1 - q := lt_of_lt_of_le (by positivity) hd
  have hr' := abs_le.mp hr
  have hs' := abs_le.mp hs
  have h1 : |s - (1 - q)| ≤ 1 / 2 ^ 45 * q + 1 / 2 ^ 53 * (1 - q) := by
    rw [abs_le]
    constructor <;> linarith
  set a := (s - (1 - q)) / (1 - q) with ha
  have hsa : s = (1 - q) * (1 + a) := by rw [ha]; field_simp; ring
  have h2 : |a| ≤ 1 / (2 ^ 35 * d) * q + 1 / 2 ^ 53 := by
    rw [ha, abs_div, abs_of_pos hd0, div_le_iff₀ hd0]
    have : 1 / 2 ^ 45 * q ≤ 1 / (2 ^ 35 * d) * q * (1 - q) := by
      have h := mul_le_mul_of_nonneg_left hd (show 0 ≤ 1 / (2 ^ 35 * d) * q by positivity)
      have e : 1 / (2 ^ 35 * d) * q * (d / 2 ^ 10) = 1 / 2 ^ 45 * q := by field_simp
      linarith
    linarith
  have hq1 : q < 1 := by linarith
  have h35 : 1 / (2 ^ 35 * d) ≤ 1 / 2 ^ 4 := one_div_le_one_div_of_le (by positivity) (by linarith)
  have h3 : |a| ≤ 1 / 2 := by
    have : 1 / (2 ^ 35 * d) * q ≤ 1 / 2 ^ 4 * 1 := mul_le_mul h35 hq1.le hq.le (by positivity)
    linarith
  have hpos : 0 < 1 + a := by have := (abs_le.mp h3).1; linarith
  have hl := abs_log_one_add h3
  have hlq : q ≤ -Real.log (1 - q) := by
    have := Real.log_le_sub_one_of_pos hd0
    linarith
  refine ⟨by rw [hsa]; positivity, ?_⟩
  rw [hsa, Real.log_mul hd0.ne' hpos.ne', add_sub_cancel_left]
  refine le_trans hl ?_
  have h4 : (1 / (2 ^ 34 * d) + 1 / (2 ^ 52 * q)) * q ≤ (1 / (2 ^ 34 * d) + 1 / (2 ^ 52 * q)) * -Real.log (1 - q) := mul_le_mul_of_nonneg_left hlq (by positivity)
  have h5 : (1 / (2 ^ 34 * d) + 1 / (2 ^ 52 * q)) * q = 2 * (1 / (2 ^ 35 * d) * q) + 1 / 2 ^ 52 := by field_simp
  linarith

/-- The quotient of two numbers with relative errors. -/
theorem quotient_off {N D x y z G : ℝ} (hN : 0 < N) (hD : 0 < D) (hG : G ≤ 1 / 7) (hG0 : 1 / 2 ^ 40 ≤ G) (hx : |x - N| ≤ 1 / 2 ^ 51 * N) (hy : |y - D| ≤ G * D)
    (hz : |z - x / y| ≤ 1 / 2 ^ 53 * (x / y)) : 0 < y ∧ |z - N / D| ≤ 3 / 2 * G * (N / D) := by
  have hx' := abs_le.mp hx
  have hy' := abs_le.mp hy
  have hGD : G * D ≤ 1 / 7 * D := mul_le_mul_of_nonneg_right hG hD.le
  have hy0 : 0 < y := by linarith
  refine ⟨hy0, ?_⟩
  have hx0 : 0 < x := by linarith
  have hz' := abs_le.mp hz
  have hB : 0 < N / D := by positivity
  have hND : N / D * D = N := div_mul_cancel₀ _ hD.ne'
  have up : x / y ≤ N / D * (1 + 4 / 3 * G) := by
    rw [div_le_iff₀ hy0]
    have h1 : N / D * (1 + 4 / 3 * G) * (D * (1 - G)) ≤ N / D * (1 + 4 / 3 * G) * y :=
      mul_le_mul_of_nonneg_left (by linarith) (by positivity)
    have h2 : N / D * (1 + 4 / 3 * G) * (D * (1 - G)) = N * ((1 + 4 / 3 * G) * (1 - G)) := by rw [← hND]; ring_nf; field_simp
    have h3 : 1 + 1 / 2 ^ 51 ≤ (1 + 4 / 3 * G) * (1 - G) := by nlinarith
    have h4 := mul_le_mul_of_nonneg_left h3 hN.le
    linarith
  have down : N / D * (1 - 4 / 3 * G) ≤ x / y := by
    rw [le_div_iff₀ hy0]
    have hc : 0 ≤ 1 - 4 / 3 * G := by linarith
    have h1 : N / D * (1 - 4 / 3 * G) * y ≤ N / D * (1 - 4 / 3 * G) * (D * (1 + G)) :=
      mul_le_mul_of_nonneg_left (by linarith) (by positivity)
    have h2 : N / D * (1 - 4 / 3 * G) * (D * (1 + G)) = N * ((1 - 4 / 3 * G) * (1 + G)) := by rw [← hND]; ring_nf; field_simp
    have h3 : (1 - 4 / 3 * G) * (1 + G) ≤ 1 - 1 / 2 ^ 51 := by nlinarith
    have h4 := mul_le_mul_of_nonneg_left h3 hN.le
    linarith
  have hBG : N / D * (1 / 2 ^ 40) ≤ N / D * G := mul_le_mul_of_nonneg_left hG0 hB.le
  have hBG2 : N / D * G ≤ N / D * (1 / 7) := mul_le_mul_of_nonneg_left hG hB.le
  rw [abs_le]
  constructor <;> nlinarith

theorem double_one : rnd64 1 = .num 1 := by
  rw [rnd64_eq 1 (.inr (by norm_num)), rnd_exact 53 (by omega) 1 (by simpa using rep_int 53 1 (by norm_num)), if_pos (by norm_num)]

/-- `1.0 / k`. -/
theorem inverse_off (k : Nat) (hk : 0 < k) (hk9 : k ≤ 999) :
    ∃ y : ℚ, div64 (.num 1) (.num k) = .num y ∧ Double y ∧ 0 < y ∧ y ≤ 1 ∧ |(y : ℝ) - 1 / k| ≤ 1 / 2 ^ 53 * (1 / k) := by
  have hk0 : (0 : ℚ) < k := by exact_mod_cast hk
  have hk9' : (k : ℚ) ≤ 999 := by exact_mod_cast hk9
  have e : div64 (.num 1) (.num k) = rnd64 (1 / k) := by simp [div64, hk0.ne']
  by_cases h1 : k = 1
  · subst h1
    refine ⟨1, by rw [e]; simpa using double_one, double_one, by norm_num, le_refl _, ?_⟩
    norm_num
  have h2 : (2 : ℚ) ≤ k := by exact_mod_cast (show 2 ≤ k by omega)
  have hlo : (1 : ℚ) / 999 ≤ 1 / k := one_div_le_one_div_of_le hk0 hk9'
  have hhi : (1 : ℚ) / k ≤ 1 / 2 := one_div_le_one_div_of_le (by norm_num) h2
  obtain ⟨y, a, b, c⟩ := rnd64_real (q := 1 / k) (le_trans (by norm_num) hlo) (le_trans hhi (by norm_num))
  have hlo' : (1 : ℝ) / 999 ≤ ((1 / k : ℚ) : ℝ) := by have := (Rat.cast_le (K := ℝ)).mpr hlo; push_cast at this ⊢; exact this
  have hhi' : ((1 / k : ℚ) : ℝ) ≤ 1 / 2 := by have := (Rat.cast_le (K := ℝ)).mpr hhi; push_cast at this ⊢; exact this
  have hb := abs_le.mp b
  refine ⟨y, by rw [e, a], c, ?_, ?_, ?_⟩
  · have : (0 : ℝ) < y := by linarith
    exact_mod_cast this
  · have : (y : ℝ) ≤ 1 := by linarith
    exact_mod_cast this
  · have : ((1 / k : ℚ) : ℝ) = 1 / (k : ℝ) := by push_cast; rfl
    rwa [this] at b

/-- `std::pow(p, 1.0 / k)`. -/
theorem root_off {L : Libm} (hL : Accurate L) {p : ℚ} (hd : Double p) (hp : 1 / 2 ^ 54 ≤ p) (hp1 : p < 1) (k : Nat) (hk : 0 < k) (hk9 : k ≤ 999) :
    ∃ r : ℚ, L.pow (.num p) (div64 (.num 1) (.num k)) = .num r ∧ |(r : ℝ) - (p : ℝ) ^ (1 / (k : ℝ))| ≤ 1 / 2 ^ 46 * (p : ℝ) ^ (1 / (k : ℝ)) := by
  obtain ⟨y, e, hy, hy0, hy1, hyo⟩ := inverse_off k hk hk9
  obtain ⟨r, h1, h2⟩ := hL.pow p y hd hy (le_trans (by norm_num) hp) hp1 hy0 hy1
  refine ⟨r, by rw [e, h1], ?_⟩
  have hpr : (1 : ℝ) / 2 ^ 54 ≤ p := by have := (Rat.cast_le (K := ℝ)).mpr hp; push_cast at this ⊢; exact this
  have hpr1 : (p : ℝ) < 1 := by exact_mod_cast hp1
  have hp0 : (0 : ℝ) < p := lt_of_lt_of_le (by positivity) hpr
  have hk0 : (0 : ℝ) < k := by exact_mod_cast hk
  have hk1 : (1 : ℝ) / k ≤ 1 := by rw [div_le_one hk0]; exact_mod_cast hk
  have hlog0 : Real.log p ≤ 0 := Real.log_nonpos hp0.le hpr1.le
  have hlog : -38 ≤ Real.log p := by
    have a1 := Real.log_le_log (by positivity) hpr
    rw [one_div, Real.log_inv, Real.log_pow] at a1
    have := Real.log_two_lt_d9
    push_cast at a1
    linarith
  set q := (p : ℝ) ^ (1 / (k : ℝ)) with hq
  have hq0 : 0 < q := Real.rpow_pos_of_pos hp0 _
  set w := Real.log p * ((y : ℝ) - 1 / k) with hw
  have hpy : (p : ℝ) ^ (y : ℝ) = q * Real.exp w := by
    rw [hq, Real.rpow_def_of_pos hp0, Real.rpow_def_of_pos hp0, ← Real.exp_add, hw]
    congr 1
    ring
  have hwabs : |w| ≤ 38 * (1 / 2 ^ 53) := by
    rw [hw, abs_mul]
    have b1 : |Real.log p| ≤ 38 := by rw [abs_le]; constructor <;> linarith
    have b2 : |(y : ℝ) - 1 / k| ≤ 1 / 2 ^ 53 := by
      refine le_trans hyo ?_
      have := mul_le_mul_of_nonneg_left hk1 (show (0 : ℝ) ≤ 1 / 2 ^ 53 by positivity)
      linarith
    exact mul_le_mul b1 b2 (abs_nonneg _) (by norm_num)
  have hexp := Real.abs_exp_sub_one_le (x := w) (by linarith)
  have hexp' := abs_le.mp (le_trans hexp (mul_le_mul_of_nonneg_left hwabs (by norm_num)))
  rw [hpy] at h2
  have h2' := abs_le.mp h2
  have m1 := mul_le_mul_of_nonneg_left hexp'.1 hq0.le
  have m2 := mul_le_mul_of_nonneg_left hexp'.2 hq0.le
  rw [abs_le]
  constructor <;> nlinarith

/-- Where the root lies. -/
theorem root_range {p : ℝ} (hp : 0 < p) (hp1 : p < 1) (k : Nat) (hk : 0 < k) (hk9 : k ≤ 999) :
    p ≤ p ^ (1 / (k : ℝ)) ∧ (1 - p) / 2 ^ 10 ≤ 1 - p ^ (1 / (k : ℝ)) := by
  have hk0 : (0 : ℝ) < k := by exact_mod_cast hk
  have hk1 : (1 : ℝ) / k ≤ 1 := by rw [div_le_one hk0]; exact_mod_cast hk
  have hk9' : (k : ℝ) ≤ 999 := by exact_mod_cast hk9
  constructor
  · have := Real.rpow_le_rpow_of_exponent_ge hp (by linarith) hk1
    rwa [Real.rpow_one] at this
  · have h1 := rpow_one_add_le_one_add_mul_self (s := p - 1) (by linarith) (p := 1 / (k : ℝ)) (by positivity) hk1
    rw [add_sub_cancel] at h1
    have h2 : (1 - p) / 2 ^ 10 ≤ 1 / (k : ℝ) * (1 - p) := by
      rw [div_eq_inv_mul]
      refine mul_le_mul_of_nonneg_right ?_ (by linarith)
      rw [← one_div]
      exact one_div_le_one_div_of_le hk0 (by linarith)
    linarith

/-- The square root at least, from two hash functions on. -/
theorem root_sqrt {p : ℝ} (hp : 0 < p) (hp1 : p < 1) (k : Nat) (hk : 2 ≤ k) : √p ≤ p ^ (1 / (k : ℝ)) := by
  have hk2 : (2 : ℝ) ≤ k := by exact_mod_cast hk
  rw [Real.sqrt_eq_rpow]
  exact Real.rpow_le_rpow_of_exponent_ge hp hp1.le (one_div_le_one_div_of_le (by norm_num) hk2)

/-- `std::log(1.0 - std::pow(p, 1.0 / k))`. -/
theorem denominator_off {L : Libm} (hL : Accurate L) {p : ℚ} (hd : Double p) (hp : 1 / 2 ^ 54 ≤ p) (hp1 : p ≤ 1 - 1 / 2 ^ 31) (k : Nat) (hk : 0 < k) (hk9 : k ≤ 999)
    {b : ℝ} (hb : 1 / 2 ^ 28 ≤ b) (hbq : b ≤ (p : ℝ) ^ (1 / (k : ℝ))) :
    ∃ l : ℚ, L.log (add64 (.num 1) (neg (L.pow (.num p) (div64 (.num 1) (.num k))))) = .num l ∧
      |Real.log (1 - (p : ℝ) ^ (1 / (k : ℝ))) - l| ≤
        ((1 / (2 ^ 34 * (1 - p)) + 1 / (2 ^ 52 * b)) * (1 + 1 / 2 ^ 50) + 1 / 2 ^ 50) * -Real.log (1 - (p : ℝ) ^ (1 / (k : ℝ))) := by
  have hpr : (1 : ℝ) / 2 ^ 54 ≤ p := by have := (Rat.cast_le (K := ℝ)).mpr hp; push_cast at this ⊢; exact this
  have hpr1 : (1 : ℝ) / 2 ^ 31 ≤ 1 - p := by have := (Rat.cast_le (K := ℝ)).mpr hp1; push_cast at this ⊢; linarith
  have hp0 : (0 : ℝ) < p := lt_of_lt_of_le (by positivity) hpr
  have hplt : (p : ℝ) < 1 := by linarith
  obtain ⟨r, e1, hr⟩ := root_off hL hd hp (lt_of_le_of_lt hp1 (by norm_num)) k hk hk9
  obtain ⟨-, hq11⟩ := root_range hp0 hplt k hk hk9
  generalize (p : ℝ) ^ (1 / (k : ℝ)) = q at *
  have hq0 : 0 < q := lt_of_lt_of_le (by positivity) (le_trans hb hbq)
  have hq1 : 1 / 2 ^ 41 ≤ 1 - q := by linarith
  have hr' := abs_le.mp hr
  have hr0 : (0 : ℝ) < r := by linarith
  have hr1 : (1 : ℝ) / 2 ^ 42 ≤ 1 - r := by linarith
  have hrq : (1 : ℚ) / 2 ^ 42 ≤ 1 - r := by
    have : (((1 : ℚ) / 2 ^ 42 : ℚ) : ℝ) ≤ ((1 - r : ℚ) : ℝ) := by push_cast; exact hr1
    exact (Rat.cast_le (K := ℝ)).mp this
  have hrq0 : (0 : ℚ) < r := by exact_mod_cast hr0
  obtain ⟨s, e2, hs, hsd⟩ := rnd64_real (q := 1 - r) (le_trans (by norm_num) hrq) (le_trans (by linarith : 1 - r ≤ 1) (by norm_num))
  push_cast at hs
  obtain ⟨hs0, hlog⟩ := log_off hq0 hpr1 hq11 hr hs
  have hs' := abs_le.mp hs
  have hs1 : (s : ℝ) < 1 := by linarith
  obtain ⟨l, e3, hl⟩ := hL.log s hsd (by exact_mod_cast hs0) (by exact_mod_cast hs1)
  refine ⟨l, by rw [e1, neg, add64, ← sub_eq_add_neg, e2, e3], ?_⟩
  have hDq : q ≤ -Real.log (1 - q) := by
    have := Real.log_le_sub_one_of_pos (show 0 < 1 - q by linarith)
    linarith
  have hb0 : 0 < b := lt_of_lt_of_le (by positivity) hb
  have h1 : 1 / (2 ^ 52 * q) ≤ 1 / (2 ^ 52 * b) := one_div_le_one_div_of_le (by positivity) (by linarith)
  have hF0 : 0 ≤ 1 / (2 ^ 52 * b) := by positivity
  have hd0 : 0 < 1 - (p : ℝ) := by linarith
  have hX0 : 0 ≤ 1 / (2 ^ 34 * (1 - (p : ℝ))) := by positivity
  clear hs hs' hr hr' hr0 hr1 hrq hrq0 e1 e2 e3 hL hd hp hp1 hs0 hs1 hq1 hq11
  generalize Real.log (1 - q) = T at *
  generalize Real.log (s : ℝ) = S at *
  generalize 1 / (2 ^ 34 * (1 - (p : ℝ))) = X at *
  have h2 := mul_le_mul_of_nonneg_right (add_le_add_right h1 X) (show 0 ≤ -T by linarith)
  generalize 1 / (2 ^ 52 * b) = P at *
  have h3 := abs_le.mp (le_trans hlog h2)
  have h4 : |S| ≤ -T + (X + P) * -T := by rw [abs_le]; constructor <;> linarith
  have h5 := abs_le.mp (le_trans hl (mul_le_mul_of_nonneg_left h4 (show (0 : ℝ) ≤ 1 / 2 ^ 50 by positivity)))
  have e : ((X + P) * (1 + 1 / 2 ^ 50) + 1 / 2 ^ 50) * -T = (X + P) * -T + 1 / 2 ^ 50 * (-T + (X + P) * -T) := by ring
  rw [e, abs_le]
  constructor <;> linarith

/-- `-k * projected_element_count`. -/
theorem numerator_off (n : Nat) (hn : 0 < n) (hn64 : n < 2 ^ 64) (k : Nat) (hk : 0 < k) (hk9 : k ≤ 999) :
    ∃ x : ℚ, mul64 (.num (-k)) (rnd64 n) = .num x ∧ |-x - k * n| ≤ 1 / 2 ^ 51 * (k * n) := by
  have hnq : (1 : ℚ) ≤ n := by exact_mod_cast hn
  have hnq64 : (n : ℚ) ≤ 2 ^ 64 := by exact_mod_cast hn64.le
  have hkq : (1 : ℚ) ≤ k := by exact_mod_cast hk
  have hkq9 : (k : ℚ) ≤ 999 := by exact_mod_cast hk9
  obtain ⟨n', e4, hn', _⟩ := rnd64_medium (q := (n : ℚ)) (by rw [abs_of_nonneg (by linarith)]; exact le_trans (by norm_num) hnq)
    (by rw [abs_of_nonneg (by linarith)]; exact le_trans hnq64 (by norm_num))
  rw [abs_of_nonneg (show (0 : ℚ) ≤ n by linarith)] at hn'
  have hn'' := abs_le.mp hn'
  have hn0 : 1 / 2 ≤ n' := by linarith
  have hn2 : n' ≤ 2 ^ 65 := by linarith
  have hkn0 : 1 / 2 ≤ k * n' := le_trans hn0 (le_mul_of_one_le_left (by linarith) hkq)
  have hkn2 : k * n' ≤ 999 * 2 ^ 65 := mul_le_mul hkq9 hn2 (by linarith) (by norm_num)
  have habs : |-(k : ℚ) * n'| = k * n' := by rw [neg_mul, abs_neg, abs_of_nonneg (by linarith)]
  obtain ⟨x, e5, hx, _⟩ := rnd64_medium (q := -(k : ℚ) * n') (by rw [habs]; exact le_trans (by norm_num) hkn0) (by rw [habs]; exact le_trans hkn2 (by norm_num))
  rw [habs] at hx
  have hx' := abs_le.mp hx
  have hkn1 := mul_le_mul_of_nonneg_left hn''.1 (show (0 : ℚ) ≤ k by linarith)
  have hkn3 := mul_le_mul_of_nonneg_left hn''.2 (show (0 : ℚ) ≤ k by linarith)
  refine ⟨x, by rw [e4, mul64, e5], ?_⟩
  have hpos : 0 < (k : ℚ) * n := mul_pos (by linarith) (by linarith)
  rw [mul_sub] at hkn1 hkn3
  rw [neg_mul] at hx'
  have e : (k : ℚ) * -(1 / 2 ^ 53 * n) = -(1 / 2 ^ 53 * (k * n)) := by ring
  have e' : (k : ℚ) * (1 / 2 ^ 53 * n) = 1 / 2 ^ 53 * (k * n) := by ring
  rw [e] at hkn1
  rw [e'] at hkn3
  generalize (k : ℚ) * n = N at *
  generalize (k : ℚ) * n' = N' at *
  clear hn' hn'' hn0 hn2 e4 e5 habs hx hnq hnq64 hkq hkq9 e e'
  rw [abs_le]
  constructor <;> linarith

/-- **The error of one requirement**: at most the fraction `errAt p b` of it. -/
theorem required_off {L : Libm} (hL : Accurate L) (n : Nat) (hn : 0 < n) (hn64 : n < 2 ^ 64) {p : ℚ} (hd : Double p) (hp : 1 / 2 ^ 54 ≤ p) (hp1 : p ≤ 1 - 1 / 2 ^ 31)
    (k : Nat) (hk : 0 < k) (hk9 : k ≤ 999) {b : ℝ} (hb28 : 1 / 2 ^ 28 ≤ b) (hbq : b ≤ (p : ℝ) ^ (1 / (k : ℝ))) :
    ∃ z : ℚ, required L n (.num p) k = .num z ∧ |(z : ℝ) - bits n p k| ≤ errAt p b * bits n p k := by
  obtain ⟨l, e1, hl⟩ := denominator_off hL hd hp hp1 k hk hk9 hb28 hbq
  obtain ⟨x, e5, hxN⟩ := numerator_off n hn hn64 k hk hk9
  have hpr : (1 : ℝ) / 2 ^ 54 ≤ p := by have := (Rat.cast_le (K := ℝ)).mpr hp; push_cast at this ⊢; exact this
  have hpr1 : (1 : ℝ) / 2 ^ 31 ≤ 1 - p := by have := (Rat.cast_le (K := ℝ)).mpr hp1; push_cast at this ⊢; linarith
  have hp0 : (0 : ℝ) < p := lt_of_lt_of_le (by positivity) hpr
  obtain ⟨-, hq11⟩ := root_range hp0 (by linarith) k hk hk9
  have hb : bits n p k = k * n / -Real.log (1 - (p : ℝ) ^ (1 / (k : ℝ))) := rfl
  generalize hq : (p : ℝ) ^ (1 / (k : ℝ)) = q at *
  have hq41 : 1 / 2 ^ 41 ≤ 1 - q := by linarith
  have hDq : q ≤ -Real.log (1 - q) := by
    have := Real.log_le_sub_one_of_pos (show 0 < 1 - q by linarith)
    linarith
  have hD8 : -Real.log (1 - q) ≤ 29 := by
    have a1 := Real.log_le_log (by positivity) hq41
    rw [one_div, Real.log_inv, Real.log_pow] at a1
    have := Real.log_two_lt_d9
    push_cast at a1
    linarith
  have hb0 : 0 < b := lt_of_lt_of_le (by positivity) hb28
  have hd0 : 0 < 1 - (p : ℝ) := lt_of_lt_of_le (by positivity) hpr1
  have hF0 : 0 ≤ 1 / (2 ^ 52 * b) := by positivity
  have hF1 : 1 / (2 ^ 52 * b) ≤ 1 / 2 ^ 24 := one_div_le_one_div_of_le (by positivity) (by linarith)
  have hX1 : 1 / (2 ^ 34 * (1 - (p : ℝ))) ≤ 1 / 2 ^ 3 := one_div_le_one_div_of_le (by positivity) (by linarith)
  have hX0 : 1 / 2 ^ 34 ≤ 1 / (2 ^ 34 * (1 - (p : ℝ))) := one_div_le_one_div_of_le (by positivity) (by linarith)
  have herr : errAt p b = 2 * (1 / (2 ^ 34 * (1 - (p : ℝ))) + 1 / (2 ^ 52 * b)) := by
    rw [errAt]
    field_simp
  have hy : |(-l : ℝ) - -Real.log (1 - q)| ≤ ((1 / (2 ^ 34 * (1 - (p : ℝ))) + 1 / (2 ^ 52 * b)) * (1 + 1 / 2 ^ 50) + 1 / 2 ^ 50) * -Real.log (1 - q) := by
    rw [show (-l : ℝ) - -Real.log (1 - q) = Real.log (1 - q) - l by ring]
    exact hl
  generalize -Real.log (1 - q) = D at *
  generalize 1 / (2 ^ 52 * b) = P at *
  generalize 1 / (2 ^ 34 * (1 - (p : ℝ))) = X at *
  generalize errAt p b = E at *
  have hG7 : (X + P) * (1 + 1 / 2 ^ 50) + 1 / 2 ^ 50 ≤ 1 / 7 := by linarith
  have hG40 : 1 / 2 ^ 40 ≤ (X + P) * (1 + 1 / 2 ^ 50) + 1 / 2 ^ 50 := by linarith
  have hG2 : 3 / 2 * ((X + P) * (1 + 1 / 2 ^ 50) + 1 / 2 ^ 50) ≤ E := by rw [herr]; linarith
  generalize (X + P) * (1 + 1 / 2 ^ 50) + 1 / 2 ^ 50 = G at *
  have hD0 : 0 < D := by linarith
  have hxR : |(-x : ℝ) - (k : ℝ) * n| ≤ 1 / 2 ^ 51 * ((k : ℝ) * n) := by
    have := (Rat.cast_le (K := ℝ)).mpr hxN
    push_cast at this
    exact this
  have hkn1 : (1 : ℚ) ≤ k * n := by exact_mod_cast Nat.mul_pos hk hn
  have hkn2 : (k : ℚ) * n ≤ 999 * 2 ^ 64 := by exact_mod_cast Nat.mul_le_mul hk9 hn64.le
  have hN0 : (0 : ℝ) < (k : ℝ) * n := by exact_mod_cast Nat.mul_pos hk hn
  have hxN' := abs_le.mp hxN
  have hx1 : 1 / 4 ≤ -x := by linarith
  have hx2 : -x ≤ 2 ^ 76 := by linarith
  have hy' := abs_le.mp hy
  have hGD : G * D ≤ 1 / 7 * D := mul_le_mul_of_nonneg_right hG7 hD0.le
  have hl1 : (1 : ℝ) / 2 ^ 49 ≤ -l := by linarith
  have hl2 : (-l : ℝ) ≤ 64 := by linarith
  have hl1q : (1 : ℚ) / 2 ^ 49 ≤ -l := by
    have : (((1 : ℚ) / 2 ^ 49 : ℚ) : ℝ) ≤ ((-l : ℚ) : ℝ) := by push_cast; exact hl1
    exact (Rat.cast_le (K := ℝ)).mp this
  have hl2q : -l ≤ (64 : ℚ) := by
    have : ((-l : ℚ) : ℝ) ≤ ((64 : ℚ) : ℝ) := by push_cast; exact hl2
    exact (Rat.cast_le (K := ℝ)).mp this
  have hlp : 0 < -l := lt_of_lt_of_le (by norm_num) hl1q
  have exl : x / l = -x / -l := by rw [neg_div_neg_eq]
  have hq1 : (1 : ℚ) / 2 ^ 1000 ≤ -x / -l := by
    rw [le_div_iff₀ hlp]
    have h1 : (1 : ℚ) / 2 ^ 1000 * 64 ≤ 1 / 4 := by norm_num
    have h2 := mul_le_mul_of_nonneg_left hl2q (show (0 : ℚ) ≤ 1 / 2 ^ 1000 by positivity)
    exact le_trans h2 (le_trans h1 hx1)
  have hq2 : -x / -l ≤ (2 : ℚ) ^ 1000 := by
    rw [div_le_iff₀ hlp]
    have h1 : (2 : ℚ) ^ 76 ≤ 2 ^ 1000 * (1 / 2 ^ 49) := by norm_num
    have h2 := mul_le_mul_of_nonneg_left hl1q (show (0 : ℚ) ≤ 2 ^ 1000 by positivity)
    exact le_trans hx2 (le_trans h1 h2)
  obtain ⟨z, e6, hz, _⟩ := rnd64_real hq1 hq2
  push_cast at hz
  obtain ⟨_, hfin⟩ := quotient_off hN0 hD0 hG7 hG40 hxR hy hz
  refine ⟨z, ?_, ?_⟩
  · have hl0 : l ≠ 0 := by intro h; rw [h] at hlp; simp at hlp
    unfold required
    rw [e1, e5, div64, if_neg hl0, exl, e6]
  · rw [hb]
    exact le_trans hfin (mul_le_mul_of_nonneg_right hG2 (by positivity))

/-! ## The search -/

theorem search_min {L : Libm} {n : Nat} {p : Val} (z : Nat → ℚ) (hz : ∀ k, 1 ≤ k → k ≤ 999 → required L n p k = .num (z k)) :
    ∀ (fuel k0 mk : Nat), k0 + fuel = 1000 → 1 ≤ mk → mk < k0 → (∀ j, 1 ≤ j → j < k0 → z mk ≤ z j) →
    ∃ k, search L n p fuel k0 (.num (z mk)) mk = (.num (z k), k) ∧ 1 ≤ k ∧ k ≤ 999 ∧ ∀ j, 1 ≤ j → j ≤ 999 → z k ≤ z j := by
  intro fuel
  induction fuel with
  | zero => intro k0 mk hf h0 h1 h; exact ⟨mk, rfl, h0, by omega, fun j a b => h j a (by omega)⟩
  | succ fuel ih =>
    intro k0 mk hf h0 h1 h
    unfold search
    rw [hz k0 (by omega) (by omega)]
    by_cases hlt : z k0 < z mk
    · rw [if_pos (by simpa only [lt, decide_eq_true_eq] using hlt)]
      refine ih (k0 + 1) k0 (by omega) (by omega) (by omega) (fun j hj0 hj => ?_)
      by_cases hjk : j = k0
      · rw [hjk]
      · exact le_trans hlt.le (h j hj0 (by omega))
    · rw [if_neg (by simpa only [lt, decide_eq_true_eq] using hlt)]
      refine ih (k0 + 1) mk (by omega) h0 (by omega) (fun j hj0 hj => ?_)
      by_cases hjk : j = k0
      · rw [hjk]; exact not_lt.mp hlt
      · exact h j hj0 (by omega)

theorem search_spec {L : Libm} {n : Nat} {p : Val} (z : Nat → ℚ) (hz : ∀ k, 1 ≤ k → k ≤ 999 → required L n p k = .num (z k)) :
    ∃ k, search L n p 999 1 (.inf false) 0 = (.num (z k), k) ∧ 1 ≤ k ∧ k ≤ 999 ∧ ∀ j, 1 ≤ j → j ≤ 999 → z k ≤ z j := by
  unfold search
  rw [hz 1 (by omega) (by omega), if_pos (by simp [lt])]
  refine search_min z hz 998 2 1 (by omega) (by omega) (by omega) (fun j h0 h1 => ?_)
  rw [show j = 1 by omega]

theorem not_bad {s : Settings} (h : s.bad = false) : s.minSize ≤ s.maxSize ∧ s.minHashes ≤ s.maxHashes ∧ 1 ≤ s.minHashes ∧ 0 < s.count := by
  simp only [Settings.bad, Bool.or_eq_false_iff, decide_eq_false_iff_not] at h
  omega

/-! ## One hash function and a small probability -/

theorem below_one {r : ℚ} (h0 : 1 / 2 ^ 54 + 1 / 2 ^ 101 ≤ r) (h1 : r ≤ 1 / 2) : ∃ s : ℚ, rnd64 (1 - r) = .num s ∧ s ≤ 1 - 1 / 2 ^ 100 ∧
    |(s : ℝ) - (1 - r)| ≤ 1 / 2 ^ 53 * (1 - r) ∧ Double s := by
  have hr0 : 0 < r := lt_of_lt_of_le (by positivity) h0
  obtain ⟨s, e, hs, hd⟩ := rnd64_real (q := 1 - r) (le_trans (by norm_num) (show (1 : ℚ) / 2 ≤ 1 - r by linarith)) (le_trans (show 1 - r ≤ 1 by linarith) (by norm_num))
  push_cast at hs
  refine ⟨s, e, ?_, hs, hd⟩
  have habs : |1 - r| = 1 - r := abs_of_nonneg (by linarith)
  have hsrnd : s = rnd 53 (1 - r) := by
    rw [rnd64_eq _ (.inr (by rw [habs]; exact le_trans (by norm_num) (show (1 : ℚ) / 2 ≤ 1 - r by linarith)))] at e
    split at e
    · exact (Val.num.inj e).symm
    · cases e
  have hn := (rnd_nearest 53 (by omega) (1 - r)).2 (1 - 1 / 2 ^ 53) ⟨2 ^ 53 - 1, -53, by norm_num, by norm_num⟩
  rw [← hsrnd] at hn
  have hn1 := (abs_le.mp (le_refl |s - (1 - r)|)).2
  have hup : s - (1 - r) ≤ |1 - 1 / 2 ^ 53 - (1 - r)| := le_trans hn1 hn
  rcases le_total (1 / 2 ^ 53) r with h | h
  · rw [abs_of_nonneg (by linarith)] at hup
    have : (1 : ℚ) / 2 ^ 100 ≤ 1 / 2 ^ 53 := by norm_num
    linarith
  · rw [abs_of_nonpos (by linarith)] at hup
    have : (1 : ℚ) / 2 ^ 100 = 2 * (1 / 2 ^ 101) := by norm_num
    have : (1 : ℚ) / 2 ^ 53 = 2 * (1 / 2 ^ 54) := by norm_num
    linarith

/-- With one hash function the requirement is overestimated or, at the worst, halved some times; it stays large. -/
theorem required_one {L : Libm} (hL : Accurate L) (n : Nat) (hn : 0 < n) (hn64 : n < 2 ^ 64) {p : ℚ} (hd : Double p) (hp : 1 / 2 ^ 54 + 1 / 2 ^ 99 ≤ p)
    (hp1 : p < 1 / 2 ^ 12) : ∃ z : ℚ, required L n (.num p) 1 = .num z ∧ (n : ℝ) / (8 * p) ≤ z := by
  have hp54 : 1 / 2 ^ 54 ≤ p := le_trans (by norm_num) hp
  obtain ⟨r, e1, hr⟩ := root_off hL hd hp54 (lt_trans hp1 (by norm_num)) 1 (by omega) (by omega)
  rw [Nat.cast_one, div_one, Real.rpow_one] at hr
  have hpr : (1 : ℝ) / 2 ^ 54 + 1 / 2 ^ 99 ≤ p := by have := (Rat.cast_le (K := ℝ)).mpr hp; push_cast at this ⊢; exact this
  have hpr1 : (p : ℝ) < 1 / 2 ^ 12 := by have := (Rat.cast_lt (K := ℝ)).mpr hp1; push_cast at this ⊢; exact this
  have hr' := abs_le.mp hr
  have hr0 : (1 : ℝ) / 2 ^ 54 + 1 / 2 ^ 101 ≤ r := by
    norm_num at hpr hr' ⊢
    linarith
  have hr1 : (r : ℝ) ≤ 1 / 2 := by linarith
  have hr0q : (1 : ℚ) / 2 ^ 54 + 1 / 2 ^ 101 ≤ r := by
    have : ((1 / 2 ^ 54 + 1 / 2 ^ 101 : ℚ) : ℝ) ≤ (r : ℝ) := by push_cast; exact hr0
    exact (Rat.cast_le (K := ℝ)).mp this
  have hr1q : r ≤ (1 : ℚ) / 2 := by
    have : (r : ℝ) ≤ ((1 / 2 : ℚ) : ℝ) := by push_cast; exact hr1
    exact (Rat.cast_le (K := ℝ)).mp this
  obtain ⟨s, e2, hs1, hs, hsd⟩ := below_one hr0q hr1q
  have hs' := abs_le.mp hs
  have hs1r : (s : ℝ) ≤ 1 - 1 / 2 ^ 100 := by have := (Rat.cast_le (K := ℝ)).mpr hs1; push_cast at this ⊢; exact this
  have hslo : 1 - (s : ℝ) ≤ 4 * p - p / 2 := by linarith
  have hs0 : (0 : ℝ) < s := by linarith
  have hslt : (s : ℝ) < 1 := by
    have : (0 : ℝ) < 1 / 2 ^ 100 := by positivity
    linarith
  obtain ⟨l, e3, hl⟩ := hL.log s hsd (by exact_mod_cast hs0) (by exact_mod_cast hslt)
  have hlog := abs_log_one_add (a := (s : ℝ) - 1) (by rw [abs_of_neg (by linarith)]; linarith)
  rw [add_sub_cancel, abs_of_neg (show (s : ℝ) - 1 < 0 by linarith)] at hlog
  have hneg := Real.log_le_sub_one_of_pos hs0
  rw [abs_of_neg (show Real.log (s : ℝ) < 0 by linarith)] at hl hlog
  have hl' := abs_le.mp hl
  have hup : (-l : ℝ) ≤ 7 * p + p / 2 := by linarith
  have hlow : (1 : ℝ) / 2 ^ 101 ≤ -l := by
    have : (1 : ℝ) / 2 ^ 100 = 2 * (1 / 2 ^ 101) := by norm_num
    linarith
  obtain ⟨x, e5, hxN⟩ := numerator_off n hn hn64 1 (by omega) (by omega)
  rw [Nat.cast_one, one_mul] at hxN
  have hn1 : (1 : ℚ) ≤ n := by exact_mod_cast hn
  have hn2 : (n : ℚ) ≤ 2 ^ 64 := by exact_mod_cast hn64.le
  have hxN' := abs_le.mp hxN
  have hx1 : 1 / 4 ≤ -x := by linarith
  have hx2 : -x ≤ 2 ^ 76 := by linarith
  have hx3 : (n : ℝ) * (1 - 1 / 2 ^ 51) ≤ -x := by
    have : (n : ℚ) * (1 - 1 / 2 ^ 51) ≤ -x := by linarith
    have := (Rat.cast_le (K := ℝ)).mpr this
    push_cast at this
    exact this
  have hl1q : (1 : ℚ) / 2 ^ 101 ≤ -l := by
    have : (((1 : ℚ) / 2 ^ 101 : ℚ) : ℝ) ≤ ((-l : ℚ) : ℝ) := by push_cast; exact hlow
    exact (Rat.cast_le (K := ℝ)).mp this
  have hl2q : -l ≤ (64 : ℚ) := by
    have : ((-l : ℚ) : ℝ) ≤ ((64 : ℚ) : ℝ) := by push_cast; linarith
    exact (Rat.cast_le (K := ℝ)).mp this
  have hlp : 0 < -l := lt_of_lt_of_le (by positivity) hl1q
  have exl : x / l = -x / -l := by rw [neg_div_neg_eq]
  have hq1 : (1 : ℚ) / 2 ^ 1000 ≤ -x / -l := by
    rw [le_div_iff₀ hlp]
    have h1 : (1 : ℚ) / 2 ^ 1000 * 64 ≤ 1 / 4 := by norm_num
    have h2 := mul_le_mul_of_nonneg_left hl2q (show (0 : ℚ) ≤ 1 / 2 ^ 1000 by positivity)
    exact le_trans h2 (le_trans h1 hx1)
  have hq2 : -x / -l ≤ (2 : ℚ) ^ 1000 := by
    rw [div_le_iff₀ hlp]
    have h1 : (2 : ℚ) ^ 76 ≤ 2 ^ 1000 * (1 / 2 ^ 101) := by norm_num
    have h2 := mul_le_mul_of_nonneg_left hl1q (show (0 : ℚ) ≤ 2 ^ 1000 by positivity)
    exact le_trans hx2 (le_trans h1 h2)
  obtain ⟨z, e6, hz, _⟩ := rnd64_real hq1 hq2
  push_cast at hz
  have hl0 : l ≠ 0 := by intro h; rw [h] at hlp; simp at hlp
  refine ⟨z, ?_, ?_⟩
  · unfold required
    rw [e1, neg, add64, ← sub_eq_add_neg, e2, e3, e5, div64, if_neg hl0, exl, e6]
  · have hp0 : (0 : ℝ) < p := lt_of_lt_of_le (by positivity) hpr
    have hlr : (0 : ℝ) < -l := lt_of_lt_of_le (by positivity) hlow
    have hn1r : (1 : ℝ) ≤ n := by exact_mod_cast hn
    have hz' := (abs_le.mp hz).1
    have hquot : (n : ℝ) * (1 - 1 / 2 ^ 51) / (7 * p + p / 2) ≤ -x / -l :=
      div_le_div₀ (le_trans (by positivity) hx3) hx3 hlr hup
    have e7 : (n : ℝ) * (1 - 1 / 2 ^ 51) / (7 * p + p / 2) = (n : ℝ) / (8 * p) * (16 / 15 * (1 - 1 / 2 ^ 51)) := by
      have hp0' := hp0.ne'
      rw [show (7 * (p : ℝ) + p / 2) = 15 / 2 * p by ring]
      field_simp
      ring
    rw [e7] at hquot
    have hm : (0 : ℝ) ≤ (n : ℝ) / (8 * p) := by positivity
    generalize (n : ℝ) / (8 * p) = m at *
    generalize -(x : ℝ) / -l = q at *
    linarith

theorem bits_le {n k : Nat} {p : ℝ} (hp : 0 < p) (hp1 : p < 1) (hk : 0 < k) {b : ℝ} (hb : 0 < b) (hbq : b ≤ p ^ (1 / (k : ℝ))) : bits n p k ≤ k * n / b := by
  have hk' : (0 : ℝ) < k := by exact_mod_cast hk
  have hq1 : p ^ (1 / (k : ℝ)) < 1 := Real.rpow_lt_one hp.le hp1 (by positivity)
  have := Real.log_le_sub_one_of_pos (show 0 < 1 - p ^ (1 / (k : ℝ)) by linarith)
  unfold bits
  exact div_le_div_of_nonneg_left (by positivity) hb (by linarith)

theorem bits_one {n : Nat} {p : ℝ} (hp : 0 < p) (hp1 : p ≤ 1 / 2) : (n : ℝ) / (2 * p) ≤ bits n p 1 := by
  have h := abs_log_one_add (a := -p) (by rw [abs_neg, abs_of_pos hp]; exact hp1)
  rw [abs_neg, abs_of_pos hp] at h
  have h1 := (abs_le.mp h).1
  have h2 := Real.log_le_sub_one_of_pos (show 0 < 1 + -p by linarith)
  unfold bits
  rw [Nat.cast_one, one_mul, div_one, Real.rpow_one, sub_eq_add_neg]
  exact div_le_div_of_nonneg_left (by positivity) (by linarith) (by linarith)

/-! ## The choice -/

theorem err_le {p : ℝ} (hp : 1 / 2 ^ 54 ≤ p) (hp1 : 1 / 2 ^ 31 ≤ 1 - p) : 0 ≤ err p ∧ err p ≤ 1 / 3 := by
  have hp0 : 0 < p := lt_of_lt_of_le (by positivity) hp
  have hd0 : 0 < 1 - p := lt_of_lt_of_le (by positivity) hp1
  have hb : 1 / 2 ^ 28 ≤ (if p < 1 / 2 ^ 12 then √p else p) := by
    split
    · exact le_trans (by norm_num) (Real.le_sqrt_of_sq_le (show ((1 : ℝ) / 2 ^ 27) ^ 2 ≤ p from le_trans (by norm_num) hp))
    · exact le_trans (by norm_num : (1 : ℝ) / 2 ^ 28 ≤ 1 / 2 ^ 12) (not_lt.mp ‹_›)
  unfold err errAt
  generalize (if p < 1 / 2 ^ 12 then √p else p) = b at *
  have hb0 : 0 < b := lt_of_lt_of_le (by positivity) hb
  have h1 : 1 / (2 ^ 33 * (1 - p)) ≤ 1 / 2 ^ 2 := one_div_le_one_div_of_le (by positivity) (by linarith)
  have h2 : 1 / (2 ^ 51 * b) ≤ 1 / 2 ^ 23 := one_div_le_one_div_of_le (by positivity) (by linarith)
  exact ⟨by positivity, by linarith⟩

theorem choice {L : Libm} (hL : Accurate L) (n : Nat) (hn : 0 < n) (hn64 : n < 2 ^ 64) {p : ℚ} (hd : Double p) (hp : 1 / 2 ^ 54 + 1 / 2 ^ 99 ≤ p)
    (hp1 : p ≤ 1 - 1 / 2 ^ 31) : ∃ (k : Nat) (z : ℚ), search L n (.num p) 999 1 (.inf false) 0 = (.num z, k) ∧ 1 ≤ k ∧ k ≤ 999 ∧
      |(z : ℝ) - bits n p k| ≤ err p * bits n p k ∧ ∀ j, 1 ≤ j → j ≤ 999 → (1 - err p) * bits n p k ≤ (1 + err p) * bits n p j := by
  have hp54 : 1 / 2 ^ 54 ≤ p := le_trans (by norm_num) hp
  have hpr : (1 : ℝ) / 2 ^ 54 ≤ p := by have := (Rat.cast_le (K := ℝ)).mpr hp54; push_cast at this ⊢; exact this
  have hpr1 : (1 : ℝ) / 2 ^ 31 ≤ 1 - p := by have := (Rat.cast_le (K := ℝ)).mpr hp1; push_cast at this ⊢; linarith
  have hp0 : (0 : ℝ) < p := lt_of_lt_of_le (by positivity) hpr
  have hplt : (p : ℝ) < 1 := by
    have : (0 : ℝ) < 1 / 2 ^ 31 := by positivity
    linarith
  obtain ⟨he0, he1⟩ := err_le hpr hpr1
  by_cases hsmall : (p : ℝ) < 1 / 2 ^ 12
  · have herr : err p = errAt p (√(p : ℝ)) := by rw [err, if_pos hsmall]
    have hsq : (1 : ℝ) / 2 ^ 27 ≤ √(p : ℝ) := Real.le_sqrt_of_sq_le (le_trans (by norm_num) hpr)
    have hsq0 : (0 : ℝ) < √(p : ℝ) := lt_of_lt_of_le (by positivity) hsq
    have hsq6 : √(p : ℝ) < 1 / 2 ^ 6 := (Real.sqrt_lt' (by norm_num)).mpr (lt_of_lt_of_le hsmall (by norm_num))
    have hmul : √(p : ℝ) * √(p : ℝ) = p := Real.mul_self_sqrt hp0.le
    have h24 : 24 * (p : ℝ) < √(p : ℝ) := by
      calc 24 * (p : ℝ) = 24 * √(p : ℝ) * √(p : ℝ) := by rw [mul_assoc, hmul]
        _ < 1 * √(p : ℝ) := mul_lt_mul_of_pos_right (by linarith) hsq0
        _ = √(p : ℝ) := one_mul _
    obtain ⟨z1, a1, b1⟩ := required_one hL n hn hn64 hd hp (by
      have : ((p : ℚ) : ℝ) < ((1 / 2 ^ 12 : ℚ) : ℝ) := by push_cast; exact hsmall
      exact (Rat.cast_lt (K := ℝ)).mp this)
    have hoff : ∀ k, ∃ z : ℚ, 1 ≤ k → k ≤ 999 → required L n (.num p) k = .num z ∧ (2 ≤ k → |(z : ℝ) - bits n p k| ≤ err p * bits n p k) ∧ (k = 1 → z = z1) := by
      intro k
      by_cases h1 : k = 1
      · subst h1
        exact ⟨z1, fun _ _ => ⟨a1, fun h => absurd h (by omega), fun _ => rfl⟩⟩
      by_cases h : 2 ≤ k ∧ k ≤ 999
      · obtain ⟨z, a, b⟩ := required_off hL n hn hn64 hd hp54 hp1 k (by omega) h.2 (b := √(p : ℝ)) (le_trans (by norm_num) hsq) (root_sqrt hp0 hplt k h.1)
        rw [← herr] at b
        exact ⟨z, fun _ _ => ⟨a, fun _ => b, fun h => absurd h h1⟩⟩
      · exact ⟨0, fun a b => absurd ⟨by omega, b⟩ h⟩
    choose z hz using hoff
    obtain ⟨k, h1, h2, h3, h4⟩ := search_spec z (fun k a b => (hz k a b).1)
    have hn1 : (1 : ℝ) ≤ n := by exact_mod_cast hn
    have hb2 : bits n p 2 ≤ 2 * n / √(p : ℝ) := by
      have := bits_le (n := n) hp0 hplt (k := 2) (by omega) hsq0 (root_sqrt hp0 hplt 2 (le_refl 2))
      push_cast at this
      exact this
    have hz2 : (z 2 : ℝ) < z 1 := by
      have e2 := (abs_le.mp ((hz 2 (by omega) (by omega)).2.1 (by omega))).2
      have hb0 := (bits_solves (n := n) hp0 hplt (show 0 < 2 by omega) hn).1
      have hm := mul_le_mul_of_nonneg_right he1 hb0.le
      rw [(hz 1 (by omega) (by omega)).2.2 rfl]
      have h5 : (z 2 : ℝ) ≤ 3 * n / √(p : ℝ) := by
        have : (3 : ℝ) * n / √(p : ℝ) = 3 / 2 * (2 * n / √(p : ℝ)) := by ring
        linarith
      refine lt_of_le_of_lt h5 (lt_of_lt_of_le ?_ b1)
      rw [div_lt_div_iff₀ hsq0 (by positivity)]
      calc (3 : ℝ) * n * (8 * p) = n * (24 * p) := by ring
        _ < n * √(p : ℝ) := mul_lt_mul_of_pos_left h24 (by linarith)
    have hk2 : 2 ≤ k := by
      by_contra hk
      have : k = 1 := by omega
      subst this
      have : (z 1 : ℝ) ≤ z 2 := by exact_mod_cast h4 2 (by omega) (by omega)
      linarith
    have hek := (hz k h2 h3).2.1 hk2
    have ek := abs_le.mp hek
    have hge : ∀ j, 2 ≤ j → j ≤ 999 → (1 - err p) * bits n p k ≤ (1 + err p) * bits n p j := by
      intro j hj hj9
      have ej := abs_le.mp ((hz j (by omega) hj9).2.1 hj)
      have : (z k : ℝ) ≤ z j := by exact_mod_cast h4 j (by omega) hj9
      linarith
    refine ⟨k, z k, h1, h2, h3, hek, fun j hj hj9 => ?_⟩
    by_cases hj1 : j = 1
    · subst hj1
      refine le_trans (hge 2 (le_refl 2) (by omega)) (mul_le_mul_of_nonneg_left (le_trans hb2 ?_) (by linarith))
      refine le_trans ?_ (bits_one hp0 (by linarith))
      rw [div_le_div_iff₀ hsq0 (by positivity)]
      calc (2 : ℝ) * n * (2 * p) = n * (4 * p) := by ring
        _ ≤ n * √(p : ℝ) := mul_le_mul_of_nonneg_left (by linarith) (by linarith)
    · exact hge j (by omega) hj9
  · have herr : err p = errAt p p := by rw [err, if_neg hsmall]
    have hoff : ∀ k, ∃ z : ℚ, 1 ≤ k → k ≤ 999 → required L n (.num p) k = .num z ∧ |(z : ℝ) - bits n p k| ≤ err p * bits n p k := by
      intro k
      by_cases h : 1 ≤ k ∧ k ≤ 999
      · obtain ⟨z, a, b⟩ := required_off hL n hn hn64 hd hp54 hp1 k (by omega) h.2 (b := p) (le_trans (by norm_num) (not_lt.mp hsmall))
          (root_range hp0 hplt k h.1 h.2).1
        rw [← herr] at b
        exact ⟨z, fun _ _ => ⟨a, b⟩⟩
      · exact ⟨0, fun a b => absurd ⟨a, b⟩ h⟩
    choose z hz using hoff
    obtain ⟨k, h1, h2, h3, h4⟩ := search_spec z (fun k a b => (hz k a b).1)
    have ek := abs_le.mp (hz k h2 h3).2
    refine ⟨k, z k, h1, h2, h3, (hz k h2 h3).2, fun j hj1 hj9 => ?_⟩
    have ej := abs_le.mp (hz j hj1 hj9).2
    have : (z k : ℝ) ≤ z j := by exact_mod_cast h4 j hj1 hj9
    linarith

/-! ## The theorems -/

/-- **C181**: with a library as accurate as assumed, for probabilities from just above `2^-54` to `1 - 2^-31` and every count, the rounding errors of `double` change the
computed requirement by at most the fraction `err p`: the chosen number of hash functions is one whose true requirement is, up to such a fraction, the least, and the
table size is the true requirement up to this fraction, less than one bit below or less than eight above. -/
theorem C181_parameters_partial (L : Libm) (hL : Accurate L) (s : Settings) (hs : s.bad = false) (hc : s.count < 2 ^ 64) (p : ℚ) (hprob : s.prob = .num p)
    (hd : Double p) (hp : 1 / 2 ^ 54 + 1 / 2 ^ 99 ≤ p) (hp1 : p ≤ 1 - 1 / 2 ^ 31) :
    ∃ k, 1 ≤ k ∧ k ≤ 999 ∧ (∀ j, 1 ≤ j → j ≤ 999 → (1 - err p) * bits s.count p k ≤ (1 + err p) * bits s.count p j) ∧
      ((1 + err p) * bits s.count p k < 2 ^ 64 - 8 → ∃ t hashes size : Nat, computeOptimal L s = ok (some (hashes, size)) ∧
        8 ∣ t ∧ (1 - err p) * bits s.count p k - 1 < t ∧ t < (1 + err p) * bits s.count p k + 8 ∧
        hashes = max s.minHashes (min k s.maxHashes) ∧ size = max s.minSize (min t s.maxSize)) := by
  obtain ⟨hms, hmn, hm1, hcount⟩ := not_bad hs
  obtain ⟨k, z, h1, h2, h3, hek, hmin⟩ := choice hL s.count hcount hc hd hp hp1
  have ek := abs_le.mp hek
  refine ⟨k, h2, h3, hmin, fun hlt => ?_⟩
  have hpr : (1 : ℝ) / 2 ^ 54 ≤ p := by have := (Rat.cast_le (K := ℝ)).mpr (le_trans (by norm_num : (1 : ℚ) / 2 ^ 54 ≤ _) hp); push_cast at this ⊢; exact this
  have hpr1 : (1 : ℝ) / 2 ^ 31 ≤ 1 - p := by have := (Rat.cast_le (K := ℝ)).mpr hp1; push_cast at this ⊢; linarith
  have hp0 : (0 : ℝ) < p := lt_of_lt_of_le (by positivity) hpr
  have hb := (bits_solves (n := s.count) hp0 (by linarith) (show 0 < k by omega) hcount).1
  have herr := (err_le hpr hpr1).2
  have hz0 : (0 : ℝ) ≤ z := by
    have := mul_le_mul_of_nonneg_right herr hb.le
    linarith
  have hz0q : (0 : ℚ) ≤ z := by exact_mod_cast hz0
  have hf1 : ((⌊z⌋₊ : Nat) : ℝ) ≤ z := by exact_mod_cast Nat.floor_le hz0q
  have hf2 : (z : ℝ) < (⌊z⌋₊ : Nat) + 1 := by exact_mod_cast Nat.lt_floor_add_one (z)
  have hzlt : (z : ℝ) < 2 ^ 64 - 8 := by linarith
  have hzq : z < 2 ^ 64 := by
    have : (z : ℝ) < ((2 ^ 64 : ℚ) : ℝ) := by push_cast; linarith
    exact_mod_cast (Rat.cast_lt (K := ℝ)).mp this
  have hfn : ⌊z⌋₊ < 2 ^ 64 - 8 := by
    have : ((⌊z⌋₊ : Nat) : ℝ) < ((2 ^ 64 - 8 : Nat) : ℝ) := by
      rw [show ((2 ^ 64 - 8 : Nat) : ℝ) = 2 ^ 64 - 8 by norm_num]
      linarith
    exact_mod_cast this
  generalize hm : ⌊z⌋₊ = m at *
  refine ⟨m + (if m % 8 ≠ 0 then 8 - m % 8 else 0), _, _, ?_, ?_, ?_, ?_, rfl, rfl⟩
  · rw [computeOptimal, if_neg (by simp [hs]), hprob, h1]
    simp only [toU64]
    rw [if_pos ⟨by linarith, hzq⟩, hm, ok_bind]
    congr 3
    · unfold optimalHashes
      split
      · omega
      · split <;> omega
    · have : (m + (if m % 8 ≠ 0 then 8 - m % 8 else 0)) % 2 ^ 64 = m + (if m % 8 ≠ 0 then 8 - m % 8 else 0) := Nat.mod_eq_of_lt (by split <;> omega)
      rw [this]
      generalize m + (if m % 8 ≠ 0 then 8 - m % 8 else 0) = t
      split
      · omega
      · split <;> omega
  · split <;> omega
  · have : (m : ℝ) ≤ ((m + (if m % 8 ≠ 0 then 8 - m % 8 else 0) : Nat) : ℝ) := by exact_mod_cast Nat.le_add_right _ _
    linarith
  · have : ((m + (if m % 8 ≠ 0 then 8 - m % 8 else 0) : Nat) : ℝ) ≤ ((m + 7 : Nat) : ℝ) := by
      have : m + (if m % 8 ≠ 0 then 8 - m % 8 else 0) ≤ m + 7 := by split <;> omega
      exact_mod_cast this
    push_cast at this ⊢
    linarith

/-- The error is small: less than a millionth for all these probabilities up to `1 - 2^-12`. -/
theorem C181_error_small (p : ℝ) (h : 1 / 2 ^ 54 ≤ p) (h1 : p ≤ 1 - 1 / 2 ^ 12) : err p < 1 / 1000000 := by
  have hp0 : 0 < p := lt_of_lt_of_le (by positivity) h
  have hb : 1 / 2 ^ 28 ≤ (if p < 1 / 2 ^ 12 then √p else p) := by
    split
    · exact le_trans (by norm_num) (Real.le_sqrt_of_sq_le (show ((1 : ℝ) / 2 ^ 27) ^ 2 ≤ p from le_trans (by norm_num) h))
    · exact le_trans (by norm_num : (1 : ℝ) / 2 ^ 28 ≤ 1 / 2 ^ 12) (not_lt.mp ‹_›)
  unfold err errAt
  generalize (if p < 1 / 2 ^ 12 then √p else p) = b at *
  have h2 : 1 / (2 ^ 33 * (1 - p)) ≤ 1 / 2 ^ 21 := one_div_le_one_div_of_le (by positivity) (by linarith)
  have h3 : 1 / (2 ^ 51 * b) ≤ 1 / 2 ^ 23 := one_div_le_one_div_of_le (by positivity) (by linarith)
  norm_num at *
  linarith

/-- **C181**: hence a filter with these parameters, the limits of the settings not interfering, and with a bit more than its table has, keeps the probability asked for
while at most the fraction `1 - err p` of the announced number of elements is in it. -/
theorem C181_probability (n k t i : Nat) (p : ℝ) (hp : 0 < p) (hp1 : p < 1) (hk : 0 < k) (hn : 0 < n) (herr : err p < 1)
    (ht : (1 - err p) * bits n p k - 1 < t) (hi : i ≤ (1 - err p) * n) : effectiveFpp k i (t + 1) ≤ p := by
  obtain ⟨hb, he⟩ := bits_solves hp hp1 hk hn
  have hk' : (0 : ℝ) < k := by exact_mod_cast hk
  have hn' : (0 : ℝ) < n := by exact_mod_cast hn
  have h1e : 0 < 1 - err p := by linarith
  have hm : (1 - err p) * bits n p k ≤ ((t + 1 : Nat) : ℝ) := by push_cast; linarith
  have hm0 : (0 : ℝ) < ((t + 1 : Nat) : ℝ) := by positivity
  have h1 : (k : ℝ) * i / ((t + 1 : Nat) : ℝ) ≤ k * n / bits n p k := by
    have : (k : ℝ) * i / ((t + 1 : Nat) : ℝ) ≤ k * ((1 - err p) * n) / ((1 - err p) * bits n p k) :=
      div_le_div₀ (by positivity) (mul_le_mul_of_nonneg_left hi hk'.le) (by positivity) hm
    rwa [show (k : ℝ) * ((1 - err p) * n) = (1 - err p) * (k * n) by ring, mul_div_mul_left _ _ h1e.ne'] at this
  have e1 : -1 * (k : ℝ) * i / ((t + 1 : Nat) : ℝ) = -((k : ℝ) * i / ((t + 1 : Nat) : ℝ)) := by ring
  have e2 : -((k : ℝ) * n) / bits n p k = -((k : ℝ) * n / bits n p k) := by ring
  rw [e2] at he
  rw [effectiveFpp, one_mul, e1]
  calc _ ≤ (1 - Real.exp (-((k : ℝ) * n / bits n p k))) ^ (k : ℝ) := by
        apply Real.rpow_le_rpow _ _ hk'.le
        · have h0 : 0 ≤ (k : ℝ) * i / ((t + 1 : Nat) : ℝ) := by positivity
          have : Real.exp (-((k : ℝ) * i / ((t + 1 : Nat) : ℝ))) ≤ 1 := Real.exp_le_one_iff.mpr (by linarith)
          linarith
        · have := Real.exp_le_exp.mpr (neg_le_neg h1)
          linarith
    _ = p := he

/-- `1.0 - r` is `1.0` for `r` up to `2^-54`. -/
theorem one_minus_tiny {r : ℚ} (h0 : 0 < r) (h1 : r ≤ 1 / 2 ^ 54) : rnd64 (1 + -r) = .num 1 := by
  have hlog : Int.log 2 |1 + -r| = -1 := by
    have hpos : (0 : ℚ) < 1 + -r := by linarith
    rw [abs_of_pos hpos]
    have a1 : (-1 : ℤ) ≤ Int.log 2 (1 + -r) := (Int.zpow_le_iff_le_log (b := 2) (by omega) hpos).mp (by norm_num; linarith)
    have a2 : Int.log 2 (1 + -r) < 0 := (Int.lt_zpow_iff_log_lt (b := 2) (by omega) hpos).mp (by norm_num; exact h0)
    omega
  have hl : lastPlace (1 + -r) = -53 := by unfold lastPlace; rw [hlog]; norm_num
  have hx : (1 + -r) / 2 ^ (-53 : ℤ) = 2 ^ 53 - r * 2 ^ 53 := by
    rw [zpow_neg, div_inv_eq_mul]
    norm_num
    ring
  have hr : 0 < r * 2 ^ 53 ∧ r * 2 ^ 53 ≤ 1 / 2 := by constructor <;> linarith
  have hrne : rne ((1 + -r) / 2 ^ (-53 : ℤ)) = 2 ^ 53 := by
    rw [hx]
    have hfl : ⌊(2 : ℚ) ^ 53 - r * 2 ^ 53⌋ = 2 ^ 53 - 1 := by
      rw [Int.floor_eq_iff]
      push_cast
      constructor <;> linarith
    unfold rne
    rw [hfl]
    push_cast
    rw [if_neg (by linarith)]
    norm_num
  unfold rnd64
  simp only [hl, hrne]
  norm_num

theorem search_ninf {L : Libm} {n : Nat} {p : Val} : ∀ (fuel k mk : Nat), (search L n p fuel k (.inf true) mk).1 = .inf true := by
  intro fuel
  induction fuel with
  | zero => intro k mk; rfl
  | succ fuel ih =>
    intro k mk
    unfold search
    rw [if_neg]
    · exact ih _ _
    · cases required L n p k <;> simp [lt]

/-- **C181** (negative result): for every smaller probability from `2^-1000` to just below `2^-54` (about `5.5e-17`) the call is undefined: with one hash function `1.0 - p` is
`1.0`, the requirement minus infinity, and that is converted to an integer. -/
theorem C181_tiny_probability (L : Libm) (hL : Accurate L) (s : Settings) (hs : s.bad = false) (hc : s.count < 2 ^ 64) (p : ℚ) (hprob : s.prob = .num p)
    (hd : Double p) (hp : 1 / 2 ^ 1000 ≤ p) (hp1 : p ≤ 1 / 2 ^ 54 - 1 / 2 ^ 103) : computeOptimal L s = ub := by
  obtain ⟨_, _, _, hcount⟩ := not_bad hs
  have hp0 : 0 < p := lt_of_lt_of_le (by positivity) hp
  obtain ⟨r, e1, hr⟩ := hL.pow p 1 hd double_one hp (lt_of_le_of_lt hp1 (by norm_num)) (by norm_num) (le_refl _)
  simp only [Rat.cast_one, Real.rpow_one] at hr
  have hpr0 : (0 : ℝ) < p := by exact_mod_cast hp0
  have hpr1 : (p : ℝ) ≤ 1 / 2 ^ 54 - 1 / 2 ^ 103 := by have := (Rat.cast_le (K := ℝ)).mpr hp1; push_cast at this ⊢; exact this
  have hr' := abs_le.mp hr
  have hr0 : (0 : ℚ) < r := by
    have : (0 : ℝ) < r := by linarith
    exact_mod_cast this
  have hr1 : r ≤ 1 / 2 ^ 54 := by
    have : (r : ℝ) ≤ ((1 / 2 ^ 54 : ℚ) : ℝ) := by push_cast; norm_num at hpr1 hr' ⊢; linarith
    exact (Rat.cast_le (K := ℝ)).mp this
  obtain ⟨x, e5, hx⟩ := numerator_off s.count hcount hc 1 (by omega) (by omega)
  have hx0 : x < 0 := by
    have hx' := abs_le.mp hx
    have : (1 : ℚ) ≤ s.count := by exact_mod_cast hcount
    push_cast at hx'
    linarith
  have e2 : div64 (.num 1) (.num ((1 : Nat) : ℚ)) = .num 1 := by
    have := double_one
    simp [div64, this]
  have hreq : required L s.count s.prob 1 = .inf true := by
    unfold required
    rw [e5, e2, hprob, e1, neg, add64, one_minus_tiny hr0 hr1, hL.log_one, div64, if_pos rfl, if_neg hx0.ne]
    simp [hx0]
  have : (search L s.count s.prob 999 1 (.inf false) 0).1 = .inf true := by
    unfold search
    rw [hreq, if_pos (by simp [lt])]
    exact search_ninf _ _ _
  rw [computeOptimal, if_neg (by simp [hs]), this]
  rfl

/-! ## Probabilities next to one -/

/-- A requirement is never negative. -/
def Harmless (v : Val) : Prop := v = .inf false ∨ ∃ z : ℚ, v = .num z ∧ 0 ≤ z

theorem search_zero {L : Libm} {n : Nat} {p : Val} (h : ∀ k, 1 ≤ k → k ≤ 999 → Harmless (required L n p k)) (h0 : required L n p 999 = .num 0) :
    ∀ (fuel k mk : Nat) (m : Val), k + (fuel + 1) = 1000 → 1 ≤ k → Harmless m → (search L n p (fuel + 1) k m mk).1 = .num 0 := by
  intro fuel
  induction fuel with
  | zero =>
    intro k mk m hk _ hm
    obtain rfl : k = 999 := by omega
    unfold search
    rw [h0]
    rcases hm with rfl | ⟨z, rfl, hz⟩
    · rw [if_pos (by simp [lt])]; rfl
    · by_cases hz0 : z = 0
      · subst hz0
        rw [if_neg (by simp [lt])]; rfl
      · have : 0 < z := lt_of_le_of_ne hz (Ne.symm hz0)
        rw [if_pos (by simpa [lt] using this)]; rfl
  | succ fuel ih =>
    intro k mk m hk hk1 hm
    unfold search
    split
    · exact ih _ _ _ (by omega) (by omega) (h k hk1 (by omega))
    · exact ih _ _ _ (by omega) (by omega) hm

theorem required_harmless {L : Libm} (hL : Accurate L) (h1 : NearOne L) (n : Nat) (hn : 0 < n) (hn64 : n < 2 ^ 64) {p : ℚ} (hd : Double p) (hp : 1 - 1 / 2 ^ 45 ≤ p)
    (hp1 : p < 1) (k : Nat) (hk : 0 < k) (hk9 : k ≤ 999) : Harmless (required L n (.num p) k) ∧ (k = 999 → required L n (.num p) k = .num 0) := by
  obtain ⟨y, e, hy, hy0, hy1, hyo⟩ := inverse_off k hk hk9
  have hp1000 : (1 : ℚ) / 2 ^ 1000 ≤ p := le_trans (by norm_num) hp
  obtain ⟨r, er, hr1, hr2⟩ := h1.pow p y hd hy hp1000 hp1 hy0 hy1
  obtain ⟨r', er', hr'⟩ := hL.pow p y hd hy hp1000 hp1 hy0 hy1
  obtain rfl : r = r' := Val.num.inj (er.symm.trans er')
  have hpr : (1 : ℝ) - 1 / 2 ^ 45 ≤ p := by have := (Rat.cast_le (K := ℝ)).mpr hp; push_cast at this ⊢; exact this
  have hpr1 : (p : ℝ) < 1 := by exact_mod_cast hp1
  have hp0 : (0 : ℝ) < p := by linarith
  have hy0r : (0 : ℝ) < y := by exact_mod_cast hy0
  have hy1r : (y : ℝ) ≤ 1 := by exact_mod_cast hy1
  have hpy : (p : ℝ) ≤ (p : ℝ) ^ (y : ℝ) := by
    have := Real.rpow_le_rpow_of_exponent_ge hp0 hpr1.le hy1r
    rwa [Real.rpow_one] at this
  obtain ⟨x, e5, hxN⟩ := numerator_off n hn hn64 k hk hk9
  have hzero : r = 1 → required L n (.num p) k = .num 0 := by
    intro h
    have e0 : rnd64 (1 + -1) = .num 0 := by
      rw [show (1 : ℚ) + -1 = 0 by norm_num, rnd64_eq 0 (.inl rfl)]
      simp [rnd]
    unfold required
    rw [e, er, h, neg, add64, e0, h1.log_zero, e5, div64]
  constructor
  · rcases hr1 with hr1 | hr1
    · exact .inr ⟨0, hzero hr1, le_refl _⟩
    right
    have hra := abs_le.mp hr'
    have hrlo : (1 : ℝ) - 1 / 2 ^ 44 ≤ r := by linarith
    have hrup : (r : ℝ) ≤ 1 - 1 / 2 ^ 54 := by have := (Rat.cast_le (K := ℝ)).mpr hr1; push_cast at this ⊢; exact this
    have hrq : (0 : ℚ) < r := by
      have : (0 : ℝ) < r := by linarith
      exact_mod_cast this
    obtain ⟨s, e2, hs, hsd⟩ := rnd64_real (q := 1 - r) (le_trans (by norm_num : (1 : ℚ) / 2 ^ 1000 ≤ 1 / 2 ^ 54) (by linarith)) (le_trans (by linarith : 1 - r ≤ 1) (by norm_num))
    push_cast at hs
    have hs' := abs_le.mp hs
    have hslo : (1 : ℝ) / 2 ^ 55 ≤ s := by linarith
    have hsup : (s : ℝ) ≤ 1 / 2 := by linarith
    have hs0 : (0 : ℝ) < s := lt_of_lt_of_le (by positivity) hslo
    have hs1 : (s : ℝ) < 1 := by linarith
    obtain ⟨l, e3, hl⟩ := hL.log s hsd (by exact_mod_cast hs0) (by exact_mod_cast hs1)
    have hneg := Real.log_le_sub_one_of_pos hs0
    have hlow := Real.log_le_log (by positivity) hslo
    rw [one_div, Real.log_inv, Real.log_pow] at hlow
    have hl2 := Real.log_two_lt_d9
    push_cast at hlow
    rw [abs_of_neg (show Real.log (s : ℝ) < 0 by linarith)] at hl
    have hl' := abs_le.mp hl
    have hl1q : (1 : ℚ) / 4 ≤ -l := by
      have : (((1 : ℚ) / 4 : ℚ) : ℝ) ≤ ((-l : ℚ) : ℝ) := by push_cast; linarith
      exact (Rat.cast_le (K := ℝ)).mp this
    have hl2q : -l ≤ (64 : ℚ) := by
      have : ((-l : ℚ) : ℝ) ≤ ((64 : ℚ) : ℝ) := by push_cast; linarith
      exact (Rat.cast_le (K := ℝ)).mp this
    have hkn1 : (1 : ℚ) ≤ k * n := by exact_mod_cast Nat.mul_pos hk hn
    have hkn2 : (k : ℚ) * n ≤ 999 * 2 ^ 64 := by exact_mod_cast Nat.mul_le_mul hk9 hn64.le
    have hxN' := abs_le.mp hxN
    have hx1 : 1 / 4 ≤ -x := by linarith
    have hx2 : -x ≤ 2 ^ 76 := by linarith
    have hlp : 0 < -l := by linarith
    have exl : x / l = -x / -l := by rw [neg_div_neg_eq]
    have hq1 : (1 : ℚ) / 2 ^ 1000 ≤ -x / -l := by
      rw [le_div_iff₀ hlp]
      have h1 : (1 : ℚ) / 2 ^ 1000 * 64 ≤ 1 / 4 := by norm_num
      have h2 := mul_le_mul_of_nonneg_left hl2q (show (0 : ℚ) ≤ 1 / 2 ^ 1000 by positivity)
      exact le_trans h2 (le_trans h1 hx1)
    have hq2 : -x / -l ≤ (2 : ℚ) ^ 1000 := by
      rw [div_le_iff₀ hlp]
      have h1 : (2 : ℚ) ^ 76 ≤ 2 ^ 1000 * (1 / 4) := by norm_num
      have h2 := mul_le_mul_of_nonneg_left hl1q (show (0 : ℚ) ≤ 2 ^ 1000 by positivity)
      exact le_trans hx2 (le_trans h1 h2)
    obtain ⟨z, e6, hz, _⟩ := rnd64_real hq1 hq2
    have hl0 : l ≠ 0 := by intro h; rw [h] at hlp; simp at hlp
    refine ⟨z, ?_, ?_⟩
    · unfold required
      rw [e, er, neg, add64, ← sub_eq_add_neg, e2, e3, e5, div64, if_neg hl0, exl, e6]
    · have hqpos : (0 : ℝ) ≤ ((-x / -l : ℚ) : ℝ) := by exact_mod_cast le_trans (by positivity) hq1
      have := (abs_le.mp hz).1
      have : (0 : ℝ) ≤ z := by
        generalize ((-x / -l : ℚ) : ℝ) = q at *
        linarith
      exact_mod_cast this
  · rintro rfl
    refine hzero (hr2 ?_)
    have hexp : (p : ℝ) ^ (y : ℝ) = Real.exp (Real.log p * y) := Real.rpow_def_of_pos hp0 _
    have h2 := Real.add_one_le_exp (Real.log p * y)
    have h3 := Real.one_sub_inv_le_log_of_pos hp0
    have h4 : -(101 / 100 / 2 ^ 45) ≤ 1 - (p : ℝ)⁻¹ := by
      have : (p : ℝ)⁻¹ ≤ (1 - 1 / 2 ^ 45 : ℝ)⁻¹ := inv_anti₀ (by norm_num) hpr
      have : (1 - 1 / 2 ^ 45 : ℝ)⁻¹ ≤ 1 + 101 / 100 / 2 ^ 45 := by norm_num
      linarith
    have hyo' := (abs_le.mp hyo).2
    have h5 : (y : ℝ) ≤ 1 / 990 := by
      push_cast at hyo'
      norm_num at hyo' ⊢
      linarith
    have h6 : -(101 / 100 / 2 ^ 45) * (1 / 990) ≤ Real.log p * y := by
      have a : -(101 / 100 / 2 ^ 45 : ℝ) * y ≤ Real.log p * y := mul_le_mul_of_nonneg_right (le_trans h4 h3) hy0r.le
      have b : -(101 / 100 / 2 ^ 45 : ℝ) * (1 / 990) ≤ -(101 / 100 / 2 ^ 45 : ℝ) * y := mul_le_mul_of_nonpos_left h5 (by norm_num)
      linarith
    have h7 : -(1 / 2 ^ 54 : ℝ) ≤ -(101 / 100 / 2 ^ 45) * (1 / 990) := by norm_num
    rw [hexp]
    linarith

/-- **C181** (negative result): for probabilities from `1 - 2^-45` on the search ends with no bits at all, whatever the number of elements: for many hash functions
`std::pow(p, 1.0 / k)` is `1.0`, the logarithm minus infinity and the requirement zero.  The table gets the least size that the settings allow, though more than a bit for
every 44 elements is needed. -/
theorem C181_near_one (L : Libm) (hL : Accurate L) (h1 : NearOne L) (s : Settings) (hs : s.bad = false) (hc : s.count < 2 ^ 64) (p : ℚ) (hprob : s.prob = .num p)
    (hd : Double p) (hp : 1 - 1 / 2 ^ 45 ≤ p) (hp1 : p ≤ 1 - 1 / 2 ^ 53) :
    (∃ hashes, computeOptimal L s = ok (some (hashes, s.minSize))) ∧ ∀ k, 1 ≤ k → k ≤ 999 → (s.count : ℝ) / 44 ≤ bits s.count p k := by
  obtain ⟨hms, -, -, hcount⟩ := not_bad hs
  have hp1' : p < 1 := lt_of_le_of_lt hp1 (by norm_num)
  have hreq := fun k a b => required_harmless hL h1 s.count hcount hc hd hp hp1' k a b
  have hsearch := search_zero (fun k a b => (hreq k a b).1) ((hreq 999 (by omega) (le_refl _)).2 rfl) 998 1 0 (.inf false) (by omega) (le_refl 1) (.inl rfl)
  constructor
  · refine ⟨optimalHashes (search L s.count (.num p) 999 1 (.inf false) 0).2 s.minHashes s.maxHashes, ?_⟩
    rw [computeOptimal, if_neg (by simp [hs]), hprob, hsearch, toU64, if_pos ⟨by norm_num, by norm_num⟩, ok_bind]
    congr 3
    simp only [Nat.floor_zero]
    norm_num
    omega
  · intro k hk hk9
    have hpr : (1 : ℝ) - 1 / 2 ^ 45 ≤ p := by have := (Rat.cast_le (K := ℝ)).mpr hp; push_cast at this ⊢; exact this
    have hpr1 : (1 : ℝ) / 2 ^ 53 ≤ 1 - p := by have := (Rat.cast_le (K := ℝ)).mpr hp1; push_cast at this ⊢; linarith
    have hp0 : (0 : ℝ) < p := by linarith
    obtain ⟨ha, hb⟩ := root_range hp0 (by linarith) k hk hk9
    have hkr : (1 : ℝ) ≤ k := by exact_mod_cast hk
    have h63 : 1 / 2 ^ 63 ≤ 1 - (p : ℝ) ^ (1 / (k : ℝ)) := by linarith
    have hlog := Real.log_le_log (by positivity) h63
    rw [one_div, Real.log_inv, Real.log_pow] at hlog
    have hl2 := Real.log_two_lt_d9
    push_cast at hlog
    have hneg := Real.log_le_sub_one_of_pos (lt_of_lt_of_le (by positivity) h63)
    unfold bits
    have hn0 : (0 : ℝ) ≤ s.count := by positivity
    refine div_le_div₀ (by positivity) (le_mul_of_one_le_left hn0 hkr) (by linarith) (by linarith)

/-! ## The hypotheses are met -/

theorem near {x : ℝ} (hx : x ≠ 0) : ∃ r : ℚ, |(r : ℝ) - x| ≤ 1 / 2 ^ 50 * |x| := by
  have : 0 < 1 / 2 ^ 50 * |x| := by positivity
  obtain ⟨r, h1, h2⟩ := exists_rat_btwn (show x < x + 1 / 2 ^ 50 * |x| by linarith)
  exact ⟨r, abs_le.mpr ⟨by linarith, by linarith⟩⟩

/-- There is a library as accurate as assumed. -/
theorem accurate_exists : ∃ L : Libm, Accurate L ∧ NearOne L := by
  have hpow : ∀ p y : ℚ, ∃ r : ℚ, 0 < p → |(r : ℝ) - (p : ℝ) ^ (y : ℝ)| ≤ 1 / 2 ^ 50 * (p : ℝ) ^ (y : ℝ) ∧
      ((p : ℝ) ^ (y : ℝ) ≤ 1 → (r = 1 ∨ r ≤ 1 - 1 / 2 ^ 54) ∧ (1 - 1 / 2 ^ 54 ≤ (p : ℝ) ^ (y : ℝ) → r = 1)) := by
    intro p y
    by_cases hp : 0 < p
    · have hp' : (0 : ℝ) < p := by exact_mod_cast hp
      have h0 := Real.rpow_pos_of_pos hp' (y : ℝ)
      generalize (p : ℝ) ^ (y : ℝ) = q at *
      by_cases hq : 1 - 1 / 2 ^ 54 ≤ q
      · by_cases hq1 : q ≤ 1
        · exact ⟨1, fun _ => ⟨by rw [abs_le]; push_cast; constructor <;> linarith, fun _ => ⟨.inl rfl, fun _ => rfl⟩⟩⟩
        · obtain ⟨r, hr⟩ := near h0.ne'
          exact ⟨r, fun _ => ⟨by rwa [abs_of_pos h0] at hr, fun h => absurd h hq1⟩⟩
      · have : 0 < 1 / 2 ^ 50 * q := by positivity
        obtain ⟨r, h1, h2⟩ := exists_rat_btwn (show q - 1 / 2 ^ 50 * q < q by linarith)
        refine ⟨r, fun _ => ⟨by rw [abs_le]; constructor <;> linarith, fun _ => ⟨.inr ?_, fun h => absurd h hq⟩⟩⟩
        have : (r : ℝ) ≤ ((1 - 1 / 2 ^ 54 : ℚ) : ℝ) := by push_cast; linarith
        exact (Rat.cast_le (K := ℝ)).mp this
    · exact ⟨0, fun h => absurd h hp⟩
  have hlog : ∀ x : ℚ, ∃ r : ℚ, (x = 1 → r = 0) ∧ (0 < x → x < 1 → |(r : ℝ) - Real.log x| ≤ 1 / 2 ^ 50 * |Real.log x|) := by
    intro x
    by_cases h : 0 < x ∧ x < 1
    · have h0 : (0 : ℝ) < x := by exact_mod_cast h.1
      have h1 : (x : ℝ) < 1 := by exact_mod_cast h.2
      obtain ⟨r, hr⟩ := near (Real.log_neg h0 h1).ne
      exact ⟨r, fun e => absurd e h.2.ne, fun _ _ => hr⟩
    · exact ⟨0, fun _ => rfl, fun a b => absurd ⟨a, b⟩ h⟩
  choose fp hfp using hpow
  choose fl hfl using hlog
  refine ⟨⟨fun v => match v with | .num x => if x = 0 then .inf true else .num (fl x) | _ => .nan,
    fun a b => match a, b with | .num p, .num y => .num (fp p y) | _, _ => .nan⟩, ⟨?_, ?_, ?_⟩, ⟨?_, ?_⟩⟩
  · intro p y _ _ hp _ _ _
    exact ⟨fp p y, rfl, (hfp p y (lt_of_lt_of_le (by positivity) hp)).1⟩
  · intro x _ h0 h1
    exact ⟨fl x, if_neg h0.ne', (hfl x).2 h0 h1⟩
  · show (if (1 : ℚ) = 0 then Val.inf true else .num (fl 1)) = .num 0
    rw [if_neg (by norm_num), (hfl 1).1 rfl]
  · intro p y _ _ hp hp1 hy _
    have hp0 : 0 < p := lt_of_lt_of_le (by positivity) hp
    exact ⟨fp p y, rfl, (hfp p y hp0).2 (Real.rpow_le_one (by exact_mod_cast hp0.le) (by exact_mod_cast hp1.le) (by exact_mod_cast hy.le))⟩
  · rfl

theorem double_quarter : Double (1 / 4) := by
  have hl : lastPlace (1 / 4 : ℚ) = -54 := by
    have : Int.log 2 |(1 / 4 : ℚ)| = -2 := by
      rw [show |(1 / 4 : ℚ)| = (2 : ℚ) ^ (-2 : ℤ) by norm_num]
      exact Int.log_zpow (b := 2) (by omega) _
    unfold lastPlace
    rw [this]
    norm_num
  unfold Double rnd64
  simp only [hl]
  rw [show (1 / 4 : ℚ) / 2 ^ (-54 : ℤ) = ((2 ^ 52 : ℤ) : ℚ) by norm_num, rne_int]
  norm_num

theorem double_tiny : Double (1 / 2 ^ 60) := by
  have hl : lastPlace (1 / 2 ^ 60 : ℚ) = -112 := by
    have : Int.log 2 |(1 / 2 ^ 60 : ℚ)| = -60 := by
      rw [show |(1 / 2 ^ 60 : ℚ)| = (2 : ℚ) ^ (-60 : ℤ) by norm_num]
      exact Int.log_zpow (b := 2) (by omega) _
    unfold lastPlace
    rw [this]
    norm_num
  unfold Double rnd64
  simp only [hl]
  rw [show (1 / 2 ^ 60 : ℚ) / 2 ^ (-112 : ℤ) = ((2 ^ 52 : ℤ) : ℚ) by norm_num, rne_int]
  norm_num

/-- Ten thousand elements with the probability one quarter. -/
example : ∃ L, Accurate L ∧ ∃ k, 1 ≤ k ∧ k ≤ 999 ∧ ∀ j, 1 ≤ j → j ≤ 999 →
    (1 - err (1 / 4)) * bits 10000 (1 / 4) k ≤ (1 + err (1 / 4)) * bits 10000 (1 / 4) j := by
  obtain ⟨L, hL, -⟩ := accurate_exists
  obtain ⟨k, a, b, c, _⟩ := C181_parameters_partial L hL ⟨1, 2 ^ 64 - 1, 1, 2 ^ 32 - 1, 10000, .num (1 / 4), 7⟩ (by simp [Settings.bad, lt]) (by norm_num) (1 / 4) rfl
    double_quarter (by norm_num) (by norm_num)
  exact ⟨L, hL, k, a, b, by push_cast at c; exact c⟩
example : err (1 / 4) < 1 / 1000000 := C181_error_small _ (by norm_num) (by norm_num)
/-- Nine elements of ten announced, sixteen bits, one hash function, the probability one half. -/
example : effectiveFpp 1 9 (16 + 1) ≤ 1 / 2 := by
  have he := C181_error_small (1 / 2) (by norm_num) (by norm_num)
  have he0 : 0 < err (1 / 2) := by rw [err, if_neg (by norm_num), errAt]; norm_num
  have hb : bits 10 (1 / 2) 1 = 10 / Real.log 2 := by
    simp only [bits]
    norm_num
    rw [show (1 / 2 : ℝ) = 2⁻¹ by norm_num, Real.log_inv, neg_neg]
  have hl : bits 10 (1 / 2) 1 < 16 := by
    have := Real.log_two_gt_d9
    rw [hb, div_lt_iff₀ (by linarith)]
    linarith
  have h0 : 0 < bits 10 (1 / 2) 1 := by
    rw [hb]
    exact div_pos (by norm_num) (Real.log_pos (by norm_num))
  refine C181_probability 10 1 16 9 (1 / 2) (by norm_num) (by norm_num) (by norm_num) (by norm_num) (by linarith) ?_ (by push_cast; linarith)
  have := mul_pos he0 h0
  push_cast
  linarith
/-- One element with the probability `2^-60`: undefined. -/
example : ∃ L, Accurate L ∧ computeOptimal L ⟨1, 2 ^ 64 - 1, 1, 2 ^ 32 - 1, 1, .num (1 / 2 ^ 60), 7⟩ = ub := by
  obtain ⟨L, hL, -⟩ := accurate_exists
  exact ⟨L, hL, C181_tiny_probability L hL _ (by simp [Settings.bad, lt]) (by norm_num) (1 / 2 ^ 60) rfl double_tiny (by norm_num) (by norm_num)⟩

/-- **C181**: precisely the unusable settings are refused: limits in the wrong order, no hash function, no element, a negative or infinite probability, a seed of all zeros or ones. -/
theorem C181_refused (L : Libm) (s : Settings) : computeOptimal L s = ok none ↔
    s.maxSize < s.minSize ∨ s.maxHashes < s.minHashes ∨ s.minHashes = 0 ∨ s.count = 0 ∨ (∃ p : ℚ, s.prob = .num p ∧ p < 0) ∨ (∃ b, s.prob = .inf b) ∨
      s.seed = 0 ∨ s.seed = 0xFFFFFFFFFFFFFFFF := by
  have hprob : (lt s.prob (.num 0) || (match s.prob with | .inf _ => true | _ => false)) = true ↔ (∃ p : ℚ, s.prob = .num p ∧ p < 0) ∨ (∃ b, s.prob = .inf b) := by
    cases s.prob with
    | num p => simp [lt]
    | inf b => cases b <;> simp [lt]
    | nan => simp [lt]
  have hbad : s.bad = true ↔ s.maxSize < s.minSize ∨ s.maxHashes < s.minHashes ∨ s.minHashes = 0 ∨ s.count = 0 ∨ (∃ p : ℚ, s.prob = .num p ∧ p < 0) ∨ (∃ b, s.prob = .inf b) ∨
      s.seed = 0 ∨ s.seed = 0xFFFFFFFFFFFFFFFF := by
    have e : s.bad = (decide (s.minSize > s.maxSize) || decide (s.minHashes > s.maxHashes) || decide (s.minHashes < 1) || decide (0 = s.maxHashes) || decide (0 = s.count) ||
      (lt s.prob (.num 0) || (match s.prob with | .inf _ => true | _ => false)) || decide (0 = s.seed) || decide (0xFFFFFFFFFFFFFFFF = s.seed)) := by
      simp only [Settings.bad, Bool.or_assoc]
    rw [e]
    simp only [Bool.or_eq_true, decide_eq_true_eq] at hprob ⊢
    rw [hprob]
    constructor
    · rintro (((((((h | h) | h) | h) | h) | h) | h) | h)
      · exact .inl h
      · exact .inr (.inl h)
      · exact .inr (.inr (.inl (by omega)))
      · by_cases hh : s.minHashes = 0
        · exact .inr (.inr (.inl hh))
        · exact .inr (.inl (by omega))
      · exact .inr (.inr (.inr (.inl h.symm)))
      · rcases h with h | h
        · exact .inr (.inr (.inr (.inr (.inl h))))
        · exact .inr (.inr (.inr (.inr (.inr (.inl h)))))
      · exact .inr (.inr (.inr (.inr (.inr (.inr (.inl h.symm))))))
      · exact .inr (.inr (.inr (.inr (.inr (.inr (.inr h.symm))))))
    · rintro (h | h | h | h | h | h | h | h)
      · exact .inl (.inl (.inl (.inl (.inl (.inl (.inl h))))))
      · exact .inl (.inl (.inl (.inl (.inl (.inl (.inr h))))))
      · exact .inl (.inl (.inl (.inl (.inl (.inr (by omega))))))
      · exact .inl (.inl (.inl (.inr h.symm)))
      · exact .inl (.inl (.inr (.inl h)))
      · exact .inl (.inl (.inr (.inr h)))
      · exact .inl (.inr h.symm)
      · exact .inr h.symm
  rw [← hbad]
  by_cases h : s.bad = true
  · simp only [computeOptimal, h, if_true]
  · simp only [h, Bool.false_eq_true, iff_false]
    rw [computeOptimal, if_neg h]
    intro hc
    obtain ⟨m, _, h2⟩ := bind_eq_ok.mp hc
    simp at h2

-- a probability of -1
example (L : Libm) : computeOptimal L { minSize := 1, maxSize := 2 ^ 64 - 1, minHashes := 1, maxHashes := 99, count := 10, prob := .num (-1), seed := 5 } = ok none :=
  (C181_refused L _).mpr (.inr (.inr (.inr (.inr (.inl ⟨-1, rfl, by norm_num⟩)))))

theorem double_of_rep {x : ℚ} (h : Rep 53 x) (h0 : (2 : ℚ) ^ (-1022 : ℤ) ≤ |x|) (h1 : |x| < 2 ^ 1024) : Double x := by
  rw [Double, rnd64_eq x (.inr h0), rnd_exact 53 (by omega) x h, if_pos h1]

/-- A milliard elements and the largest number below one: a table of a single bit. -/
example : ∃ L, Accurate L ∧ ∃ hashes, computeOptimal L ⟨1, 2 ^ 64 - 1, 1, 2 ^ 32 - 1, 1000000000, .num (1 - 1 / 2 ^ 53), 7⟩ = ok (some (hashes, 1)) := by
  obtain ⟨L, hL, h1⟩ := accurate_exists
  exact ⟨L, hL, (C181_near_one L hL h1 _ (by simp [Settings.bad, lt]; norm_num) (by norm_num) (1 - 1 / 2 ^ 53) rfl
    (double_of_rep ⟨2 ^ 53 - 1, -53, by norm_num, by norm_num⟩ (by norm_num) (by norm_num)) (by norm_num) (le_refl _)).1⟩

/-- The probabilities `2^-53` and `1 - 2^-31`, between which the parameters are right. -/
example : ∃ L, Accurate L ∧ ∀ p : ℚ, p = 1 / 2 ^ 53 ∨ p = 1 - 1 / 2 ^ 31 → ∃ k, 1 ≤ k ∧ k ≤ 999 ∧ ∀ j, 1 ≤ j → j ≤ 999 →
    (1 - err p) * bits 10000 p k ≤ (1 + err p) * bits 10000 p j := by
  obtain ⟨L, hL, -⟩ := accurate_exists
  refine ⟨L, hL, ?_⟩
  rintro p (rfl | rfl)
  · obtain ⟨k, a, b, c, _⟩ := C181_parameters_partial L hL ⟨1, 2 ^ 64 - 1, 1, 2 ^ 32 - 1, 10000, .num (1 / 2 ^ 53), 7⟩ (by simp [Settings.bad, lt]) (by norm_num) _ rfl
      (double_of_rep ⟨1, -53, by norm_num, by norm_num⟩ (by norm_num) (by norm_num)) (by norm_num) (by norm_num)
    exact ⟨k, a, b, c⟩
  · obtain ⟨k, a, b, c, _⟩ := C181_parameters_partial L hL ⟨1, 2 ^ 64 - 1, 1, 2 ^ 32 - 1, 10000, .num (1 - 1 / 2 ^ 31), 7⟩ (by simp [Settings.bad, lt]; norm_num) (by norm_num) _ rfl
      (double_of_rep ⟨2 ^ 31 - 1, -31, by norm_num, by norm_num⟩ (by norm_num) (by norm_num)) (by norm_num) (by norm_num)
    exact ⟨k, a, b, c⟩

end Strtk.Bloom.Rounded
