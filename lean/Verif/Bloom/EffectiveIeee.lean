import Verif.Bloom.OptimalIeee
import Mathlib.Analysis.Complex.ExponentialBounds
import Mathlib.Algebra.Order.Ring.Pow

/-!
# effective_fpp in IEEE double arithmetic (strtk.hpp 20281-20291), C183

`std::exp` and `std::pow` belong to the library: they are parameters of which an accuracy is assumed.
-/

namespace Strtk.Bloom.Rounded
open Outcome Mem Strtk.Real

set_option exponentiation.threshold 2000

/-- `std::exp` and `std::pow`. -/
structure ExpPow where
  exp : Val → Val
  pow : Val → Val → Val

/-- `effective_fpp` (20281-20291) of a filter with `k` salts, a count of `i` inserted elements and `m` bits; the integers are converted to `double`. -/
def effective (E : ExpPow) (k i m : Nat) : Val :=
  E.pow (add64 (.num 1) (neg (E.exp (div64 (mul64 (mul64 (.num (-1)) (rnd64 k)) (rnd64 i)) (rnd64 m))))) (mul64 (.num 1) (rnd64 k))

/-! ## Specification -/

/-- What is assumed of the library: relative errors of at most `2^-50` (four units in the last place) as long as results are not tiny; tiny ones of `exp` may have any error
that leaves them tiny. -/
structure ExpPow.Accurate (E : ExpPow) : Prop where
  exp : ∀ x : ℚ, Double x → -700 ≤ x → x ≤ 0 → ∃ r : ℚ, E.exp (.num x) = .num r ∧ |(r : ℝ) - Real.exp x| ≤ 1 / 2 ^ 50 * Real.exp x
  exp_low : ∀ x : ℚ, Double x → x < -700 → ∃ r : ℚ, E.exp (.num x) = .num r ∧ |(r : ℝ) - Real.exp x| ≤ 1 / 2 ^ 1000
  exp_zero : E.exp (.num 0) = .num 1
  pow : ∀ d y : ℚ, Double d → Double y → 0 < d → 0 < y → 1 / 2 ^ 1000 ≤ (d : ℝ) ^ (y : ℝ) → (d : ℝ) ^ (y : ℝ) ≤ 2 →
    ∃ r : ℚ, E.pow (.num d) (.num y) = .num r ∧ |(r : ℝ) - (d : ℝ) ^ (y : ℝ)| ≤ 1 / 2 ^ 50 * (d : ℝ) ^ (y : ℝ)
  pow_zero : ∀ y : ℚ, Double y → 0 < y → E.pow (.num 0) (.num y) = .num 0

/-- The relative error of the reported probability. -/
noncomputable def fppErr (k i m : Nat) : ℝ := 1 / 2 ^ 49 + 1 / 2 ^ 46 * max (k : ℝ) (m / i)

/-! ## Steps -/

theorem rnd64_int {z : ℤ} (h : |z| ≤ 2 ^ 53) : rnd64 z = .num z := by
  have hz : (z : ℚ) = 0 ∨ (2 : ℚ) ^ (-1022 : ℤ) ≤ |(z : ℚ)| := by
    by_cases h0 : z = 0
    · exact .inl (by rw [h0]; rfl)
    · right
      have h1 : (1 : ℚ) ≤ |(z : ℚ)| := by exact_mod_cast Int.one_le_abs h0
      exact le_trans (by norm_num) h1
  rw [rnd64_eq _ hz, rnd_exact 53 (by omega) _ (rep_int 53 z h), if_pos]
  have : |(z : ℚ)| ≤ 2 ^ 53 := by exact_mod_cast h
  exact lt_of_le_of_lt this (by norm_num)

theorem rnd64_small {n : Nat} (h : n ≤ 2 ^ 53) : rnd64 n = .num n := by
  have := rnd64_int (z := n) (by rw [abs_of_nonneg (by omega)]; exact_mod_cast h)
  exact_mod_cast this

theorem double_small {n : Nat} (h : n ≤ 2 ^ 53) : Double n := rnd64_small h

theorem double_neg {q : ℚ} (h1 : 1 / 2 ^ 1000 ≤ q) (h2 : q ≤ 2 ^ 1000) : ∃ r : ℚ, rnd64 (-q) = .num (-r) ∧ |r - q| ≤ 1 / 2 ^ 53 * q ∧ Double (-r) := by
  have hq : 0 ≤ q := le_trans (by positivity) h1
  obtain ⟨r, a, b, c⟩ := rnd64_medium (q := -q) (by rwa [abs_neg, abs_of_nonneg hq]) (by rwa [abs_neg, abs_of_nonneg hq])
  refine ⟨-r, by rw [neg_neg]; exact a, ?_, by rw [neg_neg]; exact c⟩
  rw [abs_neg, abs_of_nonneg hq] at b
  rw [abs_sub_comm, show q - -r = r - -q by ring]
  exact b

/-- The argument of `exp`. -/
theorem argument_off {k i m : Nat} (hk : 0 < k) (hk32 : k < 2 ^ 32) (hi : 0 < i) (hi32 : i < 2 ^ 32) (hm : 0 < m) (hm46 : m ≤ 2 ^ 46) :
    ∃ x : ℚ, div64 (mul64 (mul64 (.num (-1)) (rnd64 k)) (rnd64 i)) (rnd64 m) = .num (-x) ∧ |x - (k : ℚ) * i / m| ≤ 1 / 2 ^ 51 * ((k : ℚ) * i / m) ∧ Double (-x) := by
  rw [rnd64_small (n := k) (by omega), rnd64_small (n := i) (by omega), rnd64_small (n := m) (by omega)]
  have e1 : mul64 (.num (-1)) (.num (k : ℚ)) = .num (-(k : ℚ)) := by
    rw [mul64, show (-1 : ℚ) * k = ((-(k : ℤ) : ℤ) : ℚ) by push_cast; ring, rnd64_int (by rw [abs_neg, abs_of_nonneg (by omega)]; omega)]
    push_cast; rfl
  have hN1 : (1 : ℚ) ≤ k * i := by exact_mod_cast Nat.mul_pos hk hi
  have hN2 : (k : ℚ) * i ≤ 2 ^ 64 := by
    have := Nat.mul_le_mul hk32.le hi32.le
    have h2 : (2 : ℕ) ^ 32 * 2 ^ 32 = 2 ^ 64 := by norm_num
    rw [h2] at this
    exact_mod_cast this
  have hm1 : (1 : ℚ) ≤ m := by exact_mod_cast hm
  have hm2 : (m : ℚ) ≤ 2 ^ 46 := by exact_mod_cast hm46
  obtain ⟨p, a1, b1, _⟩ := double_neg (q := (k : ℚ) * i) (le_trans (by norm_num) hN1) (le_trans hN2 (by norm_num))
  have b1' := abs_le.mp b1
  have hp1 : (1 : ℚ) / 2 ≤ p := by linarith
  have hp2 : p ≤ (2 : ℚ) ^ 65 := by linarith
  have hmp : (0 : ℚ) < m := by linarith
  obtain ⟨x, a2, b2, c2⟩ := double_neg (q := p / m)
    (by rw [le_div_iff₀ hmp]
        have h1 : (1 : ℚ) / 2 ^ 1000 * 2 ^ 46 ≤ 1 / 2 := by norm_num
        exact le_trans (mul_le_mul_of_nonneg_left hm2 (by positivity)) (le_trans h1 hp1))
    (by rw [div_le_iff₀ hmp]
        have h1 : (2 : ℚ) ^ 65 ≤ 2 ^ 1000 * 1 := by norm_num
        exact le_trans hp2 (le_trans h1 (mul_le_mul_of_nonneg_left hm1 (by positivity))))
  refine ⟨x, ?_, ?_, c2⟩
  · rw [e1, mul64, neg_mul, a1, div64, if_neg (by linarith), neg_div, a2]
  · have hd : |p / m - (k : ℚ) * i / m| ≤ 1 / 2 ^ 53 * ((k : ℚ) * i / m) := by
      rw [← sub_div, abs_div, abs_of_pos hmp, ← mul_div_assoc]
      exact div_le_div_of_nonneg_right b1 hmp.le
    have hA : 0 ≤ (k : ℚ) * i / m := by positivity
    generalize (k : ℚ) * i / m = A at *
    have hd' := abs_le.mp hd
    have b2' := abs_le.mp b2
    rw [abs_le]
    constructor <;> linarith

theorem mul_exp_half (a : ℝ) (ha : 0 ≤ a) : a * Real.exp (-(a / 2)) ≤ 1 := by
  have h := Real.quadratic_le_exp_of_nonneg (show 0 ≤ a / 2 by linarith)
  rw [Real.exp_neg, ← div_eq_mul_inv, div_le_one (Real.exp_pos _)]
  nlinarith [sq_nonneg (a - 2)]

/-- Exponentials of near arguments. -/
theorem exp_near {a x : ℝ} (ha : 0 ≤ a) (h : |x - a| ≤ 1 / 2 ^ 51 * a) : |Real.exp (-x) - Real.exp (-a)| ≤ 1 / 2 ^ 51 := by
  have h' := abs_le.mp h
  have hx : a / 2 ≤ x := by linarith
  -- the difference is at most the distance of the arguments times the larger exponential
  have key : ∀ s t : ℝ, Real.exp s - Real.exp t ≤ (s - t) * Real.exp s := by
    intro s t
    have h1 := Real.add_one_le_exp (t - s)
    have h2 : Real.exp t = Real.exp (t - s) * Real.exp s := by rw [← Real.exp_add]; ring_nf
    have h3 := mul_le_mul_of_nonneg_right h1 (Real.exp_pos s).le
    rw [h2]; linarith
  have m := mul_exp_half a ha
  have e1 : Real.exp (-x) ≤ Real.exp (-(a / 2)) := Real.exp_le_exp.mpr (by linarith)
  have e2 : Real.exp (-a) ≤ Real.exp (-(a / 2)) := Real.exp_le_exp.mpr (by linarith)
  have hb : 1 / 2 ^ 51 * a * Real.exp (-(a / 2)) ≤ 1 / 2 ^ 51 := by
    rw [mul_assoc]
    exact le_trans (mul_le_mul_of_nonneg_left m (by positivity)) (by norm_num)
  have hc : 0 ≤ 1 / 2 ^ 51 * a := by positivity
  rw [abs_le]
  constructor
  · have k1 := key (-a) (-x)
    have k2 : (-a - -x) * Real.exp (-a) ≤ 1 / 2 ^ 51 * a * Real.exp (-(a / 2)) :=
      le_trans (mul_le_mul_of_nonneg_right (by linarith) (Real.exp_pos _).le) (mul_le_mul_of_nonneg_left e2 hc)
    linarith
  · have k1 := key (-x) (-a)
    have k2 : (-x - -a) * Real.exp (-x) ≤ 1 / 2 ^ 51 * a * Real.exp (-(a / 2)) :=
      le_trans (mul_le_mul_of_nonneg_right (by linarith) (Real.exp_pos _).le) (mul_le_mul_of_nonneg_left e1 hc)
    linarith

/-- The share of bits that are set, from below. -/
theorem share_ge {a : ℝ} (ha : 0 ≤ a) : min a 1 / 2 ≤ 1 - Real.exp (-a) := by
  have h1 := Real.add_one_le_exp a
  have h2 : Real.exp (-a) ≤ 1 / (1 + a) := by
    rw [Real.exp_neg, ← one_div]
    exact one_div_le_one_div_of_le (by linarith) (by linarith)
  have h3 : 1 - 1 / (1 + a) = a / (1 + a) := by field_simp; ring
  have h4 : min a 1 / 2 ≤ a / (1 + a) := by
    rw [div_le_div_iff₀ (by norm_num) (by linarith)]
    rcases le_total a 1 with h | h
    · rw [min_eq_left h]; nlinarith
    · rw [min_eq_right h]; linarith
  linarith

/-- Powers of near numbers. -/
theorem pow_near {D d ρ : ℝ} (hD : 0 < D) (k : Nat) (hk : 0 < k) (hρ : 0 ≤ ρ) (hkρ : k * ρ ≤ 1 / 2) (h : |d - D| ≤ ρ * D) :
    0 < d ∧ |d ^ (k : ℝ) - D ^ (k : ℝ)| ≤ 2 * (k * ρ) * D ^ (k : ℝ) := by
  have h' := abs_le.mp h
  have hk1 : (1 : ℝ) ≤ k := by exact_mod_cast hk
  have hρ1 : ρ ≤ 1 / 2 := by nlinarith
  have hd : (1 - ρ) * D ≤ d := by linarith
  have hd2 : d ≤ (1 + ρ) * D := by linarith
  have hdp : 0 < d := lt_of_lt_of_le (mul_pos (by linarith) hD) hd
  have hDk : 0 < D ^ k := pow_pos hD k
  refine ⟨hdp, ?_⟩
  rw [Real.rpow_natCast, Real.rpow_natCast, abs_le]
  constructor
  · have b := one_add_mul_le_pow (show (-2 : ℝ) ≤ -ρ by linarith) k
    have p1 : ((1 - ρ) * D) ^ k ≤ d ^ k := pow_le_pow_left₀ (mul_nonneg (by linarith) hD.le) hd k
    rw [mul_pow, show (1 : ℝ) - ρ = 1 + -ρ by ring] at p1
    have p2 := mul_le_mul_of_nonneg_right b hDk.le
    have p3 : 0 ≤ (k : ℝ) * ρ * D ^ k := by positivity
    nlinarith
  · have p1 : d ^ k ≤ ((1 + ρ) * D) ^ k := pow_le_pow_left₀ hdp.le hd2 k
    have e : (1 + ρ) ^ k ≤ Real.exp (k * ρ) := by
      rw [mul_comm, Real.exp_mul, Real.rpow_natCast]
      have := Real.add_one_le_exp ρ
      exact pow_le_pow_left₀ (by linarith) (by linarith) k
    have e2 : Real.exp (k * ρ) ≤ 1 + 2 * (k * ρ) := by
      have h0 : 0 ≤ (k : ℝ) * ρ := by positivity
      have h1 : 1 - k * ρ ≤ Real.exp (-(k * ρ)) := by have := Real.add_one_le_exp (-(k * ρ)); linarith
      rw [Real.exp_neg] at h1
      have hE := Real.exp_pos (k * ρ)
      have h2 : (1 - k * ρ) * Real.exp (k * ρ) ≤ 1 := by
        have := mul_le_mul_of_nonneg_right h1 hE.le
        rwa [inv_mul_cancel₀ hE.ne'] at this
      nlinarith
    rw [mul_pow] at p1
    have p2 := mul_le_mul_of_nonneg_right (le_trans e e2) hDk.le
    linarith

/-- The exponential computed. -/
theorem exp_off {E : ExpPow} (hE : E.Accurate) {x : ℚ} {a : ℝ} (ha : 0 ≤ a) (hx : |(x : ℝ) - a| ≤ 1 / 2 ^ 51 * a) (hd : Double (-x)) :
    ∃ e : ℚ, E.exp (.num (-x)) = .num e ∧ |(e : ℝ) - Real.exp (-a)| ≤ 1 / 2 ^ 49 := by
  have h1 := abs_le.mp (exp_near ha hx)
  have hx0 : (0 : ℝ) ≤ x := by have := (abs_le.mp hx).1; linarith
  have hx0q : (0 : ℚ) ≤ x := by exact_mod_cast hx0
  have hle : Real.exp (-(x : ℝ)) ≤ 1 := Real.exp_le_one_iff.mpr (by linarith)
  rcases le_or_gt (-700) (-x) with h | h
  · obtain ⟨e, he, hb⟩ := hE.exp (-x) hd h (by linarith)
    refine ⟨e, he, ?_⟩
    push_cast at hb
    have hb' := abs_le.mp hb
    rw [abs_le]
    constructor <;> linarith
  · obtain ⟨e, he, hb⟩ := hE.exp_low (-x) hd h
    refine ⟨e, he, ?_⟩
    push_cast at hb
    have hb' := abs_le.mp hb
    have hs : (1 : ℝ) / 2 ^ 1000 ≤ 1 / 2 ^ 50 := by norm_num
    rw [abs_le]
    constructor <;> linarith

/-- The base of the power. -/
theorem base_off {E : ExpPow} (hE : E.Accurate) {k i m : Nat} (hk : 0 < k) (hk32 : k < 2 ^ 32) (hi : 0 < i) (hi32 : i < 2 ^ 32) (hm : 0 < m) (hm46 : m ≤ 2 ^ 46) :
    ∃ e d : ℚ, E.exp (div64 (mul64 (mul64 (.num (-1)) (rnd64 k)) (rnd64 i)) (rnd64 m)) = .num e ∧ rnd64 (1 - e) = .num d ∧ Double d ∧ 1 / 2 ^ 48 ≤ 1 - e ∧ 1 - e ≤ 2 ∧
      |(d : ℝ) - (1 - Real.exp (-((k : ℝ) * i / m)))| ≤ 1 / 2 ^ 48 := by
  obtain ⟨x, e1, hx, hdx⟩ := argument_off hk hk32 hi hi32 hm hm46
  have hxr : |(x : ℝ) - (k : ℝ) * i / m| ≤ 1 / 2 ^ 51 * ((k : ℝ) * i / m) := by
    have := (Rat.cast_le (K := ℝ)).mpr hx
    push_cast at this
    exact this
  have hm1 : (1 : ℝ) ≤ m := by exact_mod_cast hm
  have hm2 : (m : ℝ) ≤ 2 ^ 46 := by exact_mod_cast hm46
  have hN : (1 : ℝ) ≤ (k : ℝ) * i := by exact_mod_cast Nat.mul_pos hk hi
  have ha : 1 / 2 ^ 46 ≤ (k : ℝ) * i / m := by
    rw [div_le_div_iff₀ (by positivity) (by linarith)]
    nlinarith
  generalize (k : ℝ) * i / m = a at *
  have ha0 : 0 ≤ a := le_trans (by positivity) ha
  obtain ⟨e, e2, he⟩ := exp_off hE ha0 hxr hdx
  have hs := share_ge ha0
  have hmin : 1 / 2 ^ 46 ≤ min a 1 := le_min ha (by norm_num)
  have he' := abs_le.mp he
  have hpos := Real.exp_pos (-a)
  have q1 : (1 : ℝ) / 2 ^ 48 ≤ 1 - e := by linarith
  have q2 : (1 : ℝ) - e ≤ 2 := by linarith
  have q1' : (1 : ℚ) / 2 ^ 48 ≤ 1 - e := by
    have : (((1 : ℚ) / 2 ^ 48 : ℚ) : ℝ) ≤ ((1 - e : ℚ) : ℝ) := by push_cast; exact q1
    exact (Rat.cast_le (K := ℝ)).mp this
  have q2' : 1 - e ≤ (2 : ℚ) := by
    have : ((1 - e : ℚ) : ℝ) ≤ ((2 : ℚ) : ℝ) := by push_cast; exact q2
    exact (Rat.cast_le (K := ℝ)).mp this
  obtain ⟨d, e3, hd, hdd⟩ := rnd64_real (q := 1 - e) (le_trans (by norm_num) q1') (le_trans q2' (by norm_num))
  refine ⟨e, d, by rw [e1, e2], e3, hdd, q1', q2', ?_⟩
  push_cast at hd
  have hd' := abs_le.mp hd
  rw [abs_le]
  constructor <;> linarith

theorem effective_eq (E : ExpPow) {k i m : Nat} (hk32 : k < 2 ^ 32) {e d : ℚ}
    (h1 : E.exp (div64 (mul64 (mul64 (.num (-1)) (rnd64 k)) (rnd64 i)) (rnd64 m)) = .num e) (h2 : rnd64 (1 - e) = .num d) :
    effective E k i m = E.pow (.num d) (.num k) := by
  have e1 : mul64 (.num 1) (rnd64 k) = .num k := by
    rw [rnd64_small (n := k) (by omega), mul64, one_mul, rnd64_small (by omega)]
  rw [effective, h1, e1, neg, add64, ← sub_eq_add_neg, h2]

/-! ## C183 -/

/-- **The reported probability is accurate.** -/
theorem C183_accurate {E : ExpPow} (hE : E.Accurate) {k i m : Nat} (hk : 0 < k) (hk32 : k < 2 ^ 32) (hi : 0 < i) (hi32 : i < 2 ^ 32) (hm : 0 < m) (hm45 : m ≤ 2 ^ 45)
    (hf : 1 / 2 ^ 999 ≤ effectiveFpp k i m) :
    ∃ r : ℚ, effective E k i m = .num r ∧ |(r : ℝ) - effectiveFpp k i m| ≤ fppErr k i m * effectiveFpp k i m := by
  obtain ⟨e, d, e1, e2, hdd, _, _, hd⟩ := base_off hE hk hk32 hi hi32 hm (by omega)
  have hk0 : (0 : ℝ) < k := by exact_mod_cast hk
  have hk46 : (k : ℝ) ≤ 2 ^ 32 := by exact_mod_cast hk32.le
  have hi0 : (0 : ℝ) < i := by exact_mod_cast hi
  have hi1 : (1 : ℝ) ≤ i := by exact_mod_cast hi
  have hm0 : (0 : ℝ) < m := by exact_mod_cast hm
  have hm2 : (m : ℝ) ≤ 2 ^ 45 := by exact_mod_cast hm45
  have ef : effectiveFpp k i m = (1 - Real.exp (-((k : ℝ) * i / m))) ^ (k : ℝ) := by
    rw [effectiveFpp, one_mul, show -1 * (k : ℝ) * i / m = -((k : ℝ) * i / m) by ring]
  have ha0 : 0 < (k : ℝ) * i / m := by positivity
  have hs := share_ge ha0.le
  -- the relative error of the base
  have hρ : (k : ℝ) * (1 / 2 ^ 47 / min ((k : ℝ) * i / m) 1) = 1 / 2 ^ 47 * max (k : ℝ) (m / i) := by
    rcases le_total ((k : ℝ) * i / m) 1 with h | h
    · rw [min_eq_left h]
      have : (k : ℝ) ≤ m / i := by rw [div_le_one hm0] at h; rwa [le_div_iff₀ hi0]
      rw [max_eq_right this]
      field_simp
    · rw [min_eq_right h]
      have : (m : ℝ) / i ≤ k := by rw [one_le_div hm0] at h; rwa [div_le_iff₀ hi0]
      rw [max_eq_left this]
      ring
  have hmax : max (k : ℝ) (m / i) ≤ 2 ^ 45 := by
    refine max_le (le_trans hk46 (by norm_num)) ?_
    rw [div_le_iff₀ hi0]
    nlinarith
  have hmin0 : 0 < min ((k : ℝ) * i / m) 1 := lt_min ha0 one_pos
  rw [ef] at hf ⊢
  have hfe : fppErr k i m = 1 / 2 ^ 49 + 2 * (1 / 2 ^ 47 * max (k : ℝ) (m / i)) := by rw [fppErr]; ring
  rw [hfe]
  have hle : 1 - Real.exp (-((k : ℝ) * i / m)) ≤ 1 := by have := Real.exp_pos (-((k : ℝ) * i / m)); linarith
  generalize hD : 1 - Real.exp (-((k : ℝ) * i / m)) = D at *
  have hD0 : 0 < D := lt_of_lt_of_le (by positivity) hs
  have hrel : |(d : ℝ) - D| ≤ 1 / 2 ^ 47 / min ((k : ℝ) * i / m) 1 * D := by
    refine le_trans hd ?_
    have h1 := mul_le_mul_of_nonneg_left hs (show 0 ≤ 1 / 2 ^ 47 / min ((k : ℝ) * i / m) 1 by positivity)
    have h2 : (1 : ℝ) / 2 ^ 47 / min ((k : ℝ) * i / m) 1 * (min ((k : ℝ) * i / m) 1 / 2) = 1 / 2 ^ 48 := by
      field_simp
      try norm_num
    linarith
  obtain ⟨hdp, hp⟩ := pow_near hD0 k hk (by positivity) (by rw [hρ]; nlinarith) hrel
  rw [hρ] at hp
  have hM : 0 ≤ max (k : ℝ) (m / i) := le_trans hk0.le (le_max_left _ _)
  have hDk1 : D ^ (k : ℝ) ≤ 1 := Real.rpow_le_one hD0.le hle hk0.le
  have hDk0 : 0 < D ^ (k : ℝ) := Real.rpow_pos_of_pos hD0 _
  generalize max (k : ℝ) (m / i) = M at *
  have hη : 2 * (1 / 2 ^ 47 * M) ≤ 1 / 2 := by linarith
  have hη0 : 0 ≤ 2 * (1 / 2 ^ 47 * M) := by positivity
  generalize 2 * (1 / 2 ^ 47 * M) = η at *
  have hp' := abs_le.mp hp
  have hηf : η * D ^ (k : ℝ) ≤ 1 / 2 * D ^ (k : ℝ) := mul_le_mul_of_nonneg_right hη hDk0.le
  have hT : (1 : ℝ) / 2 ^ 1000 = 1 / 2 * (1 / 2 ^ 999) := by norm_num
  have hlow : (1 : ℝ) / 2 ^ 1000 ≤ (d : ℝ) ^ (k : ℝ) := by
    rw [hT]
    linarith
  have hdq : 0 < d := by exact_mod_cast hdp
  obtain ⟨r, e3, hr⟩ := hE.pow d k hdd (double_small (by omega)) hdq (by exact_mod_cast hk) (by push_cast; exact hlow) (by push_cast; linarith)
  push_cast at hr
  refine ⟨r, by rw [effective_eq E hk32 e1 e2, e3], ?_⟩
  have hr' := abs_le.mp hr
  rw [abs_le]
  constructor <;> nlinarith

/-- **C183**: with the parameters of C120 and no more elements than announced, the probability asked for is kept up to the error of the report. -/
theorem C183_promise {E : ExpPow} (hE : E.Accurate) {n k i m : Nat} {p : ℝ} (hp : 0 < p) (hp1 : p < 1) (hk : 0 < k) (hk32 : k < 2 ^ 32) (hi : 0 < i) (hi32 : i < 2 ^ 32)
    (hn : i ≤ n) (hm : bits n p k ≤ m) (hm45 : m ≤ 2 ^ 45) (hf : 1 / 2 ^ 999 ≤ effectiveFpp k i m) :
    ∃ r : ℚ, effective E k i m = .num r ∧ (r : ℝ) ≤ (1 + fppErr k i m) * p := by
  have hn0 : 0 < n := by omega
  have hb := (bits_solves hp hp1 hk hn0).1
  have hm0 : 0 < m := by
    have : (0 : ℝ) < m := lt_of_lt_of_le hb hm
    exact_mod_cast this
  obtain ⟨r, h1, h2⟩ := C183_accurate hE hk hk32 hi hi32 hm0 hm45 hf
  have h3 := fpp_le hp hp1 hk hn0 hn hm
  have h4 := (abs_le.mp h2).2
  have h5 : 0 ≤ fppErr k i m := by unfold fppErr; positivity
  exact ⟨r, h1, by nlinarith⟩

/-- **C183**: an empty filter reports zero. -/
theorem C183_empty {E : ExpPow} (hE : E.Accurate) {k m : Nat} (hk : 0 < k) (hk32 : k < 2 ^ 32) (hm : 0 < m) (hm53 : m ≤ 2 ^ 53) : effective E k 0 m = .num 0 := by
  have h0 : rnd64 0 = .num 0 := by have := rnd64_small (n := 0) (by omega); exact_mod_cast this
  have e1 : div64 (mul64 (mul64 (.num (-1)) (rnd64 k)) (rnd64 (0 : ℕ))) (rnd64 m) = .num 0 := by
    have hk' : mul64 (.num (-1)) (.num (k : ℚ)) = .num (-(k : ℚ)) := by
      rw [mul64, show (-1 : ℚ) * k = ((-(k : ℤ) : ℤ) : ℚ) by push_cast; ring, rnd64_int (by rw [abs_neg, abs_of_nonneg (by omega)]; omega)]
      push_cast; rfl
    have hm' : (m : ℚ) ≠ 0 := by exact_mod_cast hm.ne'
    rw [rnd64_small (n := k) (by omega), rnd64_small (n := 0) (by omega), rnd64_small hm53, hk', mul64, Nat.cast_zero, mul_zero, h0, div64, if_neg hm', zero_div, h0]
  rw [effective_eq E hk32 (by rw [e1, hE.exp_zero]) (by rw [sub_self, h0])]
  exact hE.pow_zero k (double_small (by omega)) (by exact_mod_cast hk)

/-- What else a good library does: `exp` and `pow` do not fall where the functions rise. -/
structure ExpPow.Monotone (E : ExpPow) : Prop where
  exp : ∀ x y a b : ℚ, Double x → Double y → x ≤ y → y ≤ 0 → E.exp (.num x) = .num a → E.exp (.num y) = .num b → a ≤ b
  pow : ∀ c d y a b : ℚ, Double c → Double d → Double y → 0 < c → c ≤ d → 0 < y → E.pow (.num c) (.num y) = .num a → E.pow (.num d) (.num y) = .num b → a ≤ b

theorem rnd_mono {p : Nat} (hp : 1 ≤ p) {q s : ℚ} (h : q ≤ s) : rnd p q ≤ rnd p s := by
  by_contra hc
  push_neg at hc
  have h1 := (rnd_nearest p hp q).2 _ (rnd_rep p hp s)
  have h2 := (rnd_nearest p hp s).2 _ (rnd_rep p hp q)
  have h3 : (rnd p q + rnd p s) / 2 ≤ q := by
    by_contra hq
    push_neg at hq
    rw [abs_of_pos (by linarith)] at h1
    rcases abs_cases (rnd p s - q) with ⟨e, _⟩ | ⟨e, _⟩ <;> rw [e] at h1 <;> linarith
  have h4 : s ≤ (rnd p q + rnd p s) / 2 := by
    by_contra hq
    push_neg at hq
    rw [abs_sub_comm, abs_of_pos (by linarith)] at h2
    rcases abs_cases (rnd p q - s) with ⟨e, _⟩ | ⟨e, _⟩ <;> rw [e] at h2 <;> linarith
  have : q = s := by linarith
  rw [this] at hc
  exact lt_irrefl _ hc

theorem rnd64_mono {q s r t : ℚ} (hq : 1 / 2 ^ 1000 ≤ |q|) (hs : 1 / 2 ^ 1000 ≤ |s|) (h : q ≤ s) (h1 : rnd64 q = .num r) (h2 : rnd64 s = .num t) : r ≤ t := by
  have hz : (2 : ℚ) ^ (-1022 : ℤ) ≤ 1 / 2 ^ 1000 := by norm_num
  rw [rnd64_eq _ (.inr (le_trans hz hq))] at h1
  rw [rnd64_eq _ (.inr (le_trans hz hs))] at h2
  split at h1
  · split at h2
    · cases h1; cases h2; exact rnd_mono (by omega) h
    · cases h2
  · cases h1

theorem quotient_mono {k i j m : Nat} (hk : 0 < k) (hk32 : k < 2 ^ 32) (hi : 0 < i) (hij : i ≤ j) (hj32 : j < 2 ^ 32) (hm : 0 < m) (hm46 : m ≤ 2 ^ 46) {x y : ℚ}
    (hx : div64 (mul64 (mul64 (.num (-1)) (rnd64 k)) (rnd64 i)) (rnd64 m) = .num x) (hy : div64 (mul64 (mul64 (.num (-1)) (rnd64 k)) (rnd64 j)) (rnd64 m) = .num y) : y ≤ x := by
  have e1 : mul64 (.num (-1)) (.num (k : ℚ)) = .num (-(k : ℚ)) := by
    rw [mul64, show (-1 : ℚ) * k = ((-(k : ℤ) : ℤ) : ℚ) by push_cast; ring, rnd64_int (by rw [abs_neg, abs_of_nonneg (by omega)]; omega)]
    push_cast; rfl
  have hm1 : (1 : ℚ) ≤ m := by exact_mod_cast hm
  have hm2 : (m : ℚ) ≤ 2 ^ 46 := by exact_mod_cast hm46
  -- the products
  have prod : ∀ i : Nat, 0 < i → i < 2 ^ 32 → ∃ p : ℚ, rnd64 (-((k : ℚ) * i)) = .num (-p) ∧ 1 / 2 ≤ p ∧ 1 ≤ (k : ℚ) * i := by
    intro i hi hi32
    have hN1 : (1 : ℚ) ≤ k * i := by exact_mod_cast Nat.mul_pos hk hi
    have hN2 : (k : ℚ) * i ≤ 2 ^ 64 := by
      have := Nat.mul_le_mul hk32.le hi32.le
      have h2 : (2 : ℕ) ^ 32 * 2 ^ 32 = 2 ^ 64 := by norm_num
      rw [h2] at this
      exact_mod_cast this
    obtain ⟨p, a1, b1, _⟩ := double_neg (q := (k : ℚ) * i) (le_trans (by norm_num) hN1) (le_trans hN2 (by norm_num))
    have b1' := abs_le.mp b1
    exact ⟨p, a1, by linarith, hN1⟩
  obtain ⟨p, a1, b1, c1⟩ := prod i hi (by omega)
  obtain ⟨q, a2, b2, c2⟩ := prod j (by omega) hj32
  have hle : (k : ℚ) * i ≤ k * j := by exact_mod_cast Nat.mul_le_mul_left k hij
  have hpq : -q ≤ -p := rnd64_mono (by rw [abs_neg, abs_of_pos (by linarith)]; exact le_trans (by norm_num) c2) (by rw [abs_neg, abs_of_pos (by linarith)]; exact le_trans (by norm_num) c1)
    (by linarith) a2 a1
  have hmp : (0 : ℚ) < m := by linarith
  have big : ∀ p : ℚ, 1 / 2 ≤ p → 1 / 2 ^ 1000 ≤ |-p / (m : ℚ)| := by
    intro p hp
    rw [abs_div, abs_neg, abs_of_pos (by linarith : 0 < p), abs_of_pos hmp, le_div_iff₀ hmp]
    have h1 : (1 : ℚ) / 2 ^ 1000 * 2 ^ 46 ≤ 1 / 2 := by norm_num
    exact le_trans (mul_le_mul_of_nonneg_left hm2 (by positivity)) (le_trans h1 hp)
  rw [rnd64_small (n := k) (by omega), rnd64_small (n := m) (by omega), e1] at hx hy
  rw [rnd64_small (n := i) (by omega), mul64, neg_mul, a1, div64, if_neg hmp.ne'] at hx
  rw [rnd64_small (n := j) (by omega), mul64, neg_mul, a2, div64, if_neg hmp.ne'] at hy
  exact rnd64_mono (big q b2) (big p b1) (div_le_div_of_nonneg_right hpq hmp.le) hy hx

/-- **C183**: the reported probability does not fall while elements are inserted. -/
theorem C183_monotone {E : ExpPow} (hE : E.Accurate) (hM : E.Monotone) {k i j m : Nat} (hk : 0 < k) (hk32 : k < 2 ^ 32) (hi : 0 < i) (hij : i ≤ j) (hj32 : j < 2 ^ 32)
    (hm : 0 < m) (hm46 : m ≤ 2 ^ 46) (r s : ℚ) (hr : effective E k i m = .num r) (hs : effective E k j m = .num s) : r ≤ s := by
  have hi32 : i < 2 ^ 32 := by omega
  have hj : 0 < j := by omega
  obtain ⟨e1, d1, a1, b1, c1, l1, u1, f1⟩ := base_off hE hk hk32 hi hi32 hm hm46
  obtain ⟨e2, d2, a2, b2, c2, l2, u2, f2⟩ := base_off hE hk hk32 hj hj32 hm hm46
  obtain ⟨x, g1, n1, dx⟩ := argument_off hk hk32 hi hi32 hm hm46
  obtain ⟨y, g2, n2, dy⟩ := argument_off hk hk32 hj hj32 hm hm46
  have hyx := quotient_mono hk hk32 hi hij hj32 hm hm46 g1 g2
  have hx0 : -x ≤ 0 := by
    have hA : 0 ≤ (k : ℚ) * i / m := by positivity
    have := (abs_le.mp n1).1
    linarith
  rw [g1] at a1
  rw [g2] at a2
  have he : e2 ≤ e1 := hM.exp _ _ _ _ dy dx hyx hx0 a2 a1
  have hd : d1 ≤ d2 := rnd64_mono (by rw [abs_of_pos (lt_of_lt_of_le (by norm_num) l1)]; exact le_trans (by norm_num) l1)
    (by rw [abs_of_pos (lt_of_lt_of_le (by norm_num) l2)]; exact le_trans (by norm_num) l2) (by linarith) b1 b2
  rw [effective_eq E hk32 (by rw [g1, a1]) b1] at hr
  rw [effective_eq E hk32 (by rw [g2, a2]) b2] at hs
  have hd0 : 0 < d1 := by
    obtain ⟨d, q1, q2, _⟩ := rnd64_real (q := 1 - e1) (le_trans (by norm_num) l1) (le_trans u1 (by norm_num))
    rw [b1] at q1
    cases q1
    have l1' : (1 : ℝ) / 2 ^ 48 ≤ 1 - e1 := by have := (Rat.cast_le (K := ℝ)).mpr l1; push_cast at this ⊢; exact this
    push_cast at q2
    have := (abs_le.mp q2).1
    have h : (0 : ℝ) < d1 := by linarith
    exact_mod_cast h
  exact hM.pow _ _ _ _ _ c1 c2 (double_small (n := k) (by omega)) hd0 hd (by exact_mod_cast hk) hr hs

/-! ## A library as good as assumed -/

/-- Fixed point with 1100 binary places. -/
noncomputable def fixed (v : ℝ) : ℚ := ⌊v * 2 ^ 1100⌋ / 2 ^ 1100

theorem fixed_mono {v w : ℝ} (h : v ≤ w) : fixed v ≤ fixed w := by
  unfold fixed
  refine div_le_div_of_nonneg_right ?_ (by positivity)
  exact_mod_cast Int.floor_le_floor (mul_le_mul_of_nonneg_right h (by positivity))

theorem fixed_near (v : ℝ) : |(fixed v : ℝ) - v| ≤ 1 / 2 ^ 1100 := by
  have h1 := Int.floor_le (v * 2 ^ 1100)
  have h2 := Int.lt_floor_add_one (v * 2 ^ 1100)
  have e : (fixed v : ℝ) = (⌊v * 2 ^ 1100⌋ : ℝ) / 2 ^ 1100 := by unfold fixed; push_cast; rfl
  have hP : (0 : ℝ) < 2 ^ 1100 := by positivity
  rw [e]
  generalize (2 : ℝ) ^ 1100 = P at *
  have e2 : (⌊v * P⌋ : ℝ) / P - v = (⌊v * P⌋ - v * P) / P := by field_simp
  rw [e2, abs_div, abs_of_pos hP]
  refine div_le_div_of_nonneg_right ?_ hP.le
  rw [abs_le]
  constructor <;> linarith

theorem exp_700 {x : ℝ} (h : -700 ≤ x) : (1 : ℝ) / 2 ^ 1010 ≤ Real.exp x := by
  have h2 := Real.log_two_gt_d9
  have : (1 : ℝ) / 2 ^ 1010 = Real.exp (-(1010 * Real.log 2)) := by
    rw [Real.exp_neg, mul_comm, Real.exp_mul, Real.exp_log (by norm_num), ← one_div]
    norm_num
  rw [this]
  exact Real.exp_le_exp.mpr (by linarith)

theorem good_exists : ∃ E : ExpPow, E.Accurate ∧ E.Monotone := by
  refine ⟨⟨fun | .num x => .num (fixed (Real.exp x)) | _ => .nan, fun | .num d, .num y => .num (fixed ((d : ℝ) ^ (y : ℝ))) | _, _ => .nan⟩, ?_, ?_⟩
  · constructor
    · intro x _ h _
      refine ⟨_, rfl, le_trans (fixed_near _) ?_⟩
      have hx : (-700 : ℝ) ≤ x := by have := (Rat.cast_le (K := ℝ)).mpr h; push_cast at this; exact this
      have := mul_le_mul_of_nonneg_left (exp_700 hx) (show (0 : ℝ) ≤ 1 / 2 ^ 50 by positivity)
      exact le_trans (by norm_num) this
    · intro x _ _
      exact ⟨_, rfl, le_trans (fixed_near _) (by norm_num)⟩
    · simp only [Rat.cast_zero, Real.exp_zero, fixed, one_mul, Val.num.injEq]
      have : ⌊(2 : ℝ) ^ 1100⌋ = (2 : ℤ) ^ 1100 := by
        rw [show (2 : ℝ) ^ 1100 = (((2 : ℤ) ^ 1100 : ℤ) : ℝ) from (Int.cast_pow 2 1100).symm, Int.floor_intCast]
      rw [this]
      push_cast
      exact div_self (by positivity)
    · intro d y _ _ _ _ h _
      refine ⟨_, rfl, le_trans (fixed_near _) ?_⟩
      have := mul_le_mul_of_nonneg_left h (show (0 : ℝ) ≤ 1 / 2 ^ 50 by positivity)
      exact le_trans (by norm_num) this
    · intro y _ hy
      have : (y : ℝ) ≠ 0 := by exact_mod_cast hy.ne'
      simp [Real.zero_rpow this, fixed]
  · constructor
    · intro x y a b _ _ hxy _ ha hb
      cases ha; cases hb
      exact fixed_mono (Real.exp_le_exp.mpr (by exact_mod_cast hxy))
    · intro c d y a b _ _ _ hc hcd hy ha hb
      cases ha; cases hb
      exact fixed_mono (Real.rpow_le_rpow (by exact_mod_cast hc.le) (by exact_mod_cast hcd) (by exact_mod_cast hy.le))

/-- One hash function, one element, a table of eight bits. -/
theorem fpp_eight : 1 / 16 ≤ effectiveFpp 1 1 8 := by
  have h := share_ge (a := 1 / 8) (by norm_num)
  rw [min_eq_left (by norm_num)] at h
  rw [effectiveFpp]
  norm_num at h ⊢
  linarith

example : ∃ E : ExpPow, E.Accurate ∧ E.Monotone ∧ ∃ r : ℚ, effective E 1 1 8 = .num r ∧ |(r : ℝ) - effectiveFpp 1 1 8| ≤ fppErr 1 1 8 * effectiveFpp 1 1 8 := by
  obtain ⟨E, h1, h2⟩ := good_exists
  exact ⟨E, h1, h2, C183_accurate h1 (by norm_num) (by norm_num) (by norm_num) (by norm_num) (by norm_num) (by norm_num) (le_trans (by norm_num) fpp_eight)⟩

example : fppErr 1 1 8 < 1 / 2 ^ 42 := by
  unfold fppErr
  rw [max_eq_right (by norm_num)]
  norm_num

example (E : ExpPow) (h : E.Accurate) : effective E 7 0 4096 = .num 0 := C183_empty h (by norm_num) (by norm_num) (by norm_num) (by norm_num)

-- half of the bits of a filter with one hash function are needed for a probability of one half
example (E : ExpPow) (h : E.Accurate) : ∃ r : ℚ, effective E 1 1 8 = .num r ∧ (r : ℝ) ≤ (1 + fppErr 1 1 8) * (1 / 2) := by
  refine C183_promise (n := 1) h (by norm_num) (by norm_num) (by norm_num) (by norm_num) (by norm_num) (by norm_num) (le_refl _) ?_ (by norm_num) (le_trans (by norm_num) fpp_eight)
  have := Real.log_two_gt_d9
  unfold bits
  norm_num
  rw [one_div 2, Real.log_inv, inv_neg, neg_neg, ← one_div, div_le_iff₀ (by linarith)]
  linarith

example (E : ExpPow) (h : E.Accurate) (h' : E.Monotone) (r s : ℚ) (hr : effective E 3 5 64 = .num r) (hs : effective E 3 6 64 = .num s) : r ≤ s :=
  C183_monotone h h' (by norm_num) (by norm_num) (by norm_num) (by norm_num) (by norm_num) (by norm_num) (by norm_num) r s hr hs

end Strtk.Bloom.Rounded
