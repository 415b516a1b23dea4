import Verif.Real.Ieee

/-!
# C143: a `double` written as text and read back, in binary64 arithmetic

The whole range of `double`: numbers near the largest come back infinite, small subnormal numbers come back exactly.
-/

namespace Strtk.Real
open Outcome Number

set_option exponentiation.threshold 2000

/-- The value of the text is within half a unit of the tenth digit. -/
theorem sigValue_rel (q : ℚ) (hq : 0 < q) : |sigValue 10 (sigDigits 10 q) - q| ≤ 5 / 10 ^ 10 * q := by
  refine le_trans (sigValue_error 10 (by omega) q hq) ?_
  have hl := log10_le hq
  have : (10 : ℚ) ^ (Int.log 10 q - ((10 : Nat) - 1 : Int)) = 10 ^ Int.log 10 q / 10 ^ 9 := by
    rw [zpow_sub₀ (by norm_num)]
    norm_num
  rw [this]
  linarith

/-- The first digit stands at the exponent. -/
theorem sigValue_ge (q : ℚ) (hq : 0 < q) :
    (10 : ℚ) ^ (sigDigits 10 q).2 ≤ sigValue 10 (sigDigits 10 q) ∧ sigValue 10 (sigDigits 10 q) < (10 : ℚ) ^ ((sigDigits 10 q).2 + 1) := by
  obtain ⟨h1, h2, -, -⟩ := sigDigits_spec 10 (by omega) q hq
  unfold sigValue
  generalize sigDigits 10 q = ke at *
  obtain ⟨k, e⟩ := ke
  simp only at *
  have h1' : (10 : ℚ) ^ 9 ≤ k := by exact_mod_cast h1
  have h2' : (k : ℚ) < 10 ^ 10 := by exact_mod_cast h2
  have e1 : (10 : ℚ) ^ (e - ((10 : Nat) - 1 : Int)) = 10 ^ e / 10 ^ 9 := by
    rw [zpow_sub₀ (by norm_num)]
    norm_num
  rw [e1, zpow_add₀ (by norm_num)]
  have hp : (0 : ℚ) < 10 ^ e := by positivity
  generalize (10 : ℚ) ^ e = t at *
  constructor
  · rw [mul_div_assoc', le_div_iff₀ (by norm_num)]
    nlinarith
  · rw [mul_div_assoc', div_lt_iff₀ (by norm_num)]
    nlinarith

/-- Ten digits and the largest number: below the middle between `1.797693134e308` and `1.797693135e308` the former is not exceeded, above it the latter
is reached. -/
theorem sigValue_top (q : ℚ) (hq : 0 < q) (h : q < 10 ^ 309) :
    (q < 17976931345 * 10 ^ 298 → sigValue 10 (sigDigits 10 q) ≤ 1797693134 * 10 ^ 299) ∧
      (17976931345 * 10 ^ 298 < q → 1797693135 * 10 ^ 299 ≤ sigValue 10 (sigDigits 10 q)) := by
  have h4 := (sigDigits_spec 10 (by omega) q hq).2.2.2
  have hb : Int.log 10 q < 309 := (log10_bounds hq (log10_le hq) (by rw [show (309 : ℤ) = ((309 : Nat) : ℤ) by rfl, zpow_natCast]; exact h)).2
  by_cases hl : Int.log 10 q = 308
  · rw [h4, hl]
    have e : (10 : ℚ) ^ ((308 : ℤ) - ((10 : Nat) - 1 : Int)) = 10 ^ 299 := by
      rw [show (308 : ℤ) - ((10 : Nat) - 1 : Int) = ((299 : Nat) : ℤ) by norm_num, zpow_natCast]
    rw [e]
    have hr := abs_le.mp (rne_half (q / 10 ^ 299))
    have h8 : (10 : ℚ) ^ 298 * 10 = 10 ^ 299 := by rw [← pow_succ]
    constructor
    · intro hlt
      have : q / 10 ^ 299 < 17976931345 / 10 := by
        rw [div_lt_iff₀ (by positivity), ← h8]
        linarith
      have h5 : rne (q / 10 ^ 299) < 1797693135 := by
        have : (rne (q / 10 ^ 299) : ℚ) < (1797693135 : ℤ) := by push_cast; linarith [hr.2]
        exact_mod_cast this
      have h6 : (rne (q / 10 ^ 299) : ℚ) ≤ 1797693134 := by
        have : rne (q / 10 ^ 299) ≤ 1797693134 := by omega
        exact_mod_cast this
      exact mul_le_mul_of_nonneg_right h6 (by positivity)
    · intro hlt
      have : 17976931345 / 10 < q / 10 ^ 299 := by
        rw [lt_div_iff₀ (by positivity), ← h8]
        linarith
      have h5 : 1797693134 < rne (q / 10 ^ 299) := by
        have : ((1797693134 : ℤ) : ℚ) < (rne (q / 10 ^ 299) : ℚ) := by push_cast; linarith [hr.1]
        exact_mod_cast this
      have h6 : 1797693135 ≤ (rne (q / 10 ^ 299) : ℚ) := by
        have : 1797693135 ≤ rne (q / 10 ^ 299) := by omega
        exact_mod_cast this
      exact mul_le_mul_of_nonneg_right h6 (by positivity)
  · have hq8 : q < 10 ^ 308 := by
      have h1 := lt_log10 (q := q)
      refine lt_of_lt_of_le h1 ?_
      rw [← zpow_natCast]
      exact zpow_le_zpow_right₀ (by norm_num) (by omega)
    have hr := (abs_le.mp (sigValue_rel q hq)).2
    have hc : (10 : ℚ) ^ 308 * (1 + 5 / 10 ^ 10) ≤ 1797693134 * 10 ^ 299 := by norm_num
    have hd : (10 : ℚ) ^ 308 ≤ 17976931345 * 10 ^ 298 := by norm_num
    refine ⟨fun _ => ?_, fun h => absurd (lt_of_le_of_lt hd h) (not_lt.mpr hq8.le)⟩
    refine le_trans ?_ hc
    generalize (10 : ℚ) ^ 308 = B at *
    linarith

/-- **C143.** A number of at least `2^-1074`, the smallest positive `double`, and below `1.7976931345e308` comes back with a relative error below 6e-10, and another
`2^-1074`. -/
theorem C143_error (q : ℚ) (h1 : (2 : ℚ) ^ (-1074 : ℤ) ≤ |q|) (h2 : |q| < 17976931345 * 10 ^ 298) :
    ∃ r, roundTrip ieee doubleMin (.num q) = ok (some (.num r)) ∧ |r - q| ≤ 6 / 10 ^ 10 * |q| + (2 : ℚ) ^ (-1074 : ℤ) := by
  have hp : 0 < |q| := lt_of_lt_of_le (by positivity) h1
  have hq : q ≠ 0 := abs_pos.mp hp
  have h9 : |q| < 10 ^ 309 := lt_of_lt_of_le h2 (by norm_num)
  obtain ⟨e1, -⟩ := roundTrip_exponent hq (a := -324) (b := 309) (le_trans (by norm_num) h1)
    (by rw [show (309 : ℤ) = ((309 : Nat) : ℤ) by rfl, zpow_natCast]; exact h9)
  obtain ⟨t1, t2⟩ := streamText_num 10 q hq
  obtain ⟨ip, fp, fd, ex, ed, x, p1, p2, p3, p4, p5, p6, p7, p8, p9, p10⟩ := posText_usual 10 (by omega) |q| hp
  have hw := (sigValue_top |q| hp h9).1 h2
  have hge := (sigValue_ge |q| hp).1
  have he2 := sigValue_rel |q| hp
  have hw0 := sigValue_pos 10 (by omega) |q| hp
  have e2 : (sigDigits 10 |q|).2 < 309 := by
    have : (10 : ℚ) ^ (sigDigits 10 |q|).2 < (10 : ℚ) ^ (309 : ℤ) := by
      refine lt_of_le_of_lt (le_trans hge hw) ?_
      rw [show (309 : ℤ) = ((309 : Nat) : ℤ) by rfl, zpow_natCast]
      norm_num
    exact (zpow_lt_zpow_iff_right₀ (by norm_num : (1 : ℚ) < 10)).mp this
  have hx : -615 ≤ x ∧ x ≤ 308 := by rcases p10 with h | h <;> omega
  have hil : decVal ip < 1797693134 * 10 ^ 299 :=
    lt_of_lt_of_le (decVal_lt ip p2) (le_trans (Nat.pow_le_pow_right (by omega) p8) (by norm_num))
  obtain ⟨r, hr, r1⟩ := C140_error_bound_partial _ _ ip fp fd ex ed x [] t2 p2 p4 (by simp [p3]) p5 p6 (Or.inl rfl) hil (by omega) hx (by rw [p7]; exact hw)
  rw [p7] at r1
  generalize sigValue 10 (sigDigits 10 |q|) = w at *
  refine ⟨if q < 0 then -r else r, ?_, ?_⟩
  · show realParse ieee doubleMin (streamText 10 (.num q)) = _
    rw [t1, p1, hr, withSign]
    simp
  · have hrq : |r - (|q|)| ≤ 6 / 10 ^ 10 * |q| + (2 : ℚ) ^ (-1074 : ℤ) := by
      have hb : w / 2 ^ 43 ≤ 1 / 10 ^ 12 * w := by
        rw [div_le_iff₀ (by positivity)]
        nlinarith
      generalize (2 : ℚ) ^ (-1074 : ℤ) = t at *
      generalize w / 2 ^ 43 = d at *
      rw [abs_le] at he2 r1 ⊢
      constructor <;> linarith [he2.1, he2.2, r1.1, r1.2]
    by_cases h : q < 0
    · rw [if_pos h, ← abs_neg (_ - q)]
      rw [abs_of_neg h] at hrq ⊢
      convert hrq using 2
      ring
    · rw [if_neg h]
      rw [abs_of_nonneg (not_lt.mp h)] at hrq ⊢
      exact hrq

/-- The number written is not one in fixed notation if it is outside of the range of that. -/
theorem posText_exponent (q : ℚ) {ip fd : List Byte} {x : Int} (h2 : ∀ c ∈ ip, isDigit c) (h4 : ∀ c ∈ fd, isDigit c)
    (h7 : (decVal ip + decVal fd / 10 ^ fd.length) * (10 : ℚ) ^ x = sigValue 10 (sigDigits 10 q)) (h8 : ip.length ≤ 10) (h9 : fd.length ≤ 13)
    (h10 : x = 0 ∨ x = (sigDigits 10 q).2) (hb : sigValue 10 (sigDigits 10 q) < 1 / 10 ^ 13 ∨ 10 ^ 11 ≤ sigValue 10 (sigDigits 10 q))
    (hp : 0 < sigValue 10 (sigDigits 10 q)) : x = (sigDigits 10 q).2 := by
  rcases h10 with rfl | h
  · exfalso
    rw [zpow_zero, mul_one] at h7
    rw [← h7] at hb hp
    have a1 : (decVal ip : ℚ) < 10 ^ 10 := by
      have := lt_of_lt_of_le (decVal_lt ip h2) (Nat.pow_le_pow_right (by omega) h8)
      exact_mod_cast this
    have a2 : (decVal fd : ℚ) / 10 ^ fd.length < 1 := by
      rw [div_lt_one (by positivity)]
      exact_mod_cast decVal_lt fd h4
    rcases hb with hb | hb
    · have hT : (0 : ℚ) < 10 ^ fd.length := by positivity
      have e : (decVal ip : ℚ) + decVal fd / 10 ^ fd.length = ((decVal ip * 10 ^ fd.length + decVal fd : Nat) : ℚ) / 10 ^ fd.length := by
        push_cast
        field_simp
      rw [e] at hb hp
      have hn : 0 < decVal ip * 10 ^ fd.length + decVal fd := by
        rw [div_pos_iff_of_pos_right hT] at hp
        exact_mod_cast hp
      have hn' : (1 : ℚ) ≤ ((decVal ip * 10 ^ fd.length + decVal fd : Nat) : ℚ) := by exact_mod_cast hn
      have : (1 : ℚ) / 10 ^ 13 ≤ ((decVal ip * 10 ^ fd.length + decVal fd : Nat) : ℚ) / 10 ^ fd.length :=
        div_le_div₀ (by positivity) hn' hT (pow_le_pow_right₀ (by norm_num) h9)
      exact absurd hb (not_lt.mpr this)
    · linarith
  · exact h

theorem fraction_digits {fp fd : List Byte} (h : Fraction fp fd) : ∀ c ∈ fd, isDigit c := by
  rcases h with ⟨_, rfl⟩ | ⟨_, h⟩
  · simp
  · exact h

/-- **C143** (negative result): a finite `double` above `1.7976931345e308` comes back infinite, with its sign. -/
theorem C143_largest (q : ℚ) (h1 : 17976931345 * 10 ^ 298 < |q|) (h2 : |q| < 2 ^ 1024) :
    roundTrip ieee doubleMin (.num q) = ok (some (.inf (decide (q < 0)))) := by
  have hp : 0 < |q| := lt_of_lt_of_le (by positivity) h1.le
  have hq : q ≠ 0 := abs_pos.mp hp
  have h9 : |q| < 10 ^ 309 := lt_of_lt_of_le h2 (by norm_num)
  obtain ⟨t1, t2⟩ := streamText_num 10 q hq
  obtain ⟨ip, fp, fd, ex, ed, x, p1, p2, p3, p4, p5, p6, p7, p8, p9, p10⟩ := posText_usual 10 (by omega) |q| hp
  have hw := (sigValue_top |q| hp h9).2 h1
  obtain ⟨g1, g2⟩ := sigValue_ge |q| hp
  have he2 := (abs_le.mp (sigValue_rel |q| hp)).2
  have hw9 : sigValue 10 (sigDigits 10 |q|) < 10 ^ 309 := by
    have hc : (2 : ℚ) ^ 1024 * (1 + 5 / 10 ^ 10) < 10 ^ 309 := by norm_num
    refine lt_of_le_of_lt ?_ hc
    generalize (2 : ℚ) ^ 1024 = B at *
    linarith
  have hfd := fraction_digits p4
  have hx := posText_exponent |q| p2 hfd p7 p8 p9 p10 (Or.inr (le_trans (by norm_num) hw)) (lt_of_lt_of_le (by positivity) hw)
  have hx8 : x = 308 := by
    rw [hx]
    have a1 : (10 : ℚ) ^ (sigDigits 10 |q|).2 < (10 : ℚ) ^ (309 : ℤ) := by
      refine lt_of_le_of_lt g1 ?_
      rw [show (309 : ℤ) = ((309 : Nat) : ℤ) by rfl, zpow_natCast]
      exact hw9
    have a2 : (10 : ℚ) ^ (308 : ℤ) < (10 : ℚ) ^ ((sigDigits 10 |q|).2 + 1) := by
      refine lt_of_le_of_lt ?_ g2
      refine le_trans ?_ hw
      rw [show (308 : ℤ) = ((308 : Nat) : ℤ) by rfl, zpow_natCast]
      norm_num
    have b1 := (zpow_lt_zpow_iff_right₀ (by norm_num : (1 : ℚ) < 10)).mp a1
    have b2 := (zpow_lt_zpow_iff_right₀ (by norm_num : (1 : ℚ) < 10)).mp a2
    omega
  clear hx p10
  subst hx8
  have hil : decVal ip < 1797693134 * 10 ^ 299 :=
    lt_of_lt_of_le (decVal_lt ip p2) (le_trans (Nat.pow_le_pow_right (by omega) p8) (by norm_num))
  obtain ⟨d, ed1, hd⟩ := mantissa_ieee ip fd p2 hfd hil (by omega)
  have hm := mantissa_medium ip fd hfd hil (by omega)
  have h := realParse_usual ieee doubleMin _ _ ip fp fd ex ed 308 [] t2 p2 p4 (by simp [p3]) p5 p6 (Or.inl rfl) (by omega) (by omega)
  have hv0 := hm.nonneg
  have key : scaled ieee doubleMin (.num d) 308 = ok (.inf false) := by
    unfold scaled pow10 fract10Size doubleMin
    rw [if_pos (by decide), if_neg (by decide), if_pos (by decide), if_pos (by decide), if_pos (by decide)]
    have e : ieee.mulTable (.num d) ((308 : Int).natAbs) = rnd64 (d * rnd 53 (tableEntry 308)) := by
      show mul64 (.num d) (rnd64 (tableEntry 308)) = _
      rw [table_ieee 308 (by omega) (by omega)]
      rfl
    rw [e]
    have hpre := mulTable_pre 308 (by omega) hv0 hd
    rw [show (308 : ℤ) = ((308 : Nat) : ℤ) by rfl, zpow_natCast] at p7
    rw [p7] at hpre
    have hpos : 0 < sigValue 10 (sigDigits 10 |q|) := lt_of_lt_of_le (by positivity) hw
    have h0 := within_nonneg half_ulp hpos.le hpre
    have hlow := (within_mono half_ulp hpos.le (by omega : _ ≤ 700) hpre).1
    have hlow2 : (2 : ℚ) ^ 1024 * (1 + 1 / 2 ^ 50) ≤ d * rnd 53 (tableEntry 308) := by
      refine le_trans ?_ (le_trans (mul_le_mul_of_nonneg_right hw (pow_nonneg (by norm_num) _)) hlow)
      norm_num
    have hr := (rnd_factor 53 _ h0).1
    have hbig : (2 : ℚ) ^ 1024 ≤ rnd 53 (d * rnd 53 (tableEntry 308)) := by
      refine le_trans ?_ (le_trans (mul_le_mul_of_nonneg_right hlow2 (by norm_num)) hr)
      norm_num
    rw [rnd64_eq _ (Or.inr (by rw [abs_of_nonneg h0]; exact le_trans (by norm_num) hlow2)), if_neg (by
      rw [not_lt]; exact le_trans hbig (le_abs_self _))]
    congr 2
    exact decide_eq_false (not_lt.mpr h0)
  show realParse ieee doubleMin (streamText 10 (.num q)) = _
  rw [t1, p1, h, ed1, ok_bind, key, ok_bind]
  cases decide (q < 0) <;> rfl

/-! ## Subnormal numbers -/

/-- Rounding in the subnormal range finds the nearest multiple of `2^-1074`. -/
theorem rnd64_tiny (y : ℚ) (k : ℤ) (hy : |y| < 2 ^ (-1022 : ℤ)) (h : |y / 2 ^ (-1074 : ℤ) - k| < 1 / 2) : rnd64 y = .num (k * 2 ^ (-1074 : ℤ)) := by
  have hl : y = 0 ∨ lastPlace y = -1074 := by
    by_cases h0 : y = 0
    · exact Or.inl h0
    · right
      unfold lastPlace
      rw [max_eq_right]
      have := (Int.lt_zpow_iff_log_lt (b := 2) (R := ℚ) (by omega) (x := -1022) (abs_pos.mpr h0)).mp (by simpa using hy)
      omega
  have hr : rne (y / 2 ^ (-1074 : ℤ)) = k := by
    have h1 := abs_le.mp (rne_half (y / 2 ^ (-1074 : ℤ)))
    have h2 := abs_lt.mp h
    have a : rne (y / 2 ^ (-1074 : ℤ)) < k + 1 := by
      have : (rne (y / 2 ^ (-1074 : ℤ)) : ℚ) < ((k + 1 : ℤ) : ℚ) := by push_cast; linarith [h1.2, h2.2]
      exact_mod_cast this
    have b : k - 1 < rne (y / 2 ^ (-1074 : ℤ)) := by
      have : ((k - 1 : ℤ) : ℚ) < (rne (y / 2 ^ (-1074 : ℤ)) : ℚ) := by push_cast; linarith [h1.1, h2.1]
      exact_mod_cast this
    omega
  have hs : (rne (y / 2 ^ lastPlace y) : ℚ) * 2 ^ lastPlace y = k * 2 ^ (-1074 : ℤ) := by
    rcases hl with rfl | hl
    · have : k = 0 := by rw [← hr, zero_div]; simpa using rne_int 0
      have e0 : rne 0 = 0 := by simpa using rne_int 0
      rw [zero_div, e0, this]
      simp
    · rw [hl, hr]
  unfold rnd64
  simp only [hs]
  rw [if_pos]
  have hpos : (0 : ℚ) < 2 ^ (-1074 : ℤ) := by positivity
  have h3 : |(k : ℚ) * 2 ^ (-1074 : ℤ) - y| ≤ 1 / 2 * 2 ^ (-1074 : ℤ) := by
    have e : (k : ℚ) * 2 ^ (-1074 : ℤ) - y = -(y / 2 ^ (-1074 : ℤ) - k) * 2 ^ (-1074 : ℤ) := by field_simp; ring
    rw [e, abs_mul, abs_neg, abs_of_pos hpos]
    exact mul_le_mul_of_nonneg_right h.le hpos.le
  have h4 : (2 : ℚ) ^ (-1074 : ℤ) < 1 := by norm_num
  have h5 : (2 : ℚ) ^ (-1022 : ℤ) < 1 := by norm_num
  have h6 : (2 : ℚ) < 2 ^ 1024 := by norm_num
  have h7 : |(k : ℚ) * 2 ^ (-1074 : ℤ)| ≤ |(k : ℚ) * 2 ^ (-1074 : ℤ) - y| + |y| := by
    have := abs_add_le ((k : ℚ) * 2 ^ (-1074 : ℤ) - y) y
    rwa [sub_add_cancel] at this
  generalize (2 : ℚ) ^ (-1074 : ℤ) = t at *
  generalize (2 : ℚ) ^ (-1022 : ℤ) = t' at *
  generalize (2 : ℚ) ^ 1024 = t'' at *
  linarith

/-- **C143**: a subnormal number of at most 29 bits comes back exactly. -/
theorem C143_subnormal (k : ℤ) (h0 : k ≠ 0) (hk : |k| ≤ 2 ^ 29) :
    roundTrip ieee doubleMin (.num (k * 2 ^ (-1074 : ℤ))) = ok (some (.num (k * 2 ^ (-1074 : ℤ)))) := by
  have hpos : (0 : ℚ) < 2 ^ (-1074 : ℤ) := by positivity
  have hK : 1 ≤ |k| := Int.one_le_abs h0
  have ha : |(k * 2 ^ (-1074 : ℤ) : ℚ)| = (|k| : ℤ) * 2 ^ (-1074 : ℤ) := by rw [abs_mul, abs_of_pos hpos]; push_cast; rfl
  have hs : decide ((k : ℚ) * 2 ^ (-1074 : ℤ) < 0) = decide (k < 0) := by
    rw [decide_eq_decide, mul_neg_iff]
    constructor
    · rintro (⟨_, h⟩ | ⟨h, _⟩)
      · exact absurd h (not_lt.mpr hpos.le)
      · exact_mod_cast h
    · intro h
      exact Or.inr ⟨by exact_mod_cast h, hpos⟩
  have hK1 : (1 : ℚ) ≤ (|k| : ℤ) := by exact_mod_cast hK
  have hK2 : ((|k| : ℤ) : ℚ) ≤ 2 ^ 29 := by exact_mod_cast hk
  generalize hqq : (k * 2 ^ (-1074 : ℤ) : ℚ) = q at *
  have hp : 0 < |q| := by rw [ha]; exact mul_pos (by linarith) hpos
  have hq : q ≠ 0 := abs_pos.mp hp
  have hqle : |q| ≤ 2 ^ 29 * 2 ^ (-1074 : ℤ) := by rw [ha]; exact mul_le_mul_of_nonneg_right hK2 hpos.le
  have hqge : (2 : ℚ) ^ (-1074 : ℤ) ≤ |q| := by rw [ha]; exact le_mul_of_one_le_left hpos.le hK1
  obtain ⟨t1, t2⟩ := streamText_num 10 q hq
  obtain ⟨ip, fp, fd, ex, ed, x, p1, p2, p3, p4, p5, p6, p7, p8, p9, p10⟩ := posText_usual 10 (by omega) |q| hp
  have hw0 := sigValue_pos 10 (by omega) |q| hp
  obtain ⟨g1, g2⟩ := sigValue_ge |q| hp
  have he2 := sigValue_rel |q| hp
  have hfd := fraction_digits p4
  have hw1 : sigValue 10 (sigDigits 10 |q|) < (10 : ℚ) ^ (-313 : ℤ) := by
    have hc : (2 : ℚ) ^ 29 * 2 ^ (-1074 : ℤ) * (1 + 5 / 10 ^ 10) < (10 : ℚ) ^ (-313 : ℤ) := by norm_num
    refine lt_of_le_of_lt ?_ hc
    have := (abs_le.mp he2).2
    generalize (2 : ℚ) ^ 29 * 2 ^ (-1074 : ℤ) = B at *
    linarith
  have hw2 : (10 : ℚ) ^ (-324 : ℤ) < sigValue 10 (sigDigits 10 |q|) := by
    have hc : (10 : ℚ) ^ (-324 : ℤ) < 2 ^ (-1074 : ℤ) * (1 - 5 / 10 ^ 10) := by norm_num
    refine lt_of_lt_of_le hc ?_
    have := (abs_le.mp he2).1
    generalize (2 : ℚ) ^ (-1074 : ℤ) = B at *
    linarith
  have hx := posText_exponent |q| p2 hfd p7 p8 p9 p10 (Or.inl (lt_trans hw1 (by norm_num))) hw0
  have hx1 : x < -313 := by
    rw [hx]
    exact (zpow_lt_zpow_iff_right₀ (by norm_num : (1 : ℚ) < 10)).mp (lt_of_le_of_lt g1 hw1)
  have hx2 : -325 < x := by
    rw [hx]
    have := (zpow_lt_zpow_iff_right₀ (by norm_num : (1 : ℚ) < 10)).mp (lt_trans hw2 g2)
    omega
  rw [← hx] at g1
  clear hx p10
  have hil : decVal ip < 1797693134 * 10 ^ 299 :=
    lt_of_lt_of_le (decVal_lt ip p2) (le_trans (Nat.pow_le_pow_right (by omega) p8) (by norm_num))
  obtain ⟨d, ed1, hd⟩ := mantissa_ieee ip fd p2 hfd hil (by omega)
  have h := realParse_usual ieee doubleMin _ _ ip fp fd ex ed x [] t2 p2 p4 (by simp [p3]) p5 p6 (Or.inl rfl) (by omega) (by omega)
  have hm1 : (1 : ℚ) ≤ decVal ip + decVal fd / 10 ^ fd.length := by
    have hX : (0 : ℚ) < 10 ^ x := by positivity
    rw [← p7] at g1
    exact (le_mul_iff_one_le_left hX).mp g1
  have hm2 : (decVal ip + decVal fd / 10 ^ fd.length : ℚ) ≤ 1797693134 * 10 ^ 299 := by
    rcases mantissa_medium ip fd hfd hil (by omega) with h | h
    · rw [h]; positivity
    · exact h.2
  have hv0 : (0 : ℚ) ≤ decVal ip + decVal fd / 10 ^ fd.length := le_trans (by norm_num) hm1
  have key : scaled ieee doubleMin (.num d) x = ok (.num ((|k| : ℤ) * 2 ^ (-1074 : ℤ))) := by
    unfold scaled pow10 fract10Size doubleMin
    rw [if_pos (by omega), if_neg (by omega), if_neg (by omega), if_pos (by decide), if_pos (by omega)]
    obtain ⟨j, hj⟩ := Int.eq_ofNat_of_zero_le (by omega : 0 ≤ -x + -307)
    have e7 : (-(-307 : Int)).toNat = 307 := by decide
    have ej : (-x + -307).toNat = j := by omega
    have hxj : x = -((307 + j : Nat) : Int) := by omega
    rw [e7, ej, div_ieee d 307 (by omega) (by omega)]
    generalize (decVal ip + decVal fd / 10 ^ fd.length : ℚ) = v at *
    have hmed : Medium (v / 10 ^ 307) := by
      right
      constructor
      · rw [show (-307 : ℤ) = -((307 : Nat) : ℤ) by rfl, zpow_neg, zpow_natCast, ← one_div]
        exact div_le_div_of_nonneg_right hm1 (by positivity)
      · exact le_trans (div_le_self hv0 (by norm_num)) hm2
    have hw := divTable_pre 307 (by omega) hv0 hd
    rw [rnd64_within hmed hw (by omega), div_ieee _ j (by omega) (by omega)]
    have hr := within_rnd 53 half_ulp hmed.nonneg hw
    have hy := divTable_pre j (by omega) hmed.nonneg hr
    have ev : v / 10 ^ 307 / 10 ^ j = sigValue 10 (sigDigits 10 |q|) := by
      rw [← p7, hxj, zpow_neg, zpow_natCast, pow_add, mul_inv, div_eq_mul_inv, div_eq_mul_inv, mul_assoc]
    rw [ev] at hy
    have hya := le_trans (within_abs hw0.le hy) (pow_bound hw0.le (by omega))
    generalize rnd 53 (d / rnd 53 (tableEntry 307)) / rnd 53 (tableEntry j) = y at *
    generalize sigValue 10 (sigDigits 10 |q|) = w at *
    have hyq : |y - (|q|)| ≤ 6 / 10 ^ 10 * |q| := by
      have hb : w / 2 ^ 43 ≤ 1 / 10 ^ 12 * w := by
        rw [div_le_iff₀ (by positivity)]
        nlinarith
      generalize w / 2 ^ 43 = z at *
      rw [abs_le] at he2 hya ⊢
      constructor <;> linarith [he2.1, he2.2, hya.1, hya.2]
    have hclose : |y / 2 ^ (-1074 : ℤ) - (|k| : ℤ)| < 1 / 2 := by
      have e : y / 2 ^ (-1074 : ℤ) - ((|k| : ℤ) : ℚ) = (y - |q|) / 2 ^ (-1074 : ℤ) := by rw [ha]; field_simp
      rw [e, abs_div, abs_of_pos hpos, div_lt_iff₀ hpos]
      refine lt_of_le_of_lt hyq ?_
      generalize (2 : ℚ) ^ (-1074 : ℤ) = t at *
      nlinarith
    have hsmall : |y| < 2 ^ (-1022 : ℤ) := by
      have hc : (2 : ℚ) ^ 29 * 2 ^ (-1074 : ℤ) * (1 + 6 / 10 ^ 10) < (2 : ℚ) ^ (-1022 : ℤ) := by norm_num
      refine lt_of_le_of_lt ?_ hc
      have h1 : |y| ≤ |y - (|q|)| + |q| := by
        have := abs_add_le (y - |q|) (|q|)
        rwa [sub_add_cancel, abs_abs] at this
      generalize (2 : ℚ) ^ 29 * 2 ^ (-1074 : ℤ) = B at *
      linarith
    rw [rnd64_tiny y |k| hsmall hclose]
  show realParse ieee doubleMin (streamText 10 (.num q)) = _
  rw [t1, p1, h, ed1, ok_bind, key, ok_bind, hs, ← hqq]
  by_cases hn : k < 0
  · rw [decide_eq_true hn, abs_of_neg hn]
    show ok (some (Val.num (-_))) = _
    congr 3
    push_cast
    ring
  · rw [decide_eq_false hn, abs_of_nonneg (not_lt.mp hn)]
    rfl

/-- **C143**: an integer of at most ten digits comes back unchanged. -/
theorem C143_integers (v : ℤ) (h1 : |v| < 10 ^ 10) : roundTrip ieee doubleMin (.num v) = ok (some (.num v)) := by
  have key := (C124_integers 34 (by omega) doubleMin v h1 (le_trans h1.le (by norm_num))).1
  unfold roundTrip
  rw [key, ok_bind]
  obtain ⟨⟨t1, t2⟩, t3⟩ := decText_digits v.natAbs
  have hb : decVal (decText v.natAbs) ≤ 2 ^ 53 := by
    rw [t3]
    have : ((v.natAbs : Nat) : ℤ) < 10 ^ 10 := by rwa [Int.natCast_natAbs]
    omega
  unfold intText
  by_cases hv : v < 0
  · have := C140_integer_exact doubleMin [45] true (decText v.natAbs) [] (Or.inr (Or.inr ⟨rfl, rfl⟩)) t2 t1 (Or.inl rfl) hb
    rw [if_pos hv]
    rw [List.append_nil, List.singleton_append] at this
    rw [this, t3, withSign, if_pos rfl]
    congr 3
    rw [Nat.cast_natAbs, abs_of_neg hv]
    push_cast; ring
  · have := C140_integer_exact doubleMin [] false (decText v.natAbs) [] (Or.inl ⟨rfl, rfl⟩) t2 t1 (Or.inl rfl) hb
    rw [if_neg hv]
    rw [List.append_nil, List.nil_append] at this
    rw [this, t3, withSign, if_neg (by simp)]
    congr 3
    rw [Nat.cast_natAbs, abs_of_nonneg (not_lt.mp hv)]

/-- **C143**: infinities come back with their sign, and `nan` comes back as `nan`. -/
theorem C143_special : (∀ neg, roundTrip ieee doubleMin (.inf neg) = ok (some (.inf neg))) ∧ roundTrip ieee doubleMin .nan = ok (some .nan) := by
  refine ⟨fun neg => ?_, rfl⟩
  cases neg <;> rfl

/-! ## Examples -/

/-- The largest `double` meets the hypotheses of `C143_largest`. -/
example : 17976931345 * 10 ^ 298 < |((2 - 1 / 2 ^ 52) * 2 ^ 1023 : ℚ)| ∧ |((2 - 1 / 2 ^ 52) * 2 ^ 1023 : ℚ)| < 2 ^ 1024 := by
  rw [abs_of_pos (by norm_num)]
  constructor <;> norm_num

/-- The smallest normal number, `2^-1022`, meets those of `C143_error`, and the smallest positive one comes back. -/
example : (2 : ℚ) ^ (-1074 : ℤ) ≤ |(2 : ℚ) ^ (-1022 : ℤ)| ∧ |(2 : ℚ) ^ (-1022 : ℤ)| < 17976931345 * 10 ^ 298 := by
  rw [abs_of_pos (by positivity)]
  constructor <;> norm_num

example : roundTrip ieee doubleMin (.num ((1 : ℤ) * 2 ^ (-1074 : ℤ))) = ok (some (.num ((1 : ℤ) * 2 ^ (-1074 : ℤ)))) :=
  C143_subnormal 1 (by norm_num) (by norm_num)

end Strtk.Real
