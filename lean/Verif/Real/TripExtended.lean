import Verif.Real.Trip64
import Verif.Real.Extended

/-!
# C185: a `long double` written as text and read back, in x87 extended precision

The text has ten significant digits (17241-17250, 17848-17874); reading it back is C184's conversion.
-/

namespace Strtk.Real
open Outcome Number

set_option exponentiation.threshold 20000

/-! ## The decimal exponent of ten digits -/

theorem ten_shift (n : ℤ) : (10 : ℚ) ^ n = 10 ^ (n - 10) * 10 ^ 10 ∧ (10 : ℚ) ^ (n - 9) = 10 ^ (n - 10) * 10 ∧ (10 : ℚ) ^ (n + 1) = 10 ^ (n - 10) * 10 ^ 11 := by
  refine ⟨?_, ?_, ?_⟩
  · rw [← zpow_natCast, ← zpow_add₀ (by norm_num)]; congr 1; push_cast; ring
  · nth_rw 3 [← zpow_one (10 : ℚ)]; rw [← zpow_add₀ (by norm_num)]; congr 1; ring
  · rw [← zpow_natCast, ← zpow_add₀ (by norm_num)]; congr 1; push_cast; ring

/-- Below 9.9999999995 times `10^n` the exponent written is at most `n` ... -/
theorem exponent_le (q : ℚ) (hq : 0 < q) (n : ℤ) (h : q < 99999999995 * (10 : ℚ) ^ (n - 10)) : (sigDigits 10 q).2 ≤ n := by
  obtain ⟨s1, s2, s3⟩ := ten_shift n
  have hp : (0 : ℚ) < 10 ^ (n - 10) := by positivity
  have hL : Int.log 10 q < n + 1 := by
    refine (log10_bounds hq (log10_le hq) ?_).2
    rw [s3]
    generalize (10 : ℚ) ^ (n - 10) = t at *
    linarith
  by_cases hl : Int.log 10 q = n
  · have hy : q / 10 ^ (n - 9) < 99999999995 / 10 := by
      rw [div_lt_iff₀ (by positivity), s2]
      generalize (10 : ℚ) ^ (n - 10) = t at *
      linarith
    have hr := (abs_le.mp (rne_half (q / 10 ^ (n - 9)))).2
    have hr2 : rne (q / 10 ^ (n - 9)) < 10 ^ 10 := by
      have : (rne (q / 10 ^ (n - 9)) : ℚ) < ((10 ^ 10 : ℤ) : ℚ) := by push_cast; linarith
      exact_mod_cast this
    unfold sigDigits
    simp only [hl]
    rw [show n - (((10 : Nat) : Int) - 1) = n - 9 by norm_num, if_neg (by omega)]
  · have := (sigDigits_spec 10 (by omega) q hq).2.2.1
    omega

/-- ... from it on at least `n + 1`. -/
theorem exponent_gt (q : ℚ) (hq : 0 < q) (n : ℤ) (h : 99999999995 * (10 : ℚ) ^ (n - 10) ≤ q) : n + 1 ≤ (sigDigits 10 q).2 := by
  obtain ⟨s1, s2, s3⟩ := ten_shift n
  have hp : (0 : ℚ) < 10 ^ (n - 10) := by positivity
  have hL : n ≤ Int.log 10 q := by
    refine (log10_bounds hq ?_ (lt_log10 (q := q))).1
    rw [s1]
    generalize (10 : ℚ) ^ (n - 10) = t at *
    linarith
  by_cases hl : Int.log 10 q = n
  · have hlt := lt_log10 (q := q)
    rw [hl, s3] at hlt
    have hy : 99999999995 / 10 ≤ q / 10 ^ (n - 9) := by
      rw [le_div_iff₀ (by positivity), s2]
      generalize (10 : ℚ) ^ (n - 10) = t at *
      linarith
    have hy2 : q / 10 ^ (n - 9) < 10 ^ 10 := by
      rw [div_lt_iff₀ (by positivity), s2]
      generalize (10 : ℚ) ^ (n - 10) = t at *
      linarith
    have hf : ⌊q / 10 ^ (n - 9)⌋ = 9999999999 := by
      rw [Int.floor_eq_iff]
      constructor
      · push_cast; linarith
      · push_cast; linarith
    have hr : rne (q / 10 ^ (n - 9)) = 10 ^ 10 := by
      unfold rne
      rw [hf]
      rw [if_neg (by push_cast; linarith), if_neg (by norm_num : ¬ (9999999999 : ℤ) % 2 = 0), ite_self]
      norm_num
    unfold sigDigits
    simp only [hl]
    rw [show n - (((10 : Nat) : Int) - 1) = n - 9 by norm_num, hr, if_pos (by decide)]
  · have := (sigDigits_spec 10 (by omega) q hq).2.2.1
    omega

/-! ## C185 -/

theorem digits10 {ip : List Byte} (h : ∀ c ∈ ip, isDigit c) (hl : ip.length ≤ 10) : decVal ip < 10 ^ 1000 :=
  lt_of_lt_of_le (decVal_lt ip h) (Nat.pow_le_pow_right (by omega) (by omega))

/-- **C185**: a number from `9.9999999995e-309` to below `9.9999999995e308` comes back with a relative error below 6e-10. -/
theorem C185_error_partial (q : ℚ) (h1 : 99999999995 * (10 : ℚ) ^ (-319 : ℤ) ≤ |q|) (h2 : |q| < 99999999995 * (10 : ℚ) ^ (298 : ℤ)) :
    ∃ r, roundTrip extended longDoubleMin (.num q) = ok (some (.num r)) ∧ |r - q| ≤ 6 / 10 ^ 10 * |q| := by
  have hp : 0 < |q| := lt_of_lt_of_le (by positivity) h1
  have hq : q ≠ 0 := abs_pos.mp hp
  have e1 := exponent_gt |q| hp (-309) (by rw [show (-309 : ℤ) - 10 = -319 by norm_num]; exact h1)
  have e2 := exponent_le |q| hp 308 h2
  obtain ⟨t1, t2⟩ := streamText_num 10 q hq
  obtain ⟨ip, fp, fd, ex, ed, x, p1, p2, p3, p4, p5, p6, p7, p8, p9, p10⟩ := posText_usual 10 (by omega) |q| hp
  have he2 := sigValue_rel |q| hp
  have hw0 := sigValue_pos 10 (by omega) |q| hp
  have hx : -308 ≤ x ∧ x ≤ 308 := by rcases p10 with h | h <;> omega
  obtain ⟨r, hr, r1⟩ := C184_error_bound_partial _ _ ip fp fd ex ed x [] t2 p2 p4 (by simp [p3]) p5 p6 (Or.inl rfl) (digits10 p2 p8) (by omega) hx
  rw [p7] at r1
  generalize sigValue 10 (sigDigits 10 |q|) = w at *
  refine ⟨if q < 0 then -r else r, ?_, ?_⟩
  · show realParse extended longDoubleMin (streamText 10 (.num q)) = _
    rw [t1, p1, hr, withSign]
    simp
  · have hrq : |r - (|q|)| ≤ 6 / 10 ^ 10 * |q| := by
      have hb : 1 / 2 ^ 49 * w ≤ 1 / 10 ^ 12 * w := mul_le_mul_of_nonneg_right (by norm_num) hw0.le
      generalize 1 / 2 ^ 49 * w = d at *
      rw [abs_le] at he2 r1 ⊢
      constructor <;> linarith [he2.1, he2.2, r1.1, r1.2]
    by_cases h : q < 0
    · rw [if_pos h, ← abs_neg (_ - q)]
      rw [abs_of_neg h] at hrq ⊢
      convert hrq using 2
      ring
    · rw [if_neg h]
      rw [abs_of_nonneg (not_lt.mp h)] at hrq ⊢
      exact hrq

/-- **C185**: an integer of at most ten digits comes back unchanged. -/
theorem C185_integers (v : ℤ) (h1 : |v| < 10 ^ 10) : roundTrip extended longDoubleMin (.num v) = ok (some (.num v)) := by
  have key := (C124_integers 34 (by omega) doubleMin v h1 (le_trans h1.le (by norm_num))).1
  unfold roundTrip
  rw [key, ok_bind]
  obtain ⟨⟨t1, t2⟩, t3⟩ := decText_digits v.natAbs
  have hb : decVal (decText v.natAbs) ≤ 2 ^ 64 := by
    rw [t3]
    have : ((v.natAbs : Nat) : ℤ) < 10 ^ 10 := by rwa [Int.natCast_natAbs]
    omega
  unfold intText
  by_cases hv : v < 0
  · have := C184_integer_exact longDoubleMin [45] true (decText v.natAbs) [] (Or.inr (Or.inr ⟨rfl, rfl⟩)) t2 t1 (Or.inl rfl) hb
    rw [if_pos hv]
    rw [List.append_nil, List.singleton_append] at this
    rw [this, t3, withSign, if_pos rfl]
    congr 3
    rw [Nat.cast_natAbs, abs_of_neg hv]
    push_cast; ring
  · have := C184_integer_exact longDoubleMin [] false (decText v.natAbs) [] (Or.inl ⟨rfl, rfl⟩) t2 t1 (Or.inl rfl) hb
    rw [if_neg hv]
    rw [List.append_nil, List.nil_append] at this
    rw [this, t3, withSign, if_neg (by simp)]
    congr 3
    rw [Nat.cast_natAbs, abs_of_nonneg (not_lt.mp hv)]

/-- **C185**: infinities come back with their sign, and `nan` comes back as `nan`. -/
theorem C185_special : (∀ neg, roundTrip extended longDoubleMin (.inf neg) = ok (some (.inf neg))) ∧ roundTrip extended longDoubleMin .nan = ok (some .nan) := by
  refine ⟨fun neg => ?_, rfl⟩
  cases neg <;> rfl

/-- **C185** (negative result): every finite number from `9.9999999995e308` on comes back infinite ... -/
theorem C185_large (q : ℚ) (h1 : 99999999995 * (10 : ℚ) ^ (298 : ℤ) ≤ |q|) (h2 : |q| < 2 ^ 16384) :
    roundTrip extended longDoubleMin (.num q) = ok (some (.inf (decide (q < 0)))) := by
  have hp : 0 < |q| := lt_of_lt_of_le (by positivity) h1
  have hq : q ≠ 0 := abs_pos.mp hp
  obtain ⟨t1, t2⟩ := streamText_num 10 q hq
  obtain ⟨ip, fp, fd, ex, ed, x, p1, p2, p3, p4, p5, p6, p7, p8, p9, p10⟩ := posText_usual 10 (by omega) |q| hp
  have e1 := exponent_gt |q| hp 308 h1
  have hb : (2 : ℚ) ^ 16384 ≤ (10 : ℚ) ^ (9998 : ℤ) := by
    rw [show (9998 : ℤ) = ((9998 : ℕ) : ℤ) by rfl, zpow_natCast]
    refine le_trans (pow_le_pow_right₀ (by norm_num) (by norm_num : 16384 ≤ 3 * 9998)) ?_
    rw [pow_mul]
    exact pow_le_pow_left₀ (by norm_num) (by norm_num) _
  have e2 := (roundTrip_exponent hq (log10_le hp) (lt_of_lt_of_le h2 hb)).2
  have g1 := (sigValue_ge |q| hp).1
  have hx := posText_exponent |q| p2 (fraction_digits p4) p7 p8 p9 p10 (Or.inr (le_trans (by
    rw [show (10 : ℚ) ^ 11 = 10 ^ (11 : ℤ) by norm_cast]
    exact zpow_le_zpow_right₀ (by norm_num) (by omega)) g1)) (sigValue_pos 10 (by omega) |q| hp)
  have h := C184_large_exponent _ _ ip fp fd ex ed x [] t2 p2 p4 (by simp [p3]) p5 p6 (Or.inl rfl) (digits10 p2 p8) (by omega) (by omega) (Or.inr ⟨rfl, by omega⟩)
  show realParse extended longDoubleMin (streamText 10 (.num q)) = _
  rw [t1, p1, h, if_neg]
  rintro ⟨a, b⟩
  have := sigValue_pos 10 (by omega) |q| hp
  rw [← p7, a, b] at this
  simp at this

/-- ... every one from `9.9999999995e-4932` to below `9.9999999995e-309` comes back as zero ... -/
theorem C185_small (q : ℚ) (h1 : 99999999995 * (10 : ℚ) ^ (-4942 : ℤ) ≤ |q|) (h2 : |q| < 99999999995 * (10 : ℚ) ^ (-319 : ℤ)) :
    roundTrip extended longDoubleMin (.num q) = ok (some (.num 0)) := by
  have hp : 0 < |q| := lt_of_lt_of_le (by positivity) h1
  have hq : q ≠ 0 := abs_pos.mp hp
  obtain ⟨t1, t2⟩ := streamText_num 10 q hq
  obtain ⟨ip, fp, fd, ex, ed, x, p1, p2, p3, p4, p5, p6, p7, p8, p9, p10⟩ := posText_usual 10 (by omega) |q| hp
  have e1 := exponent_gt |q| hp (-4932) (by rw [show (-4932 : ℤ) - 10 = -4942 by norm_num]; exact h1)
  have e2 := exponent_le |q| hp (-309) (by rw [show (-309 : ℤ) - 10 = -319 by norm_num]; exact h2)
  have g1 := (sigValue_ge |q| hp).2
  have hx := posText_exponent |q| p2 (fraction_digits p4) p7 p8 p9 p10 (Or.inl (lt_of_lt_of_le g1 (by
    rw [show (1 : ℚ) / 10 ^ 13 = 10 ^ (-13 : ℤ) by rw [zpow_neg]; norm_num]
    exact zpow_le_zpow_right₀ (by norm_num) (by omega)))) (sigValue_pos 10 (by omega) |q| hp)
  have h := C184_small_exponent _ _ ip fp fd ex ed x [] t2 p2 p4 (by simp [p3]) p5 p6 (Or.inl rfl) (digits10 p2 p8) (by omega) (by omega) (Or.inr rfl)
  show realParse extended longDoubleMin (streamText 10 (.num q)) = _
  rw [t1, p1, h]

/-- ... and for every smaller one the conversion of its own text reads outside of the table. -/
theorem C185_tiny (q : ℚ) (h1 : (2 : ℚ) ^ (-16445 : ℤ) ≤ |q|) (h2 : |q| < 99999999995 * (10 : ℚ) ^ (-4942 : ℤ)) :
    roundTrip extended longDoubleMin (.num q) = ub := by
  have hp : 0 < |q| := lt_of_lt_of_le (by positivity) h1
  have hq : q ≠ 0 := abs_pos.mp hp
  obtain ⟨t1, t2⟩ := streamText_num 10 q hq
  obtain ⟨ip, fp, fd, ex, ed, x, p1, p2, p3, p4, p5, p6, p7, p8, p9, p10⟩ := posText_usual 10 (by omega) |q| hp
  have hb : (10 : ℚ) ^ (-9999 : ℤ) ≤ (2 : ℚ) ^ (-16445 : ℤ) := by
    rw [show (-9999 : ℤ) = -((9999 : ℕ) : ℤ) by norm_num, show (-16445 : ℤ) = -((16445 : ℕ) : ℤ) by norm_num, zpow_neg, zpow_neg, zpow_natCast, zpow_natCast]
    refine inv_anti₀ (by positivity) (le_trans (pow_le_pow_right₀ (by norm_num) (by norm_num : 16445 ≤ 3 * 9999)) ?_)
    rw [pow_mul]
    exact pow_le_pow_left₀ (by norm_num) (by norm_num) _
  have e1 := (roundTrip_exponent hq (le_trans hb h1) (lt_log10 (q := |q|))).1
  have e2 := exponent_le |q| hp (-4932) (by rw [show (-4932 : ℤ) - 10 = -4942 by norm_num]; exact h2)
  have g1 := (sigValue_ge |q| hp).2
  have hx := posText_exponent |q| p2 (fraction_digits p4) p7 p8 p9 p10 (Or.inl (lt_of_lt_of_le g1 (by
    rw [show (1 : ℚ) / 10 ^ 13 = 10 ^ (-13 : ℤ) by rw [zpow_neg]; norm_num]
    exact zpow_le_zpow_right₀ (by norm_num) (by omega)))) (sigValue_pos 10 (by omega) |q| hp)
  have h := C184_exponent_over_read _ _ ip fp fd ex ed x t2 p2 p4 (by simp [p3]) p5 p6 (digits10 p2 p8) (by omega) (by omega)
  show realParse extended longDoubleMin (streamText 10 (.num q)) = _
  rw [List.append_nil] at p1
  rw [t1, p1, h]

/-! ## Cases -/

/-- A third of one. -/
example : ∃ r, roundTrip extended longDoubleMin (.num (1 / 3)) = ok (some (.num r)) ∧ |r - 1 / 3| ≤ 6 / 10 ^ 10 * |1 / 3| :=
  C185_error_partial (1 / 3) (by rw [abs_of_pos (by norm_num), zpow_neg]; norm_num) (by rw [abs_of_pos (by norm_num)]; norm_num)

example : roundTrip extended longDoubleMin (.num ((-1234567890 : ℤ))) = ok (some (.num ((-1234567890 : ℤ)))) := C185_integers (-1234567890) (by norm_num)

example := C185_special

/-- Minus `2^2000`, about `1e602`. -/
example : roundTrip extended longDoubleMin (.num (-2 ^ 2000)) = ok (some (.inf true)) := by
  have h := C185_large (-2 ^ 2000) (by
    rw [abs_neg, abs_of_pos (by positivity), show (298 : ℤ) = ((298 : ℕ) : ℤ) by rfl, zpow_natCast]; norm_num) (by
    rw [abs_neg, abs_of_pos (by positivity)]; exact pow_lt_pow_right₀ (by norm_num) (by norm_num))
  rw [h]
  simp

/-- `2^-2000`. -/
example : roundTrip extended longDoubleMin (.num (1 / 2 ^ 2000)) = ok (some (.num 0)) :=
  C185_small (1 / 2 ^ 2000) (by rw [abs_of_pos (by positivity), show (-4942 : ℤ) = -((4942 : ℕ) : ℤ) by norm_num, zpow_neg, zpow_natCast]; norm_num) (by
    rw [abs_of_pos (by positivity), show (-319 : ℤ) = -((319 : ℕ) : ℤ) by norm_num, zpow_neg, zpow_natCast]; norm_num)

/-- The smallest positive number. -/
example : roundTrip extended longDoubleMin (.num (2 ^ (-16445 : ℤ))) = ub :=
  C185_tiny (2 ^ (-16445 : ℤ)) (by rw [abs_of_pos (by positivity)]) (by
    rw [abs_of_pos (by positivity), show (-4942 : ℤ) = -((4942 : ℕ) : ℤ) by norm_num, show (-16445 : ℤ) = -((16445 : ℕ) : ℤ) by norm_num, zpow_neg, zpow_neg, zpow_natCast, zpow_natCast]
    norm_num)

end Strtk.Real
