import Verif.Real.Order
import Verif.Real.Trip64

/-!
# The order of numbers written as text and read back (strtk.hpp 17241-17250, 17616-17777, 17848-17874), C192

The model is that of C143: `type_to_string` with ten significant digits (`ToText.lean`), then the conversion in binary64 arithmetic (`Ieee.lean`).
-/

namespace Strtk.Real
open Outcome Number Strtk.Grid

set_option exponentiation.threshold 2000

/-! ## Specification -/

/-- Zero, or a number between the smallest normal `double` and the largest number whose ten digits are a `double`. -/
def Ordinary (q : ℚ) : Prop := q = 0 ∨ (1 / 2 ^ 1022 ≤ |q| ∧ |q| < 17976931345 * 10 ^ 298)

/-- The order of the values of the type, `nan` aside. -/
def Before (a b : Val) : Prop := a ≠ .nan ∧ b ≠ .nan ∧ (a = .inf true ∨ b = .inf false ∨ ∃ x y, a = .num x ∧ b = .num y ∧ x ≤ y)

/-- Zero or a normal `double`; the number in the second inequality lies between two of them. -/
def Normal (q : ℚ) : Prop := q = 0 ∨ (1 / 2 ^ 1022 ≤ |q| ∧ |q| < 2 ^ 1024 ∧ |q| ≠ 17976931345 * 10 ^ 298)

/-! ## The number written -/

/-- The number that the text says. -/
def written (q : ℚ) : ℚ := if q = 0 then 0 else (if q < 0 then -1 else 1) * sigValue 10 (sigDigits 10 |q|)

theorem written_nearest (q : ℚ) : DecNearest 10 q (written q) := by
  unfold written
  split
  · subst q
    exact ⟨⟨0, 0, by norm_num, by simp⟩, fun s _ => by simp⟩
  · rename_i h
    exact decNearest_abs (sigValue_nearest 10 (by omega) |q| (abs_pos.mpr h))

theorem written_abs {q : ℚ} (hq : q ≠ 0) : |written q| = sigValue 10 (sigDigits 10 |q|) := by
  have h := sigValue_pos 10 (by omega) |q| (abs_pos.mpr hq)
  unfold written
  rw [if_neg hq]
  split
  · rw [neg_one_mul, abs_neg, abs_of_pos h]
  · rw [one_mul, abs_of_pos h]

theorem written_text {q : ℚ} (h : Ordinary q) : DecimalText (streamText 10 (.num q)) (written q) := by
  by_cases hq : q = 0
  · subst hq
    rw [show streamText 10 (.num 0) = [48] by decide +kernel]
    refine ⟨[], false, [48], [], [], [], [], 0, [], rfl, Or.inl ⟨rfl, rfl⟩, by decide, Or.inl ⟨rfl, rfl⟩, by simp, Or.inl ⟨rfl, rfl, rfl⟩, by simp, Or.inl rfl, ?_, by simp, by omega, ?_, ?_⟩
    · rw [show decVal [48] = 0 by decide]; norm_num
    · rw [show decVal [48] = 0 by decide, show decVal [] = 0 by decide]; norm_num
    · rw [show decVal [48] = 0 by decide, show decVal [] = 0 by decide]; simp [written]
  obtain ⟨h1, h2⟩ := h.resolve_left hq
  have hp : 0 < |q| := abs_pos.mpr hq
  have h9 : |q| < 10 ^ 309 := lt_of_lt_of_le h2 (by norm_num)
  obtain ⟨e1, -⟩ := roundTrip_exponent hq (a := -324) (b := 309) (le_trans (by norm_num) h1)
    (by rw [show (309 : ℤ) = ((309 : Nat) : ℤ) by rfl, zpow_natCast]; exact h9)
  obtain ⟨t1, t2⟩ := streamText_num 10 q hq
  obtain ⟨ip, fp, fd, ex, ed, x, p1, p2, p3, p4, p5, p6, p7, p8, p9, p10⟩ := posText_usual 10 (by omega) |q| hp
  have hw := (sigValue_top |q| hp h9).1 h2
  have hge := (sigValue_ge |q| hp).1
  have e2 : (sigDigits 10 |q|).2 < 309 := by
    have : (10 : ℚ) ^ (sigDigits 10 |q|).2 < (10 : ℚ) ^ (309 : ℤ) := by
      refine lt_of_le_of_lt (le_trans hge hw) ?_
      rw [show (309 : ℤ) = ((309 : Nat) : ℤ) by rfl, zpow_natCast]
      norm_num
    exact (zpow_lt_zpow_iff_right₀ (by norm_num : (1 : ℚ) < 10)).mp this
  have hx : -615 ≤ x ∧ x ≤ 308 := by rcases p10 with h | h <;> omega
  have hil : decVal ip < 1797693134 * 10 ^ 299 :=
    lt_of_lt_of_le (decVal_lt ip p2) (le_trans (Nat.pow_le_pow_right (by omega) p8) (by norm_num))
  refine ⟨_, _, ip, fp, fd, ex, ed, x, [], by rw [t1, p1], t2, p2, p4, by simp [p3], p5, p6, Or.inl rfl, hil, by omega, hx, by rw [p7]; exact hw, ?_⟩
  rw [p7]
  unfold written
  rw [if_neg hq]
  by_cases hn : q < 0 <;> simp [hn]

/-- Two numbers with the same ten digits have the same text. -/
theorem written_inj {q q' : ℚ} (h : written q = written q') : streamText 10 (.num q) = streamText 10 (.num q') := by
  have hz : ∀ q : ℚ, written q = 0 ↔ q = 0 := by
    intro q
    by_cases hq : q = 0
    · simp [hq, written]
    · have := sigValue_pos 10 (by omega) |q| (abs_pos.mpr hq)
      rw [← written_abs hq] at this
      exact ⟨fun e => absurd e (abs_pos.mp this), fun e => absurd e hq⟩
  by_cases hq : q = 0
  · have : q' = 0 := by rw [← hz q', ← h, hz q]; exact hq
    rw [hq, this]
  have hq' : q' ≠ 0 := fun e => hq (by rw [← hz q, h, hz q']; exact e)
  have hab := written_abs hq
  rw [h, written_abs hq'] at hab
  have hs : q < 0 ↔ q' < 0 := by
    have s1 := sigValue_pos 10 (by omega) |q| (abs_pos.mpr hq)
    have s2 := sigValue_pos 10 (by omega) |q'| (abs_pos.mpr hq')
    unfold written at h
    rw [if_neg hq, if_neg hq'] at h
    by_cases a : q < 0 <;> by_cases b : q' < 0 <;> simp only [a, b, if_true, if_false] at h ⊢ <;> linarith
  have hd : sigDigits 10 |q| = sigDigits 10 |q'| := by
    obtain ⟨a1, a2⟩ := sigValue_ge |q| (abs_pos.mpr hq)
    obtain ⟨b1, b2⟩ := sigValue_ge |q'| (abs_pos.mpr hq')
    have c1 : (sigDigits 10 |q|).2 < (sigDigits 10 |q'|).2 + 1 := (zpow_lt_zpow_iff_right₀ (by norm_num : (1 : ℚ) < 10)).mp (by linarith)
    have c2 : (sigDigits 10 |q'|).2 < (sigDigits 10 |q|).2 + 1 := (zpow_lt_zpow_iff_right₀ (by norm_num : (1 : ℚ) < 10)).mp (by linarith)
    have c : (sigDigits 10 |q|).2 = (sigDigits 10 |q'|).2 := by omega
    refine Prod.ext ?_ c
    unfold sigValue at hab
    rw [c] at hab
    have := mul_right_cancel₀ (by positivity) hab
    exact_mod_cast this.symm
  rw [(streamText_num 10 q hq).1, (streamText_num 10 q' hq').1]
  unfold posText
  rw [hd]
  simp only [hs]

/-- Numbers of ten digits are apart. -/
theorem dec_gap {w w' : ℚ} (h : Dec 10 w) (h' : Dec 10 w') (hlt : w < w') : |w| + |w'| ≤ (2 * 10 ^ 10 + 1) * (w' - w) := by
  have key : ∀ {a b : ℚ}, Dec 10 a → Dec 10 b → a ≠ b → |a| ≤ 10 ^ 10 * |a - b| ∨ |b| ≤ 10 ^ 10 * |a - b| := by
    rintro a b ⟨k, j, hk, rfl⟩ ⟨k', j', hk', rfl⟩ hne
    have one : ∀ (k k' j j' : ℤ), j ≤ j' → |k| < 10 ^ 10 → (k : ℚ) * 10 ^ j ≠ k' * 10 ^ j' → |(k : ℚ) * 10 ^ j| ≤ 10 ^ 10 * |(k : ℚ) * 10 ^ j - k' * 10 ^ j'| := by
      intro k k' j j' hj hk hne
      obtain ⟨n, rfl⟩ := Int.le.dest hj
      have hpos : (0 : ℚ) < 10 ^ j := by positivity
      have e : (k : ℚ) * 10 ^ j - k' * 10 ^ (j + (n : ℤ)) = ((k - k' * 10 ^ n : ℤ) : ℚ) * 10 ^ j := by
        rw [zpow_add₀ (by norm_num), zpow_natCast]
        push_cast
        ring
      have hn : k - k' * 10 ^ n ≠ 0 := by
        intro h0
        rw [← sub_ne_zero, e, h0] at hne
        simp at hne
      have h1 : (1 : ℚ) ≤ |((k - k' * 10 ^ n : ℤ) : ℚ)| := by exact_mod_cast Int.one_le_abs hn
      have h2 : |(k : ℚ)| ≤ 10 ^ 10 := by exact_mod_cast hk.le
      rw [e, abs_mul, abs_mul, abs_of_pos hpos, ← mul_assoc]
      refine mul_le_mul_of_nonneg_right ?_ hpos.le
      linarith
    rcases le_total j j' with hj | hj
    · exact Or.inl (one k k' j j' hj hk hne)
    · refine Or.inr ?_
      rw [abs_sub_comm]
      exact one k' k j' j hj hk' (Ne.symm hne)
  have hd : |w - w'| = w' - w := by rw [abs_sub_comm, abs_of_pos (by linarith)]
  have t1 : |w'| ≤ |w| + (w' - w) := by
    have := abs_add_le w (w' - w)
    rwa [add_sub_cancel, abs_of_pos (show 0 < w' - w by linarith)] at this
  have t2 : |w| ≤ |w'| + (w' - w) := by
    have := abs_add_le w' (w - w')
    rwa [add_sub_cancel, hd] at this
  rcases key h h' hlt.ne with a | a <;> rw [hd] at a <;> linarith

/-- What is read back, for a smaller and a larger number written. -/
theorem trip_lt {q q' : ℚ} (h : Ordinary q) (h' : Ordinary q') (hw : written q < written q') :
    ∃ r r', roundTrip ieee doubleMin (.num q) = ok (some (.num r)) ∧ roundTrip ieee doubleMin (.num q') = ok (some (.num r')) ∧ r < r' := by
  obtain ⟨r, hr, e⟩ := (written_text h).parse
  obtain ⟨r', hr', e'⟩ := (written_text h').parse
  refine ⟨r, r', hr, hr', ?_⟩
  have hg := dec_gap (written_nearest q).1 (written_nearest q').1 hw
  have hbig : ∀ {q : ℚ}, Ordinary q → written q ≠ 0 → (1 : ℚ) / 2 ^ 1023 ≤ |written q| := by
    intro q h hn
    have hq : q ≠ 0 := fun e => hn (by simp [written, e])
    obtain ⟨h1, -⟩ := h.resolve_left hq
    rw [written_abs hq]
    have := sigValue_rel |q| (abs_pos.mpr hq)
    have e : (1 : ℚ) / 2 ^ 1022 = 2 * (1 / 2 ^ 1023) := by rw [pow_succ (2 : ℚ) 1022]; field_simp
    rw [e] at h1
    generalize (1 : ℚ) / 2 ^ 1023 = t at *
    have := (abs_le.mp this).1
    have hp := abs_pos.mpr hq
    linarith
  have hsum : (1 : ℚ) / 2 ^ 1023 ≤ |written q| + |written q'| := by
    by_cases hz : written q = 0
    · have := hbig h' (by rw [hz] at hw; exact hw.ne')
      have := abs_nonneg (written q)
      linarith
    · have := hbig h hz
      have := abs_nonneg (written q')
      linarith
  have ht : (1 : ℚ) / 2 ^ 1075 = 1 / 2 ^ 1023 * (1 / 2 ^ 52) := by rw [show 1075 = 1023 + 52 by rfl, pow_add]; field_simp
  rw [ht] at e e'
  have a := (abs_le.mp e).2
  have b := (abs_le.mp e').1
  have hpos : (0 : ℚ) < 1 / 2 ^ 1023 := by positivity
  generalize (1 : ℚ) / 2 ^ 1023 = t at *
  generalize |written q| = x at *
  generalize |written q'| = y at *
  generalize written q = w at *
  generalize written q' = w' at *
  norm_num at a b hg
  linarith

/-! ## C192 -/

/-- **C192**: of two numbers the smaller one does not come back as the larger one. -/
theorem C192_kept {q q' : ℚ} (h : Ordinary q) (h' : Ordinary q') (hq : q ≤ q') :
    ∃ r r', roundTrip ieee doubleMin (.num q) = ok (some (.num r)) ∧ roundTrip ieee doubleMin (.num q') = ok (some (.num r')) ∧ r ≤ r' := by
  have hw : written q ≤ written q' := by
    rcases hq.lt_or_eq with hq | rfl
    · exact closest_mono (written_nearest q) (written_nearest q') hq
    · exact le_rfl
  rcases hw.lt_or_eq with hw | hw
  · obtain ⟨r, r', a, b, c⟩ := trip_lt h h' hw
    exact ⟨r, r', a, b, c.le⟩
  · obtain ⟨r, hr, -⟩ := (written_text h).parse
    have hr : roundTrip ieee doubleMin (.num q) = ok (some (.num r)) := hr
    refine ⟨r, r, hr, ?_, le_rfl⟩
    rw [← hr]
    show realParse ieee doubleMin (streamText 10 (.num q')) = realParse ieee doubleMin (streamText 10 (.num q))
    rw [written_inj hw]

/-- **C192**: the same of all normal numbers, the largest of which come back as infinities. -/
theorem C192_all {q q' : ℚ} (h : Normal q) (h' : Normal q') (hq : q ≤ q') :
    ∃ v v', roundTrip ieee doubleMin (.num q) = ok (some v) ∧ roundTrip ieee doubleMin (.num q') = ok (some v') ∧ Before v v' := by
  have some_result : ∀ {q : ℚ}, Normal q → Ordinary q ∨ (17976931345 * 10 ^ 298 < |q| ∧ roundTrip ieee doubleMin (.num q) = ok (some (.inf (decide (q < 0))))) := by
    rintro q (h | ⟨h1, h2, h3⟩)
    · exact Or.inl (Or.inl h)
    · rcases lt_or_gt_of_ne h3 with h | h
      · exact Or.inl (Or.inr ⟨h1, h⟩)
      · exact Or.inr ⟨h, C143_largest q h h2⟩
  have num_result : ∀ {q : ℚ}, Ordinary q → ∃ r, roundTrip ieee doubleMin (.num q) = ok (some (.num r)) := fun h => by
    obtain ⟨r, _, a, _⟩ := C192_kept h h le_rfl
    exact ⟨r, a⟩
  rcases some_result h with o | ⟨o, i⟩ <;> rcases some_result h' with o' | ⟨o', i'⟩
  · obtain ⟨r, r', a, b, c⟩ := C192_kept o o' hq
    exact ⟨_, _, a, b, by simp, by simp, Or.inr (Or.inr ⟨r, r', rfl, rfl, c⟩)⟩
  · obtain ⟨r, hr⟩ := num_result o
    refine ⟨_, _, hr, i', by simp, by simp, Or.inr (Or.inl ?_)⟩
    have : ¬ q' < 0 := by
      intro hn
      have : |q'| ≤ |q| := by rw [abs_of_neg hn, abs_of_neg (by linarith)]; linarith
      rcases o with o | o
      · linarith
      · linarith [o.2]
    simp [this]
  · obtain ⟨r, hr⟩ := num_result o'
    refine ⟨_, _, i, hr, by simp, by simp, Or.inl ?_⟩
    have : q < 0 := by
      by_contra hn
      have : |q| ≤ |q'| := by rw [abs_of_nonneg (not_lt.mp hn), abs_of_nonneg (le_trans (not_lt.mp hn) hq)]; exact hq
      rcases o' with o' | o'
      · rw [o', abs_zero] at this
        have : (0 : ℚ) < 17976931345 * 10 ^ 298 := by positivity
        linarith
      · linarith [o'.2]
    simp [this]
  · refine ⟨_, _, i, i', by simp, by simp, ?_⟩
    by_cases hn : q < 0
    · exact Or.inl (by simp [hn])
    · exact Or.inr (Or.inl (by simp [show ¬ q' < 0 by linarith]))

/-- **C192**: they come back different exactly when their texts are. -/
theorem C192_strict {q q' : ℚ} (h : Ordinary q) (h' : Ordinary q') (hq : q < q') :
    ∃ r r', roundTrip ieee doubleMin (.num q) = ok (some (.num r)) ∧ roundTrip ieee doubleMin (.num q') = ok (some (.num r')) ∧
      (r < r' ↔ realToString (.num q) ≠ realToString (.num q')) := by
  rcases (closest_mono (written_nearest q) (written_nearest q') hq).lt_or_eq with hw | hw
  · obtain ⟨r, r', a, b, c⟩ := trip_lt h h' hw
    refine ⟨r, r', a, b, fun _ e => ?_, fun _ => c⟩
    unfold roundTrip at a b
    rw [e, b] at a
    have := Val.num.inj (Option.some.inj (Outcome.ok.inj a))
    linarith
  · obtain ⟨r, hr, -⟩ := (written_text h).parse
    have hr : roundTrip ieee doubleMin (.num q) = ok (some (.num r)) := hr
    have ht : realToString (.num q) = realToString (.num q') := by
      show ok (streamText 10 (.num q)) = ok (streamText 10 (.num q'))
      rw [written_inj hw]
    refine ⟨r, r, hr, ?_, fun e => absurd e (lt_irrefl r), fun e => absurd ht e⟩
    unfold roundTrip at hr ⊢
    rw [← ht]
    exact hr

/-- **C192**: numbers of which the larger exceeds the smaller by more than 1e-9 of their sizes come back different. -/
theorem C192_apart {q q' : ℚ} (h : Ordinary q) (h' : Ordinary q') (hq : q + 1 / 10 ^ 9 * (|q| + |q'|) < q') :
    ∃ r r', roundTrip ieee doubleMin (.num q) = ok (some (.num r)) ∧ roundTrip ieee doubleMin (.num q') = ok (some (.num r')) ∧ r < r' := by
  have rel : ∀ q : ℚ, |written q - q| ≤ 1 / 10 ^ 9 * |q| := by
    intro q
    by_cases hq : q = 0
    · simp [hq, written]
    · have e := sigValue_rel |q| (abs_pos.mpr hq)
      have hp := abs_pos.mpr hq
      have e2 : |sigValue 10 (sigDigits 10 |q|) - (|q|)| ≤ 1 / 10 ^ 9 * |q| := le_trans e (by linarith)
      unfold written
      rw [if_neg hq]
      by_cases hn : q < 0
      · rw [if_pos hn, ← abs_neg]
        rw [abs_of_neg hn] at e2 ⊢
        convert e2 using 2
        ring
      · rw [if_neg hn]
        rw [abs_of_nonneg (not_lt.mp hn)] at e2 ⊢
        rwa [one_mul]
  refine trip_lt h h' ?_
  have a := (abs_le.mp (rel q)).2
  have b := (abs_le.mp (rel q')).1
  linarith

/-- C192 is not true with "smaller": `1` and the next `double` have the same text. -/
theorem C192_merged : realToString (.num 1) = realToString (.num (1 + 1 / 2 ^ 52)) ∧ Ordinary 1 ∧ Ordinary (1 + 1 / 2 ^ 52) := by
  refine ⟨by decide +kernel, Or.inr ?_, Or.inr ?_⟩
  · rw [abs_of_pos (by norm_num)]; norm_num
  · rw [abs_of_pos (by norm_num)]; norm_num

/-! ## Non-vacuity -/

theorem ordinary_small {q : ℚ} (h1 : 1 / 10 ^ 9 ≤ |q|) (h2 : |q| ≤ 10 ^ 9) : Ordinary q :=
  Or.inr ⟨le_trans (one_div_le_one_div_of_le (by norm_num) (le_trans (by norm_num : (10 : ℚ) ^ 9 ≤ 2 ^ 30) (pow_le_pow_right₀ (by norm_num) (by omega)))) h1, lt_of_le_of_lt h2 (by norm_num)⟩

/-- A third and a number 2^-32 larger, by `C192_kept`. -/
example : ∃ r r', roundTrip ieee doubleMin (.num (1 / 3)) = ok (some (.num r)) ∧ roundTrip ieee doubleMin (.num (1 / 3 + 1 / 2 ^ 32)) = ok (some (.num r')) ∧ r ≤ r' :=
  C192_kept (ordinary_small (by rw [abs_of_pos (by norm_num)]; norm_num) (by rw [abs_of_pos (by norm_num)]; norm_num))
    (ordinary_small (by rw [abs_of_pos (by norm_num)]; norm_num) (by rw [abs_of_pos (by norm_num)]; norm_num)) (by norm_num)

/-- -2.5 and the largest `double`, by `C192_all`. -/
example : ∃ v v', roundTrip ieee doubleMin (.num (-(5 / 2))) = ok (some v) ∧ roundTrip ieee doubleMin (.num ((2 - 1 / 2 ^ 52) * 2 ^ 1023)) = ok (some v') ∧ Before v v' := by
  refine C192_all (Or.inr ?_) (Or.inr ?_) ?_
  · rw [abs_of_neg (by norm_num)]; norm_num
  · rw [abs_of_pos (by norm_num)]; norm_num
  · norm_num

/-- 1 and 1 + 2^-52 come back as the same number, by `C192_strict` and `C192_merged`. -/
example : ∃ r r', roundTrip ieee doubleMin (.num 1) = ok (some (.num r)) ∧ roundTrip ieee doubleMin (.num (1 + 1 / 2 ^ 52)) = ok (some (.num r')) ∧ ¬ r < r' := by
  obtain ⟨r, r', a, b, c⟩ := C192_strict C192_merged.2.1 C192_merged.2.2 (by norm_num)
  exact ⟨r, r', a, b, fun h => c.mp h C192_merged.1⟩

/-- 1 and 1.00000001, by `C192_apart`. -/
example : ∃ r r', roundTrip ieee doubleMin (.num 1) = ok (some (.num r)) ∧ roundTrip ieee doubleMin (.num (1 + 1 / 10 ^ 8)) = ok (some (.num r')) ∧ r < r' :=
  C192_apart C192_merged.2.1 (ordinary_small (by rw [abs_of_pos (by norm_num)]; norm_num) (by rw [abs_of_pos (by norm_num)]; norm_num)) (by
    rw [abs_of_pos (by norm_num), abs_of_pos (by norm_num)]; norm_num)

end Strtk.Real
