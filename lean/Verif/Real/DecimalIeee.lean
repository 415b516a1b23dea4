import Verif.Real.Decimal
import Verif.Real.Ieee

/-!
# `decimal_sink` in IEEE double arithmetic (strtk.hpp 15168-15231), C176

The sink of `Decimal.lean` with the arithmetic of `Ieee.lean`. Numbers are written with a point, their parts fit the two sizes given to the sink.
-/

namespace Strtk.Real
open Outcome Mem Number

/-- Whatever the arithmetic: the sink computes the digits before the point and the digits behind it that it reads, put together. -/
theorem decimalSink_mantissa {R : Type} (o : Ops R) (m : Int) (is fs : Nat) (sg : List Byte) (neg : Bool) (ip fd rest : List Byte) (hs : Sign sg neg)
    (hip : ∀ c ∈ ip, isDigit c) (hlen : (skipZeros ip).length ≤ is) (hfd : ∀ c ∈ fd, isDigit c)
    (hcut : fd.length = fs ∨ (fd.length ≤ fs ∧ rest = [])) (hfl : fd.length < 2 ^ 31) :
    decimalSink o m is fs (sg ++ (ip ++ 46 :: (fd ++ rest))) = (do
      let d ← mantissa o m ip fd
      ok (some (if neg then o.neg d else d))) := by
  rw [decimalSink_sign o m is fs sg neg _ hs (by simp)]
  · unfold decBody
    have hz : ∀ c ∈ skipZeros ip, isDigit c := (digits_skipZeros ip).mpr hip
    rw [skipZeros_append ip _ (point_stop _) hip, decIntLoop_point o _ _ is _ hz hlen, ok_bind]
    simp only
    have hmin : min fs (fd ++ rest).length = fd.length := by
      rcases hcut with h | ⟨h, rfl⟩
      · rw [List.length_append]; omega
      · rw [List.append_nil]; omega
    unfold decFrac
    have hh : decFracLoop o fd.length (fd ++ rest) o.zero = ok (some (horner o fd o.zero)) := by
      have := decFracLoop_digits o fd 0 rest o.zero hfd
      rwa [Nat.add_zero, decFracLoop] at this
    rw [hmin, hh, ok_bind]
    simp only
    unfold mantissa
    by_cases h0 : fd = []
    · subst h0
      rw [if_neg (by simp), if_pos rfl, ok_bind]
    · have hpos := List.length_pos_iff.mpr h0
      rw [if_pos (by omega), if_neg h0, negDistance_small _ hfl]
      cases pow10 o m (horner o fd o.zero) (-(fd.length : Int)) <;> rfl
  · intro c t h
    cases ip with
    | nil => cases h; decide
    | cons a ip =>
      cases h
      have := digit_props (hip c (by simp))
      exact ⟨this.1, this.2.1⟩

/-- **C176.** Whatever the arithmetic: for a number written with a point and at least one digit, whose digits before the point fit, the sink stores what
the ordinary conversion of the number cut after `frac_size` digits behind the point stores. -/
theorem C176_agrees {R : Type} (o : Ops R) (m : Int) (is fs : Nat) (sg : List Byte) (neg : Bool) (ip fd rest : List Byte) (hs : Sign sg neg)
    (hip : ∀ c ∈ ip, isDigit c) (hlen : (skipZeros ip).length ≤ is) (hfd : ∀ c ∈ fd, isDigit c) (hdig : ip ++ fd ≠ [])
    (hcut : fd.length = fs ∨ (fd.length ≤ fs ∧ rest = [])) (hfl : fd.length < 2 ^ 31) :
    decimalSink o m is fs (sg ++ (ip ++ 46 :: (fd ++ rest))) = realParse o m (sg ++ (ip ++ 46 :: fd)) := by
  have h := realParse_usual o m sg neg ip (46 :: fd) fd [] [] 0 [] hs hip (Or.inr ⟨rfl, hfd⟩) hdig (Or.inl ⟨rfl, rfl, rfl⟩) (by simp) (Or.inl rfl) hfl (by omega)
  simp only [List.append_nil] at h
  rw [decimalSink_mantissa o m is fs sg neg ip fd rest hs hip hlen hfd hcut hfl, h]
  cases mantissa o m ip fd with
  | ok d => simp [ok_bind, scaled]
  | _ => rfl

theorem bits_small : (2 : Nat) ^ 53 < 1797693134 * 10 ^ 299 :=
  lt_of_lt_of_le (by norm_num : (2 : Nat) ^ 53 < 10 ^ 16) (le_trans (Nat.pow_le_pow_right (by omega) (by omega)) (Nat.le_mul_of_pos_left _ (by omega)))

/-- The fraction of a number of few digits is divided once and added once. -/
theorem mantissa_ieee_short (ip fd : List Byte) (hip : ∀ c ∈ ip, isDigit c) (hfd : ∀ c ∈ fd, isDigit c) (hi : decVal ip ≤ 2 ^ 53) (hf : decVal fd ≤ 2 ^ 53)
    (hl : fd.length ≤ 22) :
    mantissa ieee doubleMin ip fd = ok (.num (rnd 53 (decVal ip + rnd 53 (decVal fd / 10 ^ fd.length)))) := by
  have ez : ieee.zero = .num 0 := rfl
  have ei := horner_ieee_exact ip hip hi
  have ri : rnd 53 (decVal ip : ℚ) = decVal ip := rnd_exact 53 (by omega) _ ⟨decVal ip, 0, by rw [Nat.abs_cast]; exact_mod_cast hi, by simp⟩
  unfold mantissa
  by_cases h0 : fd = []
  · subst h0
    have z : rnd 53 (((decVal [] : Nat) : ℚ) / 10 ^ ([] : List Byte).length) = 0 := by
      rw [show (((decVal [] : Nat) : ℚ) / 10 ^ ([] : List Byte).length) = 0 by simp [decVal]]
      exact rnd_exact 53 (by omega) _ ⟨0, 0, by simp, by simp⟩
    rw [if_pos rfl, ez, ei, z, add_zero, ri]
  · have z0 : Within (1 / 2 ^ 53) 0 ((0 : Nat) : ℚ) 0 := by rw [Nat.cast_zero]; exact within_self _ _
    have hf88 : decVal fd ≤ 1797693134 * 10 ^ 299 := le_trans hf bits_small.le
    have hl0 : fd.length ≠ 0 := fun h => h0 (List.length_eq_zero_iff.mp h)
    have eb : horner ieee fd (.num 0) = .num (decVal fd) := by
      rw [horner_ieee fd 0 0 0 (by rw [zero_mul, zero_add]; exact hf88) z0 (by omega)]
      exact horner_rounded0 53 (by omega) fd hf
    have hm := medium_div (decVal fd) fd.length hf88 (by omega)
    have h5 : (5 : Nat) ^ fd.length ≤ 2 ^ 53 := le_trans (Nat.pow_le_pow_right (by omega) hl) (by norm_num)
    have ec : pow10 ieee doubleMin (.num (decVal fd)) (-(fd.length : Int)) = ok (.num (rnd 53 (decVal fd / 10 ^ fd.length))) := by
      unfold pow10 fract10Size doubleMin
      rw [if_neg (by omega), if_pos (by omega), if_pos (by omega), if_neg (by omega)]
      have en : (-(fd.length : Int)).natAbs = fd.length := by omega
      rw [en, div_ieee _ fd.length hl0 (by omega), rnd_pow10 53 (by omega) _ hl0 h5, rnd64_within hm (within_self _ _) (by omega)]
    have hc := within_rnd 53 half_ulp hm.nonneg (within_self (1 / 2 ^ 53) _)
    rw [if_neg h0, ez, eb, ec, ok_bind, ei]
    have h1 : Within (1 / 2 ^ 53) 1 (decVal ip : ℚ) (decVal ip) := within_mono half_ulp (Nat.cast_nonneg _) (by omega) (within_self _ _)
    have hm2 := mantissa_medium ip fd hfd (lt_of_le_of_lt hi bits_small) (by omega)
    exact congrArg ok (rnd64_within hm2 (within_add h1 hc) (by omega))

/-- **C176**: with up to 22 digits behind the point and both parts at most 2^53, the number stored is off by two roundings at most. -/
theorem C176_error_bound (is fs : Nat) (sg : List Byte) (neg : Bool) (ip fd rest : List Byte) (hs : Sign sg neg)
    (hip : ∀ c ∈ ip, isDigit c) (hlen : (skipZeros ip).length ≤ is) (hfd : ∀ c ∈ fd, isDigit c)
    (hcut : fd.length = fs ∨ (fd.length ≤ fs ∧ rest = [])) (hi : decVal ip ≤ 2 ^ 53) (hf : decVal fd ≤ 2 ^ 53) (hl : fd.length ≤ 22) :
    let v : ℚ := decVal ip + decVal fd / 10 ^ fd.length
    ∃ r, decimalSink ieee doubleMin is fs (sg ++ (ip ++ 46 :: (fd ++ rest))) = ok (some (withSign neg r)) ∧
      |r - v| ≤ v * (1 / 2 ^ 52 + 1 / 2 ^ 106) := by
  intro v
  have hv : 0 ≤ (decVal fd : ℚ) / 10 ^ fd.length := by positivity
  refine ⟨rnd 53 (decVal ip + rnd 53 (decVal fd / 10 ^ fd.length)), ?_, ?_⟩
  · rw [decimalSink_mantissa ieee doubleMin is fs sg neg ip fd rest hs hip hlen hfd hcut (by omega), mantissa_ieee_short ip fd hip hfd hi hf hl, ok_bind]
    cases neg <;> rfl
  · have h1 : Within (1 / 2 ^ 53) 1 (decVal ip : ℚ) (decVal ip) := within_mono half_ulp (Nat.cast_nonneg _) (by omega) (within_self _ _)
    have h2 := within_rnd 53 half_ulp hv (within_self (1 / 2 ^ 53) _)
    have h := within_abs (by positivity) (within_rnd 53 half_ulp (by positivity) (within_add h1 h2))
    refine le_trans h (le_of_eq ?_)
    norm_num [v]

/-- The fraction of a number of 53 bits has 53 bits. -/
theorem fraction_rep (n : Nat) (f : ℚ) (h0 : 0 ≤ f) (h1 : f < 1) (h : Rep 53 ((n : ℚ) + f)) : Rep 53 f := by
  obtain ⟨k, j, hk, e⟩ := h
  by_cases hj : 0 ≤ j
  · obtain ⟨i, rfl⟩ := Int.eq_ofNat_of_zero_le hj
    have e' : f = ((k * 2 ^ i - n : ℤ) : ℚ) := by
      push_cast
      rw [zpow_natCast] at e
      linarith
    have a : (0 : ℤ) ≤ k * 2 ^ i - n := by rw [e'] at h0; exact_mod_cast h0
    have b : (k * 2 ^ i - n : ℤ) < 1 := by rw [e'] at h1; exact_mod_cast h1
    have : (k * 2 ^ i - n : ℤ) = 0 := by omega
    exact ⟨0, 0, by simp, by rw [e', this]; simp⟩
  · obtain ⟨i, hi⟩ : ∃ i : Nat, j = -(i : ℤ) := ⟨j.natAbs, by omega⟩
    subst hi
    have hp : (0 : ℚ) < 2 ^ i := by positivity
    rw [zpow_neg, zpow_natCast] at e
    have e' : f = ((k - n * 2 ^ i : ℤ) : ℚ) * ((2 : ℚ) ^ i)⁻¹ := by
      push_cast
      rw [sub_mul, ← e, mul_assoc, mul_inv_cancel₀ hp.ne']
      ring
    have a : (0 : ℤ) ≤ k - n * 2 ^ i := by
      rw [e'] at h0
      have := (mul_nonneg_iff_of_pos_right (inv_pos.mpr hp)).mp h0
      exact_mod_cast this
    have b : (0 : ℤ) ≤ n * 2 ^ i := by positivity
    refine ⟨k - n * 2 ^ i, -(i : ℤ), ?_, by rw [zpow_neg, zpow_natCast]; exact e'⟩
    rw [abs_of_nonneg a]
    exact le_trans (by omega) (le_trans (le_abs_self k) hk)

/-- **C176**: a number that a `double` of 53 bits can hold is stored exactly. -/
theorem C176_exact (is fs : Nat) (sg : List Byte) (neg : Bool) (ip fd rest : List Byte) (hs : Sign sg neg)
    (hip : ∀ c ∈ ip, isDigit c) (hlen : (skipZeros ip).length ≤ is) (hfd : ∀ c ∈ fd, isDigit c)
    (hcut : fd.length = fs ∨ (fd.length ≤ fs ∧ rest = [])) (hi : decVal ip ≤ 2 ^ 53) (hf : decVal fd ≤ 2 ^ 53) (hl : fd.length ≤ 22)
    (hr : Rep 53 ((decVal ip : ℚ) + decVal fd / 10 ^ fd.length)) :
    decimalSink ieee doubleMin is fs (sg ++ (ip ++ 46 :: (fd ++ rest))) = ok (some (withSign neg (decVal ip + decVal fd / 10 ^ fd.length))) := by
  have h1 : (decVal fd : ℚ) / 10 ^ fd.length < 1 := by
    rw [div_lt_one (by positivity)]
    exact_mod_cast decVal_lt fd hfd
  have h2 := fraction_rep (decVal ip) _ (by positivity) h1 hr
  rw [decimalSink_mantissa ieee doubleMin is fs sg neg ip fd rest hs hip hlen hfd hcut (by omega), mantissa_ieee_short ip fd hip hfd hi hf hl, ok_bind,
    rnd_exact 53 (by omega) _ h2, rnd_exact 53 (by omega) _ hr]
  cases neg <;> rfl

/-- The error in units of the last digit. -/
theorem scaled_error (ip fd : List Byte) (r : ℚ)
    (h : |r - ((decVal ip : ℚ) + decVal fd / 10 ^ fd.length)| ≤ ((decVal ip : ℚ) + decVal fd / 10 ^ fd.length) * (1 / 2 ^ 52 + 1 / 2 ^ 106))
    (hb : decVal (ip ++ fd) < 2 ^ 51) : |r * 10 ^ fd.length - decVal (ip ++ fd)| < 1 / 2 := by
  have hp : (0 : ℚ) < 10 ^ fd.length := by positivity
  have e : (decVal (ip ++ fd) : ℚ) = ((decVal ip : ℚ) + decVal fd / 10 ^ fd.length) * 10 ^ fd.length := by
    rw [decVal_append, add_mul, div_mul_cancel₀ _ hp.ne']; push_cast; rfl
  have hb' : (decVal (ip ++ fd) : ℚ) ≤ 2 ^ 51 - 1 := by
    have : decVal (ip ++ fd) ≤ 2 ^ 51 - 1 := by omega
    have : (decVal (ip ++ fd) : ℚ) ≤ ((2 ^ 51 - 1 : Nat) : ℚ) := by exact_mod_cast this
    refine le_trans this (le_of_eq ?_)
    norm_num
  have := mul_le_mul_of_nonneg_right h hp.le
  rw [mul_right_comm, ← e] at this
  rw [e, ← sub_mul, abs_mul, abs_of_pos hp]
  refine lt_of_le_of_lt this ?_
  have h2 := mul_le_mul_of_nonneg_right hb' (by norm_num : (0 : ℚ) ≤ 1 / 2 ^ 52 + 1 / 2 ^ 106)
  exact lt_of_le_of_lt h2 (by norm_num)

/-- **C176**: two numbers with equally many digits behind the point, each worth less than 2^51 units of its last place: what is stored for the smaller one is
smaller, and each is recovered by rounding to the nearest multiple of that unit. -/
theorem C176_order (is fs : Nat) (ip fd ip' fd' rest rest' : List Byte) (hip : ∀ c ∈ ip, isDigit c) (hlen : (skipZeros ip).length ≤ is)
    (hfd : ∀ c ∈ fd, isDigit c) (hip' : ∀ c ∈ ip', isDigit c) (hlen' : (skipZeros ip').length ≤ is) (hfd' : ∀ c ∈ fd', isDigit c)
    (hcut : fd.length = fs ∨ (fd.length ≤ fs ∧ rest = [])) (hcut' : fd'.length = fs ∨ (fd'.length ≤ fs ∧ rest' = []))
    (he : fd'.length = fd.length) (hl : fd.length ≤ 22) (hs : decVal (ip ++ fd) < decVal (ip' ++ fd')) (hb : decVal (ip' ++ fd') < 2 ^ 51) :
    ∃ r r' : ℚ, decimalSink ieee doubleMin is fs (ip ++ 46 :: (fd ++ rest)) = ok (some (.num r)) ∧
      decimalSink ieee doubleMin is fs (ip' ++ 46 :: (fd' ++ rest')) = ok (some (.num r')) ∧ r < r' ∧
      |r * 10 ^ fd.length - decVal (ip ++ fd)| < 1 / 2 ∧ |r' * 10 ^ fd.length - decVal (ip' ++ fd')| < 1 / 2 := by
  have hb0 := lt_trans hs hb
  have a := decVal_append ip fd
  have a' := decVal_append ip' fd'
  have p1 : decVal ip ≤ decVal ip * 10 ^ fd.length := Nat.le_mul_of_pos_right _ (by positivity)
  have p2 : decVal ip' ≤ decVal ip' * 10 ^ fd'.length := Nat.le_mul_of_pos_right _ (by positivity)
  obtain ⟨r, e, h⟩ := C176_error_bound is fs [] false ip fd rest (Or.inl ⟨rfl, rfl⟩) hip hlen hfd hcut (by omega) (by omega) hl
  obtain ⟨r', e', h'⟩ := C176_error_bound is fs [] false ip' fd' rest' (Or.inl ⟨rfl, rfl⟩) hip' hlen' hfd' hcut' (by omega) (by omega) (by omega)
  have k := scaled_error ip fd r h hb0
  have k' := scaled_error ip' fd' r' h' hb
  rw [he] at k'
  refine ⟨r, r', e, e', ?_, k, k'⟩
  have hN : (decVal (ip ++ fd) : ℚ) + 1 ≤ decVal (ip' ++ fd') := by exact_mod_cast hs
  have u := (abs_lt.mp k).2
  have u' := (abs_lt.mp k').1
  have hp : (0 : ℚ) < 10 ^ fd.length := by positivity
  exact lt_of_mul_lt_mul_right (by linarith : r * 10 ^ fd.length < r' * 10 ^ fd.length) hp.le

/-- **C176**: digits behind the ones that fit are dropped, not rounded: a number with `frac_size` digits and more behind the point is stored as one that is, up
to the two roundings, not above it and less than a unit of digit `frac_size` below it. -/
theorem C176_cut (is fs : Nat) (ip fd more : List Byte) (hip : ∀ c ∈ ip, isDigit c) (hlen : (skipZeros ip).length ≤ is)
    (hfd : ∀ c ∈ fd, isDigit c) (hmore : ∀ c ∈ more, isDigit c) (hcut : fd.length = fs) (hi : decVal ip ≤ 2 ^ 53) (hf : decVal fd ≤ 2 ^ 53) (hl : fs ≤ 22) :
    let v : ℚ := decVal ip + decVal (fd ++ more) / 10 ^ (fd ++ more).length
    ∃ r, decimalSink ieee doubleMin is fs (ip ++ 46 :: (fd ++ more)) = ok (some (.num r)) ∧
      r ≤ v + v * (1 / 2 ^ 52 + 1 / 2 ^ 106) ∧ v - 1 / 10 ^ fs - v * (1 / 2 ^ 52 + 1 / 2 ^ 106) < r := by
  intro v
  obtain ⟨r, e, h⟩ := C176_error_bound is fs [] false ip fd more (Or.inl ⟨rfl, rfl⟩) hip hlen hfd (Or.inl hcut) hi hf (by omega)
  refine ⟨r, e, ?_⟩
  have hp : (0 : ℚ) < 10 ^ fd.length := by positivity
  have hq : (0 : ℚ) < 10 ^ more.length := by positivity
  have ev : v = (decVal ip + decVal fd / 10 ^ fd.length) + (decVal more / 10 ^ more.length) / 10 ^ fd.length := by
    simp only [v]
    rw [decVal_append, List.length_append, pow_add]
    push_cast
    field_simp
    ring
  have t0 : (0 : ℚ) ≤ (decVal more / 10 ^ more.length) / 10 ^ fd.length := by positivity
  have t1 : (decVal more / 10 ^ more.length : ℚ) / 10 ^ fd.length < 1 / 10 ^ fs := by
    rw [← hcut, div_lt_div_iff_of_pos_right hp, div_lt_one hq]
    exact_mod_cast decVal_lt more hmore
  have hb : ((decVal ip : ℚ) + decVal fd / 10 ^ fd.length) * (1 / 2 ^ 52 + 1 / 2 ^ 106) ≤ v * (1 / 2 ^ 52 + 1 / 2 ^ 106) :=
    mul_le_mul_of_nonneg_right (by linarith) (by norm_num)
  obtain ⟨a, b⟩ := abs_le.mp h
  constructor <;> linarith

/-- The nearest integer, when it is known. -/
theorem rne_eq (x : ℚ) (m : ℤ) (h : |x - m| < 1 / 2 ∨ (|x - m| ≤ 1 / 2 ∧ m % 2 = 0)) : rne x = m := by
  have hle : |x - m| ≤ 1 / 2 := by rcases h with h | h; exacts [h.le, h.1]
  obtain ⟨a, b⟩ := abs_le.mp hle
  unfold rne
  by_cases hm : (m : ℚ) ≤ x
  · have ef : ⌊x⌋ = m := Int.floor_eq_iff.mpr ⟨hm, by linarith⟩
    rw [ef]
    rcases h with h | ⟨_, h⟩
    · rw [if_pos (abs_lt.mp h).2]
    · by_cases h2 : x - m < 1 / 2
      · rw [if_pos h2]
      · rw [if_neg h2, if_neg (by linarith), if_pos h]
  · have ef : ⌊x⌋ = m - 1 := Int.floor_eq_iff.mpr ⟨by push_cast; linarith, by push_cast; linarith⟩
    rw [ef]
    push_cast
    rw [if_neg (by linarith)]
    rcases h with h | ⟨_, h⟩
    · rw [if_pos (by linarith [(abs_lt.mp h).1])]; omega
    · by_cases h2 : 1 / 2 < x - (m - 1)
      · rw [if_pos h2]; omega
      · rw [if_neg h2, if_neg (by omega)]; omega

/-- The result of a rounding, when it is known. -/
theorem rnd_eq (p : Nat) (q : ℚ) (m e : ℤ) (h1 : (2 : ℚ) ^ (e + (p - 1 : ℤ)) ≤ q) (h2 : q < (2 : ℚ) ^ (e + (p - 1 : ℤ) + 1))
    (h : |q / 2 ^ e - m| < 1 / 2 ∨ (|q / 2 ^ e - m| ≤ 1 / 2 ∧ m % 2 = 0)) : rnd p q = m * 2 ^ e := by
  have hq : 0 < q := lt_of_lt_of_le (by positivity) h1
  have hl : Int.log 2 |q| = e + (p - 1 : ℤ) := by
    rw [abs_of_pos hq]
    apply le_antisymm
    · have := (Int.lt_zpow_iff_log_lt (b := 2) (x := e + (p - 1 : ℤ) + 1) (by omega) hq).mp (by rw [Nat.cast_ofNat]; exact h2)
      omega
    · exact (Int.zpow_le_iff_le_log (b := 2) (by omega) hq).mp (by rw [Nat.cast_ofNat]; exact h1)
  unfold rnd
  rw [if_neg hq.ne', hl, show e + (p - 1 : ℤ) - (p - 1 : ℤ) = e by omega, rne_eq _ m h]

/-- **C176** (negative result): the number stored need not be the `double` nearest to the text, for the sink and for the ordinary conversion alike: "1.14" gives
`0x1.23d70a3d70a3ep+0`, and `0x1.23d70a3d70a3dp+0`, which a compiler takes for `1.14`, is nearer. -/
theorem C176_not_nearest (is fs : Nat) (hi : 1 ≤ is) (hf : 2 ≤ fs) :
    decimalSink ieee doubleMin is fs [49, 46, 49, 52] = ok (some (.num (0x123d70a3d70a3e / 2 ^ 52))) ∧
    realParse ieee doubleMin [49, 46, 49, 52] = ok (some (.num (0x123d70a3d70a3e / 2 ^ 52))) ∧
    ¬ Nearest 53 (114 / 100) (0x123d70a3d70a3e / 2 ^ 52) := by
  have e1 : decVal [49] = 1 := by decide
  have e2 : decVal [49, 52] = 14 := by decide
  have r1 : rnd 53 (14 / 100) = 5044031582654956 * 2 ^ (-55 : ℤ) := by
    have := rnd_eq 53 (14 / 100) 5044031582654956 (-55) (by norm_num) (by norm_num) (Or.inl (by rw [abs_lt]; norm_num))
    rw [this]; norm_num
  have r2 : rnd 53 (1 + 5044031582654956 * 2 ^ (-55 : ℤ)) = 0x123d70a3d70a3e * 2 ^ (-52 : ℤ) := by
    have := rnd_eq 53 (1 + 5044031582654956 * 2 ^ (-55 : ℤ)) 0x123d70a3d70a3e (-52) (by norm_num) (by norm_num) (Or.inr ⟨by rw [abs_le]; norm_num, by norm_num⟩)
    rw [this]; norm_num
  have hm := mantissa_ieee_short [49] [49, 52] (by decide) (by decide) (by rw [e1]; norm_num) (by rw [e2]; norm_num) (by simp)
  have e3 : ((decVal [49] : Nat) : ℚ) + rnd 53 (((decVal [49, 52] : Nat) : ℚ) / 10 ^ ([49, 52] : List Byte).length) = 1 + 5044031582654956 * 2 ^ (-55 : ℤ) := by
    rw [e1, e2, ← r1]; norm_num
  have e4 : (0x123d70a3d70a3e * 2 ^ (-52 : ℤ) : ℚ) = 0x123d70a3d70a3e / 2 ^ 52 := by norm_num
  rw [e3, r2, e4] at hm
  have hd : decimalSink ieee doubleMin is fs [49, 46, 49, 52] = ok (some (.num (0x123d70a3d70a3e / 2 ^ 52))) := by
    have := decimalSink_mantissa ieee doubleMin is fs [] false [49] [49, 52] [] (Or.inl ⟨rfl, rfl⟩) (by decide) (show (skipZeros [49]).length ≤ is from hi) (by decide) (Or.inr ⟨by simpa using hf, rfl⟩) (by simp)
    rw [hm, ok_bind] at this
    exact this
  refine ⟨hd, ?_, ?_⟩
  · rw [← hd]
    exact (C176_agrees ieee doubleMin is fs [] false [49] [49, 52] [] (Or.inl ⟨rfl, rfl⟩) (by decide) (show (skipZeros [49]).length ≤ is from hi) (by decide) (by simp) (Or.inr ⟨by simpa using hf, rfl⟩) (by simp)).symm
  · rintro ⟨_, h⟩
    have := h (0x123d70a3d70a3d / 2 ^ 52) ⟨0x123d70a3d70a3d, -52, by norm_num, by norm_num⟩
    rw [abs_of_pos (by norm_num), abs_of_neg (by norm_num)] at this
    norm_num at this

/-- Non-vacuity of `C176_agrees`: "-12.345xyz" with two digits each is read as "-12.34". -/
example : decimalSink ieee doubleMin 2 2 [45, 49, 50, 46, 51, 52, 53, 120, 121, 122] = realParse ieee doubleMin [45, 49, 50, 46, 51, 52] :=
  C176_agrees ieee doubleMin 2 2 [45] true [49, 50] [51, 52] [53, 120, 121, 122] (Or.inr (Or.inr ⟨rfl, rfl⟩)) (by decide) (by decide) (by decide) (by decide)
    (Or.inl rfl) (by decide)

/-- Non-vacuity of `C176_error_bound`: "-12.34". -/
example := C176_error_bound 2 2 [45] true [49, 50] [51, 52] [] (Or.inr (Or.inr ⟨rfl, rfl⟩)) (by decide) (by decide) (by decide) (Or.inl rfl) (by decide) (by decide) (by decide)

/-- Non-vacuity of `C176_exact`: "12.25". -/
example : decimalSink ieee doubleMin 2 2 [49, 50, 46, 50, 53] = ok (some (.num (49 / 4))) := by
  have e1 : decVal [49, 50] = 12 := by decide
  have e2 : decVal [50, 53] = 25 := by decide
  refine (C176_exact 2 2 [] false [49, 50] [50, 53] [] (Or.inl ⟨rfl, rfl⟩) (by decide) (by decide) (by decide) (Or.inl rfl) (by decide) (by decide) (by decide)
    ⟨49, -2, by norm_num, by rw [e1, e2]; norm_num⟩).trans ?_
  rw [e1, e2, withSign]
  norm_num

/-- Non-vacuity of `C176_order`: "12.34" and "12.35". -/
example := C176_order 2 2 [49, 50] [51, 52] [49, 50] [51, 53] [] [] (by decide) (by decide) (by decide) (by decide) (by decide) (by decide) (Or.inl rfl) (Or.inl rfl) rfl
  (by decide) (by decide) (by decide)

/-- Non-vacuity of `C176_cut`: "12.3456789" with two digits behind the point. -/
example := C176_cut 2 2 [49, 50] [51, 52] [53, 54, 55, 56, 57] (by decide) (by decide) (by decide) (by decide) rfl (by decide) (by decide) (by decide)

/-- Non-vacuity of `C176_not_nearest`: ten digits each. -/
example := C176_not_nearest 10 10 (by decide) (by decide)

end Strtk.Real
