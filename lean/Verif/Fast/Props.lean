import Verif.Fast.Model
import Verif.Number.Lemmas

/-! # Theorems about strtk::fast (C31) -/

namespace Strtk.Fast
open Outcome Strtk.Number

theorem isDigitU8_iff (c : Byte) : isDigitU8 c = decide (isDigit c) := by
  have : ∀ c : Byte, isDigitU8 c = decide (isDigit c) := by decide +kernel
  exact this c

theorem toInt_digit (c : Byte) (h : isDigit c) : c.toInt - 48 = ((c.toNat - 48 : Nat) : Int) := by
  have : ∀ c : Byte, isDigit c → c.toInt - 48 = ((c.toNat - 48 : Nat) : Int) := by decide +kernel
  exact this c h

theorem allDigits_spec (s : List Byte) : allDigits s.length s = ok (decide (∀ c ∈ s, isDigit c)) := by
  induction s with
  | nil => rfl
  | cons c s ih =>
    simp only [List.length_cons, allDigits, look, ok_bind, List.tail_cons, isDigitU8_iff]
    by_cases hc : isDigit c
    · rw [if_pos (by simpa using hc), ih]
      congr 1
      rw [decide_eq_decide, List.forall_mem_cons]
      exact ⟨fun h => ⟨hc, h⟩, fun h => h.2⟩
    · rw [if_neg (by simpa using hc)]
      congr 1
      symm
      rw [decide_eq_false_iff_not, List.forall_mem_cons]
      exact fun h => hc h.1

/-- The largest value of a type. -/
def IntTy.maxVal (ty : IntTy) : Nat := if ty.signed then 2 ^ (ty.bits - 1) - 1 else 2 ^ ty.bits - 1

/-- The library's integer types. -/
def IntTy.Std (ty : IntTy) : Prop := ty.bits = 16 ∨ ty.bits = 32 ∨ ty.bits = 64

theorem conv_ok (ty : IntTy) (hs : ty.Std) (v : Nat) (h : v ≤ ty.maxVal) : ty.conv v = v := by
  obtain ⟨sg, b⟩ := ty
  unfold IntTy.maxVal IntTy.Std at *
  simp only at h hs
  unfold IntTy.conv
  cases sg
  · simp only [Bool.false_eq_true, if_false] at h ⊢
    rcases hs with rfl | rfl | rfl <;> omega
  · simp only [if_true] at h ⊢
    rcases hs with rfl | rfl | rfl <;> (rw [Int.bmod_eq_of_le_mul_two]) <;> omega

theorem arith_ok (ty : IntTy) (hs : ty.Std) (v : Nat) (h : v ≤ ty.maxVal) : ty.arith v = ok (v : Int) := by
  have hc := conv_ok ty hs v h
  unfold IntTy.arith
  rw [hc, if_neg]
  rintro ⟨h1, h2, h3⟩
  apply h3
  unfold fits
  unfold IntTy.maxVal at h
  rw [if_pos h1] at h
  have : (0 : Int) < 2 ^ (ty.bits - 1) := Int.pow_pos (by omega)
  have h' : (v : Int) ≤ ((2 ^ (ty.bits - 1) - 1 : Nat) : Int) := by exact_mod_cast h
  have h1 : 1 ≤ 2 ^ (ty.bits - 1) := Nat.one_le_pow _ _ (by omega)
  rw [Int.ofNat_sub h1] at h'
  push_cast at h'
  omega

theorem horner_spec (ty : IntTy) (hs : ty.Std) (s : List Byte) : ∀ x : Nat, (∀ c ∈ s, isDigit c) → x * 10 ^ s.length + decVal s ≤ ty.maxVal →
    horner ty s.length s x = ok ((x * 10 ^ s.length + decVal s : Nat) : Int) := by
  induction s with
  | nil => intro x _ _; simp [horner, decVal]
  | cons c s ih =>
    intro x hd hb
    have hc := hd c (List.mem_cons_self)
    rw [decVal_cons, List.length_cons, Nat.pow_succ] at hb
    have hp : 1 ≤ 10 ^ s.length := Nat.one_le_pow _ _ (by omega)
    have e : x * (10 ^ s.length * 10) + ((c.toNat - 48) * 10 ^ s.length + decVal s) = (x * 10 + (c.toNat - 48)) * 10 ^ s.length + decVal s := by ring
    rw [e] at hb
    have hx : x * 10 + (c.toNat - 48) ≤ (x * 10 + (c.toNat - 48)) * 10 ^ s.length := Nat.le_mul_of_pos_right _ hp
    simp only [List.length_cons, horner, look, ok_bind, List.tail_cons]
    have a1 := arith_ok ty hs (x * 10) (by omega)
    have a2 := arith_ok ty hs (x * 10 + (c.toNat - 48)) (by omega)
    have a3 := conv_ok ty hs (c.toNat - 48) (by omega)
    push_cast at a1 a2
    rw [a1, ok_bind, toInt_digit c hc, a3, a2, ok_bind]
    have := ih (x * 10 + (c.toNat - 48)) (fun y hy => hd y (List.mem_cons_of_mem _ hy)) hb
    push_cast at this
    rw [this, decVal_cons]
    congr 1
    push_cast
    ring

theorem convertImpl_spec (ty : IntTy) (hs : ty.Std) (s : List Byte) (hl : s.length ≤ 20) (hd : ∀ c ∈ s, isDigit c) (hb : decVal s ≤ ty.maxVal) :
    convertImpl ty s.length s = ok (decVal s : Int) := by
  induction s with
  | nil => rfl
  | cons c s ih =>
    have hc := hd c (List.mem_cons_self)
    have hd' := fun y hy => hd y (List.mem_cons_of_mem c hy)
    have h2 := hc.2
    have hp : 1 ≤ 10 ^ s.length := Nat.one_le_pow _ _ (by omega)
    have hb' := hb
    rw [decVal_cons] at hb'
    have hmul : c.toNat - 48 ≤ (c.toNat - 48) * 10 ^ s.length := Nat.le_mul_of_pos_right _ hp
    simp only [List.length_cons, convertImpl, look, ok_bind, List.tail_cons]
    by_cases h16 : s.length + 1 ≤ 16
    · rw [if_pos h16, toInt_digit c hc, conv_ok ty hs _ (by omega), horner_spec ty hs s _ hd' hb', decVal_cons]
    · rw [if_neg h16, ih (by simp at hl; omega) hd' (by omega), ok_bind]
      have ht : topProduct (s.length + 1) c = ok (((c.toNat - 48) * 10 ^ s.length : Nat) : Int) := by
        unfold topProduct
        rw [toInt_digit c hc]
        simp only [List.length_cons] at hl
        have hpl : (10 : Nat) ^ s.length ≤ 10 ^ 19 := Nat.pow_le_pow_right (by omega) (by omega)
        have hmle : (c.toNat - 48) * 10 ^ s.length ≤ ty.maxVal := by omega
        have hmax : ty.maxVal < 2 ^ 64 := by
          unfold IntTy.maxVal
          rcases hs with h | h | h <;> rw [h] <;> split <;> omega
        simp only [Nat.add_sub_cancel]
        by_cases h20 : s.length + 1 = 20
        · rw [if_pos h20]
          congr 1
          have := Int.emod_eq_of_lt (a := (((c.toNat - 48) * 10 ^ s.length : Nat) : Int)) (b := 2 ^ 64) (by omega) (by omega)
          push_cast at this ⊢
          exact this
        · rw [if_neg h20]
          have hpl' : (10 : Nat) ^ s.length ≤ 10 ^ 18 := Nat.pow_le_pow_right (by omega) (by omega)
          have h9 : (c.toNat - 48) * 10 ^ s.length ≤ 9 * 10 ^ 18 := Nat.mul_le_mul (by omega) hpl'
          have hcast : ((c.toNat - 48 : Nat) : Int) * 10 ^ s.length = (((c.toNat - 48) * 10 ^ s.length : Nat) : Int) := by push_cast; rfl
          rw [hcast, if_pos]
          unfold fits
          simp only [Nat.add_one_sub_one]
          omega
      rw [ht, ok_bind, conv_ok ty hs _ (by omega)]
      have := arith_ok ty hs (decVal s + (c.toNat - 48) * 10 ^ s.length) (by omega)
      rw [decVal_cons]
      push_cast at this ⊢
      rw [this, Int.add_comm]

/-- `numeric_convert` with the digit check: a string of 1 to 19 digits whose value fits the type is converted to that value. -/
theorem C31_numeric_convert (ty : IntTy) (hs : ty.Std) (s : List Byte) (t0 : Int) (hl : s.length ≤ 19) (hd : ∀ c ∈ s, isDigit c)
    (hb : decVal s ≤ ty.maxVal) : numericConvert ty s.length s t0 true = ok (true, (decVal s : Int)) := by
  unfold numericConvert allDigitsCheck
  simp only [if_true]
  rw [if_pos hl, allDigits_spec, ok_bind, if_pos (by simpa using hd), if_pos (by omega), convertImpl_spec ty hs s (by omega) hd hb, ok_bind]

/-- With the digit check, a text containing a non-digit is rejected whatever its length, and the target is unchanged; so is every text of
20 or more characters. -/
theorem C31_numeric_convert_rejects (ty : IntTy) (s : List Byte) (t0 : Int) (h : ¬ (∀ c ∈ s, isDigit c) ∨ 20 ≤ s.length) :
    numericConvert ty s.length s t0 true = ok (false, t0) := by
  unfold numericConvert allDigitsCheck
  simp only [if_true]
  by_cases hl : s.length ≤ 19
  · have h' : ¬ (∀ c ∈ s, isDigit c) := by
      rcases h with h | h
      · exact h
      · omega
    rw [if_pos hl, allDigits_spec, ok_bind, if_neg (by simpa using h')]
  · rw [if_neg hl, ok_bind, if_neg (by simp)]

/-- Without the check, digit strings of up to 20 characters are converted to the same value. -/
theorem C31_unchecked (ty : IntTy) (hs : ty.Std) (s : List Byte) (t0 : Int) (hl : s.length ≤ 20) (hd : ∀ c ∈ s, isDigit c)
    (hb : decVal s ≤ ty.maxVal) : numericConvert ty s.length s t0 false = ok (true, (decVal s : Int)) := by
  unfold numericConvert
  simp only [Bool.false_eq_true, if_false, ok_bind, if_true]
  rw [if_pos hl, convertImpl_spec ty hs s hl hd hb, ok_bind]

/-- The compile-time version without the check: the value. -/
theorem C31_numeric_convert_N_unchecked (ty : IntTy) (hs : ty.Std) (s : List Byte) (hl : s.length ≤ 19) (hd : ∀ c ∈ s, isDigit c)
    (hb : decVal s ≤ ty.maxVal) : numericConvertN ty s.length s false = ok (decVal s : Int) := by
  unfold numericConvertN
  simp only [Bool.false_eq_true, if_false, ok_bind, if_true]
  rw [convertImpl_spec ty hs s (by omega) hd hb]

example : numericConvertN ⟨true, 32⟩ 3 [50, 48, 49] false = ok 201 := by decide +kernel

/-- The compile-time version with N = length: the value, or 0 if the check fails. -/
theorem C31_numeric_convert_N (ty : IntTy) (hs : ty.Std) (s : List Byte) (hl : s.length ≤ 19) :
    ((∀ c ∈ s, isDigit c) → decVal s ≤ ty.maxVal → numericConvertN ty s.length s true = ok (decVal s : Int)) ∧
    (¬ (∀ c ∈ s, isDigit c) → numericConvertN ty s.length s true = ok 0) := by
  unfold numericConvertN
  simp only [if_true]
  rw [allDigits_spec, ok_bind]
  constructor
  · intro hd hb
    rw [if_pos (by simpa using hd), convertImpl_spec ty hs s (by omega) hd hb]
  · intro hd
    rw [if_neg (by simpa using hd)]

theorem arith_neg (ty : IntTy) (hs : ty.Std) (hsg : ty.signed = true) (v : Nat) (h : v ≤ ty.maxVal) : ty.arith (-(v : Int)) = ok (-(v : Int)) := by
  obtain ⟨sg, b⟩ := ty
  simp only at hsg
  subst hsg
  unfold IntTy.maxVal IntTy.Std at *
  simp only [if_true] at h hs
  unfold IntTy.arith IntTy.conv fits
  simp only [if_true, true_and]
  rcases hs with rfl | rfl | rfl <;> (rw [if_neg (by omega), Int.bmod_eq_of_le_mul_two]) <;> omega

/-- `signed_numeric_convert` with the digit check on a signed type: exactly the texts "optional sign, digits" whose value (up to leading
zeros, at most 19 digits) fits are converted to it. -/
theorem C31_signed_numeric_convert (ty : IntTy) (hs : ty.Std) (hsg : ty.signed = true) (s : List Byte) (t0 v : Int) (hn : SNumeral s v)
    (hb : v.natAbs ≤ ty.maxVal) : signedNumericConvert ty s t0 true = ok (true, v) := by
  have hmax : ty.maxVal < 10 ^ 19 := by
    unfold IntTy.maxVal
    rw [hsg]
    rcases hs with h | h | h <;> rw [h] <;> simp
  -- digits after the sign
  have core : ∀ ds, Digits ds → decVal ds ≤ ty.maxVal → numericConvert ty (skipZeros ds).length (skipZeros ds) t0 true = ok (true, (decVal ds : Int)) := by
    intro ds hd hle
    have hdz := (digits_skipZeros ds).mpr hd.2
    have hlen : (skipZeros ds).length ≤ 19 := by
      obtain ⟨k, _, h | ⟨c, t, h, hc⟩⟩ := skipZeros_spec ds
      · rw [h]; simp
      · have h1 := decVal_ge c t (hdz c (by rw [h]; simp)) hc
        rw [← h, decVal_skipZeros] at h1
        rw [h]
        by_contra hcon
        have : 10 ^ 19 ≤ 10 ^ t.length := Nat.pow_le_pow_right (by omega) (by simp at hcon; omega)
        omega
    have := C31_numeric_convert ty hs (skipZeros ds) t0 hlen hdz (by rw [decVal_skipZeros]; exact hle)
    rw [decVal_skipZeros] at this
    exact this
  obtain ⟨ds, hd, ⟨h | h, hv⟩ | ⟨h, hv⟩⟩ := hn
  · subst h
    obtain ⟨hne, hdig⟩ := hd
    cases s with
    | nil => exact absurd rfl hne
    | cons c t =>
      have hc := hdig c (List.mem_cons_self)
      have h1 : ¬ (c = 45 ∨ c = 43) := by rintro (rfl | rfl) <;> revert hc <;> decide
      have h2 : ¬ c = 45 := fun e => h1 (Or.inl e)
      unfold signedNumericConvert
      simp only [look, ok_bind, h1, if_false, false_and]
      rw [core _ ⟨hne, hdig⟩ (by omega)]
      simp only [ok_bind, if_true, h2, if_false, hv]
  · subst h
    have hne := hd.1
    unfold signedNumericConvert
    simp only [look, ok_bind, or_true, if_true, List.tail_cons, true_and]
    rw [if_neg hne, core _ hd (by omega)]
    simp only [ok_bind, if_true, hv]
    rw [if_neg (by decide)]
  · subst h
    have hne := hd.1
    unfold signedNumericConvert
    simp only [look, ok_bind, true_or, if_true, List.tail_cons, true_and]
    rw [if_neg hne, core _ hd (by omega)]
    simp only [ok_bind, if_true]
    rw [arith_neg ty hs hsg _ (by omega), ok_bind, hv]

/-- Texts that are no numerals are rejected and leave the target unchanged (for a non-empty range; on an empty range the code reads
`*itr`: see the next theorem). -/
theorem C31_signed_rejects (ty : IntTy) (s : List Byte) (t0 : Int) (hne : s ≠ []) (hn : ∀ v, ¬ SNumeral s v) :
    signedNumericConvert ty s t0 true = ok (false, t0) := by
  have core : ∀ ds : List Byte, ¬ Digits ds → ds ≠ [] → numericConvert ty (skipZeros ds).length (skipZeros ds) t0 true = ok (false, t0) := by
    intro ds hd hne
    apply C31_numeric_convert_rejects
    left
    rw [digits_skipZeros]
    exact fun h => hd ⟨hne, h⟩
  cases s with
  | nil => exact absurd rfl hne
  | cons c t =>
    unfold signedNumericConvert
    simp only [look, ok_bind, List.tail_cons]
    by_cases hc : c = 45 ∨ c = 43
    · simp only [hc, if_true, true_and]
      by_cases ht : t = []
      · rw [if_pos ht]
      · rw [if_neg ht, core t _ ht]
        · simp
        · intro hd
          rcases hc with rfl | rfl
          · exact hn _ ⟨t, hd, Or.inr ⟨rfl, rfl⟩⟩
          · exact hn _ ⟨t, hd, Or.inl ⟨Or.inr rfl, rfl⟩⟩
    · simp only [hc, if_false, false_and]
      rw [core (c :: t) (fun hd => hn _ ⟨_, hd, Or.inl ⟨Or.inl rfl, rfl⟩⟩) (by simp)]
      simp

/-- On an empty range the signed version reads out of range: it dereferences `end` before comparing with it (for the empty range at the end of a
`std::string` that is the terminating zero, elsewhere the character behind the range). -/
theorem C31_signed_empty_is_ub (ty : IntTy) (t0 : Int) (b : Bool) : signedNumericConvert ty [] t0 b = ub := rfl

/-- `int` and `unsigned int`: an over-long value is not reported.  The unsigned type silently wraps, the signed one overflows. -/
theorem C31_no_range_check : numericConvert ⟨false, 32⟩ 10 [52, 50, 57, 52, 57, 54, 55, 50, 57, 54] 7 true = ok (true, 0) ∧
    numericConvert ⟨true, 32⟩ 10 [50, 49, 52, 55, 52, 56, 51, 54, 52, 56] 7 true = ub := by
  constructor <;> decide +kernel

example : numericConvert ⟨false, 64⟩ 19 [57, 57, 57, 57, 57, 57, 57, 57, 57, 57, 57, 57, 57, 57, 57, 57, 57, 57, 57] 7 true = ok (true, 9999999999999999999) := by
  decide +kernel
example : signedNumericConvert ⟨true, 32⟩ [45, 48, 48, 52, 50] 7 true = ok (true, -42) := by decide +kernel

/-- **C31**: `all_digits_check` on a text accepts exactly the texts of at most nineteen characters all of which are digits (the empty text among
them). -/
theorem C31_all_digits (s : List Byte) : allDigitsCheck s.length s = ok (decide (s.length ≤ 19 ∧ ∀ c ∈ s, isDigit c)) := by
  unfold allDigitsCheck
  by_cases h : s.length ≤ 19
  · rw [if_pos h, allDigits_spec]; simp [h]
  · rw [if_neg h]; simp [h]

/-- **C31**: `signed_all_digits_check` on a non-empty text accepts exactly an optional sign followed by at most nineteen digits; a lone sign is
accepted. -/
theorem C31_signed_all_digits (s : List Byte) (hne : s ≠ []) (hl : s.length < 2 ^ 64) :
    ∃ b, signedAllDigitsCheck s.length s = ok b ∧
      (b = true ↔ ∃ sg ds, s = sg ++ ds ∧ (sg = [] ∨ sg = [43] ∨ sg = [45]) ∧ ds.length ≤ 19 ∧ ∀ c ∈ ds, isDigit c) := by
  obtain ⟨c, t, rfl⟩ := List.exists_cons_of_ne_nil hne
  unfold signedAllDigitsCheck
  simp only [look, ok_bind, List.tail_cons]
  rw [List.length_cons] at hl
  by_cases hc : c = 45 ∨ c = 43
  · have hcd : ¬ isDigit c := by rcases hc with rfl | rfl <;> decide
    rw [if_pos hc, List.length_cons, show (t.length + 1 + 2 ^ 64 - 1) % 2 ^ 64 = t.length by omega, C31_all_digits]
    refine ⟨_, rfl, ?_⟩
    rw [decide_eq_true_iff]
    constructor
    · rintro ⟨h1, h2⟩
      exact ⟨[c], t, rfl, by rcases hc with rfl | rfl <;> simp, h1, h2⟩
    · rintro ⟨sg, ds, h1, h2, h3, h4⟩
      rcases h2 with rfl | rfl | rfl
      · rw [List.nil_append] at h1; subst h1; exact absurd (h4 c (by simp)) hcd
      · simp only [List.singleton_append, List.cons.injEq] at h1; rw [h1.2]; exact ⟨h3, h4⟩
      · simp only [List.singleton_append, List.cons.injEq] at h1; rw [h1.2]; exact ⟨h3, h4⟩
  · rw [if_neg hc, C31_all_digits]
    refine ⟨_, rfl, ?_⟩
    rw [decide_eq_true_iff]
    constructor
    · rintro ⟨h1, h2⟩; exact ⟨[], c :: t, rfl, Or.inl rfl, h1, h2⟩
    · rintro ⟨sg, ds, h1, h2, h3, h4⟩
      rcases h2 with rfl | rfl | rfl
      · rw [List.nil_append] at h1; subst h1; exact ⟨h3, h4⟩
      · simp only [List.singleton_append, List.cons.injEq] at h1; exact absurd (Or.inr h1.1) hc
      · simp only [List.singleton_append, List.cons.injEq] at h1; exact absurd (Or.inl h1.1) hc

example : signedAllDigitsCheck 3 [45, 49, 50] = ok true ∧ signedAllDigitsCheck 1 [43] = ok true ∧ signedAllDigitsCheck 2 [49, 45] = ok false := by decide

end Strtk.Fast
