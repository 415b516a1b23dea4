import Verif.Real.Rounded
import Verif.Number.Length

/-!
# Reals to text and back

`type_to_string` of `float`, `double` and `long double` writes the value to a string stream whose precision has been set to 10.  The stream is the
standard library's; its default notation (that of `printf("%.10g")`) is specified here over the rationals.  Not modelled: the sign of a zero and of
a `nan`, locales, and `strtk_enable_lexical_cast`.
-/

namespace Strtk.Real
open Outcome Number

/-! ## The stream -/

/-- The last `d` decimal digits of `n`. -/
def padText : Nat → Nat → List Byte
  | 0, _ => []
  | d + 1, n => padText d (n / 10) ++ [BitVec.ofNat 8 (48 + n % 10)]

/-- Without the zeros at the end. -/
def stripZeros (s : List Byte) : List Byte := (s.reverse.dropWhile (· == 48)).reverse

/-- The digits behind the point; no point if there are none. -/
def fracText (d n : Nat) : List Byte := if stripZeros (padText d n) = [] then [] else 46 :: stripZeros (padText d n)

/-- The exponent: a sign and at least two digits. -/
def expText (e : Int) : List Byte :=
  101 :: ([if e < 0 then 45 else 43] ++ (if e.natAbs < 10 then 48 :: decText e.natAbs else decText e.natAbs))

/-- `q` rounded to `P` significant digits: the digits as an integer, and the decimal exponent of the first. -/
def sigDigits (P : Nat) (q : ℚ) : Nat × Int :=
  let e := Int.log 10 q
  let k := (rne (q / 10 ^ (e - (P - 1 : Int)))).toNat
  if k = 10 ^ P then (10 ^ (P - 1), e + 1) else (k, e)

/-- A positive number: fixed notation if the exponent is at least -4 and less than the precision, otherwise scientific notation. -/
def posText (P : Nat) (q : ℚ) : List Byte :=
  let (k, e) := sigDigits P q
  if -4 ≤ e ∧ e < P then
    let d := ((P - 1 : Int) - e).toNat
    decText (k / 10 ^ d) ++ fracText d (k % 10 ^ d)
  else
    decText (k / 10 ^ (P - 1)) ++ (fracText (P - 1) (k % 10 ^ (P - 1)) ++ expText e)

/-- What a stream of precision `P` writes for a real. -/
def streamText (P : Nat) : Val → List Byte
  | .num q => if q = 0 then [48] else if q < 0 then 45 :: posText P (-q) else posText P q
  | .inf neg => (if neg then [45] else []) ++ [105, 110, 102]
  | .nan => [110, 97, 110]

/-- The precision set on the stream for `float`, `double` and `long double`.  strtk.hpp 17241-17250. -/
def realPrecision : Nat := 10

/-- `type_to_string` of a real: the text a stream of precision 10 writes.  strtk.hpp 17848-17874 (without `strtk_enable_lexical_cast`). -/
def realToString (v : Val) : Outcome (List Byte) := ok (streamText realPrecision v)

/-! ## Specification -/

/-- A number with at most `P` significant decimal digits. -/
def Dec (P : Nat) (r : ℚ) : Prop := ∃ k j : ℤ, |k| < 10 ^ P ∧ r = k * (10 : ℚ) ^ j

/-- A number of at most `P` significant decimal digits nearest to `q`. -/
def DecNearest (P : Nat) (q r : ℚ) : Prop := Dec P r ∧ ∀ s, Dec P s → |r - q| ≤ |s - q|

/-! ## Digits -/

theorem padText_spec (d : Nat) : ∀ n, (∀ c ∈ padText d n, isDigit c) ∧ (padText d n).length = d ∧ decVal (padText d n) = n % 10 ^ d := by
  induction d with
  | zero => intro n; simp [padText, decVal, Nat.mod_one]
  | succ d ih =>
    intro n
    obtain ⟨a, b, c⟩ := ih (n / 10)
    have hd : n % 10 < 10 := Nat.mod_lt _ (by omega)
    have ht : (BitVec.ofNat 8 (48 + n % 10)).toNat = 48 + n % 10 := by
      rw [BitVec.toNat_ofNat]; omega
    refine ⟨?_, by simp [padText, b], ?_⟩
    · intro x hx
      rw [padText, List.mem_append, List.mem_singleton] at hx
      rcases hx with h | rfl
      · exact a x h
      · unfold isDigit
        rw [ht]
        omega
    · rw [padText, decVal_append, c]
      simp only [List.length_singleton, pow_one]
      have : decVal [BitVec.ofNat 8 (48 + n % 10)] = n % 10 := by
        rw [decVal_cons, ht]; simp [decVal]
      rw [this, pow_succ]
      have h1 := Nat.mod_mul (a := 10) (b := 10 ^ d) (x := n)
      rw [mul_comm (10 ^ d) 10, h1]
      ring

theorem stripZeros_spec (s : List Byte) : ∃ k, s = stripZeros s ++ List.replicate k 48 := by
  have h : ∀ r : List Byte, ∃ k, r = List.replicate k 48 ++ r.dropWhile (· == 48) := by
    intro r
    induction r with
    | nil => exact ⟨0, rfl⟩
    | cons c r ih =>
      by_cases hc : c = 48
      · obtain ⟨k, hk⟩ := ih
        refine ⟨k + 1, ?_⟩
        subst hc
        rw [List.dropWhile_cons_of_pos (by simp), List.replicate_succ, List.cons_append, ← hk]
      · exact ⟨0, by rw [List.dropWhile_cons_of_neg (by simpa using hc)]; rfl⟩
  obtain ⟨k, hk⟩ := h s.reverse
  refine ⟨k, ?_⟩
  have := congrArg List.reverse hk
  rw [List.reverse_reverse, List.reverse_append, List.reverse_replicate] at this
  exact this

theorem stripZeros_val (s : List Byte) : (decVal (stripZeros s) : ℚ) / 10 ^ (stripZeros s).length = decVal s / 10 ^ s.length := by
  obtain ⟨k, hk⟩ := stripZeros_spec s
  generalize stripZeros s = t at *
  subst hk
  rw [decVal_append, decVal_zeros, List.length_append, List.length_replicate]
  push_cast
  rw [add_zero, pow_add]
  field_simp

theorem fracText_spec (d n : Nat) : ∃ fd, Fraction (fracText d n) fd ∧ fd.length ≤ d ∧ (decVal fd : ℚ) / 10 ^ fd.length = (n % 10 ^ d : Nat) / 10 ^ d := by
  obtain ⟨a, b, c⟩ := padText_spec d n
  obtain ⟨k, hk⟩ := stripZeros_spec (padText d n)
  refine ⟨stripZeros (padText d n), ?_, ?_, ?_⟩
  · unfold fracText Fraction
    split
    · exact Or.inl ⟨rfl, by assumption⟩
    · exact Or.inr ⟨rfl, fun x hx => a x (by rw [hk]; exact List.mem_append_left _ hx)⟩
  · have := congrArg List.length hk
    rw [b, List.length_append] at this
    omega
  · rw [stripZeros_val, b, c]

theorem fracText_zero (d : Nat) : fracText d 0 = [] := by
  have h : ∀ d, padText d 0 = List.replicate d 48 := by
    intro d
    induction d with
    | zero => rfl
    | succ d ih => rw [padText, Nat.zero_div, ih, List.replicate_succ']; rfl
  have h2 : stripZeros (List.replicate d 48) = [] := by
    unfold stripZeros
    rw [List.reverse_replicate]
    induction d with
    | zero => rfl
    | succ d ih => rw [List.replicate_succ, List.dropWhile_cons_of_pos (by simp)]; exact ih
  unfold fracText
  rw [h, h2, if_pos rfl]

theorem expText_spec (e : Int) : ∃ ed, Exponent (expText e) ed e ∧ ed ≠ [] := by
  obtain ⟨⟨h1, h2⟩, h3⟩ := decText_digits e.natAbs
  refine ⟨if e.natAbs < 10 then 48 :: decText e.natAbs else decText e.natAbs, Or.inr ⟨101, [if e < 0 then 45 else 43], decide (e < 0), Or.inl rfl, ?_, ?_, rfl, ?_⟩, ?_⟩
  · unfold Sign
    by_cases h : e < 0 <;> simp [h]
  · split
    · intro c hc
      rcases List.mem_cons.mp hc with rfl | hc
      · decide
      · exact h2 c hc
    · exact h2
  · have : decVal (if e.natAbs < 10 then 48 :: decText e.natAbs else decText e.natAbs) = e.natAbs := by
      split
      · rw [decVal_cons, h3]; simp
      · exact h3
    rw [this]
    by_cases h : e < 0
    · rw [decide_eq_true h, if_pos rfl]; omega
    · rw [decide_eq_false h, if_neg (by simp)]; omega
  · split
    · simp
    · exact h1

/-! ## Rounding to significant digits -/

/-- The value of digits and exponent. -/
def sigValue (P : Nat) (ke : Nat × Int) : ℚ := ke.1 * (10 : ℚ) ^ (ke.2 - (P - 1 : Int))

theorem log10_le {q : ℚ} (hq : 0 < q) : (10 : ℚ) ^ Int.log 10 q ≤ q := by
  have := Int.zpow_log_le_self (b := 10) (R := ℚ) (by omega) hq
  simpa using this

theorem lt_log10 {q : ℚ} : q < (10 : ℚ) ^ (Int.log 10 q + 1) := by
  have := Int.lt_zpow_succ_log_self (b := 10) (R := ℚ) (by omega) q
  simpa using this

theorem rne_mono_int (x : ℚ) (n : ℤ) : ((n : ℚ) ≤ x → n ≤ rne x) ∧ (x ≤ n → rne x ≤ n) := by
  have h := rne_half x
  have hn := rne_nearest x n
  rw [abs_le] at h
  constructor
  · intro hx
    by_contra hc
    have h1 : rne x ≤ n - 1 := by omega
    have h2 : (rne x : ℚ) ≤ n - 1 := by exact_mod_cast h1
    linarith
  · intro hx
    by_contra hc
    have h1 : n + 1 ≤ rne x := by omega
    have h2 : (n : ℚ) + 1 ≤ rne x := by exact_mod_cast h1
    linarith

theorem sigDigits_spec (P : Nat) (hP : 1 ≤ P) (q : ℚ) (hq : 0 < q) :
    10 ^ (P - 1) ≤ (sigDigits P q).1 ∧ (sigDigits P q).1 < 10 ^ P ∧
      ((sigDigits P q).2 = Int.log 10 q ∨ (sigDigits P q).2 = Int.log 10 q + 1) ∧
      sigValue P (sigDigits P q) = rne (q / 10 ^ (Int.log 10 q - (P - 1 : Int))) * (10 : ℚ) ^ (Int.log 10 q - (P - 1 : Int)) := by
  have h1 := log10_le hq
  have h2 := lt_log10 (q := q)
  unfold sigDigits
  generalize Int.log 10 q = e at *
  have hpos : (0 : ℚ) < 10 ^ (e - (P - 1 : Int)) := by positivity
  have hlo : (((10 : ℤ) ^ (P - 1) : ℤ) : ℚ) ≤ q / 10 ^ (e - (P - 1 : Int)) := by
    rw [le_div_iff₀ hpos]
    refine le_trans (le_of_eq ?_) h1
    push_cast
    rw [← zpow_natCast, ← zpow_add₀ (by norm_num)]
    congr 1; omega
  have hhi : q / 10 ^ (e - (P - 1 : Int)) ≤ (((10 : ℤ) ^ P : ℤ) : ℚ) := by
    rw [div_le_iff₀ hpos]
    refine le_trans h2.le (le_of_eq ?_)
    push_cast
    rw [← zpow_natCast, ← zpow_add₀ (by norm_num)]
    congr 1; omega
  have a := (rne_mono_int _ _).1 hlo
  have b := (rne_mono_int _ _).2 hhi
  have hz : (0 : ℤ) ≤ rne (q / 10 ^ (e - (P - 1 : Int))) := le_trans (by positivity) a
  obtain ⟨k, hk⟩ := Int.eq_ofNat_of_zero_le hz
  rw [hk] at a b ⊢
  have a' : 10 ^ (P - 1) ≤ k := by exact_mod_cast a
  have b' : k ≤ 10 ^ P := by exact_mod_cast b
  simp only [hk, Int.toNat_natCast]
  by_cases hc : k = 10 ^ P
  · rw [if_pos hc]
    refine ⟨le_refl _, Nat.pow_lt_pow_right (by omega) (by omega), Or.inr rfl, ?_⟩
    unfold sigValue
    subst hc
    push_cast
    rw [← zpow_natCast, ← zpow_natCast, ← zpow_add₀ (by norm_num), ← zpow_add₀ (by norm_num)]
    congr 1; omega
  · rw [if_neg hc]
    exact ⟨a', by omega, Or.inl rfl, by simp [sigValue]⟩

theorem sigValue_pos (P : Nat) (hP : 1 ≤ P) (q : ℚ) (hq : 0 < q) : 0 < sigValue P (sigDigits P q) := by
  have h := (sigDigits_spec P hP q hq).1
  unfold sigValue
  have : 0 < (sigDigits P q).1 := lt_of_lt_of_le (by positivity) h
  have : (0 : ℚ) < (sigDigits P q).1 := by exact_mod_cast this
  positivity

theorem sigValue_error (P : Nat) (hP : 1 ≤ P) (q : ℚ) (hq : 0 < q) :
    |sigValue P (sigDigits P q) - q| ≤ 1 / 2 * (10 : ℚ) ^ (Int.log 10 q - (P - 1 : Int)) := by
  rw [(sigDigits_spec P hP q hq).2.2.2]
  generalize Int.log 10 q = e
  have hpos : (0 : ℚ) < 10 ^ (e - (P - 1 : Int)) := by positivity
  have h := rne_half (q / 10 ^ (e - (P - 1 : Int)))
  have e1 : (rne (q / 10 ^ (e - (P - 1 : ℤ))) : ℚ) * 10 ^ (e - (P - 1 : ℤ)) - q =
      ((rne (q / 10 ^ (e - (P - 1 : ℤ))) : ℚ) - q / 10 ^ (e - (P - 1 : ℤ))) * 10 ^ (e - (P - 1 : ℤ)) := by
    field_simp
  rw [e1, abs_mul, abs_of_pos hpos]
  exact mul_le_mul_of_nonneg_right h hpos.le

theorem sigValue_nearest (P : Nat) (hP : 1 ≤ P) (q : ℚ) (hq : 0 < q) : DecNearest P q (sigValue P (sigDigits P q)) := by
  obtain ⟨h1, h2, h3, h4⟩ := sigDigits_spec P hP q hq
  refine ⟨⟨(sigDigits P q).1, (sigDigits P q).2 - (P - 1 : Int), ?_, by simp [sigValue]⟩, ?_⟩
  · rw [abs_of_nonneg (by omega)]; exact_mod_cast h2
  rw [h4]
  have hlo := log10_le hq
  generalize Int.log 10 q = e at *
  have hpos : (0 : ℚ) < 10 ^ (e - (P - 1 : Int)) := by positivity
  -- multiples of the last place
  have key : ∀ n : ℤ, |(rne (q / 10 ^ (e - (P - 1 : ℤ))) : ℚ) * 10 ^ (e - (P - 1 : ℤ)) - q| ≤ |(n : ℚ) * 10 ^ (e - (P - 1 : ℤ)) - q| := by
    intro n
    have h := rne_nearest (q / 10 ^ (e - (P - 1 : Int))) n
    have e1 : ∀ z : ℚ, z * 10 ^ (e - (P - 1 : ℤ)) - q = (z - q / 10 ^ (e - (P - 1 : ℤ))) * 10 ^ (e - (P - 1 : ℤ)) := by
      intro z; field_simp
    rw [e1, e1, abs_mul, abs_mul, abs_of_pos hpos]
    exact mul_le_mul_of_nonneg_right h hpos.le
  rintro s ⟨k, j, hk, rfl⟩
  by_cases hj : e - (P - 1 : Int) ≤ j
  · obtain ⟨n, hn⟩ := Int.eq_ofNat_of_zero_le (by omega : 0 ≤ j - (e - (P - 1 : Int)))
    have := key (k * 10 ^ n)
    have e2 : ((k * 10 ^ n : ℤ) : ℚ) * 10 ^ (e - (P - 1 : ℤ)) = k * 10 ^ j := by
      push_cast
      rw [mul_assoc, ← zpow_natCast, ← zpow_add₀ (by norm_num)]
      congr 2; omega
    rwa [e2] at this
  · have := key (10 ^ (P - 1))
    have e2 : (((10 : ℤ) ^ (P - 1) : ℤ) : ℚ) * 10 ^ (e - (P - 1 : ℤ)) = 10 ^ e := by
      push_cast
      rw [← zpow_natCast, ← zpow_add₀ (by norm_num)]
      congr 1; omega
    rw [e2] at this
    refine le_trans this ?_
    have hk' : (k : ℚ) ≤ 10 ^ P := by
      have : k ≤ 10 ^ P := le_trans (le_abs_self k) hk.le
      exact_mod_cast this
    have hs : (k : ℚ) * 10 ^ j ≤ 10 ^ e := by
      calc (k : ℚ) * 10 ^ j ≤ 10 ^ P * 10 ^ j := mul_le_mul_of_nonneg_right hk' (by positivity)
        _ = (10 : ℚ) ^ ((P : ℤ) + j) := by rw [zpow_add₀ (by norm_num), zpow_natCast]
        _ ≤ 10 ^ e := zpow_le_zpow_right₀ (by norm_num) (by omega)
    rw [abs_of_nonpos (by linarith), abs_of_nonpos (by linarith)]
    linarith

/-! ## The text -/

theorem posText_usual (P : Nat) (hP : 1 ≤ P) (q : ℚ) (hq : 0 < q) :
    ∃ ip fp fd ex ed x, posText P q = ip ++ (fp ++ (ex ++ [])) ∧ (∀ c ∈ ip, isDigit c) ∧ ip ≠ [] ∧ Fraction fp fd ∧ Exponent ex ed x ∧
      (ex ≠ [] → ed ≠ []) ∧ (decVal ip + decVal fd / 10 ^ fd.length) * (10 : ℚ) ^ x = sigValue P (sigDigits P q) ∧ ip.length ≤ P ∧
      fd.length ≤ P + 3 ∧ (x = 0 ∨ x = (sigDigits P q).2) := by
  obtain ⟨h1, h2, -, -⟩ := sigDigits_spec P hP q hq
  unfold posText
  generalize sigDigits P q = ke at *
  obtain ⟨k, e⟩ := ke
  simp only at h1 h2 ⊢
  have hval : ∀ (d : Nat) (fd : List Byte), (decVal fd : ℚ) / 10 ^ fd.length = ((k % 10 ^ d % 10 ^ d : Nat) : ℚ) / 10 ^ d →
      ((k / 10 ^ d : Nat) : ℚ) + decVal fd / 10 ^ fd.length = k / 10 ^ d := by
    intro d fd h
    rw [h, Nat.mod_mod]
    have : k = 10 ^ d * (k / 10 ^ d) + k % 10 ^ d := (Nat.div_add_mod _ _).symm
    have h3 : (k : ℚ) = 10 ^ d * ((k / 10 ^ d : Nat) : ℚ) + ((k % 10 ^ d : Nat) : ℚ) := by exact_mod_cast this
    rw [h3]
    field_simp
  have hdiv : ∀ d, k / 10 ^ d < 10 ^ P := fun d => lt_of_le_of_lt (Nat.div_le_self _ _) h2
  by_cases hr : -4 ≤ e ∧ e < P
  · rw [if_pos hr]
    obtain ⟨d, hd⟩ := Int.eq_ofNat_of_zero_le (by omega : 0 ≤ (P - 1 : Int) - e)
    have hd' : ((P - 1 : Int) - e).toNat = d := by omega
    rw [hd']
    obtain ⟨fd, f1, f2, f3⟩ := fracText_spec d (k % 10 ^ d)
    obtain ⟨⟨t1, t2⟩, t3⟩ := decText_digits (k / 10 ^ d)
    refine ⟨_, _, fd, [], [], 0, by rw [List.nil_append, List.append_nil], t2, t1, f1, Or.inl ⟨rfl, rfl, rfl⟩, by simp, ?_,
      decText_length_le P _ (by omega) (hdiv d), by omega, Or.inl rfl⟩
    rw [t3, hval d fd f3, zpow_zero, mul_one, sigValue]
    have : e - (P - 1 : Int) = -(d : Int) := by omega
    simp only [this, zpow_neg, zpow_natCast, div_eq_mul_inv]
  · rw [if_neg hr]
    obtain ⟨fd, f1, f2, f3⟩ := fracText_spec (P - 1) (k % 10 ^ (P - 1))
    obtain ⟨⟨t1, t2⟩, t3⟩ := decText_digits (k / 10 ^ (P - 1))
    obtain ⟨ed, x1, x2⟩ := expText_spec e
    refine ⟨_, _, fd, _, ed, e, by rw [List.append_nil], t2, t1, f1, x1, fun _ => x2, ?_,
      decText_length_le P _ (by omega) (hdiv _), by omega, Or.inr rfl⟩
    rw [t3, hval _ fd f3, sigValue, div_eq_mul_inv, mul_assoc]
    congr 1
    simp only []
    rw [← zpow_natCast, ← zpow_neg, ← zpow_add₀ (by norm_num)]
    congr 1; omega

theorem log10_bounds {q : ℚ} (hq : 0 < q) {a b : ℤ} (h1 : (10 : ℚ) ^ a ≤ q) (h2 : q < (10 : ℚ) ^ b) : a ≤ Int.log 10 q ∧ Int.log 10 q < b := by
  constructor
  · have := lt_of_le_of_lt h1 (lt_log10 (q := q))
    have := (zpow_lt_zpow_iff_right₀ (by norm_num : (1 : ℚ) < 10)).mp this
    omega
  · exact (zpow_lt_zpow_iff_right₀ (by norm_num : (1 : ℚ) < 10)).mp (lt_of_le_of_lt (log10_le hq) h2)

/-- The text of a number other than zero: an optional minus and the text of its absolute value. -/
theorem streamText_num (P : Nat) (q : ℚ) (hq : q ≠ 0) :
    streamText P (.num q) = (if q < 0 then [45] else []) ++ posText P |q| ∧ Sign (if q < 0 then [45] else []) (decide (q < 0)) := by
  simp only [streamText, Sign]
  rw [if_neg hq]
  by_cases h : q < 0
  · simp [h, abs_of_neg h]
  · simp [h, abs_of_nonneg (not_lt.mp h)]

/-! ## There and back -/

/-- A value written by `type_to_string` and converted back by `string_to_type`. -/
def roundTrip (o : Ops Val) (m : Int) (v : Val) : Outcome (Option Val) := do
  let s ← realToString v
  realParse o m s

theorem decNearest_abs {P : Nat} {q w : ℚ} (h : DecNearest P |q| w) : DecNearest P q ((if q < 0 then -1 else 1) * w) := by
  obtain ⟨⟨k, j, hk, rfl⟩, hn⟩ := h
  by_cases hq : q < 0
  · rw [if_pos hq]
    rw [abs_of_neg hq] at hn
    refine ⟨⟨-k, j, by rwa [abs_neg], by push_cast; ring⟩, ?_⟩
    rintro s ⟨k', j', hk', rfl⟩
    have := hn _ ⟨-k', j', by rwa [abs_neg], rfl⟩
    rw [← abs_neg, ← abs_neg (_ - q)]
    refine le_trans (le_of_eq ?_) (le_trans this (le_of_eq ?_))
    · congr 1; ring
    · congr 1; push_cast; ring
  · rw [if_neg hq, one_mul]
    rw [abs_of_nonneg (not_lt.mp hq)] at hn
    exact ⟨⟨k, j, hk, rfl⟩, hn⟩

theorem roundTrip_exponent {q : ℚ} (hq : q ≠ 0) {a b : ℤ} (h1 : (10 : ℚ) ^ a ≤ |q|) (h2 : |q| < (10 : ℚ) ^ b) :
    a ≤ (sigDigits 10 |q|).2 ∧ (sigDigits 10 |q|).2 ≤ b := by
  have hl := log10_bounds (abs_pos.mpr hq) h1 h2
  have := (sigDigits_spec 10 (by omega) |q| (abs_pos.mpr hq)).2.2.1
  omega

/-- **C124**: apart from rounding in the conversion back, a number comes back as the nearest number of ten significant digits, for all three
floating point types. -/
theorem C124_ten_digits (m : Int) (hm : m = doubleMin ∨ m = longDoubleMin) (q : ℚ) (hq : q ≠ 0) (h1 : (10 : ℚ) ^ (-300 : ℤ) ≤ |q|)
    (h2 : |q| < (10 : ℚ) ^ (308 : ℤ)) : ∃ w, DecNearest 10 q w ∧ roundTrip exact m (.num q) = ok (some (.num w)) := by
  have hp := abs_pos.mpr hq
  obtain ⟨e1, e2⟩ := roundTrip_exponent hq h1 h2
  obtain ⟨t1, t2⟩ := streamText_num 10 q hq
  obtain ⟨ip, fp, fd, ex, ed, x, p1, p2, p3, p4, p5, p6, p7, p8, p9, p10⟩ := posText_usual 10 (by omega) |q| hp
  have hx : -300 ≤ x ∧ x ≤ 308 := by rcases p10 with h | h <;> omega
  have hc : ∀ y : Int, -300 ≤ y ∧ y ≤ 308 → Covered m y := by
    intro y hy
    rcases hm with rfl | rfl
    · exact Or.inl ⟨rfl, by omega, by omega⟩
    · exact Or.inr ⟨rfl, by omega, by omega⟩
  refine ⟨_, decNearest_abs (sigValue_nearest 10 (by omega) |q| hp), ?_⟩
  have := C30_value m _ _ ip fp fd ex ed x [] t2 p2 p4 (by simp [p3]) p5 p6 (Or.inl rfl) (hc _ (by omega)) (hc _ hx)
  rw [p7] at this
  show realParse exact m (streamText 10 (.num q)) = _
  rw [t1, p1, this]
  simp

/-- **C124**: a `double` comes back with a relative error below 6e-10. -/
theorem C124_double_error (q : ℚ) (hq : q ≠ 0) (h1 : (10 : ℚ) ^ (-290 : ℤ) ≤ |q|) (h2 : |q| < (10 : ℚ) ^ (308 : ℤ)) :
    ∃ r w, roundTrip (rounded 53) doubleMin (.num q) = ok (some (.num r)) ∧ |r - q| ≤ 6 / 10 ^ 10 * |q| ∧
      DecNearest 10 q w ∧ |r - w| ≤ 1 / 10 ^ 14 * |q| := by
  have hp := abs_pos.mpr hq
  obtain ⟨e1, e2⟩ := roundTrip_exponent hq h1 h2
  obtain ⟨t1, t2⟩ := streamText_num 10 q hq
  obtain ⟨ip, fp, fd, ex, ed, x, p1, p2, p3, p4, p5, p6, p7, p8, p9, p10⟩ := posText_usual 10 (by omega) |q| hp
  have hx : -615 ≤ x ∧ x ≤ 308 := by rcases p10 with h | h <;> omega
  obtain ⟨r, hr, r1, r2⟩ := C30_error_bound 53 (by omega) _ _ ip fp fd ex ed x [] t2 p2 p4 (by simp [p3]) p5 p6 (Or.inl rfl) (by omega) hx
  rw [p7] at r1 r2
  have hw := sigValue_pos 10 (by omega) |q| hp
  have he := sigValue_error 10 (by omega) |q| hp
  have hn := decNearest_abs (sigValue_nearest 10 (by omega) |q| hp)
  have hl := log10_le hp
  generalize sigValue 10 (sigDigits 10 |q|) = w at *
  obtain ⟨r1, r2⟩ := within_mono (u := 1 / 2 ^ 53) (k := 39) (by norm_num) hw.le (by omega) (⟨r1, r2⟩ : Within _ _ _ _)
  have b1 : (1 + 1 / 2 ^ 53 : ℚ) ^ 39 ≤ 1 + 5 / 10 ^ 15 := by norm_num
  have b2 : 1 - 5 / 10 ^ 15 ≤ (1 - 1 / 2 ^ 53 : ℚ) ^ 39 := by norm_num
  have r3 : r ≤ w * (1 + 5 / 10 ^ 15) := le_trans r2 (mul_le_mul_of_nonneg_left b1 hw.le)
  have r4 : w * (1 - 5 / 10 ^ 15) ≤ r := le_trans (mul_le_mul_of_nonneg_left b2 hw.le) r1
  have he2 : |w - (|q|)| ≤ 5 / 10 ^ 10 * |q| := by
    refine le_trans he ?_
    have : (10 : ℚ) ^ (Int.log 10 |q| - ((10 : Nat) - 1 : Int)) = 10 ^ Int.log 10 |q| / 10 ^ 9 := by
      rw [zpow_sub₀ (by norm_num)]
      norm_num
    rw [this]
    linarith
  rw [abs_le] at he2
  have hwr : |r - w| ≤ 1 / 10 ^ 14 * |q| := by rw [abs_le]; constructor <;> linarith [he2.1, he2.2]
  have hrq : |r - (|q|)| ≤ 6 / 10 ^ 10 * |q| := by rw [abs_le] at hwr ⊢; constructor <;> linarith [he2.1, he2.2, hwr.1, hwr.2]
  refine ⟨if q < 0 then -r else r, (if q < 0 then -1 else 1) * w, ?_, ?_, hn, ?_⟩
  · show realParse (rounded 53) doubleMin (streamText 10 (.num q)) = _
    rw [t1, p1, hr, withSign]
    simp
  · by_cases h : q < 0
    · rw [if_pos h, ← abs_neg (_ - q)]
      rw [abs_of_neg h] at hrq ⊢
      convert hrq using 2
      ring
    · rw [if_neg h]
      rw [abs_of_nonneg (not_lt.mp h)] at hrq ⊢
      exact hrq
  · by_cases h : q < 0
    · rw [if_pos h, if_pos h, ← abs_neg]
      convert hwr using 2
      ring
    · rw [if_neg h, if_neg h, one_mul]
      exact hwr

/-- **C124** (negative result): a `double` which is not close to a number of ten significant digits never comes back. -/
theorem C124_lost (q : ℚ) (hq : q ≠ 0) (h1 : (10 : ℚ) ^ (-290 : ℤ) ≤ |q|) (h2 : |q| < (10 : ℚ) ^ (308 : ℤ))
    (hd : ∀ s, Dec 10 s → 2 / 10 ^ 14 * |q| ≤ |s - q|) : ∃ r, roundTrip (rounded 53) doubleMin (.num q) = ok (some (.num r)) ∧ r ≠ q := by
  obtain ⟨r, w, a, -, ⟨b, -⟩, c⟩ := C124_double_error q hq h1 h2
  refine ⟨r, a, ?_⟩
  rintro rfl
  have := hd w b
  rw [abs_sub_comm] at this
  have hp := abs_pos.mpr hq
  linarith

/-- **C124** (negative result): an integer of more than ten and up to thirteen digits that is not a multiple of ten never comes back. -/
theorem C124_long_integers (v : ℤ) (h1 : 10 ^ 10 < |v|) (h2 : |v| < 10 ^ 13) (h3 : v % 10 ≠ 0) :
    ∃ r, roundTrip (rounded 53) doubleMin (.num v) = ok (some (.num r)) ∧ r ≠ v := by
  have h1' : (10 : ℚ) ^ 10 + 1 ≤ |(v : ℚ)| := by exact_mod_cast h1
  have h2' : |(v : ℚ)| < 10 ^ 13 := by exact_mod_cast h2
  apply C124_lost
  · intro h; rw [h] at h1'; norm_num at h1'
  · refine le_trans ?_ h1'
    refine le_trans (zpow_le_zpow_right₀ (by norm_num) (by norm_num : (-290 : ℤ) ≤ 0)) ?_
    norm_num
  · refine lt_of_lt_of_le h2' ?_
    rw [← zpow_natCast]
    exact zpow_le_zpow_right₀ (by norm_num) (by norm_num)
  · rintro s ⟨k, j, hk, rfl⟩
    have hone : (1 : ℚ) ≤ |(k : ℚ) * 10 ^ j - v| := by
      by_cases hj : 1 ≤ j
      · obtain ⟨n, hn⟩ := Int.eq_ofNat_of_zero_le (by omega : 0 ≤ j - 1)
        have e : (k : ℚ) * 10 ^ j - v = ((10 * (k * 10 ^ n) - v : ℤ) : ℚ) := by
          have : j = (n + 1 : Nat) := by omega
          rw [this, zpow_natCast]
          push_cast
          ring
        rw [e, ← Int.cast_abs]
        have : 1 ≤ |10 * (k * 10 ^ n) - v| := Int.one_le_abs (by omega)
        exact_mod_cast this
      · have hk' : |(k : ℚ)| ≤ 10 ^ 10 := by exact_mod_cast hk.le
        have : |(k : ℚ) * 10 ^ j| ≤ 10 ^ 10 := by
          rw [abs_mul, abs_of_pos (by positivity : (0 : ℚ) < 10 ^ j)]
          calc |(k : ℚ)| * 10 ^ j ≤ 10 ^ 10 * 1 := by
                refine mul_le_mul hk' ?_ (by positivity) (by positivity)
                exact zpow_le_one_of_nonpos₀ (by norm_num) (by omega)
            _ = 10 ^ 10 := by ring
        have := abs_sub_abs_le_abs_sub (v : ℚ) ((k : ℚ) * 10 ^ j)
        rw [abs_sub_comm] at this
        linarith
    refine le_trans ?_ hone
    have : 2 / 10 ^ 14 * |(v : ℚ)| ≤ 2 / 10 ^ 14 * 10 ^ 13 := mul_le_mul_of_nonneg_left h2'.le (by norm_num)
    refine le_trans this ?_
    norm_num

/-- The text of an integer of at most `P` digits is its decimal text. -/
theorem posText_integer (P : Nat) (hP : 1 ≤ P) (n : Nat) (h0 : n ≠ 0) (hn : n < 10 ^ P) : posText P n = decText n := by
  have hq : (0 : ℚ) < n := by exact_mod_cast Nat.pos_of_ne_zero h0
  have h1 : (10 : ℚ) ^ (0 : ℤ) ≤ n := by
    rw [zpow_zero]; exact_mod_cast Nat.one_le_iff_ne_zero.mpr h0
  have h2 : (n : ℚ) < (10 : ℚ) ^ (P : ℤ) := by rw [zpow_natCast]; exact_mod_cast hn
  obtain ⟨a, b⟩ := log10_bounds hq h1 h2
  have hs : sigDigits P n = (n * 10 ^ ((P - 1 : Int) - Int.log 10 (n : ℚ)).toNat, Int.log 10 (n : ℚ)) := by
    have hlt := lt_log10 (q := (n : ℚ))
    unfold sigDigits
    generalize Int.log 10 (n : ℚ) = e at *
    obtain ⟨d, hd⟩ := Int.eq_ofNat_of_zero_le (by omega : 0 ≤ (P - 1 : Int) - e)
    have e1 : (n : ℚ) / 10 ^ (e - (P - 1 : Int)) = ((n * 10 ^ d : ℕ) : ℤ) := by
      have : e - (P - 1 : Int) = -(d : Int) := by omega
      rw [this, zpow_neg, zpow_natCast]
      push_cast
      field_simp
    have e2 : ((P - 1 : Int) - e).toNat = d := by omega
    simp only [e1, rne_int, Int.toNat_natCast, e2]
    rw [if_neg]
    intro hc
    have hc' : (n : ℚ) * 10 ^ d = 10 ^ P := by exact_mod_cast hc
    have : (n : ℚ) * 10 ^ d < 10 ^ (e + 1) * 10 ^ d := mul_lt_mul_of_pos_right hlt (by positivity)
    rw [hc', ← zpow_natCast, ← zpow_natCast, ← zpow_add₀ (by norm_num)] at this
    have := (zpow_lt_zpow_iff_right₀ (by norm_num : (1 : ℚ) < 10)).mp this
    omega
  unfold posText
  rw [hs]
  simp only
  rw [if_pos ⟨by omega, b⟩, Nat.mul_div_cancel _ (by positivity), Nat.mul_mod_left, fracText_zero, List.append_nil]

/-- **C124**: an integer of at most ten digits is written like an integer, and comes back unchanged when the floating point format has enough bits
for it (34 are enough for all of them). -/
theorem C124_integers (p : Nat) (hp : 1 ≤ p) (m : Int) (v : ℤ) (h1 : |v| < 10 ^ 10) (h2 : |v| ≤ 2 ^ p) :
    realToString (.num v) = ok (intText v) ∧ roundTrip (rounded p) m (.num v) = ok (some (.num v)) := by
  have key : realToString (.num v) = ok (intText v) := by
    simp only [realToString, streamText, intText]
    by_cases h0 : v = 0
    · subst h0
      rw [if_pos (by simp)]
      have : decText (Int.natAbs 0) = [48] := by rw [decText]; rfl
      rw [this]; rfl
    · have hn : v.natAbs < 10 ^ realPrecision := by
        have : ((v.natAbs : Nat) : ℤ) < 10 ^ 10 := by rwa [Int.natCast_natAbs]
        exact_mod_cast this
      have e : |(v : ℚ)| = (v.natAbs : ℚ) := by rw [Nat.cast_natAbs]; push_cast; rfl
      rw [if_neg (by exact_mod_cast h0)]
      by_cases hv : v < 0
      · have hq : (v : ℚ) < 0 := by exact_mod_cast hv
        rw [if_pos hq, if_pos hv, ← abs_of_neg hq, e, posText_integer _ (by decide) _ (by omega) hn]
      · have hq : ¬ (v : ℚ) < 0 := by exact_mod_cast hv
        rw [if_neg hq, if_neg hv, ← abs_of_nonneg (not_lt.mp hq), e, posText_integer _ (by decide) _ (by omega) hn]
  refine ⟨key, ?_⟩
  unfold roundTrip
  rw [key, ok_bind]
  obtain ⟨⟨t1, t2⟩, t3⟩ := decText_digits v.natAbs
  have hb : decVal (decText v.natAbs) ≤ 2 ^ p := by
    rw [t3]
    have : ((v.natAbs : Nat) : ℤ) ≤ 2 ^ p := by rwa [Int.natCast_natAbs]
    exact_mod_cast this
  unfold intText
  by_cases hv : v < 0
  · have := C30_integer_exact p hp m [45] true (decText v.natAbs) [] (Or.inr (Or.inr ⟨rfl, rfl⟩)) t2 t1 (Or.inl rfl) hb
    rw [if_pos hv]
    rw [List.append_nil, List.singleton_append] at this
    rw [this, t3, withSign, if_pos rfl]
    congr 3
    rw [Nat.cast_natAbs, abs_of_neg hv]
    push_cast; ring
  · have := C30_integer_exact p hp m [] false (decText v.natAbs) [] (Or.inl ⟨rfl, rfl⟩) t2 t1 (Or.inl rfl) hb
    rw [if_neg hv]
    rw [List.append_nil, List.nil_append] at this
    rw [this, t3, withSign, if_neg (by simp)]
    congr 3
    rw [Nat.cast_natAbs, abs_of_nonneg (not_lt.mp hv)]

/-- **C124**: infinities come back with their sign, and `nan` comes back as `nan`. -/
theorem C124_special (p : Nat) (m : Int) : (∀ neg, roundTrip (rounded p) m (.inf neg) = ok (some (.inf neg))) ∧
    roundTrip (rounded p) m .nan = ok (some .nan) := by
  refine ⟨fun neg => ?_, rfl⟩
  cases neg <;> rfl

/-! ## Examples -/

/-- A third, as far as ten digits go: the hypotheses of `C124_ten_digits` and `C124_double_error` hold, and the text is what `%.10g` gives. -/
example : (10 : ℚ) ^ (-290 : ℤ) ≤ |(1 / 3 : ℚ)| ∧ |(1 / 3 : ℚ)| < (10 : ℚ) ^ (308 : ℤ) := by
  rw [abs_of_pos (by norm_num)]
  constructor
  · refine le_trans (zpow_le_zpow_right₀ (by norm_num) (by norm_num : (-290 : ℤ) ≤ -1)) ?_
    norm_num
  · refine lt_of_lt_of_le ?_ (zpow_le_zpow_right₀ (by norm_num) (by norm_num : (0 : ℤ) ≤ 308))
    norm_num

/-- 12345678901 is one of the integers that are lost, and -9876543210 one of those that survive. -/
example : (10 : ℤ) ^ 10 < |12345678901| ∧ |(12345678901 : ℤ)| < 10 ^ 13 ∧ (12345678901 : ℤ) % 10 ≠ 0 := by decide

example : |(-9876543210 : ℤ)| < 10 ^ 10 ∧ |(-9876543210 : ℤ)| ≤ 2 ^ 53 := by decide

/-- `0.3333333333`. -/
example : streamText 10 (.num (1 / 3)) = [48, 46, 51, 51, 51, 51, 51, 51, 51, 51, 51, 51] := by decide +kernel

/-- `1.23456789e+14`. -/
example : streamText 10 (.num (123456789012345)) = [49, 46, 50, 51, 52, 53, 54, 55, 56, 57, 101, 43, 49, 52] := by decide +kernel

/-- `-0.0001220703125`. -/
example : streamText 10 (.num (-1 / 8192)) = [45, 48, 46, 48, 48, 48, 49, 50, 50, 48, 55, 48, 51, 49, 50, 53] := by decide +kernel

/-- `6.103515625e-05`. -/
example : streamText 10 (.num (1 / 16384)) = [54, 46, 49, 48, 51, 53, 49, 53, 54, 50, 53, 101, 45, 48, 53] := by decide +kernel

/-- `1e+10`. -/
example : streamText 10 (.num (99999999999 / 10)) = [49, 101, 43, 49, 48] := by decide +kernel

/-- `9999999999`. -/
example : streamText 10 (.num (99999999994 / 10)) = [57, 57, 57, 57, 57, 57, 57, 57, 57, 57] := by decide +kernel

/-- `1e-100`. -/
example : streamText 10 (.num (1 / 10 ^ 100)) = [49, 101, 45, 49, 48, 48] := by decide +kernel

example : ∃ w, DecNearest 10 (1 / 3) w ∧ roundTrip exact doubleMin (.num (1 / 3)) = ok (some (.num w)) := by
  refine C124_ten_digits doubleMin (Or.inl rfl) (1 / 3) (by norm_num) ?_ ?_
  · rw [abs_of_pos (by norm_num)]
    refine le_trans (zpow_le_zpow_right₀ (by norm_num) (by norm_num : (-300 : ℤ) ≤ -1)) ?_
    norm_num
  · rw [abs_of_pos (by norm_num)]
    refine lt_of_lt_of_le ?_ (zpow_le_zpow_right₀ (by norm_num) (by norm_num : (0 : ℤ) ≤ 308))
    norm_num

end Strtk.Real
