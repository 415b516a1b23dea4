import Verif.Real.DecimalIeee
import Verif.Real.Float
import Verif.Real.Extended
import Verif.Grid.RealSums

/-!
# The order of numbers converted from text (strtk.hpp 17616-17777), C191

The conversion is that of `Model.lean` in the arithmetic of `Ieee.lean`.
-/

namespace Strtk.Real
open Outcome Number Strtk.Grid

set_option exponentiation.threshold 2000

/-! ## Specification -/

/-- `w` is a number of value `v` without exponent: sign, digits, fraction, suffix letter; each of the two groups of digits is worth at most `2^53`, and there are at most 22 digits behind
the point. -/
def PlainText (w : List Byte) (v : ℚ) : Prop :=
  ∃ sg neg ip fp fd en, w = sg ++ (ip ++ (fp ++ en)) ∧ Sign sg neg ∧ (∀ c ∈ ip, isDigit c) ∧ Fraction fp fd ∧ ip ++ fd ≠ [] ∧ Suffix en ∧
    decVal ip ≤ 2 ^ 53 ∧ decVal fd ≤ 2 ^ 53 ∧ fd.length ≤ 22 ∧ v = if neg then -(decVal ip + decVal fd / 10 ^ fd.length : ℚ) else decVal ip + decVal fd / 10 ^ fd.length

/-- `w` is an integer of at most `2^53` times a power of ten, in exponential notation: sign, digits, exponent, suffix letter; the value is `v`. -/
def ScaledText (w : List Byte) (v : ℚ) : Prop :=
  ∃ sg neg ip ex ed x en, w = sg ++ (ip ++ (ex ++ en)) ∧ Sign sg neg ∧ (∀ c ∈ ip, isDigit c) ∧ ip ≠ [] ∧ Exponent ex ed x ∧ (ex ≠ [] → ed ≠ []) ∧ Suffix en ∧
    decVal ip ≤ 2 ^ 53 ∧ x.natAbs ≤ 22 ∧ v = if neg then -(decVal ip * (10 : ℚ) ^ x) else decVal ip * (10 : ℚ) ^ x

/-! ## Rounding keeps the order -/

/-- Of the numbers of any set the nearest to a larger number is not smaller. -/
theorem closest_mono {S : ℚ → Prop} {q q' r r' : ℚ} (h : S r ∧ ∀ s, S s → |r - q| ≤ |s - q|) (h' : S r' ∧ ∀ s, S s → |r' - q'| ≤ |s - q'|) (hq : q < q') : r ≤ r' := by
  by_contra hc
  have hc : r' < r := not_le.mp hc
  have a := h.2 r' h'.1
  have b := h'.2 r h.1
  rw [abs_sub_comm r q, abs_sub_comm r' q] at a
  rcases le_total q r' with c | c
  · rw [abs_of_nonpos (by linarith), abs_of_nonpos (by linarith)] at a
    linarith
  · rcases le_total q' r with d | d
    · rcases le_total r' q' with e | e
      · rw [abs_of_nonpos (by linarith : r' - q' ≤ 0), abs_of_nonneg (by linarith : 0 ≤ r - q')] at b
        rw [abs_of_nonpos (by linarith : q - r ≤ 0), abs_of_nonneg (by linarith : 0 ≤ q - r')] at a
        linarith
      · linarith
    · rw [abs_of_nonpos (by linarith : r' - q' ≤ 0), abs_of_nonpos (by linarith : r - q' ≤ 0)] at b
      linarith

theorem nearest_mono {p : Nat} {q q' r r' : ℚ} (h : Nearest p q r) (h' : Nearest p q' r') (hq : q < q') : r ≤ r' := closest_mono h h' hq

theorem rnd_mono {q q' : ℚ} (h : q ≤ q') : rnd 53 q ≤ rnd 53 q' := by
  rcases h.lt_or_eq with h | rfl
  · exact nearest_mono (rnd_nearest 53 (by omega) q) (rnd_nearest 53 (by omega) q') h
  · exact le_rfl

theorem rnd_zero : rnd 53 0 = 0 := rnd_exact 53 (by omega) _ ⟨0, 0, by simp, by simp⟩

theorem rnd_one : rnd 53 1 = 1 := rnd_exact 53 (by omega) _ ⟨1, 0, by norm_num, by simp⟩

theorem rnd_nonneg {q : ℚ} (h : 0 ≤ q) : 0 ≤ rnd 53 q := by
  have := rnd_mono h
  rwa [rnd_zero] at this

/-- The two roundings of a number without sign and exponent. -/
def twoRoundings (v : ℚ) : ℚ := rnd 53 (⌊v⌋ + rnd 53 (v - ⌊v⌋))

theorem twoRoundings_mono {v v' : ℚ} (h : v ≤ v') : twoRoundings v ≤ twoRoundings v' := by
  unfold twoRoundings
  apply rnd_mono
  rcases (Int.floor_le_floor h).lt_or_eq with hf | hf
  · have h1 : rnd 53 (v - ⌊v⌋) ≤ 1 := by
      have := rnd_mono (show v - ⌊v⌋ ≤ 1 by linarith [Int.lt_floor_add_one v])
      rwa [rnd_one] at this
    have h2 := rnd_nonneg (show 0 ≤ v' - ⌊v'⌋ by linarith [Int.floor_le v'])
    have h3 : (⌊v⌋ : ℚ) + 1 ≤ ⌊v'⌋ := by exact_mod_cast hf
    linarith
  · rw [hf]
    exact add_le_add_right (rnd_mono (by linarith)) _

theorem twoRoundings_zero : twoRoundings 0 = 0 := by simp [twoRoundings, rnd_zero]

/-- With the sign. -/
def plainValue (v : ℚ) : ℚ := if v < 0 then -twoRoundings (-v) else twoRoundings v

theorem plainValue_mono {v v' : ℚ} (h : v ≤ v') : plainValue v ≤ plainValue v' := by
  have hpos : ∀ q : ℚ, 0 ≤ q → 0 ≤ twoRoundings q := fun q hq => by
    have := twoRoundings_mono hq
    rwa [twoRoundings_zero] at this
  unfold plainValue
  by_cases h1 : v < 0
  · rw [if_pos h1]
    by_cases h2 : v' < 0
    · rw [if_pos h2]
      exact neg_le_neg (twoRoundings_mono (by linarith))
    · rw [if_neg h2]
      have a := hpos (-v) (by linarith)
      have b := hpos v' (not_lt.mp h2)
      linarith
  · rw [if_neg h1, if_neg (by linarith)]
    exact twoRoundings_mono h

theorem PlainText.parse {w : List Byte} {v : ℚ} (h : PlainText w v) : realParse ieee doubleMin w = ok (some (.num (plainValue v))) := by
  obtain ⟨sg, neg, ip, fp, fd, en, rfl, hs, hip, hfp, hdig, hen, hi, hf, hl, rfl⟩ := h
  have hfd : ∀ c ∈ fd, isDigit c := by
    rcases hfp with ⟨_, rfl⟩ | ⟨_, h⟩
    · simp
    · exact h
  have h := realParse_usual ieee doubleMin sg neg ip fp fd [] [] 0 en hs hip hfp hdig (Or.inl ⟨rfl, rfl, rfl⟩) (by simp) hen (by omega) (by omega)
  rw [List.nil_append] at h
  rw [h, mantissa_ieee_short ip fd hip hfd hi hf hl, ok_bind, scaled, if_neg (by simp), ok_bind]
  have h0 : (0 : ℚ) ≤ decVal fd / 10 ^ fd.length := by positivity
  have h1 : (decVal fd : ℚ) / 10 ^ fd.length < 1 := by
    rw [div_lt_one (by positivity)]
    exact_mod_cast decVal_lt fd hfd
  generalize (decVal fd : ℚ) / 10 ^ fd.length = f at *
  have hfl : ⌊(decVal ip : ℚ) + f⌋ = (decVal ip : ℤ) := by
    rw [Int.floor_eq_iff]
    push_cast
    constructor <;> linarith
  have htwo : twoRoundings (decVal ip + f) = rnd 53 (decVal ip + rnd 53 f) := by
    unfold twoRoundings
    rw [hfl]
    push_cast
    rw [add_sub_cancel_left]
  have hv0 : (0 : ℚ) ≤ decVal ip + f := by positivity
  unfold plainValue
  cases neg
  · rw [if_neg (by simp), if_neg (by simpa using hv0), ← htwo]
    rfl
  · rw [if_pos rfl, if_pos rfl, ← htwo]
    by_cases hz : (decVal ip : ℚ) + f = 0
    · rw [hz, neg_zero, if_neg (lt_irrefl 0), twoRoundings_zero]
      rfl
    · have : 0 < (decVal ip : ℚ) + f := lt_of_le_of_ne hv0 (Ne.symm hz)
      rw [if_pos (by linarith), neg_neg]
      rfl

/-! ## C191 -/

/-- **C191**: numbers without exponent, with at most 22 digits behind the point and parts of at most `2^53`: the order is kept, whatever signs, leading and trailing zeros and suffix
letters they have; the same number gives the same `double`. -/
theorem C191_plain {w w' : List Byte} {v v' : ℚ} (h : PlainText w v) (h' : PlainText w' v') (hv : v ≤ v') :
    ∃ x x', realParse ieee doubleMin w = ok (some (.num x)) ∧ realParse ieee doubleMin w' = ok (some (.num x')) ∧ x ≤ x' ∧ (v = v' → x = x') :=
  ⟨_, _, h.parse, h'.parse, plainValue_mono hv, fun e => by rw [e]⟩

theorem rne_spec (x : ℚ) : |x - rne x| < 1 / 2 ∨ (|x - rne x| ≤ 1 / 2 ∧ rne x % 2 = 0) := by
  have h1 := Int.floor_le x
  have h2 := Int.lt_floor_add_one x
  unfold rne
  by_cases a : x - ⌊x⌋ < 1 / 2
  · rw [if_pos a]
    exact Or.inl (by rw [abs_of_nonneg (by linarith)]; exact a)
  · rw [if_neg a]
    by_cases b : 1 / 2 < x - ⌊x⌋
    · rw [if_pos b]
      push_cast
      exact Or.inl (by rw [abs_lt]; constructor <;> linarith)
    · rw [if_neg b]
      by_cases c : ⌊x⌋ % 2 = 0
      · rw [if_pos c]
        exact Or.inr ⟨by rw [abs_le]; constructor <;> linarith, c⟩
      · rw [if_neg c]
        push_cast
        exact Or.inr ⟨by rw [abs_le]; constructor <;> linarith, by omega⟩

theorem rne_neg (x : ℚ) : rne (-x) = -rne x := by
  apply rne_eq
  have e : |-x - ((-rne x : ℤ) : ℚ)| = |x - rne x| := by
    push_cast
    rw [← abs_neg]
    congr 1
    ring
  rw [e]
  rcases rne_spec x with h | ⟨h, h2⟩
  · exact Or.inl h
  · exact Or.inr ⟨h, by omega⟩

theorem rnd_neg (q : ℚ) : rnd 53 (-q) = -rnd 53 q := by
  unfold rnd
  by_cases h : q = 0
  · simp [h]
  · rw [if_neg h, if_neg (neg_ne_zero.mpr h), abs_neg, neg_div, rne_neg]
    push_cast
    ring

theorem ScaledText.parse {w : List Byte} {v : ℚ} (h : ScaledText w v) : realParse ieee doubleMin w = ok (some (.num (rnd 53 v))) := by
  obtain ⟨sg, neg, ip, ex, ed, x, en, rfl, hs, hip, hne, hex, hed, hen, hi, hx, rfl⟩ := h
  rw [realParse_scaled sg neg ip ex ed en x hs hip hne hex hed hen hi hx]
  cases neg
  · rfl
  · simp only [if_true, rnd_neg]
    rfl

/-- **C191**: integers of at most `2^53` with exponents from -22 to 22: the order is kept, and the same number gives the same `double`. -/
theorem C191_scaled {w w' : List Byte} {v v' : ℚ} (h : ScaledText w v) (h' : ScaledText w' v') (hv : v ≤ v') :
    ∃ x x', realParse ieee doubleMin w = ok (some (.num x)) ∧ realParse ieee doubleMin w' = ok (some (.num x')) ∧ x ≤ x' ∧ (v = v' → x = x') :=
  ⟨_, _, h.parse, h'.parse, rnd_mono hv, fun e => by rw [e]⟩

theorem rnd32_mono {q q' : ℚ} (hb : |q| ≤ 2 ^ 127) (hb' : |q'| ≤ 2 ^ 127) (h : q ≤ q') : ∃ r r', rnd32 q = .num r ∧ rnd32 q' = .num r' ∧ r ≤ r' := by
  obtain ⟨r, hr⟩ := (rnd32_overflow q).2 (lt_of_le_of_lt hb (by norm_num))
  obtain ⟨r', hr'⟩ := (rnd32_overflow q').2 (lt_of_le_of_lt hb' (by norm_num))
  refine ⟨r, r', hr, hr', ?_⟩
  rcases h.lt_or_eq with h | rfl
  · exact closest_mono (rnd32_nearest hr) (rnd32_nearest hr') h
  · rw [hr] at hr'
    exact le_of_eq (Val.num.inj hr')

theorem PlainText.small {w : List Byte} {v : ℚ} (h : PlainText w v) : |plainValue v| ≤ 2 ^ 127 := by
  obtain ⟨sg, neg, ip, fp, fd, en, _, _, _, hfp, _, _, hi, _, _, rfl⟩ := h
  have hfd : ∀ c ∈ fd, isDigit c := by
    rcases hfp with ⟨_, rfl⟩ | ⟨_, h⟩
    · simp
    · exact h
  have h0 : (0 : ℚ) ≤ decVal fd / 10 ^ fd.length := by positivity
  have h1 : (decVal fd : ℚ) / 10 ^ fd.length < 1 := by
    rw [div_lt_one (by positivity)]
    exact_mod_cast decVal_lt fd hfd
  have h2 : (decVal ip : ℚ) ≤ 2 ^ 53 := by exact_mod_cast hi
  generalize (decVal fd : ℚ) / 10 ^ fd.length = f at *
  have hv : |if neg then -((decVal ip : ℚ) + f) else decVal ip + f| ≤ 2 ^ 127 := by
    have : (0 : ℚ) ≤ decVal ip := by positivity
    cases neg
    · simp only [Bool.false_eq_true, if_false]; rw [abs_of_nonneg (by linarith)]; linarith
    · simp only [if_true]; rw [abs_neg, abs_of_nonneg (by linarith)]; linarith
  generalize (if neg then -((decVal ip : ℚ) + f) else decVal ip + f) = v at hv
  have htop : twoRoundings (2 ^ 127) = 2 ^ 127 := by
    unfold twoRoundings
    have : ⌊(2 ^ 127 : ℚ)⌋ = 2 ^ 127 := by
      have := Int.floor_intCast (R := ℚ) (2 ^ 127)
      push_cast at this
      exact this
    rw [this, show (((2 ^ 127 : ℤ)) : ℚ) = 2 ^ 127 by norm_num, sub_self, rnd_zero, add_zero]
    exact rnd_exact 53 (by omega) _ ⟨1, 127, by norm_num, by norm_num⟩
  have t1 : plainValue (2 ^ 127) = 2 ^ 127 := by rw [plainValue, if_neg (by norm_num), htop]
  have t2 : plainValue (-2 ^ 127) = -2 ^ 127 := by rw [plainValue, if_pos (by norm_num), neg_neg, htop]
  have a := plainValue_mono (abs_le.mp hv).1
  have b := plainValue_mono (abs_le.mp hv).2
  rw [t2] at a
  rw [t1] at b
  exact abs_le.mpr ⟨a, b⟩

/-- **C191**: numbers without exponent converted to `float`: the order is kept, although they are rounded three times. -/
theorem C191_plain_float {w w' : List Byte} {v v' : ℚ} (h : PlainText w v) (h' : PlainText w' v') (hv : v ≤ v') :
    ∃ x x', floatParse w = ok (some (.num x)) ∧ floatParse w' = ok (some (.num x')) ∧ x ≤ x' ∧ (v = v' → x = x') := by
  obtain ⟨r, r', hr, hr', hle⟩ := rnd32_mono h.small h'.small (plainValue_mono hv)
  refine ⟨r, r', ?_, ?_, hle, fun e => ?_⟩
  · unfold floatParse; rw [h.parse, ok_bind]; simp [toFloat, hr]
  · unfold floatParse; rw [h'.parse, ok_bind]; simp [toFloat, hr']
  · rw [← e, hr] at hr'
    exact Val.num.inj hr'

/-- **C191**: integers of at most `2^53` with exponents from -22 to 22, converted to `float`. -/
theorem C191_scaled_float {w w' : List Byte} {v v' : ℚ} (h : ScaledText w v) (h' : ScaledText w' v') (hv : v ≤ v') :
    ∃ x x', floatParse w = ok (some (.num x)) ∧ floatParse w' = ok (some (.num x')) ∧ x ≤ x' ∧ (v = v' → x = x') := by
  have small : ∀ {w : List Byte} {v : ℚ}, ScaledText w v → |rnd 53 v| ≤ 2 ^ 127 := by
    rintro w v ⟨sg, neg, ip, ex, ed, x, en, -, -, -, -, -, -, -, hi, hx, rfl⟩
    have h1 : (decVal ip : ℚ) ≤ 2 ^ 53 := by exact_mod_cast hi
    have h2 : (10 : ℚ) ^ x ≤ 10 ^ (22 : ℤ) := zpow_le_zpow_right₀ (by norm_num) (by omega)
    have h3 : (decVal ip : ℚ) * (10 : ℚ) ^ x ≤ 2 ^ 127 :=
      le_trans (mul_le_mul h1 h2 (by positivity) (by norm_num)) (by norm_num)
    have h4 : (0 : ℚ) ≤ decVal ip * (10 : ℚ) ^ x := by positivity
    have htop : rnd 53 (2 ^ 127) = 2 ^ 127 := rnd_exact 53 (by omega) _ ⟨1, 127, by norm_num, by norm_num⟩
    have a := rnd_mono h3
    have b := rnd_nonneg h4
    rw [htop] at a
    cases neg
    · simp only [Bool.false_eq_true, if_false]; rw [abs_of_nonneg b]; exact a
    · simp only [if_true]; rw [rnd_neg, abs_neg, abs_of_nonneg b]; exact a
  obtain ⟨r, r', hr, hr', hle⟩ := rnd32_mono (small h) (small h') (rnd_mono hv)
  refine ⟨r, r', ?_, ?_, hle, fun e => ?_⟩
  · unfold floatParse; rw [h.parse, ok_bind]; simp [toFloat, hr]
  · unfold floatParse; rw [h'.parse, ok_bind]; simp [toFloat, hr']
  · rw [← e, hr] at hr'
    exact Val.num.inj hr'

/-- **C191**: integers of at most `2^53` in absolute value: which of the two is smaller, and whether they are equal, is what the results say. -/
theorem C191_integers {w w' : List Byte} {v v' : ℤ} (h : IntegerText w v) (h' : IntegerText w' v') :
    ∃ x x', realParse ieee doubleMin w = ok (some (.num x)) ∧ realParse ieee doubleMin w' = ok (some (.num x')) ∧ (x < x' ↔ v < v') ∧ (x = x' ↔ v = v') :=
  ⟨v, v', h.parse, h'.parse, by exact_mod_cast Iff.rfl, by exact_mod_cast Iff.rfl⟩

/-- **C191**: any two decimal texts whose values are apart by the fraction `2^-43` of their sizes, in whatever notation: the order is kept.  Missing because false: numbers that are closer
(`C191_order_lost`, `C191_notation`). -/
theorem C191_apart_partial {w w' : List Byte} {v v' : ℚ} (h : DecimalText w v) (h' : DecimalText w' v') (hv : v + 1 / 2 ^ 43 * (|v| + |v'|) + 4 * (1 / 2 ^ 1075) ≤ v') :
    ∃ x x', realParse ieee doubleMin w = ok (some (.num x)) ∧ realParse ieee doubleMin w' = ok (some (.num x')) ∧ x ≤ x' := by
  obtain ⟨x, hx, hd⟩ := h.parse
  obtain ⟨x', hx', hd'⟩ := h'.parse
  refine ⟨x, x', hx, hx', ?_⟩
  have a := (abs_le.mp hd).2
  have b := (abs_le.mp hd').1
  generalize (1 : ℚ) / 2 ^ 1075 = t at *
  linarith

/-- C191 is false of integers beyond `2^53`: 90071992547409929 is converted to a larger number than 90071992547409930. -/
theorem C191_order_lost :
    realParse ieee doubleMin [57, 48, 48, 55, 49, 57, 57, 50, 53, 52, 55, 52, 48, 57, 57, 50, 57] = ok (some (.num 90071992547409936)) ∧
    realParse ieee doubleMin [57, 48, 48, 55, 49, 57, 57, 50, 53, 52, 55, 52, 48, 57, 57, 51, 48] = ok (some (.num 90071992547409920)) := by
  have hr : ∀ q : ℚ, 1 ≤ q → q ≤ 10 ^ 18 → rnd64 q = .num (rnd 53 q) := by
    intro q h1 h2
    rw [rnd64_eq q (Or.inr (by rw [abs_of_pos (by linarith)]; exact le_trans (by norm_num) h1)), if_pos]
    have hn := rnd_nonneg (show 0 ≤ q by linarith)
    rw [abs_of_nonneg hn]
    have := (rnd_factor 53 q (by linarith)).2
    refine lt_of_le_of_lt this ?_
    calc q * (1 + 1 / 2 ^ 53) ≤ 10 ^ 18 * 2 := mul_le_mul h2 (by norm_num) (by norm_num) (by norm_num)
      _ < 2 ^ 1024 := by norm_num
  have happ : ∀ (ds : List Byte) (c : Byte) (d : Val), horner ieee (ds ++ [c]) d = ieee.step (horner ieee ds d) (c.toNat - 48) := by
    intro ds c d
    simp [horner]
  have hstep : ∀ (q : ℚ) (n : Nat), ieee.step (.num q) n = add64 (rnd64 (q * 10)) (.num n) := fun _ _ => rfl
  have hadd : ∀ a b : ℚ, add64 (.num a) (.num b) = rnd64 (a + b) := fun _ _ => rfl
  have h10 : rnd 53 (9007199254740992 * 10) = 90071992547409920 := by
    rw [rnd_exact 53 (by omega) _ ⟨5629499534213120, 4, by norm_num, by norm_num⟩]; norm_num
  have h10' : rnd 53 (900719925474099 * 10) = 9007199254740990 := by
    rw [rnd_exact 53 (by omega) _ ⟨9007199254740990, 0, by norm_num, by norm_num⟩]; norm_num
  have g1 : rnd 53 (90071992547409920 + 9) = 90071992547409936 := by
    rw [rnd_eq 53 _ 5629499534213121 4 (by norm_num) (by norm_num) (Or.inl (by rw [abs_lt]; norm_num))]; norm_num
  have g2 : rnd 53 (9007199254740990 + 3) = 9007199254740992 := by
    rw [rnd_eq 53 _ 4503599627370496 1 (by norm_num) (by norm_num) (Or.inr ⟨by rw [abs_le]; norm_num, by norm_num⟩)]; norm_num
  have g3 : rnd 53 (90071992547409920 + 0) = 90071992547409920 := by
    rw [rnd_exact 53 (by omega) _ ⟨5629499534213120, 4, by norm_num, by norm_num⟩]; norm_num
  have whole : ∀ ip : List Byte, (∀ c ∈ ip, isDigit c) → ip ≠ [] → realParse ieee doubleMin ip = ok (some (horner ieee (skipZeros ip) (.num 0))) := by
    intro ip hip hne
    have h := realParse_usual ieee doubleMin [] false ip [] [] [] [] 0 [] (Or.inl ⟨rfl, rfl⟩) hip (Or.inl ⟨rfl, rfl⟩) (by simpa using hne) (Or.inl ⟨rfl, rfl, rfl⟩) (by simp) (Or.inl rfl)
      (by simp) (by omega)
    simp only [List.nil_append, List.append_nil] at h
    rw [h, mantissa, if_pos rfl, ok_bind, scaled, if_neg (by simp), ok_bind]
    rfl
  have p1 : horner ieee [57, 48, 48, 55, 49, 57, 57, 50, 53, 52, 55, 52, 48, 57, 57, 50] (.num 0) = .num 9007199254740992 := by
    have := horner_ieee_exact [57, 48, 48, 55, 49, 57, 57, 50, 53, 52, 55, 52, 48, 57, 57, 50] (by decide) (by decide)
    rw [show decVal [57, 48, 48, 55, 49, 57, 57, 50, 53, 52, 55, 52, 48, 57, 57, 50] = 9007199254740992 by decide] at this
    exact_mod_cast this
  have p2 : horner ieee [57, 48, 48, 55, 49, 57, 57, 50, 53, 52, 55, 52, 48, 57, 57] (.num 0) = .num 900719925474099 := by
    have := horner_ieee_exact [57, 48, 48, 55, 49, 57, 57, 50, 53, 52, 55, 52, 48, 57, 57] (by decide) (by decide)
    rw [show decVal [57, 48, 48, 55, 49, 57, 57, 50, 53, 52, 55, 52, 48, 57, 57] = 900719925474099 by decide] at this
    exact_mod_cast this
  constructor
  · rw [whole _ (by decide) (by simp)]
    have e : skipZeros [57, 48, 48, 55, 49, 57, 57, 50, 53, 52, 55, 52, 48, 57, 57, 50, 57] = [57, 48, 48, 55, 49, 57, 57, 50, 53, 52, 55, 52, 48, 57, 57, 50] ++ [57] := by decide
    have d : (57 : Byte).toNat - 48 = 9 := by decide
    rw [e, happ, p1, hstep, d, hr (9007199254740992 * 10) (by norm_num) (by norm_num), h10, hadd]
    rw [show ((9 : ℕ) : ℚ) = 9 by norm_num, hr (90071992547409920 + 9) (by norm_num) (by norm_num), g1]
  · rw [whole _ (by decide) (by simp)]
    have e : skipZeros [57, 48, 48, 55, 49, 57, 57, 50, 53, 52, 55, 52, 48, 57, 57, 51, 48] = ([57, 48, 48, 55, 49, 57, 57, 50, 53, 52, 55, 52, 48, 57, 57] ++ [51]) ++ [48] := by decide
    have d : (51 : Byte).toNat - 48 = 3 := by decide
    have d0 : (48 : Byte).toNat - 48 = 0 := by decide
    rw [e, happ, happ, p2, hstep, d, hr (900719925474099 * 10) (by norm_num) (by norm_num), h10', hadd]
    rw [show ((3 : ℕ) : ℚ) = 3 by norm_num, hr (9007199254740990 + 3) (by norm_num) (by norm_num), g2, hstep, d0, hr (9007199254740992 * 10) (by norm_num) (by norm_num), h10, hadd]
    rw [show ((0 : ℕ) : ℚ) = 0 by norm_num, hr (90071992547409920 + 0) (by norm_num) (by norm_num), g3]

/-- C191 is false of one number in two notations: 1.14 is converted to a larger number than 114e-2. -/
theorem C191_notation :
    realParse ieee doubleMin [49, 46, 49, 52] = ok (some (.num (0x123d70a3d70a3e / 2 ^ 52))) ∧
    realParse ieee doubleMin [49, 49, 52, 101, 45, 50] = ok (some (.num (0x123d70a3d70a3d / 2 ^ 52))) := by
  refine ⟨(C176_not_nearest 1 2 (by omega) (by omega)).2.1, ?_⟩
  have e := realParse_scaled [] false [49, 49, 52] [101, 45, 50] [50] [] (-2) (Or.inl ⟨rfl, rfl⟩) (by decide) (by simp)
    (Or.inr ⟨101, [45], true, Or.inl rfl, Or.inr (Or.inr ⟨rfl, rfl⟩), by decide, rfl, by decide⟩) (by simp) (Or.inl rfl) (by decide) (by decide)
  have e1 : decVal [49, 49, 52] = 114 := by decide
  have hval : ((114 : ℕ) : ℚ) * (10 : ℚ) ^ (-2 : ℤ) = 114 / 100 := by norm_num
  have hr : rnd 53 (114 / 100) = 0x123d70a3d70a3d / 2 ^ 52 := by
    rw [rnd_eq 53 (114 / 100) 0x123d70a3d70a3d (-52) (by norm_num) (by norm_num) (Or.inl (by rw [abs_lt]; norm_num))]; norm_num
  rw [e1, hval, hr] at e
  exact e

theorem decVal_trailing (ds : List Byte) (n : Nat) : decVal (ds ++ List.replicate n 48) = decVal ds * 10 ^ n := by
  rw [decVal_append, decVal_zeros, List.length_replicate, Nat.add_zero]

/-- C191 is false of numbers with many digits: a half, with 309 to 614 zeros behind it, is converted to infinity, and a one to one. -/
theorem C191_many_digits (n : Nat) (h1 : 309 ≤ n) (h2 : n ≤ 614) :
    realParse ieee doubleMin ([48, 46, 53] ++ List.replicate n 48) = ok (some (.inf false)) ∧ realParse ieee doubleMin [49] = ok (some (.num 1)) := by
  have hd : ∀ c ∈ [53] ++ List.replicate n (48 : Byte), isDigit c := by
    intro c hc
    rcases List.mem_append.mp hc with h | h
    · rw [List.mem_singleton.mp h]; decide
    · rw [List.eq_of_mem_replicate h]; decide
  constructor
  · have := C140_overflow [] false [48] (46 :: ([53] ++ List.replicate n 48)) ([53] ++ List.replicate n 48) [] [] 0 [] (Or.inl ⟨rfl, rfl⟩) (by decide) (Or.inr ⟨rfl, hd⟩)
      (Or.inl ⟨rfl, rfl, rfl⟩) (by simp) (Or.inl rfl) (Or.inr (by
        rw [decVal_trailing, show decVal [53] = 5 by decide]
        exact le_trans (Nat.pow_le_pow_right (by omega) h1) (by omega))) (by simp; omega) (by omega)
    simpa using this
  · have := C140_integer_exact doubleMin [] false [49] [] (Or.inl ⟨rfl, rfl⟩) (by decide) (by simp) (Or.inl rfl) (by decide)
    rw [show decVal [49] = 1 by decide] at this
    simpa [withSign] using this

/-- The same of `long double`: a half with 308 to 1999 zeros behind it is converted to zero, and `4e-1`, which is less, to more than zero. -/
theorem C191_many_digits_long (n : Nat) (h1 : 308 ≤ n) (h2 : n ≤ 1999) :
    realParse extended longDoubleMin ([48, 46, 53] ++ List.replicate n 48) = ok (some (.num 0)) ∧
    ∃ r, realParse extended longDoubleMin [52, 101, 45, 49] = ok (some (.num r)) ∧ 0 < r := by
  have hd : ∀ c ∈ [53] ++ List.replicate n (48 : Byte), isDigit c := by
    intro c hc
    rcases List.mem_append.mp hc with h | h
    · rw [List.mem_singleton.mp h]; decide
    · rw [List.eq_of_mem_replicate h]; decide
  constructor
  · have := C184_long_fraction [] false [48] ([53] ++ List.replicate n 48) [] (Or.inl ⟨rfl, rfl⟩) (by decide) hd (Or.inl rfl) (by decide) (by simp; omega)
    rw [show decVal [48] = 0 by decide] at this
    simpa [withSign] using this
  · obtain ⟨r, ⟨_, hr⟩, e⟩ := C184_correctly_rounded [] false [52] [101, 45, 49] [49] [] (-1) (Or.inl ⟨rfl, rfl⟩) (by decide) (by simp)
      (Or.inr ⟨101, [45], true, Or.inl rfl, Or.inr (Or.inr ⟨rfl, rfl⟩), by decide, rfl, by decide⟩) (by simp) (Or.inl rfl) (by decide) (by decide)
    refine ⟨r, e, ?_⟩
    have := hr (1 / 4) ⟨1, -2, by norm_num, by norm_num⟩
    rw [show decVal [52] = 4 by decide] at this
    norm_num at this
    rw [abs_le] at this
    linarith [this.1]

/-- **C191**: integers of at most `2^64` with exponents from -22 to 22, converted to `long double`. -/
theorem C191_scaled_long {sg sg' : List Byte} {neg neg' : Bool} {ip ip' ex ex' ed ed' en en' : List Byte} {x x' : Int}
    (hs : Sign sg neg) (hip : ∀ c ∈ ip, isDigit c) (hne : ip ≠ []) (hex : Exponent ex ed x) (hed : ex ≠ [] → ed ≠ []) (hen : Suffix en) (hi : decVal ip ≤ 2 ^ 64) (hx : x.natAbs ≤ 22)
    (hs' : Sign sg' neg') (hip' : ∀ c ∈ ip', isDigit c) (hne' : ip' ≠ []) (hex' : Exponent ex' ed' x') (hed' : ex' ≠ [] → ed' ≠ []) (hen' : Suffix en') (hi' : decVal ip' ≤ 2 ^ 64)
    (hx' : x'.natAbs ≤ 22) (hv : (if neg then -1 else 1) * (decVal ip * (10 : ℚ) ^ x) < (if neg' then -1 else 1) * (decVal ip' * (10 : ℚ) ^ x')) :
    ∃ r r', realParse extended longDoubleMin (sg ++ (ip ++ (ex ++ en))) = ok (some (.num r)) ∧ realParse extended longDoubleMin (sg' ++ (ip' ++ (ex' ++ en'))) = ok (some (.num r')) ∧
      r ≤ r' := by
  have key : ∀ (neg : Bool) (q r : ℚ), Nearest 64 q r → Nearest 64 ((if neg then -1 else 1) * q) (if neg then -r else r) := by
    intro neg q r hr
    cases neg
    · simpa using hr
    · obtain ⟨⟨k, j, hk, rfl⟩, hm⟩ := hr
      refine ⟨⟨-k, j, by rwa [abs_neg], by push_cast; simp⟩, fun s hs => ?_⟩
      obtain ⟨k', j', hk', rfl⟩ := hs
      have := hm (-(k' * (2 : ℚ) ^ j')) ⟨-k', j', by rwa [abs_neg], by push_cast; ring⟩
      simp only [if_true]
      rw [← abs_neg]
      refine le_trans (le_of_eq ?_) (le_trans this (le_of_eq ?_))
      · congr 1; ring
      · rw [← abs_neg]; congr 1; ring
  obtain ⟨r, n, e⟩ := C184_correctly_rounded sg neg ip ex ed en x hs hip hne hex hed hen hi hx
  obtain ⟨r', n', e'⟩ := C184_correctly_rounded sg' neg' ip' ex' ed' en' x' hs' hip' hne' hex' hed' hen' hi' hx'
  exact ⟨_, _, e, e', nearest_mono (key neg _ r n) (key neg' _ r' n') hv⟩

/-- A decimal text in the range of C184 and its value. -/
def LongText (w : List Byte) (v : ℚ) : Prop :=
  ∃ sg neg ip fp fd ex ed x en, w = sg ++ (ip ++ (fp ++ (ex ++ en))) ∧ Sign sg neg ∧ (∀ c ∈ ip, isDigit c) ∧ Fraction fp fd ∧ ip ++ fd ≠ [] ∧ Exponent ex ed x ∧ (ex ≠ [] → ed ≠ []) ∧
    Suffix en ∧ decVal ip < 10 ^ 1000 ∧ fd.length ≤ 308 ∧ (-308 ≤ x ∧ x ≤ 308) ∧ v = (if neg then -1 else 1) * ((decVal ip + decVal fd / 10 ^ fd.length) * (10 : ℚ) ^ x)

theorem LongText.parse {w : List Byte} {v : ℚ} (h : LongText w v) : ∃ r, realParse extended longDoubleMin w = ok (some (.num r)) ∧ |r - v| ≤ 1 / 2 ^ 49 * |v| := by
  obtain ⟨sg, neg, ip, fp, fd, ex, ed, x, en, rfl, hs, hip, hfp, hdig, hex, hed, hen, hil, hfl, hx, rfl⟩ := h
  obtain ⟨r, e, hr⟩ := C184_error_bound_partial sg neg ip fp fd ex ed x en hs hip hfp hdig hex hed hen hil hfl hx
  have h0 : (0 : ℚ) ≤ (decVal ip + decVal fd / 10 ^ fd.length) * (10 : ℚ) ^ x := by positivity
  generalize (decVal ip + decVal fd / 10 ^ fd.length) * (10 : ℚ) ^ x = q at hr h0 ⊢
  refine ⟨_, e, ?_⟩
  cases neg
  · simpa [abs_of_nonneg h0] using hr
  · rw [if_pos rfl, if_pos rfl, neg_one_mul, abs_neg, abs_of_nonneg h0, ← abs_neg]
    refine le_trans (le_of_eq ?_) hr
    congr 1
    ring

/-- **C191**: any two decimal texts whose values are apart by the fraction `2^-49` of their sizes, converted to `long double`.  Missing: numbers that are closer. -/
theorem C191_apart_long_partial {w w' : List Byte} {v v' : ℚ} (h : LongText w v) (h' : LongText w' v') (hv : v + 1 / 2 ^ 49 * (|v| + |v'|) ≤ v') :
    ∃ x x', realParse extended longDoubleMin w = ok (some (.num x)) ∧ realParse extended longDoubleMin w' = ok (some (.num x')) ∧ x ≤ x' := by
  obtain ⟨x, hx, hd⟩ := h.parse
  obtain ⟨x', hx', hd'⟩ := h'.parse
  refine ⟨x, x', hx, hx', ?_⟩
  have a := (abs_le.mp hd).2
  have b := (abs_le.mp hd').1
  linarith

/-! ## Non-vacuity -/

/-- "-0.30" and "007.25f", by `C191_plain`. -/
example : ∃ x x', realParse ieee doubleMin [45, 48, 46, 51, 48] = ok (some (.num x)) ∧ realParse ieee doubleMin [48, 48, 55, 46, 50, 53, 102] = ok (some (.num x')) ∧ x ≤ x' := by
  obtain ⟨x, x', h, h', hx, _⟩ := C191_plain (w := [45, 48, 46, 51, 48]) (w' := [48, 48, 55, 46, 50, 53, 102]) (v := -(3 / 10)) (v' := 29 / 4)
    ⟨[45], true, [48], [46, 51, 48], [51, 48], [], rfl, Or.inr (Or.inr ⟨rfl, rfl⟩), by decide, Or.inr ⟨rfl, by decide⟩, by simp, Or.inl rfl, by decide, by decide, by decide, by
      rw [show decVal [48] = 0 by decide, show decVal [51, 48] = 30 by decide]; norm_num⟩
    ⟨[], false, [48, 48, 55], [46, 50, 53], [50, 53], [102], rfl, Or.inl ⟨rfl, rfl⟩, by decide, Or.inr ⟨rfl, by decide⟩, by simp, Or.inr ⟨102, by decide, rfl⟩, by decide, by decide, by decide, by
      rw [show decVal [48, 48, 55] = 7 by decide, show decVal [50, 53] = 25 by decide]; norm_num⟩ (by norm_num)
  exact ⟨x, x', h, h', hx⟩

/-- "0.1" and "0.10" as `float`, by `C191_plain_float`. -/
example : ∃ x, floatParse [48, 46, 49] = ok (some (.num x)) ∧ floatParse [48, 46, 49, 48] = ok (some (.num x)) := by
  obtain ⟨x, x', h, h', _, e⟩ := C191_plain_float (w := [48, 46, 49]) (w' := [48, 46, 49, 48]) (v := 1 / 10) (v' := 1 / 10)
    ⟨[], false, [48], [46, 49], [49], [], rfl, Or.inl ⟨rfl, rfl⟩, by decide, Or.inr ⟨rfl, by decide⟩, by simp, Or.inl rfl, by decide, by decide, by decide, by
      rw [show decVal [48] = 0 by decide, show decVal [49] = 1 by decide]; norm_num⟩
    ⟨[], false, [48], [46, 49, 48], [49, 48], [], rfl, Or.inl ⟨rfl, rfl⟩, by decide, Or.inr ⟨rfl, by decide⟩, by simp, Or.inl rfl, by decide, by decide, by decide, by
      rw [show decVal [48] = 0 by decide, show decVal [49, 48] = 10 by decide]; norm_num⟩ le_rfl
  exact ⟨x, h, by rw [h', e rfl]⟩

/-- "1e-3" and "2e5", by `C191_scaled`. -/
example : ∃ x x', realParse ieee doubleMin [49, 101, 45, 51] = ok (some (.num x)) ∧ realParse ieee doubleMin [50, 101, 53] = ok (some (.num x')) ∧ x ≤ x' := by
  obtain ⟨x, x', h, h', hx, _⟩ := C191_scaled (w := [49, 101, 45, 51]) (w' := [50, 101, 53]) (v := 1 / 1000) (v' := 200000)
    ⟨[], false, [49], [101, 45, 51], [51], -3, [], rfl, Or.inl ⟨rfl, rfl⟩, by decide, by simp, Or.inr ⟨101, [45], true, Or.inl rfl, Or.inr (Or.inr ⟨rfl, rfl⟩), by decide, rfl, by decide⟩, by simp,
      Or.inl rfl, by decide, by decide, by rw [show decVal [49] = 1 by decide]; norm_num⟩
    ⟨[], false, [50], [101, 53], [53], 5, [], rfl, Or.inl ⟨rfl, rfl⟩, by decide, by simp, Or.inr ⟨101, [], false, Or.inl rfl, Or.inl ⟨rfl, rfl⟩, by decide, rfl, by decide⟩, by simp,
      Or.inl rfl, by decide, by decide, by rw [show decVal [50] = 2 by decide]; norm_num⟩ (by norm_num)
  exact ⟨x, x', h, h', hx⟩

/-- "10e1" and "1e2" as `float`, by `C191_scaled_float`. -/
example : ∃ x, floatParse [49, 48, 101, 49] = ok (some (.num x)) ∧ floatParse [49, 101, 50] = ok (some (.num x)) := by
  obtain ⟨x, x', h, h', _, e⟩ := C191_scaled_float (w := [49, 48, 101, 49]) (w' := [49, 101, 50]) (v := 100) (v' := 100)
    ⟨[], false, [49, 48], [101, 49], [49], 1, [], rfl, Or.inl ⟨rfl, rfl⟩, by decide, by simp, Or.inr ⟨101, [], false, Or.inl rfl, Or.inl ⟨rfl, rfl⟩, by decide, rfl, by decide⟩, by simp,
      Or.inl rfl, by decide, by decide, by rw [show decVal [49, 48] = 10 by decide]; norm_num⟩
    ⟨[], false, [49], [101, 50], [50], 2, [], rfl, Or.inl ⟨rfl, rfl⟩, by decide, by simp, Or.inr ⟨101, [], false, Or.inl rfl, Or.inl ⟨rfl, rfl⟩, by decide, rfl, by decide⟩, by simp,
      Or.inl rfl, by decide, by decide, by rw [show decVal [49] = 1 by decide]; norm_num⟩ le_rfl
  exact ⟨x, h, by rw [h', e rfl]⟩

/-- "-7" and "+12f", by `C191_integers`. -/
example : ∃ x x', realParse ieee doubleMin [45, 55] = ok (some (.num x)) ∧ realParse ieee doubleMin [43, 49, 50, 102] = ok (some (.num x')) ∧ x < x' := by
  obtain ⟨x, x', h, h', hx, _⟩ := C191_integers (w := [45, 55]) (w' := [43, 49, 50, 102]) (v := -7) (v' := 12)
    ⟨[45], true, [55], [], rfl, by simp [Sign], by decide, by simp, Or.inl rfl, by decide, by decide⟩
    ⟨[43], false, [49, 50], [102], rfl, by simp [Sign], by decide, by simp, Or.inr ⟨102, by decide, rfl⟩, by decide, by decide⟩
  exact ⟨x, x', h, h', hx.mpr (by omega)⟩

/-- "-0.25e1" and ".5", by `C191_apart_partial`. -/
example : ∃ x x', realParse ieee doubleMin [45, 48, 46, 50, 53, 101, 49] = ok (some (.num x)) ∧ realParse ieee doubleMin [46, 53] = ok (some (.num x')) ∧ x ≤ x' := by
  refine C191_apart_partial (v := -(5 / 2)) (v' := 1 / 2)
    ⟨[45], true, [48], [46, 50, 53], [50, 53], [101, 49], [49], 1, [], rfl, by simp [Sign], by decide, Or.inr ⟨rfl, by decide⟩, by simp,
      Or.inr ⟨101, [], false, Or.inl rfl, Or.inl ⟨rfl, rfl⟩, by decide, rfl, by decide⟩, by simp, Or.inl rfl, by rw [show decVal [48] = 0 by decide]; norm_num, by simp, by omega,
      by rw [show decVal [48] = 0 by decide, show decVal [50, 53] = 25 by decide]; norm_num, by rw [show decVal [48] = 0 by decide, show decVal [50, 53] = 25 by decide]; norm_num⟩
    ⟨[], false, [], [46, 53], [53], [], [], 0, [], rfl, by simp [Sign], by decide, Or.inr ⟨rfl, by decide⟩, by simp, Or.inl ⟨rfl, rfl, rfl⟩, by simp, Or.inl rfl,
      by rw [show decVal [] = 0 by decide]; norm_num, by simp, by omega, by rw [show decVal [] = 0 by decide, show decVal [53] = 5 by decide]; norm_num,
      by rw [show decVal [] = 0 by decide, show decVal [53] = 5 by decide]; norm_num⟩ ?_
  have : (1 : ℚ) / 2 ^ 1075 ≤ 1 / 2 ^ 3 := one_div_le_one_div_of_le (by norm_num) (pow_le_pow_right₀ (by norm_num) (by omega))
  rw [abs_of_neg (by norm_num), abs_of_pos (by norm_num)]
  generalize (1 : ℚ) / 2 ^ 1075 = t at *
  norm_num at this ⊢
  linarith

/-- "-1e-3" and "18446744073709551615e2" converted to `long double`, by `C191_scaled_long`. -/
example : ∃ r r', realParse extended longDoubleMin [45, 49, 101, 45, 51] = ok (some (.num r)) ∧
    realParse extended longDoubleMin [49, 56, 52, 52, 54, 55, 52, 52, 48, 55, 51, 55, 48, 57, 53, 53, 49, 54, 49, 53, 101, 50] = ok (some (.num r')) ∧ r ≤ r' := by
  exact C191_scaled_long (sg := [45]) (neg := true) (ip := [49]) (ex := [101, 45, 51]) (ed := [51]) (en := []) (x := -3)
    (sg' := []) (neg' := false) (ip' := [49, 56, 52, 52, 54, 55, 52, 52, 48, 55, 51, 55, 48, 57, 53, 53, 49, 54, 49, 53]) (ex' := [101, 50]) (ed' := [50]) (en' := []) (x' := 2)
    (Or.inr (Or.inr ⟨rfl, rfl⟩)) (by decide) (by simp) (Or.inr ⟨101, [45], true, Or.inl rfl, Or.inr (Or.inr ⟨rfl, rfl⟩), by decide, rfl, by decide⟩) (by simp) (Or.inl rfl) (by decide) (by decide)
    (Or.inl ⟨rfl, rfl⟩) (by decide) (by simp) (Or.inr ⟨101, [], false, Or.inl rfl, Or.inl ⟨rfl, rfl⟩, by decide, rfl, by decide⟩) (by simp) (Or.inl rfl) (by decide) (by decide)
    (by
      rw [show decVal [49] = 1 by decide, show decVal [49, 56, 52, 52, 54, 55, 52, 52, 48, 55, 51, 55, 48, 57, 53, 53, 49, 54, 49, 53] = 18446744073709551615 by decide]
      norm_num)

/-- `C191_many_digits` with 400 zeros. -/
example : realParse ieee doubleMin ([48, 46, 53] ++ List.replicate 400 48) = ok (some (.inf false)) := (C191_many_digits 400 (by omega) (by omega)).1

/-- `C191_many_digits_long` with 400 zeros. -/
example : realParse extended longDoubleMin ([48, 46, 53] ++ List.replicate 400 48) = ok (some (.num 0)) := (C191_many_digits_long 400 (by omega) (by omega)).1

/-- "-0.25e1" and ".5" converted to `long double`, by `C191_apart_long_partial`. -/
example : ∃ x x', realParse extended longDoubleMin [45, 48, 46, 50, 53, 101, 49] = ok (some (.num x)) ∧ realParse extended longDoubleMin [46, 53] = ok (some (.num x')) ∧ x ≤ x' :=
  C191_apart_long_partial (w := [45, 48, 46, 50, 53, 101, 49]) (w' := [46, 53]) (v := -(5 / 2)) (v' := 1 / 2)
    ⟨[45], true, [48], [46, 50, 53], [50, 53], [101, 49], [49], 1, [], rfl, Or.inr (Or.inr ⟨rfl, rfl⟩), by decide, Or.inr ⟨rfl, by decide⟩, by simp,
      Or.inr ⟨101, [], false, Or.inl rfl, Or.inl ⟨rfl, rfl⟩, by decide, rfl, by decide⟩, by simp, Or.inl rfl, by
        rw [show decVal [48] = 0 by decide]; positivity, by decide, by decide, by
        rw [show decVal [48] = 0 by decide, show decVal [50, 53] = 25 by decide]; norm_num⟩
    ⟨[], false, [], [46, 53], [53], [], [], 0, [], rfl, Or.inl ⟨rfl, rfl⟩, by simp, Or.inr ⟨rfl, by decide⟩, by simp, Or.inl ⟨rfl, rfl, rfl⟩, by simp, Or.inl rfl, by
        rw [show decVal [] = 0 by rfl]; positivity, by decide, by decide, by
        rw [show decVal [] = 0 by rfl, show decVal [53] = 5 by decide]; norm_num⟩
    (by rw [abs_of_neg (by norm_num), abs_of_pos (by norm_num)]; norm_num)

end Strtk.Real
