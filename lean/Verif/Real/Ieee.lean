import Verif.Real.ToText

/-!
# C140: the conversion to `double` in IEEE 754 binary64 arithmetic, with overflow and gradual underflow

`Rounded.lean` leaves the limits of the exponent out; here they are in.  Zeros have no sign.  `std::pow`, used for exponents from 309 on only, is taken to be
correctly rounded.
-/

namespace Strtk.Real
open Outcome Mem Number

set_option exponentiation.threshold 2000

/-- The exponent of the last place of a binary64 number of the size of `q`: 53 significant bits, but nothing below `2^-1074`. -/
def lastPlace (q : ℚ) : ℤ := max (Int.log 2 |q| - 52) (-1074)

/-- Rounding to binary64, to nearest, ties to even; from `2^1024` on the result is infinite. -/
def rnd64 (q : ℚ) : Val :=
  let r : ℚ := rne (q / 2 ^ lastPlace q) * 2 ^ lastPlace q
  if |r| < 2 ^ 1024 then .num r else .inf (decide (q < 0))

/-- Multiplication. -/
def mul64 : Val → Val → Val
  | .num a, .num b => rnd64 (a * b)
  | .num a, .inf s => if a = 0 then .nan else .inf (s != decide (a < 0))
  | .inf s, .num a => if a = 0 then .nan else .inf (s != decide (a < 0))
  | .inf s, .inf t => .inf (s != t)
  | _, _ => .nan

/-- Division. -/
def div64 : Val → Val → Val
  | .num a, .num b => if b = 0 then if a = 0 then .nan else .inf (decide (a < 0)) else rnd64 (a / b)
  | .num _, .inf _ => .num 0
  | .inf s, .num a => .inf (s != decide (a < 0))
  | _, _ => .nan

/-- Addition. -/
def add64 : Val → Val → Val
  | .num a, .num b => rnd64 (a + b)
  | .num _, .inf s => .inf s
  | .inf s, .num _ => .inf s
  | .inf s, .inf t => if s = t then .inf s else .nan
  | _, _ => .nan

/-- The arithmetic of `double` used by the conversion (16781-16841, 17646-17701, 17775): the entries of the table (16784-16818) are rounded literals. -/
def ieee : Ops Val where
  zero := .num 0
  step d n := add64 (mul64 d (.num 10)) (.num n)
  add := add64
  neg x := match x with
    | .num q => .num (-q)
    | .inf b => .inf (!b)
    | .nan => .nan
  mulTable d e := mul64 d (rnd64 (tableEntry e))
  divTable d e := div64 d (rnd64 (tableEntry e))
  mulPow d x := mul64 d (rnd64 ((10 : ℚ) ^ (10 * x)))
  inf := .inf false
  nan := .nan

/-! ## Rounding -/

/-- In the normal range binary64 is rounding to 53 bits. -/
theorem rnd64_eq (q : ℚ) (h0 : q = 0 ∨ (2 : ℚ) ^ (-1022 : ℤ) ≤ |q|) : rnd64 q = if |rnd 53 q| < 2 ^ 1024 then .num (rnd 53 q) else .inf (decide (q < 0)) := by
  have e : (rne (q / 2 ^ lastPlace q) : ℚ) * 2 ^ lastPlace q = rnd 53 q := by
    by_cases hq : q = 0
    · subst hq
      have : rne 0 = 0 := by simpa using rne_int 0
      simp [rnd, this]
    · have h1 := h0.resolve_left hq
      have h2 : (-1022 : ℤ) ≤ Int.log 2 |q| := by
        have := (Int.zpow_le_iff_le_log (b := 2) (R := ℚ) (by omega) (x := -1022) (abs_pos.mpr hq)).mp (by simpa using h1)
        exact this
      have h3 : lastPlace q = Int.log 2 |q| - ((53 : Nat) - 1 : ℤ) := by
        unfold lastPlace
        rw [max_eq_left (by omega)]
        norm_num
      unfold rnd
      rw [if_neg hq, h3]
  unfold rnd64
  simp only [e]

/-- What rounding does to a number: less than half a last place. -/
theorem rnd64_error (q : ℚ) (hq : 0 ≤ q) (hb : q ≤ 1797693134 * 10 ^ 299 * (1 + 1 / 2 ^ 53) ^ 700) :
    ∃ r, rnd64 q = .num r ∧ 0 ≤ r ∧ |r - q| ≤ max (1 / 2 ^ 53 * q) ((2 : ℚ) ^ (-1075 : ℤ)) := by
  have hbig : q * (1 + 1 / 2 ^ 53) < 2 ^ 1024 := by
    refine lt_of_le_of_lt (mul_le_mul_of_nonneg_right hb (by norm_num)) ?_
    norm_num
  by_cases h0 : q = 0 ∨ (2 : ℚ) ^ (-1022 : ℤ) ≤ |q|
  · obtain ⟨a, b⟩ := rnd_factor 53 q hq
    have hr : |rnd 53 q| < 2 ^ 1024 := by
      rw [abs_of_nonneg (le_trans (mul_nonneg hq (by norm_num)) a)]
      linarith
    refine ⟨rnd 53 q, by rw [rnd64_eq q h0, if_pos hr], le_trans (mul_nonneg hq (by norm_num)) a, ?_⟩
    have := rnd_error 53 q
    rw [abs_of_nonneg hq] at this
    exact le_trans this (le_max_left _ _)
  · rw [not_or] at h0
    have hlt := h0.2
    rw [abs_of_nonneg hq, not_le] at hlt
    have hl : lastPlace q = -1074 := by
      unfold lastPlace
      rw [max_eq_right]
      have hpos : 0 < |q| := abs_pos.mpr h0.1
      have := (Int.lt_zpow_iff_log_lt (b := 2) (R := ℚ) (by omega) (x := -1022) hpos).mp (by rw [abs_of_nonneg hq]; simpa using hlt)
      omega
    have hpos : (0 : ℚ) < 2 ^ (-1074 : ℤ) := by positivity
    have herr : |(rne (q / 2 ^ (-1074 : ℤ)) : ℚ) * 2 ^ (-1074 : ℤ) - q| ≤ (2 : ℚ) ^ (-1075 : ℤ) := by
      have e : (rne (q / 2 ^ (-1074 : ℤ)) : ℚ) * 2 ^ (-1074 : ℤ) - q = ((rne (q / 2 ^ (-1074 : ℤ)) : ℚ) - q / 2 ^ (-1074 : ℤ)) * 2 ^ (-1074 : ℤ) := by
        rw [sub_mul, div_mul_cancel₀ _ hpos.ne']
      rw [e, abs_mul, abs_of_pos hpos]
      calc _ ≤ 1 / 2 * (2 : ℚ) ^ (-1074 : ℤ) := mul_le_mul_of_nonneg_right (rne_half _) hpos.le
        _ = _ := by rw [show (-1075 : ℤ) = -1074 - 1 by norm_num, zpow_sub₀ (by norm_num)]; ring
    refine ⟨(rne (q / 2 ^ (-1074 : ℤ)) : ℚ) * 2 ^ (-1074 : ℤ), ?_, ?_, le_trans herr (le_max_right _ _)⟩
    swap
    · have : (0 : ℤ) ≤ rne (q / 2 ^ (-1074 : ℤ)) := by
        apply (rne_mono_int _ _).1
        simpa using div_nonneg hq hpos.le
      exact mul_nonneg (by exact_mod_cast this) hpos.le
    unfold rnd64
    simp only [hl]
    rw [if_pos]
    have h1 := abs_le.mp herr
    have h2 : (2 : ℚ) ^ (-1075 : ℤ) < 1 := by norm_num
    have h3 : (2 : ℚ) ^ (-1022 : ℤ) < 1 := by norm_num
    have h4 : (2 : ℚ) < 2 ^ 1024 := by norm_num
    rw [abs_lt]
    constructor <;> linarith

/-- `u`: half a unit in the last place of binary64. -/
theorem half_ulp : (0 : ℚ) < 1 / 2 ^ 53 ∧ (1 : ℚ) / 2 ^ 53 ≤ 1 / 2 := by norm_num

/-- Zero, or a number from `10^-307` to `10^308`. -/
def Medium (v : ℚ) : Prop := v = 0 ∨ ((10 : ℚ) ^ (-307 : ℤ) ≤ v ∧ v ≤ 1797693134 * 10 ^ 299)

theorem Medium.nonneg {v : ℚ} (h : Medium v) : 0 ≤ v := by
  rcases h with rfl | h
  · exact le_rfl
  · exact le_trans (by positivity) h.1

theorem medium_nat (n : Nat) (h : n ≤ 1797693134 * 10 ^ 299) : Medium n := by
  rcases Nat.eq_zero_or_pos n with rfl | hp
  · left; simp
  · right
    constructor
    · refine le_trans (by norm_num : (10 : ℚ) ^ (-307 : ℤ) ≤ 1) ?_
      exact_mod_cast hp
    · exact_mod_cast h

/-- A number within some hundred roundings of a medium one is in the normal range. -/
theorem rnd64_within {v w : ℚ} {n : Nat} (hv : Medium v) (h : Within (1 / 2 ^ 53) n v w) (hn : n ≤ 700) : rnd64 w = .num (rnd 53 w) := by
  have hw := within_nonneg half_ulp hv.nonneg h
  have h' := within_mono half_ulp hv.nonneg hn h
  obtain ⟨a, b⟩ := rnd_factor 53 w hw
  have hr0 : 0 ≤ rnd 53 w := le_trans (mul_nonneg hw (by norm_num)) a
  rw [rnd64_eq, if_pos]
  · rw [abs_of_nonneg hr0]
    have hv8 : v ≤ 1797693134 * 10 ^ 299 := by
      rcases hv with rfl | hv
      · positivity
      · exact hv.2
    calc rnd 53 w ≤ w * (1 + 1 / 2 ^ 53) := b
      _ ≤ v * (1 + 1 / 2 ^ 53) ^ 700 * (1 + 1 / 2 ^ 53) := mul_le_mul_of_nonneg_right h'.2 (by norm_num)
      _ ≤ 1797693134 * 10 ^ 299 * (1 + 1 / 2 ^ 53) ^ 700 * (1 + 1 / 2 ^ 53) :=
        mul_le_mul_of_nonneg_right (mul_le_mul_of_nonneg_right hv8 (by positivity)) (by norm_num)
      _ < 2 ^ 1024 := by norm_num
  · rcases hv with rfl | hv
    · left
      have h1 := h.1; have h2 := h.2
      rw [zero_mul] at h1 h2
      exact le_antisymm h2 h1
    · right
      rw [abs_of_nonneg hw]
      refine le_trans ?_ h'.1
      calc (2 : ℚ) ^ (-1022 : ℤ) ≤ 10 ^ (-307 : ℤ) * (1 - 1 / 2 ^ 53) ^ 700 := by norm_num
        _ ≤ _ := mul_le_mul_of_nonneg_right hv.1 (pow_nonneg (by norm_num) _)

/-! ## The operations on numbers in the normal range -/

theorem step_ieee {v : Nat} {w : ℚ} {k : Nat} (c : Nat) (hv : v * 10 + c ≤ 1797693134 * 10 ^ 299) (h : Within (1 / 2 ^ 53) k v w) (hk : k + 2 ≤ 700) :
    ieee.step (.num w) c = (rounded 53).step (.num w) c := by
  have h1 : Within (1 / 2 ^ 53) k ((v * 10 : Nat) : ℚ) (w * 10) := by
    have := within_scale (by norm_num : (0 : ℚ) ≤ 10) h
    push_cast
    exact this
  have h2 := rnd64_within (medium_nat (v * 10) (by omega)) h1 (by omega)
  have h3 := within_rnd 53 half_ulp (Nat.cast_nonneg (v * 10)) h1
  have h4 : Within (1 / 2 ^ 53) (k + 1) (c : ℚ) (c : ℚ) := within_mono half_ulp (Nat.cast_nonneg _) (Nat.zero_le _) (within_self _ _)
  have h5 := within_add h3 h4
  rw [← Nat.cast_add] at h5
  have h6 := rnd64_within (medium_nat (v * 10 + c) hv) h5 (by omega)
  show add64 (rnd64 (w * 10)) (.num c) = .num (rnd 53 (rnd 53 (w * 10) + c))
  rw [h2]
  exact h6

theorem horner_ieee (ds : List Byte) : ∀ (k v : Nat) (w : ℚ), v * 10 ^ ds.length + decVal ds ≤ 1797693134 * 10 ^ 299 → Within (1 / 2 ^ 53) k v w →
    k + 2 * ds.length ≤ 700 → horner ieee ds (.num w) = horner (rounded 53) ds (.num w) := by
  induction ds with
  | nil => intros; rfl
  | cons c ds ih =>
    intro k v w hv h hk
    rw [List.length_cons] at *
    have e : v * 10 ^ (ds.length + 1) + decVal (c :: ds) = (v * 10 + (c.toNat - 48)) * 10 ^ ds.length + decVal ds := by rw [decVal_cons]; ring
    rw [e] at hv
    have hle : v * 10 + (c.toNat - 48) ≤ 1797693134 * 10 ^ 299 := by
      refine le_trans (le_trans (Nat.le_mul_of_pos_right _ (by positivity)) (Nat.le_add_right _ _)) hv
    have hs := step_ieee (c.toNat - 48) hle h (by omega)
    have h1 := within_rnd 53 half_ulp (mul_nonneg (Nat.cast_nonneg v) (by norm_num : (0 : ℚ) ≤ 10)) (within_scale (by norm_num : (0 : ℚ) ≤ 10) h)
    have h2 : Within (1 / 2 ^ 53) (k + 1) ((c.toNat - 48 : Nat) : ℚ) ((c.toNat - 48 : Nat) : ℚ) :=
      within_mono half_ulp (Nat.cast_nonneg _) (Nat.zero_le _) (within_self _ _)
    have h3 := within_rnd 53 half_ulp (add_nonneg (mul_nonneg (Nat.cast_nonneg v) (by norm_num)) (Nat.cast_nonneg _)) (within_add h1 h2)
    have h4 : Within (1 / 2 ^ 53) (k + 1 + 1) ((v * 10 + (c.toNat - 48) : Nat) : ℚ) (rnd 53 (rnd 53 (w * 10) + ((c.toNat - 48 : Nat) : ℚ))) := by
      push_cast at h3 ⊢
      exact h3
    show horner ieee ds (ieee.step (.num w) (c.toNat - 48)) = horner (rounded 53) ds ((rounded 53).step (.num w) (c.toNat - 48))
    rw [hs]
    exact ih _ _ _ hv h4 (by omega)

theorem table_ieee (e : Nat) (he : e ≠ 0) (h8 : e ≤ 308) : rnd64 (tableEntry e) = .num (rnd 53 (tableEntry e)) := by
  rw [tableEntry_pos he]
  have hm : Medium (10 ^ e : ℚ) := by
    have := medium_nat (10 ^ e) (le_trans (Nat.pow_le_pow_right (by omega) h8) (by norm_num))
    push_cast at this
    exact this
  exact rnd64_within hm (within_self _ _) (by omega)

theorem entry_pos (e : Nat) (he : e ≠ 0) : 0 < rnd 53 (tableEntry e) := by
  obtain ⟨f, hf, h1, _⟩ := table_factor 53 half_ulp e he
  rw [hf]
  have : (0 : ℚ) < f := lt_of_lt_of_le (by norm_num) h1
  positivity

theorem mulTable_pre {v w : ℚ} {n : Nat} (e : Nat) (he : e ≠ 0) (hv : 0 ≤ v) (h : Within (1 / 2 ^ 53) n v w) :
    Within (1 / 2 ^ 53) (n + 1) (v * 10 ^ e) (w * rnd 53 (tableEntry e)) := by
  obtain ⟨f, hf, h1, h2⟩ := table_factor 53 half_ulp e he
  have a := within_factor half_ulp (mul_nonneg hv (by positivity)) (within_scale (c := 10 ^ e) (by positivity) h) h1 h2
  rw [hf, ← mul_assoc]
  exact a

theorem divTable_pre {v w : ℚ} {n : Nat} (e : Nat) (he : e ≠ 0) (hv : 0 ≤ v) (h : Within (1 / 2 ^ 53) n v w) :
    Within (1 / 2 ^ 53) (n + 2) (v / 10 ^ e) (w / rnd 53 (tableEntry e)) := by
  obtain ⟨f, hf, h1, h2⟩ := table_factor 53 half_ulp e he
  obtain ⟨g1, g2⟩ := inv_factor half_ulp h1 h2
  have a := within_factor half_ulp (mul_nonneg hv (by positivity)) (within_scale (c := (10 ^ e)⁻¹) (by positivity) h) g1 g2
  have e1 : w / (10 ^ e * f) = w * (10 ^ e)⁻¹ * f⁻¹ := by rw [div_eq_mul_inv, mul_inv, ← mul_assoc]
  rw [hf, e1, div_eq_mul_inv v]
  exact a

theorem mulTable_ieee {v w : ℚ} {n : Nat} (e : Nat) (he : e ≠ 0) (h8 : e ≤ 308) (hv : 0 ≤ v) (h : Within (1 / 2 ^ 53) n v w) (hn : n + 1 ≤ 700)
    (hm : Medium (v * 10 ^ e)) : ieee.mulTable (.num w) e = (rounded 53).mulTable (.num w) e := by
  show mul64 (.num w) (rnd64 (tableEntry e)) = .num (rnd 53 (w * rnd 53 (tableEntry e)))
  rw [table_ieee e he h8]
  exact rnd64_within hm (mulTable_pre e he hv h) hn

theorem div_ieee (w : ℚ) (e : Nat) (he : e ≠ 0) (h8 : e ≤ 308) : ieee.divTable (.num w) e = rnd64 (w / rnd 53 (tableEntry e)) := by
  show div64 (.num w) (rnd64 (tableEntry e)) = _
  rw [table_ieee e he h8]
  show (if rnd 53 (tableEntry e) = 0 then _ else _) = _
  rw [if_neg (entry_pos e he).ne']

theorem divTable_ieee {v w : ℚ} {n : Nat} (e : Nat) (he : e ≠ 0) (h8 : e ≤ 308) (hv : 0 ≤ v) (h : Within (1 / 2 ^ 53) n v w) (hn : n + 2 ≤ 700)
    (hm : Medium (v / 10 ^ e)) : ieee.divTable (.num w) e = (rounded 53).divTable (.num w) e := by
  rw [div_ieee w e he h8]
  exact rnd64_within hm (divTable_pre e he hv h) hn


theorem medium_div (n k : Nat) (hn : n ≤ 1797693134 * 10 ^ 299) (hk : k ≤ 307) : Medium ((n : ℚ) / 10 ^ k) := by
  rcases Nat.eq_zero_or_pos n with rfl | hp
  · left; simp
  · right
    have h1 : (1 : ℚ) ≤ n := by exact_mod_cast hp
    have h2 : (n : ℚ) ≤ 1797693134 * 10 ^ 299 := by exact_mod_cast hn
    constructor
    · rw [zpow_neg, show (10 : ℚ) ^ (307 : ℤ) = 10 ^ 307 by norm_cast, le_div_iff₀ (by positivity)]
      calc ((10 : ℚ) ^ 307)⁻¹ * 10 ^ k ≤ ((10 : ℚ) ^ 307)⁻¹ * 10 ^ 307 :=
            mul_le_mul_of_nonneg_left (pow_le_pow_right₀ (by norm_num) hk) (by positivity)
        _ = 1 := inv_mul_cancel₀ (by positivity)
        _ ≤ n := h1
    · exact le_trans (div_le_self (by positivity) (one_le_pow₀ (by norm_num))) h2

/-! ## Numbers that may leave the normal range at the bottom -/

theorem within_abs {v w : ℚ} {n : Nat} (hv : 0 ≤ v) (h : Within (1 / 2 ^ 53) n v w) : |w - v| ≤ v * ((1 + 1 / 2 ^ 53) ^ n - 1) := by
  have b1 : (1 : ℚ) + n * (-(1 / 2 ^ 53)) ≤ (1 + -(1 / 2 ^ 53)) ^ n := one_add_mul_le_pow (by norm_num) n
  have b2 : (1 : ℚ) + n * (1 / 2 ^ 53) ≤ (1 + 1 / 2 ^ 53) ^ n := one_add_mul_le_pow (by norm_num) n
  have e : (1 : ℚ) + -(1 / 2 ^ 53) = 1 - 1 / 2 ^ 53 := by ring
  rw [e] at b1
  have h1 := h.1; have h2 := h.2
  rw [abs_le]
  constructor
  · have : v * (1 - (1 - 1 / 2 ^ 53) ^ n) ≤ v * ((1 + 1 / 2 ^ 53) ^ n - 1) := mul_le_mul_of_nonneg_left (by linarith) hv
    nlinarith
  · nlinarith

theorem within_le {v w : ℚ} {n : Nat} (h8 : v ≤ 1797693134 * 10 ^ 299) (hv : 0 ≤ v) (h : Within (1 / 2 ^ 53) n v w) (hn : n ≤ 700) :
    w ≤ 1797693134 * 10 ^ 299 * (1 + 1 / 2 ^ 53) ^ 700 :=
  le_trans (within_mono half_ulp hv hn h).2 (mul_le_mul_of_nonneg_right h8 (by positivity))

theorem pow_bound {v : ℚ} {n : Nat} (hv : 0 ≤ v) (hn : n ≤ 700) : v * ((1 + 1 / 2 ^ 53) ^ n - 1) ≤ v / 2 ^ 43 := by
  rw [div_eq_mul_inv]
  refine mul_le_mul_of_nonneg_left ?_ hv
  have h1 : (1 + 1 / 2 ^ 53 : ℚ) ^ n ≤ (1 + 1 / 2 ^ 53) ^ 700 := pow_le_pow_right₀ (by norm_num) hn
  have h2 : (1 + 1 / 2 ^ 53 : ℚ) ^ 700 - 1 ≤ (2 ^ 43)⁻¹ := by norm_num
  exact le_trans (sub_le_sub_right h1 1) h2

/-- One rounding more, of a number that may be tiny. -/
theorem rnd64_near {v w : ℚ} {n : Nat} (h8 : v ≤ 1797693134 * 10 ^ 299) (hv : 0 ≤ v) (h : Within (1 / 2 ^ 53) n v w) (hn : n + 1 ≤ 700) :
    ∃ r, rnd64 w = .num r ∧ |r - v| ≤ v / 2 ^ 43 + (2 : ℚ) ^ (-1075 : ℤ) := by
  have hw := within_nonneg half_ulp hv h
  obtain ⟨r, e, _, hr⟩ := rnd64_error w hw (within_le h8 hv h (by omega))
  refine ⟨r, e, ?_⟩
  have h1 := within_abs hv h
  have h2 : (1 : ℚ) / 2 ^ 53 * w ≤ v * ((1 + 1 / 2 ^ 53) ^ (n + 1) - (1 + 1 / 2 ^ 53) ^ n) := by
    have h' := mul_le_mul_of_nonneg_left h.2 (by norm_num : (0 : ℚ) ≤ 1 / 2 ^ 53)
    generalize (1 : ℚ) / 2 ^ 53 = u at *
    rw [pow_succ]
    refine le_trans h' (le_of_eq ?_)
    ring
  have h3 := pow_bound hv hn
  have hp : (0 : ℚ) < (2 : ℚ) ^ (-1075 : ℤ) := by positivity
  have h4 : |r - w| ≤ 1 / 2 ^ 53 * w + (2 : ℚ) ^ (-1075 : ℤ) := by
    refine le_trans hr (max_le ?_ ?_)
    · linarith
    · have : 0 ≤ 1 / 2 ^ 53 * w := mul_nonneg (by norm_num) hw
      linarith
  have h5 : |r - v| ≤ |r - w| + |w - v| := by
    have := abs_add_le (r - w) (w - v)
    rwa [sub_add_sub_cancel] at this
  linarith

theorem entry_ge (e : Nat) (he : e ≠ 0) : 5 ≤ rnd 53 (tableEntry e) := by
  obtain ⟨f, hf, h1, _⟩ := table_factor 53 half_ulp e he
  rw [hf]
  have h2 : (1 / 2 : ℚ) ≤ f := le_trans (by norm_num) h1
  have h3 : (10 : ℚ) ≤ 10 ^ e := by
    calc (10 : ℚ) = 10 ^ 1 := by norm_num
      _ ≤ 10 ^ e := pow_le_pow_right₀ (by norm_num) (by omega)
  nlinarith

/-- One rounding step of a number near another one. -/
theorem within_step {u v w r : ℚ} {n : Nat} (hu : 0 < u ∧ u ≤ 1 / 2) (h : Within u n v w) (hc : |r - w| ≤ u * w) : Within u (n + 1) v r := by
  rw [abs_le] at hc
  constructor
  · have := mul_le_mul_of_nonneg_right h.1 (by linarith [hu.2] : (0 : ℚ) ≤ 1 - u)
    rw [pow_succ, ← mul_assoc]
    linarith [hc.1]
  · have := mul_le_mul_of_nonneg_right h.2 (by linarith [hu.1] : (0 : ℚ) ≤ 1 + u)
    rw [pow_succ, ← mul_assoc]
    linarith [hc.2]

/-- The arithmetic of two roundings at the bottom. -/
theorem two_tiny {u D t v a q2 r : ℚ} (hu : 0 < u ∧ u ≤ 1 / 2) (ht : 0 < t) (ha : |a - v| ≤ v * (D - 1)) (hq0 : 0 ≤ q2) (hd : |q2 - a| ≤ t / 5)
    (hr : |r - q2| ≤ max (u * q2) t) (hD : 1 ≤ D) (hv : 0 ≤ v) : |r - v| ≤ v * (D * (1 + u) - 1) + 2 * t := by
  have h1 : |r - q2| ≤ u * q2 + t := le_trans hr (max_le (by linarith) (by nlinarith [hu.1]))
  rw [abs_le] at *
  have h2 : q2 ≤ v * D + t / 5 := by nlinarith [hd.2, ha.2]
  have h3 : u * q2 ≤ u * (v * D) + u * (t / 5) := by rw [← mul_add]; exact mul_le_mul_of_nonneg_left h2 hu.1.le
  have h4 : u * (t / 5) ≤ 1 / 2 * (t / 5) := mul_le_mul_of_nonneg_right hu.2 (by positivity)
  constructor <;> nlinarith [hd.1, hd.2, ha.1, ha.2, h1.1, h1.2]

/-- The double division for exponents below -307. -/
theorem divdiv_near {v w : ℚ} {n : Nat} (k : Nat) (hk : k ≠ 0) (hk8 : k ≤ 308) (hv : 0 ≤ v) (h8 : v ≤ 1797693134 * 10 ^ 299) (h : Within (1 / 2 ^ 53) n v w)
    (hn : n + 8 ≤ 700) :
    ∃ r, ieee.divTable (ieee.divTable (.num w) 307) k = .num r ∧ |r - v / 10 ^ 307 / 10 ^ k| ≤ v / 10 ^ 307 / 10 ^ k / 2 ^ 43 + (2 : ℚ) ^ (-1074 : ℤ) := by
  have hv1 : 0 ≤ v / 10 ^ 307 := by positivity
  have hv2 : 0 ≤ v / 10 ^ 307 / 10 ^ k := by positivity
  have hv8 : v / 10 ^ 307 ≤ 1797693134 * 10 ^ 299 := le_trans (div_le_self hv (by norm_num)) h8
  have hv9 : v / 10 ^ 307 / 10 ^ k ≤ 1797693134 * 10 ^ 299 := le_trans (div_le_self hv1 (one_le_pow₀ (by norm_num))) hv8
  have hw1 := divTable_pre 307 (by omega) hv h
  have hq1 := within_nonneg half_ulp hv1 hw1
  obtain ⟨r1, e1, hr10, hr1⟩ := rnd64_error _ hq1 (within_le hv8 hv1 hw1 (by omega))
  rw [div_ieee w 307 (by omega) (by omega), e1, div_ieee r1 k hk hk8]
  have ht : (2 : ℚ) ^ (-1074 : ℤ) = 2 * (2 : ℚ) ^ (-1075 : ℤ) := by
    rw [show (-1075 : ℤ) = -1074 - 1 by norm_num, zpow_sub₀ (by norm_num)]; ring
  have hp : (0 : ℚ) < (2 : ℚ) ^ (-1075 : ℤ) := by positivity
  rw [ht]
  rcases le_max_iff.mp hr1 with hc | hc
  · have hw2 := within_step half_ulp hw1 hc
    have hw3 := divTable_pre k hk hv1 hw2
    obtain ⟨r, er, hr⟩ := rnd64_near hv9 hv2 hw3 (by omega)
    exact ⟨r, er, le_trans hr (by rw [two_mul, ← add_assoc]; exact le_add_of_nonneg_right hp.le)⟩
  · have hw3 := divTable_pre k hk hv1 hw1
    have hE := entry_ge k hk
    have hE0 := entry_pos k hk
    have hq2 : 0 ≤ r1 / rnd 53 (tableEntry k) := div_nonneg hr10 hE0.le
    have hd : |r1 / rnd 53 (tableEntry k) - w / rnd 53 (tableEntry 307) / rnd 53 (tableEntry k)| ≤ (2 : ℚ) ^ (-1075 : ℤ) / 5 := by
      rw [← sub_div, abs_div, abs_of_pos hE0]
      exact div_le_div₀ hp.le hc (by norm_num) hE
    have hbig : r1 / rnd 53 (tableEntry k) ≤ 1797693134 * 10 ^ 299 * (1 + 1 / 2 ^ 53) ^ 700 := by
      have h1 : r1 ≤ w / rnd 53 (tableEntry 307) + 1 := by
        have := (abs_le.mp hc).2
        have h2 : (2 : ℚ) ^ (-1075 : ℤ) ≤ 1 := by norm_num
        exact sub_le_iff_le_add'.mp (le_trans this h2)
      have h2 : w / rnd 53 (tableEntry 307) ≤ 100 * (1 + 1 / 2 ^ 53) ^ 700 := by
        refine le_trans (within_mono half_ulp hv1 (by omega : n + 2 ≤ 700) hw1).2 (mul_le_mul_of_nonneg_right ?_ (by positivity))
        rw [div_le_iff₀ (by positivity)]
        exact le_trans h8 (by norm_num)
      have h3 : r1 / rnd 53 (tableEntry k) ≤ r1 := div_le_self hr10 (le_trans (by norm_num) hE)
      refine le_trans h3 (le_trans h1 (le_trans (add_le_add_left h2 1) ?_))
      norm_num
    obtain ⟨r, er, _, hr⟩ := rnd64_error _ hq2 hbig
    refine ⟨r, er, ?_⟩
    have := two_tiny half_ulp hp (within_abs hv2 hw3) hq2 hd hr (one_le_pow₀ (by norm_num)) hv2
    rw [← pow_succ] at this
    exact le_trans this (add_le_add_left (pow_bound hv2 (by omega)) _)

theorem pow10_near (x : Int) (hx : x ≠ 0) (hr : -615 ≤ x ∧ x ≤ 308) {n : Nat} {v w : ℚ} (hv : Medium v) (h : Within (1 / 2 ^ 53) n v w) (hn : n + 8 ≤ 700)
    (h8 : v * (10 : ℚ) ^ x ≤ 1797693134 * 10 ^ 299) :
    ∃ r, pow10 ieee doubleMin (.num w) x = ok (.num r) ∧ |r - v * (10 : ℚ) ^ x| ≤ v * (10 : ℚ) ^ x / 2 ^ 43 + (2 : ℚ) ^ (-1074 : ℤ) := by
  have hv0 := hv.nonneg
  have hv8 : v ≤ 1797693134 * 10 ^ 299 := by
    rcases hv with rfl | hv
    · positivity
    · exact hv.2
  have ht : (2 : ℚ) ^ (-1075 : ℤ) ≤ (2 : ℚ) ^ (-1074 : ℤ) := zpow_le_zpow_right₀ (by norm_num) (by norm_num)
  unfold pow10 fract10Size doubleMin
  rw [if_neg (by omega)]
  by_cases h2 : (-307 : ℤ) ≤ x
  · rw [if_pos h2, if_pos (by omega)]
    by_cases h3 : 0 < x
    · rw [if_pos h3]
      obtain ⟨k, rfl⟩ := Int.eq_ofNat_of_zero_le (by omega : 0 ≤ x)
      rw [zpow_natCast] at *
      have e : ieee.mulTable (.num w) ((k : Int).natAbs) = rnd64 (w * rnd 53 (tableEntry k)) := by
        show mul64 (.num w) (rnd64 (tableEntry k)) = _
        rw [table_ieee k (by omega) (by omega)]
        rfl
      obtain ⟨r, er, hr'⟩ := rnd64_near h8 (by positivity) (mulTable_pre k (by omega) hv0 h) (by omega)
      exact ⟨r, by rw [e, er], le_trans hr' (add_le_add_right ht _)⟩
    · rw [if_neg h3]
      obtain ⟨k, hk⟩ := Int.eq_ofNat_of_zero_le (by omega : 0 ≤ -x)
      have hxk : x = -(k : Int) := by omega
      subst hxk
      rw [zpow_neg, zpow_natCast, ← div_eq_mul_inv] at *
      have ek : (-(k : Int)).natAbs = k := by omega
      rw [ek, div_ieee w k (by omega) (by omega)]
      obtain ⟨r, er, hr'⟩ := rnd64_near h8 (by positivity) (divTable_pre k (by omega) hv0 h) (by omega)
      exact ⟨r, by rw [er], le_trans hr' (add_le_add_right ht _)⟩
  · rw [if_neg h2, if_pos (by decide), if_pos (by omega)]
    obtain ⟨k, hk⟩ := Int.eq_ofNat_of_zero_le (by omega : 0 ≤ -x + -307)
    have hxk : x = -((307 + k : Nat) : Int) := by omega
    have e1 : v * (10 : ℚ) ^ x = v / 10 ^ 307 / 10 ^ k := by
      rw [hxk, zpow_neg, zpow_natCast, pow_add, mul_inv, div_eq_mul_inv, div_eq_mul_inv, mul_assoc]
    have e7 : (-(-307 : Int)).toNat = 307 := by decide
    have ek : (-x + -307).toNat = k := by omega
    rw [e7, ek, e1]
    obtain ⟨r, er, hr'⟩ := divdiv_near k (by omega) (by omega) hv0 hv8 h (by omega)
    exact ⟨r, by rw [er], hr'⟩

/-! ## Numbers of ordinary size -/

theorem sig_length (ds : List Byte) (hd : ∀ c ∈ ds, isDigit c) (N : Nat) (h : decVal ds < 10 ^ N) : (skipZeros ds).length ≤ N := by
  obtain ⟨k, k1, k2⟩ := skipZeros_spec ds
  cases hs : skipZeros ds with
  | nil => simp
  | cons c t =>
    have hc : isDigit c := hd c (by rw [k1, hs]; simp)
    have h1 := decVal_ge c t hc (by
      rcases k2 with k2 | ⟨c', t', k2, k3⟩
      · rw [hs] at k2; cases k2
      · rw [hs] at k2; cases k2; exact k3)
    rw [← hs, decVal_skipZeros] at h1
    have : t.length < N := (Nat.pow_lt_pow_iff_right (by omega : 1 < 10)).mp (lt_of_le_of_lt h1 h)
    simp only [List.length_cons]
    omega

theorem mantissa_medium (ip fd : List Byte) (hfd : ∀ c ∈ fd, isDigit c) (h8 : decVal ip < 1797693134 * 10 ^ 299) (hfl : fd.length ≤ 307) :
    Medium ((decVal ip : ℚ) + decVal fd / 10 ^ fd.length) := by
  have hf := decVal_lt fd hfd
  have hd : ((decVal fd : ℚ) / 10 ^ fd.length) ≤ 1 := by
    rw [div_le_one (by positivity)]
    exact_mod_cast hf.le
  have h8' : (decVal ip : ℚ) + 1 ≤ 1797693134 * 10 ^ 299 := by exact_mod_cast h8
  have hm := medium_div (decVal fd) fd.length (le_trans hf.le (le_trans (Nat.pow_le_pow_right (by omega) hfl) (by norm_num))) hfl
  rcases Nat.eq_zero_or_pos (decVal ip) with h0 | h0
  · rw [h0, Nat.cast_zero, zero_add]
    exact hm
  · right
    have h1 : (1 : ℚ) ≤ decVal ip := by exact_mod_cast h0
    have h2 := hm.nonneg
    refine ⟨le_trans (by norm_num : (10 : ℚ) ^ (-307 : ℤ) ≤ 1) (le_trans h1 (le_add_of_nonneg_right h2)), ?_⟩
    exact le_trans (add_le_add_right hd _) h8'

theorem mantissa_ieee (ip fd : List Byte) (hip : ∀ c ∈ ip, isDigit c) (hfd : ∀ c ∈ fd, isDigit c) (h8 : decVal ip < 1797693134 * 10 ^ 299) (hfl : fd.length ≤ 307) :
    ∃ d, mantissa ieee doubleMin ip fd = ok (.num d) ∧ Within (1 / 2 ^ 53) 624 (decVal ip + decVal fd / 10 ^ fd.length) d := by
  have hl := sig_length ip hip 309 (lt_trans h8 (by norm_num))
  have z0 : Within (1 / 2 ^ 53) 0 ((0 : Nat) : ℚ) 0 := by rw [Nat.cast_zero]; exact within_self _ _
  obtain ⟨a, ea, ha⟩ := horner_within 53 half_ulp (skipZeros ip) 0 0 0 le_rfl (within_self _ _)
  rw [zero_mul, zero_add, decVal_skipZeros, zero_add] at ha
  have ea' : horner ieee (skipZeros ip) (.num 0) = .num a := by
    rw [← ea]
    exact horner_ieee (skipZeros ip) 0 0 0 (by rw [decVal_skipZeros]; omega) z0 (by omega)
  unfold mantissa
  by_cases hf : fd = []
  · rw [if_pos hf]
    refine ⟨a, congrArg _ ea', ?_⟩
    subst hf
    have : ((decVal ip : ℚ) + (decVal [] : Nat) / 10 ^ ([] : List Byte).length) = decVal ip := by simp [decVal]
    rw [this]
    exact within_mono half_ulp (Nat.cast_nonneg _) (by omega) ha
  · rw [if_neg hf]
    have hf8 : decVal fd < 10 ^ 307 := lt_of_lt_of_le (decVal_lt fd hfd) (Nat.pow_le_pow_right (by omega) hfl)
    obtain ⟨b, eb, hb⟩ := horner_within 53 half_ulp fd 0 0 0 le_rfl (within_self _ _)
    rw [zero_mul, zero_add, zero_add] at hb
    have hf88 : decVal fd ≤ 1797693134 * 10 ^ 299 := le_trans hf8.le (by norm_num)
    have eb' : horner ieee fd (.num 0) = .num b := by
      rw [← eb]
      exact horner_ieee fd 0 0 0 (by rw [zero_mul, zero_add]; exact hf88) z0 (by omega)
    have hl0 : fd.length ≠ 0 := fun h => hf (List.length_eq_zero_iff.mp h)
    have hm := medium_div (decVal fd) fd.length hf88 hfl
    have ec : pow10 ieee doubleMin (.num b) (-(fd.length : Int)) = ok (.num (rnd 53 (b / rnd 53 (tableEntry fd.length)))) := by
      unfold pow10 fract10Size doubleMin
      rw [if_neg (by omega), if_pos (by omega), if_pos (by omega), if_neg (by omega)]
      have en : (-(fd.length : Int)).natAbs = fd.length := by omega
      rw [en, div_ieee b fd.length hl0 (by omega), rnd64_within hm (divTable_pre fd.length hl0 (Nat.cast_nonneg _) hb) (by omega)]
    have hc := within_rnd 53 half_ulp hm.nonneg (divTable_pre fd.length hl0 (Nat.cast_nonneg _) hb)
    have ez : ieee.zero = .num 0 := rfl
    rw [ez, eb', ec, ok_bind, ea']
    have h1 : Within (1 / 2 ^ 53) 623 (decVal ip : ℚ) a := within_mono half_ulp (Nat.cast_nonneg _) (by omega) ha
    have h2 := within_mono half_ulp hm.nonneg (by omega : _ ≤ 623) hc
    have h3 := within_add h1 h2
    have hm2 : Medium ((decVal ip : ℚ) + decVal fd / 10 ^ fd.length) := mantissa_medium ip fd hfd h8 hfl
    refine ⟨_, ?_, within_rnd 53 half_ulp hm2.nonneg h3⟩
    exact congrArg ok (rnd64_within hm2 h3 (by omega))

/-- **C140.** Every number in the usual notation with an integer below `1.797693134e308` before the point, up to 307 digits behind it and an exponent from -615 to
308, whose value is at most `1.797693134e308` (the largest `double` is less than `1.797693135e308`), is accepted in binary64, and the result is off by at most one part in `2^43` (about nine million million) and the smallest
positive number of the type, `2^-1074`.  Missing: the other numbers up to there, for which this fails, see `C140_overflow` and
`C140_large_exponent`. -/
theorem C140_error_bound_partial (sg : List Byte) (neg : Bool) (ip fp fd ex ed : List Byte) (x : Int) (en : List Byte)
    (hs : Sign sg neg) (hip : ∀ c ∈ ip, isDigit c) (hfp : Fraction fp fd) (hdig : ip ++ fd ≠ []) (hex : Exponent ex ed x) (hed : ex ≠ [] → ed ≠ [])
    (hen : Suffix en) (hil : decVal ip < 1797693134 * 10 ^ 299) (hfl : fd.length ≤ 307) (hx : -615 ≤ x ∧ x ≤ 308)
    (hv : (decVal ip + decVal fd / 10 ^ fd.length) * (10 : ℚ) ^ x ≤ 1797693134 * 10 ^ 299) :
    let v := (decVal ip + decVal fd / 10 ^ fd.length) * (10 : ℚ) ^ x
    ∃ r, realParse ieee doubleMin (sg ++ (ip ++ (fp ++ (ex ++ en)))) = ok (some (withSign neg r)) ∧ |r - v| ≤ v / 2 ^ 43 + (2 : ℚ) ^ (-1074 : ℤ) := by
  intro v
  have hfd : ∀ c ∈ fd, isDigit c := by
    rcases hfp with ⟨_, rfl⟩ | ⟨_, h⟩
    · simp
    · exact h
  have h := realParse_usual ieee doubleMin sg neg ip fp fd ex ed x en hs hip hfp hdig hex hed hen (by omega) (by omega)
  obtain ⟨d, e1, hd⟩ := mantissa_ieee ip fd hip hfd hil hfl
  have hm := mantissa_medium ip fd hfd hil hfl
  have hsc : ∃ r, scaled ieee doubleMin (.num d) x = ok (.num r) ∧ |r - v| ≤ v / 2 ^ 43 + (2 : ℚ) ^ (-1074 : ℤ) := by
    unfold scaled
    by_cases hx0 : x = 0
    · rw [if_neg (by simpa using hx0)]
      refine ⟨d, rfl, ?_⟩
      have e : v = decVal ip + decVal fd / 10 ^ fd.length := by simp only [v]; rw [hx0, zpow_zero, mul_one]
      rw [e]
      have hp : (0 : ℚ) < (2 : ℚ) ^ (-1074 : ℤ) := by positivity
      exact le_trans (within_abs hm.nonneg hd) (le_trans (pow_bound hm.nonneg (by omega)) (le_add_of_nonneg_right hp.le))
    · rw [if_pos hx0]
      exact pow10_near x hx0 hx hm hd (by omega) hv
  obtain ⟨r, e2, hr⟩ := hsc
  refine ⟨r, ?_, hr⟩
  rw [h, e1, ok_bind, e2, ok_bind]
  cases neg <;> rfl

/-- The hypotheses are met at the bottom of the range: `4.9e-324`. -/
example : (decVal [52] + decVal [57] / 10 ^ ([57] : List Byte).length) * (10 : ℚ) ^ (-324 : ℤ) ≤ 10 ^ 308 ∧
    Exponent [101, 45, 51, 50, 52] [51, 50, 52] (-324) := by
  have e4 : decVal [52] = 4 := by decide
  have e9 : decVal [57] = 9 := by decide
  rw [e4, e9]
  refine ⟨by norm_num, ?_⟩
  right
  exact ⟨101, [45], true, Or.inl rfl, Or.inr (Or.inr ⟨rfl, rfl⟩), by decide, rfl, by decide⟩

/-- The digits of an integer of up to 53 bits give the integer. -/
theorem horner_ieee_exact (ip : List Byte) (hip : ∀ c ∈ ip, isDigit c) (hv : decVal ip ≤ 2 ^ 53) : horner ieee (skipZeros ip) (.num 0) = .num (decVal ip) := by
  have hl := sig_length ip hip 16 (lt_of_le_of_lt hv (by norm_num))
  have z0 : Within (1 / 2 ^ 53) 0 ((0 : Nat) : ℚ) 0 := by rw [Nat.cast_zero]; exact within_self _ _
  rw [horner_ieee (skipZeros ip) 0 0 0 (by rw [decVal_skipZeros, zero_mul, zero_add]; exact le_trans hv (by norm_num)) z0 (by omega)]
  have := horner_rounded0 53 (by omega) (skipZeros ip) (by rw [decVal_skipZeros]; exact hv)
  rw [decVal_skipZeros] at this
  exact this

/-- **C140**: an integer of at most 53 bits is converted exactly. -/
theorem C140_integer_exact (m : Int) (sg : List Byte) (neg : Bool) (ip en : List Byte) (hs : Sign sg neg)
    (hip : ∀ c ∈ ip, isDigit c) (hne : ip ≠ []) (hen : Suffix en) (hv : decVal ip ≤ 2 ^ 53) :
    realParse ieee m (sg ++ (ip ++ en)) = ok (some (withSign neg (decVal ip))) := by
  have h := realParse_usual ieee m sg neg ip [] [] [] [] 0 en hs hip (Or.inl ⟨rfl, rfl⟩) (by simpa using hne) (Or.inl ⟨rfl, rfl, rfl⟩)
    (by simp) hen (by simp) (by omega)
  simp only [List.nil_append] at h
  have e : ieee.zero = .num 0 := rfl
  rw [h, mantissa, if_pos rfl, ok_bind, scaled, if_neg (by simp), ok_bind, e, horner_ieee_exact ip hip hv]
  cases neg <;> rfl

theorem realParse_scaled (sg : List Byte) (neg : Bool) (ip ex ed en : List Byte) (x : Int)
    (hs : Sign sg neg) (hip : ∀ c ∈ ip, isDigit c) (hne : ip ≠ []) (hex : Exponent ex ed x) (hed : ex ≠ [] → ed ≠ []) (hen : Suffix en)
    (hv : decVal ip ≤ 2 ^ 53) (hx : x.natAbs ≤ 22) :
    realParse ieee doubleMin (sg ++ (ip ++ (ex ++ en))) = ok (some (withSign neg (rnd 53 (decVal ip * (10 : ℚ) ^ x)))) := by
  have h := realParse_usual ieee doubleMin sg neg ip [] [] ex ed x en hs hip (Or.inl ⟨rfl, rfl⟩) (by simpa using hne) hex hed hen (by simp)
    (by omega)
  simp only [List.nil_append] at h
  have ez : ieee.zero = .num 0 := rfl
  rw [h, mantissa, if_pos rfl, ok_bind, ez, horner_ieee_exact ip hip hv]
  have hsc : scaled ieee doubleMin (.num (decVal ip)) x = ok (.num (rnd 53 (decVal ip * (10 : ℚ) ^ x))) := by
    unfold scaled
    by_cases h0 : x = 0
    · subst h0
      rw [if_neg (by simp), zpow_zero, mul_one, rnd_exact 53 (by omega) _ (by
        have := rep_int 53 (decVal ip : ℤ) (by rw [abs_of_nonneg (by omega)]; exact_mod_cast hv)
        exact_mod_cast this)]
    · have h5 : 5 ^ x.natAbs ≤ 2 ^ 53 := le_trans (Nat.pow_le_pow_right (by omega) hx) (by norm_num)
      rw [if_pos h0, ← pow10_rounded 53 (by omega) x h0 (by omega) h5]
      unfold pow10 fract10Size doubleMin
      have c1 : ¬ x = -2 ^ 31 := by omega
      have c2 : -307 ≤ x := by omega
      have c3 : x.natAbs < 309 := by omega
      simp only [if_neg c1, if_pos c2, if_pos c3]
      have hl : decVal ip ≤ 1797693134 * 10 ^ 299 := le_trans hv (by norm_num)
      have hw : Within (1 / 2 ^ 53) 0 (decVal ip : ℚ) (decVal ip) := within_self _ _
      by_cases hp : 0 < x
      · rw [if_pos hp, if_pos hp, mulTable_ieee x.natAbs (by omega) (by omega) (Nat.cast_nonneg _) hw (by omega)]
        have := medium_nat (decVal ip * 10 ^ x.natAbs) (le_trans (Nat.mul_le_mul hv (Nat.pow_le_pow_right (by omega) hx)) (by norm_num))
        push_cast at this
        exact this
      · rw [if_neg hp, if_neg hp, divTable_ieee x.natAbs (by omega) (by omega) (Nat.cast_nonneg _) hw (by omega) (medium_div _ _ hl (by omega))]
  rw [hsc, ok_bind]
  cases neg <;> rfl

/-- **C140**: an integer of at most 53 bits with an exponent from -22 to 22 is converted to a nearest number of 53 bits. -/
theorem C140_correctly_rounded (sg : List Byte) (neg : Bool) (ip ex ed en : List Byte) (x : Int)
    (hs : Sign sg neg) (hip : ∀ c ∈ ip, isDigit c) (hne : ip ≠ []) (hex : Exponent ex ed x) (hed : ex ≠ [] → ed ≠ []) (hen : Suffix en)
    (hv : decVal ip ≤ 2 ^ 53) (hx : x.natAbs ≤ 22) :
    ∃ r, Nearest 53 (decVal ip * (10 : ℚ) ^ x) r ∧ realParse ieee doubleMin (sg ++ (ip ++ (ex ++ en))) = ok (some (withSign neg r)) :=
  ⟨_, rnd_nearest 53 (by omega) _, realParse_scaled sg neg ip ex ed en x hs hip hne hex hed hen hv hx⟩

/-! ## Too many digits -/

theorem step_inf (c : Nat) : ieee.step (.inf false) c = .inf false := by
  show add64 (mul64 (.inf false) (.num 10)) (.num c) = _
  have : mul64 (.inf false) (.num 10) = .inf false := by simp [mul64]
  rw [this]
  rfl

theorem horner_inf (ds : List Byte) : horner ieee ds (.inf false) = .inf false := by
  induction ds with
  | nil => rfl
  | cons c ds ih =>
    show horner ieee ds (ieee.step (.inf false) (c.toNat - 48)) = _
    rw [step_inf, ih]

/-- Rounding a non-negative number that is near an integer: to 53 bits, or infinite. -/
theorem rnd64_nat {v : Nat} {w : ℚ} {k : Nat} (h : Within (1 / 2 ^ 53) k v w) (hk : k ≤ 700) :
    (rnd64 w = .num (rnd 53 w) ∧ |rnd 53 w| < 2 ^ 1024) ∨ rnd64 w = .inf false := by
  have hw := within_nonneg half_ulp (Nat.cast_nonneg v) h
  have h0 : w = 0 ∨ (2 : ℚ) ^ (-1022 : ℤ) ≤ |w| := by
    rcases Nat.eq_zero_or_pos v with rfl | hp
    · left
      have h1 := h.1; have h2 := h.2
      rw [Nat.cast_zero, zero_mul] at h1 h2
      exact le_antisymm h2 h1
    · right
      rw [abs_of_nonneg hw]
      refine le_trans ?_ (within_mono half_ulp (Nat.cast_nonneg v) hk h).1
      have h1 : (1 : ℚ) ≤ v := by exact_mod_cast hp
      calc (2 : ℚ) ^ (-1022 : ℤ) ≤ 1 * (1 - 1 / 2 ^ 53) ^ 700 := by norm_num
        _ ≤ _ := mul_le_mul_of_nonneg_right h1 (pow_nonneg (by norm_num) _)
  rw [rnd64_eq w h0]
  by_cases hc : |rnd 53 w| < 2 ^ 1024
  · left; exact ⟨by rw [if_pos hc], hc⟩
  · right
    rw [if_neg hc]
    have : ¬ w < 0 := not_lt.mpr hw
    simp [this]

/-- Digits whose value reaches `10^309` give infinity. -/
theorem horner_overflow (ds : List Byte) : ∀ (j v : Nat) (w : ℚ), 10 ^ j ≤ v * 10 → v < 10 ^ 309 → Within (1 / 2 ^ 53) (2 * j) v w →
    10 ^ 309 ≤ v * 10 ^ ds.length + decVal ds → horner ieee ds (.num w) = .inf false := by
  induction ds with
  | nil =>
    intro j v w _ h1 _ h2
    rw [List.length_nil, pow_zero, mul_one] at h2
    simp only [decVal, List.foldl_nil] at h2
    omega
  | cons c ds ih =>
    intro j v w hj hv h hbig
    have hj2 : j < 310 := by
      refine (Nat.pow_lt_pow_iff_right (by omega : 1 < 10)).mp (lt_of_le_of_lt hj ?_)
      rw [show (10 : Nat) ^ 310 = 10 ^ 309 * 10 by rw [← pow_succ]]
      omega
    have e : v * 10 ^ (ds.length + 1) + decVal (c :: ds) = (v * 10 + (c.toNat - 48)) * 10 ^ ds.length + decVal ds := by rw [decVal_cons]; ring
    rw [List.length_cons, e] at hbig
    show horner ieee ds (add64 (rnd64 (w * 10)) (.num ((c.toNat - 48 : Nat) : ℚ))) = _
    have h1 : Within (1 / 2 ^ 53) (2 * j) ((v * 10 : Nat) : ℚ) (w * 10) := by
      have := within_scale (by norm_num : (0 : ℚ) ≤ 10) h
      push_cast
      exact this
    rcases rnd64_nat h1 (by omega) with ⟨a, _⟩ | a
    · rw [a]
      have h3 := within_rnd 53 half_ulp (Nat.cast_nonneg (v * 10)) h1
      have h4 : Within (1 / 2 ^ 53) (2 * j + 1) ((c.toNat - 48 : Nat) : ℚ) ((c.toNat - 48 : Nat) : ℚ) :=
        within_mono half_ulp (Nat.cast_nonneg _) (Nat.zero_le _) (within_self _ _)
      have h5 := within_add h3 h4
      rw [← Nat.cast_add] at h5
      show horner ieee ds (rnd64 (rnd 53 (w * 10) + ((c.toNat - 48 : Nat) : ℚ))) = _
      rcases rnd64_nat h5 (by omega) with ⟨b, hb⟩ | b
      · rw [b]
        have h6 := within_rnd 53 half_ulp (Nat.cast_nonneg (v * 10 + (c.toNat - 48))) h5
        have hlt : v * 10 + (c.toNat - 48) < 10 ^ 309 := by
          by_contra hge
          rw [not_lt] at hge
          have h7 : (10 : ℚ) ^ 309 ≤ ((v * 10 + (c.toNat - 48) : Nat) : ℚ) := by exact_mod_cast hge
          have h8 := (within_mono half_ulp (Nat.cast_nonneg _) (by omega : 2 * j + 1 + 1 ≤ 700) h6).1
          have h9 : (2 : ℚ) ^ 1024 ≤ rnd 53 (rnd 53 (w * 10) + ((c.toNat - 48 : Nat) : ℚ)) := by
            refine le_trans ?_ h8
            calc (2 : ℚ) ^ 1024 ≤ 10 ^ 309 * (1 - 1 / 2 ^ 53) ^ 700 := by norm_num
              _ ≤ _ := mul_le_mul_of_nonneg_right h7 (pow_nonneg (by norm_num) _)
          exact absurd (lt_of_le_of_lt (le_trans h9 (le_abs_self _)) hb) (lt_irrefl _)
        exact ih (j + 1) _ _ (by rw [pow_succ]; omega) hlt h6 hbig
      · rw [b, horner_inf]
    · rw [a]
      exact horner_inf ds

theorem horner_zeros (ds : List Byte) (h : decVal ds = 0) : horner ieee ds (.num 0) = .num 0 := by
  induction ds with
  | nil => rfl
  | cons c ds ih =>
    rw [decVal_cons] at h
    have h1 : c.toNat - 48 = 0 := by
      by_contra hc
      have : 0 < (c.toNat - 48) * 10 ^ ds.length := by positivity
      omega
    show horner ieee ds (add64 (rnd64 (0 * 10)) (.num ((c.toNat - 48 : Nat) : ℚ))) = _
    have z : rnd64 0 = .num 0 := by
      rw [rnd64_eq 0 (Or.inl rfl)]
      simp [rnd]
    rw [h1, zero_mul, z]
    show horner ieee ds (rnd64 (0 + ((0 : Nat) : ℚ))) = _
    rw [Nat.cast_zero, add_zero, z]
    exact ih (by omega)

/-- The digits as a whole, with leading zeros. -/
theorem horner_many (ds : List Byte) (hd : ∀ c ∈ ds, isDigit c) (h : 10 ^ 309 ≤ decVal ds) : horner ieee ds (.num 0) = .inf false := by
  obtain ⟨k, k1, k2⟩ := skipZeros_spec ds
  have hsk : decVal (skipZeros ds) = decVal ds := decVal_skipZeros ds
  rcases k2 with k2 | ⟨c, t, k2, k3⟩
  · rw [k2] at hsk
    simp only [decVal, List.foldl_nil] at hsk h
    omega
  · rw [k1]
    have e : horner ieee (List.replicate k 48 ++ skipZeros ds) (.num 0) = horner ieee (skipZeros ds) (horner ieee (List.replicate k 48) (.num 0)) := by
      unfold horner
      rw [List.foldl_append]
    rw [e, horner_zeros _ (decVal_zeros k), k2]
    have hc : isDigit c := hd c (by rw [k1, k2]; simp)
    have h1 : 1 ≤ c.toNat - 48 := by
      have h2 := hc.1
      have h3 : c.toNat ≠ 48 := fun h => k3 (BitVec.eq_of_toNat_eq (by simpa using h))
      omega
    have h9 : c.toNat - 48 ≤ 9 := by
      have := hc.2
      omega
    have s1 := step_ieee (v := 0) (w := 0) (k := 0) (c.toNat - 48) (by rw [zero_mul, zero_add]; exact le_trans h9 (by norm_num))
      (by rw [Nat.cast_zero]; exact within_self _ _) (by omega)
    show horner ieee t (ieee.step (.num 0) (c.toNat - 48)) = _
    rw [s1]
    obtain ⟨r, er, hr⟩ := horner_within 53 half_ulp [c] 0 0 0 le_rfl (within_self _ _)
    have er' : (rounded 53).step (.num 0) (c.toNat - 48) = .num r := er
    rw [er']
    refine horner_overflow t 1 (c.toNat - 48) r (by omega) (lt_of_le_of_lt h9 (by norm_num)) ?_ ?_
    · simpa [decVal] using hr
    · rw [← decVal_cons, ← k2, hsk]
      exact h

/-- A number that is not negative, or plus infinity. -/
def Plus (v : Val) : Prop := (∃ q, 0 ≤ q ∧ v = .num q) ∨ v = .inf false

theorem rnd64_plus (q : ℚ) (hq : 0 ≤ q) : Plus (rnd64 q) := by
  unfold rnd64
  simp only
  split
  · left
    refine ⟨_, ?_, rfl⟩
    have hpos : (0 : ℚ) < 2 ^ lastPlace q := by positivity
    have : (0 : ℤ) ≤ rne (q / 2 ^ lastPlace q) := by
      apply (rne_mono_int _ _).1
      simpa using div_nonneg hq hpos.le
    exact mul_nonneg (by exact_mod_cast this) hpos.le
  · right
    have : ¬ q < 0 := not_lt.mpr hq
    simp [this]

theorem step_plus {v : Val} (h : Plus v) (c : Nat) : Plus (ieee.step v c) := by
  rcases h with ⟨q, hq, rfl⟩ | rfl
  · show Plus (add64 (rnd64 (q * 10)) (.num c))
    rcases rnd64_plus (q * 10) (mul_nonneg hq (by norm_num)) with ⟨r, hr, e⟩ | e
    · rw [e]
      exact rnd64_plus _ (add_nonneg hr (Nat.cast_nonneg c))
    · rw [e]; right; rfl
  · rw [step_inf]; right; rfl

theorem horner_plus (ds : List Byte) : ∀ v, Plus v → Plus (horner ieee ds v) := by
  induction ds with
  | nil => intro v h; exact h
  | cons c ds ih => intro v h; exact ih _ (step_plus h _)

theorem div_inf (e : Nat) (he : e ≠ 0) (h8 : e ≤ 308) : ieee.divTable (.inf false) e = .inf false := by
  show div64 (.inf false) (rnd64 (tableEntry e)) = _
  rw [table_ieee e he h8]
  have : ¬ rnd 53 (tableEntry e) < 0 := not_lt.mpr (entry_pos e he).le
  simp [div64, this]

theorem div_plus {v : Val} (h : Plus v) (e : Nat) (he : e ≠ 0) (h8 : e ≤ 308) : Plus (ieee.divTable v e) := by
  rcases h with ⟨q, hq, rfl⟩ | rfl
  · rw [div_ieee q e he h8]
    exact rnd64_plus _ (div_nonneg hq (entry_pos e he).le)
  · rw [div_inf e he h8]; right; rfl

theorem rnd64_big (q : ℚ) (hq : 2 ^ 1025 ≤ q) : rnd64 q = .inf false := by
  have hq0 : 0 ≤ q := le_trans (by positivity) hq
  rw [rnd64_eq]
  · have h1 := (rnd_factor 53 q hq0).1
    have h2 : (2 : ℚ) ^ 1024 ≤ rnd 53 q := by
      refine le_trans ?_ h1
      calc (2 : ℚ) ^ 1024 ≤ 2 ^ 1025 * (1 - 1 / 2 ^ 53) := by norm_num
        _ ≤ _ := mul_le_mul_of_nonneg_right hq (by norm_num)
    rw [if_neg (not_lt.mpr (le_trans h2 (le_abs_self _)))]
    have : ¬ q < 0 := not_lt.mpr hq0
    simp [this]
  · right
    rw [abs_of_nonneg hq0]
    exact le_trans (by norm_num) hq

/-- The factor of the exponents from 309 on is infinite. -/
theorem mulPow_factor (x : Int) (h : 309 ≤ x) : rnd64 ((10 : ℚ) ^ (10 * x)) = .inf false := by
  apply rnd64_big
  calc (2 : ℚ) ^ 1025 ≤ 10 ^ 309 := by norm_num
    _ = (10 : ℚ) ^ (309 : ℤ) := by norm_cast
    _ ≤ _ := zpow_le_zpow_right₀ (by norm_num) (by omega)

theorem pow10_inf (x : Int) (hx : x ≠ 0) (hr : -615 ≤ x) : pow10 ieee doubleMin (.inf false) x = ok (.inf false) := by
  unfold pow10 fract10Size doubleMin
  rw [if_neg (by omega)]
  by_cases h2 : (-307 : ℤ) ≤ x
  · rw [if_pos h2]
    by_cases h3 : x.natAbs < 309
    · rw [if_pos h3]
      by_cases h4 : 0 < x
      · rw [if_pos h4]
        have : ieee.mulTable (.inf false) x.natAbs = .inf false := by
          show mul64 (.inf false) (rnd64 (tableEntry x.natAbs)) = _
          rw [table_ieee _ (by omega) (by omega)]
          have h5 := entry_pos x.natAbs (by omega)
          have h6 : ¬ rnd 53 (tableEntry x.natAbs) < 0 := not_lt.mpr h5.le
          simp [mul64, h5.ne', h6]
        rw [this]
      · rw [if_neg h4, div_inf _ (by omega) (by omega)]
    · rw [if_neg h3]
      have : ieee.mulPow (.inf false) x = .inf false := by
        show mul64 (.inf false) (rnd64 ((10 : ℚ) ^ (10 * x))) = _
        rw [mulPow_factor x (by omega)]
        rfl
      rw [this]
  · rw [if_neg h2, if_pos (by decide), if_pos (by omega), div_inf _ (by decide) (by decide), div_inf _ (by omega) (by omega)]

theorem pow10_plus {v : Val} (hv : Plus v) (x : Int) (hx : x < 0) (hr : -615 ≤ x) : ∃ r, pow10 ieee doubleMin v x = ok r ∧ Plus r := by
  unfold pow10 fract10Size doubleMin
  rw [if_neg (by omega)]
  by_cases h2 : (-307 : ℤ) ≤ x
  · rw [if_pos h2, if_pos (by omega), if_neg (by omega)]
    exact ⟨_, rfl, div_plus hv _ (by omega) (by omega)⟩
  · rw [if_neg h2, if_pos (by decide), if_pos (by omega)]
    exact ⟨_, rfl, div_plus (div_plus hv _ (by decide) (by decide)) _ (by omega) (by omega)⟩

/-- **C140** is false of numbers with many digits: if the digits before the point are worth `10^309` or more, or the digits behind the point, read as an integer, are,
the result is infinite, whatever the exponent and the value of the number. -/
theorem C140_overflow (sg : List Byte) (neg : Bool) (ip fp fd ex ed : List Byte) (x : Int) (en : List Byte)
    (hs : Sign sg neg) (hip : ∀ c ∈ ip, isDigit c) (hfp : Fraction fp fd) (hex : Exponent ex ed x) (hed : ex ≠ [] → ed ≠ [])
    (hen : Suffix en) (hbig : 10 ^ 309 ≤ decVal ip ∨ 10 ^ 309 ≤ decVal fd) (hfl : fd.length ≤ 615) (hx : -615 ≤ x ∧ x < 1000) :
    realParse ieee doubleMin (sg ++ (ip ++ (fp ++ (ex ++ en)))) = ok (some (.inf neg)) := by
  have hfd : ∀ c ∈ fd, isDigit c := by
    rcases hfp with ⟨_, rfl⟩ | ⟨_, h⟩
    · simp
    · exact h
  have hdig : ip ++ fd ≠ [] := by
    intro h0
    obtain ⟨rfl, rfl⟩ := List.append_eq_nil_iff.mp h0
    simp only [decVal, List.foldl_nil] at hbig
    omega
  have h := realParse_usual ieee doubleMin sg neg ip fp fd ex ed x en hs hip hfp hdig hex hed hen (by omega) (by omega)
  have z0 : Plus (.num 0) := Or.inl ⟨0, le_rfl, rfl⟩
  have hz : ∀ c ∈ skipZeros ip, isDigit c := by
    obtain ⟨k, k1, _⟩ := skipZeros_spec ip
    intro c hc
    exact hip c (by rw [k1]; exact List.mem_append_right _ hc)
  have hm : mantissa ieee doubleMin ip fd = ok (.inf false) := by
    unfold mantissa
    have ez : ieee.zero = .num 0 := rfl
    by_cases hf : fd = []
    · rw [if_pos hf, ez]
      have hb : 10 ^ 309 ≤ decVal (skipZeros ip) := by
        rw [decVal_skipZeros]
        rcases hbig with hb | hb
        · exact hb
        · rw [hf] at hb
          simp only [decVal, List.foldl_nil] at hb
          omega
      rw [horner_many _ hz hb]
    · rw [if_neg hf, ez]
      have hl0 : fd.length ≠ 0 := fun h => hf (List.length_eq_zero_iff.mp h)
      rcases hbig with hb | hb
      · obtain ⟨r, er, hr⟩ := pow10_plus (horner_plus fd _ z0) (-(fd.length : Int)) (by omega) (by omega)
        rw [er, ok_bind, horner_many _ hz (by rw [decVal_skipZeros]; exact hb)]
        rcases hr with ⟨q, _, rfl⟩ | rfl <;> rfl
      · rw [horner_many fd hfd hb, pow10_inf _ (by omega) (by omega), ok_bind]
        rcases horner_plus (skipZeros ip) _ z0 with ⟨q, _, e⟩ | e <;> rw [e] <;> rfl
  have hsc : scaled ieee doubleMin (.inf false) x = ok (.inf false) := by
    unfold scaled
    by_cases hx0 : x = 0
    · rw [if_neg (by simpa using hx0)]
    · rw [if_pos hx0, pow10_inf x hx0 hx.1]
  rw [h, hm, ok_bind, hsc, ok_bind]
  cases neg <;> rfl

/-- `0.` and 310 ones, about a ninth, is infinite. -/
example : realParse ieee doubleMin ([] ++ ([48] ++ ((46 :: List.replicate 310 49) ++ ([] ++ [])))) = ok (some (.inf false)) := by
  have hd : ∀ c ∈ List.replicate 310 (49 : Byte), isDigit c := by
    intro c hc
    rw [(List.mem_replicate.mp hc).2]
    decide
  have hv : ∀ k, 10 ^ k ≤ decVal (List.replicate (k + 1) (49 : Byte)) := by
    intro k
    have := decVal_ge 49 (List.replicate k 49) (by decide) (by decide)
    rwa [List.length_replicate, ← List.replicate_succ] at this
  exact C140_overflow [] false [48] (46 :: List.replicate 310 49) (List.replicate 310 49) [] [] 0 [] (Or.inl ⟨rfl, rfl⟩) (by decide)
    (Or.inr ⟨rfl, hd⟩) (Or.inl ⟨rfl, rfl, rfl⟩) (by simp) (Or.inl rfl) (Or.inr (hv 309)) (by rw [List.length_replicate]; omega) (by omega)

theorem within_zero {w : ℚ} {n : Nat} (h : Within (1 / 2 ^ 53) n 0 w) : w = 0 := by
  have h1 := h.1; have h2 := h.2
  rw [zero_mul] at h1 h2
  exact le_antisymm h2 h1

theorem pow10_large (x : Int) (hx : 309 ≤ x) (d : ℚ) : pow10 ieee doubleMin (.num d) x = ok (if d = 0 then .nan else .inf (decide (d < 0))) := by
  unfold pow10 fract10Size doubleMin
  rw [if_neg (by omega), if_pos (by omega), if_neg (by omega)]
  have : ieee.mulPow (.num d) x = if d = 0 then .nan else .inf (decide (d < 0)) := by
    show mul64 (.num d) (rnd64 ((10 : ℚ) ^ (10 * x))) = _
    rw [mulPow_factor x hx]
    simp [mul64]
  rw [this]

/-- **C140** is false of exponents from 309 on: a number that is not zero is read as infinity (`0.001e310` is `10^307`) ... -/
theorem C140_large_exponent (sg : List Byte) (neg : Bool) (ip fp fd ex ed : List Byte) (x : Int) (en : List Byte)
    (hs : Sign sg neg) (hip : ∀ c ∈ ip, isDigit c) (hfp : Fraction fp fd) (hex : Exponent ex ed x) (hed : ex ≠ [] → ed ≠ [])
    (hen : Suffix en) (hil : decVal ip < 1797693134 * 10 ^ 299) (hfl : fd.length ≤ 307) (hx : 309 ≤ x) (hx4 : x < 1000 ∨ (en = [] ∧ x < 10000)) (hne : decVal ip ≠ 0 ∨ decVal fd ≠ 0) :
    realParse ieee doubleMin (sg ++ (ip ++ (fp ++ (ex ++ en)))) = ok (some (.inf neg)) := by
  have hfd : ∀ c ∈ fd, isDigit c := by
    rcases hfp with ⟨_, rfl⟩ | ⟨_, h⟩
    · simp
    · exact h
  have hdig : ip ++ fd ≠ [] := by
    intro h0
    obtain ⟨rfl, rfl⟩ := List.append_eq_nil_iff.mp h0
    simp [decVal] at hne
  have h := realParse_usual4 ieee doubleMin sg neg ip fp fd ex ed x en hs hip hfp hdig hex hed hen (by omega)
    (hx4.imp (fun h => ⟨by omega, h⟩) (fun h => ⟨h.1, by omega, h.2⟩))
  obtain ⟨d, e1, hd⟩ := mantissa_ieee ip fd hip hfd hil hfl
  have hv : (0 : ℚ) < decVal ip + decVal fd / 10 ^ fd.length := by
    rcases hne with h0 | h0
    · have : (0 : ℚ) < decVal ip := by exact_mod_cast Nat.pos_of_ne_zero h0
      positivity
    · have : (0 : ℚ) < decVal fd := by exact_mod_cast Nat.pos_of_ne_zero h0
      positivity
  have hd0 : 0 < d := lt_of_lt_of_le (mul_pos hv (pow_pos (by norm_num) _)) hd.1
  have h1 : ¬ d < 0 := not_lt.mpr hd0.le
  rw [h, e1, ok_bind]
  unfold scaled
  rw [if_pos (by omega), pow10_large x hx, if_neg hd0.ne', ok_bind]
  cases neg <;> simp [h1, ieee]

/-- ... and zero is read as not-a-number. -/
theorem C140_zero_large_exponent (sg : List Byte) (neg : Bool) (ip fp fd ex ed : List Byte) (x : Int) (en : List Byte)
    (hs : Sign sg neg) (hip : ∀ c ∈ ip, isDigit c) (hfp : Fraction fp fd) (hdig : ip ++ fd ≠ []) (hex : Exponent ex ed x) (hed : ex ≠ [] → ed ≠ [])
    (hen : Suffix en) (hfl : fd.length ≤ 307) (hx : 309 ≤ x) (hx4 : x < 1000 ∨ (en = [] ∧ x < 10000)) (h0 : decVal ip = 0 ∧ decVal fd = 0) :
    realParse ieee doubleMin (sg ++ (ip ++ (fp ++ (ex ++ en)))) = ok (some .nan) := by
  have hfd : ∀ c ∈ fd, isDigit c := by
    rcases hfp with ⟨_, rfl⟩ | ⟨_, h⟩
    · simp
    · exact h
  have h := realParse_usual4 ieee doubleMin sg neg ip fp fd ex ed x en hs hip hfp hdig hex hed hen (by omega)
    (hx4.imp (fun h => ⟨by omega, h⟩) (fun h => ⟨h.1, by omega, h.2⟩))
  obtain ⟨d, e1, hd⟩ := mantissa_ieee ip fd hip hfd (by rw [h0.1]; positivity) hfl
  rw [h0.1, h0.2, Nat.cast_zero, zero_div, add_zero] at hd
  rw [h, e1, ok_bind, within_zero hd]
  unfold scaled
  rw [if_pos (by omega), pow10_large x hx, if_pos rfl, ok_bind]
  cases neg <;> rfl

/-- `0.001e310`. -/
example : realParse ieee doubleMin [48, 46, 48, 48, 49, 101, 51, 49, 48] = ok (some (.inf false)) := by
  have e : (49 : Byte) ≠ 48 := by decide
  exact C140_large_exponent [] false [48] [46, 48, 48, 49] [48, 48, 49] [101, 51, 49, 48] [51, 49, 48] 310 [] (Or.inl ⟨rfl, rfl⟩) (by decide)
    (Or.inr ⟨rfl, by decide⟩) (Or.inr ⟨101, [], false, Or.inl rfl, Or.inl ⟨rfl, rfl⟩, by decide, rfl, by decide⟩) (by simp) (Or.inl rfl)
    (by have : decVal [48] = 0 := by decide
        rw [this]; positivity) (by simp) (by omega) (by omega) (Or.inr (by decide))

/-- `1e2000`. -/
example : realParse ieee doubleMin [49, 101, 50, 48, 48, 48] = ok (some (.inf false)) :=
  C140_large_exponent [] false [49] [] [] [101, 50, 48, 48, 48] [50, 48, 48, 48] 2000 [] (Or.inl ⟨rfl, rfl⟩) (by decide)
    (Or.inl ⟨rfl, rfl⟩) (Or.inr ⟨101, [], false, Or.inl rfl, Or.inl ⟨rfl, rfl⟩, by decide, rfl, by decide⟩) (by simp) (Or.inl rfl)
    (by have : decVal [49] = 1 := by decide
        rw [this]; norm_num) (by simp) (by omega) (Or.inr ⟨rfl, by omega⟩) (Or.inl (by decide))

/-- `0e309`. -/
example : realParse ieee doubleMin [48, 101, 51, 48, 57] = ok (some .nan) :=
  C140_zero_large_exponent [] false [48] [] [] [101, 51, 48, 57] [51, 48, 57] 309 [] (Or.inl ⟨rfl, rfl⟩) (by decide)
    (Or.inl ⟨rfl, rfl⟩) (by simp) (Or.inr ⟨101, [], false, Or.inl rfl, Or.inl ⟨rfl, rfl⟩, by decide, rfl, by decide⟩) (by simp) (Or.inl rfl)
    (by simp) (by omega) (by omega) ⟨by decide, rfl⟩

example := C140_integer_exact doubleMin [45] true [49, 50] [] (by simp [Sign]) (by decide) (by simp) (Or.inl rfl) (by decide)

example := C140_correctly_rounded [] false [53] [101, 45, 50, 50] [50, 50] [] (-22) (by simp [Sign]) (by decide) (by simp)
  (Or.inr ⟨101, [45], true, by simp, by simp [Sign], by decide, rfl, by decide⟩) (by simp) (Or.inl rfl) (by decide) (by decide)

end Strtk.Real
