import Verif.Real.DecimalIeee

/-!
# C184: the conversion to `long double` (x87 extended precision)

`real_t` is `long double` (287-289), its smallest decimal exponent -4931.  The table of powers of ten (16784-16818) and `std::pow(10.0, 10.0 * exponent)` (16834)
are of type `double` all the same.  Zeros have no sign.  `std::pow` is taken to be correctly rounded.
-/

namespace Strtk.Real
open Outcome Mem Number

set_option exponentiation.threshold 20000

/-- The exponent of the last place: 64 significant bits, but nothing below `2^-16445`. -/
def lastPlace80 (q : ℚ) : ℤ := max (Int.log 2 |q| - 63) (-16445)

/-- Rounding to extended precision, to nearest, ties to even; from `2^16384` on the result is infinite. -/
def rnd80 (q : ℚ) : Val :=
  let r : ℚ := rne (q / 2 ^ lastPlace80 q) * 2 ^ lastPlace80 q
  if |r| < 2 ^ 16384 then .num r else .inf (decide (q < 0))

/-- Multiplication. -/
def mul80 : Val → Val → Val
  | .num a, .num b => rnd80 (a * b)
  | .num a, .inf s => if a = 0 then .nan else .inf (s != decide (a < 0))
  | .inf s, .num a => if a = 0 then .nan else .inf (s != decide (a < 0))
  | .inf s, .inf t => .inf (s != t)
  | _, _ => .nan

/-- Division. -/
def div80 : Val → Val → Val
  | .num a, .num b => if b = 0 then if a = 0 then .nan else .inf (decide (a < 0)) else rnd80 (a / b)
  | .num _, .inf _ => .num 0
  | .inf s, .num a => .inf (s != decide (a < 0))
  | _, _ => .nan

/-- Addition. -/
def add80 : Val → Val → Val
  | .num a, .num b => rnd80 (a + b)
  | .num _, .inf s => .inf s
  | .inf s, .num _ => .inf s
  | .inf s, .inf t => if s = t then .inf s else .nan
  | _, _ => .nan

/-- The arithmetic of `long double` used by the conversion (16781-16841, 17646-17701, 17775); the table and the power are `double`. -/
def extended : Ops Val where
  zero := .num 0
  step d n := add80 (mul80 d (.num 10)) (.num n)
  add := add80
  neg x := match x with
    | .num q => .num (-q)
    | .inf b => .inf (!b)
    | .nan => .nan
  mulTable d e := mul80 d (rnd64 (tableEntry e))
  divTable d e := div80 d (rnd64 (tableEntry e))
  mulPow d x := mul80 d (rnd64 ((10 : ℚ) ^ (10 * x)))
  inf := .inf false
  nan := .nan

/-! ## Rounding -/

/-- In the normal range extended precision is rounding to 64 bits. -/
theorem rnd80_eq (q : ℚ) (h0 : q = 0 ∨ (2 : ℚ) ^ (-16382 : ℤ) ≤ |q|) : rnd80 q = if |rnd 64 q| < 2 ^ 16384 then .num (rnd 64 q) else .inf (decide (q < 0)) := by
  have e : (rne (q / 2 ^ lastPlace80 q) : ℚ) * 2 ^ lastPlace80 q = rnd 64 q := by
    by_cases hq : q = 0
    · subst hq
      have : rne 0 = 0 := by simpa using rne_int 0
      simp [rnd, this]
    · have h1 := h0.resolve_left hq
      have h2 : (-16382 : ℤ) ≤ Int.log 2 |q| := by
        have := (Int.zpow_le_iff_le_log (b := 2) (R := ℚ) (by omega) (x := -16382) (abs_pos.mpr hq)).mp (by simpa using h1)
        exact this
      have h3 : lastPlace80 q = Int.log 2 |q| - ((64 : Nat) - 1 : ℤ) := by
        unfold lastPlace80
        rw [max_eq_left (by omega)]
        norm_num
      unfold rnd
      rw [if_neg hq, h3]
  unfold rnd80
  simp only [e]

theorem two_10 : (10 : ℚ) ^ 2000 ≤ 2 ^ 8000 := by
  have : (2 : ℚ) ^ 8000 = (2 ^ 4) ^ 2000 := by rw [← pow_mul]
  rw [this]
  exact pow_le_pow_left₀ (by norm_num) (by norm_num) _

/-- Numbers far from both ends of the range. -/
def Med (v : ℚ) : Prop := v = 0 ∨ (1 / 10 ^ 2000 ≤ v ∧ v ≤ 10 ^ 2000)

theorem Med.nonneg {v : ℚ} (h : Med v) : 0 ≤ v := by
  rcases h with rfl | ⟨h, _⟩
  · exact le_rfl
  · exact le_trans (by positivity) h

theorem rnd80_med {q : ℚ} (h : q = 0 ∨ (1 / 10 ^ 2000 / 2 ≤ q ∧ q ≤ 2 * 10 ^ 2000)) : rnd80 q = .num (rnd 64 q) := by
  have hz : (2 : ℚ) ^ (-16382 : ℤ) ≤ 1 / 2 ^ 8000 / 2 := by
    rw [show (-16382 : ℤ) = -((16382 : ℕ) : ℤ) by norm_num, zpow_neg, zpow_natCast, div_div, ← pow_succ, ← one_div]
    exact one_div_le_one_div_of_le (by positivity) (pow_le_pow_right₀ (by norm_num) (by norm_num))
  have hbig : (4 : ℚ) * 2 ^ 8000 < 2 ^ 16384 := by
    rw [show (4 : ℚ) = 2 ^ 2 by norm_num, ← pow_add]
    exact pow_lt_pow_right₀ (by norm_num) (by norm_num)
  have hinv : (1 : ℚ) / 2 ^ 8000 ≤ 1 / 10 ^ 2000 := one_div_le_one_div_of_le (by positivity) two_10
  have ht := two_10
  rcases h with rfl | ⟨h1, h2⟩
  · rw [rnd80_eq 0 (.inl rfl), if_pos]
    simp [rnd]
  · have hq : 0 < q := lt_of_lt_of_le (by positivity) h1
    rw [rnd80_eq q (.inr _), if_pos]
    · have he := rnd_error 64 q
      have h3 := abs_sub_abs_le_abs_sub (rnd 64 q) q
      rw [abs_of_pos hq] at h3 he
      generalize (10 : ℚ) ^ 2000 = A at *
      generalize (2 : ℚ) ^ 8000 = B at *
      generalize (2 : ℚ) ^ 16384 = C at *
      linarith
    · rw [abs_of_pos hq]
      exact le_trans hz (le_trans (div_le_div_of_nonneg_right hinv (by norm_num)) h1)

theorem ulp64 : (0 : ℚ) < 1 / 2 ^ 64 ∧ (1 : ℚ) / 2 ^ 64 ≤ 1 / 2 := by norm_num

theorem factor_up (n : Nat) (hn : n ≤ 2 ^ 20) : (1 + 1 / 2 ^ 64 : ℚ) ^ n ≤ 1 + 2 * n * (1 / 2 ^ 64) ∧ 1 - n * (1 / 2 ^ 64) ≤ (1 - 1 / 2 ^ 64 : ℚ) ^ n := by
  have hb := one_add_mul_le_pow (show (-2 : ℚ) ≤ -(1 / 2 ^ 64) by norm_num) n
  have hlow : 1 - n * (1 / 2 ^ 64) ≤ (1 - 1 / 2 ^ 64 : ℚ) ^ n := by
    rw [sub_eq_add_neg 1 ((1 : ℚ) / 2 ^ 64)]
    linarith
  refine ⟨?_, hlow⟩
  have hn' : (n : ℚ) ≤ 2 ^ 20 := by exact_mod_cast hn
  have hprod : (1 + 1 / 2 ^ 64 : ℚ) ^ n * (1 - 1 / 2 ^ 64 : ℚ) ^ n ≤ 1 := by
    rw [← mul_pow]
    exact pow_le_one₀ (by norm_num) (by norm_num)
  have hU : (0 : ℚ) ≤ (1 + 1 / 2 ^ 64 : ℚ) ^ n := by positivity
  generalize (1 + 1 / 2 ^ 64 : ℚ) ^ n = U at *
  generalize (1 - 1 / 2 ^ 64 : ℚ) ^ n = L at *
  have hnu : (n : ℚ) * (1 / 2 ^ 64) ≤ 1 / 2 ^ 44 := by
    have := mul_le_mul_of_nonneg_right hn' (show (0 : ℚ) ≤ 1 / 2 ^ 64 by positivity)
    exact le_trans this (by norm_num)
  have hnu0 : (0 : ℚ) ≤ (n : ℚ) * (1 / 2 ^ 64) := by positivity
  rw [mul_assoc]
  generalize (n : ℚ) * (1 / 2 ^ 64) = t at *
  have h1 : U * (1 - t) ≤ 1 := le_trans (mul_le_mul_of_nonneg_left hlow hU) hprod
  have h2 : (1 + 2 * t) * (1 - t) ≥ 1 := by nlinarith
  exact le_of_mul_le_mul_right (le_trans h1 h2) (by linarith)

theorem within_half {v w : ℚ} {n : Nat} (hv : 0 ≤ v) (h : Within (1 / 2 ^ 64) n v w) (hn : n ≤ 2 ^ 20) : v / 2 ≤ w ∧ w ≤ 2 * v := by
  obtain ⟨a, b⟩ := factor_up n hn
  have hn' : (n : ℚ) ≤ 2 ^ 20 := by exact_mod_cast hn
  have h1 : (n : ℚ) * (1 / 2 ^ 64) ≤ 1 / 2 := by
    have := mul_le_mul_of_nonneg_right hn' (show (0 : ℚ) ≤ 1 / 2 ^ 64 by positivity)
    exact le_trans this (by norm_num)
  rw [mul_assoc] at a
  constructor
  · refine le_trans ?_ h.1
    have := mul_le_mul_of_nonneg_left b hv
    have h2 := mul_le_mul_of_nonneg_left h1 hv
    linarith
  · refine le_trans h.2 ?_
    have := mul_le_mul_of_nonneg_left a hv
    have h2 := mul_le_mul_of_nonneg_left h1 hv
    linarith

theorem rnd80_within {v w : ℚ} {n : Nat} (hv : Med v) (h : Within (1 / 2 ^ 64) n v w) (hn : n ≤ 2 ^ 20) : rnd80 w = .num (rnd 64 w) := by
  obtain ⟨a, b⟩ := within_half hv.nonneg h hn
  rcases hv with rfl | ⟨h1, h2⟩
  · exact rnd80_med (.inl (by linarith))
  · refine rnd80_med (.inr ⟨le_trans (div_le_div_of_nonneg_right h1 (by norm_num)) a, le_trans b (mul_le_mul_of_nonneg_left h2 (by norm_num))⟩)

theorem med_nat {n : Nat} (h : n ≤ 10 ^ 2000) : Med n := by
  rcases Nat.eq_zero_or_pos n with rfl | hp
  · exact .inl (by simp)
  · right
    have h1 : (1 : ℚ) ≤ n := by exact_mod_cast hp
    refine ⟨le_trans ?_ h1, by exact_mod_cast h⟩
    rw [div_le_one (by positivity)]
    exact one_le_pow₀ (by norm_num)

theorem step80 {v : Nat} {w : ℚ} {k : Nat} (c : Nat) (hv : v * 10 + c ≤ 10 ^ 2000) (h : Within (1 / 2 ^ 64) k v w) (hk : k + 1 ≤ 2 ^ 20) :
    extended.step (.num w) c = (rounded 64).step (.num w) c := by
  have h1 : Within (1 / 2 ^ 64) k ((v * 10 : Nat) : ℚ) (w * 10) := by
    have := within_scale (by norm_num : (0 : ℚ) ≤ 10) h
    push_cast
    exact this
  have e1 := rnd80_within (med_nat (le_trans (Nat.le_add_right _ c) hv)) h1 (by omega)
  have h2 := within_rnd 64 ulp64 (Nat.cast_nonneg _) h1
  have h3 : Within (1 / 2 ^ 64) (k + 1) (c : ℚ) c := within_mono ulp64 (Nat.cast_nonneg _) (Nat.zero_le _) (within_self _ _)
  have h4 := within_add h2 h3
  have e2 := rnd80_within (v := ((v * 10 : Nat) : ℚ) + c) (by have := med_nat hv; push_cast at this ⊢; exact this) h4 hk
  show add80 (mul80 (.num w) (.num 10)) (.num c) = _
  rw [mul80, e1, add80, e2]
  rfl

theorem horner80 (ds : List Byte) : ∀ (k v : Nat) (w : ℚ), v * 10 ^ ds.length + decVal ds ≤ 10 ^ 2000 → Within (1 / 2 ^ 64) k v w → k + 2 * ds.length ≤ 2 ^ 20 →
    horner extended ds (.num w) = horner (rounded 64) ds (.num w) := by
  induction ds with
  | nil => intro k v w _ _ _; rfl
  | cons c ds ih =>
    intro k v w hv h hk
    rw [List.length_cons] at hk hv
    rw [decVal_cons] at hv
    have e : v * 10 ^ (ds.length + 1) + ((c.toNat - 48) * 10 ^ ds.length + decVal ds) = (v * 10 + (c.toNat - 48)) * 10 ^ ds.length + decVal ds := by ring
    rw [e] at hv
    have hb : v * 10 + (c.toNat - 48) ≤ 10 ^ 2000 := by
      have : 1 ≤ 10 ^ ds.length := Nat.one_le_pow _ _ (by omega)
      exact le_trans (le_trans (Nat.le_mul_of_pos_right _ this) (Nat.le_add_right _ _)) hv
    have hs := step80 (c.toNat - 48) hb h (by omega)
    have hw : Within (1 / 2 ^ 64) (k + 1 + 1) ((v * 10 + (c.toNat - 48) : Nat) : ℚ) (rnd 64 (rnd 64 (w * 10) + ((c.toNat - 48 : Nat) : ℚ))) := by
      have h1 := within_rnd 64 ulp64 (mul_nonneg (Nat.cast_nonneg v) (by norm_num : (0 : ℚ) ≤ 10)) (within_scale (by norm_num : (0 : ℚ) ≤ 10) h)
      have h2 : Within (1 / 2 ^ 64) (k + 1) ((c.toNat - 48 : Nat) : ℚ) ((c.toNat - 48 : Nat) : ℚ) :=
        within_mono ulp64 (Nat.cast_nonneg _) (Nat.zero_le _) (within_self _ _)
      have h3 := within_rnd 64 ulp64 (by positivity) (within_add h1 h2)
      push_cast
      exact h3
    show horner extended ds (extended.step (.num w) (c.toNat - 48)) = horner (rounded 64) ds ((rounded 64).step (.num w) (c.toNat - 48))
    rw [hs]
    exact ih (k + 1 + 1) _ _ hv hw (by omega)

/-! ## The table of `double` numbers -/

theorem table_factor80 (e : Nat) (he : e ≠ 0) : ∃ f : ℚ, rnd 53 (tableEntry e) = 10 ^ e * f ∧ 0 < f ∧ (1 - 1 / 2 ^ 64) ^ 4100 ≤ f ∧ f ≤ (1 + 1 / 2 ^ 64) ^ 4100 ∧
    (1 - 1 / 2 ^ 64) ^ 4100 ≤ f⁻¹ ∧ f⁻¹ ≤ (1 + 1 / 2 ^ 64) ^ 4100 := by
  obtain ⟨f, h1, h2, h3⟩ := table_factor 53 half_ulp e he
  rw [pow_one] at h2 h3
  have hup := one_add_mul_le_pow (show (-2 : ℚ) ≤ 1 / 2 ^ 64 by norm_num) 4100
  have hprod : (1 + 1 / 2 ^ 64 : ℚ) ^ 4100 * (1 - 1 / 2 ^ 64 : ℚ) ^ 4100 ≤ 1 := by
    rw [← mul_pow]
    exact pow_le_one₀ (by norm_num) (by norm_num)
  have hU : (0 : ℚ) < (1 + 1 / 2 ^ 64 : ℚ) ^ 4100 := by positivity
  have hL : (0 : ℚ) ≤ (1 - 1 / 2 ^ 64 : ℚ) ^ 4100 := pow_nonneg (by norm_num) _
  generalize (1 + 1 / 2 ^ 64 : ℚ) ^ 4100 = U at *
  generalize (1 - 1 / 2 ^ 64 : ℚ) ^ 4100 = L at *
  have hlow : L ≤ 1 - 1 / 2 ^ 53 := by
    have h4 : (1 + (4100 : ℕ) * (1 / 2 ^ 64)) * L ≤ 1 := le_trans (mul_le_mul_of_nonneg_right hup hL) hprod
    have h5 : (1 : ℚ) ≤ (1 + (4100 : ℕ) * (1 / 2 ^ 64)) * (1 - 1 / 2 ^ 53) := by norm_num
    exact le_of_mul_le_mul_left (le_trans h4 h5) (by positivity)
  have hf : 0 < f := lt_of_lt_of_le (by norm_num) h2
  have hup2 : (1 : ℚ) + 1 / 2 ^ 52 ≤ U := le_trans (by norm_num) hup
  refine ⟨f, h1, hf, le_trans hlow h2, le_trans h3 (le_trans (by norm_num) hup2), ?_, ?_⟩
  · rw [← one_div, le_div_iff₀ hf]
    have h6 : L * f ≤ (1 - 1 / 2 ^ 53) * (1 + 1 / 2 ^ 53) := mul_le_mul hlow h3 hf.le (by norm_num)
    exact le_trans h6 (by norm_num)
  · rw [← one_div, div_le_iff₀ hf]
    have h6 : (1 + 1 / 2 ^ 52) * (1 - 1 / 2 ^ 53) ≤ U * f := mul_le_mul hup2 h2 (by norm_num) hU.le
    exact le_trans (by norm_num) h6

theorem pow10_80 (x : Int) (hx : x ≠ 0) (hr : -308 ≤ x ∧ x ≤ 308) {n : Nat} {v w : ℚ} (hv : Med (v * (10 : ℚ) ^ x)) (hv0 : 0 ≤ v) (h : Within (1 / 2 ^ 64) n v w)
    (hn : n + 4101 ≤ 2 ^ 20) :
    ∃ r, pow10 extended longDoubleMin (.num w) x = ok (.num r) ∧ Within (1 / 2 ^ 64) (n + 4101) (v * (10 : ℚ) ^ x) r := by
  unfold pow10 fract10Size longDoubleMin
  rw [if_neg (by omega), if_pos (by omega), if_pos (by omega)]
  obtain ⟨f, hf, hf0, h1, h2, h3, h4⟩ := table_factor80 x.natAbs (by omega)
  have ht := table_ieee x.natAbs (by omega) (by omega)
  by_cases hp : 0 < x
  · rw [if_pos hp]
    obtain ⟨k, rfl⟩ := Int.eq_ofNat_of_zero_le (by omega : 0 ≤ x)
    have ek : ((k : Nat) : Int).natAbs = k := by omega
    rw [ek] at hf ht
    rw [zpow_natCast] at hv ⊢
    rw [ek]
    have a := within_factor ulp64 (mul_nonneg hv0 (by positivity)) (within_scale (c := 10 ^ k) (by positivity) h) h1 h2
    have e := rnd80_within hv a (by omega)
    refine ⟨rnd 64 (w * 10 ^ k * f), ?_, within_rnd 64 ulp64 hv.nonneg a⟩
    show ok (mul80 (.num w) (rnd64 (tableEntry k))) = _
    rw [ht, mul80, hf, ← mul_assoc, e]
  · rw [if_neg hp]
    obtain ⟨k, hk⟩ := Int.eq_ofNat_of_zero_le (by omega : 0 ≤ -x)
    have hxk : x = -(k : Int) := by omega
    subst hxk
    have ek : (-(k : Int)).natAbs = k := by omega
    rw [ek] at hf ht ⊢
    have ez : (10 : ℚ) ^ (-(k : Int)) = (10 ^ k)⁻¹ := by rw [zpow_neg, zpow_natCast]
    rw [ez] at hv ⊢
    have a := within_factor ulp64 (mul_nonneg hv0 (by positivity)) (within_scale (c := (10 ^ k)⁻¹) (by positivity) h) h3 h4
    have e := rnd80_within hv a (by omega)
    refine ⟨rnd 64 (w * (10 ^ k)⁻¹ * f⁻¹), ?_, within_rnd 64 ulp64 hv.nonneg a⟩
    show ok (div80 (.num w) (rnd64 (tableEntry k))) = _
    have hne : (10 : ℚ) ^ k * f ≠ 0 := by positivity
    have e1 : w / (10 ^ k * f) = w * (10 ^ k)⁻¹ * f⁻¹ := by rw [div_eq_mul_inv, mul_inv, ← mul_assoc]
    rw [ht, div80, hf, if_neg hne, e1, e]

theorem med_mantissa {ip fd : List Byte} (hfd : ∀ c ∈ fd, isDigit c) (hil : decVal ip < 10 ^ 1000) (hfl : fd.length ≤ 308) (x : Int) (hx : -308 ≤ x ∧ x ≤ 308) :
    Med ((decVal ip + decVal fd / 10 ^ fd.length) * (10 : ℚ) ^ x) := by
  have hF : (decVal fd : ℚ) < 10 ^ fd.length := by exact_mod_cast decVal_lt fd hfd
  have hle : (decVal ip : ℚ) + decVal fd / 10 ^ fd.length ≤ 10 ^ 1000 := by
    have h1 : (decVal fd : ℚ) / 10 ^ fd.length ≤ 1 := (div_le_one (by positivity)).mpr hF.le
    have h2 : (decVal ip : ℚ) + 1 ≤ 10 ^ 1000 := by exact_mod_cast hil
    linarith
  have hx1 : (10 : ℚ) ^ x ≤ 10 ^ 308 := by
    rw [← zpow_natCast]
    exact zpow_le_zpow_right₀ (by norm_num) (by push_cast; omega)
  have hx2 : (1 : ℚ) / 10 ^ 308 ≤ (10 : ℚ) ^ x := by
    rw [one_div, ← zpow_natCast, ← zpow_neg]
    exact zpow_le_zpow_right₀ (by norm_num) (by push_cast; omega)
  by_cases h0 : decVal ip = 0 ∧ decVal fd = 0
  · left; rw [h0.1, h0.2]; simp
  · right
    have hge : (1 : ℚ) / 10 ^ 308 ≤ (decVal ip : ℚ) + decVal fd / 10 ^ fd.length := by
      by_cases h : decVal ip = 0
      · have h1 : (1 : ℚ) ≤ decVal fd := by
          have : decVal fd ≠ 0 := fun h' => h0 ⟨h, h'⟩
          exact_mod_cast Nat.pos_of_ne_zero this
        rw [h, Nat.cast_zero, zero_add, div_le_div_iff₀ (by positivity) (by positivity), one_mul]
        have h2 : (10 : ℚ) ^ fd.length ≤ 10 ^ 308 := pow_le_pow_right₀ (by norm_num) hfl
        exact le_trans h2 (le_mul_of_one_le_left (by positivity) h1)
      · have h1 : (1 : ℚ) ≤ decVal ip := by exact_mod_cast Nat.pos_of_ne_zero h
        have h2 : (0 : ℚ) ≤ decVal fd / 10 ^ fd.length := by positivity
        have h3 : (1 : ℚ) / 10 ^ 308 ≤ 1 := by rw [div_le_one (by positivity)]; exact one_le_pow₀ (by norm_num)
        linarith
    constructor
    · have h1 : (1 : ℚ) / 10 ^ 2000 ≤ 1 / 10 ^ 308 * (1 / 10 ^ 308) := by
        rw [div_mul_div_comm, one_mul, ← pow_add]
        exact one_div_le_one_div_of_le (by positivity) (pow_le_pow_right₀ (by norm_num) (by norm_num))
      exact le_trans h1 (mul_le_mul hge hx2 (by positivity) (le_trans (by positivity) hge))
    · have h1 : (10 : ℚ) ^ 1000 * 10 ^ 308 ≤ 10 ^ 2000 := by
        rw [← pow_add]
        exact pow_le_pow_right₀ (by norm_num) (by norm_num)
      exact le_trans (mul_le_mul hle hx1 (by positivity) (by positivity)) h1

theorem mantissa80 (ip fd : List Byte) (hip : ∀ c ∈ ip, isDigit c) (hfd : ∀ c ∈ fd, isDigit c) (hil : decVal ip < 10 ^ 1000) (hfl : fd.length ≤ 308) :
    ∃ d, mantissa extended longDoubleMin ip fd = ok (.num d) ∧ Within (1 / 2 ^ 64) 6200 (decVal ip + decVal fd / 10 ^ fd.length) d := by
  have hl := sig_length ip hip 1000 hil
  have z0 : Within (1 / 2 ^ 64) 0 ((0 : Nat) : ℚ) 0 := by rw [Nat.cast_zero]; exact within_self _ _
  have hbig : (10 : ℕ) ^ 1000 ≤ 10 ^ 2000 := Nat.pow_le_pow_right (by omega) (by omega)
  have ea := horner80 (skipZeros ip) 0 0 0 (by rw [decVal_skipZeros, zero_mul, zero_add]; exact le_trans hil.le hbig) z0 (by omega)
  obtain ⟨a, ea', ha⟩ := horner_within 64 ulp64 (skipZeros ip) 0 0 0 le_rfl (within_self _ _)
  rw [zero_mul, zero_add, decVal_skipZeros, zero_add] at ha
  have ez : extended.zero = .num 0 := rfl
  unfold mantissa
  by_cases hf : fd = []
  · rw [if_pos hf, ez, ea, ea']
    refine ⟨a, rfl, ?_⟩
    subst hf
    have : ((decVal ip : ℚ) + (decVal [] : Nat) / 10 ^ ([] : List Byte).length) = decVal ip := by simp [decVal]
    rw [this]
    exact within_mono ulp64 (Nat.cast_nonneg _) (by omega) ha
  · rw [if_neg hf, ez, ea, ea']
    have hF : decVal fd < 10 ^ fd.length := decVal_lt fd hfd
    have hF2 : (10 : ℕ) ^ fd.length ≤ 10 ^ 2000 := Nat.pow_le_pow_right (by omega) (by omega)
    have eb := horner80 fd 0 0 0 (by rw [zero_mul, zero_add]; exact le_trans hF.le hF2) z0 (by omega)
    obtain ⟨b, eb', hb⟩ := horner_within 64 ulp64 fd 0 0 0 le_rfl (within_self _ _)
    rw [zero_mul, zero_add, zero_add] at hb
    have hl0 : fd.length ≠ 0 := fun h => hf (List.length_eq_zero_iff.mp h)
    have e10 : (decVal fd : ℚ) * (10 : ℚ) ^ (-(fd.length : Int)) = decVal fd / 10 ^ fd.length := by rw [zpow_neg, zpow_natCast, div_eq_mul_inv]
    have hmed : Med ((decVal fd : ℚ) * (10 : ℚ) ^ (-(fd.length : Int))) := by
      have := med_mantissa (ip := []) hfd (by simp [decVal]) hfl 0 (by omega)
      rw [e10]
      simpa [decVal] using this
    obtain ⟨c, ec, hc⟩ := pow10_80 (-(fd.length : Int)) (by omega) (by omega) hmed (Nat.cast_nonneg _) hb (by omega)
    rw [e10] at hc
    rw [eb, eb', ec, ok_bind]
    have h0 : (0 : ℚ) ≤ decVal fd / 10 ^ fd.length := by positivity
    have h1 : Within (1 / 2 ^ 64) 6199 (decVal ip : ℚ) a := within_mono ulp64 (Nat.cast_nonneg _) (by omega) ha
    have h2 : Within (1 / 2 ^ 64) 6199 ((decVal fd : ℚ) / 10 ^ fd.length) c := within_mono ulp64 h0 (by omega) hc
    have h3 := within_add h1 h2
    have hm := med_mantissa (ip := ip) hfd hil hfl 0 (by omega)
    rw [zpow_zero, mul_one] at hm
    refine ⟨rnd 64 (a + c), ?_, within_rnd 64 ulp64 (add_nonneg (Nat.cast_nonneg _) h0) h3⟩
    show ok (add80 (.num a) (.num c)) = _
    rw [add80, rnd80_within hm h3 (by omega)]

theorem neg_withSign80 (neg : Bool) (q : ℚ) : (if neg then extended.neg (.num q) else .num q) = withSign neg q := by cases neg <;> rfl

/-! ## C184 -/

/-- **C184**: up to a thousand significant digits before the point, 308 behind it and an exponent from -308 to 308 the relative error is at most `2^-49`. -/
theorem C184_error_bound_partial (sg : List Byte) (neg : Bool) (ip fp fd ex ed : List Byte) (x : Int) (en : List Byte)
    (hs : Sign sg neg) (hip : ∀ c ∈ ip, isDigit c) (hfp : Fraction fp fd) (hdig : ip ++ fd ≠ []) (hex : Exponent ex ed x) (hed : ex ≠ [] → ed ≠ [])
    (hen : Suffix en) (hil : decVal ip < 10 ^ 1000) (hfl : fd.length ≤ 308) (hx : -308 ≤ x ∧ x ≤ 308) :
    ∃ r, realParse extended longDoubleMin (sg ++ (ip ++ (fp ++ (ex ++ en)))) = ok (some (withSign neg r)) ∧
      |r - (decVal ip + decVal fd / 10 ^ fd.length) * (10 : ℚ) ^ x| ≤ 1 / 2 ^ 49 * ((decVal ip + decVal fd / 10 ^ fd.length) * (10 : ℚ) ^ x) := by
  have hfd : ∀ c ∈ fd, isDigit c := by
    rcases hfp with ⟨_, rfl⟩ | ⟨_, h⟩
    · simp
    · exact h
  have h := realParse_usual extended longDoubleMin sg neg ip fp fd ex ed x en hs hip hfp hdig hex hed hen (by omega) (by omega)
  obtain ⟨d, e1, hd⟩ := mantissa80 ip fd hip hfd hil hfl
  have hm := med_mantissa (ip := ip) hfd hil hfl x hx
  have hm0 : (0 : ℚ) ≤ decVal ip + decVal fd / 10 ^ fd.length := by positivity
  have hsc : ∃ r, scaled extended longDoubleMin (.num d) x = ok (.num r) ∧ Within (1 / 2 ^ 64) 10301 ((decVal ip + decVal fd / 10 ^ fd.length) * (10 : ℚ) ^ x) r := by
    unfold scaled
    by_cases hx0 : x = 0
    · rw [if_neg (by simpa using hx0)]
      refine ⟨d, rfl, ?_⟩
      rw [hx0, zpow_zero, mul_one]
      exact within_mono ulp64 hm0 (by omega) hd
    · rw [if_pos hx0]
      exact pow10_80 x hx0 hx hm hm0 hd (by omega)
  obtain ⟨r, e2, hr⟩ := hsc
  refine ⟨r, by rw [h, e1, ok_bind, e2, ok_bind, neg_withSign80], ?_⟩
  have hv := hm.nonneg
  generalize (decVal ip + decVal fd / 10 ^ fd.length : ℚ) * (10 : ℚ) ^ x = v at *
  obtain ⟨f1, f2⟩ := factor_up 10301 (by norm_num)
  have g1 := mul_le_mul_of_nonneg_left f1 hv
  have g2 := mul_le_mul_of_nonneg_left f2 hv
  have c1 : (2 : ℚ) * (10301 : ℕ) * (1 / 2 ^ 64) ≤ 1 / 2 ^ 49 := by norm_num
  have c2 : ((10301 : ℕ) : ℚ) * (1 / 2 ^ 64) ≤ 1 / 2 ^ 49 := by norm_num
  have k1 := mul_le_mul_of_nonneg_left c1 hv
  have k2 := mul_le_mul_of_nonneg_left c2 hv
  have hr1 := hr.1
  have hr2 := hr.2
  rw [abs_le]
  constructor <;> linarith

theorem horner80_exact (ip : List Byte) (hip : ∀ c ∈ ip, isDigit c) (hv : decVal ip ≤ 2 ^ 64) : horner extended (skipZeros ip) (.num 0) = .num (decVal ip) := by
  have hl := sig_length ip hip 20 (lt_of_le_of_lt hv (by norm_num))
  have z0 : Within (1 / 2 ^ 64) 0 ((0 : Nat) : ℚ) 0 := by rw [Nat.cast_zero]; exact within_self _ _
  have hbig : (2 : ℕ) ^ 64 ≤ 10 ^ 2000 := le_trans (by norm_num : (2 : ℕ) ^ 64 ≤ 10 ^ 20) (Nat.pow_le_pow_right (by omega) (by omega))
  rw [horner80 (skipZeros ip) 0 0 0 (by rw [decVal_skipZeros, zero_mul, zero_add]; exact le_trans hv hbig) z0 (by omega)]
  have := horner_rounded0 64 (by omega) (skipZeros ip) (by rw [decVal_skipZeros]; exact hv)
  rw [decVal_skipZeros] at this
  exact this

/-- **C184**: an integer of at most 64 bits is converted exactly. -/
theorem C184_integer_exact (m : Int) (sg : List Byte) (neg : Bool) (ip en : List Byte) (hs : Sign sg neg)
    (hip : ∀ c ∈ ip, isDigit c) (hne : ip ≠ []) (hen : Suffix en) (hv : decVal ip ≤ 2 ^ 64) :
    realParse extended m (sg ++ (ip ++ en)) = ok (some (withSign neg (decVal ip))) := by
  have h := realParse_usual extended m sg neg ip [] [] [] [] 0 en hs hip (Or.inl ⟨rfl, rfl⟩) (by simpa using hne) (Or.inl ⟨rfl, rfl, rfl⟩)
    (by simp) hen (by simp) (by omega)
  simp only [List.nil_append] at h
  have e : extended.zero = .num 0 := rfl
  rw [h, mantissa, if_pos rfl, ok_bind, scaled, if_neg (by simp), ok_bind, e, horner80_exact ip hip hv]
  cases neg <;> rfl

/-- **C184**: an integer of at most 64 bits with an exponent from -22 to 22 is converted to a nearest number of 64 bits. -/
theorem C184_correctly_rounded (sg : List Byte) (neg : Bool) (ip ex ed en : List Byte) (x : Int)
    (hs : Sign sg neg) (hip : ∀ c ∈ ip, isDigit c) (hne : ip ≠ []) (hex : Exponent ex ed x) (hed : ex ≠ [] → ed ≠ []) (hen : Suffix en)
    (hv : decVal ip ≤ 2 ^ 64) (hx : x.natAbs ≤ 22) :
    ∃ r, Nearest 64 (decVal ip * (10 : ℚ) ^ x) r ∧ realParse extended longDoubleMin (sg ++ (ip ++ (ex ++ en))) = ok (some (withSign neg r)) := by
  have h := realParse_usual extended longDoubleMin sg neg ip [] [] ex ed x en hs hip (Or.inl ⟨rfl, rfl⟩) (by simpa using hne) hex hed hen (by simp)
    (by omega)
  simp only [List.nil_append] at h
  refine ⟨rnd 64 (decVal ip * (10 : ℚ) ^ x), rnd_nearest 64 (by omega) _, ?_⟩
  have ez : extended.zero = .num 0 := rfl
  rw [h, mantissa, if_pos rfl, ok_bind, ez, horner80_exact ip hip hv]
  have hbig : (2 : ℕ) ^ 64 < 10 ^ 1000 := lt_of_lt_of_le (by norm_num : (2 : ℕ) ^ 64 < 10 ^ 20) (Nat.pow_le_pow_right (by omega) (by omega))
  have hmed : Med ((decVal ip : ℚ) * (10 : ℚ) ^ x) := by
    have := med_mantissa (ip := ip) (fd := []) (by simp) (lt_of_le_of_lt hv hbig) (by simp) x (by omega)
    simpa [decVal] using this
  have hr := rnd80_within hmed (within_self (1 / 2 ^ 64) _) (by omega)
  have hsc : scaled extended longDoubleMin (.num (decVal ip)) x = ok (.num (rnd 64 (decVal ip * (10 : ℚ) ^ x))) := by
    unfold scaled
    by_cases h0 : x = 0
    · subst h0
      rw [if_neg (by simp), zpow_zero, mul_one, rnd_exact 64 (by omega) _ (by
        have := rep_int 64 (decVal ip : ℤ) (by rw [abs_of_nonneg (by omega)]; exact_mod_cast hv)
        exact_mod_cast this)]
    · have h5 : 5 ^ x.natAbs ≤ 2 ^ 53 := le_trans (Nat.pow_le_pow_right (by omega) hx) (by norm_num)
      have ht := table_ieee x.natAbs (by omega) (by omega)
      rw [rnd_pow10 53 (by omega) x.natAbs (by omega) h5] at ht
      rw [if_pos h0]
      unfold pow10 fract10Size longDoubleMin
      rw [if_neg (by omega), if_pos (by omega), if_pos (by omega)]
      by_cases hp : 0 < x
      · rw [if_pos hp]
        obtain ⟨k, rfl⟩ := Int.eq_ofNat_of_zero_le (by omega : 0 ≤ x)
        have ek : ((k : Nat) : Int).natAbs = k := by omega
        rw [ek] at ht ⊢
        rw [zpow_natCast] at hr ⊢
        show ok (mul80 (.num (decVal ip)) (rnd64 (tableEntry k))) = _
        rw [ht, mul80, hr]
      · rw [if_neg hp]
        obtain ⟨k, hk⟩ := Int.eq_ofNat_of_zero_le (by omega : 0 ≤ -x)
        have hxk : x = -(k : Int) := by omega
        subst hxk
        have ek : (-(k : Int)).natAbs = k := by omega
        have ez2 : (10 : ℚ) ^ (-(k : Int)) = (10 ^ k)⁻¹ := by rw [zpow_neg, zpow_natCast]
        rw [ek] at ht ⊢
        rw [ez2, ← div_eq_mul_inv] at hr ⊢
        show ok (div80 (.num (decVal ip)) (rnd64 (tableEntry k))) = _
        rw [ht, div80, if_neg (by positivity), hr]
  rw [hsc, ok_bind]
  cases neg <;> rfl

/-! ## Where it is not accurate -/

theorem pow10_large80 (x : Int) (hx : 309 ≤ x) (d : ℚ) : pow10 extended longDoubleMin (.num d) x = ok (if d = 0 then .nan else .inf (decide (d < 0))) := by
  unfold pow10 fract10Size longDoubleMin
  rw [if_neg (by omega), if_pos (by omega), if_neg (by omega)]
  have : extended.mulPow (.num d) x = if d = 0 then .nan else .inf (decide (d < 0)) := by
    show mul80 (.num d) (rnd64 ((10 : ℚ) ^ (10 * x))) = _
    rw [mulPow_factor x hx]
    simp [mul80]
  rw [this]

/-- A positive number far below the smallest `double` is rounded to zero. -/
theorem rnd64_vanishes {q : ℚ} (h0 : 0 < q) (h1 : q < (2 : ℚ) ^ (-1075 : ℤ)) : rnd64 q = .num 0 := by
  have hlog : Int.log 2 |q| < -1075 := by
    rw [abs_of_pos h0]
    exact (Int.lt_zpow_iff_log_lt (b := 2) (by omega) h0).mp (by simpa using h1)
  have hl : lastPlace q = -1074 := by unfold lastPlace; rw [max_eq_right (by omega)]
  have hp : (0 : ℚ) < 2 ^ (-1074 : ℤ) := by positivity
  have hhalf : q / 2 ^ (-1074 : ℤ) < 1 / 2 := by
    rw [div_lt_iff₀ hp]
    have : (1 : ℚ) / 2 * 2 ^ (-1074 : ℤ) = 2 ^ (-1075 : ℤ) := by
      rw [show (-1074 : ℤ) = 1 + -1075 by norm_num, zpow_add₀ (by norm_num), zpow_one]; ring
    rw [this]; exact h1
  have hpos : 0 < q / 2 ^ (-1074 : ℤ) := div_pos h0 hp
  have hr : rne (q / 2 ^ (-1074 : ℤ)) = 0 := by
    have h2 := rne_half (q / 2 ^ (-1074 : ℤ))
    have h3 := rne_nearest (q / 2 ^ (-1074 : ℤ)) 0
    have h2' := abs_le.mp h2
    generalize q / 2 ^ (-1074 : ℤ) = y at *
    have a1 : ((rne y : ℤ) : ℚ) < 1 := by linarith
    have a2 : (-1 : ℚ) < ((rne y : ℤ) : ℚ) := by linarith
    have b1 : rne y < 1 := by exact_mod_cast a1
    have b2 : -1 < rne y := by exact_mod_cast a2
    omega
  unfold rnd64
  simp only [hl, hr]
  simp

theorem pow_tiny (x : Int) (hx : x ≤ -309) : rnd64 ((10 : ℚ) ^ (10 * x)) = .num 0 := by
  refine rnd64_vanishes (by positivity) ?_
  have h1 : (10 : ℚ) ^ (10 * x) ≤ (10 : ℚ) ^ (-3090 : ℤ) := zpow_le_zpow_right₀ (by norm_num) (by omega)
  have h2 : (10 : ℚ) ^ (-3090 : ℤ) < (2 : ℚ) ^ (-3090 : ℤ) := by
    rw [show (-3090 : ℤ) = -((3090 : ℕ) : ℤ) by norm_num, zpow_neg, zpow_neg, zpow_natCast, zpow_natCast]
    exact inv_strictAnti₀ (by positivity) (pow_lt_pow_left₀ (by norm_num) (by norm_num) (by norm_num))
  have h3 : (2 : ℚ) ^ (-3090 : ℤ) ≤ (2 : ℚ) ^ (-1075 : ℤ) := zpow_le_zpow_right₀ (by norm_num) (by norm_num)
  exact lt_of_le_of_lt h1 (lt_of_lt_of_le h2 h3)

theorem rnd80_zero : rnd80 0 = .num 0 := by
  have := rnd80_med (q := 0) (.inl rfl)
  simpa [rnd] using this

theorem pow10_small80 (x : Int) (hx : -4931 ≤ x ∧ x ≤ -309) (d : ℚ) : pow10 extended longDoubleMin (.num d) x = ok (.num 0) := by
  unfold pow10 fract10Size longDoubleMin
  rw [if_neg (by omega), if_pos (by omega), if_neg (by omega)]
  show ok (mul80 (.num d) (rnd64 ((10 : ℚ) ^ (10 * x)))) = _
  rw [pow_tiny x hx.2, mul80, mul_zero, rnd80_zero]

/-- **C184** is false of exponents from 309 on, up to 4932 within the range of the type: a number that is not zero is read as infinity, zero as not-a-number ... -/
theorem C184_large_exponent (sg : List Byte) (neg : Bool) (ip fp fd ex ed : List Byte) (x : Int) (en : List Byte)
    (hs : Sign sg neg) (hip : ∀ c ∈ ip, isDigit c) (hfp : Fraction fp fd) (hdig : ip ++ fd ≠ []) (hex : Exponent ex ed x) (hed : ex ≠ [] → ed ≠ [])
    (hen : Suffix en) (hil : decVal ip < 10 ^ 1000) (hfl : fd.length ≤ 308) (hx : 309 ≤ x) (hx4 : x < 1000 ∨ (en = [] ∧ x < 10000)) :
    realParse extended longDoubleMin (sg ++ (ip ++ (fp ++ (ex ++ en)))) = ok (some (if decVal ip = 0 ∧ decVal fd = 0 then .nan else .inf neg)) := by
  have hfd : ∀ c ∈ fd, isDigit c := by
    rcases hfp with ⟨_, rfl⟩ | ⟨_, h⟩
    · simp
    · exact h
  have h := realParse_usual4 extended longDoubleMin sg neg ip fp fd ex ed x en hs hip hfp hdig hex hed hen (by omega)
    (hx4.imp (fun h => ⟨by omega, h⟩) (fun h => ⟨h.1, by omega, h.2⟩))
  obtain ⟨d, e1, hd⟩ := mantissa80 ip fd hip hfd hil hfl
  rw [h, e1, ok_bind]
  unfold scaled
  rw [if_pos (by omega), pow10_large80 x hx, ok_bind]
  by_cases h0 : decVal ip = 0 ∧ decVal fd = 0
  · rw [h0.1, h0.2, Nat.cast_zero, zero_div, add_zero] at hd
    have hd0 : d = 0 := by
      have h1 := hd.1; have h2 := hd.2
      rw [zero_mul] at h1 h2
      exact le_antisymm h2 h1
    rw [if_pos hd0, if_pos h0]
    cases neg <;> rfl
  · have hv : (0 : ℚ) < decVal ip + decVal fd / 10 ^ fd.length := by
      by_cases h1 : decVal ip = 0
      · have : (0 : ℚ) < decVal fd := by exact_mod_cast Nat.pos_of_ne_zero (fun h2 => h0 ⟨h1, h2⟩)
        positivity
      · have : (0 : ℚ) < decVal ip := by exact_mod_cast Nat.pos_of_ne_zero h1
        positivity
    have hd0 : 0 < d := lt_of_lt_of_le (mul_pos hv (pow_pos (by norm_num) _)) hd.1
    have h1 : ¬ d < 0 := not_lt.mpr hd0.le
    rw [if_neg hd0.ne', if_neg h0]
    cases neg <;> simp [h1, extended]

/-- ... of exponents from -309 down: every number is read as zero ... -/
theorem C184_small_exponent (sg : List Byte) (neg : Bool) (ip fp fd ex ed : List Byte) (x : Int) (en : List Byte)
    (hs : Sign sg neg) (hip : ∀ c ∈ ip, isDigit c) (hfp : Fraction fp fd) (hdig : ip ++ fd ≠ []) (hex : Exponent ex ed x) (hed : ex ≠ [] → ed ≠ [])
    (hen : Suffix en) (hil : decVal ip < 10 ^ 1000) (hfl : fd.length ≤ 308) (hx : -4931 ≤ x ∧ x ≤ -309) (hx4 : -1000 < x ∨ en = []) :
    realParse extended longDoubleMin (sg ++ (ip ++ (fp ++ (ex ++ en)))) = ok (some (.num 0)) := by
  have hfd : ∀ c ∈ fd, isDigit c := by
    rcases hfp with ⟨_, rfl⟩ | ⟨_, h⟩
    · simp
    · exact h
  have h := realParse_usual4 extended longDoubleMin sg neg ip fp fd ex ed x en hs hip hfp hdig hex hed hen (by omega)
    (hx4.imp (fun h => ⟨h, by omega⟩) (fun h => ⟨h, by omega, by omega⟩))
  obtain ⟨d, e1, hd⟩ := mantissa80 ip fd hip hfd hil hfl
  rw [h, e1, ok_bind]
  unfold scaled
  rw [if_pos (by omega), pow10_small80 x hx, ok_bind]
  cases neg <;> simp [extended]

/-- ... of exponents below -4931, in the range of the subnormal numbers: the table is read out of its bounds ... -/
theorem C184_exponent_over_read (sg : List Byte) (neg : Bool) (ip fp fd ex ed : List Byte) (x : Int)
    (hs : Sign sg neg) (hip : ∀ c ∈ ip, isDigit c) (hfp : Fraction fp fd) (hdig : ip ++ fd ≠ []) (hex : Exponent ex ed x) (hed : ex ≠ [] → ed ≠ [])
    (hil : decVal ip < 10 ^ 1000) (hfl : fd.length ≤ 308) (hx : -10000 < x ∧ x < -4931) :
    realParse extended longDoubleMin (sg ++ (ip ++ (fp ++ ex))) = ub := by
  have hfd : ∀ c ∈ fd, isDigit c := by
    rcases hfp with ⟨_, rfl⟩ | ⟨_, h⟩
    · simp
    · exact h
  have h := realParse_usual4 extended longDoubleMin sg neg ip fp fd ex ed x [] hs hip hfp hdig hex hed (Or.inl rfl) (by omega) (Or.inr ⟨rfl, by omega, by omega⟩)
  rw [List.append_nil] at h
  obtain ⟨d, e1, -⟩ := mantissa80 ip fd hip hfd hil hfl
  have hp : pow10 extended longDoubleMin (.num d) x = ub := by
    unfold pow10 fract10Size longDoubleMin
    rw [if_neg (by omega), if_neg (by omega), if_neg (by decide)]
  rw [h, e1, ok_bind, scaled, if_pos (by omega), hp]
  rfl

/-- ... of more than 308 digits behind the point: they are all ignored ... -/
theorem C184_long_fraction (sg : List Byte) (neg : Bool) (ip fd en : List Byte) (hs : Sign sg neg) (hip : ∀ c ∈ ip, isDigit c) (hfd : ∀ c ∈ fd, isDigit c)
    (hen : Suffix en) (hv : decVal ip ≤ 2 ^ 64) (hfl : 309 ≤ fd.length ∧ fd.length ≤ 2000) :
    realParse extended longDoubleMin (sg ++ (ip ++ (46 :: fd ++ en))) = ok (some (withSign neg (decVal ip))) := by
  have hne : fd ≠ [] := by intro h; rw [h] at hfl; simp at hfl
  have h := realParse_usual extended longDoubleMin sg neg ip (46 :: fd) fd [] [] 0 en hs hip (Or.inr ⟨rfl, hfd⟩) (by simp [hne]) (Or.inl ⟨rfl, rfl, rfl⟩)
    (by simp) hen (by omega) (by omega)
  simp only [List.nil_append] at h
  have ez : extended.zero = .num 0 := rfl
  have z0 : Within (1 / 2 ^ 64) 0 ((0 : Nat) : ℚ) 0 := by rw [Nat.cast_zero]; exact within_self _ _
  have hF : decVal fd < 10 ^ fd.length := decVal_lt fd hfd
  have hF2 : (10 : ℕ) ^ fd.length ≤ 10 ^ 2000 := Nat.pow_le_pow_right (by omega) (by omega)
  have eb := horner80 fd 0 0 0 (by rw [zero_mul, zero_add]; exact le_trans hF.le hF2) z0 (by omega)
  obtain ⟨b, eb', hb⟩ := horner_within 64 ulp64 fd 0 0 0 le_rfl (within_self _ _)
  have hbig : (2 : ℕ) ^ 64 ≤ 10 ^ 2000 := le_trans (by norm_num : (2 : ℕ) ^ 64 ≤ 10 ^ 20) (Nat.pow_le_pow_right (by omega) (by omega))
  have hadd : extended.add (.num (decVal ip)) (.num 0) = .num (decVal ip) := by
    show rnd80 ((decVal ip : ℚ) + 0) = _
    rw [add_zero, rnd80_within (med_nat (le_trans hv hbig)) (within_self (1 / 2 ^ 64) _) (by omega), rnd_exact 64 (by omega) _ (by
        have := rep_int 64 (decVal ip : ℤ) (by rw [abs_of_nonneg (by omega)]; exact_mod_cast hv)
        exact_mod_cast this)]
  rw [h, mantissa, if_neg hne, ez, eb, eb', pow10_small80 _ (by omega), ok_bind, horner80_exact ip hip hv, hadd, ok_bind, scaled, if_neg (by simp), ok_bind]
  cases neg <;> rfl

/-- ... and of more than 4931: the table is read out of its bounds. -/
theorem C184_over_read (sg : List Byte) (neg : Bool) (ip fd en : List Byte) (hs : Sign sg neg) (hip : ∀ c ∈ ip, isDigit c) (hfd : ∀ c ∈ fd, isDigit c)
    (hen : Suffix en) (hfl : 4932 ≤ fd.length ∧ fd.length < 2 ^ 31) : realParse extended longDoubleMin (sg ++ (ip ++ (46 :: fd ++ en))) = ub := by
  have hne : fd ≠ [] := by intro h; rw [h] at hfl; simp at hfl
  have h := realParse_usual extended longDoubleMin sg neg ip (46 :: fd) fd [] [] 0 en hs hip (Or.inr ⟨rfl, hfd⟩) (by simp [hne]) (Or.inl ⟨rfl, rfl, rfl⟩)
    (by simp) hen (by omega) (by omega)
  simp only [List.nil_append] at h
  have hp : ∀ d, pow10 extended longDoubleMin d (-(fd.length : Int)) = ub := by
    intro d
    unfold pow10 fract10Size longDoubleMin
    rw [if_neg (by omega), if_neg (by omega), if_neg (by decide)]
  rw [h, mantissa, if_neg hne, hp]
  rfl

/-- **C184** (negative result): the exponent 23 is enough to lose what the type could hold.  `10^23` is a number of 64 bits, but "1e23" is read as the `double`
nearest to it. -/
theorem C184_table (sg : List Byte) (neg : Bool) (en : List Byte) (hs : Sign sg neg) (hen : Suffix en) :
    Rep 64 (10 ^ 23) ∧ realParse extended longDoubleMin (sg ++ ([49] ++ ([101, 50, 51] ++ en))) = ok (some (withSign neg 99999999999999991611392)) := by
  refine ⟨⟨5 ^ 23, 23, by norm_num, by norm_num⟩, ?_⟩
  have h := realParse_usual extended longDoubleMin sg neg [49] [] [] [101, 50, 51] [50, 51] 23 en hs (by decide) (Or.inl ⟨rfl, rfl⟩) (by simp)
    (Or.inr ⟨101, [], false, Or.inl rfl, Or.inl ⟨rfl, rfl⟩, by decide, rfl, by decide⟩) (by simp) hen (by simp) (by omega)
  simp only [List.nil_append] at h
  have ez : extended.zero = .num 0 := rfl
  have e1 : decVal [49] = 1 := by decide
  have ht : rnd64 (tableEntry 23) = .num 99999999999999991611392 := by
    have hr : rnd 53 (10 ^ 23) = 99999999999999991611392 := by
      have := rnd_eq 53 (10 ^ 23) 5960464477539062 24 (by norm_num) (by norm_num) (Or.inr ⟨by rw [abs_le]; norm_num, by norm_num⟩)
      rw [this]; norm_num
    have := table_ieee 23 (by omega) (by omega)
    have e2 : tableEntry 23 = 10 ^ 23 := by norm_num [tableEntry]
    rw [e2, hr] at this
    rw [e2]; exact this
  have hM : Med 99999999999999991611392 := by
    have h1 : (99999999999999991611392 : ℕ) ≤ 10 ^ 2000 :=
      le_trans (by norm_num : (99999999999999991611392 : ℕ) ≤ 10 ^ 23) (Nat.pow_le_pow_right (by omega) (by omega))
    exact_mod_cast med_nat h1
  have hm : extended.mulTable (.num 1) 23 = .num 99999999999999991611392 := by
    show mul80 (.num 1) (rnd64 (tableEntry 23)) = _
    rw [ht, mul80, one_mul, rnd80_within hM (within_self (1 / 2 ^ 64) _) (by omega),
      rnd_exact 64 (by omega) _ ⟨5960464477539062, 24, by norm_num, by norm_num⟩]
  rw [h, mantissa, if_pos rfl, ok_bind, ez, horner80_exact [49] (by decide) (by rw [e1]; norm_num), e1, scaled, if_pos (by omega), pow10, if_neg (by omega),
    if_pos (by simp [longDoubleMin]), if_pos (by simp [fract10Size]), if_pos (by omega)]
  have : (23 : Int).natAbs = 23 := rfl
  rw [this, Nat.cast_one, hm, ok_bind]
  cases neg <;> rfl

/-! ## Cases -/

/-- `-12.5e-3`. -/
example := C184_error_bound_partial [45] true [49, 50] [46, 53] [53] [101, 45, 51] [51] (-3) [] (by simp [Sign]) (by decide) (Or.inr ⟨rfl, by decide⟩) (by simp)
  (Or.inr ⟨101, [45], true, by simp, by simp [Sign], by decide, rfl, by decide⟩) (by simp) (Or.inl rfl)
  (lt_of_lt_of_le (show decVal [49, 50] < 10 ^ 2 by decide) (Nat.pow_le_pow_right (by omega) (by omega))) (by simp) (by omega)

/-- `18446744073709551615`, which `double` cannot hold. -/
example : realParse extended longDoubleMin [49, 56, 52, 52, 54, 55, 52, 52, 48, 55, 51, 55, 48, 57, 53, 53, 49, 54, 49, 53] = ok (some (.num 18446744073709551615)) := by
  have h := C184_integer_exact longDoubleMin [] false [49, 56, 52, 52, 54, 55, 52, 52, 48, 55, 51, 55, 48, 57, 53, 53, 49, 54, 49, 53] [] (by simp [Sign]) (by decide)
    (by simp) (Or.inl rfl) (by decide)
  have e : decVal [49, 56, 52, 52, 54, 55, 52, 52, 48, 55, 51, 55, 48, 57, 53, 53, 49, 54, 49, 53] = 18446744073709551615 := by decide
  rw [e] at h
  simpa [withSign] using h

/-- `5e-22`. -/
example := C184_correctly_rounded [] false [53] [101, 45, 50, 50] [50, 50] [] (-22) (by simp [Sign]) (by decide) (by simp)
  (Or.inr ⟨101, [45], true, by simp, by simp [Sign], by decide, rfl, by decide⟩) (by simp) (Or.inl rfl) (by decide) (by decide)

/-- `-2e400` is minus infinity. -/
example : realParse extended longDoubleMin [45, 50, 101, 52, 48, 48] = ok (some (.inf true)) := by
  have := C184_large_exponent [45] true [50] [] [] [101, 52, 48, 48] [52, 48, 48] 400 [] (by simp [Sign]) (by decide) (Or.inl ⟨rfl, rfl⟩) (by simp)
    (Or.inr ⟨101, [], false, Or.inl rfl, Or.inl ⟨rfl, rfl⟩, by decide, rfl, by decide⟩) (by simp) (Or.inl rfl)
    (lt_of_lt_of_le (show decVal [50] < 10 ^ 1 by decide) (Nat.pow_le_pow_right (by omega) (by omega))) (by simp) (by omega) (by omega)
  rwa [if_neg (by decide)] at this

/-- `3e-400` is zero. -/
example : realParse extended longDoubleMin [51, 101, 45, 52, 48, 48] = ok (some (.num 0)) :=
  C184_small_exponent [] false [51] [] [] [101, 45, 52, 48, 48] [52, 48, 48] (-400) [] (by simp [Sign]) (by decide) (Or.inl ⟨rfl, rfl⟩) (by simp)
    (Or.inr ⟨101, [45], true, Or.inl rfl, by simp [Sign], by decide, rfl, by decide⟩) (by simp) (Or.inl rfl)
    (lt_of_lt_of_le (show decVal [51] < 10 ^ 1 by decide) (Nat.pow_le_pow_right (by omega) (by omega))) (by simp) (by omega) (by omega)

/-- `3e-4940`, a subnormal number. -/
example : realParse extended longDoubleMin [51, 101, 45, 52, 57, 52, 48] = ub :=
  C184_exponent_over_read [] false [51] [] [] [101, 45, 52, 57, 52, 48] [52, 57, 52, 48] (-4940) (by simp [Sign]) (by decide) (Or.inl ⟨rfl, rfl⟩) (by simp)
    (Or.inr ⟨101, [45], true, Or.inl rfl, by simp [Sign], by decide, rfl, by decide⟩) (by simp)
    (lt_of_lt_of_le (show decVal [51] < 10 ^ 1 by decide) (Nat.pow_le_pow_right (by omega) (by omega))) (by simp) (by omega)

theorem threes (n : Nat) : ∀ c ∈ List.replicate n (51 : Byte), isDigit c := by
  intro c hc
  rw [(List.mem_replicate.mp hc).2]
  decide

/-- `0.333...` with 309 threes is zero. -/
example : realParse extended longDoubleMin ([] ++ ([48] ++ (46 :: List.replicate 309 51 ++ []))) = ok (some (.num 0)) := by
  have := C184_long_fraction [] false [48] (List.replicate 309 51) [] (by simp [Sign]) (by decide) (threes 309) (Or.inl rfl) (by decide)
    (by rw [List.length_replicate]; omega)
  rw [show decVal [48] = 0 by decide] at this
  rw [this]
  simp [withSign]

example := C184_over_read [] false [48] (List.replicate 5000 51) [] (by simp [Sign]) (by decide) (threes 5000) (Or.inl rfl) (by rw [List.length_replicate]; omega)

example := C184_table [] false [] (by simp [Sign]) (Or.inl rfl)

end Strtk.Real
