import Verif.Real.Trip64

/-!
# C162: `float`

A `float` is converted from text in `double` arithmetic and then narrowed (strtk.hpp 287, 17623, 17775).  Here that last step is modelled, and it is shown that the
ten digits that `type_to_string` writes are enough for every `float`.
-/

namespace Strtk.Real
open Outcome Mem Number

set_option exponentiation.threshold 2000

/-- The exponent of the last place of a binary32 number of the size of `q`: 24 significant bits, but nothing below `2^-149`. -/
def lastPlace32 (q : ℚ) : ℤ := max (Int.log 2 |q| - 23) (-149)

/-- `static_cast<float>` of a finite `double` (17775): rounding to binary32, to nearest, ties to even; from `2^128` on the result is infinite, as IEEE 754 has it. -/
def rnd32 (q : ℚ) : Val :=
  let r : ℚ := rne (q / 2 ^ lastPlace32 q) * 2 ^ lastPlace32 q
  if |r| < 2 ^ 128 then .num r else .inf (decide (q < 0))

/-- `static_cast<float>` of a `double` (17775). -/
def toFloat : Val → Val
  | .num q => rnd32 q
  | .inf neg => .inf neg
  | .nan => .nan

/-- `string_to_type_converter` for `float` (17617-17777): the conversion works in `double` (287, 17623); infinities and `nan` are assigned to the `float` directly
(17584-17614). -/
def floatParse (s : List Byte) : Outcome (Option Val) := do
  let r ← realParse ieee doubleMin s
  ok (r.map toFloat)

/-- A `float` written by `type_to_string` and converted back. -/
def floatTrip (v : Val) : Outcome (Option Val) := do
  let s ← realToString v
  floatParse s

/-! ## Specification -/

/-- The finite `float`s: an integer of at most 24 bits times a power of two between `2^-149` and `2^104`. -/
def IsFloat (q : ℚ) : Prop := ∃ k j : ℤ, |k| < 2 ^ 24 ∧ -149 ≤ j ∧ j ≤ 104 ∧ q = k * (2 : ℚ) ^ j

/-! ## Proofs -/

theorem IsFloat.bound {q : ℚ} (h : IsFloat q) : |q| < 2 ^ 128 := by
  obtain ⟨k, j, h1, h2, h3, rfl⟩ := h
  rw [abs_mul, abs_of_pos (by positivity : (0 : ℚ) < 2 ^ j)]
  have a : (2 : ℚ) ^ j ≤ 2 ^ (104 : ℤ) := zpow_le_zpow_right₀ (by norm_num) h3
  have b : |(k : ℚ)| < 2 ^ 24 := by exact_mod_cast h1
  calc |(k : ℚ)| * 2 ^ j < 2 ^ 24 * 2 ^ j := mul_lt_mul_of_pos_right b (by positivity)
    _ ≤ 2 ^ 24 * 2 ^ (104 : ℤ) := mul_le_mul_of_nonneg_left a (by norm_num)
    _ = 2 ^ 128 := by norm_num

theorem IsFloat.least {q : ℚ} (h : IsFloat q) (hq : q ≠ 0) : (2 : ℚ) ^ (-149 : ℤ) ≤ |q| := by
  obtain ⟨k, j, h1, h2, h3, rfl⟩ := h
  have hk : k ≠ 0 := by rintro rfl; simp at hq
  rw [abs_mul, abs_of_pos (by positivity : (0 : ℚ) < 2 ^ j)]
  have a : (2 : ℚ) ^ (-149 : ℤ) ≤ 2 ^ j := zpow_le_zpow_right₀ (by norm_num) h2
  have b : (1 : ℚ) ≤ |(k : ℚ)| := by exact_mod_cast Int.one_le_abs hk
  nlinarith [(by positivity : (0 : ℚ) < 2 ^ j)]

/-- A `float` is a multiple of each unit up to its last place. -/
theorem IsFloat.multiple {q : ℚ} (h : IsFloat q) (hq : q ≠ 0) (l : ℤ) (hl : l ≤ lastPlace32 q) : ∃ m : ℤ, q = m * (2 : ℚ) ^ l := by
  obtain ⟨k, j, h1, h2, h3, rfl⟩ := h
  suffices hj : l ≤ j by
    refine ⟨k * 2 ^ (j - l).toNat, ?_⟩
    push_cast
    rw [mul_assoc, ← zpow_natCast, ← zpow_add₀ (by norm_num)]
    congr 2
    omega
  by_contra hlt
  rw [not_le] at hlt
  unfold lastPlace32 at hl
  have hn : Int.log 2 |(k : ℚ) * 2 ^ j| - 23 > j := by
    rcases le_max_iff.mp hl with h | h <;> omega
  have h4 := log_le hq
  rw [abs_mul, abs_of_pos (by positivity : (0 : ℚ) < 2 ^ j)] at h4
  rw [abs_mul, abs_of_pos (by positivity : (0 : ℚ) < 2 ^ j)] at hn
  have h5 : (2 : ℚ) ^ (j + 24) ≤ 2 ^ Int.log 2 (|(k : ℚ)| * 2 ^ j) := zpow_le_zpow_right₀ (by norm_num) (by omega)
  have h6 : |(k : ℚ)| < 2 ^ 24 := by exact_mod_cast h1
  have h7 : |(k : ℚ)| * 2 ^ j < 2 ^ 24 * 2 ^ j := mul_lt_mul_of_pos_right h6 (by positivity)
  rw [zpow_add₀ (by norm_num)] at h5
  have h8 : (2 : ℚ) ^ (24 : ℤ) = 2 ^ 24 := by norm_num
  rw [h8, mul_comm] at h5
  linarith

theorem rne_near (x : ℚ) (k : ℤ) (h : |x - k| < 1 / 2) : rne x = k := by
  have h1 := abs_le.mp (rne_half x)
  have h2 := abs_lt.mp h
  have a : rne x < k + 1 := by
    have : (rne x : ℚ) < ((k + 1 : ℤ) : ℚ) := by push_cast; linarith [h1.2, h2.2]
    exact_mod_cast this
  have b : k - 1 < rne x := by
    have : ((k - 1 : ℤ) : ℚ) < (rne x : ℚ) := by push_cast; linarith [h1.1, h2.1]
    exact_mod_cast this
  omega

/-- What is close to a `float` is narrowed to it. -/
theorem rnd32_near {q r : ℚ} (h : IsFloat q) (hq : q ≠ 0) (hr : |r - q| ≤ 7 / 10 ^ 9 * |q|) : rnd32 r = .num q := by
  have hqp : 0 < |q| := abs_pos.mpr hq
  have hr1 : |q| * (1 - 7 / 10 ^ 9) ≤ |r| := by
    have := abs_sub_abs_le_abs_sub q r
    rw [abs_sub_comm] at this
    linarith
  have hr2 : |r| ≤ |q| * (1 + 7 / 10 ^ 9) := by
    have := abs_sub_abs_le_abs_sub r q
    linarith
  have hrp : 0 < |r| := lt_of_lt_of_le (mul_pos hqp (by norm_num)) hr1
  have hr0 : r ≠ 0 := abs_pos.mp hrp
  -- the exponents
  have lq1 := log_le hq
  have lq2 := lt_log hq
  have lr1 := log_le hr0
  have lr2 := lt_log hr0
  have hlow : Int.log 2 |q| - 1 ≤ Int.log 2 |r| := by
    by_contra hlt
    have : (2 : ℚ) ^ (Int.log 2 |r| + 1) ≤ 2 ^ (Int.log 2 |q| - 1) := zpow_le_zpow_right₀ (by norm_num) (by omega)
    rw [zpow_sub₀ (by norm_num : (2 : ℚ) ≠ 0), zpow_one] at this
    linarith
  -- the next power of two is too far away
  have hmul := h.multiple hq (lastPlace32 q) le_rfl
  have hgap : |q| + 2 ^ lastPlace32 q ≤ 2 ^ (Int.log 2 |q| + 1) ∨ Int.log 2 |q| < -149 := by
    by_cases hsub : Int.log 2 |q| < -149
    · exact Or.inr hsub
    left
    obtain ⟨m, hm⟩ := hmul
    have hle : lastPlace32 q ≤ Int.log 2 |q| + 1 := by unfold lastPlace32; omega
    generalize hL : lastPlace32 q = L at *
    have hpos : (0 : ℚ) < 2 ^ L := by positivity
    have hab : |q| = |(m : ℚ)| * 2 ^ L := by rw [hm, abs_mul, abs_of_pos hpos]
    have hsplit : (2 : ℚ) ^ (Int.log 2 |q| + 1) = ((2 ^ (Int.log 2 |q| + 1 - L).toNat : ℤ) : ℚ) * 2 ^ L := by
      push_cast
      rw [← zpow_natCast, ← zpow_add₀ (by norm_num)]
      congr 1
      omega
    rw [hsplit] at lq2 ⊢
    generalize (2 ^ (Int.log 2 |q| + 1 - L).toNat : ℤ) = N at *
    rw [hab] at lq2 ⊢
    have : |(m : ℚ)| < N := lt_of_mul_lt_mul_right lq2 hpos.le
    have : |m| < N := by exact_mod_cast this
    have : |(m : ℚ)| + 1 ≤ N := by exact_mod_cast this
    nlinarith
  have hq149 : -149 ≤ Int.log 2 |q| := by
    have := h.least hq
    exact (Int.zpow_le_iff_le_log (b := 2) (R := ℚ) (by omega) hqp).mp (by exact_mod_cast this)
  have hgap := hgap.resolve_right (by omega)
  have hup : Int.log 2 |r| ≤ Int.log 2 |q| := by
    by_contra hlt
    have h1 : (2 : ℚ) ^ (Int.log 2 |q| + 1) ≤ 2 ^ Int.log 2 |r| := zpow_le_zpow_right₀ (by norm_num) (by omega)
    have h2 : (2 : ℚ) ^ (Int.log 2 |q| - 23) ≤ 2 ^ lastPlace32 q := zpow_le_zpow_right₀ (by norm_num) (by unfold lastPlace32; omega)
    have h3 : (2 : ℚ) ^ (Int.log 2 |q| - 23) = 2 ^ (Int.log 2 |q| + 1) / 2 ^ 24 := by
      rw [show Int.log 2 |q| - 23 = (Int.log 2 |q| + 1) - (24 : ℕ) by push_cast; ring, zpow_sub₀ (by norm_num), zpow_natCast]
    rw [h3] at h2
    generalize (2 : ℚ) ^ (Int.log 2 |q| + 1) = A at *
    have : |q| * (7 / 10 ^ 9) < A / 2 ^ 24 := by
      have : |q| * (7 / 10 ^ 9) < A * (7 / 10 ^ 9) := mul_lt_mul_of_pos_right lq2 (by norm_num)
      have hA : 0 < A := lt_trans hqp lq2
      linarith
    linarith
  have hlp : lastPlace32 r ≤ lastPlace32 q := by unfold lastPlace32; omega
  obtain ⟨m, hm⟩ := h.multiple hq _ hlp
  have hpos : (0 : ℚ) < 2 ^ lastPlace32 r := by positivity
  have hround : rne (r / 2 ^ lastPlace32 r) = m := by
    apply rne_near
    have e : r / 2 ^ lastPlace32 r - m = (r - q) / 2 ^ lastPlace32 r := by
      rw [sub_div]
      congr 1
      rw [hm, mul_div_assoc, div_self hpos.ne', mul_one]
    rw [e, abs_div, abs_of_pos hpos, div_lt_iff₀ hpos]
    have h1 : (2 : ℚ) ^ (Int.log 2 |q| - 24) ≤ 2 ^ lastPlace32 r := zpow_le_zpow_right₀ (by norm_num) (by unfold lastPlace32; omega)
    have h3 : (2 : ℚ) ^ (Int.log 2 |q| - 24) = 2 ^ (Int.log 2 |q| + 1) / 2 ^ 25 := by
      rw [show Int.log 2 |q| - 24 = (Int.log 2 |q| + 1) - (25 : ℕ) by push_cast; ring, zpow_sub₀ (by norm_num), zpow_natCast]
    rw [h3] at h1
    generalize (2 : ℚ) ^ (Int.log 2 |q| + 1) = A at *
    have hA : 0 < A := lt_trans hqp lq2
    have : 7 / 10 ^ 9 * |q| < 7 / 10 ^ 9 * A := mul_lt_mul_of_pos_left lq2 (by norm_num)
    linarith
  unfold rnd32
  simp only [hround]
  rw [← hm, if_pos h.bound]

/-- Narrowing a value that is a `float` already does not change it. -/
theorem rnd32_exact {q : ℚ} (h : IsFloat q) : rnd32 q = .num q := by
  by_cases hq : q = 0
  · subst hq
    have : rne 0 = 0 := by simpa using rne_int 0
    simp [rnd32, this]
  · exact rnd32_near h hq (by simp)

/-- **C162.** Every finite `float` comes back unchanged. -/
theorem C162_every_float (q : ℚ) (h : IsFloat q) : floatTrip (.num q) = ok (some (.num q)) := by
  have key : ∀ r, roundTrip ieee doubleMin (.num q) = ok (some (.num r)) → rnd32 r = .num q → floatTrip (.num q) = ok (some (.num q)) := by
    intro r h1 h2
    unfold roundTrip at h1
    unfold floatTrip floatParse
    unfold realToString at *
    rw [ok_bind] at h1 ⊢
    rw [h1, ok_bind]
    show ok (some (rnd32 r)) = _
    rw [h2]
  by_cases hq : q = 0
  · subst hq
    refine key 0 ?_ (rnd32_exact h)
    simpa using C143_integers 0 (by norm_num)
  · have h1 := h.least hq
    have h2 := h.bound
    obtain ⟨r, hr, he⟩ := C143_error q (le_trans (by norm_num) h1) (lt_of_lt_of_le h2 (by norm_num))
    refine key r hr (rnd32_near h hq (le_trans he ?_))
    have : (2 : ℚ) ^ (-1074 : ℤ) ≤ 1 / 10 ^ 10 * 2 ^ (-149 : ℤ) := by norm_num
    generalize (2 : ℚ) ^ (-1074 : ℤ) = a at *
    generalize (2 : ℚ) ^ (-149 : ℤ) = b at *
    have : 0 ≤ |q| := abs_nonneg q
    linarith

/-- **C162**: infinities come back with their sign, and `nan` comes back as `nan`. -/
theorem C162_special : (∀ neg, floatTrip (.inf neg) = ok (some (.inf neg))) ∧ floatTrip .nan = ok (some .nan) := by
  refine ⟨fun neg => ?_, rfl⟩
  cases neg <;> rfl

/-- **C162**: different `float`s have different texts. -/
theorem C162_texts_differ (p q : ℚ) (hp : IsFloat p) (hq : IsFloat q) (h : realToString (.num p) = realToString (.num q)) : p = q := by
  have h1 := C162_every_float p hp
  have h2 := C162_every_float q hq
  unfold floatTrip at h1 h2
  rw [h, h2] at h1
  simpa using (Outcome.ok.inj h1).symm

/-! ## Texts -/

/-- Narrowing takes the next `float`. -/
theorem rnd32_nearest {q r : ℚ} (h : rnd32 q = .num r) : IsFloat r ∧ ∀ s, IsFloat s → |r - q| ≤ |s - q| := by
  by_cases hq : q = 0
  · subst hq
    have h0 : IsFloat 0 := ⟨0, 0, by norm_num, by norm_num, by norm_num, by simp⟩
    rw [rnd32_exact h0] at h
    cases h
    exact ⟨h0, fun s _ => by simp⟩
  have lq1 := log_le hq
  have lq2 := lt_log hq
  unfold rnd32 at h
  simp only at h
  split at h
  swap
  · simp at h
  rename_i hbig
  injection h with h
  rw [h] at hbig
  have hL : lastPlace32 q = max (Int.log 2 |q| - 23) (-149) := rfl
  have hnear := rne_nearest (q / 2 ^ lastPlace32 q)
  have hmono := rne_mono_int (q / 2 ^ lastPlace32 q)
  generalize lastPlace32 q = L at *
  generalize hk : rne (q / 2 ^ L) = k at *
  have hpos : (0 : ℚ) < 2 ^ L := by positivity
  have habs : |r| = |(k : ℚ)| * 2 ^ L := by rw [← h, abs_mul, abs_of_pos hpos]
  -- at most 24 bits
  have hle : |q| / 2 ^ L ≤ 2 ^ 24 := by
    rw [div_le_iff₀ hpos]
    refine le_trans lq2.le ?_
    rw [← zpow_natCast, ← zpow_add₀ (by norm_num)]
    exact zpow_le_zpow_right₀ (by norm_num) (by omega)
  have hx : |q / 2 ^ L| ≤ 2 ^ 24 := by rw [abs_div, abs_of_pos hpos]; exact hle
  have hk24 : |k| ≤ 2 ^ 24 := by
    rw [abs_le] at hx ⊢
    exact ⟨(hmono (-2 ^ 24)).1 (by push_cast; exact hx.1), (hmono (2 ^ 24)).2 (by push_cast; exact hx.2)⟩
  constructor
  · by_cases hk0 : k = 0
    · exact ⟨0, 0, by norm_num, by norm_num, by norm_num, by rw [← h, hk0]; simp⟩
    have hk1 : (1 : ℚ) ≤ |(k : ℚ)| := by exact_mod_cast Int.one_le_abs hk0
    rcases lt_or_eq_of_le hk24 with hlt | heq
    · refine ⟨k, L, hlt, by omega, ?_, h.symm⟩
      by_contra hc
      have hl : L = Int.log 2 |q| - 23 := by omega
      have : (2 : ℚ) ^ 23 ≤ |q / 2 ^ L| := by
        rw [abs_div, abs_of_pos hpos, le_div_iff₀ hpos]
        refine le_trans (le_of_eq ?_) lq1
        rw [← zpow_natCast, ← zpow_add₀ (by norm_num)]
        congr 1
        push_cast
        omega
      have hk23 : (2 : ℤ) ^ 23 ≤ |k| := by
        rcases le_abs.mp this with h1 | h1
        · exact le_trans ((hmono (2 ^ 23)).1 (by push_cast; exact h1)) (le_abs_self k)
        · have := (hmono (-2 ^ 23)).2 (by push_cast; linarith)
          exact le_trans (by omega) (neg_le_abs k)
      have hk23 : (2 : ℚ) ^ 23 ≤ |(k : ℚ)| := by exact_mod_cast hk23
      have h105 : (2 : ℚ) ^ (105 : ℤ) ≤ 2 ^ L := zpow_le_zpow_right₀ (by norm_num) (by omega)
      have : (2 : ℚ) ^ 23 * 2 ^ (105 : ℤ) ≤ |(k : ℚ)| * 2 ^ L := mul_le_mul hk23 h105 (by positivity) (abs_nonneg _)
      have e : (2 : ℚ) ^ 23 * 2 ^ (105 : ℤ) = 2 ^ 128 := by norm_num
      rw [e, ← habs] at this
      linarith
    · have h128 : (2 : ℚ) ^ (24 + L) < 2 ^ (128 : ℤ) := by
        rw [zpow_add₀ (by norm_num)]
        have : |(k : ℚ)| = 2 ^ 24 := by exact_mod_cast heq
        rw [habs, this] at hbig
        exact_mod_cast hbig
      have := (zpow_lt_zpow_iff_right₀ (by norm_num : (1 : ℚ) < 2)).mp h128
      have hs : k = 2 * (k / 2) := by
        rcases abs_eq (by norm_num) |>.mp heq with h1 | h1 <;> rw [h1] <;> norm_num
      refine ⟨k / 2, L + 1, ?_, by omega, by omega, ?_⟩
      · rcases abs_eq (by norm_num) |>.mp heq with h1 | h1 <;> rw [h1] <;> norm_num
      · rw [← h, zpow_add₀ (by norm_num), zpow_one]
        have : (k : ℚ) = 2 * ((k / 2 : ℤ) : ℚ) := by exact_mod_cast hs
        rw [this]
        push_cast
        ring
  · intro s hs
    -- numbers on the grid
    have hgrid : ∀ m : ℤ, |r - q| ≤ |(m : ℚ) * 2 ^ L - q| := by
      intro m
      have := hnear m
      have e : ∀ x : ℚ, x * 2 ^ L - q = (x - q / 2 ^ L) * 2 ^ L := by
        intro x
        rw [sub_mul, div_mul_cancel₀ _ hpos.ne']
      rw [← h, e, e, abs_mul, abs_mul]
      exact mul_le_mul_of_nonneg_right this (abs_nonneg _)
    obtain ⟨m, j, h1, h2, h3, rfl⟩ := hs
    by_cases hj : L ≤ j
    · have := hgrid (m * 2 ^ (j - L).toNat)
      refine le_trans this (le_of_eq ?_)
      congr 2
      push_cast
      rw [mul_assoc, ← zpow_natCast, ← zpow_add₀ (by norm_num)]
      congr 2
      omega
    · have hl : L = Int.log 2 |q| - 23 := by omega
      have hsmall : |(m : ℚ) * 2 ^ j| ≤ 2 ^ Int.log 2 |q| := by
        rw [abs_mul, abs_of_pos (by positivity : (0 : ℚ) < 2 ^ j)]
        have : |(m : ℚ)| < 2 ^ 24 := by exact_mod_cast h1
        calc |(m : ℚ)| * 2 ^ j ≤ 2 ^ 24 * 2 ^ j := mul_le_mul_of_nonneg_right this.le (by positivity)
          _ = 2 ^ ((24 : ℤ) + j) := by rw [zpow_add₀ (by norm_num)]; norm_num
          _ ≤ _ := zpow_le_zpow_right₀ (by norm_num) (by omega)
      have hpow : (2 : ℚ) ^ Int.log 2 |q| = 2 ^ 23 * 2 ^ L := by
        rw [← zpow_natCast, ← zpow_add₀ (by norm_num)]
        congr 1
        push_cast
        omega
      have hfar : |q| - 2 ^ Int.log 2 |q| ≤ |(m : ℚ) * 2 ^ j - q| := by
        have := abs_sub_abs_le_abs_sub q ((m : ℚ) * 2 ^ j)
        rw [abs_sub_comm] at this
        linarith
      refine le_trans ?_ hfar
      have hg1 := hgrid (2 ^ 23)
      have hg2 := hgrid (-(2 ^ 23))
      rw [show ((2 ^ 23 : ℤ) : ℚ) = 2 ^ 23 by norm_num, ← hpow] at hg1
      rw [show ((-(2 ^ 23) : ℤ) : ℚ) = -2 ^ 23 by norm_num, neg_mul, ← hpow] at hg2
      generalize (2 : ℚ) ^ Int.log 2 |q| = B at *
      rcases lt_or_gt_of_ne hq with hneg | hp
      · rw [abs_of_neg hneg] at lq1 ⊢
        rw [abs_of_nonneg (by linarith : 0 ≤ -B - q)] at hg2
        linarith
      · rw [abs_of_pos hp] at lq1 ⊢
        rw [abs_of_nonpos (by linarith : B - q ≤ 0)] at hg1
        linarith

/-- What is narrowed to infinity: everything from the middle between the largest `float` and `2^128` on. -/
theorem rnd32_overflow (q : ℚ) : (2 ^ 128 - 2 ^ 103 ≤ |q| → rnd32 q = .inf (decide (q < 0))) ∧ (|q| < 2 ^ 128 - 2 ^ 103 → ∃ r, rnd32 q = .num r) := by
  by_cases hq : q = 0
  · subst hq
    have h0 : IsFloat 0 := ⟨0, 0, by norm_num, by norm_num, by norm_num, by simp⟩
    refine ⟨fun h => ?_, fun _ => ⟨0, rnd32_exact h0⟩⟩
    norm_num at h
  have lq1 := log_le hq
  have lq2 := lt_log hq
  have hL : lastPlace32 q = max (Int.log 2 |q| - 23) (-149) := rfl
  have hmono := rne_mono_int (q / 2 ^ lastPlace32 q)
  have hhalf := rne_half (q / 2 ^ lastPlace32 q)
  have hnear := rne_nearest (q / 2 ^ lastPlace32 q)
  constructor
  · intro hbig
    have hlog : 127 ≤ Int.log 2 |q| := by
      refine (Int.zpow_le_iff_le_log (b := 2) (R := ℚ) (by omega) (abs_pos.mpr hq)).mp (le_trans ?_ hbig)
      norm_num
    unfold rnd32
    simp only
    rw [if_neg]
    rw [not_lt]
    have hl : lastPlace32 q = Int.log 2 |q| - 23 := by omega
    rw [abs_mul, abs_of_pos (by positivity : (0 : ℚ) < 2 ^ lastPlace32 q)]
    rcases lt_or_eq_of_le hlog with h128 | h127
    · have hpos : (0 : ℚ) < 2 ^ lastPlace32 q := by positivity
      have : (2 : ℚ) ^ 23 ≤ |q / 2 ^ lastPlace32 q| := by
        rw [abs_div, abs_of_pos hpos, le_div_iff₀ hpos]
        refine le_trans (le_of_eq ?_) lq1
        rw [← zpow_natCast, ← zpow_add₀ (by norm_num)]
        congr 1
        push_cast
        omega
      have hk23 : (2 : ℤ) ^ 23 ≤ |rne (q / 2 ^ lastPlace32 q)| := by
        rcases le_abs.mp this with h1 | h1
        · exact le_trans ((hmono (2 ^ 23)).1 (by push_cast; exact h1)) (le_abs_self _)
        · have := (hmono (-2 ^ 23)).2 (by push_cast; linarith)
          exact le_trans (by omega) (neg_le_abs _)
      have hk23 : (2 : ℚ) ^ 23 ≤ |(rne (q / 2 ^ lastPlace32 q) : ℚ)| := by exact_mod_cast hk23
      have h105 : (2 : ℚ) ^ (105 : ℤ) ≤ 2 ^ lastPlace32 q := zpow_le_zpow_right₀ (by norm_num) (by omega)
      have : (2 : ℚ) ^ 23 * 2 ^ (105 : ℤ) ≤ |(rne (q / 2 ^ lastPlace32 q) : ℚ)| * 2 ^ lastPlace32 q := mul_le_mul hk23 h105 (by positivity) (abs_nonneg _)
      have e : (2 : ℚ) ^ 23 * 2 ^ (105 : ℤ) = 2 ^ 128 := by norm_num
      rwa [e] at this
    · have hl : lastPlace32 q = 104 := by omega
      rw [hl] at *
      have e : (2 : ℚ) ^ (104 : ℤ) = 2 ^ 104 := by norm_num
      rw [e]
      have hx : (2 : ℚ) ^ 24 - 1 / 2 ≤ |q| / 2 ^ 104 := by
        rw [le_div_iff₀ (by norm_num)]
        refine le_trans (le_of_eq ?_) hbig
        norm_num
      have hx2 : |q| / 2 ^ 104 < 2 ^ 24 := by
        rw [div_lt_iff₀ (by norm_num)]
        rw [← h127] at lq2
        refine lt_of_lt_of_le lq2 ?_
        norm_num
      suffices hk : 2 ^ 24 ≤ |rne (q / 2 ^ 104)| by
        have hk : (2 : ℚ) ^ 24 ≤ |(rne (q / 2 ^ 104) : ℚ)| := by exact_mod_cast hk
        calc (2 : ℚ) ^ 128 = 2 ^ 24 * 2 ^ 104 := by norm_num
          _ ≤ _ := mul_le_mul_of_nonneg_right hk (by norm_num)
      rcases lt_or_gt_of_ne hq with hneg | hp
      · rw [abs_of_neg hneg, neg_div] at hx hx2
        have : rne (q / 2 ^ 104) = -2 ^ 24 := by
          have hf : ⌊q / 2 ^ 104⌋ = -2 ^ 24 := by
            rw [Int.floor_eq_iff]
            push_cast
            constructor <;> linarith
          unfold rne
          rw [hf]
          push_cast
          rw [if_neg (by linarith : ¬ (1 : ℚ) / 2 < q / 2 ^ 104 - -16777216), ite_self]
        rw [this]
        norm_num
      · rw [abs_of_pos hp] at hx hx2
        have : rne (q / 2 ^ 104) = 2 ^ 24 := by
          have hf : ⌊q / 2 ^ 104⌋ = 2 ^ 24 - 1 := by
            rw [Int.floor_eq_iff]
            push_cast
            constructor <;> linarith
          unfold rne
          rw [hf]
          push_cast
          rw [if_neg (by linarith)]
          rw [ite_self]
        rw [this]
        norm_num
  · intro hsmall
    refine ⟨(rne (q / 2 ^ lastPlace32 q) : ℚ) * 2 ^ lastPlace32 q, ?_⟩
    unfold rnd32
    simp only
    rw [if_pos]
    -- the largest `float` is nearer than `2^128`
    have hlog : Int.log 2 |q| ≤ 127 := by
      have : Int.log 2 |q| < 128 := (Int.lt_zpow_iff_log_lt (b := 2) (R := ℚ) (by omega) (abs_pos.mpr hq)).mp (lt_of_lt_of_le hsmall (by norm_num))
      omega
    have hpos : (0 : ℚ) < 2 ^ lastPlace32 q := by positivity
    have herr : |(rne (q / 2 ^ lastPlace32 q) : ℚ) * 2 ^ lastPlace32 q - q| ≤ 1 / 2 * 2 ^ lastPlace32 q := by
      have e : (rne (q / 2 ^ lastPlace32 q) : ℚ) * 2 ^ lastPlace32 q - q = ((rne (q / 2 ^ lastPlace32 q) : ℚ) - q / 2 ^ lastPlace32 q) * 2 ^ lastPlace32 q := by
        rw [sub_mul, div_mul_cancel₀ _ hpos.ne']
      rw [e, abs_mul, abs_of_pos hpos]
      exact mul_le_mul_of_nonneg_right hhalf hpos.le
    have h104 : (2 : ℚ) ^ lastPlace32 q ≤ 2 ^ (104 : ℤ) := zpow_le_zpow_right₀ (by norm_num) (by omega)
    have e : (2 : ℚ) ^ (104 : ℤ) = 2 ^ 104 := by norm_num
    rw [e] at h104
    have := abs_sub_abs_le_abs_sub ((rne (q / 2 ^ lastPlace32 q) : ℚ) * 2 ^ lastPlace32 q) q
    have h3 : (2 : ℚ) ^ 103 = 1 / 2 * 2 ^ 104 := by norm_num
    linarith

/-- **C162**: the text of a number below `2^128 - 2^103` by more than the error of the conversion to `double` gives a `float`, and no other `float` is nearer by more than twice
that error.  The form of the number and the limits are those of `C140_error_bound_partial`. -/
theorem C162_nearest (sg : List Byte) (neg : Bool) (ip fp fd ex ed : List Byte) (x : Int) (en : List Byte)
    (hs : Sign sg neg) (hip : ∀ c ∈ ip, isDigit c) (hfp : Fraction fp fd) (hdig : ip ++ fd ≠ []) (hex : Exponent ex ed x) (hed : ex ≠ [] → ed ≠ [])
    (hen : Suffix en) (hil : decVal ip < 1797693134 * 10 ^ 299) (hfl : fd.length ≤ 307) (hx : -615 ≤ x ∧ x ≤ 308)
    (hv : (decVal ip + decVal fd / 10 ^ fd.length) * (10 : ℚ) ^ x ≤ 2 ^ 128 - 2 ^ 104) :
    let v := (if neg then -1 else 1) * ((decVal ip + decVal fd / 10 ^ fd.length) * (10 : ℚ) ^ x)
    ∃ r, floatParse (sg ++ (ip ++ (fp ++ (ex ++ en)))) = ok (some (.num r)) ∧ IsFloat r ∧
      ∀ s, IsFloat s → |r - v| ≤ |s - v| + 2 * (|v| / 2 ^ 43 + (2 : ℚ) ^ (-1074 : ℤ)) := by
  intro v
  have hvdef : v = (if neg then -1 else 1) * ((decVal ip + decVal fd / 10 ^ fd.length) * (10 : ℚ) ^ x) := rfl
  clear_value v
  obtain ⟨d, h1, h2⟩ := C140_error_bound_partial sg neg ip fp fd ex ed x en hs hip hfp hdig hex hed hen hil hfl hx (le_trans hv (by norm_num))
  have hv0 : 0 ≤ (decVal ip + decVal fd / 10 ^ fd.length) * (10 : ℚ) ^ x := by positivity
  generalize (decVal ip + decVal fd / 10 ^ fd.length) * (10 : ℚ) ^ x = w at *
  have hvabs : |v| = w := by
    rw [hvdef]
    cases neg <;> simp [abs_of_nonneg hv0]
  have hd : |(if neg then -d else d) - v| ≤ w / 2 ^ 43 + (2 : ℚ) ^ (-1074 : ℤ) := by
    rw [hvdef]
    cases neg
    · simpa using h2
    · simp only [if_true]
      rw [show -d - -1 * w = -(d - w) by ring, abs_neg]
      exact h2
  have ht : (2 : ℚ) ^ (-1074 : ℤ) < 1 := by norm_num
  have hsmall : |if neg then -d else d| < 2 ^ 128 - 2 ^ 103 := by
    have := abs_sub_abs_le_abs_sub (if neg then -d else d) v
    rw [hvabs] at this
    generalize (2 : ℚ) ^ (-1074 : ℤ) = t at *
    have e : (2 : ℚ) ^ 128 / 2 ^ 43 + 1 < 2 ^ 103 := by norm_num
    have e2 : w / 2 ^ 43 ≤ 2 ^ 128 / 2 ^ 43 := div_le_div_of_nonneg_right (le_trans hv (by norm_num)) (by norm_num)
    have e3 : (2 : ℚ) ^ 104 = 2 * 2 ^ 103 := by norm_num
    linarith
  obtain ⟨r, hr⟩ := (rnd32_overflow _).2 hsmall
  obtain ⟨hf, hn⟩ := rnd32_nearest hr
  refine ⟨r, ?_, hf, ?_⟩
  · unfold floatParse
    rw [h1, ok_bind]
    show ok (some (rnd32 _)) = _
    rw [hr]
  · intro s hs
    have h3 := hn s hs
    rw [hvabs]
    generalize (if neg then -d else d) = y at *
    have h4 := abs_sub_le r y v
    have h5 := abs_sub_le s v y
    rw [abs_sub_comm v y] at h5
    linarith

/-- **C162**: the text of a number from `2^128` on gives infinity. -/
theorem C162_overflow (sg : List Byte) (neg : Bool) (ip fp fd ex ed : List Byte) (x : Int) (en : List Byte)
    (hs : Sign sg neg) (hip : ∀ c ∈ ip, isDigit c) (hfp : Fraction fp fd) (hdig : ip ++ fd ≠ []) (hex : Exponent ex ed x) (hed : ex ≠ [] → ed ≠ [])
    (hen : Suffix en) (hil : decVal ip < 1797693134 * 10 ^ 299) (hfl : fd.length ≤ 307) (hx : -615 ≤ x ∧ x ≤ 308)
    (hv : (decVal ip + decVal fd / 10 ^ fd.length) * (10 : ℚ) ^ x ≤ 1797693134 * 10 ^ 299)
    (hbig : 2 ^ 128 ≤ (decVal ip + decVal fd / 10 ^ fd.length) * (10 : ℚ) ^ x) :
    floatParse (sg ++ (ip ++ (fp ++ (ex ++ en)))) = ok (some (.inf neg)) := by
  obtain ⟨d, h1, h2⟩ := C140_error_bound_partial sg neg ip fp fd ex ed x en hs hip hfp hdig hex hed hen hil hfl hx hv
  generalize (decVal ip + decVal fd / 10 ^ fd.length) * (10 : ℚ) ^ x = w at *
  have ht : (2 : ℚ) ^ (-1074 : ℤ) < 1 := by norm_num
  have hd : 2 ^ 128 - 2 ^ 103 ≤ d := by
    have := (abs_le.mp h2).1
    generalize (2 : ℚ) ^ (-1074 : ℤ) = t at *
    have e : w * (1 - 1 / 2 ^ 43) ≥ 2 ^ 128 * (1 - 1 / 2 ^ 43) := mul_le_mul_of_nonneg_right hbig (by norm_num)
    have e2 : (2 : ℚ) ^ 128 * (1 - 1 / 2 ^ 43) - 1 ≥ 2 ^ 128 - 2 ^ 103 := by norm_num
    linarith
  have hd0 : 0 < d := lt_of_lt_of_le (by norm_num) hd
  unfold floatParse
  rw [h1, ok_bind]
  show ok (some (rnd32 (if neg then -d else d))) = _
  cases neg
  · have := (rnd32_overflow d).1 (by rwa [abs_of_pos hd0])
    simp only [Bool.false_eq_true, if_false]
    rw [this, decide_eq_false (by linarith)]
  · have := (rnd32_overflow (-d)).1 (by rwa [abs_neg, abs_of_pos hd0])
    simp only [if_true]
    rw [this, decide_eq_true (by linarith)]

/-! ## Examples -/

/-- A tenth as a `float`, the largest one, the smallest one. -/
example : floatTrip (.num (13421773 / 2 ^ 27)) = ok (some (.num (13421773 / 2 ^ 27))) :=
  C162_every_float _ ⟨13421773, -27, by norm_num, by norm_num, by norm_num, by norm_num⟩
example : floatTrip (.num (-(2 ^ 24 - 1) * 2 ^ 104)) = ok (some (.num (-(2 ^ 24 - 1) * 2 ^ 104))) :=
  C162_every_float _ ⟨-(2 ^ 24 - 1), 104, by norm_num, by norm_num, by norm_num, by norm_num⟩
example : floatTrip (.num (2 ^ (-149 : ℤ))) = ok (some (.num (2 ^ (-149 : ℤ)))) :=
  C162_every_float _ ⟨1, -149, by norm_num, by norm_num, by norm_num, by norm_num⟩

/-- `1e39`. -/
example : floatParse [49, 101, 51, 57] = ok (some (.inf false)) := by
  have e : decVal [49] = 1 := by decide
  exact C162_overflow [] false [49] [] [] [101, 51, 57] [51, 57] 39 [] (Or.inl ⟨rfl, rfl⟩) (by decide) (Or.inl ⟨rfl, rfl⟩) (by simp)
    (Or.inr ⟨101, [], false, Or.inl rfl, Or.inl ⟨rfl, rfl⟩, by decide, rfl, by decide⟩) (by simp) (Or.inl rfl) (by rw [e]; norm_num) (by simp) (by omega)
    (by rw [e]; norm_num [decVal]) (by rw [e]; norm_num [decVal])

end Strtk.Real
