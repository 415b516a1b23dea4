import Verif.Grid.Sums
import Verif.Real.Ieee

/-!
# Sums over a token grid in `double` (strtk.hpp 6960-7066)

The loops are those of `Grid/Sums.lean`; the conversion is that of `Real/Model.lean` in the arithmetic of `Real/Ieee.lean`.
-/

namespace Strtk.Grid
open Outcome Split Real
open Number (isDigit decVal)

set_option exponentiation.threshold 2000

/-- `double` results over the characters of the tokens: the conversion (17616-17777; `current_value` is left as it was when it fails) and `result += current_value` (6979, 7010, 7055). -/
def realArith (buf : List Number.Byte) : Arith (Nat × Nat) Val :=
  ⟨fun t cur => do
    let r ← realParse ieee doubleMin (textOf buf t)
    match r with
    | some v => ok (true, v)
    | none => ok (false, cur), fun a b => ok (add64 a b)⟩

/-! ## Specification -/

/-- `w` is a decimal text of value `v`: sign, digits, fraction, exponent, suffix letter; at most 307 digits after the point, an exponent from -615 to 308, and a value up to
1.797693134e308. -/
def DecimalText (w : List Number.Byte) (v : ℚ) : Prop :=
  ∃ sg neg ip fp fd ex ed x en, w = sg ++ (ip ++ (fp ++ (ex ++ en))) ∧ Sign sg neg ∧ (∀ c ∈ ip, isDigit c) ∧ Fraction fp fd ∧ ip ++ fd ≠ [] ∧ Exponent ex ed x ∧
    (ex ≠ [] → ed ≠ []) ∧ Suffix en ∧ decVal ip < 1797693134 * 10 ^ 299 ∧ fd.length ≤ 307 ∧ (-615 ≤ x ∧ x ≤ 308) ∧
    (decVal ip + decVal fd / 10 ^ fd.length) * (10 : ℚ) ^ x ≤ 1797693134 * 10 ^ 299 ∧
    v = if neg then -((decVal ip + decVal fd / 10 ^ fd.length) * (10 : ℚ) ^ x) else (decVal ip + decVal fd / 10 ^ fd.length) * (10 : ℚ) ^ x

/-- `w` is an integer of at most `2^53` in absolute value, possibly with a suffix letter. -/
def IntegerText (w : List Number.Byte) (v : ℤ) : Prop :=
  ∃ sg neg ip en, w = sg ++ (ip ++ en) ∧ Sign sg neg ∧ (∀ c ∈ ip, isDigit c) ∧ ip ≠ [] ∧ Suffix en ∧ decVal ip ≤ 2 ^ 53 ∧ v = if neg then -(decVal ip : ℤ) else decVal ip

/-! ## One addition -/

/-- A finite result of a rounding, of whatever sign, is within half a last place. -/
theorem rnd64_signed {q r : ℚ} (h : rnd64 q = .num r) : |r - q| ≤ 1 / 2 ^ 53 * |q| + 1 / 2 ^ 1075 ∧ (∃ k : ℤ, r = k / 2 ^ 1074) ∧
    ((∃ k : ℤ, q = k / 2 ^ 1074) → |r - q| ≤ 1 / 2 ^ 53 * |q|) := by
  unfold rnd64 at h
  simp only at h
  split at h
  swap
  · cases h
  injection h with h
  have hge : -1074 ≤ lastPlace q := le_max_right _ _
  have hpos : (0 : ℚ) < 2 ^ lastPlace q := by positivity
  have e : ∀ y : ℚ, y * 2 ^ lastPlace q - q = (y - q / 2 ^ lastPlace q) * 2 ^ lastPlace q := by
    intro y; rw [sub_mul, div_mul_cancel₀ _ hpos.ne']
  have herr : |r - q| ≤ 1 / 2 * 2 ^ lastPlace q := by
    rw [← h, e, abs_mul, abs_of_pos hpos]
    exact mul_le_mul_of_nonneg_right (rne_half _) hpos.le
  have hq0 : q = 0 → r = 0 := by
    rintro rfl
    rw [← h, zero_div, show (0 : ℚ) = ((0 : ℤ) : ℚ) by simp, rne_int]
    simp
  have hnormal : lastPlace q ≠ -1074 → |r - q| ≤ 1 / 2 ^ 53 * |q| := by
    intro hl
    by_cases hq : q = 0
    · rw [hq0 hq, hq]; simp
    have hl' : lastPlace q = Int.log 2 |q| - 52 := by
      unfold lastPlace at hl ⊢
      omega
    refine le_trans herr ?_
    have h1 := log_le hq
    rw [hl', zpow_sub₀ (by norm_num)]
    have : (2 : ℚ) ^ (52 : ℤ) = 2 ^ 52 := by norm_num
    rw [this]
    calc 1 / 2 * ((2 : ℚ) ^ Int.log 2 |q| / 2 ^ 52) = 1 / 2 ^ 53 * 2 ^ Int.log 2 |q| := by ring
      _ ≤ _ := mul_le_mul_of_nonneg_left h1 (by positivity)
  have h1074 : (2 : ℚ) ^ (-1074 : ℤ) = 1 / 2 ^ 1074 := by rw [zpow_neg, one_div]; norm_cast
  refine ⟨?_, ?_, ?_⟩
  · by_cases hl : lastPlace q = -1074
    · rw [hl, h1074] at herr
      have : (0 : ℚ) ≤ 1 / 2 ^ 53 * |q| := by positivity
      have e2 : (1 : ℚ) / 2 * (1 / 2 ^ 1074) = 1 / 2 ^ 1075 := by rw [pow_succ (2 : ℚ) 1074]; ring
      rw [e2] at herr
      linarith
    · have := hnormal hl
      have : (0 : ℚ) ≤ 1 / 2 ^ 1075 := by positivity
      linarith
  · refine ⟨rne (q / 2 ^ lastPlace q) * 2 ^ (lastPlace q + 1074).toNat, ?_⟩
    have e3 : (2 : ℚ) ^ lastPlace q = 2 ^ (lastPlace q + 1074).toNat / 2 ^ 1074 := by
      rw [← zpow_natCast, Int.toNat_of_nonneg (by omega), zpow_add₀ (by norm_num), show ((2 : ℚ) ^ (1074 : ℤ)) = 2 ^ 1074 by norm_cast,
        mul_div_cancel_right₀ _ (by positivity)]
    rw [← h]
    push_cast
    rw [mul_div_assoc, ← e3]
  · rintro ⟨k, hk⟩
    by_cases hl : lastPlace q = -1074
    · have : q / 2 ^ lastPlace q = (k : ℚ) := by
        rw [hl, h1074, hk, div_div_eq_mul_div, div_one, div_mul_cancel₀]
        positivity
      have hr : r = q := by
        rw [← h, this, rne_int, ← this, div_mul_cancel₀ _ hpos.ne']
      rw [hr]; simp
    · exact hnormal hl

/-- A sum that is not too large is finite. -/
theorem rnd64_finite {q : ℚ} (h : |q| * (1 + 1 / 2 ^ 53) + 1 / 2 ^ 1075 < 2 ^ 1024) : ∃ r, rnd64 q = .num r := by
  unfold rnd64
  simp only
  split
  · exact ⟨_, rfl⟩
  · rename_i hbig
    exfalso
    apply hbig
    have hpos : (0 : ℚ) < 2 ^ lastPlace q := by positivity
    have e : ∀ y : ℚ, y * 2 ^ lastPlace q - q = (y - q / 2 ^ lastPlace q) * 2 ^ lastPlace q := by
      intro y; rw [sub_mul, div_mul_cancel₀ _ hpos.ne']
    have herr : |(rne (q / 2 ^ lastPlace q) : ℚ) * 2 ^ lastPlace q - q| ≤ 1 / 2 * 2 ^ lastPlace q := by
      rw [e, abs_mul, abs_of_pos hpos]
      exact mul_le_mul_of_nonneg_right (rne_half _) hpos.le
    have h1 : (1 : ℚ) / 2 * 2 ^ lastPlace q ≤ 1 / 2 ^ 53 * |q| + 1 / 2 ^ 1075 := by
      by_cases hl : lastPlace q = -1074
      · rw [hl, show (2 : ℚ) ^ (-1074 : ℤ) = 1 / 2 ^ 1074 by rw [zpow_neg, one_div]; norm_cast]
        have : (0 : ℚ) ≤ 1 / 2 ^ 53 * |q| := by positivity
        have e2 : (1 : ℚ) / 2 * (1 / 2 ^ 1074) = 1 / 2 ^ 1075 := by rw [pow_succ (2 : ℚ) 1074]; ring
        rw [e2]; linarith
      · by_cases hq : q = 0
        · exfalso
          apply hbig
          subst hq
          rw [zero_div, show (0 : ℚ) = ((0 : ℤ) : ℚ) by simp, rne_int]
          simp
        have hl' : lastPlace q = Int.log 2 |q| - 52 := by
          unfold lastPlace at hl ⊢
          omega
        have h1 := log_le hq
        rw [hl', zpow_sub₀ (by norm_num), show (2 : ℚ) ^ (52 : ℤ) = 2 ^ 52 by norm_num]
        have : (1 : ℚ) / 2 * ((2 : ℚ) ^ Int.log 2 |q| / 2 ^ 52) ≤ 1 / 2 ^ 53 * |q| := by
          calc 1 / 2 * ((2 : ℚ) ^ Int.log 2 |q| / 2 ^ 52) = 1 / 2 ^ 53 * 2 ^ Int.log 2 |q| := by ring
            _ ≤ _ := mul_le_mul_of_nonneg_left h1 (by positivity)
        have h0 : (0 : ℚ) ≤ 1 / 2 ^ 1075 := by positivity
        linarith
    generalize (rne (q / 2 ^ lastPlace q) : ℚ) * 2 ^ lastPlace q = y at herr ⊢
    have := abs_sub_abs_le_abs_sub y q
    linarith

theorem rnd64_integer (n : ℤ) (h : |n| ≤ 2 ^ 53) : rnd64 n = .num n := by
  have h0 : ((n : ℚ)) = 0 ∨ (2 : ℚ) ^ (-1022 : ℤ) ≤ |(n : ℚ)| := by
    by_cases hn : n = 0
    · left; exact_mod_cast hn
    · right
      have : (1 : ℚ) ≤ |(n : ℚ)| := by exact_mod_cast Int.one_le_abs hn
      exact le_trans (by norm_num) this
  have hr := rnd_exact 53 (by omega) _ (rep_int 53 n h)
  rw [rnd64_eq _ h0, hr, if_pos]
  have : |(n : ℚ)| ≤ 2 ^ 53 := by exact_mod_cast h
  exact lt_of_le_of_lt this (by norm_num)

/-! ## Many additions -/

theorem addUp_real (s : Val) (vs : List Val) : addUp (fun a b => ok (add64 a b)) s vs = ok (vs.foldl add64 s) := by
  induction vs generalizing s with
  | nil => rfl
  | cons v vs ih => rw [addUp, ok_bind, ih]; rfl

theorem foldl_special (vs : List Val) : ∀ s : Val, (∀ q, s ≠ .num q) → ∀ q, vs.foldl add64 s ≠ .num q := by
  induction vs with
  | nil => intro s h q; exact h q
  | cons v vs ih =>
    intro s h
    refine ih _ fun q => ?_
    cases s with
    | num q => exact absurd rfl (h q)
    | nan => cases v <;> simp [add64]
    | inf b =>
      cases v with
      | num _ => simp [add64]
      | nan => simp [add64]
      | inf c => simp only [add64]; split <;> simp

/-- The bound for one addition after the other: `x` are the numbers added, `v` the ones that were meant. -/
theorem fold_bound (u c t : ℚ) (hu : 0 ≤ u) (hc : 0 ≤ c) (ht : 0 ≤ t) (P : ℚ → Prop)
    (hstep : ∀ a b r, P a → P b → rnd64 (a + b) = .num r → P r ∧ |r - (a + b)| ≤ u * |a + b| + t) :
    ∀ (l : List (ℚ × ℚ)) (s T A E r : ℚ), (∀ e ∈ l, P e.1 ∧ |e.1 - e.2| ≤ c * |e.2| + 2 * t) → P s → |T| ≤ A → |s - T| ≤ E →
      (l.map fun e => Val.num e.1).foldl add64 (.num s) = .num r →
        |r - (T + (l.map fun e => e.2).sum)| ≤ (1 + u) ^ l.length * E + ((1 + u) ^ l.length - 1) * A +
          ((1 + u) ^ l.length * (1 + c) - 1) * (l.map fun e => |e.2|).sum + 3 * l.length * (1 + u) ^ l.length * t := by
  intro l
  induction l with
  | nil =>
    intro s T A E r _ _ _ hE hr
    have : s = r := by simpa using hr
    subst this
    simpa using hE
  | cons e l ih =>
    intro s T A E r hl hs hT hE hr
    obtain ⟨hP, hd⟩ := hl e (by simp)
    rw [List.map_cons, List.foldl_cons] at hr
    rw [show add64 (.num s) (.num e.1) = rnd64 (s + e.1) from rfl] at hr
    cases h1 : rnd64 (s + e.1) with
    | inf b => rw [h1] at hr; exact absurd hr (foldl_special _ _ (by simp) r)
    | nan => rw [h1] at hr; exact absurd hr (foldl_special _ _ (by simp) r)
    | num r1 =>
      rw [h1] at hr
      obtain ⟨hP1, he1⟩ := hstep s e.1 r1 hs hP h1
      have hA : |T + e.2| ≤ A + |e.2| := le_trans (abs_add_le _ _) (by linarith)
      have hnear : |s + e.1 - (T + e.2)| ≤ E + (c * |e.2| + 2 * t) := by
        rw [show s + e.1 - (T + e.2) = (s - T) + (e.1 - e.2) by ring]
        exact le_trans (abs_add_le _ _) (by linarith)
      have hsize : |s + e.1| ≤ A + |e.2| + (E + (c * |e.2| + 2 * t)) := by
        have := abs_sub_abs_le_abs_sub (s + e.1) (T + e.2)
        linarith
      have hE1 : |r1 - (T + e.2)| ≤ (1 + u) * (E + (c * |e.2| + 2 * t)) + u * (A + |e.2|) + t := by
        rw [show r1 - (T + e.2) = (r1 - (s + e.1)) + (s + e.1 - (T + e.2)) by ring]
        refine le_trans (abs_add_le _ _) ?_
        have := mul_le_mul_of_nonneg_left hsize hu
        linarith
      have := ih r1 (T + e.2) (A + |e.2|) _ r (fun e' h' => hl e' (by simp [h'])) hP1 hA hE1 hr
      rw [List.map_cons, List.sum_cons, List.map_cons, List.sum_cons, List.length_cons, ← add_assoc]
      refine le_trans this ?_
      have hR : 0 ≤ (l.map fun e => |e.2|).sum := by
        apply List.sum_nonneg
        intro y hy
        obtain ⟨e, _, rfl⟩ := List.mem_map.mp hy
        exact abs_nonneg _
      generalize (l.map fun e => |e.2|).sum = R at *
      have hp1 : 1 ≤ (1 + u) ^ l.length := one_le_pow₀ (by linarith)
      rw [pow_succ]
      generalize (1 + u) ^ l.length = p at *
      push_cast
      have hn : (0 : ℚ) ≤ l.length := Nat.cast_nonneg _
      generalize (l.length : ℚ) = n at *
      have hv : 0 ≤ |e.2| := abs_nonneg _
      generalize |e.2| = v at *
      have a1 : 0 ≤ u * p * (1 + c) * R := by positivity
      have a2 : 0 ≤ 3 * n * p * u * t := by positivity
      have a3 : 0 ≤ p * u * t := by positivity
      nlinarith [a1, a2, a3]

theorem foldl_finite (u t : ℚ) (hu : 0 ≤ u) (ht : 0 ≤ t) (M : ℚ) (hfin : ∀ q, |q| * (1 + u) + t < M → ∃ r, rnd64 q = .num r ∧ |r - q| ≤ u * |q| + t) :
    ∀ (l : List ℚ) (s A : ℚ), |s| ≤ A → (A + (l.map fun x => |x|).sum) * (1 + u) ^ l.length + l.length * (1 + u) ^ l.length * t < M →
      ∃ r, (l.map Val.num).foldl add64 (.num s) = .num r := by
  intro l
  induction l with
  | nil => intro s A _ _; exact ⟨s, rfl⟩
  | cons x l ih =>
    intro s A hs hb
    rw [List.map_cons, List.sum_cons, List.length_cons, pow_succ] at hb
    have hR : 0 ≤ (l.map fun x => |x|).sum := by
      apply List.sum_nonneg
      intro y hy
      obtain ⟨e, _, rfl⟩ := List.mem_map.mp hy
      exact abs_nonneg _
    have hp1 : 1 ≤ (1 + u) ^ l.length := one_le_pow₀ (by linarith)
    have hx : |s + x| ≤ A + |x| := le_trans (abs_add_le _ _) (by linarith)
    have hA : 0 ≤ A := le_trans (abs_nonneg _) hs
    have hv : 0 ≤ |x| := abs_nonneg _
    have hn : (0 : ℚ) ≤ l.length := Nat.cast_nonneg _
    push_cast at hb
    have hone : |s + x| * (1 + u) + t < M := by
      refine lt_of_le_of_lt ?_ hb
      generalize (l.map fun x => |x|).sum = R at *
      generalize (1 + u) ^ l.length = p at *
      generalize (l.length : ℚ) = n at *
      have b1 : |s + x| * (1 + u) ≤ (A + (|x| + R)) * (1 + u) := mul_le_mul_of_nonneg_right (by linarith) (by linarith)
      have b2 : (A + (|x| + R)) * (1 + u) * 1 ≤ (A + (|x| + R)) * (1 + u) * p := mul_le_mul_of_nonneg_left hp1 (by positivity)
      have b3 : 1 ≤ (n + 1) * (p * (1 + u)) := by
        have : 1 ≤ p * (1 + u) := by nlinarith
        nlinarith
      have b4 : t * 1 ≤ t * ((n + 1) * (p * (1 + u))) := mul_le_mul_of_nonneg_left b3 ht
      nlinarith
    obtain ⟨r, hr, he⟩ := hfin _ hone
    rw [List.map_cons, List.foldl_cons, show add64 (.num s) (.num x) = rnd64 (s + x) from rfl, hr]
    refine ih r ((A + |x|) * (1 + u) + t) ?_ (lt_of_le_of_lt ?_ hb)
    · have h1 := abs_sub_abs_le_abs_sub r (s + x)
      have h2 := mul_le_mul_of_nonneg_right hx (by linarith : 0 ≤ 1 + u)
      linarith
    · generalize (l.map fun x => |x|).sum = R at *
      generalize (1 + u) ^ l.length = p at *
      generalize (l.length : ℚ) = n at *
      have c1 : 0 ≤ p * u * R := by positivity
      have c2 : 0 ≤ n * p * u * t := by positivity
      have c3 : 0 ≤ p * u * t := by positivity
      nlinarith

/-! ## The theorems -/

/-- **C170**: what `+=` on `double` gives for numbers added one after the other, in any number: unless the result is infinite, it differs from the sum by at most the fraction
`(1 + 2^-53)^n - 1` of the sum of the absolute values; and it is finite if the sum of the absolute values stays below `2^1024` by that fraction. -/
theorem C170_additions (s : ℚ) (xs : List ℚ) (hs : ∃ k : ℤ, s = k / 2 ^ 1074) (hx : ∀ x ∈ xs, ∃ k : ℤ, x = k / 2 ^ 1074) :
    (∀ r, addUp (fun a b => ok (add64 a b)) (.num s) (xs.map .num) = ok (.num r) →
      |r - (s + xs.sum)| ≤ ((1 + 1 / 2 ^ 53) ^ xs.length - 1) * (|s| + (xs.map fun x => |x|).sum)) ∧
    ((|s| + (xs.map fun x => |x|).sum) * (1 + 1 / 2 ^ 53) ^ xs.length + xs.length * (1 + 1 / 2 ^ 53) ^ xs.length / 2 ^ 1075 < 2 ^ 1024 →
      ∃ r, addUp (fun a b => ok (add64 a b)) (.num s) (xs.map .num) = ok (.num r)) := by
  constructor
  · intro r hr
    rw [addUp_real] at hr
    have hr := Outcome.ok.inj hr
    have e : xs.map Val.num = (xs.map fun x => (x, x)).map fun e => Val.num e.1 := by simp
    rw [e] at hr
    have := fold_bound (1 / 2 ^ 53) 0 0 (by norm_num) le_rfl le_rfl (fun x => ∃ k : ℤ, x = k / 2 ^ 1074) (by
      rintro a b r ⟨k, ha⟩ ⟨k', hb⟩ hr
      obtain ⟨_, h2, h3⟩ := rnd64_signed hr
      refine ⟨h2, ?_⟩
      rw [add_zero]
      exact h3 ⟨k + k', by rw [ha, hb]; push_cast; ring⟩) (xs.map fun x => (x, x)) s s |s| 0 r (by
        intro e he
        obtain ⟨x, h1, rfl⟩ := List.mem_map.mp he
        exact ⟨hx x h1, by simp⟩) hs le_rfl (by simp) hr
    simp only [List.map_map, List.length_map, Function.comp_def, List.map_id'] at this
    refine le_trans this (le_of_eq ?_)
    ring
  · intro h
    obtain ⟨r, hr⟩ := foldl_finite (1 / 2 ^ 53) (1 / 2 ^ 1075) (by norm_num) (by positivity) (2 ^ 1024) (fun q hq => by
      obtain ⟨r, hr⟩ := rnd64_finite hq
      exact ⟨r, hr, (rnd64_signed hr).1⟩) xs s |s| le_rfl (by rw [← mul_one_div _ ((2 : ℚ) ^ 1075)] at h; exact h)
    exact ⟨r, by rw [addUp_real, hr]⟩

/-- **C170**: integers are added exactly as long as every intermediate sum is at most `2^53` in absolute value. -/
theorem C170_additions_exact (xs : List ℤ) : ∀ s : ℤ, (∀ n, n ≠ 0 → n ≤ xs.length → |s + (xs.take n).sum| ≤ 2 ^ 53) →
    addUp (fun a b => ok (add64 a b)) (.num s) (xs.map fun x : ℤ => Val.num x) = ok (.num (s + xs.sum : ℤ)) := by
  induction xs with
  | nil => intro s _; simp [addUp]
  | cons x xs ih =>
    intro s h
    rw [List.map_cons, addUp, ok_bind]
    have h1 : add64 (.num s) (.num x) = .num ((s + x : ℤ) : ℚ) := by
      have := rnd64_integer (s + x) (by simpa using h 1 (by omega) (by simp))
      rw [← this]
      simp [add64]
    rw [h1, ih (s + x), List.sum_cons, add_assoc]
    intro n hn hl
    have := h (n + 1) (by omega) (by simpa using hl)
    rwa [List.take_succ_cons, List.sum_cons, ← add_assoc] at this

theorem conv_real {buf : List Number.Byte} {t : Nat × Nat} {v : Val} (h : realParse ieee doubleMin (textOf buf t) = ok (some v)) (c : Val) :
    (realArith buf).conv t c = ok (true, v) := by
  simp only [realArith, h, ok_bind]

theorem DecimalText.parse {w : List Number.Byte} {v : ℚ} (h : DecimalText w v) :
    ∃ x, realParse ieee doubleMin w = ok (some (.num x)) ∧ |x - v| ≤ 1 / 2 ^ 43 * |v| + 2 * (1 / 2 ^ 1075) := by
  obtain ⟨sg, neg, ip, fp, fd, ex, ed, x, en, rfl, h1, h2, h3, h4, h5, h6, h7, h8, h9, h10, h11, rfl⟩ := h
  obtain ⟨r, hr, he⟩ := C140_error_bound_partial sg neg ip fp fd ex ed x en h1 h2 h3 h4 h5 h6 h7 h8 h9 h10 h11
  refine ⟨_, hr, ?_⟩
  have hv : 0 ≤ (decVal ip + decVal fd / 10 ^ fd.length) * (10 : ℚ) ^ x := by positivity
  generalize (decVal ip + decVal fd / 10 ^ fd.length) * (10 : ℚ) ^ x = v at *
  have e1 : (2 : ℚ) ^ (-1074 : ℤ) = 2 * (1 / 2 ^ 1075) := by
    rw [zpow_neg, show (2 : ℚ) ^ (1074 : ℤ) = 2 ^ 1074 by norm_cast, pow_succ (2 : ℚ) 1074, inv_eq_one_div]
    have : (2 : ℚ) ^ 1074 ≠ 0 := by positivity
    field_simp
  rw [e1] at he
  cases neg
  · simp only [Bool.false_eq_true, if_false]
    rw [abs_of_nonneg hv]
    linarith
  · simp only [if_true]
    rw [abs_neg, abs_of_nonneg hv, show -r - -v = -(r - v) by ring, abs_neg]
    linarith

theorem IntegerText.parse {w : List Number.Byte} {v : ℤ} (h : IntegerText w v) : realParse ieee doubleMin w = ok (some (.num v)) := by
  obtain ⟨sg, neg, ip, en, rfl, h1, h2, h3, h4, h5, rfl⟩ := h
  rw [C140_integer_exact doubleMin sg neg ip en h1 h2 h3 h4 h5, withSign]
  cases neg <;> simp

/-- The tokens of a column every row of which has it, beside a value for each row. -/
theorem column_tokens {N : Type} (buf : List Number.Byte) (col : Nat) (Q : List Number.Byte → N → Prop) (num : List (List Number.Byte) → N) :
    ∀ rows : List (List (Nat × Nat)), (∀ row ∈ rows.map (fun r => r.map (textOf buf)), ∃ w, row[col]? = some w ∧ Q w (num row)) →
      ∃ l : List ((Nat × Nat) × N), (rows.filterMap fun r => r[col]?) = l.map Prod.fst ∧ (rows.map fun r => num (r.map (textOf buf))) = l.map Prod.snd ∧
        ∀ e ∈ l, Q (textOf buf e.1) e.2 := by
  intro rows
  induction rows with
  | nil => intro _; exact ⟨[], rfl, rfl, by simp⟩
  | cons r rows ih =>
    intro h
    obtain ⟨l, h1, h2, h3⟩ := ih fun row hrow => h row (by rw [List.map_cons]; exact List.mem_cons_of_mem _ hrow)
    obtain ⟨w, hw1, hw2⟩ := h (r.map (textOf buf)) (by simp)
    rw [List.getElem?_map, Option.map_eq_some_iff] at hw1
    obtain ⟨t, ht, rfl⟩ := hw1
    refine ⟨(t, num (r.map (textOf buf))) :: l, ?_, ?_, ?_⟩
    · rw [List.filterMap_cons, ht, List.map_cons, h1]
    · rw [List.map_cons, List.map_cons, h2]
    · intro e he
      rcases List.mem_cons.mp he with rfl | he
      · exact hw2
      · exact h3 e he

/-- **C170**: a column of a table written as text, in which every row has the column and the column holds decimal texts: unless the result is infinite or no number, it differs from
the start value plus the sum of the values of the texts by at most the stated fraction of the absolute values (a part in `2^43` for the conversions, and one in `2^53` for each
addition). -/
theorem C170_table (g : Grid (Nat × Nat)) (rows : List (List (Nat × Nat))) (buf : List Number.Byte) (h : Rep g rows) (col : Nat) (hc : col ≤ g.maxCol)
    (num : List (List Number.Byte) → ℚ) (s : ℚ)
    (hcell : ∀ row ∈ rows.map (fun r => r.map (textOf buf)), ∃ w, row[col]? = some w ∧ DecimalText w (num row))
    (vs : List ℚ) (hvs : vs = rows.map fun r => num (r.map (textOf buf))) :
    ∃ r, g.sumColumn (realArith buf) (.num 0) col 0 rows.length (.num s) = ok (rows.length, r) ∧
      ∀ q, r = .num q → |q - (s + vs.sum)| ≤ ((1 + 1 / 2 ^ 53) ^ rows.length * (1 + 1 / 2 ^ 43) - 1) * (|s| + (vs.map fun v => |v|).sum) +
        3 * rows.length * (1 + 1 / 2 ^ 53) ^ rows.length / 2 ^ 1075 := by
  obtain ⟨l, h1, h2, h3⟩ := column_tokens buf col DecimalText num rows hcell
  have hlen : l.length = rows.length := by
    have := congrArg List.length h2
    simpa using this.symm
  -- the numbers read
  let val : Nat × Nat → ℚ := fun t => match realParse ieee doubleMin (textOf buf t) with | ok (some (.num x)) => x | _ => 0
  have hval : ∀ e ∈ l, realParse ieee doubleMin (textOf buf e.1) = ok (some (.num (val e.1))) ∧ |val e.1 - e.2| ≤ 1 / 2 ^ 43 * |e.2| + 2 * (1 / 2 ^ 1075) := by
    intro e he
    obtain ⟨x, hx, hd⟩ := (h3 e he).parse
    have : val e.1 = x := by simp only [val, hx]
    rw [this]
    exact ⟨hx, hd⟩
  have hb : between 0 rows.length rows = rows := by simp [between]
  have hsum := (C165_column g rows h (realArith buf) (fun t => .num (val t)) (.num 0) col 0 rows.length hc ⟨Nat.zero_le _, Nat.le_refl _⟩ (.num s)).1 (by
    intro t ht c
    rw [hb, h1] at ht
    obtain ⟨e, he, rfl⟩ := List.mem_map.mp ht
    exact conv_real (hval e he).1 c)
  rw [hb, h1, show (realArith buf).add = fun a b => ok (add64 a b) from rfl, addUp_real, ok_bind, Nat.sub_zero] at hsum
  refine ⟨_, hsum, ?_⟩
  intro q hq
  have e : (l.map Prod.fst).map (fun t => Val.num (val t)) = (l.map fun e => (val e.1, e.2)).map fun e => Val.num e.1 := by simp
  rw [e] at hq
  have := fold_bound (1 / 2 ^ 53) (1 / 2 ^ 43) (1 / 2 ^ 1075) (by norm_num) (by norm_num) (by positivity) (fun _ => True)
    (fun a b r _ _ hr => ⟨trivial, (rnd64_signed hr).1⟩) (l.map fun e => (val e.1, e.2)) s s |s| 0 q (by
      intro e he
      obtain ⟨e', h', rfl⟩ := List.mem_map.mp he
      exact ⟨trivial, (hval e' h').2⟩) trivial le_rfl (by simp) hq
  rw [hvs, h2]
  simp only [List.map_map, List.length_map, Function.comp_def, hlen] at this ⊢
  refine le_trans this ?_
  have hp1 : (1 : ℚ) ≤ (1 + 1 / 2 ^ 53) ^ rows.length := one_le_pow₀ (by norm_num)
  generalize ((1 : ℚ) + 1 / 2 ^ 53) ^ rows.length = p at *
  have hs0 : 0 ≤ |s| := abs_nonneg s
  have : 0 ≤ p * (1 / 2 ^ 43) * |s| := by positivity
  rw [div_eq_mul_one_div (3 * (rows.length : ℚ) * p)]
  generalize (1 : ℚ) / 2 ^ 1075 = t at *
  nlinarith

/-- **C170**: a column of integers is added exactly as long as every intermediate sum is at most `2^53` in absolute value. -/
theorem C170_table_exact (g : Grid (Nat × Nat)) (rows : List (List (Nat × Nat))) (buf : List Number.Byte) (h : Rep g rows) (col : Nat) (hc : col ≤ g.maxCol)
    (num : List (List Number.Byte) → ℤ) (s : ℤ)
    (hcell : ∀ row ∈ rows.map (fun r => r.map (textOf buf)), ∃ w, row[col]? = some w ∧ IntegerText w (num row))
    (vs : List ℤ) (hvs : vs = rows.map fun r => num (r.map (textOf buf))) (hsmall : ∀ n, n ≠ 0 → n ≤ rows.length → |s + (vs.take n).sum| ≤ 2 ^ 53) :
    g.sumColumn (realArith buf) (.num 0) col 0 rows.length (.num s) = ok (rows.length, .num (s + vs.sum : ℤ)) := by
  obtain ⟨l, h1, h2, h3⟩ := column_tokens buf col IntegerText num rows hcell
  let val : Nat × Nat → Val := fun t => match realParse ieee doubleMin (textOf buf t) with | ok (some v) => v | _ => .nan
  have hval : ∀ e ∈ l, realParse ieee doubleMin (textOf buf e.1) = ok (some (val e.1)) ∧ val e.1 = .num e.2 := by
    intro e he
    have hx := (h3 e he).parse
    have : val e.1 = .num e.2 := by simp only [val, hx]
    rw [this]
    exact ⟨hx, rfl⟩
  have hb : between 0 rows.length rows = rows := by simp [between]
  have hsum := (C165_column g rows h (realArith buf) val (.num 0) col 0 rows.length hc ⟨Nat.zero_le _, Nat.le_refl _⟩ (.num s)).1 (by
    intro t ht c
    rw [hb, h1] at ht
    obtain ⟨e, he, rfl⟩ := List.mem_map.mp ht
    exact conv_real (hval e he).1 c)
  rw [hb, h1] at hsum
  have e : (l.map Prod.fst).map val = vs.map fun x : ℤ => Val.num x := by
    rw [hvs, h2, List.map_map, List.map_map]
    exact List.map_congr_left fun e he => (hval e he).2
  rw [e, show (realArith buf).add = fun a b => ok (add64 a b) from rfl, C170_additions_exact vs s (by
    intro n hn hl
    refine hsmall n hn ?_
    rw [hvs, List.length_map] at hl
    exact hl), ok_bind, Nat.sub_zero] at hsum
  exact hsum

/-- **C170**: a cell the conversion refuses ends the sum: the rows before it were added, and the number returned is 0. -/
theorem C170_no_number (g : Grid (Nat × Nat)) (rows : List (List (Nat × Nat))) (buf : List Number.Byte) (h : Rep g rows) (col : Nat) (hc : col ≤ g.maxCol)
    (num : List (List Number.Byte) → ℤ) (s : ℤ) (rs rs' : List (List (Nat × Nat))) (r : List (Nat × Nat)) (hrows : rows = rs ++ r :: rs')
    (hcell : ∀ row ∈ rs.map (fun r => r.map (textOf buf)), ∃ w, row[col]? = some w ∧ IntegerText w (num row))
    (t : Nat × Nat) (ht : r[col]? = some t) (hbad : realParse ieee doubleMin (textOf buf t) = ok none)
    (vs : List ℤ) (hvs : vs = rs.map fun r => num (r.map (textOf buf))) (hsmall : ∀ n, n ≠ 0 → n ≤ rs.length → |s + (vs.take n).sum| ≤ 2 ^ 53) :
    g.sumColumn (realArith buf) (.num 0) col 0 rows.length (.num s) = ok (0, .num (s + vs.sum : ℤ)) := by
  obtain ⟨l, h1, h2, h3⟩ := column_tokens buf col IntegerText num rs hcell
  let val : Nat × Nat → Val := fun t => match realParse ieee doubleMin (textOf buf t) with | ok (some v) => v | _ => .nan
  have hval : ∀ e ∈ l, realParse ieee doubleMin (textOf buf e.1) = ok (some (val e.1)) ∧ val e.1 = .num e.2 := by
    intro e he
    have hx := (h3 e he).parse
    have : val e.1 = .num e.2 := by simp only [val, hx]
    rw [this]
    exact ⟨hx, rfl⟩
  have hb : between 0 rows.length rows = rs ++ r :: rs' := by simp [between, hrows]
  have hsum := (C165_column g rows h (realArith buf) val (.num 0) col 0 rows.length hc ⟨Nat.zero_le _, Nat.le_refl _⟩ (.num s)).2 rs r t rs' hb ht (by
    intro t ht c
    rw [h1] at ht
    obtain ⟨e, he, rfl⟩ := List.mem_map.mp ht
    exact conv_real (hval e he).1 c) (fun c => ⟨c, by simp only [realArith, hbad, ok_bind]⟩)
  rw [h1] at hsum
  have e : (l.map Prod.fst).map val = vs.map fun x : ℤ => Val.num x := by
    rw [hvs, h2, List.map_map, List.map_map]
    exact List.map_congr_left fun e he => (hval e he).2
  rw [e, show (realArith buf).add = fun a b => ok (add64 a b) from rfl, C170_additions_exact vs s (by
    intro n hn hl
    refine hsmall n hn ?_
    rw [hvs, List.length_map] at hl
    exact hl), ok_bind] at hsum
  exact hsum

/-- **C170**: the order of the rows may matter: `2^53`, 1 and 1 give `2^53`; 1, 1 and `2^53` give `2^53 + 2`. And the error may be as large as the sum itself if numbers of different
sign cancel: `2^53`, 1 and `-2^53` give 0. -/
theorem C170_order_matters :
    addUp (fun a b => ok (add64 a b)) (.num 0) [.num (2 ^ 53), .num 1, .num 1] = ok (.num (2 ^ 53)) ∧
    addUp (fun a b => ok (add64 a b)) (.num 0) [.num 1, .num 1, .num (2 ^ 53)] = ok (.num (2 ^ 53 + 2)) ∧
    addUp (fun a b => ok (add64 a b)) (.num 0) [.num (2 ^ 53), .num 1, .num (-2 ^ 53)] = ok (.num 0) := by
  have hodd : rnd64 (2 ^ 53 + 1) = .num (2 ^ 53) := by
    have hlog : Int.log 2 |(2 ^ 53 + 1 : ℚ)| = 53 := by
      have : |(2 ^ 53 + 1 : ℚ)| = ((2 ^ 53 + 1 : ℕ) : ℚ) := by rw [abs_of_pos (by positivity)]; norm_num
      rw [this, Int.log_natCast, Nat.log_eq_of_pow_le_of_lt_pow (m := 53) (by norm_num) (by norm_num)]
      rfl
    have hl : lastPlace (2 ^ 53 + 1) = 1 := by
      unfold lastPlace
      rw [hlog]
      norm_num
    unfold rnd64
    simp only [hl]
    have : rne ((2 ^ 53 + 1) / 2 ^ (1 : ℤ)) = 2 ^ 52 := by
      unfold rne
      norm_num
    rw [this]
    norm_num
  have heven : rnd64 (2 ^ 53 + 2) = .num (2 ^ 53 + 2) := by
    have hr : Real.Rep 53 (2 ^ 53 + 2) := ⟨2 ^ 52 + 1, 1, by norm_num, by norm_num⟩
    rw [rnd64_eq _ (Or.inr (by norm_num)), rnd_exact 53 (by omega) _ hr, if_pos (by norm_num)]
  have hi : ∀ (q : ℚ) (n : ℤ), q = n → |n| ≤ 2 ^ 53 → rnd64 q = .num q := by
    intro q n hq hn; rw [hq]; exact rnd64_integer n hn
  have ha : ∀ a b : ℚ, add64 (.num a) (.num b) = rnd64 (a + b) := fun _ _ => rfl
  refine ⟨?_, ?_, ?_⟩
  · rw [addUp_real, List.foldl_cons, ha, hi (0 + 2 ^ 53) (2 ^ 53) (by norm_num) (by norm_num), zero_add, List.foldl_cons, ha, hodd, List.foldl_cons, ha, hodd]
    rfl
  · rw [addUp_real, List.foldl_cons, ha, hi (0 + 1) 1 (by norm_num) (by norm_num), List.foldl_cons, ha, hi (0 + 1 + 1) 2 (by norm_num) (by norm_num), List.foldl_cons, ha,
      show (0 + 1 + 1 + 2 ^ 53 : ℚ) = 2 ^ 53 + 2 by norm_num, heven]
    rfl
  · rw [addUp_real, List.foldl_cons, ha, hi (0 + 2 ^ 53) (2 ^ 53) (by norm_num) (by norm_num), zero_add, List.foldl_cons, ha, hodd, List.foldl_cons, ha,
      hi (2 ^ 53 + -2 ^ 53) 0 (by norm_num) (by norm_num), add_neg_cancel]
    rfl

-- cells as the theorems ask for them: "-0.25e1" and "+12f"
example : DecimalText [45, 48, 46, 50, 53, 101, 49] (-(5 / 2)) ∧ IntegerText [43, 49, 50, 102] 12 := by
  refine ⟨⟨[45], true, [48], [46, 50, 53], [50, 53], [101, 49], [49], 1, [], rfl, by simp [Sign], by decide, Or.inr ⟨rfl, by decide⟩, by simp, ?_, by simp, Or.inl rfl,
    by rw [show decVal [48] = 0 by decide]; norm_num, by simp, by omega, ?_, ?_⟩, ⟨[43], false, [49, 50], [102], rfl, by simp [Sign], by decide, by simp, Or.inr ⟨102, by decide, rfl⟩, by decide, by decide⟩⟩
  · exact Or.inr ⟨101, [], false, Or.inl rfl, Or.inl ⟨rfl, rfl⟩, by decide, rfl, by decide⟩
  · rw [show decVal [48] = 0 by decide, show decVal [50, 53] = 25 by decide]
    norm_num
  · rw [show decVal [48] = 0 by decide, show decVal [50, 53] = 25 by decide]
    norm_num

-- the table "7,3\n8,-12\n": every hypothesis of `C170_table_exact` holds, and the sum of the second column added to 100 is 91
example : ∃ g rows, load {} (· == 10) (· == 44) [55, 44, 51, 10, 56, 44, 45, 49, 50, 10] = ok g ∧ Rep g rows ∧
    g.sumColumn (realArith [55, 44, 51, 10, 56, 44, 45, 49, 50, 10]) (.num 0) 1 0 2 (.num 100) = ok (2, .num 91) := by
  have hrep : Rep (⟨⟨[(0, 1), (2, 3), (4, 5), (6, 9)], [(0, 1), (2, 3)]⟩, 2, 2⟩ : Grid (Nat × Nat)) [[(0, 1), (2, 3)], [(4, 5), (6, 9)]] := by
    constructor <;> decide
  refine ⟨_, [[(0, 1), (2, 3)], [(4, 5), (6, 9)]], by decide +kernel, hrep, ?_⟩
  refine C170_table_exact _ _ [55, 44, 51, 10, 56, 44, 45, 49, 50, 10] hrep 1 (by decide) (fun row => if row = [[55], [51]] then 3 else -12) 100 ?_ [3, -12] (by decide) ?_
  · intro row hrow
    have : row = [[55], [51]] ∨ row = [[56], [45, 49, 50]] := by simpa [textOf] using hrow
    rcases this with rfl | rfl
    · exact ⟨[51], rfl, [], false, [51], [], rfl, by simp [Sign], by decide, by simp, Or.inl rfl, by decide, by decide⟩
    · exact ⟨[45, 49, 50], rfl, [45], true, [49, 50], [], rfl, by simp [Sign], by decide, by simp, Or.inl rfl, by decide, by decide⟩
  · intro n hn hl
    have : n = 1 ∨ n = 2 := by simp at hl; omega
    rcases this with rfl | rfl <;> decide

-- the same table with "x" for "-12": the 3 was added
example : ∃ g rows, load {} (· == 10) (· == 44) [55, 44, 51, 10, 56, 44, 120, 10] = ok g ∧ Rep g rows ∧
    g.sumColumn (realArith [55, 44, 51, 10, 56, 44, 120, 10]) (.num 0) 1 0 2 (.num 100) = ok (0, .num 103) := by
  have hrep : Rep (⟨⟨[(0, 1), (2, 3), (4, 5), (6, 7)], [(0, 1), (2, 3)]⟩, 2, 2⟩ : Grid (Nat × Nat)) [[(0, 1), (2, 3)], [(4, 5), (6, 7)]] := by
    constructor <;> decide
  refine ⟨_, [[(0, 1), (2, 3)], [(4, 5), (6, 7)]], by decide +kernel, hrep, ?_⟩
  refine C170_no_number _ _ [55, 44, 51, 10, 56, 44, 120, 10] hrep 1 (by decide) (fun _ => 3) 100 [[(0, 1), (2, 3)]] [] [(4, 5), (6, 7)] rfl ?_ (6, 7) rfl (by rfl) [3] (by decide) ?_
  · intro row hrow
    have : row = [[55], [51]] := by simpa [textOf] using hrow
    subst this
    exact ⟨[51], rfl, [], false, [51], [], rfl, by simp [Sign], by decide, by simp, Or.inl rfl, by decide, by decide⟩
  · intro n hn hl
    have : n = 1 := by simp at hl; omega
    subst this
    decide

example := C170_additions (1 / 4) [3, -(1 / 2)] ⟨2 ^ 1072, by norm_num⟩ (by
  intro x hx
  rcases List.mem_cons.mp hx with rfl | hx
  · exact ⟨3 * 2 ^ 1074, by norm_num⟩
  · rcases List.mem_cons.mp hx with rfl | hx
    · exact ⟨-(2 ^ 1073), by norm_num⟩
    · cases hx)

end Strtk.Grid
