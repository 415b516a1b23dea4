import Verif.Programs.TokenizerCmp
import Verif.Grid.RealSums

/-!
# strtk_tokenizer_cmp.cpp: the sum of doubles (860-889)

The test subtracts the numbers of its list in the even rounds and adds them in the odd ones, and prints what is left as the error.
-/

namespace Strtk.Programs.Cmp
open Outcome Strtk.Real Strtk.Grid
open Number (isDigit decVal)

set_option exponentiation.threshold 2000

/-! ## Model -/

/-- Subtraction. -/
def sub64 (a b : Val) : Val := add64 a (ieee.neg b)

/-- The inner loop (871-879): `d` stays as it is when a conversion fails. -/
def s2dRound (odd : Bool) : List (List Number.Byte) → Val → Val → Outcome (Val × Val)
  | [], d, sum => ok (d, sum)
  | w :: ws, d, sum => do
    let r ← realParse ieee doubleMin w
    let d := match r with | some v => v | none => d
    s2dRound odd ws d (if odd then add64 sum d else sub64 sum d)

/-- The outer loop (869-880): `k` rounds from round `r` on. -/
def s2dLoop (list : List (List Number.Byte)) : Nat → Nat → Val → Val → Outcome Val
  | 0, _, _, sum => ok sum
  | k + 1, r, d, sum => do
    let (d, sum) ← s2dRound (r &&& 1 == 1) list d sum
    s2dLoop list k (r + 1) d sum

/-- `strtk_cast_test_s2d` (860-889): `sum`, whose absolute value is printed as the error. -/
def s2dTest (list : List (List Number.Byte)) (rounds : Nat) : Outcome Val := s2dLoop list rounds 0 (.num 0) (.num 0)

/-! ## Rules -/

/-- The terms of the sum. -/
def terms {N : Type} [Neg N] (xs : List N) : Nat → Nat → List N
  | 0, _ => []
  | k + 1, r => (if r % 2 = 1 then xs else xs.map fun x => -x) ++ terms xs k (r + 1)

theorem s2dRound_eq (odd : Bool) : ∀ (ws : List (List Number.Byte)) (xs : List ℚ) (d sum : Val),
    List.Forall₂ (fun w x => realParse ieee doubleMin w = ok (some (.num x))) ws xs →
    ∃ d', s2dRound odd ws d sum = ok (d', ((if odd then xs else xs.map fun x => -x).map Val.num).foldl add64 sum) := by
  intro ws
  induction ws with
  | nil => intro xs d sum h; cases h; exact ⟨d, by cases odd <;> rfl⟩
  | cons w ws ih =>
    intro xs d sum h
    cases h with
    | cons h1 h2 =>
      rename_i x xs
      obtain ⟨d', e⟩ := ih xs (.num x) (if odd then add64 sum (.num x) else sub64 sum (.num x)) h2
      refine ⟨d', ?_⟩
      rw [s2dRound, h1, ok_bind]
      simp only
      rw [e]
      cases odd <;> rfl

theorem s2dLoop_eq (ws : List (List Number.Byte)) (xs : List ℚ) (h : List.Forall₂ (fun w x => realParse ieee doubleMin w = ok (some (.num x))) ws xs) :
    ∀ (k r : Nat) (d sum : Val), s2dLoop ws k r d sum = ok (((terms xs k r).map Val.num).foldl add64 sum) := by
  intro k
  induction k with
  | zero => intro r d sum; rfl
  | succ k ih =>
    intro r d sum
    obtain ⟨d', e⟩ := s2dRound_eq (r &&& 1 == 1) ws xs d sum h
    rw [s2dLoop, e, ok_bind]
    simp only
    rw [ih, terms, List.map_append, List.foldl_append]
    have hb : (r &&& 1 == 1) = decide (r % 2 = 1) := by
      rw [Nat.and_one_is_mod]
      rcases Nat.mod_two_eq_zero_or_one r with h | h <;> simp [h]
    rw [hb]
    by_cases hr : r % 2 = 1 <;> simp [hr]

theorem terms_length {N : Type} [Neg N] (xs : List N) : ∀ k r, (terms xs k r).length = k * xs.length := by
  intro k
  induction k with
  | zero => intro r; simp [terms]
  | succ k ih =>
    intro r
    rw [terms, List.length_append, ih]
    have : (if r % 2 = 1 then xs else xs.map fun x => -x).length = xs.length := by split <;> simp
    rw [this]
    ring

theorem sum_neg' {N : Type} [AddCommGroup N] (xs : List N) : (xs.map fun x => -x).sum = -xs.sum := by
  induction xs with
  | nil => simp
  | cons x xs ih => simp [ih, add_comm]

/-- The exact sums: whole rounds cancel, and no prefix is larger than the sum of the absolute values. -/
theorem terms_prefix {N : Type} [AddCommGroup N] [LinearOrder N] [IsOrderedAddMonoid N] (xs : List N) : ∀ (k r n : Nat),
    |(if r % 2 = 1 then -xs.sum else 0) + ((terms xs k r).take n).sum| ≤ (xs.map fun x => |x|).sum := by
  have hpre : ∀ (xs : List N) (n : Nat), |(xs.take n).sum| ≤ (xs.map fun x => |x|).sum := by
    intro xs
    induction xs with
    | nil => intro n; simp
    | cons x xs ih =>
      intro n
      have hpos : 0 ≤ (xs.map fun x => |x|).sum := le_trans (abs_nonneg _) (ih 0)
      cases n with
      | zero => simpa using add_nonneg (abs_nonneg x) hpos
      | succ n =>
        rw [List.take_succ_cons, List.sum_cons, List.map_cons, List.sum_cons]
        exact le_trans (abs_add_le _ _) (add_le_add_right (ih n) _)
  have hsuf : ∀ (xs : List N) (n : Nat), |(xs.drop n).sum| ≤ (xs.map fun x => |x|).sum := by
    intro xs
    induction xs with
    | nil => intro n; simp
    | cons x xs ih =>
      intro n
      cases n with
      | zero => simpa using hpre (x :: xs) (xs.length + 1)
      | succ n =>
        rw [List.drop_succ_cons, List.map_cons, List.sum_cons]
        exact le_trans (ih n) (le_add_of_nonneg_left (abs_nonneg x))
  intro k
  induction k with
  | zero =>
    intro r n
    simp only [terms, List.take_nil, List.sum_nil, add_zero]
    split
    · rw [abs_neg]; simpa using hsuf xs 0
    · simpa using le_trans (abs_nonneg _) (hpre xs 0)
  | succ k ih =>
    intro r n
    rw [terms, List.take_append, List.sum_append, ← add_assoc]
    by_cases hr : r % 2 = 1
    · have hr' : ¬ (r + 1) % 2 = 1 := by omega
      rw [if_pos hr, if_pos hr]
      rcases Nat.le_total n xs.length with hn | hn
      · rw [Nat.sub_eq_zero_of_le hn, List.take_zero, List.sum_nil, add_zero]
        have : -xs.sum + (xs.take n).sum = -(xs.drop n).sum := by
          have := congrArg List.sum (List.take_append_drop n xs)
          rw [List.sum_append] at this
          rw [← this]
          abel
        rw [this, abs_neg]
        exact hsuf xs n
      · rw [List.take_of_length_le hn, neg_add_cancel]
        have := ih (r + 1) (n - xs.length)
        rwa [if_neg hr'] at this
    · have hr' : (r + 1) % 2 = 1 := by omega
      rw [if_neg hr, if_neg hr, zero_add, List.length_map]
      rcases Nat.le_total n xs.length with hn | hn
      · rw [Nat.sub_eq_zero_of_le hn, List.take_zero, List.sum_nil, add_zero, ← List.map_take, sum_neg', abs_neg]
        exact hpre xs n
      · rw [List.take_of_length_le (by simpa using hn), sum_neg']
        have := ih (r + 1) (n - xs.length)
        rwa [if_pos hr'] at this

theorem terms_sum {N : Type} [AddCommGroup N] (xs : List N) : ∀ k, (terms xs k 0).sum = if k % 2 = 1 then -xs.sum else 0 := by
  have : ∀ k r, (if r % 2 = 1 then -xs.sum else 0) + (terms xs k r).sum = if (r + k) % 2 = 1 then -xs.sum else 0 := by
    intro k
    induction k with
    | zero => intro r; simp [terms]
    | succ k ih =>
      intro r
      rw [terms, List.sum_append, ← add_assoc, show r + (k + 1) = r + 1 + k by omega, ← ih (r + 1)]
      congr 1
      by_cases hr : r % 2 = 1
      · rw [if_pos hr, if_pos hr, if_neg (by omega), neg_add_cancel]
      · rw [if_neg hr, if_neg hr, if_pos (by omega), zero_add, sum_neg']
  intro k
  have := this k 0
  simpa using this

/-- Additions whose exact sums stay below `A`. -/
theorem foldl_cancel (u t A : ℚ) (hu : 0 ≤ u) (ht : 0 ≤ t) (hA : 0 ≤ A)
    (hfin : ∀ q, |q| * (1 + u) + t < 2 ^ 1024 → ∃ r, rnd64 q = .num r ∧ |r - q| ≤ u * |q| + t) : ∀ (xs : List ℚ) (s T E : ℚ), |s - T| ≤ E →
    (∀ n, |T + (xs.take n).sum| ≤ A) → (1 + u) ^ xs.length * (E + A) + xs.length * (1 + u) ^ xs.length * t < 2 ^ 1024 →
    ∃ r, (xs.map Val.num).foldl add64 (.num s) = .num r ∧
      |r - (T + xs.sum)| ≤ (1 + u) ^ xs.length * E + ((1 + u) ^ xs.length - 1) * A + xs.length * (1 + u) ^ xs.length * t := by
  intro xs
  induction xs with
  | nil => intro s T E h _ _; exact ⟨s, rfl, by simpa using h⟩
  | cons x xs ih =>
    intro s T E h hp hM
    have hE : 0 ≤ E := le_trans (abs_nonneg _) h
    have h1 : |T + x| ≤ A := by simpa using hp 1
    have hsx : |s + x| ≤ E + A := by
      have : s + x = (s - T) + (T + x) := by ring
      rw [this]
      exact le_trans (abs_add_le _ _) (add_le_add h h1)
    have hpow : (1 : ℚ) ≤ (1 + u) ^ xs.length := one_le_pow₀ (by linarith)
    have hpow1 : (1 + u) ^ (x :: xs).length = (1 + u) ^ xs.length * (1 + u) := by rw [List.length_cons, pow_succ]
    have hlen : (((x :: xs).length : ℕ) : ℚ) = xs.length + 1 := by simp
    rw [hpow1, hlen] at hM ⊢
    have hl0 : (0 : ℚ) ≤ xs.length := by positivity
    generalize ((1 : ℚ) + u) ^ xs.length = p at *
    generalize (xs.length : ℚ) = l at *
    have hEA : 0 ≤ E + A := by linarith
    have k1 : (E + A) * (1 + u) ≤ p * (1 + u) * (E + A) := by nlinarith [mul_nonneg hEA (show (0 : ℚ) ≤ 1 + u by linarith)]
    have k2 : t ≤ p * (1 + u) * t := by nlinarith [mul_nonneg ht hu, mul_nonneg (sub_nonneg.mpr hpow) (mul_nonneg ht (show (0 : ℚ) ≤ 1 + u by linarith))]
    have k3 : 0 ≤ l * (p * (1 + u)) * t := by positivity
    have k4 : p * t ≤ p * (1 + u) * t := by nlinarith [mul_nonneg (mul_nonneg (le_trans zero_le_one hpow) hu) ht]
    have k5 : l * p * t ≤ l * (p * (1 + u)) * t := by
      have := mul_nonneg (mul_nonneg (mul_nonneg hl0 (le_trans zero_le_one hpow)) hu) ht
      nlinarith
    obtain ⟨r, hr, hd⟩ := hfin (s + x) (by
      have : |s + x| * (1 + u) ≤ (E + A) * (1 + u) := mul_le_mul_of_nonneg_right hsx (by linarith)
      nlinarith)
    have hd' : |r - (T + x)| ≤ (1 + u) * E + u * A + t := by
      have e : r - (T + x) = (r - (s + x)) + (s - T) := by ring
      rw [e]
      refine le_trans (abs_add_le _ _) ?_
      have := mul_le_mul_of_nonneg_left hsx hu
      linarith
    obtain ⟨r', hr', hd2⟩ := ih r (T + x) ((1 + u) * E + u * A + t) hd' (fun n => by
      have := hp (n + 1)
      rwa [List.take_succ_cons, List.sum_cons, ← add_assoc] at this) (by nlinarith)
    refine ⟨r', ?_, ?_⟩
    · rw [List.map_cons, List.foldl_cons, show add64 (.num s) (.num x) = rnd64 (s + x) from rfl, hr, hr']
    · rw [List.sum_cons, ← add_assoc]
      refine le_trans hd2 ?_
      nlinarith

/-! ## C188 -/

/-- **C188**: the error that the string to double test prints after an even number of rounds, when all texts are converted to numbers: it is bounded by the sum of their
absolute values times the number of additions in units of the last place (after an odd number of rounds the same holds of the difference to minus their sum). -/
theorem C188_error_bound (ws : List (List Number.Byte)) (xs : List ℚ) (h : List.Forall₂ (fun w x => realParse ieee doubleMin w = ok (some (.num x))) ws xs) (rounds : Nat)
    (A : ℚ) (hA : A = (xs.map fun x => |x|).sum) (N : Nat) (hN : N = rounds * ws.length)
    (hfin : (1 + 1 / 2 ^ 53) ^ N * A + N * (1 + 1 / 2 ^ 53) ^ N / 2 ^ 1075 < 2 ^ 1024) :
    ∃ s, s2dTest ws rounds = ok (.num s) ∧
      |s - (if rounds % 2 = 1 then -xs.sum else 0)| ≤ ((1 + 1 / 2 ^ 53) ^ N - 1) * A + N * (1 + 1 / 2 ^ 53) ^ N / 2 ^ 1075 := by
  have hlen : (terms xs rounds 0).length = N := by rw [terms_length, hN, h.length_eq]
  have hA0 : 0 ≤ A := by
    rw [hA]
    exact List.sum_nonneg (fun x hx => by obtain ⟨y, _, rfl⟩ := List.mem_map.mp hx; exact abs_nonneg y)
  obtain ⟨s, hs, hd⟩ := foldl_cancel (1 / 2 ^ 53) (1 / 2 ^ 1075) A (by norm_num) (by positivity) hA0 (fun q hq => by
    obtain ⟨r, hr⟩ := rnd64_finite hq
    exact ⟨r, hr, (rnd64_signed hr).1⟩) (terms xs rounds 0) 0 0 0 (by simp) (fun n => by
      have := terms_prefix xs rounds 0 n
      rw [hA]
      simpa using this) (by
      rw [hlen, zero_add, mul_one_div]
      exact hfin)
  refine ⟨s, ?_, ?_⟩
  · rw [s2dTest, s2dLoop_eq ws xs h, hs]
  · rw [zero_add, terms_sum, hlen, mul_zero, zero_add, mul_one_div] at hd
    exact hd

/-- **C188**: for texts of integers whose absolute values add up to at most `2^53` the error is zero after an even number of rounds. -/
theorem C188_error_zero (ws : List (List Number.Byte)) (vs : List ℤ) (h : List.Forall₂ IntegerText ws vs) (hv : (vs.map fun v => |v|).sum ≤ 2 ^ 53) (rounds : Nat)
    (hr : rounds % 2 = 0) : s2dTest ws rounds = ok (.num 0) := by
  have h' : List.Forall₂ (fun w x => realParse ieee doubleMin w = ok (some (.num x))) ws (vs.map fun v : ℤ => (v : ℚ)) := by
    rw [List.forall₂_map_right_iff]
    exact h.imp (fun _ _ hh => hh.parse)
  have hcast : ∀ k r, terms (vs.map fun v : ℤ => (v : ℚ)) k r = (terms vs k r).map fun v : ℤ => (v : ℚ) := by
    intro k
    induction k with
    | zero => intro r; rfl
    | succ k ih =>
      intro r
      rw [terms, terms, ih, List.map_append]
      congr 1
      split
      · rfl
      · simp
  have hx := C170_additions_exact (terms vs rounds 0) 0 (fun n _ _ => by
    have := terms_prefix vs rounds 0 n
    simp only [Nat.zero_mod, zero_ne_one, if_false] at this
    exact le_trans this hv)
  rw [addUp_real] at hx
  rw [s2dTest, s2dLoop_eq ws _ h', hcast, List.map_map]
  have e : (Val.num ∘ fun v : ℤ => (v : ℚ)) = fun x : ℤ => Val.num x := rfl
  rw [e]
  rw [Int.cast_zero] at hx
  rw [hx, terms_sum, if_neg (by omega)]
  simp

/-- **C188**: the test prints an error of one for two exact integers, whose sum is too large by one. -/
theorem C188_error_left :
    s2dTest [[45, 57, 48, 48, 55, 49, 57, 57, 50, 53, 52, 55, 52, 48, 57, 57, 50], [45, 49]] 2 = ok (.num (-1)) := by
  have hodd : rnd64 (2 ^ 53 + 1) = .num (2 ^ 53) := by
    have hlog : Int.log 2 |(2 ^ 53 + 1 : ℚ)| = 53 := by
      have : |(2 ^ 53 + 1 : ℚ)| = ((2 ^ 53 + 1 : ℕ) : ℚ) := by rw [abs_of_pos (by positivity)]; norm_num
      rw [this, Int.log_natCast, Nat.log_eq_of_pow_le_of_lt_pow (m := 53) (by norm_num) (by norm_num)]
      rfl
    have hl : lastPlace (2 ^ 53 + 1) = 1 := by
      unfold lastPlace
      rw [hlog]
      norm_num
    unfold rnd64
    simp only [hl]
    have : rne ((2 ^ 53 + 1) / 2 ^ (1 : ℤ)) = 2 ^ 52 := by
      unfold rne
      norm_num
    rw [this]
    norm_num
  have hi : ∀ (q : ℚ) (n : ℤ), q = n → |n| ≤ 2 ^ 53 → rnd64 q = .num q := by
    intro q n hq hn; rw [hq]; exact rnd64_integer n hn
  have ha : ∀ a b : ℚ, add64 (.num a) (.num b) = rnd64 (a + b) := fun _ _ => rfl
  have t1 : IntegerText [45, 57, 48, 48, 55, 49, 57, 57, 50, 53, 52, 55, 52, 48, 57, 57, 50] (-2 ^ 53) :=
    ⟨[45], true, [57, 48, 48, 55, 49, 57, 57, 50, 53, 52, 55, 52, 48, 57, 57, 50], [], rfl, by simp [Sign], by decide, by simp, Or.inl rfl, by decide, by decide⟩
  have t2 : IntegerText [45, 49] (-1) := ⟨[45], true, [49], [], rfl, by simp [Sign], by decide, by simp, Or.inl rfl, by decide, by decide⟩
  have h1 := t1.parse
  have h2 := t2.parse
  rw [s2dTest, s2dLoop_eq _ [((-2 ^ 53 : ℤ) : ℚ), ((-1 : ℤ) : ℚ)] (.cons h1 (.cons h2 .nil))]
  have e : terms [((-2 ^ 53 : ℤ) : ℚ), ((-1 : ℤ) : ℚ)] 2 0 = [2 ^ 53, 1, -2 ^ 53, -1] := by
    simp [terms]
    norm_num
  rw [e, List.map_cons, List.foldl_cons, ha, hi (0 + 2 ^ 53) (2 ^ 53) (by norm_num) (by norm_num), zero_add, List.map_cons, List.foldl_cons, ha, hodd,
    List.map_cons, List.foldl_cons, ha, hi (2 ^ 53 + -2 ^ 53) 0 (by norm_num) (by norm_num), add_neg_cancel, List.map_cons, List.foldl_cons, ha,
    hi (0 + -1) (-1) (by norm_num) (by norm_num), zero_add]
  rfl

/-- The texts "+12" and "-7" in four rounds. -/
example : s2dTest [[43, 49, 50], [45, 55]] 4 = ok (.num 0) :=
  C188_error_zero _ [12, -7]
    (.cons ⟨[43], false, [49, 50], [], rfl, by simp [Sign], by decide, by simp, Or.inl rfl, by decide, by decide⟩
      (.cons ⟨[45], true, [55], [], rfl, by simp [Sign], by decide, by simp, Or.inl rfl, by decide, by decide⟩ .nil)) (by decide) 4 rfl

/-- The texts of `C188_error_left`: the bound allows its error. -/
example : ∃ s, s2dTest [[45, 57, 48, 48, 55, 49, 57, 57, 50, 53, 52, 55, 52, 48, 57, 57, 50], [45, 49]] 2 = ok (.num s) ∧ |s - 0| ≤ 5 := by
  obtain ⟨s, h, hb⟩ := C188_error_bound [[45, 57, 48, 48, 55, 49, 57, 57, 50, 53, 52, 55, 52, 48, 57, 57, 50], [45, 49]] [((-2 ^ 53 : ℤ) : ℚ), ((-1 : ℤ) : ℚ)]
    (.cons (IntegerText.parse ⟨[45], true, [57, 48, 48, 55, 49, 57, 57, 50, 53, 52, 55, 52, 48, 57, 57, 50], [], rfl, by simp [Sign], by decide, by simp, Or.inl rfl, by decide, by decide⟩)
      (.cons (IntegerText.parse ⟨[45], true, [49], [], rfl, by simp [Sign], by decide, by simp, Or.inl rfl, by decide, by decide⟩) .nil)) 2 (2 ^ 53 + 1)
    (by norm_num) 4 rfl (by norm_num)
  refine ⟨s, h, le_trans ?_ (le_trans hb ?_)⟩
  · simp
  · norm_num

end Strtk.Programs.Cmp
