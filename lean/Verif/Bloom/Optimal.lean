import Verif.Bloom.Props
import Mathlib.Analysis.SpecialFunctions.Log.Basic
import Mathlib.Analysis.SpecialFunctions.Pow.Real
import Mathlib.Analysis.Complex.ExponentialBounds

/-! # compute_optimal_parameters and effective_fpp (strtk.hpp 19950-19961, 20018-20068, 20281-20291), C120

`double` is modelled by the real numbers with the special values, so without rounding errors. -/

namespace Strtk.Bloom
open Outcome Mem

noncomputable section

/-- `double` without rounding. -/
inductive Dbl where
  | nan
  | ninf
  | pinf
  | fin (x : ℝ)

/-- `a < b`. -/
def Dbl.lt : Dbl → Dbl → Prop
  | .nan, _ => False
  | _, .nan => False
  | .fin a, .fin b => a < b
  | .ninf, .ninf => False
  | .ninf, _ => True
  | _, .ninf => False
  | .pinf, _ => False
  | .fin _, .pinf => True

/-- `std::log`. -/
def Dbl.log : Dbl → Dbl
  | .nan => .nan
  | .ninf => .nan
  | .pinf => .pinf
  | .fin x => if 0 < x then .fin (Real.log x) else if x = 0 then .ninf else .nan

/-- `1.0 - std::pow(p, 1.0 / k)` for a `k` that is not zero; negative and infinite `p` are refused before (19957-19958) and give no number here. -/
def Dbl.oneMinusRoot (k : Nat) : Dbl → Dbl
  | .fin p => if 0 ≤ p then .fin (1 - p ^ (1 / (k : ℝ))) else .nan
  | _ => .nan

/-- `a / b` for a negative number `a`; the zero is `std::log(1.0)`, a positive one. -/
def Dbl.negDiv (a : ℝ) : Dbl → Dbl
  | .nan => .nan
  | .ninf => .fin 0
  | .pinf => .fin 0
  | .fin b => if b = 0 then .ninf else .fin (a / b)

/-- The bits needed with `k` hash functions (20038-20040). -/
def required (n : Nat) (p : Dbl) (k : Nat) : Dbl := Dbl.negDiv (-(k : ℝ) * n) ((p.oneMinusRoot k).log)

open Classical in
/-- The search loop (20036-20049): `fuel` values of `k` are left; `min_m` and `min_k`. -/
def search (n : Nat) (p : Dbl) : Nat → Nat → Dbl → Nat → Dbl × Nat
  | 0, _, m, mk => (m, mk)
  | fuel + 1, k, m, mk => if (required n p k).lt m then search n p fuel (k + 1) (required n p k) k else search n p fuel (k + 1) m mk

open Classical in
/-- `static_cast<unsigned long long int>` (20054): undefined unless the truncated number can be represented. -/
def toU64 : Dbl → Outcome Nat
  | .fin x => if -1 < x ∧ x < 2 ^ 64 then ok ⌊x⌋₊ else ub
  | _ => ub

/-- The members of `parameters` a user sets (19963-19981). -/
structure Settings where
  minSize : Nat
  maxSize : Nat
  minHashes : Nat
  maxHashes : Nat
  count : Nat
  prob : Dbl
  seed : Nat

/-- `parameters()` (19937-19945), with the probability and the count chosen by the caller. -/
def Settings.default (count : Nat) (prob : Dbl) (seed : Nat) : Settings := ⟨1, 2 ^ 64 - 1, 1, 2 ^ 32 - 1, count, prob, seed⟩

/-- `operator!` (19950-19961). -/
def Settings.bad (s : Settings) : Prop :=
  s.minSize > s.maxSize ∨ s.minHashes > s.maxHashes ∨ s.minHashes < 1 ∨ 0 = s.maxHashes ∨ 0 = s.count ∨ s.prob.lt (.fin 0) ∨ s.prob = .pinf ∨
    s.prob = .ninf ∨ 0 = s.seed ∨ 0xFFFFFFFFFFFFFFFF = s.seed

open Classical in
/-- `compute_optimal_parameters` (20018-20068): `none` for the result `false`, otherwise the number of hashes and the table size.  The addition that
rounds up is one of 64-bit numbers. -/
def computeOptimal (s : Settings) : Outcome (Option (Nat × Nat)) :=
  if s.bad then ok none
  else do
    let m ← toU64 (search s.count s.prob 999 1 .pinf 0).1
    let t := (m + (if m % 8 ≠ 0 then 8 - m % 8 else 0)) % 2 ^ 64
    ok (some (optimalHashes (search s.count s.prob 999 1 .pinf 0).2 s.minHashes s.maxHashes,
      if t < s.minSize then s.minSize else if t > s.maxSize then s.maxSize else t))

/-- `effective_fpp` (20281-20291) of a filter with `k` salts, `n` inserted elements and `m` bits. -/
def effectiveFpp (k n m : Nat) : ℝ := (1 - Real.exp (-1 * k * n / m)) ^ (1 * (k : ℝ))

/-! ## Specification -/

/-- The number of bits with which a filter of `k` hash functions holding `n` elements has the false positive probability `p`, by the usual formula
`p = (1 - exp (-k n / m))^k` solved for `m`. -/
def bits (n : Nat) (p : ℝ) (k : Nat) : ℝ := k * n / -Real.log (1 - p ^ (1 / (k : ℝ)))

/-- `bits` does solve the formula. -/
theorem bits_solves {n k : Nat} {p : ℝ} (hp : 0 < p) (hp1 : p < 1) (hk : 0 < k) (hn : 0 < n) :
    0 < bits n p k ∧ (1 - Real.exp (-((k : ℝ) * n) / bits n p k)) ^ (k : ℝ) = p := by
  have hk' : (0 : ℝ) < k := by exact_mod_cast hk
  have hn' : (0 : ℝ) < n := by exact_mod_cast hn
  have q0 : 0 < p ^ (1 / (k : ℝ)) := Real.rpow_pos_of_pos hp _
  have q1 : p ^ (1 / (k : ℝ)) < 1 := Real.rpow_lt_one hp.le hp1 (by positivity)
  have hL : Real.log (1 - p ^ (1 / (k : ℝ))) < 0 := Real.log_neg (by linarith) (by linarith)
  have hb : 0 < bits n p k := by unfold bits; exact div_pos (by positivity) (by linarith)
  refine ⟨hb, ?_⟩
  have e : -((k : ℝ) * n) / bits n p k = Real.log (1 - p ^ (1 / (k : ℝ))) := by
    unfold bits at hb ⊢
    have hL' := hL.ne
    generalize Real.log (1 - p ^ (1 / (k : ℝ))) = L at *
    rw [div_eq_iff hb.ne', div_neg, mul_neg, mul_div_cancel₀ _ hL']
  rw [e, Real.exp_log (by linarith), sub_sub_cancel, ← Real.rpow_mul hp.le]
  rw [one_div, inv_mul_cancel₀ hk'.ne', Real.rpow_one]

/-! ## Proof -/

theorem required_eq {n k : Nat} {p : ℝ} (hp : 0 < p) (hp1 : p < 1) (hk : 0 < k) : required n (.fin p) k = .fin (bits n p k) := by
  have hk' : (0 : ℝ) < k := by exact_mod_cast hk
  have q0 : 0 < p ^ (1 / (k : ℝ)) := Real.rpow_pos_of_pos hp _
  have q1 : p ^ (1 / (k : ℝ)) < 1 := Real.rpow_lt_one hp.le hp1 (by positivity)
  have hL : Real.log (1 - p ^ (1 / (k : ℝ))) < 0 := Real.log_neg (by linarith) (by linarith)
  have h1 : Dbl.log (Dbl.oneMinusRoot k (.fin p)) = .fin (Real.log (1 - p ^ (1 / (k : ℝ)))) := by
    simp only [Dbl.oneMinusRoot, if_pos hp.le, Dbl.log]
    rw [if_pos (by linarith)]
  rw [required, h1, Dbl.negDiv, if_neg hL.ne, bits]
  congr 1
  rw [div_neg, ← neg_div, neg_mul]

/-- The search finds the least `k` with the smallest requirement. -/
theorem search_min {n : Nat} {p : ℝ} (hp : 0 < p) (hp1 : p < 1) : ∀ (fuel k0 mk : Nat), 0 < mk → mk < k0 →
    (∀ j, 0 < j → j < k0 → bits n p mk ≤ bits n p j ∧ (j < mk → bits n p mk < bits n p j)) →
    ∃ k, search n (.fin p) fuel k0 (.fin (bits n p mk)) mk = (.fin (bits n p k), k) ∧ 0 < k ∧ k < k0 + fuel ∧
      ∀ j, 0 < j → j < k0 + fuel → bits n p k ≤ bits n p j ∧ (j < k → bits n p k < bits n p j) := by
  intro fuel
  induction fuel with
  | zero => intro k0 mk h0 h1 h; exact ⟨mk, rfl, h0, h1, h⟩
  | succ fuel ih =>
    intro k0 mk h0 h1 h
    unfold search
    rw [required_eq hp hp1 (by omega)]
    by_cases hlt : bits n p k0 < bits n p mk
    · rw [if_pos (by simpa only [Dbl.lt] using hlt)]
      obtain ⟨k, a, b, c, d⟩ := ih (k0 + 1) k0 (by omega) (by omega) (by
        intro j hj0 hj
        by_cases hjk : j = k0
        · subst hjk; exact ⟨le_refl _, fun h => absurd h (by omega)⟩
        · have := (h j hj0 (by omega)).1
          exact ⟨by linarith, fun _ => by linarith⟩)
      exact ⟨k, a, b, by omega, fun j hj0 hj => d j hj0 (by omega)⟩
    · rw [if_neg (by simpa only [Dbl.lt] using hlt)]
      obtain ⟨k, a, b, c, d⟩ := ih (k0 + 1) mk h0 (by omega) (by
        intro j hj0 hj
        by_cases hjk : j = k0
        · subst hjk; exact ⟨by linarith, fun h => absurd h (by omega)⟩
        · exact h j hj0 (by omega))
      exact ⟨k, a, b, by omega, fun j hj0 hj => d j hj0 (by omega)⟩

theorem search_spec {n : Nat} {p : ℝ} (hp : 0 < p) (hp1 : p < 1) :
    ∃ k, search n (.fin p) 999 1 .pinf 0 = (.fin (bits n p k), k) ∧ 1 ≤ k ∧ k ≤ 999 ∧
      ∀ j, 1 ≤ j → j ≤ 999 → bits n p k ≤ bits n p j ∧ (j < k → bits n p k < bits n p j) := by
  unfold search
  rw [required_eq hp hp1 (by omega), if_pos (by simp [Dbl.lt])]
  obtain ⟨k, a, b, c, d⟩ := search_min (n := n) hp hp1 998 2 1 (by omega) (by omega) (by
    intro j h0 h1
    have : j = 1 := by omega
    subst this
    exact ⟨le_refl _, fun h => absurd h (by omega)⟩)
  exact ⟨k, a, by omega, by omega, fun j h0 h1 => d j (by omega) (by omega)⟩

theorem fpp_le {n k m i : Nat} {p : ℝ} (hp : 0 < p) (hp1 : p < 1) (hk : 0 < k) (hn : 0 < n) (hi : i ≤ n) (hm : bits n p k ≤ m) : effectiveFpp k i m ≤ p := by
  obtain ⟨hb, he⟩ := bits_solves hp hp1 hk hn
  have hk' : (0 : ℝ) < k := by exact_mod_cast hk
  have hi' : (i : ℝ) ≤ n := by exact_mod_cast hi
  have hi0 : (0 : ℝ) ≤ i := by positivity
  have hm0 : (0 : ℝ) < m := lt_of_lt_of_le hb hm
  have h1 : (k : ℝ) * i / m ≤ k * n / bits n p k := div_le_div₀ (by positivity) (mul_le_mul_of_nonneg_left hi' hk'.le) hb hm
  have e1 : -1 * (k : ℝ) * i / m = -((k : ℝ) * i / m) := by ring
  have e2 : -((k : ℝ) * n) / bits n p k = -((k : ℝ) * n / bits n p k) := by ring
  rw [e2] at he
  rw [effectiveFpp, one_mul, e1]
  calc _ ≤ (1 - Real.exp (-((k : ℝ) * n / bits n p k))) ^ (k : ℝ) := by
        apply Real.rpow_le_rpow _ _ hk'.le
        · have h0 : 0 ≤ (k : ℝ) * i / m := by positivity
          have : Real.exp (-((k : ℝ) * i / m)) ≤ 1 := Real.exp_le_one_iff.mpr (by linarith)
          linarith
        · have := Real.exp_le_exp.mpr (neg_le_neg h1)
          linarith
    _ = p := he

/-- **The parameters computed.** For accepted settings with a probability strictly between 0 and 1 whose requirement fits into 64 bits: among 1 to 999 hash
functions let `k` be the number with the least requirement (the smallest one, if there are several).  The number of hashes is `k` and the table size
the requirement, less than one bit below or less than eight above it and a multiple of eight, both moved into the limits of the settings. -/
theorem C120_optimal_partial (s : Settings) (p : ℝ) (hs : ¬ s.bad) (hprob : s.prob = .fin p) (hp : 0 < p) (hp1 : p < 1) :
    ∃ k, 1 ≤ k ∧ k ≤ 999 ∧ (∀ j, 1 ≤ j → j ≤ 999 → bits s.count p k ≤ bits s.count p j ∧ (j < k → bits s.count p k < bits s.count p j)) ∧
      (bits s.count p k < 2 ^ 64 - 8 → ∃ t hashes size : Nat, computeOptimal s = ok (some (hashes, size)) ∧
        8 ∣ t ∧ bits s.count p k - 1 < t ∧ t < bits s.count p k + 8 ∧
        hashes = max s.minHashes (min k s.maxHashes) ∧ size = max s.minSize (min t s.maxSize)) := by
  obtain ⟨k, h1, h2, h3, h4⟩ := search_spec (n := s.count) hp hp1
  refine ⟨k, h2, h3, h4, fun hlt => ?_⟩
  have hc : 0 < s.count := by
    by_contra h
    exact hs (Or.inr (Or.inr (Or.inr (Or.inr (Or.inl (by omega))))))
  have hb := (bits_solves (n := s.count) hp hp1 (show 0 < k by omega) hc).1
  have hmn : s.minHashes ≤ s.maxHashes := by by_contra h; exact hs (Or.inr (Or.inl (by omega)))
  have hms : s.minSize ≤ s.maxSize := by by_contra h; exact hs (Or.inl (by omega))
  have hf1 : (⌊bits s.count p k⌋₊ : ℝ) ≤ bits s.count p k := Nat.floor_le hb.le
  have hf2 : bits s.count p k < ⌊bits s.count p k⌋₊ + 1 := Nat.lt_floor_add_one _
  have hfn : ⌊bits s.count p k⌋₊ < 2 ^ 64 - 8 := by
    have : ((⌊bits s.count p k⌋₊ : Nat) : ℝ) < ((2 ^ 64 - 8 : Nat) : ℝ) := by
      rw [show ((2 ^ 64 - 8 : Nat) : ℝ) = 2 ^ 64 - 8 by norm_num]
      linarith
    exact_mod_cast this
  generalize hm : ⌊bits s.count p k⌋₊ = m at *
  refine ⟨m + (if m % 8 ≠ 0 then 8 - m % 8 else 0), _, _, ?_, ?_, ?_, ?_, rfl, rfl⟩
  · rw [computeOptimal, if_neg hs, hprob, h1]
    simp only [toU64]
    rw [if_pos ⟨by linarith, by linarith⟩, hm, ok_bind]
    congr 3
    · unfold optimalHashes
      split
      · omega
      · split <;> omega
    · have : (m + (if m % 8 ≠ 0 then 8 - m % 8 else 0)) % 2 ^ 64 = m + (if m % 8 ≠ 0 then 8 - m % 8 else 0) := Nat.mod_eq_of_lt (by split <;> omega)
      rw [this]
      generalize m + (if m % 8 ≠ 0 then 8 - m % 8 else 0) = t
      split
      · omega
      · split <;> omega
  · split <;> omega
  · have : (m : ℝ) ≤ ((m + (if m % 8 ≠ 0 then 8 - m % 8 else 0) : Nat) : ℝ) := by exact_mod_cast Nat.le_add_right _ _
    linarith
  · have : ((m + (if m % 8 ≠ 0 then 8 - m % 8 else 0) : Nat) : ℝ) ≤ ((m + 7 : Nat) : ℝ) := by
      have : m + (if m % 8 ≠ 0 then 8 - m % 8 else 0) ≤ m + 7 := by split <;> omega
      exact_mod_cast this
    push_cast at this ⊢
    linarith

/-- Hence, when the limits do not interfere, a filter with these parameters holding no more elements than announced has an effective false positive
probability (the formula of `effective_fpp`) of at most the one asked for, with at most one bit more than the table has. -/
theorem C120_probability (k t n i : Nat) (p : ℝ) (hp : 0 < p) (hp1 : p < 1) (hk : 0 < k) (hn : 0 < n) (hi : i ≤ n) (h : bits n p k - 1 < t) :
    effectiveFpp k i (t + 1) ≤ p ∧ (bits n p k ≤ t → effectiveFpp k i t ≤ p) :=
  ⟨fpp_le hp hp1 hk hn hi (by push_cast; linarith), fun h => fpp_le hp hp1 hk hn hi h⟩

/-- A probability of zero is accepted, and computing the table size converts minus infinity to an integer. -/
theorem C120_zero_probability (s : Settings) (hs : ¬ s.bad) (h : s.prob = .fin 0) : computeOptimal s = ub := by
  have hr : ∀ k, 0 < k → required s.count (.fin 0) k = .ninf := by
    intro k hk
    have hk0 : (0 : ℝ) < k := by exact_mod_cast hk
    have hk' : (1 : ℝ) / k ≠ 0 := by positivity
    simp [required, Dbl.oneMinusRoot, Real.zero_rpow (by simpa using hk' : (k : ℝ)⁻¹ ≠ 0), Dbl.log, Dbl.negDiv]
  have hkeep : ∀ fuel k mk, 0 < k → (search s.count (.fin 0) fuel k .ninf mk).1 = .ninf := by
    intro fuel
    induction fuel with
    | zero => intro k mk _; rfl
    | succ fuel ih =>
      intro k mk hk
      unfold search
      rw [hr k hk, if_neg (by simp [Dbl.lt])]
      exact ih _ _ (by omega)
  have : (search s.count (.fin 0) 999 1 .pinf 0).1 = .ninf := by
    unfold search
    rw [hr 1 (by omega), if_pos (by simp [Dbl.lt])]
    exact hkeep _ _ _ (by omega)
  rw [computeOptimal, if_neg hs, h, this]
  rfl

/-- So is a probability above one, or one that is not a number; then plus infinity is converted. -/
theorem C120_probability_above_one (s : Settings) (hs : ¬ s.bad) (h : s.prob = .nan ∨ ∃ p, s.prob = .fin p ∧ 1 < p) : computeOptimal s = ub := by
  have hr : ∀ k, 0 < k → required s.count s.prob k = .nan := by
    intro k hk
    rcases h with h | ⟨p, h, hp⟩
    · rw [h]; rfl
    · have hk0 : (0 : ℝ) < k := by exact_mod_cast hk
      have hk' : (0 : ℝ) < 1 / k := by positivity
      have h1 : 1 < p ^ (1 / (k : ℝ)) := Real.one_lt_rpow hp hk'
      rw [h, required]
      simp only [Dbl.oneMinusRoot]
      rw [if_pos (by linarith)]
      simp only [Dbl.log]
      rw [if_neg (by linarith), if_neg (by linarith)]
      rfl
  have hkeep : ∀ fuel k, 0 < k → (search s.count s.prob fuel k .pinf 0).1 = .pinf := by
    intro fuel
    induction fuel with
    | zero => intro k _; rfl
    | succ fuel ih =>
      intro k hk
      unfold search
      rw [hr k hk, if_neg (by simp [Dbl.lt])]
      exact ih _ (by omega)
  rw [computeOptimal, if_neg hs, hkeep _ _ (by omega)]
  rfl

/-- With the limits of a freshly constructed `parameters` the table size is a positive multiple of eight, as C54 requires, whenever at least one bit is
needed. -/
theorem C120_default_limits (count seed : Nat) (p : ℝ) (hc : 0 < count) (h0 : seed ≠ 0) (h1 : seed ≠ 0xFFFFFFFFFFFFFFFF) (hp : 0 < p) (hp1 : p < 1) :
    ∃ k, 1 ≤ k ∧ k ≤ 999 ∧ (1 ≤ bits count p k → bits count p k < 2 ^ 64 - 8 → ∃ hashes size,
      computeOptimal (.default count (.fin p) seed) = ok (some (hashes, size)) ∧ hashes = k ∧ 8 ∣ size ∧ 0 < size) ∧
      (bits count p k < 1 → ∃ hashes, computeOptimal (.default count (.fin p) seed) = ok (some (hashes, 1))) := by
  have hs : ¬ (Settings.default count (.fin p) seed).bad := by
    simp only [Settings.bad, Settings.default, Dbl.lt]
    simp
    exact ⟨by omega, hp.le, fun h => h0 h.symm, fun h => h1 h.symm⟩
  obtain ⟨k, h2, h3, h4, h5⟩ := C120_optimal_partial _ p hs rfl hp hp1
  simp only [Settings.default] at h4 h5
  refine ⟨k, h2, h3, fun hb1 hb2 => ?_, fun hb => ?_⟩
  · obtain ⟨t, hashes, size, e, d8, a, b, eh, es⟩ := h5 hb2
    refine ⟨hashes, size, e, by omega, ?_, ?_⟩
    · have ht : t < 2 ^ 64 := by
        have : (t : ℝ) < ((2 ^ 64 : Nat) : ℝ) := by push_cast; linarith
        exact_mod_cast this
      have ht0 : 0 < t := by
        have : (0 : ℝ) < t := by linarith
        exact_mod_cast this
      obtain ⟨c, hc⟩ := d8
      rw [es, show max 1 (min t (2 ^ 64 - 1)) = t by omega]
      exact ⟨c, hc⟩
    · omega
  · obtain ⟨k', g1, g2, g3, g4⟩ := search_spec (n := count) hp hp1
    have hk : bits count p k' < 1 := lt_of_le_of_lt (g4 k h2 h3).1 hb
    have hb0 := (bits_solves (n := count) hp hp1 (show 0 < k' by omega) hc).1
    have hz : ⌊bits count p k'⌋₊ = 0 := Nat.floor_eq_zero.mpr hk
    refine ⟨optimalHashes k' 1 (2 ^ 32 - 1), ?_⟩
    rw [computeOptimal, if_neg hs]
    simp only [Settings.default, g1, toU64]
    rw [if_pos ⟨by linarith, by linarith⟩, hz, ok_bind]
    simp

/-- A table size of one bit: the table has no cell, and every insertion with at least one hash function writes outside it. -/
theorem C120_one_bit_table (rand : UInt32 → Nat → UInt32) (fuel hashes projected fpp seed : Nat) (f : Filter) (h : 0 < hashes)
    (hf : Filter.new rand fuel ⟨hashes, 1, projected, fpp, seed⟩ = ok f) (key : List UInt8) : f.insert key = ub := by
  have hl := (C54_new rand fuel ⟨hashes, 1, projected, fpp, seed⟩).2 f hf
  unfold Filter.new at hf
  obtain ⟨salts, _, hf⟩ := bind_eq_ok.mp hf
  cases hf
  match salts, hl with
  | [], hl => simp at hl; omega
  | s :: salts, _ =>
    simp [Filter.insert, insertLoop, computeIndex, remainder, Nat.mod_one, deref]

/-- Non-vacuity: one element, probability one half; a single hash function then needs `1 / log 2` bits. -/
example : ¬ (Settings.default 1 (.fin (1 / 2)) 7).bad := by
  simp [Settings.bad, Settings.default, Dbl.lt]
example : 1 ≤ bits 1 (1 / 2) 1 := by
  have h : bits 1 (1 / 2) 1 = 1 / Real.log 2 := by
    simp only [bits]
    norm_num
    rw [show (1 / 2 : ℝ) = 2⁻¹ by norm_num, Real.log_inv, inv_neg, neg_neg]
  rw [h, le_div_iff₀ (Real.log_pos (by norm_num)), one_mul]
  have := Real.log_le_sub_one_of_pos (show (0 : ℝ) < 2 by norm_num)
  linarith
example : bits 1 (9 / 10) 1 < 1 := by
  have h : bits 1 (9 / 10) 1 = 1 / Real.log 10 := by
    simp only [bits]
    norm_num
    rw [show (1 / 10 : ℝ) = 10⁻¹ by norm_num, Real.log_inv, inv_neg, neg_neg]
  have h1 : 1 < Real.log 10 := by
    rw [Real.lt_log_iff_exp_lt (by norm_num)]
    have := Real.exp_one_lt_d9
    linarith
  rw [h, div_lt_one (by linarith)]
  exact h1
example : ¬ (Settings.default 1 (.fin 0) 7).bad ∧ ¬ (Settings.default 1 (.fin 2) 7).bad ∧ ¬ (Settings.default 1 .nan 7).bad := by
  simp [Settings.bad, Settings.default, Dbl.lt]
example : ∃ f, Filter.new (fun _ _ => 0) 0 ⟨3, 1, 10, 0, 7⟩ = ok f := (C54_new _ _ _).1 (by decide)

end

end Strtk.Bloom
