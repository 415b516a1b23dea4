import Verif.Misc.Timer
import Verif.Real.Ieee

/-!
# C177: the time in seconds a timer reports (strtk.hpp 24446-24449, 24472-24495)

The timer of `Timer.lean` with the conversion of its microseconds to seconds in binary64 (`Real/Ieee.lean`).
-/

namespace Strtk.Timer
open Outcome Real

/-! ## Model -/

/-- `usec_time() * 0.000001` (24448): the microseconds are converted to `double`, the literal is the nearest `double`, the product is rounded. -/
def seconds (n : Nat) : Val := mul64 (rnd64 n) (rnd64 (1 / 1000000))

/-- `time` (24446-24449). -/
def Timer.time (t : Timer) : Outcome Val := do
  let n ← t.usecTime
  pure (seconds n)

/-- `scoped_timer` (24472-24495) around a block that may change the variable or be left by an exception: whether it was, and the variable afterwards. -/
def timedSeconds (atBegin atEnd : Reading) (body : Val → Outcome Val) (var : Val) : Outcome (Bool × Val) :=
  let t := new.begin atBegin
  match body var with
  | ok _ => do
    let x ← (t.halt atEnd).time
    pure (false, x)
  | thrown => do
    let x ← (t.halt atEnd).time
    pure (true, x)
  | ub => ub
  | diverge => diverge

/-! ## Specification -/

/-- `x` is the number of seconds in `n` microseconds, off by at most three roundings of 53 bits, and by two when `n` has at most 53 bits. -/
def Seconds (n : Nat) (x : Val) : Prop :=
  ∃ r : ℚ, x = .num r ∧ |r - n / 1000000| ≤ (n / 1000000 : ℚ) * ((1 + 1 / 2 ^ 53) ^ 3 - 1) ∧
    (n ≤ 2 ^ 53 → |r - n / 1000000| ≤ (n / 1000000 : ℚ) * ((1 + 1 / 2 ^ 53) ^ 2 - 1))

/-! ## C177 -/

theorem medium_range {v : ℚ} (h1 : 1 / 10 ^ 6 ≤ v) (h2 : v ≤ 2 ^ 64) : Medium v := by
  right
  constructor
  · refine le_trans ?_ h1
    rw [zpow_neg, ← one_div]
    exact one_div_le_one_div_of_le (by positivity) (by
      rw [show (307 : ℤ) = ((307 : Nat) : ℤ) from rfl, zpow_natCast]
      exact pow_le_pow_right₀ (by norm_num) (by omega))
  · refine le_trans h2 (le_trans (by norm_num : (2 : ℚ) ^ 64 ≤ 10 ^ 20) ?_)
    have : (10 : ℚ) ^ 20 ≤ 10 ^ 299 := pow_le_pow_right₀ (by norm_num) (by omega)
    exact le_trans this (le_mul_of_one_le_left (by positivity) (by norm_num))

theorem seconds_spec (n : Nat) (hn : n < 2 ^ 64) : Seconds n (seconds n) := by
  have hn' : (n : ℚ) ≤ 2 ^ 64 := by exact_mod_cast hn.le
  have hc : rnd64 (1 / 1000000) = .num (rnd 53 (1 / 1000000)) :=
    rnd64_within (medium_range (by norm_num) (by norm_num)) (within_self _ _) (by omega)
  have hcw : Within (1 / 2 ^ 53) 1 (1 / 1000000 : ℚ) (rnd 53 (1 / 1000000)) := within_rnd 53 half_ulp (by norm_num) (within_self _ _)
  have hf1 : (1 - 1 / 2 ^ 53 : ℚ) ^ 1 ≤ rnd 53 (1 / 1000000) * 1000000 := by have := hcw.1; linarith
  have hf2 : rnd 53 (1 / 1000000) * 1000000 ≤ (1 + 1 / 2 ^ 53 : ℚ) ^ 1 := by have := hcw.2; linarith
  have hm1 : Medium (n : ℚ) := by
    by_cases h0 : n = 0
    · left; rw [h0]; simp
    · have : (1 : ℚ) ≤ n := by exact_mod_cast (by omega : 1 ≤ n)
      exact medium_range (le_trans (by norm_num) this) hn'
  have hm2 : Medium (n / 1000000 : ℚ) := by
    by_cases h0 : n = 0
    · left; rw [h0]; simp
    · have : (1 : ℚ) ≤ n := by exact_mod_cast (by omega : 1 ≤ n)
      exact medium_range (by linarith) (by linarith)
  have key : ∀ (k : Nat) (a : ℚ), Within (1 / 2 ^ 53) k (n : ℚ) a → k ≤ 1 → rnd64 n = .num a →
      ∃ r, seconds n = .num r ∧ Within (1 / 2 ^ 53) (k + 2) (n / 1000000 : ℚ) r := by
    intro k a ha hk he
    have h1 := within_factor half_ulp hm1.nonneg ha hf1 hf2
    have h2 := within_scale (c := 1 / 1000000) (by norm_num) h1
    have e1 : (n : ℚ) * (1 / 1000000) = n / 1000000 := by ring
    have e2 : a * (rnd 53 (1 / 1000000) * 1000000) * (1 / 1000000) = a * rnd 53 (1 / 1000000) := by ring
    rw [e1, e2] at h2
    refine ⟨_, ?_, within_rnd 53 half_ulp hm2.nonneg h2⟩
    unfold seconds
    rw [he, hc]
    exact rnd64_within hm2 h2 (by omega)
  have er : rnd64 n = .num (rnd 53 n) := rnd64_within hm1 (within_self _ _) (by omega)
  obtain ⟨r, e, hr⟩ := key 1 _ (within_rnd 53 half_ulp hm1.nonneg (within_self _ _)) (by omega) er
  refine ⟨r, e, within_abs hm2.nonneg hr, ?_⟩
  intro hb
  have ex : rnd 53 (n : ℚ) = n := rnd_exact 53 (by omega) _ ⟨n, 0, by rw [Nat.abs_cast]; exact_mod_cast hb, by simp⟩
  rw [ex] at er
  obtain ⟨r', e', hr'⟩ := key 0 _ (within_self _ _) (by omega) er
  rw [e] at e'
  cases e'
  exact within_abs hm2.nonneg hr'

/-- **C177**: whatever the history of a timer, after its last `stop` it reports, provided the clock was not set back, the seconds between the last `start` and the
last `stop`, up to three roundings (two up to 2^53 microseconds, 285 years). -/
theorem C177_seconds (ops : List Op) (hsane : ∀ op ∈ ops, match op with | .start r => Sane r | .stop r => Sane r) (hr : (run ops).running = false)
    (hle : ((lastStart ops).getD ⟨0, 0⟩).micros ≤ ((lastStop ops).getD ⟨0, 0⟩).micros) :
    ∃ (n : Nat) (x : Val), (n : Int) = ((lastStop ops).getD ⟨0, 0⟩).micros - ((lastStart ops).getD ⟨0, 0⟩).micros ∧ (run ops).time = ok x ∧ Seconds n x := by
  obtain ⟨n, e, hn⟩ := (C117_timer ops hsane).2.2 hr hle
  refine ⟨n, seconds n, hn, by rw [Timer.time, e]; rfl, seconds_spec n ?_⟩
  have h1 : (((lastStop ops).getD ⟨0, 0⟩).micros) < 2 ^ 63 := by
    cases h : lastStop ops with
    | none => simp [Reading.micros]
    | some r =>
      obtain ⟨op, hm, he⟩ := List.exists_of_findSome?_eq_some h
      have := hsane op (List.mem_reverse.mp hm)
      cases op with
      | start r' => simp at he
      | stop r' =>
        simp only [Option.some.injEq] at he
        subst he
        simp only [Sane] at this
        simp only [Option.getD_some, Reading.micros]
        omega
  have h2 : 0 ≤ (((lastStart ops).getD ⟨0, 0⟩).micros) := by
    cases h : lastStart ops with
    | none => simp [Reading.micros]
    | some r =>
      obtain ⟨op, hm, he⟩ := List.exists_of_findSome?_eq_some h
      have := hsane op (List.mem_reverse.mp hm)
      cases op with
      | stop r' => simp at he
      | start r' =>
        simp only [Option.some.injEq] at he
        subst he
        simp only [Sane] at this
        simp only [Option.getD_some, Reading.micros]
        omega
  omega

/-- **C177**: up to 71 years the microseconds can be recovered from the seconds by rounding, and of two times the longer one is reported as the greater number. -/
theorem C177_microseconds (n n' : Nat) (x x' : Val) (h : Seconds n x) (h' : Seconds n' x') (hn : n < n') (hb : n' < 2 ^ 51) :
    ∃ r r', x = .num r ∧ x' = .num r' ∧ r < r' ∧ |r * 1000000 - n| < 1 / 2 ∧ |r' * 1000000 - n'| < 1 / 2 := by
  have near : ∀ (m : Nat) (r : ℚ), m < 2 ^ 51 → |r - m / 1000000| ≤ (m / 1000000 : ℚ) * ((1 + 1 / 2 ^ 53) ^ 2 - 1) → |r * 1000000 - m| < 1 / 2 := by
    intro m r hm hr
    have hm' : (m : ℚ) ≤ 2 ^ 51 - 1 := by
      have : (m : ℚ) ≤ ((2 ^ 51 - 1 : Nat) : ℚ) := by exact_mod_cast (by omega : m ≤ 2 ^ 51 - 1)
      exact le_trans this (by norm_num)
    have e : r * 1000000 - m = (r - m / 1000000) * 1000000 := by ring
    rw [e, abs_mul, abs_of_pos (by norm_num : (0 : ℚ) < 1000000)]
    have h1 := mul_le_mul_of_nonneg_right hr (by norm_num : (0 : ℚ) ≤ 1000000)
    refine lt_of_le_of_lt h1 ?_
    have h2 := mul_le_mul_of_nonneg_right hm' (by norm_num : (0 : ℚ) ≤ (1 + 1 / 2 ^ 53) ^ 2 - 1)
    refine lt_of_le_of_lt (le_of_eq (by ring)) (lt_of_le_of_lt h2 (by norm_num))
  obtain ⟨r, e, _, hr⟩ := h
  obtain ⟨r', e', _, hr'⟩ := h'
  have k := near n r (by omega) (hr (by omega))
  have k' := near n' r' hb (hr' (by omega))
  refine ⟨r, r', e, e', ?_, k, k'⟩
  have hN : (n : ℚ) + 1 ≤ n' := by exact_mod_cast hn
  have u := (abs_lt.mp k).2
  have u' := (abs_lt.mp k').1
  linarith

/-- **C177**: a timer that is running, and one whose clock was set back between `start` and `stop`, reports more than 18446744073708 seconds (half a million years). -/
theorem C177_no_time (ops : List Op) :
    ((run ops).running = true → ∃ r : ℚ, (run ops).time = ok (.num r) ∧ 18446744073708 < r) ∧
    (∀ a b, Sane a → Sane b → b.micros < a.micros → ∃ r : ℚ, (run [.start a, .stop b]).time = ok (.num r) ∧ 18446744073708 < r) := by
  have big : ∀ n : Nat, n < 2 ^ 64 → 2 ^ 64 - 1000000 < n → ∃ r : ℚ, seconds n = .num r ∧ 18446744073708 < r := by
    intro n hn h1
    obtain ⟨r, e, h, _⟩ := seconds_spec n hn
    refine ⟨r, e, ?_⟩
    have a := (abs_le.mp h).1
    have l : (18446744073708551616 : ℚ) ≤ n := by exact_mod_cast h1.le
    have u : (n : ℚ) ≤ 18446744073709551616 := by exact_mod_cast hn.le
    have c : ((1 + 1 / 2 ^ 53 : ℚ) ^ 3 - 1) ≤ 1 / 2 ^ 51 := by norm_num
    have b := mul_le_mul_of_nonneg_left c (by positivity : (0 : ℚ) ≤ n / 1000000)
    linarith
  constructor
  · intro h
    obtain ⟨r, e, hr⟩ := big ullMax (by decide) (by decide)
    refine ⟨r, ?_, hr⟩
    have : (run ops).usecTime = ok ullMax := by unfold Timer.usecTime; unfold Timer.running at h; simp [h]
    rw [Timer.time, this, ← e]
    rfl
  · intro a b ha hb h
    obtain ⟨n, e, h1, h2, h3⟩ := C117_clock_set_back a b ha hb h
    have hn : n < 2 ^ 64 := by
      rcases Int.lt_or_le b.sec a.sec with hs | hs
      · rw [h3 hs]; decide
      · have : b.sec = a.sec := by
          unfold Reading.micros at h
          unfold Sane at ha hb
          omega
        have := h2 this
        omega
    obtain ⟨r, e2, hr⟩ := big n hn h1
    refine ⟨r, ?_, hr⟩
    rw [Timer.time, e, ← e2]
    rfl

/-- **C177**: `scoped_timer` stores the seconds the block took at its end, whatever the block did to the variable and also when it is left by an exception. -/
theorem C177_scoped (a b : Reading) (ha : Sane a) (hb : Sane b) (h : a.micros ≤ b.micros) (body : Val → Outcome Val) (var : Val) :
    ∃ (n : Nat) (x : Val), (n : Int) = b.micros - a.micros ∧ Seconds n x ∧ (∀ w, body var = ok w → timedSeconds a b body var = ok (false, x)) ∧
      (body var = thrown → timedSeconds a b body var = ok (true, x)) := by
  obtain ⟨n, x, h1, h2, h3⟩ := C177_seconds [.start a, .stop b] (by
    intro op hop
    simp only [List.mem_cons, List.not_mem_nil, or_false] at hop
    rcases hop with rfl | rfl
    · exact ha
    · exact hb) rfl h
  refine ⟨n, x, h1, h3, ?_, ?_⟩
  · intro w hw
    have e : ((new.begin a).halt b).time = ok x := h2
    unfold timedSeconds
    simp only [hw, e, ok_bind, pure_eq]
  · intro hw
    have e : ((new.begin a).halt b).time = ok x := h2
    unfold timedSeconds
    simp only [hw, e, ok_bind, pure_eq]

/-- Non-vacuity of `C177_seconds`: a history with two starts. -/
example := C177_seconds [.start ⟨5, 900000⟩, .start ⟨7, 999999⟩, .stop ⟨8, 1⟩, .stop ⟨9, 0⟩] (by simp [Sane]) rfl (by decide)

/-- Non-vacuity of `C177_microseconds`: a year and a microsecond more. -/
example := C177_microseconds 31536000000000 31536000000001 _ _ (seconds_spec _ (by decide)) (seconds_spec _ (by decide)) (by decide) (by decide)

/-- Non-vacuity of `C177_no_time`: a clock set back by two microseconds, a running timer. -/
example := (C177_no_time []).2 ⟨5, 2⟩ ⟨5, 0⟩ (by unfold Sane; decide) (by unfold Sane; decide) (by decide)
example := (C177_no_time [.start ⟨5, 2⟩]).1 rfl

/-- Non-vacuity of `C177_scoped`: a block that throws. -/
example := (C177_scoped ⟨5, 900000⟩ ⟨7, 1⟩ (by unfold Sane; decide) (by unfold Sane; decide) (by decide) (fun _ => thrown) (.num 0))

end Strtk.Timer
