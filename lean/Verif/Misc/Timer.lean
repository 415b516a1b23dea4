import Verif.Outcome

/-!
# C117: timer, scoped_timer (strtk.hpp 24379-24495, the branch for systems with gettimeofday)

Every call of `gettimeofday` is given the reading it makes: seconds since the epoch and microseconds.  Nothing is assumed of the readings unless a theorem
says so: the clock may be set back between two of them.
-/

namespace Strtk.Timer
open Outcome

/-! ## Model -/

/-- `struct timeval`: `tv_sec`, `tv_usec`. -/
structure Reading where
  sec : Int
  usec : Int
  deriving DecidableEq, Repr

/-- The members `in_use_`, `start_time_`, `stop_time_` (24455-24464). -/
structure Timer where
  inUse : Bool
  start : Reading
  stop : Reading
  deriving DecidableEq, Repr

/-- The constructor (24409-24416). -/
def new : Timer := ⟨false, ⟨0, 0⟩, ⟨0, 0⟩⟩

/-- `start` (24418-24422). -/
def Timer.begin (t : Timer) (now : Reading) : Timer := { t with inUse := true, start := now }

/-- `stop` (24424-24428). -/
def Timer.halt (t : Timer) (now : Reading) : Timer := { t with stop := now, inUse := false }

/-- The greatest `unsigned long long`. -/
def ullMax : Nat := 2 ^ 64 - 1

/-- An expression of type `long` (64 bits): outside the range the behaviour is undefined. -/
def long (x : Int) : Outcome Int := if -(2 ^ 63) ≤ x ∧ x < 2 ^ 63 then ok x else ub

/-- Conversion of a `long` to `unsigned long long`. -/
def toULL (x : Int) : Nat := (x % 2 ^ 64).toNat

/-- `usec_time` (24430-24444). -/
def Timer.usecTime (t : Timer) : Outcome Nat :=
  if !t.inUse then
    if t.stop.sec ≥ t.start.sec then do
      let ds ← long (t.stop.sec - t.start.sec)
      let us ← long (1000000 * ds)
      let du ← long (t.stop.usec - t.start.usec)
      let r ← long (us + du)
      pure (toULL r)
    else ok ullMax
  else ok ullMax

/-- `in_use` (24453-24456). -/
def Timer.running (t : Timer) : Bool := t.inUse

/-- One use of a timer: `start` or `stop`, with the reading of the clock it makes. -/
inductive Op where
  | start (now : Reading)
  | stop (now : Reading)

/-- A timer after a history of calls. -/
def run (ops : List Op) : Timer := ops.foldl (fun t op => match op with
  | .start now => t.begin now
  | .stop now => t.halt now) new

/-- `scoped_timer` (24472-24495): the constructor starts the timer, the destructor stops it and only then writes the variable of the caller.  Here in
microseconds; `time()` (24446-24449) multiplies them with 0.000001, which is not modelled.  The block in between gets the variable as it is; the result says
whether the block ended by an exception, and gives the variable afterwards. -/
def timedBlock (atBegin atEnd : Reading) (body : Nat → Outcome Nat) (var : Nat) : Outcome (Bool × Nat) :=
  let t := new.begin atBegin
  match body var with
  | ok _ => do
    let n ← (t.halt atEnd).usecTime
    pure (false, n)
  | thrown => do
    let n ← (t.halt atEnd).usecTime
    pure (true, n)
  | ub => ub
  | diverge => diverge

/-! ## Specification -/

/-- The readings `gettimeofday` can give before the year 250000. -/
def Sane (r : Reading) : Prop := 0 ≤ r.sec ∧ r.sec ≤ 2 ^ 42 ∧ 0 ≤ r.usec ∧ r.usec < 1000000

/-- A reading in microseconds. -/
def Reading.micros (r : Reading) : Int := 1000000 * r.sec + r.usec

/-- The reading of the last `start` of a history, if there is one. -/
def lastStart (ops : List Op) : Option Reading := ops.reverse.findSome? (fun op => match op with | .start r => some r | _ => none)

/-- The reading of the last `stop` of a history, if there is one. -/
def lastStop (ops : List Op) : Option Reading := ops.reverse.findSome? (fun op => match op with | .stop r => some r | _ => none)

/-! ## C117 -/

theorem run_snoc (ops : List Op) (op : Op) : run (ops ++ [op]) = match op with
    | .start now => (run ops).begin now
    | .stop now => (run ops).halt now := by
  simp only [run, List.foldl_append, List.foldl_cons, List.foldl_nil]

theorem run_fields (ops : List Op) :
    (run ops).start = (lastStart ops).getD ⟨0, 0⟩ ∧ (run ops).stop = (lastStop ops).getD ⟨0, 0⟩ ∧
    ((run ops).inUse = true ↔ ∃ pre now, ops = pre ++ [.start now]) := by
  rcases List.eq_nil_or_concat ops with rfl | ⟨pre, op, rfl⟩
  · refine ⟨rfl, rfl, ?_⟩
    simp [run, new]
  · have ih := run_fields pre
    rw [List.concat_eq_append] at *
    cases op with
    | start now =>
      rw [run_snoc]
      refine ⟨?_, ?_, ?_⟩
      · simp [Timer.begin, lastStart, List.reverse_append]
      · simp [Timer.begin, lastStop, List.reverse_append]
        exact ih.2.1
      · simp [Timer.begin]
    | stop now =>
      rw [run_snoc]
      refine ⟨?_, ?_, ?_⟩
      · simp [Timer.halt, lastStart, List.reverse_append]
        exact ih.1
      · simp [Timer.halt, lastStop, List.reverse_append]
      · simp [Timer.halt]
termination_by ops.length

theorem usecTime_eq (t : Timer) (h1 : Sane t.start) (h2 : Sane t.stop) (hr : t.inUse = false) (hs : t.start.sec ≤ t.stop.sec) :
    t.usecTime = ok (toULL (t.stop.micros - t.start.micros)) := by
  obtain ⟨a1, a2, a3, a4⟩ := h1
  obtain ⟨b1, b2, b3, b4⟩ := h2
  unfold Timer.usecTime
  have l1 : long (t.stop.sec - t.start.sec) = ok (t.stop.sec - t.start.sec) := by unfold long; rw [if_pos (by omega)]
  have l2 : long (1000000 * (t.stop.sec - t.start.sec)) = ok (1000000 * (t.stop.sec - t.start.sec)) := by unfold long; rw [if_pos (by omega)]
  have l3 : long (t.stop.usec - t.start.usec) = ok (t.stop.usec - t.start.usec) := by unfold long; rw [if_pos (by omega)]
  have l4 : long (1000000 * (t.stop.sec - t.start.sec) + (t.stop.usec - t.start.usec)) =
      ok (1000000 * (t.stop.sec - t.start.sec) + (t.stop.usec - t.start.usec)) := by unfold long; rw [if_pos (by omega)]
  simp only [hr, Bool.not_false, if_true, ge_iff_le, hs, l1, ok_bind, l2, l3, l4, pure_eq]
  congr 2
  unfold Reading.micros
  omega

/-- **C117**: whatever the history of a timer, after its last `stop` it reports the microseconds between the last `start` and the last `stop` (since the epoch, if
it was never started), provided the clock was not set back in between; while it is running, the greatest number; before it was ever used, 0. -/
theorem C117_timer (ops : List Op) (hsane : ∀ op ∈ ops, match op with | .start r => Sane r | .stop r => Sane r) :
    ((run ops).running = true ↔ ∃ pre now, ops = pre ++ [.start now]) ∧
    ((run ops).running = true → (run ops).usecTime = ok ullMax) ∧
    ((run ops).running = false → ((lastStart ops).getD ⟨0, 0⟩).micros ≤ ((lastStop ops).getD ⟨0, 0⟩).micros →
      ∃ n : Nat, (run ops).usecTime = ok n ∧ (n : Int) = ((lastStop ops).getD ⟨0, 0⟩).micros - ((lastStart ops).getD ⟨0, 0⟩).micros) := by
  obtain ⟨f1, f2, f3⟩ := run_fields ops
  refine ⟨f3, ?_, ?_⟩
  · intro h
    unfold Timer.usecTime
    unfold Timer.running at h
    simp [h]
  · intro hr hle
    have s1 : Sane ((lastStart ops).getD ⟨0, 0⟩) := by
      cases h : lastStart ops with
      | none => simp [Sane]
      | some r =>
        obtain ⟨op, hm, he⟩ := List.exists_of_findSome?_eq_some h
        have := hsane op (List.mem_reverse.mp hm)
        cases op <;> simp_all
    have s2 : Sane ((lastStop ops).getD ⟨0, 0⟩) := by
      cases h : lastStop ops with
      | none => simp [Sane]
      | some r =>
        obtain ⟨op, hm, he⟩ := List.exists_of_findSome?_eq_some h
        have := hsane op (List.mem_reverse.mp hm)
        cases op <;> simp_all
    have hs : ((lastStart ops).getD ⟨0, 0⟩).sec ≤ ((lastStop ops).getD ⟨0, 0⟩).sec := by
      unfold Reading.micros at hle
      unfold Sane at s1 s2
      omega
    refine ⟨_, usecTime_eq _ (f1 ▸ s1) (f2 ▸ s2) hr (by rw [f1, f2]; exact hs), ?_⟩
    rw [f1, f2]
    unfold toULL
    unfold Reading.micros at hle ⊢
    unfold Sane at s1 s2
    omega

/-- When the clock is set back between `start` and `stop`, the result is the greatest number if the seconds went back, and otherwise a
number within a second of 2^64; it is never small. -/
theorem C117_clock_set_back (a b : Reading) (ha : Sane a) (hb : Sane b) (h : b.micros < a.micros) :
    ∃ n, (run [.start a, .stop b]).usecTime = ok n ∧ 2 ^ 64 - 1000000 < n ∧ (b.sec = a.sec → (n : Int) = 2 ^ 64 - (a.micros - b.micros)) ∧
      (b.sec < a.sec → n = ullMax) := by
  by_cases hs : a.sec ≤ b.sec
  · refine ⟨_, usecTime_eq _ ha hb rfl hs, ?_⟩
    show 2 ^ 64 - 1000000 < toULL (b.micros - a.micros) ∧ (b.sec = a.sec → ((toULL (b.micros - a.micros) : Nat) : Int) = 2 ^ 64 - (a.micros - b.micros)) ∧
      (b.sec < a.sec → toULL (b.micros - a.micros) = ullMax)
    unfold toULL
    unfold Reading.micros at h ⊢
    unfold Sane at ha hb
    refine ⟨?_, ?_, ?_⟩ <;> omega
  · refine ⟨ullMax, ?_, by decide, by omega, fun _ => rfl⟩
    have e : run [.start a, .stop b] = ⟨false, a, b⟩ := rfl
    rw [e]
    unfold Timer.usecTime
    simp only [Bool.not_false, if_true, ge_iff_le, hs, if_false]

/-- **C117**: `scoped_timer` stores the time the block took at its end, whatever the block did to the variable and also when it is left by an exception. -/
theorem C117_scoped (a b : Reading) (ha : Sane a) (hb : Sane b) (h : a.micros ≤ b.micros) (body : Nat → Outcome Nat) (var : Nat) :
    ∃ n : Nat, (n : Int) = b.micros - a.micros ∧ (∀ w, body var = ok w → timedBlock a b body var = ok (false, n)) ∧
      (body var = thrown → timedBlock a b body var = ok (true, n)) := by
  have hs : a.sec ≤ b.sec := by
    unfold Reading.micros at h
    unfold Sane at ha hb
    omega
  have e : ((new.begin a).halt b).usecTime = ok (toULL (b.micros - a.micros)) := usecTime_eq _ ha hb rfl hs
  refine ⟨toULL (b.micros - a.micros), ?_, ?_, ?_⟩
  · unfold toULL
    unfold Reading.micros at h ⊢
    unfold Sane at ha hb
    omega
  · intro w hw
    unfold timedBlock
    simp only [hw, e, ok_bind, pure_eq]
  · intro hw
    unfold timedBlock
    simp only [hw, e, ok_bind, pure_eq]

/-- Started twice and stopped twice; a timer that was never started; a clock set back by two microseconds. -/
example : (run [.start ⟨5, 900000⟩, .start ⟨7, 999999⟩, .stop ⟨8, 1⟩, .stop ⟨9, 0⟩]).usecTime = ok 1000001 ∧
    (run [.stop ⟨9, 3⟩]).usecTime = ok 9000003 ∧ (run [.start ⟨5, 2⟩, .stop ⟨5, 0⟩]).usecTime = ok (2 ^ 64 - 2) := by decide +kernel

example : Sane ⟨1700000000, 999999⟩ := by unfold Sane; decide

end Strtk.Timer
