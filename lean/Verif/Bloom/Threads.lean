import Verif.Bloom.Props
import Mathlib.Data.List.Induction

/-!
# One Bloom filter used by several threads (C168; strtk.hpp 20165-20223)

`insert` reads and writes cells of the table one after the other, and then the element count; `contains` reads cells.  The accesses of several threads are interleaved in any
order.  Single accesses are atomic and sequentially consistent, which C++ grants only to programs without data races; data races are defined here (`Race`), and where they can
occur the theorems speak of machines on which accesses to single cells are atomic.  The salts and the sizes are never written by these functions.
-/

namespace Strtk.Bloom.Conc
open Outcome Mem

/-! ## Model -/

/-- A call on the filter. -/
inductive Call where
  | insert (key : List UInt8)
  | contains (key : List UInt8)
deriving DecidableEq

/-- Where a thread is. -/
inductive Pc where
  /-- between two calls -/
  | idle
  /-- in the loop of `insert` (20175-20179), with the salts that are left; reads a cell next, or the element count behind the loop -/
  | setting (key : List UInt8) (salts : List UInt32)
  /-- in the loop of `insert` (20178), about to write `v` into cell `i` -/
  | storing (key : List UInt8) (salts : List UInt32) (i : Nat) (v : UInt8)
  /-- at the end of `insert` (20180), about to write the element count, which was `n` -/
  | counting (key : List UInt8) (n : Nat)
  /-- in the loop of `contains` (20214-20221); `known` is recorded for the specification: the keys whose insertion had returned when `contains` was called -/
  | asking (key : List UInt8) (known : List (List UInt8)) (salts : List UInt32)
  /-- undefined behaviour -/
  | bad
deriving DecidableEq

/-- A result of `contains`; for `known` see `Pc`. -/
structure Answer where
  key : List UInt8
  known : List (List UInt8)
  found : Bool
deriving DecidableEq

/-- A thread: the calls it has still to make, where it is, and the answers it has got. -/
structure Thread where
  todo : List Call
  pc : Pc
  answers : List Answer
deriving DecidableEq

/-- What the threads share: the table and the element count of the filter; `done` is recorded for the specification: the keys whose insertion has returned. -/
structure World where
  table : List UInt8
  count : Nat
  done : List (List UInt8)
  threads : List Thread
deriving DecidableEq

/-- One step of a thread: a call begins, or there is one access to a cell or to the element count. -/
def act (f : Filter) (w : World) (t : Thread) : World × Thread :=
  match t.pc with
  | .idle =>
    match t.todo with
    | [] => (w, t)
    | .insert k :: cs => (w, { t with todo := cs, pc := .setting k f.salts })
    | .contains k :: cs => (w, { t with todo := cs, pc := .asking k w.done f.salts })
  | .setting k [] => (w, { t with pc := .counting k w.count })
  | .setting k (s :: salts) =>
    match computeIndex f (hashAp k s) with
    | ok i =>
      match w.table[i / 8]? with
      | some c => (w, { t with pc := .storing k salts (i / 8) (c ||| bitMask (i % 8)) })
      | none => (w, { t with pc := .bad })
    | _ => (w, { t with pc := .bad })
  | .storing k salts i v =>
    if i < w.table.length then ({ w with table := w.table.set i v }, { t with pc := .setting k salts }) else (w, { t with pc := .bad })
  | .counting k n => ({ w with count := (n + 1) % 2 ^ 32, done := w.done ++ [k] }, { t with pc := .idle })
  | .asking k known [] => (w, { t with pc := .idle, answers := t.answers ++ [⟨k, known, true⟩] })
  | .asking k known (s :: salts) =>
    match computeIndex f (hashAp k s) with
    | ok i =>
      match w.table[i / 8]? with
      | some c =>
        if c &&& bitMask (i % 8) ≠ bitMask (i % 8) then (w, { t with pc := .idle, answers := t.answers ++ [⟨k, known, false⟩] })
        else (w, { t with pc := .asking k known salts })
      | none => (w, { t with pc := .bad })
    | _ => (w, { t with pc := .bad })
  | .bad => (w, t)

/-- A step of thread `i`. -/
def stepAt (f : Filter) (w : World) (i : Nat) : World :=
  match w.threads[i]? with
  | none => w
  | some t => { (act f w t).1 with threads := w.threads.set i (act f w t).2 }

/-- The threads running by a schedule: the numbers of the threads that take the steps. -/
def run (f : Filter) : World → List Nat → World
  | w, [] => w
  | w, i :: sched => run f (stepAt f w i) sched

/-- The threads about to make their calls on the filter `f`. -/
def start (f : Filter) (calls : List (List Call)) : World := ⟨f.table, f.inserted, [], calls.map fun cs => ⟨cs, .idle, []⟩⟩

/-- The filter as the threads have left it. -/
def World.filter (f : Filter) (w : World) : Filter := { f with table := w.table, inserted := w.count }

/-! ## Specification -/

/-- A filter whose bits all lie in its table. -/
def Usable (f : Filter) : Prop := ∀ h, ∃ i, computeIndex f h = ok i ∧ i / 8 < f.table.length

/-- The keys that are inserted by some calls. -/
def inserted : List Call → List (List UInt8)
  | [] => []
  | .insert k :: cs => k :: inserted cs
  | .contains _ :: cs => inserted cs

/-- The keys that are asked for by some calls. -/
def asked : List Call → List (List UInt8)
  | [] => []
  | .insert _ :: cs => asked cs
  | .contains k :: cs => k :: asked cs

/-- The calls one after the other, without other threads: the filter and the answers. -/
def inOrder : Filter → List Bool → List Call → Outcome (Filter × List Bool)
  | f, as, [] => ok (f, as)
  | f, as, .insert k :: cs => do
    let f ← f.insert k
    inOrder f as cs
  | f, as, .contains k :: cs => do
    let b ← f.contains k
    inOrder f (as ++ [b]) cs

/-- A thread that has made all its calls. -/
def Ended (t : Thread) : Prop := t.pc = .idle ∧ t.todo = []

/-- What a thread is about to access: a cell or (`none`) the element count, and whether it writes. -/
def nextAccess (f : Filter) (t : Thread) : Option (Option Nat × Bool) :=
  match t.pc with
  | .setting _ [] => some (none, false)
  | .setting k (s :: _) => match computeIndex f (hashAp k s) with
    | ok i => some (some (i / 8), false)
    | _ => none
  | .storing _ _ i _ => some (some i, true)
  | .counting _ _ => some (none, true)
  | .asking k _ (s :: _) => match computeIndex f (hashAp k s) with
    | ok i => some (some (i / 8), false)
    | _ => none
  | _ => none

/-- Two threads are about to access the same variable and one of them writes. -/
def Race (f : Filter) (w : World) : Prop :=
  ∃ (i j : Nat) (a b : Thread) (x : Option Nat) (v v' : Bool), i ≠ j ∧ w.threads[i]? = some a ∧ w.threads[j]? = some b ∧ nextAccess f a = some (x, v) ∧ nextAccess f b = some (x, v') ∧ (v || v') = true

/-- Different threads insert keys whose bits lie in different cells. -/
def Apart (f : Filter) (calls : List (List Call)) : Prop :=
  ∀ (i j : Nat) (a b : List Call), i ≠ j → calls[i]? = some a → calls[j]? = some b → ∀ k ∈ inserted a, ∀ k' ∈ inserted b, ∀ s ∈ f.salts, ∀ s' ∈ f.salts, ∀ x y,
    computeIndex f (hashAp k s) = ok x → computeIndex f (hashAp k' s') = ok y → x / 8 ≠ y / 8

/-! ## Steps -/

theorem run_inv' {f : Filter} {P : World → Prop} (hstep : ∀ w i, P w → P (stepAt f w i)) : ∀ (sched : List Nat) (w : World), P w → P (run f w sched) := by
  intro sched
  induction sched with
  | nil => intro w h; exact h
  | cons i sched ih => intro w h; exact ih _ (hstep w i h)

theorem start_thread {f : Filter} {calls : List (List Call)} {i : Nat} {cs : List Call} (h : calls[i]? = some cs) :
    (start f calls).threads[i]? = some ⟨cs, .idle, []⟩ := by simp [start, h]

/-- What holds of every thread and is kept by the steps of the thread itself and of the others. -/
theorem threads_inv {f : Filter} {calls : List (List Call)} {I : World → Prop} {Q : World → List Call → Thread → Prop}
    (h0 : I (start f calls)) (hq0 : ∀ cs ∈ calls, Q (start f calls) cs ⟨cs, .idle, []⟩)
    (hI : ∀ (w : World) (i : Nat) (cs : List Call) (t : Thread), calls[i]? = some cs → w.threads[i]? = some t → I w → Q w cs t → ∀ ts, I { (act f w t).1 with threads := ts })
    (hself : ∀ (w : World) (i : Nat) (cs : List Call) (t : Thread), calls[i]? = some cs → w.threads[i]? = some t → I w → Q w cs t → ∀ ts, Q { (act f w t).1 with threads := ts } cs (act f w t).2)
    (hother : ∀ (w : World) (i j : Nat) (cs cs' : List Call) (t t' : Thread), i ≠ j → calls[i]? = some cs → calls[j]? = some cs' → w.threads[i]? = some t → w.threads[j]? = some t' → I w → Q w cs t → Q w cs' t' →
      ∀ ts, Q { (act f w t).1 with threads := ts } cs' t')
    (sched : List Nat) :
    let w := run f (start f calls) sched
    I w ∧ w.threads.length = calls.length ∧ ∀ (i : Nat) (cs : List Call) (t : Thread), calls[i]? = some cs → w.threads[i]? = some t → Q w cs t := by
  refine run_inv' (P := fun w => I w ∧ w.threads.length = calls.length ∧ ∀ (i : Nat) (cs : List Call) (t : Thread), calls[i]? = some cs → w.threads[i]? = some t → Q w cs t) ?_ sched _ ?_
  · rintro w i ⟨h1, h2, h3⟩
    unfold stepAt
    cases ht : w.threads[i]? with
    | none => exact ⟨h1, h2, h3⟩
    | some t =>
      have hi : i < w.threads.length := (List.getElem?_eq_some_iff.mp ht).1
      obtain ⟨cs, hcs⟩ : ∃ cs, calls[i]? = some cs := ⟨calls[i]'(by omega), by simp⟩
      have hQ := h3 i cs t hcs ht
      refine ⟨hI w i cs t hcs ht h1 hQ _, by simp [h2], fun j cs' t' hcs' ht' => ?_⟩
      simp only at ht'
      by_cases e : i = j
      · subst e
        rw [List.getElem?_set_self hi] at ht'
        rw [hcs] at hcs'
        cases ht'; cases hcs'
        exact hself w i cs t hcs ht h1 hQ _
      · rw [List.getElem?_set_ne e] at ht'
        exact hother w i j cs cs' t t' e hcs hcs' ht ht' h1 hQ (h3 j cs' t' hcs' ht') _
  · refine ⟨h0, by simp [start], fun i cs t hcs ht => ?_⟩
    rw [start_thread hcs] at ht
    cases ht
    exact hq0 cs (List.mem_of_getElem? hcs)

theorem act_threads (f : Filter) (w : World) (t : Thread) : (act f w t).1.threads = w.threads := by
  unfold act
  repeat' split
  all_goals rfl

/-! ## No access leaves the table, and every thread ends -/

/-- Steps that are left in the current call. -/
def pcSteps : Pc → Nat
  | .idle => 0
  | .setting _ salts => 2 * salts.length + 2
  | .storing _ salts _ _ => 2 * salts.length + 3
  | .counting _ _ => 1
  | .asking _ _ salts => salts.length + 1
  | .bad => 0

/-- Steps that are left to a thread, at most. -/
def steps (f : Filter) (t : Thread) : Nat := pcSteps t.pc + t.todo.length * (2 * f.salts.length + 3)

/-- What the thread is asking for now. -/
def asking : Pc → List (List UInt8)
  | .asking k _ _ => [k]
  | _ => []

/-- Nothing has gone wrong: the thread is inside the table, and its answers belong to its questions in order. -/
structure Fine (w : World) (cs : List Call) (t : Thread) : Prop where
  pc : t.pc ≠ .bad
  cell : ∀ k salts i v, t.pc = .storing k salts i v → i < w.table.length
  order : t.answers.map Answer.key ++ (asking t.pc ++ asked t.todo) = asked cs

theorem act_length (f : Filter) (w : World) (t : Thread) : (act f w t).1.table.length = w.table.length := by
  unfold act
  repeat' split
  all_goals simp

theorem act_fine {f : Filter} (hf : Usable f) {w : World} (hl : w.table.length = f.table.length) {cs : List Call} {t : Thread} (h : Fine w cs t) :
    Fine (act f w t).1 cs (act f w t).2 ∧ (steps f (act f w t).2 + 1 ≤ steps f t ∨ Ended t ∧ (act f w t).2 = t) := by
  obtain ⟨hp, hc, ho⟩ := h
  obtain ⟨todo, pc, answers⟩ := t
  cases pc with
  | idle =>
    cases todo with
    | nil => exact ⟨⟨hp, hc, ho⟩, Or.inr ⟨⟨rfl, rfl⟩, rfl⟩⟩
    | cons c todo =>
      cases c with
      | insert k =>
        exact ⟨⟨by simp [act], by simp [act], by simpa [act, asking, asked] using ho⟩, Or.inl (by simp [act, steps, pcSteps, Nat.add_mul]; omega)⟩
      | contains k =>
        exact ⟨⟨by simp [act], by simp [act], by simpa [act, asking, asked] using ho⟩, Or.inl (by simp [act, steps, pcSteps, Nat.add_mul]; omega)⟩
  | setting k salts =>
    cases salts with
    | nil => exact ⟨⟨by simp [act], by simp [act], by simpa [act, asking] using ho⟩, Or.inl (by simp [act, steps, pcSteps]; omega)⟩
    | cons s salts =>
      obtain ⟨i, hi, hlt⟩ := hf (hashAp k s)
      obtain ⟨c, hc', _⟩ := deref_lt (s := w.table) (i := i / 8) (by omega)
      simp only [act, hi, hc']
      refine ⟨⟨by simp, fun k' s' i' v' h => ?_, by simpa [asking] using ho⟩, Or.inl (by simp [steps, pcSteps]; omega)⟩
      simp only [Pc.storing.injEq] at h
      rw [← h.2.2.1]; omega
  | storing k salts i v =>
    have hi := hc k salts i v rfl
    simp only [act, if_pos hi]
    exact ⟨⟨by simp, by simp, by simpa [asking] using ho⟩, Or.inl (by simp [steps, pcSteps]; omega)⟩
  | counting k n => exact ⟨⟨by simp [act], by simp [act], by simpa [act, asking] using ho⟩, Or.inl (by simp [act, steps, pcSteps]; omega)⟩
  | asking k known salts =>
    cases salts with
    | nil => exact ⟨⟨by simp [act], by simp [act], by simpa [act, asking] using ho⟩, Or.inl (by simp [act, steps, pcSteps]; omega)⟩
    | cons s salts =>
      obtain ⟨i, hi, hlt⟩ := hf (hashAp k s)
      obtain ⟨c, hc', _⟩ := deref_lt (s := w.table) (i := i / 8) (by omega)
      simp only [act, hi, hc']
      split
      · exact ⟨⟨by simp, by simp, by simpa [asking] using ho⟩, Or.inl (by simp [steps, pcSteps]; omega)⟩
      · exact ⟨⟨by simp, by simp, by simpa [asking] using ho⟩, Or.inl (by simp [steps, pcSteps]; omega)⟩
  | bad => exact absurd rfl hp

theorem fine_run (f : Filter) (hf : Usable f) (calls : List (List Call)) (sched : List Nat) :
    let w := run f (start f calls) sched
    w.table.length = f.table.length ∧ w.threads.length = calls.length ∧ ∀ (i : Nat) (cs : List Call) (t : Thread), calls[i]? = some cs → w.threads[i]? = some t → Fine w cs t := by
  refine threads_inv (I := fun w => w.table.length = f.table.length) (Q := Fine) rfl ?_ ?_ ?_ ?_ sched
  · intro cs _
    exact ⟨by simp, by simp, by simp [asking]⟩
  · intro w i cs t _ _ hl _ ts
    simpa [act_length] using hl
  · intro w i cs t _ _ hl hq ts
    obtain ⟨h1, h2, h3⟩ := (act_fine hf hl hq).1
    exact ⟨h1, h2, h3⟩
  · intro w i j cs cs' t t' _ _ _ _ _ hl _ hq ts
    obtain ⟨h1, h2, h3⟩ := hq
    exact ⟨h1, fun k s i v h => by simpa [act_length] using h2 k s i v h, h3⟩

theorem run_append (f : Filter) : ∀ (a b : List Nat) (w : World), run f w (a ++ b) = run f (run f w a) b := by
  intro a
  induction a with
  | nil => intro b w; rfl
  | cons i a ih => intro b w; exact ih b _

/-- A thread that is given enough steps ends. -/
theorem ends_in_time (f : Filter) (hf : Usable f) (calls : List (List Call)) (i : Nat) (cs : List Call) (hcs : calls[i]? = some cs) (sched : List Nat) :
    ∃ t, (run f (start f calls) sched).threads[i]? = some t ∧ (Ended t ∨ steps f t + sched.count i ≤ cs.length * (2 * f.salts.length + 3)) := by
  induction sched using List.reverseRecOn with
  | nil => exact ⟨⟨cs, .idle, []⟩, start_thread hcs, Or.inr (by simp [steps, pcSteps])⟩
  | append_singleton sched j ih =>
    obtain ⟨t, ht, h⟩ := ih
    rw [run_append]
    obtain ⟨hl, _, hfine⟩ := fine_run f hf calls sched
    have hstep := act_fine hf hl (hfine i cs t hcs ht)
    show ∃ t, (stepAt f (run f (start f calls) sched) j).threads[i]? = some t ∧ _
    unfold stepAt
    by_cases e : j = i
    · subst e
      rw [ht]
      have hi := (List.getElem?_eq_some_iff.mp ht).1
      refine ⟨(act f (run f (start f calls) sched) t).2, by simp [hi], ?_⟩
      rcases h with h | h
      · left
        rcases hstep.2 with hs | ⟨_, he⟩
        · obtain ⟨h1, h2⟩ := h
          simp [steps, h1, h2, pcSteps] at hs
        · rw [he]; exact h
      · rcases hstep.2 with hs | ⟨hend, he⟩
        · right; rw [List.count_append, List.count_singleton_self]; omega
        · left; rw [he]; exact hend
    · cases hj : (run f (start f calls) sched).threads[j]? with
      | none => exact ⟨t, ht, by rw [List.count_append]; simpa [List.count_singleton, e] using h⟩
      | some t' => exact ⟨t, by simp [List.getElem?_set_ne e, ht], by rw [List.count_append]; simpa [List.count_singleton, e] using h⟩

/-- **C168**: whatever the calls and the schedule, no thread leaves the table, its answers belong to its questions in order, and it ends after a bounded number of its own
steps whatever the others do. -/
theorem C168_safe (f : Filter) (hf : Usable f) (calls : List (List Call)) (sched : List Nat) (i : Nat) (cs : List Call) (hcs : calls[i]? = some cs) :
    ∃ t, (run f (start f calls) sched).threads[i]? = some t ∧ t.pc ≠ .bad ∧ t.answers.map Answer.key <+: asked cs ∧
      (Ended t → t.answers.map Answer.key = asked cs) ∧ (cs.length * (2 * f.salts.length + 3) ≤ sched.count i → Ended t) := by
  obtain ⟨t, ht, h⟩ := ends_in_time f hf calls i cs hcs sched
  obtain ⟨h1, _, h3⟩ := (fine_run f hf calls sched).2.2 i cs t hcs ht
  refine ⟨t, ht, h1, ⟨_, h3⟩, ?_, ?_⟩
  · rintro ⟨e1, e2⟩
    rw [e1, e2] at h3
    simpa [asking, asked] using h3
  · intro hn
    rcases h with h | h
    · exact h
    · have h0 : steps f t = 0 := by omega
      obtain ⟨todo, pc, answers⟩ := t
      have e1 : pcSteps pc = 0 := by unfold steps at h0; simp only at h0; omega
      have e2 : todo.length * (2 * f.salts.length + 3) = 0 := by unfold steps at h0; simp only at h0; omega
      have e3 : todo = [] := by
        rcases Nat.mul_eq_zero.mp e2 with h | h
        · exact List.length_eq_zero_iff.mp h
        · omega
      refine ⟨?_, e3⟩
      cases pc with
      | idle => rfl
      | bad => exact absurd rfl h1
      | setting k l => simp [pcSteps] at e1
      | storing k l i v => simp [pcSteps] at e1
      | counting k n => simp [pcSteps] at e1
      | asking k n l => simp [pcSteps] at e1

/-! ## One thread that inserts -/

/-- What becomes of the filter `g` when the thread goes on without the others. -/
def rest (f g : Filter) (t : Thread) : Outcome (Filter × List Bool) :=
  let as := t.answers.map Answer.found
  match t.pc with
  | .idle => inOrder g as t.todo
  | .setting k salts => do
    let table ← insertLoop f k salts g.table
    inOrder { g with table := table, inserted := (g.inserted + 1) % 2 ^ 32 } as t.todo
  | .storing k salts i v => do
    let table ← store g.table i v
    let table ← insertLoop f k salts table
    inOrder { g with table := table, inserted := (g.inserted + 1) % 2 ^ 32 } as t.todo
  | .counting _ n => inOrder { g with inserted := (n + 1) % 2 ^ 32 } as t.todo
  | .asking k _ salts => do
    let b ← containsLoop g k salts
    inOrder g (as ++ [b]) t.todo
  | .bad => ub

theorem index_filter (f : Filter) (w : World) (h : UInt32) : computeIndex (w.filter f) h = computeIndex f h := rfl

theorem insertLoop_filter (f : Filter) (w : World) (k : List UInt8) : ∀ (salts : List UInt32) (t : List UInt8),
    insertLoop (w.filter f) k salts t = insertLoop f k salts t := by
  intro salts
  induction salts with
  | nil => intro t; rfl
  | cons s salts ih => intro t; unfold insertLoop; simp only [index_filter, ih]

theorem deref_none {s : List UInt8} {i : Nat} (h : s[i]? = none) : deref s i = ub := by simp [deref, h]

theorem reduce_defined : ∀ (l : List Nat) (x : Nat), reduce x l ≠ thrown ∧ reduce x l ≠ diverge := by
  intro l
  induction l with
  | nil => intro x; exact ⟨by simp [reduce], by simp [reduce]⟩
  | cons m l ih =>
    intro x
    unfold reduce remainder
    split
    · exact ⟨by simp, by simp⟩
    · rw [ok_bind]; exact ih _

theorem index_defined (f : Filter) (h : UInt32) : computeIndex f h ≠ thrown ∧ computeIndex f h ≠ diverge := by
  unfold computeIndex remainder
  split
  · split
    · exact ⟨by simp, by simp⟩
    · exact ⟨by simp, by simp⟩
  · exact reduce_defined _ _

/-- Going on alone, a thread does in its steps what is left of its calls. -/
theorem act_rest (f : Filter) (w : World) (t : Thread) (ts : List Thread) :
    rest f (({ (act f w t).1 with threads := ts } : World).filter f) (act f w t).2 = rest f (w.filter f) t := by
  obtain ⟨todo, pc, answers⟩ := t
  cases pc with
  | idle =>
    cases todo with
    | nil => rfl
    | cons c todo =>
      cases c with
      | insert k =>
        simp only [act, rest, inOrder, Filter.insert]
        simp only [insertLoop_filter]
        simp only [World.filter]
        cases insertLoop f k f.salts w.table <;> rfl
      | contains k => rfl
  | setting k salts =>
    cases salts with
    | nil => rfl
    | cons s salts =>
      cases hi : computeIndex f (hashAp k s) with
      | ok i =>
        cases hc : w.table[i / 8]? with
        | none =>
          have ha : act f w ⟨todo, .setting k (s :: salts), answers⟩ = (w, ⟨todo, .bad, answers⟩) := by simp only [act, hi, hc]
          rw [ha]
          simp only [rest, insertLoop, World.filter, hi, ok_bind, deref_none hc]; rfl
        | some c =>
          have ha : act f w ⟨todo, .setting k (s :: salts), answers⟩ = (w, ⟨todo, .storing k salts (i / 8) (c ||| bitMask (i % 8)), answers⟩) := by
            simp only [act, hi, hc]
          rw [ha]
          simp only [rest, insertLoop, World.filter, hi, ok_bind, deref_some hc]
          cases store w.table (i / 8) (c ||| bitMask (i % 8)) <;> rfl
      | ub => simp only [act, rest, insertLoop, hi]; rfl
      | thrown => exact absurd hi (index_defined f _).1
      | diverge => exact absurd hi (index_defined f _).2
  | storing k salts i v =>
    simp only [act]
    split
    · rename_i hi
      simp only [rest, World.filter, store_lt v hi, ok_bind]
    · rename_i hi
      have hs : store w.table i v = ub := by simp [store, hi]
      simp only [rest, World.filter, hs]
      rfl
  | counting k n => rfl
  | asking k known salts =>
    cases salts with
    | nil => simp [act, rest, containsLoop, World.filter]
    | cons s salts =>
      cases hi : computeIndex f (hashAp k s) with
      | ok i =>
        cases hc : w.table[i / 8]? with
        | none =>
          have ha : act f w ⟨todo, .asking k known (s :: salts), answers⟩ = (w, ⟨todo, .bad, answers⟩) := by simp only [act, hi, hc]
          rw [ha]
          simp only [rest, containsLoop, index_filter, hi]
          simp only [World.filter, ok_bind, deref_none hc]; rfl
        | some c =>
          simp only [act, hi, hc]
          split
          · rename_i hm
            simp only [rest, containsLoop, index_filter, hi]
            simp only [World.filter, ok_bind, deref_some hc, if_pos hm, List.map_append]; rfl
          · rename_i hm
            simp only [rest, containsLoop, index_filter, hi]
            simp only [World.filter, ok_bind, deref_some hc, if_neg hm]
      | ub => simp only [act, rest, containsLoop, index_filter, hi]; rfl
      | thrown => exact absurd hi (index_defined f _).1
      | diverge => exact absurd hi (index_defined f _).2
  | bad => rfl

/-- A thread that only asks changes nothing. -/
def Asks (t : Thread) : Prop := inserted t.todo = [] ∧ (t.pc = .idle ∨ ∃ k known salts, t.pc = .asking k known salts)

theorem act_asks {f : Filter} (hf : Usable f) {w : World} (hl : w.table.length = f.table.length) {t : Thread} (h : Asks t) : (act f w t).1 = w ∧ Asks (act f w t).2 := by
  obtain ⟨todo, pc, answers⟩ := t
  obtain ⟨h1, h2 | ⟨k, known, salts, h2⟩⟩ := h
  · simp only at h1 h2
    subst h2
    cases todo with
    | nil => exact ⟨rfl, h1, Or.inl rfl⟩
    | cons c todo =>
      cases c with
      | insert k => simp [inserted] at h1
      | contains k => exact ⟨rfl, by simpa [act, inserted] using h1, Or.inr ⟨_, _, _, rfl⟩⟩
  · simp only at h1 h2
    subst h2
    cases salts with
    | nil => exact ⟨rfl, h1, Or.inl rfl⟩
    | cons s salts =>
      obtain ⟨i, hi, hlt⟩ := hf (hashAp k s)
      obtain ⟨c, hc', _⟩ := deref_lt (s := w.table) (i := i / 8) (by omega)
      simp only [act, hi, hc']
      split
      · exact ⟨rfl, h1, Or.inl rfl⟩
      · exact ⟨rfl, h1, Or.inr ⟨_, _, _, rfl⟩⟩

theorem filter_threads (f : Filter) (w : World) (ts : List Thread) : ({ w with threads := ts } : World).filter f = w.filter f := rfl

/-- **C168**: if all threads but one only ask, then, whatever the schedule, the filter becomes what it becomes when the one thread makes its calls alone, and this thread gets
the answers it gets alone. -/
theorem C168_one_writer (f : Filter) (hf : Usable f) (calls : List (List Call)) (i : Nat) (cs : List Call) (hcs : calls[i]? = some cs)
    (hask : ∀ j cs', j ≠ i → calls[j]? = some cs' → inserted cs' = []) (sched : List Nat) (hn : cs.length * (2 * f.salts.length + 3) ≤ sched.count i) :
    ∃ t, (run f (start f calls) sched).threads[i]? = some t ∧
      inOrder f [] cs = ok ((run f (start f calls) sched).filter f, t.answers.map Answer.found) := by
  obtain ⟨t, ht, _, _, _, hend⟩ := C168_safe f hf calls sched i cs hcs
  obtain ⟨e1, e2⟩ := hend hn
  have key : let w := run f (start f calls) sched
      (∀ t, w.threads[i]? = some t → rest f (w.filter f) t = inOrder f [] cs) ∧ (∀ j t, j ≠ i → w.threads[j]? = some t → Asks t) ∧ w.table.length = f.table.length := by
    refine run_inv' (P := fun w => (∀ t, w.threads[i]? = some t → rest f (w.filter f) t = inOrder f [] cs) ∧ (∀ j t, j ≠ i → w.threads[j]? = some t → Asks t) ∧
      w.table.length = f.table.length) ?_ sched _ ⟨?_, ?_, rfl⟩
    · rintro w j ⟨h1, h2, h3⟩
      unfold stepAt
      cases hj : w.threads[j]? with
      | none => exact ⟨h1, h2, h3⟩
      | some t' =>
        have hlt := (List.getElem?_eq_some_iff.mp hj).1
        by_cases e : j = i
        · subst e
          refine ⟨fun t ht => ?_, fun l t hl ht => ?_, by simpa [act_length] using h3⟩
          · simp only [List.getElem?_set_self hlt, Option.some.injEq] at ht
            rw [← ht, act_rest]
            exact h1 t' hj
          · simp only [List.getElem?_set_ne (Ne.symm hl)] at ht
            exact h2 l t hl ht
        · obtain ⟨ha, hb⟩ := act_asks hf h3 (h2 j t' e hj)
          simp only [ha]
          refine ⟨fun t ht => ?_, fun l t hl ht => ?_, h3⟩
          · simp only [List.getElem?_set_ne e] at ht
            exact h1 t ht
          · by_cases e' : j = l
            · subst e'
              simp only [List.getElem?_set_self hlt, Option.some.injEq] at ht
              rw [← ht]; exact hb
            · simp only [List.getElem?_set_ne e'] at ht
              exact h2 l t hl ht
    · intro t ht
      rw [start_thread hcs] at ht
      cases ht
      rfl
    · intro j t hj ht
      simp only [start, List.getElem?_map, Option.map_eq_some_iff] at ht
      obtain ⟨cs', h1, h2⟩ := ht
      rw [← h2]
      exact ⟨hask j cs' hj h1, Or.inl rfl⟩
  refine ⟨t, ht, ?_⟩
  rw [← key.1 t ht]
  unfold rest
  rw [e1, e2]
  rfl

/-- **C168**: if all threads only ask, nothing changes, there is no data race, and every answer is that of the filter. -/
theorem C168_queries (f : Filter) (hf : Usable f) (calls : List (List Call)) (hask : ∀ cs ∈ calls, inserted cs = []) (sched : List Nat) :
    let w := run f (start f calls) sched
    w.filter f = f ∧ ¬ Race f w ∧ ∀ (i : Nat) (t : Thread), w.threads[i]? = some t → ∀ a ∈ t.answers, f.contains a.key = ok a.found := by
  have key := threads_inv (f := f) (calls := calls) (I := fun w => w.table = f.table ∧ w.count = f.inserted)
    (Q := fun _ _ t => Asks t ∧ (∀ k known salts, t.pc = .asking k known salts → f.contains k = containsLoop f k salts) ∧ ∀ a ∈ t.answers, f.contains a.key = ok a.found)
    ⟨rfl, rfl⟩ (fun cs hcs => ⟨⟨hask cs hcs, Or.inl rfl⟩, by simp, by simp⟩)
    (fun w i cs t _ _ hI hQ ts => by
      rw [(act_asks hf (by rw [hI.1]) hQ.1).1]; exact hI)
    (fun w i cs t _ _ hI hQ ts => by
      obtain ⟨h1, h2, h3⟩ := hQ
      refine ⟨(act_asks hf (by rw [hI.1]) h1).2, ?_⟩
      obtain ⟨todo, pc, answers⟩ := t
      obtain ⟨g1, g2 | ⟨k, known, salts, g2⟩⟩ := h1
      · simp only at g1 g2 h2 h3
        subst g2
        cases todo with
        | nil => exact ⟨h2, h3⟩
        | cons c todo =>
          cases c with
          | insert k => simp [inserted] at g1
          | contains k =>
            refine ⟨fun k' known' salts' h => ?_, h3⟩
            simp only [act, Pc.asking.injEq] at h
            rw [← h.1, ← h.2.2]; rfl
      · simp only at g1 g2 h2 h3
        subst g2
        have hk := h2 k known salts rfl
        cases salts with
        | nil =>
          refine ⟨by simp [act], fun a ha => ?_⟩
          simp only [act, List.mem_append, List.mem_singleton] at ha
          rcases ha with ha | rfl
          · exact h3 a ha
          · exact hk
        | cons s salts =>
          obtain ⟨x, hx, hlt⟩ := hf (hashAp k s)
          obtain ⟨c, hc, hd⟩ := deref_lt (s := f.table) (i := x / 8) hlt
          have hc' : w.table[x / 8]? = some c := by rw [hI.1]; exact hc
          unfold containsLoop at hk
          rw [hx, ok_bind, hd, ok_bind] at hk
          simp only [act, hx, hc']
          split
          · rename_i hm
            rw [if_pos hm] at hk
            refine ⟨by simp, fun a ha => ?_⟩
            simp only [List.mem_append, List.mem_singleton] at ha
            rcases ha with ha | rfl
            · exact h3 a ha
            · exact hk
          · rename_i hm
            rw [if_neg hm] at hk
            refine ⟨fun k' known' salts' h => ?_, h3⟩
            simp only [Pc.asking.injEq] at h
            rw [← h.1, ← h.2.2]; exact hk)
    (fun w i j cs cs' t t' _ _ _ _ _ _ _ hQ ts => hQ) sched
  obtain ⟨⟨k1, k2⟩, k3, k4⟩ := key
  have hthr : ∀ (i : Nat) (t : Thread), (run f (start f calls) sched).threads[i]? = some t → ∃ cs, calls[i]? = some cs := by
    intro i t ht
    have := (List.getElem?_eq_some_iff.mp ht).1
    exact ⟨calls[i]'(by omega), by simp⟩
  refine ⟨?_, ?_, fun i t ht => ?_⟩
  · unfold World.filter
    rw [k1, k2]
  · rintro ⟨i, j, a, b, x, v, v', _, ha, hb, na, nb, hw⟩
    have hr : ∀ (i : Nat) (t : Thread) (x : Option Nat) (v : Bool), (run f (start f calls) sched).threads[i]? = some t → nextAccess f t = some (x, v) → v = false := by
      intro i t x v ht hn
      obtain ⟨cs, hcs⟩ := hthr i t ht
      obtain ⟨⟨_, h | ⟨k, known, salts, h⟩⟩, _⟩ := k4 i cs t hcs ht
      · simp [nextAccess, h] at hn
      · unfold nextAccess at hn
        rw [h] at hn
        cases salts with
        | nil => simp at hn
        | cons s salts =>
          simp only at hn
          split at hn
          · simp only [Option.some.injEq, Prod.mk.injEq] at hn; exact hn.2.symm
          · simp at hn
    rw [hr i a x v ha na, hr j b x v' hb nb] at hw
    simp at hw
  · obtain ⟨cs, hcs⟩ := hthr i t ht
    exact (k4 i cs t hcs ht).2.2

/-! ## Nothing is lost as long as the threads keep to different cells -/

/-- The bit of a key for one salt is set. -/
def HasBit (f : Filter) (table : List UInt8) (k : List UInt8) (s : UInt32) : Prop := ∃ i, computeIndex f (hashAp k s) = ok i ∧ BitSet table i

/-- All the bits of a key are set. -/
def Held (f : Filter) (table : List UInt8) (k : List UInt8) : Prop := ∀ s ∈ f.salts, HasBit f table k s

theorem contains_held {f : Filter} (hf : Usable f) (w : World) (hl : w.table.length = f.table.length) (k : List UInt8) :
    (w.filter f).contains k = ok true ↔ Held f w.table k := by
  have key : ∀ salts : List UInt32, containsLoop (w.filter f) k salts = ok true ↔ ∀ s ∈ salts, HasBit f w.table k s := by
    intro salts
    induction salts with
    | nil => simp [containsLoop]
    | cons s salts ih =>
      obtain ⟨i, hi, hlt⟩ := hf (hashAp k s)
      obtain ⟨c, hc, hd⟩ := deref_lt (s := w.table) (i := i / 8) (by omega)
      unfold containsLoop
      rw [index_filter, hi, ok_bind]
      simp only [show (w.filter f).table = w.table from rfl, hd, ok_bind]
      simp only [List.mem_cons, forall_eq_or_imp]
      split
      · rename_i hm
        constructor
        · intro h; simp at h
        · rintro ⟨⟨j, hj, c', hc', hm'⟩, _⟩
          rw [hi] at hj
          rw [← Outcome.ok.inj hj, hc] at hc'
          rw [← Outcome.ok.inj hj] at hm'
          cases hc'
          exact absurd hm' hm
      · rename_i hm
        rw [ih]
        exact ⟨fun h => ⟨⟨i, hi, c, hc, by simpa using hm⟩, h⟩, fun h => h.2⟩
  exact key f.salts

/-- What is kept for every thread. -/
structure Kept (f : Filter) (w : World) (cs : List Call) (t : Thread) : Prop where
  todo : ∀ k ∈ inserted t.todo, k ∈ inserted cs
  setting : ∀ k salts, t.pc = .setting k salts → k ∈ inserted cs ∧ ∃ pre, f.salts = pre ++ salts ∧ ∀ s ∈ pre, HasBit f w.table k s
  storing : ∀ k salts j v, t.pc = .storing k salts j v → k ∈ inserted cs ∧ ∃ pre s i c, f.salts = pre ++ s :: salts ∧ (∀ s ∈ pre, HasBit f w.table k s) ∧
    computeIndex f (hashAp k s) = ok i ∧ j = i / 8 ∧ w.table[j]? = some c ∧ v = c ||| bitMask (i % 8)
  counting : ∀ k n, t.pc = .counting k n → k ∈ inserted cs ∧ Held f w.table k
  asking : ∀ k known salts, t.pc = .asking k known salts → (∃ pre, f.salts = pre ++ salts) ∧ ((k ∈ known ∨ Held f f.table k) → Held f w.table k)
  answers : ∀ a ∈ t.answers, a.key ∈ a.known ∨ Held f f.table a.key → a.found = true

theorem kept_mono {f : Filter} {w w' : World} {cs : List Call} {t : Thread} (h : Kept f w cs t) (hb : ∀ i, BitSet w.table i → BitSet w'.table i)
    (hc : ∀ k salts j v, t.pc = .storing k salts j v → w'.table[j]? = w.table[j]?) : Kept f w' cs t := by
  have hh : ∀ k s, HasBit f w.table k s → HasBit f w'.table k s := fun k s ⟨i, h1, h2⟩ => ⟨i, h1, hb i h2⟩
  obtain ⟨h1, h2, h3, h4, h5, h6⟩ := h
  refine ⟨h1, fun k salts hp => ?_, fun k salts j v hp => ?_, fun k n hp => ?_, fun k known salts hp => ?_, h6⟩
  · obtain ⟨a, pre, b, c⟩ := h2 k salts hp
    exact ⟨a, pre, b, fun s hs => hh k s (c s hs)⟩
  · obtain ⟨a, pre, s, i, c, e1, e2, e3, e4, e5, e6⟩ := h3 k salts j v hp
    exact ⟨a, pre, s, i, c, e1, fun s hs => hh k s (e2 s hs), e3, e4, by rw [hc k salts j v hp]; exact e5, e6⟩
  · obtain ⟨a, b⟩ := h4 k n hp
    exact ⟨a, fun s hs => hh k s (b s hs)⟩
  · obtain ⟨a, b⟩ := h5 k known salts hp
    exact ⟨a, fun hk s hs => hh k s (b hk s hs)⟩

/-- A step of a thread: no bit is lost, only the cell it was about to write changes, and what is kept for it stays so. -/
theorem act_kept {f : Filter} (hf : Usable f) {w : World} (hl : w.table.length = f.table.length) (hm : ∀ i, BitSet f.table i → BitSet w.table i)
    (hd : ∀ k ∈ w.done, Held f w.table k) {cs : List Call} {t : Thread} (h : Kept f w cs t) (hbad : t.pc ≠ .bad) :
    Kept f (act f w t).1 cs (act f w t).2 ∧ (∀ i, BitSet w.table i → BitSet (act f w t).1.table i) ∧ (∀ k ∈ (act f w t).1.done, Held f (act f w t).1.table k) ∧
      ((act f w t).1.table = w.table ∨ ∃ k salts j v, t.pc = .storing k salts j v ∧ (act f w t).1.table = w.table.set j v) := by
  obtain ⟨todo, pc, answers⟩ := t
  obtain ⟨h1, h2, h3, h4, h5, h6⟩ := h
  cases pc with
  | idle =>
    cases todo with
    | nil => exact ⟨⟨h1, h2, h3, h4, h5, h6⟩, fun _ h => h, hd, Or.inl rfl⟩
    | cons c todo =>
      cases c with
      | insert k =>
        refine ⟨⟨fun k' hk => h1 k' (by simp only [inserted, List.mem_cons]; exact Or.inr hk), fun k' salts hp => ?_, by simp [act], by simp [act], by simp [act], h6⟩,
          fun _ h => h, hd, Or.inl rfl⟩
        simp only [act, Pc.setting.injEq] at hp
        rw [← hp.1, ← hp.2]
        exact ⟨h1 k (by simp [inserted]), [], rfl, by simp⟩
      | contains k =>
        refine ⟨⟨fun k' hk => h1 k' (by simp only [inserted]; exact hk), by simp [act], by simp [act], by simp [act], fun k' known salts hp => ?_, h6⟩,
          fun _ h => h, hd, Or.inl rfl⟩
        simp only [act, Pc.asking.injEq] at hp
        rw [← hp.1, ← hp.2.1, ← hp.2.2]
        refine ⟨⟨[], rfl⟩, ?_⟩
        rintro (hk | hk)
        · exact hd k hk
        · intro s hs
          obtain ⟨i, e1, e2⟩ := hk s hs
          exact ⟨i, e1, hm i e2⟩
  | setting k salts =>
    obtain ⟨hk, pre, hpre, hbits⟩ := h2 k salts rfl
    cases salts with
    | nil =>
      refine ⟨⟨h1, by simp [act], by simp [act], fun k' n hp => ?_, by simp [act], h6⟩, fun _ h => h, hd, Or.inl rfl⟩
      simp only [act, Pc.counting.injEq] at hp
      rw [← hp.1]
      refine ⟨hk, fun s hs => hbits s ?_⟩
      rw [hpre, List.append_nil] at hs
      exact hs
    | cons s salts =>
      obtain ⟨i, hi, hlt⟩ := hf (hashAp k s)
      obtain ⟨c, hc, _⟩ := deref_lt (s := w.table) (i := i / 8) (by omega)
      simp only [act, hi, hc]
      refine ⟨⟨h1, by simp, fun k' salts' j v hp => ?_, by simp, by simp, h6⟩, fun _ h => h, hd, by simp⟩
      simp only [Pc.storing.injEq] at hp
      obtain ⟨e1, e2, e3, e4⟩ := hp
      rw [← e1, ← e2, ← e3, ← e4]
      exact ⟨hk, pre, s, i, c, hpre, hbits, hi, rfl, hc, rfl⟩
  | storing k salts j v =>
    obtain ⟨hk, pre, s, i, c, hpre, hbits, hi, hj, hc, hv⟩ := h3 k salts j v rfl
    have hlt : j < w.table.length := (List.getElem?_eq_some_iff.mp hc).1
    simp only [act, if_pos hlt]
    have hmono : ∀ x, BitSet w.table x → BitSet (w.table.set j v) x := by
      intro x hx
      rw [hv]
      exact hx.set _ hc
    refine ⟨⟨h1, fun k' salts' hp => ?_, by simp, by simp, by simp, h6⟩, hmono, fun k' hk' s hs => ?_, Or.inr ⟨k, salts, j, v, rfl, rfl⟩⟩
    · simp only [Pc.setting.injEq] at hp
      rw [← hp.1, ← hp.2]
      refine ⟨hk, pre ++ [s], by simp [hpre], fun s' hs' => ?_⟩
      rcases List.mem_append.mp hs' with hs' | hs'
      · obtain ⟨x, e1, e2⟩ := hbits s' hs'
        exact ⟨x, e1, hmono x e2⟩
      · rw [List.mem_singleton.mp hs']
        refine ⟨i, hi, v, ?_, by rw [hv]; exact or_sets _ _⟩
        rw [← hj, List.getElem?_set_self hlt]
    · obtain ⟨x, e1, e2⟩ := hd k' hk' s hs
      exact ⟨x, e1, hmono x e2⟩
  | counting k n =>
    obtain ⟨hk, hh⟩ := h4 k n rfl
    refine ⟨⟨h1, by simp [act], by simp [act], by simp [act], by simp [act], h6⟩, fun _ h => h, fun k' hk' => ?_, Or.inl rfl⟩
    simp only [act, List.mem_append, List.mem_singleton] at hk'
    rcases hk' with hk' | rfl
    · exact hd k' hk'
    · exact hh
  | asking k known salts =>
    obtain ⟨⟨pre, hpre⟩, hh⟩ := h5 k known salts rfl
    cases salts with
    | nil =>
      refine ⟨⟨h1, by simp [act], by simp [act], by simp [act], by simp [act], fun a ha => ?_⟩, fun _ h => h, hd, Or.inl rfl⟩
      simp only [act, List.mem_append, List.mem_singleton] at ha
      rcases ha with ha | rfl
      · exact h6 a ha
      · exact fun _ => rfl
    | cons s salts =>
      obtain ⟨i, hi, hlt⟩ := hf (hashAp k s)
      obtain ⟨c, hc, _⟩ := deref_lt (s := w.table) (i := i / 8) (by omega)
      simp only [act, hi, hc]
      split
      · rename_i hne
        refine ⟨⟨h1, by simp, by simp, by simp, by simp, fun a ha => ?_⟩, fun _ h => h, hd, by simp⟩
        simp only [List.mem_append, List.mem_singleton] at ha
        rcases ha with ha | rfl
        · exact h6 a ha
        · intro hkn
          obtain ⟨x, e1, c', e2, e3⟩ := hh hkn s (by rw [hpre]; simp)
          rw [hi] at e1
          have e1 := Outcome.ok.inj e1
          subst e1
          rw [hc] at e2
          cases e2
          exact absurd e3 hne
      · refine ⟨⟨h1, by simp, by simp, by simp, fun k' known' salts' hp => ?_, h6⟩, fun _ h => h, hd, by simp⟩
        simp only [Pc.asking.injEq] at hp
        rw [← hp.1, ← hp.2.1, ← hp.2.2]
        exact ⟨⟨pre ++ [s], by simp [hpre]⟩, hh⟩
  | bad => exact absurd rfl hbad

/-- **C168**: if different threads insert keys whose bits lie in different cells (in particular, if only one thread inserts), then in every schedule: the keys that were in the
filter are still found, keys whose insertion has returned are found, and every question that was asked after the insertion of its key had returned was answered with yes. -/
theorem C168_nothing_lost (f : Filter) (hf : Usable f) (calls : List (List Call)) (hap : Apart f calls) (sched : List Nat) :
    let w := run f (start f calls) sched
    (∀ k, f.contains k = ok true ∨ k ∈ w.done → (w.filter f).contains k = ok true) ∧
    ∀ (i : Nat) (t : Thread), w.threads[i]? = some t → ∀ a ∈ t.answers, f.contains a.key = ok true ∨ a.key ∈ a.known → a.found = true := by
  have key := threads_inv (f := f) (calls := calls)
    (I := fun w => w.table.length = f.table.length ∧ (∀ i, BitSet f.table i → BitSet w.table i) ∧ ∀ k ∈ w.done, Held f w.table k)
    (Q := fun w cs t => Kept f w cs t ∧ Fine w cs t)
    ⟨rfl, fun _ h => h, by simp [start]⟩
    (fun cs hcs => ⟨⟨fun k hk => hk, by simp, by simp, by simp, by simp, by simp⟩, ⟨by simp, by simp, by simp [asking]⟩⟩)
    (fun w i cs t _ _ hI hQ ts => by
      obtain ⟨_, a, b, _⟩ := act_kept hf hI.1 hI.2.1 hI.2.2 hQ.1 hQ.2.pc
      exact ⟨by simpa [act_length] using hI.1, fun x hx => a x (hI.2.1 x hx), b⟩)
    (fun w i cs t _ _ hI hQ ts => by
      obtain ⟨a, _⟩ := act_kept hf hI.1 hI.2.1 hI.2.2 hQ.1 hQ.2.pc
      obtain ⟨b, _⟩ := act_fine hf hI.1 hQ.2
      exact ⟨⟨a.todo, a.setting, a.storing, a.counting, a.asking, a.answers⟩, ⟨b.pc, b.cell, b.order⟩⟩)
    (fun w i j cs cs' t t' hij hcs hcs' ht ht' hI hQ hQ' ts => by
      obtain ⟨_, a, _, b⟩ := act_kept hf hI.1 hI.2.1 hI.2.2 hQ.1 hQ.2.pc
      refine ⟨kept_mono (w' := { (act f w t).1 with threads := ts }) hQ'.1 a ?_, ⟨hQ'.2.pc, fun k s x v hp => ?_, hQ'.2.order⟩⟩
      · intro k salts x v hp
        show (act f w t).1.table[x]? = w.table[x]?
        rcases b with b | ⟨k2, salts2, j2, v2, hp2, b⟩
        · rw [b]
        · rw [b]
          obtain ⟨hk, pre, s, y, c, e1, _, e3, e4, _⟩ := hQ'.1.storing k salts x v hp
          obtain ⟨hk2, pre2, s2, y2, c2, e12, _, e32, e42, _⟩ := hQ.1.storing k2 salts2 j2 v2 hp2
          have := hap i j cs cs' hij hcs hcs' k2 hk2 k hk s2 (by rw [e12]; simp) s (by rw [e1]; simp) y2 y e32 e3
          rw [List.getElem?_set_ne (by rw [e42, e4]; exact this)]
      · simpa [act_length] using hQ'.2.cell k s x v hp) sched
  obtain ⟨⟨k1, k2, k3⟩, k4, k5⟩ := key
  have h0 : ∀ k, f.contains k = ok true ↔ Held f f.table k := fun k => contains_held hf (start f calls) rfl k
  refine ⟨fun k hk => ?_, fun i t ht a ha hk => ?_⟩
  · rw [contains_held hf _ k1]
    rcases hk with hk | hk
    · intro s hs
      obtain ⟨x, e1, e2⟩ := (h0 k).mp hk s hs
      exact ⟨x, e1, k2 x e2⟩
    · exact k3 k hk
  · have hlt := (List.getElem?_eq_some_iff.mp ht).1
    obtain ⟨cs, hcs⟩ : ∃ cs, calls[i]? = some cs := ⟨calls[i]'(by omega), by simp⟩
    refine (k5 i cs t hcs ht).1.answers a ha ?_
    rcases hk with hk | hk
    · exact Or.inr ((h0 _).mp hk)
    · exact Or.inl hk

/-- **C168**: the same for one thread that inserts and any number of threads that only ask. -/
theorem C168_one_writer_found (f : Filter) (hf : Usable f) (calls : List (List Call)) (i : Nat) (hask : ∀ j cs', j ≠ i → calls[j]? = some cs' → inserted cs' = [])
    (sched : List Nat) :
    let w := run f (start f calls) sched
    (∀ k, f.contains k = ok true ∨ k ∈ w.done → (w.filter f).contains k = ok true) ∧
    ∀ (i : Nat) (t : Thread), w.threads[i]? = some t → ∀ a ∈ t.answers, f.contains a.key = ok true ∨ a.key ∈ a.known → a.found = true := by
  refine C168_nothing_lost f hf calls ?_ sched
  intro x y a b hxy ha hb k hk k' hk'
  by_cases e : x = i
  · rw [hask y b (by omega) hb] at hk'; simp at hk'
  · rw [hask x a e ha] at hk; simp at hk

/-! ## Nothing is invented -/

/-- Where a bit can come from. -/
def Origin (f : Filter) (calls : List (List Call)) (x : Nat) : Prop :=
  BitSet f.table x ∨ ∃ cs ∈ calls, ∃ k ∈ inserted cs, ∃ s ∈ f.salts, computeIndex f (hashAp k s) = ok x

theorem or_mask : ∀ (c : Fin 256) (m b : Fin 8), (UInt8.ofNat c ||| bitMask m) &&& bitMask b = bitMask b →
    UInt8.ofNat c &&& bitMask b = bitMask b ∨ m = b := by decide +kernel

theorem or_mask' (c : UInt8) (m b : Nat) (hm : m < 8) (hb : b < 8) (h : (c ||| bitMask m) &&& bitMask b = bitMask b) : c &&& bitMask b = bitMask b ∨ m = b := by
  have := or_mask ⟨c.toNat, c.toNat_lt⟩ ⟨m, hm⟩ ⟨b, hb⟩ (by simpa using h)
  simpa using this

/-- What is known of a thread, whatever the others do. -/
structure Known (f : Filter) (calls : List (List Call)) (cs : List Call) (t : Thread) : Prop where
  todo : ∀ k ∈ inserted t.todo, k ∈ inserted cs
  setting : ∀ k salts, t.pc = .setting k salts → k ∈ inserted cs ∧ ∃ pre, f.salts = pre ++ salts
  storing : ∀ k salts j v, t.pc = .storing k salts j v → (k ∈ inserted cs ∧ ∃ pre, f.salts = pre ++ salts) ∧
    ∀ b < 8, v &&& bitMask b = bitMask b → Origin f calls (8 * j + b)
  asking : ∀ k known salts, t.pc = .asking k known salts → ∃ pre, f.salts = pre ++ salts ∧ ∀ s ∈ pre, ∃ x, computeIndex f (hashAp k s) = ok x ∧ Origin f calls x
  answers : ∀ a ∈ t.answers, a.found = true → ∀ s ∈ f.salts, ∃ x, computeIndex f (hashAp a.key s) = ok x ∧ Origin f calls x

theorem act_known {f : Filter} {calls : List (List Call)} {w : World} (hw : ∀ x, BitSet w.table x → Origin f calls x)
    {cs : List Call} (hcs : cs ∈ calls) {t : Thread} (h : Known f calls cs t) :
    Known f calls cs (act f w t).2 ∧ ∀ x, BitSet (act f w t).1.table x → Origin f calls x := by
  obtain ⟨todo, pc, answers⟩ := t
  obtain ⟨h1, h2, h3, h4, h5⟩ := h
  cases pc with
  | idle =>
    cases todo with
    | nil => exact ⟨⟨h1, h2, h3, h4, h5⟩, hw⟩
    | cons c todo =>
      cases c with
      | insert k =>
        refine ⟨⟨fun k' hk => h1 k' (by simp only [inserted, List.mem_cons]; exact Or.inr hk), fun k' salts hp => ?_, by simp [act], by simp [act], h5⟩, hw⟩
        simp only [act, Pc.setting.injEq] at hp
        rw [← hp.1, ← hp.2]
        exact ⟨h1 k (by simp [inserted]), [], rfl⟩
      | contains k =>
        refine ⟨⟨fun k' hk => h1 k' (by simp only [inserted]; exact hk), by simp [act], by simp [act], fun k' known salts hp => ?_, h5⟩, hw⟩
        simp only [act, Pc.asking.injEq] at hp
        rw [← hp.2.2]
        exact ⟨[], rfl, by simp⟩
  | setting k salts =>
    obtain ⟨hk, pre, hpre⟩ := h2 k salts rfl
    cases salts with
    | nil => exact ⟨⟨h1, by simp [act], by simp [act], by simp [act], h5⟩, hw⟩
    | cons s salts =>
      have hbadK : Known f calls cs ⟨todo, .bad, answers⟩ := ⟨h1, by simp, by simp, by simp, h5⟩
      simp only [act]
      split
      · rename_i i hi
        split
        · rename_i c hc
          refine ⟨⟨h1, by simp, fun k' salts' j v hp => ?_, by simp, h5⟩, hw⟩
          simp only [Pc.storing.injEq] at hp
          obtain ⟨e1, e2, e3, e4⟩ := hp
          rw [← e1, ← e2, ← e3, ← e4]
          refine ⟨⟨hk, pre ++ [s], by simp [hpre]⟩, fun b hb hbit => ?_⟩
          rcases or_mask' c (i % 8) b (by omega) hb hbit with h | h
          · refine hw _ ⟨c, ?_, ?_⟩
            · rw [show (8 * (i / 8) + b) / 8 = i / 8 by omega]; exact hc
            · rw [show (8 * (i / 8) + b) % 8 = b by omega]; exact h
          · rw [show 8 * (i / 8) + b = i by omega]
            exact Or.inr ⟨cs, hcs, k, hk, s, by rw [hpre]; simp, hi⟩
        · exact ⟨hbadK, hw⟩
      · exact ⟨hbadK, hw⟩
  | storing k salts j v =>
    obtain ⟨⟨hk, pre, hpre⟩, hv⟩ := h3 k salts j v rfl
    simp only [act]
    split
    · rename_i hlt
      refine ⟨⟨h1, fun k' salts' hp => ?_, by simp, by simp, h5⟩, fun x hx => ?_⟩
      · simp only [Pc.setting.injEq] at hp
        rw [← hp.1, ← hp.2]
        exact ⟨hk, pre, hpre⟩
      · obtain ⟨c, hc, hm⟩ := hx
        by_cases e : j = x / 8
        · rw [← e, List.getElem?_set_self hlt] at hc
          cases hc
          have := hv (x % 8) (by omega) hm
          rwa [show 8 * j + x % 8 = x by omega] at this
        · simp only [List.getElem?_set_ne e] at hc
          exact hw x ⟨c, hc, hm⟩
    · exact ⟨⟨h1, by simp, by simp, by simp, h5⟩, hw⟩
  | counting k n => exact ⟨⟨h1, by simp [act], by simp [act], by simp [act], h5⟩, hw⟩
  | asking k known salts =>
    obtain ⟨pre, hpre, hbits⟩ := h4 k known salts rfl
    cases salts with
    | nil =>
      refine ⟨⟨h1, by simp [act], by simp [act], by simp [act], fun a ha => ?_⟩, hw⟩
      simp only [act, List.mem_append, List.mem_singleton] at ha
      rcases ha with ha | rfl
      · exact h5 a ha
      · intro _ s hs
        rw [hpre, List.append_nil] at hs
        exact hbits s hs
    | cons s salts =>
      have hbadK : Known f calls cs ⟨todo, .bad, answers⟩ := ⟨h1, by simp, by simp, by simp, h5⟩
      simp only [act]
      split
      · rename_i i hi
        split
        · rename_i c hc
          split
          · refine ⟨⟨h1, by simp, by simp, by simp, fun a ha => ?_⟩, hw⟩
            simp only [List.mem_append, List.mem_singleton] at ha
            rcases ha with ha | rfl
            · exact h5 a ha
            · intro h; simp at h
          · rename_i hm
            refine ⟨⟨h1, by simp, by simp, fun k' known' salts' hp => ?_, h5⟩, hw⟩
            simp only [Pc.asking.injEq] at hp
            rw [← hp.1, ← hp.2.2]
            refine ⟨pre ++ [s], by simp [hpre], fun s' hs' => ?_⟩
            rcases List.mem_append.mp hs' with hs' | hs'
            · exact hbits s' hs'
            · rw [List.mem_singleton.mp hs']
              exact ⟨i, hi, hw i ⟨c, hc, by simpa using hm⟩⟩
        · exact ⟨hbadK, hw⟩
      · exact ⟨hbadK, hw⟩
  | bad => exact ⟨⟨h1, h2, h3, h4, h5⟩, hw⟩

/-- Inserting keys one after the other: the bits that were set stay, and those of the keys are set. -/
theorem insertRange_bits : ∀ (ks : List (List UInt8)) (f : Filter), Usable f →
    ∃ w : World, f.insertRange ks = ok (w.filter f) ∧ w.table.length = f.table.length ∧ (∀ x, BitSet f.table x → BitSet w.table x) ∧
      ∀ k ∈ ks, ∀ s ∈ f.salts, ∀ x, computeIndex f (hashAp k s) = ok x → BitSet w.table x := by
  intro ks
  induction ks with
  | nil => intro f _; exact ⟨⟨f.table, f.inserted, [], []⟩, rfl, rfl, fun _ h => h, by simp⟩
  | cons k ks ih =>
    intro f hf
    obtain ⟨t', e1, e2, e3, e4⟩ := insertLoop_spec f k (fun s => match computeIndex f (hashAp k s) with | ok i => i | _ => 0) f.salts f.table (by
      intro s _
      obtain ⟨i, hi, hlt⟩ := hf (hashAp k s)
      simp only [hi]
      exact ⟨trivial, hlt⟩)
    let f1 : Filter := { f with table := t', inserted := (f.inserted + 1) % 2 ^ 32 }
    have hf1 : Usable f1 := fun h => by
      obtain ⟨i, hi, hlt⟩ := hf h
      exact ⟨i, hi, by rw [show f1.table.length = f.table.length from e2]; exact hlt⟩
    obtain ⟨w, g1, g2, g3, g4⟩ := ih f1 hf1
    refine ⟨w, ?_, by rw [g2]; exact e2, fun x hx => g3 x (e3 x hx), fun k' hk' s hs x hx => ?_⟩
    · unfold Filter.insertRange Filter.insert
      rw [e1, ok_bind, ok_bind]
      exact g1
    · rcases List.mem_cons.mp hk' with rfl | hk'
      · have := e4 s hs
        simp only [hx] at this
        exact g3 x this
      · exact g4 k' hk' s hs x hx

/-- **C168**: whatever the calls and the schedule, a key is found, by a question asked on the way or afterwards, only if it is found when all the keys have been inserted one
after the other: the threads do not make the filter say yes more often. -/
theorem C168_nothing_invented (f : Filter) (hf : Usable f) (calls : List (List Call)) (sched : List Nat) :
    let w := run f (start f calls) sched
    ∃ g, f.insertRange (calls.flatMap inserted) = ok g ∧ (∀ k, (w.filter f).contains k = ok true → g.contains k = ok true) ∧
      ∀ (i : Nat) (t : Thread), w.threads[i]? = some t → ∀ a ∈ t.answers, a.found = true → g.contains a.key = ok true := by
  have key := threads_inv (f := f) (calls := calls) (I := fun w => w.table.length = f.table.length ∧ ∀ x, BitSet w.table x → Origin f calls x)
    (Q := fun _ cs t => Known f calls cs t)
    ⟨rfl, fun x h => Or.inl h⟩
    (fun cs hcs => ⟨fun k hk => hk, by simp, by simp, by simp, by simp⟩)
    (fun w i cs t hcs _ hI hQ ts => ⟨by simpa [act_length] using hI.1, (act_known hI.2 (List.mem_of_getElem? hcs) hQ).2⟩)
    (fun w i cs t hcs _ hI hQ ts => (act_known hI.2 (List.mem_of_getElem? hcs) hQ).1)
    (fun w i j cs cs' t t' _ _ _ _ _ _ _ hQ ts => hQ) sched
  obtain ⟨⟨k0, k1⟩, k2, k3⟩ := key
  obtain ⟨w', g1, g2, g3, g4⟩ := insertRange_bits (calls.flatMap inserted) f hf
  have horig : ∀ x, Origin f calls x → BitSet w'.table x := by
    rintro x (hx | ⟨cs, hcs, k, hk, s, hs, hx⟩)
    · exact g3 x hx
    · exact g4 k (List.mem_flatMap.mpr ⟨cs, hcs, hk⟩) s hs x hx
  refine ⟨w'.filter f, g1, fun k hk => ?_, fun i t ht a ha hfound => ?_⟩
  · rw [contains_held hf _ g2]
    rw [contains_held hf _ k0] at hk
    intro s hs
    obtain ⟨x, e1, e2⟩ := hk s hs
    exact ⟨x, e1, horig x (k1 x e2)⟩
  · rw [contains_held hf _ g2]
    have hlt := (List.getElem?_eq_some_iff.mp ht).1
    obtain ⟨cs, hcs⟩ : ∃ cs, calls[i]? = some cs := ⟨calls[i]'(by omega), by simp⟩
    intro s hs
    obtain ⟨x, e1, e2⟩ := (k3 i cs t hcs ht).answers a ha hfound s hs
    exact ⟨x, e1, horig x e2⟩

/-! ## All keys are done in the end -/

/-- The keys a thread has still to insert, with the one it is inserting. -/
def left (t : Thread) : List (List UInt8) :=
  (match t.pc with
  | .setting k _ => [k]
  | .storing k _ _ _ => [k]
  | .counting k _ => [k]
  | _ => []) ++ inserted t.todo

theorem act_left {f : Filter} (hf : Usable f) {w : World} (hl : w.table.length = f.table.length) {cs : List Call} {t : Thread} (h : Fine w cs t) :
    (∃ d, (act f w t).1.done = w.done ++ d ∧ left t = d ++ left (act f w t).2) := by
  obtain ⟨todo, pc, answers⟩ := t
  cases pc with
  | idle =>
    cases todo with
    | nil => exact ⟨[], by simp [act], rfl⟩
    | cons c todo => cases c <;> exact ⟨[], by simp [act], rfl⟩
  | setting k salts =>
    cases salts with
    | nil => exact ⟨[], by simp [act], rfl⟩
    | cons s salts =>
      obtain ⟨i, hi, hlt⟩ := hf (hashAp k s)
      obtain ⟨c, hc, _⟩ := deref_lt (s := w.table) (i := i / 8) (by omega)
      simp only [act, hi, hc]
      exact ⟨[], by simp, rfl⟩
  | storing k salts j v =>
    simp only [act, if_pos (h.cell k salts j v rfl)]
    exact ⟨[], by simp, rfl⟩
  | counting k n => exact ⟨[k], rfl, rfl⟩
  | asking k known salts =>
    cases salts with
    | nil => exact ⟨[], by simp [act], rfl⟩
    | cons s salts =>
      obtain ⟨i, hi, hlt⟩ := hf (hashAp k s)
      obtain ⟨c, hc, _⟩ := deref_lt (s := w.table) (i := i / 8) (by omega)
      simp only [act, hi, hc]
      split <;> exact ⟨[], by simp, rfl⟩
  | bad => exact absurd rfl h.pc

/-- **C168**: when all threads have ended, every insertion has returned, once for each call. -/
theorem C168_all_done (f : Filter) (hf : Usable f) (calls : List (List Call)) (sched : List Nat) (hend : ∀ t ∈ (run f (start f calls) sched).threads, Ended t) :
    (run f (start f calls) sched).done.Perm (calls.flatMap inserted) := by
  have key : ((run f (start f calls) sched).done ++ (run f (start f calls) sched).threads.flatMap left).Perm (calls.flatMap inserted) := by
    clear hend
    induction sched using List.reverseRecOn with
    | nil =>
      have : (start f calls).threads.flatMap left = calls.flatMap inserted := by
        simp only [start, List.flatMap_map]
        rfl
      show ([] ++ (start f calls).threads.flatMap left).Perm _
      rw [this]
      exact List.Perm.refl _
    | append_singleton sched j ih =>
      rw [run_append]
      obtain ⟨hl, hlen, hfine⟩ := fine_run f hf calls sched
      generalize run f (start f calls) sched = w at *
      show ((stepAt f w j).done ++ (stepAt f w j).threads.flatMap left).Perm _
      unfold stepAt
      cases hj : w.threads[j]? with
      | none => exact ih
      | some t =>
        have hlt := (List.getElem?_eq_some_iff.mp hj).1
        obtain ⟨cs, hcs⟩ : ∃ cs, calls[j]? = some cs := ⟨calls[j]'(by omega), by simp⟩
        obtain ⟨d, h1, h2⟩ := act_left hf hl (hfine j cs t hcs hj)
        have e1 : w.threads = w.threads.take j ++ t :: w.threads.drop (j + 1) := by
          have := (List.getElem?_eq_some_iff.mp hj).2
          rw [← this, List.getElem_cons_drop, List.take_append_drop]
        have e2 : w.threads.set j (act f w t).2 = w.threads.take j ++ (act f w t).2 :: w.threads.drop (j + 1) := by
          rw [List.set_eq_take_append_cons_drop, if_pos hlt]
        simp only [h1, e2]
        rw [e1] at ih
        simp only [List.flatMap_append, List.flatMap_cons, h2] at ih ⊢
        refine List.Perm.trans ?_ ih
        simp only [List.append_assoc]
        refine List.Perm.append_left _ ?_
        have hp := List.Perm.append_right (left (act f w t).2 ++ (w.threads.drop (j + 1)).flatMap left)
          (List.perm_append_comm (l₁ := d) (l₂ := (w.threads.take j).flatMap left))
        simpa only [List.append_assoc] using hp
  have hnil : (run f (start f calls) sched).threads.flatMap left = [] := by
    rw [List.flatMap_eq_nil_iff]
    intro t ht
    obtain ⟨a, b⟩ := hend t ht
    simp [left, a, b, inserted]
  rwa [hnil, List.append_nil] at key

/-! ## A lock around every call -/

/-- At no time are two threads inside a call: a lock is held during every call. -/
def Locked (f : Filter) (w : World) (sched : List Nat) : Prop :=
  ∀ n, ∀ (i j : Nat) (a b : Thread), (run f w (sched.take n)).threads[i]? = some a → (run f w (sched.take n)).threads[j]? = some b → a.pc ≠ .idle → b.pc ≠ .idle → i = j

/-- The filter when the thread has finished the call it is in. -/
def finish (f g : Filter) (t : Thread) : Outcome Filter :=
  match t.pc with
  | .setting k salts => do
    let table ← insertLoop f k salts g.table
    ok { g with table := table, inserted := (g.inserted + 1) % 2 ^ 32 }
  | .storing k salts i v => do
    let table ← store g.table i v
    let table ← insertLoop f k salts table
    ok { g with table := table, inserted := (g.inserted + 1) % 2 ^ 32 }
  | .counting _ n => ok { g with inserted := (n + 1) % 2 ^ 32 }
  | .bad => ub
  | _ => ok g

theorem insertRange_append : ∀ (a b : List (List UInt8)) (f : Filter), f.insertRange (a ++ b) = (do let g ← f.insertRange a; g.insertRange b) := by
  intro a
  induction a with
  | nil => intro b f; rfl
  | cons k a ih =>
    intro b f
    simp only [List.cons_append, Filter.insertRange]
    cases f.insert k with
    | ok g => rw [ok_bind, ok_bind]; exact ih b g
    | ub => rfl
    | thrown => rfl
    | diverge => rfl

/-- The keys inserted in the end: those done, and the one being inserted. -/
def current (t : Thread) : List (List UInt8) :=
  match t.pc with
  | .setting k _ => [k]
  | .storing k _ _ _ => [k]
  | .counting k _ => [k]
  | _ => []

/-- What holds of the thread that is in a call. -/
structure Sound (f : Filter) (w : World) (t : Thread) : Prop where
  result : finish f (w.filter f) t = f.insertRange (w.done ++ current t)
  asking : ∀ k known salts, t.pc = .asking k known salts → known = w.done ∧ (w.filter f).contains k = containsLoop (w.filter f) k salts
  answers : ∀ a ∈ t.answers, (do let g ← f.insertRange a.known; g.contains a.key) = ok a.found

theorem act_sound {f : Filter} (hf : Usable f) {w : World} (hl : w.table.length = f.table.length) {cs : List Call} {t : Thread} (hfine : Fine w cs t) (h : Sound f w t)
    (ts : List Thread) : Sound f { (act f w t).1 with threads := ts } (act f w t).2 := by
  obtain ⟨todo, pc, answers⟩ := t
  obtain ⟨h1, h2, h3⟩ := h
  cases pc with
  | idle =>
    cases todo with
    | nil => exact ⟨h1, h2, h3⟩
    | cons c todo =>
      have hr : ok (w.filter f) = f.insertRange w.done := by simpa [finish, current] using h1
      cases c with
      | insert k =>
        refine ⟨?_, by simp [act], h3⟩
        show finish f (w.filter f) ⟨todo, .setting k f.salts, answers⟩ = f.insertRange (w.done ++ [k])
        rw [insertRange_append, ← hr, ok_bind]
        simp only [finish, Filter.insertRange, Filter.insert, insertLoop_filter]
        simp only [World.filter]
        cases insertLoop f k f.salts w.table <;> rfl
      | contains k =>
        refine ⟨?_, fun k' known salts hp => ?_, h3⟩
        · show ok (w.filter f) = f.insertRange (w.done ++ [])
          rw [List.append_nil]; exact hr
        · simp only [act, Pc.asking.injEq] at hp
          rw [← hp.1, ← hp.2.1, ← hp.2.2]
          exact ⟨rfl, rfl⟩
  | setting k salts =>
    cases salts with
    | nil => exact ⟨h1, by simp [act], h3⟩
    | cons s salts =>
      obtain ⟨i, hi, hlt⟩ := hf (hashAp k s)
      obtain ⟨c, hc, hd⟩ := deref_lt (s := w.table) (i := i / 8) (by omega)
      have ha : act f w ⟨todo, .setting k (s :: salts), answers⟩ = (w, ⟨todo, .storing k salts (i / 8) (c ||| bitMask (i % 8)), answers⟩) := by
        simp only [act, hi, hc]
      rw [ha]
      refine ⟨?_, by simp, h3⟩
      refine Eq.trans ?_ h1
      simp only [finish, insertLoop, World.filter, hi, ok_bind, hd]
      cases store w.table (i / 8) (c ||| bitMask (i % 8)) <;> rfl
  | storing k salts j v =>
    have hj := hfine.cell k salts j v rfl
    have ha : act f w ⟨todo, .storing k salts j v, answers⟩ = ({ w with table := w.table.set j v }, ⟨todo, .setting k salts, answers⟩) := by simp only [act, if_pos hj]
    rw [ha]
    refine ⟨?_, by simp, h3⟩
    refine Eq.trans ?_ h1
    simp only [finish, World.filter, store_lt v hj, ok_bind]
  | counting k n =>
    refine ⟨?_, by simp [act], h3⟩
    show _ = f.insertRange ((w.done ++ [k]) ++ [])
    rw [List.append_nil]
    exact h1
  | asking k known salts =>
    obtain ⟨hkn, hk⟩ := h2 k known salts rfl
    have hr : ok (w.filter f) = f.insertRange w.done := by simpa [finish, current] using h1
    have hend : ∀ b, containsLoop (w.filter f) k salts = ok b → Sound f { w with threads := ts } ⟨todo, .idle, answers ++ [⟨k, known, b⟩]⟩ := by
      intro b hb
      refine ⟨?_, by simp, fun a ha => ?_⟩
      · show ok (w.filter f) = f.insertRange (w.done ++ [])
        rw [List.append_nil]; exact hr
      · simp only [List.mem_append, List.mem_singleton] at ha
        rcases ha with ha | rfl
        · exact h3 a ha
        · simp only [hkn, ← hr, ok_bind]
          rw [hk, hb]
    cases salts with
    | nil => exact hend true rfl
    | cons s salts =>
      obtain ⟨i, hi, hlt⟩ := hf (hashAp k s)
      obtain ⟨c, hc, hd⟩ := deref_lt (s := w.table) (i := i / 8) (by omega)
      have hstep : containsLoop (w.filter f) k (s :: salts) = if c &&& bitMask (i % 8) ≠ bitMask (i % 8) then ok false else containsLoop (w.filter f) k salts := by
        rw [containsLoop, index_filter, hi, ok_bind]
        simp only [show (w.filter f).table = w.table from rfl, hd, ok_bind]
      by_cases hm : c &&& bitMask (i % 8) ≠ bitMask (i % 8)
      · rw [if_pos hm] at hstep
        have ha : act f w ⟨todo, .asking k known (s :: salts), answers⟩ = (w, ⟨todo, .idle, answers ++ [⟨k, known, false⟩]⟩) := by simp only [act, hi, hc, if_pos hm]
        rw [ha]
        exact hend false hstep
      · rw [if_neg hm] at hstep
        have ha : act f w ⟨todo, .asking k known (s :: salts), answers⟩ = (w, ⟨todo, .asking k known salts, answers⟩) := by simp only [act, hi, hc, if_neg hm]
        rw [ha]
        refine ⟨h1, fun k' known' salts' hp => ?_, h3⟩
        simp only [Pc.asking.injEq] at hp
        rw [← hp.1, ← hp.2.1, ← hp.2.2]
        exact ⟨hkn, hk.trans hstep⟩
  | bad => exact absurd rfl hfine.pc

/-- **C168**: with a lock around every call, the threads do to the filter what one thread does that inserts the keys in the order in which their insertions returned, and every
question is answered as the filter answers that holds the keys whose insertion had returned before. -/
theorem C168_locked (f : Filter) (hf : Usable f) (calls : List (List Call)) (sched : List Nat) (hlock : Locked f (start f calls) sched) :
    let w := run f (start f calls) sched
    ((∀ t ∈ w.threads, t.pc = .idle) → f.insertRange w.done = ok (w.filter f)) ∧
    ∀ (i : Nat) (t : Thread), w.threads[i]? = some t → ∀ a ∈ t.answers, ∃ g, f.insertRange a.known = ok g ∧ g.contains a.key = ok a.found := by
  have key : let w := run f (start f calls) sched
      ((∀ t ∈ w.threads, t.pc = .idle) → f.insertRange w.done = ok (w.filter f)) ∧
      (∀ (i : Nat) (t : Thread), w.threads[i]? = some t → t.pc ≠ .idle → Sound f w t) ∧
      ∀ (i : Nat) (t : Thread), w.threads[i]? = some t → ∀ a ∈ t.answers, (do let g ← f.insertRange a.known; g.contains a.key) = ok a.found := by
    induction sched using List.reverseRecOn with
    | nil =>
      refine ⟨fun _ => rfl, fun i t ht hp => ?_, fun i t ht => ?_⟩
      · simp only [run, start, List.getElem?_map, Option.map_eq_some_iff] at ht
        obtain ⟨cs, _, h2⟩ := ht
        rw [← h2] at hp
        exact absurd rfl hp
      · simp only [run, start, List.getElem?_map, Option.map_eq_some_iff] at ht
        obtain ⟨cs, _, h2⟩ := ht
        rw [← h2]; simp
    | append_singleton sched j ih =>
      have hlock' : Locked f (start f calls) sched := by
        intro n i j' a b ha hb
        have := hlock (min n sched.length) i j' a b
        rw [List.take_append_of_le_length (by omega)] at this
        rw [show sched.take (min n sched.length) = sched.take n by
          rcases Nat.le_total n sched.length with h | h
          · rw [Nat.min_eq_left h]
          · rw [Nat.min_eq_right h, List.take_of_length_le (Nat.le_refl _), List.take_of_length_le h]] at this
        exact this ha hb
      have hnow := hlock sched.length
      rw [List.take_append_of_le_length (Nat.le_refl _), List.take_of_length_le (Nat.le_refl _)] at hnow
      have hthen := hlock (sched.length + 1)
      rw [List.take_of_length_le (by simp), run_append] at hthen
      obtain ⟨g1, g2, g3⟩ := ih hlock'
      obtain ⟨hl, hlen, hfine⟩ := fine_run f hf calls sched
      rw [run_append]
      generalize run f (start f calls) sched = w at *
      simp only [run] at hthen ⊢
      unfold stepAt at hthen ⊢
      cases hj : w.threads[j]? with
      | none => exact ⟨g1, g2, g3⟩
      | some t =>
        simp only [hj] at hthen
        have hlt := (List.getElem?_eq_some_iff.mp hj).1
        obtain ⟨cs, hcs⟩ : ∃ cs, calls[j]? = some cs := ⟨calls[j]'(by omega), by simp⟩
        by_cases hact : t.pc = .idle ∧ ∃ (i' : Nat) (t' : Thread), w.threads[i']? = some t' ∧ t'.pc ≠ .idle
        · -- another thread is in a call: this one has no more calls to make
          obtain ⟨hidle, i', t', ht', hp'⟩ := hact
          have hne : j ≠ i' := by
            rintro rfl
            rw [hj] at ht'
            cases ht'
            exact hp' hidle
          have hstay : act f w t = (w, t) := by
            obtain ⟨todo, pc, answers⟩ := t
            simp only at hidle
            subst hidle
            cases todo with
            | nil => rfl
            | cons c todo =>
              have := hthen j i' (act f w ⟨c :: todo, .idle, answers⟩).2 t' (by simp [hlt]) (by simp only [List.getElem?_set_ne hne]; exact ht')
                (by cases c <;> simp [act]) hp'
              exact absurd this hne
          simp only [hstay]
          have hset : w.threads.set j t = w.threads := by
            rw [List.set_eq_take_append_cons_drop, if_pos hlt]
            have := (List.getElem?_eq_some_iff.mp hj).2
            rw [← this, List.getElem_cons_drop, List.take_append_drop]
          simp only [hset]
          exact ⟨g1, g2, g3⟩
        · -- no other thread is in a call
          have hothers : ∀ (i' : Nat) (t' : Thread), i' ≠ j → w.threads[i']? = some t' → t'.pc = .idle := by
            intro i' t' hne ht'
            by_contra hp'
            by_cases hidle : t.pc = .idle
            · exact hact ⟨hidle, i', t', ht', hp'⟩
            · exact hne (hnow i' j t' t ht' hj hp' hidle)
          have hsound : Sound f w t := by
            by_cases hidle : t.pc = .idle
            · refine ⟨?_, by simp [hidle], g3 j t hj⟩
              have hall : ∀ t' ∈ w.threads, t'.pc = .idle := by
                intro t' ht'
                obtain ⟨i', hi'⟩ := List.mem_iff_getElem?.mp ht'
                by_cases e : i' = j
                · rw [e, hj] at hi'; cases hi'; exact hidle
                · exact hothers i' t' e hi'
              simp only [finish, hidle, current, List.append_nil]
              exact (g1 hall).symm
            · exact g2 j t hj hidle
          have hs := act_sound hf hl (hfine j cs t hcs hj) hsound (w.threads.set j (act f w t).2)
          refine ⟨fun hall => ?_, fun i' t' ht' hp' => ?_, fun i' t' ht' => ?_⟩
          · have hidle := hall (act f w t).2 (List.mem_iff_getElem?.mpr ⟨j, by simp [hlt]⟩)
            have := hs.result
            simp only [finish, hidle, current, List.append_nil] at this
            exact this.symm
          · simp only at ht'
            by_cases e : i' = j
            · subst e
              rw [List.getElem?_set_self hlt] at ht'
              cases ht'
              exact hs
            · rw [List.getElem?_set_ne (Ne.symm e)] at ht'
              exact absurd (hothers i' t' e ht') hp'
          · simp only at ht'
            by_cases e : i' = j
            · subst e
              rw [List.getElem?_set_self hlt] at ht'
              cases ht'
              exact hs.answers
            · rw [List.getElem?_set_ne (Ne.symm e)] at ht'
              exact g3 i' t' ht'
  obtain ⟨k1, _, k3⟩ := key
  refine ⟨k1, fun i t ht a ha => ?_⟩
  exact bind_eq_ok.mp (k3 i t ht a ha)

/-! ## What goes wrong -/

/-- **C168** (negative result): one thread inserts a key and another asks for it: there is a data race, for every filter with at least one hash function. -/
theorem C168_reader_races (f : Filter) (hf : Usable f) (hs : f.salts ≠ []) (k : List UInt8) :
    Race f (run f (start f [[.insert k], [.contains k]]) [0, 0, 1]) := by
  obtain ⟨s, salts, hsalts⟩ := List.exists_cons_of_ne_nil hs
  obtain ⟨i, hi, hlt⟩ := hf (hashAp k s)
  obtain ⟨c, hc, _⟩ := deref_lt (s := f.table) (i := i / 8) hlt
  refine ⟨0, 1, ⟨[], .storing k salts (i / 8) (c ||| bitMask (i % 8)), []⟩, ⟨[], .asking k [] (s :: salts), []⟩, some (i / 8), true, false, by decide, ?_, ?_, rfl, ?_, rfl⟩
  · simp [run, stepAt, start, act, hsalts, hi, hc]
  · simp [run, stepAt, start, act, hsalts, hi, hc]
  · simp [nextAccess, hi]

/-- A thread inside an insertion, running on alone, comes to the element count. -/
theorem setting_runs {f : Filter} (hf : Usable f) (i : Nat) (k : List UInt8) (todo : List Call) (ans : List Answer) : ∀ (salts : List UInt32) (w : World),
    w.table.length = f.table.length → w.threads[i]? = some ⟨todo, .setting k salts, ans⟩ →
    ∃ n, (run f w (List.replicate n i)).table.length = f.table.length ∧
      (run f w (List.replicate n i)).threads = w.threads.set i ⟨todo, .setting k [], ans⟩ := by
  intro salts
  induction salts with
  | nil =>
    intro w hl ht
    refine ⟨0, hl, ?_⟩
    obtain ⟨hlt, he⟩ := List.getElem?_eq_some_iff.mp ht
    rw [← he, List.set_getElem_self]
    rfl
  | cons s salts ih =>
    intro w hl ht
    obtain ⟨x, hx, hxl⟩ := hf (hashAp k s)
    obtain ⟨c, hc, _⟩ := deref_lt (s := w.table) (i := x / 8) (by omega)
    obtain ⟨hlt, _⟩ := List.getElem?_eq_some_iff.mp ht
    have h1 : stepAt f w i = { w with threads := w.threads.set i ⟨todo, .storing k salts (x / 8) (c ||| bitMask (x % 8)), ans⟩ } := by
      simp [stepAt, ht, act, hx, hc]
    have h2 : stepAt f (stepAt f w i) i = { w with table := w.table.set (x / 8) (c ||| bitMask (x % 8)), threads := w.threads.set i ⟨todo, .setting k salts, ans⟩ } := by
      rw [h1]
      simp [stepAt, act, hlt, show x / 8 < w.table.length by omega]
    obtain ⟨n, g1, g2⟩ := ih (stepAt f (stepAt f w i) i) (by rw [h2]; simpa using hl) (by rw [h2]; simp [hlt])
    refine ⟨n + 2, ?_, ?_⟩
    · simpa [List.replicate_succ, run] using g1
    · rw [List.replicate_succ, List.replicate_succ, run, run, g2, h2]
      simp

/-- **C168** (negative result): two threads that insert keys race, whatever the keys and however far apart their bits lie: there is always a schedule after which one is
about to write the element count while the other is about to read it. -/
theorem C168_writers_race (f : Filter) (hf : Usable f) (a b : List UInt8) : ∃ sched, Race f (run f (start f [[.insert a], [.insert b]]) sched) := by
  have h0 : run f (start f [[.insert a], [.insert b]]) [0, 1] = ⟨f.table, f.inserted, [], [⟨[], .setting a f.salts, []⟩, ⟨[], .setting b f.salts, []⟩]⟩ := by
    simp [run, stepAt, start, act]
  generalize hw0 : run f (start f [[.insert a], [.insert b]]) [0, 1] = w0 at h0
  obtain ⟨n, hn1, hn2⟩ := setting_runs hf 0 a [] [] f.salts w0 (by rw [h0]) (by rw [h0]; rfl)
  generalize hw1 : run f w0 (List.replicate n 0) = w1 at hn1 hn2
  obtain ⟨m, hm1, hm2⟩ := setting_runs hf 1 b [] [] f.salts w1 hn1 (by rw [hn2, h0]; rfl)
  generalize hw2 : run f w1 (List.replicate m 1) = w2 at hm1 hm2
  rw [hn2, h0] at hm2
  refine ⟨[0, 1] ++ List.replicate n 0 ++ List.replicate m 1 ++ [0], 0, 1, ⟨[], .counting a w2.count, []⟩, ⟨[], .setting b [], []⟩,
    none, true, false, by decide, ?_, ?_, rfl, rfl, rfl⟩
  · rw [run_append, run_append, run_append, hw0, hw1, hw2]
    simp [run, stepAt, hm2, act]
  · rw [run_append, run_append, run_append, hw0, hw1, hw2]
    simp [run, stepAt, hm2, act]

/-- Two threads insert a key each, in an order of steps in which both have read the cell before either writes it: the number of elements, and whether the keys are found. -/
def lostKey : Outcome (Nat × List (Outcome Bool) × List (List UInt8)) := do
  let f ← Filter.new (fun _ _ => 0) 0 ⟨1, 8, 10, 0, 7⟩
  let w := run f (start f [[.insert [97]], [.insert [98]]]) [0, 0, 1, 1, 0, 1, 0, 0, 1, 1]
  ok (w.count, [(w.filter f).contains [97], (w.filter f).contains [98]], w.done)

/-- **C168** (negative result): two threads that insert keys can lose one of them, although both calls return. -/
theorem C168_key_lost : lostKey = ok (2, [ok false, ok true], [[97], [98]]) := by decide +kernel

/-- Two threads that insert keys far apart, in an order of steps in which both have read the element count before either writes it. -/
def lostCount : Outcome (Nat × List (List UInt8)) := do
  let f ← Filter.new (fun _ _ => 0) 0 ⟨1, 64, 10, 0, 7⟩
  let w := run f (start f [[.insert [97]], [.insert [98]]]) [0, 0, 0, 0, 1, 1, 1, 1, 0, 1]
  ok (w.count, w.done)

/-- **C168** (negative result): and the element count can be too low. -/
theorem C168_count_lost : lostCount = ok (1, [[97], [98]]) := by decide +kernel

/-- **C168**: the filters of all histories of `insert`, `clear`, `|=` and `&=` meet the hypothesis. -/
theorem C168_usable (rand : UInt32 → Nat → UInt32) (fuel : Nat) (p : Params) (f0 : Filter) (hnew : Filter.new rand fuel p = ok f0) (h8 : 8 ∣ p.tableSize)
    (hpos : 0 < p.tableSize) (h : Hist) : ∃ f, h.run rand fuel p = ok f ∧ Usable f := by
  obtain ⟨f, hf, inv⟩ := run_inv hnew h8 hpos h
  refine ⟨f, hf, fun x => ?_⟩
  have hf0 : f0.sizes = none ∧ f0.tableSize = p.tableSize ∧ f0.rawSize = p.tableSize / 8 := by
    unfold Filter.new at hnew
    simp only [bind_eq_ok] at hnew
    obtain ⟨salts, _, h⟩ := hnew
    cases h
    simp
  obtain ⟨hs, ht, hr⟩ := hf0
  have e1 : f.sizes = none := by rw [inv.same]; exact hs
  have e2 : f.tableSize = p.tableSize := by rw [inv.same]; exact ht
  have e3 : f.rawSize = p.tableSize / 8 := by rw [inv.same]; exact hr
  refine ⟨x.toNat % f.tableSize, by simp only [computeIndex, e1, remainder]; rw [if_neg (by omega)], ?_⟩
  rw [inv.len, e3, e2]
  have := Nat.mod_lt x.toNat hpos
  omega

/-- A thread that inserts two keys and one that asks for them meanwhile: the second question is asked after the first insertion has returned and answered with yes. -/
example : (do
    let f ← Filter.new (fun _ _ => 0) 0 ⟨3, 64, 10, 0, 7⟩
    let w := run f (start f [[.insert [97], .insert [98]], [.contains [97], .contains [97], .contains [98]]])
      ([0, 0, 1, 1] ++ List.replicate 7 0 ++ List.replicate 9 1)
    ok (w.threads[1]?.map fun t => (t.answers.map Answer.found, t.answers.map Answer.known))) =
    ok (some ([false, true, false], ([[], [[97]], [[97]]] : List (List (List UInt8))))) := by decide +kernel

/-- A schedule in which the calls do not overlap: insert, ask, insert, ask. -/
example : (do
    let f ← Filter.new (fun _ _ => 0) 0 ⟨1, 64, 10, 0, 7⟩
    let w := run f (start f [[.insert [97], .insert [98]], [.contains [97], .contains [98]]])
      (List.replicate 5 0 ++ List.replicate 3 1 ++ List.replicate 5 0 ++ List.replicate 3 1)
    ok (w.threads.map fun t => (t.answers.map Answer.found, decide (t.pc = .idle)), w.count)) = ok ([([], true), ([true, true], true)], 2) := by decide +kernel

/-- `Locked` as a check. -/
def lockedCheck (f : Filter) (w : World) (sched : List Nat) : Bool :=
  (List.range (sched.length + 1)).all fun n =>
    let ts := (run f w (sched.take n)).threads
    (List.range ts.length).all fun i => (List.range ts.length).all fun j => i == j || ts[i]?.all (fun t => t.pc == .idle) || ts[j]?.all (fun t => t.pc == .idle)

theorem locked_of_check {f : Filter} {w : World} {sched : List Nat} (h : lockedCheck f w sched = true) : Locked f w sched := by
  have key : ∀ n ≤ sched.length, ∀ (i j : Nat) (a b : Thread), (run f w (sched.take n)).threads[i]? = some a → (run f w (sched.take n)).threads[j]? = some b →
      a.pc ≠ .idle → b.pc ≠ .idle → i = j := by
    intro n hn i j a b ha hb hpa hpb
    unfold lockedCheck at h
    have h1 := List.all_eq_true.mp h n (by simp; omega)
    have h2 := List.all_eq_true.mp h1 i (by simpa using (List.getElem?_eq_some_iff.mp ha).1)
    have h3 := List.all_eq_true.mp h2 j (by simpa using (List.getElem?_eq_some_iff.mp hb).1)
    simpa [ha, hb, hpa, hpb] using h3
  intro n
  rcases Nat.le_total n sched.length with hn | hn
  · exact key n hn
  · have := key sched.length (Nat.le_refl _)
    rwa [List.take_of_length_le (Nat.le_refl _), ← List.take_of_length_le hn] at this

/-- A filter of 64 bits with one hash function. -/
def small : Filter := ⟨[0x55555555], List.replicate 8 0, 1, 64, 8, 10, 0, 1, 0, none⟩

theorem small_usable : Usable small := fun h => ⟨h.toNat % 64, rfl, by
  have : small.table.length = 8 := rfl
  omega⟩

/-- Two threads that insert and ask in turns meet the hypothesis of `C168_locked`. -/
example : Locked small (start small [[.insert [97], .contains [98]], [.insert [98], .contains [97]]])
    (List.replicate 5 0 ++ List.replicate 5 1 ++ List.replicate 3 0 ++ List.replicate 3 1) := locked_of_check (by decide +kernel)

/-- Two threads that insert keys with bits in different cells meet that of `C168_nothing_lost`. -/
example : Apart small [[.insert [97]], [.insert [98]]] := by
  have h1 : computeIndex small (hashAp [97] 0x55555555) = ok 61 := by decide +kernel
  have h2 : computeIndex small (hashAp [98] 0x55555555) = ok 0 := by decide +kernel
  intro i j a b hij ha hb k hk k' hk' s hs s' hs' x y hx hy
  have hs : s = 0x55555555 := by simpa [small] using hs
  have hs' : s' = 0x55555555 := by simpa [small] using hs'
  subst hs hs'
  have hi := (List.getElem?_eq_some_iff.mp ha).1
  have hj := (List.getElem?_eq_some_iff.mp hb).1
  simp only [List.length_cons, List.length_nil] at hi hj
  have hcases : i = 0 ∧ j = 1 ∨ i = 1 ∧ j = 0 := by omega
  rcases hcases with ⟨rfl, rfl⟩ | ⟨rfl, rfl⟩
  · simp only [List.getElem?_cons_zero, Option.some.injEq, List.getElem?_cons_succ] at ha hb
    subst ha hb
    simp only [inserted, List.mem_singleton] at hk hk'
    subst hk hk'
    rw [h1] at hx; rw [h2] at hy
    rw [← Outcome.ok.inj hx, ← Outcome.ok.inj hy]; decide
  · simp only [List.getElem?_cons_zero, Option.some.injEq, List.getElem?_cons_succ] at ha hb
    subst ha hb
    simp only [inserted, List.mem_singleton] at hk hk'
    subst hk hk'
    rw [h2] at hx; rw [h1] at hy
    rw [← Outcome.ok.inj hx, ← Outcome.ok.inj hy]; decide

/-! ## Concrete cases of C168 -/

example := C168_safe small small_usable [[.insert [97], .contains [98]], [.insert [98]]] [0, 1, 1, 0, 1, 0] 1 [.insert [98]] rfl

theorem one_asks (i j : Nat) (hi : i = 0) (cs : List Call) (hj : j ≠ i) (h : [[Call.insert [97], .insert [98]], [.contains [97]]][j]? = some cs) : inserted cs = [] := by
  match j with
  | 0 => omega
  | 1 => simp at h; subst h; rfl
  | j + 2 => simp at h

example := C168_one_writer small small_usable [[.insert [97], .insert [98]], [.contains [97]]] 0 _ rfl (fun j cs hj h => one_asks 0 j rfl cs hj h)
  (List.replicate 4 0 ++ [1, 1] ++ List.replicate 6 0) (by decide)

example := C168_queries small small_usable [[.contains [97]], [.contains [98], .contains [97]]] (by decide) [0, 1, 1, 0, 0, 1]

example := C168_one_writer_found small small_usable [[.insert [97], .insert [98]], [.contains [97]]] 0 (fun j cs hj h => one_asks 0 j rfl cs hj h) [0, 0, 0, 0, 0, 1, 1, 1]

example := C168_reader_races small small_usable (by decide) [97]

end Strtk.Bloom.Conc
