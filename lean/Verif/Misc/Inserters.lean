import Verif.Split.Props
import Verif.Parse.Props
import Verif.Misc.Props

/-! # Output iterators of the library (strtk.hpp 2609-3026, 3141-3269), `for_each_token` (4111-4129), counting duplicates and extrema of containers (4131-4197) -/

namespace Strtk.Inserters
open Outcome
open Codec (Byte)

/-! ## Model: inserters that refer to a container -/

/-- An inserter holds a reference to its container: here, its number. Covers `range_to_type_back_inserter` (2609-2698), `range_to_type_inserter` (2700-2789),
`range_to_type_push_inserter` (2791-2844), `back_inserter_with_valuetype` (2846-2907), `inserter_with_valuetype` (2909-2971), `push_inserter` (2973-3026) and
`counting_back_inserter` (3141-3203, whose container is the counter). -/
abbrev Ref := Nat

/-- Containers `K` that are written to with values `B`, and the inserters that exist. -/
structure World (K : Type) where
  boxes : List K
  iters : List Ref

/-- What a program does with inserters: the expressions `T b(a)`, `a = v` (also through `*a`, which is `a`), `*(a++) = v`, `++a`, and `a = b`. -/
inductive Act (B : Type)
  | copy (i : Nat)
  | write (i : Nat) (v : B)
  | postWrite (i : Nat) (v : B)
  | step (i : Nat)
  | assign (i j : Nat)

variable {K B : Type}

/-- `operator=(value)`: `put` is `push_back`, `insert`, `push`, the counter's increment, or one of them behind a conversion that may fail (2639-2657, 2872-2876,
2936-2940, 2996-3000, 3168-3172). -/
def put (op : K → B → K) (w : World K) (r : Ref) (v : B) : Outcome (World K) :=
  match w.boxes[r]? with
  | none => ub
  | some k => ok { w with boxes := w.boxes.set r (op k v) }

/-- One action. The copy constructor binds the reference again (2624-2626); `operator++` of both kinds changes nothing, the postfix one returns a copy
(2679-2687); `operator*` returns the iterator itself; copy assignment assigns *the containers* (2628-2636, 2719-2727, 2863-2870, 2926-2934, 2986-2994,
3158-3166). Naming an inserter that does not exist is not a program: `ub`. -/
def act (op : K → B → K) (w : World K) : Act B → Outcome (World K)
  | .copy i => match w.iters[i]? with
    | none => ub
    | some r => ok { w with iters := w.iters ++ [r] }
  | .write i v => match w.iters[i]? with
    | none => ub
    | some r => put op w r v
  | .postWrite i v => match w.iters[i]? with
    | none => ub
    | some r => put op w r v
  | .step i => match w.iters[i]? with
    | none => ub
    | some _ => ok w
  | .assign i j => match w.iters[i]?, w.iters[j]? with
    | some r, some q =>
      if i = j then ok w
      else match w.boxes[q]? with
        | none => ub
        | some k => if r < w.boxes.length then ok { w with boxes := w.boxes.set r k } else ub
    | _, _ => ub

def run (op : K → B → K) (w : World K) : List (Act B) → Outcome (World K)
  | [] => ok w
  | a :: as => do run op (← act op w a) as

/-! ## Specification -/

/-- What each inserter stands for, as a program expects: copies and assignments make an inserter stand for the container of the other one. -/
def bind (its : List Ref) : Act B → List Ref
  | .copy i => its ++ [its.getD i 0]
  | .assign i j => its.set i (its.getD j 0)
  | _ => its

/-- The values written to container `c` by a program, in order. -/
def written (c : Ref) : List Ref → List (Act B) → List B
  | _, [] => []
  | its, .write i v :: as => (if its.getD i 0 = c then [v] else []) ++ written c its as
  | its, .postWrite i v :: as => (if its.getD i 0 = c then [v] else []) ++ written c its as
  | its, a :: as => written c (bind its a) as

/-- Only inserters that exist are named, and assignments are between inserters of the same container. -/
def Uses : List Ref → List (Act B) → Prop
  | _, [] => True
  | its, a :: as => (match a with
      | .copy i | .write i _ | .postWrite i _ | .step i => i < its.length
      | .assign i j => i < its.length ∧ j < its.length ∧ its[i]? = its[j]?) ∧ Uses (bind its a) as

/-! ## C110 -/

/-- Any program that uses inserters, copies of them and either way of writing: every container ends up with exactly the values written to it, each once, in order.
Missing for C110: assignments between inserters of different containers (`C110_assign_overwrites`). -/
theorem C110_history_partial (op : K → B → K) : ∀ (as : List (Act B)) (w : World K), (∀ r ∈ w.iters, r < w.boxes.length) → Uses w.iters as →
    ∃ w', run op w as = ok w' ∧ w'.boxes.length = w.boxes.length ∧ w'.iters = as.foldl bind w.iters ∧
      ∀ c k, w.boxes[c]? = some k → w'.boxes[c]? = some ((written c w.iters as).foldl op k) := by
  intro as
  induction as with
  | nil => intro w _ _; exact ⟨w, rfl, rfl, rfl, fun c k h => h⟩
  | cons a as ih =>
    intro w hw hu
    obtain ⟨hu1, hu2⟩ := hu
    have wr : ∀ i v, i < w.iters.length → ∃ w', (match w.iters[i]? with
          | none => ub
          | some r => put op w r v) = ok w' ∧ w'.boxes.length = w.boxes.length ∧ w'.iters = w.iters ∧
        ∀ c k, w.boxes[c]? = some k → w'.boxes[c]? = some ((if w.iters.getD i 0 = c then [v] else []).foldl op k) := by
      intro i v hi
      have hr := hw w.iters[i] (List.getElem_mem hi)
      rw [List.getElem?_eq_getElem hi]
      simp only [put, List.getElem?_eq_getElem hr]
      refine ⟨_, rfl, by simp, rfl, ?_⟩
      intro c k hc
      have e : w.iters.getD i 0 = w.iters[i] := by simp [hi]
      rw [e]
      simp only [List.getElem?_set]
      by_cases hcc : w.iters[i] = c
      · subst hcc
        rw [List.getElem?_eq_getElem hr] at hc
        cases hc
        simp [hr]
      · simp [hcc, hc]
    cases a with
    | copy i =>
      simp only at hu1
      have e : act op w (.copy i) = ok { w with iters := w.iters ++ [w.iters.getD i 0] } := by
        simp [act, hu1]
      obtain ⟨w', h1, h2, h3, h4⟩ := ih { w with iters := w.iters ++ [w.iters.getD i 0] } (by
        intro r hr
        rcases List.mem_append.mp hr with hr | hr
        · exact hw r hr
        · rw [List.mem_singleton.mp hr]
          have : w.iters.getD i 0 = w.iters[i] := by simp [hu1]
          rw [this]; exact hw _ (List.getElem_mem hu1)) hu2
      refine ⟨w', ?_, h2, h3, h4⟩
      show (do run op (← act op w (.copy i)) as) = _
      rw [e, ok_bind, h1]
    | write i v =>
      simp only at hu1
      obtain ⟨w1, e1, e2, e3, e4⟩ := wr i v hu1
      obtain ⟨w', h1, h2, h3, h4⟩ := ih w1 (by rw [e3, e2]; exact hw) (by rw [e3]; exact hu2)
      refine ⟨w', ?_, by rw [h2, e2], by rw [h3, e3]; rfl, ?_⟩
      · show (do run op (← act op w (.write i v)) as) = _
        rw [show act op w (.write i v) = _ from e1, ok_bind, h1]
      · intro c k hc
        rw [h4 c _ (e4 c k hc), e3]
        simp [written, List.foldl_append]
    | postWrite i v =>
      simp only at hu1
      obtain ⟨w1, e1, e2, e3, e4⟩ := wr i v hu1
      obtain ⟨w', h1, h2, h3, h4⟩ := ih w1 (by rw [e3, e2]; exact hw) (by rw [e3]; exact hu2)
      refine ⟨w', ?_, by rw [h2, e2], by rw [h3, e3]; rfl, ?_⟩
      · show (do run op (← act op w (.postWrite i v)) as) = _
        rw [show act op w (.postWrite i v) = _ from e1, ok_bind, h1]
      · intro c k hc
        rw [h4 c _ (e4 c k hc), e3]
        simp [written, List.foldl_append]
    | step i =>
      simp only at hu1
      have e : act op w (.step i) = ok w := by simp [act, hu1]
      obtain ⟨w', h1, h2, h3, h4⟩ := ih w hw hu2
      refine ⟨w', ?_, h2, h3, h4⟩
      show (do run op (← act op w (.step i)) as) = _
      rw [e, ok_bind, h1]
    | assign i j =>
      obtain ⟨hi, hj, hij⟩ := hu1
      rw [List.getElem?_eq_getElem hi, List.getElem?_eq_getElem hj, Option.some.injEq] at hij
      have hr := hw w.iters[j] (List.getElem_mem hj)
      have e : act op w (.assign i j) = ok w := by
        simp only [act, List.getElem?_eq_getElem hi, List.getElem?_eq_getElem hj]
        by_cases hne : i = j
        · simp [hne]
        · rw [if_neg hne]
          simp only [List.getElem?_eq_getElem hr, hij, hr, if_true]
          simp
      have hb : bind w.iters (.assign i j : Act B) = w.iters := by
        simp only [bind]
        have : w.iters.getD j 0 = w.iters[i] := by simp [hj, hij]
        rw [this]; simp
      rw [hb] at hu2
      obtain ⟨w', h1, h2, h3, h4⟩ := ih w hw hu2
      refine ⟨w', ?_, h2, by rw [h3, List.foldl_cons, hb], ?_⟩
      · show (do run op (← act op w (.assign i j)) as) = _
        rw [e, ok_bind, h1]
      · intro c k hc
        rw [h4 c k hc]
        simp only [written, hb]

/-- Two containers, a copy of the second inserter, both ways of writing. -/
example : run (fun k v => k ++ [v]) (⟨[[1], [2]], [0, 1]⟩ : World (List Nat)) [.copy 1, .write 2 7, .postWrite 0 8, .step 2, .write 1 9, .assign 2 1] =
    ok ⟨[[1, 8], [2, 7, 9]], [0, 1, 1]⟩ := rfl

/-- Assigning to an inserter one of another container does not make it write there: the contents of its own container are replaced by those of the other, and it
keeps writing to its own. -/
theorem C110_assign_overwrites (op : K → B → K) (w : World K) (i j r q : Nat) (kr kq : K) (hi : w.iters[i]? = some r) (hj : w.iters[j]? = some q) (hne : i ≠ j)
    (hrq : r ≠ q) (hr : w.boxes[r]? = some kr) (hq : w.boxes[q]? = some kq) (v : B) :
    ∃ w', run op w [.assign i j, .write i v] = ok w' ∧ w'.boxes[r]? = some (op kq v) ∧ w'.boxes[q]? = some kq := by
  have hlt : r < w.boxes.length := by
    by_contra h
    rw [List.getElem?_eq_none (by omega)] at hr; cases hr
  simp only [run, act, hi, hj, if_neg hne, hq, if_pos hlt, ok_bind, put, List.getElem?_set, hlt, if_true]
  refine ⟨_, rfl, ?_, ?_⟩
  · simp [hlt]
  · simp [hq, hrq]

/-! ## Functions as output iterators -/

/-- `functional_inserter` (3205-3269) holds the function object itself: `F` is its state, a call gives the next state and an effect `E`. Written to as `(*out) = x; ++out`
(so do `split`, `find_all`, `iota`, ...): the calls go to the object that `out` is. -/
def callsPre {F E : Type} (call : F → B → F × E) : List B → F → List E → F × List E
  | [], f, log => (f, log)
  | x :: xs, f, log => callsPre call xs (call f x).1 (log ++ [(call f x).2])

/-- The same inserter written to as `*(out++) = x` (so do `convert_bin_to_base64`, `bitwise_transform`, `cut`, `make_key_list`, ...): each call goes to the copy that
the postfix `operator++` returned (3255-3258). -/
def callsPost {F E : Type} (call : F → B → F × E) : List B → F → List E → F × List E
  | [], f, log => (f, log)
  | x :: xs, f, log => callsPost call xs f (log ++ [(call f x).2])

theorem callsPre_spec {F E : Type} (call : F → B → F × E) : ∀ (xs : List B) (f : F) (log : List E), ∃ out,
    callsPre call xs f log = (xs.foldl (fun f x => (call f x).1) f, log ++ out) ∧ out.length = xs.length ∧
    ∀ i (h : i < xs.length), out[i]? = some (call ((xs.take i).foldl (fun f x => (call f x).1) f) xs[i]).2 := by
  intro xs
  induction xs with
  | nil => intro f log; exact ⟨[], by simp [callsPre], rfl, fun i h => by simp at h⟩
  | cons x xs ih =>
    intro f log
    obtain ⟨out, h1, h2, h3⟩ := ih (call f x).1 (log ++ [(call f x).2])
    refine ⟨(call f x).2 :: out, by simp [callsPre, h1], by simp [h2], ?_⟩
    intro i hi
    cases i with
    | zero => simp
    | succ i => simpa using h3 i (by simpa using hi)

theorem callsPost_spec {F E : Type} (call : F → B → F × E) : ∀ (xs : List B) (f : F) (log : List E),
    callsPost call xs f log = (f, log ++ xs.map fun x => (call f x).2) := by
  intro xs
  induction xs with
  | nil => intro f log; simp [callsPost]
  | cons x xs ih => intro f log; simp [callsPost, ih]

/-- Functions that write with `(*out) = x; ++out` call the function once per value, in order, and each call sees the state the earlier ones left. -/
theorem C110_function_calls {F E : Type} (call : F → B → F × E) (xs : List B) (f : F) :
    (callsPre call xs f []).2.length = xs.length ∧
    ∀ i (h : i < xs.length), (callsPre call xs f []).2[i]? = some (call ((xs.take i).foldl (fun f x => (call f x).1) f) xs[i]).2 := by
  obtain ⟨out, h1, h2, h3⟩ := callsPre_spec call xs f []
  rw [h1]
  exact ⟨by simpa using h2, by simpa using h3⟩

/-- Functions that write with `*(out++) = x` call a copy of the function each time: every call sees the initial state. -/
theorem C110_function_copies {F E : Type} (call : F → B → F × E) (xs : List B) (f : F) :
    (callsPost call xs f []).2 = xs.map fun x => (call f x).2 := by
  rw [callsPost_spec]; rfl

/-- So a function object that numbers the values it gets numbers them 0, 1, 2, ... or 0, 0, 0, ..., depending on the function it is given to. -/
example : (callsPre (fun n (x : Char) => (n + 1, (n, x))) ['a', 'b'] 0 []).2 = [(0, 'a'), (1, 'b')] ∧
    (callsPost (fun n (x : Char) => (n + 1, (n, x))) ['a', 'b'] 0 []).2 = [(0, 'a'), (0, 'b')] := by decide

/-! ## `for_each_token` -/

/-- `for_each_token` (4111-4129): `split` in default mode with a `functional_inserter`; the delimiter predicate is chosen as in 3455-3490 (`delimPred`). -/
def forEachToken {F E : Type} (call : F → List Byte → F × E) (delims s : List Byte) (f : F) : Outcome (Nat × List E) := do
  let r ← Split.split (Split.Opt.ofBits 0) (Parse.delimPred delims) s
  pure (r.2, (callsPre call (r.1.map (Split.textOf s)) f []).2)

/-- **C01** for `for_each_token`: the function is called with the text split at each delimiter character, token by token, and their number is returned; nothing is
called for an empty text. -/
theorem C01_for_each_token {F E : Type} (call : F → List Byte → F × E) (delims s : List Byte) (f : F) :
    ∃ log, forEachToken call delims s f = ok (log.length, log) ∧
      (s = [] → log = []) ∧
      (s ≠ [] → log.length = (s.splitOnP fun c => decide (c ∈ delims)).length ∧
        ∀ i (h : i < (s.splitOnP fun c => decide (c ∈ delims)).length), log[i]? =
          some (call (((s.splitOnP fun c => decide (c ∈ delims)).take i).foldl (fun f x => (call f x).1) f) (s.splitOnP fun c => decide (c ∈ delims))[i]).2) := by
  have hopt : Split.Opt.ofBits 0 = {} := rfl
  unfold forEachToken
  rw [hopt, Parse.C79_delimiter_string]
  obtain ⟨h0, h1⟩ := Split.C01_split_default (fun c => decide (c ∈ delims)) s
  by_cases hs : s = []
  · rw [h0 hs]
    exact ⟨[], rfl, fun _ => rfl, fun h => absurd hs h⟩
  · obtain ⟨r, e1, e2⟩ := h1 hs
    obtain ⟨c1, c2⟩ := C110_function_calls call (s.splitOnP fun c => decide (c ∈ delims)) f
    rw [e1, ok_bind]
    refine ⟨(callsPre call (r.map (Split.textOf s)) f []).2, ?_, fun h => absurd h hs, fun _ => ?_⟩
    · rw [e2, c1, ← e2]; simp
    · rw [e2]; exact ⟨c1, c2⟩

/-- A function that collects the tokens together with their number. -/
example : forEachToken (fun n t => (n + 1, (n, t))) [44, 59] [97, 98, 44, 59, 99] 0 = ok (3, [(0, [97, 98]), (1, []), (2, [99])]) := by decide +kernel

/-! ## Counting duplicates -/

/-- The loop of `count_consecutive_duplicates` (4140-4146) at positions `prev` and `itr`. -/
def dupLoop {α : Type} [DecidableEq α] (s : List α) : Nat → Nat → Nat → Nat → Outcome Nat
  | 0, _, _, _ => diverge
  | fuel + 1, prev, itr, count =>
    if s.length = itr + 1 then ok count
    else do
      let a ← deref s prev
      let b ← deref s (itr + 1)
      if a = b then dupLoop s fuel prev (itr + 1) (count + 1) else dupLoop s fuel (itr + 1) (itr + 1) count

/-- `count_consecutive_duplicates` (4131-4149). -/
def countConsecutiveDuplicates {α : Type} [DecidableEq α] (s : List α) : Outcome Nat :=
  if s.length < 2 then ok 0 else dupLoop s s.length 0 0 0

theorem dupLoop_spec {α : Type} [DecidableEq α] (s : List α) : ∀ (fuel prev itr count : Nat) (hp : prev < s.length) (hi : itr < s.length),
    s.length ≤ itr + fuel → s[prev] = s[itr] →
    dupLoop s fuel prev itr count = ok (count + ((s.drop itr).zip (s.drop (itr + 1))).countP fun p => decide (p.1 = p.2)) := by
  intro fuel
  induction fuel with
  | zero => intro prev itr count hp hi hl; omega
  | succ fuel ih =>
    intro prev itr count hp hi hl heq
    unfold dupLoop
    by_cases hend : s.length = itr + 1
    · rw [if_pos hend, List.drop_eq_nil_of_le (show s.length ≤ itr + 1 by omega)]
      simp
    · have hi' : itr + 1 < s.length := by omega
      rw [if_neg hend, deref_eq_ok hp, ok_bind, deref_eq_ok hi', ok_bind, List.drop_eq_getElem_cons hi, List.drop_eq_getElem_cons hi', List.zip_cons_cons, List.countP_cons,
        heq, ← List.drop_eq_getElem_cons hi']
      by_cases h : s[itr] = s[itr + 1]
      · rw [if_pos h, ih prev (itr + 1) (count + 1) hp hi' (by omega) (by rw [heq, h])]
        simp [h]; omega
      · rw [if_neg h, ih (itr + 1) (itr + 1) count hi' hi' (by omega) rfl]
        simp [h]

/-- **C111**: `count_consecutive_duplicates` counts the elements that are equal to the element before them, in every range. -/
theorem C111_count_consecutive_duplicates {α : Type} [DecidableEq α] (s : List α) :
    countConsecutiveDuplicates s = ok ((s.zip s.tail).countP fun p => decide (p.1 = p.2)) := by
  unfold countConsecutiveDuplicates
  split
  · rename_i h
    match s, h with
    | [], _ => rfl
    | [_], _ => rfl
  · rename_i h
    rw [dupLoop_spec s _ 0 0 0 (by omega) (by omega) (by omega) rfl]
    simp

example : countConsecutiveDuplicates [1, 1, 1, 2, 1, 3, 3] = ok 3 ∧ countConsecutiveDuplicates ([] : List Nat) = ok 0 := by decide

/-! ## Extrema of containers -/

/-- `std::min_element` / `std::max_element`, dereferenced (4156, 4180): on an empty sequence the end is dereferenced. -/
def minOfSequence {α : Type} [LinearOrder α] : List α → Outcome α
  | [] => ub
  | a :: t => ok (t.foldl (fun m x => if x < m then x else m) a)

def maxOfSequence {α : Type} [LinearOrder α] : List α → Outcome α
  | [] => ub
  | a :: t => ok (t.foldl (fun m x => if m < x then x else m) a)

/-- `*set.begin()` / `*set.rbegin()` (4164, 4172, 4188, 4196); `s` are the elements of the set in iteration order. -/
def minOfSet {α : Type} (s : List α) : Outcome α := match s.head? with
  | none => ub
  | some a => ok a

def maxOfSet {α : Type} (s : List α) : Outcome α := match s.getLast? with
  | none => ub
  | some a => ok a

/-- `m` is an element of `s` and none is less / greater. -/
def Smallest {α : Type} [LinearOrder α] (m : α) (s : List α) : Prop := m ∈ s ∧ ∀ x ∈ s, m ≤ x
def Greatest {α : Type} [LinearOrder α] (m : α) (s : List α) : Prop := m ∈ s ∧ ∀ x ∈ s, x ≤ m

theorem foldl_min {α : Type} [LinearOrder α] : ∀ (t : List α) (a : α), Smallest (t.foldl (fun m x => if x < m then x else m) a) (a :: t) := by
  intro t
  induction t with
  | nil => intro a; simp [Smallest]
  | cons b t ih =>
    intro a
    obtain ⟨h1, h2⟩ := ih (if b < a then b else a)
    simp only [List.foldl_cons]
    constructor
    · rcases List.mem_cons.mp h1 with h | h
      · rw [h]; split <;> simp
      · simp [h]
    · have h3 := h2 _ (List.mem_cons_self ..)
      have h4 : (if b < a then b else a) ≤ a ∧ (if b < a then b else a) ≤ b := by
        split
        · exact ⟨le_of_lt ‹_›, le_refl _⟩
        · exact ⟨le_refl _, not_lt.mp ‹_›⟩
      intro x hx
      rcases List.mem_cons.mp hx with rfl | hx
      · exact le_trans h3 h4.1
      · rcases List.mem_cons.mp hx with rfl | hx
        · exact le_trans h3 h4.2
        · exact h2 x (by simp [hx])

theorem foldl_max {α : Type} [LinearOrder α] : ∀ (t : List α) (a : α), Greatest (t.foldl (fun m x => if m < x then x else m) a) (a :: t) := by
  intro t
  induction t with
  | nil => intro a; simp [Greatest]
  | cons b t ih =>
    intro a
    obtain ⟨h1, h2⟩ := ih (if a < b then b else a)
    simp only [List.foldl_cons]
    constructor
    · rcases List.mem_cons.mp h1 with h | h
      · rw [h]; split <;> simp
      · simp [h]
    · have h3 := h2 _ (List.mem_cons_self ..)
      have h4 : a ≤ (if a < b then b else a) ∧ b ≤ (if a < b then b else a) := by
        split
        · exact ⟨le_of_lt ‹_›, le_refl _⟩
        · exact ⟨le_refl _, not_lt.mp ‹_›⟩
      intro x hx
      rcases List.mem_cons.mp hx with rfl | hx
      · exact le_trans h4.1 h3
      · rcases List.mem_cons.mp hx with rfl | hx
        · exact le_trans h4.2 h3
        · exact h2 x (by simp [hx])

/-- **C95** for `min_of_cont` and `max_of_cont`: on non-empty sequences, sets and multisets a smallest and a greatest element; empty containers are not supported. -/
theorem C95_containers {α : Type} [LinearOrder α] (s : List α) :
    (s ≠ [] → ∃ mn mx, minOfSequence s = ok mn ∧ maxOfSequence s = ok mx ∧ Smallest mn s ∧ Greatest mx s) ∧
    (s ≠ [] → s.Pairwise (· ≤ ·) → ∃ mn mx, minOfSet s = ok mn ∧ maxOfSet s = ok mx ∧ Smallest mn s ∧ Greatest mx s) ∧
    (s = [] → minOfSequence s = ub ∧ maxOfSequence s = ub ∧ minOfSet s = ub ∧ maxOfSet s = ub) := by
  refine ⟨?_, ?_, ?_⟩
  · intro h
    cases s with
    | nil => exact absurd rfl h
    | cons a t => exact ⟨_, _, rfl, rfl, foldl_min t a, foldl_max t a⟩
  · intro h hp
    refine ⟨s.head h, s.getLast h, ?_, ?_, ⟨List.head_mem h, ?_⟩, ⟨List.getLast_mem h, ?_⟩⟩
    · simp [minOfSet, List.head?_eq_some_head h]
    · simp [maxOfSet, List.getLast?_eq_some_getLast h]
    · cases s with
      | nil => exact absurd rfl h
      | cons a t =>
        intro x hx
        rcases List.mem_cons.mp hx with rfl | hx
        · exact le_refl _
        · exact (List.pairwise_cons.mp hp).1 x hx
    · intro x hx
      have e := List.dropLast_append_getLast h
      rw [← e] at hp hx
      rcases List.mem_append.mp hx with hx | hx
      · exact (List.pairwise_append.mp hp).2.2 x hx _ (by simp)
      · rw [List.mem_singleton.mp hx]
  · rintro rfl
    exact ⟨rfl, rfl, rfl, rfl⟩

example : minOfSequence [3, 1, 2] = ok 1 ∧ maxOfSequence [3, 1, 2] = ok 3 ∧ minOfSet [1, 2, 3] = ok 1 ∧ maxOfSet [1, 2, 3] = ok 3 := by decide

example : ∃ w', run (fun k v => k ++ [v]) (⟨[[1], [2]], [0, 1]⟩ : World (List Nat)) [.assign 0 1, .write 0 7] = ok w' ∧ w'.boxes[0]? = some [2, 7] ∧ w'.boxes[1]? = some [2] :=
  C110_assign_overwrites (fun k v => k ++ [v]) (⟨[[1], [2]], [0, 1]⟩ : World (List Nat)) 0 1 0 1 [1] [2] rfl rfl (by decide) (by decide) rfl rfl 7

end Strtk.Inserters
