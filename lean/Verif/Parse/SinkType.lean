import Verif.Parse.Props
import Mathlib.Data.List.Induction

/-!
# sink_type: a container as a parse target (strtk.hpp 15341-15408)
-/

namespace Strtk.Parse

open Outcome Mem Strtk.Codec Strtk.Split

/-- `std::numeric_limits<std::size_t>::max()`, the element count meaning "all". -/
def allElements : Nat := 2 ^ 64 - 1

/-- The members of `sink_type` (15404-15407).  `target` is the container `container_` points at (a null pointer is `none`); `elements` is `none` while
`element_count_` has not been initialised. -/
structure Sink (C : Type) where
  delims : List Byte
  opt : Opt
  target : Option C
  elements : Option Nat

/-- `sink_type(delimiters, split_option)` (15348-15354). -/
def Sink.make {C : Type} (delims : List Byte) (opt : Opt := { compress := true }) : Sink C := ⟨delims, opt, none, some allElements⟩

/-- `sink_type(container, delimiters, split_option)` (15356-15362): `element_count_` is missing from the initialiser list. -/
def Sink.makeBound {C : Type} (c : C) (delims : List Byte) (opt : Opt := { compress := true }) : Sink C := ⟨delims, opt, some c, none⟩

/-- `count(element_count)` (15364-15368). -/
def Sink.count {C : Type} (k : Sink C) (n : Nat := allElements) : Sink C := { k with elements := some n }

/-- `operator()(container, delimiters, split_option)` (15370-15379). -/
def Sink.bindTo {C : Type} (k : Sink C) (c : C) (delims : List Byte := []) (opt : Opt := { compress := true }) : Sink C :=
  { k with target := some c, delims := if delims ≠ [] then delims else k.delims, opt := opt }

/-- `parse(begin, end)` (15381-15395); the proxies (15241-15337) call `parse` and `parse_n` for the container.  Reading the indeterminate count is
undefined. -/
def Sink.parse {V C : Type} (conv : List Byte → Outcome (Bool × V)) (push : C → V → C) (size : C → Nat) (k : Sink C) (s : List Byte) :
    Outcome (Bool × Sink C) :=
  match k.target with
  | none => ok (false, k)
  | some c =>
    match k.elements with
    | none => ub
    | some n =>
      if n = allElements then do
        let (r, c) ← parseContainer k.opt k.delims conv push c s
        ok (decide (0 < r), { k with target := some c })
      else do
        let (r, c) ← parseN k.opt k.delims n conv push size c s
        ok (decide (r = n), { k with target := some c })

/-! ## Specification: what a user configured -/

/-- The calls that configure a sink. -/
inductive SinkCall (C : Type) where
  | count (n : Nat)
  | bindTo (c : C) (delims : List Byte) (opt : Opt)

/-- The sink after the calls. -/
def Sink.configure {C : Type} (k : Sink C) (calls : List (SinkCall C)) : Sink C :=
  calls.foldl (fun k a => match a with | .count n => k.count n | .bindTo c d o => k.bindTo c d o) k

/-- The counts given, in order. -/
def countsGiven {C : Type} (calls : List (SinkCall C)) : List Nat := calls.filterMap fun | .count n => some n | _ => none
/-- The non-empty delimiter strings given, in order. -/
def delimsGiven {C : Type} (calls : List (SinkCall C)) : List (List Byte) := calls.filterMap fun | .bindTo _ d _ => if d = [] then none else some d | _ => none
/-- The containers given, in order. -/
def targetsGiven {C : Type} (calls : List (SinkCall C)) : List C := calls.filterMap fun | .bindTo c _ _ => some c | _ => none
/-- The options given (explicitly or by default), in order. -/
def optsGiven {C : Type} (calls : List (SinkCall C)) : List Opt := calls.filterMap fun | .bindTo _ _ o => some o | _ => none

/-- After every history of configuring calls the last count, the last non-empty delimiters, the last container and the last option hold; what was
never given keeps its initial value. -/
theorem C103_configuration {C : Type} (calls : List (SinkCall C)) (k : Sink C) :
    (k.configure calls).elements = ((countsGiven calls).getLast?.or k.elements) ∧
    (k.configure calls).delims = (delimsGiven calls).getLastD k.delims ∧
    (k.configure calls).target = ((targetsGiven calls).getLast?.or k.target) ∧
    (k.configure calls).opt = (optsGiven calls).getLastD k.opt := by
  induction calls using List.reverseRecOn generalizing k with
  | nil => simp [Sink.configure, countsGiven, delimsGiven, targetsGiven, optsGiven]
  | append_singleton calls a ih =>
    obtain ⟨h1, h2, h3, h4⟩ := ih k
    have e : k.configure (calls ++ [a]) = (match a with | .count n => (k.configure calls).count n | .bindTo c d o => (k.configure calls).bindTo c d o) := by
      unfold Sink.configure; rw [List.foldl_append]; rfl
    rw [e]
    simp only [countsGiven, delimsGiven, targetsGiven, optsGiven] at h1 h2 h3 h4 ⊢
    cases a with
    | count n => simp [Sink.count, h2, h3, h4]
    | bindTo c d o =>
      by_cases hd : d = []
      · subst hd
        simp [Sink.bindTo, h1, h2]
      · simp [Sink.bindTo, h1, hd]

/-- Without a container nothing is parsed. -/
theorem C103_unbound {V C : Type} (conv : List Byte → Outcome (Bool × V)) (push : C → V → C) (size : C → Nat) (delims : List Byte) (opt : Opt)
    (calls : List (SinkCall C)) (hcalls : targetsGiven calls = []) (s : List Byte) :
    ((Sink.make delims opt).configure calls).parse conv push size s = ok (false, (Sink.make delims opt).configure calls) := by
  have h := (C103_configuration calls (Sink.make delims opt)).2.2.1
  rw [hcalls] at h
  unfold Sink.parse
  rw [h]
  rfl

/-- Without a count (or with the largest one) every field that converts goes to the container, and the result tells whether there was any field at
all: it is `true` for every non-empty text, even if no field converted. -/
theorem C103_all {V C : Type} (delims s : List Byte) (conv : List Byte → Outcome (Bool × V)) (spec : List Byte → Option V) (push : C → V → C)
    (size : C → Nat) (c : C)
    (hspec : ∀ w, (∀ v, spec w = some v → conv w = ok (true, v)) ∧ (spec w = none → ∃ v, conv w = ok (false, v))) :
    ((Sink.make delims).bindTo c).parse conv push size s =
      ok (decide (s ≠ []), (Sink.make delims).bindTo ((converted spec (fields delims s)).foldl push c)) := by
  have hlen : decide (0 < (fields delims s).length) = decide (s ≠ []) := by
    unfold fields
    by_cases h : s = []
    · simp [h]
    · rw [if_neg h]
      have := List.splitOnP_ne_nil (fun c => decide (c ∈ delims)) (collapseRuns (fun c => decide (c ∈ delims)) s)
      simp only [h, ne_eq, not_false_eq_true, decide_true, decide_eq_true_eq]
      exact List.length_pos_iff.mpr this
  have := C34_parse_container delims s conv spec push c hspec
  simp only [Sink.parse, Sink.make, Sink.bindTo, if_true, ne_eq, not_true_eq_false, if_false]
  rw [this, ok_bind]
  simp only
  rw [hlen]

/-- With a count of `n` the first `n` fields are used and those that convert go to the container; the result is `true` exactly when there are `n`
fields and all of them convert. -/
theorem C103_count {V : Type} (delims s : List Byte) (n : Nat) (hn : n < 2 ^ 64 - 1) (conv : List Byte → Outcome (Bool × V))
    (spec : List Byte → Option V) (c : List V)
    (hspec : ∀ w, (∀ v, spec w = some v → conv w = ok (true, v)) ∧ (spec w = none → ∃ v, conv w = ok (false, v))) :
    let first := (fields delims s).take n
    (((Sink.make delims).count n).bindTo c).parse conv (fun c v => c ++ [v]) List.length s =
      ok (decide (first.length = n ∧ ∀ w ∈ first, (spec w).isSome), ((Sink.make delims).count n).bindTo (c ++ converted spec first)) := by
  intro first
  have := C34_parse_n delims s n conv spec c hspec
  have hne : n ≠ allElements := by unfold allElements; omega
  simp only [Sink.parse, Sink.make, Sink.count, Sink.bindTo, ne_eq, not_true_eq_false, if_false]
  rw [if_neg hne]
  simp only at this
  rw [this, ok_bind]
  simp only
  have e : decide ((converted spec ((fields delims s).take n)).length = n) = decide (first.length = n ∧ ∀ w ∈ first, (spec w).isSome) := by
    rw [decide_eq_decide]
    have hle : first.length ≤ n := List.length_take_le _ _
    have hf : (converted spec first).length ≤ first.length := List.length_filterMap_le _ _
    have hall : (converted spec first).length = first.length ↔ ∀ w ∈ first, (spec w).isSome := by
      unfold converted
      rw [List.length_filterMap_eq_countP, List.countP_eq_length]
    constructor
    · intro h
      have h' : (converted spec first).length = n := h
      exact ⟨by omega, hall.mp (by omega)⟩
    · rintro ⟨h1, h2⟩
      exact (hall.mpr h2).trans h1
  rw [e]

/-- A sink constructed together with its container has no element count: unless `count` is called, parsing with it reads an indeterminate value. -/
theorem C103_bound_constructor {V C : Type} (conv : List Byte → Outcome (Bool × V)) (push : C → V → C) (size : C → Nat) (c : C) (delims : List Byte)
    (opt : Opt) (calls : List (SinkCall C)) (hcalls : countsGiven calls = []) (s : List Byte) :
    ((Sink.makeBound c delims opt).configure calls).parse conv push size s = ub := by
  obtain ⟨h1, _, h3, _⟩ := C103_configuration calls (Sink.makeBound c delims opt)
  rw [hcalls] at h1
  have h3' : ∃ c', ((Sink.makeBound c delims opt).configure calls).target = some c' := by
    rw [h3]
    cases (targetsGiven calls).getLast? with
    | none => exact ⟨c, rfl⟩
    | some x => exact ⟨x, rfl⟩
  obtain ⟨c', hc'⟩ := h3'
  unfold Sink.parse
  rw [hc', h1]
  rfl

/-- Once `count` is called, it behaves like a sink bound later, with the same option. -/
theorem C103_bound_constructor_counted {C : Type} (c : C) (delims : List Byte) (opt : Opt) (n : Nat) :
    (Sink.makeBound c delims opt).count n = ((Sink.make delims).count n).bindTo c [] opt := rfl

/-- Without an option it compresses delimiters. -/
theorem C103_bound_constructor_default {C : Type} (c : C) (delims : List Byte) (n : Nat) :
    (Sink.makeBound c delims).count n = (Sink.makeBound c delims { compress := true }).count n ∧
    (Sink.makeBound c delims).count n = ((Sink.make delims).count n).bindTo c := ⟨rfl, rfl⟩

/-- The split option given to the constructor is lost: binding a container without naming an option selects compressed delimiters again. -/
theorem C103_option_lost {C : Type} (delims : List Byte) (opt : Opt) (c : C) :
    (Sink.make delims opt).bindTo c = (Sink.make delims).bindTo c := rfl

-- "1,,2" with a sink that should not compress delimiters
example : (((Sink.make [44] {}).count 2).bindTo ([] : List (List Byte))).parse (fun w => ok (true, w)) (fun c v => c ++ [v]) List.length [49, 44, 44, 50]
    = ok (true, ((Sink.make [44]).count 2).bindTo [[49], [50]]) :=
  (C103_count [44] [49, 44, 44, 50] 2 (by omega) (fun w => ok (true, w)) some [] (by simp)).trans (by
    congr 2 <;> decide +kernel)
example : targetsGiven [SinkCall.count (C := List Nat) 3, .bindTo [1] [] {}, .bindTo [2] [44] {}] = [[1], [2]] := rfl
example : (targetsGiven [SinkCall.count (C := List Nat) 3] = []) ∧ countsGiven [SinkCall.bindTo [1] [] {}] = [] := ⟨rfl, rfl⟩

example (s : List Byte) := C103_unbound (V := List Byte) (C := List (List Byte)) (fun w => ok (true, w)) (fun c v => c ++ [v]) List.length [44] {} [.count 3] rfl s

end Strtk.Parse
