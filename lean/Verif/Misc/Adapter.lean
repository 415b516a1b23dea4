import Verif.Mem

/-! # range::adapter (strtk.hpp 901-1013) -/

namespace Strtk.Adapter
open Outcome Mem

/-- The element types for which an adapter is used: `const char` (`range::string`, 975), `const unsigned char` (`range::ustring`, 976) and `char`. -/
inductive Elem
  | constChar | constUChar | char
  deriving DecidableEq

/-- An adapter (903-973): positions of `begin_` and `end_` in the memory they lead into. -/
structure Adapter where
  elem : Elem
  first : Nat
  last : Nat

/-- The constructor from two pointers or a pair of them (912-920). -/
def ofEnds (e : Elem) (i j : Nat) : Adapter := ⟨e, i, j⟩
/-- The constructor from a pointer and a length (922-925); `type(const std::string&)` (990-993) uses it with the whole text. -/
def ofLength (e : Elem) (i n : Nat) : Adapter := ⟨e, i, i + n⟩

/-- `size()` (937-940) for ends in order. -/
def size (a : Adapter) : Nat := a.last - a.first
/-- `operator[]` for reading (947-955): no check against the ends. -/
def at' {α : Type} (mem : List α) (a : Adapter) (i : Nat) : Outcome α := deref mem (a.first + i)
/-- Assignment through `operator[]` (952-955). -/
def setAt {α : Type} (mem : List α) (a : Adapter) (i : Nat) (v : α) : Outcome (List α) := store mem (a.first + i) v
/-- `as_string` (1003-1011), for both constant element types. -/
def asString {α : Type} (mem : List α) (a : Adapter) : Outcome (List α) := slice mem a.first (a.last - a.first)
/-- The conversion to `std::string` (942-945) calls `stringify` (959-969): the overload for `const char*` copies the text, the template (which is the better match
for every other pointer, `char*` included) gives an empty text. -/
def convert {α : Type} (mem : List α) (a : Adapter) : Outcome (List α) :=
  match a.elem with
  | .constChar => slice mem a.first (a.last - a.first)
  | _ => ok []

/-! ## Proofs -/

variable {α : Type}

/-- An adapter of a stretch `w` of memory is a view of it: size, elements and text are those of `w`. -/
theorem C106_view (e : Elem) (pre w post : List α) :
    (∀ a ∈ [ofEnds e pre.length (pre.length + w.length), ofLength e pre.length w.length],
      size a = w.length ∧ asString (pre ++ w ++ post) a = ok w ∧ ∀ (i : Nat) (h : i < w.length), at' (pre ++ w ++ post) a i = ok w[i]) := by
  have key : ∀ a : Adapter, a.first = pre.length → a.last = pre.length + w.length →
      size a = w.length ∧ asString (pre ++ w ++ post) a = ok w ∧ ∀ (i : Nat) (h : i < w.length), at' (pre ++ w ++ post) a i = ok w[i] := by
    intro a h1 h2
    refine ⟨by simp [size, h1, h2], ?_, ?_⟩
    · rw [asString, h1, h2, Nat.add_sub_cancel_left, slice_append]
    · intro i h
      rw [at', h1, deref_eq_ok (by simp; omega)]
      congr 1
      rw [List.getElem_append_left (by simp; omega), List.getElem_append_right (by omega)]
      simp
  intro a ha
  simp only [List.mem_cons, List.not_mem_nil, or_false] at ha
  rcases ha with rfl | rfl
  · exact key _ rfl rfl
  · exact key _ rfl rfl

/-- Assigning through an adapter changes exactly that element of the memory viewed. -/
theorem C106_write (pre w post : List α) (i : Nat) (h : i < w.length) (v : α) :
    setAt (pre ++ w ++ post) (ofEnds .char pre.length (pre.length + w.length)) i v = ok (pre ++ w.set i v ++ post) := by
  rw [setAt, store_eq_ok v (by simp [ofEnds]; omega)]
  show ok ((pre ++ w ++ post).set (pre.length + i) v) = _
  congr 1
  rw [List.append_assoc, List.set_append_right _ _ (by omega), Nat.add_sub_cancel_left, List.set_append_left _ _ h, List.append_assoc]

/-- Converting a view of constant characters gives its text. -/
theorem C106_convert_partial (pre w post : List α) :
    convert (pre ++ w ++ post) (ofEnds .constChar pre.length (pre.length + w.length)) = ok w := by
  show slice _ pre.length (pre.length + w.length - pre.length) = _
  rw [Nat.add_sub_cancel_left, slice_append]

/-- Converting a view of characters or unsigned characters gives an empty text, whatever it shows; `as_string` gives the text. -/
theorem C106_convert_disagrees (e : Elem) (he : e ≠ .constChar) (pre w post : List α) (hw : w ≠ []) :
    let a := ofEnds e pre.length (pre.length + w.length)
    convert (pre ++ w ++ post) a = ok [] ∧ asString (pre ++ w ++ post) a = ok w ∧ (ok [] : Outcome (List α)) ≠ ok w := by
  refine ⟨?_, ?_, by simpa using hw.symm⟩
  · cases e with
    | constChar => exact absurd rfl he
    | constUChar => rfl
    | char => rfl
  · exact ((C106_view e pre w post) _ (by simp)).2.1

/-- `operator[]` does not look at the ends: behind the end it reads on in the memory, and behind that the behaviour is undefined. -/
theorem C106_unchecked (e : Elem) (pre w post : List α) (i : Nat) :
    (∀ h : i < post.length, at' (pre ++ w ++ post) (ofEnds e pre.length (pre.length + w.length)) (w.length + i) = ok post[i]) ∧
    (post.length ≤ i → at' (pre ++ w ++ post) (ofEnds e pre.length (pre.length + w.length)) (w.length + i) = ub) := by
  constructor
  · intro h
    rw [at', deref_eq_ok (by simp [ofEnds]; omega)]
    congr 1
    rw [List.getElem_append_right (by simp [ofEnds])]
    simp [ofEnds, ← Nat.add_assoc]
  · intro h
    exact deref_ub (by simp [ofEnds]; omega)

example : convert "abcdef".toList (ofLength .constChar 1 3) = ok "bcd".toList ∧ convert "abcdef".toList (ofLength .char 1 3) = ok [] ∧
    setAt "abcdef".toList (ofEnds .char 1 4) 2 'X' = ok "abcXef".toList := by decide

end Strtk.Adapter
