import Verif.Parse.Props
import Verif.Strings.Props

/-!
# Delimiter sets given as zero-terminated strings (strtk.hpp 1328-1361, 1507-1518, 1585-1597, 3415-3433, 3454-3472, 3503-3520, 3621-3634)

The memory from the pointer on is a list of bytes; reading behind it is undefined.
-/

namespace Strtk.Parse
open Outcome Mem Strtk.Codec Strtk.Split

/-! ## Model -/

/-- `strnlen(s,n)` (1340-1343), position `i`. -/
def strnlenLoop (mem : List Byte) : Nat → Nat → Outcome Nat
  | 0, i => ok i
  | n + 1, i => do
    let c ← deref mem i
    if c = 0 then ok i else strnlenLoop mem n (i + 1)

def strnlength (mem : List Byte) (n : Nat) : Outcome Nat := strnlenLoop mem n 0

/-- The `std::string` made from a pointer: everything up to the zero byte (`strlen`, which stops at the end of the memory at the latest). -/
def stdString (mem : List Byte) : Outcome (List Byte) := do
  let n ← strnlenLoop mem (mem.length + 1) 0
  ok (mem.take n)

/-- The predicate of the table of a `multiple_char_delimiter_predicate`. -/
def tablePred (delims : List Byte) (c : Byte) : Bool :=
  match multipleCharPred delims c with
  | ok b => b
  | _ => false

/-- `split(const char*,...)` (3415-3433, 3454-3472, 3503-3520). -/
def splitC (opt : Opt) (mem s : List Byte) : Outcome (List (Nat × Nat) × Nat) := do
  let n ← strnlength mem 256
  if n = 1 then do
    let d ← deref mem 0
    split opt (singlePred d) s
  else do
    let d ← stdString mem
    split opt (tablePred d) s

/-- `split_n(const char*,...)` (3621-3634). -/
def splitNC (opt : Opt) (mem s : List Byte) (count : Nat) : Outcome (List (Nat × Nat) × Nat) := do
  let d ← stdString mem
  splitN opt (tablePred d) s count

/-- The predicate of the removing functions (1350-1352, 1509-1511, 1588-1590): at most 256 characters. -/
def removalPred (mem : List Byte) : Outcome (Byte → Bool) := do
  let n ← strnlength mem 256
  ok (tablePred (mem.take n))

/-- `remove_leading(const char*,s)` (1585-1597). -/
def removeLeadingC (mem s : List Byte) : Outcome (List Byte) :=
  if s = [] then ok s else do
    let p ← removalPred mem
    Strings.removeLeading p s

/-- `remove_trailing(const char*,s)` (1507-1518). -/
def removeTrailingC (mem s : List Byte) : Outcome (List Byte) := do
  let p ← removalPred mem
  Strings.removeTrailing p s

/-- `remove_consecutives_inplace(const char*,s)` (1347-1359). -/
def removeConsecutivesC (mem s : List Byte) : Outcome (List Byte) :=
  if s = [] then ok s else do
    let p ← removalPred mem
    Strings.removeConsecutivesPred p s

/-! ## Theorems -/

theorem strnlenLoop_spec (w rest : List Byte) (hw : 0 ∉ w) (stop : rest.head? = some 0) : ∀ (n : Nat) (pre v : List Byte), w = pre ++ v →
    strnlenLoop (w ++ rest) n pre.length = ok (pre.length + min n v.length) := by
  intro n
  induction n with
  | zero => intro pre v _; simp [strnlenLoop]
  | succ n ih =>
    intro pre v e
    cases v with
    | nil =>
      rw [List.append_nil] at e
      subst e
      cases rest with
      | nil => simp at stop
      | cons c rest =>
        have : c = 0 := by simpa using stop
        subst this
        simp only [strnlenLoop]
        rw [deref_append_cons, ok_bind, if_pos rfl]; simp
    | cons c v =>
      have hc : c ≠ 0 := by
        intro h
        rw [e, h] at hw
        simp at hw
      have := ih (pre ++ [c]) v (by simp [e])
      simp only [strnlenLoop]
      rw [e, List.append_assoc, List.cons_append, deref_append_cons, ok_bind, if_neg hc]
      rw [e] at this
      rw [show pre ++ c :: (v ++ rest) = pre ++ c :: v ++ rest by simp]
      rw [show (pre ++ [c]).length = pre.length + 1 by simp] at this
      rw [this]
      congr 1
      simp only [List.length_cons]
      omega

theorem strnlength_spec (w rest : List Byte) (hw : 0 ∉ w) (n : Nat) : strnlength (w ++ 0 :: rest) n = ok (min n w.length) := by
  have := strnlenLoop_spec w (0 :: rest) hw rfl n [] w rfl
  unfold strnlength
  simpa using this

theorem stdString_spec (w rest : List Byte) (hw : 0 ∉ w) : stdString (w ++ 0 :: rest) = ok w := by
  have := strnlenLoop_spec w (0 :: rest) hw rfl ((w ++ 0 :: rest).length + 1) [] w rfl
  unfold stdString
  simp only [List.length_nil, Nat.zero_add] at this
  rw [this, ok_bind]
  have h : min ((w ++ 0 :: rest).length + 1) w.length = w.length := by simp; omega
  rw [h]; simp

theorem tablePred_eq (d : List Byte) : tablePred d = fun c => decide (c ∈ d) := by
  funext c
  unfold tablePred
  rw [C79_multiple_char_predicate]

/-- C131: `split` with a zero-terminated string of any length as its delimiters splits at the characters of the string. -/
theorem C131_split (opt : Opt) (w rest s : List Byte) (hw : 0 ∉ w) : splitC opt (w ++ 0 :: rest) s = split opt (fun c => decide (c ∈ w)) s := by
  unfold splitC
  rw [strnlength_spec w rest hw, ok_bind]
  by_cases h1 : w.length = 1
  · obtain ⟨d, rfl⟩ := List.length_eq_one_iff.mp h1
    have hd : deref ([d] ++ 0 :: rest) 0 = ok d := rfl
    rw [if_pos (by simp), hd, ok_bind]
    congr 1
    funext c
    rw [C79_single_predicate]; simp
  · rw [if_neg (by omega), stdString_spec w rest hw, ok_bind, tablePred_eq]

/-- C131: the same for `split_n`. -/
theorem C131_split_n (opt : Opt) (w rest s : List Byte) (hw : 0 ∉ w) (n : Nat) :
    splitNC opt (w ++ 0 :: rest) s n = splitN opt (fun c => decide (c ∈ w)) s n := by
  unfold splitNC
  rw [stdString_spec w rest hw, ok_bind, tablePred_eq]

theorem removalPred_spec (w rest : List Byte) (hw : 0 ∉ w) : removalPred (w ++ 0 :: rest) = ok fun c => decide (c ∈ w.take 256) := by
  unfold removalPred
  rw [strnlength_spec w rest hw, ok_bind, tablePred_eq]
  congr 1
  funext c
  have : (w ++ 0 :: rest).take (min 256 w.length) = w.take 256 := by
    rw [List.take_append_of_le_length (by omega)]
    by_cases h : 256 ≤ w.length
    · rw [Nat.min_eq_left h]
    · rw [Nat.min_eq_right (by omega), List.take_length, List.take_of_length_le (by omega)]
  rw [this]

/-- C131: the removing functions take the characters of a zero-terminated string of up to 256 characters.  Missing: longer strings, `C131_cut_off`. -/
theorem C131_remove_partial (w rest s : List Byte) (hw : 0 ∉ w) (hl : w.length ≤ 256) :
    removeLeadingC (w ++ 0 :: rest) s = ok (s.dropWhile fun c => decide (c ∈ w)) ∧
    removeTrailingC (w ++ 0 :: rest) s = Strings.removeTrailing (fun c => decide (c ∈ w)) s ∧
    removeConsecutivesC (w ++ 0 :: rest) s = Strings.removeConsecutivesPred (fun c => decide (c ∈ w)) s := by
  have h := removalPred_spec w rest hw
  rw [List.take_of_length_le hl] at h
  refine ⟨?_, ?_, ?_⟩
  · unfold removeLeadingC
    split
    · rename_i e; subst e; rfl
    · rw [h, ok_bind, Strings.C12_remove_leading]
  · unfold removeTrailingC
    rw [h, ok_bind]
  · unfold removeConsecutivesC
    split
    · rename_i e; subst e; rfl
    · rw [h, ok_bind]

/-- C131 (negative result): from the 257th character on the string is ignored. -/
theorem C131_cut_off (w v rest : List Byte) (c : Byte) (t : List Byte) (hw : 0 ∉ w ++ c :: v) (hl : w.length = 256) (hc : c ∉ w) :
    removeLeadingC (w ++ c :: v ++ 0 :: rest) (c :: t) = ok (c :: t) := by
  unfold removeLeadingC
  rw [if_neg (by simp), removalPred_spec _ rest hw, ok_bind, Strings.C12_remove_leading, List.take_left' hl]
  simp [hc]

-- the delimiters ",;" and a delimiter string of one character
example : splitC {} [44, 59, 0] [97, 44, 98, 59] = split {} (fun c => decide (c ∈ [(44 : Byte), 59])) [97, 44, 98, 59] ∧
    splitC {} [44, 0, 59] [97, 44, 98, 59] = split {} (fun c => decide (c ∈ [(44 : Byte)])) [97, 44, 98, 59] ∧
    splitC {} [44, 59] [97] = ub := by decide +kernel
example : (0 : Byte) ∉ List.replicate 256 (97 : Byte) ++ 98 :: [] ∧ (98 : Byte) ∉ List.replicate 256 (97 : Byte) := by
  decide +kernel

end Strtk.Parse
