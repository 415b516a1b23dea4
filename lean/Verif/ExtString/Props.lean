import Verif.ExtString.Model
import Verif.Strings.Props
import Verif.Codec.Props
import Verif.Join.Props
import Verif.Parse.Props

/-! # Theorems about ext_string (C104) -/

namespace Strtk.ExtString
open Outcome Strtk.Codec

/-! ## Specification -/

/-- ASCII letters to lower case. -/
def lowerOf (c : Byte) : Byte := if 65 ≤ c.toNat ∧ c.toNat ≤ 90 then c + 32 else c
/-- ASCII letters to upper case. -/
def upperOf (c : Byte) : Byte := if 97 ≤ c.toNat ∧ c.toNat ≤ 122 then c - 32 else c
/-- Leftmost non-overlapping occurrences replaced; the empty pattern changes nothing. -/
def substitute (p r s : List Byte) : List Byte := if h : p = [] then s else Strings.replaceAll p r h s

/-- What the text is after a call. -/
def expected (s : List Byte) : Call → List Byte
  | .append t => s ++ t
  | .minus p => substitute p [] s
  | .times n => (List.replicate (n + 1) s).flatten
  | .lower => s.map lowerOf
  | .upper => s.map upperOf
  | .leading set => s.dropWhile fun c => decide (c ∈ set)
  | .trailing set => (s.reverse.dropWhile fun c => decide (c ∈ set)).reverse
  | .replace p r => substitute p r s

/-- What a call relies on: patterns below 2 GB, results that fit into memory, and for `remove_trailing` a text that is not made of removable
characters only. -/
def Allowed (s : List Byte) : Call → Prop
  | .minus p => p.length < 2 ^ 31 ∧ s.length < 2 ^ 64
  | .replace p r => p.length < 2 ^ 31 ∧ r.length < 2 ^ 31 ∧ s.length < 2 ^ 64 ∧ (substitute p r s).length < 2 ^ 64
  | .trailing set => s = [] ∨ ∃ c ∈ s, c ∉ set
  | _ => True

/-- All calls of a history meet their conditions. -/
def AllAllowed (s : List Byte) : List Call → Prop
  | [] => True
  | c :: cs => Allowed s c ∧ AllAllowed (expected s c) cs

theorem replaceAll_nil_length (p : List Byte) (hp : p ≠ []) : ∀ (n : Nat) (s : List Byte), s.length ≤ n → (Strings.replaceAll p [] hp s).length ≤ s.length := by
  intro n
  induction n with
  | zero => intro s h; rw [List.length_eq_zero_iff.mp (by omega : s.length = 0), Strings.replaceAll]
  | succ n ih =>
    intro s h
    cases s with
    | nil => rw [Strings.replaceAll]
    | cons a t =>
      rw [Strings.replaceAll]
      have hp0 : 0 < p.length := List.length_pos_iff.mpr hp
      rw [List.length_cons] at h
      split
      · have := ih ((a :: t).drop p.length) (by rw [List.length_drop, List.length_cons]; omega)
        rw [List.length_drop, List.length_cons] at this
        rw [List.nil_append, List.length_cons]
        omega
      · have := ih t (by omega)
        rw [List.length_cons, List.length_cons]
        omega

theorem replace_spec (p r s : List Byte) (h : Allowed s (.replace p r)) : replace p r s = ok (substitute p r s) := by
  obtain ⟨h1, h2, h3, h4⟩ := h
  unfold replace substitute at *
  by_cases hp : p = []
  · subst hp; rw [dif_pos rfl, Strings.C13_empty_pattern]
  · rw [dif_neg hp] at h4 ⊢
    exact Strings.C13_replace_pattern s p r [] hp h1 h2 h3 h4

theorem minus_allowed {s p : List Byte} (h : Allowed s (.minus p)) : Allowed s (.replace p []) := by
  refine ⟨h.1, by simp, h.2, ?_⟩
  unfold substitute
  by_cases hp : p = []
  · rw [dif_pos hp]; exact h.2
  · rw [dif_neg hp]; exact Nat.lt_of_le_of_lt (replaceAll_nil_length p hp _ s (Nat.le_refl _)) h.2

theorem call_spec (s : List Byte) (c : Call) (h : Allowed s c) : call s c = ok (expected s c) := by
  cases c with
  | append t => rfl
  | minus p => exact replace_spec p [] s (minus_allowed h)
  | times n => rw [call, Join.C38_replicate_inplace]; rfl
  | lower => rw [call, C22_lowercase]; rfl
  | upper => rw [call, C22_uppercase]; rfl
  | leading set =>
    rw [call, removeLeading]
    by_cases hs : set = []
    · subst hs
      rw [if_pos rfl]
      cases s <;> simp [expected]
    · rw [if_neg hs, Parse.C79_delimiter_string, Strings.C12_remove_leading]; rfl
  | trailing set =>
    rw [call, removeTrailing]
    by_cases hs : set = []
    · subst hs
      rw [if_pos rfl]
      have : (s.reverse.dropWhile fun c => decide (c ∈ ([] : List Byte))) = s.reverse := by cases s.reverse <;> simp
      simp only [expected]
      rw [this, List.reverse_reverse]
    · rw [if_neg hs, Parse.C79_delimiter_string, Strings.C12_remove_trailing_partial]
      · rfl
      · rcases h with h | ⟨c, h1, h2⟩
        · exact Or.inl h
        · exact Or.inr ⟨c, h1, by simpa using h2⟩
  | replace p r => exact replace_spec p r s h

/-- **C104** (part): after every history of calls that meet their conditions the text is the one obtained by the described changes in order.
Missing: `remove_trailing` on a text of removable characters only (C12), and `*=` describes `n + 1` copies, see `C104_times_disagrees`. -/
theorem C104_history_partial (cs : List Call) : ∀ (s : List Byte), AllAllowed s cs → run s cs = ok (cs.foldl expected s) := by
  induction cs with
  | nil => intro s _; rfl
  | cons c cs ih =>
    intro s h
    rw [run, call_spec s c h.1, ok_bind, ih _ h.2, List.foldl_cons]

/-- Every history of appended texts builds their concatenation (also `build_string`). -/
theorem C104_build (ts : List (List Byte)) (s : List Byte) : run s (ts.map .append) = ok (s ++ ts.flatten) := by
  induction ts generalizing s with
  | nil => rw [List.map_nil, run, List.flatten_nil, List.append_nil]
  | cons t ts ih => rw [List.map_cons, run, call, ok_bind, ih, List.flatten_cons, List.append_assoc]

/-- The binary operators agree with the assigning ones for `+` and `-`. -/
theorem C104_operators (s t p : List Byte) : call s (.append t) = ok (plus s t) ∧ call s (.minus p) = sub s p ∧ plusLeft t s = t ++ s :=
  ⟨rfl, rfl, rfl⟩

/-- `s - p` contains the text without the occurrences of `p`; what follows the removal may form the pattern anew. -/
theorem C104_sub (s p : List Byte) (h1 : p.length < 2 ^ 31) (h2 : s.length < 2 ^ 64) : sub s p = ok (substitute p [] s) :=
  replace_spec p [] s (minus_allowed ⟨h1, h2⟩)

/-- `n * s` and `s * n` are `n` copies. -/
theorem C104_mult (n : Nat) (s : List Byte) : mult n s = (List.replicate n s).flatten := by
  rw [mult, Join.C38_replicate, List.nil_append]

/-- **C104** (negative result): `s *= n` is `s * (n + 1)`, so it differs from `s * n` for every text that is not empty and every `n`. -/
theorem C104_times_disagrees (n : Nat) (s : List Byte) (hs : s ≠ []) : call s (.times n) = ok (mult (n + 1) s) ∧ call s (.times n) ≠ ok (mult n s) := by
  have e : call s (.times n) = ok (mult (n + 1) s) := by rw [call_spec s (.times n) trivial, C104_mult]; rfl
  refine ⟨e, ?_⟩
  rw [e]
  intro h
  have h := congrArg List.length (ok.inj h)
  rw [C104_mult, C104_mult, List.replicate_succ, List.flatten_cons, List.length_append] at h
  have := List.length_pos_iff.mpr hs
  omega

/-- `all_chars` holds each of the 256 characters exactly once, in order. -/
theorem C104_all_chars : allChars = (List.range 256).map (BitVec.ofNat 8) := by decide +kernel

/-- Non-vacuity: " ab-" += "a", remove_leading(" "), *= 1, to upper case, remove_trailing("A"). -/
example : run [32, 97, 98, 45] [.append [97], .leading [32], .times 1, .upper, .trailing [65]] = ok [65, 66, 45, 65, 65, 66, 45] := by decide
example : AllAllowed [32, 97, 98, 45] [.append [97], .leading [32], .times 1, .minus [45, 97], .trailing [97]] := by
  refine ⟨trivial, trivial, trivial, ⟨by decide, by decide⟩, ?_, trivial⟩
  have : expected (expected (expected (expected [32, 97, 98, 45] (.append [97])) (.leading [32])) (.times 1)) (.minus [45, 97]) = [97, 98, 97, 98] := by
    simp [expected, substitute, Strings.replaceAll, List.replicate]
  right
  exact ⟨98, by rw [this]; decide, by decide⟩

end Strtk.ExtString
