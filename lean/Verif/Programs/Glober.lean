import Verif.Programs.Combinations
import Verif.Find.Greedy
import Verif.Lines.Props

/-!
# strtk_glober.cpp

Line numbers refer to strtk_glober.cpp.  The arguments are those behind the name of the program, the text is what is read from the standard input.  The
result is what `main` returns and what it writes; the text of the message without arguments is left out.
-/

namespace Strtk.Programs
open Outcome Strtk.Codec Strtk.Find

/-- `strtk::match(pattern, s)`: the wildcards are `*` and `?`. -/
def globMatch (p s : List Byte) : Outcome Bool := matchImpl (fun x y => decide (x = y)) 42 63 p s

/-- " matched ". -/
def matchedText : List Byte := [32, 109, 97, 116, 99, 104, 101, 100, 32]

/-- `line_glober::operator()` (86-95): the loop over the patterns, with what has been written so far. -/
def globLine (s : List Byte) : List (List Byte) → List Byte → Outcome (List Byte)
  | [], out => ok out
  | p :: ps, out => do
    let b ← globMatch p s
    globLine s ps (if b then out ++ (p ++ matchedText ++ s ++ [10]) else out)

/-- `main` (102-113) and the constructor of `line_glober` (79-84). -/
def globerMain (args : List (List Byte)) (text : List UInt8) : Outcome (Nat × List Byte) :=
  if args = [] then ok (1, [])
  else do
    let (_, l) ← Parse.parseArgvSeq stringConv true args.length (args.map some ++ [none]) []
    let (_, out, _) ← Lines.forEachLine (fun out line => do
      let out ← out
      globLine (line.map UInt8.toBitVec) (stdSort l) out) text (ok [])
    let out ← out
    ok (0, out)

/-! ## Specification -/

/-- An ordinary character of a pattern. -/
def Ordinary (c : Byte) : Prop := c ≠ 42 ∧ c ≠ 63

/-- A pattern and a line for which `match` is right (C15): ordinary characters, then possibly one wildcard; or ordinary characters `l`, a star, and
ordinary characters of which the first, `c`, occurs exactly once in the rest of a line beginning with `l`. -/
def Decided (p s : List Byte) : Prop :=
  (∃ l t, p = l ++ t ∧ (∀ c ∈ l, Ordinary c) ∧ (t = [] ∨ t = [42] ∨ t = [63])) ∨
  (∃ l c r, p = l ++ 42 :: c :: r ∧ (∀ x ∈ l ++ c :: r, Ordinary x) ∧ ∀ e, s = l ++ e → e ≠ [] → e.count c = 1)

/-- The pattern accepts the line. -/
def Accepts (p s : List Byte) : Prop := Glob (fun x y : Byte => decide (x = y)) 42 63 p s

open Classical in
/-- What the program is to write for a line. -/
noncomputable def linesFor (pats : List (List Byte)) (s : List Byte) : List Byte :=
  ((pats.filter fun p => decide (Accepts p s)).map fun p => p ++ matchedText ++ s ++ [10]).flatten

/-! ## Theorems -/

theorem globMatch_decided (p s : List Byte) (h : Decided p s) : ∃ b, globMatch p s = ok b ∧ (b = true ↔ Accepts p s) := by
  rcases h with ⟨l, t, rfl, hl, ht⟩ | ⟨l, c, r, rfl, hl, h1⟩
  · exact C15_match_exact_partial _ _ _ (by decide) l t s hl ht
  · exact C15_one_star_partial _ _ (by decide) l c r s hl h1

open Classical in
theorem globLine_spec (s : List Byte) : ∀ (ps : List (List Byte)) (out : List Byte), (∀ p ∈ ps, Decided p s) → globLine s ps out = ok (out ++ linesFor ps s) := by
  intro ps
  induction ps with
  | nil => intro out _; simp [globLine, linesFor]
  | cons p ps ih =>
    intro out h
    obtain ⟨b, hb, hg⟩ := globMatch_decided p s (h p (by simp))
    unfold globLine
    rw [hb, ok_bind, ih _ fun p hp => h p (by simp [hp])]
    congr 1
    unfold linesFor
    by_cases ha : Accepts p s
    · rw [if_pos (hg.mpr ha), List.filter_cons_of_pos (by simpa using ha)]
      simp [List.append_assoc]
    · have : b = false := by
        cases b with
        | true => exact absurd (hg.mp rfl) ha
        | false => rfl
      rw [this, List.filter_cons_of_neg (by simpa using ha)]
      simp

theorem globFold (ps : List (List Byte)) : ∀ (lines : List (List UInt8)) (out : List Byte), (∀ line ∈ lines, ∀ p ∈ ps, Decided p (line.map UInt8.toBitVec)) →
    lines.foldl (fun out line => do let out ← out; globLine (line.map UInt8.toBitVec) ps out) (ok out) =
      ok (out ++ (lines.map fun line => linesFor ps (line.map UInt8.toBitVec)).flatten) := by
  intro lines
  induction lines with
  | nil => intro out _; simp
  | cons line lines ih =>
    intro out h
    rw [List.foldl_cons, ok_bind, globLine_spec _ ps out (h line (by simp)), ih _ fun l hl => h l (by simp [hl])]
    simp [List.append_assoc]

/-- C133: for every line of the text in order and every pattern in sorted order, a line "pattern matched line" if and only if the pattern accepts the line.
Missing: patterns with more wildcards, and with one star if the character behind it occurs more than once or not at all in the line. -/
theorem C133_glober_partial (args : List (List Byte)) (text : List UInt8) (h0 : args ≠ [])
    (h : ∀ line ∈ Lines.linesOf text, ∀ p ∈ args, Decided p (line.map UInt8.toBitVec)) :
    ∃ sorted : List (List Byte), sorted.Perm args ∧ sorted.Pairwise (· ≤ ·) ∧
      globerMain args text = ok (0, ((Lines.linesOf text).map fun line => linesFor sorted (line.map UInt8.toBitVec)).flatten) := by
  refine ⟨stdSort args, stdSort_perm args, stdSort_le args, ?_⟩
  unfold globerMain
  rw [if_neg h0, parseStrings, ok_bind]
  simp only
  rw [Lines.C68_all_lines, ok_bind]
  simp only
  rw [globFold _ _ _ fun line hl p hp => h line hl p ((stdSort_perm args).subset hp)]
  rfl

/-- C133 (negative result): the documented use `ls | strtk_glober "*.hpp"` reads behind the end of any line that is not empty and has no point. -/
theorem C133_file_name_patterns (r : List Byte) (hr : ∀ c ∈ r, Ordinary c) (h0 : r ≠ []) (line : List UInt8) (hl : 10 ∉ line) (hne : line ≠ []) (hp : 46 ∉ line)
    (text : List UInt8) : globerMain [42 :: 46 :: r] (line ++ 10 :: text) = ub := by
  have hs : stdSort [42 :: 46 :: r] = [42 :: 46 :: r] := rfl
  have hub : globMatch (42 :: 46 :: r) (line.map UInt8.toBitVec) = ub := by
    have h := (C15_one_star (42 : Byte) 63 [] 46 r (by
      intro x hx
      rcases List.mem_cons.mp hx with rfl | hx
      · exact ⟨by decide, by decide⟩
      · exact hr x hx)).2 (line.map UInt8.toBitVec) (by
        intro hm
        obtain ⟨c, hc, e⟩ := List.mem_map.mp hm
        have : c = 46 := UInt8.toBitVec_inj.mp e
        exact hp (this ▸ hc)) (by simpa using hne)
    rw [if_neg h0] at h
    exact h
  have hfold : ∀ l : List (List UInt8), l.foldl (fun out line => do
      let out ← out
      globLine (line.map UInt8.toBitVec) [42 :: 46 :: r] out) (ub : Outcome (List Byte)) = ub := by
    intro l
    induction l with
    | nil => rfl
    | cons a l ih => exact ih
  unfold globerMain
  have := parseStrings [42 :: 46 :: r] [none]
  rw [if_neg (by simp), this, ok_bind]
  simp only
  rw [Lines.C68_all_lines, ok_bind, Lines.linesOf_line line text hl]
  simp only
  have hg : globLine (line.map UInt8.toBitVec) [42 :: 46 :: r] [] = ub := by
    simp only [globLine]
    rw [hub]; rfl
  rw [List.foldl_cons, ok_bind, hs, hg, hfold]
  rfl

-- glober "ab*" "*.c" on the lines "abc", "x.c"
example : globerMain [[42, 46, 99], [97, 98, 42]] [120, 46, 99, 10] = ok (0, [42, 46, 99] ++ matchedText ++ [120, 46, 99, 10]) := by decide +kernel
example : Decided [42, 46, 99] [120, 46, 99] := Or.inr ⟨[], 46, [99], rfl, by simp [Ordinary], by intro e h _; simp at h; subst h; decide⟩
example : ∀ c ∈ ([104, 112, 112] : List Byte), Ordinary c := by simp [Ordinary]

end Strtk.Programs
