import Verif.Programs.WordFreq
import Verif.Programs.Numstats
import Verif.Guards.Props
import Verif.Parse.CString

/-!
# The text parser programs strtk_text_parser_example01.cpp and strtk_text_parser_example02.cpp

The program's file is `none` if it cannot be opened.  Line numbers refer to the program named.
-/

namespace Strtk.Programs
open Outcome Strtk.Codec Strtk.Split Strtk.Lines Strtk.Find
open Strtk.Guards hiding Byte

/-- The delimiters (example 01: 63, example 02: 98). -/
def textDelims : List Byte := [32, 44, 46, 59, 58, 60, 62, 39, 91, 93, 123, 125, 40, 41, 95, 63, 47, 92, 39, 96, 126, 33, 64, 35, 36, 37, 94, 38, 42, 124, 45, 95, 34, 61, 43, 9, 13, 10, 48, 49, 50, 51, 52, 53, 54, 55, 56, 57]

/-- `parse_line::operator()(s)` of example 01 (44-50): the tokens are appended to the list; the conversion to `std::string` (2643) succeeds for every token. -/
def parseLine01 (list : List (List Byte)) (s : List Byte) : Outcome (List (List Byte)) := do
  let (r, _) ← split { compress := true } (Parse.tablePred textDelims) s
  ok (list ++ r.map (textOf s))

/-- `parse_text` (example 01: 61-67, example 02: 96-104) with `for_each_line` on a file name (strtk.hpp 150-159): nothing happens if the file cannot be opened. -/
def parseText (line : List (List Byte) → List Byte → Outcome (List (List Byte))) : Option (List UInt8) → Outcome (List (List Byte))
  | none => ok []
  | some text => do
    let (_, list, _) ← forEachLine (fun list l => do
      let list ← list
      line list (l.map UInt8.toBitVec)) text (ok [])
    list

/-- "Token Count: ". -/
def countHead : List UInt8 := [84, 111, 107, 101, 110, 32, 67, 111, 117, 110, 116, 58, 32]

/-- `main` (example 01: 69-76): the output. -/
def textParser01 (file : Option (List UInt8)) : Outcome (List UInt8) := do
  let list ← parseText parseLine01 file
  ok (countHead ++ natText list.length ++ [10])

/-- `not_of_interest_list` of example 02 (36-39). -/
def notOfInterest : List (List Byte) := [
  [97, 115],
  [97, 116],
  [98, 117, 116],
  [98, 121],
  [102, 111, 114],
  [105, 110],
  [108, 105, 107, 101],
  [110, 101, 120, 116],
  [111, 102],
  [111, 110],
  [111, 112, 112, 111, 115, 105, 116, 101],
  [111, 117, 116],
  [112, 97, 115, 116],
  [116, 111],
  [117, 112],
  [118, 105, 97],
  []]

/-- The call of the filter with a token (strtk.hpp 7722-7746): what passes is appended to the list. -/
def offer (s : List Byte) (list : Outcome (List (List Byte))) (r : Nat × Nat) : Outcome (List (List Byte)) := do
  let list ← list
  let out ← filterOnMatchRange true false s r.1 r.2 notOfInterest
  ok (list ++ out.map (textOf s))

/-- `parse_line::operator()(s)` of example 02 (82-86): `for_each_token` with a compressing tokenizer (57) and the filter (58-62). -/
def parseLine02 (list : List (List Byte)) (s : List Byte) : Outcome (List (List Byte)) := do
  let r ← tokenizerTokens { compress := true } (Parse.tablePred textDelims) s
  (forEachToken (offer s) r (ok list) 0).2

/-- `main` of example 02 (111-118): the output. -/
def textParser02 (file : Option (List UInt8)) : Outcome (List UInt8) := do
  let list ← parseText parseLine02 file
  ok (countHead ++ natText list.length ++ [10])

/-! ## Specification -/

/-- A character that ends a word: a printable ASCII character that is no letter, a tabulator, a carriage return or a newline. -/
def Ends (c : Byte) : Prop := (32 ≤ c.toNat ∧ c.toNat ≤ 126 ∧ ¬ Letter c) ∨ c.toNat = 9 ∨ c.toNat = 10 ∨ c.toNat = 13

instance (c : Byte) : Decidable (Ends c) := by unfold Ends; infer_instance

/-- The words of a text. -/
def tokensOf (text : List UInt8) : List (List Byte) := ((text.map UInt8.toBitVec).splitOnP fun c => decide (Ends c)).filter fun w => !w.isEmpty

/-- The ends of a line at which a delimiter stands. -/
def bareEnds (line : List UInt8) : Nat :=
  (match line.head? with | some c => if Ends c.toBitVec then 1 else 0 | none => 0) + (match line.getLast? with | some c => if Ends c.toBitVec then 1 else 0 | none => 0)

/-- A word of the list, in whatever case. -/
def Dull (w : List Byte) : Prop := ∃ s ∈ ["as", "at", "but", "by", "for", "in", "like", "next", "of", "on", "opposite", "out", "past", "to", "up", "via"],
  w.map asciiUpper = (s.toList.map fun c => BitVec.ofNat 8 c.toNat).map asciiUpper

instance (w : List Byte) : Decidable (Dull w) := by unfold Dull; infer_instance

/-! ## Proofs -/

theorem ends_delims (c : Byte) : decide (c ∈ textDelims) = decide (Ends c) := by
  have : ∀ c : Byte, decide (c ∈ textDelims) = decide (Ends c) := by decide +kernel
  exact this c

theorem tablePred_ends : Parse.tablePred textDelims = fun c => decide (Ends c) := by
  rw [Parse.tablePred_eq]
  funext c
  exact ends_delims c

/-- The tokens of a line. -/
def lineTokens (s : List Byte) : List (List Byte) := if s = [] then [] else (collapseRuns (fun c => decide (Ends c)) s).splitOnP fun c => decide (Ends c)

theorem parseLine01_eq (list : List (List Byte)) (s : List Byte) : parseLine01 list s = ok (list ++ lineTokens s) := by
  unfold parseLine01 lineTokens
  rw [tablePred_ends]
  by_cases hs : s = []
  · subst hs
    simp [split]
  · obtain ⟨r, h1, h2⟩ := C02_split_compress (fun c : Byte => decide (Ends c)) s hs
    rw [h1, ok_bind, if_neg hs]
    simp only [h2]

theorem parseText_eq (line : List (List Byte) → List Byte → Outcome (List (List Byte))) (toks : List Byte → List (List Byte)) (text : List UInt8)
    (h : ∀ l ∈ linesOf text, ∀ list, line list (l.map UInt8.toBitVec) = ok (list ++ toks (l.map UInt8.toBitVec))) :
    parseText line (some text) = ok ((linesOf text).map fun l => toks (l.map UInt8.toBitVec)).flatten := by
  unfold parseText
  simp only
  rw [C68_all_lines, ok_bind]
  have : ∀ (ls : List (List UInt8)), (∀ l ∈ ls, ∀ list, line list (l.map UInt8.toBitVec) = ok (list ++ toks (l.map UInt8.toBitVec))) → ∀ list,
      ls.foldl (fun (list : Outcome (List (List Byte))) l => do
      let list ← list
      line list (l.map UInt8.toBitVec)) (ok list) = ok (list ++ (ls.map fun l => toks (l.map UInt8.toBitVec)).flatten) := by
    intro ls
    induction ls with
    | nil => intro _ list; simp
    | cons l ls ih =>
      intro hl list
      rw [List.foldl_cons, ok_bind, hl l (by simp), ih (fun x hx => hl x (by simp [hx]))]
      simp
  rw [this _ h]
  simp

theorem lineTokens_words (s : List Byte) : (lineTokens s).filter (fun w => !w.isEmpty) = (s.splitOnP fun c => decide (Ends c)).filter fun w => !w.isEmpty := by
  unfold lineTokens
  by_cases hs : s = []
  · subst hs; simp
  · rw [if_neg hs, Grid.lines_collapse]
    rfl

theorem words_lines (n : Nat) : ∀ text : List UInt8, text.length ≤ n →
    ((linesOf text).map fun l => ((l.map UInt8.toBitVec).splitOnP fun c => decide (Ends c)).filter fun w => !w.isEmpty).flatten = tokensOf text := by
  induction n with
  | zero =>
    intro text h
    have : text = [] := List.length_eq_zero_iff.mp (by omega)
    subst this
    rw [linesOf_nil]; simp [tokensOf]
  | succ n ih =>
    intro text h
    rcases getline_spec text with ⟨rfl, _⟩ | ⟨line, rest, _, h2, h3, _, h5⟩
    · rw [linesOf_nil]; simp [tokensOf]
    · rw [h2, List.map_cons, List.flatten_cons, ih rest (by omega)]
      rcases h5 with rfl | ⟨rfl, rfl, _⟩
      · unfold tokensOf
        rw [List.map_append, List.map_cons, List.splitOnP_append_cons _ _ (by decide), List.filter_append]
      · simp [tokensOf]

/-- Empty tokens of a line stand at its ends. -/
theorem count_empty (s : List Byte) (d : Byte → Bool) (hs : s ≠ []) : ∃ h t, (collapseRuns d s).splitOnP d = h :: t ∧
    (h = [] ↔ ∃ c, s.head? = some c ∧ d c = true) ∧
    ((h :: t).filter fun w => w.isEmpty).length = (if s.head?.any d then 1 else 0) + (if s.getLast?.any d then 1 else 0) := by
  fun_induction collapseRuns d s with
  | case1 => exact absurd rfl hs
  | case2 a =>
    cases hd : d a
    · exact ⟨[a], [], by simp [Grid.splitOnP_cons', hd], by simp [hd], by simp [hd]⟩
    · exact ⟨[], [[]], by simp [Grid.splitOnP_cons', hd], by simp [hd], by simp [hd]⟩
  | case3 a b t hab ih =>
    obtain ⟨h, l, h1, h2, h3⟩ := ih (by simp)
    simp only [Bool.and_eq_true] at hab
    refine ⟨h, l, h1, ?_, ?_⟩
    · rw [h2]; simp [hab.1, hab.2]
    · rw [h3]; simp [hab.1, hab.2]
  | case4 a b t hab ih =>
    obtain ⟨h, l, h1, h2, h3⟩ := ih (by simp)
    cases hd : d a
    · refine ⟨a :: h, l, by rw [Grid.splitOnP_cons', hd, h1]; rfl, by simp [hd], ?_⟩
      have e : (b :: t).getLast? = (a :: b :: t).getLast? := by simp
      rw [e] at h3
      cases hb : d b
      · have hne : h ≠ [] := fun e => by
          obtain ⟨c, hc, hc'⟩ := h2.mp e
          simp only [List.head?_cons, Option.some.injEq] at hc
          subst hc
          rw [hb] at hc'
          cases hc'
        have : h.isEmpty = false := by simp [hne]
        simp only [List.filter_cons, this, List.head?_cons, Option.any_some, hb] at h3
        simpa [hd] using h3
      · have hne : h = [] := h2.mpr ⟨b, rfl, hb⟩
        subst hne
        simp only [List.filter_cons, List.isEmpty_nil, if_true, List.length_cons, List.head?_cons, Option.any_some, hb] at h3
        simp only [List.filter_cons, List.isEmpty_cons, List.head?_cons, Option.any_some, hd]
        simp only [Bool.false_eq_true, if_false]
        omega
    · have hb : d b = false := by
        cases hb : d b
        · rfl
        · simp [hd, hb] at hab
      refine ⟨[], h :: l, by rw [Grid.splitOnP_cons', hd, h1]; rfl, by simp [hd], ?_⟩
      have e : (b :: t).getLast? = (a :: b :: t).getLast? := by simp
      rw [e] at h3
      rw [List.filter_cons, List.isEmpty_nil, if_pos rfl, List.length_cons, h3]
      simp only [List.head?_cons, Option.any_some, hd, hb, Bool.false_eq_true, if_false, if_true]
      omega

theorem lineTokens_empty (l : List UInt8) : ((lineTokens (l.map UInt8.toBitVec)).filter fun w => w.isEmpty).length = bareEnds l := by
  unfold lineTokens bareEnds
  by_cases hs : l.map UInt8.toBitVec = []
  · rw [if_pos hs]
    have : l = [] := by simpa using hs
    subst this
    rfl
  · rw [if_neg hs]
    obtain ⟨h, t, h1, _, h3⟩ := count_empty (l.map UInt8.toBitVec) (fun c => decide (Ends c)) hs
    rw [h1, h3]
    rw [List.head?_map, List.getLast?_map]
    congr 1
    · cases l.head? <;> simp
    · cases l.getLast? <;> simp

theorem countText (n : Nat) : countHead ++ natText n ++ [10] = bytesOf s!"Token Count: {n}\n" := by
  have hn : (toString n).toList = Nat.toDigits 10 n := by simp [toString, Nat.repr]
  simp only [natText, bytesOf, String.toList_append, List.map_append, hn]
  congr 1

/-- **C141** (what holds): the list is made of the words of the file, in order, and of empty tokens: one for every end of a line at which a delimiter stands.
Missing: that there are no empty tokens; the program counts them. -/
theorem C141_words_partial (text : List UInt8) : ∃ list, parseText parseLine01 (some text) = ok list ∧ list.filter (fun w => !w.isEmpty) = tokensOf text ∧
    (list.filter fun w => w.isEmpty).length = ((linesOf text).map bareEnds).sum ∧
    textParser01 (some text) = ok (bytesOf s!"Token Count: {(tokensOf text).length + ((linesOf text).map bareEnds).sum}\n") := by
  have h := parseText_eq parseLine01 lineTokens text (fun l _ list => parseLine01_eq list _)
  have h1 : ((linesOf text).map fun l => lineTokens (l.map UInt8.toBitVec)).flatten.filter (fun w => !w.isEmpty) = tokensOf text := by
    rw [List.filter_flatten, List.map_map, ← words_lines text.length text (by omega)]
    congr 1
    exact List.map_congr_left fun l _ => lineTokens_words _
  have h2 : (((linesOf text).map fun l => lineTokens (l.map UInt8.toBitVec)).flatten.filter fun w => w.isEmpty).length = ((linesOf text).map bareEnds).sum := by
    rw [List.filter_flatten, List.map_map, List.length_flatten, List.map_map]
    congr 1
    exact List.map_congr_left fun l _ => lineTokens_empty l
  refine ⟨_, h, h1, h2, ?_⟩
  unfold textParser01
  rw [h, ok_bind]
  have hlen : ∀ ls : List (List Byte), ls.length = (ls.filter fun w => !w.isEmpty).length + (ls.filter fun w => w.isEmpty).length := by
    intro ls
    induction ls with
    | nil => rfl
    | cons w ls ih => cases w <;> simp [ih] <;> omega
  rw [hlen, h1, h2]
  exact congrArg ok (countText _)

/-- A file that cannot be read gives the count zero. -/
theorem C141_no_file : textParser01 none = ok (bytesOf "Token Count: 0\n") ∧ textParser02 none = ok (bytesOf "Token Count: 0\n") := by decide +kernel

/-- "one, two." has two words; the program counts three. -/
example : tokensOf [111, 110, 101, 44, 32, 116, 119, 111, 46] = [[111, 110, 101], [116, 119, 111]] ∧
    textParser01 (some [111, 110, 101, 44, 32, 116, 119, 111, 46]) = ok (bytesOf "Token Count: 3\n") := by decide +kernel

/-! ### Example 02 -/

theorem notOfInterest_eq : notOfInterest =
    (["as", "at", "but", "by", "for", "in", "like", "next", "of", "on", "opposite", "out", "past", "to", "up", "via"].map
      fun s => s.toList.map fun c => BitVec.ofNat 8 c.toNat) ++ [[]] := by decide +kernel

theorem dull_iff (w : List Byte) : (∃ s ∈ notOfInterest, s.map asciiUpper = w.map asciiUpper) ↔ Dull w ∨ w = [] := by
  rw [notOfInterest_eq]
  constructor
  · rintro ⟨s, hs, e⟩
    rcases List.mem_append.mp hs with h | h
    · obtain ⟨t, ht, rfl⟩ := List.mem_map.mp h
      exact Or.inl ⟨t, ht, e.symm⟩
    · rw [List.mem_singleton] at h
      subst h
      right
      simpa using e.symm
  · rintro (⟨t, ht, e⟩ | rfl)
    · exact ⟨_, List.mem_append_left _ (List.mem_map.mpr ⟨t, ht, rfl⟩), e.symm⟩
    · exact ⟨[], List.mem_append_right _ (by simp), rfl⟩

theorem notOfInterest_ascii : ∀ s ∈ notOfInterest, ∀ c ∈ s, c.toNat < 128 := by decide +kernel

theorem textOf_split (s : List Byte) (r : Nat × Nat) (h1 : r.1 ≤ r.2) (h2 : r.2 ≤ s.length) :
    s = s.take r.1 ++ textOf s r ++ s.drop r.2 ∧ (s.take r.1).length = r.1 ∧ (s.take r.1).length + (textOf s r).length = r.2 := by
  refine ⟨?_, by simp; omega, by simp [textOf]; omega⟩
  unfold textOf
  conv => lhs; rw [← List.take_append_drop r.1 s, ← List.take_append_drop (r.2 - r.1) (s.drop r.1), List.drop_drop]
  rw [List.append_assoc, Nat.add_sub_of_le h1]

theorem offer_eq (s : List Byte) (hs : ∀ c ∈ s, c.toNat < 128) (list : List (List Byte)) (r : Nat × Nat) (h1 : r.1 ≤ r.2) (h2 : r.2 ≤ s.length) :
    offer s (ok list) r = ok (list ++ if Dull (textOf s r) ∨ textOf s r = [] then [] else [textOf s r]) := by
  obtain ⟨e, l1, l2⟩ := textOf_split s r h1 h2
  unfold offer
  rw [ok_bind]
  have := C94_ranges_icase false (s.take r.1) (textOf s r) (s.drop r.2) notOfInterest
    (fun c hc => hs c (by rw [e]; simp [hc])) notOfInterest_ascii
  rw [← e, l2, l1] at this
  rw [this, ok_bind]
  by_cases hd : Dull (textOf s r) ∨ textOf s r = []
  · have : decide (∃ x ∈ notOfInterest, x.map asciiUpper = (textOf s r).map asciiUpper) = true := decide_eq_true ((dull_iff _).mpr hd)
    rw [this, if_pos hd]
    simp
  · have : decide (∃ x ∈ notOfInterest, x.map asciiUpper = (textOf s r).map asciiUpper) = false := decide_eq_false fun h => hd ((dull_iff _).mp h)
    rw [this, if_neg hd]
    simp

theorem parseLine02_eq (list : List (List Byte)) (s : List Byte) (hs : ∀ c ∈ s, c.toNat < 128) :
    parseLine02 list s = ok (list ++ ((s.splitOnP fun c => decide (Ends c)).filter fun w => !w.isEmpty).filter fun w => !decide (Dull w)) := by
  unfold parseLine02
  rw [tablePred_ends]
  obtain ⟨r, h1, h2⟩ := C05_tokenizer_eq_split true (fun c : Byte => decide (Ends c)) s
  obtain ⟨r', h3, h4, _⟩ := C03_split_in_bounds { compress := true } (fun c : Byte => decide (Ends c)) s
  have hr : r = r' := by rw [h2] at h3; simp at h3; exact h3.1
  subst hr
  rw [h1, ok_bind, C68_tokens]
  have key : ∀ (r : List (Nat × Nat)), (∀ p ∈ r, p.1 ≤ p.2 ∧ p.2 ≤ s.length) → ∀ list,
      r.foldl (offer s) (ok list) = ok (list ++ ((r.map (textOf s)).filter fun w => !w.isEmpty).filter fun w => !decide (Dull w)) := by
    intro r
    induction r with
    | nil => intro _ list; simp
    | cons p r ih =>
      intro hr list
      rw [List.foldl_cons, offer_eq s hs list p (hr p (by simp)).1 (hr p (by simp)).2, ih (fun q hq => hr q (by simp [hq]))]
      by_cases he : textOf s p = []
      · simp [he]
      · by_cases hd : Dull (textOf s p) <;> simp [he, hd]
  simp only [key r h4]
  by_cases hn : s = []
  · subst hn
    simp [split] at h2
    simp [h2]
  · obtain ⟨r2, h5, h6⟩ := C02_split_compress (fun c : Byte => decide (Ends c)) s hn
    have : r = r2 := by rw [h2] at h5; simp at h5; exact h5.1
    subst this
    rw [h6, Grid.lines_collapse]
    rfl

theorem mem_lines (n : Nat) : ∀ text : List UInt8, text.length ≤ n → ∀ l ∈ linesOf text, ∀ c ∈ l, c ∈ text := by
  induction n with
  | zero =>
    intro text h
    have : text = [] := List.length_eq_zero_iff.mp (by omega)
    subst this
    rw [linesOf_nil]; simp
  | succ n ih =>
    intro text h
    rcases getline_spec text with ⟨rfl, _⟩ | ⟨line, rest, _, h2, h3, _, h5⟩
    · rw [linesOf_nil]; simp
    · rw [h2]
      intro l hl c hc
      rcases List.mem_cons.mp hl with rfl | hl
      · rcases h5 with rfl | ⟨rfl, _⟩ <;> simp [hc]
      · have := ih rest (by omega) l hl c hc
        rcases h5 with rfl | ⟨_, rfl, _⟩
        · simp [this]
        · simp at this

/-- **C142** (texts of 7-bit characters): the list is made of the words of the file that are not in the list of uninteresting words in whatever case, in order, and
the program prints their number.  Missing: texts with bytes from 128 on, next theorem. -/
theorem C142_words_partial (text : List UInt8) (h : ∀ c ∈ text, c < 128) :
    parseText parseLine02 (some text) = ok ((tokensOf text).filter fun w => !decide (Dull w)) ∧
    textParser02 (some text) = ok (bytesOf s!"Token Count: {((tokensOf text).filter fun w => !decide (Dull w)).length}\n") := by
  have h1 := parseText_eq parseLine02 (fun s => ((s.splitOnP fun c => decide (Ends c)).filter fun w => !w.isEmpty).filter fun w => !decide (Dull w)) text
    (fun l hl list => parseLine02_eq list _ (by
      intro c hc
      obtain ⟨b, hb, rfl⟩ := List.mem_map.mp hc
      have := h b (mem_lines text.length text (by omega) l hl b hb)
      exact UInt8.lt_iff_toNat_lt.mp this))
  have h2 : parseText parseLine02 (some text) = ok ((tokensOf text).filter fun w => !decide (Dull w)) := by
    rw [h1, ← words_lines text.length text (by omega), List.filter_flatten, List.map_map]
    rfl
  refine ⟨h2, ?_⟩
  unfold textParser02
  rw [h2, ok_bind]
  exact congrArg ok (countText _)

/-- "Out of the box": the word left is "the", "box"; the empty token at the end is dropped, too. -/
example : textParser02 (some [79, 117, 116, 32, 111, 102, 32, 116, 104, 101, 32, 98, 111, 120, 33]) = ok (bytesOf "Token Count: 2\n") := by decide +kernel

theorem imatch_high (a b : Byte) (ha : 128 ≤ a.toNat ∧ a.toNat < 255) : imatch [97, 115] [a, b] = ub := by
  have h1 : toUpper 97#8 = ok 65 := by decide
  have h2 : toUpper a = ub := by
    have : ∀ a : Byte, 128 ≤ a.toNat ∧ a.toNat < 255 → toUpper a = ub := by decide +kernel
    exact this a ha
  simp [imatch, imatchLoop, deref, imatchChar, h1, h2, ok_bind]

theorem first_piece (a b : Byte) (d : Byte → Bool) (r : List Byte) (ha : d a = false) (hb : d b = false) (hr : ∀ c t, r = c :: t → d c = true) :
    ∃ t, (collapseRuns d (a :: b :: r)).splitOnP d = [a, b] :: t := by
  obtain ⟨h, l1, l2, h1, h2, _⟩ := Grid.collapse_heads d (a :: b :: r)
  rw [Grid.splitOnP_cons', ha, Grid.splitOnP_cons', hb] at h2
  refine ⟨l1, ?_⟩
  rw [h1]
  congr 1
  cases r with
  | nil => simp at h2; exact h2.1.symm
  | cons c t =>
    rw [Grid.splitOnP_cons', if_pos (hr c t rfl)] at h2
    simp at h2
    exact h2.1.symm

theorem foldl_ub {α β : Type} (f : Outcome α → β → Outcome α) (hf : ∀ x, f ub x = ub) (l : List β) : l.foldl f ub = ub := by
  induction l with
  | nil => rfl
  | cons x l ih => rw [List.foldl_cons, hf, ih]

theorem parseLine02_high (a b : Byte) (r : List Byte) (ha : 128 ≤ a.toNat ∧ a.toNat < 255) (hb : ¬ Ends b) (hr : ∀ c t, r = c :: t → Ends c)
    (list : List (List Byte)) : parseLine02 list (a :: b :: r) = ub := by
  have hna : ¬ Ends a := by unfold Ends Letter; omega
  obtain ⟨tl, hp⟩ := first_piece a b (fun c => decide (Ends c)) r (by simpa using hna) (by simpa using hb) (fun c t h => by simpa using hr c t h)
  unfold parseLine02
  rw [tablePred_ends]
  generalize hs : a :: b :: r = s at *
  have hn : s ≠ [] := by rw [← hs]; simp
  obtain ⟨q, h1, h2⟩ := C05_tokenizer_eq_split true (fun c : Byte => decide (Ends c)) s
  obtain ⟨r', h3, h4, _⟩ := C03_split_in_bounds { compress := true } (fun c : Byte => decide (Ends c)) s
  obtain ⟨r2, h5, h6⟩ := C02_split_compress (fun c : Byte => decide (Ends c)) s hn
  have hr1 : q = r' := by rw [h2] at h3; simp at h3; exact h3.1
  have hr2 : q = r2 := by rw [h2] at h5; simp at h5; exact h5.1
  subst hr1
  subst hr2
  rw [hp] at h6
  cases q with
  | nil => simp at h6
  | cons p q =>
    rw [List.map_cons] at h6
    have ht : textOf s p = [a, b] := (List.cons.inj h6).1
    rw [h1, ok_bind, C68_tokens, List.foldl_cons]
    obtain ⟨e, l1, l2⟩ := textOf_split s p (h4 p (by simp)).1 (h4 p (by simp)).2
    have hsl : Mem.slice s p.1 (p.2 - p.1) = ok [a, b] := by
      have := Mem.slice_append (s.take p.1) (textOf s p) (s.drop p.2)
      rw [← e, l1] at this
      rw [← ht, ← this]
      congr 1
      omega
    have ho : offer s (ok list) p = ub := by
      unfold offer notOfInterest filterOnMatchRange filterHit
      rw [ok_bind, hsl, ok_bind]
      simp only [if_true]
      rw [imatch_high a b ha]
      rfl
    rw [ho]
    exact foldl_ub _ (fun x => rfl) q

/-- **C142** is false of other texts: a word of two characters that begins with a byte from 128 to 254 (every two-byte character in UTF-8) is handed to
`std::toupper` as a negative number. -/
theorem C142_high_byte (a b : UInt8) (rest : List UInt8) (ha : 128 ≤ a ∧ a < 255) (hb : ¬ Ends b.toBitVec)
    (hr : ∀ c t, rest = c :: t → Ends c.toBitVec) : textParser02 (some (a :: b :: rest)) = ub := by
  have hn : (10 : UInt8) ≠ a ∧ (10 : UInt8) ≠ b := by
    constructor
    · rintro rfl; revert ha; decide
    · rintro rfl; exact hb (by decide)
  have hl : ∃ r ls, linesOf (a :: b :: rest) = (a :: b :: r) :: ls ∧ ∀ c t, r = c :: t → Ends c.toBitVec := by
    rcases getline_spec (a :: b :: rest) with ⟨h, _⟩ | ⟨line, more, _, h2, _, _, h5⟩
    · cases h
    · refine ⟨line.drop 2, linesOf more, ?_, ?_⟩
      · rw [h2]
        rcases h5 with h | ⟨h, _⟩
        · cases line with
          | nil => simp at h; exact absurd h.1.symm hn.1
          | cons x line => cases line with
            | nil => simp at h; exact absurd h.2.1.symm hn.2
            | cons y line => simp at h; simp [h.1, h.2.1]
        · rw [← h]; rfl
      · intro c t hc
        rcases h5 with h | ⟨h, _⟩
        · cases line with
          | nil => simp at hc
          | cons x line => cases line with
            | nil => simp at hc
            | cons y line =>
              simp at h hc
              exact hr c (t ++ 10 :: more) (by rw [h.2.2, hc]; rfl)
        · rw [← h] at hc
          exact hr c t hc
  obtain ⟨r, ls, h1, h2⟩ := hl
  have hp : parseText parseLine02 (some (a :: b :: rest)) = ub := by
    unfold parseText
    simp only
    rw [C68_all_lines, ok_bind, h1, List.foldl_cons, ok_bind, List.map_cons, List.map_cons,
      parseLine02_high a.toBitVec b.toBitVec (r.map UInt8.toBitVec) ⟨UInt8.le_iff_toNat_le.mp ha.1, UInt8.lt_iff_toNat_lt.mp ha.2⟩ hb (by
        intro c t h
        cases r with
        | nil => simp at h
        | cons x r => simp at h; rw [← h.1]; exact h2 x r rfl)]
    exact foldl_ub _ (fun x => rfl) ls
  unfold textParser02
  rw [hp]
  rfl

/-- The text "é" in UTF-8. -/
example : textParser02 (some [0xC3, 0xA9]) = ub := C142_high_byte 0xC3 0xA9 [] (by decide) (by decide) (by simp)

end Strtk.Programs
