import Verif.Parse.LineArgs
import Verif.Combi.ForEach
import Verif.Join.Props
import Verif.Number.Props

/-!
# strtk_combinations.cpp

Line numbers refer to strtk_combinations.cpp.  The arguments are those behind the name of the program.  The result is what `main` returns and what it writes;
the text of the messages of `usage` is left out.
-/

namespace Strtk.Programs
open Outcome Strtk.Codec Strtk.Combi

/-- One string put into its place among sorted strings. -/
def insertSorted (w : List Byte) : List (List Byte) → List (List Byte)
  | [] => [w]
  | b :: l => if b < w then b :: insertSorted w l else w :: b :: l

/-- `std::sort` of strings (C++ library): the sorted rearrangement (equal strings cannot be told apart). -/
def stdSort (l : List (List Byte)) : List (List Byte) := l.foldr insertSorted []

/-- `print` (53-57): the line written for one combination. -/
def printLine (c : List (List Byte)) : List Byte := Join.join id [9] [] c ++ [10]

/-- The converter to `std::string`: takes every text. -/
def stringConv (w : List Byte) : Outcome (Bool × List Byte) := ok (true, w)

/-- `main` (59-79); `argv` is followed by the null pointer. -/
def combinationsMain (args : List (List Byte)) : Outcome (Nat × List Byte) :=
  match args with
  | r :: x :: xs => do
    let (good, k) ← Number.parseUnsigned Number.ulong r 0
    if !good then ok (1, [])
    else if k = 0 then ok (0, [])
    else do
      let (_, l) ← Parse.parseArgvSeq stringConv true (xs.length + 1) (((x :: xs).map some) ++ [none]) []
      let l := stdSort l
      if k > l.length then ok (1, [])
      else do
        let (_, calls) ← forEachCombination l k
        ok (0, (calls.map printLine).flatten)
  | _ => ok (1, [])

/-! ## Theorems -/

theorem parts_lt {α : Type} [LT α] : ∀ (k : Nat) (s : List α), s.Pairwise (· < ·) → (parts k s).Pairwise (· < ·)
  | 0, _, _ => by simp [parts]
  | _ + 1, [], _ => by simp [parts]
  | k + 1, a :: t, h => by
    have h' := List.pairwise_cons.mp h
    rw [parts, List.pairwise_append]
    refine ⟨?_, parts_lt (k + 1) t h'.2, ?_⟩
    · rw [List.pairwise_map]
      exact (parts_lt k t h'.2).imp fun {x y} hxy => List.Lex.cons hxy
    · intro x hx y hy
      obtain ⟨x', _, rfl⟩ := List.mem_map.mp hx
      have hy' := (List.mem_sublistsLen.mp ((parts_perm (k + 1) t).subset hy))
      match y, hy' with
      | b :: y, hy' => exact List.Lex.rel (h'.1 b (hy'.1.subset (by simp)))

theorem word_trans {a b c : List Byte} (h1 : a < b) (h2 : b < c) : a < c := List.lt_trans h1 h2

theorem insertSorted_perm (w : List Byte) : ∀ l, (insertSorted w l).Perm (w :: l)
  | [] => List.Perm.refl _
  | b :: l => by
    unfold insertSorted
    split
    · exact ((insertSorted_perm w l).cons b).trans (List.Perm.swap w b l)
    · exact List.Perm.refl _

theorem stdSort_perm : ∀ l, (stdSort l).Perm l
  | [] => List.Perm.refl _
  | a :: l => (insertSorted_perm a (stdSort l)).trans ((stdSort_perm l).cons a)

theorem insertSorted_sorted (w : List Byte) : ∀ l, l.Pairwise (· ≤ ·) → (insertSorted w l).Pairwise (· ≤ ·)
  | [], _ => by simp [insertSorted]
  | b :: l, h => by
    have h' := List.pairwise_cons.mp h
    unfold insertSorted
    split
    · rename_i hbw
      refine List.pairwise_cons.mpr ⟨fun x hx => ?_, insertSorted_sorted w l h'.2⟩
      rcases List.mem_cons.mp ((insertSorted_perm w l).subset hx) with e | e
      · rw [e]; exact fun hwb => List.lt_irrefl _ (List.lt_trans hbw hwb)
      · exact h'.1 x e
    · rename_i hbw
      refine List.pairwise_cons.mpr ⟨fun x hx => ?_, h⟩
      rcases List.mem_cons.mp hx with e | e
      · rw [e]; exact hbw
      · exact List.le_trans hbw (h'.1 x e)

theorem stdSort_le (l : List (List Byte)) : (stdSort l).Pairwise (· ≤ ·) := by
  induction l with
  | nil => simp [stdSort]
  | cons a l ih => exact insertSorted_sorted a _ ih

theorem stdSort_sorted (l : List (List Byte)) (hn : l.Nodup) : (stdSort l).Pairwise (· < ·) := by
  have hn' : (stdSort l).Nodup := (stdSort_perm l).nodup_iff.mpr hn
  refine (List.Pairwise.and (stdSort_le l) hn').imp fun {a b} hab => ?_
  exact Decidable.byContradiction fun hlt => hab.2 (List.le_antisymm hab.1 (List.not_lt.mp hlt))

theorem parseStrings (args : List (List Byte)) (rest : List (Option (List Byte))) : Parse.parseArgvSeq stringConv true args.length (args.map some ++ rest) [] = ok (args.length, args) := by
  have h := (Parse.C130_sequence stringConv some (fun w => ⟨fun v hv => by cases hv; rfl, fun h => by cases h⟩) args rest []).1
  have e : args.takeWhile (fun w => (some w).isSome) = args := by
    have : ∀ l : List (List Byte), l.takeWhile (fun w => (some w).isSome) = l := by
      intro l
      induction l with
      | nil => rfl
      | cons a l ih => rw [List.takeWhile_cons]; simpa using ih
    exact this args
  have e2 : Parse.converted some args = args := by simp [Parse.converted]
  rw [e, e2] at h
  simpa using h

/-- C132: for a number `k` from 1 to the number of the strings, one line is written for each choice of `k` of the strings, its strings separated by tabs:
as many lines as there are choices, and each choice (sublist of the sorted strings) once. -/
theorem C132_all_choices (r : List Byte) (k : Nat) (hr : Number.UNumeral r k) (hk : k < 2 ^ 32) (h0 : 0 < k) (x : List Byte) (xs : List (List Byte))
    (hl : k ≤ xs.length + 1) :
    ∃ (sorted : List (List Byte)) (choices : List (List (List Byte))), sorted.Perm (x :: xs) ∧ choices.Perm (sorted.sublistsLen k) ∧
      choices.length = (xs.length + 1).choose k ∧
      combinationsMain (r :: x :: xs) = ok (0, (choices.map fun c => List.intercalate [9] c ++ [10]).flatten) := by
  have hp := stdSort_perm (x :: xs)
  have hlen : (stdSort (x :: xs)).length = xs.length + 1 := by simpa using hp.length_eq
  refine ⟨stdSort (x :: xs), parts k (stdSort (x :: xs)), hp, parts_perm k _, ?_, ?_⟩
  · rw [(parts_perm k _).length_eq, List.length_sublistsLen, hlen]
  · have hs := parseStrings (x :: xs) [none]
    simp only [List.length_cons] at hs
    simp only [combinationsMain]
    rw [(Number.C29_unsigned_long_partial r 0).1 k hr hk, ok_bind]
    simp only [Bool.not_true, Bool.false_eq_true, if_false]
    rw [if_neg (by omega), hs, ok_bind]
    simp only
    rw [if_neg (by omega), C45_order _ k (by omega), ok_bind]
    simp only
    have e : printLine = fun c => List.intercalate [9] c ++ [10] := by
      funext c
      unfold printLine
      rw [Join.C35_join]; simp
    rw [e]

/-- C132: if the strings are distinct the choices come in increasing lexicographic order, each with its strings in increasing order, none twice. -/
theorem C132_order (r : List Byte) (k : Nat) (hr : Number.UNumeral r k) (hk : k < 2 ^ 32) (h0 : 0 < k) (x : List Byte) (xs : List (List Byte))
    (hl : k ≤ xs.length + 1) (hn : (x :: xs).Nodup) :
    ∃ choices : List (List (List Byte)), choices.Pairwise (· < ·) ∧ (∀ c, c ∈ choices ↔ c.Pairwise (· < ·) ∧ c.length = k ∧ ∀ w ∈ c, w ∈ x :: xs) ∧
      combinationsMain (r :: x :: xs) = ok (0, (choices.map fun c => List.intercalate [9] c ++ [10]).flatten) := by
  have hp := stdSort_perm (x :: xs)
  have hlen : (stdSort (x :: xs)).length = xs.length + 1 := by simpa using hp.length_eq
  have hs := parseStrings (x :: xs) [none]
  have hsort := stdSort_sorted (x :: xs) hn
  refine ⟨parts k (stdSort (x :: xs)), parts_lt k _ hsort, fun c => ?_, ?_⟩
  · rw [(parts_perm k _).mem_iff, List.mem_sublistsLen]
    constructor
    · rintro ⟨h1, h2⟩
      exact ⟨hsort.sublist h1, h2, fun w hw => hp.subset (h1.subset hw)⟩
    · rintro ⟨h1, h2, h3⟩
      refine ⟨?_, h2⟩
      have hsub : ∀ (l c : List (List Byte)), l.Pairwise (· < ·) → c.Pairwise (· < ·) → (∀ w ∈ c, w ∈ l) → c.Sublist l := by
        intro l
        induction l with
        | nil =>
          intro c _ _ h
          have : c = [] := List.eq_nil_iff_forall_not_mem.mpr fun w hw => by simpa using h w hw
          rw [this]
        | cons a l ih =>
          intro c hl hc h
          have hl' := List.pairwise_cons.mp hl
          match c with
          | [] => exact List.nil_sublist _
          | b :: c =>
            have hc' := List.pairwise_cons.mp hc
            by_cases hab : b = a
            · subst hab
              refine (ih c hl'.2 hc'.2 fun w hw => ?_).cons₂ b
              rcases List.mem_cons.mp (h w (by simp [hw])) with e | e
              · have := hc'.1 w hw
                rw [e] at this
                exact absurd this (List.lt_irrefl _)
              · exact e
            · refine (ih (b :: c) hl'.2 hc fun w hw => ?_).cons a
              have hb : b ∈ l := by
                rcases List.mem_cons.mp (h b (by simp)) with e | e
                · exact absurd e hab
                · exact e
              rcases List.mem_cons.mp (h w hw) with e | e
              · rcases List.mem_cons.mp hw with e' | e'
                · exact absurd (e'.symm.trans e) hab
                · have := word_trans (hl'.1 b hb) (hc'.1 w e')
                  rw [e] at this
                  exact absurd this (List.lt_irrefl _)
              · exact e
      exact hsub _ c hsort h1 fun w hw => hp.symm.subset (h3 w hw)
  · simp only [List.length_cons] at hs
    simp only [combinationsMain]
    rw [(Number.C29_unsigned_long_partial r 0).1 k hr hk, ok_bind]
    simp only [Bool.not_true, Bool.false_eq_true, if_false]
    rw [if_neg (by omega), hs, ok_bind]
    simp only
    rw [if_neg (by omega), C45_order _ k (by omega), ok_bind]
    simp only
    have e : printLine = fun c => List.intercalate [9] c ++ [10] := by
      funext c
      unfold printLine
      rw [Join.C35_join]; simp
    rw [e]

/-- C132: no numeral, more than there are strings, or no strings at all: nothing but the message, and 1 is returned; 0 as the number gives nothing. -/
theorem C132_refused (r : List Byte) (x : List Byte) (xs : List (List Byte)) :
    ((∀ v, Number.UNumeral r v → 2 ^ 32 ≤ v) → combinationsMain (r :: x :: xs) = ok (1, [])) ∧
    (∀ k, Number.UNumeral r k → k < 2 ^ 32 → xs.length + 1 < k → combinationsMain (r :: x :: xs) = ok (1, [])) ∧
    (Number.UNumeral r 0 → combinationsMain (r :: x :: xs) = ok (0, [])) ∧
    combinationsMain [] = ok (1, []) ∧ combinationsMain [r] = ok (1, []) := by
  refine ⟨fun h => ?_, fun k hr hk hl => ?_, fun hr => ?_, rfl, rfl⟩
  · simp only [combinationsMain]
    rw [(Number.C29_unsigned_long_partial r 0).2 h, ok_bind]
    rfl
  · have hp := stdSort_perm (x :: xs)
    have hlen : (stdSort (x :: xs)).length = xs.length + 1 := by simpa using hp.length_eq
    have hs := parseStrings (x :: xs) [none]
    simp only [List.length_cons] at hs
    simp only [combinationsMain]
    rw [(Number.C29_unsigned_long_partial r 0).1 k hr hk, ok_bind]
    simp only [Bool.not_true, Bool.false_eq_true, if_false]
    rw [if_neg (by omega), hs, ok_bind]
    simp only
    rw [if_pos (by omega)]
  · simp only [combinationsMain]
    rw [(Number.C29_unsigned_long_partial r 0).1 0 hr (by decide), ok_bind]
    rfl

-- strtk_combination 2 c a b
example : combinationsMain [[50], [99], [97], [98]] = ok (0, [97, 9, 98, 10, 97, 9, 99, 10, 98, 9, 99, 10]) := by
  have h : Number.parseUnsigned Number.ulong [50] 0 = ok (true, 2) := by decide +kernel
  have h2 : Parse.parseArgvSeq stringConv true 3 [some [99], some [97], some [98], none] [] = ok (3, [[99], [97], [98]]) := by decide +kernel
  have h3 : stdSort [[99], [97], [98]] = [[97], [98], [99]] := by decide +kernel
  simp only [combinationsMain, h, ok_bind]
  simp only [List.length_cons, List.length_nil, List.map_cons, List.map_nil, List.cons_append, List.nil_append, h2, ok_bind, h3]
  simp [C45_order]
  decide +kernel
example : Number.UNumeral [50] 2 := ⟨[50], ⟨by simp, by decide⟩, Or.inl rfl, by decide⟩
example : ([[99], [97], [98]] : List (List Byte)).Nodup := by decide

end Strtk.Programs
