import Verif.Strings.Lemmas

/-! # Theorems about the string editing functions (C09 - C14) -/

namespace Strtk.Strings
open Outcome Mem

variable {α : Type}

/-! ## C09 -/

/-- In-place removal never leaves the buffer, keeps its size, and leaves the kept elements in order at the front; the count returned is
the number of removed elements. -/
theorem C09_remove_inplace_range (p : α → Bool) (s : List α) :
    ∃ junk, removeInplaceRange p s = ok (s.filter (fun c => !p c) ++ junk, s.countP p) ∧ junk.length = s.countP p := by
  obtain ⟨junk, h1, h2⟩ := removeLoop_spec p (s.length + 1) [] [] s 0 (by omega)
  refine ⟨junk, ?_, by simpa [List.countP_eq_length_filter] using h1⟩
  simpa [removeInplaceRange, List.countP_eq_length_filter] using h2

/-- The container version leaves exactly the elements that do not satisfy the predicate, in order. -/
theorem C09_remove_inplace [Inhabited α] (p : α → Bool) (s : List α) :
    removeInplace p s = ok (s.filter (fun c => !p c), s.countP p) := by
  obtain ⟨junk, h1, h2⟩ := C09_remove_inplace_range p s
  simp [removeInplace, h1, resize, h2]

example : removeInplace (· == ' ') " a  b c ".toList = ok ("abc".toList, 5) := by decide

/-! ## C10 -/

/-- `remove_consecutives_inplace(pred, s)`: of each maximal run of matching characters the first survives; everything else is kept. -/
theorem C10_remove_consecutives_pred [Inhabited α] (p : α → Bool) (s : List α) :
    removeConsecutivesPred p s = ok (headsOfRuns p none s) := by
  unfold removeConsecutivesPred
  cases s with
  | nil => rfl
  | cons a t =>
    obtain ⟨junk, h⟩ := consRange_spec (fun prev c => !p c || !p prev) (fun _ c => p c)
      (by intro prev c0 h c; simp at h; simp [h.2]) a t
    rw [h, ok_bind]
    simp only [resize_drop_junk]
    simp [headsOfRuns, greedy_heads p a a rfl]

/-- `remove_consecutives_inplace(s)`: each maximal run of equal characters is reduced to one. -/
theorem C10_remove_consecutives [Inhabited α] [DecidableEq α] (s : List α) : removeConsecutives s = ok (squeeze none s) := by
  unfold removeConsecutives
  cases s with
  | nil => rfl
  | cons a t =>
    obtain ⟨junk, h⟩ := consRange_spec (fun prev c => decide (prev ≠ c)) (fun prev c => decide (prev = c))
      (by intro prev c0 _ c; simp) a t
    rw [h, ok_bind]
    simp only [resize_drop_junk]
    simp [squeeze]
    simpa using greedy_squeeze a t

/-- What `squeeze` means: a sublist, with no two equal neighbours. -/
theorem C10_no_equal_neighbours [Inhabited α] [DecidableEq α] (s r : List α) (h : removeConsecutives s = ok r) :
    r.Sublist s ∧ (∀ u c d v, r = u ++ c :: d :: v → c ≠ d) ∧ (∀ c, c ∈ r ↔ c ∈ s) := by
  rw [C10_remove_consecutives] at h
  simp at h
  subst h
  have key : ∀ (t : List α) (prev : Option α), (squeeze prev t).Sublist t ∧
      (∀ u c d v, prev.toList ++ squeeze prev t = u ++ c :: d :: v → c ≠ d) ∧
      (∀ c, (c ∈ squeeze prev t ∨ prev = some c) ↔ (c ∈ t ∨ prev = some c)) := by
    intro t
    induction t with
    | nil =>
      intro prev
      refine ⟨by simp [squeeze], ?_, by simp [squeeze]⟩
      intro u c d v h
      have := congrArg List.length h
      cases prev <;> simp [squeeze] at this <;> omega
    | cons x t ih =>
      intro prev
      obtain ⟨i1, i2, i3⟩ := ih (some x)
      by_cases hx : prev = some x
      · subst hx
        simp only [squeeze, if_pos]
        refine ⟨i1.trans (List.sublist_cons_self x t), i2, ?_⟩
        intro c
        rw [i3]
        simp only [List.mem_cons, Option.some.injEq]
        grind
      · simp only [squeeze, if_neg hx]
        refine ⟨i1.cons_cons x, ?_, ?_⟩
        · intro u c d v h
          cases prev with
          | none => exact i2 u c d v (by simpa using h)
          | some y =>
            cases u with
            | nil => simp at h; obtain ⟨rfl, rfl, _⟩ := h; simpa using hx
            | cons y' u => simp at h; exact i2 u c d v (by simpa using h.2)
        · intro c
          have := i3 c
          simp only [Option.some.injEq] at this
          simp only [List.mem_cons]
          grind
  obtain ⟨k1, k2, k3⟩ := key s none
  exact ⟨k1, by simpa using k2, by simpa using k3⟩

example : removeConsecutives "aabbbca".toList = ok "abca".toList := by decide
example : removeConsecutivesPred (fun c => c == ' ' || c == '\t') "a \t b  \tc".toList = ok "a b c".toList := by decide

/-! ## C11 -/

/-- For 7-bit text the result keeps the first occurrence of each character, in order. Missing: characters with the top bit set, see the next
theorem. -/
theorem C11_remove_duplicates_partial (s : List (BitVec 8)) (h : ∀ c ∈ s, c.toNat < 128) : removeDuplicates s = ok s.eraseDups := by
  rw [removeDuplicates, removeDupLoop_spec s _ _ h List.length_replicate]
  rw [List.filter_eq_self.mpr ?_]
  · simp
  · intro c hc
    have := h c hc
    rw [List.getElem?_replicate]
    simp; omega

/-- Any character with the top bit set indexes outside the table (plain `char` signed): undefined behaviour, always. -/
theorem C11_high_char_is_ub (s : List (BitVec 8)) (h : ∃ c ∈ s, 128 ≤ c.toNat) : removeDuplicates s = ub :=
  removeDupLoop_ub s _ _ h List.length_replicate

example : removeDuplicates [97, 98, 97, 99, 98] = ok [97, 98, 99] := by decide +kernel
example : removeDuplicates [97, 200] = ub := by decide +kernel

/-! ## C12 -/

theorem removeTrailing_cons [Inhabited α] (p : α → Bool) (a : α) (u : List α) :
    removeTrailing p (a :: u) = ok (a :: (u.reverse.dropWhile p).reverse) := by
  unfold removeTrailing removeTrailingRange
  rw [if_neg (by simp)]
  have := trailLoop_spec p a ((a :: u).length + 1) u [] 0 (by simp; omega)
  simp only [List.append_nil, Nat.zero_add] at this
  rw [show (a :: u).length - 1 = u.length by simp, this, ok_bind]
  have hle : (u.reverse.takeWhile p).length ≤ u.length := by
    have := (List.takeWhile_sublist (l := u.reverse) p).length_le
    simpa using this
  have hsplit : u = (u.reverse.dropWhile p).reverse ++ (u.reverse.takeWhile p).reverse := by
    rw [← List.reverse_append, List.takeWhile_append_dropWhile, List.reverse_reverse]
  by_cases h0 : (u.reverse.takeWhile p).length > 0
  · rw [if_pos h0, Mem.resize_le _ _ _ (by simp)]
    congr 1
    rw [show (a :: u).length - (u.reverse.takeWhile p).length = (u.length - (u.reverse.takeWhile p).length) + 1 by simp; omega, List.take_succ_cons]
    congr 1
    conv => lhs; arg 2; rw [hsplit]
    rw [List.take_left']
    have := congrArg List.length hsplit
    simp at this ⊢
    omega
  · rw [if_neg h0]
    have : u.reverse.takeWhile p = [] := by simpa using h0
    rw [this] at hsplit
    rw [List.reverse_nil, List.append_nil] at hsplit
    rw [← hsplit]

/-- `remove_leading` drops exactly the longest matching prefix. -/
theorem C12_remove_leading [Inhabited α] (p : α → Bool) (s : List α) : removeLeading p s = ok (s.dropWhile p) := by
  unfold removeLeading removeLeadingRange
  by_cases hs : s.length = 0
  · simp only [List.length_eq_zero_iff] at hs; subst hs; simp
  · rw [if_neg hs]
    have h := leadLoop_spec p (s.length + 1) [] s 0 (by omega)
    simp only [List.nil_append, List.length_nil, Nat.zero_add] at h
    rw [h, ok_bind]
    have hsplit := List.takeWhile_append_dropWhile (p := p) (l := s)
    have hlen := congrArg List.length hsplit
    simp only [List.length_append] at hlen
    have hsl : slice s (s.takeWhile p).length (s.length - (s.takeWhile p).length) = ok (s.dropWhile p) := by
      have := Mem.slice_append (s.takeWhile p) (s.dropWhile p) []
      rw [List.append_nil, hsplit] at this
      rw [← this]; congr 1; omega
    simp only [hsl, ok_bind]
    have hc := Mem.copyTo_append [] s s (s.dropWhile p) (by omega) (by simp)
    simp only [List.nil_append, List.length_nil] at hc
    rw [hc]
    simp only [ok_bind]
    congr 1
    by_cases h0 : (s.takeWhile p).length > 0
    · rw [if_pos h0, Mem.resize_le _ _ _ (by simp)]
      rw [List.take_left']
      simp; omega
    · rw [if_neg h0]
      have : s.takeWhile p = [] := by simpa using h0
      rw [this] at hsplit
      rw [List.nil_append] at hsplit
      rw [hsplit]; simp

/-- `remove_trailing` drops exactly the longest matching suffix, provided some character does not match. Missing: a non-empty text of
matching characters only, see the next theorem. -/
theorem C12_remove_trailing_partial [Inhabited α] (p : α → Bool) (s : List α) (h : s = [] ∨ ∃ c ∈ s, p c = false) :
    removeTrailing p s = ok (s.reverse.dropWhile p).reverse := by
  cases s with
  | nil => simp [removeTrailing, removeTrailingRange]
  | cons a u =>
    rw [removeTrailing_cons]
    congr 1
    rw [List.reverse_cons]
    by_cases hu : ∃ c ∈ u, p c = false
    · rw [List.dropWhile_append]
      have : ¬ (u.reverse.dropWhile p).isEmpty := by
        rw [List.isEmpty_iff]
        apply dropWhile_ne_nil
        obtain ⟨c, hc, hp⟩ := hu
        exact ⟨c, by simpa using hc, hp⟩
      rw [if_neg this]; simp
    · have hall : ∀ c ∈ u.reverse, p c = true := by
        intro c hc
        cases hpc : p c with
        | true => rfl
        | false => exact absurd ⟨c, by simpa using hc, hpc⟩ hu
      have ha : p a = false := by
        rcases h with h | ⟨c, hc, hp⟩
        · simp at h
        · simp at hc
          rcases hc with rfl | hc
          · exact hp
          · exact absurd ⟨c, hc, hp⟩ hu
      have hnil : u.reverse.dropWhile p = [] := dropWhile_nil_of_all _ _ hall
      rw [List.dropWhile_append, hnil]
      simp [ha]

/-- A non-empty text all of whose characters match is not emptied: its first character stays. -/
theorem C12_remove_trailing_all_match [Inhabited α] (p : α → Bool) (a : α) (u : List α) (h : ∀ c ∈ a :: u, p c = true) :
    removeTrailing p (a :: u) = ok [a] := by
  rw [removeTrailing_cons]
  have : u.reverse.dropWhile p = [] := dropWhile_nil_of_all _ _ (fun c hc => h c (by simp at hc; simp [hc]))
  simp [this]

/-- `remove_leading_trailing` does both, for every text: after the leading run is gone the first remaining character does not match. -/
theorem C12_remove_leading_trailing [Inhabited α] (p : α → Bool) (s : List α) :
    removeLeadingTrailing p s = ok (((s.dropWhile p).reverse.dropWhile p).reverse) := by
  unfold removeLeadingTrailing
  rw [C12_remove_leading, ok_bind]
  apply C12_remove_trailing_partial
  cases h : s.dropWhile p with
  | nil => exact Or.inl rfl
  | cons a t =>
    refine Or.inr ⟨a, by simp, ?_⟩
    have := List.head?_dropWhile_not p s
    rw [h] at this
    simpa using this

/-- Trimming twice changes nothing more. -/
theorem C12_trim_idempotent [Inhabited α] (p : α → Bool) (s r : List α) (h : removeLeadingTrailing p s = ok r) :
    removeLeadingTrailing p r = ok r := by
  rw [C12_remove_leading_trailing] at h ⊢
  simp only [ok.injEq] at h
  subst h
  generalize ht : s.dropWhile p = t
  have hhead : ∀ a ∈ t.head?, p a = false := by
    intro a ha
    have := List.head?_dropWhile_not p s
    rw [ht] at this
    cases hh : t.head? with
    | none => simp [hh] at ha
    | some b => rw [hh] at this ha; simp at ha; subst ha; simpa using this
  generalize hw : (t.reverse.dropWhile p).reverse = w
  have hw2 : w.reverse = t.reverse.dropWhile p := by rw [← hw, List.reverse_reverse]
  have hpre : w <+: t := by
    have := List.dropWhile_suffix (l := t.reverse) p
    rw [← hw2] at this
    have := List.reverse_prefix.mpr this
    simpa using this
  have hd : w.dropWhile p = w := by
    cases w with
    | nil => rfl
    | cons a w' =>
      obtain ⟨v, hv⟩ := hpre
      have : p a = false := hhead a (by rw [← hv]; simp)
      simp [this]
  rw [hd, hw2]
  have : List.dropWhile p (List.dropWhile p t.reverse) = List.dropWhile p t.reverse := by
    cases hx : List.dropWhile p t.reverse with
    | nil => rfl
    | cons a w' =>
      have := List.head?_dropWhile_not p t.reverse
      rw [hx] at this
      simp at this
      simp [this]
  rw [this, hw]

example : removeTrailing (· == ' ') "  ".toList = ok " ".toList := by decide
example : removeTrailing (· == ' ') " a b  ".toList = ok " a b".toList := by decide
example : removeLeadingTrailing (· == ' ') "  a b ".toList = ok "a b".toList := by decide
example : removeLeadingTrailing (· == ' ') "   ".toList = ok [] := by decide

/-! ## C13 -/

section
variable [DecidableEq α]

/-- `replace_pattern` replaces the leftmost non-overlapping occurrences, whatever the output string contained before, and never accesses
memory out of bounds; sizes must fit the `int` and `size_t` the code computes with. -/
theorem C13_replace_pattern [Inhabited α] (s p r n0 : List α) (hp : p ≠ []) (hp31 : p.length < 2 ^ 31) (hr31 : r.length < 2 ^ 31)
    (hs : s.length < 2 ^ 64) (hres : (replaceAll p r hp s).length < 2 ^ 64) :
    replacePattern s p r n0 = ok (replaceAll p r hp s) := by
  unfold replacePattern
  obtain ⟨us, w, h1, h2, h3⟩ := deltaLoop_spec p hp (s.length + 2) [] s [] (by omega)
  by_cases hpr : p = r
  · subst hpr
    rw [if_pos (Or.inr rfl), h2 p, ← h1]
  rw [if_neg (by simp [hp, hpr])]
  simp only [List.nil_append, List.length_nil] at h3
  simp only [h3, ok_bind]
  by_cases hus : posOf p 0 us = []
  · rw [if_pos hus]
    have : us = [] := by have := congrArg List.length hus; simpa using this
    subst this
    rw [h2 r]
    simpa using h1
  rw [if_neg hus]
  have hsz : ∀ (q : List α) (l : List (List α)), ((l.map (· ++ q)).flatten).length = (l.flatten).length + l.length * q.length := by
    intro q l
    induction l with
    | nil => simp
    | cons a l ih =>
      rw [List.map_cons, List.flatten_cons, List.length_append, ih, List.flatten_cons, List.length_append, List.length_append,
        List.length_cons, Nat.add_mul]
      omega
  have hsl : s.length = (us.flatten).length + us.length * p.length + w.length := by
    conv => lhs; rw [h1]
    rw [List.length_append, hsz]
  have hrl : (replaceAll p r hp s).length = (us.flatten).length + us.length * r.length + w.length := by
    rw [h2 r, List.length_append, hsz]
  have hsize := size_calc us.length s.length (toInt32 r.length - toInt32 p.length) (replaceAll p r hp s).length
    (by
      rw [toInt32_small _ hp31, toInt32_small _ hr31, hrl, hsl, Int.mul_sub]
      simp only [Int.natCast_add, Int.natCast_mul]
      omega) hres
  rw [posOf_length, hsize]
  have hlen : (resize default n0 (replaceAll p r hp s).length).length = (replaceAll p r hp s).length := Mem.resize_length _ _ _
  obtain ⟨rest', g1, g2⟩ := patCopy_spec p r us [] w [] (resize default n0 (replaceAll p r hp s).length) (by
    rw [hlen, h2 r, List.length_append])
  simp only [List.nil_append, List.length_nil, Nat.zero_add] at g2
  rw [← h1] at g2
  rw [g2, ok_bind]
  simp only
  have hsf : s.length = ((us.map (· ++ p)).flatten).length + w.length := by
    conv => lhs; rw [h1]
    rw [List.length_append]
  by_cases hw : w = []
  · subst hw
    have : rest' = [] := by simpa using g1
    rw [if_neg (by rw [hsf]; simp), this, h2 r]
  · have : 0 < w.length := List.length_pos_iff.mpr hw
    rw [if_pos (by omega)]
    have hslice : slice s ((us.map (· ++ p)).flatten).length (s.length - ((us.map (· ++ p)).flatten).length) = ok w := by
      have := Mem.slice_append ((us.map (· ++ p)).flatten) w []
      rw [List.append_nil, ← h1] at this
      rw [← this]; congr 1; omega
    rw [hslice, ok_bind, Mem.copyTo_append _ _ rest' w (by omega) rfl, h2 r]
    rw [List.drop_eq_nil_of_le (by omega)]
    simp

/-- An empty pattern leaves the text unchanged. -/
theorem C13_empty_pattern [Inhabited α] (s r n0 : List α) : replacePattern s [] r n0 = ok s := by simp [replacePattern]

/-- A text without an occurrence of the pattern is returned unchanged. -/
theorem C13_no_occurrence [Inhabited α] (s p r n0 : List α) (h : ¬ p <:+: s) : replacePattern s p r n0 = ok s := by
  have hp : p ≠ [] := by rintro rfl; exact h (List.nil_infix)
  unfold replacePattern
  by_cases hpr : p = r
  · rw [if_pos (Or.inr hpr)]
  rw [if_neg (by simp [hp, hpr])]
  obtain ⟨us, w, h1, h2, h3⟩ := deltaLoop_spec p hp (s.length + 2) [] s [] (by omega)
  simp only [List.nil_append, List.length_nil] at h3
  simp only [h3, ok_bind]
  cases us with
  | nil => simp [posOf]
  | cons u us => exact absurd ⟨u, (us.map (· ++ p)).flatten ++ w, by rw [h1]; simp⟩ h

/-- `remove_pattern` deletes them. -/
theorem C13_remove_pattern [Inhabited α] (s p n0 : List α) (hp : p ≠ []) (hp31 : p.length < 2 ^ 31)
    (hs : s.length < 2 ^ 64) (hres : (replaceAll p [] hp s).length < 2 ^ 64) :
    removePattern s p n0 = ok (replaceAll p [] hp s) :=
  C13_replace_pattern s p [] n0 hp hp31 (by simp) hs hres

end

example : replacePattern "aXXbXXX".toList "XX".toList "-+-".toList "junk".toList = ok "a-+-b-+-X".toList := by decide
example : replacePattern "aaa".toList "aa".toList "a".toList [] = ok "aa".toList := by decide
example : "XX".toList.length < 2 ^ 31 ∧ (replaceAll "XX".toList "-+-".toList (by decide) "aXXbXXX".toList).length = 9 := by
  constructor
  · decide
  · simp [replaceAll]

/-! ## C14 -/

/-- `replace` substitutes one character for another everywhere. -/
theorem C14_replace [DecidableEq α] (c1 c2 : α) (s : List α) : replace c1 c2 s = ok (s.map fun c => if c = c1 then c2 else c) := by
  have := replaceLoop_spec c1 c2 (s.length + 1) [] s (by omega)
  simpa [replace] using this

/-- `copy_if` appends the matching elements in order. -/
theorem C14_copy_if (p : α → Bool) (s out : List α) : copyIf p s (s.length + 1) 0 out = ok (out ++ s.filter p) := by
  have := copyIf_spec p (s.length + 1) [] s out (by omega)
  simpa using this

/-- `copy_while` appends the longest matching prefix and returns the position after it. -/
theorem C14_copy_while (p : α → Bool) (s out : List α) :
    copyWhile p s (s.length + 1) 0 out = ok ((s.takeWhile p).length, out ++ s.takeWhile p) := by
  have := copyWhile_spec p (s.length + 1) [] s out (by omega)
  simpa using this

/-- `copy_until` appends the longest prefix of non-matching elements and returns the position after it. -/
theorem C14_copy_until (p : α → Bool) (s out : List α) :
    copyUntil p s (s.length + 1) 0 out = ok ((s.takeWhile (fun c => !p c)).length, out ++ s.takeWhile (fun c => !p c)) := by
  rw [copyUntil_eq]; exact C14_copy_while _ _ _

/-- `range_only_contains` decides whether all elements match. -/
theorem C14_range_only_contains (p : α → Bool) (s : List α) : rangeOnlyContains p s (s.length + 1) 0 = ok (s.all p) := by
  have := rangeOnly_spec p (s.length + 1) [] s (by omega)
  simpa using this

/-- `copy_n` copies the first `n` elements when there are that many. -/
theorem C14_copy_n (s out : List α) (n : Nat) (h : n ≤ s.length) : copyN s n 0 out = ok (out ++ s.take n) := by
  have := copyN_spec n [] s out h
  simpa using this

example : replace 'a' 'b' "banana".toList = ok "bbnbnb".toList := by decide
example : copyWhile (· != 'c') "abcd".toList 5 0 [] = ok (2, "ab".toList) := by decide
example : copyUntil (· == 'c') "abcd".toList 5 0 [] = ok (2, "ab".toList) := by decide
example : rangeOnlyContains (·.isDigit) "12a".toList 4 0 = ok false := by decide
example : copyN "abcd".toList 3 0 [] = ok "abc".toList := by decide

end Strtk.Strings
