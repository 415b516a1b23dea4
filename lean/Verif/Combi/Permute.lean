import Verif.Outcome
import Mathlib.Data.List.Lex
import Mathlib.Data.List.Sort
import Mathlib.Data.List.Permutation
import Mathlib.Data.List.TakeDrop
import Mathlib.Data.List.TakeWhile
import Mathlib.Data.List.Perm.Subperm
import Mathlib.Data.List.Dedup
import Mathlib.Data.Nat.Factorial.Basic

/-!
# C116: for_each_permutation (strtk.hpp 12216-12238)

The range is a list; the order of the elements is linear.  The function is a step on the state of the caller and does not change the range.
-/

namespace Strtk.Permute
open Outcome

variable {α σ : Type} [LinearOrder α]

/-! ## Model -/

/-- `std::next_permutation` (standard library, called in 12224 and 12235), by recursion on the position: if the rest has a next permutation that is taken;
otherwise the rest is not increasing, its rightmost element greater than the first one changes places with it, and the rest is reversed.  `none`: there is
no such element; the standard function then returns false and leaves the whole range reversed. -/
def nextPerm : List α → Option (List α)
  | [] => none
  | a :: l => match nextPerm l with
    | some l' => some (a :: l')
    | none => match l.reverse.span (fun x => decide (x ≤ a)) with
      | (pre, b :: post) => some (b :: (pre ++ a :: post))
      | (_, []) => none

/-- `for_each_permutation` (12216-12225): the loop; the state of the caller and the range afterwards. -/
def forEach (f : σ → List α → σ) : Nat → List α → σ → Outcome (σ × List α)
  | 0, _, _ => diverge
  | fuel + 1, l, s =>
    let s := f s l
    match nextPerm l with
    | some l' => forEach f fuel l' s
    | none => ok (s, l.reverse)

/-- `for_each_permutation_conditional` (12227-12238). -/
def forEachCond (f : σ → List α → Bool × σ) : Nat → List α → σ → Outcome (Bool × σ × List α)
  | 0, _, _ => diverge
  | fuel + 1, l, s =>
    let (go, s) := f s l
    if !go then ok (false, s, l)
    else match nextPerm l with
    | some l' => forEachCond f fuel l' s
    | none => ok (true, s, l.reverse)

/-! ## The next permutation -/

/-- A list in decreasing order is the last of its permutations. -/
theorem le_desc : ∀ (l m : List α), l.Pairwise (· ≥ ·) → m.Perm l → m ≤ l := by
  intro l
  induction l with
  | nil => intro m _ hp; rw [List.perm_nil.mp hp]
  | cons a l ih =>
    intro m hs hp
    cases m with
    | nil => exact absurd hp.length_eq (by simp)
    | cons x t =>
      have hx : x ≤ a := by
        rcases List.mem_cons.mp (hp.mem_iff.mp List.mem_cons_self) with rfl | hx
        · exact le_refl _
        · exact (List.pairwise_cons.mp hs).1 x hx
      rcases lt_or_eq_of_le hx with hlt | rfl
      · exact le_of_lt (List.cons_lt_cons_iff.mpr (Or.inl hlt))
      · exact List.cons_le_cons _ (ih t (List.pairwise_cons.mp hs).2 (List.Perm.cons_inv hp))

/-- A list in increasing order is the first of its permutations. -/
theorem asc_le : ∀ (l m : List α), l.Pairwise (· ≤ ·) → m.Perm l → l ≤ m := by
  intro l
  induction l with
  | nil => intro m _ hp; rw [List.perm_nil.mp hp]
  | cons a l ih =>
    intro m hs hp
    cases m with
    | nil => exact absurd hp.length_eq (by simp)
    | cons x t =>
      have hx : a ≤ x := by
        rcases List.mem_cons.mp (hp.mem_iff.mp List.mem_cons_self) with rfl | hx
        · exact le_refl _
        · exact (List.pairwise_cons.mp hs).1 x hx
      rcases lt_or_eq_of_le hx with hlt | rfl
      · exact le_of_lt (List.cons_lt_cons_iff.mpr (Or.inl hlt))
      · exact List.cons_le_cons _ (ih t (List.pairwise_cons.mp hs).2 (List.Perm.cons_inv hp))

/-- `std::next_permutation` gives the smallest of the greater permutations; if it gives none, the list is decreasing. -/
theorem nextPerm_spec (l : List α) :
    (nextPerm l = none → l.Pairwise (· ≥ ·)) ∧
    (∀ l', nextPerm l = some l' → l'.Perm l ∧ l < l' ∧ ∀ m, m.Perm l → l < m → l' ≤ m) := by
  induction l with
  | nil => simp [nextPerm]
  | cons a l ih =>
    unfold nextPerm
    cases hn : nextPerm l with
    | some l' =>
      obtain ⟨hp, hlt, hmin⟩ := ih.2 l' hn
      refine ⟨by simp, ?_⟩
      rintro _ ⟨⟩
      refine ⟨hp.cons a, List.cons_lt_cons_iff.mpr (Or.inr ⟨rfl, hlt⟩), ?_⟩
      intro m hm hlm
      cases m with
      | nil => exact absurd hm.length_eq (by simp)
      | cons x t =>
        rcases List.cons_lt_cons_iff.mp hlm with h | ⟨rfl, h⟩
        · exact le_of_lt (List.cons_lt_cons_iff.mpr (Or.inl h))
        · exact List.cons_le_cons _ (hmin t (List.Perm.cons_inv hm) h)
    | none =>
      have hdesc := ih.1 hn
      have hasc : l.reverse.Pairwise (· ≤ ·) := List.pairwise_reverse.mpr hdesc
      simp only
      rw [List.span_eq_takeWhile_dropWhile]
      have hsplit := List.takeWhile_append_dropWhile (p := fun x => decide (x ≤ a)) (l := l.reverse)
      have hpre : ∀ x ∈ l.reverse.takeWhile (fun x => decide (x ≤ a)), x ≤ a := by
        intro x hx
        simpa using List.mem_takeWhile_imp hx
      cases hd : l.reverse.dropWhile (fun x => decide (x ≤ a)) with
      | nil =>
        rw [hd, List.append_nil] at hsplit
        refine ⟨?_, by simp⟩
        intro _
        rw [List.pairwise_cons]
        refine ⟨?_, hdesc⟩
        intro x hx
        apply hpre
        rw [hsplit]
        exact List.mem_reverse.mpr hx
      | cons b post =>
        generalize l.reverse.takeWhile (fun x => decide (x ≤ a)) = pre at hsplit hpre ⊢
        have hb : a < b := by
          have := List.head_dropWhile_not (p := fun x => decide (x ≤ a)) (l := l.reverse) (by rw [hd]; simp)
          simpa [hd] using this
        rw [hd] at hsplit
        rw [← hsplit] at hasc
        have hperm : (pre ++ b :: post).Perm l := by rw [hsplit]; exact List.reverse_perm l
        obtain ⟨s1, s2, s3⟩ := List.pairwise_append.mp hasc
        obtain ⟨s4, s5⟩ := List.pairwise_cons.mp s2
        have hsorted : (pre ++ a :: post).Pairwise (· ≤ ·) := by
          rw [List.pairwise_append]
          refine ⟨s1, ?_, ?_⟩
          · rw [List.pairwise_cons]
            exact ⟨fun x hx => le_trans (le_of_lt hb) (s4 x hx), s5⟩
          · intro x hx y hy
            rcases List.mem_cons.mp hy with rfl | hy
            · exact hpre x hx
            · exact s3 x hx y (List.mem_cons_of_mem _ hy)
        have hswap : (b :: (pre ++ a :: post)).Perm (a :: l) := by
          have h1 : (b :: (pre ++ a :: post)).Perm (a :: (pre ++ b :: post)) :=
            ((List.perm_middle (a := a) (l₁ := pre) (l₂ := post)).cons b).trans
              ((List.Perm.swap a b (pre ++ post)).trans ((List.perm_middle (a := b) (l₁ := pre) (l₂ := post)).symm.cons a))
          exact h1.trans (hperm.cons a)
        refine ⟨by simp, ?_⟩
        rintro _ ⟨⟩
        refine ⟨hswap, List.cons_lt_cons_iff.mpr (Or.inl hb), ?_⟩
        intro m hm hlm
        cases m with
        | nil => exact absurd hm.length_eq (by simp)
        | cons x t =>
          rcases List.cons_lt_cons_iff.mp hlm with h | ⟨rfl, h⟩
          · have hx : x ∈ pre ++ b :: post := by
              rcases List.mem_cons.mp (hm.mem_iff.mp List.mem_cons_self) with rfl | hx
              · exact absurd h (lt_irrefl _)
              · exact hperm.mem_iff.mpr hx
            have hbx : b ≤ x := by
              rcases List.mem_append.mp hx with hx | hx
              · exact absurd h (not_lt.mpr (hpre x hx))
              · rcases List.mem_cons.mp hx with rfl | hx
                · exact le_refl _
                · exact s4 x hx
            rcases lt_or_eq_of_le hbx with hlt | rfl
            · exact le_of_lt (List.cons_lt_cons_iff.mpr (Or.inl hlt))
            · exact List.cons_le_cons _ (asc_le _ t hsorted (List.Perm.cons_inv (hm.trans hswap.symm)))
          · exact absurd h (not_lt.mpr (le_desc l t hdesc (List.Perm.cons_inv hm)))

/-! ## Counting -/

/-- The permutations behind `l`: a measure for the loop. -/
def behind (l : List α) : Nat := (l.permutations.dedup.filter (fun m => decide (l < m))).length

theorem behind_lt (l l' : List α) (h : nextPerm l = some l') : behind l' < behind l := by
  obtain ⟨hp, hlt, _⟩ := (nextPerm_spec l).2 l' h
  unfold behind
  have hsub : ∀ m, m ∈ l'.permutations.dedup.filter (fun m => decide (l' < m)) → m ∈ (l.permutations.dedup.filter (fun m => decide (l < m))).erase l' := by
    intro m hm
    simp only [List.mem_filter, List.mem_dedup, List.mem_permutations, decide_eq_true_eq] at hm
    rw [List.Nodup.mem_erase_iff ((List.nodup_dedup _).filter _)]
    refine ⟨ne_of_gt hm.2, ?_⟩
    simp only [List.mem_filter, List.mem_dedup, List.mem_permutations, decide_eq_true_eq]
    exact ⟨hm.1.trans hp, lt_trans hlt hm.2⟩
  have hmem : l' ∈ l.permutations.dedup.filter (fun m => decide (l < m)) := by
    simp only [List.mem_filter, List.mem_dedup, List.mem_permutations, decide_eq_true_eq]
    exact ⟨hp, hlt⟩
  have h1 := (List.subperm_of_subset ((List.nodup_dedup l'.permutations).filter _) hsub).length_le
  rw [List.length_erase_of_mem hmem] at h1
  have h2 := List.length_pos_of_mem hmem
  omega

theorem behind_le (l : List α) : behind l ≤ l.length.factorial := by
  unfold behind
  refine le_trans (List.length_filter_le _ _) ?_
  rw [← List.length_permutations]
  exact (List.dedup_sublist _).length_le

theorem behind_lt_factorial (l : List α) : behind l < l.length.factorial := by
  unfold behind
  have h1 : (l.permutations.dedup.filter (fun m => decide (l < m))).length < l.permutations.dedup.length := by
    apply List.length_filter_lt_length_iff_exists.mpr
    exact ⟨l, by simp, by simp⟩
  have h2 := (List.dedup_sublist l.permutations).length_le
  rw [List.length_permutations] at h2
  omega

/-! ## C116 -/

theorem forEach_visits (f : σ → List α → σ) : ∀ (n : Nat) (l : List α) (fuel : Nat) (s : σ), behind l ≤ n → n < fuel →
    ∃ (visited : List (List α)) (last : List α), forEach f fuel l s = ok (visited.foldl f s, last) ∧ visited.head? = some l ∧ visited.Pairwise (· < ·) ∧
      (∀ m, m ∈ visited ↔ m.Perm l ∧ l ≤ m) ∧ last.Perm l ∧ last.Pairwise (· ≤ ·) := by
  intro n
  induction n with
  | zero =>
    intro l fuel s hb hf
    obtain ⟨fuel, rfl⟩ : ∃ k, fuel = k + 1 := ⟨fuel - 1, by omega⟩
    unfold forEach
    cases hn : nextPerm l with
    | some l' => have := behind_lt l l' hn; omega
    | none =>
      have hd := (nextPerm_spec l).1 hn
      refine ⟨[l], l.reverse, rfl, rfl, by simp, ?_, List.reverse_perm l, List.pairwise_reverse.mpr hd⟩
      intro m
      rw [List.mem_singleton]
      constructor
      · rintro rfl; exact ⟨List.Perm.refl _, le_refl _⟩
      · rintro ⟨h1, h2⟩; exact le_antisymm (le_desc l m hd h1) h2
  | succ n ih =>
    intro l fuel s hb hf
    obtain ⟨fuel, rfl⟩ : ∃ k, fuel = k + 1 := ⟨fuel - 1, by omega⟩
    unfold forEach
    cases hn : nextPerm l with
    | none =>
      have hd := (nextPerm_spec l).1 hn
      refine ⟨[l], l.reverse, rfl, rfl, by simp, ?_, List.reverse_perm l, List.pairwise_reverse.mpr hd⟩
      intro m
      rw [List.mem_singleton]
      constructor
      · rintro rfl; exact ⟨List.Perm.refl _, le_refl _⟩
      · rintro ⟨h1, h2⟩; exact le_antisymm (le_desc l m hd h1) h2
    | some l' =>
      obtain ⟨hp, hlt, hmin⟩ := (nextPerm_spec l).2 l' hn
      have hb' := behind_lt l l' hn
      obtain ⟨visited, last, h1, h2, h3, h4, h5, h6⟩ := ih l' fuel (f s l) (by omega) (by omega)
      refine ⟨l :: visited, last, h1, rfl, ?_, ?_, h5.trans hp, h6⟩
      · rw [List.pairwise_cons]
        exact ⟨fun m hm => lt_of_lt_of_le hlt ((h4 m).mp hm).2, h3⟩
      · intro m
        rw [List.mem_cons, h4]
        constructor
        · rintro (rfl | ⟨h7, h8⟩)
          · exact ⟨List.Perm.refl _, le_refl _⟩
          · exact ⟨h7.trans hp, le_of_lt (lt_of_lt_of_le hlt h8)⟩
        · rintro ⟨h7, h8⟩
          rcases lt_or_eq_of_le h8 with h | rfl
          · exact Or.inr ⟨h7.trans hp.symm, hmin m h7 h⟩
          · exact Or.inl rfl

/-- **C116**: `for_each_permutation` ends; it calls the function exactly once for each arrangement that does not come before the given one in
lexicographic order, in increasing order, and leaves the range sorted.  If the range is sorted at the beginning, these are all its arrangements. -/
theorem C116_for_each_permutation (f : σ → List α → σ) (l : List α) (s : σ) (fuel : Nat) (hf : l.length.factorial ≤ fuel) :
    ∃ (visited : List (List α)) (last : List α), forEach f fuel l s = ok (visited.foldl f s, last) ∧ visited.head? = some l ∧ visited.Pairwise (· < ·) ∧
      (∀ m, m ∈ visited ↔ m.Perm l ∧ l ≤ m) ∧ (l.Pairwise (· ≤ ·) → ∀ m, m ∈ visited ↔ m.Perm l) ∧ last.Perm l ∧ last.Pairwise (· ≤ ·) := by
  obtain ⟨visited, last, h1, h2, h3, h4, h5, h6⟩ := forEach_visits f _ l fuel s (le_refl _) (lt_of_lt_of_le (behind_lt_factorial l) hf)
  refine ⟨visited, last, h1, h2, h3, h4, ?_, h5, h6⟩
  intro hs m
  rw [h4]
  exact ⟨fun h => h.1, fun h => ⟨h, asc_le l m hs h⟩⟩

/-- An arrangement before the given one is never visited; there is one as soon as the range is not sorted. -/
theorem C116_not_sorted (f : σ → List α → σ) (l : List α) (s : σ) (fuel : Nat) (hf : l.length.factorial ≤ fuel) (h : ¬ l.Pairwise (· ≤ ·)) :
    ∃ (visited : List (List α)) (last : List α), forEach f fuel l s = ok (visited.foldl f s, last) ∧ ∃ m, m.Perm l ∧ m ∉ visited := by
  obtain ⟨visited, last, h1, _, _, h4, _, h5, h6⟩ := C116_for_each_permutation f l s fuel hf
  refine ⟨visited, last, h1, last, h5, ?_⟩
  intro hm
  have h7 := ((h4 last).mp hm).2
  have h8 := asc_le last l h6 h5.symm
  exact h (le_antisymm h7 h8 ▸ h6)

/-- What is asked of the conditional version: the arrangements `ms` are shown one after the other until the function refuses one; the answer, the state of
the caller and the arrangement that was refused. -/
def showUntil (f : σ → List α → Bool × σ) : List (List α) → σ → Bool × σ × Option (List α)
  | [], s => (true, s, none)
  | m :: ms, s => if (f s m).1 then showUntil f ms (f s m).2 else (false, (f s m).2, some m)

theorem forEachCond_visits (f : σ → List α → Bool × σ) : ∀ (n : Nat) (l : List α) (fuel : Nat) (s : σ), behind l ≤ n → n < fuel →
    ∃ (visited : List (List α)) (last : List α), visited.head? = some l ∧ visited.Pairwise (· < ·) ∧
      (∀ m, m ∈ visited ↔ m.Perm l ∧ l ≤ m) ∧ last.Perm l ∧ last.Pairwise (· ≤ ·) ∧
      forEachCond f fuel l s = ok ((showUntil f visited s).1, (showUntil f visited s).2.1, (showUntil f visited s).2.2.getD last) := by
  intro n
  induction n with
  | zero =>
    intro l fuel s hb hf
    obtain ⟨fuel, rfl⟩ : ∃ k, fuel = k + 1 := ⟨fuel - 1, by omega⟩
    cases hn : nextPerm l with
    | some l' => have := behind_lt l l' hn; omega
    | none =>
      have hd := (nextPerm_spec l).1 hn
      refine ⟨[l], l.reverse, rfl, by simp, ?_, List.reverse_perm l, List.pairwise_reverse.mpr hd, ?_⟩
      · intro m
        rw [List.mem_singleton]
        constructor
        · rintro rfl; exact ⟨List.Perm.refl _, le_refl _⟩
        · rintro ⟨h1, h2⟩; exact le_antisymm (le_desc l m hd h1) h2
      · unfold forEachCond
        simp only [showUntil, hn]
        cases (f s l).1 <;> simp
  | succ n ih =>
    intro l fuel s hb hf
    obtain ⟨fuel, rfl⟩ : ∃ k, fuel = k + 1 := ⟨fuel - 1, by omega⟩
    cases hn : nextPerm l with
    | none =>
      have hd := (nextPerm_spec l).1 hn
      refine ⟨[l], l.reverse, rfl, by simp, ?_, List.reverse_perm l, List.pairwise_reverse.mpr hd, ?_⟩
      · intro m
        rw [List.mem_singleton]
        constructor
        · rintro rfl; exact ⟨List.Perm.refl _, le_refl _⟩
        · rintro ⟨h1, h2⟩; exact le_antisymm (le_desc l m hd h1) h2
      · unfold forEachCond
        simp only [showUntil, hn]
        cases (f s l).1 <;> simp
    | some l' =>
      obtain ⟨hp, hlt, hmin⟩ := (nextPerm_spec l).2 l' hn
      have hb' := behind_lt l l' hn
      obtain ⟨visited, last, h2, h3, h4, h5, h6, h1⟩ := ih l' fuel (f s l).2 (by omega) (by omega)
      refine ⟨l :: visited, last, rfl, ?_, ?_, h5.trans hp, h6, ?_⟩
      · rw [List.pairwise_cons]
        exact ⟨fun m hm => lt_of_lt_of_le hlt ((h4 m).mp hm).2, h3⟩
      · intro m
        rw [List.mem_cons, h4]
        constructor
        · rintro (rfl | ⟨h7, h8⟩)
          · exact ⟨List.Perm.refl _, le_refl _⟩
          · exact ⟨h7.trans hp, le_of_lt (lt_of_lt_of_le hlt h8)⟩
        · rintro ⟨h7, h8⟩
          rcases lt_or_eq_of_le h8 with h | rfl
          · exact Or.inr ⟨h7.trans hp.symm, hmin m h7 h⟩
          · exact Or.inl rfl
      · unfold forEachCond
        simp only [showUntil, hn]
        cases hf' : (f s l).1
        · simp
        · simpa using h1

/-- **C116**: the conditional version shows the same arrangements in the same order until the function refuses one.  It returns whether none was refused;
the range is left at the refused arrangement, or else sorted. -/
theorem C116_conditional (f : σ → List α → Bool × σ) (l : List α) (s : σ) (fuel : Nat) (hf : l.length.factorial ≤ fuel) :
    ∃ (visited : List (List α)) (last : List α), visited.head? = some l ∧ visited.Pairwise (· < ·) ∧
      (∀ m, m ∈ visited ↔ m.Perm l ∧ l ≤ m) ∧ last.Perm l ∧ last.Pairwise (· ≤ ·) ∧
      forEachCond f fuel l s = ok ((showUntil f visited s).1, (showUntil f visited s).2.1, (showUntil f visited s).2.2.getD last) :=
  forEachCond_visits f _ l fuel s (le_refl _) (lt_of_lt_of_le (behind_lt_factorial l) hf)

/-- 1, 2, 2: three arrangements; from 2, 1, 2 on only two of them. -/
example : forEach (fun (v : List (List Nat)) m => v ++ [m]) 6 [1, 2, 2] [] = ok ([[1, 2, 2], [2, 1, 2], [2, 2, 1]], [1, 2, 2]) ∧
    forEach (fun (v : List (List Nat)) m => v ++ [m]) 6 [2, 1, 2] [] = ok ([[2, 1, 2], [2, 2, 1]], [1, 2, 2]) ∧
    forEachCond (fun (k : Nat) m => (decide (m.head? = some 1), k + 1)) 6 [1, 2, 3] 0 = ok (false, 3, [2, 1, 3]) := by decide +kernel

end Strtk.Permute
