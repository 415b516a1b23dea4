import Verif.Combi.Comb
import Verif.Combi.Perm

/-!
# nth_combination_sequence and nth_permutation_sequence over ranges and strings (strtk.hpp 12619-12699)
-/

namespace Strtk.Combi

open Outcome

/-- The loops 12630-12634 and 12694-12697: the elements at the listed positions. -/
def pick {α : Type} (l : List α) : List Nat → Outcome (List α)
  | [] => ok []
  | i :: is => do
    let x ← deref l i
    let xs ← pick l is
    ok (x :: xs)

/-- `nth_combination_sequence(n, k, begin, end, out, complete_index)` (12619-12635): the index list is collected with a `back_inserter`, so the rest
follows the combination. -/
def nthCombinationRange {α : Type} (complete : Bool) (static : List U64) (n k : Nat) (l : List α) : Outcome (List α × List U64) := do
  let (is, static) ← nthCombinationOut false complete static n l.length k
  let xs ← pick l is
  ok (xs, static)

/-- `nth_permutation_sequence(n, s)` for a string (12688-12699).  For the empty string the index function writes outside its vector. -/
def nthPermutationString {α : Type} (n : Nat) (s : List α) : Outcome (List α) := do
  let is ← nthPermutation n s.length
  pick s is

/-- `nth_permutation_sequence(n, begin, end, out)` (12673-12686) writes the iterators `begin + index`, not the elements; an iterator of the range is
modelled by its position. -/
def nthPermutationRange {α : Type} (n : Nat) (l : List α) : Outcome (List Nat) := nthPermutation n l.length

theorem pick_eq {α : Type} (l : List α) : ∀ (is : List Nat), (∀ i ∈ is, i < l.length) → ∃ xs, pick l is = ok xs ∧ xs.map some = is.map (l[·]?) := by
  intro is
  induction is with
  | nil => intro _; exact ⟨[], rfl, rfl⟩
  | cons i is ih =>
    intro h
    obtain ⟨xs, h1, h2⟩ := ih fun j hj => h j (List.mem_cons_of_mem _ hj)
    have hi := h i List.mem_cons_self
    refine ⟨l[i] :: xs, ?_, ?_⟩
    · rw [pick, deref_eq_ok hi, ok_bind, h1, ok_bind]
    · simp [h2, hi]

theorem map_range_get {α : Type} (l : List α) : (List.range l.length).map (l[·]?) = l.map some := by
  apply List.ext_getElem?
  intro i
  simp only [List.getElem?_map]
  by_cases h : i < l.length
  · simp [h]
  · simp [Nat.not_lt.mp h]

/-- For a text of 1 to 21 characters and every n below the number of its arrangements: the characters of the text at the positions of the n-th
permutation; in particular a rearrangement of the text. -/
theorem C42_string_partial {α : Type} (n : Nat) (s : List α) (h1 : 1 ≤ s.length) (h21 : s.length ≤ 21) (hn : n < s.length.factorial) :
    ∃ p xs, IsNthPermutation n s.length p ∧ nthPermutationString n s = ok xs ∧ xs.map some = p.map (s[·]?) ∧ xs.Perm s := by
  obtain ⟨p, e, hp⟩ := C42_nth_permutation_partial n s.length h1 h21 hn
  obtain ⟨xs, g1, g2⟩ := pick_eq s p fun i hi => List.mem_range.mp (hp.1.subset hi)
  refine ⟨p, xs, hp, ?_, g2, ?_⟩
  · rw [nthPermutationString, e, ok_bind, g1]
  · have : (xs.map some).Perm (s.map some) := by
      rw [g2, ← map_range_get]
      exact hp.1.map _
    exact (List.map_perm_map_iff (Option.some_injective α)).mp this

theorem perm_of_map {α β : Type} (f : α → β) {m m' : List β} (h : m.Perm m') : ∀ l : List α, l.map f = m → ∃ l' : List α, l'.Perm l ∧ l'.map f = m' := by
  induction h with
  | nil => intro l h; exact ⟨l, .refl _, h⟩
  | cons x _ ih =>
    intro l h
    obtain ⟨a, l, rfl, rfl, rfl⟩ := List.map_eq_cons_iff.mp h
    obtain ⟨l', h1, h2⟩ := ih l rfl
    exact ⟨a :: l', h1.cons a, by simp [h2]⟩
  | swap x y _ =>
    intro l h
    obtain ⟨a, l, rfl, rfl, h'⟩ := List.map_eq_cons_iff.mp h
    obtain ⟨b, l, rfl, rfl, rfl⟩ := List.map_eq_cons_iff.mp h'
    exact ⟨b :: a :: l, .swap _ _ _, rfl⟩
  | trans _ _ ih1 ih2 =>
    intro l h
    obtain ⟨l1, h1, h2⟩ := ih1 l h
    obtain ⟨l2, h3, h4⟩ := ih2 l1 h2
    exact ⟨l2, h3.trans h1, h4⟩

/-- Every permutation of `0 .. k-1` is reached by exactly one index below `k!`. -/
theorem C42_onto_partial (k : Nat) (p : List Nat) (h1 : 1 ≤ k) (h21 : k ≤ 21) (hp : p.Perm (List.range k)) :
    ∃ n < k.factorial, nthPermutation n k = ok p := by
  have hex : ∀ n : Fin k.factorial, ∃ q, nthPermutation n k = ok q ∧ q.Perm (List.range k) := fun n => by
    obtain ⟨q, a, b⟩ := C42_nth_permutation_partial n k h1 h21 n.isLt
    exact ⟨q, a, b.1⟩
  choose f hf using hex
  have hinj : Function.Injective f := by
    intro a b hab
    apply Fin.ext
    apply C42_distinct a b k h1 h21 a.isLt b.isLt
    rw [(hf a).1, (hf b).1, hab]
  have hnd : ((List.finRange k.factorial).map f).Nodup := (List.nodup_finRange _).map hinj
  have hsub : ((List.finRange k.factorial).map f).Subperm (List.range k).permutations := by
    apply hnd.subperm
    intro q hq
    obtain ⟨n, _, rfl⟩ := List.mem_map.mp hq
    exact List.mem_permutations.mpr (hf n).2
  have hperm := hsub.perm_of_length_le (by simp [List.length_permutations])
  have := hperm.mem_iff.mpr (List.mem_permutations.mpr hp)
  obtain ⟨n, _, rfl⟩ := List.mem_map.mp this
  exact ⟨n, n.isLt, (hf n).1⟩

/-- Every rearrangement of a text of at most 21 characters is reached by some index. -/
theorem C42_string_all_partial {α : Type} (s t : List α) (h1 : 1 ≤ s.length) (h21 : s.length ≤ 21) (ht : t.Perm s) :
    ∃ n < s.length.factorial, nthPermutationString n s = ok t := by
  obtain ⟨p, hp, hpt⟩ := perm_of_map (s[·]?) ((ht.map some).symm) (List.range s.length) (map_range_get s)
  obtain ⟨n, hn, e⟩ := C42_onto_partial s.length p h1 h21 hp
  refine ⟨n, hn, ?_⟩
  obtain ⟨xs, g1, g2⟩ := pick_eq s p fun i hi => List.mem_range.mp (hp.subset hi)
  rw [nthPermutationString, e, ok_bind, g1]
  rw [List.map_injective_iff.mpr (Option.some_injective α) (g2.trans hpt)]

/-- The iterator overload hands out the iterators of the range in the order of the n-th permutation, each once: `*(begin + i)` was meant (12684). -/
theorem C42_range_partial {α : Type} (n : Nat) (l : List α) (h1 : 1 ≤ l.length) (h21 : l.length ≤ 21) (hn : n < l.length.factorial) :
    ∃ p, nthPermutationRange n l = ok p ∧ IsNthPermutation n l.length p := C42_nth_permutation_partial n l.length h1 h21 hn

/-- Over a range: the elements at the positions of the n-th combination, in the order of the range, then (if asked for) the other elements in the
order of the range. -/
theorem C43_range {α : Type} (st : List U64) (hst : StaticOk st) (complete : Bool) (n k : Nat) (l : List α) (hk : 2 ≤ k) (hl : l.length < 2 ^ 32)
    (hfit : l.length.choose k < 2 ^ 64) (hn : n < l.length.choose k) :
    ∃ c st' xs rest, IsNthCombination n l.length k c ∧ StaticOk st' ∧
      nthCombinationRange complete st n k l = ok (if complete then xs ++ rest else xs, st') ∧
      xs.map some = c.map (l[·]?) ∧ rest.map some = ((List.range l.length).filter fun i => decide (i ∉ c)).map (l[·]?) ∧
      xs.Sublist l ∧ xs.length = k ∧ (xs ++ rest).Perm l := by
  obtain ⟨c, st', e, hst', hc⟩ := C43_complete_partial st hst complete n l.length k hk hl hfit hn
  have hsub := (List.mem_sublistsLen.mp hc.1).1
  have hlen := (List.mem_sublistsLen.mp hc.1).2
  set r := (List.range l.length).filter fun i => decide (i ∉ c) with hr
  obtain ⟨xs, g1, g2⟩ := pick_eq l c fun i hi => List.mem_range.mp (hsub.subset hi)
  obtain ⟨ys, k1, k2⟩ := pick_eq l r fun i hi => List.mem_range.mp (List.mem_of_mem_filter hi)
  obtain ⟨zs, m1, m2⟩ := pick_eq l (c ++ r) fun i hi => by
    rcases List.mem_append.mp hi with h | h
    · exact List.mem_range.mp (hsub.subset h)
    · exact List.mem_range.mp (List.mem_of_mem_filter h)
  have hz : zs = xs ++ ys := by
    apply List.map_injective_iff.mpr (Option.some_injective α)
    rw [m2, List.map_append, List.map_append, g2, k2]
  refine ⟨c, st', xs, ys, hc, hst', ?_, g2, k2, ?_, ?_, ?_⟩
  · rw [nthCombinationRange, e, ok_bind]
    cases complete
    · simp only [Bool.false_eq_true, if_false]; rw [g1, ok_bind]
    · simp only [if_true]; rw [m1, ok_bind, hz]
  · have : (xs.map some).Sublist (l.map some) := by
      rw [g2, ← map_range_get]
      exact hsub.map _
    obtain ⟨zs, z1, z2⟩ := List.sublist_map_iff.mp this
    rw [List.map_injective_iff.mpr (Option.some_injective α) z2]
    exact z1
  · have := congrArg List.length g2
    simp only [List.length_map] at this
    omega
  · have hp : (c ++ r).Perm (List.range l.length) := by
      have hnd : c.Nodup := List.nodup_range.sublist hsub
      apply (List.perm_ext_iff_of_nodup ?_ List.nodup_range).mpr
      · intro i
        simp only [List.mem_append, hr, List.mem_filter, decide_eq_true_eq]
        constructor
        · rintro (h | h)
          · exact hsub.subset h
          · exact h.1
        · intro h
          by_cases hi : i ∈ c
          · exact Or.inl hi
          · exact Or.inr ⟨h, hi⟩
      · refine List.nodup_append.mpr ⟨hnd, List.nodup_range.filter _, ?_⟩
        intro a ha b hb hab
        subst hab
        simp only [hr, List.mem_filter, decide_eq_true_eq] at hb
        exact hb.2 ha
    have : ((xs ++ ys).map some).Perm (l.map some) := by
      rw [List.map_append, g2, k2, ← List.map_append, ← map_range_get]
      exact hp.map _
    exact (List.map_perm_map_iff (Option.some_injective α)).mp this

example : nthPermutationString 3 "abc".toList = ok "bca".toList := by decide
example : ∃ n < Nat.factorial 3, nthPermutationString n "abc".toList = ok "cab".toList :=
  C42_string_all_partial "abc".toList "cab".toList (by decide) (by decide) (by decide)
example : (do let (c, _) ← nthCombinationRange true freshTable 3 3 "vwxyz".toList; ok c) = ok "vxywz".toList := by decide +kernel

end Strtk.Combi
