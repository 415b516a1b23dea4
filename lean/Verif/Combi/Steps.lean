import Verif.Combi.Iterator
import Verif.Combi.Ranges
import Verif.Programs.Combinations

/-!
# nth_combination_sequence and next_combination together (C138)

strtk_nth_combination_example.cpp shows both side by side (example02, 89-119) and goes on with `next_combination` from a combination found with
`nth_combination_sequence` (example03, 121-144).
-/

namespace Strtk.Combi

open Outcome

variable {α : Type} [LinearOrder α]

/-- `n` calls of `next_combination(begin, begin + k, end)`: whether all of them returned true, and the range afterwards. -/
def nextCalls (k : Nat) : Nat → List α → Outcome (Bool × List α)
  | 0, s => ok (true, s)
  | n + 1, s => do
    let (b, s) ← nextCombination (fun a b => decide (a < b)) k s
    let (b', s) ← nextCalls k n s
    ok (b && b', s)

theorem parts_map {β γ : Type} (f : β → γ) : ∀ (k : Nat) (l : List β), parts k (l.map f) = (parts k l).map (List.map f)
  | 0, _ => by simp [parts]
  | _ + 1, [] => by simp [parts]
  | k + 1, a :: t => by
    rw [List.map_cons, parts, parts, parts_map f k t, parts_map f (k + 1) t]
    simp [Function.comp_def]

/-- The n-th combination is the n-th of the list of all of them. -/
theorem nth_eq_parts {n r k : Nat} {c : List Nat} (h : IsNthCombination n r k c) : (parts k (List.range r))[n]? = some c := by
  obtain ⟨h1, h2⟩ := h
  have hm := (parts_perm k (List.range r)).mem_iff.mpr h1
  obtain ⟨m, hm⟩ := List.getElem?_of_mem hm
  have := (nth_of_parts m r k c hm).2
  have e : m = n := by rw [← this, ← h2]
  rw [← e, hm]

/-- The range after the calls: a combination of sorted elements, then the others, sorted; and what the loop shows from there on. -/
theorem nextCalls_spec {k : Nat} {E : List α} (hE : E.Pairwise (· < ·)) : ∀ (n : Nat) (A R : List α) (fuel : Nat) (V : List (List α)),
    A.length = k → A.Pairwise (· < ·) → R.Pairwise (· < ·) → (A ++ R).Perm E → visitCombinations k fuel (A ++ R) = ok V → n < V.length →
    ∃ A' R' fuel', nextCalls k n (A ++ R) = ok (true, A' ++ R') ∧ A'.length = k ∧ A'.Pairwise (· < ·) ∧ R'.Pairwise (· < ·) ∧ (A' ++ R').Perm E ∧
      visitCombinations k fuel' (A' ++ R') = ok (V.drop n) := by
  intro n
  induction n with
  | zero => intro A R fuel V hA sA sR hp hv _; exact ⟨A, R, fuel, rfl, hA, sA, sR, hp, by simpa using hv⟩
  | succ n ih =>
    intro A R fuel V hA sA sR hp hv hn
    have hd : ∀ a ∈ A, a ∉ R := by
      have hn : (A ++ R).Nodup := hp.nodup_iff.mpr (nodup_of_lt hE)
      intro a ha hb
      exact (List.nodup_append.mp hn).2.2 a ha a hb rfl
    obtain ⟨b, A', R', h1, h2, h3, h4, h5, h6, h7⟩ := C44_next_combination A R sA sR hd
    rw [hA] at h1
    cases fuel with
    | zero => cases hv
    | succ f =>
      unfold visitCombinations at hv
      rw [h1, ok_bind] at hv
      simp only at hv
      cases b with
      | false =>
        rw [if_neg (by simp)] at hv
        cases hv
        simp at hn
      | true =>
        rw [if_pos rfl] at hv
        obtain ⟨V', hr, hv⟩ := bind_eq_ok.mp hv
        cases hv
        obtain ⟨A2, R2, f2, e2, g⟩ := ih A' R' f V' (by omega) h4 h5 (h3.trans hp) hr (by simpa using hn)
        refine ⟨A2, R2, f2, ?_, ?_⟩
        · unfold nextCalls
          rw [h1, ok_bind]
          simp only
          rw [e2, ok_bind]
          rfl
        · simpa using g

/-- For distinct elements in increasing order, with `C(r,k)` below 2^64: `nth_combination_sequence` with `complete_index` leaves exactly what `n` calls of
`next_combination` leave of the range, and all those calls return true.  Without `complete_index` it is the first part of it. -/
theorem C138_nth_is_n_steps (st : List U64) (hst : StaticOk st) (n k : Nat) (E : List α) (hE : E.Pairwise (· < ·)) (hk : 2 ≤ k) (hl : E.length < 2 ^ 32)
    (hfit : E.length.choose k < 2 ^ 64) (hn : n < E.length.choose k) :
    ∃ s st' st'', nextCalls k n E = ok (true, s) ∧ nthCombinationRange true st n k E = ok (s, st') ∧
      nthCombinationRange false st n k E = ok (s.take k, st'') := by
  have hkl : k ≤ E.length := by
    by_contra hc
    rw [Nat.choose_eq_zero_of_lt (by omega)] at hn
    omega
  obtain ⟨V, v1, v2, v3⟩ := C44_visits_all k E hE hkl
  have hV : V = parts k E := by
    apply List.Perm.eq_of_pairwise (le := (· < ·)) (fun a b _ _ h1 h2 => absurd h2 (lt_asymm h1)) v2 (Programs.parts_lt k E hE)
    exact v3.trans (parts_perm k E).symm
  have hsplit : E.take k ++ E.drop k = E := List.take_append_drop k E
  have hs := List.pairwise_append.mp (hsplit.symm ▸ hE)
  have hlenV : V.length = E.length.choose k := by rw [hV, parts_length]
  obtain ⟨A, R, fuel, e, a1, a2, a3, a4, a5⟩ := nextCalls_spec (k := k) hE n (E.take k) (E.drop k) _ V (by simp; omega) hs.1 hs.2.1 (by rw [hsplit])
    (by rw [hsplit]; exact v1) (by omega)
  rw [hsplit] at e
  have hA : V[n]? = some A := by
    have := visit_take a5
    rw [← a1, List.take_left, List.head?_drop] at this
    exact this
  have key : ∀ complete, ∃ st', nthCombinationRange complete st n k E = ok (if complete then A ++ R else A, st') := by
    intro complete
    obtain ⟨c, st', xs, rest, c1, c2, c3, c4, c5, c6, c7, c8⟩ := C43_range st hst complete n k E hk hl hfit hn
    have hx : xs = A := by
      have h1 := nth_eq_parts c1
      have h2 : (parts k (E.map some))[n]? = some (c.map (E[·]?)) := by
        rw [← map_range_get, parts_map, List.getElem?_map, h1]; rfl
      rw [parts_map, List.getElem?_map, ← hV, hA, ← c4] at h2
      exact (List.map_injective_iff.mpr (Option.some_injective α) (Option.some.inj h2)).symm
    have hr : rest = R := by
      subst hx
      have hp : rest.Perm R := (List.perm_append_left_iff xs).mp (c8.trans a4.symm)
      have hsub : (rest.map some).Sublist (E.map some) := by
        rw [c5, ← map_range_get]
        exact List.filter_sublist.map _
      obtain ⟨zs, z1, z2⟩ := List.sublist_map_iff.mp hsub
      have hz : rest = zs := List.map_injective_iff.mpr (Option.some_injective α) z2
      exact List.Perm.eq_of_pairwise (le := (· < ·)) (fun a b _ _ h1 h2 => absurd h2 (lt_asymm h1)) (hE.sublist (hz ▸ z1)) a3 hp
    exact ⟨st', by rw [c3, hx, hr]⟩
  obtain ⟨st', h1⟩ := key true
  obtain ⟨st'', h2⟩ := key false
  exact ⟨A ++ R, st', st'', e, by simpa using h1, by rw [← a1, List.take_left, a1]; simpa using h2⟩

/-- Going on with `next_combination` from the completed n-th combination shows the remaining combinations: the list of all combinations in increasing
order without its first `n`. -/
theorem C138_resume (st : List U64) (hst : StaticOk st) (n k : Nat) (E : List α) (hE : E.Pairwise (· < ·)) (hk : 2 ≤ k) (hl : E.length < 2 ^ 32)
    (hfit : E.length.choose k < 2 ^ 64) (hn : n < E.length.choose k) :
    ∃ (s : List α) (st' : List U64) (fuel : Nat) (V : List (List α)), nthCombinationRange true st n k E = ok (s, st') ∧ visitCombinations k fuel s = ok (V.drop n) ∧ V.Pairwise (· < ·) ∧
      V.Perm (E.sublistsLen k) := by
  have hkl : k ≤ E.length := by
    by_contra hc
    rw [Nat.choose_eq_zero_of_lt (by omega)] at hn
    omega
  obtain ⟨V, v1, v2, v3⟩ := C44_visits_all k E hE hkl
  have hsplit : E.take k ++ E.drop k = E := List.take_append_drop k E
  have hs := List.pairwise_append.mp (hsplit.symm ▸ hE)
  have hlenV : V.length = E.length.choose k := by rw [v3.length_eq, List.length_sublistsLen]
  obtain ⟨A, R, fuel, e, a1, a2, a3, a4, a5⟩ := nextCalls_spec (k := k) hE n (E.take k) (E.drop k) _ V (by simp; omega) hs.1 hs.2.1 (by rw [hsplit])
    (by rw [hsplit]; exact v1) (by omega)
  rw [hsplit] at e
  obtain ⟨s, st', _, h1, h2, _⟩ := C138_nth_is_n_steps st hst n k E hE hk hl hfit hn
  rw [e] at h1
  cases h1
  exact ⟨_, st', fuel, V, h2, a5, v2, v3⟩

/-- Without the completion there is nothing to go on with: the loop of strtk_nth_combination_example.cpp 136-143, announced as iterating from the fifth
combination to the end, shows that combination only. -/
theorem C138_no_resume_without_rest (k fuel : Nat) (xs : List α) (h : xs.length = k) : visitCombinations k (fuel + 1) xs = ok [xs] := by
  have : nextCombination (fun a b => decide (a < b)) k xs = ok (false, xs) := by rw [nextCombination, if_pos (by omega)]
  rw [visitCombinations, this, ok_bind]
  simp [← h]

example : [65, 66, 67, 68, 69, 70].Pairwise (· < ·) ∧ 4 < [65, 66, 67, 68, 69, 70].length.choose 4 ∧ StaticOk freshTable := by
  refine ⟨by decide, by decide, staticOk_fresh⟩
example : nextCalls 4 4 [65, 66, 67, 68, 69, 70] = ok (true, [65, 66, 68, 70, 67, 69]) := by decide
example : (do let (c, _) ← nthCombinationRange true freshTable 4 4 [65, 66, 67, 68, 69, 70]; ok c) = ok [65, 66, 68, 70, 67, 69] := by decide +kernel
example : visitCombinations 4 20 [65, 66, 68, 70] = ok [[65, 66, 68, 70]] := by decide

end Strtk.Combi
