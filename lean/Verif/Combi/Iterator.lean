import Verif.Combi.Next

/-! # combination_iterator objects (strtk.hpp 12701-12842), C119

A `combination_iterator` is a pair of positions into a range it does not own: incrementing it rearranges the range, and a copy refers to the same
range. The state is the range together with all iterator objects over it. -/

namespace Strtk.Combi
open Outcome Mem

variable {α : Type} [LinearOrder α]

/-- The members `begin_`, `end_`, `middle_` and `current_combination_` (12838-12841), as positions in the range. -/
structure It where
  first : Nat
  last : Nat
  mid : Nat
  shown : Nat × Nat
deriving DecidableEq

/-- The range and the iterators made over it so far. -/
structure ItWorld (α : Type) where
  range : List α
  its : List It
deriving DecidableEq

/-- `combination_iterator(k, begin, end, sorted)` (12713-12756): `begin + k` has to stay inside the range; the range is sorted if the caller says
that it is not. `std::sort` is modelled by its specified result. -/
def itMake (k : Nat) (range : List α) (sorted : Bool) : Outcome (ItWorld α) :=
  if range.length < k then ub
  else ok ⟨if sorted then range else range.insertionSort (· ≤ ·), [⟨0, range.length, k, (0, k)⟩]⟩

/-- The end iterator of a range of `n` elements (12758-12787). -/
def itEnd (n : Nat) : It := ⟨n, n, n, (n, n)⟩

/-- `operator==` (12824-12829): the positions only. -/
def itEq (a b : It) : Bool := a.first == b.first && a.last == b.last && a.mid == b.mid

/-- `*it` (12819-12822), read through: the elements between the two positions. -/
def itShow (w : ItWorld α) (i : It) : List α := (w.range.take i.shown.2).drop i.shown.1

/-- `++it` (12789-12800) on the `i`-th iterator. -/
def itInc (w : ItWorld α) (i : Nat) : Outcome (ItWorld α) :=
  match w.its[i]? with
  | none => ub
  | some it =>
    if it.first ≠ it.last then do
      let (more, r) ← nextCombination (fun a b => decide (a < b)) (it.mid - it.first) (w.range.drop it.first)
      if more then ok ⟨w.range.take it.first ++ r, w.its⟩
      else ok ⟨w.range.take it.first ++ r, w.its.set i { it with first := it.last, mid := it.last }⟩
    else ok w

/-- `it++` (12802-12807): the copy is appended to the list of iterators. -/
def itPost (w : ItWorld α) (i : Nat) : Outcome (ItWorld α) :=
  match w.its[i]? with
  | none => ub
  | some it => itInc ⟨w.range, w.its ++ [it]⟩ i

/-- The loop of `operator+=` (12813). -/
def itIncN (i : Nat) : Nat → ItWorld α → Outcome (ItWorld α)
  | 0, w => ok w
  | n + 1, w => do
    let w ← itInc w i
    itIncN i n w

/-- `it += inc` (12809-12817). -/
def itAdd (w : ItWorld α) (i : Nat) (inc : Int) : Outcome (ItWorld α) := if inc > 0 then itIncN i inc.toNat w else ok w

/-- The three ways to move an iterator. -/
inductive Move where
  | pre
  | post
  | add (inc : Int)

/-- One move of the iterator with index 0. -/
def itMove (w : ItWorld α) : Move → Outcome (ItWorld α)
  | .pre => itInc w 0
  | .post => itPost w 0
  | .add inc => itAdd w 0 inc

/-- A history of moves. -/
def itMoves : ItWorld α → List Move → Outcome (ItWorld α)
  | w, [] => ok w
  | w, m :: ms => do
    let w ← itMove w m
    itMoves w ms

/-- **Specification.** How far a move goes: a non-positive `+=` does nothing. -/
def Move.steps : Move → Nat
  | .pre => 1
  | .post => 1
  | .add inc => inc.toNat

/-! ## Proof -/

theorem visit_ne_nil {k fuel : Nat} {s : List α} {V : List (List α)} (h : visitCombinations k fuel s = ok V) : V ≠ [] := by
  cases fuel with
  | zero => cases h
  | succ f =>
    unfold visitCombinations at h
    obtain ⟨⟨b, s'⟩, _, h⟩ := bind_eq_ok.mp h
    cases b with
    | false => simp at h; subst h; simp
    | true =>
      simp only [if_true] at h
      obtain ⟨r, _, h⟩ := bind_eq_ok.mp h
      cases h; simp

/-- What holds after `N` steps: `V` is the list of all combinations. -/
def ItInv (k : Nat) (E : List α) (V : List (List α)) (N : Nat) (w : ItWorld α) : Prop :=
  ∃ it, w.its[0]? = some it ∧ it.shown = (0, k) ∧ it.last = E.length ∧
    ((N < V.length ∧ it.first = 0 ∧ it.mid = k ∧ ∃ A R fuel, w.range = A ++ R ∧ A.length = k ∧ A.Pairwise (· < ·) ∧ R.Pairwise (· < ·) ∧
        (∀ a ∈ A, a ∉ R) ∧ (A ++ R).Perm E ∧ visitCombinations k fuel (A ++ R) = ok (V.drop N)) ∨
     (V.length ≤ N ∧ it.first = E.length ∧ it.mid = E.length ∧ w.range = E))

theorem itInc_inv {k : Nat} {E : List α} (hE : E.Pairwise (· < ·)) (hne : E ≠ []) {V : List (List α)} {N : Nat} {w : ItWorld α}
    (h : ItInv k E V N w) : ∃ w', itInc w 0 = ok w' ∧ ItInv k E V (N + 1) w' := by
  obtain ⟨it, hi, hs, hl, h⟩ := h
  have hlen := List.length_pos_iff.mpr hne
  rcases h with ⟨hN, hf, hm, A, R, fuel, hw, hA, sA, sR, hd, hp, hv⟩ | ⟨hN, hf, hm, hw⟩
  · obtain ⟨b, A', R', h1, h2, h3, h4, h5, h6, h7⟩ := C44_next_combination A R sA sR hd
    have e : itInc w 0 = if b then ok ⟨A' ++ R', w.its⟩ else ok ⟨A' ++ R', w.its.set 0 { it with first := it.last, mid := it.last }⟩ := by
      unfold itInc
      simp only [hi]
      rw [if_pos (by omega), hf, hm, List.drop_zero, hw, Nat.sub_zero, ← hA, h1, ok_bind]
      cases b <;> simp
    cases fuel with
    | zero => cases hv
    | succ f =>
      unfold visitCombinations at hv
      rw [← hA, h1, ok_bind, hA] at hv
      simp only at hv
      cases b with
      | false =>
        rw [if_neg (by simp)] at hv e
        have hv' : [(A ++ R).take k] = V.drop N := by injection hv
        refine ⟨_, e, { it with first := it.last, mid := it.last }, by simp [List.getElem?_set]; exact List.length_pos_iff.mp (List.getElem?_eq_some_iff.mp hi).1, hs, hl, Or.inr ⟨?_, hl, hl, ?_⟩⟩
        · have := congrArg List.length hv'
          simp at this; omega
        · exact List.Perm.eq_of_pairwise (le := (· < ·)) (fun a b _ _ h1 h2 => absurd h2 (lt_asymm h1)) (h7 rfl).2 hE (h3.trans hp)
      | true =>
        rw [if_pos rfl] at hv e
        obtain ⟨r, hr, hv⟩ := bind_eq_ok.mp hv
        have hv' : (A ++ R).take k :: r = V.drop N := by injection hv
        have hr' : r = V.drop (N + 1) := by
          have := congrArg List.tail hv'
          simpa using this
        have hd' : ∀ a ∈ A', a ∉ R' := by
          have hn : (A' ++ R').Nodup := (h3.trans hp).nodup_iff.mpr (nodup_of_lt hE)
          intro a ha hb
          exact (List.nodup_append.mp hn).2.2 a ha a hb rfl
        refine ⟨_, e, it, hi, hs, hl, Or.inl ⟨?_, hf, hm, A', R', f, rfl, by omega, h4, h5, hd', h3.trans hp, hr' ▸ hr⟩⟩
        have := visit_ne_nil hr
        rw [hr'] at this
        by_contra hc
        exact this (List.drop_of_length_le (by omega))
  · refine ⟨w, ?_, it, hi, hs, hl, Or.inr ⟨by omega, hf, hm, hw⟩⟩
    unfold itInc
    simp only [hi]
    rw [if_neg (by simp [hf, hl])]

theorem itInv_push {k : Nat} {E : List α} {V : List (List α)} {N : Nat} {w : ItWorld α} (j : It)
    (h : ItInv k E V N w) : ItInv k E V N ⟨w.range, w.its ++ [j]⟩ := by
  obtain ⟨it, hi, h⟩ := h
  refine ⟨it, ?_, h⟩
  have := (List.getElem?_eq_some_iff.mp hi).1
  rw [List.getElem?_append_left this]; exact hi

theorem itIncN_inv {k : Nat} {E : List α} (hE : E.Pairwise (· < ·)) (hne : E ≠ []) {V : List (List α)} : ∀ (n N : Nat) (w : ItWorld α),
    ItInv k E V N w → ∃ w', itIncN 0 n w = ok w' ∧ ItInv k E V (N + n) w' := by
  intro n
  induction n with
  | zero => intro N w h; exact ⟨w, rfl, h⟩
  | succ n ih =>
    intro N w h
    obtain ⟨w1, e1, h1⟩ := itInc_inv hE hne h
    obtain ⟨w2, e2, h2⟩ := ih _ _ h1
    refine ⟨w2, ?_, by rwa [show N + (n + 1) = N + 1 + n by omega]⟩
    unfold itIncN
    rw [e1, ok_bind, e2]

theorem itMove_inv {k : Nat} {E : List α} (hE : E.Pairwise (· < ·)) (hne : E ≠ []) {V : List (List α)} {N : Nat} {w : ItWorld α}
    (h : ItInv k E V N w) (m : Move) : ∃ w', itMove w m = ok w' ∧ ItInv k E V (N + m.steps) w' := by
  cases m with
  | pre => exact itInc_inv hE hne h
  | post =>
    obtain ⟨it, hi, _⟩ := id h
    simp only [itMove, itPost, hi]
    exact itInc_inv hE hne (itInv_push it h)
  | add inc =>
    simp only [itMove, itAdd, Move.steps]
    split
    · exact itIncN_inv hE hne _ _ _ h
    · rename_i hc
      rw [show inc.toNat = 0 by omega]
      exact ⟨w, rfl, h⟩

theorem itMoves_inv {k : Nat} {E : List α} (hE : E.Pairwise (· < ·)) (hne : E ≠ []) {V : List (List α)} : ∀ (ms : List Move) {N : Nat} {w : ItWorld α},
    ItInv k E V N w → ∃ w', itMoves w ms = ok w' ∧ ItInv k E V (N + (ms.map Move.steps).sum) w' := by
  intro ms
  induction ms with
  | nil => intro N w h; exact ⟨w, rfl, h⟩
  | cons m ms ih =>
    intro N w h
    obtain ⟨w1, e1, h1⟩ := itMove_inv hE hne h m
    obtain ⟨w2, e2, h2⟩ := ih h1
    refine ⟨w2, ?_, by simpa [Nat.add_assoc] using h2⟩
    unfold itMoves
    rw [e1, ok_bind, e2]

theorem visit_take {k fuel : Nat} {s : List α} {V : List (List α)} (h : visitCombinations k fuel s = ok V) : V.head? = some (s.take k) := by
  cases fuel with
  | zero => cases h
  | succ f =>
    unfold visitCombinations at h
    obtain ⟨⟨b, s'⟩, _, h⟩ := bind_eq_ok.mp h
    cases b with
    | false => simp at h; subst h; simp
    | true =>
      simp only [if_true] at h
      obtain ⟨r, _, h⟩ := bind_eq_ok.mp h
      cases h; simp

/-- A `combination_iterator` over a non-empty range of distinct elements (sorted, or announced as not sorted), moved by any mixture of `++it`,
`it++` and `it += n`: after `N` steps `*it` is the `N`-th of the `k`-element combinations in lexicographic order and the iterator differs from the
end iterator; from `C(n,k)` steps on it is equal to the end iterator and the range is sorted. -/
theorem C119_combination_iterator_partial (k : Nat) (E : List α) (hE : E.Pairwise (· < ·)) (hk : k ≤ E.length) (hne : E ≠ [])
    (range : List α) (sorted : Bool) (hr : range = E ∨ (sorted = false ∧ range.Perm E)) :
    ∃ V : List (List α), V.Pairwise (· < ·) ∧ V.Perm (E.sublistsLen k) ∧ ∃ w0, itMake k range sorted = ok w0 ∧
      ∀ moves : List Move, ∃ w it, itMoves w0 moves = ok w ∧ w.its[0]? = some it ∧
        (∀ h : (moves.map Move.steps).sum < V.length, itShow w it = V[(moves.map Move.steps).sum] ∧ itEq it (itEnd E.length) = false) ∧
        (V.length ≤ (moves.map Move.steps).sum → itEq it (itEnd E.length) = true ∧ w.range = E) := by
  obtain ⟨V, v1, v2, v3⟩ := C44_visits_all k E hE hk
  have hperm : range.Perm E := by
    rcases hr with rfl | h
    · exact .refl _
    · exact h.2
  have hlen := hperm.length_eq
  have hsort : (if sorted then range else range.insertionSort (· ≤ ·)) = E := by
    have hs : range.insertionSort (· ≤ ·) = E := by
      refine List.Perm.eq_of_pairwise (le := (· ≤ ·)) (fun a b _ _ h1 h2 => le_antisymm h1 h2) ?_ (hE.imp le_of_lt) ((List.perm_insertionSort _ _).trans hperm)
      exact List.pairwise_insertionSort _ _
    rcases hr with rfl | h
    · cases sorted
      · simpa using hs
      · simp
    · rw [h.1]; simpa using hs
  refine ⟨V, v2, v3, _, by rw [itMake, if_neg (by omega)], fun moves => ?_⟩
  rw [hsort, hlen]
  have hsplit : E.take k ++ E.drop k = E := List.take_append_drop k E
  have hs := List.pairwise_append.mp (hsplit.symm ▸ hE)
  have h0 : ItInv k E V 0 ⟨E, [⟨0, E.length, k, (0, k)⟩]⟩ := by
    refine ⟨_, rfl, rfl, rfl, Or.inl ⟨List.length_pos_iff.mpr (visit_ne_nil v1), rfl, rfl, E.take k, E.drop k, _, hsplit.symm, by simp; omega, hs.1, hs.2.1,
      fun a ha hb => lt_irrefl _ (hs.2.2 a ha a hb), by rw [hsplit], by rw [hsplit, List.drop_zero]; exact v1⟩⟩
  obtain ⟨w, e, it, hi, hsh, hl, h⟩ := itMoves_inv hE hne moves h0
  rw [Nat.zero_add] at h
  have hpos := List.length_pos_iff.mpr hne
  refine ⟨w, it, e, hi, fun hN => ?_, fun hN => ?_⟩
  · rcases h with ⟨_, hf, hm, A, R, fuel, hw, hA, _, _, _, _, hv⟩ | ⟨hN', _⟩
    · have ht := visit_take hv
      rw [List.head?_drop, List.getElem?_eq_getElem hN] at ht
      refine ⟨?_, ?_⟩
      · rw [itShow, hsh, hw]
        simpa using (Option.some.inj ht).symm
      · rw [itEq, hf]
        simp [itEnd]; omega
    · omega
  · rcases h with ⟨hN', _⟩ | ⟨_, hf, hm, hw⟩
    · omega
    · exact ⟨by simp [itEq, hf, hm, hl, itEnd], hw⟩

example : ∃ w it, itMake 2 [3, 1, 2] false = ok w ∧ (∃ w', itMoves w [.pre, .add (-4), .post] = ok w' ∧ w'.its[0]? = some it ∧ itShow w' it = [2, 3]) := by
  refine ⟨⟨[1, 2, 3], [⟨0, 3, 2, (0, 2)⟩]⟩, ⟨0, 3, 2, (0, 2)⟩, by decide +kernel, ⟨[2, 3, 1], [⟨0, 3, 2, (0, 2)⟩, ⟨0, 3, 2, (0, 2)⟩]⟩, ?_, ?_, ?_⟩
  · decide +kernel
  · rfl
  · decide

/-- The copies of an iterator, and the value of `it++`, are positions in the same range: after an increment that does not reach the end the copy
shows the new combination, not the one it was taken at, and compares equal to the incremented iterator. -/
theorem C119_copies_follow (w w' : ItWorld α) (i : Nat) (it : It) (hi : w.its[i]? = some it) (h : itPost w i = ok w')
    (hmore : w'.its[i]? = some it) :
    ∃ copy, w'.its[w.its.length]? = some copy ∧ itShow w' copy = itShow w' it ∧ itEq copy it = true := by
  refine ⟨it, ?_, rfl, by simp [itEq]⟩
  have hlt := (List.getElem?_eq_some_iff.mp hi).1
  unfold itPost at h
  simp only [hi] at h
  unfold itInc at h
  simp only [List.getElem?_append_left hlt, hi] at h
  split at h
  · obtain ⟨⟨b, r⟩, _, h⟩ := bind_eq_ok.mp h
    cases b
    · simp at h; subst h
      rw [List.getElem?_set_ne (by omega)]; simp
    · simp at h; subst h
      simp
  · cases h; simp

/-- So the usual loop `while (it != end) use(*it++)` misses the first combination of every sorted range with at least two combinations: what it uses
first is the second one. -/
theorem C119_post_increment_skips (k : Nat) (E : List α) (hE : E.Pairwise (· < ·)) (hk : k < E.length) (h0 : 0 < k) :
    ∃ w w' copy, itMake k E true = ok w ∧ itPost w 0 = ok w' ∧ w'.its[1]? = some copy ∧ itShow w' copy ≠ E.take k := by
  have hne : E ≠ [] := by intro h; subst h; simp at hk
  obtain ⟨V, v1, v2, w0, e0, hm⟩ := C119_combination_iterator_partial k E hE (by omega) hne E true (Or.inl rfl)
  have hc : V.length = E.length.choose k := by rw [v2.length_eq, List.length_sublistsLen]
  have h2 : 2 ≤ V.length := by
    rw [hc]
    obtain ⟨n, hn⟩ : ∃ n, E.length = n + 1 := ⟨E.length - 1, by omega⟩
    obtain ⟨j, hj⟩ : ∃ j, k = j + 1 := ⟨k - 1, by omega⟩
    rw [hn, hj, Nat.choose_succ_succ']
    have a := Nat.choose_pos (n := n) (k := j) (by omega)
    have b := Nat.choose_pos (n := n) (k := j + 1) (by omega)
    omega
  obtain ⟨wa, ita, ea, ia, sa, _⟩ := hm []
  obtain ⟨wb, itb, eb, ib, sb, _⟩ := hm [.post]
  cases ea
  have e0' := e0
  rw [itMake, if_neg (by omega)] at e0'
  cases e0'
  cases ia
  have sa := (sa (by simp; omega)).1
  have sb := (sb (by simp [Move.steps]; omega))
  have ep : itPost (⟨if true = true then E else E.insertionSort (· ≤ ·), [⟨0, E.length, k, (0, k)⟩]⟩ : ItWorld α) 0 = ok wb := by
    unfold itMoves at eb
    obtain ⟨x, ex, eb⟩ := bind_eq_ok.mp eb
    cases eb; exact ex
  have hsame : itb = ⟨0, E.length, k, (0, k)⟩ := by
    unfold itPost at ep
    simp only [List.getElem?_cons_zero] at ep
    unfold itInc at ep
    simp only [List.cons_append, List.nil_append, List.getElem?_cons_zero] at ep
    rw [if_pos (by simp; omega)] at ep
    obtain ⟨⟨b, r⟩, _, ep⟩ := bind_eq_ok.mp ep
    cases b
    · simp at ep; subst ep
      simp at ib; subst ib
      simp [itEq, itEnd] at sb
    · simp at ep; subst ep
      simp at ib; exact ib.symm
  obtain ⟨copy, c1, c2, _⟩ := C119_copies_follow _ wb 0 ⟨0, E.length, k, (0, k)⟩ rfl ep (hsame ▸ ib)
  refine ⟨_, wb, copy, e0, ep, c1, ?_⟩
  rw [c2, ← hsame, sb.1]
  simp only [itShow, if_true, List.drop_zero] at sa
  rw [sa]
  have := List.pairwise_iff_getElem.mp v1 0 1 (by omega) (by omega) (by omega)
  simp [Move.steps]
  exact fun h => absurd (h ▸ this) (lt_irrefl _)

example : ([1, 2, 3] : List Nat).Pairwise (· < ·) ∧ 2 < [1, 2, 3].length ∧ 0 < 2 := by decide

/-- Over an empty range the iterator is the end iterator from the beginning: the one combination of no elements is not visited. -/
theorem C119_empty_range (w : ItWorld α) (h : itMake 0 ([] : List α) true = ok w) : ∃ it, w.its[0]? = some it ∧ itEq it (itEnd 0) = true := by
  cases h; exact ⟨_, rfl, rfl⟩

example : (itMake 0 ([] : List Nat) true) = ok ⟨[], [⟨0, 0, 0, (0, 0)⟩]⟩ := rfl

/-- A `k` larger than the range leaves it. -/
theorem C119_too_large (k : Nat) (range : List α) (sorted : Bool) (h : range.length < k) : itMake k range sorted = ub := by rw [itMake, if_pos h]

example : [1, 2].length < 3 := by decide

end Strtk.Combi
