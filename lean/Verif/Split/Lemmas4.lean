import Verif.Split.Lemmas3

/-! Helper lemmas for `offset_splitter` and `split_pair`. -/

namespace Strtk.Split
open Outcome

variable {α : Type}

theorem cutPoint_succ (len : Nat → Int) (n i : Nat) :
    cutPoint len n (i + 1) = cutPoint len n i + min (n - cutPoint len n i) (len i).toNat := by
  simp only [cutPoint, List.range_succ, List.map_append, List.map_cons, List.map_nil, List.sum_append, List.sum_cons, List.sum_nil]
  omega

/-- Index bookkeeping of the offset predicate: valid positions of `current_index_`. -/
def idxOk (offs : List Int) (rotate : Bool) (idx : Nat) : Prop :=
  if rotate then idx < offs.length ∨ (offs = [] ∧ idx = 0) else idx ≤ offs.length

theorem offsetNext_spec (offs : List Int) (rotate : Bool) (idx i j : Nat) (h : idxOk offs rotate idx)
    (hstream : ∀ k, offsetAt offs rotate idx k = offsetAt offs rotate j (i + k)) :
    ∃ idx', offsetNext offs rotate idx = ok (offsetAt offs rotate j i, idx') ∧
      (0 < offsetAt offs rotate j i → idxOk offs rotate idx' ∧
        ∀ k, offsetAt offs rotate idx' k = offsetAt offs rotate j (i + 1 + k)) := by
  have h0 : offsetAt offs rotate j i = offsetAt offs rotate idx 0 := by rw [hstream 0]; simp
  rw [h0]
  have hs : ∀ k, offsetAt offs rotate j (i + 1 + k) = offsetAt offs rotate idx (1 + k) := by
    intro k; rw [hstream (1 + k)]; congr 1; omega
  cases rotate with
  | false =>
    simp [idxOk] at h
    refine ⟨idx + 1, ?_, ?_⟩
    · unfold offsetNext
      rw [deref_eq_ok (by simp; omega)]
      simp [offsetAt]
      rcases Nat.lt_or_ge idx offs.length with hlt | hge
      · simp [List.getElem_append, hlt]
      · have : idx = offs.length := by omega
        simp [this]
    · intro hpos
      constructor
      · simp only [idxOk, Bool.false_eq_true, if_false]
        rcases Nat.lt_or_ge idx offs.length with hlt | hge
        · omega
        · simp [offsetAt, hge] at hpos
      · intro k
        rw [hs]
        simp only [offsetAt, Bool.false_eq_true, if_false]
        rw [Nat.add_assoc]
  | true =>
    simp [idxOk] at h
    rcases h with h | ⟨rfl, rfl⟩
    · refine ⟨if idx + 1 ≥ offs.length then 0 else idx + 1, ?_, ?_⟩
      · unfold offsetNext
        rw [deref_eq_ok (by simp; omega)]
        simp only [ok_bind, Bool.true_and, decide_eq_true_eq, offsetAt, if_true, Nat.add_zero]
        rw [Nat.mod_eq_of_lt h]
        simp only [List.getElem_append, h, dif_pos, List.getElem?_eq_getElem, Option.getD_some]
        split <;> rfl
      · intro _
        constructor
        · simp only [idxOk, if_true]
          left; split <;> omega
        · intro k
          rw [hs]
          simp only [offsetAt, if_true]
          congr 2
          split
          · have : idx + 1 = offs.length := by omega
            rw [← Nat.add_assoc, this]; simp
          · congr 1; omega
    · refine ⟨0, ?_, ?_⟩
      · simp [offsetNext, offsetAt, deref]
      · intro hpos; simp [offsetAt] at hpos

theorem offsetLoop_spec (s : List α) (offs : List Int) (rotate : Bool) (j : Nat) :
    ∀ (fuel i idx : Nat) (out : List (Nat × Nat)) (count : Nat),
      idxOk offs rotate idx →
      (∀ k, offsetAt offs rotate idx k = offsetAt offs rotate j (i + k)) →
      s.length - cutPoint (offsetAt offs rotate j) s.length i < fuel →
      ∃ m idx', offsetLoop s offs rotate fuel idx (cutPoint (offsetAt offs rotate j) s.length i)
            (s.length - cutPoint (offsetAt offs rotate j) s.length i) out count =
          ok (out ++ (List.range' i m).map (fun q => (cutPoint (offsetAt offs rotate j) s.length q, cutPoint (offsetAt offs rotate j) s.length (q + 1))),
              count + m, idx') ∧
        (∀ q, i ≤ q → q < i + m → 0 < offsetAt offs rotate j q ∧ cutPoint (offsetAt offs rotate j) s.length q < s.length) ∧
        (cutPoint (offsetAt offs rotate j) s.length (i + m) = s.length ∨ offsetAt offs rotate j (i + m) ≤ 0) := by
  intro fuel
  induction fuel with
  | zero => intros; omega
  | succ fuel ih =>
    intro i idx out count hok hstream hf
    have hle : cutPoint (offsetAt offs rotate j) s.length i ≤ s.length := by simp [cutPoint]; omega
    unfold offsetLoop
    by_cases hend : s.length = cutPoint (offsetAt offs rotate j) s.length i
    · rw [if_neg (by simp [← hend])]
      exact ⟨0, idx, by simp, by intro q h1 h2; omega, Or.inl (by simpa using hend.symm)⟩
    · rw [if_pos hend]
      obtain ⟨idx', hn, hpos⟩ := offsetNext_spec offs rotate idx i j hok hstream
      rw [hn, ok_bind]
      by_cases ho : 0 < offsetAt offs rotate j i
      · simp only [ho, if_true]
        obtain ⟨hok', hstream'⟩ := hpos ho
        have hsucc := cutPoint_succ (offsetAt offs rotate j) s.length i
        have hlt : s.length - cutPoint (offsetAt offs rotate j) s.length (i + 1) < fuel := by
          have : 0 < (offsetAt offs rotate j i).toNat := by omega
          omega
        obtain ⟨m, idx'', h1, h2, h3⟩ := ih (i + 1) idx'
          (out ++ [(cutPoint (offsetAt offs rotate j) s.length i, cutPoint (offsetAt offs rotate j) s.length (i + 1))]) (count + 1) hok' hstream' hlt
        refine ⟨m + 1, idx'', ?_, ?_, ?_⟩
        · rw [← hsucc,
            show s.length - cutPoint (offsetAt offs rotate j) s.length i - min (s.length - cutPoint (offsetAt offs rotate j) s.length i) (offsetAt offs rotate j i).toNat
              = s.length - cutPoint (offsetAt offs rotate j) s.length (i + 1) by rw [hsucc]; omega, h1]
          simp [List.range'_succ]; omega
        · intro q hq1 hq2
          rcases Nat.eq_or_lt_of_le hq1 with rfl | hq
          · exact ⟨ho, by omega⟩
          · exact h2 q hq (by omega)
        · rw [show i + (m + 1) = i + 1 + m by omega]; exact h3
      · simp only [ho, if_false]
        exact ⟨0, idx', by simp, by intro q h1 h2; omega, Or.inr (by simp; omega)⟩

theorem splitPairLoop_none (d : α → Bool) (s : List α) :
    ∀ (fuel : Nat) (pre t : List α), s = pre ++ t → (∀ c ∈ t, d c = false) → t.length < fuel →
      splitPairLoop d s fuel pre.length = ok (false, none, none) := by
  intro fuel
  induction fuel with
  | zero => intros; omega
  | succ fuel ih =>
    intro pre t hs ht hf
    unfold splitPairLoop
    cases t with
    | nil => simp [hs]
    | cons c t =>
      have hlen : s.length ≠ pre.length := by rw [hs]; simp
      have hd : deref s pre.length = ok c := by rw [hs]; exact deref_append_cons _ _ _
      rw [if_pos hlen, hd, ok_bind, if_neg (by simp [ht c])]
      have := ih (pre ++ [c]) t (by simp [hs]) (fun x hx => ht x (by simp [hx])) (by simp at hf; omega)
      simpa using this

theorem splitPairLoop_some (d : α → Bool) (s : List α) (c : α) (v : List α) (hc : d c = true) :
    ∀ (fuel : Nat) (pre u : List α), s = pre ++ u ++ c :: v → (∀ x ∈ u, d x = false) → u.length + 1 < fuel →
      splitPairLoop d s fuel pre.length =
        if v = [] then ok (false, some (0, pre.length + u.length), none)
        else ok (true, some (0, pre.length + u.length), some (pre.length + u.length + 1, s.length)) := by
  intro fuel
  induction fuel with
  | zero => intros; omega
  | succ fuel ih =>
    intro pre u hs hu hf
    unfold splitPairLoop
    cases u with
    | nil =>
      have hs' : s = pre ++ c :: v := by simpa using hs
      have hlen : s.length ≠ pre.length := by rw [hs']; simp
      have hd : deref s pre.length = ok c := by rw [hs']; exact deref_append_cons _ _ _
      rw [if_pos hlen, hd, ok_bind, if_pos hc]
      have : s.length - (pre.length + 1) = v.length := by rw [hs']; simp; omega
      rw [this]
      by_cases hv : v = []
      · simp [hv]
      · simp [hv]
    | cons x u =>
      have hs' : s = pre ++ x :: (u ++ c :: v) := by simp [hs]
      have hlen : s.length ≠ pre.length := by rw [hs']; simp
      have hd : deref s pre.length = ok x := by rw [hs']; exact deref_append_cons _ _ _
      rw [if_pos hlen, hd, ok_bind, if_neg (by simp [hu x])]
      have := ih (pre ++ [x]) u (by simp [hs]) (fun y hy => hu y (by simp [hy])) (by simp at hf; omega)
      simp only [List.length_append, List.length_cons, List.length_nil, Nat.zero_add] at this
      rw [this, show pre.length + 1 + u.length = pre.length + (x :: u).length by simp; omega]

end Strtk.Split
