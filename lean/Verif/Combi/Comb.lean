import Verif.Combi.ForEach
import Verif.Combi.Binomial
import Verif.Combi.Perm

/-! # nth_combination_sequence (C43) -/

namespace Strtk.Combi
open Outcome Mem

/-- `c` is the `n`-th (from 0) combination of `k` indexes out of `0 .. r-1` in lexicographic order: it is one of them (increasing), and exactly `n` of
them are smaller. -/
def IsNthCombination (n r k : Nat) (c : List Nat) : Prop :=
  c ∈ (List.range r).sublistsLen k ∧ (((List.range r).sublistsLen k).filter fun q => decide (q < c)).length = n

theorem parts_length {α : Type} (k : Nat) (l : List α) : (parts k l).length = l.length.choose k := by
  rw [(parts_perm k l).length_eq, List.length_sublistsLen]

theorem parts_sorted : ∀ (l : List Nat) (k : Nat), l.Pairwise (· < ·) → (parts k l).Pairwise (· < ·) := by
  intro l
  induction l with
  | nil => intro k _; cases k <;> simp [parts]
  | cons a t ih =>
    intro k h
    cases k with
    | zero => simp [parts]
    | succ k =>
      obtain ⟨h1, h2⟩ := List.pairwise_cons.mp h
      rw [parts, List.pairwise_append]
      refine ⟨?_, ih (k + 1) h2, ?_⟩
      · rw [List.pairwise_map]
        exact (ih k h2).imp fun {p q} hpq => by rw [List.cons_lt_cons_iff]; right; exact ⟨rfl, hpq⟩
      · intro p hp q hq
        rw [List.mem_map] at hp
        obtain ⟨p', _, rfl⟩ := hp
        have hq' := (parts_perm (k + 1) t).mem_iff.mp hq
        rw [List.mem_sublistsLen] at hq'
        match q, hq' with
        | b :: q, hq' =>
          rw [List.cons_lt_cons_iff]
          left
          exact h1 b (hq'.1.subset (by simp))

theorem nth_of_parts (n r k : Nat) (c : List Nat) (h : (parts k (List.range r))[n]? = some c) : IsNthCombination n r k c := by
  refine ⟨(parts_perm k _).mem_iff.mp (List.mem_of_getElem? h), ?_⟩
  rw [← ((parts_perm k (List.range r)).filter _).length_eq]
  exact filter_lt_sorted _ (parts_sorted _ k List.pairwise_lt_range) n c h

theorem parts_range_cons (kk prev r : Nat) (h : prev < r) :
    parts (kk + 1) (List.range' prev (r - prev)) =
      (parts kk (List.range' (prev + 1) (r - (prev + 1)))).map (prev :: ·) ++ parts (kk + 1) (List.range' (prev + 1) (r - (prev + 1))) := by
  rw [show r - prev = (r - (prev + 1)) + 1 by omega, List.range'_succ, parts]

theorem binom_toNat {n k : Nat} (h : n.choose k < 2 ^ 64) : (binom n k).toNat = n.choose k := by
  unfold binom; rw [BitVec.toNat_ofNat, Nat.mod_eq_of_lt h]

theorem advance_spec (r k i n1 B : Nat) (hr : r < 2 ^ 32) (hi : i < k) (hB : B < 2 ^ 64) : ∀ (fuel prev : Nat) (x : U64) (st : List U64),
    StaticOk st → prev ≤ r → r - prev < fuel → x.toNat < n1 → n1 ≤ x.toNat + (r - prev).choose (k - i + 1) →
    x.toNat + (r - prev).choose (k - i + 1) ≤ B →
    ∃ idx j x' st', advanceIndex r k i n1 fuel prev x st = ok (idx, j, x', st') ∧ StaticOk st' ∧ prev + 1 ≤ idx ∧ idx ≤ r ∧
      (x' - j).toNat < n1 ∧ n1 ≤ (x' - j).toNat + (r - idx).choose (k - i) ∧ (x' - j).toNat + (r - idx).choose (k - i) ≤ B ∧
      (parts (k - i + 1) (List.range' prev (r - prev)))[n1 - 1 - x.toNat]? =
        ((parts (k - i) (List.range' idx (r - idx)))[n1 - 1 - (x' - j).toNat]?).map ((idx - 1) :: ·) := by
  intro fuel
  induction fuel with
  | zero => intro prev x st _ _ h; omega
  | succ f ih =>
    intro prev x st hst hp hf hx hn hb
    have hpr : prev < r := by
      by_contra hc
      rw [show r - prev = 0 by omega, Nat.choose_zero_succ] at hn
      omega
    have hpas : (r - prev).choose (k - i + 1) = (r - (prev + 1)).choose (k - i) + (r - (prev + 1)).choose (k - i + 1) := by
      rw [show r - prev = (r - (prev + 1)) + 1 by omega, Nat.choose_succ_succ']
    rw [hpas] at hn hb
    unfold advanceIndex
    obtain ⟨st', hc, hst'⟩ := nChooseK_spec st hst (r - (prev + 1)) (k - i) (by omega) (Or.inr (by omega))
    have hbi := binom_toNat (n := r - (prev + 1)) (k := k - i) (by omega)
    simp only
    rw [show (r + (2 ^ 64 - (prev + 1))) % 2 ^ 64 = r - (prev + 1) by omega, hc, ok_bind]
    simp only
    have hxt : (x + binom (r - (prev + 1)) (k - i)).toNat = x.toNat + (r - (prev + 1)).choose (k - i) := by
      rw [BitVec.toNat_add, hbi, Nat.mod_eq_of_lt (by omega)]
    have hlen : ((parts (k - i) (List.range' (prev + 1) (r - (prev + 1)))).map (prev :: ·)).length = (r - (prev + 1)).choose (k - i) := by
      rw [List.length_map, parts_length, List.length_range']
    rw [parts_range_cons _ _ _ hpr]
    by_cases hgt : n1 > (x + binom (r - (prev + 1)) (k - i)).toNat
    · rw [if_pos hgt]
      rw [hxt] at hgt
      obtain ⟨idx, j, x', st'', h1, h2, h3, h4, h5, h6, h7, h8⟩ :=
        ih (prev + 1) (x + binom (r - (prev + 1)) (k - i)) st' hst' (by omega) (by omega) (by omega) (by omega) (by omega)
      refine ⟨idx, j, x', st'', h1, h2, by omega, h4, h5, h6, h7, ?_⟩
      rw [← h8, List.getElem?_append_right (by omega), hlen, hxt]
      congr 1
      omega
    · rw [if_neg hgt]
      rw [hxt] at hgt
      have e : x + binom (r - (prev + 1)) (k - i) - binom (r - (prev + 1)) (k - i) = x := BitVec.add_sub_cancel _ _
      refine ⟨prev + 1, binom (r - (prev + 1)) (k - i), x + binom (r - (prev + 1)) (k - i), st', rfl, hst', by omega, by omega, ?_⟩
      rw [e]
      refine ⟨hx, by omega, by omega, ?_⟩
      rw [List.getElem?_append_left (by omega), List.getElem?_map]
      simp

theorem combIndexes_spec (r k n1 B : Nat) (hr : r < 2 ^ 32) (hB : B < 2 ^ 64) : ∀ (rounds i prev : Nat) (x : U64) (st : List U64),
    i + rounds = k → StaticOk st → prev ≤ r → x.toNat < n1 → n1 ≤ x.toNat + (r - prev).choose (rounds + 1) →
    x.toNat + (r - prev).choose (rounds + 1) ≤ B →
    ∃ idxs X st' q, combIndexes r k n1 rounds i prev x st = ok (idxs, X, st') ∧ StaticOk st' ∧ idxs.length = rounds ∧ (∀ v ∈ idxs, 1 ≤ v ∧ v ≤ r) ∧
      (prev :: idxs).getLast? = some q ∧ q ≤ r ∧ X.toNat < n1 ∧ n1 ≤ X.toNat + (r - q) ∧
      (parts (rounds + 1) (List.range' prev (r - prev)))[n1 - 1 - x.toNat]? = some (idxs.map (· - 1) ++ [q + (n1 - 1 - X.toNat)]) := by
  intro rounds
  induction rounds with
  | zero =>
    intro i prev x st _ hst hp hx hn hb
    rw [Nat.zero_add, Nat.choose_one_right] at hn
    refine ⟨[], x, st, prev, by simp [combIndexes], hst, rfl, by simp, by simp, hp, hx, hn, ?_⟩
    have hp1 : ∀ l : List Nat, parts 1 l = l.map fun a => [a] := by
      intro l
      induction l with
      | nil => rfl
      | cons a t ih => rw [parts, ih]; simp [parts]
    rw [Nat.zero_add, hp1, List.getElem?_map, List.getElem?_range' (by omega)]
    simp
  | succ rounds ih =>
    intro i prev x st hk hst hp hx hn hb
    obtain ⟨idx, j, x', st', h1, h2, h3, h4, h5, h6, h7, h8⟩ := advance_spec r k i n1 B hr (by omega) hB (r + 1) prev x st hst hp (by omega) hx
      (by rw [show k - i + 1 = rounds + 1 + 1 by omega]; exact hn) (by rw [show k - i + 1 = rounds + 1 + 1 by omega]; exact hb)
    have e : k - i = rounds + 1 := by omega
    rw [e] at h6 h7 h8
    obtain ⟨idxs, X, st'', q, g1, g2, g3, g4, g5, g6, g7, g8, g9⟩ := ih (i + 1) idx (x' - j) st' (by omega) h2 h4 h5 h6 h7
    refine ⟨idx :: idxs, X, st'', q, ?_, g2, by simp [g3], ?_, by rw [List.getLast?_cons_cons]; exact g5, g6, g7, g8, ?_⟩
    · unfold combIndexes
      rw [h1, ok_bind]
      simp only
      rw [g1, ok_bind]
    · intro v hv
      rcases List.mem_cons.mp hv with rfl | hv
      · omega
      · exact g4 v hv
    · rw [h8, g9]
      simp

/-- For 2 ≤ k ≤ r and every n < C(r,k), as long as C(r,k) fits into 64 bits: the n-th combination in lexicographic order, whatever combinations and
coefficients were asked for before. -/
theorem C43_nth_combination (st : List U64) (hst : StaticOk st) (n r k : Nat) (hk : 2 ≤ k) (hr : r < 2 ^ 32) (hfit : r.choose k < 2 ^ 64)
    (hn : n < r.choose k) :
    ∃ c st', nthCombination st n r k = ok (c, st') ∧ StaticOk st' ∧ IsNthCombination n r k c := by
  obtain ⟨k, rfl⟩ : ∃ k', k = k' + 2 := ⟨k - 2, by omega⟩
  have hx0 : (0 : U64).toNat = 0 := rfl
  obtain ⟨idxs, X, st', q, g1, g2, g3, g4, g5, g6, g7, g8, g9⟩ := combIndexes_spec r (k + 2) (n + 1) (r.choose (k + 2)) hr hfit (k + 1) 1 0 0 st
    (by omega) hst (by omega) (by rw [hx0]; omega) (by rw [hx0, Nat.sub_zero]; show n + 1 ≤ 0 + r.choose (k + 2); omega)
    (by rw [hx0, Nat.sub_zero]; show 0 + r.choose (k + 2) ≤ r.choose (k + 2); omega)
  refine ⟨idxs.map (· - 1) ++ [q + (n - X.toNat)], st', ?_, g2, nth_of_parts _ _ _ _ ?_⟩
  · unfold nthCombination
    rw [if_neg (by omega)]
    simp only
    rw [Nat.mod_eq_of_lt (by omega), show k + 2 - 1 = k + 1 by omega, g1, ok_bind]
    simp only
    have hd : deref idxs (k + 2 - 2) = ok q := by
      have hne : idxs ≠ [] := by rintro rfl; simp at g3
      obtain ⟨a, t, rfl⟩ := List.exists_cons_of_ne_nil hne
      rw [List.getLast?_cons_cons, List.getLast?_eq_getElem?, g3, show k + 1 - 1 = k + 2 - 2 by omega] at g5
      unfold deref
      rw [g5]
    rw [hd, ok_bind, show (q + (n + 1) + (2 ^ 64 - X.toNat)) % 2 ^ 64 = q + (n + 1) - X.toNat by omega, List.map_append]
    have hm1 : (idxs.map fun v => (v + (2 ^ 64 - 1)) % 2 ^ 64) = idxs.map (· - 1) := by
      apply List.map_congr_left
      intro v hv
      have := g4 v hv
      omega
    rw [hm1, List.map_cons, List.map_nil, show (q + (n + 1) - X.toNat + (2 ^ 64 - 1)) % 2 ^ 64 = q + (n - X.toNat) by omega]
  · rw [hx0, Nat.sub_zero, Nat.sub_zero, Nat.add_sub_cancel, ← List.range_eq_range'] at g9
    exact g9

theorem markExisting_spec (r : Nat) : ∀ (c : List Nat) (t : List Bool), t.length = r → (∀ v ∈ c, v < r) →
    ∃ t', markExisting c t = ok t' ∧ t'.length = r ∧ ∀ i < r, t'[i]? = some (decide (i ∈ c) || t[i]?.getD false) := by
  intro c
  induction c with
  | nil =>
    intro t ht _
    refine ⟨t, rfl, ht, fun i hi => ?_⟩
    rw [List.getElem?_eq_getElem (by omega)]
    simp
  | cons a c ih =>
    intro t ht hc
    have ha := hc a (by simp)
    obtain ⟨t', h1, h2, h3⟩ := ih (t.set a true) (by simp [ht]) (fun v hv => hc v (by simp [hv]))
    refine ⟨t', ?_, h2, fun i hi => ?_⟩
    · unfold markExisting store
      rw [if_pos (by omega), ok_bind, h1]
    · rw [h3 i hi, List.getElem?_set]
      by_cases e : a = i
      · subst e; simp [ht, ha]
      · have : i ≠ a := fun x => e x.symm
        simp [e, this]

/-- Through an appending output iterator the combination is followed by the indexes it does not contain, in increasing order (or by nothing). -/
theorem C43_complete_partial (st : List U64) (hst : StaticOk st) (complete : Bool) (n r k : Nat) (hk : 2 ≤ k) (hr : r < 2 ^ 32)
    (hfit : r.choose k < 2 ^ 64) (hn : n < r.choose k) :
    ∃ c st', nthCombinationOut false complete st n r k =
        ok (if complete then c ++ (List.range r).filter fun i => decide (i ∉ c) else c, st') ∧
      StaticOk st' ∧ IsNthCombination n r k c := by
  obtain ⟨c, st', h1, h2, h3⟩ := C43_nth_combination st hst n r k hk hr hfit hn
  refine ⟨c, st', ?_, h2, h3⟩
  unfold nthCombinationOut
  rw [h1, ok_bind]
  simp only
  cases complete
  · rfl
  · have hsub := (List.mem_sublistsLen.mp h3.1).1
    obtain ⟨t, g1, g2, g3⟩ := markExisting_spec r c (List.replicate r false) (by simp) (fun v hv => List.mem_range.mp (hsub.subset hv))
    rw [if_pos rfl, g1, ok_bind]
    simp only [Bool.false_eq_true, if_false, if_true]
    congr 3
    apply List.filter_congr
    intro i hi
    rw [g3 i (List.mem_range.mp hi), List.getElem?_replicate, if_pos (List.mem_range.mp hi)]
    by_cases e : i ∈ c <;> simp [e]

/-- With `k < 2` the function reads outside the index list. -/
theorem C43_k_lt_two (st : List U64) (n r k : Nat) (hk : k < 2) : nthCombination st n r k = ub := by
  unfold nthCombination; rw [if_pos hk]

/-- Through a plain iterator the remaining indexes are written over the combination: `std::copy` does not advance `out`.  The first combination of
two out of four should be followed by its complement, 0 1 2 3; the buffer starts with 2 3. -/
theorem C43_pointer_overwrites : (do let (c, _) ← nthCombinationOut true true freshTable 0 4 2; ok c) = ok [2, 3] := by decide +kernel

example : (do let (c, _) ← nthCombinationOut false true freshTable 3 5 3; ok c) = ok [0, 2, 3, 1, 4] := by decide +kernel
example : IsNthCombination 3 5 3 [0, 2, 3] := by unfold IsNthCombination; decide +kernel

end Strtk.Combi
