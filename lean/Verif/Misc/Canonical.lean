import Verif.Misc.Model
import Mathlib.Data.List.Rotate
import Mathlib.Data.List.Lex

/-!
# C71: lexicographically_canonicalize
-/

namespace Strtk.Misc
open Outcome

variable {α : Type} [LinearOrder α]

/-- `u` comes before `v` when the end of a text counts as greater than every element. -/
inductive Before : List α → List α → Prop
  | ended (a : α) (u : List α) : Before (a :: u) []
  | less {a b : α} (u v : List α) : a < b → Before (a :: u) (b :: v)
  | same (a : α) {u v : List α} : Before u v → Before (a :: u) (a :: v)

theorem Before.append {u v : List α} (h : Before u v) (w : List α) : Before (w ++ u) (w ++ v) := by
  induction w with
  | nil => exact h
  | cons a w ih => exact .same a ih

theorem foldl_min (t : List α) : ∀ a : α, (∀ x ∈ a :: t, t.foldl (fun m x => if x < m then x else m) a ≤ x) ∧
    t.foldl (fun m x => if x < m then x else m) a ∈ a :: t := by
  induction t with
  | nil => intro a; simp
  | cons b t ih =>
    intro a
    rw [List.foldl_cons]
    by_cases h : b < a
    · rw [if_pos h]
      obtain ⟨h1, h2⟩ := ih b
      refine ⟨?_, List.mem_cons_of_mem _ h2⟩
      intro x hx
      rcases List.mem_cons.mp hx with rfl | hx
      · exact le_trans (h1 b (by simp)) (le_of_lt h)
      · exact h1 x hx
    · rw [if_neg h]
      obtain ⟨h1, h2⟩ := ih a
      refine ⟨?_, ?_⟩
      · intro x hx
        rcases List.mem_cons.mp hx with rfl | hx
        · exact h1 _ (by simp)
        · rcases List.mem_cons.mp hx with rfl | hx
          · exact le_trans (h1 a (by simp)) (not_lt.mp h)
          · exact h1 x (by simp [hx])
      · rcases List.mem_cons.mp h2 with h2 | h2
        · rw [h2]; simp
        · simp [h2]

theorem minElement_spec (s : List α) (hs : s ≠ []) : ∃ m, minElement s = ok m ∧ m ∈ s ∧ ∀ x ∈ s, m ≤ x := by
  cases s with
  | nil => simp at hs
  | cons a t => exact ⟨_, rfl, (foldl_min t a).2, (foldl_min t a).1⟩

theorem collect_eq (m : α) : ∀ (s : List α) (i : Nat) (p : Nat × Nat), p ∈ collect m s i ↔ ∃ k, s[k]? = some m ∧ p = (i + k, i + k) := by
  intro s
  induction s with
  | nil => intro i p; simp [collect]
  | cons a t ih =>
    intro i p
    have key : (∃ k, (a :: t)[k]? = some m ∧ p = (i + k, i + k)) ↔ (a = m ∧ p = (i, i)) ∨ ∃ k, t[k]? = some m ∧ p = (i + 1 + k, i + 1 + k) := by
      constructor
      · rintro ⟨k, h1, h2⟩
        cases k with
        | zero => left; exact ⟨by simpa using h1, by simpa using h2⟩
        | succ k => right; exact ⟨k, by simpa using h1, by rw [h2]; ext <;> simp <;> omega⟩
      · rintro (⟨h1, h2⟩ | ⟨k, h1, h2⟩)
        · exact ⟨0, by simp [h1], by simpa using h2⟩
        · exact ⟨k + 1, by simpa using h1, by rw [h2]; ext <;> simp <;> omega⟩
    rw [key]
    unfold collect
    by_cases h : a = m
    · rw [if_pos h, List.mem_cons, ih]; simp [h]
    · rw [if_neg h, ih]; simp [h]

theorem collect_sorted (m : α) : ∀ (s : List α) (i : Nat), (collect m s i).Pairwise (fun p q => p.2 < q.2) := by
  intro s
  induction s with
  | nil => intro i; exact List.Pairwise.nil
  | cons a t ih =>
    intro i
    unfold collect
    by_cases h : a = m
    · rw [if_pos h, List.pairwise_cons]
      refine ⟨?_, ih _⟩
      intro p hp
      obtain ⟨k, _, rfl⟩ := (collect_eq m t (i + 1) p).mp hp
      simp only; omega
    · rw [if_neg h]; exact ih _

theorem advanceAll_eq (n : Nat) (ps : List (Nat × Nat)) :
    advanceAll n ps = (ps.filter (fun p => p.1 + 1 ≠ n)).map (fun p => (p.1 + 1, p.2)) := by
  induction ps with
  | nil => rfl
  | cons p ps ih =>
    unfold advanceAll
    by_cases h : n = p.1 + 1
    · rw [if_pos h, ih]; simp [h]
    · rw [if_neg h, ih]
      have : p.1 + 1 ≠ n := fun e => h e.symm
      simp [this]

theorem smallestOf_spec (s : List α) : ∀ (ps : List (Nat × Nat)) (m : α), (∀ p ∈ ps, p.1 < s.length) →
    ∃ m', smallestOf s m ps = ok m' ∧ m' ≤ m ∧ (∀ p ∈ ps, ∀ x, s[p.1]? = some x → m' ≤ x) ∧ (m' = m ∨ ∃ p ∈ ps, s[p.1]? = some m') := by
  intro ps
  induction ps with
  | nil => intro m _; exact ⟨m, rfl, le_refl _, by simp, Or.inl rfl⟩
  | cons p ps ih =>
    intro m hp
    have hx := List.getElem?_eq_getElem (hp p (by simp))
    unfold smallestOf
    have hd : deref s p.1 = ok (s[p.1]'(hp p (by simp))) := by unfold deref; rw [hx]
    rw [hd, ok_bind]
    generalize s[p.1]'(hp p (by simp)) = x at *
    by_cases h : x < m
    · rw [if_pos h]
      obtain ⟨m', h1, h2, h3, h4⟩ := ih x (fun q hq => hp q (by simp [hq]))
      refine ⟨m', h1, le_trans h2 (le_of_lt h), ?_, ?_⟩
      · intro q hq y hy
        rcases List.mem_cons.mp hq with rfl | hq
        · rw [hx] at hy; cases hy; exact h2
        · exact h3 q hq y hy
      · right
        rcases h4 with rfl | ⟨q, hq, hy⟩
        · exact ⟨p, by simp, hx⟩
        · exact ⟨q, by simp [hq], hy⟩
    · rw [if_neg h]
      obtain ⟨m', h1, h2, h3, h4⟩ := ih m (fun q hq => hp q (by simp [hq]))
      refine ⟨m', h1, h2, ?_, ?_⟩
      · intro q hq y hy
        rcases List.mem_cons.mp hq with rfl | hq
        · rw [hx] at hy; cases hy; exact le_trans h2 (not_lt.mp h)
        · exact h3 q hq y hy
      · rcases h4 with rfl | ⟨q, hq, hy⟩
        · exact Or.inl rfl
        · exact Or.inr ⟨q, by simp [hq], hy⟩

theorem keepSmallest_eq (s : List α) (m : α) : ∀ (ps : List (Nat × Nat)), (∀ p ∈ ps, p.1 < s.length) →
    keepSmallest s m ps = ok (ps.filter (fun p => decide (s[p.1]? = some m))) := by
  intro ps
  induction ps with
  | nil => intro _; rfl
  | cons p ps ih =>
    intro hp
    have hx := List.getElem?_eq_getElem (hp p (by simp))
    have hd : deref s p.1 = ok (s[p.1]'(hp p (by simp))) := by unfold deref; rw [hx]
    unfold keepSmallest
    rw [hd, ok_bind, ih (fun q hq => hp q (by simp [hq])), ok_bind]
    by_cases h : s[p.1]'(hp p (by simp)) = m
    · rw [if_neg (by simpa using h), List.filter_cons_of_pos (by rw [hx, h]; simp)]
    · rw [if_pos h, List.filter_cons_of_neg (by rw [hx]; simpa using h)]

/-- The state of the search: `k + 1` elements of every candidate have been looked at and agree; every other position is beaten by every
candidate. -/
structure Cand (s : List α) (k : Nat) (ps : List (Nat × Nat)) : Prop where
  ne : ps ≠ []
  pos : ∀ p ∈ ps, p.1 = p.2 + k ∧ p.1 < s.length
  sorted : ps.Pairwise (fun p q => p.2 < q.2)
  agree : ∀ p ∈ ps, ∀ q ∈ ps, (s.drop p.2).take (k + 1) = (s.drop q.2).take (k + 1)
  beaten : ∀ j, j < s.length → (∀ p ∈ ps, p.2 ≠ j) → ∀ p ∈ ps, Before (s.drop p.2) (s.drop j)

theorem drop_split (s : List α) (i k : Nat) (h : i + k < s.length) :
    s.drop i = (s.drop i).take k ++ s[i + k] :: s.drop (i + k + 1) := by
  conv_lhs => rw [← List.take_append_drop k (s.drop i), List.drop_drop, List.drop_eq_getElem_cons h]

theorem Cand.step {s : List α} {k : Nat} {ps : List (Nat × Nat)} (h : Cand s k ps) (hlen : ps.length > 1) :
    ∃ ps', Cand s (k + 1) ps' ∧ (∀ fuel, refine s (fuel + 1) ps = refine s fuel ps') := by
  have hmem : ∀ q, q ∈ advanceAll s.length ps ↔ ∃ p ∈ ps, p.1 + 1 ≠ s.length ∧ q = (p.1 + 1, p.2) := by
    intro q
    rw [advanceAll_eq]
    simp only [List.mem_map, List.mem_filter, decide_eq_true_eq]
    exact ⟨fun ⟨p, ⟨a, b⟩, c⟩ => ⟨p, a, b, c.symm⟩, fun ⟨p, a, b, c⟩ => ⟨p, ⟨a, b⟩, c.symm⟩⟩
  have hne1 : advanceAll s.length ps ≠ [] := by
    match ps, hlen, h.pos, h.sorted, hmem with
    | p :: q :: rest, _, hpos, hsort, hmem =>
      have h1 := hpos p (by simp)
      have h2 := hpos q (by simp)
      have h3 := (List.pairwise_cons.mp hsort).1 q (by simp)
      intro he
      have := (hmem (p.1 + 1, p.2)).mpr ⟨p, by simp, by omega, rfl⟩
      rw [he] at this; simp at this
  have hbound : ∀ q ∈ advanceAll s.length ps, q.1 = q.2 + (k + 1) ∧ q.1 < s.length := by
    intro q hq
    obtain ⟨p, hp, h1, rfl⟩ := (hmem q).mp hq
    have := h.pos p hp
    simp only; omega
  have hsorted1 : (advanceAll s.length ps).Pairwise (fun p q => p.2 < q.2) := by
    rw [advanceAll_eq, List.pairwise_map]
    exact (h.sorted.filter _)
  generalize hps1 : advanceAll s.length ps = ps1 at *
  obtain ⟨p0, t, rfl⟩ := List.exists_cons_of_ne_nil hne1
  have hp0 := hbound p0 (by simp)
  have hx0 := List.getElem?_eq_getElem hp0.2
  obtain ⟨m, hm1, hm2, hm3, hm4⟩ := smallestOf_spec s t (s[p0.1]'hp0.2) (fun q hq => (hbound q (by simp [hq])).2)
  have hmin : ∀ q ∈ p0 :: t, ∀ x, s[q.1]? = some x → m ≤ x := by
    intro q hq x hx
    rcases List.mem_cons.mp hq with rfl | hq
    · rw [hx0] at hx; cases hx; exact hm2
    · exact hm3 q hq x hx
  have hatt : ∃ q ∈ p0 :: t, s[q.1]? = some m := by
    rcases hm4 with rfl | ⟨q, hq, hx⟩
    · exact ⟨p0, by simp, hx0⟩
    · exact ⟨q, by simp [hq], hx⟩
  have hkeep := keepSmallest_eq s m (p0 :: t) (fun q hq => (hbound q hq).2)
  generalize hps2 : (p0 :: t).filter (fun p => decide (s[p.1]? = some m)) = ps2 at *
  have hmem2 : ∀ q, q ∈ ps2 ↔ q ∈ p0 :: t ∧ s[q.1]? = some m := by intro q; rw [← hps2, List.mem_filter]; simp
  have hdrop : dropEnded s.length ps2 = ps2 := by
    unfold dropEnded
    rw [List.filter_eq_self]
    intro q hq
    have := (hbound q ((hmem2 q).mp hq).1).2
    simp; omega
  refine ⟨ps2, ⟨?_, ?_, ?_, ?_, ?_⟩, ?_⟩
  · obtain ⟨q, hq, hx⟩ := hatt
    exact List.ne_nil_of_mem ((hmem2 q).mpr ⟨hq, hx⟩)
  · intro q hq; exact hbound q ((hmem2 q).mp hq).1
  · rw [← hps2]; exact hsorted1.filter _
  · intro p hp q hq
    obtain ⟨hp1, hp2⟩ := (hmem2 p).mp hp
    obtain ⟨hq1, hq2⟩ := (hmem2 q).mp hq
    obtain ⟨p', hp', _, rfl⟩ := (hmem p).mp hp1
    obtain ⟨q', hq', _, rfl⟩ := (hmem q).mp hq1
    have ha := h.agree p' hp' q' hq'
    have e1 := hbound _ hp1
    have e2 := hbound _ hq1
    simp only at hp2 hq2 e1 e2 ⊢
    have f1 : (s.drop p'.2)[k + 1]? = some m := by rw [List.getElem?_drop, ← hp2]; congr 1; omega
    have f2 : (s.drop q'.2)[k + 1]? = some m := by rw [List.getElem?_drop, ← hq2]; congr 1; omega
    rw [List.take_add_one (i := k + 1), List.take_add_one (i := k + 1), ha, f1, f2]
  · intro j hj hnot p hp
    obtain ⟨hp1, hp2⟩ := (hmem2 p).mp hp
    obtain ⟨p', hp', hpe, rfl⟩ := (hmem p).mp hp1
    have e1 := hbound _ hp1
    simp only at hp2 e1 ⊢
    by_cases hin : ∃ q ∈ ps, q.2 = j
    · obtain ⟨q', hq', rfl⟩ := hin
      have hqpos := h.pos q' hq'
      have hppos := h.pos p' hp'
      have ha := h.agree p' hp' q' hq'
      have hps := drop_split s p'.2 (k + 1) (by omega)
      by_cases hend : q'.1 + 1 = s.length
      · have hqs : s.drop q'.2 = (s.drop q'.2).take (k + 1) := by
          rw [List.take_of_length_le]; rw [List.length_drop]; omega
        rw [hps, ha]
        have := Before.append (Before.ended (s[p'.2 + (k + 1)]'(by omega)) (s.drop (p'.2 + (k + 1) + 1))) ((s.drop q'.2).take (k + 1))
        rw [List.append_nil, ← hqs] at this
        rw [← hqs]; exact this
      · have hq1 : (q'.1 + 1, q'.2) ∈ p0 :: t := (hmem _).mpr ⟨q', hq', hend, rfl⟩
        have hqlt := (hbound _ hq1).2
        simp only at hqlt
        have hqs := drop_split s q'.2 (k + 1) (by omega)
        have hqx : s[q'.1 + 1]? = some (s[q'.2 + (k + 1)]'(by omega)) := by
          rw [List.getElem?_eq_some_iff]; exact ⟨hqlt, by congr 1; omega⟩
        have hle := hmin _ hq1 _ hqx
        have hneq : s[q'.2 + (k + 1)]'(by omega) ≠ m := by
          intro e
          exact hnot (q'.1 + 1, q'.2) ((hmem2 _).mpr ⟨hq1, by simp only; rw [hqx, e]⟩) rfl
        have hpx : s[p'.2 + (k + 1)]'(by omega) = m := by
          have hx : s[p'.1 + 1]? = some (s[p'.2 + (k + 1)]'(by omega)) := by
            rw [List.getElem?_eq_some_iff]; exact ⟨by omega, by congr 1; omega⟩
          rw [hx] at hp2; exact Option.some.inj hp2
        rw [hps, hqs, ha, hpx]
        exact Before.append (Before.less _ _ (lt_of_le_of_ne hle (Ne.symm hneq))) _
    · exact h.beaten j hj (fun q hq e => hin ⟨q, hq, e⟩) p' hp'
  · intro fuel
    conv_lhs => unfold refine
    rw [if_pos hlen]
    simp only [hps1]
    have hd0 : deref (p0 :: t) 0 = ok p0 := rfl
    have hd1 : deref s p0.1 = ok (s[p0.1]'hp0.2) := by unfold deref; rw [hx0]
    rw [hd0, ok_bind, hd1, ok_bind, List.drop_one, List.tail_cons, hm1, ok_bind, hkeep, ok_bind, hdrop]

theorem Cand.finish {s : List α} : ∀ (fuel k : Nat) (ps : List (Nat × Nat)), Cand s k ps → s.length < fuel + k →
    ∃ p k', refine s fuel ps = ok [p] ∧ Cand s k' [p] := by
  intro fuel
  induction fuel with
  | zero =>
    intro k ps h hf
    obtain ⟨p, t, rfl⟩ := List.exists_cons_of_ne_nil h.ne
    have := h.pos p (by simp); omega
  | succ fuel ih =>
    intro k ps h hf
    by_cases hl : ps.length > 1
    · obtain ⟨ps', h1, h2⟩ := h.step hl
      obtain ⟨p, k', h3, h4⟩ := ih (k + 1) ps' h1 (by omega)
      exact ⟨p, k', by rw [h2, h3], h4⟩
    · obtain ⟨p, t, rfl⟩ := List.exists_cons_of_ne_nil h.ne
      have : t = [] := by cases t with | nil => rfl | cons q t => simp at hl
      subst this
      refine ⟨p, k, ?_, h⟩
      unfold refine
      rw [if_neg hl]

/-- **C71** (what the code does): a non-empty text is replaced by one of its rotations, the one starting at the position whose remaining
text comes before the remaining text of every other position, the end of the text counting as greater than every element. -/
theorem C71_result (s : List α) (hs : s ≠ []) : ∃ i, i < s.length ∧ canonicalize s = ok (s.drop i ++ s.take i) ∧
    ∀ j, j < s.length → j ≠ i → Before (s.drop i) (s.drop j) := by
  obtain ⟨m, h1, h2, h3⟩ := minElement_spec s hs
  have hc : Cand s 0 (collect m s 0) := by
    refine ⟨?_, ?_, collect_sorted m s 0, ?_, ?_⟩
    · obtain ⟨k, hk⟩ := List.mem_iff_getElem?.mp h2
      exact List.ne_nil_of_mem ((collect_eq m s 0 _).mpr ⟨k, hk, rfl⟩)
    · intro p hp
      obtain ⟨k, hk, rfl⟩ := (collect_eq m s 0 p).mp hp
      have := (List.getElem?_eq_some_iff.mp hk).1
      simp only; omega
    · have : ∀ p ∈ collect m s 0, (s.drop p.2).take (0 + 1) = [m] := by
        intro p hp
        obtain ⟨k, hk, rfl⟩ := (collect_eq m s 0 p).mp hp
        obtain ⟨hlt, hg⟩ := List.getElem?_eq_some_iff.mp hk
        simp only [Nat.zero_add]
        rw [List.drop_eq_getElem_cons hlt, hg]; rfl
      intro p hp q hq; rw [this p hp, this q hq]
    · intro j hj hnot p hp
      obtain ⟨k, hk, rfl⟩ := (collect_eq m s 0 p).mp hp
      obtain ⟨hlt, hg⟩ := List.getElem?_eq_some_iff.mp hk
      simp only [Nat.zero_add] at *
      rw [List.drop_eq_getElem_cons hlt, hg, List.drop_eq_getElem_cons hj]
      apply Before.less
      refine lt_of_le_of_ne (h3 _ (List.getElem_mem hj)) ?_
      intro e
      exact hnot (j, j) ((collect_eq m s 0 _).mpr ⟨j, by rw [List.getElem?_eq_getElem hj, e], by simp⟩) rfl
  obtain ⟨p, k', h4, h5⟩ := Cand.finish (s.length + 1) 0 _ hc (by omega)
  have hpos := h5.pos p (by simp)
  refine ⟨p.2, by omega, ?_, ?_⟩
  · unfold canonicalize
    rw [h1, ok_bind, h4, ok_bind]; rfl
  · intro j hj hne
    exact h5.beaten j hj (by intro q hq; simp at hq; subst hq; exact Ne.symm hne) p (by simp)

/-- **C71** (negative result): an empty range is not supported. -/
theorem C71_empty : canonicalize ([] : List α) = ub := rfl

/-- No text from a position holding a smallest element to the end occurs at an earlier position as well. -/
def EndsUnrepeated (s : List α) : Prop :=
  ∀ i j x, i < j → s[j]? = some x → (∀ y ∈ s, x ≤ y) → ¬ s.drop j <+: s.drop i

theorem Before.cases {u v : List α} (h : Before u v) : v <+: u ∨ ∃ w a b u' v', u = w ++ a :: u' ∧ v = w ++ b :: v' ∧ a < b := by
  induction h with
  | ended a u => left; exact List.nil_prefix
  | less u v h => right; exact ⟨[], _, _, u, v, rfl, rfl, h⟩
  | same a _ ih =>
    rcases ih with h | ⟨w, x, y, u', v', rfl, rfl, h⟩
    · left; exact List.cons_prefix_cons.mpr ⟨rfl, h⟩
    · right; exact ⟨a :: w, x, y, u', v', rfl, rfl, h⟩

theorem Before.head_le {a b : α} {u v : List α} (h : Before (a :: u) (b :: v)) : a ≤ b := by
  cases h with
  | less _ _ h => exact le_of_lt h
  | same _ _ => exact le_refl _

/-- **C71**: for texts whose end does not repeat, the result is the lexicographically least rotation. Missing: other texts, see
`C71_not_least`. -/
theorem C71_least_rotation_partial (s : List α) (hs : s ≠ []) (hu : EndsUnrepeated s) :
    ∃ r, canonicalize s = ok r ∧ r ~r s ∧ ∀ j, r ≤ s.rotate j := by
  obtain ⟨i, hi, h1, h2⟩ := C71_result s hs
  have hrot : ∀ j, j < s.length → s.rotate j = s.drop j ++ s.take j := fun j hj => List.rotate_eq_drop_append_take (by omega)
  refine ⟨s.drop i ++ s.take i, h1, ?_, ?_⟩
  · rw [← hrot i hi]; exact List.IsRotated.forall s i
  · intro j
    have hj : j % s.length < s.length := Nat.mod_lt _ (List.length_pos_iff.mpr hs)
    rw [← List.rotate_mod, hrot _ hj]
    generalize j % s.length = j at *
    by_cases hji : j = i
    · rw [hji]
    · have hb := h2 j hj hji
      rcases hb.cases with hp | ⟨w, a, b, u', v', e1, e2, hlt⟩
      · exfalso
        have hlen := hp.length_le
        rw [List.length_drop, List.length_drop] at hlen
        have hij : i < j := by omega
        apply hu i j (s[j]'hj) hij (List.getElem?_eq_getElem hj) ?_ hp
        intro y hy
        obtain ⟨k, hk, rfl⟩ := List.mem_iff_getElem.mp hy
        have hsame : s[j] = s[i] := by
          obtain ⟨t, ht⟩ := hp
          rw [List.drop_eq_getElem_cons hj, List.drop_eq_getElem_cons hi, List.cons_append] at ht
          exact (List.cons.inj ht).1
        rw [hsame]
        by_cases hki : k = i
        · subst hki; exact le_refl _
        · have := h2 k hk hki
          rw [List.drop_eq_getElem_cons hi, List.drop_eq_getElem_cons hk] at this
          exact this.head_le
      · apply le_of_lt
        rw [e1, e2, List.append_assoc, List.append_assoc]
        exact List.Lex.append_left (· < ·) (List.Lex.rel hlt) w

/-- **C71**: equal results mean rotations of each other. -/
theorem C71_equal_forms (s t r : List α) (h1 : canonicalize s = ok r) (h2 : canonicalize t = ok r) : s ~r t := by
  have key : ∀ u : List α, canonicalize u = ok r → u ~r r := by
    intro u hu
    have hne : u ≠ [] := by rintro rfl; rw [C71_empty] at hu; cases hu
    obtain ⟨i, hi, h, _⟩ := C71_result u hne
    rw [h] at hu; cases hu
    rw [← List.rotate_eq_drop_append_take (by omega)]
    exact (List.IsRotated.forall u i).symm
  exact (key s h1).trans (key t h2).symm

/-- **C71**: among texts whose end does not repeat, being rotations of each other is the same as having equal results. -/
theorem C71_rotations_partial (s t : List α) (hs : s ≠ []) (ht : t ≠ []) (hus : EndsUnrepeated s) (hut : EndsUnrepeated t) :
    s ~r t ↔ canonicalize s = canonicalize t := by
  obtain ⟨r, h1, h2, h3⟩ := C71_least_rotation_partial s hs hus
  obtain ⟨r', h4, h5, h6⟩ := C71_least_rotation_partial t ht hut
  constructor
  · intro hst
    obtain ⟨i, hi⟩ := (hst.trans h5.symm)
    obtain ⟨j, hj⟩ := (hst.symm.trans h2.symm)
    rw [h1, h4]
    congr 1
    exact le_antisymm (hi ▸ h3 i) (hj ▸ h6 j)
  · intro h
    rw [h1] at h
    exact C71_equal_forms s t r h1 h.symm

/-- **C71** (negative result): "aab" and "aba" are rotations of each other, but stay different, and "aba" is not least. -/
theorem C71_not_least : canonicalize [1, 1, 2] = ok [1, 1, 2] ∧ canonicalize [1, 2, 1] = ok [1, 2, 1] ∧
    ([1, 2, 1] : List Nat) ~r [1, 1, 2] ∧ [1, 1, 2] < ([1, 2, 1] : List Nat) := by
  refine ⟨by decide, by decide, ⟨2, rfl⟩, by decide⟩

/-- Non-vacuity: a text with two smallest elements whose end does not repeat. -/
example : canonicalize [3, 1, 2, 1, 1, 2, 2] = ok [1, 1, 2, 2, 3, 1, 2] ∧ EndsUnrepeated [3, 1, 2, 1, 1, 2, 2] := by
  refine ⟨by decide, ?_⟩
  intro i j x hij hj hx
  have hjl : j < 7 := by have := (List.getElem?_eq_some_iff.mp hj).1; simpa using this
  have : ∀ j < 7, ∀ i < j, ¬ ([3, 1, 2, 1, 1, 2, 2] : List Nat)[j]? = some 1 ∨ ¬ ([3, 1, 2, 1, 1, 2, 2] : List Nat).drop j <+: ([3, 1, 2, 1, 1, 2, 2] : List Nat).drop i := by decide
  have hx1 : x = 1 := by
    have h1 := hx 1 (by simp)
    have hmem := List.mem_of_getElem? hj
    simp at hmem
    omega
  subst hx1
  rcases this j hjl i hij with h | h
  · exact absurd hj h
  · exact h

example : ∃ i, i < 4 ∧ canonicalize [3, 1, 2, 1] = ok (([3, 1, 2, 1] : List Nat).drop i ++ ([3, 1, 2, 1] : List Nat).take i) := by
  obtain ⟨i, h1, h2, _⟩ := C71_result ([3, 1, 2, 1] : List Nat) (by decide)
  exact ⟨i, h1, h2⟩

end Strtk.Misc
