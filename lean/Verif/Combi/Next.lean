import Verif.Combi.Model
import Mathlib.Order.Defs.LinearOrder
import Mathlib.Order.Basic
import Mathlib.Data.List.Lex
import Mathlib.Data.List.Sublists
import Mathlib.Data.List.Sort

/-! # next_combination and combination_iterator (C44) -/

namespace Strtk.Combi
open Outcome Mem

variable {α : Type}

theorem rotate_append (a b c d : List α) :
    rotate (a ++ (b ++ (c ++ d))) a.length (a.length + b.length) (a.length + b.length + c.length) = ok (a ++ (c ++ (b ++ d))) := by
  have h : (a ++ (b ++ (c ++ d))).length = a.length + b.length + c.length + d.length := by simp; omega
  rw [rotate, if_pos (by omega)]
  congr 1
  have e1 : (a ++ (b ++ (c ++ d))).drop (a.length + b.length) = c ++ d := by
    rw [← List.append_assoc, List.drop_left' (by simp)]
  have e2 : (a ++ (b ++ (c ++ d))).drop (a.length + b.length + c.length) = d := by
    rw [← List.append_assoc, ← List.append_assoc, List.drop_left' (by simp; omega)]
  rw [e1, e2, List.take_left' rfl, List.drop_left' rfl, show a.length + b.length + c.length - (a.length + b.length) = c.length by omega,
    List.take_left' rfl, show a.length + b.length - a.length = b.length by omega, List.take_left' rfl]
  simp

theorem swapAt_mid (p m q : List α) (a b : α) :
    swapAt (p ++ a :: (m ++ b :: q)) p.length (p.length + 1 + m.length) = ok (p ++ b :: (m ++ a :: q)) := by
  have := swapAt_ends p m q a b
  rwa [show p.length + 1 + m.length = p.length + m.length + 1 by omega]

theorem seekGreater_spec (lt : α → α → Bool) (x y : α) (R1 : List α) : ∀ (fuel : Nat) (pre R2 : List α), R1.length < fuel →
    (∀ r ∈ R1, lt x r = false) → lt x y = true →
    seekGreater lt (pre ++ (R1 ++ y :: R2)) x fuel pre.length = ok (pre.length + R1.length) := by
  induction R1 with
  | nil =>
    intro fuel pre R2 hf _ hy
    cases fuel with
    | zero => simp at hf
    | succ f =>
      unfold seekGreater
      rw [List.nil_append, deref_append_cons, ok_bind, if_neg (by simp [hy])]
      simp
  | cons r R1 ih =>
    intro fuel pre R2 hf hr hy
    cases fuel with
    | zero => simp at hf
    | succ f =>
      unfold seekGreater
      rw [List.cons_append, deref_append_cons, ok_bind, if_pos (by simp [hr r (by simp)])]
      have := ih f (pre ++ [r]) R2 (by simpa using hf) (fun z hz => hr z (List.mem_cons_of_mem _ hz)) hy
      simp at this
      rw [this]
      simp; omega

theorem pace_spec : ∀ (m fuel itr2 j last : Nat), j + m = last → m < fuel → pace last fuel itr2 j = ok (itr2 + m) := by
  intro m
  induction m with
  | zero =>
    intro fuel itr2 j last h hf
    cases fuel with
    | zero => omega
    | succ f => unfold pace; rw [if_neg (by omega)]; rfl
  | succ m ih =>
    intro fuel itr2 j last h hf
    cases fuel with
    | zero => omega
    | succ f =>
      unfold pace
      rw [if_pos (by omega), ih f _ _ last (by omega) (by omega)]
      congr 1; omega

/-- First element with a property. -/
theorem exists_first (p : α → Bool) (l : List α) (h : ∃ a ∈ l, p a = true) :
    ∃ l1 a l2, l = l1 ++ a :: l2 ∧ p a = true ∧ ∀ b ∈ l1, p b = false := by
  induction l with
  | nil => simp at h
  | cons b t ih =>
    by_cases hb : p b = true
    · exact ⟨[], b, t, rfl, hb, by simp⟩
    · obtain ⟨a, ha, hp⟩ := h
      have : a ∈ t := by
        rcases List.mem_cons.mp ha with rfl | h
        · exact absurd hp hb
        · exact h
      obtain ⟨l1, a', l2, e, h1, h2⟩ := ih ⟨a, this, hp⟩
      refine ⟨b :: l1, a', l2, by rw [e]; rfl, h1, ?_⟩
      intro c hc
      rcases List.mem_cons.mp hc with rfl | hc
      · simpa using hb
      · exact h2 c hc

/-- What one call does, for any comparison function: either no element of the first part is below the last element and the parts are exchanged, or
the last such element `x` is exchanged for the first greater one, and the tails are put in order. -/
theorem nextLoop_spec (lt : α → α → Bool) (z : α) (R0 : List α) : ∀ (P T : List α), (∀ t ∈ T, lt t z = false) →
    (nextLoop lt (P.length + T.length) (P ++ T ++ (R0 ++ [z])) P.length = ok (false, (R0 ++ [z]) ++ (P ++ T)) ∧ ∀ a ∈ P, lt a z = false) ∨
    ∃ P' x T' R1 y R2, P ++ T = P' ++ x :: T' ∧ R0 ++ [z] = R1 ++ y :: R2 ∧ lt x z = true ∧ (∀ t ∈ T', lt t z = false) ∧
      (∀ r ∈ R1, lt x r = false) ∧ lt x y = true ∧
      nextLoop lt (P.length + T.length) (P ++ T ++ (R0 ++ [z])) P.length =
        ok (true, P' ++ y :: ((R2 ++ T').take T'.length ++ (R1 ++ x :: (R2 ++ T').drop T'.length))) := by
  intro P
  induction P using List.reverseRecOn with
  | nil =>
    intro T _
    left
    refine ⟨?_, by simp⟩
    show nextLoop lt _ _ 0 = _
    unfold nextLoop
    have := rotate_append [] T (R0 ++ [z]) []
    simp only [List.nil_append, List.length_nil, Nat.zero_add, List.append_nil] at this ⊢
    rw [show (T ++ (R0 ++ [z])).length = T.length + (R0 ++ [z]).length by simp, this, ok_bind]
  | append_singleton P x ih =>
    intro T hT
    have hlen : (P ++ [x]).length = P.length + 1 := by simp
    rw [hlen]
    have hx : deref (P ++ [x] ++ T ++ (R0 ++ [z])) P.length = ok x := by
      have := deref_append_cons P x (T ++ (R0 ++ [z]))
      simpa using this
    have hz : deref (P ++ [x] ++ T ++ (R0 ++ [z])) ((P ++ [x] ++ T ++ (R0 ++ [z])).length - 1) = ok z := by
      have := deref_append_cons (P ++ [x] ++ T ++ R0) z []
      rw [show (P ++ [x] ++ T ++ (R0 ++ [z])).length - 1 = (P ++ [x] ++ T ++ R0).length by simp; omega]
      simpa using this
    by_cases hlt : lt x z = true
    · right
      obtain ⟨R1, y, R2, e, hy, hR1⟩ := exists_first (fun r => lt x r) (R0 ++ [z]) ⟨z, by simp, hlt⟩
      refine ⟨P, x, T, R1, y, R2, by simp, e, hlt, hT, hR1, hy, ?_⟩
      show nextLoop lt _ _ (P.length + 1) = _
      unfold nextLoop
      rw [hx, ok_bind, hz, ok_bind, if_pos hlt, e]
      have hlenR : R1.length + 1 + R2.length = (R0 ++ [z]).length := by rw [e]; simp; omega
      have hk := seekGreater_spec lt x y R1 ((P ++ [x] ++ T ++ (R1 ++ y :: R2)).length + 1) (P ++ [x] ++ T) R2 (by simp; omega) hR1 hy
      have hkl : (P ++ [x] ++ T).length = P.length + 1 + T.length := by simp; omega
      rw [hkl] at hk
      rw [hk, ok_bind]
      have hsw := swapAt_mid P (T ++ R1) R2 x y
      have e1 : P ++ [x] ++ T ++ (R1 ++ y :: R2) = P ++ x :: ((T ++ R1) ++ y :: R2) := by simp
      rw [e1, show P.length + 1 + T.length + R1.length = P.length + 1 + (T ++ R1).length by simp; omega, hsw, ok_bind]
      have hr1 := rotate_append (P ++ [y]) (T ++ R1 ++ [x]) R2 []
      have e2 : P ++ y :: (T ++ R1 ++ x :: R2) = P ++ [y] ++ (T ++ R1 ++ [x] ++ (R2 ++ [])) := by simp
      have e3 : (P ++ [y]).length = P.length + 1 := by simp
      have e4 : (P ++ [y]).length + (T ++ R1 ++ [x]).length = P.length + 1 + (T ++ R1).length + 1 := by simp; omega
      have e5 : (P ++ [y] ++ (T ++ R1 ++ [x] ++ (R2 ++ []))).length = (P ++ [y]).length + (T ++ R1 ++ [x]).length + R2.length := by simp; omega
      rw [e2, e5, ← e4, ← e3, hr1, ok_bind]
      have hp := pace_spec R2.length ((P ++ [y] ++ (R2 ++ (T ++ R1 ++ [x] ++ []))).length + 1) (P.length + 1 + T.length)
        ((P ++ [y]).length + (T ++ R1 ++ [x]).length) (P ++ [y] ++ (R2 ++ (T ++ R1 ++ [x] ++ []))).length (by simp; omega) (by simp; omega)
      rw [show (P ++ [y]).length + T.length = P.length + 1 + T.length by simp, hp, ok_bind]
      have hr2 := rotate_append (P ++ [y] ++ (R2 ++ T).take T.length) ((R2 ++ T).drop T.length) (R1 ++ [x]) []
      have htl : ((R2 ++ T).take T.length).length = T.length := by simp
      have hdl : ((R2 ++ T).drop T.length).length = R2.length := by simp
      have e6 : P ++ [y] ++ (R2 ++ (T ++ R1 ++ [x] ++ [])) =
          P ++ [y] ++ (R2 ++ T).take T.length ++ ((R2 ++ T).drop T.length ++ (R1 ++ [x] ++ [])) := by
        have e8 : R2 ++ (T ++ R1 ++ [x] ++ []) = ((R2 ++ T).take T.length ++ (R2 ++ T).drop T.length) ++ (R1 ++ [x] ++ []) := by
          rw [List.take_append_drop]; simp
        rw [e8]
        simp only [List.append_assoc]
      have e7 : (P ++ [y] ++ (R2 ++ T).take T.length).length = P.length + 1 + T.length := by
        rw [List.length_append, htl]; simp
      have e9 : (P ++ [y] ++ (R2 ++ T).take T.length ++ ((R2 ++ T).drop T.length ++ (R1 ++ [x] ++ []))).length =
          (P ++ [y] ++ (R2 ++ T).take T.length).length + ((R2 ++ T).drop T.length).length + (R1 ++ [x]).length := by
        simp only [List.length_append, List.length_nil]; omega
      rw [e6, e9, ← e7, ← hdl, hr2, ok_bind]
      simp
    · have hlt' : lt x z = false := by simpa using hlt
      have hstep : nextLoop lt (P.length + 1 + T.length) (P ++ [x] ++ T ++ (R0 ++ [z])) (P.length + 1) =
          nextLoop lt (P.length + (x :: T).length) (P ++ (x :: T) ++ (R0 ++ [z])) P.length := by
        conv => lhs; unfold nextLoop
        rw [hx, ok_bind, hz, ok_bind, if_neg hlt]
        congr 1
        · simp; omega
        · simp
      rw [hstep]
      have := ih (x :: T) (by intro t ht; rcases List.mem_cons.mp ht with rfl | ht; exacts [hlt', hT t ht])
      rw [show P ++ [x] ++ T = P ++ x :: T by simp]
      rcases this with ⟨h1, h2⟩ | h
      · left
        refine ⟨h1, ?_⟩
        intro a ha
        rw [List.mem_append, List.mem_singleton] at ha
        rcases ha with ha | rfl
        exacts [h2 a ha, hlt']
      · exact Or.inr h

/-- For every range, every split point inside it and every comparison: the call is memory-safe, terminates and rearranges the range. -/
theorem C44_permutes (lt : α → α → Bool) (k : Nat) (s : List α) (hk : k ≤ s.length) :
    ∃ b s', nextCombination lt k s = ok (b, s') ∧ s'.Perm s := by
  unfold nextCombination
  split
  · exact ⟨false, s, rfl, .refl _⟩
  · rename_i h
    have hne : s.drop k ≠ [] := by simp; omega
    obtain ⟨R0, z, e⟩ : ∃ R0 z, s.drop k = R0 ++ [z] := ⟨(s.drop k).dropLast, (s.drop k).getLast hne, (List.dropLast_concat_getLast hne).symm⟩
    have hs : s.take k ++ [] ++ (R0 ++ [z]) = s := by rw [← e]; simp
    have hl : (s.take k).length = k := by simp; omega
    have := nextLoop_spec lt z R0 (s.take k) [] (by simp)
    rw [hs, hl] at this
    rcases this with ⟨h1, _⟩ | ⟨P', x, T', R1, y, R2, e1, e2, _, _, _, _, h1⟩
    · refine ⟨false, _, h1, ?_⟩
      conv => rhs; rw [← hs]
      exact List.perm_append_comm
    · refine ⟨true, _, h1, ?_⟩
      conv => rhs; rw [← hs, e1, e2]
      have h2 : ((R2 ++ T').take T'.length ++ (R1 ++ x :: (R2 ++ T').drop T'.length)).Perm (x :: (T' ++ (R1 ++ R2))) := by
        have a1 : ((R2 ++ T').take T'.length ++ (R1 ++ x :: (R2 ++ T').drop T'.length)).Perm
            ((x :: R1) ++ ((R2 ++ T').take T'.length ++ (R2 ++ T').drop T'.length)) := by
          refine List.perm_append_comm_assoc _ _ _ |>.trans ?_
          rw [List.cons_append]
          refine (List.Perm.append_left R1 List.perm_middle).trans List.perm_middle
        rw [List.take_append_drop] at a1
        refine a1.trans ?_
        rw [List.cons_append]
        refine List.Perm.cons x ?_
        rw [← List.append_assoc, ← List.append_assoc]
        exact (List.perm_append_comm).trans (by rw [List.append_assoc])
      rw [List.append_assoc]
      refine List.Perm.append_left P' ?_
      refine (h2.cons y).trans ?_
      rw [List.cons_append]
      refine (List.Perm.swap x y _).trans (List.Perm.cons x ?_)
      have : (y :: (T' ++ (R1 ++ R2))).Perm (T' ++ (y :: (R1 ++ R2))) := List.perm_middle.symm
      exact this.trans (List.Perm.append_left T' List.perm_middle.symm)

/-! ## Lexicographic order -/

section order
variable [LinearOrder α]

/-- `c` is a combination of `k` elements of `e`: strictly increasing, of length `k`, all from `e`. -/
def IsComb (k : Nat) (e c : List α) : Prop := c.Pairwise (· < ·) ∧ c.length = k ∧ ∀ a ∈ c, a ∈ e

theorem nodup_of_lt {l : List α} (h : l.Pairwise (· < ·)) : l.Nodup := h.imp (fun h e => by subst e; exact lt_irrefl _ h)

/-- The combination of the greatest elements is the greatest combination. -/
theorem top_max : ∀ (T S E : List α), T.Pairwise (· < ·) → S.Pairwise (· < ·) → S.length = T.length → (∀ s ∈ S, s ∈ E) →
    (∀ e ∈ E, e ∉ T → ∀ t ∈ T, e < t) → S ≤ T := by
  intro T
  induction T with
  | nil => intro S E _ _ hl _ _; simp at hl; rw [hl]
  | cons t T ih =>
    intro S E hT hS hl hE htop
    match S, hl with
    | s :: S, hl =>
      rw [List.pairwise_cons] at hT hS
      rcases lt_trichotomy s t with h | rfl | h
      · exact le_of_lt (List.cons_lt_cons_iff.mpr (Or.inl h))
      · have := ih S (E.filter fun e => decide (s < e)) hT.2 hS.2 (by simpa using hl)
          (by intro a ha; simp only [List.mem_filter, decide_eq_true_eq]; exact ⟨hE a (List.mem_cons_of_mem _ ha), hS.1 a ha⟩)
          (by
            intro e he hne t ht
            simp only [List.mem_filter, decide_eq_true_eq] at he
            exact htop e he.1 (by simp only [List.mem_cons, not_or]; exact ⟨ne_of_gt he.2, hne⟩) t (List.mem_cons_of_mem _ ht))
        rcases this.lt_or_eq with h | h
        · exact le_of_lt (List.cons_lt_cons_iff.mpr (Or.inr ⟨rfl, h⟩))
        · rw [h]
      · exfalso
        have hsub : ∀ a ∈ s :: S, a ∈ T := by
          intro a ha
          have hat : t < a := by
            rcases List.mem_cons.mp ha with rfl | ha
            · exact h
            · exact lt_trans h (hS.1 a ha)
          by_contra hna
          have := htop a (hE a ha) (by simp only [List.mem_cons, not_or]; exact ⟨ne_of_gt hat, hna⟩) t (by simp)
          exact lt_irrefl _ (lt_trans hat this)
        have hnd : (s :: S).Nodup := nodup_of_lt (List.pairwise_cons.mpr hS)
        have := (hnd.subperm hsub).length_le
        simp at this hl
        omega

/-- The first elements of a sorted list form the least combination. -/
theorem take_min : ∀ (U S : List α), U.Pairwise (· < ·) → S.Pairwise (· < ·) → (∀ s ∈ S, s ∈ U) → U.take S.length ≤ S := by
  intro U
  induction U with
  | nil =>
    intro S _ _ h
    match S with
    | [] => simp
    | s :: S => exact absurd (h s (by simp)) (by simp)
  | cons u U ih =>
    intro S hU hS h
    match S with
    | [] => simp
    | s :: S =>
      rw [List.pairwise_cons] at hU hS
      simp only [List.length_cons, List.take_succ_cons]
      rcases List.mem_cons.mp (h s (by simp)) with rfl | hs
      · have := ih S hU.2 hS.2 (by
          intro a ha
          rcases List.mem_cons.mp (h a (List.mem_cons_of_mem _ ha)) with rfl | h'
          · exact absurd (hS.1 a ha) (lt_irrefl _)
          · exact h')
        rcases this.lt_or_eq with h | h
        · exact le_of_lt (List.cons_lt_cons_iff.mpr (Or.inr ⟨rfl, h⟩))
        · rw [h]
      · exact le_of_lt (List.cons_lt_cons_iff.mpr (Or.inl (hU.1 s hs)))

theorem append_lt_iff (P X Y : List α) : P ++ X < P ++ Y ↔ X < Y := by
  induction P with
  | nil => rfl
  | cons p P ih =>
    simp only [List.cons_append]
    rw [List.cons_lt_cons_iff]
    simp [ih]

theorem append_le_iff (P X Y : List α) : P ++ X ≤ P ++ Y ↔ X ≤ Y := by
  rw [← not_lt, ← not_lt, append_lt_iff]

/-- Lists of equal length are compared by their prefixes first. -/
theorem lt_prefix : ∀ (P Q X Y : List α), P.length = Q.length → P ++ X < Q ++ Y → P ≠ Q → ∀ X' Y', P ++ X' < Q ++ Y' := by
  intro P
  induction P with
  | nil => intro Q X Y hl _ hne; exact absurd (List.length_eq_zero_iff.mp hl.symm).symm hne
  | cons p P ih =>
    intro Q X Y hl h hne X' Y'
    match Q, hl with
    | q :: Q, hl =>
      simp only [List.cons_append] at h ⊢
      rw [List.cons_lt_cons_iff] at h ⊢
      rcases h with h | ⟨rfl, h⟩
      · exact Or.inl h
      · exact Or.inr ⟨rfl, ih Q X Y (by simpa using hl) h (by simpa using hne) X' Y'⟩

/-- `next_combination` on two sorted halves with distinct elements: the range stays a rearrangement with both halves sorted; when it returns true
the first half is the immediate successor among all combinations, when it returns false it was the last one and the range is sorted again, so
that its first half is the first combination. -/
theorem C44_next_combination (A R : List α) (hA : A.Pairwise (· < ·)) (hR : R.Pairwise (· < ·)) (hd : ∀ a ∈ A, a ∉ R) :
    ∃ b A' R', nextCombination (fun a b => decide (a < b)) A.length (A ++ R) = ok (b, A' ++ R') ∧ A'.length = A.length ∧
      (A' ++ R').Perm (A ++ R) ∧ A'.Pairwise (· < ·) ∧ R'.Pairwise (· < ·) ∧
      (b = true → A < A' ∧ ∀ C, IsComb A.length (A ++ R) C → A < C → A' ≤ C) ∧
      (b = false → (∀ C, IsComb A.length (A ++ R) C → C ≤ A) ∧ (A' ++ R').Pairwise (· < ·)) := by
  have hnd : (A ++ R).Nodup := List.nodup_append.mpr ⟨nodup_of_lt hA, nodup_of_lt hR, fun a ha b hb e => hd a ha (e ▸ hb)⟩
  by_cases hE : (A ++ R).length = 0 ∨ A.length = 0 ∨ (A ++ R).length = A.length ∨ (A ++ R).length = 1
  · have hn : nextCombination (fun a b => decide (a < b)) A.length (A ++ R) = ok (false, A ++ R) := by rw [nextCombination, if_pos hE]
    refine ⟨false, A, R, hn, rfl, .refl _, hA, hR, by simp, fun _ => ?_⟩
    have hAR : A = [] ∨ R = [] := by
      by_contra hc
      rw [not_or] at hc
      have h1 := List.length_pos_iff.mpr hc.1
      have h2 := List.length_pos_iff.mpr hc.2
      have h3 : (A ++ R).length = A.length + R.length := List.length_append
      by_cases h4 : A.length = 1 ∧ R.length = 0
      · omega
      · omega
    rcases hAR with rfl | rfl
    · refine ⟨?_, by simpa using hR⟩
      intro C hC
      have : C = [] := List.length_eq_zero_iff.mp hC.2.1
      rw [this]
    · refine ⟨?_, by simpa using hA⟩
      intro C hC
      exact top_max A C A hA hC.1 hC.2.1 (by simpa using hC.2.2) (fun e he hne => absurd he hne)
  · have hR0 : R ≠ [] := by rintro rfl; simp at hE
    obtain ⟨R0, z, e⟩ : ∃ R0 z, R = R0 ++ [z] := ⟨R.dropLast, R.getLast hR0, (List.dropLast_concat_getLast hR0).symm⟩
    have hzmax : ∀ r ∈ R, r ≤ z := by
      intro r hr
      rw [e] at hr hR
      rw [List.mem_append, List.mem_singleton] at hr
      rcases hr with hr | rfl
      · exact le_of_lt ((List.pairwise_append.mp hR).2.2 r hr z (by simp))
      · exact le_refl _
    have hzR : z ∈ R := by rw [e]; simp
    have hspec := nextLoop_spec (fun a b => decide (a < b)) z R0 A [] (by simp)
    rw [← e] at hspec
    simp only [List.append_nil, List.length_nil, Nat.add_zero] at hspec
    have hn : nextCombination (fun a b => decide (a < b)) A.length (A ++ R) = nextLoop (fun a b => decide (a < b)) A.length (A ++ R) A.length := by
      rw [nextCombination, if_neg hE]
    rw [hn]
    rcases hspec with ⟨h1, h2⟩ | ⟨P, x, T, R1, y, R2, e1, e2, hx, hT, hR1, hy, h1⟩
    · -- no successor
      have hall : ∀ r ∈ R, ∀ a ∈ A, r < a := by
        intro r hr a ha
        have := h2 a ha
        simp only [decide_eq_false_iff_not, not_lt] at this
        refine lt_of_le_of_ne (le_trans (hzmax r hr) this) ?_
        rintro rfl
        exact hd _ ha hr
      have hsorted : (R ++ A).Pairwise (· < ·) := List.pairwise_append.mpr ⟨hR, hA, hall⟩
      refine ⟨false, (R ++ A).take A.length, (R ++ A).drop A.length, ?_, by simp, ?_, hsorted.take, hsorted.drop, by simp, fun _ => ⟨?_, ?_⟩⟩
      · rw [List.take_append_drop, h1]
      · rw [List.take_append_drop]; exact List.perm_append_comm
      · intro C hC
        refine top_max A C (A ++ R) hA hC.1 hC.2.1 hC.2.2 ?_
        intro r hr hne t ht
        rw [List.mem_append] at hr
        rcases hr with hr | hr
        · exact absurd hr hne
        · exact hall r hr t ht
      · rw [List.take_append_drop]; exact hsorted
    · -- successor
      simp only [decide_eq_true_eq, decide_eq_false_iff_not, not_lt] at hx hT hR1 hy
      subst e1
      have hsR : (R1 ++ y :: R2).Pairwise (· < ·) := e2 ▸ hR
      rw [List.pairwise_append, List.pairwise_cons] at hsR hA
      obtain ⟨sR1, ⟨sy, sR2⟩, sR12⟩ := hsR
      obtain ⟨sP, ⟨sx, sT⟩, sPx⟩ := hA
      have hTz : ∀ t ∈ T, ∀ r ∈ R, r < t := by
        intro t ht r hr
        refine lt_of_le_of_ne (le_trans (hzmax r hr) (hT t ht)) ?_
        rintro rfl
        exact hd _ (by simp [ht]) hr
      have hyR : y ∈ R := by rw [e2]; simp
      have hR2R : ∀ r ∈ R2, r ∈ R := by intro r hr; rw [e2]; simp [hr]
      have hR1R : ∀ r ∈ R1, r ∈ R := by intro r hr; rw [e2]; simp [hr]
      have hR1x : ∀ r ∈ R1, r < x := by
        intro r hr
        refine lt_of_le_of_ne (hR1 r hr) ?_
        rintro rfl
        exact hd _ (by simp) (hR1R _ hr)
      have sM : (R2 ++ T).Pairwise (· < ·) := List.pairwise_append.mpr ⟨sR2, sT, fun r hr t ht => hTz t ht r (hR2R r hr)⟩
      have hyM : ∀ m ∈ R2 ++ T, y < m := by
        intro m hm
        rw [List.mem_append] at hm
        rcases hm with hm | hm
        exacts [sy m hm, hTz m hm y hyR]
      have htl : ((R2 ++ T).take T.length).length = T.length := by simp
      have hres : P ++ y :: ((R2 ++ T).take T.length ++ (R1 ++ x :: (R2 ++ T).drop T.length)) =
          (P ++ y :: (R2 ++ T).take T.length) ++ (R1 ++ x :: (R2 ++ T).drop T.length) := by simp
      refine ⟨true, P ++ y :: (R2 ++ T).take T.length, R1 ++ x :: (R2 ++ T).drop T.length, by rw [h1, hres], ?_, ?_, ?_, ?_, fun _ => ⟨?_, ?_⟩, by simp⟩
      · rw [List.length_append, List.length_cons, htl]; simp
      · rw [← hres]
        obtain ⟨b, s', hp1, hp2⟩ := C44_permutes (fun a b => decide (a < b)) (P ++ x :: T).length (P ++ x :: T ++ R) (by simp)
        rw [hn, h1] at hp1
        simp only [ok.injEq, Prod.mk.injEq] at hp1
        rw [hp1.2]; exact hp2
      · refine List.pairwise_append.mpr ⟨sP, List.pairwise_cons.mpr ⟨?_, sM.take⟩, ?_⟩
        · intro m hm; exact hyM m (List.mem_of_mem_take hm)
        · intro p hp m hm
          have hpy : p < y := lt_trans (sPx p hp x (by simp)) hy
          rcases List.mem_cons.mp hm with rfl | hm
          · exact hpy
          · exact lt_trans hpy (hyM m (List.mem_of_mem_take hm))
      · refine List.pairwise_append.mpr ⟨sR1, List.pairwise_cons.mpr ⟨?_, sM.drop⟩, ?_⟩
        · intro m hm; exact lt_trans hy (hyM m (List.mem_of_mem_drop hm))
        · intro r hr m hm
          rcases List.mem_cons.mp hm with rfl | hm
          · exact hR1x r hr
          · exact lt_trans (hR1x r hr) (lt_trans hy (hyM m (List.mem_of_mem_drop hm)))
      · rw [append_lt_iff, List.cons_lt_cons_iff]; exact Or.inl hy
      · -- minimality
        intro C hC hlt
        obtain ⟨hCs, hCl, hCE⟩ := hC
        have hPl : P.length < C.length := by rw [hCl]; simp
        obtain ⟨c, S, hcS⟩ : ∃ c S, C.drop P.length = c :: S := List.exists_cons_of_ne_nil (by simp; omega)
        have hCe : C = C.take P.length ++ c :: S := by rw [← hcS, List.take_append_drop]
        have hQl : (C.take P.length).length = P.length := by simp; omega
        by_cases hQ : P = C.take P.length
        · rw [← hQ] at hCe
          have hSl : S.length = T.length := by
            have := congrArg List.length hCe
            rw [hCl] at this
            simp at this; omega
          rw [hCe] at hCs hlt ⊢
          rw [append_lt_iff, List.cons_lt_cons_iff] at hlt
          rw [append_le_iff]
          rw [List.pairwise_append, List.pairwise_cons] at hCs
          obtain ⟨_, ⟨sc, sS⟩, sPC⟩ := hCs
          have hmemC : ∀ a ∈ c :: S, a ∈ R ∨ a = x ∨ a ∈ T := by
            intro a ha
            have h3 := hCE a (by rw [hCe]; exact List.mem_append_right _ ha)
            simp only [List.mem_append, List.mem_cons] at h3
            rcases h3 with (h3 | h3 | h3) | h3
            · exact absurd (sPC a h3 a ha) (lt_irrefl _)
            · exact Or.inr (Or.inl h3)
            · exact Or.inr (Or.inr h3)
            · exact Or.inl h3
          -- elements of `c :: S` above `x` are `y` or above
          have habove : ∀ a ∈ c :: S, x < a → a = y ∨ a ∈ R2 ++ T := by
            intro a ha hxa
            rcases hmemC a ha with h3 | rfl | h3
            · rw [e2, List.mem_append, List.mem_cons] at h3
              rcases h3 with h3 | h3 | h3
              · exact absurd (lt_trans hxa (hR1x a h3)) (lt_irrefl _)
              · exact Or.inl h3
              · exact Or.inr (List.mem_append_left _ h3)
            · exact absurd hxa (lt_irrefl _)
            · exact Or.inr (List.mem_append_right _ h3)
          rcases hlt with hxc | ⟨rfl, hTS⟩
          · rcases habove c (by simp) hxc with rfl | hc
            · -- c = y
              have hSU : ∀ s ∈ S, s ∈ R2 ++ T := by
                intro s hs
                rcases habove s (List.mem_cons_of_mem _ hs) (lt_trans hxc (sc s hs)) with h3 | h3
                · exact absurd (h3 ▸ sc s hs) (lt_irrefl _)
                · exact h3
              have := take_min (R2 ++ T) S sM sS hSU
              rw [hSl] at this
              rcases this.lt_or_eq with h4 | h4
              · exact le_of_lt (List.cons_lt_cons_iff.mpr (Or.inr ⟨rfl, h4⟩))
              · rw [h4]
            · exact le_of_lt (List.cons_lt_cons_iff.mpr (Or.inl (hyM c hc)))
          · exfalso
            have hle : S ≤ T := by
              refine top_max T S (y :: (R2 ++ T)) sT sS hSl ?_ ?_
              · intro s hs
                rcases habove s (List.mem_cons_of_mem _ hs) (sc s hs) with h3 | h3
                · simp [h3]
                · exact List.mem_cons_of_mem _ h3
              · intro r hr hne t ht
                rw [List.mem_cons, List.mem_append] at hr
                rcases hr with rfl | hr | hr
                · exact hTz t ht _ hyR
                · exact hTz t ht r (hR2R r hr)
                · exact absurd hr hne
            exact absurd (lt_of_lt_of_le hTS hle) (lt_irrefl _)
        · rw [hCe] at hlt ⊢
          exact le_of_lt (lt_prefix P (C.take P.length) _ _ hQl.symm hlt hQ _ _)

example : nextCombination (fun a b => decide (a < b)) 2 [1, 4, 2, 3, 5] = ok (true, [1, 5, 2, 3, 4]) := by decide
example : nextCombination (fun a b => decide (a < b)) 2 [4, 5, 1, 2, 3] = ok (false, [1, 2, 3, 4, 5]) := by decide

/-- `do { visit(begin, begin+k); } while (next_combination(begin, begin+k, end));`, also what iterating a `combination_iterator` (12702-12841) over a
non-empty range does: the list of visited first halves. -/
def visitCombinations (k : Nat) : Nat → List α → Outcome (List (List α))
  | 0, _ => diverge
  | fuel + 1, s => do
    let (more, s') ← nextCombination (fun a b => decide (a < b)) k s
    if more then do
      let rest ← visitCombinations k fuel s'
      ok (s.take k :: rest)
    else ok [s.take k]

theorem isComb_iff {k : Nat} {E S : List α} (hE : E.Pairwise (· < ·)) (hp : S.Perm E) (C : List α) : IsComb k S C ↔ C ∈ E.sublistsLen k := by
  rw [List.mem_sublistsLen]
  constructor
  · rintro ⟨h1, h2, h3⟩
    refine ⟨?_, h2⟩
    have hsub : C.Subperm E := (nodup_of_lt h1).subperm (fun a ha => hp.subset (h3 a ha))
    exact List.sublist_of_subperm_of_pairwise hsub (h1.imp le_of_lt) (hE.imp le_of_lt)
  · rintro ⟨h1, h2⟩
    exact ⟨hE.sublist h1, h2, fun a ha => hp.symm.subset (h1.subset ha)⟩

theorem visit_spec (k : Nat) (E : List α) (hE : E.Pairwise (· < ·)) : ∀ (fuel : Nat) (A R : List α), A.length = k → A.Pairwise (· < ·) →
    R.Pairwise (· < ·) → (∀ a ∈ A, a ∉ R) → (A ++ R).Perm E → ((E.sublistsLen k).filter fun C => decide (A < C)).length < fuel →
    ∃ V, visitCombinations k fuel (A ++ R) = ok V ∧ V.Pairwise (· < ·) ∧ ∀ C, C ∈ V ↔ C ∈ E.sublistsLen k ∧ A ≤ C := by
  intro fuel
  induction fuel with
  | zero => intro A R _ _ _ _ _ h; omega
  | succ fuel ih =>
    intro A R hk hA hR hd hp hf
    have hAmem : A ∈ E.sublistsLen k := (isComb_iff hE hp A).mp ⟨hA, hk, fun a ha => List.mem_append_left _ ha⟩
    obtain ⟨b, A', R', h1, h2, h3, h4, h5, h6, h7⟩ := C44_next_combination A R hA hR hd
    rw [hk] at h1 h2 h6 h7
    unfold visitCombinations
    rw [h1, ok_bind]
    simp only
    have htake : (A ++ R).take k = A := by rw [← hk]; exact List.take_left' rfl
    rw [htake]
    cases b with
    | false =>
      refine ⟨[A], rfl, by simp, fun C => ?_⟩
      rw [List.mem_singleton]
      constructor
      · rintro rfl; exact ⟨hAmem, le_refl _⟩
      · rintro ⟨hC, hle⟩
        exact le_antisymm ((h7 rfl).1 C ((isComb_iff hE hp C).mpr hC)) hle
    | true =>
      obtain ⟨hlt, hmin⟩ := h6 rfl
      have hd' : ∀ a ∈ A', a ∉ R' := by
        have hn : (A' ++ R').Nodup := (h3.trans hp).nodup_iff.mpr (nodup_of_lt hE)
        intro a ha hb
        exact (List.nodup_append.mp hn).2.2 a ha a hb rfl
      have hA'mem : A' ∈ E.sublistsLen k :=
        (isComb_iff hE (h3.trans hp) A').mp ⟨h4, h2, fun a ha => List.mem_append_left _ ha⟩
      have hdec : ((E.sublistsLen k).filter fun C => decide (A' < C)).length < ((E.sublistsLen k).filter fun C => decide (A < C)).length := by
        have e : ((E.sublistsLen k).filter fun C => decide (A' < C)) =
            ((E.sublistsLen k).filter fun C => decide (A < C)).filter fun C => decide (A' < C) := by
          rw [List.filter_filter]
          apply List.filter_congr
          intro C _
          by_cases h : A' < C
          · simp [h, lt_trans hlt h]
          · simp [h]
        rw [e, List.length_filter_lt_length_iff_exists]
        exact ⟨A', by simp [hA'mem, hlt], by simp⟩
      obtain ⟨V, v1, v2, v3⟩ := ih A' R' h2 h4 h5 hd' (h3.trans hp) (by omega)
      rw [if_pos rfl, v1, ok_bind]
      refine ⟨A :: V, rfl, ?_, fun C => ?_⟩
      · rw [List.pairwise_cons]
        exact ⟨fun C hC => lt_of_lt_of_le hlt ((v3 C).mp hC).2, v2⟩
      · rw [List.mem_cons, v3]
        constructor
        · rintro (rfl | ⟨h, hle⟩)
          · exact ⟨hAmem, le_refl _⟩
          · exact ⟨h, le_trans (le_of_lt hlt) hle⟩
        · rintro ⟨h, hle⟩
          rcases hle.lt_or_eq with h' | h'
          · exact Or.inr ⟨h, hmin C ((isComb_iff hE hp C).mpr h) h'⟩
          · exact Or.inl h'.symm

/-- Starting from a sorted range of distinct elements, repeating `next_combination` until it fails (equivalently, iterating a
`combination_iterator`) visits every combination of `k` elements exactly once, in lexicographic order. -/
theorem C44_visits_all (k : Nat) (E : List α) (hE : E.Pairwise (· < ·)) (hk : k ≤ E.length) :
    ∃ V, visitCombinations k ((E.sublistsLen k).length + 1) E = ok V ∧ V.Pairwise (· < ·) ∧ V.Perm (E.sublistsLen k) := by
  have hsplit : E.take k ++ E.drop k = E := List.take_append_drop k E
  have hs := List.pairwise_append.mp (hsplit.symm ▸ hE)
  obtain ⟨V, h1, h2, h3⟩ := visit_spec k E hE ((E.sublistsLen k).length + 1) (E.take k) (E.drop k) (by simp; omega) hs.1 hs.2.1
    (fun a ha hb => lt_irrefl _ (hs.2.2 a ha a hb)) (by rw [hsplit]) (by have := List.length_filter_le (fun C => decide (E.take k < C)) (E.sublistsLen k); omega)
  rw [hsplit] at h1
  refine ⟨V, h1, h2, ?_⟩
  rw [List.perm_ext_iff_of_nodup (nodup_of_lt h2) (List.nodup_sublistsLen k (nodup_of_lt hE))]
  intro C
  rw [h3]
  constructor
  · exact fun h => h.1
  · intro h
    refine ⟨h, ?_⟩
    have hC := (isComb_iff hE (List.Perm.refl E) C).mpr h
    have := take_min E C hE hC.1 hC.2.2
    rwa [hC.2.1] at this

example : visitCombinations 2 10 [1, 2, 3, 4] = ok [[1, 2], [1, 3], [1, 4], [2, 3], [2, 4], [3, 4]] := by decide

end order

example : ∃ b s', nextCombination (fun a b : Nat => decide (a < b)) 2 [1, 4, 2, 3, 5] = ok (b, s') ∧ s'.Perm [1, 4, 2, 3, 5] :=
  C44_permutes _ 2 [1, 4, 2, 3, 5] (by decide)

end Strtk.Combi
