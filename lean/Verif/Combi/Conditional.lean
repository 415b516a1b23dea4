import Verif.Combi.ForEach

/-! # for_each_combination_conditional (strtk.hpp 12320-12369, 12440-12455), C45 -/

namespace Strtk.Combi
open Outcome Mem

variable {α : Type}

mutual
/-- `details::combine_discontinuous_conditional` (12320-12369). `f` is the function: what it answers when the parts shown to it so far, the last
one included, are the given ones. Result: the value returned, the range, the parts shown. -/
def combineC (f : List (List α) → Bool) (mid : Nat) :
    Nat → List α → Nat → Nat → Nat → Nat → Nat → List (List α) → Outcome (Bool × List α × List (List α))
  | 0, s, _, _, _, _, _, out => ok (f (out ++ [s.take mid]), s, out ++ [s.take mid])
  | d1 + 1, s, f1, l1, f2, d2, d, out =>
    if d2 = 0 then ok (f (out ++ [s.take mid]), s, out ++ [s.take mid])
    else do
      let (go, s, out) ← combineCLoop f mid d1 d2 s f1 l1 f2 d2 d out
      if !go then ok (false, s, out)
      else if !f (out ++ [s.take mid]) then ok (false, s, out ++ [s.take mid])
      else if d ≠ 0 then do
        let s' ← rotateDisc s f1 l1 (d1 + 1) (f2 + 1) s.length (d2 - 1)
        ok (true, s', out ++ [s.take mid])
      else do
        let s' ← rotateDisc s f1 l1 (d1 + 1) f2 s.length d2
        ok (true, s', out ++ [s.take mid])
  termination_by d1 => (d1, 0)

/-- The loops 12335-12340 and 12348-12353. -/
def combineCLoop (f : List (List α) → Bool) (mid d1 : Nat) :
    Nat → List α → Nat → Nat → Nat → Nat → Nat → List (List α) → Outcome (Bool × List α × List (List α))
  | 0, s, _, _, _, _, _, out => ok (true, s, out)
  | n + 1, s, f1, l1, i2, d22, d, out => do
    let (go, s, out) ← (if d1 = 0 then ok (f (out ++ [s.take mid]), s, out ++ [s.take mid]) else combineC f mid d1 s (f1 + 1) l1 i2 d22 (d + 1) out)
    if !go then ok (false, s, out)
    else do
      let s ← swapAt s f1 i2
      combineCLoop f mid d1 n s f1 l1 (i2 + 1) (d22 - 1) d out
  termination_by n => (d1, n + 1)
end

/-- `for_each_combination_conditional` (12440-12455): the range afterwards and the parts shown. -/
def forEachCombinationConditional (f : List (List α) → Bool) (s : List α) (size : Nat) : Outcome (List α × List (List α)) :=
  if size > s.length then ok (s, [])
  else do
    let (_, s, out) ← combineC f size size s 0 size size (s.length - size) 0 []
    ok (s, out)

/-- **Specification.** Showing the elements of a list one after the other until `f` refuses: whether it never did, and what was shown. -/
def showUntil (f : List (List α) → Bool) : List (List α) → List (List α) → Bool × List (List α)
  | shown, [] => (true, shown)
  | shown, x :: xs => if f (shown ++ [x]) then showUntil f (shown ++ [x]) xs else (false, shown ++ [x])

theorem showUntil_append (f : List (List α) → Bool) (a b : List (List α)) : ∀ shown,
    showUntil f shown (a ++ b) = if (showUntil f shown a).1 then showUntil f (showUntil f shown a).2 b else (false, (showUntil f shown a).2) := by
  induction a with
  | nil => intro shown; simp [showUntil]
  | cons x a ih =>
    intro shown
    rw [List.cons_append, showUntil, showUntil]
    split
    · rw [ih]
    · simp

/-! ## Rearrangements -/

theorem swapAt_perm {s s' : List α} {i j : Nat} (h : swapAt s i j = ok s') : s'.Perm s := by
  by_cases hi : i < s.length
  · by_cases hj : j < s.length
    · unfold swapAt at h
      rw [deref_eq_ok hi, ok_bind, deref_eq_ok hj, ok_bind, store_eq_ok _ hi, ok_bind, store_eq_ok _ (by simpa using hj)] at h
      cases h
      exact List.set_set_perm hi hj
    · unfold swapAt at h
      rw [deref_eq_ok hi, ok_bind, deref_ub (Nat.le_of_not_lt hj)] at h
      cases h
  · unfold swapAt at h
    rw [deref_ub (Nat.le_of_not_lt hi)] at h
    cases h

theorem rotate_perm {s s' : List α} {a b c : Nat} (h : rotate s a b c = ok s') : s'.Perm s := by
  unfold rotate at h
  split at h
  · rename_i hle
    obtain ⟨h1, h2, h3⟩ := hle
    cases h
    have e : s = s.take a ++ ((s.drop a).take (b - a) ++ ((s.drop b).take (c - b) ++ s.drop c)) := by
      have e1 : (s.drop b).take (c - b) ++ s.drop c = s.drop b := by
        have := List.take_append_drop (c - b) (s.drop b)
        rwa [List.drop_drop, Nat.add_sub_cancel' h2] at this
      have e2 : (s.drop a).take (b - a) ++ s.drop b = s.drop a := by
        have := List.take_append_drop (b - a) (s.drop a)
        rwa [List.drop_drop, Nat.add_sub_cancel' h1] at this
      rw [e1, e2, List.take_append_drop]
    conv_rhs => rw [e]
    rw [List.append_assoc, List.append_assoc]
    refine List.Perm.append_left _ ?_
    rw [← List.append_assoc, ← List.append_assoc]
    exact List.Perm.append_right _ List.perm_append_comm
  · cases h

theorem swapRanges_perm : ∀ (n : Nat) {s s' : List α} {f1 f2 m : Nat}, swapRanges n s f1 f2 = ok (s', m) → s'.Perm s := by
  intro n
  induction n with
  | zero => intro s s' f1 f2 m h; cases h; exact List.Perm.refl _
  | succ n ih =>
    intro s s' f1 f2 m h
    rw [swapRanges] at h
    obtain ⟨s1, h1, h⟩ := bind_eq_ok.mp h
    exact (ih h).trans (swapAt_perm h1)

theorem swapBack_perm (f2 : Nat) : ∀ (n : Nat) {s s' : List α} {i1 l2 m : Nat}, swapBack f2 n s i1 l2 = ok (s', m) → s'.Perm s := by
  intro n
  induction n with
  | zero => intro s s' i1 l2 m h; cases h
  | succ n ih =>
    intro s s' i1 l2 m h
    rw [swapBack] at h
    split at h
    · split at h
      · cases h
      · obtain ⟨s1, h1, h⟩ := bind_eq_ok.mp h
        exact (ih h).trans (swapAt_perm h1)
    · cases h; exact List.Perm.refl _

theorem rotateDisc_perm {s s' : List α} {f1 l1 d1 f2 l2 d2 : Nat} (h : rotateDisc s f1 l1 d1 f2 l2 d2 = ok s') : s'.Perm s := by
  unfold rotateDisc at h
  split at h
  · obtain ⟨⟨s1, m⟩, h1, h⟩ := bind_eq_ok.mp h
    exact (rotate_perm h).trans (swapRanges_perm _ h1)
  · obtain ⟨⟨s1, m⟩, h1, h⟩ := bind_eq_ok.mp h
    exact (rotate_perm h).trans (swapBack_perm _ _ h1)

/-! ## The conditional enumeration follows the unconditional one -/

/-- What the conditional call does when the unconditional one shows `new` and ends with `s'`. -/
def Follows (f : List (List α) → Bool) (s s' : List α) (new : List (List α)) (c : List (List α) → Outcome (Bool × List α × List (List α))) : Prop :=
  ∀ shown, ∃ s'', c shown = ok ((showUntil f shown new).1, s'', (showUntil f shown new).2) ∧ s''.Perm s ∧
    ((showUntil f shown new).1 = true → s'' = s')

def FollowsAll (f : List (List α) → Bool) (mid d1 : Nat) : Prop :=
  ∀ (s : List α) (f1 l1 f2 d2 d : Nat) (out : List (List α)) (s' : List α) (out' : List (List α)),
    combine mid d1 s f1 l1 f2 d2 d out = ok (s', out') →
    ∃ new, out' = out ++ new ∧ s'.Perm s ∧ Follows f s s' new (combineC f mid d1 s f1 l1 f2 d2 d)

theorem follows_show (f : List (List α) → Bool) (s : List α) (x : List α) :
    Follows f s s [x] (fun out => ok (f (out ++ [x]), s, out ++ [x])) := by
  intro shown
  refine ⟨s, ?_, List.Perm.refl _, fun _ => rfl⟩
  simp only [showUntil]
  by_cases h : f (shown ++ [x]) = true
  · rw [if_pos h, h]
  · rw [if_neg h, Bool.not_eq_true _ |>.mp h]

theorem followsLoop (f : List (List α) → Bool) (mid d1 : Nat) (ih : d1 ≠ 0 → FollowsAll (α := α) f mid d1) :
    ∀ (n : Nat) (s : List α) (f1 l1 i2 d22 d : Nat) (out : List (List α)) (s' : List α) (out' : List (List α)),
    combineLoop mid d1 n s f1 l1 i2 d22 d out = ok (s', out') →
    ∃ new, out' = out ++ new ∧ s'.Perm s ∧ Follows f s s' new (combineCLoop f mid d1 n s f1 l1 i2 d22 d) := by
  intro n
  induction n with
  | zero =>
    intro s f1 l1 i2 d22 d out s' out' h
    rw [combineLoop] at h
    cases h
    refine ⟨[], by simp, List.Perm.refl _, fun shown => ⟨s, ?_, List.Perm.refl _, fun _ => rfl⟩⟩
    rw [combineCLoop]
    rfl
  | succ n ihn =>
    intro s f1 l1 i2 d22 d out s' out' h
    rw [combineLoop] at h
    obtain ⟨⟨s1, out1⟩, h1, h⟩ := bind_eq_ok.mp h
    obtain ⟨s2, h2, h⟩ := bind_eq_ok.mp h
    have hfirst : ∃ new, out1 = out ++ new ∧ s1.Perm s ∧ Follows f s s1 new (fun out =>
        if d1 = 0 then ok (f (out ++ [s.take mid]), s, out ++ [s.take mid]) else combineC f mid d1 s (f1 + 1) l1 i2 d22 (d + 1) out) := by
      by_cases h0 : d1 = 0
      · rw [if_pos h0] at h1
        cases h1
        refine ⟨[s.take mid], rfl, List.Perm.refl _, ?_⟩
        simp only [if_pos h0]
        exact follows_show f s _
      · rw [if_neg h0] at h1
        simp only [if_neg h0]
        exact ih h0 _ _ _ _ _ _ _ _ _ h1
    obtain ⟨new1, e1, p1, F1⟩ := hfirst
    obtain ⟨new2, e2, p2, F2⟩ := ihn _ _ _ _ _ _ _ _ _ h
    have p3 := swapAt_perm h2
    refine ⟨new1 ++ new2, by rw [e2, e1, List.append_assoc], p2.trans (p3.trans p1), fun shown => ?_⟩
    obtain ⟨t, g1, g2, g3⟩ := F1 shown
    rw [combineCLoop, showUntil_append]
    simp only at g1
    rw [g1, ok_bind]
    simp only
    by_cases hgo : (showUntil f shown new1).1 = true
    · rw [g3 hgo, hgo]
      simp only [Bool.not_true, Bool.false_eq_true, if_false, if_true]
      rw [h2, ok_bind]
      obtain ⟨t2, k1, k2, k3⟩ := F2 (showUntil f shown new1).2
      exact ⟨t2, k1, k2.trans (p3.trans p1), k3⟩
    · have hf := Bool.not_eq_true _ |>.mp hgo
      rw [hf]
      exact ⟨t, rfl, g2, fun h => by simp at h⟩

theorem followsAll (f : List (List α) → Bool) (mid : Nat) : ∀ d1, FollowsAll (α := α) f mid d1 := by
  intro d1
  induction d1 with
  | zero =>
    intro s f1 l1 f2 d2 d out s' out' h
    rw [combine] at h
    cases h
    refine ⟨[s.take mid], rfl, List.Perm.refl _, fun shown => ?_⟩
    rw [combineC]
    exact follows_show f s _ shown
  | succ d1 ih =>
    intro s f1 l1 f2 d2 d out s' out' h
    rw [combine] at h
    by_cases h0 : d2 = 0
    · rw [if_pos h0] at h
      cases h
      refine ⟨[s.take mid], rfl, List.Perm.refl _, fun shown => ?_⟩
      rw [combineC, if_pos h0]
      exact follows_show f s _ shown
    · rw [if_neg h0] at h
      obtain ⟨⟨s1, out1⟩, h1, h⟩ := bind_eq_ok.mp h
      obtain ⟨new1, e1, p1, F1⟩ := followsLoop f mid d1 (fun _ => ih) _ _ _ _ _ _ _ _ _ _ h1
      simp only at h
      -- the last call and the rotation
      have hrot : ∃ s2, (if d ≠ 0 then rotateDisc s1 f1 l1 (d1 + 1) (f2 + 1) s1.length (d2 - 1) else rotateDisc s1 f1 l1 (d1 + 1) f2 s1.length d2) = ok s2 ∧
          s2 = s' ∧ out' = out1 ++ [s1.take mid] := by
        by_cases hd : d ≠ 0
        · rw [if_pos hd] at h ⊢
          obtain ⟨s2, h2, h⟩ := bind_eq_ok.mp h
          cases h
          exact ⟨_, h2, rfl, rfl⟩
        · rw [if_neg hd] at h ⊢
          obtain ⟨s2, h2, h⟩ := bind_eq_ok.mp h
          cases h
          exact ⟨_, h2, rfl, rfl⟩
      obtain ⟨s2, h2, rfl, e2⟩ := hrot
      have p2 : s2.Perm s1 := by
        split at h2 <;> exact rotateDisc_perm h2
      refine ⟨new1 ++ [s1.take mid], by rw [e2, e1, List.append_assoc], p2.trans p1, fun shown => ?_⟩
      obtain ⟨t, g1, g2, g3⟩ := F1 shown
      rw [combineC, if_neg h0, g1, ok_bind, showUntil_append]
      simp only
      by_cases hgo : (showUntil f shown new1).1 = true
      · rw [g3 hgo, hgo]
        simp only [Bool.not_true, Bool.false_eq_true, if_false, if_true, showUntil]
        by_cases hf : f ((showUntil f shown new1).2 ++ [s1.take mid]) = true
        · rw [hf]
          simp only [Bool.not_true, Bool.false_eq_true, if_false, if_true]
          refine ⟨s2, ?_, p2.trans p1, fun _ => rfl⟩
          by_cases hd : d ≠ 0
          · rw [if_pos hd] at h2 ⊢
            rw [h2, ok_bind]
          · rw [if_neg hd] at h2 ⊢
            rw [h2, ok_bind]
        · rw [Bool.not_eq_true _ |>.mp hf]
          exact ⟨s1, rfl, p1, fun h => by simp at h⟩
      · rw [Bool.not_eq_true _ |>.mp hgo]
        exact ⟨t, rfl, g2, fun h => by simp at h⟩

/-- **C45**: `for_each_combination_conditional` shows the function the same parts as `for_each_combination`, in the same order, up to and including
the first it answers with `false`. If it never does, the range is left as it was; otherwise it is a rearrangement of it. The function may
answer depending on everything it has seen. -/
theorem C45_conditional (f : List (List α) → Bool) (s : List α) (k : Nat) :
    ∃ s' calls, forEachCombination s k = ok (s, calls) ∧
      forEachCombinationConditional f s k = ok (s', (showUntil f [] calls).2) ∧ s'.Perm s ∧ ((showUntil f [] calls).1 = true → s' = s) := by
  obtain ⟨calls, h, _, _⟩ := C45_for_each_combination s k
  unfold forEachCombination at h
  by_cases hk : k > s.length
  · rw [if_pos hk] at h
    cases h
    exact ⟨s, [], by unfold forEachCombination; rw [if_pos hk], by unfold forEachCombinationConditional; rw [if_pos hk]; rfl, List.Perm.refl _, fun _ => rfl⟩
  · rw [if_neg hk] at h
    obtain ⟨new, e, p, F⟩ := followsAll f k k _ _ _ _ _ _ _ _ _ h
    rw [List.nil_append] at e
    subst e
    obtain ⟨t, g1, g2, g3⟩ := F []
    refine ⟨t, calls, by unfold forEachCombination; rw [if_neg hk, h], ?_, g2, g3⟩
    unfold forEachCombinationConditional
    rw [if_neg hk, g1, ok_bind]

/-- What `showUntil` shows is a prefix, all of it if no prefix is refused, and otherwise one that ends with the first refused one. -/
theorem C45_showUntil (f : List (List α) → Bool) (calls : List (List α)) :
    ((showUntil f [] calls).2 <+: calls) ∧ ((showUntil f [] calls).1 = true → (showUntil f [] calls).2 = calls) ∧
      ((showUntil f [] calls).1 = false → f (showUntil f [] calls).2 = false) ∧
      ∀ p, p <+: (showUntil f [] calls).2 → p ≠ [] → p ≠ (showUntil f [] calls).2 → f p = true := by
  have key : ∀ (calls shown : List (List α)), (∀ p, p <+: shown → p ≠ [] → f p = true) →
      ((showUntil f shown calls).2 <+: shown ++ calls) ∧ ((showUntil f shown calls).1 = true → (showUntil f shown calls).2 = shown ++ calls) ∧
      ((showUntil f shown calls).1 = false → f (showUntil f shown calls).2 = false) ∧
      ∀ p, p <+: (showUntil f shown calls).2 → p ≠ [] → p ≠ (showUntil f shown calls).2 → f p = true := by
    intro calls
    induction calls with
    | nil => intro shown h; simp only [showUntil, List.append_nil]; exact ⟨List.prefix_refl _, by simp, by simp, fun p hp h0 _ => h p hp h0⟩
    | cons x xs ih =>
      intro shown h
      simp only [showUntil]
      by_cases hf : f (shown ++ [x]) = true
      · rw [if_pos hf]
        have := ih (shown ++ [x]) (by
          intro p hp h0
          rcases List.prefix_concat_iff.mp hp with rfl | hp
          · exact hf
          · exact h p hp h0)
        rwa [List.append_assoc, List.singleton_append] at this
      · rw [if_neg hf]
        refine ⟨⟨xs, by simp⟩, by simp, fun _ => Bool.not_eq_true _ |>.mp hf, ?_⟩
        intro p hp h0 hne
        rcases List.prefix_concat_iff.mp hp with rfl | hp
        · exact absurd rfl hne
        · exact h p hp h0
  have := key calls [] (by
    intro p hp h0
    exact absurd (List.prefix_nil.mp hp) h0)
  rwa [List.nil_append] at this

/-- Non-vacuity: stopping at [1, 4] of the pairs from four elements. -/
example : ∃ s', forEachCombinationConditional (fun shown => decide (shown.getLast? ≠ some [1, 4])) [1, 2, 3, 4] 2 = ok (s', [[1, 2], [1, 3], [1, 4]]) ∧
    s'.Perm [1, 2, 3, 4] := by
  obtain ⟨s', calls, h1, h2, h3, _⟩ := C45_conditional (fun shown => decide (shown.getLast? ≠ some [1, 4])) [1, 2, 3, 4] 2
  rw [C45_order _ _ (by decide)] at h1
  cases h1
  exact ⟨s', h2, h3⟩

end Strtk.Combi
