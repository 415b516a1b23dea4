import Verif.Throwing.Model
import Verif.Grid.Remove
import Verif.Boxes.Props
import Verif.Strings.Props

/-! # C169: what a callback that throws leaves behind -/

namespace Strtk.Throwing
open Outcome Mem

variable {α T V : Type}

/-! ## remove_inplace -/

theorem removeLoop_thrown (p : α → Option Bool) (s : List α) (x : α) (s2 : List α) (hx : p x = none) : ∀ (fuel : Nat) (s1 t : List α) (count : Nat), t.length + 1 + s2.length < fuel →
    s = s1 ++ (t ++ x :: s2) → (∀ y ∈ t, p y ≠ none) → ∀ kept : List α, kept.length ≤ s1.length →
    removeLoop p fuel (kept ++ s.drop kept.length) s1.length kept.length count =
      ok (kept ++ t.filter (fun y => p y == some false) ++ s.drop (kept ++ t.filter (fun y => p y == some false)).length, none) := by
  intro fuel
  induction fuel with
  | zero => intros; omega
  | succ fuel ih =>
    intro s1 t count hf hs hans kept hk
    have hlen : (kept ++ s.drop kept.length).length = s1.length + t.length + 1 + s2.length := by
      rw [List.length_append, List.length_drop, hs]
      simp only [List.length_append, List.length_cons]
      omega
    have hget : ∀ y u, t ++ x :: s2 = y :: u → deref (kept ++ s.drop kept.length) s1.length = ok y := by
      intro y u e
      unfold deref
      rw [List.getElem?_append_right hk, List.getElem?_drop, Nat.add_sub_cancel' hk, hs, e]
      simp
    unfold removeLoop
    rw [if_pos (by omega)]
    cases t with
    | nil => rw [hget x s2 rfl, ok_bind]; simp only [hx]; simp
    | cons y t =>
      rw [hget y _ rfl, ok_bind]
      have hy := hans y (by simp)
      have e1 : s = (s1 ++ [y]) ++ (t ++ x :: s2) := by simp [hs]
      simp only [List.length_cons] at hf
      have hl1 : s1.length + 1 = (s1 ++ [y]).length := by simp
      cases hp : p y with
      | none => exact absurd hp hy
      | some b =>
        cases b with
        | true =>
          simp only
          rw [hl1, ih (s1 ++ [y]) t (count + 1) (by omega) e1 (fun z hz => hans z (by simp [hz])) kept (by simp; omega)]
          simp [hp]
        | false =>
          simp only
          have hst : (if s1.length ≠ kept.length then store (kept ++ s.drop kept.length) kept.length y else ok (kept ++ s.drop kept.length)) =
              ok ((kept ++ [y]) ++ s.drop (kept ++ [y]).length) := by
            have hlt : kept.length < s.length := by rw [hs]; simp; omega
            split
            · rw [store_eq_ok _ (by rw [hlen]; omega)]
              congr 1
              rw [List.set_append_right _ _ (Nat.le_refl _), Nat.sub_self, List.drop_eq_getElem_cons hlt, List.set_cons_zero]
              simp only [List.length_append, List.length_singleton, List.append_assoc, List.singleton_append]
            · rename_i h
              have h : s1.length = kept.length := Classical.not_not.mp h
              congr 1
              rw [List.drop_eq_getElem_cons hlt]
              have : s[kept.length] = y := by simp [hs, ← h]
              simp [this]
          rw [hst, ok_bind, hl1, show kept.length + 1 = (kept ++ [y]).length by simp,
            ih (s1 ++ [y]) t count (by omega) e1 (fun z hz => hans z (by simp [hz])) (kept ++ [y]) (by simp; omega)]
          simp [hp]

/-- **C169**: `remove_inplace` whose predicate throws at the element `x`: the sequence keeps its length, the elements kept up to there have moved to the front, and behind them
everything is as it was.  In particular `x` and all elements behind it are unchanged. -/
theorem C169_remove_inplace [Inhabited α] (p : α → Option Bool) (s1 : List α) (x : α) (s2 : List α) (hans : ∀ y ∈ s1, p y ≠ none) (hx : p x = none) :
    ∃ kept, kept = s1.filter (fun y => p y == some false) ∧
      removeInplace p (s1 ++ x :: s2) = ok (kept ++ (s1 ++ x :: s2).drop kept.length, false) := by
  refine ⟨_, rfl, ?_⟩
  have := removeLoop_thrown p (s1 ++ x :: s2) x s2 hx ((s1 ++ x :: s2).length + 1) [] s1 0 (by simp; omega) rfl hans [] (Nat.le_refl _)
  unfold removeInplace
  simp only [List.length_nil, List.nil_append, List.drop_zero] at this
  rw [this, ok_bind]

/-- **C169**: no element is lost and nothing at or behind the place of the exception changes. -/
theorem C169_remove_inplace_rest [Inhabited α] (p : α → Option Bool) (s1 : List α) (x : α) (s2 : List α) (hans : ∀ y ∈ s1, p y ≠ none) (hx : p x = none) :
    ∃ front, front.length = s1.length ∧ removeInplace p (s1 ++ x :: s2) = ok (front ++ x :: s2, false) ∧ (∀ y ∈ s1, p y = some false → y ∈ front) ∧
      ((∀ y ∈ s1, p y = some false) → front = s1) := by
  obtain ⟨kept, hk, h⟩ := C169_remove_inplace p s1 x s2 hans hx
  have hle : kept.length ≤ s1.length := by rw [hk]; exact List.length_filter_le ..
  refine ⟨kept ++ s1.drop kept.length, by simp; omega, ?_, ?_, ?_⟩
  · rw [h, List.drop_append_of_le_length hle, List.append_assoc]
  · intro y hy hp
    rw [List.mem_append, hk]
    exact Or.inl (by simp [hy, hp])
  · intro hall
    have : kept = s1 := by rw [hk, List.filter_eq_self]; intro y hy; simp [hall y hy]
    rw [this]
    simp

theorem removeLoop_returns (p : α → Bool) : ∀ (fuel : Nat) (buf : List α) (i1 i2 count : Nat),
    removeLoop (fun x => some (p x)) fuel buf i1 i2 count = (do let r ← Strings.removeLoop p fuel buf i1 i2 count; ok (r.1, some r.2)) := by
  intro fuel
  induction fuel with
  | zero => intros; rfl
  | succ fuel ih =>
    intro buf i1 i2 count
    unfold removeLoop Strings.removeLoop
    split
    · cases deref buf i1 with
      | ok c =>
        simp only [ok_bind]
        cases hc : p c with
        | true => simp [ih]
        | false =>
          simp only [Bool.false_eq_true, if_false]
          cases (if i1 ≠ i2 then store buf i2 c else ok buf) with
          | ok b => simp [ih]
          | _ => rfl
      | _ => rfl
    · rfl

/-- **C169**: a predicate that does not throw: as `remove_inplace` is known. -/
theorem C169_remove_inplace_returns [Inhabited α] (p : α → Bool) (s : List α) :
    removeInplace (fun x => some (p x)) s = ok (s.filter (fun c => !p c), true) := by
  have h := Strings.C09_remove_inplace_range p s
  obtain ⟨junk, h1, h2⟩ := h
  unfold removeInplace
  rw [removeLoop_returns]
  unfold Strings.removeInplaceRange at h1
  simp only [h1, ok_bind]
  simp [resize, h2]

/-- **C169** (negative result): the sequence can be neither what it was nor what it would have become: the predicate removes `a`, keeps `b` and throws at `c`. -/
theorem C169_remove_inplace_neither :
    removeInplace (fun c => if c = 'c' then none else some (c == 'a')) "abcd".toList = ok ("bbcd".toList, false) := by decide

/-! ## delete_if -/

theorem deleteIfLoop_thrown (p : V → Option Bool) (f : Nat → V) (x : Nat) (l2 : List Nat) (hx : p (f x) = none) : ∀ (fuel : Nat) (kept rest : List Nat) (h : Boxes.Heap V),
    rest.length + 1 < fuel → (rest ++ x :: l2).Nodup → (∀ q ∈ rest ++ x :: l2, q ≠ 0 ∧ h q = some (f q)) → (∀ q ∈ rest, p (f q) ≠ none) →
    deleteIfLoop p fuel (kept ++ (rest ++ x :: l2)) kept.length h =
      ok ((fun q => if q ∈ rest ∧ p (f q) = some true then none else h q), kept ++ rest.filter (fun q => p (f q) == some false) ++ x :: l2, false) := by
  intro fuel
  induction fuel with
  | zero => intros; omega
  | succ fuel ih =>
    intro kept rest h hl hn hlive hans
    cases rest with
    | nil =>
      obtain ⟨hq0, hq⟩ := hlive x (by simp)
      rw [deleteIfLoop, if_pos (by simp), List.nil_append, deref_append_cons, ok_bind]
      simp only [Boxes.follow, hq, ok_bind, hx]
      simp
    | cons q rest =>
      rw [List.cons_append] at hn
      have hn' := List.nodup_cons.mp hn
      have hq' : q ∉ rest := fun e => hn'.1 (List.mem_append_left _ e)
      obtain ⟨hq0, hq⟩ := hlive q (by simp)
      simp only [List.length_cons] at hl
      rw [deleteIfLoop, if_pos (by simp), List.cons_append, deref_append_cons, ok_bind]
      simp only [Boxes.follow, hq, ok_bind]
      have hqa := hans q (by simp)
      cases hp : p (f q) with
      | none => exact absurd hp hqa
      | some b =>
        cases b with
        | true =>
          simp only [Boxes.delete, if_neg hq0, hq, ok_bind]
          rw [List.eraseIdx_append_of_length_le (Nat.le_refl _), Nat.sub_self, List.eraseIdx_cons_zero, ih kept rest _ (by omega) hn'.2]
          · congr 2
            · funext y
              by_cases hy : y = q
              · subst hy; simp [hp]
              · simp [hy]
            · simp [hp]
          · intro y hy
            have hne : y ≠ q := fun e => hn'.1 (e ▸ hy)
            simp only [if_neg hne]
            exact hlive y (List.mem_cons_of_mem _ hy)
          · exact fun y hy => hans y (List.mem_cons_of_mem _ hy)
        | false =>
          simp only
          have e : kept ++ q :: (rest ++ x :: l2) = (kept ++ [q]) ++ (rest ++ x :: l2) := by simp
          have e2 : kept.length + 1 = (kept ++ [q]).length := by simp
          rw [e, e2, ih (kept ++ [q]) rest h (by omega) hn'.2 (fun y hy => hlive y (List.mem_cons_of_mem _ hy)) fun y hy => hans y (List.mem_cons_of_mem _ hy)]
          congr 2
          · funext y
            by_cases hy : y = q
            · subst hy; simp [hp, hq']
            · simp [hy]
          · simp [hp]

/-- **C169**: `delete_if` whose predicate throws at the pointer `x`: the pointers before `x` that it wanted removed are out of the container and their objects destroyed; all
others are in the container and their objects unchanged. -/
theorem C169_delete_if (p : V → Option Bool) (l1 : List Nat) (x : Nat) (l2 : List Nat) (h : Boxes.Heap V) (f : Nat → V) (hn : (l1 ++ x :: l2).Nodup)
    (hlive : ∀ q ∈ l1 ++ x :: l2, q ≠ 0 ∧ h q = some (f q)) (hans : ∀ q ∈ l1, p (f q) ≠ none) (hx : p (f x) = none) :
    ∃ h' left, deleteIf p (l1 ++ x :: l2) h = ok (h', left, false) ∧ left = l1.filter (fun q => p (f q) == some false) ++ x :: l2 ∧
      (∀ q, h' q = if q ∈ l1 ∧ p (f q) = some true then none else h q) ∧
      (∀ q ∈ left, h' q = some (f q)) ∧ ∀ q ∈ l1 ++ x :: l2, q ∉ left → h' q = none := by
  have := deleteIfLoop_thrown p f x l2 hx ((l1 ++ x :: l2).length + 1) [] l1 h (by simp) hn hlive hans
  rw [List.nil_append, List.nil_append] at this
  refine ⟨_, _, this, rfl, fun q => rfl, ?_, ?_⟩
  · intro q hq
    simp only [List.nil_append, List.mem_append, List.mem_filter, beq_iff_eq] at hq
    have hnd := List.nodup_append.mp hn
    rw [if_neg]
    · rcases hq with hq | hq
      · exact (hlive q (List.mem_append_left _ hq.1)).2
      · exact (hlive q (List.mem_append_right _ hq)).2
    · rintro ⟨h1, h2⟩
      rcases hq with hq | hq
      · rw [hq.2] at h2; cases h2
      · exact hnd.2.2 q h1 q hq rfl
  · intro q hq hout
    rw [if_pos]
    simp only [List.nil_append, List.mem_append, List.mem_filter, beq_iff_eq, not_or, not_and] at hout hq
    rcases hq with hq | hq
    · refine ⟨hq, ?_⟩
      have h1 := hout.1 hq
      have h2 := hans q hq
      cases hp : p (f q) with
      | none => exact absurd hp h2
      | some b => cases b with
        | true => rfl
        | false => exact absurd hp h1
    · exact absurd hq hout.2

theorem deleteIfLoop_returns (p : V → Bool) : ∀ (fuel : Nat) (seq : List Nat) (itr : Nat) (h : Boxes.Heap V),
    deleteIfLoop (fun x => some (p x)) fuel seq itr h = (do let r ← Boxes.deleteIfLoop p fuel seq itr h; ok (r.1, r.2, true)) := by
  intro fuel
  induction fuel with
  | zero => intros; rfl
  | succ fuel ih =>
    intro seq itr h
    unfold deleteIfLoop Boxes.deleteIfLoop
    split
    · cases deref seq itr with
      | ok q =>
        simp only [ok_bind]
        cases Boxes.follow h q with
        | ok v =>
          simp only [ok_bind]
          cases hc : p v with
          | true =>
            simp only [if_true]
            cases Boxes.delete h q with
            | ok h => simp [ih]
            | _ => rfl
          | false => simp [ih]
        | _ => rfl
      | _ => rfl
    · rfl

/-- **C169**: a predicate that does not throw: as `delete_if` is known. -/
theorem C169_delete_if_returns (p : V → Bool) (seq : List Nat) (h : Boxes.Heap V) :
    deleteIf (fun x => some (p x)) seq h = (do let r ← Boxes.deleteIf p seq h; ok (r.1, r.2, true)) := deleteIfLoop_returns p _ _ _ _

/-- Three objects, the predicate removes the first and throws at the third. -/
example : ∃ h' left, deleteIf (fun v : Nat => if v = 30 then none else some (v == 10)) [1, 2, 3] (fun q => if q ∈ [1, 2, 3] then some (10 * q) else none) = ok (h', left, false) ∧
    left = [2, 3] ∧ h' 1 = none ∧ h' 2 = some 20 ∧ h' 3 = some 30 := by
  obtain ⟨h', left, h1, h2, h3, _⟩ := C169_delete_if (fun v : Nat => if v = 30 then none else some (v == 10)) [1, 2] 3 []
    (fun q => if q ∈ [1, 2, 3] then some (10 * q) else none) (fun q => 10 * q) (by decide) (by decide) (by decide) (by decide)
  exact ⟨h', left, h1, by rw [h2]; decide, by rw [h3]; decide, by rw [h3]; decide, by rw [h3]; decide⟩

/-! ## Combinations and permutations -/

theorem combine_conditional (throws : List (List α) → Bool) (mid : Nat) : ∀ (d1 : Nat),
    (∀ (s : List α) (f1 l1 f2 d2 d : Nat) (out : List (List α)),
      combine throws mid d1 s f1 l1 f2 d2 d out = Combi.combineC (fun o => !throws o) mid d1 s f1 l1 f2 d2 d out) ∧
    (∀ (n : Nat) (s : List α) (f1 l1 i2 d22 d : Nat) (out : List (List α)),
      combineLoop throws mid d1 n s f1 l1 i2 d22 d out = Combi.combineCLoop (fun o => !throws o) mid d1 n s f1 l1 i2 d22 d out) := by
  intro d1
  induction d1 with
  | zero =>
    refine ⟨by intros; simp [combine, Combi.combineC], ?_⟩
    intro n
    induction n with
    | zero => intros; simp [combineLoop, Combi.combineCLoop]
    | succ n ih =>
      intro s f1 l1 i2 d22 d out
      rw [combineLoop, Combi.combineCLoop]
      simp only [ih]
      rfl
  | succ d1 ihd =>
    have h1 : ∀ (s : List α) (f1 l1 f2 d2 d : Nat) (out : List (List α)),
        combine throws mid (d1 + 1) s f1 l1 f2 d2 d out = Combi.combineC (fun o => !throws o) mid (d1 + 1) s f1 l1 f2 d2 d out := by
      intro s f1 l1 f2 d2 d out
      rw [combine, Combi.combineC]
      simp only [ihd.2, Bool.not_not]
    refine ⟨h1, ?_⟩
    intro n
    induction n with
    | zero => intros; simp [combineLoop, Combi.combineCLoop]
    | succ n ih =>
      intro s f1 l1 i2 d22 d out
      rw [combineLoop, Combi.combineCLoop]
      simp only [ih, h1]

/-- **C169**: a function given to `for_each_combination` that throws has been shown the combinations up to the one at which it threw, in the order of a run without exceptions, and
the range then is a rearrangement of the elements.  If it does not throw, the range is as before. -/
theorem C169_for_each_combination (throws : List (List α) → Bool) (s : List α) (k : Nat) :
    ∃ s' shown calls returned, Combi.forEachCombination s k = ok (s, calls) ∧ forEachCombination throws s k = ok (returned, s', shown) ∧
      s'.Perm s ∧ shown <+: calls ∧ (returned = true → s' = s ∧ shown = calls) ∧ (returned = false → throws shown = true) ∧
      ∀ q, q <+: shown → q ≠ [] → q ≠ shown → throws q = false := by
  obtain ⟨s', calls, h1, h2, h3, h4⟩ := Combi.C45_conditional (fun o => !throws o) s k
  obtain ⟨g1, g2, g3, g4⟩ := Combi.C45_showUntil (fun o => !throws o) calls
  by_cases hk : k > s.length
  · have e : calls = [] := by
      unfold Combi.forEachCombination at h1
      rw [if_pos hk] at h1
      cases h1; rfl
    refine ⟨s, [], calls, true, h1, by unfold forEachCombination; rw [if_pos hk], List.Perm.refl _, List.nil_prefix, fun _ => ⟨rfl, e.symm⟩, by simp, ?_⟩
    intro q hq h0
    exact absurd (List.prefix_nil.mp hq) h0
  · unfold Combi.forEachCombinationConditional at h2
    rw [if_neg hk] at h2
    obtain ⟨⟨go, t, out⟩, hc, he⟩ := bind_eq_ok.mp h2
    have he := Outcome.ok.inj he
    simp only [Prod.mk.injEq] at he
    obtain ⟨rfl, rfl⟩ := he
    have hgo : go = (Combi.showUntil (fun o => !throws o) [] calls).1 := by
      unfold Combi.forEachCombination at h1
      rw [if_neg hk] at h1
      obtain ⟨new, e, _, F⟩ := Combi.followsAll (fun o => !throws o) k k _ _ _ _ _ _ _ _ _ h1
      rw [List.nil_append] at e
      subst e
      obtain ⟨t', q1, _⟩ := F []
      rw [hc] at q1
      have := Outcome.ok.inj q1
      simp only [Prod.mk.injEq] at this
      exact this.1
    refine ⟨t, _, calls, go, h1, ?_, h3, g1, ?_, ?_, ?_⟩
    · unfold forEachCombination
      rw [if_neg hk, (combine_conditional throws k k).1, hc]
    · intro hr
      rw [hgo] at hr
      exact ⟨h4 hr, g2 hr⟩
    · intro hr
      rw [hgo] at hr
      simpa using g3 hr
    · intro q h5 h6 h7
      simpa using g4 q h5 h6 h7

/-- **C169** (negative result): the range is in general not as it was: the pairs from four elements, thrown at the third. -/
theorem C169_combination_moved : forEachCombination (fun shown => decide (shown.length = 3)) [1, 2, 3, 4] 2 = ok (false, [1, 4, 2, 3], [[1, 2], [1, 3], [1, 4]]) := by
  simp [forEachCombination, combine, combineLoop, swapAt, deref, store]

theorem forEachPermutation_cond [LinearOrder α] (throws : List (List α) → Bool) : ∀ (fuel : Nat) (l : List α) (shown : List (List α)),
    forEachPermutation throws fuel l shown = Permute.forEachCond (fun sh m => (!throws (sh ++ [m]), sh ++ [m])) fuel l shown := by
  intro fuel
  induction fuel with
  | zero => intros; rfl
  | succ fuel ih =>
    intro l shown
    unfold forEachPermutation Permute.forEachCond
    simp only [ih, Bool.not_not]
    rfl

theorem showUntil_throws (throws : List (List α) → Bool) : ∀ (vs sh : List (List α)),
    ((∀ q, q <+: vs → q ≠ [] → throws (sh ++ q) = false) ∧ Permute.showUntil (fun sh m => (!throws (sh ++ [m]), sh ++ [m])) vs sh = (true, sh ++ vs, none)) ∨
    ∃ a m b, vs = a ++ m :: b ∧ throws (sh ++ a ++ [m]) = true ∧ (∀ q, q <+: a → q ≠ [] → throws (sh ++ q) = false) ∧
      Permute.showUntil (fun sh m => (!throws (sh ++ [m]), sh ++ [m])) vs sh = (false, sh ++ a ++ [m], some m) := by
  intro vs
  induction vs with
  | nil =>
    intro sh
    refine Or.inl ⟨fun q hq h0 => absurd (List.prefix_nil.mp hq) h0, by simp [Permute.showUntil]⟩
  | cons v vs ih =>
    intro sh
    simp only [Permute.showUntil]
    by_cases ht : throws (sh ++ [v]) = true
    · exact Or.inr ⟨[], v, vs, rfl, by simpa using ht, fun q hq h0 => absurd (List.prefix_nil.mp hq) h0, by simp [ht]⟩
    · have ht' : throws (sh ++ [v]) = false := by simpa using ht
      rw [ht']
      simp only [Bool.not_false, if_true]
      have hcons : ∀ (w : List (List α)), (∀ q, q <+: w → q ≠ [] → throws (sh ++ [v] ++ q) = false) → ∀ q, q <+: v :: w → q ≠ [] → throws (sh ++ q) = false := by
        intro w hw q hq h0
        cases q with
        | nil => exact absurd rfl h0
        | cons y q =>
          rw [List.cons_prefix_cons] at hq
          obtain ⟨rfl, hq⟩ := hq
          by_cases hq0 : q = []
          · rw [hq0]; exact ht'
          · simpa using hw q hq hq0
      rcases ih (sh ++ [v]) with ⟨h1, h2⟩ | ⟨a, m, b, h1, h2, h3, h4⟩
      · exact Or.inl ⟨hcons vs h1, by rw [h2]; simp⟩
      · exact Or.inr ⟨v :: a, m, b, by rw [h1]; rfl, by simpa using h2, hcons a h3, by rw [h4]; simp⟩

/-- **C169**: a function given to `for_each_permutation` that throws has been shown the arrangements from the first on, in increasing order, up to the one at which it threw, and
the range is left at that arrangement. -/
theorem C169_for_each_permutation [LinearOrder α] (throws : List (List α) → Bool) (l : List α) (fuel : Nat) (hf : l.length.factorial ≤ fuel) :
    ∃ (visited : List (List α)) (last : List α), visited.head? = some l ∧ visited.Pairwise (· < ·) ∧ (∀ m, m ∈ visited ↔ m.Perm l ∧ l ≤ m) ∧
      last.Perm l ∧ last.Pairwise (· ≤ ·) ∧
      ((∀ q, q <+: visited → q ≠ [] → throws q = false) ∧ forEachPermutation throws fuel l [] = ok (true, visited, last) ∨
        ∃ before m behind, visited = before ++ m :: behind ∧ throws (before ++ [m]) = true ∧ (∀ q, q <+: before → q ≠ [] → throws q = false) ∧
          forEachPermutation throws fuel l [] = ok (false, before ++ [m], m)) := by
  obtain ⟨visited, last, h1, h2, h3, h4, h5, h6⟩ := Permute.C116_conditional (fun sh m => (!throws (sh ++ [m]), sh ++ [m])) l ([] : List (List α)) fuel hf
  refine ⟨visited, last, h1, h2, h3, h4, h5, ?_⟩
  rw [forEachPermutation_cond, h6]
  rcases showUntil_throws throws visited [] with ⟨g1, g2⟩ | ⟨a, m, b, g1, g2, g3, g4⟩
  · exact Or.inl ⟨g1, by rw [g2]; rfl⟩
  · exact Or.inr ⟨a, m, b, g1, g2, g3, by rw [g4]; rfl⟩

/-- 1, 2, 3, thrown at the fourth arrangement. -/
example : forEachPermutation (fun shown => decide (shown.length = 4)) 6 [1, 2, 3] [] =
    ok (false, [[1, 2, 3], [1, 3, 2], [2, 1, 3], [2, 3, 1]], [2, 3, 1]) := by decide +kernel

/-! ## Concrete cases of removing in place -/

example : removeInplace (fun v : Nat => if v = 9 then none else some (v == 1)) [1, 2, 1, 9, 4] = ok ([2] ++ [2, 1, 9, 4], false) := by
  obtain ⟨kept, h1, h2⟩ := C169_remove_inplace (fun v : Nat => if v = 9 then none else some (v == 1)) [1, 2, 1] 9 [4] (by decide) (by decide)
  have hk : kept = [2] := by rw [h1]; decide
  rw [hk] at h2
  exact h2

example : ∃ front, front.length = 3 ∧ removeInplace (fun v : Nat => if v = 9 then none else some (v == 1)) [3, 2, 5, 9, 4] = ok (front ++ [9, 4], false) ∧ front = [3, 2, 5] := by
  obtain ⟨front, h1, h2, _, h3⟩ := C169_remove_inplace_rest (fun v : Nat => if v = 9 then none else some (v == 1)) [3, 2, 5] 9 [4] (by decide) (by decide)
  exact ⟨front, h1, h2, h3 (by decide)⟩

end Strtk.Throwing
