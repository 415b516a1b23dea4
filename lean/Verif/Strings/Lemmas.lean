import Verif.Strings.Model
import Verif.Strings.Spec

/-! Helper lemmas for the string editing theorems. -/

namespace Strtk.Strings
open Outcome Mem

variable {α : Type}

theorem store_mid (a : List α) (x : α) (b : List α) (c : α) : store (a ++ x :: b) a.length c = ok (a ++ c :: b) := by
  simp [store]

theorem deref_two (a b : List α) (c : α) (t : List α) : deref (a ++ b ++ c :: t) (a.length + b.length) = ok c := by
  have := deref_append_cons (a ++ b) c t
  simpa using this

theorem resize_drop_junk (d : α) (x junk : List α) : resize d (x ++ junk) ((x ++ junk).length - junk.length) = x := by
  rw [Mem.resize_le _ _ _ (by omega), List.take_left']
  simp

theorem dropWhile_nil_of_all (p : α → Bool) (l : List α) (h : ∀ c ∈ l, p c = true) : l.dropWhile p = [] := by
  induction l with
  | nil => rfl
  | cons a l ih => simp [h a (by simp), ih (fun c hc => h c (by simp [hc]))]

theorem dropWhile_ne_nil (p : α → Bool) (l : List α) (h : ∃ c ∈ l, p c = false) : l.dropWhile p ≠ [] := by
  induction l with
  | nil => obtain ⟨c, hc, _⟩ := h; simp at hc
  | cons a l ih =>
    by_cases ha : p a
    · simp only [List.dropWhile_cons, ha, if_true]
      apply ih
      obtain ⟨c, hc, hp⟩ := h
      simp at hc
      rcases hc with rfl | hc
      · simp [ha] at hp
      · exact ⟨c, hc, hp⟩
    · simp [ha]

/-- Copying one element down over the gap `mid`. -/
theorem shift_store (kept mid : List α) (c : α) (t : List α) :
    ∃ mid', mid'.length = mid.length ∧
      (if kept.length + mid.length ≠ kept.length then store (kept ++ mid ++ c :: t) kept.length c else ok (kept ++ mid ++ c :: t)) =
        ok ((kept ++ [c]) ++ mid' ++ t) := by
  cases mid with
  | nil => exact ⟨[], rfl, by simp⟩
  | cons m mid =>
    refine ⟨mid ++ [c], by simp, ?_⟩
    rw [if_pos (by simp)]
    rw [List.append_assoc, List.cons_append, store_mid]
    simp

theorem removeLoop_spec (p : α → Bool) :
    ∀ (fuel : Nat) (kept mid t : List α) (count : Nat), t.length < fuel →
      ∃ junk, junk.length = mid.length + (t.filter p).length ∧
        removeLoop p fuel (kept ++ mid ++ t) (kept.length + mid.length) kept.length count =
          ok (kept ++ t.filter (fun c => !p c) ++ junk, count + (t.filter p).length) := by
  intro fuel
  induction fuel with
  | zero => intros; omega
  | succ fuel ih =>
    intro kept mid t count hf
    unfold removeLoop
    cases t with
    | nil => exact ⟨mid, by simp, by simp⟩
    | cons c t =>
      rw [if_pos (by simp only [List.length_append, List.length_cons]; omega), deref_two, ok_bind]
      simp at hf
      by_cases hc : p c
      · obtain ⟨junk, h1, h2⟩ := ih kept (mid ++ [c]) t (count + 1) hf
        refine ⟨junk, by simp [h1, hc]; omega, ?_⟩
        rw [if_pos hc]
        simp only [List.length_append, List.length_cons, List.length_nil, Nat.zero_add, List.append_assoc, List.singleton_append] at h2 ⊢
        rw [Nat.add_assoc, h2]
        simp [hc]; omega
      · obtain ⟨mid', hm, hs⟩ := shift_store kept mid c t
        obtain ⟨junk, h1, h2⟩ := ih (kept ++ [c]) mid' t count hf
        refine ⟨junk, by simp [h1, hc, hm], ?_⟩
        rw [if_neg hc, hs, ok_bind]
        simp only [List.length_append, List.length_cons, List.length_nil, Nat.zero_add, hm] at h2
        rw [show kept.length + mid.length + 1 = kept.length + 1 + mid.length by omega, h2]
        simp [hc]

/-- What both `remove_consecutives_inplace` overloads keep of the elements after `prev`. -/
def greedy (keep : α → α → Bool) : α → List α → List α
  | _, [] => []
  | prev, c :: t => if keep prev c then c :: greedy keep c t else greedy keep prev t

theorem greedy_length_le (keep : α → α → Bool) (prev : α) (t : List α) : (greedy keep prev t).length ≤ t.length := by
  induction t generalizing prev with
  | nil => simp [greedy]
  | cons c t ih =>
    simp only [greedy]
    split
    · simpa using ih c
    · have := ih prev; simp; omega

theorem consCopy_spec (keep : α → α → Bool) :
    ∀ (fuel : Nat) (kept mid t : List α) (prev : α), t.length < fuel →
      ∃ u v mid' prev', t = u ++ v ∧ mid'.length = mid.length ∧
        greedy keep prev t = u ++ greedy keep prev' v ∧
        (∀ c ∈ v.head?, keep prev' c = false) ∧
        (∀ c ∈ t.head?, keep prev c = true → u ≠ []) ∧
        consCopy keep fuel (kept ++ mid ++ t) (kept.length + mid.length) kept.length prev =
          ok (kept ++ u ++ mid' ++ v, kept.length + u.length + mid.length, kept.length + u.length, prev') := by
  intro fuel
  induction fuel with
  | zero => intros; omega
  | succ fuel ih =>
    intro kept mid t prev hf
    unfold consCopy
    cases t with
    | nil => exact ⟨[], [], mid, prev, by simp, rfl, by simp, by simp, by simp, by simp⟩
    | cons c t =>
      rw [if_pos (by simp only [List.length_append, List.length_cons]; omega), deref_two, ok_bind]
      simp at hf
      by_cases hc : keep prev c
      · obtain ⟨mid', hm, hs⟩ := shift_store kept mid c t
        obtain ⟨u, v, mid'', prev', h1, h2, h3, h4, _, h5⟩ := ih (kept ++ [c]) mid' t c hf
        refine ⟨c :: u, v, mid'', prev', by simp [h1], by omega, by simp [greedy, hc, h3], h4, by simp, ?_⟩
        rw [if_pos hc, hs, ok_bind]
        simp only [List.length_append, List.length_cons, List.length_nil, Nat.zero_add, hm] at h5
        rw [show kept.length + mid.length + 1 = kept.length + 1 + mid.length by omega, h5]
        simp; omega
      · refine ⟨[], c :: t, mid, prev, by simp, rfl, by simp, by simpa using hc, by simpa using hc, ?_⟩
        rw [if_neg hc]
        simp

theorem consSkip_spec (keep skip : α → α → Bool) (prev : α) (hks : ∀ c, skip prev c = !keep prev c) :
    ∀ (fuel : Nat) (pre t : List α) (count : Nat), t.length < fuel →
      ∃ u v, t = u ++ v ∧ greedy keep prev t = greedy keep prev v ∧ (∀ c ∈ v.head?, keep prev c = true) ∧
        (∀ c ∈ t.head?, keep prev c = false → u ≠ []) ∧
        consSkip skip prev fuel (pre ++ t) pre.length count = ok (pre.length + u.length, count + u.length) := by
  intro fuel
  induction fuel with
  | zero => intros; omega
  | succ fuel ih =>
    intro pre t count hf
    unfold consSkip
    cases t with
    | nil => exact ⟨[], [], by simp, rfl, by simp, by simp, by simp⟩
    | cons c t =>
      rw [if_pos (by simp), deref_append_cons, ok_bind]
      simp at hf
      by_cases hc : keep prev c
      · refine ⟨[], c :: t, by simp, rfl, by simpa using hc, by simp [hc], ?_⟩
        rw [if_neg (by simp [hks, hc])]; simp
      · obtain ⟨u, v, h1, h2, h3, _, h4⟩ := ih (pre ++ [c]) t (count + 1) hf
        refine ⟨c :: u, v, by simp [h1], by simp [greedy, hc, h2], h3, by simp, ?_⟩
        rw [if_pos (by simp [hks, hc])]
        simp at h4
        rw [h4]; simp; omega

theorem consLoop_spec (keep skip : α → α → Bool) (hks : ∀ prev c0, keep prev c0 = false → ∀ c, skip prev c = !keep prev c) :
    ∀ (fuel : Nat) (kept mid t : List α) (prev : α) (count : Nat), t.length < fuel →
      ∃ junk, junk.length = mid.length + (t.length - (greedy keep prev t).length) ∧
        consLoop keep skip fuel (kept ++ mid ++ t) (kept.length + mid.length) kept.length prev count =
          ok (kept ++ greedy keep prev t ++ junk, count + (t.length - (greedy keep prev t).length)) := by
  intro fuel
  induction fuel with
  | zero => intros; omega
  | succ fuel ih =>
    intro kept mid t prev count hf
    unfold consLoop
    cases ht : t with
    | nil => exact ⟨mid, by simp [greedy], by simp [greedy]⟩
    | cons c0 t0 =>
      rw [if_pos (by simp only [List.length_append, List.length_cons]; omega), ← ht]
      obtain ⟨u, v, mid', prev', h1, h2, h3, h4, hu, h5⟩ := consCopy_spec keep ((kept ++ mid ++ t).length + 1) kept mid t prev
        (by simp only [List.length_append]; omega)
      rw [h5, ok_bind]
      simp only
      -- the skipping loop
      have hskip : ∃ a b, v = a ++ b ∧ greedy keep prev' v = greedy keep prev' b ∧
          (v ≠ [] → a ≠ []) ∧
          consSkip skip prev' ((kept ++ u ++ mid' ++ v).length + 1) (kept ++ u ++ mid' ++ v)
            (kept.length + u.length + mid.length) count = ok (kept.length + u.length + mid.length + a.length, count + a.length) := by
        cases hv : v with
        | nil =>
          refine ⟨[], [], by simp, rfl, by simp, ?_⟩
          unfold consSkip
          rw [if_neg (by simp only [List.length_append, List.length_nil, h2]; omega)]
          simp
        | cons x w =>
          have hx : keep prev' x = false := h4 x (by simp [hv])
          obtain ⟨a, b, e1, e2, e3, e4, e5⟩ := consSkip_spec keep skip prev' (hks prev' x hx)
            ((kept ++ u ++ mid' ++ v).length + 1) (kept ++ u ++ mid') v count (by simp only [List.length_append]; omega)
          rw [hv] at e1 e2 e4 e5
          refine ⟨a, b, e1, e2, fun _ => e4 x (by simp) hx, ?_⟩
          simp only [List.length_append, h2] at e5
          have hlen : (kept ++ u ++ mid' ++ x :: w).length + 1 = kept.length + u.length + mid.length + (x :: w).length + 1 := by
            simp only [List.length_append, h2]
          rw [hlen, e5]
      obtain ⟨a, b, e1, e2, e3, e4⟩ := hskip
      rw [e4, ok_bind]
      simp only
      have hlt : b.length < fuel := by
        have hl : t.length = u.length + v.length := by rw [h1]; simp
        have hl2 : v.length = a.length + b.length := by rw [e1]; simp
        by_cases hve : v = []
        · have : b = [] := by rw [hve] at e1; simp at e1; exact e1.2
          subst this
          have : 0 < u.length := by
            have : t.length ≠ 0 := by rw [ht]; simp
            rw [hve] at hl; simp at hl; omega
          simp; omega
        · have : 0 < a.length := List.length_pos_iff.mpr (e3 hve)
          omega
      obtain ⟨junk, g1, g2⟩ := ih (kept ++ u) (mid' ++ a) b prev' (count + a.length) hlt
      have hg : greedy keep prev t = u ++ greedy keep prev' b := by rw [h3, e2]
      have hgl := greedy_length_le keep prev' b
      have hlen : t.length = u.length + a.length + b.length := by rw [h1, e1]; simp; omega
      refine ⟨junk, ?_, ?_⟩
      · rw [g1, hg]; simp; omega
      · rw [e1]
        simp only [List.length_append, h2, ← List.append_assoc] at g2
        simp only [← List.append_assoc]
        rw [show kept.length + u.length + mid.length + a.length = kept.length + u.length + (mid.length + a.length) by omega, g2, hg]
        simp; omega

theorem consRange_spec (keep skip : α → α → Bool) (hks : ∀ prev c0, keep prev c0 = false → ∀ c, skip prev c = !keep prev c)
    (a : α) (t : List α) :
    ∃ junk, consRange keep skip (a :: t) = ok (a :: greedy keep a t ++ junk, junk.length) := by
  unfold consRange
  rw [if_neg (by simp)]
  have hd : deref (a :: t) 0 = ok a := by simp [deref]
  rw [hd, ok_bind]
  obtain ⟨junk, h1, h2⟩ := consLoop_spec keep skip hks ((a :: t).length + 1) [a] [] t a 0 (by simp; omega)
  refine ⟨junk, ?_⟩
  simp at h1 h2
  simp [h2, h1]

theorem greedy_heads (p : α → Bool) (c c' : α) (h : p c = p c') (t : List α) :
    greedy (fun prev c => !p c || !p prev) c' t = headsOfRuns p (some c) t := by
  induction t generalizing c c' with
  | nil => rfl
  | cons x t ih =>
    simp only [greedy, headsOfRuns, Option.any_some, h]
    by_cases hx : p x = true <;> by_cases hc : p c' = true
    · simp only [hx, hc]; simp; exact ih x c' (by rw [hx, hc])
    · simp only [hx, hc]; simp; exact ih x x rfl
    · simp only [hx, hc]; simp; exact ih x x rfl
    · simp only [hx, hc]; simp; exact ih x x rfl

theorem greedy_squeeze [DecidableEq α] (c : α) (t : List α) :
    greedy (fun prev c => decide (prev ≠ c)) c t = squeeze (some c) t := by
  induction t generalizing c with
  | nil => rfl
  | cons x t ih =>
    simp only [greedy, squeeze]
    by_cases h : c = x
    · subst h; simp; simpa using ih c
    · simp [h]; simpa using ih x

theorem trailLoop_spec (p : α → Bool) (a : α) :
    ∀ (fuel : Nat) (u v : List α) (count : Nat), u.length < fuel →
      trailLoop p (a :: (u ++ v)) fuel u.length count = ok (count + (u.reverse.takeWhile p).length) := by
  intro fuel
  induction fuel with
  | zero => intros; omega
  | succ fuel ih =>
    intro u v count hf
    unfold trailLoop
    rcases List.eq_nil_or_concat u with rfl | ⟨u, x, rfl⟩
    · simp
    · rw [if_pos (by simp)]
      have hd : deref (a :: (u.concat x ++ v)) (u.concat x).length = ok x := by
        have := deref_append_cons (a :: u) x v
        simpa using this
      rw [hd, ok_bind]
      by_cases hx : p x
      · rw [if_pos hx]
        have := ih u (x :: v) (count + 1) (by simp at hf; omega)
        simp at this ⊢
        rw [this]
        simp [hx]; omega
      · rw [if_neg hx]
        simp [hx]

theorem leadLoop_spec (p : α → Bool) :
    ∀ (fuel : Nat) (pre t : List α) (count : Nat), t.length < fuel →
      leadLoop p (pre ++ t) fuel pre.length count = ok (pre.length + (t.takeWhile p).length, count + (t.takeWhile p).length) := by
  intro fuel
  induction fuel with
  | zero => intros; omega
  | succ fuel ih =>
    intro pre t count hf
    unfold leadLoop
    cases t with
    | nil => simp
    | cons c t =>
      rw [if_pos (by simp), deref_append_cons, ok_bind]
      by_cases hc : p c
      · rw [if_pos hc]
        have := ih (pre ++ [c]) t (count + 1) (by simp at hf; omega)
        simp at this
        rw [this]; simp [hc]; omega
      · rw [if_neg hc]; simp [hc]

theorem replaceLoop_spec [DecidableEq α] (c1 c2 : α) :
    ∀ (fuel : Nat) (pre t : List α), t.length < fuel →
      replaceLoop c1 c2 fuel (pre ++ t) pre.length = ok (pre ++ t.map (fun c => if c = c1 then c2 else c)) := by
  intro fuel
  induction fuel with
  | zero => intros; omega
  | succ fuel ih =>
    intro pre t hf
    unfold replaceLoop
    cases t with
    | nil => simp
    | cons c t =>
      rw [if_pos (by simp), deref_append_cons, ok_bind]
      by_cases hc : c1 = c
      · rw [if_pos hc, store_mid, ok_bind]
        have := ih (pre ++ [c2]) t (by simp at hf; omega)
        simp at this
        rw [this]; simp [hc]
      · rw [if_neg hc, ok_bind]
        have := ih (pre ++ [c]) t (by simp at hf; omega)
        simp at this
        rw [this]; simp [Ne.symm hc]

theorem copyIf_spec (p : α → Bool) :
    ∀ (fuel : Nat) (pre t out : List α), t.length < fuel →
      copyIf p (pre ++ t) fuel pre.length out = ok (out ++ t.filter p) := by
  intro fuel
  induction fuel with
  | zero => intros; omega
  | succ fuel ih =>
    intro pre t out hf
    unfold copyIf
    cases t with
    | nil => simp
    | cons c t =>
      rw [if_pos (by simp), deref_append_cons, ok_bind]
      have := fun out => ih (pre ++ [c]) t out (by simp at hf; omega)
      simp at this
      rw [this]; by_cases hc : p c <;> simp [hc]

theorem copyWhile_spec (p : α → Bool) :
    ∀ (fuel : Nat) (pre t out : List α), t.length < fuel →
      copyWhile p (pre ++ t) fuel pre.length out = ok (pre.length + (t.takeWhile p).length, out ++ t.takeWhile p) := by
  intro fuel
  induction fuel with
  | zero => intros; omega
  | succ fuel ih =>
    intro pre t out hf
    unfold copyWhile
    cases t with
    | nil => simp
    | cons c t =>
      rw [if_pos (by simp), deref_append_cons, ok_bind]
      have := fun out => ih (pre ++ [c]) t out (by simp at hf; omega)
      simp at this
      by_cases hc : p c
      · simp [hc, this]; omega
      · simp [hc]

theorem copyUntil_eq (p : α → Bool) (s : List α) (fuel i : Nat) (out : List α) :
    copyUntil p s fuel i out = copyWhile (fun c => !p c) s fuel i out := by
  induction fuel generalizing i out with
  | zero => rfl
  | succ fuel ih => simp [copyUntil, copyWhile, ih]

theorem rangeOnly_spec (p : α → Bool) :
    ∀ (fuel : Nat) (pre t : List α), t.length < fuel → rangeOnlyContains p (pre ++ t) fuel pre.length = ok (t.all p) := by
  intro fuel
  induction fuel with
  | zero => intros; omega
  | succ fuel ih =>
    intro pre t hf
    unfold rangeOnlyContains
    cases t with
    | nil => simp
    | cons c t =>
      rw [if_pos (by simp), deref_append_cons, ok_bind]
      have := ih (pre ++ [c]) t (by simp at hf; omega)
      simp at this
      by_cases hc : p c <;> simp [hc, this]

theorem copyN_spec (n : Nat) : ∀ (pre t out : List α), n ≤ t.length → copyN (pre ++ t) n pre.length out = ok (out ++ t.take n) := by
  induction n with
  | zero => intros; simp [copyN]
  | succ n ih =>
    intro pre t out h
    cases t with
    | nil => simp at h
    | cons c t =>
      unfold copyN
      rw [deref_append_cons, ok_bind]
      have := ih (pre ++ [c]) t (out ++ [c]) (by simpa using h)
      simp at this
      rw [this]; simp

/-! ### remove_duplicates -/

theorem charIndex_ascii (c : BitVec 8) (h : c.toNat < 128) : charIndex c = c.toNat := by
  revert h
  revert c
  decide +kernel

theorem charIndex_high (c : BitVec 8) (h : 128 ≤ c.toNat) : 255 ≤ charIndex c := by
  revert h
  revert c
  decide +kernel

theorem removeDupLoop_spec (s : List (BitVec 8)) :
    ∀ (table : List Bool) (result : List (BitVec 8)), (∀ c ∈ s, c.toNat < 128) → table.length = 255 →
      removeDupLoop s table result = ok (result ++ ((s.filter fun c => table[c.toNat]? = some false)).eraseDups) := by
  induction s with
  | nil => intro table result _ _; simp [removeDupLoop]
  | cons c s ih =>
    intro table result hs ht
    have hc : c.toNat < 128 := hs c (by simp)
    have hlt : c.toNat < table.length := by omega
    unfold removeDupLoop
    rw [charIndex_ascii c hc, deref_eq_ok hlt, ok_bind]
    by_cases hseen : table[c.toNat] = false
    · rw [if_pos hseen, store_eq_ok _ hlt, ok_bind, ih _ _ (fun x hx => hs x (by simp [hx])) (by simpa using ht)]
      rw [List.filter_cons_of_pos (by simp [hlt, hseen]), List.eraseDups_cons, List.filter_filter]
      simp only [List.append_assoc, List.singleton_append]
      congr 4
      apply List.filter_congr
      intro x hx
      have hxl : x.toNat < table.length := by have := hs x (by simp [hx]); omega
      by_cases hxc : x = c
      · subst hxc; simp [hxl]
      · have : c.toNat ≠ x.toNat := fun h => hxc (BitVec.eq_of_toNat_eq h.symm)
        simp [List.getElem_set, this, hxl, hxc]
    · rw [if_neg hseen, ih _ _ (fun x hx => hs x (by simp [hx])) ht, List.filter_cons_of_neg (by simp [hlt, hseen])]

theorem removeDupLoop_ub (s : List (BitVec 8)) :
    ∀ (table : List Bool) (result : List (BitVec 8)), (∃ c ∈ s, 128 ≤ c.toNat) → table.length = 255 →
      removeDupLoop s table result = ub := by
  induction s with
  | nil => intro _ _ h; obtain ⟨c, hc, _⟩ := h; simp at hc
  | cons c s ih =>
    intro table result h ht
    unfold removeDupLoop
    by_cases hc : 128 ≤ c.toNat
    · rw [deref_ub (by have := charIndex_high c hc; omega)]; rfl
    · have hs : ∃ c ∈ s, 128 ≤ c.toNat := by
        obtain ⟨x, hx, hx'⟩ := h
        simp at hx
        rcases hx with rfl | hx
        · omega
        · exact ⟨x, hx, hx'⟩
      have hi := charIndex_ascii c (by omega)
      have hlt : c.toNat < table.length := by omega
      rw [hi, deref_eq_ok hlt, ok_bind]
      split
      · rw [store_eq_ok _ hlt, ok_bind]; exact ih _ _ hs (by simpa using ht)
      · exact ih _ _ hs ht

/-! ### replace_pattern -/

section
variable [DecidableEq α]

theorem findGo_none (p : List α) (hp : p ≠ []) (t : List α) : ∀ i, findGo p t i = none → ∀ r, replaceAll p r hp t = t := by
  induction t with
  | nil => intro i _ r; simp [replaceAll]
  | cons a t ih =>
    intro i h r
    unfold findGo at h
    split at h
    · simp at h
    · rename_i hpre
      rw [List.isPrefixOf_iff_prefix] at hpre
      rw [replaceAll, if_neg hpre, ih (i + 1) h r]

theorem findGo_some (p : List α) (hp : p ≠ []) (t : List α) : ∀ i q, findGo p t i = some q →
    ∃ u v, t = u ++ p ++ v ∧ q = i + u.length ∧ ∀ r, replaceAll p r hp t = u ++ r ++ replaceAll p r hp v := by
  induction t with
  | nil => intro i q h; simp [findGo, hp] at h
  | cons a t ih =>
    intro i q h
    unfold findGo at h
    split at h
    · rename_i hpre
      rw [List.isPrefixOf_iff_prefix] at hpre
      have h2 := hpre
      obtain ⟨v, hv⟩ := hpre
      refine ⟨[], v, by simp [hv], by simp at h; simp [h], ?_⟩
      intro r
      rw [replaceAll, if_pos h2]
      simp [← hv]
    · rename_i hpre
      rw [List.isPrefixOf_iff_prefix] at hpre
      obtain ⟨u, v, h1, h2, h3⟩ := ih (i + 1) q h
      refine ⟨a :: u, v, by simp [h1], by simp [h2]; omega, ?_⟩
      intro r
      rw [replaceAll, if_neg hpre, h3]
      simp

/-- Positions of the matches given the words between them. -/
def posOf (p : List α) : Nat → List (List α) → List Nat
  | _, [] => []
  | off, u :: us => (off + u.length) :: posOf p (off + u.length + p.length) us

@[simp] theorem posOf_length (p : List α) (off : Nat) (us : List (List α)) : (posOf p off us).length = us.length := by
  induction us generalizing off with
  | nil => rfl
  | cons u us ih => simp [posOf, ih]

theorem deltaLoop_spec (p : List α) (hp : p ≠ []) :
    ∀ (fuel : Nat) (pre t : List α) (ds : List Nat), t.length < fuel →
      ∃ us w, t = (us.map (· ++ p)).flatten ++ w ∧ (∀ r, replaceAll p r hp t = (us.map (· ++ r)).flatten ++ w) ∧
        deltaLoop (pre ++ t) p fuel pre.length ds = ok (ds ++ posOf p pre.length us) := by
  intro fuel
  induction fuel with
  | zero => intros; omega
  | succ fuel ih =>
    intro pre t ds hf
    unfold deltaLoop
    have hfind : find (pre ++ t) p pre.length = findGo p t pre.length := by simp [find]
    rw [hfind]
    cases hq : findGo p t pre.length with
    | none => exact ⟨[], t, by simp, by simpa using findGo_none p hp t _ hq, by simp [posOf]⟩
    | some q =>
      obtain ⟨u, v, h1, h2, h3⟩ := findGo_some p hp t _ _ hq
      have hl : 0 < p.length := List.length_pos_iff.mpr hp
      obtain ⟨us, w, e1, e2, e3⟩ := ih (pre ++ u ++ p) v (ds ++ [q]) (by rw [h1] at hf; simp at hf; omega)
      refine ⟨u :: us, w, by simp [h1, e1], by intro r; simp [h3, e2], ?_⟩
      simp only
      rw [h1, ← List.append_assoc, ← List.append_assoc, h2, show pre.length + u.length + p.length = (pre ++ u ++ p).length by simp only [List.length_append]]
      rw [h2] at e3
      rw [e3]
      simp [posOf, Nat.add_assoc]

theorem patCopy_spec (p r : List α) :
    ∀ (us : List (List α)) (S0 w N0 rest : List α),
      ((us.map (· ++ r)).flatten).length + w.length = rest.length →
      ∃ rest', rest'.length = w.length ∧
        patCopy (S0 ++ (us.map (· ++ p)).flatten ++ w) p.length r (posOf p S0.length us) S0.length N0.length S0.length (N0 ++ rest) =
          ok (S0.length + ((us.map (· ++ p)).flatten).length, N0.length + ((us.map (· ++ r)).flatten).length,
            N0 ++ (us.map (· ++ r)).flatten ++ rest') := by
  intro us
  induction us with
  | nil => intro S0 w N0 rest h; exact ⟨rest, by simpa using h.symm, by simp [patCopy, posOf]⟩
  | cons u us ih =>
    intro S0 w N0 rest h
    unfold posOf patCopy
    simp only [List.map_cons, List.flatten_cons, List.length_append] at h ⊢
    rw [show S0.length + u.length - S0.length = u.length by omega]
    have hsl : slice (S0 ++ (u ++ p ++ (us.map (· ++ p)).flatten) ++ w) S0.length u.length = ok u := by
      have := slice_append S0 u (p ++ (us.map (· ++ p)).flatten ++ w)
      simpa using this
    rw [hsl, ok_bind, copyTo_append N0 _ rest u (by omega) rfl, ok_bind]
    have hc2 := copyTo_append (N0 ++ u) (N0 ++ u ++ rest.drop u.length) (rest.drop u.length) r (by simp; omega) rfl
    simp only [List.length_append] at hc2
    rw [hc2, ok_bind]
    obtain ⟨rest', g1, g2⟩ := ih (S0 ++ u ++ p) w (N0 ++ u ++ r) ((rest.drop u.length).drop r.length) (by rw [List.length_drop, List.length_drop]; omega)
    refine ⟨rest', g1, ?_⟩
    simp only [List.length_append] at g2
    rw [show S0.length + (p.length + u.length) = S0.length + u.length + p.length by omega]
    rw [show S0 ++ (u ++ p ++ (List.map (fun x => x ++ p) us).flatten) ++ w = S0 ++ u ++ p ++ (List.map (fun x => x ++ p) us).flatten ++ w by simp]
    rw [g2]
    simp only [List.append_assoc, Outcome.ok.injEq, Prod.mk.injEq, and_true]
    constructor <;> omega

theorem toInt32_small (n : Nat) (h : n < 2 ^ 31) : toInt32 n = n := by
  have hm : n % 4294967296 = n := Nat.mod_eq_of_lt (by omega)
  rw [toInt32, BitVec.toInt_ofNat', Int.bmod_def]
  have : (n : Int) % ((2 ^ 32 : Nat) : Int) = n := by
    apply Int.emod_eq_of_lt <;> omega
  rw [this]
  split <;> omega

/-- The size computation on 1709/1728 is exact despite the signed-to-unsigned conversion. -/
theorem size_calc (k n : Nat) (inc : Int) (m : Nat) (hm : (m : Int) = k * inc + n) (hlt : m < 2 ^ 64) :
    (k * (inc % 2 ^ 64).toNat + n) % 2 ^ 64 = m := by
  have h1 : (((inc % 2 ^ 64).toNat : Nat) : Int) = inc % 2 ^ 64 := by omega
  have h2 : (((k * (inc % 2 ^ 64).toNat + n) % 2 ^ 64 : Nat) : Int) = m := by
    rw [Int.natCast_emod, Int.natCast_add, Int.natCast_mul, h1]
    have : ((2 ^ 64 : Nat) : Int) = 2 ^ 64 := by norm_cast
    rw [this, Int.add_emod, Int.mul_emod, Int.emod_emod, ← Int.mul_emod, ← Int.add_emod, ← hm]
    apply Int.emod_eq_of_lt <;> omega
  omega

end

end Strtk.Strings
