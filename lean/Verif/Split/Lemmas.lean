import Verif.Split.Model
import Verif.Split.Spec

/-! Helper lemmas for the tokenising theorems. -/

namespace Strtk.Split
open Outcome

variable {α : Type}

theorem skipRun_eq (d : α → Bool) (s pre t : List α) (hs : s = pre ++ t) :
    ∀ fuel, t.length < fuel → skipRun d s fuel pre.length = ok (pre.length + (t.takeWhile d).length) := by
  intro fuel
  induction fuel generalizing pre t with
  | zero => intro h; omega
  | succ fuel ih =>
    intro h
    cases t with
    | nil => subst hs; simp [skipRun]
    | cons c t =>
      have hlen : pre.length ≠ s.length := by subst hs; simp
      have hd : deref s pre.length = ok c := by subst hs; exact deref_append_cons _ _ _
      unfold skipRun
      rw [if_pos hlen, hd, ok_bind]
      by_cases hc : d c
      · rw [if_pos hc]
        have := ih (pre ++ [c]) t (by simp [hs]) (by simp at h; omega)
        simp only [List.length_append, List.length_cons, List.length_nil, Nat.zero_add] at this
        rw [this, List.takeWhile_cons_of_pos hc]
        simp; omega
      · rw [if_neg hc, List.takeWhile_cons_of_neg (by simpa using hc)]
        rfl

theorem finish_eq (d : α → Bool) (pre w : List α) (out : List (Nat × Nat)) (count : Nat)
    (hne : pre ++ w ≠ []) (hpre : ∀ c ∈ pre.getLast?, d c = true) :
    finish d (pre ++ w) pre.length (pre.length + w.length) out count =
      ok (out ++ [(pre.length, pre.length + w.length)], count + 1) := by
  unfold finish
  by_cases hw : w = []
  · subst hw
    have hp : pre ≠ [] := by simpa using hne
    have hpos : 0 < pre.length := List.length_pos_iff.mpr hp
    rw [if_neg (by simp), if_neg (by simp; exact hp)]
    have hlast : pre.getLast? = some (pre.getLast hp) := List.getLast?_eq_some_getLast hp
    have h2 : deref (pre ++ []) (pre.length + ([] : List α).length - 1) = ok (pre.getLast hp) := by
      rw [List.append_nil, List.length_nil, Nat.add_zero, deref_eq_ok (by omega)]
      simp [List.getLast_eq_getElem]
    rw [h2, ok_bind, if_pos (hpre _ (by simp [hlast]))]
  · have : 0 < w.length := List.length_pos_iff.mpr hw
    rw [if_pos (by omega)]

/-- A run of delimiters at the head of a list and what follows it. -/
theorem run_spec (d : α → Bool) (c : α) (t : List α) (hc : d c = true) :
    (c :: t).takeWhile d ≠ [] ∧ (∀ x ∈ (c :: t).takeWhile d, d x = true) ∧
    (∀ x ∈ ((c :: t).dropWhile d).head?, d x = false) ∧
    (c :: t) = (c :: t).takeWhile d ++ (c :: t).dropWhile d ∧
    (c :: t).takeWhile d = c :: t.takeWhile d ∧
    (c :: t).dropWhile d = t.dropWhile d := by
  refine ⟨by simp [List.takeWhile_cons_of_pos hc], ?_, ?_, by simp [List.takeWhile_append_dropWhile],
    List.takeWhile_cons_of_pos hc, List.dropWhile_cons_of_pos hc⟩
  · intro x hx
    exact List.all_eq_true.mp List.all_takeWhile x hx
  · intro x hx
    have := List.head?_dropWhile_not d (c :: t)
    simp only [Option.mem_def] at hx
    rw [hx] at this
    simpa using this

/-- Where the block ending a token lies, in each mode. -/
def blockOf (perRun : Bool) (d : α → Bool) (c : α) (t : List α) : List α × List α :=
  if perRun then (c :: t.takeWhile d, t.dropWhile d) else ([c], t)

theorem blockOf_spec (perRun : Bool) (d : α → Bool) (c : α) (t : List α) (hc : d c = true) :
    (blockOf perRun d c t).1 ≠ [] ∧ (∀ x ∈ (blockOf perRun d c t).1, d x = true) ∧
    (if perRun then ∀ x ∈ (blockOf perRun d c t).2.head?, d x = false else (blockOf perRun d c t).1.length = 1) ∧
    c :: t = (blockOf perRun d c t).1 ++ (blockOf perRun d c t).2 := by
  obtain ⟨h1, h2, h3, h4, h5, h6⟩ := run_spec d c t hc
  cases perRun
  · simp [blockOf, hc]
  · simp only [blockOf, if_true]
    rw [h5] at h1 h2 h4
    rw [h6] at h3 h4
    exact ⟨h1, h2, h3, h4⟩

theorem getLast_block (d : α → Bool) (p block : List α) (hne : block ≠ []) (hb : ∀ x ∈ block, d x = true) :
    ∀ x ∈ (p ++ block).getLast?, d x = true := by
  intro x hx
  rw [List.getLast?_append, List.getLast?_eq_some_getLast hne] at hx
  simp at hx
  subst hx
  exact hb _ (List.getLast_mem hne)

/-- The mode of `split` in the terms of the specification. -/
def perRunOf (opt : Opt) : Bool := opt.compress || (!opt.first && opt.all)
/-- The mode of `split` in the terms of the specification. -/
def keepOf (opt : Opt) : Keep := if opt.first then .firstOnly else if opt.all then .all else .none

theorem skip_tail (d : α → Bool) (p t : List α) (c : α) :
    skipRun d (p ++ c :: t) ((p ++ c :: t).length + 1) (p.length + 1) =
      ok (p.length + 1 + (t.takeWhile d).length) := by
  have := skipRun_eq d (p ++ c :: t) (p ++ [c]) t (by simp) ((p ++ c :: t).length + 1) (by simp; omega)
  simpa using this

theorem skip_here (d : α → Bool) (p t : List α) (c : α) (hc : d c = true) :
    skipRun d (p ++ c :: t) ((p ++ c :: t).length + 1) p.length =
      ok (p.length + 1 + (t.takeWhile d).length) := by
  have := skipRun_eq d (p ++ c :: t) p (c :: t) rfl ((p ++ c :: t).length + 1) (by simp; omega)
  rw [this, List.takeWhile_cons_of_pos hc]
  simp; omega

theorem splitLoop_spec (compress incl1 inclAll : Bool) (d : α → Bool) (s : List α) (hs0 : s ≠ [])
    (hmask : incl1 = true → inclAll = false) (hplain : compress = true → incl1 = true ∨ inclAll = true) :
    ∀ (fuel : Nat) (pre w t : List α) (out : List (Nat × Nat)) (count : Nat),
      s = pre ++ w ++ t → (∀ c ∈ w, d c = false) → (∀ c ∈ pre.getLast?, d c = true) → t.length < fuel →
      ∃ toks, Splits (compress || inclAll) (if incl1 then Keep.firstOnly else if inclAll then Keep.all else Keep.none) d
          pre.length (w ++ t) toks ∧
        splitLoop compress incl1 inclAll d s fuel pre.length (pre.length + w.length) out count =
          ok (out ++ toks.map pairOf, count + toks.length) := by
  intro fuel
  induction fuel with
  | zero => intro pre w t out count _ _ _ h; omega
  | succ fuel ih =>
    intro pre w t out count hs hw hpre hf
    cases t with
    | nil =>
      refine ⟨[(pre.length, w)], ?_, ?_⟩
      · simpa using Splits.last pre.length w hw
      · have hlen : ¬ (pre.length + w.length ≠ s.length) := by subst hs; simp
        unfold splitLoop
        rw [if_neg hlen]
        have : s = pre ++ w := by simpa using hs
        subst this
        rw [finish_eq d pre w out count hs0 hpre]
        simp [pairOf]
    | cons c t =>
      have hlen : pre.length + w.length ≠ s.length := by subst hs; simp only [List.length_append, List.length_cons]; omega
      have hd : deref s (pre.length + w.length) = ok c := by
        subst hs
        have := deref_append_cons (pre ++ w) c t
        simpa using this
      unfold splitLoop
      rw [if_pos hlen, hd, ok_bind]
      by_cases hc : d c
      · rw [if_pos hc]
        obtain ⟨hb1, hb2, hb3, hb4⟩ := blockOf_spec (compress || inclAll) d c t hc
        generalize hB : blockOf (compress || inclAll) d c t = B at hb1 hb2 hb3 hb4
        obtain ⟨block, rest⟩ := B
        simp only at hb1 hb2 hb3 hb4
        have hrest : rest.length < fuel := by
          have := congrArg List.length hb4
          have h1 : 0 < block.length := List.length_pos_iff.mpr hb1
          simp at this hf; omega
        have key := fun out count => ih (pre ++ w ++ block) [] rest out count
          (by rw [hs, hb4]; simp) (by simp) (getLast_block d _ _ hb1 hb2) hrest
        have hlast' : (pre ++ w ++ block).length = pre.length + w.length + block.length := by simp only [List.length_append]
        simp only [hlast', List.length_nil, Nat.add_zero, List.nil_append] at key
        have hsk : skipRun d s (s.length + 1) (pre.length + w.length + 1) =
            ok (pre.length + w.length + 1 + (t.takeWhile d).length) := by
          have := skip_tail d (pre ++ w) t c
          rw [hs]; simpa using this
        have hsk' : skipRun d s (s.length + 1) (pre.length + w.length) =
            ok (pre.length + w.length + 1 + (t.takeWhile d).length) := by
          have := skip_here d (pre ++ w) t c hc
          rw [hs]; simpa using this
        have fin : ∀ (kp : Keep) (e : Nat), e = pre.length + w.length + (kp.part block).length →
            ∀ toks, Splits (compress || inclAll) kp d (pre.length + w.length + block.length) rest toks →
            ∃ toks', Splits (compress || inclAll) kp d pre.length (w ++ c :: t) toks' ∧
              ok (out ++ [(pre.length, e)] ++ toks.map pairOf, count + 1 + toks.length) =
              ok (out ++ toks'.map pairOf, count + toks'.length) := by
          intro kp e he toks ht
          refine ⟨(pre.length, w ++ kp.part block) :: toks, ?_, ?_⟩
          · rw [hb4, ← List.append_assoc]
            exact Splits.more _ w block rest toks hw hb1 hb2 hb3 ht
          · simp [pairOf, he]; omega
        cases hi1 : incl1 <;> cases hia : inclAll <;> cases hco : compress <;>
          simp only [hi1, hia, hco, Bool.or_false, Bool.or_true, if_true, Bool.false_eq_true, if_false, ok_bind, Bool.not_false, Bool.not_true,
            Bool.and_true, Bool.and_false, Bool.true_and, Bool.false_and] at key fin hB hmask hplain ⊢
        all_goals first
          | (exfalso; simp at hmask; done)
          | (exfalso; simp at hplain; done)
          | skip
        · -- default
          simp only [blockOf, Bool.false_eq_true, if_false, Prod.mk.injEq] at hB
          obtain ⟨rfl, rfl⟩ := hB
          obtain ⟨toks, h1, h2⟩ := key (out ++ [(pre.length, pre.length + w.length)]) (count + 1)
          simp only [List.length_cons, List.length_nil, Nat.zero_add] at h1 h2
          rw [h2]
          exact fin .none _ (by simp [Keep.part]) toks h1
        · -- all
          simp only [blockOf, if_true, Prod.mk.injEq] at hB
          obtain ⟨rfl, rfl⟩ := hB
          obtain ⟨toks, h1, h2⟩ := key (out ++ [(pre.length, pre.length + w.length + 1 + (t.takeWhile d).length)]) (count + 1)
          simp only [List.length_cons] at h1 h2
          rw [hsk', ok_bind]
          rw [show pre.length + w.length + 1 + (t.takeWhile d).length = pre.length + w.length + ((t.takeWhile d).length + 1) by omega] at *
          rw [h2]
          exact fin .all _ (by simp [Keep.part]) toks h1
        · -- all + compress
          simp only [blockOf, if_true, Prod.mk.injEq] at hB
          obtain ⟨rfl, rfl⟩ := hB
          obtain ⟨toks, h1, h2⟩ := key (out ++ [(pre.length, pre.length + w.length + 1 + (t.takeWhile d).length)]) (count + 1)
          simp only [List.length_cons] at h1 h2
          rw [hsk', ok_bind]
          rw [show pre.length + w.length + 1 + (t.takeWhile d).length = pre.length + w.length + ((t.takeWhile d).length + 1) by omega] at *
          rw [h2]
          exact fin .all _ (by simp [Keep.part]) toks h1
        · -- first
          simp only [blockOf, Bool.false_eq_true, if_false, Prod.mk.injEq] at hB
          obtain ⟨rfl, rfl⟩ := hB
          obtain ⟨toks, h1, h2⟩ := key (out ++ [(pre.length, pre.length + w.length + 1)]) (count + 1)
          simp only [List.length_cons, List.length_nil, Nat.zero_add] at h1 h2
          rw [h2]
          exact fin .firstOnly _ (by simp [Keep.part]) toks h1
        · -- first + compress
          simp only [blockOf, if_true, Prod.mk.injEq] at hB
          obtain ⟨rfl, rfl⟩ := hB
          obtain ⟨toks, h1, h2⟩ := key (out ++ [(pre.length, pre.length + w.length + 1)]) (count + 1)
          simp only [List.length_cons] at h1 h2
          rw [hsk, ok_bind]
          rw [show pre.length + w.length + 1 + (t.takeWhile d).length = pre.length + w.length + ((t.takeWhile d).length + 1) by omega] at *
          rw [h2]
          exact fin .firstOnly _ (by simp [Keep.part]) toks h1
      · rw [if_neg hc]
        have := ih pre (w ++ [c]) t out count (by simp [hs]) (by
          intro x hx; simp at hx; rcases hx with hx | hx
          · exact hw x hx
          · subst hx; simpa using hc) hpre (by simp at hf; omega)
        simpa [Nat.add_assoc] using this

theorem compressLoop_spec (d : α → Bool) (s : List α) (hs0 : s ≠ []) :
    ∀ (fuel : Nat) (pre w t : List α) (out : List (Nat × Nat)) (count : Nat),
      s = pre ++ w ++ t → (∀ c ∈ w, d c = false) → (∀ c ∈ pre.getLast?, d c = true) → t.length < fuel →
      ∃ toks, Splits true Keep.none d pre.length (w ++ t) toks ∧
        compressLoop d s fuel pre.length (pre.length + w.length) out count =
          ok (out ++ toks.map pairOf, count + toks.length) := by
  intro fuel
  induction fuel with
  | zero => intro pre w t out count _ _ _ h; omega
  | succ fuel ih =>
    intro pre w t out count hs hw hpre hf
    cases t with
    | nil =>
      refine ⟨[(pre.length, w)], ?_, ?_⟩
      · simpa using Splits.last pre.length w hw
      · have hlen : ¬ (pre.length + w.length ≠ s.length) := by subst hs; simp
        unfold compressLoop
        rw [if_neg hlen]
        have : s = pre ++ w := by simpa using hs
        subst this
        rw [finish_eq d pre w out count hs0 hpre]
        simp [pairOf]
    | cons c t =>
      have hlen : pre.length + w.length ≠ s.length := by subst hs; simp only [List.length_append, List.length_cons]; omega
      have hd : deref s (pre.length + w.length) = ok c := by
        subst hs
        have := deref_append_cons (pre ++ w) c t
        simpa using this
      unfold compressLoop
      rw [if_pos hlen, hd, ok_bind]
      by_cases hc : d c
      · rw [if_pos hc]
        obtain ⟨hb1, hb2, hb3, hb4⟩ := blockOf_spec true d c t hc
        simp only [blockOf, if_true] at hb1 hb2 hb3 hb4
        have hsk : skipRun d s (s.length + 1) (pre.length + w.length + 1) =
            ok (pre.length + w.length + (c :: t.takeWhile d).length) := by
          have := skip_tail d (pre ++ w) t c
          rw [hs]; simp at this ⊢; rw [this]; congr 1; omega
        simp only [hsk, ok_bind]
        generalize c :: t.takeWhile d = block at hb1 hb2 hb4 ⊢
        generalize t.dropWhile d = rest at hb3 hb4 ⊢
        have hlens := congrArg List.length hs
        rw [hb4] at hlens
        simp only [List.length_append] at hlens
        have hl1 : 0 < block.length := List.length_pos_iff.mpr hb1
        have hl2 : t.length + 1 = block.length + rest.length := by
          have := congrArg List.length hb4; simpa using this
        have hlast' : (pre ++ w ++ block).length = pre.length + w.length + block.length := by simp only [List.length_append]
        have fin : ∀ toks, Splits true Keep.none d (pre.length + w.length + block.length) rest toks →
            ∃ toks', Splits true Keep.none d pre.length (w ++ c :: t) toks' ∧
              ok (out ++ [(pre.length, pre.length + w.length)] ++ toks.map pairOf, count + 1 + toks.length) =
              ok (out ++ toks'.map pairOf, count + toks'.length) := by
          intro toks ht
          refine ⟨(pre.length, w ++ Keep.none.part block) :: toks, ?_, ?_⟩
          · rw [hb4, ← List.append_assoc]
            exact Splits.more _ w block rest toks hw hb1 hb2 (by simpa using hb3) ht
          · simp [pairOf, Keep.part]; omega
        cases rest with
        | nil =>
          simp only [List.length_nil] at hlens hl2
          rw [if_neg (by omega)]
          have := ih (pre ++ w ++ block) [] [] (out ++ [(pre.length, pre.length + w.length)]) (count + 1)
            (by rw [hs, hb4]; simp) (by simp) (getLast_block d _ _ hb1 hb2) (by simp at hf ⊢; omega)
          obtain ⟨toks, h1, h2⟩ := this
          simp only [hlast', List.length_nil, Nat.add_zero, List.append_nil] at h1 h2
          rw [h2]
          exact fin toks h1
        | cons x rest =>
          simp only [List.length_cons] at hlens hl2
          rw [if_pos (by omega)]
          have := ih (pre ++ w ++ block) [x] rest (out ++ [(pre.length, pre.length + w.length)]) (count + 1)
            (by rw [hs, hb4]; simp) (by simpa using hb3) (getLast_block d _ _ hb1 hb2) (by simp at hf ⊢; omega)
          obtain ⟨toks, h1, h2⟩ := this
          simp only [hlast', List.length_cons, List.length_nil, Nat.zero_add, List.cons_append, List.nil_append] at h1 h2
          rw [h2]
          exact fin toks h1
      · rw [if_neg hc]
        have := ih pre (w ++ [c]) t out count (by simp [hs]) (by
          intro x hx; simp at hx; rcases hx with hx | hx
          · exact hw x hx
          · subst hx; simpa using hc) hpre (by simp at hf; omega)
        simpa [Nat.add_assoc] using this

theorem split_spec (opt : Opt) (d : α → Bool) (s : List α) (hs : s ≠ []) :
    ∃ toks, Splits (perRunOf opt) (keepOf opt) d 0 s toks ∧ split opt d s = ok (toks.map pairOf, toks.length) := by
  have hl : s.length ≠ 0 := by simpa using hs
  unfold split
  rw [if_neg hl]
  obtain ⟨compress, first, all⟩ := opt
  by_cases hq : (compress && !(first || (!first && all))) = true
  · simp only [hq, if_true]
    obtain ⟨toks, h1, h2⟩ := compressLoop_spec d s hs (s.length + 1) [] [] s [] 0 (by simp) (by simp) (by simp) (by simp)
    refine ⟨toks, ?_, ?_⟩
    · cases compress <;> cases first <;> cases all <;> simp_all [perRunOf, keepOf]
    · simpa [splitCompress] using h2
  · simp only [hq, if_false]
    obtain ⟨toks, h1, h2⟩ := splitLoop_spec compress first (!first && all) d s hs
      (by cases first <;> simp) (by cases compress <;> cases first <;> cases all <;> simp_all)
      (s.length + 1) [] [] s [] 0 (by simp) (by simp) (by simp) (by simp)
    refine ⟨toks, ?_, ?_⟩
    · cases compress <;> cases first <;> cases all <;> simp_all [perRunOf, keepOf]
    · simpa using h2

end Strtk.Split
