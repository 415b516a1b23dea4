import Verif.Split.Lemmas

/-! Helper lemmas: determinism of the specification, `split_n`, the tokenizer, and links to `splitOnP`. -/

namespace Strtk.Split
open Outcome

variable {α : Type}

theorem word_unique (d : α → Bool) {w w' b b' : List α} (hw : ∀ c ∈ w, d c = false) (hw' : ∀ c ∈ w', d c = false)
    (hb : ∀ c ∈ b.head?, d c = true) (hb' : ∀ c ∈ b'.head?, d c = true) (hbn : b ≠ []) (hbn' : b' ≠ [])
    (h : w ++ b = w' ++ b') : w = w' ∧ b = b' := by
  induction w generalizing w' with
  | nil =>
    cases w' with
    | nil => exact ⟨rfl, by simpa using h⟩
    | cons x w' =>
      simp at h
      subst h
      have h1 := hb x (by simp)
      have h2 := hw' x (by simp)
      rw [h1] at h2; exact absurd h2 (by simp)
  | cons x w ih =>
    cases w' with
    | nil =>
      simp at h
      subst h
      have h1 := hb' x (by simp)
      have h2 := hw x (by simp)
      rw [h1] at h2; exact absurd h2 (by simp)
    | cons y w' =>
      simp at h
      obtain ⟨rfl, h⟩ := h
      have := ih (fun c hc => hw c (by simp [hc])) (fun c hc => hw' c (by simp [hc])) h
      exact ⟨by rw [this.1], this.2⟩

theorem run_unique (d : α → Bool) {b b' r r' : List α} (hb : ∀ c ∈ b, d c = true) (hb' : ∀ c ∈ b', d c = true)
    (hr : ∀ c ∈ r.head?, d c = false) (hr' : ∀ c ∈ r'.head?, d c = false) (h : b ++ r = b' ++ r') : b = b' ∧ r = r' := by
  induction b generalizing b' with
  | nil =>
    cases b' with
    | nil => exact ⟨rfl, by simpa using h⟩
    | cons x b' =>
      simp at h
      subst h
      have h1 := hr x (by simp)
      have h2 := hb' x (by simp)
      rw [h1] at h2; exact absurd h2 (by simp)
  | cons x b ih =>
    cases b' with
    | nil =>
      simp at h
      subst h
      have h1 := hr' x (by simp)
      have h2 := hb x (by simp)
      rw [h1] at h2; exact absurd h2 (by simp)
    | cons y b' =>
      simp at h
      obtain ⟨rfl, h⟩ := h
      have := ih (fun c hc => hb c (by simp [hc])) (fun c hc => hb' c (by simp [hc])) h
      exact ⟨by rw [this.1], this.2⟩

theorem head_block (d : α → Bool) {b r : List α} (hne : b ≠ []) (hb : ∀ c ∈ b, d c = true) :
    ∀ c ∈ (b ++ r).head?, d c = true := by
  cases b with
  | nil => exact absurd rfl hne
  | cons x b => intro c hc; simp at hc; subst hc; exact hb _ (by simp)

theorem Splits.unique {pr : Bool} {k : Keep} {d : α → Bool} {off : Nat} {s : List α} {a b : List (Nat × List α)}
    (ha : Splits pr k d off s a) : Splits pr k d off s b → a = b := by
  induction ha generalizing b with
  | last off w hw =>
    intro hb
    cases hb with
    | last => rfl
    | more _ w' block rest toks hw' hne hblock hmax hrest =>
      exfalso
      cases block with
      | nil => exact hne rfl
      | cons x block =>
        have h1 := hblock x (by simp)
        have h2 := hw x (by simp)
        rw [h1] at h2; exact absurd h2 (by simp)
  | more off w block rest toks hw hne hblock hmax hrest ih =>
    intro hb
    generalize hs : w ++ block ++ rest = s' at hb
    cases hb with
    | last _ w' hw' =>
      exfalso
      cases block with
      | nil => exact hne rfl
      | cons x block =>
        have h1 := hblock x (by simp)
        have h2 := hw' x (by rw [← hs]; simp)
        rw [h1] at h2; exact absurd h2 (by simp)
    | more _ w' block' rest' toks' hw' hne' hblock' hmax' hrest' =>
      rw [List.append_assoc, List.append_assoc] at hs
      obtain ⟨rfl, hs2⟩ := word_unique d hw hw' (head_block d hne hblock) (head_block d hne' hblock') (by simp [hne]) (by simp [hne']) hs
      have hbr : block = block' ∧ rest = rest' := by
        cases pr with
        | true =>
          exact run_unique d hblock hblock' (by simpa using hmax) (by simpa using hmax') hs2
        | false =>
          simp at hmax hmax'
          exact List.append_inj hs2 (by omega)
      obtain ⟨rfl, rfl⟩ := hbr
      rw [ih hrest']

/-- Every token is the text its iterator pair refers to, and the pairs are ordered inside the input. -/
theorem Splits.text {pr : Bool} {k : Keep} {d : α → Bool} {off : Nat} {s : List α} {a : List (Nat × List α)}
    (ha : Splits pr k d off s a) : ∀ (pre : List α), pre.length = off → ∀ t ∈ a, textOf (pre ++ s) (pairOf t) = t.2 := by
  induction ha with
  | last off w hw =>
    intro pre hp t ht
    simp at ht; subst ht
    simp [textOf, pairOf, ← hp]
  | more off w block rest toks hw hne hblock hmax hrest ih =>
    intro pre hp t ht
    simp only [List.mem_cons] at ht
    rcases ht with rfl | ht
    · simp only [textOf, pairOf]
      rw [← hp, List.drop_left, show pre.length + (w ++ k.part block).length - pre.length = (w ++ k.part block).length by omega]
      have : ∃ z, block = k.part block ++ z := by
        cases k with
        | none => exact ⟨block, rfl⟩
        | firstOnly => exact ⟨block.drop 1, (List.take_append_drop 1 block).symm⟩
        | all => exact ⟨[], by simp [Keep.part]⟩
      obtain ⟨z, hz⟩ := this
      conv => lhs; arg 2; rw [hz]
      rw [show w ++ (k.part block ++ z) ++ rest = (w ++ k.part block) ++ (z ++ rest) by simp, List.take_left]
    · have := ih (pre ++ (w ++ block)) (by simp [hp]; omega) t ht
      rw [← this]; simp

theorem Splits.length_le {pr : Bool} {k : Keep} {d : α → Bool} {off : Nat} {s : List α} {a : List (Nat × List α)}
    (ha : Splits pr k d off s a) : a.length ≤ s.length + 1 := by
  induction ha with
  | last => simp
  | more off w block rest toks hw hne hblock hmax hrest ih =>
    have : 0 < block.length := List.length_pos_iff.mpr hne
    simp; omega

theorem Keep.part_length_le (k : Keep) (b : List α) : (k.part b).length ≤ b.length := by
  cases k <;> simp [Keep.part]
  omega

theorem Splits.bounds {pr : Bool} {k : Keep} {d : α → Bool} {off : Nat} {s : List α} {a : List (Nat × List α)}
    (ha : Splits pr k d off s a) :
    (∀ r ∈ a.map pairOf, off ≤ r.1 ∧ r.1 ≤ r.2 ∧ r.2 ≤ off + s.length) ∧
    (a.map pairOf).Pairwise (fun r r' => r.2 ≤ r'.1) := by
  induction ha with
  | last off w hw => simp [pairOf]
  | more off w block rest toks hw hne hblock hmax hrest ih =>
    obtain ⟨h1, h2⟩ := ih
    have hk := Keep.part_length_le k block
    constructor
    · intro r hr
      simp only [List.map_cons, List.mem_cons] at hr
      rcases hr with rfl | hr
      · simp [pairOf]; omega
      · have := h1 r hr
        simp at this ⊢; omega
    · rw [List.map_cons, List.pairwise_cons]
      refine ⟨?_, h2⟩
      intro r hr
      have := h1 r hr
      simp [pairOf]; omega

theorem Splits.ne_nil {pr : Bool} {k : Keep} {d : α → Bool} {off : Nat} {s : List α} {a : List (Nat × List α)}
    (ha : Splits pr k d off s a) : a ≠ [] := by
  cases ha <;> simp

theorem Splits.splitOnP {d : α → Bool} {off : Nat} {s : List α} {a : List (Nat × List α)}
    (ha : Splits false .none d off s a) : a.map Prod.snd = s.splitOnP d := by
  induction ha with
  | last off w hw => simp [List.splitOnP_eq_singleton hw]
  | more off w block rest toks hw hne hblock hmax hrest ih =>
    simp at hmax
    match block, hmax with
    | [c], _ =>
      rw [List.append_assoc, List.singleton_append,
        List.splitOnP_append_cons_of_forall_mem hw c (hblock c (by simp)) rest, ← ih]
      simp [Keep.part]

theorem collapse_word (d : α → Bool) (w r : List α) (hw : ∀ c ∈ w, d c = false) :
    collapseRuns d (w ++ r) = w ++ collapseRuns d r := by
  induction w with
  | nil => rfl
  | cons x w ih =>
    have hx : d x = false := hw x (by simp)
    have := ih (fun c hc => hw c (by simp [hc]))
    cases hwr : w ++ r with
    | nil =>
      simp at hwr
      obtain ⟨rfl, rfl⟩ := hwr
      simp [collapseRuns]
    | cons y z =>
      rw [List.cons_append, hwr, collapseRuns]
      simp only [hx, Bool.false_and, Bool.false_eq_true, if_false, ← hwr, this, List.cons_append]

theorem collapse_block (d : α → Bool) (b r : List α) (hne : b ≠ []) (hb : ∀ c ∈ b, d c = true) (hr : ∀ c ∈ r.head?, d c = false) :
    ∃ c, d c = true ∧ collapseRuns d (b ++ r) = c :: collapseRuns d r := by
  induction b with
  | nil => exact absurd rfl hne
  | cons x b ih =>
    have hx : d x = true := hb x (by simp)
    cases b with
    | nil =>
      refine ⟨x, hx, ?_⟩
      cases r with
      | nil => rfl
      | cons y r =>
        have hy : d y = false := hr y (by simp)
        simp [collapseRuns, hy]
    | cons y b =>
      have hy : d y = true := hb y (by simp)
      obtain ⟨c, hc, he⟩ := ih (by simp) (fun c hc => hb c (by simp [hc]))
      refine ⟨c, hc, ?_⟩
      rw [← he]
      simp [collapseRuns, hx, hy]

theorem Splits.splitOnP_collapse {d : α → Bool} {off : Nat} {s : List α} {a : List (Nat × List α)}
    (ha : Splits true .none d off s a) : a.map Prod.snd = (collapseRuns d s).splitOnP d := by
  induction ha with
  | last off w hw =>
    have := collapse_word d w [] hw
    simp only [List.append_nil, collapseRuns] at this
    rw [this]; simp [List.splitOnP_eq_singleton hw]
  | more off w block rest toks hw hne hblock hmax hrest ih =>
    obtain ⟨c, hc, he⟩ := collapse_block d block rest hne hblock (by simpa using hmax)
    rw [List.append_assoc, collapse_word d w _ hw, he, List.splitOnP_append_cons_of_forall_mem hw c hc, ← ih]
    simp [Keep.part]

/-- If whole blocks are kept, or single-delimiter blocks are kept, the tokens tile the input. -/
theorem Splits.tile {pr : Bool} {k : Keep} {d : α → Bool} {off : Nat} {s : List α} {a : List (Nat × List α)}
    (hk : k = .all ∨ (k = .firstOnly ∧ pr = false)) (ha : Splits pr k d off s a) : (a.map Prod.snd).flatten = s := by
  induction ha with
  | last => simp
  | more off w block rest toks hw hne hblock hmax hrest ih =>
    have : k.part block = block := by
      rcases hk with rfl | ⟨rfl, rfl⟩
      · rfl
      · simp at hmax
        simp only [Keep.part]
        rw [List.take_of_length_le (by omega)]
    simp [this, ih]

/-! ### `split_n` -/

theorem splitNLoop_spec (compress incl : Bool) (d : α → Bool) (s : List α) (n : Nat) (hs0 : s ≠ []) :
    ∀ (fuel : Nat) (pre w t : List α) (out : List (Nat × Nat)) (count : Nat),
      s = pre ++ w ++ t → (∀ c ∈ w, d c = false) → (∀ c ∈ pre.getLast?, d c = true) → t.length < fuel → count < n →
      ∃ toks, Splits compress (if incl then Keep.firstOnly else Keep.none) d pre.length (w ++ t) toks ∧
        splitNLoop compress incl d s n fuel pre.length (pre.length + w.length) out count =
          ok (out ++ (toks.map pairOf).take (n - count), count + min toks.length (n - count)) := by
  intro fuel
  induction fuel with
  | zero => intro pre w t out count _ _ _ h; omega
  | succ fuel ih =>
    intro pre w t out count hs hw hpre hf hn
    cases t with
    | nil =>
      refine ⟨[(pre.length, w)], ?_, ?_⟩
      · simpa using Splits.last pre.length w hw
      · have hlen : ¬ (pre.length + w.length ≠ s.length) := by subst hs; simp
        unfold splitNLoop
        rw [if_neg hlen]
        have : s = pre ++ w := by simpa using hs
        subst this
        rw [finish_eq d pre w out count hs0 hpre]
        obtain ⟨m, hm⟩ : ∃ m, n - count = m + 1 := ⟨n - count - 1, by omega⟩
        simp [pairOf, hm]
    | cons c t =>
      have hlen : pre.length + w.length ≠ s.length := by subst hs; simp only [List.length_append, List.length_cons]; omega
      have hd : deref s (pre.length + w.length) = ok c := by
        subst hs
        have := deref_append_cons (pre ++ w) c t
        simpa using this
      unfold splitNLoop
      rw [if_pos hlen, hd, ok_bind]
      by_cases hc : d c
      · rw [if_pos hc]
        obtain ⟨hb1, hb2, hb3, hb4⟩ := blockOf_spec compress d c t hc
        generalize hB : blockOf compress d c t = B at hb1 hb2 hb3 hb4
        obtain ⟨block, rest⟩ := B
        simp only at hb1 hb2 hb3 hb4
        have hrest : rest.length < fuel := by
          have := congrArg List.length hb4
          have h1 : 0 < block.length := List.length_pos_iff.mpr hb1
          simp at this hf; omega
        have key := fun out count => ih (pre ++ w ++ block) [] rest out count
          (by rw [hs, hb4]; simp) (by simp) (getLast_block d _ _ hb1 hb2) hrest
        have hlast' : (pre ++ w ++ block).length = pre.length + w.length + block.length := by simp only [List.length_append]
        simp only [hlast', List.length_nil, Nat.add_zero, List.nil_append] at key
        have hsk : skipRun d s (s.length + 1) (pre.length + w.length + 1) =
            ok (pre.length + w.length + 1 + (t.takeWhile d).length) := by
          have := skip_tail d (pre ++ w) t c
          rw [hs]; simpa using this
        -- the position after the block, in both modes
        have hnext : (if compress then skipRun d s (s.length + 1) (pre.length + w.length + 1) else ok (pre.length + w.length + 1))
            = ok (pre.length + w.length + block.length) := by
          cases compress
          · simp only [blockOf, Bool.false_eq_true, if_false, Prod.mk.injEq] at hB
            obtain ⟨rfl, rfl⟩ := hB
            simp
          · simp only [blockOf, if_true, Prod.mk.injEq] at hB
            obtain ⟨rfl, rfl⟩ := hB
            simp only [if_true, hsk, List.length_cons]
            congr 1; omega
        have hkeep : (Keep.firstOnly.part block).length = 1 := by
          have : 0 < block.length := List.length_pos_iff.mpr hb1
          simp only [Keep.part, List.length_take]; omega
        have fin : ∀ (kp : Keep) (e : Nat), e = pre.length + w.length + (kp.part block).length →
            ∀ toks, Splits compress kp d (pre.length + w.length + block.length) rest toks →
            ∃ toks', Splits compress kp d pre.length (w ++ c :: t) toks' ∧
              ok (out ++ [(pre.length, e)] ++ (toks.map pairOf).take (n - (count + 1)), count + 1 + min toks.length (n - (count + 1))) =
              ok (out ++ (toks'.map pairOf).take (n - count), count + min toks'.length (n - count)) := by
          intro kp e he toks ht
          refine ⟨(pre.length, w ++ kp.part block) :: toks, ?_, ?_⟩
          · rw [hb4, ← List.append_assoc]
            exact Splits.more _ w block rest toks hw hb1 hb2 hb3 ht
          · obtain ⟨m, hm⟩ : ∃ m, n - count = m + 1 := ⟨n - count - 1, by omega⟩
            have hm' : n - (count + 1) = m := by omega
            simp [pairOf, he, hm, hm']; omega
        have ex : ∀ kp : Keep, (if incl then Keep.firstOnly else Keep.none) = kp →
            ∃ toks, Splits compress kp d (pre.length + w.length + block.length) rest toks := by
          intro kp hk
          by_cases hlt : count + 1 < n
          · obtain ⟨toks, h, _⟩ := key out (count + 1) hlt
            exact ⟨toks, hk ▸ h⟩
          · obtain ⟨toks, h, _⟩ := ih (pre ++ w ++ block) [] rest out count
              (by rw [hs, hb4]; simp) (by simp) (getLast_block d _ _ hb1 hb2) hrest hn
            simp only [hlast', List.nil_append] at h
            exact ⟨toks, hk ▸ h⟩
        cases incl
        · simp only [Bool.false_eq_true, if_false] at key ex ⊢
          by_cases hge : count + 1 ≥ n
          · rw [if_pos hge]
            obtain ⟨toks, ht⟩ := ex .none rfl
            obtain ⟨toks', h1, h2⟩ := fin .none _ rfl toks ht
            refine ⟨toks', h1, ?_⟩
            rw [← h2]
            have : n - (count + 1) = 0 := by omega
            simp [this, Keep.part]
          · rw [if_neg hge, hnext, ok_bind]
            obtain ⟨toks, h1, h2⟩ := key (out ++ [(pre.length, pre.length + w.length)]) (count + 1) (by omega)
            rw [h2]
            exact fin .none _ (by simp [Keep.part]) toks h1
        · simp only [if_true] at key ex ⊢
          by_cases hge : count + 1 ≥ n
          · rw [if_pos hge]
            obtain ⟨toks, ht⟩ := ex .firstOnly rfl
            obtain ⟨toks', h1, h2⟩ := fin .firstOnly _ rfl toks ht
            refine ⟨toks', h1, ?_⟩
            rw [← h2]
            have : n - (count + 1) = 0 := by omega
            simp [this, hkeep]
          · rw [if_neg hge, hnext, ok_bind]
            obtain ⟨toks, h1, h2⟩ := key (out ++ [(pre.length, pre.length + w.length + 1)]) (count + 1) (by omega)
            rw [h2]
            exact fin .firstOnly _ (by rw [hkeep]) toks h1
      · rw [if_neg hc]
        have := ih pre (w ++ [c]) t out count (by simp [hs]) (by
          intro x hx; simp at hx; rcases hx with hx | hx
          · exact hw x hx
          · subst hx; simpa using hc) hpre (by simp at hf; omega) hn
        simpa [Nat.add_assoc] using this

theorem splitN_spec (opt : Opt) (d : α → Bool) (s : List α) (n : Nat) (hs : s ≠ []) (hn : n ≠ 0) :
    ∃ toks, Splits opt.compress (if opt.first || opt.all then Keep.firstOnly else Keep.none) d 0 s toks ∧
      splitN opt d s n = ok ((toks.map pairOf).take n, min toks.length n) := by
  have hl : s.length ≠ 0 := by simpa using hs
  unfold splitN
  rw [if_neg hn, if_neg hl]
  obtain ⟨toks, h1, h2⟩ := splitNLoop_spec opt.compress (opt.first || (!opt.first && opt.all)) d s n hs
    (s.length + 1) [] [] s [] 0 (by simp) (by simp) (by simp) (by simp) (by omega)
  refine ⟨toks, ?_, by simpa using h2⟩
  obtain ⟨c, f, a⟩ := opt
  cases f <;> cases a <;> simp_all

end Strtk.Split
