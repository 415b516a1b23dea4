import Verif.Grid.Load

/-!
# Loading with double-quote support (strtk.hpp 7442-7473, 7496-7521)

The column predicate has mutable state, shared by all rows.  `splitQ` is `split` (3342-3399) for a predicate with state, for the option values
`default_mode` and `compress_delimiters` (simplification: the include options are not covered here).
-/

namespace Strtk.Grid
open Outcome Split

variable {α σ : Type}

/-- `while ((end != range.second) && delimiter(*range.second)) ++range.second;` with a stateful predicate. -/
def skipRunQ (step : σ → α → Bool × σ) (s : List α) : Nat → σ → Nat → Outcome (Nat × σ)
  | 0, _, _ => diverge
  | fuel + 1, q, i =>
    if i ≠ s.length then do
      let c ← deref s i
      if (step q c).1 then skipRunQ step s fuel (step q c).2 (i + 1) else ok (i, (step q c).2)
    else ok (i, q)

/-- The final test (3328-3333, 3391-3396). -/
def finishQ (step : σ → α → Bool × σ) (s : List α) (q : σ) (first second : Nat) (out : List (Nat × Nat)) (count : Nat) :
    Outcome ((List (Nat × Nat) × Nat) × σ) :=
  if first ≠ second then ok ((out ++ [(first, second)], count + 1), q)
  else if second = 0 then ub
  else do
    let c ← deref s (second - 1)
    if (step q c).1 then ok ((out ++ [(first, second)], count + 1), (step q c).2) else ok ((out, count), (step q c).2)

/-- Loop of `split_compress_delimiters` (3312-3326). -/
def compressLoopQ (step : σ → α → Bool × σ) (s : List α) :
    Nat → σ → Nat → Nat → List (Nat × Nat) → Nat → Outcome ((List (Nat × Nat) × Nat) × σ)
  | 0, _, _, _, _, _ => diverge
  | fuel + 1, q, first, second, out, count =>
    if second ≠ s.length then do
      let c ← deref s second
      if (step q c).1 then do
        let (j, q) ← skipRunQ step s (s.length + 1) (step q c).2 (second + 1)
        compressLoopQ step s fuel q j (if j ≠ s.length then j + 1 else j) (out ++ [(first, second)]) (count + 1)
      else compressLoopQ step s fuel (step q c).2 first (second + 1) out count
    else finishQ step s q first second out count

/-- Loop of `split` without options (3363-3389). -/
def splitLoopQ (step : σ → α → Bool × σ) (s : List α) :
    Nat → σ → Nat → Nat → List (Nat × Nat) → Nat → Outcome ((List (Nat × Nat) × Nat) × σ)
  | 0, _, _, _, _, _ => diverge
  | fuel + 1, q, first, second, out, count =>
    if second ≠ s.length then do
      let c ← deref s second
      if (step q c).1 then splitLoopQ step s fuel (step q c).2 (second + 1) (second + 1) (out ++ [(first, second)]) (count + 1)
      else splitLoopQ step s fuel (step q c).2 first (second + 1) out count
    else finishQ step s q first second out count

/-- `split` (3342-3399) with a stateful predicate. -/
def splitQ (compress : Bool) (step : σ → α → Bool × σ) (q : σ) (s : List α) : Outcome ((List (Nat × Nat) × Nat) × σ) :=
  if s.length = 0 then ok (([], 0), q)
  else if compress then compressLoopQ step s (s.length + 1) q 0 0 [] 0
  else splitLoopQ step s (s.length + 1) q 0 0 [] 0

/-- `double_quotes_predicate::operator()` (7451-7462): the state is `in_bracket_range_`. -/
def quoteStep [DecidableEq α] (quote : α) (dc : α → Bool) (q : Bool) (c : α) : Bool × Bool :=
  if c = quote then (false, !q) else if q then (false, q) else (dc c, q)

/-- `row_processor::operator()` (5439-5457) with the stateful predicate. -/
def processRowQ (compress : Bool) (step : σ → α → Bool × σ) (buf : List α) (q : σ) (st : Store (Nat × Nat)) (r : Nat × Nat) : Outcome (Store (Nat × Nat) × σ) :=
  if r.2 - r.1 = 0 then ok (st, q)
  else do
    let start := u32 st.tokens.length
    let ((toks, count), q) ← splitQ compress step q (Split.textOf buf r)
    let last := u32 (start + count + (2 ^ 64 - 1))
    ok (⟨st.tokens ++ toks.map (fun t => (r.1 + t.1, r.1 + t.2)), st.index ++ [(start, last)]⟩, q)

/-- The calls of the row processor. -/
def processRowsQ (compress : Bool) (step : σ → α → Bool × σ) (buf : List α) : σ → Store (Nat × Nat) → List (Nat × Nat) → Outcome (Store (Nat × Nat) × σ)
  | q, st, [] => ok (st, q)
  | q, st, r :: rs => do
    let (st, q) ← processRowQ compress step buf q st r
    processRowsQ compress step buf q st rs

/-- The trimming loop (7509-7519): the token's first character is read even if the token is empty. -/
def trimQuotes [DecidableEq α] (quote : α) (buf : List α) : List (Nat × Nat) → Outcome (List (Nat × Nat))
  | [] => ok []
  | t :: ts => do
    let c ← deref buf t.1
    if c = quote then do
      let d ← if t.2 = 0 then ub else deref buf (t.2 - 1)
      let rest ← trimQuotes quote buf ts
      ok ((if d = quote then (t.1 + 1, t.2 - 1) else t) :: rest)
    else do
      let rest ← trimQuotes quote buf ts
      ok (t :: rest)

/-- `load()` with `support_dquotes` (7475-7526). -/
def loadQ [DecidableEq α] (quote : α) (compress trim : Bool) (dr dc : α → Bool) (buf : List α) : Outcome (Grid (Nat × Nat)) := do
  let (rows, _) ← Split.split { compress := true } dr buf
  let (st, _) ← processRowsQ compress (quoteStep quote dc) buf false ⟨[], []⟩ rows
  if trim then do
    let toks ← trimQuotes quote buf st.tokens
    ok (updateMinMax ⟨toks, st.index⟩)
  else ok (updateMinMax st)

/-! ## A stateful predicate is a plain predicate on the annotated text -/

/-- The text with the answer of the predicate at each character. -/
def ann (step : σ → α → Bool × σ) : σ → List α → List (α × Bool)
  | _, [] => []
  | q, c :: s => (c, (step q c).1) :: ann step (step q c).2 s

/-- The state after a text. -/
def after (step : σ → α → Bool × σ) : σ → List α → σ
  | q, [] => q
  | q, c :: s => after step (step q c).2 s

theorem ann_length (step : σ → α → Bool × σ) (s : List α) : ∀ q, (ann step q s).length = s.length := by
  induction s with
  | nil => intro q; rfl
  | cons c s ih => intro q; simp [ann, ih]

theorem ann_append (step : σ → α → Bool × σ) (s t : List α) : ∀ q, ann step q (s ++ t) = ann step q s ++ ann step (after step q s) t := by
  induction s with
  | nil => intro q; rfl
  | cons c s ih => intro q; simp [ann, after, ih]

theorem after_append (step : σ → α → Bool × σ) (s t : List α) : ∀ q, after step q (s ++ t) = after step (after step q s) t := by
  induction s with
  | nil => intro q; rfl
  | cons c s ih => intro q; simp [after, ih]

theorem ann_fst (step : σ → α → Bool × σ) (s : List α) : ∀ q, (ann step q s).map Prod.fst = s := by
  induction s with
  | nil => intro q; rfl
  | cons c s ih => intro q; simp [ann, ih]

theorem take_succ_getElem (s : List α) (i : Nat) (h : i < s.length) : s.take (i + 1) = s.take i ++ [s[i]] := List.take_succ_eq_append_getElem h

theorem after_succ (step : σ → α → Bool × σ) (q : σ) (s : List α) (i : Nat) (h : i < s.length) :
    after step q (s.take (i + 1)) = (step (after step q (s.take i)) s[i]).2 := by
  rw [take_succ_getElem s i h, after_append]; rfl

theorem ann_getElem (step : σ → α → Bool × σ) (q : σ) (s : List α) (i : Nat) (h : i < s.length) :
    deref (ann step q s) i = ok (s[i], (step (after step q (s.take i)) s[i]).1) := by
  have e : s = s.take i ++ s[i] :: s.drop (i + 1) := by simp
  have e2 : ann step q s = ann step q (s.take i) ++ ann step (after step q (s.take i)) (s[i] :: s.drop (i + 1)) := by
    rw [← ann_append, ← e]
  rw [e2]
  have hl : (ann step q (s.take i)).length = i := by rw [ann_length]; simp; omega
  simp only [ann]
  have := deref_append_cons (ann step q (s.take i)) (s[i], (step (after step q (s.take i)) s[i]).1) (ann step (step (after step q (s.take i)) s[i]).2 (s.drop (i + 1)))
  rw [hl] at this
  exact this

theorem skipRunQ_spec (step : σ → α → Bool × σ) (q : σ) (s : List α) : ∀ (fuel i : Nat), i ≤ s.length → s.length < fuel + i →
    ∃ j, i ≤ j ∧ j ≤ s.length ∧ skipRun Prod.snd (ann step q s) fuel i = ok j ∧
      skipRunQ step s fuel (after step q (s.take i)) i = ok (j, after step q (s.take (if j ≠ s.length then j + 1 else j))) ∧
      (i < j → ∃ c, deref (ann step q s) (j - 1) = ok (c, true)) := by
  intro fuel
  induction fuel with
  | zero => intro i h1 h2; omega
  | succ fuel ih =>
    intro i h1 h2
    by_cases hi : i = s.length
    · refine ⟨i, Nat.le_refl _, h1, ?_, ?_, fun h => by omega⟩
      · simp only [skipRun, ann_length]; rw [if_neg (by omega)]
      · simp only [skipRunQ]; rw [if_neg (by omega), if_neg (by omega)]
    · have hl : i < s.length := by omega
      have ha := ann_getElem step q s i hl
      simp only [skipRun, skipRunQ, ann_length]
      rw [if_pos hi, if_pos hi, ha, ok_bind, deref_eq_ok hl, ok_bind]
      by_cases hs : (step (after step q (s.take i)) s[i]).1 = true
      · rw [if_pos hs, if_pos hs, ← after_succ step q s i hl]
        obtain ⟨j, j1, j2, j3, j4, j5⟩ := ih (i + 1) (by omega) (by omega)
        refine ⟨j, by omega, j2, j3, j4, fun _ => ?_⟩
        by_cases hj : i + 1 < j
        · exact j5 hj
        · have : j - 1 = i := by omega
          rw [this]
          exact ⟨s[i], by rw [ha, hs]⟩
      · refine ⟨i, Nat.le_refl _, h1, ?_, ?_, fun h => by omega⟩
        · rw [if_neg hs]
        · rw [if_neg hs, if_pos hi, after_succ step q s i hl]

/-- A predicate whose state does not change when it answers yes. -/
def Steady (step : σ → α → Bool × σ) : Prop := ∀ q c, (step q c).1 = true → (step q c).2 = q

theorem finishQ_spec (step : σ → α → Bool × σ) (hst : Steady step) (q : σ) (s : List α) (first second : Nat) (out : List (Nat × Nat)) (count : Nat)
    (h2 : second = s.length) (h3 : first = second → second = 0 ∨ ∃ c, deref (ann step q s) (second - 1) = ok (c, true)) :
    finishQ step s (after step q s) first second out count = finish Prod.snd (ann step q s) first second out count >>= fun r => ok (r, after step q s) := by
  unfold finishQ finish
  by_cases h : first = second
  · have hne : ¬ first ≠ second := fun hh => hh h
    rw [if_neg hne, if_neg hne]
    by_cases h0 : second = 0
    · rw [if_pos h0, if_pos h0]; rfl
    · rw [if_neg h0, if_neg h0]
      rcases h3 h with h3 | ⟨c, h3⟩
      · exact absurd h3 h0
      · have hl : second - 1 < s.length := by omega
        have ha := ann_getElem step q s (second - 1) hl
        rw [h3] at ha
        injection ha with ha
        have hc := (Prod.mk.inj ha).2.symm
        rw [deref_eq_ok hl, ok_bind, h3, ok_bind]
        have e : after step q s = after step q (s.take (second - 1)) := by
          have := after_succ step q s (second - 1) hl
          rw [hst _ _ hc, show second - 1 + 1 = s.length by omega, List.take_length] at this
          exact this
        rw [e, hc, hst _ _ hc]
        simp
  · rw [if_pos h, if_pos h]; rfl

theorem splitLoopQ_spec (step : σ → α → Bool × σ) (hst : Steady step) (q : σ) (s : List α) : ∀ (fuel first second : Nat) (out : List (Nat × Nat)) (count : Nat),
    first ≤ second → second ≤ s.length → (first = second → second = 0 ∨ ∃ c, deref (ann step q s) (second - 1) = ok (c, true)) →
    splitLoopQ step s fuel (after step q (s.take second)) first second out count =
      splitLoop false false false Prod.snd (ann step q s) fuel first second out count >>= fun r => ok (r, after step q s) := by
  intro fuel
  induction fuel with
  | zero => intro _ _ _ _ _ _ _; rfl
  | succ fuel ih =>
    intro first second out count h1 h2 h3
    simp only [splitLoopQ, splitLoop, ann_length]
    by_cases hl : second = s.length
    · rw [if_neg (by omega), if_neg (by omega), show s.take second = s by rw [hl, List.take_length]]
      exact finishQ_spec step hst q s first second out count hl h3
    · have hl' : second < s.length := by omega
      have ha := ann_getElem step q s second hl'
      rw [if_pos hl, if_pos hl, deref_eq_ok hl', ok_bind, ha, ok_bind, ← after_succ step q s second hl']
      cases hs : (step (after step q (s.take second)) s[second]).1 with
      | true =>
        simp only [if_true, Bool.or_false, Bool.false_eq_true, if_false]
        exact ih _ _ _ _ (by omega) (by omega) (fun _ => Or.inr ⟨s[second], by rw [Nat.add_sub_cancel, ha, hs]⟩)
      | false =>
        simp only [Bool.false_eq_true, if_false]
        exact ih _ _ _ _ (by omega) (by omega) (fun _ => by omega)

theorem compressLoopQ_spec (step : σ → α → Bool × σ) (hst : Steady step) (q : σ) (s : List α) : ∀ (fuel first second : Nat) (out : List (Nat × Nat)) (count : Nat),
    first ≤ second → second ≤ s.length → (first = second → second = 0 ∨ ∃ c, deref (ann step q s) (second - 1) = ok (c, true)) →
    compressLoopQ step s fuel (after step q (s.take second)) first second out count =
      compressLoop Prod.snd (ann step q s) fuel first second out count >>= fun r => ok (r, after step q s) := by
  intro fuel
  induction fuel with
  | zero => intro _ _ _ _ _ _ _; rfl
  | succ fuel ih =>
    intro first second out count h1 h2 h3
    simp only [compressLoopQ, compressLoop, ann_length]
    by_cases hl : second = s.length
    · rw [if_neg (by omega), if_neg (by omega), show s.take second = s by rw [hl, List.take_length]]
      exact finishQ_spec step hst q s first second out count hl h3
    · have hl' : second < s.length := by omega
      have ha := ann_getElem step q s second hl'
      rw [if_pos hl, if_pos hl, deref_eq_ok hl', ok_bind, ha, ok_bind, ← after_succ step q s second hl']
      cases hs : (step (after step q (s.take second)) s[second]).1 with
      | true =>
        simp only [if_true]
        obtain ⟨j, j1, j2, j3, j4, j5⟩ := skipRunQ_spec step q s (s.length + 1) (second + 1) (by omega) (by omega)
        rw [j4, ok_bind, j3, ok_bind]
        simp only
        refine ih _ _ _ _ (by split <;> omega) (by split <;> omega) ?_
        intro hj
        have : j = s.length := by
          by_cases he : j = s.length
          · exact he
          · rw [if_pos he] at hj; omega
        subst this
        rw [if_neg (by omega)]
        right
        by_cases hjj : second + 1 < s.length
        · exact j5 hjj
        · exact ⟨s[second], by rw [show s.length - 1 = second by omega, ha, hs]⟩
      | false =>
        simp only [Bool.false_eq_true, if_false]
        exact ih _ _ _ _ (by omega) (by omega) (fun _ => by omega)

/-- Splitting with a steady stateful predicate is splitting the annotated text. -/
theorem splitQ_spec (compress : Bool) (step : σ → α → Bool × σ) (hst : Steady step) (q : σ) (s : List α) :
    splitQ compress step q s = split { compress := compress } Prod.snd (ann step q s) >>= fun r => ok (r, after step q s) := by
  unfold splitQ split
  rw [ann_length]
  by_cases h0 : s.length = 0
  · rw [if_pos h0, if_pos h0]
    have : s = [] := List.length_eq_zero_iff.mp h0
    subst this
    rfl
  · rw [if_neg h0, if_neg h0]
    cases compress with
    | true =>
      simp only [if_true]
      have := compressLoopQ_spec step hst q s (s.length + 1) 0 0 [] 0 (by omega) (by omega) (fun _ => Or.inl rfl)
      simpa [splitCompress, ann_length, after] using this
    | false =>
      have := splitLoopQ_spec step hst q s (s.length + 1) 0 0 [] 0 (by omega) (by omega) (fun _ => Or.inl rfl)
      simpa [after] using this

theorem quoteStep_steady [DecidableEq α] (quote : α) (dc : α → Bool) : Steady (quoteStep quote dc) := by
  intro q c h
  unfold quoteStep at h ⊢
  split at h
  · exact absurd h (by simp)
  · split at h
    · exact absurd h (by simp)
    · rename_i h1 h2; rw [if_neg h1, if_neg h2]

/-! ## The whole buffer -/

theorem textOf_ann (step : σ → α → Bool × σ) (q : σ) (buf : List α) (r : Nat × Nat) :
    textOf (ann step q buf) r = ann step (after step q (buf.take r.1)) (textOf buf r) := by
  unfold textOf
  have e : buf = buf.take r.1 ++ ((buf.drop r.1).take (r.2 - r.1) ++ (buf.drop r.1).drop (r.2 - r.1)) := by rw [List.take_append_drop, List.take_append_drop]
  have e2 : ann step q buf = ann step q (buf.take r.1) ++ (ann step (after step q (buf.take r.1)) ((buf.drop r.1).take (r.2 - r.1)) ++
      ann step (after step (after step q (buf.take r.1)) ((buf.drop r.1).take (r.2 - r.1))) ((buf.drop r.1).drop (r.2 - r.1))) := by
    rw [← ann_append, ← ann_append, ← e]
  rw [e2]
  by_cases h : r.1 ≤ buf.length
  · rw [List.drop_left' (by rw [ann_length, List.length_take]; omega)]
    by_cases h2 : r.2 - r.1 ≤ (buf.drop r.1).length
    · rw [List.take_left' (by rw [ann_length, List.length_take]; omega)]
    · have : (buf.drop r.1).drop (r.2 - r.1) = [] := by simp at h2 ⊢; omega
      rw [this]
      simp only [ann, List.append_nil]
      rw [List.take_of_length_le (by rw [ann_length, List.length_take]; omega)]
  · have h1 : buf.drop r.1 = [] := by simp; omega
    rw [h1]
    simp only [List.take_nil, List.drop_nil, ann, List.append_nil]
    rw [List.drop_of_length_le (by rw [ann_length, List.length_take]; omega)]
    simp

/-- The predicate's state passes over row delimiters unchanged. -/
theorem after_block (step : σ → α → Bool × σ) (dr : α → Bool) (hdr : ∀ q c, dr c = true → (step q c).2 = q) : ∀ (b : List α) (q : σ), (∀ c ∈ b, dr c = true) →
    after step q b = q := by
  intro b
  induction b with
  | nil => intro q _; rfl
  | cons c b ih => intro q h; simp only [after]; rw [hdr _ _ (h c (by simp)), ih _ (fun x hx => h x (by simp [hx]))]

theorem processRowsQ_spec (compress : Bool) (step : σ → α → Bool × σ) (hst : Steady step) (dr : α → Bool) (hdr : ∀ q c, dr c = true → (step q c).2 = q) (q0 : σ)
    {off : Nat} {s : List α} {toks : List (Nat × List α)} (h : Splits true .none dr off s toks) :
    ∀ (pre : List α) (st : Store (Nat × Nat)), pre.length = off →
    processRowsQ compress step (pre ++ s) (after step q0 pre) st (toks.map pairOf) =
      processRows { compress := compress } Prod.snd (ann step q0 (pre ++ s)) st (toks.map pairOf) >>= fun st => ok (st, after step q0 (pre ++ s)) := by
  have hrow : ∀ (buf pre : List α) (st : Store (Nat × Nat)) (w rest : List α), buf = pre ++ (w ++ rest) →
      processRowQ compress step buf (after step q0 pre) st (pre.length, pre.length + w.length) =
        processRow { compress := compress } Prod.snd (ann step q0 buf) st (pre.length, pre.length + w.length) >>= fun st => ok (st, after step q0 (pre ++ w)) := by
    intro buf pre st w rest hb
    unfold processRowQ processRow
    simp only [Nat.add_sub_cancel_left]
    by_cases hw : w.length = 0
    · have : w = [] := List.length_eq_zero_iff.mp hw
      subst this
      simp
    · rw [if_neg hw, if_neg hw]
      have hx : textOf buf (pre.length, pre.length + w.length) = w := by
        unfold textOf; rw [hb]; simp
      have hp : buf.take pre.length = pre := by rw [hb]; simp
      rw [textOf_ann, hp, hx, splitQ_spec compress step hst, after_append]
      cases split { compress := compress } Prod.snd (ann step (after step q0 pre) w) <;> simp
  induction h with
  | last off w hw =>
    intro pre st hp
    simp only [List.map_cons, List.map_nil, pairOf, processRowsQ, processRows]
    rw [← hp, hrow (pre ++ w) pre st w [] (by simp)]
    cases processRow { compress := compress } Prod.snd (ann step q0 (pre ++ w)) st (pre.length, pre.length + w.length) <;> simp
  | more off w block rest toks hw hne hblock hmax hrest ih =>
    intro pre st hp
    simp only [List.map_cons, processRowsQ, processRows]
    have e : pairOf (off, w ++ Keep.part .none block) = (pre.length, pre.length + w.length) := by simp [pairOf, Keep.part, hp]
    rw [e, hrow (pre ++ (w ++ block ++ rest)) pre st w (block ++ rest) (by simp)]
    cases hpr : processRow { compress := compress } Prod.snd (ann step q0 (pre ++ (w ++ block ++ rest))) st (pre.length, pre.length + w.length) with
    | ok st' =>
      simp only [ok_bind]
      have := ih (pre ++ w ++ block) st' (by simp; omega)
      rw [after_append step (pre ++ w) block, after_block step dr hdr block _ hblock] at this
      simpa [List.append_assoc] using this
    | ub => rfl
    | diverge => rfl
    | thrown => rfl

theorem splitOnP_ann (step : σ → α → Bool × σ) (dr : α → Bool) (s : List α) : ∀ q, ((ann step q s).splitOnP fun x => dr x.1).map (fun w => w.map Prod.fst) = s.splitOnP dr := by
  induction s with
  | nil => intro q; simp [ann]
  | cons c s ih =>
    intro q
    simp only [ann]
    rw [splitOnP_cons', splitOnP_cons', ← ih (step q c).2]
    split
    · simp
    · cases (ann step (step q c).2 s).splitOnP fun x => dr x.1 <;> simp

theorem split_map_eq (dr : α → Bool) (step : σ → α → Bool × σ) (q : σ) (s : List α) :
    split { compress := true } (fun x : α × Bool => dr x.1) (ann step q s) = split { compress := true } dr s := by
  have hsk : ∀ (fuel i : Nat), skipRun (fun x : α × Bool => dr x.1) (ann step q s) fuel i = skipRun dr s fuel i := by
    intro fuel
    induction fuel with
    | zero => intro i; rfl
    | succ fuel ih =>
      intro i
      simp only [skipRun, ann_length]
      by_cases hi : i = s.length
      · rw [if_neg (by omega), if_neg (by omega)]
      · rw [if_pos hi, if_pos hi]
        by_cases hl : i < s.length
        · rw [ann_getElem step q s i hl, deref_eq_ok hl, ok_bind, ok_bind, ih]
        · rw [deref_ub (by rw [ann_length]; omega), deref_ub (by omega)]; rfl
  have hf : ∀ (first second : Nat) (out : List (Nat × Nat)) (count : Nat),
      finish (fun x : α × Bool => dr x.1) (ann step q s) first second out count = finish dr s first second out count := by
    intro first second out count
    unfold finish
    split
    · rfl
    · split
      · rfl
      · by_cases hl : second - 1 < s.length
        · rw [ann_getElem step q s _ hl, deref_eq_ok hl, ok_bind, ok_bind]
        · rw [deref_ub (by rw [ann_length]; omega), deref_ub (by omega)]; rfl
  have hc : ∀ (fuel first second : Nat) (out : List (Nat × Nat)) (count : Nat),
      compressLoop (fun x : α × Bool => dr x.1) (ann step q s) fuel first second out count = compressLoop dr s fuel first second out count := by
    intro fuel
    induction fuel with
    | zero => intro _ _ _ _; rfl
    | succ fuel ih =>
      intro first second out count
      simp only [compressLoop, ann_length, hsk, hf, ih]
      by_cases hi : second = s.length
      · rw [if_neg (by omega), if_neg (by omega)]
      · rw [if_pos hi, if_pos hi]
        by_cases hl : second < s.length
        · rw [ann_getElem step q s _ hl, deref_eq_ok hl, ok_bind, ok_bind]
        · rw [deref_ub (by rw [ann_length]; omega), deref_ub (by omega)]; rfl
  unfold split splitCompress
  simp only [ann_length, hc]
  rfl

/-- Loading with double quotes is loading the text annotated with which characters are unquoted column delimiters. -/
theorem loadQ_eq [DecidableEq α] (quote : α) (compress : Bool) (dr dc : α → Bool) (hq : dr quote = false) (buf : List α) :
    loadQ quote compress false dr dc buf = load { compress := compress } (fun x : α × Bool => dr x.1) Prod.snd (ann (quoteStep quote dc) false buf) := by
  have hdr : ∀ (q : Bool) (c : α), dr c = true → (quoteStep quote dc q c).2 = q := by
    intro q c hc
    unfold quoteStep
    rw [if_neg (by rintro rfl; rw [hq] at hc; exact absurd hc (by simp))]
    split <;> rfl
  unfold loadQ load
  rw [split_map_eq]
  by_cases hb : buf = []
  · subst hb; rfl
  · obtain ⟨toks, s1, s2⟩ := split_spec { compress := true } dr buf hb
    rw [s2, ok_bind, ok_bind]
    simp only
    have := processRowsQ_spec compress (quoteStep quote dc) (quoteStep_steady quote dc) dr hdr false s1 [] ⟨[], []⟩ rfl
    simp only [List.nil_append, after] at this
    rw [this]
    cases processRows { compress := compress } Prod.snd (ann (quoteStep quote dc) false buf) ⟨[], []⟩ (toks.map pairOf) <;> rfl

end Strtk.Grid
