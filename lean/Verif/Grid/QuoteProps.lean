import Verif.Grid.Quote
import Verif.Grid.Props

/-! # Theorems about double-quote support (C85) -/

namespace Strtk.Grid
open Outcome Split

variable {α : Type}

/-- A line with, at each character, whether it is a column delimiter outside double quotes: an even number of quotes precedes it. -/
def marks [DecidableEq α] (quote : α) (dc : α → Bool) (line : List α) : List (α × Bool) :=
  line.zipIdx.map fun e => (e.1, decide (e.1 ≠ quote) && dc e.1 && decide ((line.take e.2).count quote % 2 = 0))

/-- The tokens of a line: what lies between the unquoted column delimiters. -/
def quotedTokens [DecidableEq α] (quote : α) (dc : α → Bool) (line : List α) : List (List α) :=
  ((marks quote dc line).splitOnP Prod.snd).map fun w => w.map Prod.fst

/-- The same when runs of column delimiters count as one. -/
def quotedTokensCompressed [DecidableEq α] (quote : α) (dc : α → Bool) (line : List α) : List (List α) :=
  ((collapseRuns Prod.snd (marks quote dc line)).splitOnP Prod.snd).map fun w => w.map Prod.fst

theorem after_quote [DecidableEq α] (quote : α) (dc : α → Bool) (s : List α) : ∀ q, after (quoteStep quote dc) q s = (q ^^ decide (s.count quote % 2 = 1)) := by
  induction s with
  | nil => intro q; simp [after]
  | cons c s ih =>
    intro q
    simp only [after]
    rw [ih, List.count_cons]
    unfold quoteStep
    by_cases hc : c = quote
    · rw [if_pos hc]
      simp only [hc, beq_self_eq_true, if_true]
      rcases Nat.mod_two_eq_zero_or_one (s.count quote) with h | h
      · have h' : (s.count quote + 1) % 2 = 1 := by omega
        cases q <;> simp [h, h']
      · have h' : (s.count quote + 1) % 2 = 0 := by omega
        cases q <;> simp [h, h']
    · rw [if_neg hc]
      have : (c == quote) = false := by simpa using hc
      simp only [this]
      cases q <;> simp

theorem ann_marks [DecidableEq α] (quote : α) (dc : α → Bool) (line : List α) : ann (quoteStep quote dc) false line = marks quote dc line := by
  apply List.ext_getElem?
  intro i
  unfold marks
  rw [List.getElem?_map, List.getElem?_zipIdx]
  by_cases hi : i < line.length
  · have := ann_getElem (quoteStep quote dc) false line i hi
    unfold deref at this
    rw [List.getElem?_eq_getElem hi]
    cases ha : (ann (quoteStep quote dc) false line)[i]? with
    | none => rw [ha] at this; exact absurd this (by simp)
    | some v =>
      rw [ha] at this
      injection this with this
      rw [this]
      simp only [Option.map_some, Nat.zero_add]
      congr 2
      rw [after_quote]
      unfold quoteStep
      by_cases hc : line[i] = quote
      · rw [if_pos hc]; simp [hc]
      · rw [if_neg hc]
        rcases Nat.mod_two_eq_zero_or_one ((line.take i).count quote) with h | h
        · simp [h, hc]
        · simp [h, hc]
  · rw [List.getElem?_eq_none (by rw [ann_length]; omega), List.getElem?_eq_none (by omega)]
    rfl

/-- In balanced text the annotation of the whole buffer is the annotation of each line. -/
theorem splitOnP_balanced [DecidableEq α] (quote : α) (dr dc : α → Bool) (hq : dr quote = false) {off : Nat} {s : List α} {toks : List (Nat × List α)}
    (h : Splits false .none dr off s toks) : (∀ line ∈ s.splitOnP dr, line.count quote % 2 = 0) →
    (ann (quoteStep quote dc) false s).splitOnP (fun x => dr x.1) = (s.splitOnP dr).map (marks quote dc) := by
  have hmem : ∀ (w : List α) (q : Bool), (∀ c ∈ w, dr c = false) → ∀ x ∈ ann (quoteStep quote dc) q w, dr x.1 = false := by
    intro w
    induction w with
    | nil => intro q _ x hx; simp [ann] at hx
    | cons c w ih =>
      intro q hw x hx
      simp only [ann, List.mem_cons] at hx
      rcases hx with rfl | hx
      · exact hw c (by simp)
      · exact ih _ (fun y hy => hw y (by simp [hy])) x hx
  induction h with
  | last off w hw =>
    intro _
    rw [List.splitOnP_eq_singleton (hmem w false hw), List.splitOnP_eq_singleton hw]
    simp [ann_marks]
  | more off w block rest toks hw hne hblock hmax hrest ih =>
    intro hbal
    simp only [Bool.false_eq_true, if_false] at hmax
    obtain ⟨c, rfl⟩ := List.length_eq_one_iff.mp hmax
    have hc := hblock c (by simp)
    have e : w ++ [c] ++ rest = w ++ c :: rest := by simp
    rw [e] at hbal ⊢
    rw [List.splitOnP_append_cons_of_forall_mem hw c hc rest] at hbal ⊢
    have hw0 := hbal w (by simp)
    have hst : after (quoteStep quote dc) false w = false := by
      rw [after_quote]; simp [hw0]
    rw [ann_append, hst]
    simp only [ann]
    have hcs : (quoteStep quote dc false c).2 = false := by
      unfold quoteStep
      rw [if_neg (by rintro rfl; rw [hq] at hc; exact absurd hc (by simp))]
      rfl
    rw [hcs, List.splitOnP_append_cons_of_forall_mem (hmem w false hw) _ (by exact hc), ih (fun l hl => hbal l (by simp [hl]))]
    simp [ann_marks]

theorem textOf_map {β γ : Type} (f : β → γ) (l : List β) (r : Nat × Nat) : (textOf l r).map f = textOf (l.map f) r := by
  simp [textOf]

theorem lines_balanced [DecidableEq α] (quote : α) (dr dc : α → Bool) (hq : dr quote = false) (buf : List α)
    (hbal : ∀ line ∈ buf.splitOnP dr, line.count quote % 2 = 0) :
    lines (fun x : α × Bool => dr x.1) (ann (quoteStep quote dc) false buf) = (lines dr buf).map (marks quote dc) := by
  unfold lines
  have : (ann (quoteStep quote dc) false buf).splitOnP (fun x => dr x.1) = (buf.splitOnP dr).map (marks quote dc) := by
    by_cases hb : buf = []
    · subst hb; simp [ann, marks]
    · obtain ⟨toks, s1, _⟩ := split_spec {} dr buf hb
      exact splitOnP_balanced quote dr dc hq s1 hbal
  rw [this, List.filter_map]
  congr 1
  apply List.filter_congr
  intro w _
  cases w <;> simp [marks]

/-- Every row is split at exactly the column delimiters outside double quotes, if each line has an even number of double quotes.  Missing for C85: an
unbalanced line changes how the following lines are split (`C85_unbalanced`). -/
theorem C85_quotes_partial [DecidableEq α] (quote : α) (dr dc : α → Bool) (hq : dr quote = false) (buf : List α) (hsm : buf.length + 1 < 2 ^ 32)
    (hbal : ∀ line ∈ buf.splitOnP dr, line.count quote % 2 = 0) :
    ∃ g rows, loadQ quote false false dr dc buf = ok g ∧ Rep g rows ∧ MinMax g rows ∧
      (rows.map fun row => row.map (textOf buf)) = ((buf.splitOnP dr).filter fun w => !w.isEmpty).map (quotedTokens quote dc) := by
  obtain ⟨g, rows, h1, h2, h3, h4⟩ := C60_load_default (fun x : α × Bool => dr x.1) Prod.snd (ann (quoteStep quote dc) false buf) (by rw [ann_length]; exact hsm)
  refine ⟨g, rows, by rw [loadQ_eq quote false dr dc hq, h1], h2, h3, ?_⟩
  have hl := lines_balanced quote dr dc hq buf hbal
  unfold lines at hl
  rw [hl] at h4
  have := congrArg (List.map (List.map (List.map Prod.fst))) h4
  simp only [List.map_map] at this
  unfold quotedTokens
  have e : (fun row => row.map (textOf buf)) = (List.map (List.map Prod.fst)) ∘ fun row => List.map (textOf (ann (quoteStep quote dc) false buf)) row := by
    funext row
    simp only [Function.comp_apply, List.map_map]
    apply List.map_congr_left
    intro t _
    simp only [Function.comp_apply]
    rw [textOf_map, ann_fst]
  rw [e, this]
  rfl

/-- With `compress_delimiters`: likewise, runs of unquoted column delimiters counting as one. -/
theorem C85_quotes_compress_partial [DecidableEq α] (quote : α) (dr dc : α → Bool) (hq : dr quote = false) (buf : List α) (hsm : buf.length + 1 < 2 ^ 32)
    (hbal : ∀ line ∈ buf.splitOnP dr, line.count quote % 2 = 0) :
    ∃ g rows, loadQ quote true false dr dc buf = ok g ∧ Rep g rows ∧ MinMax g rows ∧
      (rows.map fun row => row.map (textOf buf)) = ((buf.splitOnP dr).filter fun w => !w.isEmpty).map (quotedTokensCompressed quote dc) := by
  obtain ⟨g, rows, h1, h2, h3, h4⟩ := C60_load_compress (fun x : α × Bool => dr x.1) Prod.snd (ann (quoteStep quote dc) false buf) (by rw [ann_length]; exact hsm)
  refine ⟨g, rows, by rw [loadQ_eq quote true dr dc hq, h1], h2, h3, ?_⟩
  have hl := lines_balanced quote dr dc hq buf hbal
  unfold lines at hl
  rw [hl] at h4
  have := congrArg (List.map (List.map (List.map Prod.fst))) h4
  simp only [List.map_map] at this
  unfold quotedTokensCompressed
  have e : (fun row => row.map (textOf buf)) = (List.map (List.map Prod.fst)) ∘ fun row => List.map (textOf (ann (quoteStep quote dc) false buf)) row := by
    funext row
    simp only [Function.comp_apply, List.map_map]
    apply List.map_congr_left
    intro t _
    simp only [Function.comp_apply]
    rw [textOf_map, ann_fst]
  rw [e, this]
  rfl

/-- An unbalanced quote in the first line makes the delimiter of the second line a quoted one. -/
theorem C85_unbalanced :
    loadQ '"' false false (· == '\n') (· == ',') "\"a\nb,c\n".toList = ok ⟨⟨[(0, 2), (3, 6)], [(0, 0), (1, 1)]⟩, 1, 1⟩ := by decide +kernel

example : loadQ '"' false false (· == '\n') (· == ',') "\"a,b\",c\nd,e\n".toList = ok ⟨⟨[(0, 5), (6, 7), (8, 9), (10, 11)], [(0, 1), (2, 3)]⟩, 2, 2⟩ := by decide +kernel
example : quotedTokens '"' (· == ',') "\"a,b\",c".toList = ["\"a,b\"".toList, "c".toList] := by decide

/-! ## Trimming -/

/-- The text without the double quotes around it, if it has them. -/
def trimText [DecidableEq α] (quote : α) (w : List α) : List α :=
  if 2 ≤ w.length ∧ w.head? = some quote ∧ w.getLast? = some quote then (w.drop 1).dropLast else w

/-- The same on positions. -/
def trimTok [DecidableEq α] (quote : α) (buf : List α) (t : Nat × Nat) : Nat × Nat :=
  if buf[t.1]? = some quote ∧ buf[t.2 - 1]? = some quote then (t.1 + 1, t.2 - 1) else t

theorem trimQuotes_spec [DecidableEq α] (quote : α) (buf : List α) : ∀ (toks : List (Nat × Nat)), (∀ t ∈ toks, t.1 ≤ t.2 ∧ t.2 ≤ buf.length ∧ t.1 < buf.length ∧
      (t.1 = t.2 → buf[t.1]? ≠ some quote)) →
    trimQuotes quote buf toks = ok (toks.map (trimTok quote buf)) := by
  intro toks
  induction toks with
  | nil => intro _; rfl
  | cons t toks ih =>
    intro h
    obtain ⟨h1, h2, h3, h4⟩ := h t (by simp)
    have := ih (fun x hx => h x (by simp [hx]))
    simp only [trimQuotes, List.map_cons]
    rw [deref_eq_ok h3, ok_bind]
    have e1 : buf[t.1]? = some buf[t.1] := List.getElem?_eq_getElem h3
    by_cases hc : buf[t.1] = quote
    · have hlt : t.1 < t.2 := by
        rcases Nat.lt_or_ge t.1 t.2 with hlt | hge
        · exact hlt
        · exact absurd (by rw [e1, hc]) (h4 (by omega))
      rw [if_pos hc, if_neg (by omega), deref_eq_ok (show t.2 - 1 < buf.length by omega), ok_bind, this, ok_bind]
      have e2 : buf[t.2 - 1]? = some buf[t.2 - 1] := List.getElem?_eq_getElem (by omega)
      unfold trimTok
      rw [e1, e2, hc]
      simp
    · rw [if_neg hc, this, ok_bind]
      unfold trimTok
      rw [e1, if_neg (by simp [hc])]

theorem textOf_trimTok [DecidableEq α] (quote : α) (buf : List α) (t : Nat × Nat) (h1 : t.1 ≤ t.2) (h2 : t.2 ≤ buf.length)
    (h4 : t.1 = t.2 → buf[t.1]? ≠ some quote) (h5 : textOf buf t ≠ [quote]) :
    textOf buf (trimTok quote buf t) = trimText quote (textOf buf t) := by
  have hlen : (textOf buf t).length = t.2 - t.1 := by unfold textOf; simp; omega
  have hget : ∀ i, i < t.2 - t.1 → (textOf buf t)[i]? = buf[t.1 + i]? := by
    intro i hi
    unfold textOf
    rw [List.getElem?_take_of_lt hi, List.getElem?_drop]
  rcases Nat.lt_trichotomy (t.2 - t.1) 1 with h0 | h0 | h0
  · have he : t.1 = t.2 := by omega
    unfold trimTok trimText
    rw [if_neg (fun hh => h4 he hh.1), if_neg (by omega)]
  · have hne : buf[t.1]? ≠ some quote := by
      intro hq
      apply h5
      have := hget 0 (by omega)
      rw [Nat.add_zero, hq] at this
      match hm : textOf buf t with
      | [] => rw [hm] at this; simp at this
      | [x] => rw [hm] at this; simp at this; rw [this]
      | x :: y :: zs => rw [hm] at hlen; simp at hlen; omega
    unfold trimTok trimText
    rw [if_neg (fun hh => hne hh.1), if_neg (by omega)]
  · have g1 := hget 0 (by omega)
    have g2 := hget (t.2 - t.1 - 1) (by omega)
    rw [Nat.add_zero, ← List.head?_eq_getElem?] at g1
    rw [← hlen, ← List.getLast?_eq_getElem?, hlen, show t.1 + (t.2 - t.1 - 1) = t.2 - 1 by omega] at g2
    unfold trimTok trimText
    rw [g1, g2]
    by_cases hq : buf[t.1]? = some quote ∧ buf[t.2 - 1]? = some quote
    · rw [if_pos hq, if_pos ⟨by omega, hq⟩]
      unfold textOf
      simp only
      rw [List.drop_take, List.dropLast_eq_take, List.take_take, List.drop_drop]
      congr 1
      simp
      omega
    · rw [if_neg hq, if_neg (fun hh => hq hh.2)]

/-- A token ends at the end of the text or in front of a delimiter. -/
theorem Splits.stop {pr : Bool} {d : α → Bool} {off : Nat} {s : List α} {toks : List (Nat × List α)} (h : Splits pr .none d off s toks) :
    ∀ (pre : List α), pre.length = off → ∀ t ∈ toks, (pairOf t).2 = (pre ++ s).length ∨ ∃ c, (pre ++ s)[(pairOf t).2]? = some c ∧ d c = true := by
  induction h with
  | last off w hw =>
    intro pre hp t ht
    simp only [List.mem_singleton] at ht
    subst ht
    left; simp [pairOf, hp]
  | more off w block rest toks hw hne hblock hmax hrest ih =>
    intro pre hp t ht
    rcases List.mem_cons.mp ht with rfl | ht
    · right
      obtain ⟨c, b, rfl⟩ := List.exists_cons_of_ne_nil hne
      refine ⟨c, ?_, hblock c (by simp)⟩
      simp only [pairOf, Keep.part, List.append_nil]
      have : pre ++ (w ++ c :: b ++ rest) = (pre ++ w) ++ c :: (b ++ rest) := by simp
      rw [this, List.getElem?_append_right (by simp; omega)]
      simp [hp]
    · have := ih (pre ++ w ++ block) (by simp; omega) t ht
      simpa [List.append_assoc] using this

/-- In a balanced line every token has an even number of quotes. -/
theorem Splits.even [DecidableEq α] (quote : α) (dc : α → Bool) {pr : Bool} {off : Nat} {m : List (α × Bool)} {toks : List (Nat × List (α × Bool))}
    (h : Splits pr .none Prod.snd off m toks) : ∀ (s : List α), m = ann (quoteStep quote dc) false s → s.count quote % 2 = 0 →
    ∀ t ∈ toks, (t.2.map Prod.fst).count quote % 2 = 0 := by
  induction h with
  | last off w hw =>
    intro s hs hc t ht
    simp only [List.mem_singleton] at ht
    subst ht
    rw [hs, ann_fst]; exact hc
  | more off w block rest toks hw hne hblock hmax hrest ih =>
    intro s hs hc t ht
    -- the characters of the three parts
    have hf := ann_fst (quoteStep quote dc) s false
    rw [← hs] at hf
    simp only [List.map_append] at hf
    have hs' := hs
    rw [← hf, ann_append, ann_append] at hs'
    have l1 : w.length = (ann (quoteStep quote dc) false (w.map Prod.fst)).length := by rw [ann_length, List.length_map]
    have l2 : block.length = (ann (quoteStep quote dc) (after (quoteStep quote dc) false (w.map Prod.fst)) (block.map Prod.fst)).length := by
      rw [ann_length, List.length_map]
    rw [List.append_assoc, List.append_assoc] at hs'
    obtain ⟨e1, e2⟩ := List.append_inj hs' l1
    obtain ⟨e3, e4⟩ := List.append_inj e2 l2
    rw [after_quote] at e3
    -- a flagged character is reached outside quotes
    have hflag : ∀ (b : List α) (q : Bool), b ≠ [] → (∀ x ∈ ann (quoteStep quote dc) q b, x.2 = true) → q = false ∧ after (quoteStep quote dc) q b = false ∧ b.count quote = 0 := by
      intro b
      induction b with
      | nil => intro q hb _; exact absurd rfl hb
      | cons c b ihb =>
        intro q _ hx
        have hc := hx (c, (quoteStep quote dc q c).1) (by simp [ann])
        simp only at hc
        have hcq : c ≠ quote := by rintro rfl; unfold quoteStep at hc; simp at hc
        have hq0 : q = false := by
          cases q with
          | false => rfl
          | true => unfold quoteStep at hc; rw [if_neg hcq] at hc; simp at hc
        subst hq0
        have hstep : (quoteStep quote dc false c).2 = false := quoteStep_steady quote dc _ _ hc
        refine ⟨rfl, ?_, ?_⟩
        · simp only [after]
          rw [hstep]
          cases b with
          | nil => rfl
          | cons c' b' => exact (ihb false (by simp) (fun x hx' => hx x (List.mem_cons_of_mem _ (by rw [hstep]; exact hx')))).2.1
        · rw [List.count_cons_of_ne hcq]
          cases b with
          | nil => rfl
          | cons c' b' => exact (ihb false (by simp) (fun x hx' => hx x (List.mem_cons_of_mem _ (by rw [hstep]; exact hx')))).2.2
    obtain ⟨f1, f2, f3⟩ := hflag (block.map Prod.fst) (false ^^ decide ((w.map Prod.fst).count quote % 2 = 1)) (by simpa using hne)
      (by rw [← e3]; exact hblock)
    have hw0 : (w.map Prod.fst).count quote % 2 = 0 := by
      simp at f1
      omega
    have haft : after (quoteStep quote dc) false (w.map Prod.fst ++ block.map Prod.fst) = false := by
      rw [after_append, after_quote quote dc (w.map Prod.fst)]; exact f2
    rcases List.mem_cons.mp ht with rfl | ht
    · simpa [Keep.part] using hw0
    · refine ih (rest.map Prod.fst) ?_ ?_ t ht
      · rw [haft] at e4; exact e4
      · rw [← hf, List.count_append, List.count_append, f3] at hc
        omega

/-- A fact about every stored token. -/
theorem processRows_mem (opt : Opt) (d : α → Bool) (buf : List α) (P : Nat × Nat → Prop) : ∀ (rs : List (Nat × Nat)) (st st' : Store (Nat × Nat)),
    processRows opt d buf st rs = ok st' → (∀ t ∈ st.tokens, P t) →
    (∀ r ∈ rs, r.2 - r.1 ≠ 0 → ∀ toks n, split opt d (textOf buf r) = ok (toks, n) → ∀ t ∈ toks, P (r.1 + t.1, r.1 + t.2)) → ∀ t ∈ st'.tokens, P t := by
  intro rs
  induction rs with
  | nil => intro st st' h h1 _; simp only [processRows] at h; injection h with h; subst h; exact h1
  | cons r rs ih =>
    intro st st' h h1 h2
    simp only [processRows] at h
    rw [bind_eq_ok] at h
    obtain ⟨st1, h3, h4⟩ := h
    refine ih st1 st' h4 ?_ (fun x hx => h2 x (by simp [hx]))
    unfold processRow at h3
    split at h3
    · injection h3 with h3; subst h3; exact h1
    · rename_i hr
      rw [bind_eq_ok] at h3
      obtain ⟨⟨toks, n⟩, h5, h6⟩ := h3
      injection h6 with h6
      subst h6
      intro t ht
      simp only [List.mem_append, List.mem_map] at ht
      rcases ht with ht | ⟨u, hu, rfl⟩
      · exact h1 t ht
      · exact h2 r (by simp) hr toks n h5 u hu

theorem idx_map (f : T → U) (rows : List (List T)) : ∀ k, idx k (rows.map fun r => r.map f) = idx k rows := by
  induction rows with
  | nil => intro k; rfl
  | cons r rs ih => intro k; simp [idx, ih]

/-- The tokens of a balanced text that ends with a row delimiter: each is followed by a character that is not a quote, and is not a single quote. -/
theorem loaded_tokens [DecidableEq α] (quote : α) (compress : Bool) (dr dc : α → Bool) (hq : dr quote = false) (body : List α) (nl : α) (hnl : dr nl = true)
    (hbal : ∀ line ∈ (body ++ [nl]).splitOnP dr, line.count quote % 2 = 0) (g : Grid (Nat × Nat)) (hg : loadQ quote compress false dr dc (body ++ [nl]) = ok g) :
    ∀ t ∈ g.store.tokens, t.1 ≤ t.2 ∧ t.2 < (body ++ [nl]).length ∧ (body ++ [nl])[t.2]? ≠ some quote ∧ textOf (body ++ [nl]) t ≠ [quote] := by
  have hne : body ++ [nl] ≠ [] := by simp
  obtain ⟨buf, hbuf⟩ : ∃ buf, buf = body ++ [nl] := ⟨_, rfl⟩
  have hlast : buf[buf.length - 1]? = some nl := by rw [hbuf]; simp
  rw [← hbuf] at hbal hg hne ⊢
  rw [loadQ_eq quote compress dr dc hq] at hg
  unfold load at hg
  rw [split_map_eq] at hg
  obtain ⟨rtoks, s1, s2⟩ := split_spec { compress := true } dr buf hne
  rw [s2, ok_bind] at hg
  simp only at hg
  rw [bind_eq_ok] at hg
  obtain ⟨st, hg1, hg2⟩ := hg
  injection hg2 with hg2
  have hgt : g.store.tokens = st.tokens := by rw [← hg2]; rfl
  rw [hgt]
  have s1' : Splits true .none dr 0 buf rtoks := s1
  refine processRows_mem _ _ _ _ _ _ _ hg1 (by simp) ?_
  intro r hr hrn toks n hsp t ht
  obtain ⟨rt, hrt, rfl⟩ := List.mem_map.mp hr
  -- the row
  have htext := s1'.text [] rfl rt hrt
  simp only [List.nil_append] at htext
  have hstop := Splits.stop s1' [] rfl rt hrt
  simp only [List.nil_append] at hstop
  have hnd : ∀ c ∈ rt.2, dr c = false := by
    have : ∀ {off : Nat} {s : List α} {toks : List (Nat × List α)}, Splits true .none dr off s toks → ∀ t ∈ toks, ∀ c ∈ t.2, dr c = false := by
      intro off s toks h
      induction h with
      | last off w hw => intro t ht; simp only [List.mem_singleton] at ht; subst ht; exact hw
      | more off w block rest toks hw _ _ _ _ ih =>
        intro t ht
        rcases List.mem_cons.mp ht with rfl | ht
        · simpa [Keep.part] using hw
        · exact ih t ht
    exact this s1' rt hrt
  have hrow : rt.2 ≠ [] := by
    intro h0; apply hrn; simp [pairOf, h0]
  have hdr2 : ∃ c, buf[(pairOf rt).2]? = some c ∧ dr c = true := by
    rcases hstop with h0 | h0
    · exfalso
      -- then the last character of the row is the final row delimiter
      have hlen : 0 < rt.2.length := List.length_pos_iff.mpr hrow
      have e : (textOf buf (pairOf rt))[rt.2.length - 1]? = buf[buf.length - 1]? := by
        unfold textOf pairOf at *
        simp only at *
        rw [List.getElem?_take_of_lt (by omega), List.getElem?_drop]
        congr 1
        omega
      rw [htext, hlast] at e
      have := hnd nl (List.mem_of_getElem? e)
      rw [hnl] at this
      exact absurd this (by simp)
    · exact h0
  obtain ⟨cr, hcr, hcrd⟩ := hdr2
  have hr2 : (pairOf rt).2 < buf.length := by
    rcases Nat.lt_or_ge (pairOf rt).2 buf.length with h0 | h0
    · exact h0
    · rw [List.getElem?_eq_none h0] at hcr; exact absurd hcr (by simp)
  -- the line is balanced
  have hbalrow : rt.2.count quote % 2 = 0 := by
    have : ((rtoks.map Prod.snd).filter fun w => !w.isEmpty) = (buf.splitOnP dr).filter fun w => !w.isEmpty := by
      rw [Splits.splitOnP_collapse s1']; exact lines_collapse dr buf
    have hm : rt.2 ∈ (rtoks.map Prod.snd).filter fun w => !w.isEmpty := by
      rw [List.mem_filter]
      exact ⟨List.mem_map_of_mem hrt, by simpa using hrow⟩
    rw [this, List.mem_filter] at hm
    exact hbal _ hm.1
  -- the state at the start of the row
  have hstate : after (quoteStep quote dc) false (buf.take (pairOf rt).1) = false := by
    have hall : ∀ {off : Nat} {s : List α} {toks : List (Nat × List α)}, Splits true .none dr off s toks → ∀ pre, pre.length = off →
        after (quoteStep quote dc) false pre = false → (∀ t ∈ toks, t.2.count quote % 2 = 0) → ∀ t ∈ toks, after (quoteStep quote dc) false ((pre ++ s).take t.1) = false := by
      intro off s toks h
      induction h with
      | last off w hw =>
        intro pre hp hst _ t ht
        simp only [List.mem_singleton] at ht
        subst ht
        rw [← hp, List.take_left]; exact hst
      | more off w block rest toks hw hne hblock hmax hrest ih =>
        intro pre hp hst hev t ht
        rcases List.mem_cons.mp ht with rfl | ht
        · rw [← hp, List.take_left]; exact hst
        · have h1 : after (quoteStep quote dc) false (pre ++ w ++ block) = false := by
            rw [after_append, after_append, hst, after_quote quote dc w]
            have hw0 := hev (off, w ++ Keep.part .none block) (by simp)
            simp only [Keep.part, List.append_nil] at hw0
            have : (false ^^ decide (w.count quote % 2 = 1)) = false := by simp [hw0]
            rw [this]
            exact after_block (quoteStep quote dc) dr (by
              intro q c hc
              unfold quoteStep
              rw [if_neg (by rintro rfl; rw [hq] at hc; exact absurd hc (by simp))]
              split <;> rfl) block false hblock
          have := ih (pre ++ w ++ block) (by simp; omega) h1 (fun x hx => hev x (by simp [hx])) t ht
          simpa [List.append_assoc] using this
    have hev : ∀ t ∈ rtoks, t.2.count quote % 2 = 0 := by
      intro t ht
      by_cases h0 : t.2 = []
      · rw [h0]; rfl
      · have : ((rtoks.map Prod.snd).filter fun w => !w.isEmpty) = (buf.splitOnP dr).filter fun w => !w.isEmpty := by
          rw [Splits.splitOnP_collapse s1']; exact lines_collapse dr buf
        have hm : t.2 ∈ (rtoks.map Prod.snd).filter fun w => !w.isEmpty := by
          rw [List.mem_filter]
          exact ⟨List.mem_map_of_mem ht, by simpa using h0⟩
        rw [this, List.mem_filter] at hm
        exact hbal _ hm.1
    have := hall s1' [] rfl rfl hev rt hrt
    simpa [pairOf] using this
  -- the tokens of the row
  rw [textOf_ann, hstate, htext] at hsp
  have hane : ann (quoteStep quote dc) false rt.2 ≠ [] := by
    intro h0
    have := congrArg List.length h0
    rw [ann_length] at this
    exact hrow (List.length_eq_zero_iff.mp this)
  obtain ⟨tt, t1, t2⟩ := split_spec { compress := compress } Prod.snd (ann (quoteStep quote dc) false rt.2) hane
  rw [hsp] at t2
  injection t2 with t2
  have htk : toks = tt.map pairOf := (Prod.mk.inj t2).1
  rw [htk] at ht
  obtain ⟨u, hu, rfl⟩ := List.mem_map.mp ht
  have t1' : Splits compress .none Prod.snd 0 (ann (quoteStep quote dc) false rt.2) tt := by cases compress <;> exact t1
  have hb := t1'.bounds.1 (pairOf u) (List.mem_map_of_mem hu)
  rw [ann_length] at hb
  have hst2 := Splits.stop t1' [] rfl u hu
  simp only [List.nil_append, ann_length] at hst2
  have htu := t1'.text [] rfl u hu
  simp only [List.nil_append] at htu
  have hrl : (pairOf rt).2 = (pairOf rt).1 + rt.2.length := rfl
  refine ⟨by simp only; omega, by simp only; omega, ?_, ?_⟩
  · simp only
    rcases hst2 with h0 | ⟨c, h0, h1⟩
    · rw [h0, ← hrl, hcr]
      intro hh
      injection hh with hh
      rw [hh, hq] at hcrd
      exact absurd hcrd (by simp)
    · -- an unquoted delimiter
      have hlt : (pairOf u).2 < rt.2.length := by
        rcases Nat.lt_or_ge (pairOf u).2 rt.2.length with h2 | h2
        · exact h2
        · rw [List.getElem?_eq_none (by rw [ann_length]; omega)] at h0; exact absurd h0 (by simp)
      have hget : buf[(pairOf rt).1 + (pairOf u).2]? = rt.2[(pairOf u).2]? := by
        rw [← htext]
        unfold textOf
        rw [List.getElem?_take_of_lt (by omega), List.getElem?_drop]
      have ha := ann_getElem (quoteStep quote dc) false rt.2 (pairOf u).2 hlt
      unfold deref at ha
      rw [h0] at ha
      injection ha with ha
      rw [hget, List.getElem?_eq_getElem hlt]
      intro hh
      injection hh with hh
      rw [ha, hh] at h1
      simp only [quoteStep, if_true] at h1
      exact absurd h1 (by simp)
  · have hev := Splits.even quote dc t1' rt.2 rfl hbalrow u hu
    rw [textOf_textOf buf (pairOf rt) (pairOf u) (by omega), htext]
    have : textOf rt.2 (pairOf u) = u.2.map Prod.fst := by rw [← htu, textOf_map, ann_fst]
    rw [this]
    intro h0
    rw [h0] at hev
    simp at hev

/-- Trimming: in a balanced text that ends with a row delimiter, tokens between double quotes lose these, all others stay.  Missing for C85: texts that do not
end with a row delimiter, where an empty last token is read behind the end of the buffer (`C85_trim_reads_past_end`), and unbalanced lines
(`C85_trim_inverts`). -/
theorem C85_trim_partial [DecidableEq α] (quote : α) (dr dc : α → Bool) (hq : dr quote = false) (body : List α) (nl : α) (hnl : dr nl = true)
    (hsm : (body ++ [nl]).length + 1 < 2 ^ 32) (hbal : ∀ line ∈ (body ++ [nl]).splitOnP dr, line.count quote % 2 = 0) :
    ∃ g rows, loadQ quote false true dr dc (body ++ [nl]) = ok g ∧ Rep g rows ∧ MinMax g rows ∧
      (rows.map fun row => row.map (textOf (body ++ [nl]))) =
        (((body ++ [nl]).splitOnP dr).filter fun w => !w.isEmpty).map fun line => (quotedTokens quote dc line).map (trimText quote) := by
  obtain ⟨g, rows, h1, h2, h3, h4⟩ := C85_quotes_partial quote dr dc hq (body ++ [nl]) hsm hbal
  have htok := loaded_tokens quote false dr dc hq body nl hnl hbal g h1
  obtain ⟨buf, hbuf⟩ : ∃ buf, buf = body ++ [nl] := ⟨_, rfl⟩
  rw [← hbuf] at h1 h4 htok hsm hbal ⊢
  have htrim := trimQuotes_spec quote buf g.store.tokens (fun t ht => by
    obtain ⟨a1, a2, a3, _⟩ := htok t ht
    exact ⟨a1, by omega, by omega, fun he => by rw [he]; exact a3⟩)
  have htokens : ∀ row ∈ rows, ∀ t ∈ row, t ∈ g.store.tokens := by
    intro row hrow t ht
    rw [h2.tokens]
    exact List.mem_flatten.mpr ⟨row, hrow, ht⟩
  have hfl : (rows.map fun r => r.map (trimTok quote buf)).flatten = g.store.tokens.map (trimTok quote buf) := by rw [h2.tokens, List.map_flatten]
  obtain ⟨u1, u2, u3⟩ := updateMinMax_spec (rows.map fun r => r.map (trimTok quote buf)) ⟨g.store.tokens.map (trimTok quote buf), g.store.index⟩ hfl.symm
    (by simp only; rw [idx_map, h2.index]) (by
      intro r hr
      obtain ⟨r0, hr0, rfl⟩ := List.mem_map.mp hr
      simpa using h2.nonempty r0 hr0) (by rw [hfl, List.length_map, h2.tokens]; exact h2.small)
  refine ⟨_, _, ?_, u1, u2, ?_⟩
  · -- the untrimmed load gives the store
    unfold loadQ at h1 ⊢
    rw [bind_eq_ok] at h1
    obtain ⟨⟨rs, n⟩, b1, b2⟩ := h1
    rw [b1, ok_bind]
    simp only at b2 ⊢
    rw [bind_eq_ok] at b2
    obtain ⟨⟨st, q⟩, b3, b4⟩ := b2
    rw [b3, ok_bind]
    simp only [Bool.false_eq_true, if_false] at b4
    injection b4 with b4
    have hst : g.store = st := by rw [← b4]; rfl
    simp only [if_true]
    rw [← hst, htrim, ok_bind]
  · rw [List.map_map]
    have e : (rows.map ((fun row => row.map (textOf buf)) ∘ fun r => r.map (trimTok quote buf))) =
        (rows.map fun row => row.map (textOf buf)).map fun ts => ts.map (trimText quote) := by
      rw [List.map_map]
      apply List.map_congr_left
      intro row hrow
      simp only [Function.comp_apply, List.map_map]
      apply List.map_congr_left
      intro t ht
      obtain ⟨a1, a2, a3, a4⟩ := htok t (htokens row hrow t ht)
      exact textOf_trimTok quote buf t a1 (by omega) (fun he => by rw [he]; exact a3) a4
    rw [e, h4, List.map_map]
    rfl

/-- The empty token behind a final column delimiter makes the trimming loop read behind the buffer (a file is loaded into an array of exactly its
size, 7542; behind a `std::string` stands its terminating zero). -/
theorem C85_trim_reads_past_end : loadQ '"' false true (· == '\n') (· == ',') "a,".toList = ub := by decide +kernel

/-- A token that is a single double quote gets its begin behind its end. -/
theorem C85_trim_inverts : loadQ '"' false true (· == '\n') (· == ',') "a,\"\n".toList = ok ⟨⟨[(0, 1), (3, 2)], [(0, 1)]⟩, 2, 2⟩ := by decide +kernel

example : loadQ '"' false true (· == '\n') (· == ',') "\"a,b\",c\n".toList = ok ⟨⟨[(1, 4), (6, 7)], [(0, 1)]⟩, 2, 2⟩ := by decide +kernel

end Strtk.Grid
