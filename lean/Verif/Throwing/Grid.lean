import Verif.Throwing.Model
import Verif.Grid.Remove

/-! # C169: what a predicate that throws leaves of a token grid -/

namespace Strtk.Throwing
open Outcome Mem Grid

variable {T : Type}

/-! ## Specification -/

/-- Consecutive pieces of the given widths of a sequence of tokens. -/
def pieces : List Nat → List T → List (List T)
  | [], _ => []
  | n :: ns, ts => ts.take n :: pieces ns (ts.drop n)

/-- The widths that are left to some rows when the rows `p` wants removed have none; the first row has the number `i`. -/
def rowWidths (p : Nat → List T → Option Bool) : Nat → List (List T) → List Nat
  | _, [] => []
  | i, r :: rs => (if p i r = some true then 0 else r.length) :: rowWidths p (i + 1) rs

/-- The widths that are left to some rows without the tokens `q` wants removed. -/
def tokenWidths (q : T → Option Bool) (rows : List (List T)) : List Nat := rows.map fun r => (r.filter fun t => q t != some true).length

/-! ## Rows given by their first token and their width -/

/-- First token and width of consecutive rows. -/
def spans : Nat → List Nat → List (Nat × Nat)
  | _, [] => []
  | o, n :: ns => (o, n) :: spans (o + n) ns

/-- An entry of the index. -/
def entry (e : Nat × Nat) : Nat × Nat := (e.1, lastIx e.1 e.2)

/-- The tokens of a row. -/
def cut (F : List T) (e : Nat × Nat) : List T := (F.drop e.1).take e.2

theorem idx_spans (rows : List (List T)) : ∀ k, idx k rows = (spans k (rows.map List.length)).map entry := by
  induction rows with
  | nil => intro k; rfl
  | cons r rs ih => intro k; simp [idx, spans, entry, ih]

theorem pieces_spans (F : List T) (ns : List Nat) : ∀ o, pieces ns (F.drop o) = (spans o ns).map (cut F) := by
  induction ns with
  | nil => intro o; rfl
  | cons n ns ih => intro o; simp [pieces, spans, cut, ih]

theorem pieces_rows (rows : List (List T)) : ∀ rest, pieces (rows.map List.length) (rows.flatten ++ rest) = rows := by
  induction rows with
  | nil => intro rest; rfl
  | cons r rs ih => intro rest; simp [pieces, ih]

theorem spans_bound (ns : List Nat) : ∀ (o N : Nat), o + ns.sum ≤ N → ∀ e ∈ spans o ns, e.1 + e.2 ≤ N := by
  induction ns with
  | nil => intro o N _ e he; simp [spans] at he
  | cons n ns ih =>
    intro o N h e he
    simp only [List.sum_cons] at h
    simp only [spans, List.mem_cons] at he
    rcases he with rfl | he
    · simp only; omega
    · exact ih (o + n) N (by omega) e he

theorem token_entry (g : Grid T) (row col o n : Nat) (hi : g.store.index[row]? = some (o, lastIx o n)) (hl : o + n ≤ g.store.tokens.length)
    (hF : o + n < 2 ^ 32) : g.token row col = ok (((g.store.tokens.drop o).take n)[col]?) := by
  unfold Grid.token
  obtain ⟨hr, _⟩ := List.getElem?_eq_some_iff.mp hi
  have hd : deref g.store.index row = ok (o, lastIx o n) := by unfold deref; rw [hi]
  rw [if_pos hr, hd, ok_bind, tokenCount_idx o n hF]
  by_cases hc : col < n
  · obtain ⟨v, hv⟩ : ∃ v, g.store.tokens[o + col]? = some v := ⟨_, List.getElem?_eq_getElem (show o + col < g.store.tokens.length by omega)⟩
    have hd : deref g.store.tokens (o + col) = ok v := by unfold deref; rw [hv]
    rw [if_pos hc, hd, ok_bind, List.getElem?_take_of_lt hc, List.getElem?_drop, hv]
  · rw [if_neg hc, List.getElem?_eq_none (by rw [List.length_take]; omega)]

theorem shows_cut (F : List T) (l : List (Nat × Nat)) (hl : ∀ e ∈ l, e.1 + e.2 ≤ F.length) (hF : F.length < 2 ^ 32) (mn mx : Nat) :
    Shows ⟨⟨F, l.map entry⟩, mn, mx⟩ (l.map (cut F)) := by
  refine ⟨by simp [Grid.rowCount], ?_⟩
  intro row col
  cases he : l[row]? with
  | none =>
    have hr : ¬ row < (l.map entry).length := by
      rw [List.length_map]
      have := List.getElem?_eq_none_iff.mp he
      omega
    unfold Grid.token
    simp only
    rw [if_neg hr, List.getElem?_map, he]
    rfl
  | some e =>
    have hm : e ∈ l := List.mem_of_getElem? he
    have hb := hl e hm
    rw [token_entry ⟨⟨F, l.map entry⟩, mn, mx⟩ row col e.1 e.2 (by simp only [List.getElem?_map, he]; rfl) hb (Nat.lt_of_le_of_lt hb hF), List.getElem?_map, he]
    rfl

/-! ## The loops -/

theorem rowLoop_thrown (p : Nat → List T → Option Bool) (x : List T) (post : List (List T)) (m : Nat) : ∀ (mid : List (List T)) (done : List (Nat × Nat)) (pre : List T)
    (removed : Nat) (rt rr : List Nat), removed ≤ pre.length → pre.length + (mid ++ x :: post).flatten.length < 2 ^ 32 →
    (∀ i r, mid[i]? = some r → p (done.length + i) r ≠ none) → p (done.length + mid.length) x = none →
    removeRowIfLoop p (pre ++ (mid ++ x :: post).flatten) (mid.length + (m + 1)) done.length (done ++ idx pre.length (mid ++ x :: post)) removed rt rr =
      ok (.thrown (done ++ (spans (pre.length - removed) (rowWidths p done.length mid)).map entry ++ idx (pre.length + mid.flatten.length) (x :: post))) := by
  intro mid
  induction mid with
  | nil =>
    intro done pre removed rt rr h1 h2 hans hx
    have hrow : rowOf (pre ++ ([] ++ x :: post).flatten) (pre.length, lastIx pre.length x.length) = ok x := by
      have := rowOf_idx pre post.flatten x (by simp at h2; omega)
      simpa using this
    simp only [List.length_nil, Nat.zero_add, Nat.add_zero] at hx ⊢
    unfold removeRowIfLoop
    simp only [List.nil_append, idx] at hrow ⊢
    rw [deref_append_cons, ok_bind, hrow, ok_bind, hx]
    simp [rowWidths, spans]
  | cons r mid ih =>
    intro done pre removed rt rr h1 h2 hans hx
    have hlen : pre.length + r.length < 2 ^ 32 := by simp at h2; omega
    have hrow : rowOf (pre ++ (r :: mid ++ x :: post).flatten) (pre.length, lastIx pre.length r.length) = ok r := by
      have := rowOf_idx pre (mid ++ x :: post).flatten r hlen
      simpa using this
    have hans0 := hans 0 r rfl
    rw [Nat.add_zero] at hans0
    have hn : (r :: mid).length + (m + 1) = (mid.length + (m + 1)) + 1 := by simp; omega
    rw [hn]
    unfold removeRowIfLoop
    have hix : idx pre.length (r :: mid ++ x :: post) = (pre.length, lastIx pre.length r.length) :: idx (pre.length + r.length) (mid ++ x :: post) := rfl
    rw [hix, deref_append_cons, ok_bind, hrow, ok_bind]
    cases hp : p done.length r with
    | none => exact absurd hp hans0
    | some hit =>
      simp only
      rw [store_eq_ok _ (by simp), ok_bind]
      have hset : ∀ q, (done ++ (pre.length, lastIx pre.length r.length) :: idx (pre.length + r.length) (mid ++ x :: post)).set
          done.length q = (done ++ [q]) ++ idx (pre ++ r).length (mid ++ x :: post) := by
        intro q; simp
      have htok : pre ++ (r :: mid ++ x :: post).flatten = (pre ++ r) ++ (mid ++ x :: post).flatten := by simp
      rw [hset, sub32_le _ _ h1 (by omega), htok]
      have hrem : (if hit = true then removed + r.length else removed) ≤ pre.length + r.length := by split <;> omega
      rw [sub32_second _ _ _ hrem hlen]
      have := ih (done ++ [(pre.length - removed, lastIx (pre.length + r.length - (if hit = true then removed + r.length else removed)) 0)]) (pre ++ r)
        (if hit = true then removed + r.length else removed)
        (if hit = true then rt ++ List.range' pre.length (lastIx pre.length r.length + 1 - pre.length) else rt)
        (if hit = true then rr ++ [done.length] else rr) (by rw [List.length_append]; exact hrem) (by simp at h2 ⊢; omega)
        (by
          intro i r' hi
          have := hans (i + 1) r' (by simpa using hi)
          rw [List.length_append, List.length_singleton]
          rwa [Nat.add_assoc, Nat.add_comm 1 i])
        (by
          rw [List.length_append, List.length_singleton, Nat.add_assoc, Nat.add_comm 1]
          simpa using hx)
      simp only [List.length_append, List.length_singleton] at this ⊢
      rw [this]
      cases hit with
      | true =>
        have e1 : pre.length + r.length - (removed + r.length) = pre.length - removed := by omega
        simp [rowWidths, hp, spans, entry, e1, Nat.add_assoc]
      | false =>
        have e1 : pre.length + r.length - removed = pre.length - removed + r.length := by omega
        have e2 : lastIx (pre.length - removed + r.length) 0 = lastIx (pre.length - removed) r.length := lastIx_zero _ _
        simp [rowWidths, hp, spans, entry, e1, e2, Nat.add_assoc]

theorem hitsFrom_some (q : T → Option Bool) (first : Nat) : ∀ (ts : List T) (j : Nat), (∀ t ∈ ts, q t ≠ none) →
    ∃ hits, hitsFrom q first j ts = some hits ∧ hits.length + (ts.filter fun t => q t != some true).length = ts.length := by
  intro ts
  induction ts with
  | nil => intro j _; exact ⟨[], rfl, rfl⟩
  | cons t ts ih =>
    intro j h
    obtain ⟨hits, h1, h2⟩ := ih (j + 1) fun t' ht => h t' (by simp [ht])
    have ht := h t (by simp)
    cases hq : q t with
    | none => exact absurd hq ht
    | some b => cases b with
      | true => exact ⟨(first + j) :: hits, by simp [hitsFrom, hq, h1], by simp [hq]; omega⟩
      | false => exact ⟨hits, by simp [hitsFrom, hq, h1], by simp [hq]; omega⟩

theorem hitsFrom_none (q : T → Option Bool) (first : Nat) : ∀ (ts : List T) (j : Nat), (∃ t ∈ ts, q t = none) → hitsFrom q first j ts = none := by
  intro ts
  induction ts with
  | nil => rintro j ⟨t, ht, _⟩; simp at ht
  | cons t ts ih =>
    rintro j ⟨u, hu, hq⟩
    unfold hitsFrom
    rcases List.mem_cons.mp hu with rfl | hu
    · simp [hq]
    · rw [ih (j + 1) ⟨u, hu, hq⟩]
      cases q t <;> rfl

theorem tokenLoop_thrown (q : T → Option Bool) (x : List T) (hx : ∃ t ∈ x, q t = none) (post : List (List T)) (m : Nat) : ∀ (mid : List (List T)) (done : List (Nat × Nat)) (pre : List T)
    (removed : Nat) (rt rr : List Nat), removed ≤ pre.length → pre.length + (mid ++ x :: post).flatten.length < 2 ^ 32 →
    (∀ r ∈ mid, ∀ t ∈ r, q t ≠ none) →
    removeTokenIfLoop q (pre ++ (mid ++ x :: post).flatten) (mid.length + (m + 1)) done.length (done ++ idx pre.length (mid ++ x :: post)) removed rt rr =
      ok (.thrown (done ++ (spans (pre.length - removed) (tokenWidths q mid)).map entry ++ idx (pre.length + mid.flatten.length) (x :: post))) := by
  intro mid
  induction mid with
  | nil =>
    intro done pre removed rt rr h1 h2 hans
    have hrow : rowOf (pre ++ ([] ++ x :: post).flatten) (pre.length, lastIx pre.length x.length) = ok x := by
      have := rowOf_idx pre post.flatten x (by simp at h2; omega)
      simpa using this
    simp only [List.length_nil, Nat.zero_add, Nat.add_zero] at hx ⊢
    unfold removeTokenIfLoop
    simp only [List.nil_append, idx] at hrow ⊢
    rw [deref_append_cons, ok_bind, hrow, ok_bind, hitsFrom_none q _ _ _ hx]
    simp [tokenWidths, spans]
  | cons r mid ih =>
    intro done pre removed rt rr h1 h2 hans
    have hlen : pre.length + r.length < 2 ^ 32 := by simp at h2; omega
    have hrow : rowOf (pre ++ (r :: mid ++ x :: post).flatten) (pre.length, lastIx pre.length r.length) = ok r := by
      have := rowOf_idx pre (mid ++ x :: post).flatten r hlen
      simpa using this
    obtain ⟨hits, hh, hlh⟩ := hitsFrom_some q pre.length r 0 (hans r (by simp))
    have hn : (r :: mid).length + (m + 1) = (mid.length + (m + 1)) + 1 := by simp; omega
    rw [hn]
    unfold removeTokenIfLoop
    have hix : idx pre.length (r :: mid ++ x :: post) = (pre.length, lastIx pre.length r.length) :: idx (pre.length + r.length) (mid ++ x :: post) := rfl
    rw [hix, deref_append_cons, ok_bind, hrow, ok_bind, hh]
    simp only
    rw [store_eq_ok _ (by simp), ok_bind]
    have hset : ∀ q, (done ++ (pre.length, lastIx pre.length r.length) :: idx (pre.length + r.length) (mid ++ x :: post)).set
        done.length q = (done ++ [q]) ++ idx (pre ++ r).length (mid ++ x :: post) := by
      intro q; simp
    have htok : pre ++ (r :: mid ++ x :: post).flatten = (pre ++ r) ++ (mid ++ x :: post).flatten := by simp
    rw [hset, sub32_le _ _ h1 (by omega), htok, sub32_second _ _ _ (by omega) hlen]
    have := ih (done ++ [(pre.length - removed, lastIx (pre.length + r.length - (removed + hits.length)) 0)]) (pre ++ r)
      (removed + hits.length) (rt ++ hits)
      (if tokenCount (pre.length - removed, lastIx (pre.length + r.length - (removed + hits.length)) 0) = 0 then rr ++ [done.length] else rr)
      (by rw [List.length_append]; omega) (by simp at h2 ⊢; omega) (fun r' hr => hans r' (by simp [hr]))
    simp only [List.length_append, List.length_singleton] at this ⊢
    rw [this]
    have e1 : pre.length + r.length - (removed + hits.length) = pre.length - removed + (r.filter fun t => q t != some true).length := by omega
    have e2 : lastIx (pre.length - removed + (r.filter fun t => q t != some true).length) 0 =
      lastIx (pre.length - removed) (r.filter fun t => q t != some true).length := lastIx_zero _ _
    rw [e1, e2]
    simp [tokenWidths, spans, entry, Nat.add_assoc]

/-! ## What the grid shows afterwards -/

theorem sum_rowWidths (p : Nat → List T → Option Bool) (rows : List (List T)) : ∀ i, (rowWidths p i rows).sum ≤ rows.flatten.length := by
  induction rows with
  | nil => intro i; simp [rowWidths]
  | cons r rs ih =>
    intro i
    have := ih (i + 1)
    simp only [rowWidths, List.sum_cons, List.flatten_cons, List.length_append]
    split <;> omega

theorem sum_tokenWidths (q : T → Option Bool) (rows : List (List T)) : (tokenWidths q rows).sum ≤ rows.flatten.length := by
  induction rows with
  | nil => simp [tokenWidths]
  | cons r rs ih =>
    have := List.length_filter_le (fun t => q t != some true) r
    simp only [tokenWidths, List.map_cons, List.sum_cons, List.flatten_cons, List.length_append] at ih ⊢
    omega

theorem shows_thrown (pre mid post : List (List T)) (ws : List Nat) (hs : (pre ++ mid ++ post).flatten.length < 2 ^ 32) (hw : ws.sum ≤ mid.flatten.length) (mn mx : Nat) :
    Shows ⟨⟨(pre ++ mid ++ post).flatten, idx 0 pre ++ (spans pre.flatten.length ws).map entry ++ idx (pre.flatten.length + mid.flatten.length) post⟩, mn, mx⟩
      (pre ++ pieces ws (mid ++ post).flatten ++ post) := by
  have hsum : ∀ rows : List (List T), (rows.map List.length).sum = rows.flatten.length := by intro rows; simp
  have h := shows_cut (pre ++ mid ++ post).flatten
    (spans 0 (pre.map List.length) ++ spans pre.flatten.length ws ++ spans (pre.flatten.length + mid.flatten.length) (post.map List.length)) (by
      intro e he
      simp only [List.mem_append, or_assoc] at he
      simp only [List.flatten_append, List.length_append]
      rcases he with he | he | he
      · exact spans_bound _ _ _ (by rw [hsum]; omega) e he
      · exact spans_bound _ _ _ (by omega) e he
      · exact spans_bound _ _ _ (by rw [hsum]) e he) hs mn mx
  rw [idx_spans, idx_spans, ← List.map_append, ← List.map_append]
  have e1 : (spans 0 (pre.map List.length)).map (cut (pre ++ mid ++ post).flatten) = pre := by
    rw [← pieces_spans, List.drop_zero]
    have := pieces_rows pre (mid ++ post).flatten
    simpa using this
  have e2 : (spans pre.flatten.length ws).map (cut (pre ++ mid ++ post).flatten) = pieces ws (mid ++ post).flatten := by
    rw [← pieces_spans]
    congr 1
    simp
  have e3 : (spans (pre.flatten.length + mid.flatten.length) (post.map List.length)).map (cut (pre ++ mid ++ post).flatten) = post := by
    rw [← pieces_spans]
    have := pieces_rows post []
    rw [List.append_nil] at this
    rw [show (pre ++ mid ++ post).flatten.drop (pre.flatten.length + mid.flatten.length) = post.flatten by
      rw [List.flatten_append, List.flatten_append, ← List.length_append, List.drop_left]]
    exact this
  simp only [List.map_append, e1, e2, e3] at h ⊢
  exact h

/-- **C169**: `remove_row_if` whose predicate throws at the row `x`: all tokens and all rows are still there; the rows outside the ones already looked at are as they were;
those already looked at show consecutive pieces of the old sequence of tokens, the rows to be removed being empty.  Every access to the grid stays defined. -/
theorem C169_remove_row_if (g : Grid T) (pre mid : List (List T)) (x : List T) (post : List (List T)) (h : Rep g (pre ++ mid ++ x :: post)) (b : Nat)
    (hb1 : pre.length + mid.length < b) (hb2 : b ≤ (pre ++ mid ++ x :: post).length) (p : Nat → List T → Option Bool)
    (hans : ∀ i r, mid[i]? = some r → p (pre.length + i) r ≠ none) (hx : p (pre.length + mid.length) x = none) :
    ∃ g', removeRowIf g pre.length b p = ok (none, g') ∧
      Shows g' (pre ++ pieces (rowWidths p pre.length mid) (mid ++ x :: post).flatten ++ x :: post) := by
  have hv : ¬ g.rangeInvalid pre.length b = true := fun hh => (h.rangeInvalid _ _).mp hh ⟨by omega, hb2⟩
  have hs := h.small
  have hloop := rowLoop_thrown p x post (b - pre.length - mid.length - 1) mid (idx 0 pre) pre.flatten 0 [] [] (Nat.zero_le _)
    (by simp only [List.append_assoc, List.flatten_append, List.length_append] at hs ⊢; omega) (by rw [idx_length]; exact hans) (by rw [idx_length]; exact hx)
  have htok : pre.flatten ++ (mid ++ x :: post).flatten = g.store.tokens := by rw [h.tokens]; simp
  have hix : idx 0 pre ++ idx pre.flatten.length (mid ++ x :: post) = g.store.index := by rw [h.index, List.append_assoc, idx_append pre, Nat.zero_add]
  rw [htok, hix, idx_length, show mid.length + (b - pre.length - mid.length - 1 + 1) = b - pre.length by omega, Nat.sub_zero] at hloop
  unfold removeRowIf
  rw [if_neg hv, hloop, ok_bind]
  refine ⟨_, rfl, ?_⟩
  rw [h.tokens]
  exact shows_thrown pre mid (x :: post) _ hs (sum_rowWidths p mid _) _ _

/-- **C169**: `remove_token_if` whose predicate throws at a token of the row `x`: likewise; the rows already looked at have lost as many tokens as were to be removed, but at
their ends. -/
theorem C169_remove_token_if (g : Grid T) (pre mid : List (List T)) (x : List T) (post : List (List T)) (h : Rep g (pre ++ mid ++ x :: post)) (b : Nat)
    (hb1 : pre.length + mid.length < b) (hb2 : b ≤ (pre ++ mid ++ x :: post).length) (q : T → Option Bool)
    (hans : ∀ r ∈ mid, ∀ t ∈ r, q t ≠ none) (hx : ∃ t ∈ x, q t = none) :
    ∃ g', removeTokenIf g pre.length b q = ok (none, g') ∧
      Shows g' (pre ++ pieces (tokenWidths q mid) (mid ++ x :: post).flatten ++ x :: post) := by
  have hv : ¬ g.rangeInvalid pre.length b = true := fun hh => (h.rangeInvalid _ _).mp hh ⟨by omega, hb2⟩
  have hs := h.small
  have hloop := tokenLoop_thrown q x hx post (b - pre.length - mid.length - 1) mid (idx 0 pre) pre.flatten 0 [] [] (Nat.zero_le _)
    (by simp only [List.append_assoc, List.flatten_append, List.length_append] at hs ⊢; omega) hans
  have htok : pre.flatten ++ (mid ++ x :: post).flatten = g.store.tokens := by rw [h.tokens]; simp
  have hix : idx 0 pre ++ idx pre.flatten.length (mid ++ x :: post) = g.store.index := by rw [h.index, List.append_assoc, idx_append pre, Nat.zero_add]
  rw [htok, hix, idx_length, show mid.length + (b - pre.length - mid.length - 1 + 1) = b - pre.length by omega, Nat.sub_zero] at hloop
  unfold removeTokenIf
  rw [if_neg hv, hloop, ok_bind]
  refine ⟨_, rfl, ?_⟩
  rw [h.tokens]
  exact shows_thrown pre mid (x :: post) _ hs (sum_tokenWidths q mid) _ _

/-- **C169**: if nothing was to be removed before the exception, the grid is as it was. -/
theorem C169_remove_row_if_early (g : Grid T) (pre mid : List (List T)) (x : List T) (post : List (List T)) (h : Rep g (pre ++ mid ++ x :: post)) (b : Nat)
    (hb1 : pre.length + mid.length < b) (hb2 : b ≤ (pre ++ mid ++ x :: post).length) (p : Nat → List T → Option Bool)
    (hans : ∀ i r, mid[i]? = some r → p (pre.length + i) r = some false) (hx : p (pre.length + mid.length) x = none) :
    ∃ g', removeRowIf g pre.length b p = ok (none, g') ∧ Shows g' (pre ++ mid ++ x :: post) := by
  obtain ⟨g', h1, h2⟩ := C169_remove_row_if g pre mid x post h b hb1 hb2 p (fun i r hi => by rw [hans i r hi]; simp) hx
  refine ⟨g', h1, ?_⟩
  have key : ∀ (mid : List (List T)) (k : Nat), (∀ i r, mid[i]? = some r → p (k + i) r = some false) → rowWidths p k mid = mid.map List.length := by
    intro mid
    induction mid with
    | nil => intro k _; rfl
    | cons r mid ih =>
      intro k hk
      have h0 := hk 0 r rfl
      rw [Nat.add_zero] at h0
      rw [rowWidths, h0, ih (k + 1) (fun i r' hi => by rw [Nat.add_assoc, Nat.add_comm 1]; exact hk (i + 1) r' (by simpa using hi))]
      simp
  rw [key mid pre.length hans, List.flatten_append, pieces_rows] at h2
  exact h2

theorem removeRowIfLoop_returns (p : Nat → List T → Bool) (tokens : List T) : ∀ (n i : Nat) (ix : List (Nat × Nat)) (removed : Nat) (rt rr : List Nat),
    removeRowIfLoop (fun i r => some (p i r)) tokens n i ix removed rt rr =
      (do let r ← Grid.removeRowIfLoop p tokens n i ix removed rt rr; ok (.all r.1 r.2.1 r.2.2.1 r.2.2.2)) := by
  intro n
  induction n with
  | zero => intros; rfl
  | succ n ih =>
    intro i ix removed rt rr
    unfold removeRowIfLoop Grid.removeRowIfLoop
    cases deref ix i with
    | ok r =>
      simp only [ok_bind]
      cases rowOf tokens r with
      | ok row =>
        simp only [ok_bind]
        cases store ix i (sub32 r.1 removed, sub32 r.2 (if p i row = true then removed + row.length else removed)) with
        | ok ix => simp only [ok_bind]; exact ih ..
        | _ => rfl
      | _ => rfl
    | _ => rfl

/-- **C169**: a predicate that does not throw: as `remove_row_if` is known. -/
theorem C169_remove_row_if_returns (g : Grid T) (a b : Nat) (p : Nat → List T → Bool) :
    removeRowIf g a b (fun i r => some (p i r)) = (do let r ← g.removeRowIf a b p; ok (some r.1, r.2)) := by
  unfold removeRowIf Grid.removeRowIf
  split
  · rfl
  · rw [removeRowIfLoop_returns]
    cases Grid.removeRowIfLoop p g.store.tokens (b - a) a g.store.index 0 [] [] with
    | ok r =>
      simp only [ok_bind]
      cases removeCollected g.store.tokens (shiftFrom r.1 b r.2.1) r.2.2.1 r.2.2.2 with
      | ok st => rfl
      | _ => rfl
    | _ => rfl

theorem hitsFrom_returns (q : T → Bool) (first : Nat) : ∀ (ts : List T) (j : Nat), hitsFrom (fun t => some (q t)) first j ts = some (Grid.hitsFrom q first j ts) := by
  intro ts
  induction ts with
  | nil => intro j; rfl
  | cons t ts ih => intro j; simp [hitsFrom, Grid.hitsFrom, ih]

theorem removeTokenIfLoop_returns (q : T → Bool) (tokens : List T) : ∀ (n i : Nat) (ix : List (Nat × Nat)) (removed : Nat) (rt rr : List Nat),
    removeTokenIfLoop (fun t => some (q t)) tokens n i ix removed rt rr =
      (do let r ← Grid.removeTokenIfLoop q tokens n i ix removed rt rr; ok (.all r.1 r.2.1 r.2.2.1 r.2.2.2)) := by
  intro n
  induction n with
  | zero => intros; rfl
  | succ n ih =>
    intro i ix removed rt rr
    unfold removeTokenIfLoop Grid.removeTokenIfLoop
    cases deref ix i with
    | ok r =>
      simp only [ok_bind]
      cases rowOf tokens r with
      | ok row =>
        simp only [ok_bind, hitsFrom_returns]
        cases store ix i (sub32 r.1 removed, sub32 r.2 (removed + (Grid.hitsFrom q r.1 0 row).length)) with
        | ok ix => simp only [ok_bind]; exact ih ..
        | _ => rfl
      | _ => rfl
    | _ => rfl

/-- **C169**: a predicate that does not throw: as `remove_token_if` is known. -/
theorem C169_remove_token_if_returns (g : Grid T) (a b : Nat) (q : T → Bool) :
    removeTokenIf g a b (fun t => some (q t)) = (do let r ← g.removeTokenIf a b q; ok (some r.1, r.2)) := by
  unfold removeTokenIf Grid.removeTokenIf
  split
  · rfl
  · rw [removeTokenIfLoop_returns]
    cases Grid.removeTokenIfLoop q g.store.tokens (b - a) a g.store.index 0 [] [] with
    | ok r =>
      simp only [ok_bind]
      cases removeCollected g.store.tokens (shiftFrom r.1 b r.2.1) r.2.2.1 r.2.2.2 with
      | ok st =>
        simp only [ok_bind]
        split <;> rfl
      | _ => rfl
    | _ => rfl

/-! ## What goes wrong -/

/-- Three rows of two tokens each. -/
def three : Grid Char := ⟨⟨"abcdef".toList, [(0, 1), (2, 3), (4, 5)]⟩, 2, 2⟩

theorem three_rep : Rep three ["ab".toList, "cd".toList, "ef".toList] := by
  constructor <;> decide

/-- **C169** (negative result): the first row is to be removed, the second is to stay, at the third the predicate throws.  The first row is then empty and the second shows the
tokens of the first. -/
theorem C169_remove_row_if_wrong : ∃ g', removeRowIf three 0 3 (fun i _ => if i = 2 then none else some (i == 0)) = ok (none, g') ∧
    Shows g' [[], "ab".toList, "ef".toList] := by
  obtain ⟨g', h1, h2⟩ := C169_remove_row_if three [] ["ab".toList, "cd".toList] "ef".toList [] three_rep 3 (by decide) (by decide)
    (fun i _ => if i = 2 then none else some (i == 0))
    (by
      intro i r hi
      have : i < 2 := (List.getElem?_eq_some_iff.mp hi).1
      simp; omega) (by decide)
  exact ⟨g', h1, h2⟩

/-- **C169** (negative result): the token `a` is to be removed, the predicate throws at `f`.  The first row has lost its last token instead of its first, and the second shows a token of
the first. -/
theorem C169_remove_token_if_wrong : ∃ g', removeTokenIf three 0 3 (fun c => if c = 'f' then none else some (c == 'a')) = ok (none, g') ∧
    Shows g' ["a".toList, "bc".toList, "ef".toList] := by
  obtain ⟨g', h1, h2⟩ := C169_remove_token_if three [] ["ab".toList, "cd".toList] "ef".toList [] three_rep 3 (by decide) (by decide)
    (fun c => if c = 'f' then none else some (c == 'a')) (by decide) (by decide)
  exact ⟨g', h1, h2⟩

/-! ## Concrete cases -/

/-- The grid with the rows 1 2, 3, 4 5, 6 and 7. -/
def sampleGrid : Grid Nat := ⟨⟨[1, 2, 3, 4, 5, 6, 7], [(0, 1), (2, 2), (3, 4), (5, 5), (6, 6)]⟩, 1, 2⟩

theorem sampleGrid_rep : Rep sampleGrid ([[1, 2]] ++ [[3], [4, 5]] ++ [6] :: [[7]]) := ⟨rfl, by decide, by decide, by decide, by decide⟩

/-- The row 3 is removed, then the row 6 throws: row 1 is empty and row 2 begins where the row 3 was. -/
example : ∃ g', removeRowIf sampleGrid 1 5 (fun _ r => if r = [6] then none else some (r == [3])) = ok (none, g') ∧ Shows g' [[1, 2], [], [3, 4], [6], [7]] :=
  C169_remove_row_if sampleGrid [[1, 2]] [[3], [4, 5]] [6] [[7]] sampleGrid_rep 5 (by decide) (by decide)
    (fun _ r => if r = [6] then none else some (r == [3])) (by
      intro i r h
      have hr : r ∈ [[3], [4, 5]] := List.mem_of_getElem? h
      have : r = [3] ∨ r = [4, 5] := by simpa using hr
      rcases this with rfl | rfl <;> decide) (by decide)

example : ∃ g', removeTokenIf sampleGrid 1 5 (fun t => if t = 6 then none else some (t == 4)) = ok (none, g') ∧ Shows g' [[1, 2], [3], [4], [6], [7]] :=
  C169_remove_token_if sampleGrid [[1, 2]] [[3], [4, 5]] [6] [[7]] sampleGrid_rep 5 (by decide) (by decide)
    (fun t => if t = 6 then none else some (t == 4)) (by decide) (by decide)

example : ∃ g', removeRowIf sampleGrid 1 5 (fun _ r => if r = [6] then none else some false) = ok (none, g') ∧ Shows g' [[1, 2], [3], [4, 5], [6], [7]] :=
  C169_remove_row_if_early sampleGrid [[1, 2]] [[3], [4, 5]] [6] [[7]] sampleGrid_rep 5 (by decide) (by decide)
    (fun _ r => if r = [6] then none else some false) (by
      intro i r h
      have hr : r ∈ [[3], [4, 5]] := List.mem_of_getElem? h
      have : r = [3] ∨ r = [4, 5] := by simpa using hr
      rcases this with rfl | rfl <;> decide) (by decide)

end Strtk.Throwing
