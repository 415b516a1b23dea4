import Verif.Grid.Lemmas
import Mathlib.Data.List.Forall2

/-! # Removing rows and tokens from a grid (C61, C62, C63) -/

namespace Strtk.Grid
open Outcome

variable {T : Type}

/-! ## What a grid shows -/

/-- The grid has exactly these rows, seen through `row_count()` and `token(row,col)`. -/
def Shows (g : Grid T) (rows : List (List T)) : Prop :=
  g.rowCount = rows.length ∧ ∀ row col, g.token row col = ok (rows[row]?.bind fun r => r[col]?)

/-- The representation invariant behind it. -/
structure Rep (g : Grid T) (rows : List (List T)) : Prop where
  tokens : g.store.tokens = rows.flatten
  index : g.store.index = idx 0 rows
  nonempty : ∀ r ∈ rows, r ≠ []
  small : rows.flatten.length < 2 ^ 32
  width : ∀ r ∈ rows, r.length ≤ g.maxCol

theorem mem_length_le (rows : List (List T)) (r : List T) (h : r ∈ rows) : r.length ≤ rows.flatten.length := by
  obtain ⟨s, t, rfl⟩ := List.append_of_mem h
  simp only [List.flatten_append, List.flatten_cons, List.length_append]
  omega

theorem exists_split {α : Type} (l : List α) (i : Nat) (h : i < l.length) : ∃ pre x post, l = pre ++ x :: post ∧ pre.length = i ∧ l[i]? = some x :=
  ⟨l.take i, l[i], l.drop (i + 1), by simp, by simp; omega, by simp [h]⟩

theorem Rep.rowCount {g : Grid T} {rows : List (List T)} (h : Rep g rows) : g.store.index.length = rows.length := by
  rw [h.index, idx_length]

/-- Reading a token of a row. -/
theorem Rep.deref_token {g : Grid T} {pre post : List (List T)} {row : List T} (h : Rep g (pre ++ row :: post)) (col : Nat) (hc : col < row.length) :
    deref g.store.tokens (pre.flatten.length + col) = ok row[col] := by
  rw [h.tokens]
  simp only [deref, List.flatten_append, List.flatten_cons]
  rw [List.getElem?_append_right (by omega), List.getElem?_append_left (by omega), Nat.add_sub_cancel_left, List.getElem?_eq_getElem hc]

theorem Rep.small_split {g : Grid T} {pre post : List (List T)} {row : List T} (h : Rep g (pre ++ row :: post)) :
    pre.flatten.length + row.length < 2 ^ 32 := by
  have := h.small
  simp only [List.flatten_append, List.flatten_cons, List.length_append] at this
  omega

theorem Rep.deref_index {g : Grid T} {pre post : List (List T)} {row : List T} (h : Rep g (pre ++ row :: post)) :
    deref g.store.index pre.length = ok (pre.flatten.length, lastIx pre.flatten.length row.length) := by
  rw [h.index]
  have := idx_getElem pre row post 0
  simpa using this

theorem Rep.shows {g : Grid T} {rows : List (List T)} (h : Rep g rows) : Shows g rows := by
  refine ⟨h.rowCount, ?_⟩
  intro row col
  unfold Grid.token
  rw [h.rowCount]
  by_cases hr : row < rows.length
  · obtain ⟨pre, x, post, rfl, rfl, hx⟩ := exists_split rows row hr
    rw [if_pos hr, h.deref_index, ok_bind, tokenCount_idx _ _ h.small_split, hx]
    by_cases hc : col < x.length
    · rw [if_pos hc, h.deref_token col hc, ok_bind]
      simp [hc]
    · rw [if_neg hc]
      simp [Nat.le_of_not_lt hc]
  · rw [if_neg hr]
    simp [Nat.le_of_not_lt hr]

/-! ## remove_row -/

theorem Rep.removeRow {g : Grid T} {rows : List (List T)} (h : Rep g rows) (i : Nat) :
    ∃ g', g.removeRow i = ok g' ∧ Rep g' (rows.eraseIdx i) ∧ g'.minCol = g.minCol ∧ g'.maxCol = g.maxCol := by
  unfold Grid.removeRow
  rw [h.rowCount]
  by_cases hr : i < rows.length
  · obtain ⟨pre, x, post, rfl, rfl, hx⟩ := exists_split rows i hr
    rw [if_pos hr]
    unfold Store.removeRow
    rw [h.rowCount, if_neg (by omega), h.deref_index, ok_bind, tokenCount_idx _ _ h.small_split]
    have hs := h.small_split
    have hs2 := h.small
    have he : erase g.store.tokens pre.flatten.length (pre.flatten.length + x.length) = ok (pre ++ post).flatten := by
      unfold erase
      rw [h.tokens, if_pos (by simp)]
      congr 1
      rw [← List.length_append]
      simp only [List.flatten_append, List.flatten_cons]
      rw [List.take_left, ← List.append_assoc, List.drop_left]
    simp only [he, ok_bind]
    have hix : g.store.index.eraseIdx pre.length = idx 0 pre ++ idx (pre.flatten.length + x.length) post := by
      rw [h.index, idx_append, List.eraseIdx_append_of_length_le (by rw [idx_length]; omega), idx_length, Nat.sub_self]
      simp [idx]
    have herase : (pre ++ x :: post).eraseIdx pre.length = pre ++ post := by
      rw [List.eraseIdx_append_of_length_le (by omega)]
      simp
    refine ⟨_, rfl, ?_, rfl, rfl⟩
    rw [herase]
    have hlen : pre.length = (idx 0 pre).length := (idx_length pre 0).symm
    simp only [List.flatten_append, List.flatten_cons, List.length_append] at hs2
    constructor
    · rfl
    · simp only
      rw [hix, List.take_left' hlen.symm, List.drop_left' hlen.symm, idx_shift _ _ _ (by omega) (by omega), idx_append]
      congr 2
      omega
    · intro r hr
      exact h.nonempty r (by simp only [List.mem_append, List.mem_cons] at hr ⊢; rcases hr with hr | hr <;> simp [hr])
    · simp only [List.flatten_append, List.length_append]; omega
    · intro r hr
      exact h.width r (by simp only [List.mem_append, List.mem_cons] at hr ⊢; rcases hr with hr | hr <;> simp [hr])
  · rw [if_neg hr, List.eraseIdx_of_length_le (by omega)]
    exact ⟨g, rfl, h, rfl, rfl⟩

/-! ## The collecting loops -/

/-- `zipWith keep` for masks of the rows. -/
abbrev zap (ms : List (List Bool)) (rows : List (List T)) : List (List T) := List.zipWith keep ms rows

/-- Masks that fit the rows. -/
abbrev Fits (ms : List (List Bool)) (rows : List (List T)) : Prop := List.Forall₂ (fun m r => m.length = r.length) ms rows

theorem Fits.length_flatten {ms : List (List Bool)} {rows : List (List T)} (h : Fits ms rows) : ms.flatten.length = rows.flatten.length := by
  induction h with
  | nil => rfl
  | cons h _ ih => simp [h, ih]

theorem Fits.keep_flatten {ms : List (List Bool)} {rows : List (List T)} (h : Fits ms rows) : keep ms.flatten rows.flatten = (zap ms rows).flatten := by
  induction h with
  | nil => rfl
  | cons h _ ih => simp only [List.flatten_cons, zap, List.zipWith_cons_cons]; rw [keep_append _ _ _ _ h, ih]

theorem flatten_filter_nonempty {α : Type} (rows : List (List α)) : (rows.filter fun r => !r.isEmpty).flatten = rows.flatten := by
  induction rows with
  | nil => rfl
  | cons r rs ih => cases r <;> simp [ih]

/-- The masks of `remove_row_if`. -/
def rowMasks (p : Nat → List T → Bool) : Nat → List (List T) → List (List Bool)
  | _, [] => []
  | i, r :: rs => List.replicate r.length (p i r) :: rowMasks p (i + 1) rs

theorem fits_rowMasks (p : Nat → List T → Bool) (rows : List (List T)) : ∀ i, Fits (rowMasks p i rows) rows := by
  induction rows with
  | nil => intro i; exact .nil
  | cons r rs ih => intro i; exact .cons (by simp) (ih _)

theorem removeRowIfLoop_spec (p : Nat → List T → Bool) (post : List (List T)) : ∀ (mid : List (List T)) (done : List (Nat × Nat)) (pre tail : List T)
    (removed : Nat) (rt rr : List Nat), removed ≤ pre.length → pre.length + mid.flatten.length < 2 ^ 32 → (∀ r ∈ mid, r ≠ []) →
    removeRowIfLoop p (pre ++ mid.flatten ++ tail) mid.length done.length (done ++ idx pre.length (mid ++ post)) removed rt rr =
      ok (done ++ idx (pre.length - removed) (zap (rowMasks p done.length mid) mid) ++ idx (pre.length + mid.flatten.length) post,
        removed + (rowMasks p done.length mid).flatten.count true, rt ++ pos pre.length (rowMasks p done.length mid).flatten,
        rr ++ pos done.length ((zap (rowMasks p done.length mid) mid).map fun r => r.isEmpty)) := by
  intro mid
  induction mid with
  | nil => intro done pre tail removed rt rr _ _ _; simp [removeRowIfLoop, rowMasks, pos, idx]
  | cons r mid ih =>
    intro done pre tail removed rt rr h1 h2 h3
    simp only [List.flatten_cons, List.length_append] at h2
    have hne : r ≠ [] := h3 r (by simp)
    have hr : 0 < r.length := List.length_pos_iff.mpr hne
    have hrow : rowOf (pre ++ (r ++ mid.flatten) ++ tail) (pre.length, lastIx pre.length r.length) = ok r := by
      have := rowOf_idx pre (mid.flatten ++ tail) r (by omega)
      simpa using this
    have hix : done ++ idx pre.length (r :: mid ++ post) = done ++ (pre.length, lastIx pre.length r.length) :: idx (pre.length + r.length) (mid ++ post) := rfl
    have hstep : removeRowIfLoop p (pre ++ (r :: mid).flatten ++ tail) (r :: mid).length done.length (done ++ idx pre.length (r :: mid ++ post)) removed rt rr =
        (store (done ++ (pre.length, lastIx pre.length r.length) :: idx (pre.length + r.length) (mid ++ post)) done.length
          (sub32 pre.length removed, sub32 (lastIx pre.length r.length) (if p done.length r then removed + r.length else removed)) >>= fun ix =>
          removeRowIfLoop p (pre ++ (r ++ mid.flatten) ++ tail) mid.length (done.length + 1) ix (if p done.length r then removed + r.length else removed)
            (if p done.length r then rt ++ List.range' pre.length (lastIx pre.length r.length + 1 - pre.length) else rt)
            (if p done.length r then rr ++ [done.length] else rr)) := by
      rw [hix, List.length_cons, List.flatten_cons]
      conv => lhs; unfold removeRowIfLoop
      simp only
      rw [deref_append_cons, ok_bind, hrow, ok_bind]
    rw [hstep, store_eq_ok _ (by simp), ok_bind]
    have hset : ∀ q, (done ++ (pre.length, lastIx pre.length r.length) :: idx (pre.length + r.length) (mid ++ post)).set
        done.length q = (done ++ [q]) ++ idx (pre ++ r).length (mid ++ post) := by
      intro q; simp
    rw [hset, sub32_le _ _ h1 (by omega)]
    have htok : pre ++ (r ++ mid.flatten) ++ tail = (pre ++ r) ++ mid.flatten ++ tail := by simp
    have hrange : lastIx pre.length r.length + 1 - pre.length = r.length := lastIx_pos _ _ hr (by omega)
    have hk : pre.length + r.length = (pre ++ r).length := by simp
    rw [htok, hrange]
    cases hp : p done.length r with
    | true =>
      simp only [if_true]
      rw [sub32_second _ _ _ (by omega) (by omega)]
      have := ih (done ++ [(pre.length - removed, lastIx (pre.length + r.length - (removed + r.length)) 0)]) (pre ++ r) tail
        (removed + r.length) (rt ++ List.range' pre.length r.length) (rr ++ [done.length]) (by rw [List.length_append]; omega) (by rw [List.length_append]; omega)
        (fun x hx => h3 x (by simp [hx]))
      simp only [List.length_append, List.length_cons, List.length_nil, Nat.zero_add] at this ⊢
      rw [this]
      have e1 : pre.length + r.length - (removed + r.length) = pre.length - removed := by omega
      simp only [rowMasks, hp, zap, List.zipWith_cons_cons, keep_true, idx, List.flatten_cons, pos_append, pos_true, List.length_replicate,
        List.count_append, List.count_replicate_self, List.map_cons, List.isEmpty_nil, pos, List.append_assoc, List.cons_append, List.nil_append,
        List.length_nil, Nat.add_zero, e1, Nat.add_assoc, List.length_append]
    | false =>
      simp only [Bool.false_eq_true, if_false]
      rw [sub32_second _ _ _ (by omega) (by omega)]
      have := ih (done ++ [(pre.length - removed, lastIx (pre.length + r.length - removed) 0)]) (pre ++ r) tail
        removed rt rr (by rw [List.length_append]; omega) (by rw [List.length_append]; omega)
        (fun x hx => h3 x (by simp [hx]))
      simp only [List.length_append, List.length_cons, List.length_nil, Nat.zero_add] at this ⊢
      rw [this]
      have e1 : pre.length - removed + r.length = pre.length + r.length - removed := by omega
      have e3 : lastIx (pre.length + r.length - removed) 0 = lastIx (pre.length - removed) r.length := by rw [← e1, lastIx_zero]
      have e2 : r.isEmpty = false := by cases r with | nil => exact absurd rfl hne | cons _ _ => rfl
      simp [rowMasks, hp, keep_false, idx, pos_append, pos_false, List.count_replicate, e1, e2, e3, pos, Nat.add_assoc]

theorem hitsFrom_eq (q : T → Bool) (first : Nat) : ∀ (ts : List T) (j : Nat), hitsFrom q first j ts = pos (first + j) (ts.map q) := by
  intro ts
  induction ts with
  | nil => intro j; rfl
  | cons t ts ih => intro j; cases h : q t <;> simp [hitsFrom, pos, h, ih, Nat.add_assoc]

theorem fits_map (q : T → Bool) (rows : List (List T)) : Fits (rows.map fun r => r.map q) rows := by
  induction rows with
  | nil => exact .nil
  | cons r rs ih => exact .cons (by simp) ih

theorem removeTokenIfLoop_spec (q : T → Bool) (post : List (List T)) : ∀ (mid : List (List T)) (done : List (Nat × Nat)) (pre tail : List T)
    (removed : Nat) (rt rr : List Nat), removed ≤ pre.length → pre.length + mid.flatten.length < 2 ^ 32 →
    removeTokenIfLoop q (pre ++ mid.flatten ++ tail) mid.length done.length (done ++ idx pre.length (mid ++ post)) removed rt rr =
      ok (done ++ idx (pre.length - removed) (zap (mid.map fun r => r.map q) mid) ++ idx (pre.length + mid.flatten.length) post,
        removed + (mid.map fun r => r.map q).flatten.count true, rt ++ pos pre.length (mid.map fun r => r.map q).flatten,
        rr ++ pos done.length ((zap (mid.map fun r => r.map q) mid).map fun r => r.isEmpty)) := by
  intro mid
  induction mid with
  | nil => intro done pre tail removed rt rr _ _; simp [removeTokenIfLoop, pos, idx]
  | cons r mid ih =>
    intro done pre tail removed rt rr h1 h2
    simp only [List.flatten_cons, List.length_append] at h2
    have hrow : rowOf (pre ++ (r ++ mid.flatten) ++ tail) (pre.length, lastIx pre.length r.length) = ok r := by
      have := rowOf_idx pre (mid.flatten ++ tail) r (by omega)
      simpa using this
    have hix : done ++ idx pre.length (r :: mid ++ post) = done ++ (pre.length, lastIx pre.length r.length) :: idx (pre.length + r.length) (mid ++ post) := rfl
    have hstep : removeTokenIfLoop q (pre ++ (r :: mid).flatten ++ tail) (r :: mid).length done.length (done ++ idx pre.length (r :: mid ++ post)) removed rt rr =
        (store (done ++ (pre.length, lastIx pre.length r.length) :: idx (pre.length + r.length) (mid ++ post)) done.length
          (sub32 pre.length removed, sub32 (lastIx pre.length r.length) (removed + (hitsFrom q pre.length 0 r).length)) >>= fun ix =>
          removeTokenIfLoop q (pre ++ (r ++ mid.flatten) ++ tail) mid.length (done.length + 1) ix (removed + (hitsFrom q pre.length 0 r).length)
            (rt ++ hitsFrom q pre.length 0 r)
            (if tokenCount (sub32 pre.length removed, sub32 (lastIx pre.length r.length) (removed + (hitsFrom q pre.length 0 r).length)) = 0
              then rr ++ [done.length] else rr)) := by
      rw [hix, List.length_cons, List.flatten_cons]
      conv => lhs; unfold removeTokenIfLoop
      simp only
      rw [deref_append_cons, ok_bind, hrow, ok_bind]
    rw [hstep, store_eq_ok _ (by simp), ok_bind]
    have hset : ∀ q, (done ++ (pre.length, lastIx pre.length r.length) :: idx (pre.length + r.length) (mid ++ post)).set
        done.length q = (done ++ [q]) ++ idx (pre ++ r).length (mid ++ post) := by
      intro q; simp
    rw [hset, sub32_le _ _ h1 (by omega), hitsFrom_eq, pos_length, Nat.add_zero pre.length]
    have htok : pre ++ (r ++ mid.flatten) ++ tail = (pre ++ r) ++ mid.flatten ++ tail := by simp
    rw [htok]
    have hcount : (keep (r.map q) r).length + (r.map q).count true = r.length := keep_length (r.map q) r (by simp)
    rw [sub32_second _ _ _ (by omega) (by omega)]
    have e1 : pre.length + r.length - (removed + (r.map q).count true) = pre.length - removed + (keep (r.map q) r).length := by omega
    rw [e1, lastIx_zero, tokenCount_idx _ _ (by omega)]
    have := ih (done ++ [(pre.length - removed, lastIx (pre.length - removed) (keep (r.map q) r).length)]) (pre ++ r) tail
      (removed + (r.map q).count true) (rt ++ pos pre.length (r.map q))
      (if (keep (r.map q) r).length = 0 then rr ++ [done.length] else rr) (by rw [List.length_append]; omega) (by rw [List.length_append]; omega)
    simp only [List.length_append, List.length_cons, List.length_nil, Nat.zero_add] at this ⊢
    rw [this]
    have e2 : pre.length + r.length - (removed + (r.map q).count true) = pre.length - removed + (keep (r.map q) r).length := by omega
    simp only [List.map_cons, zap, List.zipWith_cons_cons, idx, List.flatten_cons, List.count_append, pos_append, List.length_map, List.append_assoc,
      List.cons_append, List.nil_append, Nat.add_assoc, e2, List.length_append]
    congr 2
    congr 1
    congr 1
    cases hke : keep (r.map q) r with
    | nil => simp [pos]
    | cons t ts => simp [pos]

/-- The second half of both functions: shifting the later rows and removing what was collected. -/
theorem collect_spec (ms : List (List Bool)) (pre mid post : List (List T)) (hf : Fits ms mid)
    (hsmall : (pre ++ mid ++ post).flatten.length < 2 ^ 32) :
    removeCollected (pre ++ mid ++ post).flatten
      (shiftFrom (idx 0 pre ++ idx pre.flatten.length (zap ms mid) ++ idx (pre.flatten.length + mid.flatten.length) post) (pre.length + mid.length)
        (ms.flatten.count true))
      (pos pre.flatten.length ms.flatten) (pos pre.length ((zap ms mid).map fun r => r.isEmpty)) =
    ok ⟨(pre ++ ((zap ms mid).filter fun r => !r.isEmpty) ++ post).flatten, idx 0 (pre ++ ((zap ms mid).filter fun r => !r.isEmpty) ++ post)⟩ := by
  have hlenz : (zap ms mid).length = mid.length := by
    simp [zap, hf.length_eq]
  have hcnt : (zap ms mid).flatten.length + ms.flatten.count true = mid.flatten.length := by
    rw [← hf.keep_flatten]
    exact keep_length _ _ (Nat.le_of_eq hf.length_flatten)
  simp only [List.flatten_append, List.length_append] at hsmall
  have hshift : shiftFrom (idx 0 pre ++ idx pre.flatten.length (zap ms mid) ++ idx (pre.flatten.length + mid.flatten.length) post) (pre.length + mid.length)
      (ms.flatten.count true) = idx 0 pre ++ idx pre.flatten.length (zap ms mid) ++ idx (pre.flatten.length + (zap ms mid).flatten.length) post := by
    unfold shiftFrom
    have hl : (idx 0 pre ++ idx pre.flatten.length (zap ms mid)).length = pre.length + mid.length := by simp [idx_length, hlenz]
    rw [List.take_left' hl, List.drop_left' hl, idx_shift _ _ _ (by omega) (by omega)]
    congr 2
    omega
  rw [hshift]
  unfold removeCollected
  have hm1 : pos pre.length ((zap ms mid).map fun r => r.isEmpty) = pos 0 (List.replicate pre.length false ++ (zap ms mid).map fun r => r.isEmpty) := by
    rw [pos_append, pos_false]; simp
  have hm2 : pos pre.flatten.length ms.flatten = pos 0 (List.replicate pre.flatten.length false ++ ms.flatten) := by
    rw [pos_append, pos_false]; simp
  rw [hm1, hm2]
  have hi := removeIndexes_if (List.replicate pre.length false ++ (zap ms mid).map fun r => r.isEmpty)
    (idx 0 pre ++ idx pre.flatten.length (zap ms mid) ++ idx (pre.flatten.length + (zap ms mid).flatten.length) post) (by simp [idx_length])
  have ht := removeIndexes_if (List.replicate pre.flatten.length false ++ ms.flatten) (pre ++ mid ++ post).flatten (by
    have := hf.length_flatten
    simp only [List.length_append, List.length_replicate, List.flatten_append]; omega)
  have hi' : keep (List.replicate pre.length false ++ (zap ms mid).map fun r => r.isEmpty)
      (idx 0 pre ++ idx pre.flatten.length (zap ms mid) ++ idx (pre.flatten.length + (zap ms mid).flatten.length) post) =
      idx 0 (pre ++ ((zap ms mid).filter fun r => !r.isEmpty) ++ post) := by
    have e : List.replicate pre.length false ++ ((zap ms mid).map fun r => r.isEmpty) =
        List.replicate pre.length false ++ (((zap ms mid).map fun r => r.isEmpty) ++ []) := by simp
    rw [e, List.append_assoc, keep_append _ _ _ _ (by simp [idx_length]), keep_append _ _ _ _ (by simp [idx_length]), keep_idx, keep_false _ _ (by simp [idx_length]),
      List.append_assoc pre, idx_append, idx_append, flatten_filter_nonempty]
    simp [keep]
  have ht' : keep (List.replicate pre.flatten.length false ++ ms.flatten) (pre ++ mid ++ post).flatten =
      (pre ++ ((zap ms mid).filter fun r => !r.isEmpty) ++ post).flatten := by
    have e : List.replicate pre.flatten.length false ++ ms.flatten = List.replicate pre.flatten.length false ++ (ms.flatten ++ []) := by simp
    simp only [List.flatten_append, flatten_filter_nonempty]
    rw [e, List.append_assoc, keep_append _ _ _ _ (by simp), keep_append _ _ _ _ hf.length_flatten, hf.keep_flatten, keep_false _ _ (by simp)]
    simp [keep]
  rw [hi'] at hi
  rw [ht'] at ht
  have split_if : ∀ {A B : Type} (c : Prop) [Decidable c] (x y : Outcome A) (k : A → Outcome B),
      (if c then x >>= k else y >>= k) = ((if c then x else y) >>= k) := by
    intro A B c _ x y k; split <;> rfl
  simp only [bind_pure_comp] at *
  rw [split_if, hi, ok_bind, split_if, ht, ok_bind]

/-! ## What the functions do to the rows -/

/-- The rows that are left when the rows `a ≤ i < b` satisfying `p` are removed. -/
def dropRows (a b : Nat) (p : Nat → List T → Bool) (rows : List (List T)) : List (List T) :=
  (rows.zipIdx.filter fun e => !(decide (a ≤ e.2 ∧ e.2 < b) && p e.2 e.1)).map Prod.fst

/-- The rows that are left when the tokens satisfying `q` are removed from the rows `a ≤ i < b`, and rows of that range without tokens are dropped. -/
def dropTokens (a b : Nat) (q : T → Bool) (rows : List (List T)) : List (List T) :=
  rows.zipIdx.filterMap fun e =>
    if a ≤ e.2 ∧ e.2 < b then if (e.1.filter fun t => !q t) = [] then none else some (e.1.filter fun t => !q t) else some e.1

/-- A row range that the functions accept. -/
def ValidRange (rows : List (List T)) (a b : Nat) : Prop := a ≤ b ∧ b ≤ rows.length

instance (rows : List (List T)) (a b : Nat) : Decidable (ValidRange rows a b) := by unfold ValidRange; infer_instance

theorem Rep.rangeInvalid {g : Grid T} {rows : List (List T)} (h : Rep g rows) (a b : Nat) : g.rangeInvalid a b = true ↔ ¬ ValidRange rows a b := by
  unfold Grid.rangeInvalid ValidRange
  rw [h.rowCount]
  split
  · simp; omega
  · split
    · simp; omega
    · split
      · simp; omega
      · simp; omega

theorem split_range {α : Type} (l : List α) (a b : Nat) (h1 : a ≤ b) (h2 : b ≤ l.length) :
    ∃ pre mid post, l = pre ++ mid ++ post ∧ pre.length = a ∧ mid.length = b - a :=
  ⟨l.take a, (l.drop a).take (b - a), l.drop b, by
    rw [List.append_assoc]
    have : l.drop b = (l.drop a).drop (b - a) := by rw [List.drop_drop]; congr 1; omega
    rw [this, List.take_append_drop, List.take_append_drop], by simp; omega, by simp; omega⟩

theorem filter_zipIdx_out {α : Type} (f : α × Nat → Bool) : ∀ (l : List α) (k : Nat), (∀ x i, k ≤ i → i < k + l.length → f (x, i) = true) →
    ((l.zipIdx k).filter f).map Prod.fst = l := by
  intro l
  induction l with
  | nil => intro k _; rfl
  | cons x l ih =>
    intro k h
    rw [List.zipIdx_cons, List.filter_cons_of_pos (h x k (by omega) (by simp)), List.map_cons, ih (k + 1) (fun y i h1 h2 => h y i (by omega) (by simp; omega))]

theorem filterMap_zipIdx_out {α : Type} (f : α × Nat → Option α) : ∀ (l : List α) (k : Nat), (∀ x i, k ≤ i → i < k + l.length → f (x, i) = some x) →
    (l.zipIdx k).filterMap f = l := by
  intro l
  induction l with
  | nil => intro k _; rfl
  | cons x l ih =>
    intro k h
    rw [List.zipIdx_cons, List.filterMap_cons, h x k (by omega) (by simp)]
    simp only
    rw [ih (k + 1) (fun y i h1 h2 => h y i (by omega) (by simp; omega))]

theorem zap_rowMasks (p : Nat → List T → Bool) (lo hi : Nat) : ∀ (mid : List (List T)) (i : Nat), (∀ r ∈ mid, r ≠ []) → lo ≤ i → i + mid.length ≤ hi →
    ((zap (rowMasks p i mid) mid).filter fun r => !r.isEmpty) =
      ((mid.zipIdx i).filter fun e => !(decide (lo ≤ e.2 ∧ e.2 < hi) && p e.2 e.1)).map Prod.fst := by
  intro mid
  induction mid with
  | nil => intro i _ _ _; rfl
  | cons r mid ih =>
    intro i h1 h2 h3
    simp only [List.length_cons] at h3
    have hne := h1 r (by simp)
    have hd : decide (lo ≤ i ∧ i < hi) = true := by simp; omega
    have := ih (i + 1) (fun x hx => h1 x (by simp [hx])) (by omega) (by omega)
    simp only [zap] at this
    cases hp : p i r with
    | true => simp only [rowMasks, hp, zap, List.zipWith_cons_cons, keep_true, List.zipIdx_cons, List.filter_cons, hd, List.isEmpty_nil]; simpa using this
    | false =>
      have e2 : r.isEmpty = false := by cases r with | nil => exact absurd rfl hne | cons _ _ => rfl
      simp only [rowMasks, hp, zap, List.zipWith_cons_cons, keep_false _ _ (Nat.le_refl r.length), List.zipIdx_cons, List.filter_cons, hd, e2]
      simpa using this

theorem zap_map (q : T → Bool) (lo hi : Nat) : ∀ (mid : List (List T)) (i : Nat), lo ≤ i → i + mid.length ≤ hi →
    ((zap (mid.map fun r => r.map q) mid).filter fun r => !r.isEmpty) =
      (mid.zipIdx i).filterMap fun e =>
        if lo ≤ e.2 ∧ e.2 < hi then if (e.1.filter fun t => !q t) = [] then none else some (e.1.filter fun t => !q t) else some e.1 := by
  intro mid
  induction mid with
  | nil => intro i _ _; rfl
  | cons r mid ih =>
    intro i h2 h3
    simp only [List.length_cons] at h3
    have := ih (i + 1) (by omega) (by omega)
    simp only [zap] at this
    simp only [List.map_cons, zap, List.zipWith_cons_cons, keep_map_filter, List.zipIdx_cons, List.filterMap_cons]
    rw [if_pos ⟨h2, by omega⟩]
    cases hk : r.filter fun t => !q t with
    | nil => simpa using this
    | cons t ts => simpa using this

theorem Rep.removeRowIf {g : Grid T} {rows : List (List T)} (h : Rep g rows) (a b : Nat) (p : Nat → List T → Bool) :
    ∃ g', g.removeRowIf a b p = ok (decide (ValidRange rows a b), g') ∧ Rep g' (if ValidRange rows a b then dropRows a b p rows else rows) ∧
      g'.minCol = g.minCol ∧ g'.maxCol = g.maxCol := by
  unfold Grid.removeRowIf
  by_cases hv : ValidRange rows a b
  · have hv' : ¬ g.rangeInvalid a b = true := fun hh => (h.rangeInvalid a b).mp hh hv
    rw [if_neg hv']
    simp only [hv, if_true, decide_true]
    obtain ⟨pre, mid, post, rfl, rfl, hm⟩ := split_range rows a b hv.1 hv.2
    have hab := hv.1
    have hb : b = pre.length + mid.length := by omega
    subst hb
    have hsm := h.small
    have hsm' := hsm
    simp only [List.flatten_append, List.length_append] at hsm'
    have hne : ∀ r ∈ mid, r ≠ [] := fun r hr => h.nonempty r (by simp [hr])
    have hl := removeRowIfLoop_spec p post mid (idx 0 pre) pre.flatten post.flatten 0 [] [] (by omega) (by omega) hne
    rw [idx_length] at hl
    have hix : idx 0 pre ++ idx pre.flatten.length (mid ++ post) = g.store.index := by
      rw [h.index, List.append_assoc pre, idx_append pre, Nat.zero_add]
    have htk : pre.flatten ++ mid.flatten ++ post.flatten = g.store.tokens := by rw [h.tokens]; simp
    rw [hix, htk] at hl
    have hc := collect_spec (rowMasks p pre.length mid) pre mid post (fits_rowMasks p mid _) hsm
    rw [← h.tokens] at hc
    simp only [Nat.add_sub_cancel_left, Nat.sub_zero, Nat.zero_add, List.nil_append] at hl
    rw [Nat.add_sub_cancel_left, hl, ok_bind]
    simp only
    rw [hc, ok_bind]
    have hres : dropRows pre.length (pre.length + mid.length) p (pre ++ mid ++ post) =
        pre ++ ((zap (rowMasks p pre.length mid) mid).filter fun r => !r.isEmpty) ++ post := by
      unfold dropRows
      rw [List.zipIdx_append, List.zipIdx_append, List.filter_append, List.filter_append, List.map_append, List.map_append]
      rw [filter_zipIdx_out _ pre 0 (by intro x i _ hi; simp; omega)]
      rw [filter_zipIdx_out _ post _ (by intro x i h1 _; simp at h1 ⊢; omega)]
      rw [zap_rowMasks p pre.length (pre.length + mid.length) mid pre.length hne (by omega) (by omega)]
      simp
    rw [hres]
    have hmem : ∀ r ∈ pre ++ ((zap (rowMasks p pre.length mid) mid).filter fun r => !r.isEmpty) ++ post, r ∈ pre ++ mid ++ post := by
      intro r hr
      rw [← hres] at hr
      unfold dropRows at hr
      simp only [List.mem_map, List.mem_filter] at hr
      obtain ⟨e, ⟨he, _⟩, rfl⟩ := hr
      exact List.fst_mem_of_mem_zipIdx he
    refine ⟨_, rfl, ⟨rfl, rfl, fun r hr => h.nonempty r (hmem r hr), ?_, fun r hr => h.width r (hmem r hr)⟩, rfl, rfl⟩
    have := keep_length (rowMasks p pre.length mid).flatten mid.flatten (Nat.le_of_eq (fits_rowMasks p mid _).length_flatten)
    rw [(fits_rowMasks p mid _).keep_flatten] at this
    simp only [List.flatten_append, List.length_append, flatten_filter_nonempty]
    omega
  · rw [if_pos ((h.rangeInvalid a b).mpr hv)]
    simp only [hv, if_false, decide_false]
    exact ⟨g, rfl, h, rfl, rfl⟩

theorem foldl_max (ws : List Nat) : ∀ m, m ≤ ws.foldl (fun m w => if w > m then w else m) m ∧
    (∀ w ∈ ws, w ≤ ws.foldl (fun m w => if w > m then w else m) m) ∧
    (ws.foldl (fun m w => if w > m then w else m) m = m ∨ ws.foldl (fun m w => if w > m then w else m) m ∈ ws) := by
  induction ws with
  | nil => intro m; simp
  | cons w ws ih =>
    intro m
    simp only [List.foldl_cons]
    obtain ⟨h1, h2, h3⟩ := ih (if w > m then w else m)
    split at h1 <;> rename_i hw
    · simp only [hw, if_true] at h2 h3 ⊢
      refine ⟨by omega, ?_, ?_⟩
      · intro x hx
        rcases List.mem_cons.mp hx with rfl | hx
        · exact h1
        · exact h2 x hx
      · rcases h3 with h3 | h3
        · right; rw [h3]; simp
        · right; simp [h3]
    · simp only [hw, if_false] at h2 h3 ⊢
      refine ⟨h1, ?_, ?_⟩
      · intro x hx
        rcases List.mem_cons.mp hx with rfl | hx
        · omega
        · exact h2 x hx
      · rcases h3 with h3 | h3
        · left; exact h3
        · right; simp [h3]

theorem foldl_min (ws : List Nat) : ∀ m, ws.foldl (fun m w => if w < m then w else m) m ≤ m ∧
    (∀ w ∈ ws, ws.foldl (fun m w => if w < m then w else m) m ≤ w) ∧
    (ws.foldl (fun m w => if w < m then w else m) m = m ∨ ws.foldl (fun m w => if w < m then w else m) m ∈ ws) := by
  induction ws with
  | nil => intro m; simp
  | cons w ws ih =>
    intro m
    simp only [List.foldl_cons]
    obtain ⟨h1, h2, h3⟩ := ih (if w < m then w else m)
    split at h1 <;> rename_i hw
    · simp only [hw, if_true] at h2 h3 ⊢
      refine ⟨by omega, ?_, ?_⟩
      · intro x hx
        rcases List.mem_cons.mp hx with rfl | hx
        · exact h1
        · exact h2 x hx
      · rcases h3 with h3 | h3
        · right; rw [h3]; simp
        · right; simp [h3]
    · simp only [hw, if_false] at h2 h3 ⊢
      refine ⟨h1, ?_, ?_⟩
      · intro x hx
        rcases List.mem_cons.mp hx with rfl | hx
        · omega
        · exact h2 x hx
      · rcases h3 with h3 | h3
        · left; exact h3
        · right; simp [h3]

theorem map_tokenCount (rows : List (List T)) : ∀ k, k + rows.flatten.length < 2 ^ 32 → (idx k rows).map tokenCount = rows.map List.length := by
  induction rows with
  | nil => intro k _; rfl
  | cons r rs ih =>
    intro k h
    simp only [List.flatten_cons, List.length_append] at h
    simp only [idx, List.map_cons]
    rw [tokenCount_idx _ _ (by omega), ih _ (by omega)]

/-- The least and greatest number of columns are what `min_column_count()` and `max_column_count()` report. -/
def MinMax (g : Grid T) (rows : List (List T)) : Prop :=
  (rows = [] → g.minCol = 2 ^ 64 - 1 ∧ g.maxCol = 0) ∧
  (rows ≠ [] → (∃ r ∈ rows, r.length = g.minCol) ∧ (∃ r ∈ rows, r.length = g.maxCol) ∧ ∀ r ∈ rows, g.minCol ≤ r.length ∧ r.length ≤ g.maxCol)

theorem updateMinMax_spec (rows : List (List T)) (st : Store T) (h1 : st.tokens = rows.flatten) (h2 : st.index = idx 0 rows) (h3 : ∀ r ∈ rows, r ≠ [])
    (h4 : rows.flatten.length < 2 ^ 32) : Rep (updateMinMax st) rows ∧ MinMax (updateMinMax st) rows ∧ (updateMinMax st).store = st := by
  have hw : st.index.map tokenCount = rows.map List.length := by rw [h2]; exact map_tokenCount rows 0 (by omega)
  unfold updateMinMax
  rw [hw]
  obtain ⟨a1, a2, a3⟩ := foldl_max (rows.map List.length) 0
  obtain ⟨b1, b2, b3⟩ := foldl_min (rows.map List.length) (2 ^ 64 - 1)
  refine ⟨⟨h1, h2, h3, h4, ?_⟩, ⟨?_, ?_⟩, rfl⟩
  · intro r hr; exact a2 _ (List.mem_map_of_mem hr)
  · rintro rfl; exact ⟨rfl, rfl⟩
  · intro hne
    obtain ⟨r0, rs, rfl⟩ := List.exists_cons_of_ne_nil hne
    have hr0 := mem_length_le (r0 :: rs) r0 (by simp)
    have hr0' : 0 < r0.length := List.length_pos_iff.mpr (h3 r0 (by simp))
    refine ⟨?_, ?_, fun r hr => ⟨b2 _ (List.mem_map_of_mem hr), a2 _ (List.mem_map_of_mem hr)⟩⟩
    · rcases b3 with b3 | b3
      · have := b2 r0.length (by simp)
        rw [b3] at this
        omega
      · obtain ⟨r, hr, e⟩ := List.mem_map.mp b3
        exact ⟨r, hr, e⟩
    · rcases a3 with a3 | a3
      · have := a2 r0.length (by simp)
        rw [a3] at this
        omega
      · obtain ⟨r, hr, e⟩ := List.mem_map.mp a3
        exact ⟨r, hr, e⟩

/-- The number of tokens removed by `remove_token_if`. -/
def hitCount (a b : Nat) (q : T → Bool) (rows : List (List T)) : Nat := (((rows.drop a).take (b - a)).flatten).countP q

theorem Rep.removeTokenIf {g : Grid T} {rows : List (List T)} (h : Rep g rows) (a b : Nat) (q : T → Bool) :
    ∃ g', g.removeTokenIf a b q = ok (if ValidRange rows a b then hitCount a b q rows else 0, g') ∧
      Rep g' (if ValidRange rows a b then dropTokens a b q rows else rows) ∧
      (ValidRange rows a b → 0 < hitCount a b q rows → MinMax g' (dropTokens a b q rows)) ∧
      (¬ (ValidRange rows a b ∧ 0 < hitCount a b q rows) → g'.minCol = g.minCol ∧ g'.maxCol = g.maxCol) := by
  unfold Grid.removeTokenIf
  by_cases hv : ValidRange rows a b
  · have hv' : ¬ g.rangeInvalid a b = true := fun hh => (h.rangeInvalid a b).mp hh hv
    rw [if_neg hv']
    simp only [hv, if_true, true_implies, true_and]
    obtain ⟨pre, mid, post, rfl, rfl, hm⟩ := split_range rows a b hv.1 hv.2
    have hab := hv.1
    have hb : b = pre.length + mid.length := by omega
    subst hb
    have hsm := h.small
    have hsm' := hsm
    simp only [List.flatten_append, List.length_append] at hsm'
    have hl := removeTokenIfLoop_spec q post mid (idx 0 pre) pre.flatten post.flatten 0 [] [] (by omega) (by omega)
    rw [idx_length] at hl
    have hix : idx 0 pre ++ idx pre.flatten.length (mid ++ post) = g.store.index := by
      rw [h.index, List.append_assoc pre, idx_append pre, Nat.zero_add]
    have htk : pre.flatten ++ mid.flatten ++ post.flatten = g.store.tokens := by rw [h.tokens]; simp
    rw [hix, htk] at hl
    have hc := collect_spec (mid.map fun r => r.map q) pre mid post (fits_map q mid) hsm
    rw [← h.tokens] at hc
    simp only [Nat.add_sub_cancel_left, Nat.sub_zero, Nat.zero_add, List.nil_append] at hl
    rw [Nat.add_sub_cancel_left, hl, ok_bind]
    simp only
    rw [hc, ok_bind]
    have hres : dropTokens pre.length (pre.length + mid.length) q (pre ++ mid ++ post) =
        pre ++ ((zap (mid.map fun r => r.map q) mid).filter fun r => !r.isEmpty) ++ post := by
      unfold dropTokens
      rw [List.zipIdx_append, List.zipIdx_append, List.filterMap_append, List.filterMap_append]
      rw [filterMap_zipIdx_out _ pre 0 (by intro x i _ hi; simp; omega)]
      rw [filterMap_zipIdx_out _ post _ (by intro x i h1 _; simp at h1 ⊢; omega)]
      rw [zap_map q pre.length (pre.length + mid.length) mid pre.length (by omega) (by omega)]
      simp
    have hhit : hitCount pre.length (pre.length + mid.length) q (pre ++ mid ++ post) = (pos pre.flatten.length (mid.map fun r => r.map q).flatten).length := by
      unfold hitCount
      rw [pos_length, List.append_assoc, List.drop_left, Nat.add_sub_cancel_left, List.take_left]
      have e : (mid.map fun r => r.map q).flatten = mid.flatten.map q := by rw [List.map_flatten]
      rw [e, List.count_eq_countP, List.countP_map]
      apply List.countP_congr
      intro x _; simp
    rw [hres, hhit]
    have hsmall : (pre ++ ((zap (mid.map fun r => r.map q) mid).filter fun r => !r.isEmpty) ++ post).flatten.length < 2 ^ 32 := by
      have := keep_length (mid.map fun r => r.map q).flatten mid.flatten (Nat.le_of_eq (fits_map q mid).length_flatten)
      rw [(fits_map q mid).keep_flatten] at this
      simp only [List.flatten_append, List.length_append, flatten_filter_nonempty]
      omega
    have hne : ∀ r ∈ pre ++ ((zap (mid.map fun r => r.map q) mid).filter fun r => !r.isEmpty) ++ post, r ≠ [] := by
      intro r hr
      simp only [List.mem_append, List.mem_filter] at hr
      rcases hr with (hr | hr) | hr
      · exact h.nonempty r (by simp [hr])
      · have := hr.2; cases r <;> simp at this ⊢
      · exact h.nonempty r (by simp [hr])
    have hupd := updateMinMax_spec (pre ++ ((zap (mid.map fun r => r.map q) mid).filter fun r => !r.isEmpty) ++ post)
      ⟨(pre ++ ((zap (mid.map fun r => r.map q) mid).filter fun r => !r.isEmpty) ++ post).flatten,
        idx 0 (pre ++ ((zap (mid.map fun r => r.map q) mid).filter fun r => !r.isEmpty) ++ post)⟩ rfl rfl hne hsmall
    by_cases hp : pos pre.flatten.length (mid.map fun r => r.map q).flatten = []
    · rw [if_neg (by simpa using hp)]
      refine ⟨_, rfl, ⟨rfl, rfl, hne, hsmall, ?_⟩, ?_, fun _ => ⟨rfl, rfl⟩⟩
      · intro r hr
        -- nothing was removed
        have hcnt0 : (mid.map fun r => r.map q).flatten.count true = 0 := by rw [← pos_length _ pre.flatten.length, hp]; rfl
        have hzap : ∀ (ms : List (List Bool)) (rs : List (List T)), Fits ms rs → ms.flatten.count true = 0 → zap ms rs = rs := by
          intro ms rs hf
          induction hf with
          | nil => intro _; rfl
          | cons hl _ ih =>
            intro h0
            rename_i m r ms rs _
            simp only [List.flatten_cons, List.count_append] at h0
            simp only [zap, List.zipWith_cons_cons]
            have hm0 : pos 0 m = [] := List.length_eq_zero_iff.mp (by rw [pos_length]; omega)
            rw [keep_of_pos_nil m 0 _ hm0 (by omega)]
            congr 1
            exact ih (by omega)
        rw [hzap _ _ (fits_map q mid) hcnt0] at hr
        simp only [List.mem_append, List.mem_filter] at hr
        apply h.width
        rcases hr with (hr | hr) | hr <;> simp [hr]
      · intro h0; rw [hp] at h0; simp at h0
    · rw [if_pos (by simpa using hp)]
      refine ⟨_, rfl, hupd.1, fun _ => hupd.2.1, fun hh => ?_⟩
      exact absurd (List.length_pos_iff.mpr hp) hh
  · rw [if_pos ((h.rangeInvalid a b).mpr hv)]
    simp only [hv, if_false]
    exact ⟨g, rfl, h, fun hh => absurd hh (by simp), fun _ => ⟨rfl, rfl⟩⟩

end Strtk.Grid
