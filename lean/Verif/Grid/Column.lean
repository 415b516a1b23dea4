import Verif.Grid.Remove

/-!
# C186: removing a column or a range of rows from the table of a grid

`token_grid::store::remove_row_range` (5277-5311) and `store::remove_column` (5313-5412).  The class does not call them yet; what they leave is seen through
`row_count` and `token(row,col)`.
-/

namespace Strtk.Grid
open Outcome

variable {T : Type}

/-! ## Model -/

/-- `store::remove_row_range(r0,r1)` (5277-5311): the tokens of the rows are counted as `std::size_t`. -/
def Store.removeRowRange (st : Store T) (r0 r1 : Nat) : Outcome (Bool × Store T) :=
  if r0 > r1 then ok (false, st)
  else if r0 ≥ st.index.length then ok (false, st)
  else if r1 ≥ st.index.length then ok (false, st)
  else do
    let n := (((st.index.take (r1 + 1)).drop r0).map tokenCount).sum
    let r ← deref st.index r0
    let tokens ← erase st.tokens r.1 (r.1 + n)
    let index ← erase st.index r0 (r0 + (r1 - r0 + 1))
    ok (true, ⟨tokens, index.take r0 ++ (index.drop r0).map fun q => (sub32 q.1 (u32 n), sub32 q.2 (u32 n))⟩)

/-- The members of `remove_column_impl` (5315-5318). -/
structure Cut where
  counter : Nat
  remainder : Nat
  row : Nat

/-- The loop of `update` over the rows without the column (5324-5334). -/
def skipShort (ix : List (Nat × Nat)) (column : Nat) : Nat → Nat → Nat → Outcome (Nat × Nat)
  | 0, _, _ => diverge
  | fuel + 1, row, counter =>
    if row < ix.length then do
      let r ← deref ix row
      if tokenCount r > column then ok (row, counter) else skipShort ix column fuel (row + 1) (counter + tokenCount r)
    else ok (row, counter)

/-- `remove_column_impl::update` (5320-5344). -/
def Cut.update (ix : List (Nat × Nat)) (column : Nat) (c : Cut) : Outcome Cut := do
  let s ← skipShort ix column (ix.length + 1) ((c.row + 1) % 2 ^ 64) c.counter
  if s.1 < ix.length then do
    let r ← deref ix s.1
    ok ⟨s.2 + (column + c.remainder), (sub32 r.2 r.1 + (2 ^ 64 - column)) % 2 ^ 64, s.1⟩
  else ok ⟨2 ^ 64 - 1, c.remainder, s.1⟩

/-- The inner loop of `process` (5360-5370): the tokens, `itr1`, `itr2` and the counter. -/
def copyRun : Nat → List T → Nat → Nat → Nat → Outcome (List T × Nat × Nat × Nat)
  | 0, _, _, _, _ => diverge
  | fuel + 1, buf, i1, i2, counter =>
    if i1 ≠ buf.length ∧ counter ≠ 0 then do
      let c ← deref buf i1
      let buf ← if i1 ≠ i2 then store buf i2 c else ok buf
      copyRun fuel buf (i1 + 1) (i2 + 1) (counter - 1)
    else ok (buf, i1, i2, counter)

/-- The outer loop (5358-5377); stepping behind the end is undefined. -/
def cutLoop (ix : List (Nat × Nat)) (column : Nat) : Nat → List T → Nat → Nat → Cut → Outcome (List T)
  | 0, _, _, _, _ => diverge
  | fuel + 1, buf, i1, i2, c =>
    if i1 ≠ buf.length then do
      let s ← copyRun (buf.length + 1) buf i1 i2 c.counter
      let c := { c with counter := s.2.2.2 }
      if c.counter = 0 then do
        let c ← c.update ix column
        if s.2.1 < s.1.length then cutLoop ix column fuel s.1 (s.2.1 + 1) s.2.2.1 c else ub
      else cutLoop ix column fuel s.1 s.2.1 s.2.2.1 c
    else ok buf

/-- The loop over the row index (5379-5400): the index, `remove_count` and `max_column`. -/
def cutIndex (column : Nat) : Nat → Nat → List (Nat × Nat) → List (Nat × Nat) × Nat × Nat
  | removed, widest, [] => ([], removed, widest)
  | removed, widest, r :: rs =>
    let first := sub32 r.1 (u32 removed)
    let removed := if tokenCount r > column then removed + 1 else removed
    let q := (first, sub32 r.2 (u32 removed))
    let rest := cutIndex column removed (if tokenCount q > widest then tokenCount q else widest) rs
    (q :: rest.1, rest.2)

/-- `store::remove_column` (5406-5412) with `process` (5346-5403); `widest` is `max_column`, which is returned as well. -/
def Store.removeColumn (st : Store T) (widest column : Nat) : Outcome (Bool × Store T × Nat) :=
  if column ≥ widest then ok (false, st, widest)
  else do
    let c ← (Cut.mk 0 0 (2 ^ 64 - 1)).update st.index column
    let tokens ← cutLoop st.index column (st.tokens.length + 1) st.tokens 0 0 c
    let (index, removed, widest) := cutIndex column 0 0 st.index
    ok (true, ⟨tokens.take (tokens.length - removed), index⟩, widest)

/-! ## Specification -/

/-- The table holds these rows, seen through `row_count()` and `token(row,col)`. -/
def Store.Shows (st : Store T) (rows : List (List T)) : Prop := Grid.Shows ⟨st, 0, 0⟩ rows

/-- The table as the loaders build it, of less than `2^32` tokens; rows may be empty. -/
structure Store.Holds (st : Store T) (rows : List (List T)) : Prop where
  tokens : st.tokens = rows.flatten
  index : st.index = idx 0 rows
  small : rows.flatten.length < 2 ^ 32
  few : rows.length < 2 ^ 32

/-- The length of the longest row. -/
def width (rows : List (List T)) : Nat := rows.foldl (fun m r => max m r.length) 0

theorem Store.Holds.shows {st : Store T} {rows : List (List T)} (h : st.Holds rows) : st.Shows rows := by
  have hl : st.index.length = rows.length := by rw [h.index, idx_length]
  refine ⟨hl, ?_⟩
  intro row col
  unfold Grid.token
  simp only [hl]
  by_cases hr : row < rows.length
  · obtain ⟨pre, x, post, rfl, rfl, hx⟩ := exists_split rows row hr
    have hs := h.small
    simp only [List.flatten_append, List.flatten_cons, List.length_append] at hs
    have hi := idx_getElem pre x post 0
    rw [Nat.zero_add] at hi
    rw [if_pos hr, h.index, hi, ok_bind, tokenCount_idx _ _ (by omega), hx]
    by_cases hc : col < x.length
    · have hd : deref st.tokens (pre.flatten.length + col) = ok x[col] := by
        rw [h.tokens]
        simp only [deref, List.flatten_append, List.flatten_cons]
        rw [List.getElem?_append_right (by omega), List.getElem?_append_left (by omega), Nat.add_sub_cancel_left, List.getElem?_eq_getElem hc]
      rw [if_pos hc, hd, ok_bind]
      simp [hc]
    · rw [if_neg hc]
      simp [Nat.le_of_not_lt hc]
  · rw [if_neg hr]
    simp [Nat.le_of_not_lt hr]

/-! ## Rows -/

theorem sum_tokenCount (rows : List (List T)) : ∀ k, k + rows.flatten.length < 2 ^ 32 → ((idx k rows).map tokenCount).sum = rows.flatten.length := by
  induction rows with
  | nil => intro k _; simp [idx]
  | cons r rs ih =>
    intro k h
    simp only [List.flatten_cons, List.length_append] at h
    simp only [idx, List.map_cons, List.sum_cons, List.flatten_cons, List.length_append]
    rw [tokenCount_idx _ _ (by omega), ih _ (by omega)]

/-- **C186**: `remove_row_range(r0,r1)` removes the rows from `r0` to `r1` and no others; a range that does not lie in the table is refused. -/
theorem C186_remove_rows (st : Store T) (rows : List (List T)) (h : st.Holds rows) (r0 r1 : Nat) :
    (r0 ≤ r1 ∧ r1 < rows.length → ∃ st', st.removeRowRange r0 r1 = ok (true, st') ∧ st'.Holds (rows.take r0 ++ rows.drop (r1 + 1)) ∧
      st'.Shows (rows.take r0 ++ rows.drop (r1 + 1))) ∧
    (¬ (r0 ≤ r1 ∧ r1 < rows.length) → st.removeRowRange r0 r1 = ok (false, st)) := by
  have hl : st.index.length = rows.length := by rw [h.index, idx_length]
  constructor
  · rintro ⟨h1, h2⟩
    obtain ⟨pre, mid, post, hr, e0, e1⟩ : ∃ pre mid post, rows = pre ++ (mid ++ post) ∧ pre.length = r0 ∧ mid.length = r1 + 1 - r0 :=
      ⟨rows.take r0, (rows.drop r0).take (r1 + 1 - r0), (rows.drop r0).drop (r1 + 1 - r0), by rw [List.take_append_drop, List.take_append_drop], by simp; omega, by simp; omega⟩
    have hs := h.small
    have hf := h.few
    subst hr
    have t1 : (pre ++ (mid ++ post)).take r0 = pre := by rw [← e0, List.take_left]
    have t2 : (pre ++ (mid ++ post)).drop (r1 + 1) = post := by
      rw [← List.append_assoc, List.drop_left' (by rw [List.length_append]; omega)]
    rw [t1, t2]
    simp only [List.flatten_append, List.length_append] at hs hf
    have hne : mid ≠ [] := by intro hm; rw [hm] at e1; simp at e1; omega
    obtain ⟨m, ms, rfl⟩ := List.exists_cons_of_ne_nil hne
    have hix : st.index = idx 0 pre ++ (idx pre.flatten.length (m :: ms) ++ idx (pre.flatten.length + (m :: ms).flatten.length) post) := by
      rw [h.index, idx_append, idx_append, Nat.zero_add]
    have hn : (((st.index.take (r1 + 1)).drop r0).map tokenCount).sum = (m :: ms).flatten.length := by
      rw [hix, ← List.append_assoc, List.take_left' (by rw [List.length_append, idx_length, idx_length]; omega), List.drop_left' (by rw [idx_length]; omega),
        sum_tokenCount _ _ (by omega)]
    have hd : deref st.index r0 = ok (pre.flatten.length, lastIx pre.flatten.length m.length) := by
      rw [h.index, ← e0]
      have := idx_getElem pre m (ms ++ post) 0
      rwa [Nat.zero_add] at this
    have het : erase st.tokens pre.flatten.length (pre.flatten.length + (m :: ms).flatten.length) = ok (pre ++ post).flatten := by
      unfold erase
      rw [h.tokens, if_pos (by simp only [List.flatten_append, List.length_append]; omega)]
      congr 1
      rw [← List.length_append]
      simp only [List.flatten_append]
      rw [List.take_left, ← List.append_assoc, List.drop_left]
    have hei : erase st.index r0 (r0 + (r1 - r0 + 1)) = ok (idx 0 pre ++ idx (pre.flatten.length + (m :: ms).flatten.length) post) := by
      unfold erase
      rw [if_pos ⟨by omega, by rw [hl]; simp only [List.length_append]; omega⟩, hix, List.take_left' (by rw [idx_length]; omega), ← List.append_assoc,
        List.drop_left' (by rw [List.length_append, idx_length, idx_length]; omega)]
    have hu : u32 (m :: ms).flatten.length = (m :: ms).flatten.length := by unfold u32; omega
    have hres : Store.Holds ⟨(pre ++ post).flatten, idx 0 (pre ++ post)⟩ (pre ++ post) :=
      ⟨rfl, rfl, by simp only [List.flatten_append, List.length_append]; omega, by simp only [List.length_append]; omega⟩
    refine ⟨_, ?_, hres, hres.shows⟩
    unfold Store.removeRowRange
    rw [if_neg (by omega), if_neg (by omega), if_neg (by omega), hn, hd, ok_bind, het, ok_bind, hei, ok_bind, hu,
      List.take_left' (by rw [idx_length]; omega), List.drop_left' (by rw [idx_length]; omega), idx_shift _ _ _ (by omega) (by omega), idx_append]
    simp only [Nat.zero_add, Nat.add_sub_cancel]
  · intro hc
    unfold Store.removeRowRange
    by_cases h1 : r0 > r1
    · rw [if_pos h1]
    · rw [if_neg h1]
      by_cases h2 : r0 ≥ st.index.length
      · rw [if_pos h2]
      · rw [if_neg h2, if_pos (by omega)]

/-! ## The column -/

theorem copyRun_spec : ∀ (A : List T) (fuel : Nat) (out junk V : List T) (counter : Nat), A.length ≤ counter →
    ∃ junk', junk'.length = junk.length ∧ copyRun (fuel + A.length) (out ++ junk ++ (A ++ V)) (out.length + junk.length) out.length counter =
      copyRun fuel (out ++ A ++ junk' ++ V) (out.length + A.length + junk.length) (out.length + A.length) (counter - A.length) := by
  intro A
  induction A with
  | nil => intro fuel out junk V counter _; exact ⟨junk, rfl, by simp⟩
  | cons a A ih =>
    intro fuel out junk V counter hc
    simp only [List.length_cons] at hc
    have hd : deref (out ++ junk ++ (a :: A ++ V)) (out.length + junk.length) = ok a := by
      have := deref_append_cons (out ++ junk) a (A ++ V)
      rwa [List.length_append] at this
    have e1 : out.length + junk.length + 1 = (out ++ [a]).length + junk.length := by simp; omega
    have e2 : out.length + 1 = (out ++ [a]).length := by simp
    cases junk with
    | nil =>
      obtain ⟨junk', j1, j2⟩ := ih fuel (out ++ [a]) [] V (counter - 1) (by omega)
      refine ⟨junk', j1, ?_⟩
      rw [show fuel + (a :: A).length = fuel + A.length + 1 by simp; omega, copyRun, if_pos ⟨by simp, by omega⟩, hd, ok_bind, if_neg (by simp), ok_bind, e1, e2]
      have e3 : out ++ ([] : List T) ++ (a :: A ++ V) = out ++ [a] ++ [] ++ (A ++ V) := by simp
      rw [e3]
      refine j2.trans ?_
      congr 1
      · simp
      · simp; omega
      · simp; omega
      · simp only [List.length_cons]; omega
    | cons j js =>
      obtain ⟨junk', j1, j2⟩ := ih fuel (out ++ [a]) (js ++ [a]) V (counter - 1) (by omega)
      refine ⟨junk', by simpa using j1, ?_⟩
      have hst : store (out ++ j :: js ++ (a :: A ++ V)) out.length a = ok (out ++ [a] ++ (js ++ [a]) ++ (A ++ V)) := by
        unfold store
        rw [if_pos (by simp)]
        simp
      rw [show fuel + (a :: A).length = fuel + A.length + 1 by simp; omega, copyRun, if_pos ⟨by simp, by omega⟩, hd, ok_bind, if_pos (by simp), hst, ok_bind]
      have e4 : out.length + (j :: js).length + 1 = (out ++ [a]).length + (js ++ [a]).length := by simp; omega
      rw [e4, e2]
      refine j2.trans ?_
      congr 1
      · simp
      · simp; omega
      · simp; omega
      · simp only [List.length_cons]; omega

/-- What the rows lose. -/
def lost (column : Nat) (rows : List (List T)) : Nat := (rows.filter fun r => decide (column < r.length)).length

theorem eraseIdx_length_sum (column : Nat) (rows : List (List T)) : ((rows.map fun r => r.eraseIdx column).flatten).length + lost column rows = rows.flatten.length := by
  induction rows with
  | nil => rfl
  | cons r rs ih =>
    unfold lost at ih ⊢
    simp only [List.map_cons, List.flatten_cons, List.length_append, List.filter_cons]
    by_cases h : column < r.length
    · rw [List.length_eraseIdx_of_lt h, if_pos (by simpa using h), List.length_cons]
      omega
    · rw [List.eraseIdx_of_length_le (by omega), if_neg (by simpa using h)]
      omega

theorem skipShort_spec (column : Nat) (post : List (List T)) : ∀ (mid pre : List (List T)) (fuel counter : Nat), (∀ r ∈ mid, r.length ≤ column) →
    (pre ++ (mid ++ post)).flatten.length < 2 ^ 32 → mid.length < fuel → (∀ r rs, post = r :: rs → column < r.length) →
    skipShort (idx 0 (pre ++ (mid ++ post))) column fuel pre.length counter = ok (pre.length + mid.length, counter + mid.flatten.length) := by
  intro mid
  induction mid with
  | nil =>
    intro pre fuel counter _ hs hf hp
    obtain ⟨fuel, rfl⟩ : ∃ f, fuel = f + 1 := ⟨fuel - 1, by simp at hf; omega⟩
    unfold skipShort
    rw [idx_length]
    cases post with
    | nil => rw [if_neg (by simp)]; simp
    | cons r rs =>
      have hc := hp r rs rfl
      simp only [List.nil_append, List.flatten_append, List.flatten_cons, List.length_append] at hs
      rw [if_pos (by simp), List.nil_append, idx_getElem pre r rs 0, ok_bind, tokenCount_idx _ _ (by omega), if_pos hc]
      simp
  | cons m mid ih =>
    intro pre fuel counter hm hs hf hp
    obtain ⟨fuel, rfl⟩ : ∃ f, fuel = f + 1 := ⟨fuel - 1, by simp at hf; omega⟩
    unfold skipShort
    rw [idx_length, if_pos (by simp), List.cons_append, idx_getElem pre m (mid ++ post) 0, ok_bind]
    have hs2 := hs
    simp only [List.cons_append, List.flatten_append, List.flatten_cons, List.length_append] at hs2
    rw [tokenCount_idx _ _ (by omega), if_neg (by have := hm m (by simp); omega)]
    have := ih (pre ++ [m]) fuel (counter + m.length) (fun r hr => hm r (by simp [hr])) (by simpa using hs) (by simpa using hf) hp
    rw [List.append_assoc, List.singleton_append, List.length_append, List.length_singleton] at this
    rw [this]
    simp only [List.length_cons, List.flatten_cons, List.length_append]
    congr 2 <;> omega

/-- The rows before the next one that has the column. -/
theorem split_short (column : Nat) (rows : List (List T)) : ∃ mid post, rows = mid ++ post ∧ (∀ r ∈ mid, r.length ≤ column) ∧ (∀ r rs, post = r :: rs → column < r.length) := by
  induction rows with
  | nil => exact ⟨[], [], rfl, by simp, by simp⟩
  | cons r rs ih =>
    by_cases h : column < r.length
    · exact ⟨[], r :: rs, rfl, by simp, by rintro _ _ ⟨rfl, rfl⟩; exact h⟩
    · obtain ⟨mid, post, e, h1, h2⟩ := ih
      refine ⟨r :: mid, post, by rw [e]; rfl, ?_, h2⟩
      intro x hx
      rcases List.mem_cons.mp hx with rfl | hx
      · omega
      · exact h1 x hx

/-- What the members say about the tokens not yet looked at, `rest`: `wanted` is what shall become of them. -/
def Cut.Fits (rows : List (List T)) (column : Nat) (c : Cut) (rest wanted : List T) : Prop :=
  (c.counter = 2 ^ 64 - 1 ∧ wanted = rest) ∨
    ∃ (pre post : List (List T)) (row A B : List T) (x : T), rows = pre ++ row :: post ∧ c.row = pre.length ∧ c.counter = A.length ∧ c.remainder = B.length ∧
      rest = A ++ x :: (B ++ post.flatten) ∧ wanted = A ++ (B ++ (post.map fun r => r.eraseIdx column).flatten)

theorem update_spec (column : Nat) (pre post : List (List T)) (c : Cut) (B : List T) (hs : (pre ++ post).flatten.length < 2 ^ 32) (hf : (pre ++ post).length < 2 ^ 32)
    (hr : (c.row + 1) % 2 ^ 64 = pre.length) (hc : c.counter = 0) (hb : c.remainder = B.length) :
    ∃ c', c.update (idx 0 (pre ++ post)) column = ok c' ∧ c'.Fits (pre ++ post) column (B ++ post.flatten) (B ++ (post.map fun r => r.eraseIdx column).flatten) := by
  obtain ⟨mid, rem, e, h1, h2⟩ := split_short column post
  subst e
  have hsk := skipShort_spec column rem mid pre ((idx 0 (pre ++ (mid ++ rem))).length + 1) 0 h1 hs (by rw [idx_length]; simp; omega) h2
  have hmid : mid.map (fun r => r.eraseIdx column) = mid := by
    conv_rhs => rw [← List.map_id mid]
    exact List.map_congr_left (fun r hr => by rw [List.eraseIdx_of_length_le (h1 r hr)]; rfl)
  unfold Cut.update
  rw [hr, hc, hsk, ok_bind]
  simp only []
  rw [idx_length]
  cases rem with
  | nil =>
    rw [if_neg (by simp)]
    refine ⟨_, rfl, Or.inl ⟨rfl, ?_⟩⟩
    rw [List.append_nil, hmid]
  | cons r rs =>
    have hcol := h2 r rs rfl
    rw [if_pos (by simp)]
    simp only [List.flatten_append, List.flatten_cons, List.length_append, List.length_cons] at hs hf
    have hd : deref (idx 0 (pre ++ (mid ++ r :: rs))) (pre.length + mid.length) = ok ((pre ++ mid).flatten.length, lastIx (pre ++ mid).flatten.length r.length) := by
      have := idx_getElem (pre ++ mid) r rs 0
      rwa [List.append_assoc, List.length_append, Nat.zero_add] at this
    have hfl : (pre ++ mid).flatten.length = pre.flatten.length + mid.flatten.length := by simp
    refine ⟨_, by rw [hd, ok_bind], Or.inr ⟨pre ++ mid, rs, r, B ++ (mid.flatten ++ r.take column), r.drop (column + 1), r[column], ?_, ?_, ?_, ?_, ?_, ?_⟩⟩
    · simp
    · simp
    · simp only [List.length_append, List.length_take, hb]; omega
    · simp only [List.length_drop]
      rw [hfl]
      unfold sub32 lastIx
      omega
    · simp only [List.flatten_append, List.flatten_cons, List.append_assoc]
      congr 2
      have e := List.take_append_drop column r
      rw [List.drop_eq_getElem_cons hcol] at e
      calc r ++ rs.flatten = (List.take column r ++ r[column] :: List.drop (column + 1) r) ++ rs.flatten := by rw [e]
        _ = _ := by rw [List.append_assoc, List.cons_append]
    · rw [List.map_append, hmid, List.map_cons, List.flatten_append, List.flatten_cons, List.eraseIdx_eq_take_drop_succ]
      simp only [List.append_assoc]

theorem cutLoop_spec (rows : List (List T)) (column : Nat) (hs : rows.flatten.length < 2 ^ 32) (hf : rows.length < 2 ^ 32) :
    ∀ (fuel : Nat) (out junk rest wanted : List T) (c : Cut), rest.length < fuel → out.length + junk.length + rest.length < 2 ^ 32 → c.Fits rows column rest wanted →
    ∃ tail, cutLoop (idx 0 rows) column fuel (out ++ junk ++ rest) (out.length + junk.length) out.length c = ok (out ++ wanted ++ tail) ∧
      (out ++ wanted ++ tail).length = out.length + junk.length + rest.length := by
  intro fuel
  induction fuel with
  | zero => intro out junk rest wanted c h; omega
  | succ fuel ih =>
    intro out junk rest wanted c hfu hsm hc
    unfold cutLoop
    by_cases he : rest = []
    · subst he
      have hw : wanted = [] := by
        rcases hc with ⟨_, h⟩ | ⟨_, _, _, _, _, _, _, _, _, _, h, _⟩
        · exact h
        · simp at h
      subst hw
      rw [if_neg (by simp)]
      exact ⟨junk, by simp, by simp⟩
    · have hpos : 0 < rest.length := List.length_pos_iff.mpr he
      rw [if_pos (by simp only [List.length_append]; omega)]
      rcases hc with ⟨h1, rfl⟩ | ⟨pre, post, row, A, B, x, hrows, hrow, hcnt, hrem, hrest, hw⟩
      · obtain ⟨junk', j1, j2⟩ := copyRun_spec wanted ((out ++ junk ++ wanted).length + 1 - wanted.length) out junk [] c.counter (by omega)
        rw [List.append_nil, show (out ++ junk ++ wanted).length + 1 - wanted.length + wanted.length = (out ++ junk ++ wanted).length + 1 by
          simp only [List.length_append]; omega] at j2
        have hstop : copyRun ((out ++ junk ++ wanted).length + 1 - wanted.length) (out ++ wanted ++ junk' ++ []) (out.length + wanted.length + junk.length)
            (out.length + wanted.length) (c.counter - wanted.length) =
            ok (out ++ wanted ++ junk', out.length + wanted.length + junk.length, out.length + wanted.length, c.counter - wanted.length) := by
          obtain ⟨f, hfe⟩ : ∃ f, (out ++ junk ++ wanted).length + 1 - wanted.length = f + 1 := ⟨out.length + junk.length, by simp only [List.length_append]; omega⟩
          rw [hfe, copyRun, if_neg (by simp only [List.append_nil, List.length_append]; omega), List.append_nil]
        rw [j2, hstop, ok_bind]
        simp only []
        rw [if_neg (by omega)]
        refine ⟨junk', ?_, by simp only [List.length_append]; omega⟩
        cases fuel with
        | zero => omega
        | succ fuel =>
          rw [cutLoop, if_neg (by simp only [List.length_append]; omega)]
      · have hlen : rest.length = A.length + (1 + (B.length + post.flatten.length)) := by rw [hrest]; simp; omega
        obtain ⟨junk', j1, j2⟩ := copyRun_spec A ((out ++ junk ++ rest).length + 1 - A.length) out junk (x :: (B ++ post.flatten)) c.counter (by omega)
        rw [← hrest, show (out ++ junk ++ rest).length + 1 - A.length + A.length = (out ++ junk ++ rest).length + 1 by
          simp only [List.length_append]; omega] at j2
        have hstop : copyRun ((out ++ junk ++ rest).length + 1 - A.length) (out ++ A ++ junk' ++ (x :: (B ++ post.flatten))) (out.length + A.length + junk.length)
            (out.length + A.length) (c.counter - A.length) =
            ok (out ++ A ++ junk' ++ (x :: (B ++ post.flatten)), out.length + A.length + junk.length, out.length + A.length, 0) := by
          obtain ⟨f, hfe⟩ : ∃ f, (out ++ junk ++ rest).length + 1 - A.length = f + 1 :=
            ⟨(out ++ junk ++ rest).length - A.length, by simp only [List.length_append]; omega⟩
          rw [hfe, copyRun, if_neg (by omega), hcnt, Nat.sub_self]
        rw [j2, hstop, ok_bind]
        simp only []
        rw [if_pos trivial]
        have hsub : (pre ++ [row] ++ post) = rows := by rw [hrows]; simp
        obtain ⟨c', u1, u2⟩ := update_spec column (pre ++ [row]) post { c with counter := 0 } B (by rw [hsub]; exact hs) (by rw [hsub]; exact hf)
          (by simp only [List.length_append, List.length_singleton, hrow]
              have : pre.length < 2 ^ 32 := by rw [hrows] at hf; simp at hf; omega
              omega) rfl hrem
        rw [hsub] at u1 u2
        rw [u1, ok_bind, if_pos (by simp only [List.length_append, List.length_cons]; omega)]
        obtain ⟨tail, t1, t2⟩ := ih (out ++ A) (junk' ++ [x]) (B ++ post.flatten) _ c' (by simp only [List.length_append]; omega)
          (by simp only [List.length_append, List.length_singleton]; omega) u2
        refine ⟨tail, ?_, ?_⟩
        · rw [hw]
          have e1 : out ++ A ++ junk' ++ (x :: (B ++ post.flatten)) = out ++ A ++ (junk' ++ [x]) ++ (B ++ post.flatten) := by simp
          have e2 : out.length + A.length + junk.length + 1 = (out ++ A).length + (junk' ++ [x]).length := by simp; omega
          have e3 : out.length + A.length = (out ++ A).length := by simp
          rw [e1, e2, e3, t1]
          simp
        · rw [hw]
          have : out ++ (A ++ (B ++ (post.map fun r => r.eraseIdx column).flatten)) ++ tail = out ++ A ++ (B ++ (post.map fun r => r.eraseIdx column).flatten) ++ tail := by simp
          rw [this, t2]
          simp only [List.length_append, List.length_singleton]
          omega

theorem cutIndex_spec (column : Nat) (rows : List (List T)) : ∀ (k removed widest : Nat), removed ≤ k → k + rows.flatten.length < 2 ^ 32 →
    cutIndex column removed widest (idx k rows) = (idx (k - removed) (rows.map fun r => r.eraseIdx column), removed + lost column rows,
      (rows.map fun r => r.eraseIdx column).foldl (fun m r => max m r.length) widest) := by
  induction rows with
  | nil => intro k removed widest _ _; simp [idx, cutIndex, lost]
  | cons r rs ih =>
    intro k removed widest h1 h2
    simp only [List.flatten_cons, List.length_append] at h2
    have hmax : ∀ a b : Nat, (if a > b then a else b) = max b a := by intro a b; split <;> omega
    simp only [idx, cutIndex, List.map_cons, List.foldl_cons]
    rw [tokenCount_idx _ _ (by omega)]
    unfold lost
    by_cases hc : column < r.length
    · rw [if_pos hc, List.filter_cons_of_pos (by simpa using hc), List.length_cons, List.length_eraseIdx_of_lt hc]
      have e1 : sub32 k (u32 removed) = k - removed := by unfold sub32 u32; omega
      have e2 : sub32 (lastIx k r.length) (u32 (removed + 1)) = lastIx (k - removed) (r.length - 1) := by unfold sub32 u32 lastIx; omega
      rw [e1, e2, tokenCount_idx _ _ (by omega), hmax, ih (k + r.length) (removed + 1) _ (by omega) (by omega)]
      unfold lost
      simp only [show k + r.length - (removed + 1) = k - removed + (r.length - 1) by omega, Prod.mk.injEq, true_and]
      exact ⟨by omega, trivial⟩
    · rw [if_neg hc, List.filter_cons_of_neg (by simpa using hc), List.eraseIdx_of_length_le (by omega)]
      have e1 : sub32 k (u32 removed) = k - removed := by unfold sub32 u32; omega
      have e2 : sub32 (lastIx k r.length) (u32 removed) = lastIx (k - removed) r.length := by unfold sub32 u32 lastIx; omega
      rw [e1, e2, tokenCount_idx _ _ (by omega), hmax, ih (k + r.length) removed _ (by omega) (by omega)]
      unfold lost
      simp only [show k + r.length - removed = k - removed + r.length by omega]

/-- **C186**: `remove_column(c)` removes the token at `c` from every row that has one and nothing else, and works out the width anew; a column at or
behind the kept width is refused.  `widest` is `max_column`: the longest row at the time of loading, so no row of the table is longer. -/
theorem C186_remove_column (st : Store T) (rows : List (List T)) (h : st.Holds rows) (widest column : Nat) :
    (column < widest → ∃ st', st.removeColumn widest column = ok (true, st', width (rows.map fun r => r.eraseIdx column)) ∧
      st'.Holds (rows.map fun r => r.eraseIdx column) ∧ st'.Shows (rows.map fun r => r.eraseIdx column)) ∧
    (widest ≤ column → st.removeColumn widest column = ok (false, st, widest)) := by
  constructor
  · intro hw
    have hs := h.small
    have hf := h.few
    obtain ⟨c, u1, u2⟩ := update_spec column [] rows ⟨0, 0, 2 ^ 64 - 1⟩ [] hs hf (by simp) rfl rfl
    rw [List.nil_append, List.nil_append, List.nil_append] at u2
    rw [List.nil_append] at u1
    obtain ⟨tail, t1, t2⟩ := cutLoop_spec rows column hs hf (rows.flatten.length + 1) [] [] rows.flatten _ c (by omega) (by simpa using hs) u2
    simp only [List.nil_append, List.length_nil, Nat.zero_add] at t1 t2
    have hsum := eraseIdx_length_sum column rows
    have hres : Store.Holds ⟨(rows.map fun r => r.eraseIdx column).flatten, idx 0 (rows.map fun r => r.eraseIdx column)⟩ (rows.map fun r => r.eraseIdx column) :=
      ⟨rfl, rfl, by omega, by simpa using hf⟩
    refine ⟨_, ?_, hres, hres.shows⟩
    unfold Store.removeColumn
    rw [if_neg (by omega), h.index, h.tokens, u1, ok_bind, t1, ok_bind, cutIndex_spec column rows 0 0 0 (Nat.le_refl 0) (by omega)]
    simp only [Nat.zero_add, Nat.sub_zero]
    rw [List.take_left' (by simp only [List.length_append] at t2 ⊢; omega)]
    rfl
  · intro hw
    unfold Store.removeColumn
    rw [if_pos hw]

/-! ## Cases -/

/-- A table of rows of three, one and two tokens. -/
def demoRows : List (List Nat) := [[1, 2, 3], [4], [5, 6]]

theorem demo_holds : Store.Holds ⟨demoRows.flatten, idx 0 demoRows⟩ demoRows := ⟨rfl, rfl, by decide, by decide⟩

example : ∃ st', Store.removeRowRange ⟨demoRows.flatten, idx 0 demoRows⟩ 0 1 = ok (true, st') ∧ st'.Shows [[5, 6]] := by
  obtain ⟨st', h1, -, h3⟩ := (C186_remove_rows _ demoRows demo_holds 0 1).1 (by decide)
  exact ⟨st', h1, h3⟩

example : ∃ st', Store.removeColumn ⟨demoRows.flatten, idx 0 demoRows⟩ 3 1 = ok (true, st', 2) ∧ st'.Shows [[1, 3], [4], [5]] := by
  obtain ⟨st', h1, -, h3⟩ := (C186_remove_column _ demoRows demo_holds 3 1).1 (by decide)
  exact ⟨st', h1, h3⟩

/-- The first column: the row of one token stays, without any. -/
example : ∃ st', Store.removeColumn ⟨demoRows.flatten, idx 0 demoRows⟩ 3 0 = ok (true, st', 2) ∧ st'.Shows [[2, 3], [], [6]] := by
  obtain ⟨st', h1, -, h3⟩ := (C186_remove_column _ demoRows demo_holds 3 0).1 (by decide)
  exact ⟨st', h1, h3⟩

end Strtk.Grid
