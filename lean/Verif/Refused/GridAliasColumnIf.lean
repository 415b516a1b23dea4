import Verif.Refused.GridAliasColumn
import Verif.Refused.GridJoinIf

/-!
# Joining a column of a token grid over selected rows into the string that is the delimiter, or into the string whose text was loaded (strtk.hpp 7205-7247)
-/

namespace Strtk.Refused
open Outcome Mem Strtk.Codec Strtk.Grid

/-! ## Model -/

/-- The loop of `join_column` with a predicate (7221-7244) when `delimiter` and `result` are one string. -/
def joinColumnIfLoopSelf {α : Type} (st : Store (List α)) (p : Nat → List (List α) → Bool) (col last : Nat) : Nat → Nat → Bool → List α → Outcome (List α)
  | 0, _, _, result => ok result
  | n + 1, i, appended, result => do
    let r ← deref st.index i
    if col < tokenCount r then do
      let row ← rowOf st.tokens r
      let t ← deref st.tokens (r.1 + col)
      let result := if !result.isEmpty && appended && last != i then result ++ result else result
      if t ≠ [] ∧ p i row = true then joinColumnIfLoopSelf st p col last n (i + 1) true (result ++ t) else joinColumnIfLoopSelf st p col last n (i + 1) false result
    else joinColumnIfLoopSelf st p col last n (i + 1) appended result

/-- `join_column(col,row_range,predicate,s,s)` (7206-7247). -/
def joinColumnIfSelf {α : Type} (g : Grid (List α)) (p : Nat → List (List α) → Bool) (col a b : Nat) (result : List α) : Outcome (Bool × List α) :=
  if col > g.maxCol then ok (false, result)
  else if g.rangeInvalid a b then ok (false, result)
  else do
    let result ← joinColumnIfLoopSelf g.store p col (sub32 b 1) (b - a) a false result
    ok (true, result)

/-- The loop of `join_column` with a predicate (7221-7244) when the tokens lie in `result`.  The predicate is taken to look at the tokens of its row. -/
def joinColumnIfLoopOwn (grow : Nat → Nat → Nat) (st : Store (Nat × Nat)) (p : Nat → List (List Byte) → Bool) (col last : Nat) (delim : List Byte) :
    Nat → Nat → Bool → Own → Outcome Own
  | 0, _, _, s => ok s
  | n + 1, i, appended, s => do
    let r ← deref st.index i
    if col < tokenCount r then do
      let row ← rowOf st.tokens r
      let t ← deref st.tokens (r.1 + col)
      let s := if !delim.isEmpty && appended && last != i then s.append grow delim else s
      if t.1 ≠ t.2 then
        if s.live then
          if p i (row.map (tokenText s.text)) then joinColumnIfLoopOwn grow st p col last delim n (i + 1) true (s.append grow (tokenText s.text t))
          else joinColumnIfLoopOwn grow st p col last delim n (i + 1) false s
        else ub
      else joinColumnIfLoopOwn grow st p col last delim n (i + 1) false s
    else joinColumnIfLoopOwn grow st p col last delim n (i + 1) appended s

/-- `join_column(col,row_range,predicate,delimiter,s)` (7206-7247) of a grid that was made from the string `s`. -/
def joinColumnIfOwn (grow : Nat → Nat → Nat) (g : Grid (Nat × Nat)) (p : Nat → List (List Byte) → Bool) (col a b : Nat) (delim : List Byte) (s : Own) : Outcome (Bool × Own) :=
  if col > g.maxCol then ok (false, s)
  else if g.rangeInvalid a b then ok (false, s)
  else do
    let s ← joinColumnIfLoopOwn grow g.store p col (sub32 b 1) delim (b - a) a false s
    ok (true, s)

/-! ## Specification -/

/-- Some row of `rows`, which begin with number `i`, has its token in the column put out, and a later row that is not the last one has the column, too. -/
def SelectedFollows {α : Type} (p : Nat → List (List α) → Bool) (col i : Nat) (rows : List (List (List α))) : Prop :=
  ∃ j k r r' t, j < k ∧ k + 1 < rows.length ∧ rows[j]? = some r ∧ rows[k]? = some r' ∧ r[col]? = some t ∧ t ≠ [] ∧ p (i + j) r = true ∧ col < r'.length

/-! ## The delimiter -/

/-- What `joinColumnIfLoopSelf` makes, over the rows. -/
def rowsSelf {α : Type} (p : Nat → List (List α) → Bool) (col : Nat) : Bool → Nat → List (List (List α)) → List α → List α
  | _, _, [], res => res
  | ap, i, row :: rest, res =>
    match row[col]? with
    | none => rowsSelf p col ap (i + 1) rest res
    | some t =>
      let res := if !res.isEmpty && ap && !rest.isEmpty then res ++ res else res
      if t ≠ [] ∧ p i row = true then rowsSelf p col true (i + 1) rest (res ++ t) else rowsSelf p col false (i + 1) rest res

theorem joinColumnIfLoopSelf_eq {α : Type} {g : Grid (List α)} {rows : List (List (List α))} (h : Rep g rows) (p : Nat → List (List α) → Bool) (col b : Nat)
    (hb : b ≤ rows.length) : ∀ (n i : Nat) (ap : Bool) (res : List α), i + n = b →
    joinColumnIfLoopSelf g.store p col (b - 1) n i ap res = ok (rowsSelf p col ap i ((rows.drop i).take n) res) := by
  intro n
  induction n with
  | zero => intro i ap res _; simp [joinColumnIfLoopSelf, rowsSelf]
  | succ n ih =>
    intro i ap res hi
    obtain ⟨r, h1, _, _, h3, h4, h5, _⟩ := h.access i (by omega)
    have hd : (rows.drop i).take (n + 1) = rows[i] :: (rows.drop (i + 1)).take n := by
      rw [List.drop_eq_getElem_cons (by omega), List.take_succ_cons]
    have hrest : (b - 1 != i) = !((rows.drop (i + 1)).take n).isEmpty := by
      have := take_rest rows i n b hi hb
      cases hh : (rows.drop (i + 1)).take n with
      | nil => rw [hh] at this; simpa using this
      | cons x y => rw [hh] at this; simpa using this
    simp only [hd, rowsSelf, joinColumnIfLoopSelf, h1, ok_bind, h3, hrest]
    by_cases hc : col < rows[i].length
    · simp only [if_pos hc, h5, h4 col hc, ok_bind, List.getElem?_eq_getElem hc]
      split <;> exact ih _ _ _ (by omega)
    · simp only [if_neg hc, List.getElem?_eq_none (Nat.le_of_not_lt hc)]
      exact ih _ _ _ (by omega)

theorem rowsSelf_lt {α : Type} (p : Nat → List (List α) → Bool) (col : Nat) (d : List α) : ∀ (rows : List (List (List α))) (ap : Bool) (i : Nat) (r r' : List α),
    r.length < r'.length → d.length ≤ r'.length → (r ++ (columnPieces d p col ap i rows).flatten).length < (rowsSelf p col ap i rows r').length := by
  intro rows
  induction rows with
  | nil => intro ap i r r' h _; simpa [columnPieces, rowsSelf] using h
  | cons row rest ih =>
    intro ap i r r' h hd
    cases hg : row[col]? with
    | none => simp only [columnPieces, rowsSelf, hg]; exact ih _ _ _ _ h hd
    | some t =>
      have h1 : (r ++ (if ap = true ∧ d ≠ [] ∧ rest ≠ [] then [d] else []).flatten).length < (if !r'.isEmpty && ap && !rest.isEmpty then r' ++ r' else r').length := by
        have : r' ≠ [] := List.length_pos_iff.mp (by omega)
        cases ap <;> cases rest <;> cases r' <;> cases d <;> simp at h hd this ⊢ <;> omega
      have h2 : d.length ≤ (if !r'.isEmpty && ap && !rest.isEmpty then r' ++ r' else r').length := by
        split
        · simp; omega
        · exact hd
      simp only [columnPieces, rowsSelf, hg]
      by_cases hk : t ≠ [] ∧ p i row = true
      · simp only [if_pos hk, decide_eq_true hk]
        have := ih true (i + 1) (r ++ (if ap = true ∧ d ≠ [] ∧ rest ≠ [] then [d] else []).flatten ++ t) ((if !r'.isEmpty && ap && !rest.isEmpty then r' ++ r' else r') ++ t)
          (by simp only [List.length_append] at h1 ⊢; omega) (by simp only [List.length_append]; omega)
        simpa [List.append_assoc] using this
      · simp only [if_neg hk, decide_eq_false hk]
        have := ih false (i + 1) (r ++ (if ap = true ∧ d ≠ [] ∧ rest ≠ [] then [d] else []).flatten) (if !r'.isEmpty && ap && !rest.isEmpty then r' ++ r' else r') h1 h2
        simpa [List.append_assoc] using this

/-- Some row that is not the last one has the column. -/
def Later {α : Type} (col : Nat) (rows : List (List (List α))) : Prop := ∃ k r, k + 1 < rows.length ∧ rows[k]? = some r ∧ col < r.length

theorem later_none {α : Type} (col : Nat) (row : List (List α)) (rest : List (List (List α))) (h : row.length ≤ col) : Later col (row :: rest) ↔ Later col rest := by
  constructor
  · rintro ⟨k, r, h1, h2, h3⟩
    cases k with
    | zero => simp at h2; subst h2; omega
    | succ k => exact ⟨k, r, by simpa using h1, by simpa using h2, h3⟩
  · rintro ⟨k, r, h1, h2, h3⟩
    exact ⟨k + 1, r, by simpa using h1, by simpa using h2, h3⟩

theorem follows_cons {α : Type} (p : Nat → List (List α) → Bool) (col i : Nat) (row : List (List α)) (rest : List (List (List α))) :
    SelectedFollows p col i (row :: rest) ↔ SelectedFollows p col (i + 1) rest ∨ ((∃ t, row[col]? = some t ∧ t ≠ [] ∧ p i row = true) ∧ Later col rest) := by
  constructor
  · rintro ⟨j, k, r, r', t, h1, h2, h3, h4, h5, h6, h7, h8⟩
    cases k with
    | zero => omega
    | succ k =>
      cases j with
      | zero =>
        simp at h3
        subst h3
        exact Or.inr ⟨⟨t, h5, h6, h7⟩, k, r', by simpa using h2, by simpa using h4, h8⟩
      | succ j =>
        exact Or.inl ⟨j, k, r, r', t, by omega, by simpa using h2, by simpa using h3, by simpa using h4, h5, h6, by rw [← h7]; congr 1; omega, h8⟩
  · rintro (⟨j, k, r, r', t, h1, h2, h3, h4, h5, h6, h7, h8⟩ | ⟨⟨t, h5, h6, h7⟩, k, r', h2, h4, h8⟩)
    · exact ⟨j + 1, k + 1, r, r', t, by omega, by simpa using h2, by simpa using h3, by simpa using h4, h5, h6, by rw [← h7]; congr 1; omega, h8⟩
    · exact ⟨0, k + 1, row, r', t, by omega, by simpa using h2, rfl, by simpa using h4, h5, h6, h7, h8⟩

theorem logic_kept {A E L B : Prop} (hE : E) (hB : ¬ B) : ¬ (A ∨ (true = true ∧ L)) ↔ ¬ ((A ∨ (E ∧ L)) ∨ B) := by
  simp [hE, hB]

theorem logic_left {A E L B : Prop} (hE : ¬ E) (hB : ¬ B) : ¬ (A ∨ (false = true ∧ L)) ↔ ¬ ((A ∨ (E ∧ L)) ∨ B) := by
  simp [hE, hB]

theorem rowsSelf_iff {α : Type} (p : Nat → List (List α) → Bool) (col : Nat) (d : List α) : ∀ (rows : List (List (List α))) (ap : Bool) (i : Nat) (r : List α),
    d.length ≤ r.length → (ap = true → d.length < r.length) →
    (rowsSelf p col ap i rows r = r ++ (columnPieces d p col ap i rows).flatten ↔ ¬ (SelectedFollows p col i rows ∨ (ap = true ∧ Later col rows))) := by
  intro rows
  induction rows with
  | nil =>
    intro ap i r _ _
    simp only [rowsSelf, columnPieces, List.flatten_nil, List.append_nil, true_iff]
    rintro (⟨j, k, r, r', t, _, h, _⟩ | ⟨_, k, r, h, _⟩) <;> simp at h
  | cons row rest ih =>
    intro ap i r hd hap
    cases hg : row[col]? with
    | none =>
      have hl : row.length ≤ col := by simpa using hg
      simp only [columnPieces, rowsSelf, hg]
      rw [ih ap (i + 1) r hd hap, follows_cons, later_none col row rest hl]
      simp [hg]
    | some t =>
      have hl : col < row.length := (List.getElem?_eq_some_iff.mp hg).1
      by_cases hx : ap = true ∧ rest ≠ []
      · obtain ⟨hx, hr⟩ := hx
        have h0 := hap hx
        have hlater : Later col (row :: rest) := ⟨0, row, by simpa using List.length_pos_iff.mpr hr, rfl, hl⟩
        refine ⟨fun e => absurd e ?_, fun h => absurd (Or.inr ⟨hx, hlater⟩) h⟩
        intro e
        have e := congrArg List.length e
        subst hx
        have hrn : r ≠ [] := List.length_pos_iff.mp (by omega)
        have h1 : (r ++ (if true = true ∧ d ≠ [] ∧ rest ≠ [] then [d] else []).flatten).length < (if !r.isEmpty && true && !rest.isEmpty then r ++ r else r).length := by
          cases rest <;> cases r <;> cases d <;> simp at h0 hr hrn ⊢ <;> omega
        have h2 : d.length ≤ (if !r.isEmpty && true && !rest.isEmpty then r ++ r else r).length := by
          split
          · simp; omega
          · omega
        simp only [columnPieces, rowsSelf, hg] at e
        by_cases hk : t ≠ [] ∧ p i row = true
        · simp only [if_pos hk, decide_eq_true hk] at e
          have := rowsSelf_lt p col d rest true (i + 1) (r ++ (if true = true ∧ d ≠ [] ∧ rest ≠ [] then [d] else []).flatten ++ t)
            ((if !r.isEmpty && true && !rest.isEmpty then r ++ r else r) ++ t) (by simp only [List.length_append] at h1 ⊢; omega) (by simp only [List.length_append]; omega)
          rw [e] at this
          simp at this
        · simp only [if_neg hk, decide_eq_false hk] at e
          have := rowsSelf_lt p col d rest false (i + 1) (r ++ (if true = true ∧ d ≠ [] ∧ rest ≠ [] then [d] else []).flatten)
            (if !r.isEmpty && true && !rest.isEmpty then r ++ r else r) h1 h2
          rw [e] at this
          simp at this
      · have hs : (if !r.isEmpty && ap && !rest.isEmpty then r ++ r else r) = r := by
          rw [if_neg]
          intro hh
          simp only [Bool.and_eq_true, Bool.not_eq_true', List.isEmpty_eq_false_iff] at hh
          exact hx ⟨hh.1.2, hh.2⟩
        have hp : (if ap = true ∧ d ≠ [] ∧ rest ≠ [] then [d] else []) = [] := if_neg fun hh => hx ⟨hh.1, hh.2.2⟩
        have hno : ¬ (ap = true ∧ Later col (row :: rest)) := by
          rintro ⟨h1, k, _, h2, _⟩
          refine hx ⟨h1, ?_⟩
          rintro rfl
          simp at h2
        simp only [columnPieces, rowsSelf, hg, hs, hp, List.nil_append]
        rw [follows_cons]
        by_cases hk : t ≠ [] ∧ p i row = true
        · simp only [if_pos hk, decide_eq_true hk]
          have hpos := List.length_pos_iff.mpr hk.1
          have := ih true (i + 1) (r ++ t) (by simp only [List.length_append]; omega) (fun _ => by simp only [List.length_append]; omega)
          simp only [List.cons_append, List.nil_append, List.flatten_cons, ← List.append_assoc]
          rw [this]
          exact logic_kept ⟨t, hg, hk⟩ hno
        · simp only [if_neg hk, decide_eq_false hk, List.nil_append]
          rw [ih false (i + 1) r hd (by simp)]
          have : ¬ ∃ t, row[col]? = some t ∧ t ≠ [] ∧ p i row = true := by
            rintro ⟨t', e, h⟩
            rw [hg] at e
            cases e
            exact hk h
          exact logic_left this hno

/-! ## C190 -/

/-- **C190**: `join_column` over selected rows with one string as delimiter and as result does the same as with a copy of it as delimiter exactly when no row of the range but
the last one has the column behind a row whose token was put out.  Missing for C190: columns where one has. -/
theorem C190_column_if_delimiter_partial {α : Type} (g : Grid (List α)) (rows : List (List (List α))) (h : Rep g rows) (p : Nat → List (List α) → Bool) (col a b : Nat)
    (hc : col ≤ g.maxCol) (hv : a ≤ b ∧ b ≤ rows.length) (s : List α) :
    joinColumnIfSelf g p col a b s = g.joinColumnIf p col a b s s ↔ ¬ SelectedFollows p col a (Grid.between a b rows) := by
  have hiff := rowsSelf_iff p col s (Grid.between a b rows) false a s le_rfl (by simp)
  simp only [Bool.false_eq_true, false_and, or_false] at hiff
  rw [← hiff]
  unfold joinColumnIfSelf Grid.joinColumnIf
  rw [if_neg (by omega), if_neg (fun hh => (h.rangeInvalid a b).mp hh hv), if_neg (by omega), if_neg (fun hh => (h.rangeInvalid a b).mp hh hv)]
  by_cases hab : a = b
  · subst hab
    simp [joinColumnIfLoopSelf, joinColumnIfLoop, Grid.between, rowsSelf, columnPieces]
  · have hsm := rows_small h
    have hsub : sub32 b 1 = b - 1 := sub32_le b 1 (by omega) (by omega)
    rw [hsub, joinColumnIfLoopSelf_eq h p col b hv.2 (b - a) a false s (by omega), joinColumnIf_pieces h p col b s hv.2 (b - a) a false s (by omega), ok_bind, ok_bind]
    constructor
    · intro e; exact (Prod.mk.inj (Outcome.ok.inj e)).2
    · intro e
      show ok (true, rowsSelf p col false a (Grid.between a b rows) s) = _
      rw [e]
      rfl

/-! ## The string that was loaded -/

theorem joinColumnIfLoopOwn_ok (grow : Nat → Nat → Nat) {g : Grid (Nat × Nat)} {rows : List (List (Nat × Nat))} (h : Rep g rows) (buf : List Byte)
    (hv : ∀ t ∈ rows.flatten, t.1 ≤ t.2 ∧ t.2 ≤ buf.length) (p : Nat → List (List Byte) → Bool) (col b : Nat) (delim : List Byte) (hb : b ≤ rows.length) :
    ∀ (n i : Nat) (ap : Bool) (s : Own) (more : List Byte), i + n = b → s.live = true → s.text = buf ++ more →
    s.text.length + (columnPieces delim p col ap i (((rows.drop i).take n).map (List.map (tokenText buf)))).flatten.length ≤ s.cap →
    joinColumnIfLoopOwn grow g.store p col (b - 1) delim n i ap s =
      ok { s with text := s.text ++ (columnPieces delim p col ap i (((rows.drop i).take n).map (List.map (tokenText buf)))).flatten } := by
  intro n
  induction n with
  | zero => intro i ap s more _ _ _ _; simp [joinColumnIfLoopOwn, columnPieces]
  | succ n ih =>
    intro i ap s more hi hl ht hroom
    obtain ⟨r, h1, _, _, h3, h4, h5, _⟩ := h.access i (by omega)
    have hd : (rows.drop i).take (n + 1) = rows[i] :: (rows.drop (i + 1)).take n := by
      rw [List.drop_eq_getElem_cons (by omega), List.take_succ_cons]
    have hrest : ((rows.drop (i + 1)).take n).map (List.map (tokenText buf)) ≠ [] ↔ (b - 1 != i) = true := by
      rw [← take_rest rows i n b hi hb]; simp
    rw [hd, List.map_cons] at hroom ⊢
    simp only [columnPieces, hrest, List.getElem?_map] at hroom ⊢
    rw [joinColumnIfLoopOwn, h1, ok_bind, h3]
    by_cases hc : col < rows[i].length
    · rw [if_pos hc, h5, ok_bind, h4 col hc, ok_bind]
      simp only [List.getElem?_eq_getElem hc, Option.map_some, List.flatten_append, List.length_append] at hroom ⊢
      have hm := hv rows[i][col] (List.mem_flatten.mpr ⟨rows[i], by simp, List.getElem_mem hc⟩)
      have hne := tokenText_ne buf rows[i][col] hm.1 hm.2
      generalize hx : (if ap = true ∧ delim ≠ [] ∧ (b - 1 != i) = true then [delim] else []).flatten = x at hroom ⊢
      have e : (if (!delim.isEmpty && ap && b - 1 != i) = true then s.append grow delim else s) = { s with text := s.text ++ x } := by
        by_cases hg : ap = true ∧ delim ≠ [] ∧ (b - 1 != i) = true
        · have hx' : x = delim := by rw [← hx, if_pos hg]; simp
          rw [if_pos (by rw [hg.1, hg.2.2]; cases delim <;> simp at hg ⊢), hx', Own.append, if_pos (by rw [hx'] at hroom; omega)]
        · have hx' : x = [] := by rw [← hx, if_neg hg]; rfl
          rw [if_neg (by
            intro hh
            simp only [Bool.and_eq_true, Bool.not_eq_true', List.isEmpty_eq_false_iff] at hh
            exact hg ⟨hh.1.2, hh.1.1, hh.2⟩), hx', List.append_nil]
      have htx : s.text ++ x = buf ++ (more ++ x) := by rw [ht, List.append_assoc]
      have hrow : rows[i].map (tokenText (s.text ++ x)) = rows[i].map (tokenText buf) := by
        refine List.map_congr_left fun t hm => ?_
        have := hv t (List.mem_flatten.mpr ⟨rows[i], by simp, hm⟩)
        rw [htx, tokenText_prefix buf _ t this.1 this.2]
      have htok : tokenText (s.text ++ x) rows[i][col] = tokenText buf rows[i][col] := by
        rw [htx, tokenText_prefix buf _ _ hm.1 hm.2]
      simp only [e, hl, if_true, hrow, htok]
      by_cases ha : rows[i][col].1 ≠ rows[i][col].2
      · rw [if_pos ha]
        by_cases hk : p i (rows[i].map (tokenText buf)) = true
        · have hb' : tokenText buf rows[i][col] ≠ [] ∧ p i (rows[i].map (tokenText buf)) = true := ⟨hne.mpr ha, hk⟩
          simp only [if_pos hb', decide_eq_true hb', List.flatten_cons, List.flatten_nil, List.append_nil] at hroom ⊢
          rw [if_pos hk, Own.append, if_pos (by simp only [List.length_append]; omega)]
          refine (ih (i + 1) true _ (more ++ x ++ tokenText buf rows[i][col]) (by omega) rfl (by simp [ht]) (by simp only [List.length_append]; omega)).trans ?_
          simp
        · have hb' : ¬ (tokenText buf rows[i][col] ≠ [] ∧ p i (rows[i].map (tokenText buf)) = true) := fun h => hk h.2
          simp only [if_neg hb', decide_eq_false hb', List.flatten_nil, List.length_nil, List.nil_append] at hroom ⊢
          rw [if_neg hk]
          refine (ih (i + 1) false _ (more ++ x) (by omega) rfl (by simp [ht]) (by simp only [List.length_append]; omega)).trans ?_
          simp
      · have hb' : ¬ (tokenText buf rows[i][col] ≠ [] ∧ p i (rows[i].map (tokenText buf)) = true) := fun h => ha (hne.mp h.1)
        simp only [if_neg hb', decide_eq_false hb', List.flatten_nil, List.length_nil, List.nil_append] at hroom ⊢
        rw [if_neg ha]
        refine (ih (i + 1) false _ (more ++ x) (by omega) rfl (by simp [ht]) (by simp only [List.length_append]; omega)).trans ?_
        simp
    · rw [if_neg hc]
      simp only [List.getElem?_eq_none (Nat.le_of_not_lt hc), Option.map_none] at hroom ⊢
      exact ih _ _ _ more (by omega) hl ht hroom

/-- **C190**: `join_column` over selected rows into the string that the grid was made from, with room for all of it: the selected tokens are put behind the text, and the grid
still points to its tokens.  Missing for C190: without the room, `C190_column_if_moved`. -/
theorem C190_column_if_own_partial (grow : Nat → Nat → Nat) (g : Grid (Nat × Nat)) (rows : List (List (Nat × Nat))) (h : Rep g rows) (buf more : List Byte)
    (ho : InOrder buf rows.flatten) (p : Nat → List (List Byte) → Bool) (col a b : Nat) (hc : col ≤ g.maxCol) (hv : a ≤ b ∧ b ≤ rows.length) (delim : List Byte) (cap : Nat) :
    let ts := (columnPieces delim p col false a ((Grid.between a b rows).map (List.map (tokenText buf)))).flatten
    (buf ++ more ++ ts).length ≤ cap →
    joinColumnIfOwn grow g p col a b delim ⟨buf ++ more, cap, true⟩ = ok (true, ⟨buf ++ more ++ ts, cap, true⟩) := by
  intro ts hroom
  rw [List.length_append] at hroom
  unfold joinColumnIfOwn
  rw [if_neg (by omega), if_neg (fun hh => (h.rangeInvalid a b).mp hh hv)]
  rcases Nat.eq_zero_or_pos b with hz | hz
  · have : a = 0 := by omega
    subst hz this
    simp [joinColumnIfLoopOwn, ts, Grid.between, columnPieces]
  · have hsm := rows_small h
    rw [sub32_le b 1 hz (by omega), joinColumnIfLoopOwn_ok grow h buf ho.1 p col b delim hv.2 (b - a) a false _ more (by omega) rfl rfl hroom]
    rfl

theorem joinColumnIfLoopOwn_dead (grow : Nat → Nat → Nat) {g : Grid (Nat × Nat)} {rows : List (List (Nat × Nat))} (h : Rep g rows)
    (p : Nat → List (List Byte) → Bool) (col last : Nat) (delim : List Byte) : ∀ (n i : Nat) (ap : Bool) (s : Own) (m : Nat) (r : List (Nat × Nat)) (t : Nat × Nat),
    i + n ≤ rows.length → s.live = false → m < n → rows[i + m]? = some r → r[col]? = some t → t.1 ≠ t.2 →
    joinColumnIfLoopOwn grow g.store p col last delim n i ap s = ub := by
  intro n
  induction n with
  | zero => intro i ap s m r t _ _ hm; omega
  | succ n ih =>
    intro i ap s m r t hi hl hm hr ht hne
    obtain ⟨x, h1, _, _, h3, h4, h5, _⟩ := h.access i (by omega)
    have hdead : (if (!delim.isEmpty && ap && last != i) = true then s.append grow delim else s).live = false := by
      split
      · exact append_dead grow s delim hl
      · exact hl
    rw [joinColumnIfLoopOwn, h1, ok_bind, h3]
    cases m with
    | zero =>
      rw [Nat.add_zero, List.getElem?_eq_getElem (by omega)] at hr
      cases hr
      obtain ⟨hc, rfl⟩ := List.getElem?_eq_some_iff.mp ht
      rw [if_pos hc, h5, ok_bind, h4 col hc, ok_bind]
      simp only [hdead, if_pos hne, Bool.false_eq_true, if_false]
    | succ m =>
      have hr' : rows[i + 1 + m]? = some r := by rw [← hr]; congr 1; omega
      by_cases hc : col < rows[i].length
      · rw [if_pos hc, h5, ok_bind, h4 col hc, ok_bind]
        simp only [hdead, Bool.false_eq_true, if_false]
        split
        · rfl
        · exact ih _ _ _ m r t (by omega) hdead (by omega) hr' ht hne
      · rw [if_neg hc]
        exact ih _ _ _ m r t (by omega) hl (by omega) hr' ht hne

theorem append_cases (grow : Nat → Nat → Nat) (s : Own) (x : List Byte) :
    (s.append grow x).live = false ∨ (s.text.length + x.length ≤ s.cap ∧ s.append grow x = { s with text := s.text ++ x }) := by
  unfold Own.append
  by_cases hf : s.text.length + x.length ≤ s.cap
  · rw [if_pos hf]; exact Or.inr ⟨hf, rfl⟩
  · rw [if_neg hf]; exact Or.inl rfl

theorem joinColumnIfLoopOwn_late (grow : Nat → Nat → Nat) {g : Grid (Nat × Nat)} {rows : List (List (Nat × Nat))} (h : Rep g rows) (buf : List Byte)
    (hv : ∀ t ∈ rows.flatten, t.1 ≤ t.2 ∧ t.2 ≤ buf.length) (p : Nat → List (List Byte) → Bool) (col b : Nat) (delim : List Byte) (hb : b ≤ rows.length) :
    ∀ (n i : Nat) (ap : Bool) (s : Own) (more : List Byte) (m : Nat) (r : List (Nat × Nat)) (t : Nat × Nat),
    i + n = b → s.text = buf ++ more → s.text.length ≤ s.cap → m < n → rows[i + m]? = some r → r[col]? = some t → t.1 ≠ t.2 →
    s.cap < s.text.length + (columnPieces delim p col ap i (((rows.drop i).take m).map (List.map (tokenText buf)))).flatten.length →
    joinColumnIfLoopOwn grow g.store p col (b - 1) delim n i ap s = ub := by
  intro n
  induction n with
  | zero => intro i ap s more m r t _ _ _ hm; omega
  | succ n ih =>
    intro i ap s more m r t hi ht hfit hm hr hg hne hlong
    cases m with
    | zero => simp [columnPieces] at hlong; omega
    | succ m =>
      have hr' : rows[i + 1 + m]? = some r := by rw [← hr]; congr 1; omega
      obtain ⟨x, h1, _, _, h3, h4, h5, _⟩ := h.access i (by omega)
      have hd : (rows.drop i).take (m + 1) = rows[i] :: (rows.drop (i + 1)).take m := by
        rw [List.drop_eq_getElem_cons (by omega), List.take_succ_cons]
      have dead := fun (ap : Bool) (s : Own) (hl : s.live = false) =>
        joinColumnIfLoopOwn_dead grow h p col (b - 1) delim n (i + 1) ap s m r t (by omega) hl (by omega) hr' hg hne
      rw [hd, List.map_cons] at hlong
      simp only [columnPieces, List.getElem?_map] at hlong
      rw [joinColumnIfLoopOwn, h1, ok_bind, h3]
      by_cases hc : col < rows[i].length
      · rw [if_pos hc, h5, ok_bind, h4 col hc, ok_bind]
        simp only [List.getElem?_eq_getElem hc, Option.map_some, List.flatten_append, List.length_append] at hlong
        have hmm := hv rows[i][col] (List.mem_flatten.mpr ⟨rows[i], by simp, List.getElem_mem hc⟩)
        have hnt := tokenText_ne buf rows[i][col] hmm.1 hmm.2
        have hlast : (b - 1 != i) = true := by simp only [bne_iff_ne, ne_eq]; omega
        generalize hx : (if ap = true ∧ delim ≠ [] ∧ ((rows.drop (i + 1)).take m).map (List.map (tokenText buf)) ≠ [] then [delim] else []).flatten = x at hlong
        have hs1 : (if (!delim.isEmpty && ap && b - 1 != i) = true then s.append grow delim else s).live = false ∨
            ∃ y, x.length ≤ y.length ∧ s.text.length + y.length ≤ s.cap ∧
              (if (!delim.isEmpty && ap && b - 1 != i) = true then s.append grow delim else s) = { s with text := s.text ++ y } := by
          by_cases hq : (!delim.isEmpty && ap && b - 1 != i) = true
          · rw [if_pos hq]
            refine (append_cases grow s delim).imp id fun ⟨h1, h2⟩ => ⟨delim, ?_, h1, h2⟩
            rw [← hx]
            split <;> simp
          · rw [if_neg hq]
            refine Or.inr ⟨[], ?_, by simpa using hfit, by simp⟩
            rw [← hx, if_neg]
            · simp
            · rintro ⟨q1, q2, _⟩
              refine hq ?_
              rw [q1, hlast]
              cases delim <;> simp at q2 ⊢
        generalize (if (!delim.isEmpty && ap && b - 1 != i) = true then s.append grow delim else s) = s1 at hs1 ⊢
        rcases hs1 with hl | ⟨y, hy, hyf, rfl⟩
        · simp only [hl, Bool.false_eq_true, if_false]
          split
          · rfl
          · exact dead _ _ hl
        · have hty : s.text ++ y = buf ++ (more ++ y) := by rw [ht, List.append_assoc]
          have hrow : rows[i].map (tokenText (s.text ++ y)) = rows[i].map (tokenText buf) := by
            refine List.map_congr_left fun u hu => ?_
            have := hv u (List.mem_flatten.mpr ⟨rows[i], by simp, hu⟩)
            rw [hty, tokenText_prefix buf _ u this.1 this.2]
          have htok : tokenText (s.text ++ y) rows[i][col] = tokenText buf rows[i][col] := by
            rw [hty, tokenText_prefix buf _ _ hmm.1 hmm.2]
          simp only [hrow, htok]
          by_cases ha : rows[i][col].1 ≠ rows[i][col].2
          · rw [if_pos ha]
            split
            · by_cases hk : p i (rows[i].map (tokenText buf)) = true
              · have hb' : tokenText buf rows[i][col] ≠ [] ∧ p i (rows[i].map (tokenText buf)) = true := ⟨hnt.mpr ha, hk⟩
                simp only [if_pos hb', decide_eq_true hb', List.flatten_cons, List.flatten_nil, List.append_nil] at hlong
                rw [if_pos hk]
                rcases append_cases grow { s with text := s.text ++ y } (tokenText buf rows[i][col]) with hl | ⟨h1, h2⟩
                · exact dead _ _ hl
                · rw [h2]
                  simp only [List.length_append] at h1
                  exact ih _ _ _ (more ++ y ++ tokenText buf rows[i][col]) m r t (by omega) (by simp [ht]) (by simp only [List.length_append]; omega) (by omega) hr' hg hne
                    (by simp only [List.length_append]; omega)
              · have hb' : ¬ (tokenText buf rows[i][col] ≠ [] ∧ p i (rows[i].map (tokenText buf)) = true) := fun h => hk h.2
                simp only [if_neg hb', decide_eq_false hb', List.flatten_nil, List.length_nil] at hlong
                rw [if_neg hk]
                exact ih _ _ _ (more ++ y) m r t (by omega) (by simp [ht]) (by simp only [List.length_append]; omega) (by omega) hr' hg hne
                  (by simp only [List.length_append]; omega)
            · rfl
          · have hb' : ¬ (tokenText buf rows[i][col] ≠ [] ∧ p i (rows[i].map (tokenText buf)) = true) := fun h => ha (hnt.mp h.1)
            simp only [if_neg hb', decide_eq_false hb', List.flatten_nil, List.length_nil] at hlong
            rw [if_neg ha]
            exact ih _ _ _ (more ++ y) m r t (by omega) (by simp [ht]) (by simp only [List.length_append]; omega) (by omega) hr' hg hne
              (by simp only [List.length_append]; omega)
      · rw [if_neg hc]
        simp only [List.getElem?_eq_none (Nat.le_of_not_lt hc), Option.map_none] at hlong
        exact ih _ _ _ more m r t (by omega) ht hfit (by omega) hr' hg hne hlong

/-- **C190** (negative result): as soon as what the first `m` rows of the range put out no longer fits in the string, a token that is not empty in the row behind them is read
from memory that was given back. -/
theorem C190_column_if_moved (grow : Nat → Nat → Nat) (g : Grid (Nat × Nat)) (rows : List (List (Nat × Nat))) (h : Rep g rows) (buf more : List Byte)
    (ho : InOrder buf rows.flatten) (p : Nat → List (List Byte) → Bool) (col a b : Nat) (hc : col ≤ g.maxCol) (hv : a ≤ b ∧ b ≤ rows.length) (delim : List Byte) (cap : Nat)
    (hcap : (buf ++ more).length ≤ cap) (m : Nat) (r : List (Nat × Nat)) (t : Nat × Nat) (hr : (Grid.between a b rows)[m]? = some r) (ht : r[col]? = some t) (hw : tokenText buf t ≠ [])
    (hlong : cap < (buf ++ more ++ (columnPieces delim p col false a (((Grid.between a b rows).take m).map (List.map (tokenText buf)))).flatten).length) :
    joinColumnIfOwn grow g p col a b delim ⟨buf ++ more, cap, true⟩ = ub := by
  have hm : m < b - a := by
    have := (List.getElem?_eq_some_iff.mp hr).1
    simp only [Grid.between, List.length_take] at this
    omega
  have hr' : rows[a + m]? = some r := by
    rw [← hr, Grid.between, List.getElem?_take_of_lt hm, List.getElem?_drop]
  have hmem := ho.1 t (List.mem_flatten.mpr ⟨r, List.mem_of_getElem? hr', List.mem_of_getElem? ht⟩)
  have hsm := rows_small h
  have htake : (Grid.between a b rows).take m = (rows.drop a).take m := by
    rw [Grid.between, List.take_take, Nat.min_eq_left (by omega)]
  rw [List.length_append, htake] at hlong
  unfold joinColumnIfOwn
  rw [if_neg (by omega), if_neg (fun hh => (h.rangeInvalid a b).mp hh hv), sub32_le b 1 (by omega) (by omega),
    joinColumnIfLoopOwn_late grow h buf ho.1 p col b delim hv.2 (b - a) a false _ more m r t (by omega) rfl hcap hm hr' ht ((tokenText_ne buf t hmem.1 hmem.2).mp hw) hlong]
  rfl

/-! ## Concrete cases -/

/-- Three rows "a", "b", "c" of one column. -/
example : joinColumnIfSelf ⟨⟨[['a'], ['b'], ['c']], [(0, 0), (1, 1), (2, 2)]⟩, 1, 1⟩ (fun _ _ => true) 0 0 3 [';'] = ok (true, ";a;abc".toList) := by decide
example : joinColumnIfSelf Grid.sampleText (fun _ _ => true) 0 0 2 [';'] = Grid.sampleText.joinColumnIf (fun _ _ => true) 0 0 2 [';'] [';'] :=
  (C190_column_if_delimiter_partial Grid.sampleText _ sampleText_rep _ 0 0 2 (by decide) (by decide) [';']).mpr (by
    rintro ⟨j, k, r, r', t, h1, h2, _⟩
    have : k + 1 < 2 := h2
    omega)
example : joinColumnIfOwn (fun _ n => n) Grid.sample (fun i _ => i == 1) 0 0 2 [59] ⟨sampleBuf, 16, true⟩ = ok (true, ⟨sampleBuf ++ [99], 16, true⟩) :=
  C190_column_if_own_partial (fun _ n => n) Grid.sample _ sample_rep sampleBuf [] sample_inOrder (fun i _ => i == 1) 0 0 2 (by decide) (by decide) [59] 16 (by decide)

/-- Without the room the second token is read where it no longer is. -/
example : joinColumnIfOwn (fun _ n => n) Grid.sample (fun _ _ => true) 0 0 2 [59] ⟨sampleBuf, sampleBuf.length, true⟩ = ub :=
  C190_column_if_moved (fun _ n => n) Grid.sample _ sample_rep sampleBuf [] sample_inOrder (fun _ _ => true) 0 0 2 (by decide) (by decide) [59] _ (by decide) 1 _ _ rfl rfl (by decide) (by decide)

end Strtk.Refused
