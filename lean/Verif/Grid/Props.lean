import Verif.Grid.Read

/-!
# Theorems about token_grid (C60-C66, C86, C87)

`Rep g rows` is the representation invariant of a grid that holds `rows`; `C60_rep_shows` says what a user sees of it, `C60_load` that loading establishes it,
and the other theorems that every operation keeps it.  `lines`, `RowTokens`, `MinMax`, `dropRows`, `dropTokens`, `between`, `joinSpec`, `Pieces` and
`convertAll` are the specification.
-/

namespace Strtk.Grid
open Outcome Split

variable {T : Type}

/-! ## C60 -/

/-- What is visible of a grid that holds `rows`: the number of rows, and the token at every position (none outside). -/
theorem C60_rep_shows (g : Grid T) (rows : List (List T)) (h : Rep g rows) :
    g.rowCount = rows.length ∧ ∀ row col, g.token row col = ok (rows[row]?.bind fun r => r[col]?) := h.shows

/-- Loading: one row for every non-empty line, holding the tokens of the line; the column counts are the least and greatest widths. -/
theorem C60_load {α : Type} (opt : Opt) (dr dc : α → Bool) (buf : List α) (hsm : buf.length + 1 < 2 ^ 32) :
    ∃ g rows, load opt dr dc buf = ok g ∧ Rep g rows ∧ MinMax g rows ∧ (∀ r ∈ rows, ∀ t ∈ r, t.1 ≤ t.2 ∧ t.2 ≤ buf.length) ∧
      List.Forall₂ (RowTokens opt dc) ((buf.splitOnP dr).filter fun w => !w.isEmpty) (rows.map fun row => row.map (textOf buf)) :=
  load_spec opt dr dc buf hsm

theorem forall₂_eq_map {α β : Type} (R : α → β → Prop) (f : α → β) (hR : ∀ a b, R a b → b = f a) {l : List α} {m : List β} (h : List.Forall₂ R l m) : m = l.map f := by
  induction h with
  | nil => rfl
  | cons h _ ih => rw [List.map_cons, hR _ _ h, ih]

/-- With the default column option the tokens of a line are the line split at each column delimiter. -/
theorem C60_load_default {α : Type} (dr dc : α → Bool) (buf : List α) (hsm : buf.length + 1 < 2 ^ 32) :
    ∃ g rows, load {} dr dc buf = ok g ∧ Rep g rows ∧ MinMax g rows ∧
      (rows.map fun row => row.map (textOf buf)) = ((buf.splitOnP dr).filter fun w => !w.isEmpty).map fun line => line.splitOnP dc := by
  obtain ⟨g, rows, h1, h2, h3, _, h5⟩ := C60_load {} dr dc buf hsm
  refine ⟨g, rows, h1, h2, h3, forall₂_eq_map _ _ (fun w t hw => ?_) h5⟩
  obtain ⟨toks, hs, rfl⟩ := hw
  exact Splits.splitOnP hs

/-- With `compress_delimiters` runs of column delimiters count as one. -/
theorem C60_load_compress {α : Type} (dr dc : α → Bool) (buf : List α) (hsm : buf.length + 1 < 2 ^ 32) :
    ∃ g rows, load { compress := true } dr dc buf = ok g ∧ Rep g rows ∧ MinMax g rows ∧
      (rows.map fun row => row.map (textOf buf)) = ((buf.splitOnP dr).filter fun w => !w.isEmpty).map fun line => (collapseRuns dc line).splitOnP dc := by
  obtain ⟨g, rows, h1, h2, h3, _, h5⟩ := C60_load { compress := true } dr dc buf hsm
  refine ⟨g, rows, h1, h2, h3, forall₂_eq_map _ _ (fun w t hw => ?_) h5⟩
  obtain ⟨toks, hs, rfl⟩ := hw
  exact Splits.splitOnP_collapse hs

/-- A three-line grid used as example. -/
def sample : Grid (Nat × Nat) := ⟨⟨[(1, 2), (3, 4), (6, 7), (8, 9), (10, 12)], [(0, 1), (2, 4)]⟩, 2, 3⟩

example : load {} (· == '\n') (· == ',') "\na,b\n\nc,d,ef\n".toList = ok sample := by decide +kernel
example : sample.token 1 2 = ok (some (10, 12)) ∧ sample.token 0 2 = ok none := by decide

/-! ## C61, C62 -/

/-- `remove_row(i)` deletes row `i` (nothing if there is no such row) and nothing else. -/
theorem C61_remove_row (g : Grid T) (rows : List (List T)) (h : Rep g rows) (i : Nat) : ∃ g', g.removeRow i = ok g' ∧ Rep g' (rows.eraseIdx i) := by
  obtain ⟨g', h1, h2, _⟩ := h.removeRow i
  exact ⟨g', h1, h2⟩

/-- `remove_row_if(range,p)` deletes exactly the rows of the range that satisfy `p`; an invalid range is reported and changes nothing. -/
theorem C61_remove_row_if (g : Grid T) (rows : List (List T)) (h : Rep g rows) (a b : Nat) (p : Nat → List T → Bool) :
    (a ≤ b ∧ b ≤ rows.length → ∃ g', g.removeRowIf a b p = ok (true, g') ∧
      Rep g' ((rows.zipIdx.filter fun e => !(decide (a ≤ e.2 ∧ e.2 < b) && p e.2 e.1)).map Prod.fst)) ∧
    (¬ (a ≤ b ∧ b ≤ rows.length) → ∃ g', g.removeRowIf a b p = ok (false, g') ∧ Rep g' rows) := by
  obtain ⟨g', h1, h2, _⟩ := h.removeRowIf a b p
  constructor
  · intro hv
    have hv : ValidRange rows a b := hv
    simp only [hv, decide_true, if_true] at h1 h2
    exact ⟨g', h1, h2⟩
  · intro hv
    have hv : ¬ ValidRange rows a b := hv
    simp only [hv, decide_false, if_false] at h1 h2
    exact ⟨g', h1, h2⟩

/-- `remove_token_if(range,q)` deletes exactly the tokens of the range that satisfy `q`, drops the rows that become empty, returns the number of removed
tokens, and refreshes the column counts if it removed any. -/
theorem C62_remove_token_if (g : Grid T) (rows : List (List T)) (h : Rep g rows) (a b : Nat) (q : T → Bool) :
    (a ≤ b ∧ b ≤ rows.length → ∃ g', g.removeTokenIf a b q = ok ((between a b rows).flatten.countP q, g') ∧ Rep g' (dropTokens a b q rows) ∧
      (0 < (between a b rows).flatten.countP q → MinMax g' (dropTokens a b q rows))) ∧
    (¬ (a ≤ b ∧ b ≤ rows.length) → ∃ g', g.removeTokenIf a b q = ok (0, g') ∧ Rep g' rows) := by
  obtain ⟨g', h1, h2, h3, _⟩ := h.removeTokenIf a b q
  constructor
  · intro hv
    have hv : ValidRange rows a b := hv
    simp only [hv, if_true, true_implies] at h1 h2 h3
    exact ⟨g', h1, h2, h3⟩
  · intro hv
    have hv : ¬ ValidRange rows a b := hv
    simp only [hv, if_false] at h1 h2
    exact ⟨g', h1, h2⟩

example : sample.removeRow 0 = ok ⟨⟨[(6, 7), (8, 9), (10, 12)], [(0, 2)]⟩, 2, 3⟩ := by decide
example : sample.removeRowIf 0 2 (fun _ r => r.length == 2) = ok (true, ⟨⟨[(6, 7), (8, 9), (10, 12)], [(0, 2)]⟩, 2, 3⟩) := by decide
example : sample.removeTokenIf 0 2 (fun t => t.2 - t.1 == 1) = ok (4, ⟨⟨[(10, 12)], [(0, 0)]⟩, 1, 1⟩) := by decide

/-- The operations that change a grid. -/
inductive Op (T : Type) where
  | removeRow (i : Nat)
  | removeRowIf (a b : Nat) (p : Nat → List T → Bool)
  | removeTokenIf (a b : Nat) (q : T → Bool)
  | enforceColumns (a b n : Nat)
  | enforceMinMax (a b lo hi : Nat)

/-- What the program does. -/
def Op.run (g : Grid T) : Op T → Outcome (Grid T)
  | .removeRow i => g.removeRow i
  | .removeRowIf a b p => do let r ← g.removeRowIf a b p; ok r.2
  | .removeTokenIf a b q => do let r ← g.removeTokenIf a b q; ok r.2
  | .enforceColumns a b n => g.enforceColumns a b n
  | .enforceMinMax a b lo hi => g.enforceMinMax a b lo hi

/-- What happens to the rows. -/
def Op.spec (rows : List (List T)) : Op T → List (List T)
  | .removeRow i => rows.eraseIdx i
  | .removeRowIf a b p => if a ≤ b ∧ b ≤ rows.length then dropRows a b p rows else rows
  | .removeTokenIf a b q => if a ≤ b ∧ b ≤ rows.length then dropTokens a b q rows else rows
  | .enforceColumns a b n => if a ≤ b ∧ b ≤ rows.length then rows.filter fun r => r.length == n else rows
  | .enforceMinMax a b lo hi => if a ≤ b ∧ b ≤ rows.length then rows.filter fun r => decide (lo ≤ r.length ∧ r.length ≤ hi) else rows

def runAll (g : Grid T) : List (Op T) → Outcome (Grid T)
  | [] => ok g
  | o :: os => do let g ← o.run g; runAll g os

theorem dropRows_all (p : List T → Bool) (rows : List (List T)) : dropRows 0 rows.length (fun _ r => p r) rows = rows.filter fun r => !p r := by
  unfold dropRows
  have : ∀ (l : List (List T)) (k n : Nat), k + l.length ≤ n →
      ((l.zipIdx k).filter fun e => !(decide (0 ≤ e.2 ∧ e.2 < n) && p e.1)).map Prod.fst = l.filter fun r => !p r := by
    intro l
    induction l with
    | nil => intro k n _; rfl
    | cons r l ih =>
      intro k n hk
      simp only [List.length_cons] at hk
      have hd : decide (0 ≤ k ∧ k < n) = true := by simp; omega
      simp only [List.zipIdx_cons, List.filter_cons, hd, Bool.true_and]
      split
      · rw [List.map_cons, ih _ _ (by omega)]
      · rw [ih _ _ (by omega)]
  exact this rows 0 rows.length (by omega)

/-- Enforcing a column count on the whole grid. -/
theorem enforceColumns_spec (g : Grid T) (rows : List (List T)) (h : Rep g rows) (a b n : Nat) :
    ∃ g', g.enforceColumns a b n = ok g' ∧ Rep g' (if a ≤ b ∧ b ≤ rows.length then rows.filter fun r => r.length == n else rows) ∧
      (a ≤ b ∧ b ≤ rows.length → g'.minCol = n ∧ g'.maxCol = n) := by
  unfold Grid.enforceColumns
  by_cases hv : ValidRange rows a b
  · rw [if_neg (fun hh => (h.rangeInvalid a b).mp hh hv), h.rowCount]
    obtain ⟨g', h1, h2, _⟩ := h.removeRowIf 0 rows.length (fun _ r => n != r.length)
    have hv0 : ValidRange rows 0 rows.length := ⟨by omega, by omega⟩
    simp only [hv0, if_true, decide_true] at h1 h2
    rw [h1, ok_bind]
    have e : (rows.filter fun r => !(n != r.length)) = rows.filter fun r => r.length == n := by
      apply List.filter_congr
      intro r _
      cases hn : (n != r.length) <;> simp_all; omega
    rw [dropRows_all (fun r => n != r.length), e] at h2
    have hv' : a ≤ b ∧ b ≤ rows.length := hv
    refine ⟨_, rfl, ?_, fun _ => ⟨rfl, rfl⟩⟩
    rw [if_pos hv']
    refine ⟨h2.tokens, h2.index, h2.nonempty, h2.small, ?_⟩
    intro r hr
    simp only [List.mem_filter, beq_iff_eq] at hr
    simp [hr.2]
  · rw [if_pos ((h.rangeInvalid a b).mpr hv)]
    have hv' : ¬ (a ≤ b ∧ b ≤ rows.length) := hv
    exact ⟨g, rfl, by rw [if_neg hv']; exact h, fun hh => absurd hh hv'⟩

theorem enforceMinMax_spec (g : Grid T) (rows : List (List T)) (h : Rep g rows) (a b lo hi : Nat) :
    ∃ g', g.enforceMinMax a b lo hi = ok g' ∧
      Rep g' (if a ≤ b ∧ b ≤ rows.length then rows.filter fun r => decide (lo ≤ r.length ∧ r.length ≤ hi) else rows) ∧
      (a ≤ b ∧ b ≤ rows.length → g'.minCol = lo ∧ g'.maxCol = hi) := by
  unfold Grid.enforceMinMax
  by_cases hv : ValidRange rows a b
  · rw [if_neg (fun hh => (h.rangeInvalid a b).mp hh hv), h.rowCount]
    obtain ⟨g', h1, h2, _⟩ := h.removeRowIf 0 rows.length (fun _ r => decide (r.length < lo) || decide (hi < r.length))
    have hv0 : ValidRange rows 0 rows.length := ⟨by omega, by omega⟩
    simp only [hv0, if_true, decide_true] at h1 h2
    rw [h1, ok_bind]
    have e : (rows.filter fun r => !(decide (r.length < lo) || decide (hi < r.length))) = rows.filter fun r => decide (lo ≤ r.length ∧ r.length ≤ hi) := by
      apply List.filter_congr
      intro r _
      rw [Bool.eq_iff_iff]
      simp
    rw [dropRows_all (fun r => decide (r.length < lo) || decide (hi < r.length)), e] at h2
    have hv' : a ≤ b ∧ b ≤ rows.length := hv
    refine ⟨_, rfl, ?_, fun _ => ⟨rfl, rfl⟩⟩
    rw [if_pos hv']
    refine ⟨h2.tokens, h2.index, h2.nonempty, h2.small, ?_⟩
    intro r hr
    simp only [List.mem_filter, decide_eq_true_eq] at hr
    exact hr.2.2
  · rw [if_pos ((h.rangeInvalid a b).mpr hv)]
    have hv' : ¬ (a ≤ b ∧ b ≤ rows.length) := hv
    exact ⟨g, rfl, by rw [if_neg hv']; exact h, fun hh => absurd hh hv'⟩

theorem Op.run_spec (o : Op T) (g : Grid T) (rows : List (List T)) (h : Rep g rows) : ∃ g', o.run g = ok g' ∧ Rep g' (o.spec rows) := by
  cases o with
  | removeRow i => exact C61_remove_row g rows h i
  | removeRowIf a b p =>
    obtain ⟨g', h1, h2, _⟩ := h.removeRowIf a b p
    exact ⟨g', by simp only [Op.run]; rw [h1, ok_bind], h2⟩
  | removeTokenIf a b q =>
    obtain ⟨g', h1, h2, _⟩ := h.removeTokenIf a b q
    exact ⟨g', by simp only [Op.run]; rw [h1, ok_bind], h2⟩
  | enforceColumns a b n =>
    obtain ⟨g', h1, h2, _⟩ := enforceColumns_spec g rows h a b n
    exact ⟨g', h1, h2⟩
  | enforceMinMax a b lo hi =>
    obtain ⟨g', h1, h2, _⟩ := enforceMinMax_spec g rows h a b lo hi
    exact ⟨g', h1, h2⟩

/-- Any history of removals: no undefined behaviour, and the grid shows exactly the rows obtained by applying the removals to the rows one after the other. -/
theorem C61_history (ops : List (Op T)) : ∀ (g : Grid T) (rows : List (List T)), Rep g rows →
    ∃ g', runAll g ops = ok g' ∧ Rep g' (ops.foldl Op.spec rows) ∧ Shows g' (ops.foldl Op.spec rows) := by
  induction ops with
  | nil => intro g rows h; exact ⟨g, rfl, h, h.shows⟩
  | cons o os ih =>
    intro g rows h
    obtain ⟨g1, h1, h2⟩ := o.run_spec g rows h
    obtain ⟨g', h3, h4, h5⟩ := ih g1 _ h2
    exact ⟨g', by simp only [runAll]; rw [h1, ok_bind, h3], h4, h5⟩

/-- The same for a loaded grid, in terms of the texts a user loads. -/
theorem C61_history_loaded {α : Type} (dr dc : α → Bool) (buf : List α) (hsm : buf.length + 1 < 2 ^ 32) (ops : List (Op (Nat × Nat))) :
    ∃ g g' rows, load {} dr dc buf = ok g ∧ runAll g ops = ok g' ∧ Shows g' (ops.foldl Op.spec rows) ∧
      (rows.map fun row => row.map (textOf buf)) = ((buf.splitOnP dr).filter fun w => !w.isEmpty).map fun line => line.splitOnP dc := by
  obtain ⟨g, rows, h1, h2, _, h4⟩ := C60_load_default dr dc buf hsm
  obtain ⟨g', h5, _, h6⟩ := C61_history ops g rows h2
  exact ⟨g, g', rows, h1, h5, h6, h4⟩

example : runAll sample [.removeTokenIf 1 2 (fun t => t.1 == 8), .removeRow 0, .removeRowIf 0 1 (fun _ r => r.length == 2)] = ok ⟨⟨[], []⟩, 2, 2⟩ := by decide +kernel

/-! ## C63 -/

/-- Enforcement over the whole grid: exactly the rows of other widths go, and the reported column counts are the enforced ones.  Missing for C63: the
selected range is only validated; rows outside it are removed as well (`C63_range_ignored`). -/
theorem C63_enforce_columns_partial (g : Grid T) (rows : List (List T)) (h : Rep g rows) (n : Nat) :
    ∃ g', g.enforceColumns 0 rows.length n = ok g' ∧ Rep g' (rows.filter fun r => r.length == n) ∧ g'.minCol = n ∧ g'.maxCol = n := by
  obtain ⟨g', h1, h2, h3⟩ := enforceColumns_spec g rows h 0 rows.length n
  rw [if_pos ⟨by omega, by omega⟩] at h2
  exact ⟨g', h1, h2, h3 ⟨by omega, by omega⟩⟩

theorem C63_enforce_min_max_partial (g : Grid T) (rows : List (List T)) (h : Rep g rows) (lo hi : Nat) :
    ∃ g', g.enforceMinMax 0 rows.length lo hi = ok g' ∧ Rep g' (rows.filter fun r => decide (lo ≤ r.length ∧ r.length ≤ hi)) ∧ g'.minCol = lo ∧ g'.maxCol = hi := by
  obtain ⟨g', h1, h2, h3⟩ := enforceMinMax_spec g rows h 0 rows.length lo hi
  rw [if_pos ⟨by omega, by omega⟩] at h2
  exact ⟨g', h1, h2, h3 ⟨by omega, by omega⟩⟩

/-- Whatever valid range is given, the effect is that of the whole grid. -/
theorem C63_range_ignored (g : Grid T) (rows : List (List T)) (h : Rep g rows) (a b n : Nat) (hv : a ≤ b ∧ b ≤ rows.length) :
    g.enforceColumns a b n = g.enforceColumns 0 rows.length n := by
  unfold Grid.enforceColumns
  rw [if_neg (fun hh => (h.rangeInvalid a b).mp hh hv), if_neg (fun hh => (h.rangeInvalid 0 rows.length).mp hh ⟨by omega, by omega⟩)]

/-- Row 1, outside the range 0..1, is removed. -/
theorem C63_counterexample : sample.enforceColumns 0 1 2 = ok ⟨⟨[(1, 2), (3, 4)], [(0, 1)]⟩, 2, 2⟩ := by decide

/-! ## C64 -/

/-- `extract_column` into an appending output iterator: the column's token of every row of the range that has one, in order.  Missing for C64: output iterators
that are not self-advancing (`C64_plain_iterator`). -/
theorem C64_extract_column_partial {U : Type} (g : Grid T) (rows : List (List T)) (h : Rep g rows) (conv : T → U) (a b col : Nat) (out : List U) :
    g.extractColumn conv a b col out =
      ok (decide (col ≤ g.maxCol ∧ a ≤ b ∧ b ≤ rows.length),
        out ++ if a ≤ b ∧ b ≤ rows.length then (between a b rows).filterMap (fun r => (r[col]?).map conv) else []) := by
  unfold Grid.extractColumn between
  by_cases hv : ValidRange rows a b
  · have hv' : a ≤ b ∧ b ≤ rows.length := hv
    by_cases hc : col > g.maxCol
    · rw [if_pos hc, if_pos hv']
      have : ((rows.drop a).take (b - a)).filterMap (fun r => (r[col]?).map conv) = [] := by
        rw [List.filterMap_eq_nil_iff]
        intro r hr
        have := h.width r (List.mem_of_mem_drop (List.mem_of_mem_take hr))
        rw [List.getElem?_eq_none (by omega)]; rfl
      rw [this]
      simp; omega
    · rw [if_neg hc, if_neg (fun hh => (h.rangeInvalid a b).mp hh hv), h.extractLoop conv col (b - a) a out (by omega), ok_bind, if_pos hv']
      have : col ≤ g.maxCol ∧ a ≤ b ∧ b ≤ rows.length := ⟨by omega, hv'⟩
      simp [this]
  · have hv' : ¬ (a ≤ b ∧ b ≤ rows.length) := hv
    rw [if_pos ((h.rangeInvalid a b).mpr hv), if_neg hv']
    have : ¬ (col ≤ g.maxCol ∧ a ≤ b ∧ b ≤ rows.length) := fun hh => hv' hh.2
    split <;> simp [this]

/-- `extract_column_checked`: likewise, leaving out the tokens that do not convert. -/
theorem C64_extract_column_checked {U : Type} (g : Grid T) (rows : List (List T)) (h : Rep g rows) (conv : T → Option U) (a b col : Nat) (out : List U) :
    g.extractColumnChecked conv a b col out =
      ok (decide (col ≤ g.maxCol ∧ a ≤ b ∧ b ≤ rows.length),
        out ++ if a ≤ b ∧ b ≤ rows.length then (between a b rows).filterMap (fun r => (r[col]?).bind conv) else []) := by
  unfold Grid.extractColumnChecked between
  by_cases hv : ValidRange rows a b
  · have hv' : a ≤ b ∧ b ≤ rows.length := hv
    by_cases hc : col > g.maxCol
    · rw [if_pos hc, if_pos hv']
      have : ((rows.drop a).take (b - a)).filterMap (fun r => (r[col]?).bind conv) = [] := by
        rw [List.filterMap_eq_nil_iff]
        intro r hr
        have := h.width r (List.mem_of_mem_drop (List.mem_of_mem_take hr))
        rw [List.getElem?_eq_none (by omega)]; rfl
      rw [this]
      simp; omega
    · rw [if_neg hc, if_neg (fun hh => (h.rangeInvalid a b).mp hh hv), h.extractCheckedLoop conv col (b - a) a out (by omega), ok_bind, if_pos hv']
      have : col ≤ g.maxCol ∧ a ≤ b ∧ b ≤ rows.length := ⟨by omega, hv'⟩
      simp [this]
  · have hv' : ¬ (a ≤ b ∧ b ≤ rows.length) := hv
    rw [if_pos ((h.rangeInvalid a b).mpr hv), if_neg hv']
    have : ¬ (col ≤ g.maxCol ∧ a ≤ b ∧ b ≤ rows.length) := fun hh => hv' hh.2
    split <;> simp [this]

/-- Two columns at once: the pairs of the rows that have both. -/
theorem C64_extract_two_columns {U W : Type} (g : Grid T) (rows : List (List T)) (h : Rep g rows) (c0 : T → U) (c1 : T → W) (a b k0 k1 : Nat) (o0 : List U) (o1 : List W)
    (h0 : k0 ≤ g.maxCol) (h1 : k1 ≤ g.maxCol) (hv : a ≤ b ∧ b ≤ rows.length) :
    ∃ ps : List (T × T), ps = (between a b rows).filterMap (fun r => (r[k0]?).bind fun x => (r[k1]?).map fun y => (x, y)) ∧
      g.extractColumn2 c0 c1 a b k0 k1 o0 o1 = ok (true, o0 ++ ps.map (fun p => c0 p.1), o1 ++ ps.map (fun p => c1 p.2)) := by
  obtain ⟨ps, p1, p2⟩ := h.extract2Loop c0 c1 k0 k1 (b - a) a o0 o1 (by omega)
  refine ⟨ps, p1, ?_⟩
  unfold Grid.extractColumn2
  rw [if_neg (by omega), if_neg (fun hh => (h.rangeInvalid a b).mp hh hv), p2, ok_bind]

/-- Two columns, one of which no row has, or an invalid range: refused, nothing delivered. -/
theorem C64_extract_two_columns_rejected {U W : Type} (g : Grid T) (rows : List (List T)) (h : Rep g rows) (c0 : T → U) (c1 : T → W) (a b k0 k1 : Nat)
    (o0 : List U) (o1 : List W) (hr : g.maxCol < k0 ∨ g.maxCol < k1 ∨ ¬ (a ≤ b ∧ b ≤ rows.length)) :
    g.extractColumn2 c0 c1 a b k0 k1 o0 o1 = ok (false, o0, o1) := by
  unfold Grid.extractColumn2
  by_cases hk : k0 > g.maxCol ∨ k1 > g.maxCol
  · rw [if_pos hk]
  · rw [if_neg hk, if_pos ((h.rangeInvalid a b).mpr fun hv => by rcases hr with hr | hr | hr <;> first | omega | exact hr hv)]

/-- With a plain iterator every token of the column lands on the same element, of which the last one stays: the rest of the target keeps its values. -/
theorem C64_plain_iterator {U : Type} (g : Grid T) (rows : List (List T)) (h : Rep g rows) (conv : T → U) (a b col pos : Nat) (mem : List U)
    (hv : a ≤ b ∧ b ≤ rows.length) (hp : pos < mem.length) :
    extractPlainLoop conv g.store col pos (b - a) a mem =
      ok (match ((between a b rows).filterMap fun r => (r[col]?).map conv).getLast? with | some u => mem.set pos u | none => mem) := by
  rw [h.extractPlainLoop conv col pos (b - a) a mem (by omega) hp]; rfl

example : extractPlainLoop id sample.store 0 0 2 0 [(0, 0), (0, 0)] = ok [(6, 7), (0, 0)] ∧ sample.extractColumn id 0 2 0 [] = ok (true, [(1, 2), (6, 7)]) := by decide

/-! ## C65 -/

section
variable {α : Type}

/-- `join_row` of a row that is not the last and has no empty token: the tokens separated by the delimiter.  Missing for C65: the last row
(`C65_last_row`) and empty tokens (`C65_join_row_exact`). -/
theorem C65_join_row_partial (g : Grid (List α)) (rows : List (List (List α))) (h : Rep g rows) (i : Nat) (hi : i + 1 < rows.length) (delim res : List α)
    (hne : ∀ t ∈ rows[i], t ≠ []) : g.joinRow i (fun _ => true) delim res = ok (true, res ++ delim.intercalate rows[i]) := by
  rw [h.joinRow i (by omega)]
  unfold joinedTokens
  rw [if_pos hi, joinTokens_nonempty delim _ _ _ hne]
  simp

/-- The last row is joined without its last token. -/
theorem C65_last_row (g : Grid (List α)) (rows : List (List (List α))) (h : Rep g rows) (i : Nat) (hi : i + 1 = rows.length) (delim res : List α)
    (hne : ∀ t ∈ rows[i], t ≠ []) : g.joinRow i (fun _ => true) delim res = ok (true, res ++ delim.intercalate rows[i].dropLast) := by
  rw [h.joinRow i (by omega)]
  unfold joinedTokens
  rw [if_neg (by omega), joinTokens_nonempty delim _ _ _ (fun t ht => hne t (List.dropLast_subset _ ht))]
  simp

/-- What `join_row` (with a predicate) does on every row: a delimiter is put in front of a token exactly when the token before it was output. -/
theorem C65_join_row_exact (g : Grid (List α)) (rows : List (List (List α))) (h : Rep g rows) (i : Nat) (hi : i < rows.length) (keep : List α → Bool) (delim res : List α) :
    g.joinRow i keep delim res = ok (true, res ++ joinSpec delim keep false (if i + 1 < rows.length then rows[i] else rows[i].dropLast)) := by
  rw [h.joinRow i hi, joinTokens_spec]; rfl

/-- A row index out of range is reported. -/
theorem C65_no_row (g : Grid (List α)) (rows : List (List (List α))) (h : Rep g rows) (i : Nat) (hi : rows.length ≤ i) (keep : List α → Bool) (delim res : List α) :
    g.joinRow i keep delim res = ok (false, res) := by
  unfold Grid.joinRow
  rw [h.rowCount, if_pos hi]

/-- `join_column` of a column without empty tokens: the column's tokens of the rows that have them, separated by the delimiter. -/
theorem C65_join_column (g : Grid (List α)) (rows : List (List (List α))) (h : Rep g rows) (col a b : Nat) (delim res : List α) (hc : col ≤ g.maxCol)
    (hv : a ≤ b ∧ b ≤ rows.length) (hne : ∀ r ∈ rows, ∀ t ∈ r, t ≠ []) :
    g.joinColumn col a b delim res = ok (true, res ++ delim.intercalate ((between a b rows).filterMap fun r => r[col]?)) := by
  unfold Grid.joinColumn
  rw [if_neg (by omega), if_neg (fun hh => (h.rangeInvalid a b).mp hh hv), h.joinColumnLoop col delim (b - a) a false res (by omega), ok_bind,
    joinTokens_nonempty delim _ _ _ ?_]
  · simp [between]
  · intro t ht
    simp only [List.mem_filterMap] at ht
    obtain ⟨r, hr, hrt⟩ := ht
    exact hne r (List.mem_of_mem_drop (List.mem_of_mem_take hr)) t (List.mem_of_getElem? hrt)

end

/-- The texts of the sample, with an empty token in the first row. -/
def sampleText : Grid (List Char) := ⟨⟨[['a'], [], ['b'], ['c'], ['d'], ['e', 'f']], [(0, 2), (3, 5)]⟩, 3, 3⟩

theorem C65_counterexample : sampleText.joinRow 1 (fun _ => true) [';'] [] = ok (true, "c;d".toList) ∧
    sampleText.joinRow 0 (fun _ => true) [';'] [] = ok (true, "a;b".toList) := by decide

example : Rep sampleText [[['a'], [], ['b']], [['c'], ['d'], ['e', 'f']]] := ⟨rfl, by decide, by decide, by decide, by decide⟩

/-! ## C66 -/

/-- `sequential_partition`: the function is called on consecutive non-empty ranges that cover the given range (`Pieces`, `C66_tiles`), until it answers `false`;
the result says whether all calls answered `true`.  Missing for C66: not every signalling row starts a new range (see `Pieces` and `C66_counterexample`). -/
theorem C66_partition_partial (g : Grid T) (rows : List (List T)) (h : Rep g rows) (a b : Nat) (hv : a ≤ b ∧ b ≤ rows.length) (p : Nat → List T → Bool)
    (f : Nat × Nat → Bool) :
    ∃ pieces, Pieces (signals p rows) b a pieces ∧ g.partition a b p f = ok (pieces.all f, untilFalse f pieces) := h.partition a b hv p f

/-- The ranges are disjoint, non-empty, in order, and together are the given range. -/
theorem C66_tiles (g : Grid T) (rows : List (List T)) (h : Rep g rows) (a b : Nat) (hv : a ≤ b ∧ b ≤ rows.length) (p : Nat → List T → Bool) :
    ∃ calls, g.partition a b p (fun _ => true) = ok (true, calls) ∧ (calls.flatMap fun q => List.range' q.1 (q.2 - q.1)) = List.range' a (b - a) ∧
      ∀ q ∈ calls, q.1 < q.2 := by
  obtain ⟨pieces, h1, h2⟩ := h.partition a b hv p (fun _ => true)
  obtain ⟨_, t1, t2⟩ := h1.tiles
  have : pieces.all (fun _ => true) = true := by simp
  rw [untilFalse_all _ _ this, this] at h2
  exact ⟨pieces, h2, t1, t2⟩

/-- If no two neighbouring rows signal, and the second row of the range does not, the ranges start exactly at the first row and at the signalling rows. -/
theorem C66_splits_at_signals_partial (g : Grid T) (rows : List (List T)) (h : Rep g rows) (a b : Nat) (hv : a ≤ b ∧ b ≤ rows.length) (p : Nat → List T → Bool)
    (hs : ∀ j, a < j → j < b → signals p rows j → a + 1 < j ∧ ¬ signals p rows (j - 1)) :
    ∃ calls, g.partition a b p (fun _ => true) = ok (true, calls) ∧
      ∀ j, (∃ y, (j, y) ∈ calls) ↔ a < b ∧ (j = a ∨ (a < j ∧ j < b ∧ signals p rows j)) := by
  obtain ⟨pieces, h1, h2⟩ := h.partition a b hv p (fun _ => true)
  have : pieces.all (fun _ => true) = true := by simp
  rw [untilFalse_all _ _ this, this] at h2
  exact ⟨pieces, h2, h1.starts hs⟩

/-- Row 1 signals, but the partition is not split there. -/
theorem C66_counterexample : sample.partition 0 2 (fun i _ => i == 1) (fun _ => true) = ok (true, [(0, 2)]) := by decide

example : (⟨⟨[1, 2, 3, 4], [(0, 0), (1, 1), (2, 2), (3, 3)]⟩, 1, 1⟩ : Grid Nat).partition 0 4 (fun i _ => i == 2) (fun _ => true) = ok (true, [(0, 2), (2, 4)]) := by
  decide

/-! ## C86 -/

/-- `for_each_row` calls the function with every row of the range, in order, and returns their number. -/
theorem C86_for_each_row (g : Grid T) (rows : List (List T)) (h : Rep g rows) (a b : Nat) (hv : a ≤ b ∧ b ≤ rows.length) :
    g.forEachRow a b = ok (b - a, ((between a b rows).zipIdx a).map fun e => (e.2, e.1)) := by
  unfold Grid.forEachRow
  rw [if_neg (fun hh => (h.rangeInvalid a b).mp hh hv), h.forEachLoop (b - a) a [] (by omega), ok_bind]
  simp [between]
  omega

/-- `column_width`: the greatest length in the column over the range. -/
theorem C86_column_width (g : Grid T) (rows : List (List T)) (h : Rep g rows) (len : T → Nat) (col a b : Nat) (hc : col ≤ g.maxCol) (hv : a ≤ b ∧ b ≤ rows.length) :
    ∃ w, g.columnWidth len col a b = ok w ∧ (∀ r ∈ between a b rows, ∀ t, r[col]? = some t → len t ≤ w) ∧
      (w = 0 ∨ ∃ r ∈ between a b rows, ∃ t, r[col]? = some t ∧ len t = w) := by
  have hf : ∀ (l : List Nat) (m : Nat), m ≤ l.foldl max m ∧ (∀ x ∈ l, x ≤ l.foldl max m) ∧ (l.foldl max m = m ∨ l.foldl max m ∈ l) := by
    intro l
    induction l with
    | nil => intro m; simp
    | cons x l ih =>
      intro m
      obtain ⟨i1, i2, i3⟩ := ih (max m x)
      simp only [List.foldl_cons]
      refine ⟨by omega, ?_, ?_⟩
      · intro y hy
        rcases List.mem_cons.mp hy with rfl | hy
        · omega
        · exact i2 y hy
      · rcases i3 with i3 | i3
        · rcases Nat.le_total m x with hmx | hmx
          · right; rw [i3, Nat.max_eq_right hmx]; simp
          · left; rw [i3, Nat.max_eq_left hmx]
        · right; simp [i3]
  unfold Grid.columnWidth
  rw [if_neg (by omega), if_neg (fun hh => (h.rangeInvalid a b).mp hh hv), h.widthLoop len col (b - a) a 0 (by omega)]
  obtain ⟨_, f2, f3⟩ := hf (((rows.drop a).take (b - a)).filterMap fun r => (r[col]?).map len) 0
  refine ⟨_, rfl, ?_, ?_⟩
  · intro r hr t ht
    apply f2
    rw [List.mem_filterMap]
    exact ⟨r, hr, by rw [ht]; rfl⟩
  · rcases f3 with f3 | f3
    · left; exact f3
    · right
      rw [List.mem_filterMap] at f3
      obtain ⟨r, hr, hrt⟩ := f3
      rw [Option.map_eq_some_iff] at hrt
      obtain ⟨t, t1, t2⟩ := hrt
      exact ⟨r, hr, t, t1, t2⟩

theorem takeWhile_all {α : Type} (p : α → Bool) (l : List α) (h : ∀ x ∈ l, p x = true) : l.takeWhile p = l := by
  induction l with
  | nil => rfl
  | cons x l ih => rw [List.takeWhile_cons, h x (by simp), if_pos rfl, ih (fun y hy => h y (by simp [hy]))]

/-- `accumulate_row`: if every token converts, the sum of the values is added and their number returned; otherwise 0 is returned. -/
theorem C86_accumulate_row (g : Grid T) (rows : List (List T)) (h : Rep g rows) (conv : T → Option Int) (i : Nat) (hi : i < rows.length) (sum : Int) :
    ((∀ t ∈ rows[i], (conv t).isSome = true) → g.accumulateRow conv i sum = ok (rows[i].length, sum + (rows[i].filterMap conv).sum)) ∧
    ((∃ t ∈ rows[i], conv t = none) → ∃ s, g.accumulateRow conv i sum = ok (0, s)) := by
  obtain ⟨r, h1, _, h2, _, _, _, h6, h7⟩ := h.access i hi
  have e : g.accumulateRow conv i sum = ok (accumulateTokens conv rows[i] sum 0) := by
    unfold Grid.accumulateRow
    rw [h.rowCount, if_neg (by omega), h1, ok_bind, if_pos ⟨by omega, by omega⟩]
    have : r.2 + 1 - r.1 = rows[i].length := by omega
    rw [this, h7]
  rw [e, accumulateTokens_spec]
  constructor
  · intro hall
    have : rows[i].all (fun t => (conv t).isSome) = true := List.all_eq_true.mpr hall
    rw [this]
    have hw : rows[i].takeWhile (fun t => (conv t).isSome) = rows[i] := by
      exact takeWhile_all _ _ hall
    simp [goodValues, hw]
  · rintro ⟨t, ht, hn⟩
    have : rows[i].all (fun t => (conv t).isSome) = false := by
      rw [List.all_eq_false]; exact ⟨t, ht, by simp [hn]⟩
    rw [this]
    exact ⟨_, rfl⟩

/-- `accumulate_row` of a row that does not exist: 0 is returned, the sum is left alone. -/
theorem C86_accumulate_no_row (g : Grid T) (rows : List (List T)) (h : Rep g rows) (conv : T → Option Int) (i : Nat) (hi : rows.length ≤ i) (sum : Int) :
    g.accumulateRow conv i sum = ok (0, sum) := by
  unfold Grid.accumulateRow
  rw [h.rowCount, if_pos hi]

/-- `accumulate_column`: if every token of the column over the range converts, the sum of the values is added.  Missing for C86: the returned number is that
of the rows of the range, also of those without the column (`C86_counts_missing_rows`). -/
theorem C86_accumulate_column_partial (g : Grid T) (rows : List (List T)) (h : Rep g rows) (conv : T → Option Int) (col a b : Nat) (hc : col ≤ g.maxCol)
    (hv : a ≤ b ∧ b ≤ rows.length) (sum : Int) (ts : List T) (hts : ts = (between a b rows).filterMap fun r => r[col]?) :
    ((∀ t ∈ ts, (conv t).isSome = true) → g.accumulateColumn conv col a b sum = ok (b - a, sum + (ts.filterMap conv).sum)) ∧
    ((∃ t ∈ ts, conv t = none) → ∃ s, g.accumulateColumn conv col a b sum = ok (0, s)) := by
  have e : g.accumulateColumn conv col a b sum = ok (if ts.all fun t => (conv t).isSome then 0 + (b - a) else 0, sum + (goodValues conv ts).sum) := by
    unfold Grid.accumulateColumn
    rw [if_neg (by omega), if_neg (fun hh => (h.rangeInvalid a b).mp hh hv), h.accumulateLoop conv col (b - a) a sum 0 (by omega) ts hts]
  rw [e]
  constructor
  · intro hall
    have : ts.all (fun t => (conv t).isSome) = true := List.all_eq_true.mpr hall
    rw [this]
    have hw : ts.takeWhile (fun t => (conv t).isSome) = ts := by
      exact takeWhile_all _ _ hall
    simp [goodValues, hw]
  · rintro ⟨t, ht, hn⟩
    have : ts.all (fun t => (conv t).isSome) = false := by
      rw [List.all_eq_false]; exact ⟨t, ht, by simp [hn]⟩
    rw [this]
    exact ⟨_, rfl⟩

/-- Column 2 exists in one row only, yet 2 is returned. -/
theorem C86_counts_missing_rows : sample.accumulateColumn (fun t => some (t.1 : Int)) 2 0 2 0 = ok (2, 10) := by decide

/-! ## C87 -/

/-- `row(i).parse(...)` with columns of the row: the conversions of exactly these tokens.  Missing for C87: columns the row does not have. -/
theorem C87_row_parse_partial {V : Type} (g : Grid T) (rows : List (List T)) (h : Rep g rows) (conv : Nat → T → Bool × V) (i : Nat) (hi : i < rows.length)
    (cols : List Nat) (hc : ∀ c ∈ cols, c < rows[i].length) :
    ∃ ts, cols.mapM (fun c => rows[i][c]?) = some ts ∧ g.rowParse conv i cols = ok (convertAll conv 0 ts) := h.rowParse conv i hi cols hc

/-- Asking a two-column row for its third column yields the first token of the next row; in the last row it is undefined behaviour. -/
theorem C87_reads_next_row : sample.rowParse (fun _ t => (true, t)) 0 [0, 2] = ok (true, [(1, 2), (6, 7)]) ∧
    sample.rowParse (fun _ t => (true, t)) 1 [3] = (ub : Outcome (Bool × List (Nat × Nat))) := by decide

/-- `row.parse(range,sequence)` checks the range: with a range inside the row whose tokens all convert, the values are appended; otherwise `false`. -/
theorem C87_parse_range {V : Type} (conv : T → Option V) (row : List T) (a b : Nat) (seq : List V) :
    (a ≤ b ∧ b ≤ row.length ∧ (∀ t ∈ (row.drop a).take (b - a), (conv t).isSome = true) →
      rowParseRange conv row a b seq = (true, seq ++ ((row.drop a).take (b - a)).filterMap conv)) ∧
    (¬ (a ≤ b ∧ b ≤ row.length) → rowParseRange conv row a b seq = (false, seq)) ∧
    (a ≤ b ∧ b ≤ row.length ∧ (∃ t ∈ (row.drop a).take (b - a), conv t = none) → (rowParseRange conv row a b seq).1 = false) := by
  have hgo : ∀ (ts : List T) (seq : List V), ((∀ t ∈ ts, (conv t).isSome = true) → rowParseRange.go conv ts seq = (true, seq ++ ts.filterMap conv)) ∧
      ((∃ t ∈ ts, conv t = none) → (rowParseRange.go conv ts seq).1 = false) := by
    intro ts
    induction ts with
    | nil => intro seq; simp [rowParseRange.go]
    | cons t ts ih =>
      intro seq
      cases hc : conv t with
      | none => simp [rowParseRange.go, hc]
      | some v =>
        obtain ⟨i1, i2⟩ := ih (seq ++ [v])
        simp only [rowParseRange.go, hc]
        constructor
        · intro hall
          rw [i1 (fun x hx => hall x (by simp [hx]))]
          simp [hc]
        · rintro ⟨x, hx, hn⟩
          rcases List.mem_cons.mp hx with rfl | hx
          · rw [hc] at hn; exact absurd hn (by simp)
          · exact i2 ⟨x, hx, hn⟩
  unfold rowParseRange
  refine ⟨?_, ?_, ?_⟩
  · rintro ⟨h1, h2, h3⟩
    rw [if_neg (by omega), if_neg (by omega)]
    exact (hgo _ seq).1 h3
  · intro hv
    split
    · rfl
    · rw [if_pos (by omega)]
  · rintro ⟨h1, h2, h3⟩
    rw [if_neg (by omega), if_neg (by omega)]
    exact (hgo _ seq).2 h3

example : rowParseRange (fun t => if t < 10 then some t else none) [1, 2, 3, 40] 1 3 [0] = (true, [0, 2, 3]) := by decide
example : Rep sample [[(1, 2), (3, 4)], [(6, 7), (8, 9), (10, 12)]] := ⟨rfl, by decide, by decide, by decide, by decide⟩

/-! ## Concrete cases of C63, C65 and C86 -/

theorem sample_rep : Rep sample [[(1, 2), (3, 4)], [(6, 7), (8, 9), (10, 12)]] := ⟨rfl, by decide, by decide, by decide, by decide⟩

example : ∃ g', sample.enforceColumns 0 2 3 = ok g' ∧ Rep g' [[(6, 7), (8, 9), (10, 12)]] ∧ g'.minCol = 3 ∧ g'.maxCol = 3 := C63_enforce_columns_partial sample _ sample_rep 3

example : ∃ g', sample.enforceMinMax 0 2 1 2 = ok g' ∧ Rep g' [[(1, 2), (3, 4)]] ∧ g'.minCol = 1 ∧ g'.maxCol = 2 := C63_enforce_min_max_partial sample _ sample_rep 1 2

example (g : Grid (List Char)) (h : Rep g [["a".toList, "bc".toList], ["d".toList]]) : g.joinRow 0 (fun _ => true) ", ".toList "x".toList = ok (true, "xa, bc".toList) :=
  C65_join_row_partial g _ h 0 (by decide) _ _ (by decide)

example : Rep (⟨⟨["a".toList, "bc".toList, "d".toList], [(0, 1), (2, 2)]⟩, 1, 2⟩ : Grid (List Char)) [["a".toList, "bc".toList], ["d".toList]] :=
  ⟨rfl, by decide, by decide, by decide, by decide⟩

example : sample.forEachRow 1 2 = ok (1, [(1, [(6, 7), (8, 9), (10, 12)])]) := C86_for_each_row sample _ sample_rep 1 2 (by decide)

example : ∃ w, sample.columnWidth (fun t => t.2 - t.1) 2 0 2 = ok w ∧ (∀ r ∈ between 0 2 [[(1, 2), (3, 4)], [(6, 7), (8, 9), (10, 12)]], ∀ t, r[2]? = some t → t.2 - t.1 ≤ w) ∧
    (w = 0 ∨ ∃ r ∈ between 0 2 [[(1, 2), (3, 4)], [(6, 7), (8, 9), (10, 12)]], ∃ t, r[2]? = some t ∧ t.2 - t.1 = w) :=
  C86_column_width sample _ sample_rep _ 2 0 2 (by decide) (by decide)

example : sample.accumulateRow (fun t => some (t.2 : Int)) 1 100 = ok (3, 128) := (C86_accumulate_row sample _ sample_rep (fun t => some (t.2 : Int)) 1 (by decide) 100).1 (by decide)

end Strtk.Grid
