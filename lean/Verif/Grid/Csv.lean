import Verif.Grid.QuoteProps

/-!
# A table written as text loads cell by cell (C152)

`tableText` is the text of a table: the cells of a row separated by a column delimiter, each row followed by a row delimiter; `Holds` says what a user sees of
a grid that holds the table.  The grid's own functions are those of `Grid/Model.lean` and `Grid/Quote.lean` (strtk.hpp 7396-7560, 9218-9398).
-/

namespace Strtk.Grid
open Outcome Split

variable {α : Type}

/-- Specification: the text of a table. -/
def tableText (rc cc : α) (table : List (List (List α))) : List α := table.flatMap fun row => List.intercalate [cc] row ++ [rc]

/-- Specification: the grid `g` over the text `buf` shows the table: as many rows, and at each position the cell standing there (nothing outside the
table), and the least and greatest column counts are those of the table. -/
def Holds (g : Grid (Nat × Nat)) (buf : List α) (table : List (List (List α))) : Prop :=
  g.rowCount = table.length ∧
  (∀ i j, ∃ t, g.token i j = ok t ∧ t.map (textOf buf) = table[i]?.bind fun row => row[j]?) ∧
  (table ≠ [] → (∃ row ∈ table, row.length = g.minCol) ∧ (∃ row ∈ table, row.length = g.maxCol) ∧
    ∀ row ∈ table, g.minCol ≤ row.length ∧ row.length ≤ g.maxCol)

theorem holds_of {g : Grid (Nat × Nat)} {rows : List (List (Nat × Nat))} {buf : List α} {table : List (List (List α))} (h : Rep g rows) (hm : MinMax g rows)
    (he : (rows.map fun row => row.map (textOf buf)) = table) : Holds g buf table := by
  subst he
  refine ⟨by rw [h.shows.1, List.length_map], fun i j => ⟨_, h.shows.2 i j, ?_⟩, fun hne => ?_⟩
  · rw [List.getElem?_map]
    cases rows[i]? with
    | none => rfl
    | some r => simp
  · obtain ⟨⟨a, a1, a2⟩, ⟨b, b1, b2⟩, c⟩ := hm.2 (by simpa using hne)
    refine ⟨⟨_, List.mem_map.mpr ⟨a, a1, rfl⟩, by simpa using a2⟩, ⟨_, List.mem_map.mpr ⟨b, b1, rfl⟩, by simpa using b2⟩, fun row hr => ?_⟩
    obtain ⟨r, hr', rfl⟩ := List.mem_map.mp hr
    simpa using c r hr'

theorem intercalate_two (cc : α) (a b : List α) (t : List (List α)) : List.intercalate [cc] (a :: b :: t) = a ++ cc :: List.intercalate [cc] (b :: t) := by
  simp [List.intercalate]

theorem intercalate_one (cc : α) (a : List α) : List.intercalate [cc] [a] = a := by simp [List.intercalate]

theorem mem_intercalate_cell (cc : α) (row : List (List α)) (c : α) (h : c ∈ List.intercalate [cc] row) : c = cc ∨ ∃ w ∈ row, c ∈ w := by
  induction row with
  | nil => simp [List.intercalate] at h
  | cons a t ih =>
    cases t with
    | nil => rw [intercalate_one] at h; exact Or.inr ⟨a, by simp, h⟩
    | cons b t =>
      rw [intercalate_two, List.mem_append, List.mem_cons] at h
      rcases h with h | h | h
      · exact Or.inr ⟨a, by simp, h⟩
      · exact Or.inl h
      · rcases ih h with h | ⟨w, hw, hc⟩
        · exact Or.inl h
        · exact Or.inr ⟨w, List.mem_cons_of_mem _ hw, hc⟩

/-- The non-empty lines of the text of lines. -/
theorem splitOnP_lines (dr : α → Bool) (rc : α) (hrc : dr rc = true) (ls : List (List α)) (h : ∀ l ∈ ls, ∀ c ∈ l, dr c = false) :
    (ls.flatMap fun l => l ++ [rc]).splitOnP dr = ls ++ [[]] := by
  induction ls with
  | nil => rfl
  | cons l ls ih =>
    rw [List.flatMap_cons, List.append_assoc, List.singleton_append,
      List.splitOnP_append_cons_of_forall_mem (fun c hc => by simpa using h l (by simp) c hc) rc hrc, ih (fun l hl => h l (List.mem_cons_of_mem _ hl)), List.cons_append]

theorem lines_of_text (dr : α → Bool) (rc : α) (hrc : dr rc = true) (ls : List (List α)) (h : ∀ l ∈ ls, ∀ c ∈ l, dr c = false) (hne : ∀ l ∈ ls, l ≠ []) :
    ((ls.flatMap fun l => l ++ [rc]).splitOnP dr).filter (fun w => !w.isEmpty) = ls := by
  rw [splitOnP_lines dr rc hrc ls h, List.filter_append, List.filter_eq_self.mpr (fun l hl => by simpa using hne l hl)]
  simp

theorem splitOnP_intercalate (dc : α → Bool) (cc : α) (hcc : dc cc = true) (row : List (List α)) (hne : row ≠ []) (h : ∀ w ∈ row, ∀ c ∈ w, dc c = false) :
    (List.intercalate [cc] row).splitOnP dc = row := by
  induction row with
  | nil => exact absurd rfl hne
  | cons a t ih =>
    cases t with
    | nil => rw [intercalate_one]; exact List.splitOnP_eq_singleton (fun c hc => by simpa using h a (by simp) c hc)
    | cons b t =>
      rw [intercalate_two, List.splitOnP_append_cons_of_forall_mem (fun c hc => by simpa using h a (by simp) c hc) cc hcc, ih (by simp) (fun w hw => h w (List.mem_cons_of_mem _ hw))]

theorem intercalate_ne_nil (cc : α) (row : List (List α)) (h1 : row ≠ []) (h2 : row ≠ [[]]) : List.intercalate [cc] row ≠ [] := by
  cases row with
  | nil => exact absurd rfl h1
  | cons a t =>
    cases t with
    | nil => rw [intercalate_one]; intro h; rw [h] at h2; exact h2 rfl
    | cons b t => rw [intercalate_two]; simp

/-- Without two column delimiters in a row a line has no runs to collapse. -/
theorem collapseRuns_append_cons (d : α → Bool) (w : List α) (hw : ∀ c ∈ w, d c = false) (hne : w ≠ []) (cc : α) (s : List α)
    (hs : ∀ c ∈ s.head?, d c = false) : collapseRuns d (w ++ cc :: s) = w ++ cc :: collapseRuns d s := by
  induction w with
  | nil => exact absurd rfl hne
  | cons a w ih =>
    have ha : d a = false := hw a (by simp)
    cases w with
    | nil =>
      cases s with
      | nil => simp [collapseRuns, ha]
      | cons b s =>
        have hb : d b = false := hs b (by simp)
        simp [collapseRuns, ha, hb]
    | cons b w =>
      have := ih (fun c hc => hw c (List.mem_cons_of_mem _ hc)) (by simp)
      simp only [List.cons_append] at this ⊢
      simp only [collapseRuns, ha, Bool.false_and, Bool.false_eq_true, if_false]
      rw [this]

theorem collapseRuns_plain (d : α → Bool) (w : List α) (hw : ∀ c ∈ w, d c = false) : collapseRuns d w = w := by
  induction w with
  | nil => rfl
  | cons a w ih =>
    cases w with
    | nil => rfl
    | cons b w =>
      simp only [collapseRuns, hw a (by simp), Bool.false_and, Bool.false_eq_true, if_false]
      rw [ih (fun c hc => hw c (List.mem_cons_of_mem _ hc))]

theorem collapseRuns_intercalate (dc : α → Bool) (cc : α) (row : List (List α)) (h : ∀ w ∈ row, ∀ c ∈ w, dc c = false) (hne : ∀ w ∈ row, w ≠ []) :
    collapseRuns dc (List.intercalate [cc] row) = List.intercalate [cc] row := by
  induction row with
  | nil => rfl
  | cons a t ih =>
    cases t with
    | nil => rw [intercalate_one]; exact collapseRuns_plain dc a (h a (by simp))
    | cons b t =>
      rw [intercalate_two, collapseRuns_append_cons dc a (h a (by simp)) (hne a (by simp)),
        ih (fun w hw => h w (List.mem_cons_of_mem _ hw)) (fun w hw => hne w (List.mem_cons_of_mem _ hw))]
      intro c hc
      have hb := hne b (by simp)
      cases b with
      | nil => exact absurd rfl hb
      | cons x b =>
        have : c = x := by
          cases t with
          | nil => rw [intercalate_one] at hc; simpa using hc.symm
          | cons y t => rw [intercalate_two] at hc; simpa using hc.symm
        subst this
        exact h (c :: b) (by simp) c (by simp)

/-! ## C152 -/

theorem tableText_lines (rc cc : α) (table : List (List (List α))) :
    tableText rc cc table = (table.map fun row => List.intercalate [cc] row).flatMap fun l => l ++ [rc] := by
  rw [List.flatMap_map]; rfl

/-- A table with any number of rows of any lengths, whose cells contain no delimiter and of whose rows none would be an empty line, is loaded as it was written. -/
theorem C152_table_loads (dr dc : α → Bool) (rc cc : α) (hrc : dr rc = true) (hcc : dc cc = true) (hcr : dr cc = false) (table : List (List (List α)))
    (hrow : ∀ row ∈ table, row ≠ [] ∧ row ≠ [[]]) (hcell : ∀ row ∈ table, ∀ w ∈ row, ∀ c ∈ w, dr c = false ∧ dc c = false)
    (hsm : (tableText rc cc table).length + 1 < 2 ^ 32) :
    ∃ g, load {} dr dc (tableText rc cc table) = ok g ∧ Holds g (tableText rc cc table) table := by
  obtain ⟨g, rows, h1, h2, h3, h4⟩ := C60_load_default dr dc (tableText rc cc table) hsm
  refine ⟨g, h1, holds_of h2 h3 ?_⟩
  rw [h4, tableText_lines, lines_of_text dr rc hrc, List.map_map]
  · conv => rhs; rw [← List.map_id table]
    apply List.map_congr_left
    intro row hr
    exact splitOnP_intercalate dc cc hcc row (hrow row hr).1 (fun w hw c hc => (hcell row hr w hw c hc).2)
  · intro l hl c hc
    obtain ⟨row, hr, rfl⟩ := List.mem_map.mp hl
    rcases mem_intercalate_cell cc row c hc with rfl | ⟨w, hw, hc⟩
    · exact hcr
    · exact (hcell row hr w hw c hc).1
  · intro l hl
    obtain ⟨row, hr, rfl⟩ := List.mem_map.mp hl
    exact intercalate_ne_nil cc row (hrow row hr).1 (hrow row hr).2

/-- The same with `compress_delimiters`, if no cell is empty. -/
theorem C152_table_loads_compressed (dr dc : α → Bool) (rc cc : α) (hrc : dr rc = true) (hcc : dc cc = true) (hcr : dr cc = false) (table : List (List (List α)))
    (hrow : ∀ row ∈ table, row ≠ []) (hempty : ∀ row ∈ table, ∀ w ∈ row, w ≠ []) (hcell : ∀ row ∈ table, ∀ w ∈ row, ∀ c ∈ w, dr c = false ∧ dc c = false)
    (hsm : (tableText rc cc table).length + 1 < 2 ^ 32) :
    ∃ g, load { compress := true } dr dc (tableText rc cc table) = ok g ∧ Holds g (tableText rc cc table) table := by
  obtain ⟨g, rows, h1, h2, h3, h4⟩ := C60_load_compress dr dc (tableText rc cc table) hsm
  refine ⟨g, h1, holds_of h2 h3 ?_⟩
  rw [h4, tableText_lines, lines_of_text dr rc hrc, List.map_map]
  · conv => rhs; rw [← List.map_id table]
    apply List.map_congr_left
    intro row hr
    have hd : ∀ w ∈ row, ∀ c ∈ w, dc c = false := fun w hw c hc => (hcell row hr w hw c hc).2
    show (collapseRuns dc (List.intercalate [cc] row)).splitOnP dc = row
    rw [collapseRuns_intercalate dc cc row hd (hempty row hr)]
    exact splitOnP_intercalate dc cc hcc row (hrow row hr) hd
  · intro l hl c hc
    obtain ⟨row, hr, rfl⟩ := List.mem_map.mp hl
    rcases mem_intercalate_cell cc row c hc with rfl | ⟨w, hw, hc⟩
    · exact hcr
    · exact (hcell row hr w hw c hc).1
  · intro l hl
    obtain ⟨row, hr, rfl⟩ := List.mem_map.mp hl
    exact intercalate_ne_nil cc row (hrow row hr) (fun h => hempty row hr [] (by rw [h]; simp) rfl)

/-- With `compress_delimiters` a table with an empty cell is not loaded as it was written, whatever its delimiters: the row `a,,b` has two cells. -/
theorem C152_compress_drops_empty :
    ∃ g, load { compress := true } (· == '\n') (· == ',') (tableText '\n' ',' [[['a'], [], ['b']]]) = ok g ∧ g.token 0 2 = ok none :=
  ⟨⟨⟨[(0, 1), (3, 4)], [(0, 1)]⟩, 2, 2⟩, by decide +kernel, by decide⟩

/-- A row that is one empty cell is written as an empty line, and empty lines are dropped. -/
theorem C152_empty_line_dropped :
    ∃ g, load {} (· == '\n') (· == ',') (tableText '\n' ',' [[['a']], [[]], [['b']]]) = ok g ∧ g.rowCount = 2 :=
  ⟨⟨⟨[(0, 1), (3, 4)], [(0, 0), (1, 1)]⟩, 1, 1⟩, by decide +kernel, by decide⟩

/-! ### Quoted cells -/

/-- Specification: a cell as it is written, with double quotes around it or without. -/
def cellText (quote : α) (cell : Bool × List α) : List α := if cell.1 then quote :: cell.2 ++ [quote] else cell.2

/-- In quotes a cell may contain column delimiters, but no quote and no row delimiter; without quotes it contains none of them. -/
def CellOk (quote : α) (dr dc : α → Bool) (cell : Bool × List α) : Prop :=
  ∀ c ∈ cell.2, c ≠ quote ∧ dr c = false ∧ (cell.1 = false → dc c = false)

theorem quote_inside [DecidableEq α] (quote : α) (dc : α → Bool) (w : List α) (hw : ∀ c ∈ w, c ≠ quote) :
    after (quoteStep quote dc) true w = true ∧ ∀ e ∈ ann (quoteStep quote dc) true w, e.2 = false := by
  induction w with
  | nil => exact ⟨rfl, by simp [ann]⟩
  | cons c w ih =>
    have hc : quoteStep quote dc true c = (false, true) := by unfold quoteStep; rw [if_neg (hw c (by simp))]; rfl
    obtain ⟨i1, i2⟩ := ih fun c hc => hw c (List.mem_cons_of_mem _ hc)
    simp only [after, ann, hc]
    refine ⟨i1, fun e he => ?_⟩
    rcases List.mem_cons.mp he with rfl | he
    · rfl
    · exact i2 e he

theorem quote_outside [DecidableEq α] (quote : α) (dc : α → Bool) (w : List α) (hw : ∀ c ∈ w, c ≠ quote ∧ dc c = false) :
    after (quoteStep quote dc) false w = false ∧ ∀ e ∈ ann (quoteStep quote dc) false w, e.2 = false := by
  induction w with
  | nil => exact ⟨rfl, by simp [ann]⟩
  | cons c w ih =>
    have hc : quoteStep quote dc false c = (false, false) := by
      unfold quoteStep; rw [if_neg (hw c (by simp)).1, (hw c (by simp)).2]; rfl
    obtain ⟨i1, i2⟩ := ih fun c hc => hw c (List.mem_cons_of_mem _ hc)
    simp only [after, ann, hc]
    refine ⟨i1, fun e he => ?_⟩
    rcases List.mem_cons.mp he with rfl | he
    · rfl
    · exact i2 e he

theorem quote_cell [DecidableEq α] (quote : α) (dr dc : α → Bool) (cell : Bool × List α) (h : CellOk quote dr dc cell) :
    after (quoteStep quote dc) false (cellText quote cell) = false ∧ ∀ e ∈ ann (quoteStep quote dc) false (cellText quote cell), e.2 = false := by
  obtain ⟨b, w⟩ := cell
  cases b with
  | false => exact quote_outside quote dc w fun c hc => ⟨(h c hc).1, (h c hc).2.2 rfl⟩
  | true =>
    obtain ⟨i1, i2⟩ := quote_inside quote dc w fun c hc => (h c hc).1
    have hq : ∀ q, quoteStep quote dc q quote = (false, !q) := fun q => by unfold quoteStep; rw [if_pos rfl]
    simp only [cellText, if_true, List.cons_append, after, ann, hq, Bool.not_false]
    rw [after_append, ann_append, i1]
    simp only [after, ann, hq, Bool.not_true]
    refine ⟨trivial, fun e he => ?_⟩
    simp only [List.mem_cons, List.mem_append, List.not_mem_nil, or_false] at he
    rcases he with rfl | he | rfl
    · rfl
    · exact i2 e he
    · rfl

theorem quotedTokens_row [DecidableEq α] (quote : α) (dr dc : α → Bool) (cc : α) (hcc : dc cc = true) (hcq : cc ≠ quote) (row : List (Bool × List α)) (hne : row ≠ [])
    (h : ∀ cell ∈ row, CellOk quote dr dc cell) : quotedTokens quote dc (List.intercalate [cc] (row.map (cellText quote))) = row.map (cellText quote) := by
  unfold quotedTokens
  rw [← ann_marks]
  induction row with
  | nil => exact absurd rfl hne
  | cons a t ih =>
    obtain ⟨a1, a2⟩ := quote_cell quote dr dc a (h a (by simp))
    cases t with
    | nil =>
      simp only [List.map_cons, List.map_nil]
      rw [intercalate_one, List.splitOnP_eq_singleton (fun e he => by simpa using a2 e he)]
      simp [ann_fst]
    | cons b t =>
      have := ih (by simp) (fun c hc => h c (List.mem_cons_of_mem _ hc))
      simp only [List.map_cons] at this ⊢
      rw [intercalate_two, ann_append, a1]
      have hs : quoteStep quote dc false cc = (true, false) := by unfold quoteStep; rw [if_neg hcq, hcc]; rfl
      simp only [ann, hs]
      rw [List.splitOnP_append_cons_of_forall_mem (fun e he => by simpa using a2 e he) (cc, true) rfl, List.map_cons, this, ann_fst]

theorem trimText_cell [DecidableEq α] (quote : α) (dr dc : α → Bool) (cell : Bool × List α) (h : CellOk quote dr dc cell) : trimText quote (cellText quote cell) = cell.2 := by
  obtain ⟨b, w⟩ := cell
  cases b with
  | true =>
    unfold trimText cellText
    simp only [if_true]
    rw [if_pos ⟨by simp, by simp, by rw [List.getLast?_append]; simp⟩]
    simp
  | false =>
    unfold trimText cellText
    simp only [Bool.false_eq_true, if_false]
    rw [if_neg]
    rintro ⟨_, h2, _⟩
    exact (h quote (List.mem_of_mem_head? h2)).1 rfl

theorem count_cell [DecidableEq α] (quote : α) (dr dc : α → Bool) (cell : Bool × List α) (h : CellOk quote dr dc cell) : (cellText quote cell).count quote % 2 = 0 := by
  obtain ⟨b, w⟩ := cell
  have h0 : w.count quote = 0 := List.count_eq_zero.mpr fun hm => (h quote hm).1 rfl
  cases b with
  | true => simp [cellText, h0]
  | false => simp [cellText, h0]

theorem count_row [DecidableEq α] (quote : α) (dr dc : α → Bool) (cc : α) (hcq : cc ≠ quote) (row : List (Bool × List α)) (h : ∀ cell ∈ row, CellOk quote dr dc cell) :
    (List.intercalate [cc] (row.map (cellText quote))).count quote % 2 = 0 := by
  induction row with
  | nil => rfl
  | cons a t ih =>
    have ha := count_cell quote dr dc a (h a (by simp))
    cases t with
    | nil => simpa [intercalate_one] using ha
    | cons b t =>
      have := ih fun c hc => h c (List.mem_cons_of_mem _ hc)
      simp only [List.map_cons] at this ⊢
      rw [intercalate_two, List.count_append, List.count_cons_of_ne hcq]
      omega

theorem cell_no_row [DecidableEq α] (quote : α) (dr dc : α → Bool) (hq : dr quote = false) (cell : Bool × List α) (h : CellOk quote dr dc cell) :
    ∀ c ∈ cellText quote cell, dr c = false := by
  obtain ⟨b, w⟩ := cell
  intro c hc
  cases b with
  | false => exact (h c hc).2.1
  | true =>
    simp only [cellText, if_true, List.cons_append, List.mem_cons, List.mem_append, List.not_mem_nil, or_false] at hc
    rcases hc with rfl | hc | rfl
    · exact hq
    · exact (h c hc).2.1
    · exact hq

/-- A table some of whose cells are written between double quotes: with double-quote support and trimming every cell comes back without its quotes, the
column delimiters inside quotes being part of it. -/
theorem C152_quoted_table_loads [DecidableEq α] (quote : α) (dr dc : α → Bool) (rc cc : α) (hrc : dr rc = true) (hcc : dc cc = true) (hcr : dr cc = false)
    (hq : dr quote = false) (hcq : cc ≠ quote) (table : List (List (Bool × List α))) (hne : table ≠ []) (hrow : ∀ row ∈ table, row ≠ [] ∧ row ≠ [(false, [])])
    (hcell : ∀ row ∈ table, ∀ cell ∈ row, CellOk quote dr dc cell)
    (hsm : (tableText rc cc (table.map fun row => row.map (cellText quote))).length + 1 < 2 ^ 32) :
    ∃ g, loadQ quote false true dr dc (tableText rc cc (table.map fun row => row.map (cellText quote))) = ok g ∧
      Holds g (tableText rc cc (table.map fun row => row.map (cellText quote))) (table.map fun row => row.map Prod.snd) := by
  have hls : tableText rc cc (table.map fun row => row.map (cellText quote)) =
      (table.map fun row => List.intercalate [cc] (row.map (cellText quote))).flatMap fun l => l ++ [rc] := by
    rw [tableText_lines, List.map_map]; rfl
  have hno : ∀ l ∈ table.map (fun row => List.intercalate [cc] (row.map (cellText quote))), ∀ c ∈ l, dr c = false := by
    intro l hl c hc
    obtain ⟨row, hr, rfl⟩ := List.mem_map.mp hl
    rcases mem_intercalate_cell cc _ c hc with rfl | ⟨w, hw, hc⟩
    · exact hcr
    · obtain ⟨cell, hce, rfl⟩ := List.mem_map.mp hw
      exact cell_no_row quote dr dc hq cell (hcell row hr cell hce) c hc
  obtain ⟨body, hb⟩ : ∃ body, tableText rc cc (table.map fun row => row.map (cellText quote)) = body ++ [rc] := by
    obtain ⟨init, last, rfl⟩ : ∃ init last, table = init ++ [last] := ⟨_, _, (List.dropLast_append_getLast hne).symm⟩
    refine ⟨tableText rc cc (init.map fun row => row.map (cellText quote)) ++ List.intercalate [cc] (last.map (cellText quote)), ?_⟩
    simp [tableText]
  have hsplit := splitOnP_lines dr rc hrc _ hno
  have hlines := lines_of_text dr rc hrc _ hno (by
    intro l hl
    obtain ⟨row, hr, rfl⟩ := List.mem_map.mp hl
    apply intercalate_ne_nil
    · simpa using (hrow row hr).1
    · intro he
      have h2 := (hrow row hr).2
      obtain ⟨⟨b, w⟩, rfl, he⟩ : ∃ x, row = [x] ∧ cellText quote x = [] := by
        cases row with
        | nil => simp at he
        | cons x t =>
          cases t with
          | nil => exact ⟨x, rfl, by simpa using he⟩
          | cons y t => simp at he
      cases b with
      | true => simp [cellText] at he
      | false => simp [cellText] at he; rw [he] at h2; exact h2 rfl)
  obtain ⟨g, rows, h1, h2, h3, h4⟩ := C85_trim_partial quote dr dc hq body rc hrc (by rw [← hb]; exact hsm) (by
    rw [← hb, hls, hsplit]
    intro line hl
    rcases List.mem_append.mp hl with hl | hl
    · obtain ⟨row, hr, rfl⟩ := List.mem_map.mp hl
      exact count_row quote dr dc cc hcq row (hcell row hr)
    · rw [List.mem_singleton.mp hl]; rfl)
  rw [← hb] at h1 h4
  refine ⟨g, h1, holds_of h2 h3 ?_⟩
  rw [h4, hls, hlines, List.map_map]
  apply List.map_congr_left
  intro row hr
  show (quotedTokens quote dc (List.intercalate [cc] (row.map (cellText quote)))).map (trimText quote) = _
  rw [quotedTokens_row quote dr dc cc hcc hcq row (hrow row hr).1 (hcell row hr), List.map_map]
  exact List.map_congr_left fun cell hc => trimText_cell quote dr dc cell (hcell row hr cell hc)

/-! ### The hypotheses are met -/

example : tableText '\n' ',' [["ab".toList, [], "c".toList], [[], "d".toList]] = "ab,,c\n,d\n".toList := by decide
example : (tableText '\n' ',' [["ab".toList, [], "c".toList], [[], "d".toList]]).length + 1 < 2 ^ 32 ∧
    (∀ row ∈ [["ab".toList, [], "c".toList], [[], "d".toList]], row ≠ [] ∧ row ≠ [[]]) ∧
    (∀ row ∈ [["ab".toList, [], "c".toList], [[], "d".toList]], ∀ w ∈ row, ∀ c ∈ w, (c == '\n') = false ∧ (c == ',') = false) := by decide
example : tableText '\n' ',' ([[(true, "a,b".toList), (false, "c".toList)]].map fun row => row.map (cellText '"')) = "\"a,b\",c\n".toList := by decide
example : ∀ cell ∈ [(true, "a,b".toList), (false, "c".toList)], CellOk '"' (· == '\n') (· == ',') cell := by
  intro cell hc
  simp only [List.mem_cons, List.not_mem_nil, or_false] at hc
  rcases hc with rfl | rfl
  · intro c hc; revert c; decide
  · intro c hc; revert c; decide

example : ∃ g, load {} (· == '\n') (· == ',') "ab,,c\n,d\n".toList = ok g ∧ Holds g "ab,,c\n,d\n".toList [["ab".toList, [], "c".toList], [[], "d".toList]] :=
  C152_table_loads (· == '\n') (· == ',') '\n' ',' rfl rfl rfl [["ab".toList, [], "c".toList], [[], "d".toList]] (by decide) (by decide) (by decide)

example := C152_table_loads_compressed (· == '\n') (· == ',') '\n' ',' rfl rfl rfl [["ab".toList, "c".toList], ["d".toList]] (by decide) (by decide) (by decide) (by decide)

end Strtk.Grid
