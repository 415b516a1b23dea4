import Verif.Programs.Randomizer
import Verif.Grid.More
import Verif.Grid.Props
import Verif.Join.Props
import Verif.Misc.Props

/-!
# strtk_numstats.cpp

Line numbers refer to strtk_numstats.cpp.  The arguments are those behind the name of the program; `files` gives the contents of the files that can be
opened.  The result is what `main` returns and what it writes; the usage message is left out.
-/

namespace Strtk.Programs
open Outcome Strtk.Lines

/-- The type `double`: `R` are the numbers (with the infinities) and `S` what sums of them are (which can be NaN).  `conv` is the conversion of a token:
`none` when it fails, `some none` for NaN.  `text` and `sumText` are what a stream writes. -/
structure Doubles (R S : Type) where
  conv : List UInt8 → Option (Option R)
  text : R → List UInt8
  zero : S
  add : S → R → S
  over : S → Nat → S
  sumText : S → List UInt8

variable {R S : Type} [LinearOrder R]

/-- `compute_stats` (57-75).  `std::nth_element` (C++ library) puts the element that stands in the middle of the sorted values there; a NaN among the values
breaks its precondition. -/
def computeStats (D : Doubles R S) (values : List (Option R)) : Outcome (List UInt8) :=
  match values.mapM id with
  | none => ub
  | some v => do
    let (mn, mx) ← Misc.minMax v
    let sum := v.foldl D.add D.zero
    let md ← deref (v.mergeSort fun a b => decide (a ≤ b)) (v.length / 2)
    ok (D.text mn ++ [9] ++ D.text mx ++ [9] ++ D.sumText sum ++ [9] ++ D.sumText (D.over sum v.length) ++ [9] ++ D.text md ++ [9])

/-- A `std::size_t` written to a stream (C++ library): its decimal digits. -/
def natText (n : Nat) : List UInt8 := (Nat.toDigits 10 n).map fun c => UInt8.ofNat c.toNat

/-- The head of a line (127, 140): `C[3]` or `R[3]`, then a tabulator. -/
def headText (c : UInt8) (n : Nat) : List UInt8 := [c, 91] ++ natText n ++ [93, 9]

/-- The loop over the columns (119-130), `left` of them from `column` on. -/
def columnLoop (D : Doubles R S) (buf : List UInt8) (g : Grid.Grid (Nat × Nat)) : Nat → Nat → List UInt8 → Outcome (List UInt8)
  | 0, _, out => ok out
  | left + 1, column, out => do
    let (_, values) ← g.extractColumnChecked (fun t => D.conv (Split.textOf buf t)) 0 g.rowCount column []
    if values = [] then columnLoop D buf g left (column + 1) out
    else do
      let s ← computeStats D values
      columnLoop D buf g left (column + 1) (out ++ headText 67 column ++ s ++ [10])

/-- The loop over the rows (132-143), `left` of them from `row` on. -/
def rowLoop (D : Doubles R S) (buf : List UInt8) (g : Grid.Grid (Nat × Nat)) : Nat → Nat → List UInt8 → Outcome (List UInt8)
  | 0, _, out => ok out
  | left + 1, row, out => do
    let r ← g.row row
    let values ← r.parseChecked (fun t => D.conv (Split.textOf buf t)) g.store.tokens []
    if values = [] then rowLoop D buf g left (row + 1) out
    else do
      let s ← computeStats D values
      rowLoop D buf g left (row + 1) (out ++ headText 82 row ++ s ++ [10])

/-- The row delimiters of the default options, "\n\r" (strtk.hpp 5494). -/
def rowDelims : List UInt8 := [10, 13]

/-- The column delimiters ", " (110). -/
def columnDelims : List UInt8 := [44, 32]

/-- `main` behind the loading of the lines (97-145).  `reserve` has no observable effect. -/
def numstatsLines (D : Doubles R S) (l : List (List UInt8)) : Outcome (Nat × List UInt8) :=
  if l = [] then ok (0, [])
  else do
    let buf := Join.join id [10] [] l
    let g ← Grid.load { compress := true } (fun c => decide (c ∈ rowDelims)) (fun c => decide (c ∈ columnDelims)) buf
    let (_, g) ← g.removeTokenIf 0 g.rowCount fun t => t.1 == t.2
    let out ← columnLoop D buf g g.maxCol 0 []
    let out ← rowLoop D buf g g.rowCount 0 out
    ok (0, out)

/-- `main` (77-146). -/
def numstatsMain (D : Doubles R S) (files : Files) (input : List UInt8) (args : List (List UInt8)) : Outcome (Nat × List UInt8) :=
  match args with
  | [] => do
    let (_, l) ← loadFromText (fun line => some line) input []
    numstatsLines D l
  | [name] => do
    let l ← loadNamed files name
    numstatsLines D l
  | _ :: _ :: _ => ok (1, [])

/-! ## Specification -/

/-- The cells of a text: lines end at '\n' or '\r', cells at ',' or ' '; neither empty cells nor lines without a cell count. -/
def cells (text : List UInt8) : List (List (List UInt8)) :=
  ((text.splitOnP fun c => c == 10 || c == 13).map fun line => (line.splitOnP fun c => c == 44 || c == 32).filter fun w => !w.isEmpty).filter fun r => !r.isEmpty

/-- The bytes of a text of ASCII characters. -/
def bytesOf (s : String) : List UInt8 := s.toList.map fun c => UInt8.ofNat c.toNat

/-- What is to be reported, in order: the columns, then the rows, each with its numbers in order; those without numbers are left out. -/
def reported (value : List UInt8 → Option R) (tbl : List (List (List UInt8))) : List (List UInt8 × List R) :=
  (((List.range ((tbl.map List.length).foldr max 0)).map fun c => (bytesOf s!"C[{c}]\t", tbl.filterMap fun r => (r[c]?).bind value)) ++
    tbl.zipIdx.map fun e => (bytesOf s!"R[{e.2}]\t", e.1.filterMap value)).filter fun e => !e.2.isEmpty

/-- `s` are the statistics of `v`: a smallest and a greatest number, the sum, the mean and a median. -/
def Stats (D : Doubles R S) (v : List R) (s : List UInt8) : Prop :=
  ∃ mn mx md, mn ∈ v ∧ mx ∈ v ∧ md ∈ v ∧ (∀ x ∈ v, mn ≤ x ∧ x ≤ mx) ∧
    v.countP (fun x => decide (x < md)) ≤ v.length / 2 ∧ v.length / 2 < v.countP (fun x => decide (x ≤ md)) ∧
    s = D.text mn ++ [9] ++ D.text mx ++ [9] ++ D.sumText (v.foldl D.add D.zero) ++ [9] ++ D.sumText (D.over (v.foldl D.add D.zero) v.length) ++ [9] ++
      D.text md ++ [9]

/-! ## Theorems -/

theorem headText_column (n : Nat) : headText 67 n = bytesOf s!"C[{n}]\t" := by
  have hn : (toString n).toList = Nat.toDigits 10 n := by simp [toString, Nat.repr]
  simp only [headText, natText, bytesOf, String.toList_append, List.map_append, hn]
  congr 1

theorem headText_row (n : Nat) : headText 82 n = bytesOf s!"R[{n}]\t" := by
  have hn : (toString n).toList = Nat.toDigits 10 n := by simp [toString, Nat.repr]
  simp only [headText, natText, bytesOf, String.toList_append, List.map_append, hn]
  congr 1

theorem join_lines : ∀ (n : Nat) (text : List UInt8), text.length ≤ n →
    (text = Join.join id [10] [] (linesOf text) ∨ text = Join.join id [10] [] (linesOf text) ++ [10]) ∧ (linesOf text = [] → text = []) := by
  intro n
  have hj : ∀ l : List (List UInt8), Join.join id [10] [] l = List.intercalate [10] l := fun l => by rw [Join.C35_join]; simp
  simp only [hj]
  induction n with
  | zero => intro text h; have : text = [] := List.length_eq_zero_iff.mp (by omega); subst this; rw [linesOf_nil]; exact ⟨Or.inl rfl, fun _ => rfl⟩
  | succ n ih =>
    intro text h
    by_cases hm : (10 : UInt8) ∈ text
    · obtain ⟨l, rest, rfl, hl⟩ := List.eq_append_cons_of_mem hm
      rw [linesOf_line l rest hl]
      obtain ⟨h1, h2⟩ := ih rest (by simp at h; omega)
      refine ⟨?_, by simp⟩
      cases hr : linesOf rest with
      | nil =>
        rw [h2 hr, Join.intercalate_one]
        exact Or.inr rfl
      | cons a t =>
        rw [hr] at h1
        rw [Join.intercalate_cons_cons]
        rcases h1 with h1 | h1
        · left; conv => lhs; rw [h1]
          simp
        · right; conv => lhs; rw [h1]
          simp
    · by_cases hne : text = []
      · subst hne; rw [linesOf_nil]; exact ⟨Or.inl rfl, fun _ => rfl⟩
      · rw [linesOf_last text hm hne]
        exact ⟨Or.inl (Join.intercalate_one _ _).symm, by simp⟩

theorem splitOnP_snoc (d : UInt8 → Bool) (c : UInt8) (hc : d c = true) : ∀ s : List UInt8, (s ++ [c]).splitOnP d = s.splitOnP d ++ [[]]
  | [] => by simp [Grid.splitOnP_cons', hc]
  | a :: s => by
    rw [List.cons_append, Grid.splitOnP_cons', Grid.splitOnP_cons', splitOnP_snoc d c hc s]
    split
    · simp
    · cases h : s.splitOnP d with
      | nil => exact absurd h (List.splitOnP_ne_nil _ _)
      | cons x t => simp

theorem mid_of_sorted (v : List R) (i : Nat) (hi : i < v.length) :
    ∃ md, deref (v.mergeSort fun a b => decide (a ≤ b)) i = ok md ∧ md ∈ v ∧ v.countP (fun x => decide (x < md)) ≤ i ∧
      i < v.countP (fun x => decide (x ≤ md)) := by
  have hp : (v.mergeSort fun a b => decide (a ≤ b)).Perm v := List.mergeSort_perm _ _
  have hs : (v.mergeSort fun a b => decide (a ≤ b)).Pairwise (fun a b => a ≤ b) := by
    have := List.pairwise_mergeSort (le := fun a b : R => decide (a ≤ b)) (by simpa using fun a b c => le_trans) (by simpa using le_total) v
    simpa using this
  generalize (v.mergeSort fun a b => decide (a ≤ b)) = w at hp hs
  have hi' : i < w.length := by rw [hp.length_eq]; exact hi
  have hsplit : ∀ (j : Nat) (p : R → Bool), w.countP p = (w.take j).countP p + (w.drop j).countP p := fun j p => by
    rw [← List.countP_append, List.take_append_drop]
  refine ⟨w[i], deref_eq_ok hi', hp.subset (List.getElem_mem _), ?_, ?_⟩
  · rw [← hp.countP_eq]
    have h0 : (w.drop i).countP (fun x => decide (x < w[i])) = 0 := by
      rw [List.countP_eq_zero]
      intro x hx
      obtain ⟨j, hj, rfl⟩ := List.mem_iff_getElem.mp hx
      rw [List.getElem_drop]
      simp only [decide_eq_true_eq, not_lt]
      by_cases h : j = 0
      · simp [h]
      · exact List.pairwise_iff_getElem.mp hs i (i + j) (by omega) (by simp at hj; omega) (by omega)
    rw [hsplit i, h0]
    have := List.countP_le_length (p := fun x => decide (x < w[i])) (l := w.take i)
    rw [List.length_take] at this
    omega
  · rw [← hp.countP_eq]
    have h1 : (w.take (i + 1)).countP (fun x => decide (x ≤ w[i])) = i + 1 := by
      rw [List.countP_eq_length.mpr]
      · rw [List.length_take]; omega
      · intro x hx
        obtain ⟨j, hj, rfl⟩ := List.mem_iff_getElem.mp hx
        rw [List.getElem_take]
        rw [List.length_take] at hj
        simp only [decide_eq_true_eq]
        by_cases h : j = i
        · simp [h]
        · exact List.pairwise_iff_getElem.mp hs j i (by omega) hi' (by omega)
    rw [hsplit (i + 1)]
    omega

theorem mapM_some (v : List R) : (v.map some).mapM id = some v := by
  induction v with
  | nil => rfl
  | cons a v ih => rw [List.map_cons, List.mapM_cons, ih]; rfl

theorem computeStats_ok (D : Doubles R S) (v : List R) (hv : v ≠ []) : ∃ s, computeStats D (v.map some) = ok s ∧ Stats D v s := by
  obtain ⟨mn, mx, h1, h2, h3, h4⟩ := (Misc.C95_min_max v).1 hv
  have hl := List.length_pos_iff.mpr hv
  obtain ⟨md, g1, g2, g3, g4⟩ := mid_of_sorted v (v.length / 2) (by omega)
  refine ⟨_, ?_, mn, mx, md, h2, h3, g2, h4, g3, g4, rfl⟩
  unfold computeStats
  rw [mapM_some]
  simp only
  rw [h1, ok_bind]
  simp only
  rw [g1, ok_bind]

theorem dropTokens_all (q : Nat × Nat → Bool) (rows : List (List (Nat × Nat))) : Grid.dropTokens 0 rows.length q rows =
    rows.filterMap fun r => if (r.filter fun t => !q t) = [] then none else some (r.filter fun t => !q t) := by
  unfold Grid.dropTokens
  have : ∀ (l : List (List (Nat × Nat))) (k : Nat), (l.zipIdx k).filterMap (fun e => if 0 ≤ e.2 ∧ e.2 < k + l.length then
      if (e.1.filter fun t => !q t) = [] then none else some (e.1.filter fun t => !q t) else some e.1) =
      l.filterMap fun r => if (r.filter fun t => !q t) = [] then none else some (r.filter fun t => !q t) := by
    intro l
    induction l with
    | nil => intro k; rfl
    | cons r l ih =>
      intro k
      have := ih (k + 1)
      rw [List.length_cons, List.zipIdx_cons, List.filterMap_cons, List.filterMap_cons, show k + (l.length + 1) = k + 1 + l.length by omega, this,
        if_pos ⟨Nat.zero_le _, by simp; omega⟩]
  simpa using this rows 0

/-- What `removeTokenIf` leaves, on texts. -/
theorem drop_empty {buf : List UInt8} {rows : List (List (Nat × Nat))} (hb : ∀ r ∈ rows, ∀ t ∈ r, t.1 ≤ t.2 ∧ t.2 ≤ buf.length) :
    (Grid.dropTokens 0 rows.length (fun t => t.1 == t.2) rows).map (List.map (Split.textOf buf)) =
      ((rows.map (List.map (Split.textOf buf))).map (List.filter fun w => !w.isEmpty)).filter fun r => !r.isEmpty := by
  rw [dropTokens_all]
  induction rows with
  | nil => rfl
  | cons r rows ih =>
    have ih := ih fun x hx => hb x (List.mem_cons_of_mem _ hx)
    have he : (r.map (Split.textOf buf)).filter (fun w => !w.isEmpty) = (r.filter fun t => !(t.1 == t.2)).map (Split.textOf buf) := by
      rw [List.filter_map]
      congr 1
      apply List.filter_congr
      intro t ht
      have := hb r (by simp) t ht
      have hl : (Split.textOf buf t).length = t.2 - t.1 := by unfold Split.textOf; simp; omega
      simp only [Function.comp_apply]
      congr 1
      rw [Bool.eq_iff_iff, List.isEmpty_iff, ← List.length_eq_zero_iff, hl]
      simp; omega
    rw [List.filterMap_cons, List.map_cons, List.map_cons, List.filter_cons, he, ← ih]
    by_cases h : (r.filter fun t => !(t.1 == t.2)) = []
    · rw [if_pos h, h]; simp
    · rw [if_neg h]; simp [h]

/-- The grid of the program. -/
theorem grid_cells (text : List UInt8) (hsm : text.length + 1 < 2 ^ 32) :
    ∃ g n g' rows, Grid.load { compress := true } (fun c => decide (c ∈ rowDelims)) (fun c => decide (c ∈ columnDelims)) (Join.join id [10] [] (linesOf text)) = ok g ∧
      g.removeTokenIf 0 g.rowCount (fun t => t.1 == t.2) = ok (n, g') ∧ Grid.Rep g' rows ∧ Grid.MinMax g' rows ∧
      rows.map (List.map (Split.textOf (Join.join id [10] [] (linesOf text)))) = cells text := by
  have hj := (join_lines _ text le_rfl).1
  generalize hbuf : Join.join id [10] [] (linesOf text) = buf at hj
  have hlen : buf.length + 1 < 2 ^ 32 := by rcases hj with h | h <;> rw [h] at hsm <;> simp at hsm <;> omega
  obtain ⟨g, rows, h1, h2, h3, h4, h5⟩ := Grid.C60_load { compress := true } (fun c : UInt8 => decide (c ∈ rowDelims)) (fun c => decide (c ∈ columnDelims)) buf hlen
  have h6 : (rows.map fun row => row.map (Split.textOf buf)) =
      ((buf.splitOnP fun c => decide (c ∈ rowDelims)).filter fun w => !w.isEmpty).map fun line =>
        (Split.collapseRuns (fun c => decide (c ∈ columnDelims)) line).splitOnP fun c => decide (c ∈ columnDelims) :=
    Grid.forall₂_eq_map _ _ (fun w t hw => by obtain ⟨toks, hs, rfl⟩ := hw; exact Split.Splits.splitOnP_collapse hs) h5
  obtain ⟨g', r1, r2, r3, r4⟩ := h2.removeTokenIf 0 g.rowCount fun t => t.1 == t.2
  have hrc : g.rowCount = rows.length := (Grid.C60_rep_shows g rows h2).1
  rw [hrc] at r1 r2 r3 r4
  have hv : Grid.ValidRange rows 0 rows.length := ⟨Nat.zero_le _, le_rfl⟩
  rw [if_pos hv] at r1 r2
  refine ⟨g, _, g', _, h1, by rw [hrc]; exact r1, r2, ?_, ?_⟩
  · by_cases hc : 0 < Grid.hitCount 0 rows.length (fun t => t.1 == t.2) rows
    · exact r3 hv hc
    · have e : Grid.dropTokens 0 rows.length (fun t => t.1 == t.2) rows = rows := by
        rw [dropTokens_all]
        have h0 : ∀ r ∈ rows, (r.filter fun t => !(t.1 == t.2)) = r := by
          intro r hr
          rw [List.filter_eq_self]
          intro t ht
          have hz : Grid.hitCount 0 rows.length (fun t => t.1 == t.2) rows = 0 := by omega
          unfold Grid.hitCount at hz
          rw [List.countP_eq_zero] at hz
          have := hz t (by simp only [List.drop_zero, Nat.sub_zero, List.take_length]; exact List.mem_flatten.mpr ⟨r, hr, ht⟩)
          simpa using this
        have hne := h2.nonempty
        clear h1 h2 h3 h4 h5 h6 r1 r2 r3 r4 hrc hv hc
        induction rows with
        | nil => rfl
        | cons r rows ih =>
          rw [List.filterMap_cons, h0 r (by simp), if_neg (hne r (by simp)), ih (fun x hx => h0 x (by simp [hx])) fun x hx => hne x (by simp [hx])]
      obtain ⟨m1, m2⟩ := r4 fun h => hc h.2
      rw [e]
      unfold Grid.MinMax at h3 ⊢
      rw [m1, m2]; exact h3
  · rw [drop_empty h4]
    show ((rows.map fun row => row.map (Split.textOf buf)).map (List.filter fun w => !w.isEmpty)).filter _ = _
    rw [h6, List.map_map]
    have hcol : ((List.filter fun w => !w.isEmpty) ∘ fun line => (Split.collapseRuns (fun c : UInt8 => decide (c ∈ columnDelims)) line).splitOnP fun c => decide (c ∈ columnDelims)) =
        fun line => (line.splitOnP fun c => c == 44 || c == 32).filter fun w => !w.isEmpty := by
      funext line
      have := Grid.lines_collapse (fun c : UInt8 => decide (c ∈ columnDelims)) line
      simp only [Function.comp_apply]
      rw [this]
      unfold Grid.lines
      congr 2
      funext c
      rw [Bool.eq_iff_iff]; simp [columnDelims]
    rw [hcol]
    unfold cells
    generalize hF : (fun line : List UInt8 => (line.splitOnP fun c => c == 44 || c == 32).filter fun w => !w.isEmpty) = F
    have hF0 : F [] = [] := by rw [← hF]; rfl
    have hdr : (fun c : UInt8 => decide (c ∈ rowDelims)) = fun c => c == 10 || c == 13 := by
      funext c; rw [Bool.eq_iff_iff]; simp [rowDelims]
    rw [hdr]
    have hfil : ∀ l : List (List UInt8), (((l.filter fun w => !w.isEmpty).map F).filter fun r => !r.isEmpty) = (l.map F).filter fun r => !r.isEmpty := by
      intro l
      induction l with
      | nil => rfl
      | cons w l ih =>
        cases w with
        | nil => simpa [hF0] using ih
        | cons a w => simp only [List.filter_cons, List.isEmpty_cons, Bool.not_false, if_true, List.map_cons, ih]
    rw [hfil]
    rcases hj with rfl | rfl
    · rfl
    · rw [splitOnP_snoc _ _ (by decide)]
      simp [hF0]

/-- The values of a row or column of the grid, on the texts of its tokens. -/
theorem convs_eq (D : Doubles R S) (value : List UInt8 → Option R) (buf : List UInt8) (ts : List (Nat × Nat))
    (h : ∀ t ∈ ts, D.conv (Split.textOf buf t) = (value (Split.textOf buf t)).map some) :
    ts.filterMap (fun t => D.conv (Split.textOf buf t)) = ((ts.map (Split.textOf buf)).filterMap value).map some := by
  induction ts with
  | nil => rfl
  | cons t ts ih =>
    rw [List.filterMap_cons, List.map_cons, List.filterMap_cons, ih fun x hx => h x (by simp [hx]), h t (by simp)]
    cases value (Split.textOf buf t) <;> simp

theorem column_eq (rows : List (List (Nat × Nat))) (c : Nat) {U : Type} (f : Nat × Nat → Option U) :
    rows.filterMap (fun r => (r[c]?).bind f) = (rows.filterMap fun r => r[c]?).filterMap f := by
  rw [List.filterMap_filterMap]

/-- A line of the report. -/
def Line (D : Doubles R S) (e : List UInt8 × List R) (line : List UInt8) : Prop := ∃ s, Stats D e.2 s ∧ line = e.1 ++ s ++ [10]

theorem columnLoop_spec (D : Doubles R S) (value : List UInt8 → Option R) (buf : List UInt8) (g : Grid.Grid (Nat × Nat)) (rows : List (List (Nat × Nat)))
    (hr : Grid.Rep g rows) (h : ∀ r ∈ rows, ∀ t ∈ r, D.conv (Split.textOf buf t) = (value (Split.textOf buf t)).map some) :
    ∀ (n c : Nat) (out : List UInt8), c + n = g.maxCol → ∃ lines, columnLoop D buf g n c out = ok (out ++ lines.flatten) ∧
      List.Forall₂ (Line D) (((List.range' c n).map fun c => (headText 67 c, (rows.map (List.map (Split.textOf buf))).filterMap fun r => (r[c]?).bind value)).filter
        fun e => !e.2.isEmpty) lines := by
  have hrc : g.rowCount = rows.length := (Grid.C60_rep_shows g rows hr).1
  intro n
  induction n with
  | zero => intro c out _; exact ⟨[], by simp [columnLoop], by simp⟩
  | succ n ih =>
    intro c out hc
    have hx := Grid.C64_extract_column_checked g rows hr (fun t => D.conv (Split.textOf buf t)) 0 g.rowCount c []
    have hv : ((Grid.between 0 rows.length rows).filterMap fun r => (r[c]?).bind fun t => D.conv (Split.textOf buf t)) =
        (((rows.map (List.map (Split.textOf buf))).filterMap fun r => (r[c]?).bind value)).map some := by
      have : Grid.between 0 rows.length rows = rows := by simp [Grid.between]
      rw [this, column_eq, convs_eq D value buf]
      · congr 1
        rw [List.filterMap_map, List.filterMap_filterMap, List.filterMap_map]
        apply List.filterMap_congr
        intro r _
        simp only [Function.comp_apply, List.getElem?_map]
        cases r[c]? <;> simp
      · intro t ht
        obtain ⟨r, hr, e⟩ := List.mem_filterMap.mp ht
        exact h r hr t (List.mem_of_getElem? e)
    rw [hrc, if_pos ⟨Nat.zero_le _, le_rfl⟩, hv, List.nil_append] at hx
    rw [columnLoop, hrc, hx, ok_bind]
    simp only
    rw [List.range'_succ, List.map_cons]
    by_cases he : ((rows.map (List.map (Split.textOf buf))).filterMap fun r => (r[c]?).bind value) = []
    · rw [he, if_pos (by simp)]
      obtain ⟨lines, l1, l2⟩ := ih (c + 1) out (by omega)
      refine ⟨lines, l1, ?_⟩
      rw [List.filter_cons]
      simpa using l2
    · rw [if_neg (by simpa using he)]
      obtain ⟨s, s1, s2⟩ := computeStats_ok D _ he
      rw [s1, ok_bind]
      obtain ⟨lines, l1, l2⟩ := ih (c + 1) (out ++ headText 67 c ++ s ++ [10]) (by omega)
      refine ⟨(headText 67 c ++ s ++ [10]) :: lines, by rw [l1]; simp, ?_⟩
      rw [List.filter_cons, if_pos (by simpa using he)]
      exact List.Forall₂.cons ⟨s, s2, rfl⟩ l2

theorem rowLoop_spec (D : Doubles R S) (value : List UInt8 → Option R) (buf : List UInt8) (g : Grid.Grid (Nat × Nat)) (rows : List (List (Nat × Nat)))
    (hr : Grid.Rep g rows) (h : ∀ r ∈ rows, ∀ t ∈ r, D.conv (Split.textOf buf t) = (value (Split.textOf buf t)).map some) :
    ∀ (n i : Nat) (out : List UInt8), i + n = rows.length → ∃ lines, rowLoop D buf g n i out = ok (out ++ lines.flatten) ∧
      List.Forall₂ (Line D) (((((rows.map (List.map (Split.textOf buf))).drop i).zipIdx i).map fun e => (headText 82 e.2, e.1.filterMap value)).filter
        fun e => !e.2.isEmpty) lines := by
  intro n
  induction n with
  | zero => intro i out hi; exact ⟨[], by simp [rowLoop], by rw [List.drop_of_length_le (by simp; omega)]; simp⟩
  | succ n ih =>
    intro i out hi
    have hlt : i < rows.length := by omega
    obtain ⟨row, e1, e2⟩ := Grid.C109_parse_checked g rows hr (fun t => D.conv (Split.textOf buf t)) i hlt []
    rw [convs_eq D value buf _ (h _ (List.getElem_mem hlt)), List.nil_append] at e2
    rw [rowLoop, e1, ok_bind, e2, ok_bind, List.drop_eq_getElem_cons (by simpa using hlt), List.zipIdx_cons, List.map_cons]
    simp only [List.getElem_map]
    by_cases he : ((rows[i].map (Split.textOf buf)).filterMap value) = []
    · rw [he, if_pos (by simp)]
      obtain ⟨lines, l1, l2⟩ := ih (i + 1) out (by omega)
      refine ⟨lines, l1, ?_⟩
      rw [List.filter_cons]
      simpa using l2
    · rw [if_neg (by simpa using he)]
      obtain ⟨s, s1, s2⟩ := computeStats_ok D _ he
      rw [s1, ok_bind]
      obtain ⟨lines, l1, l2⟩ := ih (i + 1) (out ++ headText 82 i ++ s ++ [10]) (by omega)
      refine ⟨(headText 82 i ++ s ++ [10]) :: lines, by rw [l1]; simp, ?_⟩
      rw [List.filter_cons, if_pos (by simpa using he)]
      exact List.Forall₂.cons ⟨s, s2, rfl⟩ l2

theorem foldr_max (l : List Nat) : (∀ x ∈ l, x ≤ l.foldr max 0) ∧ (l ≠ [] → l.foldr max 0 ∈ l) := by
  induction l with
  | nil => simp
  | cons a l ih =>
    constructor
    · intro x hx
      rcases List.mem_cons.mp hx with rfl | hx
      · exact Nat.le_max_left _ _
      · exact le_trans (ih.1 x hx) (Nat.le_max_right _ _)
    · intro _
      rw [List.foldr_cons]
      by_cases hl : l = []
      · subst hl; simp
      · rcases Nat.le_total a (l.foldr max 0) with h | h
        · rw [Nat.max_eq_right h]; exact List.mem_cons_of_mem _ (ih.2 hl)
        · rw [Nat.max_eq_left h]; simp

theorem maxCol_eq {g : Grid.Grid (Nat × Nat)} {rows : List (List (Nat × Nat))} (hm : Grid.MinMax g rows) (f : Nat × Nat → List UInt8) :
    g.maxCol = ((rows.map (List.map f)).map List.length).foldr max 0 := by
  have e : (rows.map (List.map f)).map List.length = rows.map List.length := by simp [Function.comp_def]
  rw [e]
  by_cases hr : rows = []
  · subst hr; exact (hm.1 rfl).2
  · obtain ⟨_, ⟨r, r1, r2⟩, h⟩ := hm.2 hr
    obtain ⟨f1, f2⟩ := foldr_max (rows.map List.length)
    apply Nat.le_antisymm
    · rw [← r2]; exact f1 _ (List.mem_map_of_mem r1)
    · obtain ⟨r', m1, m2⟩ := List.mem_map.mp (f2 (by simpa using hr))
      rw [← m2]; exact (h r' m1).2

theorem numstatsMain_eq (D : Doubles R S) (files : Files) (input : List UInt8) (args : List (List UInt8)) (ha : args.length ≤ 1) :
    numstatsMain D files input args = numstatsLines D (linesOf (source files input args)) := by
  match args, ha with
  | [], _ => simp only [numstatsMain]; rw [load_lines, ok_bind]; rfl
  | [name], _ =>
    simp only [numstatsMain, loadNamed, source]
    cases files name with
    | none => simp [linesOf_nil]
    | some text => simp only [Option.getD_some]; rw [load_lines]; rfl

/-- With at most one argument the program reports on the input or the named file: one line for every column and then for every row that has numbers, giving the
smallest and the greatest of them, their sum, mean and median.  Cells that are no numbers are ignored. -/
theorem C139_report (D : Doubles R S) (files : Files) (input : List UInt8) (args : List (List UInt8)) (ha : args.length ≤ 1)
    (value : List UInt8 → Option R) (hsm : (source files input args).length + 1 < 2 ^ 32)
    (hv : ∀ row ∈ cells (source files input args), ∀ w ∈ row, D.conv w = (value w).map some) :
    ∃ lines, numstatsMain D files input args = ok (0, lines.flatten) ∧ List.Forall₂ (Line D) (reported value (cells (source files input args))) lines := by
  rw [numstatsMain_eq D files input args ha]
  generalize source files input args = text at hsm hv
  obtain ⟨g, n, g', rows, h1, h2, h3, h4, h5⟩ := grid_cells text hsm
  unfold numstatsLines
  by_cases hl : linesOf text = []
  · have := (join_lines _ text le_rfl).2 hl
    subst this
    rw [if_pos hl]
    exact ⟨[], rfl, by have : cells [] = [] := by decide
                       rw [this]; simp [reported]⟩
  · rw [if_neg hl]
    simp only
    rw [h1, ok_bind, h2, ok_bind]
    have hconv : ∀ r ∈ rows, ∀ t ∈ r, D.conv (Split.textOf (Join.join id [10] [] (linesOf text)) t) =
        (value (Split.textOf (Join.join id [10] [] (linesOf text)) t)).map some := by
      intro r hr t ht
      refine hv (r.map (Split.textOf _)) ?_ _ (List.mem_map_of_mem ht)
      rw [← h5]; exact List.mem_map_of_mem hr
    obtain ⟨l1, a1, a2⟩ := columnLoop_spec D value _ g' rows h3 hconv g'.maxCol 0 [] (by omega)
    obtain ⟨l2, b1, b2⟩ := rowLoop_spec D value _ g' rows h3 hconv rows.length 0 ([] ++ l1.flatten) (by omega)
    have hrc : g'.rowCount = rows.length := (Grid.C60_rep_shows g' rows h3).1
    simp only
    rw [a1, ok_bind, hrc, b1, ok_bind]
    refine ⟨l1 ++ l2, by simp, ?_⟩
    unfold reported
    rw [List.filter_append]
    simp only [← headText_column, ← headText_row]
    rw [h5, maxCol_eq h4, h5, ← List.range_eq_range'] at a2
    rw [List.drop_zero, h5] at b2
    exact List.rel_append a2 b2

/-- With more arguments only the usage message is written. -/
theorem C139_usage (D : Doubles R S) (files : Files) (input a b : List UInt8) (more : List (List UInt8)) :
    numstatsMain D files input (a :: b :: more) = ok (1, []) := rfl

theorem mapM_none (l : List (Option R)) (h : none ∈ l) : l.mapM id = none := by
  induction l with
  | nil => simp at h
  | cons a l ih =>
    cases a with
    | none => simp
    | some x =>
      have := ih (by simpa using h)
      simp [this]

theorem computeStats_nan (D : Doubles R S) (l : List (Option R)) (h : none ∈ l) : computeStats D l = ub := by
  unfold computeStats; rw [mapM_none l h]

theorem no_none (l : List (Option R)) (h : none ∉ l) : ∃ v : List R, l = v.map some := by
  induction l with
  | nil => exact ⟨[], rfl⟩
  | cons a l ih =>
    obtain ⟨v, rfl⟩ := ih fun hm => h (by simp [hm])
    cases a with
    | none => simp at h
    | some x => exact ⟨x :: v, rfl⟩

theorem columnLoop_nan (D : Doubles R S) (buf : List UInt8) (g : Grid.Grid (Nat × Nat)) (rows : List (List (Nat × Nat)))
    (hr : Grid.Rep g rows) (c' : Nat) (r : List (Nat × Nat)) (hrow : r ∈ rows) (t : Nat × Nat) (ht : r[c']? = some t)
    (hn : D.conv (Split.textOf buf t) = some none) :
    ∀ (n c : Nat) (out : List UInt8), c ≤ c' → c' < c + n → columnLoop D buf g n c out = ub := by
  have hrc : g.rowCount = rows.length := (Grid.C60_rep_shows g rows hr).1
  intro n
  induction n with
  | zero => intro c out h1 h2; omega
  | succ n ih =>
    intro c out h1 h2
    have hx := Grid.C64_extract_column_checked g rows hr (fun t => D.conv (Split.textOf buf t)) 0 g.rowCount c []
    have hb : Grid.between 0 rows.length rows = rows := by simp [Grid.between]
    rw [hrc, if_pos ⟨Nat.zero_le _, le_rfl⟩, hb, List.nil_append] at hx
    rw [columnLoop, hrc, hx, ok_bind]
    simp only
    by_cases hm : none ∈ rows.filterMap fun r => (r[c]?).bind fun t => D.conv (Split.textOf buf t)
    · rw [if_neg (fun h => by rw [h] at hm; simp at hm), computeStats_nan D _ hm]; rfl
    · have hc : c ≠ c' := by
        rintro rfl
        exact hm (List.mem_filterMap.mpr ⟨r, hrow, by rw [ht]; exact hn⟩)
      obtain ⟨v, hv⟩ := no_none _ hm
      rw [hv]
      split
      · exact ih _ _ (by omega) (by omega)
      · next hne =>
        obtain ⟨s, s1, _⟩ := computeStats_ok D v (fun h => hne (by simp [h]))
        rw [s1, ok_bind]
        exact ih _ _ (by omega) (by omega)

/-- A cell that is read as NaN makes the run undefined, whatever the other cells are. -/
theorem C139_nan (D : Doubles R S) (files : Files) (input : List UInt8) (args : List (List UInt8)) (ha : args.length ≤ 1)
    (hsm : (source files input args).length + 1 < 2 ^ 32) (row : List (List UInt8)) (hrow : row ∈ cells (source files input args))
    (w : List UInt8) (hw : w ∈ row) (hn : D.conv w = some none) : numstatsMain D files input args = ub := by
  rw [numstatsMain_eq D files input args ha]
  generalize source files input args = text at hsm hrow
  obtain ⟨g, n, g', rows, h1, h2, h3, h4, h5⟩ := grid_cells text hsm
  unfold numstatsLines
  by_cases hl : linesOf text = []
  · have := (join_lines _ text le_rfl).2 hl
    subst this
    have : cells [] = [] := by decide
    rw [this] at hrow; simp at hrow
  · rw [if_neg hl]
    simp only
    rw [h1, ok_bind, h2, ok_bind]
    simp only
    rw [← h5] at hrow
    obtain ⟨r, r1, rfl⟩ := List.mem_map.mp hrow
    obtain ⟨t, t1, rfl⟩ := List.mem_map.mp hw
    obtain ⟨c, c1, c2⟩ := List.mem_iff_getElem.mp t1
    have hne : rows ≠ [] := List.ne_nil_of_mem r1
    have hle := ((h4.2 hne).2.2 r r1).2
    rw [columnLoop_nan D _ g' rows h3 c r r1 t (by rw [List.getElem?_eq_getElem c1, c2]) hn g'.maxCol 0 [] (Nat.zero_le _) (by omega)]
    rfl

/-! ## Cases that meet the hypotheses -/

/-- Whole numbers in place of `double`: numerals, and `nan`. -/
def wholes : Doubles Int Int where
  conv w := if w = "nan".toUTF8.toList then some none
    else if w.all fun c => 48 ≤ c && c ≤ 57 then some (some (w.foldl (fun n c => n * 10 + (c.toNat - 48)) 0)) else none
  text n := natText n.toNat
  zero := 0
  add := (· + ·)
  over s n := s / n
  sumText n := natText n.toNat

/-- "3, 5\n\nx 4\n" -/
def sampleTable : List UInt8 := [51, 44, 32, 53, 10, 10, 120, 32, 52, 10]

example : ∃ lines, numstatsMain wholes (fun _ => none) sampleTable [] = ok (0, lines.flatten) ∧
    List.Forall₂ (Line wholes) [(bytesOf "C[0]\t", [3]), (bytesOf "C[1]\t", [5, 4]), (bytesOf "R[0]\t", [3, 5]), (bytesOf "R[1]\t", [4])] lines := by
  have h := C139_report wholes (fun _ => none) sampleTable [] (by decide) (fun w => (wholes.conv w).bind id) (by decide) (by decide +kernel)
  have e : reported (fun w => (wholes.conv w).bind id) (cells (source (fun _ => none) sampleTable [])) =
      [(bytesOf "C[0]\t", [3]), (bytesOf "C[1]\t", [5, 4]), (bytesOf "R[0]\t", [3, 5]), (bytesOf "R[1]\t", [4])] := by decide +kernel
  rwa [e] at h

example : Stats wholes [5, 4] ("4\t5\t9\t4\t5\t".toUTF8.toList) := by
  refine ⟨4, 5, 5, ?_⟩; decide +kernel

example : numstatsMain wholes (fun _ => none) [51, 44, 110, 97, 110, 10] [] = ub :=
  C139_nan wholes _ _ [] (by decide) (by decide) [[51], [110, 97, 110]] (by decide +kernel) [110, 97, 110] (by decide) (by decide +kernel)

end Strtk.Programs
