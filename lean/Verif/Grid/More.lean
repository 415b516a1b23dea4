import Verif.Grid.Props

/-!
# More of token_grid: row ranges, rows as a whole, several columns, predicates (C64, C65, C86, C87, C107, C109)

The tokens of the text functions are offset pairs into the buffer, as the loader produces them.
-/

namespace Strtk.Grid
open Outcome Split

variable {T : Type}

/-! ## token_grid::range -/

/-- `std::numeric_limits<index_t>::max()` (5200, 5471). -/
def maxIndex : Nat := 2 ^ 32 - 1

/-- `token_grid::range(lower_bound,upper_bound)` (5470-5487); without a second argument `upper` is `maxIndex`.  The bound that is checked and filled in is the
number of tokens. -/
def Grid.range (g : Grid T) (lower : Nat) (upper : Nat := maxIndex) : Nat × Nat :=
  if upper = maxIndex then (lower, u32 g.store.tokens.length)
  else if upper > g.store.tokens.length then (maxIndex, maxIndex)
  else if lower > upper then (maxIndex, maxIndex)
  else (lower, upper)

/-! ## Rows as a whole -/

/-- `row_type` (5559-5564, 6293-6295). -/
structure Row where
  index : Nat
  size : Nat
  begin_ : Nat

/-- `row(i)` (6472-6475). -/
def Grid.row (g : Grid T) (i : Nat) : Outcome Row := do
  let r ← deref g.store.index i
  ok ⟨i, tokenCount r, r.1⟩

/-- `range()` of a row (5590-5593). -/
def Row.range (row : Row) (tokens : List (Nat × Nat)) : Outcome (Nat × Nat) := do
  let f ← deref tokens row.begin_
  let l ← deref tokens (row.begin_ + (row.size - 1))
  ok (f.1, l.2)

/-- Loop of `raw_length()` (5615-5619); a distance is an `int` difference added to a `size_t`. -/
def rawLengthLoop (tokens : List (Nat × Nat)) : Nat → Nat → Nat → Outcome Nat
  | 0, _, result => ok result
  | n + 1, p, result => do
    let t ← deref tokens p
    rawLengthLoop tokens n (p + 1) ((result + t.2 + 2 ^ 64 - t.1) % 2 ^ 64)

/-- `raw_length()` (5610-5622). -/
def Row.rawLength (row : Row) (tokens : List (Nat × Nat)) : Outcome Nat := rawLengthLoop tokens row.size row.begin_ 0

/-- Loop of `as_string()` (5636-5640); appending a reversed range or one outside the buffer is undefined. -/
def asStringLoop {α : Type} (buf : List α) (tokens : List (Nat × Nat)) : Nat → Nat → List α → Outcome (List α)
  | 0, _, result => ok result
  | n + 1, p, result => do
    let t ← deref tokens p
    if t.1 ≤ t.2 ∧ t.2 ≤ buf.length then asStringLoop buf tokens n (p + 1) (result ++ textOf buf t) else ub

/-- `as_string()` (5630-5643): `reserve` with a negative distance throws `length_error`. -/
def Row.asString {α : Type} (row : Row) (buf : List α) (tokens : List (Nat × Nat)) : Outcome (List α) := do
  let (f, l) ← row.range tokens
  if l < f then thrown else asStringLoop buf tokens row.size row.begin_ []

/-- `is_null(column)` (5566-5570). -/
def Row.isNull (row : Row) (tokens : List (Nat × Nat)) (c : Nat) : Outcome Bool := do
  let t ← deref tokens (row.begin_ + c)
  ok (t.1 == t.2)

/-- Loop of `parse_n` (6175-6187): the tokens left in the row, the position, the count; the result is the returned value. -/
def parseNLoop {V : Type} (conv : T → Option V) (tokens : List T) (n : Nat) : Nat → Nat → Nat → List V → Outcome (Nat × List V)
  | 0, _, count, seq => ok (count, seq)
  | left + 1, p, count, seq => do
    let t ← deref tokens p
    match conv t with
    | none => ok (0, seq)
    | some v => if n = count + 1 then ok (count + 1, seq ++ [v]) else parseNLoop conv tokens n left (p + 1) (count + 1) (seq ++ [v])

/-- `parse_n(n,sequence)` of a row (6166-6190). -/
def Row.parseN {V : Type} (row : Row) (conv : T → Option V) (tokens : List T) (n : Nat) (seq : List V) : Outcome (Nat × List V) :=
  if n = 0 then ok (0, seq) else parseNLoop conv tokens n row.size row.begin_ 0 seq

/-- Loop of `parse_checked` (6199-6209). -/
def parseCheckedLoop {V : Type} (conv : T → Option V) (tokens : List T) : Nat → Nat → List V → Outcome (List V)
  | 0, _, out => ok out
  | left + 1, p, out => do
    let t ← deref tokens p
    let out := match conv t with
      | some v => out ++ [v]
      | none => out
    parseCheckedLoop conv tokens left (p + 1) out

/-- `parse_checked(out)` of a row (6193-6210) with an output iterator that appends. -/
def Row.parseChecked {V : Type} (row : Row) (conv : T → Option V) (tokens : List T) (out : List V) : Outcome (List V) :=
  parseCheckedLoop conv tokens row.size row.begin_ out

/-- Loop of `for_each_column` (6266-6272): the tokens `f` is called with. -/
def forEachColumnLoop (tokens : List T) : Nat → Nat → Nat → List T → Outcome (Nat × List T)
  | 0, _, count, calls => ok (count, calls)
  | n + 1, p, count, calls => do
    let t ← deref tokens p
    forEachColumnLoop tokens n (p + 1) (count + 1) (calls ++ [t])

/-- `for_each_column(col_range,f)` of a row (6257-6275), with `validate_column_range` (5948-5956). -/
def Row.forEachColumn (row : Row) (tokens : List T) (a b : Nat) : Outcome (Nat × List T) :=
  if a > row.size ∨ b > row.size then ok (0, [])
  else if a > b then ok (0, [])
  else forEachColumnLoop tokens (b - a) (row.begin_ + a) 0 []

/-! ## Several columns, and predicates on rows -/

/-- The tokens at the given columns of a row (6628-6630, 6667-6670, 6711-6715). -/
def tokensAt (tokens : List T) (first : Nat) : List Nat → Outcome (List T)
  | [] => ok []
  | c :: cs => do
    let t ← deref tokens (first + c)
    let ts ← tokensAt tokens first cs
    ok (t :: ts)

/-- Loop of `extract_column` with three, four or five columns (6622-6632, 6661-6672, 6705-6717).  One list per row is recorded; its `k`-th element is what goes
to the `k`-th output iterator. -/
def extractNLoop (st : Store T) (cols : List Nat) : Nat → Nat → List (List T) → Outcome (List (List T))
  | 0, _, out => ok out
  | n + 1, i, out => do
    let r ← deref st.index i
    if cols.foldl max 0 < tokenCount r then do
      let ts ← tokensAt st.tokens r.1 cols
      extractNLoop st cols n (i + 1) (out ++ [ts])
    else extractNLoop st cols n (i + 1) out

/-- `extract_column(row_range,index0,..,index4,out0,..,out4)` (6602-6720). -/
def Grid.extractColumns (g : Grid T) (a b : Nat) (cols : List Nat) : Outcome (Bool × List (List T)) :=
  if cols.any (fun c => decide (c > g.maxCol)) then ok (false, [])
  else if g.rangeInvalid a b then ok (false, [])
  else do
    let out ← extractNLoop g.store cols (b - a) a []
    ok (true, out)

/-- Loop of `get_column_widths` (6943-6946). -/
def Grid.columnWidths (g : Grid T) (len : T → Nat) : Nat → Nat → List Nat → Outcome (List Nat)
  | 0, _, out => ok out
  | n + 1, c, out => do
    let w ← g.columnWidth len c 0 g.store.index.length
    g.columnWidths len n (c + 1) (out ++ [w])

/-- `get_column_widths(columns)` (6941-6947). -/
def Grid.getColumnWidths (g : Grid T) (len : T → Nat) : Outcome (List Nat) := g.columnWidths len g.maxCol 0 []

/-- Loop of `accumulate_column` with a predicate (7042-7063). -/
def accumulateIfLoop (p : Nat → List T → Bool) (conv : T → Option Int) (st : Store T) (col : Nat) : Nat → Nat → Int → Nat → Outcome (Nat × Int)
  | 0, _, sum, count => ok (count, sum)
  | n + 1, i, sum, count => do
    let r ← deref st.index i
    if col < tokenCount r then do
      let row ← rowOf st.tokens r
      if p i row then do
        let t ← deref st.tokens (r.1 + col)
        match conv t with
        | some v => accumulateIfLoop p conv st col n (i + 1) (sum + v) (count + 1)
        | none => ok (0, sum)
      else accumulateIfLoop p conv st col n (i + 1) sum count
    else accumulateIfLoop p conv st col n (i + 1) sum count

/-- `accumulate_column(col,row_range,predicate,result)` (7029-7066). -/
def Grid.accumulateColumnIf (g : Grid T) (p : Nat → List T → Bool) (conv : T → Option Int) (col a b : Nat) (sum : Int) : Outcome (Nat × Int) :=
  if col > g.maxCol then ok (0, sum) else if g.rangeInvalid a b then ok (0, sum) else accumulateIfLoop p conv g.store col (b - a) a sum 0

/-- Loop of `join_column` with a predicate (7221-7244); `last` is `pre_end_index`. -/
def joinColumnIfLoop {α : Type} (st : Store (List α)) (p : Nat → List (List α) → Bool) (col last : Nat) (delim : List α) :
    Nat → Nat → Bool → List α → Outcome (List α)
  | 0, _, _, result => ok result
  | n + 1, i, appended, result => do
    let r ← deref st.index i
    if col < tokenCount r then do
      let row ← rowOf st.tokens r
      let t ← deref st.tokens (r.1 + col)
      let result := if !delim.isEmpty && appended && last != i then result ++ delim else result
      if t ≠ [] ∧ p i row = true then joinColumnIfLoop st p col last delim n (i + 1) true (result ++ t)
      else joinColumnIfLoop st p col last delim n (i + 1) false result
    else joinColumnIfLoop st p col last delim n (i + 1) appended result

/-- `join_column(col,row_range,predicate,delimiter,result)` (7206-7247). -/
def Grid.joinColumnIf {α : Type} (g : Grid (List α)) (p : Nat → List (List α) → Bool) (col a b : Nat) (delim result : List α) : Outcome (Bool × List α) :=
  if col > g.maxCol then ok (false, result)
  else if g.rangeInvalid a b then ok (false, result)
  else do
    let result ← joinColumnIfLoop g.store p col (sub32 b 1) delim (b - a) a false result
    ok (true, result)

/-! ## C107 -/

/-- The rows a pair of indexes selects, when the grid accepts it (`C61_remove_row_if`, `C86_for_each_row`, ...). -/
def Accepted (rows : List (List T)) (r : Nat × Nat) : Prop := r.1 ≤ r.2 ∧ r.2 ≤ rows.length

/-- `range(a,b)` with two rows of the grid is that range. -/
theorem C107_explicit (g : Grid T) (rows : List (List T)) (h : Rep g rows) (a b : Nat) (hab : a ≤ b) (hb : b ≤ rows.length) :
    g.range a b = (a, b) ∧ Accepted rows (g.range a b) := by
  have hlen : rows.length ≤ rows.flatten.length := by
    rw [List.length_flatten]
    have : ∀ (l : List (List T)), (∀ r ∈ l, r ≠ []) → l.length ≤ (l.map List.length).sum := by
      intro l
      induction l with
      | nil => intro _; simp
      | cons r l ih =>
        intro hne
        have h1 := ih (fun x hx => hne x (by simp [hx]))
        have h2 : 0 < r.length := List.length_pos_iff.mpr (hne r (by simp))
        simp only [List.map_cons, List.sum_cons, List.length_cons]
        omega
    exact this rows h.nonempty
  have hsm := h.small
  have e : g.range a b = (a, b) := by
    unfold Grid.range maxIndex
    by_cases hm : b = 2 ^ 32 - 1
    · rw [if_pos hm, h.tokens]
      have : rows.flatten.length = b := by omega
      rw [this, u32, Nat.mod_eq_of_lt (by omega)]
    · rw [if_neg hm, if_neg (by rw [h.tokens]; omega), if_neg (by omega)]
  rw [e]
  exact ⟨rfl, hab, hb⟩

/-- `range(a)` of a grid in which every row has one column: the rows from `a` to the last one.  Missing for C107: any other grid (`C107_open_end_rejected`). -/
theorem C107_open_end_partial (g : Grid T) (rows : List (List T)) (h : Rep g rows) (hone : ∀ r ∈ rows, r.length = 1) (a : Nat) :
    g.range a = (a, rows.length) := by
  have hlen : rows.flatten.length = rows.length := by
    rw [List.length_flatten]
    clear h
    induction rows with
    | nil => rfl
    | cons r l ih =>
      have h1 := ih (fun x hx => hone x (by simp [hx]))
      have h2 := hone r (by simp)
      simp only [List.map_cons, List.sum_cons, List.length_cons]
      omega
  have hsm := h.small
  unfold Grid.range
  rw [if_pos rfl, h.tokens, u32, Nat.mod_eq_of_lt hsm, hlen]

/-- In every other grid `range(a)` ends at the number of tokens, and the grid accepts it for no `a`: the functions that take it do nothing. -/
theorem C107_open_end_rejected (g : Grid T) (rows : List (List T)) (h : Rep g rows) (hmany : ∃ r ∈ rows, r.length ≠ 1) (a : Nat) :
    ¬ Accepted rows (g.range a) ∧ g.rangeInvalid (g.range a).1 (g.range a).2 = true := by
  have hlen : rows.length < rows.flatten.length := by
    rw [List.length_flatten]
    have hne := h.nonempty
    clear h
    induction rows with
    | nil => obtain ⟨r, hr, _⟩ := hmany; cases hr
    | cons r l ih =>
      have h2 : 0 < r.length := List.length_pos_iff.mpr (hne r (by simp))
      have hle : ∀ (l : List (List T)), (∀ r ∈ l, r ≠ []) → l.length ≤ (l.map List.length).sum := by
        intro l
        induction l with
        | nil => intro _; simp
        | cons r l ih =>
          intro hne
          have h1 := ih (fun x hx => hne x (by simp [hx]))
          have h2 : 0 < r.length := List.length_pos_iff.mpr (hne r (by simp))
          simp only [List.map_cons, List.sum_cons, List.length_cons]
          omega
      simp only [List.map_cons, List.sum_cons, List.length_cons]
      by_cases hr1 : r.length = 1
      · have : ∃ x ∈ l, x.length ≠ 1 := by
          obtain ⟨x, hx, hx1⟩ := hmany
          rcases List.mem_cons.mp hx with rfl | hx
          · exact absurd hr1 hx1
          · exact ⟨x, hx, hx1⟩
        have := ih this (fun x hx => hne x (by simp [hx]))
        omega
      · have := hle l (fun x hx => hne x (by simp [hx]))
        omega
  have hsm := h.small
  have e : (g.range a).2 = rows.flatten.length := by
    unfold Grid.range
    rw [if_pos rfl, h.tokens]
    exact Nat.mod_eq_of_lt hsm
  have hn : ¬ Accepted rows (g.range a) := by
    intro hh
    have := hh.2
    omega
  exact ⟨hn, (h.rangeInvalid _ _).mpr hn⟩

example : sample.range 0 1 = (0, 1) ∧ sample.range 0 = (0, 5) ∧ sample.rangeInvalid 0 5 = true := by decide
example : Rep sample [[(1, 2), (3, 4)], [(6, 7), (8, 9), (10, 12)]] := ⟨rfl, by decide, by decide, by decide, by decide⟩

/-! ## C109 -/

/-- The tokens from position `p` on are `ts`. -/
def Seg (tokens : List T) (p : Nat) (ts : List T) : Prop := ∀ c (hc : c < ts.length), deref tokens (p + c) = ok ts[c]

theorem Seg.head {tokens : List T} {p : Nat} {t : T} {ts : List T} (h : Seg tokens p (t :: ts)) : deref tokens p = ok t := h 0 (by simp)

theorem Seg.tail {tokens : List T} {p : Nat} {t : T} {ts : List T} (h : Seg tokens p (t :: ts)) : Seg tokens (p + 1) ts := by
  intro c hc
  have := h (c + 1) (by simpa using hc)
  rw [show p + 1 + c = p + (c + 1) by omega]
  simpa using this

theorem Seg.drop {tokens : List T} {p : Nat} {ts : List T} (h : Seg tokens p ts) (a b : Nat) (hb : b ≤ ts.length) :
    Seg tokens (p + a) ((ts.drop a).take (b - a)) := by
  intro c hc
  simp only [List.length_take, List.length_drop] at hc
  have := h (a + c) (by omega)
  rw [Nat.add_assoc, this]
  simp

/-- `row(i)` is the `i`-th row. -/
theorem Rep.row {g : Grid T} {rows : List (List T)} (h : Rep g rows) (i : Nat) (hi : i < rows.length) :
    ∃ row, g.row i = ok row ∧ row.index = i ∧ row.size = rows[i].length ∧ Seg g.store.tokens row.begin_ rows[i] := by
  obtain ⟨r, h1, _, _, h3, h4, _⟩ := h.access i hi
  refine ⟨⟨i, tokenCount r, r.1⟩, ?_, rfl, h3, h4⟩
  unfold Grid.row
  rw [h1, ok_bind]

theorem asStringLoop_spec {α : Type} (buf : List α) (tokens : List (Nat × Nat)) : ∀ (ts : List (Nat × Nat)) (p : Nat) (res : List α), Seg tokens p ts →
    (∀ t ∈ ts, t.1 ≤ t.2 ∧ t.2 ≤ buf.length) → asStringLoop buf tokens ts.length p res = ok (res ++ (ts.map (textOf buf)).flatten) := by
  intro ts
  induction ts with
  | nil => intro p res _ _; simp [asStringLoop]
  | cons t ts ih =>
    intro p res hs hv
    simp only [asStringLoop, List.length_cons]
    rw [hs.head, ok_bind, if_pos (hv t (by simp)), ih _ _ hs.tail (fun x hx => hv x (by simp [hx]))]
    simp

theorem rawLengthLoop_spec {α : Type} (buf : List α) (tokens : List (Nat × Nat)) : ∀ (ts : List (Nat × Nat)) (p n : Nat), Seg tokens p ts →
    (∀ t ∈ ts, t.1 ≤ t.2 ∧ t.2 ≤ buf.length) → n + (ts.map (textOf buf)).flatten.length < 2 ^ 64 →
    rawLengthLoop tokens ts.length p n = ok (n + (ts.map (textOf buf)).flatten.length) := by
  intro ts
  induction ts with
  | nil => intro p n _ _ _; simp [rawLengthLoop]
  | cons t ts ih =>
    intro p n hs hv hb
    obtain ⟨h1, h2⟩ := hv t (by simp)
    have hl : (textOf buf t).length = t.2 - t.1 := by simp [textOf]; omega
    simp only [List.map_cons, List.flatten_cons, List.length_append] at hb ⊢
    simp only [rawLengthLoop, List.length_cons]
    rw [hs.head, ok_bind]
    have e : (n + t.2 + 2 ^ 64 - t.1) % 2 ^ 64 = n + (textOf buf t).length := by
      rw [hl, show n + t.2 + 2 ^ 64 - t.1 = (n + (t.2 - t.1)) + 2 ^ 64 by omega, Nat.add_mod_right, Nat.mod_eq_of_lt (by omega)]
    rw [e, ih _ _ hs.tail (fun x hx => hv x (by simp [hx])) (by omega), Nat.add_assoc]

/-- A row whose tokens lie in the buffer one after another, as loading produces them: `as_string` is the concatenation of the texts of its tokens,
`raw_length` its length, `range` goes from the start of the first to the end of the last token, `is_null` tells the empty tokens. -/
theorem C109_row_text {α : Type} (g : Grid (Nat × Nat)) (rows : List (List (Nat × Nat))) (h : Rep g rows) (buf : List α) (i : Nat) (hi : i < rows.length)
    (hin : ∀ t ∈ rows[i], t.1 ≤ t.2 ∧ t.2 ≤ buf.length) (hord : ∀ f l, rows[i].head? = some f → rows[i].getLast? = some l → f.1 ≤ l.2)
    (hsm : (rows[i].map (textOf buf)).flatten.length < 2 ^ 64) :
    ∃ row, g.row i = ok row ∧ row.index = i ∧ row.size = rows[i].length ∧
      row.asString buf g.store.tokens = ok (rows[i].map (textOf buf)).flatten ∧
      row.rawLength g.store.tokens = ok (rows[i].map (textOf buf)).flatten.length ∧
      (∃ f l, rows[i].head? = some f ∧ rows[i].getLast? = some l ∧ row.range g.store.tokens = ok (f.1, l.2)) ∧
      ∀ c (hc : c < rows[i].length), row.isNull g.store.tokens c = ok (decide (textOf buf rows[i][c] = [])) := by
  obtain ⟨row, h1, h2, h3, h4⟩ := h.row i hi
  have hpos : 0 < rows[i].length := List.length_pos_iff.mpr (h.nonempty _ (by simp))
  have hr : row.range g.store.tokens = ok (rows[i][0].1, rows[i][rows[i].length - 1].2) := by
    unfold Row.range
    have a0 := h4 0 hpos
    have a1 := h4 (rows[i].length - 1) (by omega)
    rw [Nat.add_zero] at a0
    rw [a0, ok_bind, h3, a1, ok_bind]
  have hh : rows[i].head? = some rows[i][0] := by rw [List.head?_eq_getElem?, List.getElem?_eq_getElem hpos]
  have hl : rows[i].getLast? = some rows[i][rows[i].length - 1] := by
    rw [List.getLast?_eq_getElem?, List.getElem?_eq_getElem (by omega)]
  refine ⟨row, h1, h2, h3, ?_, ?_, ⟨_, _, hh, hl, hr⟩, ?_⟩
  · unfold Row.asString
    rw [hr, ok_bind]
    simp only
    rw [if_neg (by have := hord _ _ hh hl; omega), h3, asStringLoop_spec buf _ _ _ _ h4 hin]
    simp
  · unfold Row.rawLength
    rw [h3, rawLengthLoop_spec buf _ _ _ _ h4 hin (by omega)]
    simp
  · intro c hc
    unfold Row.isNull
    rw [h4 c hc, ok_bind]
    obtain ⟨k1, k2⟩ := hin rows[i][c] (by simp)
    congr 1
    have hlen : (textOf buf rows[i][c]).length = rows[i][c].2 - rows[i][c].1 := by simp [textOf]; omega
    have : (textOf buf rows[i][c] = []) ↔ rows[i][c].1 = rows[i][c].2 := by
      rw [← List.length_eq_zero_iff, hlen]; omega
    by_cases e : rows[i][c].1 = rows[i][c].2
    · simp [e, this]
    · simp [e, this]

/-- Row 1 of the sample. -/
example : ∃ row, sample.row 1 = ok row ∧ row.asString "\na,b\n\nc,d,ef\n".toList sample.store.tokens = ok "cdef".toList := ⟨_, rfl, by decide⟩

theorem parseCheckedLoop_spec {V : Type} (conv : T → Option V) (tokens : List T) : ∀ (ts : List T) (p : Nat) (out : List V), Seg tokens p ts →
    parseCheckedLoop conv tokens ts.length p out = ok (out ++ ts.filterMap conv) := by
  intro ts
  induction ts with
  | nil => intro p out _; simp [parseCheckedLoop]
  | cons t ts ih =>
    intro p out hs
    simp only [parseCheckedLoop, List.length_cons]
    rw [hs.head, ok_bind, ih _ _ hs.tail]
    cases h : conv t <;> simp [h]

/-- `parse_checked` appends the values of the tokens that convert, in order. -/
theorem C109_parse_checked {V : Type} (g : Grid T) (rows : List (List T)) (h : Rep g rows) (conv : T → Option V) (i : Nat) (hi : i < rows.length)
    (out : List V) : ∃ row, g.row i = ok row ∧ row.parseChecked conv g.store.tokens out = ok (out ++ rows[i].filterMap conv) := by
  obtain ⟨row, h1, _, h3, h4⟩ := h.row i hi
  refine ⟨row, h1, ?_⟩
  unfold Row.parseChecked
  rw [h3, parseCheckedLoop_spec conv _ _ _ _ h4]

theorem forEachColumnLoop_spec (tokens : List T) : ∀ (ts : List T) (p count : Nat) (calls : List T), Seg tokens p ts →
    forEachColumnLoop tokens ts.length p count calls = ok (count + ts.length, calls ++ ts) := by
  intro ts
  induction ts with
  | nil => intro p count calls _; simp [forEachColumnLoop]
  | cons t ts ih =>
    intro p count calls hs
    simp only [forEachColumnLoop, List.length_cons]
    rw [hs.head, ok_bind, ih _ _ _ hs.tail]
    simp only [List.append_assoc, List.cons_append, List.nil_append]
    congr 2
    omega

/-- `for_each_column`: the function gets the tokens of the columns `a ≤ c < b`, in order, and their number is returned; an invalid range calls nothing. -/
theorem C109_for_each_column (g : Grid T) (rows : List (List T)) (h : Rep g rows) (i : Nat) (hi : i < rows.length) (a b : Nat) :
    ∃ row, g.row i = ok row ∧
      (a ≤ b ∧ b ≤ rows[i].length → row.forEachColumn g.store.tokens a b = ok (b - a, (rows[i].drop a).take (b - a))) ∧
      (¬ (a ≤ b ∧ b ≤ rows[i].length) → row.forEachColumn g.store.tokens a b = ok (0, [])) := by
  obtain ⟨row, h1, _, h3, h4⟩ := h.row i hi
  refine ⟨row, h1, ?_, ?_⟩
  · rintro ⟨hab, hb⟩
    unfold Row.forEachColumn
    rw [h3, if_neg (by omega), if_neg (by omega)]
    have hl : ((rows[i].drop a).take (b - a)).length = b - a := by simp; omega
    have := forEachColumnLoop_spec _ _ _ 0 [] (h4.drop a b hb)
    rw [hl] at this
    rw [this]
    simp
  · intro hn
    unfold Row.forEachColumn
    rw [h3]
    split
    · rfl
    · rw [if_pos (by omega)]

theorem parseNLoop_spec {V : Type} (conv : T → Option V) (tokens : List T) (n : Nat) : ∀ (ts : List T) (p count : Nat) (seq : List V), Seg tokens p ts → count < n →
    ((∀ t ∈ ts.take (n - count), (conv t).isSome = true) →
      parseNLoop conv tokens n ts.length p count seq = ok (min n (count + ts.length), seq ++ (ts.take (n - count)).filterMap conv)) ∧
    (∀ pre t post, ts = pre ++ t :: post → pre.length < n - count → (∀ x ∈ pre, (conv x).isSome = true) → conv t = none →
      parseNLoop conv tokens n ts.length p count seq = ok (0, seq ++ pre.filterMap conv)) := by
  intro ts
  induction ts with
  | nil =>
    intro p count seq _ hc
    constructor
    · intro _
      simp only [parseNLoop, List.length_nil, List.take_nil, List.filterMap_nil, List.append_nil]
      congr 2
      omega
    · intro pre t post h
      simp at h
  | cons t ts ih =>
    intro p count seq hs hc
    simp only [parseNLoop, List.length_cons]
    rw [hs.head, ok_bind]
    have htake : (t :: ts).take (n - count) = t :: ts.take (n - (count + 1)) := by
      rw [show n - count = (n - (count + 1)) + 1 by omega, List.take_succ_cons]
    constructor
    · intro hall
      rw [htake] at hall ⊢
      have ht := hall t (by simp)
      obtain ⟨v, hv⟩ := Option.isSome_iff_exists.mp ht
      rw [hv]
      simp only
      split
      · rename_i he
        rw [show n - (count + 1) = 0 by omega]
        simp only [List.take_zero, List.filterMap_cons, hv, List.filterMap_nil]
        congr 2
        omega
      · rw [(ih (p + 1) (count + 1) (seq ++ [v]) hs.tail (by omega)).1 (fun x hx => hall x (by simp [hx]))]
        simp only [List.filterMap_cons, hv, List.append_assoc, List.cons_append, List.nil_append]
        congr 2
        omega
    · intro pre x post he hl hpre hx
      cases pre with
      | nil =>
        simp only [List.nil_append, List.cons.injEq] at he
        obtain ⟨rfl, _⟩ := he
        rw [hx]
        simp
      | cons y pre =>
        simp only [List.cons_append, List.cons.injEq] at he
        obtain ⟨rfl, he⟩ := he
        simp only [List.length_cons] at hl
        obtain ⟨v, hv⟩ := Option.isSome_iff_exists.mp (hpre t (by simp))
        rw [hv]
        simp only
        rw [if_neg (by omega), (ih (p + 1) (count + 1) (seq ++ [v]) hs.tail (by omega)).2 pre x post he (by omega) (fun z hz => hpre z (by simp [hz])) hx]
        simp [hv]

/-- `parse_n(n,sequence)` when the first `n` tokens (or all, if there are fewer) convert: their values are appended and their number is returned.  Missing for
C109: a token that does not convert (`C109_parse_n_fails`). -/
theorem C109_parse_n_partial {V : Type} (g : Grid T) (rows : List (List T)) (h : Rep g rows) (conv : T → Option V) (i : Nat) (hi : i < rows.length) (n : Nat)
    (seq : List V) (hall : ∀ t ∈ rows[i].take n, (conv t).isSome = true) :
    ∃ row, g.row i = ok row ∧ row.parseN conv g.store.tokens n seq = ok (min n rows[i].length, seq ++ (rows[i].take n).filterMap conv) := by
  obtain ⟨row, h1, _, h3, h4⟩ := h.row i hi
  refine ⟨row, h1, ?_⟩
  unfold Row.parseN
  by_cases hn : n = 0
  · subst hn; simp
  · rw [if_neg hn, h3, (parseNLoop_spec conv _ n _ _ 0 seq h4 (by omega)).1 (by simpa using hall)]
    simp

/-- A token that does not convert among the first `n` makes `parse_n` return 0, although the values before it have been appended. -/
theorem C109_parse_n_fails {V : Type} (g : Grid T) (rows : List (List T)) (h : Rep g rows) (conv : T → Option V) (i : Nat) (hi : i < rows.length) (n : Nat)
    (seq : List V) (pre : List T) (t : T) (post : List T) (he : rows[i] = pre ++ t :: post) (hl : pre.length < n)
    (hpre : ∀ x ∈ pre, (conv x).isSome = true) (ht : conv t = none) :
    ∃ row, g.row i = ok row ∧ row.parseN conv g.store.tokens n seq = ok (0, seq ++ pre.filterMap conv) := by
  obtain ⟨row, h1, _, h3, h4⟩ := h.row i hi
  refine ⟨row, h1, ?_⟩
  unfold Row.parseN
  rw [if_neg (by omega), h3]
  exact (parseNLoop_spec conv _ n _ _ 0 seq h4 (by omega)).2 pre t post he (by omega) hpre ht

example : ∃ row, sample.row 1 = ok row ∧ row.parseN (fun t => if t.1 = 10 then none else some t.1) sample.store.tokens 3 [0] = ok (0, [0, 6, 8]) ∧
    row.parseN (fun t => if t.1 = 10 then none else some t.1) sample.store.tokens 2 [0] = ok (2, [0, 6, 8]) := ⟨_, rfl, by decide, by decide⟩

/-! ## C64: several columns -/

theorem foldl_max_lt (cols : List Nat) : ∀ (m k : Nat), cols.foldl max m < k ↔ m < k ∧ ∀ c ∈ cols, c < k := by
  induction cols with
  | nil => intro m k; simp
  | cons c cols ih =>
    intro m k
    rw [List.foldl_cons, ih]
    constructor
    · rintro ⟨h1, h2⟩
      refine ⟨by omega, fun x hx => ?_⟩
      rcases List.mem_cons.mp hx with rfl | hx
      · omega
      · exact h2 x hx
    · rintro ⟨h1, h2⟩
      exact ⟨by have := h2 c (by simp); omega, fun x hx => h2 x (by simp [hx])⟩

theorem tokensAt_spec (tokens row : List T) (p : Nat) (hs : Seg tokens p row) : ∀ cols : List Nat, (∀ c ∈ cols, c < row.length) →
    ∃ ts, cols.mapM (fun c => row[c]?) = some ts ∧ tokensAt tokens p cols = ok ts := by
  intro cols
  induction cols with
  | nil => intro _; exact ⟨[], rfl, rfl⟩
  | cons c cols ih =>
    intro hc
    obtain ⟨ts, h1, h2⟩ := ih (fun x hx => hc x (by simp [hx]))
    have hcl := hc c (by simp)
    refine ⟨row[c] :: ts, ?_, ?_⟩
    · simp [List.mapM_cons, hcl, h1]
    · simp only [tokensAt]
      rw [hs c hcl, ok_bind, h2, ok_bind]

theorem mapM_none (row : List T) : ∀ cols : List Nat, ¬ (∀ c ∈ cols, c < row.length) → cols.mapM (fun c => row[c]?) = none := by
  intro cols
  induction cols with
  | nil => intro h; simp at h
  | cons c cols ih =>
    intro h
    by_cases hc : c < row.length
    · have : ¬ (∀ c ∈ cols, c < row.length) := by
        intro hh
        apply h
        intro x hx
        rcases List.mem_cons.mp hx with rfl | hx
        · exact hc
        · exact hh x hx
      simp [List.mapM_cons, ih this]
    · simp [List.mapM_cons, List.getElem?_eq_none (l := row) (i := c) (by omega)]

theorem Rep.extractNLoop {g : Grid T} {rows : List (List T)} (h : Rep g rows) (cols : List Nat) : ∀ (n i : Nat) (out : List (List T)), i + n ≤ rows.length →
    Grid.extractNLoop g.store cols n i out = ok (out ++ ((rows.drop i).take n).filterMap fun r => cols.mapM fun c => r[c]?) := by
  intro n
  induction n with
  | zero => intro i out _; simp [Grid.extractNLoop]
  | succ n ih =>
    intro i out hi
    obtain ⟨r, h1, _, _, h3, h4, _⟩ := h.access i (by omega)
    rw [range_succ rows i n (by omega), List.filterMap_cons]
    simp only [Grid.extractNLoop]
    rw [h1, ok_bind]
    have hpos : 0 < rows[i].length := List.length_pos_iff.mpr (h.nonempty _ (by simp))
    by_cases hc : cols.foldl max 0 < tokenCount r
    · rw [if_pos hc]
      rw [h3, foldl_max_lt] at hc
      obtain ⟨ts, t1, t2⟩ := tokensAt_spec _ _ _ h4 cols hc.2
      rw [t2, ok_bind, ih _ _ (by omega), t1]
      simp
    · rw [if_neg hc]
      rw [h3, foldl_max_lt] at hc
      rw [ih _ _ (by omega), mapM_none _ _ (fun hh => hc ⟨hpos, hh⟩)]

/-- `extract_column` with several columns: the rows of the range that have all the columns, in order, and of each of them the tokens at exactly these columns. -/
theorem C64_extract_columns (g : Grid T) (rows : List (List T)) (h : Rep g rows) (a b : Nat) (cols : List Nat) (hc : ∀ c ∈ cols, c ≤ g.maxCol)
    (hv : a ≤ b ∧ b ≤ rows.length) :
    g.extractColumns a b cols = ok (true, (between a b rows).filterMap fun r => cols.mapM fun c => r[c]?) := by
  unfold Grid.extractColumns
  have : cols.any (fun c => decide (c > g.maxCol)) = false := by
    rw [List.any_eq_false]
    intro x hx
    have := hc x hx
    simp; omega
  rw [this, if_neg (by simp), if_neg (fun hh => (h.rangeInvalid a b).mp hh hv), h.extractNLoop cols (b - a) a [] (by omega), ok_bind]
  simp [between]

/-- A column beyond the greatest column count, or an invalid range: `false`, and nothing is written. -/
theorem C64_extract_columns_rejected (g : Grid T) (rows : List (List T)) (h : Rep g rows) (a b : Nat) (cols : List Nat)
    (hbad : (∃ c ∈ cols, g.maxCol < c) ∨ ¬ (a ≤ b ∧ b ≤ rows.length)) : g.extractColumns a b cols = ok (false, []) := by
  unfold Grid.extractColumns
  split
  · rfl
  · rename_i hany
    rcases hbad with ⟨c, hc, hlt⟩ | hbad
    · exact absurd (List.any_eq_true.mpr ⟨c, hc, by simp; omega⟩) hany
    · rw [if_pos ((h.rangeInvalid a b).mpr hbad)]

example : sample.extractColumns 0 2 [2, 0, 1] = ok (true, [[(10, 12), (6, 7), (8, 9)]]) ∧
    sample.extractColumns 0 2 [1, 0, 1] = ok (true, [[(3, 4), (1, 2), (3, 4)], [(8, 9), (6, 7), (8, 9)]]) := by decide

/-! ## C86: widths and sums over selected rows -/

theorem columnWidths_spec (g : Grid T) (rows : List (List T)) (h : Rep g rows) (len : T → Nat) : ∀ (n c : Nat) (out : List Nat), c + n ≤ g.maxCol →
    g.columnWidths len n c out = ok (out ++ (List.range' c n).map fun c => (rows.filterMap fun r => (r[c]?).map len).foldl max 0) := by
  intro n
  induction n with
  | zero => intro c out _; simp [Grid.columnWidths]
  | succ n ih =>
    intro c out hc
    have hw : g.columnWidth len c 0 g.store.index.length = ok ((rows.filterMap fun r => (r[c]?).map len).foldl max 0) := by
      have hlen : g.store.index.length = rows.length := h.rowCount
      unfold Grid.columnWidth
      rw [if_neg (by omega), hlen, if_neg (fun hh => (h.rangeInvalid 0 rows.length).mp hh ⟨by omega, by omega⟩), h.widthLoop len c _ _ _ (by omega)]
      simp
    simp only [Grid.columnWidths]
    rw [hw, ok_bind, ih _ _ (by omega)]
    simp [List.range'_succ]

/-- `get_column_widths`: for every column the length of its longest token. -/
theorem C86_column_widths (g : Grid T) (rows : List (List T)) (h : Rep g rows) (len : T → Nat) :
    ∃ ws, g.getColumnWidths len = ok ws ∧ ws.length = g.maxCol ∧ ∀ c (hc : c < ws.length),
      (∀ r ∈ rows, ∀ t, r[c]? = some t → len t ≤ ws[c]) ∧ (ws[c] = 0 ∨ ∃ r ∈ rows, ∃ t, r[c]? = some t ∧ len t = ws[c]) := by
  have hmax : ∀ (l : List Nat) (m : Nat), m ≤ l.foldl max m ∧ (∀ x ∈ l, x ≤ l.foldl max m) ∧ (l.foldl max m = m ∨ l.foldl max m ∈ l) := by
    intro l
    induction l with
    | nil => intro m; simp
    | cons y l ih =>
      intro m
      obtain ⟨i1, i2, i3⟩ := ih (max m y)
      rw [List.foldl_cons]
      refine ⟨by omega, fun x hx => ?_, ?_⟩
      · rcases List.mem_cons.mp hx with rfl | hx
        · omega
        · exact i2 x hx
      · rcases i3 with i3 | i3
        · rw [i3]
          by_cases hm : m ≤ y
          · right; rw [Nat.max_eq_right hm]; simp
          · left; omega
        · right; simp [i3]
  unfold Grid.getColumnWidths
  rw [columnWidths_spec g rows h len _ _ _ (by omega)]
  refine ⟨_, rfl, by simp, fun c hc => ?_⟩
  have hcm : c < g.maxCol := by simpa using hc
  simp only [List.nil_append, List.getElem_map, List.getElem_range', Nat.zero_add, Nat.one_mul]
  obtain ⟨_, m2, m3⟩ := hmax (rows.filterMap fun r => (r[c]?).map len) 0
  constructor
  · intro r hr t ht
    apply m2
    rw [List.mem_filterMap]
    exact ⟨r, hr, by simp [ht]⟩
  · rcases m3 with m3 | m3
    · left; exact m3
    · right
      rw [List.mem_filterMap] at m3
      obtain ⟨r, hr, he⟩ := m3
      cases hrc : r[c]? with
      | none => simp [hrc] at he
      | some t => exact ⟨r, hr, t, hrc, by simpa [hrc] using he⟩

example : sample.getColumnWidths (fun t => t.2 - t.1) = ok [1, 1, 2] := by decide

/-- The rows of the range that have the column and satisfy the predicate, with their indexes. -/
def selected (p : Nat → List T → Bool) (col a b : Nat) (rows : List (List T)) : List (Nat × List T) :=
  (((rows.drop a).take (b - a)).zipIdx a).filterMap fun e => if col < e.1.length ∧ p e.2 e.1 = true then some (e.2, e.1) else none

theorem Rep.accumulateIfLoop {g : Grid T} {rows : List (List T)} (h : Rep g rows) (p : Nat → List T → Bool) (conv : T → Option Int) (col : Nat) :
    ∀ (n i : Nat) (sum : Int) (count : Nat), i + n ≤ rows.length → ∀ ts, ts = (selected p col i (i + n) rows).filterMap (fun e => e.2[col]?) →
      Grid.accumulateIfLoop p conv g.store col n i sum count = ok (accumulateTokens conv ts sum count) := by
  intro n
  induction n with
  | zero => intro i sum count _ ts hts; subst hts; simp [Grid.accumulateIfLoop, selected, accumulateTokens]
  | succ n ih =>
    intro i sum count hi ts hts
    obtain ⟨r, h1, _, _, h3, h4, h5, _⟩ := h.access i (by omega)
    have hsel : selected p col i (i + (n + 1)) rows =
        (if col < rows[i].length ∧ p i rows[i] = true then [(i, rows[i])] else []) ++ selected p col (i + 1) (i + 1 + n) rows := by
      unfold selected
      rw [show i + (n + 1) - i = n + 1 by omega, range_succ rows i n (by omega), List.zipIdx_cons, List.filterMap_cons, show i + 1 + n - (i + 1) = n by omega]
      by_cases hc : col < rows[i].length ∧ p i rows[i] = true
      · rw [if_pos hc, if_pos hc]; rfl
      · rw [if_neg hc, if_neg hc]; rfl
    simp only [Grid.accumulateIfLoop]
    rw [h1, ok_bind]
    rw [hsel, List.filterMap_append] at hts
    by_cases hc : col < tokenCount r
    · rw [if_pos hc, h5, ok_bind]
      rw [h3] at hc
      by_cases hp : p i rows[i] = true
      · rw [if_pos hp, h4 col hc, ok_bind]
        rw [if_pos ⟨hc, hp⟩] at hts
        simp only [List.filterMap_cons, List.filterMap_nil, List.getElem?_eq_getElem hc, List.cons_append, List.nil_append] at hts
        subst hts
        simp only [accumulateTokens]
        cases hv : conv rows[i][col] with
        | none => rfl
        | some v => exact ih (i + 1) (sum + v) (count + 1) (by omega) _ rfl
      · rw [if_neg hp]
        rw [if_neg (fun hh => hp hh.2)] at hts
        exact ih (i + 1) sum count (by omega) ts (by simpa using hts)
    · rw [if_neg hc]
      rw [h3] at hc
      rw [if_neg (fun hh => hc hh.1)] at hts
      exact ih (i + 1) sum count (by omega) ts (by simpa using hts)

/-- `accumulate_column` with a predicate: if the column's tokens of the selected rows all convert, their sum is added and their number returned; otherwise 0 is
returned. -/
theorem C86_accumulate_column_if (g : Grid T) (rows : List (List T)) (h : Rep g rows) (p : Nat → List T → Bool) (conv : T → Option Int) (col a b : Nat)
    (hc : col ≤ g.maxCol) (hv : a ≤ b ∧ b ≤ rows.length) (sum : Int) (ts : List T)
    (hts : ts = (selected p col a b rows).filterMap fun e => e.2[col]?) :
    ((∀ t ∈ ts, (conv t).isSome = true) → g.accumulateColumnIf p conv col a b sum = ok (ts.length, sum + (ts.filterMap conv).sum)) ∧
    ((∃ t ∈ ts, conv t = none) → ∃ s, g.accumulateColumnIf p conv col a b sum = ok (0, s)) := by
  have e : g.accumulateColumnIf p conv col a b sum = ok (accumulateTokens conv ts sum 0) := by
    unfold Grid.accumulateColumnIf
    rw [if_neg (by omega), if_neg (fun hh => (h.rangeInvalid a b).mp hh hv)]
    exact h.accumulateIfLoop p conv col (b - a) a sum 0 (by omega) ts (by rw [hts, show a + (b - a) = b by omega])
  rw [e, accumulateTokens_spec]
  constructor
  · intro hall
    have : ts.all (fun t => (conv t).isSome) = true := List.all_eq_true.mpr hall
    rw [this]
    have hw : ts.takeWhile (fun t => (conv t).isSome) = ts := takeWhile_all _ _ hall
    simp [goodValues, hw]
  · rintro ⟨t, ht, hn⟩
    have : ts.all (fun t => (conv t).isSome) = false := by
      rw [List.all_eq_false]; exact ⟨t, ht, by simp [hn]⟩
    rw [this]
    exact ⟨_, rfl⟩

example : sample.accumulateColumnIf (fun _ r => r.length == 3) (fun t => some (t.1 : Int)) 1 0 2 100 = ok (1, 108) ∧
    selected (fun _ r => r.length == 3) 1 0 2 [[(1, 2), (3, 4)], [(6, 7), (8, 9), (10, 12)]] = [(1, [(6, 7), (8, 9), (10, 12)])] := by decide

/-! ## C65: joining a column over selected rows -/

theorem Rep.joinColumnIfLoop {α : Type} {g : Grid (List α)} {rows : List (List (List α))} (h : Rep g rows) (p : Nat → List (List α) → Bool) (col b : Nat)
    (delim : List α) (hb0 : 0 < b) (hb : b ≤ rows.length) (hall : ∀ j (hj : j < rows.length), j < b → ∃ t, rows[j][col]? = some t ∧ t ≠ [] ∧ p j rows[j] = true) :
    ∀ (n i : Nat) (ap : Bool) (res : List α), i + n = b →
    Grid.joinColumnIfLoop g.store p col (b - 1) delim n i ap res =
      ok (res ++ (((rows.drop i).take n).filterMap (fun r => r[col]?)).zipIdx.flatMap fun e => (if ap = true ∨ e.2 ≠ 0 then (if e.2 + 1 = n then [] else delim) else []) ++ e.1) := by
  intro n
  induction n with
  | zero => intro i ap res _; simp [Grid.joinColumnIfLoop]
  | succ n ih =>
    intro i ap res hi
    obtain ⟨r, h1, _, _, h3, h4, h5, _⟩ := h.access i (by omega)
    obtain ⟨t, t1, t2, t3⟩ := hall i (by omega) (by omega)
    have hc : col < rows[i].length := by
      rcases Nat.lt_or_ge col rows[i].length with hlt | hge
      · exact hlt
      · rw [List.getElem?_eq_none hge] at t1; cases t1
    rw [List.getElem?_eq_getElem hc] at t1
    have t1 := Option.some.inj t1
    rw [range_succ rows i n (by omega), List.filterMap_cons, List.getElem?_eq_getElem hc]
    simp only [Grid.joinColumnIfLoop]
    rw [h1, ok_bind, if_pos (by rw [h3]; exact hc), h5, ok_bind, h4 col hc, ok_bind, t1, if_pos ⟨t2, t3⟩, ih (i + 1) true _ (by omega)]
    congr 1
    rw [List.zipIdx_cons, List.flatMap_cons, List.zipIdx_succ, List.flatMap_map]
    simp only [true_or, if_true, Nat.zero_add, Nat.add_one_ne_zero, ne_eq, not_false_eq_true, or_true, Nat.add_right_cancel_iff, List.append_assoc]
    have hd : (if (!delim.isEmpty && ap && (b - 1) != i) = true then res ++ delim else res) =
        res ++ (if ap = true ∨ ¬ True then (if 1 = n + 1 then [] else delim) else []) := by
      by_cases hn : n = 0
      · subst hn
        have : b - 1 = i := by omega
        simp [this]
      · have : b - 1 ≠ i := by omega
        cases ap <;> cases delim <;> simp [hn, this, Ne.symm hn]
    rw [hd]
    simp only [List.append_assoc]

theorem flatMap_delim {α : Type} (delim : List α) (N : Nat) : ∀ (ts : List (List α)) (k : Nat), 0 < k → k + ts.length < N →
    ((ts.zipIdx k).flatMap fun e => (if false = true ∨ e.2 ≠ 0 then (if e.2 + 1 = N then [] else delim) else []) ++ e.1) = ts.flatMap fun t => delim ++ t := by
  intro ts
  induction ts with
  | nil => intro k _ _; rfl
  | cons t ts ih =>
    intro k hk hN
    simp only [List.length_cons] at hN
    rw [List.zipIdx_cons, List.flatMap_cons, List.flatMap_cons, ih (k + 1) (by omega) (by omega)]
    simp only
    rw [if_pos (Or.inr (by omega)), if_neg (by omega)]

theorem intercalate_eq_flatMap {α : Type} (delim : List α) : ∀ (t : List α) (ts : List (List α)), delim.intercalate (t :: ts) = t ++ ts.flatMap fun u => delim ++ u := by
  intro t ts
  induction ts generalizing t with
  | nil => simp [List.intercalate]
  | cons u ts ih =>
    have := ih u
    simp only [List.intercalate, List.intersperse_cons_cons, List.flatten_cons, List.flatMap_cons] at this ⊢
    rw [this]
    simp

/-- `join_column` with a predicate that all rows satisfy, over a column without empty tokens: the delimiter before the last token is missing, so it disagrees
with `join_column` without a predicate (`C65_join_column`) whenever the range has two rows and the delimiter is not empty. -/
theorem C65_join_column_if_last {α : Type} (g : Grid (List α)) (rows : List (List (List α))) (h : Rep g rows) (p : Nat → List (List α) → Bool) (col a b : Nat)
    (delim res : List α) (hv : a < b ∧ b ≤ rows.length) (hc : col ≤ g.maxCol)
    (hall : ∀ j (hj : j < rows.length), ∃ t, rows[j][col]? = some t ∧ t ≠ [] ∧ p j rows[j] = true) :
    ∃ ts last, (between a b rows).filterMap (fun r => r[col]?) = ts ++ [last] ∧
      g.joinColumnIf p col a b delim res = ok (true, res ++ delim.intercalate ts ++ last) := by
  have hlen : ((between a b rows).filterMap fun r => r[col]?).length = b - a := by
    have : ∀ l : List (List (List α)), (∀ r ∈ l, ∃ t, r[col]? = some t) → (l.filterMap fun r => r[col]?).length = l.length := by
      intro l
      induction l with
      | nil => intro _; rfl
      | cons r l ih =>
        intro hl
        obtain ⟨t, ht⟩ := hl r (by simp)
        rw [List.filterMap_cons, ht]
        simp [ih (fun x hx => hl x (by simp [hx]))]
    rw [this]
    · simp [between]; omega
    · intro r hr
      have hr := List.mem_of_mem_drop (List.mem_of_mem_take hr)
      obtain ⟨j, hj, rfl⟩ := List.getElem_of_mem hr
      obtain ⟨t, ht, _⟩ := hall j hj
      exact ⟨t, ht⟩
  have hne : (between a b rows).filterMap (fun r => r[col]?) ≠ [] := by
    intro hh
    rw [hh] at hlen
    simp at hlen
    omega
  refine ⟨_, _, (List.dropLast_append_getLast hne).symm, ?_⟩
  have hsplit := List.dropLast_append_getLast hne
  generalize ((between a b rows).filterMap fun r => r[col]?).dropLast = ts at hsplit ⊢
  generalize ((between a b rows).filterMap fun r => r[col]?).getLast hne = last at hsplit ⊢
  have hl : ts.length + 1 = b - a := by rw [← hlen, ← hsplit]; simp
  have hsm : rows.length < 2 ^ 32 := by
    have := h.small
    have h2 := (C107_explicit g rows h 0 rows.length (by omega) (by omega))
    have h3 : rows.length ≤ rows.flatten.length := by
      rw [List.length_flatten]
      have : ∀ (l : List (List (List α))), (∀ r ∈ l, r ≠ []) → l.length ≤ (l.map List.length).sum := by
        intro l
        induction l with
        | nil => intro _; simp
        | cons r l ih =>
          intro hne
          have h1 := ih (fun x hx => hne x (by simp [hx]))
          have h2 : 0 < r.length := List.length_pos_iff.mpr (hne r (by simp))
          simp only [List.map_cons, List.sum_cons, List.length_cons]
          omega
      exact this rows h.nonempty
    omega
  have hs : sub32 b 1 = b - 1 := by unfold sub32; omega
  unfold Grid.joinColumnIf
  rw [if_neg (by omega), if_neg (fun hh => (h.rangeInvalid a b).mp hh ⟨by omega, hv.2⟩), hs,
    h.joinColumnIfLoop p col b delim (by omega) hv.2 (fun j hj _ => hall j hj) (b - a) a false res (by omega), ok_bind]
  have hbt : ((rows.drop a).take (b - a)).filterMap (fun r => r[col]?) = ts ++ [last] := hsplit.symm
  rw [hbt, List.zipIdx_append, List.flatMap_append]
  refine congrArg (fun x => ok (true, x)) ?_
  rw [List.append_assoc]
  refine congrArg (res ++ ·) (congrArg₂ (· ++ ·) ?_ ?_)
  · cases ts with
    | nil => simp [List.intercalate]
    | cons t ts =>
      simp only [List.length_cons] at hl
      rw [List.zipIdx_cons, List.flatMap_cons, flatMap_delim delim (b - a) ts 1 (by omega) (by omega), intercalate_eq_flatMap]
      simp
  · simp [hl]

/-- "a,c" joined with ';' over both rows: without a predicate "a;c", with one that is always true "ac". -/
example : sampleText.joinColumn 0 0 2 [';'] [] = ok (true, "a;c".toList) ∧ sampleText.joinColumnIf (fun _ _ => true) 0 0 2 [';'] [] = ok (true, "ac".toList) := by decide

end Strtk.Grid
