import Verif.Split.Props
import Verif.Number.Model

/-! # token_grid (strtk.hpp 5195-7611)

Tokens are abstract (`T`); the loader produces them as offset pairs into the buffer, the joining functions take them as texts.  The row index holds
pairs of `unsigned int`, here natural numbers below 2^32 with explicit wrap-around.  Row and token predicates are functions of the row index and the row's
tokens (simplification: no mutable state, and they only look at the tokens of the row). -/

namespace Strtk.Grid
open Outcome

variable {T : Type}

/-- `static_cast<unsigned int>(n)`. -/
def u32 (n : Nat) : Nat := n % 2 ^ 32

/-- Subtraction of `unsigned int`s. -/
def sub32 (a b : Nat) : Nat := (a + (2 ^ 32 - b % 2 ^ 32)) % 2 ^ 32

/-- `token_grid::store` (5210-5218): `token_list` and `row_index`; `max_column` is only used by `remove_column`, which nothing calls and which is modelled
in Grid/Column.lean. -/
structure Store (T : Type) where
  tokens : List T
  index : List (Nat × Nat)
  deriving DecidableEq

/-- The grid: the store, `min_column_count_` and `max_column_count_` (7602-7607). -/
structure Grid (T : Type) where
  store : Store T
  minCol : Nat
  maxCol : Nat
  deriving DecidableEq

/-- `row_count()` (6445-6448). -/
def Grid.rowCount (g : Grid T) : Nat := g.store.index.length

/-- `token_count(row_index_range_t)` (5267-5270): computed on `unsigned int`. -/
def tokenCount (r : Nat × Nat) : Nat := (sub32 r.2 r.1 + 1) % 2 ^ 32

/-- `store::operator()(col,row)` (5226-5239) and `token_grid::token(row,col)` (6460-6463); `none` is the null range. -/
def Grid.token (g : Grid T) (row col : Nat) : Outcome (Option T) :=
  if row < g.store.index.length then do
    let r ← deref g.store.index row
    if col < tokenCount r then do
      let t ← deref g.store.tokens (r.1 + col)
      ok (some t)
    else ok none
  else ok none

/-- `erase(begin + i, begin + j)` on a deque. -/
def erase {α : Type} (l : List α) (i j : Nat) : Outcome (List α) := if i ≤ j ∧ j ≤ l.length then ok (l.take i ++ l.drop j) else ub

/-- `store::remove_row` (5241-5265); the loop on 5256-5262 subtracts from every later row. -/
def Store.removeRow (st : Store T) (row : Nat) : Outcome (Store T) :=
  if row ≥ st.index.length then ok st
  else do
    let r ← deref st.index row
    let n := tokenCount r
    let tokens ← erase st.tokens r.1 (r.1 + n)
    let index := st.index.eraseIdx row
    ok ⟨tokens, index.take row ++ (index.drop row).map fun q => (sub32 q.1 n, sub32 q.2 n)⟩

/-- `token_grid::remove_row` (6722-6728). -/
def Grid.removeRow (g : Grid T) (row : Nat) : Outcome (Grid T) :=
  if row < g.store.index.length then do
    let st ← g.store.removeRow row
    ok { g with store := st }
  else ok g

/-! ## index_remover and remove_inplace -/

/-- State of `index_remover_impl` (1180-1183): what `itr_` still ranges over, `current_index_`, `check_`. -/
structure Remover where
  left : List Nat
  current : Nat
  check : Bool

/-- `index_remover_impl::operator()` (1162-1178). -/
def Remover.step (r : Remover) : Outcome (Bool × Remover) :=
  if r.check then do
    let i ← deref r.left 0
    let cur := r.current
    let r := { r with current := cur + 1 }
    if cur = i then
      let r := { r with left := r.left.tail }
      let r := if r.left = [] then { r with check := false } else r
      ok (true, r)
    else ok (false, r)
  else ok (false, r)

/-- Loop of `remove_inplace` (1202-1218) with the remover as predicate: memory, `itr1`, `itr2`, removal count. -/
def removeLoop {α : Type} : Nat → Remover → List α → Nat → Nat → Nat → Outcome (List α × Nat)
  | 0, _, _, _, _, _ => diverge
  | fuel + 1, rm, buf, i1, i2, count =>
    if buf.length ≠ i1 then do
      let c ← deref buf i1
      let (b, rm) ← rm.step
      if b then removeLoop fuel rm buf (i1 + 1) i2 (count + 1)
      else do
        let buf ← if i1 ≠ i2 then store buf i2 c else ok buf
        removeLoop fuel rm buf (i1 + 1) (i2 + 1) count
    else ok (buf, count)

/-- `remove_inplace(index_remover(list), sequence)` (1233-1238, 1189-1192). -/
def removeIndexes {α : Type} (list : List Nat) (seq : List α) : Outcome (List α) := do
  let (buf, count) ← removeLoop (seq.length + 1) ⟨list, 0, true⟩ seq 0 0 0
  ok (buf.take (seq.length - count))

/-! ## Removing rows and tokens -/

/-- `row_range_invalid` (7571-7581). -/
def Grid.rangeInvalid (g : Grid T) (a b : Nat) : Bool :=
  if a > g.store.index.length then true else if b > g.store.index.length then true else if a > b then true else false

/-- `row_type(i,dsv_index_)` (5559-5564): the tokens of the row. -/
def rowOf (tokens : List T) (r : Nat × Nat) : Outcome (List T) :=
  if r.1 + tokenCount r ≤ tokens.length then ok ((tokens.drop r.1).take (tokenCount r)) else ub

/-- First loop of `remove_row_if` (6741-6761): `n` rows from row `i` on; index, number of removed tokens, removed tokens, removed rows. -/
def removeRowIfLoop (p : Nat → List T → Bool) (tokens : List T) :
    Nat → Nat → List (Nat × Nat) → Nat → List Nat → List Nat → Outcome (List (Nat × Nat) × Nat × List Nat × List Nat)
  | 0, _, ix, removed, rt, rr => ok (ix, removed, rt, rr)
  | n + 1, i, ix, removed, rt, rr => do
    let r ← deref ix i
    let first := sub32 r.1 removed
    let row ← rowOf tokens r
    let hit := p i row
    let rr := if hit then rr ++ [i] else rr
    let rt := if hit then rt ++ List.range' r.1 (r.2 + 1 - r.1) else rt
    let removed := if hit then removed + row.length else removed
    let ix ← store ix i (first, sub32 r.2 removed)
    removeRowIfLoop p tokens n (i + 1) ix removed rt rr

/-- Second loop (6763-6769, 6824-6829). -/
def shiftFrom (ix : List (Nat × Nat)) (b removed : Nat) : List (Nat × Nat) :=
  ix.take b ++ (ix.drop b).map fun q => (sub32 q.1 removed, sub32 q.2 removed)

/-- Removal of the collected rows and tokens (6771-6779, 6831-6839). -/
def removeCollected (tokens : List T) (ix : List (Nat × Nat)) (rt rr : List Nat) : Outcome (Store T) := do
  let ix ← if rr ≠ [] then removeIndexes rr ix else ok ix
  let tokens ← if rt ≠ [] then removeIndexes rt tokens else ok tokens
  ok ⟨tokens, ix⟩

/-- `remove_row_if(row_range,predicate)` (6731-6782). -/
def Grid.removeRowIf (g : Grid T) (a b : Nat) (p : Nat → List T → Bool) : Outcome (Bool × Grid T) :=
  if g.rangeInvalid a b then ok (false, g)
  else do
    let (ix, removed, rt, rr) ← removeRowIfLoop p g.store.tokens (b - a) a g.store.index 0 [] []
    let st ← removeCollected g.store.tokens (shiftFrom ix b removed) rt rr
    ok (true, { g with store := st })

/-- The loop over the tokens of a row (6806-6813): positions of the hits from column `j` on. -/
def hitsFrom (q : T → Bool) (first : Nat) : Nat → List T → List Nat
  | _, [] => []
  | j, t :: ts => if q t then (first + j) :: hitsFrom q first (j + 1) ts else hitsFrom q first (j + 1) ts

/-- First loop of `remove_token_if` (6800-6822). -/
def removeTokenIfLoop (q : T → Bool) (tokens : List T) :
    Nat → Nat → List (Nat × Nat) → Nat → List Nat → List Nat → Outcome (List (Nat × Nat) × Nat × List Nat × List Nat)
  | 0, _, ix, removed, rt, rr => ok (ix, removed, rt, rr)
  | n + 1, i, ix, removed, rt, rr => do
    let r ← deref ix i
    let first := sub32 r.1 removed
    let row ← rowOf tokens r
    let hits := hitsFrom q r.1 0 row
    let rt := rt ++ hits
    let removed := removed + hits.length
    let r' := (first, sub32 r.2 removed)
    let ix ← store ix i r'
    let rr := if tokenCount r' = 0 then rr ++ [i] else rr
    removeTokenIfLoop q tokens n (i + 1) ix removed rt rr

/-- `update_minmax_columns` (7583-7598). -/
def updateMinMax (st : Store T) : Grid T :=
  let widths := st.index.map tokenCount
  ⟨st, widths.foldl (fun m w => if w < m then w else m) (2 ^ 64 - 1), widths.foldl (fun m w => if w > m then w else m) 0⟩

/-- `remove_token_if(row_range,predicate)` (6791-6847). -/
def Grid.removeTokenIf (g : Grid T) (a b : Nat) (q : T → Bool) : Outcome (Nat × Grid T) :=
  if g.rangeInvalid a b then ok (0, g)
  else do
    let (ix, removed, rt, rr) ← removeTokenIfLoop q g.store.tokens (b - a) a g.store.index 0 [] []
    let st ← removeCollected g.store.tokens (shiftFrom ix b removed) rt rr
    if rt ≠ [] then ok (rt.length, updateMinMax st) else ok (rt.length, { g with store := st })

/-- `enforce_column_count(row_range,n)` (6859-6869, predicate 7412-7424): the row range is checked but not passed on. -/
def Grid.enforceColumns (g : Grid T) (a b n : Nat) : Outcome (Grid T) :=
  if g.rangeInvalid a b then ok g
  else do
    let (_, g) ← g.removeRowIf 0 g.store.index.length fun _ row => n != row.length
    ok { g with minCol := n, maxCol := n }

/-- `enforce_min_max_column_count(row_range,lo,hi)` (6876-6887, predicate 7426-7440): likewise. -/
def Grid.enforceMinMax (g : Grid T) (a b lo hi : Nat) : Outcome (Grid T) :=
  if g.rangeInvalid a b then ok g
  else do
    let (_, g) ← g.removeRowIf 0 g.store.index.length fun _ row => decide (row.length < lo) || decide (hi < row.length)
    ok { g with minCol := lo, maxCol := hi }

/-! ## Loading -/

/-- `row_processor::operator()` (5439-5457) for the row range `r`. -/
def processRow {α : Type} (opt : Split.Opt) (dc : α → Bool) (buf : List α) (st : Store (Nat × Nat)) (r : Nat × Nat) : Outcome (Store (Nat × Nat)) :=
  if r.2 - r.1 = 0 then ok st
  else do
    let start := u32 st.tokens.length
    let (toks, count) ← Split.split opt dc (Split.textOf buf r)
    let last := u32 (start + count + (2 ^ 64 - 1))
    ok ⟨st.tokens ++ toks.map (fun t => (r.1 + t.1, r.1 + t.2)), st.index ++ [(start, last)]⟩

/-- The calls of the row processor through the functional inserter. -/
def processRows {α : Type} (opt : Split.Opt) (dc : α → Bool) (buf : List α) : Store (Nat × Nat) → List (Nat × Nat) → Outcome (Store (Nat × Nat))
  | st, [] => ok st
  | st, r :: rs => do
    let st ← processRow opt dc buf st r
    processRows opt dc buf st rs

/-- `load()` on a buffer without double quotes (7475-7495, 7523-7525).  The rows are always split with `compress_delimiters`. -/
def load {α : Type} (opt : Split.Opt) (dr dc : α → Bool) (buf : List α) : Outcome (Grid (Nat × Nat)) := do
  let (rows, _) ← Split.split { compress := true } dr buf
  let st ← processRows opt dc buf ⟨[], []⟩ rows
  ok (updateMinMax st)

/-! ## Reading rows and columns -/

/-- Loop of `extract_column(row_range,index,out)` (6551-6559) for an output iterator that appends; `conv` is the conversion of a token. -/
def extractLoop {U : Type} (conv : T → U) (st : Store T) (col : Nat) : Nat → Nat → List U → Outcome (List U)
  | 0, _, out => ok out
  | n + 1, i, out => do
    let r ← deref st.index i
    if col < tokenCount r then do
      let t ← deref st.tokens (r.1 + col)
      extractLoop conv st col n (i + 1) (out ++ [conv t])
    else extractLoop conv st col n (i + 1) out

/-- `extract_column(row_range,index,out)` (6541-6562). -/
def Grid.extractColumn {U : Type} (g : Grid T) (conv : T → U) (a b col : Nat) (out : List U) : Outcome (Bool × List U) :=
  if col > g.maxCol then ok (false, out)
  else if g.rangeInvalid a b then ok (false, out)
  else do
    let out ← extractLoop conv g.store col (b - a) a out
    ok (true, out)

/-- The same loop when `out` is a plain iterator into `mem`: `process_token` (7550-7555) receives the iterator by value, so every token is assigned to the
same element. -/
def extractPlainLoop {U : Type} (conv : T → U) (st : Store T) (col pos : Nat) : Nat → Nat → List U → Outcome (List U)
  | 0, _, mem => ok mem
  | n + 1, i, mem => do
    let r ← deref st.index i
    if col < tokenCount r then do
      let t ← deref st.tokens (r.1 + col)
      let mem ← store mem pos (conv t)
      extractPlainLoop conv st col pos n (i + 1) mem
    else extractPlainLoop conv st col pos n (i + 1) mem

/-- Loop of `extract_column_checked` (6492-6501, 7558-7569): tokens that do not convert are left out. -/
def extractCheckedLoop {U : Type} (conv : T → Option U) (st : Store T) (col : Nat) : Nat → Nat → List U → Outcome (List U)
  | 0, _, out => ok out
  | n + 1, i, out => do
    let r ← deref st.index i
    if col < tokenCount r then do
      let t ← deref st.tokens (r.1 + col)
      let out := match conv t with
        | some u => out ++ [u]
        | none => out
      extractCheckedLoop conv st col n (i + 1) out
    else extractCheckedLoop conv st col n (i + 1) out

/-- `extract_column_checked(row_range,index,out)` (6483-6504). -/
def Grid.extractColumnChecked {U : Type} (g : Grid T) (conv : T → Option U) (a b col : Nat) (out : List U) : Outcome (Bool × List U) :=
  if col > g.maxCol then ok (false, out)
  else if g.rangeInvalid a b then ok (false, out)
  else do
    let out ← extractCheckedLoop conv g.store col (b - a) a out
    ok (true, out)

/-- Loop of the two-column `extract_column` (6588-6597). -/
def extract2Loop {U W : Type} (c0 : T → U) (c1 : T → W) (st : Store T) (col0 col1 : Nat) : Nat → Nat → List U → List W → Outcome (List U × List W)
  | 0, _, o0, o1 => ok (o0, o1)
  | n + 1, i, o0, o1 => do
    let r ← deref st.index i
    if max col0 col1 < tokenCount r then do
      let t0 ← deref st.tokens (r.1 + col0)
      let t1 ← deref st.tokens (r.1 + col1)
      extract2Loop c0 c1 st col0 col1 n (i + 1) (o0 ++ [c0 t0]) (o1 ++ [c1 t1])
    else extract2Loop c0 c1 st col0 col1 n (i + 1) o0 o1

/-- Two-column `extract_column` (6572-6600). -/
def Grid.extractColumn2 {U W : Type} (g : Grid T) (c0 : T → U) (c1 : T → W) (a b col0 col1 : Nat) (o0 : List U) (o1 : List W) :
    Outcome (Bool × List U × List W) :=
  if col0 > g.maxCol ∨ col1 > g.maxCol then ok (false, o0, o1)
  else if g.rangeInvalid a b then ok (false, o0, o1)
  else do
    let (o0, o1) ← extract2Loop c0 c1 g.store col0 col1 (b - a) a o0 o1
    ok (true, o0, o1)

/-- Loop of `column_width` (6919-6929); `len` is the length of a token. -/
def widthLoop (len : T → Nat) (st : Store T) (col : Nat) : Nat → Nat → Nat → Outcome Nat
  | 0, _, result => ok result
  | n + 1, i, result => do
    let r ← deref st.index i
    if col < tokenCount r then do
      let t ← deref st.tokens (r.1 + col)
      widthLoop len st col n (i + 1) (max (len t) result)
    else widthLoop len st col n (i + 1) result

/-- `column_width(col,row_range)` (6909-6932). -/
def Grid.columnWidth (g : Grid T) (len : T → Nat) (col a b : Nat) : Outcome Nat :=
  if col > g.maxCol then ok 0 else if g.rangeInvalid a b then ok 0 else widthLoop len g.store col (b - a) a 0

/-- Loop of `accumulate_row` (6973-6984) over the tokens of the row; the values are integers and `conv` is the conversion. -/
def accumulateTokens (conv : T → Option Int) : List T → Int → Nat → Nat × Int
  | [], sum, count => (count, sum)
  | t :: ts, sum, count => match conv t with
    | some v => accumulateTokens conv ts (sum + v) (count + 1)
    | none => (0, sum)

/-- `accumulate_row(row,result)` (6960-6987): the return value and `result`. -/
def Grid.accumulateRow (g : Grid T) (conv : T → Option Int) (row : Nat) (sum : Int) : Outcome (Nat × Int) :=
  if row ≥ g.store.index.length then ok (0, sum)
  else do
    let r ← deref g.store.index row
    if r.1 ≤ r.2 + 1 ∧ r.2 + 1 ≤ g.store.tokens.length then
      ok (accumulateTokens conv ((g.store.tokens.drop r.1).take (r.2 + 1 - r.1)) sum 0)
    else ub

/-- Loop of `accumulate_column` (7002-7017): `process_count` is also incremented for rows that have no such column. -/
def accumulateLoop (conv : T → Option Int) (st : Store T) (col : Nat) : Nat → Nat → Int → Nat → Outcome (Nat × Int)
  | 0, _, sum, count => ok (count, sum)
  | n + 1, i, sum, count => do
    let r ← deref st.index i
    if col < tokenCount r then do
      let t ← deref st.tokens (r.1 + col)
      match conv t with
      | some v => accumulateLoop conv st col n (i + 1) (sum + v) (count + 1)
      | none => ok (0, sum)
    else accumulateLoop conv st col n (i + 1) sum (count + 1)

/-- `accumulate_column(col,row_range,result)` (6990-7020). -/
def Grid.accumulateColumn (g : Grid T) (conv : T → Option Int) (col a b : Nat) (sum : Int) : Outcome (Nat × Int) :=
  if col > g.maxCol then ok (0, sum) else if g.rangeInvalid a b then ok (0, sum) else accumulateLoop conv g.store col (b - a) a sum 0

/-- `for_each_row(row_range,f)` (7307-7321): the rows `f` is called with. -/
def forEachLoop (st : Store T) : Nat → Nat → List (Nat × List T) → Outcome (List (Nat × List T))
  | 0, _, out => ok out
  | n + 1, i, out => do
    let r ← deref st.index i
    let row ← rowOf st.tokens r
    forEachLoop st n (i + 1) (out ++ [(i, row)])

/-- `for_each_row(row_range,f)` (7307-7321): the returned count and the calls. -/
def Grid.forEachRow (g : Grid T) (a b : Nat) : Outcome (Nat × List (Nat × List T)) :=
  if g.rangeInvalid a b then ok (0, [])
  else do
    let calls ← forEachLoop g.store (b - a) a []
    ok (calls.length, calls)

/-! ## Joining -/

/-- Loop of `join_row` (7092-7106) over the tokens `itr .. end`; `appended` is the flag of the code. -/
def joinTokens {α : Type} (delim : List α) (keep : List α → Bool) : List (List α) → Bool → List α → List α
  | [], _, result => result
  | t :: ts, appended, result =>
    let result := if !delim.isEmpty && appended then result ++ delim else result
    if t ≠ [] ∧ keep t = true then joinTokens delim keep ts true (result ++ t) else joinTokens delim keep ts false result

/-- `join_row(row,[predicate,]delimiter,result)` (7076-7149).  The end iterator of the last row is one token short (7086, 7123); `end->second` on 7088 and
7125 reads the token at the end iterator. -/
def Grid.joinRow {α : Type} (g : Grid (List α)) (row : Nat) (keep : List α → Bool) (delim result : List α) : Outcome (Bool × List α) :=
  if row ≥ g.store.index.length then ok (false, result)
  else do
    let r ← deref g.store.index row
    let stop := r.2 + (if row < g.store.index.length - 1 then 1 else 0)
    if r.1 ≤ stop ∧ stop < g.store.tokens.length then
      ok (true, joinTokens delim keep ((g.store.tokens.drop r.1).take (stop - r.1)) false result)
    else ub

/-- Loop of `join_column` (7172-7193). -/
def joinColumnLoop {α : Type} (st : Store (List α)) (col : Nat) (delim : List α) : Nat → Nat → Bool → List α → Outcome (List α)
  | 0, _, _, result => ok result
  | n + 1, i, appended, result => do
    let r ← deref st.index i
    if col < tokenCount r then do
      let t ← deref st.tokens (r.1 + col)
      let result := if !delim.isEmpty && appended then result ++ delim else result
      if t ≠ [] then joinColumnLoop st col delim n (i + 1) true (result ++ t) else joinColumnLoop st col delim n (i + 1) false result
    else joinColumnLoop st col delim n (i + 1) appended result

/-- `join_column(col,row_range,delimiter,result)` (7160-7196). -/
def Grid.joinColumn {α : Type} (g : Grid (List α)) (col a b : Nat) (delim result : List α) : Outcome (Bool × List α) :=
  if col > g.maxCol then ok (false, result)
  else if g.rangeInvalid a b then ok (false, result)
  else do
    let result ← joinColumnLoop g.store col delim (b - a) a false result
    ok (true, result)

/-! ## Partitioning -/

/-- Loop of `sequential_partition` (7268-7283): `n` rows from row `i` on, the range `(first, second)`, the calls so far; the callback `f` returns
whether to go on.  The result is `none` when it does not. -/
def partitionLoop (p : Nat → List T → Bool) (f : Nat × Nat → Bool) (st : Store T) :
    Nat → Nat → Nat → Nat → List (Nat × Nat) → Outcome (Bool × Nat × List (Nat × Nat))
  | 0, _, first, _, calls => ok (true, first, calls)
  | n + 1, i, first, second, calls => do
    let r ← deref st.index i
    let row ← rowOf st.tokens r
    if p i row then
      if first ≠ second then
        let second := i
        if !f (first, second) then ok (false, first, calls ++ [(first, second)])
        else partitionLoop p f st n (i + 1) second second (calls ++ [(first, second)])
      else partitionLoop p f st n (i + 1) second second calls
    else partitionLoop p f st n (i + 1) first i calls

/-- `sequential_partition(row_range,p,f)` (7259-7293): the result and the calls of `f`. -/
def Grid.partition (g : Grid T) (a b : Nat) (p : Nat → List T → Bool) (f : Nat × Nat → Bool) : Outcome (Bool × List (Nat × Nat)) :=
  if g.rangeInvalid a b then ok (false, [])
  else do
    let (go, first, calls) ← partitionLoop p f g.store (b - a) a a a []
    if !go then ok (false, calls)
    else if first ≠ b then
      ok (f (first, b), calls ++ [(first, b)])
    else ok (true, calls)

/-! ## Parsing a row -/

/-- `parse(t0,...,tk)` and `parse_with_index` of a row (5653-5932): the converters of the variables are applied to the tokens at the given columns, counted
from the first token of the row, until one fails.  The number of tokens of the row is not looked at. -/
def parseRowAt {V : Type} (conv : Nat → T → Bool × V) (tokens : List T) (begin_ : Nat) : Nat → List Nat → List V → Outcome (Bool × List V)
  | _, [], out => ok (true, out)
  | k, c :: cs, out => do
    let t ← deref tokens (begin_ + c)
    if (conv k t).1 then parseRowAt conv tokens begin_ (k + 1) cs (out ++ [(conv k t).2]) else ok (false, out ++ [(conv k t).2])

/-- `grid.row(row).parse_with_index(c0,..,ck,t0,..,tk)`. -/
def Grid.rowParse {V : Type} (g : Grid T) (conv : Nat → T → Bool × V) (row : Nat) (cols : List Nat) : Outcome (Bool × List V) := do
  let r ← deref g.store.index row
  parseRowAt conv g.store.tokens r.1 0 cols []

/-- `parse(col_range,sequence)` of a row (5970-5991, 5948-5956). -/
def rowParseRange {V : Type} (conv : T → Option V) (row : List T) (a b : Nat) (seq : List V) : Bool × List V :=
  if a > row.length ∨ b > row.length then (false, seq)
  else if a > b then (false, seq)
  else go ((row.drop a).take (b - a)) seq
where
  /-- The loop (5980-5988). -/
  go : List T → List V → Bool × List V
    | [], seq => (true, seq)
    | t :: ts, seq => match conv t with
      | some v => go ts (seq ++ [v])
      | none => (false, seq)

end Strtk.Grid
