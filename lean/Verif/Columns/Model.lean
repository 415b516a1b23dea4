import Verif.Parse.Props

/-!
# Model of the column selectors (strtk.hpp 21990-23765)
-/

namespace Strtk.Columns
open Outcome Strtk.Codec Strtk.Split Strtk.Parse

/-- `std::numeric_limits<std::size_t>::max()`. -/
def npos : Nat := 2 ^ 64 - 1

/-- `column_selector_iterator_impl` (22975-23033): the state of the output iterator. -/
structure Csii where
  tokens : List (List Byte)
  current : Nat
  target : Nat
  index : Nat

/-- The next target column (23015-23018, 22091-22094). -/
def nextTarget (cols : List Nat) (index : Nat) : Outcome Nat := if index < cols.length then deref cols index else ok npos

/-- `column_selector_iterator_impl::operator=` (23008-23022). -/
def Csii.assign (cols : List Nat) (st : Csii) (r : List Byte) : Outcome Csii := do
  let st ← if st.current = st.target then do
      let tokens ← store st.tokens st.index r
      let index := st.index + 1
      let target ← nextTarget cols index
      ok { st with tokens := tokens, index := index, target := target }
    else ok st
  ok { st with current := st.current + 1 }

/-- The tokens `split_n` writes, one after another. -/
def Csii.assignAll (cols : List Nat) : Csii → List (List Byte) → Outcome Csii
  | st, [] => ok st
  | st, r :: rs => do
    let st ← st.assign cols r
    st.assignAll cols rs

/-- `parse_columns` (23037-23054 and the overloads up to 23765, which all have this body).  The targets and their converters are as in `parse`.
A token never assigned is a default-constructed pair of pointers, an empty range.  `token_count` is a `std::size_t` and wraps. -/
def parseColumns {V : Type} (delims : List Byte) (cols : List Nat) (fs : List (Conv V)) (ts : List V) (s : List Byte) :
    Outcome (Bool × List V) := do
  let last ← deref cols (cols.length - 1)
  let tokenCount := (last + 1) % 2 ^ 64
  let first ← deref cols 0
  let (toks, parsed) ← splitN { compress := true } (delimPred delims) s tokenCount
  let st ← Csii.assignAll cols ⟨List.replicate cols.length [], 0, first, 0⟩ (toks.map (textOf s))
  if tokenCount > parsed then ok (false, ts)
  else convertAll fs ts st.tokens

/-- State of `column_selector_base` (22105-22110): the registered targets and what happened to them. -/
structure Selector (V : Type) where
  values : List V
  current : Nat
  target : Nat
  index : Nat
  errors : Nat

/-- `column_selector_base::process` (22075-22098). -/
def Selector.process {V : Type} (cols : List Nat) (fs : List (Conv V)) (st : Selector V) (r : List Byte) : Outcome (Selector V) :=
  if st.current > st.target then ok st
  else do
    let st ← if st.current = st.target then do
        let f ← deref fs st.index
        let v ← deref st.values st.index
        let (good, v) ← f r v
        let values ← store st.values st.index v
        let errors := if good then st.errors else st.errors + 1
        let index := st.index + 1
        let target ← nextTarget cols index
        ok { st with values := values, errors := errors, index := index, target := target }
      else ok st
    ok { st with current := st.current + 1 }

/-- The selector used as the output iterator of `split` (22015-22035). -/
def Selector.processAll {V : Type} (cols : List Nat) (fs : List (Conv V)) : Selector V → List (List Byte) → Outcome (Selector V)
  | st, [] => ok st
  | st, r :: rs => do
    let st ← st.process cols fs r
    st.processAll cols fs rs

/-- `column_selector(column_list, t0, ...)` (22007-22013, 22117-22367): the state after construction; also after `reset()` (22037-22043). -/
def Selector.make {V : Type} (cols : List Nat) (ts : List V) : Outcome (Selector V) := do
  let first ← deref cols 0
  ok ⟨ts, 0, first, 0, 0⟩

end Strtk.Columns
