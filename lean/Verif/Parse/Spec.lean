import Verif.Split.Spec

/-! # What the fields of a line are, for the parse family -/

namespace Strtk.Parse
open Strtk.Split

/-- The fields of `s`: the pieces between runs of characters that occur in `delims` (none if `s` is empty). -/
def fields (delims s : List (BitVec 8)) : List (List (BitVec 8)) :=
  if s = [] then [] else (collapseRuns (fun c => decide (c ∈ delims)) s).splitOnP (fun c => decide (c ∈ delims))

/-- The values of the fields that convert, in order; `conv` is the converter as a partial function. -/
def converted {V : Type} (conv : List (BitVec 8) → Option V) (ws : List (List (BitVec 8))) : List V := ws.filterMap conv

end Strtk.Parse
