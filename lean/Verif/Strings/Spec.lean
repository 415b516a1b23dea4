/-!
# Specifications for the string editing functions
-/

namespace Strtk.Strings

variable {α : Type}

/-- Keep an element unless it and the element before it both satisfy `p`: the first element of each run of `p`-elements survives. -/
def headsOfRuns (p : α → Bool) : Option α → List α → List α
  | _, [] => []
  | prev, c :: t => if p c && prev.any p then headsOfRuns p (some c) t else c :: headsOfRuns p (some c) t

/-- Keep an element unless it equals the element before it. -/
def squeeze [DecidableEq α] : Option α → List α → List α
  | _, [] => []
  | prev, c :: t => if prev = some c then squeeze (some c) t else c :: squeeze (some c) t

/-- Replace the leftmost non-overlapping occurrences of the non-empty pattern `p` by `r`, scanning from the left. -/
def replaceAll [DecidableEq α] (p r : List α) (hp : p ≠ []) (s : List α) : List α :=
  match s with
  | [] => []
  | a :: t =>
    if p <+: a :: t then r ++ replaceAll p r hp ((a :: t).drop p.length) else a :: replaceAll p r hp t
termination_by s.length
decreasing_by
  · have : 0 < p.length := List.length_pos_iff.mpr hp
    simp; omega
  · simp

end Strtk.Strings
