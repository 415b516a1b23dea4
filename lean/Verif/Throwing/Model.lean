import Verif.Strings.Model
import Verif.Grid.Model
import Verif.Boxes.Model
import Verif.Combi.Conditional
import Verif.Combi.Permute

/-!
# Callbacks that throw

The functions of strtk.hpp that call a predicate or a function of the user while they change a container, for callbacks that may throw.  No code of the library
catches such an exception; it leaves the call, and what the caller then holds is what the call has written so far.

A predicate is a function with the answer `none` where it throws.  The results tell whether the call returned and what it has left behind.
-/

namespace Strtk.Throwing
open Outcome Mem

variable {α T V : Type}

/-! ## remove_inplace -/

/-- Loop of `remove_inplace(pred, begin, end)` (1202-1218) for a predicate that may throw: the buffer, and the removal count unless the predicate has thrown. -/
def removeLoop (p : α → Option Bool) : Nat → List α → Nat → Nat → Nat → Outcome (List α × Option Nat)
  | 0, _, _, _, _ => diverge
  | fuel + 1, buf, i1, i2, count =>
    if buf.length ≠ i1 then do
      let c ← deref buf i1
      match p c with
      | none => ok (buf, none)
      | some true => removeLoop p fuel buf (i1 + 1) i2 (count + 1)
      | some false => do
        let buf ← (if i1 ≠ i2 then store buf i2 c else ok buf)
        removeLoop p fuel buf (i1 + 1) (i2 + 1) count
    else ok (buf, some count)

/-- `remove_inplace(predicate, sequence)` (1229-1238) and the overload for strings (1251-1261): the `resize` is not reached when the predicate throws.  (The overload
for strings resizes only if something was removed, which makes no difference.)  The result: the sequence and whether the call returned. -/
def removeInplace [Inhabited α] (p : α → Option Bool) (s : List α) : Outcome (List α × Bool) := do
  let (buf, count) ← removeLoop p (s.length + 1) s 0 0 0
  match count with
  | none => ok (buf, false)
  | some n => ok (resize default buf (buf.length - n), true)

/-! ## delete_if -/

/-- `delete_if` (21519-21538) from the offset `itr`, as in `Boxes.deleteIfLoop`, for a predicate that may throw: the objects, the pointers left in the container,
and whether the call returned. -/
def deleteIfLoop (p : V → Option Bool) : Nat → List Nat → Nat → Boxes.Heap V → Outcome (Boxes.Heap V × List Nat × Bool)
  | 0, _, _, _ => diverge
  | fuel + 1, seq, itr, h =>
    if seq.length ≠ itr then do
      let q ← deref seq itr
      let v ← Boxes.follow h q
      match p v with
      | none => ok (h, seq, false)
      | some true => do
        let h ← Boxes.delete h q
        deleteIfLoop p fuel (seq.eraseIdx itr) itr h
      | some false => deleteIfLoop p fuel seq (itr + 1) h
    else ok (h, seq, true)

/-- `delete_if`. -/
def deleteIf (p : V → Option Bool) (seq : List Nat) (h : Boxes.Heap V) : Outcome (Boxes.Heap V × List Nat × Bool) := deleteIfLoop p (seq.length + 1) seq 0 h

/-! ## Token grids -/

/-- What the first loop of `remove_row_if` or `remove_token_if` ends with. -/
inductive Collected where
  /-- All rows were looked at: the index, the number of removed tokens, the removed tokens and rows. -/
  | all (ix : List (Nat × Nat)) (removed : Nat) (rt rr : List Nat)
  /-- The predicate has thrown: the index as it is then. -/
  | thrown (ix : List (Nat × Nat))
deriving DecidableEq

/-- First loop of `remove_row_if` (6741-6761), as in `Grid.removeRowIfLoop`. -/
def removeRowIfLoop (p : Nat → List T → Option Bool) (tokens : List T) :
    Nat → Nat → List (Nat × Nat) → Nat → List Nat → List Nat → Outcome Collected
  | 0, _, ix, removed, rt, rr => ok (.all ix removed rt rr)
  | n + 1, i, ix, removed, rt, rr => do
    let r ← deref ix i
    let first := Grid.sub32 r.1 removed
    let row ← Grid.rowOf tokens r
    match p i row with
    | none => ok (.thrown ix)
    | some hit => do
      let rr := if hit then rr ++ [i] else rr
      let rt := if hit then rt ++ List.range' r.1 (r.2 + 1 - r.1) else rt
      let removed := if hit then removed + row.length else removed
      let ix ← store ix i (first, Grid.sub32 r.2 removed)
      removeRowIfLoop p tokens n (i + 1) ix removed rt rr

/-- `remove_row_if(row_range,predicate)` (6731-6782): the value returned, `none` when the predicate has thrown, and the grid. -/
def removeRowIf (g : Grid.Grid T) (a b : Nat) (p : Nat → List T → Option Bool) : Outcome (Option Bool × Grid.Grid T) :=
  if g.rangeInvalid a b then ok (some false, g)
  else do
    match ← removeRowIfLoop p g.store.tokens (b - a) a g.store.index 0 [] [] with
    | .thrown ix => ok (none, { g with store := ⟨g.store.tokens, ix⟩ })
    | .all ix removed rt rr => do
      let st ← Grid.removeCollected g.store.tokens (Grid.shiftFrom ix b removed) rt rr
      ok (some true, { g with store := st })

/-- The loop over the tokens of a row (6806-6813): positions of the hits from column `j` on; `none` when the predicate has thrown. -/
def hitsFrom (q : T → Option Bool) (first : Nat) : Nat → List T → Option (List Nat)
  | _, [] => some []
  | j, t :: ts => do
    let hit ← q t
    let hits ← hitsFrom q first (j + 1) ts
    some (if hit then (first + j) :: hits else hits)

/-- First loop of `remove_token_if` (6800-6822), as in `Grid.removeTokenIfLoop`. -/
def removeTokenIfLoop (q : T → Option Bool) (tokens : List T) :
    Nat → Nat → List (Nat × Nat) → Nat → List Nat → List Nat → Outcome Collected
  | 0, _, ix, removed, rt, rr => ok (.all ix removed rt rr)
  | n + 1, i, ix, removed, rt, rr => do
    let r ← deref ix i
    let first := Grid.sub32 r.1 removed
    let row ← Grid.rowOf tokens r
    match hitsFrom q r.1 0 row with
    | none => ok (.thrown ix)
    | some hits => do
      let rt := rt ++ hits
      let removed := removed + hits.length
      let r' := (first, Grid.sub32 r.2 removed)
      let ix ← store ix i r'
      let rr := if Grid.tokenCount r' = 0 then rr ++ [i] else rr
      removeTokenIfLoop q tokens n (i + 1) ix removed rt rr

/-- `remove_token_if(row_range,predicate)` (6791-6847): the number returned, `none` when the predicate has thrown, and the grid. -/
def removeTokenIf (g : Grid.Grid T) (a b : Nat) (q : T → Option Bool) : Outcome (Option Nat × Grid.Grid T) :=
  if g.rangeInvalid a b then ok (some 0, g)
  else do
    match ← removeTokenIfLoop q g.store.tokens (b - a) a g.store.index 0 [] [] with
    | .thrown ix => ok (none, { g with store := ⟨g.store.tokens, ix⟩ })
    | .all ix removed rt rr => do
      let st ← Grid.removeCollected g.store.tokens (Grid.shiftFrom ix b removed) rt rr
      if rt ≠ [] then ok (some rt.length, Grid.updateMinMax st) else ok (some rt.length, { g with store := st })

/-! ## Combinations and permutations -/

mutual
/-- `details::combine_discontinuous` (12271-12318), as in `Combi.combine`, for a function that may throw: `throws` tells whether it does when the parts shown to it so
far, the last one included, are the given ones.  Result: whether the call returned, the range, the parts shown. -/
def combine (throws : List (List α) → Bool) (mid : Nat) :
    Nat → List α → Nat → Nat → Nat → Nat → Nat → List (List α) → Outcome (Bool × List α × List (List α))
  | 0, s, _, _, _, _, _, out => ok (!throws (out ++ [s.take mid]), s, out ++ [s.take mid])
  | d1 + 1, s, f1, l1, f2, d2, d, out =>
    if d2 = 0 then ok (!throws (out ++ [s.take mid]), s, out ++ [s.take mid])
    else do
      let (returned, s, out) ← combineLoop throws mid d1 d2 s f1 l1 f2 d2 d out
      if !returned then ok (false, s, out)
      else if throws (out ++ [s.take mid]) then ok (false, s, out ++ [s.take mid])
      else if d ≠ 0 then do
        let s' ← Combi.rotateDisc s f1 l1 (d1 + 1) (f2 + 1) s.length (d2 - 1)
        ok (true, s', out ++ [s.take mid])
      else do
        let s' ← Combi.rotateDisc s f1 l1 (d1 + 1) f2 s.length d2
        ok (true, s', out ++ [s.take mid])
  termination_by d1 => (d1, 0)

/-- The loops 12285-12290 and 12299-12305. -/
def combineLoop (throws : List (List α) → Bool) (mid d1 : Nat) :
    Nat → List α → Nat → Nat → Nat → Nat → Nat → List (List α) → Outcome (Bool × List α × List (List α))
  | 0, s, _, _, _, _, _, out => ok (true, s, out)
  | n + 1, s, f1, l1, i2, d22, d, out => do
    let (returned, s, out) ← (if d1 = 0 then ok (!throws (out ++ [s.take mid]), s, out ++ [s.take mid])
      else combine throws mid d1 s (f1 + 1) l1 i2 d22 (d + 1) out)
    if !returned then ok (false, s, out)
    else do
      let s ← swapAt s f1 i2
      combineLoop throws mid d1 n s f1 l1 (i2 + 1) (d22 - 1) d out
  termination_by n => (d1, n + 1)
end

/-- `for_each_combination` (12423-12437): whether the call returned, the range afterwards and the parts shown. -/
def forEachCombination (throws : List (List α) → Bool) (s : List α) (size : Nat) : Outcome (Bool × List α × List (List α)) :=
  if size > s.length then ok (true, s, []) else combine throws size size s 0 size size (s.length - size) 0 []

/-- `for_each_permutation` (12216-12225) for a function that may throw: whether the call returned, the arrangements shown and the range afterwards. -/
def forEachPermutation [LinearOrder α] (throws : List (List α) → Bool) : Nat → List α → List (List α) → Outcome (Bool × List (List α) × List α)
  | 0, _, _ => diverge
  | fuel + 1, l, shown =>
    if throws (shown ++ [l]) then ok (false, shown ++ [l], l)
    else match Permute.nextPerm l with
    | some l' => forEachPermutation throws fuel l' (shown ++ [l])
    | none => ok (true, shown ++ [l], l.reverse)

end Strtk.Throwing
