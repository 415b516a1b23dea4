import Verif.Mem

/-!
# Model of the string editing functions (strtk.hpp 807-899, 1194-1875)

The buffer is a list, iterators are offsets, writes are checked (`Outcome.store`, `Mem.copyTo`).  Predicates are pure functions.
-/

namespace Strtk.Strings
open Outcome Mem

variable {α : Type}

/-! ## remove_inplace -/

/-- Loop of `remove_inplace(pred, begin, end)` (1202-1218): returns the buffer and the removal count. -/
def removeLoop (p : α → Bool) : Nat → List α → Nat → Nat → Nat → Outcome (List α × Nat)
  | 0, _, _, _, _ => diverge
  | fuel + 1, buf, i1, i2, count =>
    if buf.length ≠ i1 then do
      let c ← deref buf i1
      if p c then removeLoop p fuel buf (i1 + 1) i2 (count + 1)
      else do
        let buf ← (if i1 ≠ i2 then store buf i2 c else ok buf)
        removeLoop p fuel buf (i1 + 1) (i2 + 1) count
    else ok (buf, count)

/-- `remove_inplace(predicate, begin, end)` (1195-1221). -/
def removeInplaceRange (p : α → Bool) (s : List α) : Outcome (List α × Nat) := removeLoop p (s.length + 1) s 0 0 0

/-- `remove_inplace(predicate, sequence)` and the `std::string` overloads (1233-1261): compact, then resize. -/
def removeInplace [Inhabited α] (p : α → Bool) (s : List α) : Outcome (List α × Nat) := do
  let (buf, count) ← removeInplaceRange p s
  ok (resize default buf (buf.length - count), count)

/-! ## remove_consecutives_inplace -/

/-- First inner loop of `remove_consecutives_inplace` (1277-1286): copy while not inside a run; `keep prev c` is the loop condition. -/
def consCopy (keep : α → α → Bool) : Nat → List α → Nat → Nat → α → Outcome (List α × Nat × Nat × α)
  | 0, _, _, _, _ => diverge
  | fuel + 1, buf, i1, i2, prev =>
    if buf.length ≠ i1 then do
      let c ← deref buf i1
      if keep prev c then do
        let buf ← (if i1 ≠ i2 then store buf i2 c else ok buf)
        consCopy keep fuel buf (i1 + 1) (i2 + 1) c
      else ok (buf, i1, i2, prev)
    else ok (buf, i1, i2, prev)

/-- Second inner loop (1288-1292, 1397-1401): skip while `skip prev c`. -/
def consSkip (skip : α → α → Bool) (prev : α) : Nat → List α → Nat → Nat → Outcome (Nat × Nat)
  | 0, _, _, _ => diverge
  | fuel + 1, buf, i1, count =>
    if buf.length ≠ i1 then do
      let c ← deref buf i1
      if skip prev c then consSkip skip prev fuel buf (i1 + 1) (count + 1) else ok (i1, count)
    else ok (i1, count)

/-- Outer loop (1275-1293, 1384-1402). -/
def consLoop (keep skip : α → α → Bool) : Nat → List α → Nat → Nat → α → Nat → Outcome (List α × Nat)
  | 0, _, _, _, _, _ => diverge
  | fuel + 1, buf, i1, i2, prev, count =>
    if buf.length ≠ i1 then do
      let (buf, i1, i2, prev) ← consCopy keep (buf.length + 1) buf i1 i2 prev
      let (i1, count) ← consSkip skip prev (buf.length + 1) buf i1 count
      consLoop keep skip fuel buf i1 i2 prev count
    else ok (buf, count)

/-- The common frame of both overloads (1268-1274, 1377-1382). -/
def consRange (keep skip : α → α → Bool) (s : List α) : Outcome (List α × Nat) :=
  if s.length = 0 then ok (s, 0)
  else do
    let prev ← deref s 0
    consLoop keep skip (s.length + 1) s 1 1 prev 0

/-- `remove_consecutives_inplace(predicate, s)` (1264-1296 with the resize of 1362-1372). -/
def removeConsecutivesPred [Inhabited α] (p : α → Bool) (s : List α) : Outcome (List α) := do
  let (buf, count) ← consRange (fun prev c => !p c || !p prev) (fun _ c => p c) s
  ok (resize default buf (buf.length - count))

/-- `remove_consecutives_inplace(s)` (1375-1405 with the resize of 1416-1431). -/
def removeConsecutives [Inhabited α] [DecidableEq α] (s : List α) : Outcome (List α) := do
  let (buf, count) ← consRange (fun prev c => decide (prev ≠ c)) (fun prev c => decide (prev = c)) s
  ok (resize default buf (buf.length - count))

/-! ## remove_duplicates -/

/-- `static_cast<std::size_t>(c)` for a (signed) `char`, 64-bit. -/
def charIndex (c : BitVec 8) : Nat := (c.signExtend 64).toNat

/-- Loop of `remove_duplicates` (1439-1447). -/
def removeDupLoop : List (BitVec 8) → List Bool → List (BitVec 8) → Outcome (List (BitVec 8))
  | [], _, result => ok result
  | c :: t, table, result => do
    let seen ← deref table (charIndex c)
    if seen = false then do
      let table ← store table (charIndex c) true
      removeDupLoop t table (result ++ [c])
    else removeDupLoop t table result

/-- `remove_duplicates(str)` (1433-1449): a table of 0xFF flags indexed by the character. -/
def removeDuplicates (s : List (BitVec 8)) : Outcome (List (BitVec 8)) := removeDupLoop s (List.replicate 0xFF false) []

/-! ## Trimming -/

/-- Loop of `remove_trailing` (1468-1472): `itr` walks down to the beginning. -/
def trailLoop (p : α → Bool) (s : List α) : Nat → Nat → Nat → Outcome Nat
  | 0, _, _ => diverge
  | fuel + 1, itr, count =>
    if itr ≠ 0 then do
      let c ← deref s itr
      if p c then trailLoop p s fuel (itr - 1) (count + 1) else ok count
    else ok count

/-- `remove_trailing(predicate, begin, end)` (1457-1475): number of elements to drop. -/
def removeTrailingRange (p : α → Bool) (s : List α) : Outcome Nat :=
  if s.length = 0 then ok 0 else trailLoop p s (s.length + 1) (s.length - 1) 0

/-- `remove_trailing(predicate, s)` (1483-1531). -/
def removeTrailing [Inhabited α] (p : α → Bool) (s : List α) : Outcome (List α) := do
  let count ← removeTrailingRange p s
  ok (if count > 0 then resize default s (s.length - count) else s)

/-- Loop of `remove_leading` (1545-1549). -/
def leadLoop (p : α → Bool) (s : List α) : Nat → Nat → Nat → Outcome (Nat × Nat)
  | 0, _, _ => diverge
  | fuel + 1, itr, count =>
    if s.length ≠ itr then do
      let c ← deref s itr
      if p c then leadLoop p s fuel (itr + 1) (count + 1) else ok (itr, count)
    else ok (itr, count)

/-- `remove_leading(predicate, begin, end)` (1534-1553); `std::copy` to an earlier position is well defined, to the same position (nothing to
remove) it is taken to leave the elements as they are. -/
def removeLeadingRange (p : α → Bool) (s : List α) : Outcome (List α × Nat) :=
  if s.length = 0 then ok (s, 0)
  else do
    let (itr, count) ← leadLoop p s (s.length + 1) 0 0
    let src ← slice s itr (s.length - itr)
    let buf ← copyTo s 0 src
    ok (buf, count)

/-- `remove_leading(predicate, s)` (1561-1616). -/
def removeLeading [Inhabited α] (p : α → Bool) (s : List α) : Outcome (List α) := do
  let (buf, count) ← removeLeadingRange p s
  ok (if count > 0 then resize default buf (buf.length - count) else buf)

/-- `remove_leading_trailing(rem_chars, s)` (1599-1603). -/
def removeLeadingTrailing [Inhabited α] (p : α → Bool) (s : List α) : Outcome (List α) := do
  let s ← removeLeading p s
  removeTrailing p s

/-! ## replace, copy_if, ... -/

/-- Loop of `replace(c1, c2, begin, end)` (1671-1677). -/
def replaceLoop [DecidableEq α] (c1 c2 : α) : Nat → List α → Nat → Outcome (List α)
  | 0, _, _ => diverge
  | fuel + 1, buf, itr =>
    if buf.length ≠ itr then do
      let c ← deref buf itr
      let buf ← (if c1 = c then store buf itr c2 else ok buf)
      replaceLoop c1 c2 fuel buf (itr + 1)
    else ok buf

/-- `replace(c1, c2, s)` (1666-1687). -/
def replace [DecidableEq α] (c1 c2 : α) (s : List α) : Outcome (List α) := replaceLoop c1 c2 (s.length + 1) s 0

/-- `copy_n` (807-816), output appended. Reading past the end of the source is `ub`. -/
def copyN (s : List α) : Nat → Nat → List α → Outcome (List α)
  | 0, _, out => ok out
  | n + 1, itr, out => do
    let c ← deref s itr
    copyN s n (itr + 1) (out ++ [c])

/-- `copy_if` (821-834), output appended. -/
def copyIf (p : α → Bool) (s : List α) : Nat → Nat → List α → Outcome (List α)
  | 0, _, _ => diverge
  | fuel + 1, itr, out =>
    if s.length ≠ itr then do
      let c ← deref s itr
      copyIf p s fuel (itr + 1) (if p c then out ++ [c] else out)
    else ok out

/-- `copy_while` (839-852); `copy_until` (857-870) is the same loop with the predicate negated. Returns the position reached and the output. -/
def copyWhile (p : α → Bool) (s : List α) : Nat → Nat → List α → Outcome (Nat × List α)
  | 0, _, _ => diverge
  | fuel + 1, itr, out =>
    if s.length ≠ itr then do
      let c ← deref s itr
      if !p c then ok (itr, out) else copyWhile p s fuel (itr + 1) (out ++ [c])
    else ok (s.length, out)

/-- `copy_until` (857-870). -/
def copyUntil (p : α → Bool) (s : List α) : Nat → Nat → List α → Outcome (Nat × List α)
  | 0, _, _ => diverge
  | fuel + 1, itr, out =>
    if s.length ≠ itr then do
      let c ← deref s itr
      if p c then ok (itr, out) else copyUntil p s fuel (itr + 1) (out ++ [c])
    else ok (s.length, out)

/-- `range_only_contains` (883-899). -/
def rangeOnlyContains (p : α → Bool) (s : List α) : Nat → Nat → Outcome Bool
  | 0, _ => diverge
  | fuel + 1, itr =>
    if s.length ≠ itr then do
      let c ← deref s itr
      if !p c then ok false else rangeOnlyContains p s fuel (itr + 1)
    else ok true

/-! ## replace_pattern -/

/-- Search loop (1716-1720): the list of match positions. -/
def deltaLoop [DecidableEq α] (s p : List α) : Nat → Nat → List Nat → Outcome (List Nat)
  | 0, _, _ => diverge
  | fuel + 1, pos, deltas =>
    match find s p pos with
    | some q => deltaLoop s p fuel (q + p.length) (deltas ++ [q])
    | none => ok deltas

/-- `static_cast<int>(size)`: two's complement wrap to 32 bits. -/
def toInt32 (n : Nat) : Int := (BitVec.ofNat 32 n).toInt

/-- Copy loop (1742-1754) over the remaining positions; `prev` is `delta_list[i-1] + p_size` (0 at first), so that
`delta = delta_list[i] - prev`. -/
def patCopy (s : List α) (pSize : Nat) (r : List α) : List Nat → Nat → Nat → Nat → List α → Outcome (Nat × Nat × List α)
  | [], sItr, nItr, _, n => ok (sItr, nItr, n)
  | q :: qs, sItr, nItr, prev, n => do
    let delta := q - prev
    let piece ← slice s sItr delta
    let n ← copyTo n nItr piece
    let sItr := sItr + (pSize + delta)
    let nItr := nItr + delta
    let n ← copyTo n nItr r
    let nItr := nItr + r.length
    patCopy s pSize r qs sItr nItr (q + pSize) n

/-- `replace_pattern(s, p, r, n)` (1695-1760); `n0` is the previous content of `n`, which must not be the same object as `s`, `p` or `r`
(`replacePatternSh` in Shared/Strings is the model without that condition).  The size is computed modulo 2^64 from a signed `inc` as on 1709 and 1728.  `resize` throws if the
size exceeds `max_size`, which is not modelled. -/
def replacePattern [DecidableEq α] [Inhabited α] (s p r n0 : List α) : Outcome (List α) :=
  if p = [] ∨ p = r then ok s
  else do
    let inc := toInt32 r.length - toInt32 p.length
    let deltas ← deltaLoop s p (s.length + 2) 0 []
    if deltas = [] then ok s
    else do
      let size := (deltas.length * (inc % 2 ^ 64).toNat + s.length) % 2 ^ 64
      let n := resize default n0 size
      let (sItr, nItr, n) ← patCopy s p.length r deltas 0 0 0 n
      if s.length ≠ sItr then do
        let piece ← slice s sItr (s.length - sItr)
        copyTo n nItr piece
      else ok n

/-- `remove_pattern(s, p, n)` (1869-1875). -/
def removePattern [DecidableEq α] [Inhabited α] (s p n0 : List α) : Outcome (List α) := replacePattern s p [] n0

end Strtk.Strings
