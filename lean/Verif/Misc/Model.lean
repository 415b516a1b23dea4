import Verif.Mem
import Mathlib.Order.Defs.LinearOrder

/-!
# Model of the small range utilities (strtk.hpp 4199-4382, 23884-24010)
-/

namespace Strtk.Misc
open Outcome

variable {α : Type}

/-! ## lexicographically_canonicalize (4250-4321) -/

section Canonical
variable [LinearOrder α]

/-- `std::min_element` followed by the dereference on 4258: the first smallest element; the end iterator of an empty range. -/
def minElement (s : List α) : Outcome α :=
  match s with
  | [] => ub
  | a :: t => ok (t.foldl (fun m x => if x < m then x else m) a)

/-- Loop 4260-4263: the positions holding `smallest`, as pairs of equal iterators. -/
def collect (smallest : α) : List α → Nat → List (Nat × Nat)
  | [], _ => []
  | a :: t, i => if a = smallest then (i, i) :: collect smallest t (i + 1) else collect smallest t (i + 1)

/-- Loop 4268-4275: advance every first iterator, drop those that reach the end `n`. -/
def advanceAll (n : Nat) : List (Nat × Nat) → List (Nat × Nat)
  | [] => []
  | p :: ps => if n = p.1 + 1 then advanceAll n ps else (p.1 + 1, p.2) :: advanceAll n ps

/-- Loop 4279-4285. -/
def smallestOf (s : List α) : α → List (Nat × Nat) → Outcome α
  | m, [] => ok m
  | m, p :: ps => do
    let x ← deref s p.1
    if x < m then smallestOf s x ps else smallestOf s m ps

/-- Loop 4288-4294: drop the candidates whose current element is not the smallest. -/
def keepSmallest (s : List α) (m : α) : List (Nat × Nat) → Outcome (List (Nat × Nat))
  | [] => ok []
  | p :: ps => do
    let x ← deref s p.1
    let rest ← keepSmallest s m ps
    if x ≠ m then ok rest else ok (p :: rest)

/-- Loop 4297-4303: drop the candidates that are at the end. -/
def dropEnded (n : Nat) (ps : List (Nat × Nat)) : List (Nat × Nat) := ps.filter (fun p => n ≠ p.1)

/-- Loop 4265-4304. `*itr_list.begin()` of an empty list is undefined. -/
def refine (s : List α) : Nat → List (Nat × Nat) → Outcome (List (Nat × Nat))
  | 0, _ => diverge
  | fuel + 1, ps =>
    if ps.length > 1 then do
      let ps := advanceAll s.length ps
      let p ← deref ps 0
      let m ← deref s p.1
      let m ← smallestOf s m (ps.drop 1)
      let ps ← keepSmallest s m ps
      refine s fuel (dropEnded s.length ps)
    else ok ps

/-- `lexicographically_canonicalize` (4250-4321): the range afterwards; `std::rotate` brings position `second` to the front. -/
def canonicalize (s : List α) : Outcome (List α) := do
  let smallest ← minElement s
  let ps ← refine s (s.length + 1) (collect smallest s 0)
  let p ← deref ps 0
  ok (s.drop p.2 ++ s.take p.2)

/-! ## min_max_of_range (4199-4248) -/

/-- Loop 4207-4213. -/
def minMaxLoop : List α → α → α → α × α
  | [], mn, mx => (mn, mx)
  | x :: t, mn, mx => if x < mn then minMaxLoop t x mx else if mx < x then minMaxLoop t mn x else minMaxLoop t mn mx

/-- `min_max_of_range`, `min_max_of_cont` for sequences (4199-4226): smallest and greatest. -/
def minMax (s : List α) : Outcome (α × α) :=
  match s with
  | [] => ub
  | a :: t => ok (minMaxLoop t a a)

end Canonical

/-! ## first_non_repeated_char (4323-4382) -/

abbrev Byte := BitVec 8

/-- `not_yet_encountered` (4330). -/
def notYet : Nat := 2 ^ 64 - 1
/-- `repeated` (4331). -/
def repeated : Nat := notYet - 1

/-- `static_cast<unsigned int>(*itr)` for a (signed) `char` (4338). -/
def lutIndex (c : Byte) : Nat := if c.toNat < 128 then c.toNat else 2 ^ 32 - (256 - c.toNat)

/-- One table update (4340-4347). -/
def lutStep (lut : List Nat) (i position element : Nat) : Outcome (List Nat) :=
  if notYet = element then store lut i position
  else if element < repeated then store lut i repeated
  else ok lut

/-- Loop 4336-4350. -/
def lutLoop : List Byte → Nat → List Nat → Outcome (List Nat)
  | [], _, lut => ok lut
  | c :: t, position, lut => do
    let element ← deref lut (lutIndex c)
    let lut ← lutStep lut (lutIndex c) position element
    lutLoop t ((position + 1) % 2 ^ 64) lut

/-- Loop 4354-4358. -/
def lutMin : List Nat → Nat → Nat
  | [], position => position
  | e :: t, position => if e < position then lutMin t e else lutMin t position

/-- `first_non_repeated_char(begin, end)` (4323-4369): the offset of the result, the length for `end`. -/
def firstNonRepeated (s : List Byte) : Outcome Nat := do
  let lut ← lutLoop s 0 (List.replicate 256 notYet)
  let position := lutMin lut repeated
  ok (if repeated ≠ position then position else s.length)

/-- `first_non_repeated_char(str)` (4371-4382); `none` is `npos`. -/
def firstNonRepeatedStr (s : List Byte) : Outcome (Option Nat) :=
  if s = [] then ok none else do
    let i ← firstNonRepeated s
    ok (if s.length ≠ i then some i else none)

/-! ## Arrays (23884-23945) -/

/-- `make_string(array, length)` (23884-23902). -/
def makeString (a : List Byte) (length : Nat) : Outcome (List Byte) := if a.length < length then ok [] else Mem.slice a 0 length

/-- `std::fill_n` on an array. -/
def fillN (a : List α) (pos n : Nat) (v : α) : Outcome (List α) := Mem.copyTo a pos (List.replicate n v)

/-- `clear_array(a, t, length)` (23909-23917). -/
def clearArray (a : List α) (v : α) (length : Nat) : Outcome (Bool × List α) :=
  if a.length < length then ok (false, a) else do
    let a ← fillN a 0 length v
    ok (true, a)

/-- `set_array(a, s, pad, padding)` with a string (23919-23931). -/
def setArrayStr (a s : List Byte) (pad : Bool) (padding : Byte) : Outcome (Bool × List Byte) :=
  if a.length < s.length then ok (false, a) else do
    let a ← Mem.copyTo a 0 s
    if s.length < a.length ∧ pad then do
      let a ← fillN a s.length (a.length - s.length) padding
      ok (true, a)
    else ok (true, a)

/-- `set_array(dest, src, pad, padding)` with an array (23933-23945): 23941 copies `N` (the size of `dest`) elements of `src`. -/
def setArrayArr (dest src : List Byte) (pad : Bool) (padding : Byte) : Outcome (Bool × List Byte) :=
  if dest.length < src.length then ok (false, dest) else do
    let v ← Mem.slice src 0 dest.length
    let dest ← Mem.copyTo dest 0 v
    if src.length < dest.length ∧ pad then do
      let dest ← fillN dest src.length (dest.length - src.length) padding
      ok (true, dest)
    else ok (true, dest)

end Strtk.Misc
