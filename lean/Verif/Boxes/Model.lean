import Verif.Outcome
import Mathlib.Order.Defs.LinearOrder
import Mathlib.Data.List.Sort

/-!
# Model of the container helpers (strtk.hpp 872-880, 21335-21624, 21626-21954)

A `std::map` is the list of its entries in order, keys strictly increasing; a `std::multimap` likewise with keys not decreasing; a `std::set`
the strictly increasing list of its elements, a `std::multiset` the non-decreasing one. Pointers are numbers, 0 is null; the heap maps the addresses
that live to their objects.
-/

namespace Strtk.Boxes
open Outcome

variable {K T V : Type}

/-! ## Keys and values -/

/-- `make_key_list_impl` (21337-21356) with an appending output iterator. -/
def keyLoop : List (K × T) → List K → List K
  | [], out => out
  | e :: rest, out => keyLoop rest (out ++ [e.1])

/-- `make_key_list` for sequences (21381-21398). -/
def makeKeyList (map : List (K × T)) (seq : List K) : List K := if map = [] then seq else keyLoop map seq

/-- `std::set::insert`. -/
def setInsert [LinearOrder K] (x : K) : List K → List K
  | [] => [x]
  | a :: l => if x < a then x :: a :: l else if a < x then a :: setInsert x l else a :: l

/-- `std::multiset::insert`: behind the equal elements. -/
def multisetInsert [LinearOrder K] (x : K) : List K → List K
  | [] => [x]
  | a :: l => if x < a then x :: a :: l else a :: multisetInsert x l

/-- `make_key_list` for sets (21359-21368): through `std::inserter`. -/
def keySetLoop [LinearOrder K] : List (K × T) → List K → List K
  | [], set => set
  | e :: rest, set => keySetLoop rest (setInsert e.1 set)

/-- `make_key_list` for multisets (21370-21379). -/
def keyMultisetLoop [LinearOrder K] : List (K × T) → List K → List K
  | [], set => set
  | e :: rest, set => keyMultisetLoop rest (multisetInsert e.1 set)

/-- The loop of `make_value_list` (21413-21416), entries from `itr` on. -/
def valueLoop [DecidableEq K] (key : K) : List (K × T) → List T → List T
  | [], out => out
  | e :: rest, out => if key = e.1 then valueLoop key rest (out ++ [e.2]) else out

/-- `make_value_list` (21400-21417): `found` is the offset of the entry `multimap::find` returns (the end if there is none). The standard lets it
be any entry with that key. -/
def makeValueList [DecidableEq K] (map : List (K × T)) (key : K) (found : Nat) (out : List T) : List T :=
  if map = [] then out else valueLoop key (map.drop found) out

/-! ## Deleting -/

/-- The heap. -/
abbrev Heap (V : Type) := Nat → Option V

/-- `delete p`: null is ignored, a pointer to no living object is undefined. -/
def delete (h : Heap V) (p : Nat) : Outcome (Heap V) :=
  if p = 0 then ok h
  else match h p with
    | some _ => ok fun q => if q = p then none else h q
    | none => ub

/-- The loop of `delete_all` (21440-21444; maps: 21458-21462; sets: 21493-21497). -/
def deleteLoop : List Nat → Heap V → Outcome (Heap V)
  | [], h => ok h
  | p :: ps, h => do
    let h ← delete h p
    deleteLoop ps h

/-- `delete_all` (21432-21447): the heap and the container afterwards. -/
def deleteAll (seq : List Nat) (h : Heap V) : Outcome (Heap V × List Nat) := do
  let h ← deleteLoop seq h
  ok (h, [])

/-- Following a pointer. -/
def follow (h : Heap V) (p : Nat) : Outcome V :=
  match h p with
  | some v => ok v
  | none => ub

/-- `delete_if` (21519-21538) from the offset `itr`; the predicate looks at the object the pointer leads to (simplification: it has no
other inputs). Fuel: the number of elements not visited. -/
def deleteIfLoop (p : V → Bool) : Nat → List Nat → Nat → Heap V → Outcome (Heap V × List Nat)
  | 0, _, _, _ => diverge
  | fuel + 1, seq, itr, h =>
    if seq.length ≠ itr then do
      let q ← deref seq itr
      let v ← follow h q
      if p v then do
        let h ← delete h q
        deleteIfLoop p fuel (seq.eraseIdx itr) itr h
      else deleteIfLoop p fuel seq (itr + 1) h
    else ok (h, seq)

/-- `delete_if`. -/
def deleteIf (p : V → Bool) (seq : List Nat) (h : Heap V) : Outcome (Heap V × List Nat) := deleteIfLoop p (seq.length + 1) seq 0 h

/-! ## `extract_unique` -/

/-- `std::unique_copy` behind the last element put out. -/
def uniqueCopy [DecidableEq K] : K → List K → List K
  | _, [] => []
  | last, a :: l => if last = a then uniqueCopy last l else a :: uniqueCopy a l

/-- `extract_unique` (872-880). `std::sort` is `List.insertionSort` (the sorted list of a total
order does not depend on the algorithm). -/
def extractUnique [LinearOrder K] (s : List K) : List K :=
  match s.insertionSort (· ≤ ·) with
  | [] => []
  | a :: l => a :: uniqueCopy a l

end Strtk.Boxes
