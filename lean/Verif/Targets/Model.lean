import Verif.Boxes.Model
import Verif.Parse.Model
import Verif.Lines.Model
import Verif.FileIO.Model

/-!
# Model of the standard containers as targets (strtk.hpp 451-657, 1617-1664, 5966-6162, 8623-9056, 9495-9689, 18768-18826, 21626-21986)

A container is the list of its elements; for a queue and a stack in the order in which they were pushed, for a set and a multiset in their
order, for a priority queue in any order (it only tells its greatest element).  Comparators are represented by the linear order of the type.
-/

namespace Strtk.Targets
open Outcome Strtk.Parse Strtk.Split Strtk.Codec

variable {V : Type}

/-- The kinds of containers that can be filled: `std::vector`, `std::deque` and `std::list` are sequences. -/
inductive Kind
  | sequence | set | multiset | queue | stack | priorityQueue
  deriving DecidableEq

/-- `push_back`, `insert` or `push` of the container (466-467, 488-489, 510-511, 530-531, 550-551, 572-573; 8886, 8913, 8939, 8965). -/
def Kind.push [LinearOrder V] : Kind → List V → V → List V
  | .set, c, v => Boxes.setInsert v c
  | .multiset, c, v => Boxes.multisetInsert v c
  | _, c, v => c ++ [v]

/-- A greatest element (`std::priority_queue::top`). -/
def greatest [LinearOrder V] : List V → Option V
  | [] => none
  | a :: l => match greatest l with
    | none => some a
    | some b => if a < b then some b else some a

/-- What the program sees next and what is left: iteration from the front for sequences and sets, `front`/`pop` for a queue, `top`/`pop` for a stack
and a priority queue. -/
def Kind.next [LinearOrder V] : Kind → List V → Option (V × List V)
  | .stack, c => match c.getLast? with
    | none => none
    | some v => some (v, c.dropLast)
  | .priorityQueue, c => match greatest c with
    | none => none
    | some v => some (v, c.erase v)
  | _, c => match c with
    | [] => none
    | v :: c => some (v, c)

/-- Taking out everything. -/
def drainLoop [LinearOrder V] (k : Kind) : Nat → List V → List V
  | 0, _ => []
  | fuel + 1, c => match k.next c with
    | none => []
    | some (v, c) => v :: drainLoop k fuel c

/-- Everything that can be taken out of the container, in order. -/
def Kind.drain [LinearOrder V] (k : Kind) (c : List V) : List V := drainLoop k c.length c

/-- `load_from_text_file(stream, container)` (451-577): the number of lines, or `none` for the exception `std::invalid_argument` of
`string_to_type_converter` (387-400), with the container as it is afterwards. -/
def loadLoop [LinearOrder V] (k : Kind) (conv : List UInt8 → Option V) : Nat → List UInt8 → List V → Nat → Outcome (Option Nat × List V)
  | 0, _, _, _ => diverge
  | fuel + 1, text, c, count => match Lines.getline text with
    | none => ok (some count, c)
    | some (line, text) => match conv line with
      | none => ok (none, c)
      | some v => loadLoop k conv fuel text (k.push c v) (count + 1)

/-- `load_from_text_file(file_name, container)` (579-657) for a file with this text; no file: 0. -/
def load [LinearOrder V] (k : Kind) (conv : List UInt8 → Option V) (file : Option (List UInt8)) (c : List V) : Outcome (Option Nat × List V) :=
  match file with
  | none => ok (some 0, c)
  | some text => loadLoop k conv (text.length + 1) text c 0

/-- The loops of `parse(range, container)` of a row (5980-5988, 6006-6014, 6032-6040, 6056-6064, 6080-6088, 6106-6114). -/
def rowLoop [LinearOrder V] {T : Type} (k : Kind) (conv : T → Option V) : List T → List V → Bool × List V
  | [], c => (true, c)
  | t :: ts, c => match conv t with
    | some v => rowLoop k conv ts (k.push c v)
    | none => (false, c)

/-- `validate_column_range` (5948-5956) and `parse(range, container)` of a row (5966-6117); `parse(container)` (6119-6161) passes the whole row. -/
def rowParse [LinearOrder V] {T : Type} (k : Kind) (conv : T → Option V) (row : List T) (a b : Nat) (c : List V) : Bool × List V :=
  if a > row.length ∨ b > row.length then (false, c)
  else if a > b then (false, c)
  else rowLoop k conv ((row.drop a).take (b - a)) c

/-- `read_pod(stream, count, set)` and its siblings (18768-18826): `dec` gives the value of an object with these bytes, `t` are the bytes of the
uninitialised local. -/
def readPods [LinearOrder V] {N : Type} (k : Kind) (dec : List UInt8 → V) (fs : FileIO.FS N) (s : FileIO.IStream N) (t : List UInt8) :
    Nat → List V → Outcome (Bool × List V × FileIO.IStream N)
  | 0, c => ok (true, c, s)
  | count + 1, c => do
    let (r, t, s) ← FileIO.readPod fs s t
    if r then readPods k dec fs s t count (k.push c (dec t)) else ok (false, c, s)

/-- `util::push_back(container, v1, ..., vn)` (21626-21954): up to eleven values for sequences, up to ten for sets and multisets. -/
def pushBack [LinearOrder V] (k : Kind) : List V → List V → List V
  | c, [] => c
  | c, v :: vs => pushBack k (k.push c v) vs

/-- `util::clear(container)` (21956-21986): swapped with an empty one, which is destroyed. -/
def clear (c : List V) : List V :=
  let null : List V := []
  let (c, _null) := (null, c)
  c

/-- `std::remove_if` and `erase` (1619-1624), `std::list::remove_if` (1626-1631): the elements that are not empty, in order. -/
def removeEmpty : List (List UInt8) → List (List UInt8)
  | [] => []
  | s :: l => if s = [] then removeEmpty l else s :: removeEmpty l

/-- The loops for sets and multisets (1640-1646, 1656-1662): `before` has been passed, `rest` starts at `itr`; `erase(itr++)` erases the element that
`itr` has already left. -/
def removeEmptyLoop : List (List UInt8) → List (List UInt8) → List (List UInt8)
  | before, [] => before
  | before, s :: rest => if s = [] then removeEmptyLoop before rest else removeEmptyLoop (before ++ [s]) rest

end Strtk.Targets
