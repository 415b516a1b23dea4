import Verif.Outcome
import Verif.Codec.Model

/-!
# Model of join, join_if, replicate, bracketize, inserter, iota, cut and translation tables (strtk.hpp 11101-11830)

`txt` is `type_to_string` of an element.  `reserve` calls have no observable effect and are left out.
-/

namespace Strtk.Join
open Outcome Strtk.Codec

variable {α : Type}

/-- `join(output, delimiter, begin, end)` (11102-11116) and the overloads that do the same. -/
def join {β : Type} (txt : β → List α) (delim : List α) : List α → List β → List α
  | out, [] => out
  | out, a :: t =>
    let out := out ++ txt a
    match t with
    | [] => out
    | b :: t => join txt delim (out ++ delim) (b :: t)

/-- `join(output, delimiter, argc, argv)` (11164-11174); `i` is the index of the head. -/
def joinArgv (delim : List α) (argc : Nat) : Nat → List α → List (List α) → List α
  | _, out, [] => out
  | i, out, a :: t =>
    let out := out ++ a
    joinArgv delim argc (i + 1) (if i + 1 < argc then out ++ delim else out) t

/-- `join_if(output, delimiter, predicate, begin, end)` (11249-11273). -/
def joinIf {β : Type} (txt : β → List α) (p : β → Bool) (delim : List α) : List α → Bool → List β → List α
  | out, _, [] => out
  | out, first, a :: t =>
    if p a then
      let out := if !first then out ++ delim else out
      let out := out ++ txt a
      match t with
      | [] => out
      | b :: t => joinIf txt p delim out false (b :: t)
    else
      match t with
      | [] => out
      | b :: t => joinIf txt p delim out first (b :: t)

/-- Loops 11436-11439 and 11456-11459. -/
def appendLoop (s : List α) : Nat → List α → List α
  | 0, out => out
  | n + 1, out => appendLoop s n (out ++ s)

/-- `replicate(n, str, output)` (11430-11440). -/
def replicate (n : Nat) (s out : List α) : List α := if n = 0 then out else appendLoop s n out

/-- `replicate_inplace(n, str)` (11450-11460). -/
def replicateInplace (n : Nat) (s : List α) : List α := appendLoop s n s

/-- `bracketize(output, pre, post, begin, end)` (11463-11482). -/
def bracketize {β : Type} (txt : β → List α) (pre post : List α) : List α → List β → List α
  | out, [] => out
  | out, a :: t => bracketize txt pre post (out ++ (pre ++ txt a ++ post)) t

/-- `interval_inserter::operator()(const type&)` (11578-11587): new count and answer; `count_` is a 64-bit counter. -/
def intervalStep (interval : BitVec 64) (count : BitVec 64) : BitVec 64 × Bool :=
  if count + 1 = interval then (0, true) else (count + 1, false)

/-- `inserter(interval_inserter(interval,t), begin, end, out)` (11604-11627): what is written and the count returned. -/
def inserter (interval : BitVec 64) (x : α) : BitVec 64 → List α → Nat → List α → List α × Nat
  | _, out, size, [] => (out, size)
  | count, out, size, a :: t =>
    let (count, hit) := intervalStep interval count
    if hit then inserter interval x count (out ++ [a, x]) (size + 2) t
    else inserter interval x count (out ++ [a]) (size + 1) t

/-- `iota(begin, end, value)` (11630-11639) and the counting overloads (11650-11692), over a type of `w` bits. -/
def iota {w : Nat} : Nat → BitVec w → List (BitVec w)
  | 0, _ => []
  | n + 1, v => v :: iota n (v + 1)

/-- `s.substr(pos, n)` for `pos <= s.size()` (otherwise it throws). -/
def substr (s : List α) (pos n : Nat) : Outcome (List α) := if pos ≤ s.length then ok ((s.drop pos).take n) else thrown

/-- `std::min(r1,s.size()) - r0` on 64-bit sizes (11733, 11757). -/
def cutLen (r0 r1 size : Nat) : Nat := (min r1 size + (2 ^ 64 - r0)) % 2 ^ 64

/-- `cut(r0, r1, begin, end, out)` (11719-11735). -/
def cut (r0 r1 : Nat) : List (List α) → Outcome (List (List α))
  | [] => ok []
  | s :: t =>
    if s.length < r0 then cut r0 r1 t
    else do
      let w ← substr s r0 (cutLen r0 r1 s.length)
      let rest ← cut r0 r1 t
      ok (w :: rest)

/-- `cut_inplace(r0, r1, begin, end)` (11748-11762). -/
def cutInplace (r0 r1 : Nat) : List (List α) → Outcome (List (List α))
  | [] => ok []
  | s :: t =>
    if s.length ≥ r0 then do
      let w ← substr s r0 (cutLen r0 r1 s.length)
      let rest ← cutInplace r0 r1 t
      ok (w :: rest)
    else do
      let rest ← cutInplace r0 r1 t
      ok (s :: rest)

/-- `static_cast<unsigned int>(c)` of a (signed) `char` (11801, 11807). -/
def charIndex (c : Byte) : Nat := (c.signExtend 32).toNat

/-- Loop 11799-11802 of the `translation_table` constructor. -/
def tableLoop : List Byte → List Byte → List Byte → Outcome (List Byte)
  | [], _, table => ok table
  | _ :: _, [], _ => ub
  | i :: is, o :: os, table => do
    let table ← store table (charIndex i) o
    tableLoop is os table

/-- `translation_table(itable, otable)` (11790-11803). -/
def translationTable (itable otable : List Byte) : Outcome (List Byte) :=
  if itable.length ≠ otable.length then thrown else tableLoop itable otable (iota 256 0)

/-- `translate` (11820-11825) and `translate_inplace` (11827-11830). -/
def translate (table : List Byte) : List Byte → Outcome (List Byte)
  | [] => ok []
  | c :: t => do
    let v ← deref table (charIndex c)
    let rest ← translate table t
    ok (v :: rest)

end Strtk.Join
