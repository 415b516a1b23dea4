import Verif.Mem

/-! # Random selection (strtk.hpp 11832-12158)

The generator is an arbitrary infinite sequence of numbers between 0 and 1, each given as a fraction (`Draw`) or as a real number (`Fair.lean`).  The
arithmetic on them is a parameter: exact here, rounded to p bits in `Rounded.lean`.  Mersenne twister and the Boost distributions are not modelled. -/

namespace Strtk.Random
open Outcome Mem

/-- A number `num / den` drawn from the generator. -/
structure Draw where
  num : Nat
  den : Nat

/-- Drawn from [0,1): what the Boost real distribution promises. -/
def Draw.Below (d : Draw) : Prop := d.num < d.den

/-- The two expressions in which the program uses a drawn number: `static_cast<std::size_t>(size * rng())` (11997, 12044, 12117) and
`rng() < (k / n)` (12115, 12147). -/
structure Arith (D : Type := Draw) where
  index : D → Nat → Nat
  less : D → Nat → Nat → Bool

/-- The two expressions (11997, 12115) in exact arithmetic. -/
def exact : Arith where
  index d size := size * d.num / d.den
  less d k n := d.num * n < k * d.den

/-- The loop 12042-12049 (11995-12001 with `count = index.size()`): `index` is the deque of positions left, `i` counts the draws; the elements written
to `out`. -/
def drawLoop {α D : Type} (A : Arith D) (rng : Nat → D) (s : List α) : Nat → Nat → List Nat → Outcome (List α)
  | 0, _, _ => ok []
  | count + 1, i, index => do
    let idx := A.index (rng i) index.length
    let p ← deref index idx
    let x ← deref s p
    let rest ← drawLoop A rng s count (i + 1) (index.eraseIdx idx)
    ok (x :: rest)

/-- `random_permutation(begin, end, rng, out)` (11987-12002); `fits`: the announced range `rng.min()`, `rng.max()` passes the test in 11992. -/
def randomPermutation {α D : Type} (A : Arith D) (fits : Bool) (rng : Nat → D) (s : List α) : Outcome (List α) :=
  if !fits then ok [] else drawLoop A rng s s.length 0 (List.range s.length)

/-- `random_combination(begin, end, set_size, rng, out)` (12033-12051): `none` when it returns false without output. -/
def randomCombination {α D : Type} (A : Arith D) (fits : Bool) (rng : Nat → D) (s : List α) (setSize : Nat) : Outcome (Option (List α)) :=
  if s.length < setSize || !fits then ok none
  else do
    let r ← drawLoop A rng s setSize 0 (List.range s.length)
    ok (some r)

/-- The loop 12113-12122: `n` is the position (from 1) of the element looked at, `i` counts the draws. -/
def reservoirLoop {α D : Type} (A : Arith D) (rng : Nat → D) (k : Nat) : List α → Nat → Nat → List α → Outcome (List α)
  | [], _, _, selection => ok selection
  | x :: rest, n, i, selection =>
    if A.less (rng i) k n then do
      let selection ← store selection (A.index (rng (i + 1)) k) x
      reservoirLoop A rng k rest (n + 1) (i + 2) selection
    else reservoirLoop A rng k rest (n + 1) (i + 1) selection

/-- `select_k_randomly(begin, end, k, out, rng)` (12084-12127): what is written to `out`; the returned count is its length. -/
def selectK {α D : Type} (A : Arith D) (rng : Nat → D) (s : List α) (k : Nat) : Outcome (List α) :=
  let first := s.take k
  if first.length = 0 then ok []
  else if first.length < k then ok first
  else reservoirLoop A rng k (s.drop k) (k + 1) 0 first

/-- The loop 12145-12153; `none` is the uninitialised `selection`. -/
def selectOneLoop {α D : Type} (A : Arith D) (rng : Nat → D) : List α → Nat → Option α → Option α
  | [], _, sel => sel
  | x :: rest, n, sel => selectOneLoop A rng rest (n + 1) (if A.less (rng n) 1 (n + 1) then some x else sel)

/-- `select_1_randomly(begin, end, out, rng)` (12132-12157): reading `selection` while it is uninitialised is undefined. -/
def selectOne {α D : Type} (A : Arith D) (rng : Nat → D) (s : List α) : Outcome (List α) :=
  match s with
  | [] => ok []
  | _ => match selectOneLoop A rng s 0 none with
    | some x => ok [x]
    | none => ub

/-- A write of four bytes through `unsigned int*` at offset `at'` of the buffer; before or behind the buffer it is undefined.  Alignment is not
modelled. -/
def writeWord (buf : List UInt8) (at' : Int) (w : List UInt8) : Outcome (List UInt8) :=
  if 0 ≤ at' ∧ at' + 4 ≤ buf.length then ok (buf.take at'.toNat ++ w ++ buf.drop (at'.toNat + 4)) else ub

/-- The loop 11850-11856: `length` is what is left; `fuel` bounds the rounds. -/
def randomDataLoop (words : Nat → List UInt8) : Nat → List UInt8 → Nat → Nat → Nat → Outcome (List UInt8 × Nat × Nat × Nat)
  | 0, buf, itr, i, length => ok (buf, itr, i, length)
  | fuel + 1, buf, itr, i, length =>
    if length ≥ 4 then do
      let buf ← writeWord buf itr (words i)
      randomDataLoop words fuel buf (itr + 4) (i + 1) (length - 4)
    else ok (buf, itr, i, length)

/-- `generate_random_data(data, length)` (11833-11864): `buf` is the caller's buffer of that length, `words i` the four bytes of the i-th number. -/
def generateRandomData (words : Nat → List UInt8) (buf : List UInt8) : Outcome (List UInt8) := do
  let (buf, itr, i, length) ← randomDataLoop words (buf.length + 1) buf 0 0 buf.length
  if length > 0 then writeWord buf ((itr : Int) - (4 - length)) (words i) else ok buf

end Strtk.Random
