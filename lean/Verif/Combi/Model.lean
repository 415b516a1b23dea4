import Verif.Outcome
import Verif.Mem

/-!
# Model of the combinatorial functions (strtk.hpp 12178-12690)

Iterators into the range are offsets.  `std::rotate`, `std::swap_ranges`, `std::iter_swap` are modelled by their contracts, with checked
bounds.  Values of type `unsigned long long` / `std::size_t` are 64 bits.
-/

namespace Strtk.Combi
open Outcome Mem

variable {α : Type}

/-- `std::rotate(first, middle, last)`. -/
def rotate (s : List α) (first mid last : Nat) : Outcome (List α) :=
  if first ≤ mid ∧ mid ≤ last ∧ last ≤ s.length then
    ok (s.take first ++ (s.drop mid).take (last - mid) ++ (s.drop first).take (mid - first) ++ s.drop last)
  else ub

/-! ## next_combination -/

/-- `while (!(*itr1 < *j)) ++j;` (12196). -/
def seekGreater (lt : α → α → Bool) (s : List α) (x : α) : Nat → Nat → Outcome Nat
  | 0, _ => diverge
  | fuel + 1, j => do
    let y ← deref s j
    if !lt x y then seekGreater lt s x fuel (j + 1) else ok j

/-- `for (itr2 = k; j != last; ++j, ++itr2);` (12199): the final `itr2`. -/
def pace (last : Nat) : Nat → Nat → Nat → Outcome Nat
  | 0, _, _ => diverge
  | fuel + 1, itr2, j => if j ≠ last then pace last fuel (itr2 + 1) (j + 1) else ok itr2

/-- Loop 12191-12203 and the epilogue 12205-12206; `itr1` counts down to 0.  `itr2` stays at the last element until the function returns. -/
def nextLoop (lt : α → α → Bool) (k : Nat) : List α → Nat → Outcome (Bool × List α)
  | s, 0 => do
    let s ← rotate s 0 k s.length
    ok (false, s)
  | s, i + 1 => do
    let x ← deref s i
    let z ← deref s (s.length - 1)
    if lt x z then do
      let j ← seekGreater lt s x (s.length + 1) k
      let s ← swapAt s i j
      let s ← rotate s (i + 1) (j + 1) s.length
      let itr2 ← pace s.length (s.length + 1) k (j + 1)
      let s ← rotate s k itr2 s.length
      ok (true, s)
    else nextLoop lt k s i

/-- `next_combination(first, k, last)` (12178-12207). -/
def nextCombination (lt : α → α → Bool) (k : Nat) (s : List α) : Outcome (Bool × List α) :=
  if s.length = 0 ∨ k = 0 ∨ s.length = k ∨ s.length = 1 then ok (false, s) else nextLoop lt k s k

/-! ## for_each_combination -/

/-- `std::swap_ranges(first1, last1, first2)` element by element: the sequence and the end of the second range. -/
def swapRanges : Nat → List α → Nat → Nat → Outcome (List α × Nat)
  | 0, s, _, f2 => ok (s, f2)
  | n + 1, s, f1, f2 => do
    let s ← swapAt s f1 f2
    swapRanges n s (f1 + 1) (f2 + 1)

/-- `while (first2 != last2) swap(*--i1,*--last2);` (12262-12265). -/
def swapBack (f2 : Nat) : Nat → List α → Nat → Nat → Outcome (List α × Nat)
  | 0, _, _, _ => diverge
  | fuel + 1, s, i1, l2 =>
    if f2 ≠ l2 then
      if i1 = 0 ∨ l2 = 0 then ub else do
      let s ← swapAt s (i1 - 1) (l2 - 1)
      swapBack f2 fuel s (i1 - 1) (l2 - 1)
    else ok (s, i1)

/-- `details::rotate_discontinuous` (12249-12269). -/
def rotateDisc (s : List α) (f1 l1 d1 f2 l2 d2 : Nat) : Outcome (List α) :=
  if d1 ≤ d2 then do
    let (s, m) ← swapRanges (l1 - f1) s f1 f2
    rotate s f2 m l2
  else do
    let (s, i1) ← swapBack f2 (s.length + 1) s l1 l2
    rotate s f1 i1 l1

mutual
/-- `details::combine_discontinuous` (12271-12318); `mid` is the end of the part shown to the function, `out` the list of the parts it has been
shown so far.  `d1` is the length of the first range and decreases in the recursion; `last2` is the end of the sequence. -/
def combine (mid : Nat) : Nat → List α → Nat → Nat → Nat → Nat → Nat → List (List α) → Outcome (List α × List (List α))
  | 0, s, _, _, _, _, _, out => ok (s, out ++ [s.take mid])
  | d1 + 1, s, f1, l1, f2, d2, d, out =>
    if d2 = 0 then ok (s, out ++ [s.take mid])
    else do
      let (s, out) ← combineLoop mid d1 d2 s f1 l1 f2 d2 d out
      let out := out ++ [s.take mid]
      if d ≠ 0 then do
        let s ← rotateDisc s f1 l1 (d1 + 1) (f2 + 1) s.length (d2 - 1)
        ok (s, out)
      else do
        let s ← rotateDisc s f1 l1 (d1 + 1) f2 s.length d2
        ok (s, out)
  termination_by d1 => (d1, 0)

/-- The `while (i2 != last2)` loops 12285-12290 (`d1 = 1`: a call instead of the recursion) and 12299-12305; the first argument after `mid` is
`d1 - 1`, the next the number of rounds left. -/
def combineLoop (mid d1 : Nat) : Nat → List α → Nat → Nat → Nat → Nat → Nat → List (List α) → Outcome (List α × List (List α))
  | 0, s, _, _, _, _, _, out => ok (s, out)
  | n + 1, s, f1, l1, i2, d22, d, out => do
    let (s, out) ← (if d1 = 0 then ok (s, out ++ [s.take mid]) else combine mid d1 s (f1 + 1) l1 i2 d22 (d + 1) out)
    let s ← swapAt s f1 i2
    combineLoop mid d1 n s f1 l1 (i2 + 1) (d22 - 1) d out
  termination_by n => (d1, n + 1)
end

/-- `for_each_combination(begin, end, size, function)` (12423-12437): the range afterwards and the parts shown to the function, which is assumed
not to modify them. -/
def forEachCombination (s : List α) (size : Nat) : Outcome (List α × List (List α)) :=
  if size > s.length then ok (s, []) else combine size size s 0 size size (s.length - size) 0 []

/-! ## n_choose_k -/

/-- 64-bit unsigned values. -/
abbrev U64 := BitVec 64

/-- `n_choose_k_impl::lookup` (12476-12480): the index; `dim` is `dimension_`. -/
def memoIndex (dim n k : Nat) : Nat := dim * n + min k (n - k)

/-- `n_choose_k_impl::compute` (12482-12499).  `n` and `k` do not wrap: `0 < k < n` at the recursive calls.  The case `n = 0 < k` is not
reached. -/
def compute (dim : Nat) : Nat → Nat → List U64 → Outcome (U64 × List U64)
  | 0, k, t => if k = 0 then ok (1, t) else ub
  | n + 1, k, t =>
    if k = 0 ∨ k = n + 1 then ok (1, t)
    else do
      let v1 ← deref t (memoIndex dim n (k - 1))
      let (v1, t) ← (if v1 = 0 then do
          let (v, t) ← compute dim n (k - 1) t
          let t ← store t (memoIndex dim n (k - 1)) v
          ok (v, t)
        else ok (v1, t))
      let v2 ← deref t (memoIndex dim n k)
      let (v2, t) ← (if v2 = 0 then do
          let (v, t) ← compute dim n k t
          let t ← store t (memoIndex dim n k) v
          ok (v, t)
        else ok (v2, t))
      ok (v1 + v2, t)

/-- `n_choose_k(n, k)` (12457-12543) with the static table (5000 entries, zero at program start) as state: result and new static table.
`static_table_initialized` is left out: clearing an all-zero table on the first call changes nothing, because no earlier call has written to
it (calls with n > 100 use their own table).  The allocation of a table for n > 100 is assumed to succeed. -/
def nChooseK (static : List U64) (n k : Nat) : Outcome (U64 × List U64) :=
  if n < k then ok (0, static)
  else if n = 0 then ok (0, static)
  else if k = 0 then ok (1, static)
  else if n = k then ok (1, static)
  else if k = 1 then ok (BitVec.ofNat 64 n, static)
  else
    let tableSize := (n * (n / 2) + (n &&& 1)) % 2 ^ 64
    if tableSize ≤ 5000 then compute (100 / 2) n k static
    else do
      let (r, _) ← compute (n / 2) n k (List.replicate tableSize 0)
      ok (r, static)

/-! ## nth_combination_sequence -/

/-- The `do ... while (n > x)` loop 12582-12588: new index, `j`, `x` and static table. -/
def advanceIndex (r k i n : Nat) : Nat → Nat → U64 → List U64 → Outcome (Nat × U64 × U64 × List U64)
  | 0, _, _, _ => diverge
  | fuel + 1, idx, x, static => do
    let idx := idx + 1
    let (j, static) ← nChooseK static ((r + (2 ^ 64 - idx)) % 2 ^ 64) (k - i)
    let x := x + j
    if n > x.toNat then advanceIndex r k i n fuel idx x static else ok (idx, j, x, static)

/-- Loop 12573-12591: `i` from 1, `rounds` rounds; `prev` is `index_list[i-2]` (0 at first); returns the indexes, `x` and the static table. -/
def combIndexes (r k n : Nat) : Nat → Nat → Nat → U64 → List U64 → Outcome (List Nat × U64 × List U64)
  | 0, _, _, x, static => ok ([], x, static)
  | rounds + 1, i, prev, x, static => do
    let (idx, j, x, static) ← advanceIndex r k i n (r + 1) prev x static
    let (rest, x, static) ← combIndexes r k n rounds (i + 1) idx (x - j) static
    ok (idx :: rest, x, static)

/-- Loop 12603-12606: `exist_table[index_list[i]] = 1`. -/
def markExisting : List Nat → List Bool → Outcome (List Bool)
  | [], t => ok t
  | i :: is, t => do
    let t ← store t i true
    markExisting is t

/-- `nth_combination_sequence(n, r, k, out, complete_index)` up to the copy of the index list (12558-12597).  For `k < 2` the function reads
`index_list[k - 2]` (or loops over a list of size 0) out of bounds.  All sizes are 64 bits: `index_list[k-1] = index_list[k-2] + n - x`, then every
entry is decremented. -/
def nthCombination (static : List U64) (n r k : Nat) : Outcome (List Nat × List U64) :=
  if k < 2 then ub
  else do
    let n1 := (n + 1) % 2 ^ 64
    let (idxs, x, static) ← combIndexes r k n1 (k - 1) 1 0 0 static
    let prev ← deref idxs (k - 2)
    let last := (prev + n1 + (2 ^ 64 - x.toNat)) % 2 ^ 64
    ok ((idxs ++ [last]).map fun v => (v + (2 ^ 64 - 1)) % 2 ^ 64, static)

/-- What a caller sees (12597-12616): through a `std::back_insert_iterator` the rest follows the combination; with `overwrite` (a plain pointer or
container iterator) `std::copy` does not advance `out` (12597), so the rest is written over the combination. -/
def nthCombinationOut (overwrite complete : Bool) (static : List U64) (n r k : Nat) : Outcome (List Nat × List U64) := do
  let (c, static) ← nthCombination static n r k
  if complete then do
    let exist ← markExisting c (List.replicate r false)
    let rest := (List.range r).filter fun i => exist[i]? == some false
    ok (if overwrite then rest ++ c.drop rest.length else c ++ rest, static)
  else ok (c, static)

/-! ## nth_permutation_sequence -/

/-- Lines 12644-12648: the factorials modulo 2^64. -/
def factorids : Nat → Nat → Nat → List Nat
  | 0, _, _ => []
  | n + 1, i, f => f :: factorids n (i + 1) ((f * (i + 1)) % 2 ^ 64)

/-- Loop 12650-12654: the digits; dividing by zero is undefined. -/
def permDigits (fs : List Nat) (k : Nat) : Nat → Nat → Nat → Outcome (List Nat)
  | 0, _, _ => ok []
  | rounds + 1, i, n => do
    let f ← deref fs (k - i - 1)
    if f = 0 then ub else do
    let rest ← permDigits fs k rounds (i + 1) (n % f)
    ok (n / f :: rest)

/-- Inner loop 12658-12664 for one `i`: `rev` is the list of the entries before it, nearest first. -/
def liftDigit : List Nat → Nat → Nat
  | [], v => v
  | d :: ds, v => liftDigit ds (if d ≤ v then v + 1 else v)

/-- Loops 12656-12665: entries after `i` are finished before `i`, and entry `i` only reads earlier ones, so the order of the outer loop does not
matter; here it runs upwards over the original entries. -/
def liftAll : List Nat → List Nat → List Nat
  | _, [] => []
  | rev, d :: ds => liftDigit rev d :: liftAll (d :: rev) ds

/-- `nth_permutation_sequence(n, k, out)` (12638-12671); `factorid[0] = 1` is out of bounds for `k = 0`; `int j` limits `k` to 2^31. -/
def nthPermutation (n k : Nat) : Outcome (List Nat) :=
  if k = 0 then ub
  else do
    let ds ← permDigits (factorids k 0 1) k k 0 n
    ok (liftAll [] ds)

end Strtk.Combi
