import Verif.Bloom.Tables
import Verif.Binary.Model

/-! # The bloom filter (strtk.hpp 19918-20669)

`std::size_t` and `unsigned long long int` are natural numbers here, hashes and salts are `UInt32`, table cells `UInt8`.  Floating point results
(`false_positive_probability`, the size computed from a percentage) enter as arguments: the theorems hold for every value they can take. -/

namespace Strtk.Bloom
open Outcome Mem

/-! ## The hash function -/

/-- Four bytes as an `unsigned int` (little-endian host, 20530). -/
def u32 (a b c d : UInt8) : UInt32 := a.toUInt32 ||| b.toUInt32 <<< 8 ||| c.toUInt32 <<< 16 ||| d.toUInt32 <<< 24

/-- Two bytes as an `unsigned short`, promoted (20553). -/
def u16 (a b : UInt8) : UInt32 := a.toUInt32 ||| b.toUInt32 <<< 8

/-- The loop over blocks of eight bytes (20528-20535): the hash and the bytes left over. -/
def hashBlocks : UInt32 → List UInt8 → UInt32 × List UInt8
  | h, a :: b :: c :: d :: e :: f :: g :: i :: rest =>
    hashBlocks (h ^^^ ((h <<< 7) ^^^ u32 a b c d * (h >>> 3) ^^^ ~~~((h <<< 11) + (u32 e f g i ^^^ (h >>> 5))))) rest
  | h, rest => (h, rest)

/-- One of the two ways to mix in a block, chosen by `loop & 1` (20542-20545, 20554-20557). -/
def mix (loop : Nat) (i h : UInt32) : UInt32 :=
  if loop % 2 = 1 then h ^^^ ((h <<< 7) ^^^ i * (h >>> 3)) else h ^^^ ~~~((h <<< 11) + (i ^^^ (h >>> 5)))

/-- The block of four bytes (20539-20549). -/
def hash4 : UInt32 → List UInt8 → UInt32 × List UInt8 × Nat
  | h, a :: b :: c :: d :: rest => (mix 0 (u32 a b c d) h, rest, 1)
  | h, rest => (h, rest, 0)

/-- The block of two bytes (20551-20561). -/
def hash2 : UInt32 × List UInt8 × Nat → UInt32 × List UInt8 × Nat
  | (h, a :: b :: rest, loop) => (mix loop (u16 a b) h, rest, loop + 1)
  | (h, rest, loop) => (h, rest, loop)

/-- The last byte (20563-20566). -/
def hash1 : UInt32 × List UInt8 × Nat → UInt32
  | (h, a :: _, loop) => h + ((a.toUInt32 ^^^ (h * 0xA5A5A5A5)) + UInt32.ofNat loop)
  | (h, [], _) => h

/-- `hash_ap` (20523-20570). -/
def hashAp (key : List UInt8) (salt : UInt32) : UInt32 :=
  let (h, rest) := hashBlocks salt key
  hash1 (hash2 (hash4 h rest))

/-! ## Parameters and salts -/

/-- `parameters` with its optimal parameters (19935-20016); floating point values are their bits. -/
structure Params where
  hashes : Nat
  tableSize : Nat
  projected : Nat
  fpp : Nat
  seed : Nat

/-- The end of `compute_optimal_parameters` (20054-20065): `m` is `min_m` truncated to an integer; rounding up to a multiple of eight, then the limits. -/
def optimalTableSize (m minimum maximum : Nat) : Nat :=
  let t := m + (if m % 8 ≠ 0 then 8 - m % 8 else 0)
  if t < minimum then minimum else if t > maximum then maximum else t

/-- The number of hashes (20053, 20057-20060). -/
def optimalHashes (k minimum maximum : Nat) : Nat :=
  if k < minimum then minimum else if k > maximum then maximum else k

/-- The loop that mixes the random seed into the salts (20494-20503), from index `i` on, `n` steps. -/
def mixSalts (seed : UInt32) : Nat → Nat → List UInt32 → Outcome (List UInt32)
  | 0, _, salts => ok salts
  | n + 1, i, salts => do
    let a ← deref salts i
    let b ← deref salts ((i + 3) % salts.length)
    let salts ← store salts i (a * b + seed)
    mixSalts seed n (i + 1) salts

/-- The loop that adds random salts (20510-20519); `rnd j` is the result of the `j`-th call of `rand()` behind `srand`. -/
def moreSalts (rnd : Nat → UInt32) (count : Nat) : Nat → Nat → List UInt32 → Outcome (List UInt32)
  | 0, _, _ => diverge
  | fuel + 1, j, salts =>
    if salts.length < count then
      let c := rnd j * rnd (j + 1)
      if c = 0 then moreSalts rnd count fuel (j + 2) salts
      else if c ∈ salts then moreSalts rnd count fuel (j + 2) salts
      else moreSalts rnd count fuel (j + 2) (salts ++ [c])
    else ok salts

/-- `generate_unique_salt` (20444-20521); `rand s j` is the `j`-th call of `rand()` behind `srand(s)`. -/
def generateSalts (rand : UInt32 → Nat → UInt32) (fuel count seed : Nat) : Outcome (List UInt32) :=
  if count ≤ 128 then mixSalts (UInt32.ofNat seed) (predefSalt.take count).length 0 (predefSalt.take count)
  else moreSalts (rand (UInt32.ofNat seed)) count fuel 0 predefSalt

/-! ## Filters -/

/-- A `filter` (20572-20580) or `compressible_filter`, for which `sizes` is its `size_list` (20666); `none` for a plain filter.  The element count is a
32-bit number. -/
structure Filter where
  salts : List UInt32
  table : List UInt8
  saltCount : Nat
  tableSize : Nat
  rawSize : Nat
  projected : Nat
  inserted : Nat
  seed : Nat
  fpp : Nat
  sizes : Option (List Nat)
deriving DecidableEq

/-- `filter(const parameters&)` (20092-20105). -/
def Filter.new (rand : UInt32 → Nat → UInt32) (fuel : Nat) (p : Params) : Outcome Filter := do
  let seed := (p.seed * 0xA5A5A5A5 + 1) % 2 ^ 64
  let salts ← generateSalts rand fuel p.hashes seed
  ok { salts := salts, table := List.replicate (p.tableSize / 8) 0, saltCount := p.hashes, tableSize := p.tableSize, rawSize := p.tableSize / 8,
       projected := p.projected, inserted := 0, seed := seed, fpp := p.fpp, sizes := none }

/-- `compressible_filter(const parameters&)` (20608-20612). -/
def Filter.newCompressible (rand : UInt32 → Nat → UInt32) (fuel : Nat) (p : Params) : Outcome Filter := do
  let f ← Filter.new rand fuel p
  ok { f with sizes := some [f.tableSize] }

/-- `x % m`: undefined for `m = 0`. -/
def remainder (x m : Nat) : Outcome Nat := if m = 0 then ub else ok (x % m)

/-- The loop of `compressible_filter::compute_indices` (20659-20662). -/
def reduce : Nat → List Nat → Outcome Nat
  | x, [] => ok x
  | x, m :: ms => do
    let x ← remainder x m
    reduce x ms

/-- `compute_indices` (20438-20442, 20656-20664): the number of the bit. -/
def computeIndex (f : Filter) (hash : UInt32) : Outcome Nat :=
  match f.sizes with
  | none => remainder hash.toNat f.tableSize
  | some l => reduce hash.toNat l

/-- `bit_mask` (19923-19932). -/
def bitMask (bit : Nat) : UInt8 := (1 : UInt8) <<< UInt8.ofNat bit

/-- The loop of `insert` (20175-20179). -/
def insertLoop (f : Filter) (key : List UInt8) : List UInt32 → List UInt8 → Outcome (List UInt8)
  | [], table => ok table
  | s :: salts, table => do
    let i ← computeIndex f (hashAp key s)
    let c ← deref table (i / 8)
    let table ← store table (i / 8) (c ||| bitMask (i % 8))
    insertLoop f key salts table

/-- `insert(key, length)` (20171-20181). -/
def Filter.insert (f : Filter) (key : List UInt8) : Outcome Filter := do
  let table ← insertLoop f key f.salts f.table
  ok { f with table := table, inserted := (f.inserted + 1) % 2 ^ 32 }

/-- `insert(begin, end)` (20200-20208). -/
def Filter.insertRange (f : Filter) : List (List UInt8) → Outcome Filter
  | [] => ok f
  | k :: ks => do
    let f ← f.insert k
    f.insertRange ks

/-- The loop of `contains` (20214-20222). -/
def containsLoop (f : Filter) (key : List UInt8) : List UInt32 → Outcome Bool
  | [] => ok true
  | s :: salts => do
    let i ← computeIndex f (hashAp key s)
    let c ← deref f.table (i / 8)
    if c &&& bitMask (i % 8) ≠ bitMask (i % 8) then ok false else containsLoop f key salts

/-- `contains(key, length)` (20210-20223). -/
def Filter.contains (f : Filter) (key : List UInt8) : Outcome Bool := containsLoop f key f.salts

/-- `contains_all` and `contains_none` (20242-20269): the offset of the first key whose membership is `stop`, or the end. -/
def Filter.scan (f : Filter) (stop : Bool) : List (List UInt8) → Nat → Outcome Nat
  | [], i => ok i
  | k :: ks, i => do
    let c ← f.contains k
    if c = stop then ok i else f.scan stop ks (i + 1)

/-- `contains_all` (20242-20254). -/
def Filter.containsAll (f : Filter) (keys : List (List UInt8)) : Outcome Nat := f.scan false keys 0

/-- `contains_none` (20257-20269). -/
def Filter.containsNone (f : Filter) (keys : List (List UInt8)) : Outcome Nat := f.scan true keys 0

/-- `clear` (20165-20169): `fill_n` of `raw_table_size_` cells. -/
def Filter.clear (f : Filter) : Outcome Filter := do
  let table ← copyTo f.table 0 (List.replicate f.rawSize 0)
  ok { f with table := table, inserted := 0 }

/-- The loops of the merging operators (20302-20305 and alike), from cell `i` on, `n` cells. -/
def mergeLoop (op : UInt8 → UInt8 → UInt8) (other : List UInt8) : Nat → Nat → List UInt8 → Outcome (List UInt8)
  | 0, _, table => ok table
  | n + 1, i, table => do
    let a ← deref table i
    let b ← deref other i
    let table ← store table i (op a b)
    mergeLoop op other n (i + 1) table

/-- `operator &=`, `operator |=`, `operator ^=` (20293-20342). -/
def Filter.merge (op : UInt8 → UInt8 → UInt8) (f g : Filter) : Outcome Filter :=
  if f.saltCount = g.saltCount ∧ f.tableSize = g.tableSize ∧ f.seed = g.seed then do
    let table ← mergeLoop op g.table f.rawSize 0 f.table
    ok { f with table := table }
  else ok f

/-- `operator &=` (20293-20308). -/
def Filter.inter (f g : Filter) : Outcome Filter := f.merge (· &&& ·) g

/-- `operator |=` (20310-20325). -/
def Filter.union (f g : Filter) : Outcome Filter := f.merge (· ||| ·) g

/-- `operator ^=` (20327-20342). -/
def Filter.diff (f g : Filter) : Outcome Filter := f.merge (· ^^^ ·) g

/-- `operator =` between different objects (20136-20153).  `old` is the filter assigned to; its `bit_table_` is deleted, which is undefined when that
pointer was never initialised (`none`).  A plain filter is assigned to. -/
def assign (old : Option (List UInt8)) (f : Filter) : Outcome Filter :=
  match old with
  | none => ub
  | some _ => do
    let table ← slice f.table 0 f.rawSize
    ok { f with table := table, sizes := none }

/-- `filter(const filter&)` (20107-20110): assigns without initialising `bit_table_`. -/
def Filter.copy (f : Filter) : Outcome Filter := assign none f

/-- `operator &`, `operator |`, `operator ^` (20583-20602). -/
def Filter.mergeCopy (op : UInt8 → UInt8 → UInt8) (f g : Filter) : Outcome Filter := do
  let r ← f.copy
  r.merge op g

/-- `operator ==` between different objects (20112-20129); the floating point member is compared by its bits. -/
def Filter.equal (f g : Filter) : Outcome Bool :=
  if f.saltCount = g.saltCount ∧ f.tableSize = g.tableSize ∧ f.rawSize = g.rawSize ∧ f.projected = g.projected ∧ f.inserted = g.inserted ∧
      f.seed = g.seed ∧ f.fpp = g.fpp ∧ f.salts = g.salts then do
    let a ← slice f.table 0 f.rawSize
    let b ← slice g.table 0 f.rawSize
    ok (a == b)
  else ok false

/-! ## Compression -/

/-- The loop of `compress` (20642-20645): `*(itr_tmp++) |= *itr++`, `n` steps, reading at `i` and writing at `o`. -/
def foldLoop (table : List UInt8) : Nat → Nat → Nat → List UInt8 → Outcome (List UInt8)
  | 0, _, _, tmp => ok tmp
  | n + 1, i, o, tmp => do
    let a ← deref tmp o
    let b ← deref table i
    let tmp ← store tmp o (a ||| b)
    foldLoop table n (i + 1) (o + 1) tmp

/-- `compress(percentage)` (20619-20652) for a percentage between 0 and 100; `raw` is `size_list.back() * (1.0 - percentage / 100.0)` truncated to an
integer and `fpp` the result of `effective_fpp()`. -/
def Filter.compress (f : Filter) (raw fpp : Nat) : Outcome (Bool × Filter) :=
  match f.sizes with
  | none => ub
  | some l =>
    match l.getLast? with
    | none => ub
    | some original =>
      let new := raw - (if raw % 8 ≠ 0 then raw % 8 else 0)
      if 8 > new ∨ new ≥ original then ok (false, f)
      else do
        let tmp ← slice f.table 0 (new / 8)
        let tmp ← foldLoop f.table (original / 8 - new / 8) (new / 8) 0 tmp
        ok (true, { f with table := tmp, sizes := some (l ++ [new]), fpp := fpp })

/-! ## Files -/

/-- A chain of calls joined with `&&` (20370-20378). -/
def chain : List (Binary.St → Outcome (Bool × Binary.St)) → Binary.St → Outcome (Bool × Binary.St)
  | [], st => ok (true, st)
  | w :: ws, st => do
    let (good, st) ← w st
    if good then chain ws st else ok (false, st)

/-- `buffer_size` (20353-20363). -/
def bufferSize (f : Filter) : Nat := 4 + 8 + 8 + 8 + 4 + 8 + 8 + f.saltCount * 4 + f.rawSize * 1 + 64

/-- `write_to_file` (20349-20386) to a file that can be opened: the contents of the file, `none` for the result `false`.  The file system is reduced to
the bytes written; `writer(ostream)` writes what the writer has written so far. -/
def Filter.writeFile (f : Filter) : Outcome (Option (List UInt8)) :=
  if f.tableSize = 0 then ok none
  else do
    let (good, st) ← chain [
      Binary.writePod (Binary.leBytes 4 f.saltCount),
      Binary.writePod (Binary.leBytes 8 f.tableSize),
      Binary.writePod (Binary.leBytes 8 f.rawSize),
      Binary.writePod (Binary.leBytes 8 f.projected),
      Binary.writePod (Binary.leBytes 4 f.inserted),
      Binary.writePod (Binary.leBytes 8 f.seed),
      Binary.writePod (Binary.leBytes 8 f.fpp),
      Binary.writePodVec (ok ()) 4 (f.salts.map fun s => Binary.leBytes 4 s.toNat),
      Binary.writePtr f.table (Binary.size32 f.rawSize) 1 true] (Binary.St.fresh (List.replicate (bufferSize f) 0))
    if good then ok (some (st.buf.take st.amount)) else ok none

/-- A call `reader(x)` for a POD `x` in a chain joined with `&&`: `k` goes on with the value read. -/
def thenPod (n : Nat) (st : Binary.St) (k : Nat → Binary.St → Outcome (Option Filter)) : Outcome (Option Filter) := do
  let (r, st) ← Binary.readPod n st
  match r with
  | none => ok none
  | some bs => k (Binary.leNat bs) st

/-- `read_from_file` (20388-20429) of a file with the given contents into a plain filter: the filter, `none` for the result `false` (what is left in the
filter then: `Verif/Bloom/Refused.lean`). -/
def readFile (contents : List UInt8) : Outcome (Option Filter) :=
  thenPod 4 (Binary.St.fresh contents) fun saltCount st =>
  thenPod 8 st fun tableSize st =>
  thenPod 8 st fun _ st =>
  thenPod 8 st fun projected st =>
  thenPod 4 st fun inserted st =>
  thenPod 8 st fun seed st =>
  thenPod 8 st fun fpp st => do
    let (good, salts, st) ← Binary.readPodVec (ok ()) 4 [] st
    if good then do
      let (r, _) ← Binary.readPtr 1 st
      match r with
      | none => ok none
      | some table =>
        ok (some { salts := salts.map fun b => UInt32.ofNat (Binary.leNat b), table := table, saltCount := saltCount, tableSize := tableSize,
                   rawSize := table.length, projected := projected, inserted := inserted, seed := seed, fpp := fpp, sizes := none })
    else ok none

end Strtk.Bloom
