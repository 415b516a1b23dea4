import Verif.Mem

/-! # `strtk::hash` (strtk.hpp 20671-20801) and `memcmp_n` (23767-23832) -/

namespace Strtk.Hash
open Outcome Mem

/-- `hash ^= ((hash << 7) ^ b * (hash >> 3))` (20689). -/
def even (b : UInt8) (h : UInt32) : UInt32 := h ^^^ ((h <<< 7) ^^^ b.toUInt32 * (h >>> 3))

/-- `hash ^= ~((hash << 11) + (b ^ (hash >> 5)))` (20690). -/
def odd (b : UInt8) (h : UInt32) : UInt32 := h ^^^ ~~~((h <<< 11) + (b.toUInt32 ^^^ (h >>> 5)))

/-- `compute_pod_hash(const int&, ...)` (20686-20693), the overload chosen for characters: the character is converted to `int`, `high` are its upper
three bytes (zero for `unsigned char`; for a negative `char` 0xFF). -/
def podHash (high b : UInt8) (h : UInt32) : UInt32 := odd high (even high (odd high (even b h)))

/-- The upper bytes of a `char` converted to `int`. -/
def charHigh (b : UInt8) : UInt8 := if b.toNat < 128 then 0 else 0xFF

/-- Mixing in a `char` or an `unsigned char`. -/
def mixByte (signed : Bool) (h : UInt32) (b : UInt8) : UInt32 := podHash (if signed then charHigh b else 0) b h

/-- The inner loop of `compute_block` (20731-20734, 20746-20749), `n` steps from position `i`; `m` mixes in one element. -/
def blockSteps {α : Type} (m : UInt32 → α → UInt32) (data : List α) : Nat → Nat → UInt32 → Outcome UInt32
  | 0, _, h => ok h
  | n + 1, i, h => do
    let a ← deref data i
    blockSteps m data n (i + 1) (m h a)

/-- The outer loop of `compute_block` (20729-20736, 20744-20751): the remaining length and the hash. -/
def blockLoop {α : Type} (m : UInt32 → α → UInt32) (data : List α) (size : Nat) : Nat → Nat → Nat → UInt32 → Outcome (Nat × UInt32)
  | 0, _, _, _ => diverge
  | fuel + 1, i, length, h =>
    if length ≥ size then do
      let h ← blockSteps m data size i h
      blockLoop m data size fuel (i + size) (length - size) h
    else ok (length, h)

/-- One line of `details::hash` (20767-20772): the iterator is passed by value, so every line starts at the beginning. -/
def pass {α : Type} (m : UInt32 → α → UInt32) (data : List α) (size : Nat) (s : Nat × UInt32) : Outcome (Nat × UInt32) :=
  if s.1 ≥ size then blockLoop m data size (s.1 + 1) 0 s.1 s.2 else ok s

/-- `details::hash` (20765-20774) and `hash(itr, length, seed)` (20779-20786). -/
def hash {α : Type} (m : UInt32 → α → UInt32) (data : List α) (length : Nat) (seed : UInt32) : Outcome UInt32 := do
  let s ← pass m data 64 (length, seed)
  let s ← pass m data 32 s
  let s ← pass m data 16 s
  let s ← pass m data 8 s
  let s ← pass m data 4 s
  let s ← pass m data 2 s
  let s ← (if s.1 = 0 then blockLoop m data 1 1 0 s.1 s.2 else ok s)
  ok s.2

/-- `hash(const std::string&, seed)` (20788-20792). -/
def hashString (s : List UInt8) (seed : UInt32) : Outcome UInt32 := hash (mixByte true) s s.length seed

/-! ## memcmp_n -/

/-- `next_size` (23789-23790). -/
def nextSize (n : Nat) : Nat := if n ≥ 8 then 8 else if n ≥ 4 then 4 else if n ≥ 2 then 2 else 1

/-- `size_impl<K>::cmp` (23774-23787): compares two integers of `k` bytes; the primary template compares nothing. -/
def sizeCmp (k : Nat) (c1 c2 : List UInt8) (i : Nat) : Outcome Bool :=
  if k = 8 ∨ k = 4 ∨ k = 2 ∨ k = 1 then do
    let a ← slice c1 i k
    let b ← slice c2 i k
    ok (a == b)
  else ok true

/-- `memcmp_n_impl<N>::process` (23792-23813), at offset `i` of both arrays; the template recursion is bounded by fuel. -/
def memcmpGo (c1 c2 : List UInt8) : Nat → Nat → Nat → Outcome Bool
  | _, 0, _ => ok true
  | 0, _ + 1, _ => diverge
  | fuel + 1, n + 1, i => do
    let size := nextSize (n + 1)
    let b ← sizeCmp size c1 c2 i
    if b then memcmpGo c1 c2 fuel (n + 1 - size) (i + size) else ok false

/-- `memcmp_n<N>` (23816-23832). -/
def memcmpN (n : Nat) (c1 c2 : List UInt8) : Outcome Bool := memcmpGo c1 c2 n n 0

end Strtk.Hash
