import Verif.Mem
import Verif.Codec.Tables

/-!
# Model of the codecs and bit utilities (strtk.hpp 4384-5193)

Buffers are byte lists, every write is checked.  A loop `while (end != itr) { ... *itr ...; ++itr; }` over a whole range is written as
recursion over the list, because it reads exactly the elements of the range.  16-bit stores through `reinterpret_cast` are little-endian and
their alignment is not modelled.  Source and destination are assumed not to overlap.
-/

namespace Strtk.Codec
open Outcome Mem

abbrev Byte := BitVec 8

/-- `*reinterpret_cast<unsigned short*>(out) = v`. -/
def put16 (buf : List Byte) (o : Nat) (v : BitVec 16) : Outcome (List Byte) := puts buf o [v.extractLsb' 0 8, v.extractLsb' 8 8]

/-! ## Hexadecimal -/

/-- `convert_bin_to_hex(begin, end, out)` (4422-4426). -/
def binToHexLoop : List Byte → List Byte → Nat → Outcome (List Byte)
  | [], buf, _ => ok buf
  | c :: t, buf, o => do
    let v ← deref hexLut c.toNat
    let buf ← put16 buf o v
    binToHexLoop t buf (o + 2)

/-- `convert_bin_to_hex(const std::string&, std::string& output)` (4451-4465); `out0` is the previous content of `output`. -/
def binToHex (b out0 : List Byte) : Outcome (List Byte) := binToHexLoop b (resize 0 out0 (b.length * 2)) 0

/-- Loop of `convert_hex_to_bin` (4514-4519). -/
def hexToBinLoop : List Byte → List Byte → Nat → Outcome (List Byte)
  | [], buf, _ => ok buf
  | [_], _, _ => ub
  | a :: b :: t, buf, o => do
    let x ← deref hexToBin a.toNat
    let y ← deref hexToBin b.toNat
    let buf ← puts buf o [x <<< 4 ||| y]
    hexToBinLoop t buf (o + 1)

/-- `convert_hex_to_bin(begin, end, out)` (4467-4522). -/
def hexToBinRaw (h buf : List Byte) (o : Nat) : Outcome (Bool × List Byte) :=
  if h.length = 0 then ok (false, buf)
  else if h.length % 2 = 1 then ok (false, buf)
  else do
    let buf ← hexToBinLoop h buf o
    ok (true, buf)

/-- `convert_hex_to_bin(const std::string&, std::string& output)` (4551-4561). -/
def hexToBinStr (h out0 : List Byte) : Outcome (Bool × List Byte) :=
  if h = [] ∨ h.length % 2 = 1 then ok (false, out0) else hexToBinRaw h (resize 0 out0 (h.length >>> 1)) 0

/-! ## Base64.  `unsigned int block` never exceeds 2^26, so it is a natural number. -/

/-- Loop 4572-4581 of `convert_bin_to_base64`. -/
def b64EncRounds (src : List Byte) : Nat → Nat → List Byte → Nat → Outcome (Nat × List Byte × Nat)
  | 0, itr, buf, o => ok (itr, buf, o)
  | n + 1, itr, buf, o => do
    let a ← deref src itr
    let b ← deref src (itr + 1)
    let c ← deref src (itr + 2)
    let block := a.toNat <<< 16 ||| b.toNat <<< 8 ||| c.toNat
    let e0 ← deref binToBase64 ((block >>> 18) &&& 0x3F)
    let e1 ← deref binToBase64 ((block >>> 12) &&& 0x3F)
    let e2 ← deref binToBase64 ((block >>> 6) &&& 0x3F)
    let e3 ← deref binToBase64 (block &&& 0x3F)
    let buf ← puts buf o [e0, e1, e2, e3]
    b64EncRounds src n (itr + 3) buf (o + 4)

/-- `convert_bin_to_base64(begin, end, out)` (4563-4609). Returns the length and the buffer. -/
def b64Enc (src buf : List Byte) : Outcome (Nat × List Byte) := do
  let length := src.length
  let (itr, buf, o) ← b64EncRounds src (length / 3) 0 buf 0
  let buf ← match length % 3 with
    | 1 => do
      let a ← deref src itr
      let block := a.toNat <<< 16
      let e0 ← deref binToBase64 ((block >>> 18) &&& 0x3F)
      let e1 ← deref binToBase64 ((block >>> 12) &&& 0x3F)
      puts buf o [e0, e1, 61, 61]
    | 2 => do
      let a ← deref src itr
      let b ← deref src (itr + 1)
      let block := a.toNat <<< 16 ||| b.toNat <<< 8
      let e0 ← deref binToBase64 ((block >>> 18) &&& 0x3F)
      let e1 ← deref binToBase64 ((block >>> 12) &&& 0x3F)
      let e2 ← deref binToBase64 ((block >>> 6) &&& 0x3F)
      puts buf o [e0, e1, e2, 61]
    | _ => ok buf
  ok (length / 3 * 4 + (if length % 3 > 0 then 4 else 0), buf)

/-- `convert_bin_to_base64(const std::string&, std::string& output)` (4618-4626). -/
def b64EncStr (src out0 : List Byte) : Outcome (List Byte) := do
  let (n, buf) ← b64Enc src (resize 0 out0 (max 4 (src.length <<< 1)))
  ok (resize 0 buf n)

/-- Loop 4677-4687 of `convert_base64_to_bin`. -/
def b64DecRounds (src : List Byte) : Nat → Nat → List Byte → Nat → Outcome (Nat × List Byte × Nat)
  | 0, itr, buf, o => ok (itr, buf, o)
  | n + 1, itr, buf, o => do
    let c0 ← deref src itr
    let c1 ← deref src (itr + 1)
    let c2 ← deref src (itr + 2)
    let c3 ← deref src (itr + 3)
    let d0 ← deref base64ToBin c0.toNat
    let d1 ← deref base64ToBin c1.toNat
    let d2 ← deref base64ToBin c2.toNat
    let d3 ← deref base64ToBin c3.toNat
    let block := d0.toNat <<< 18 ||| d1.toNat <<< 12 ||| d2.toNat <<< 6 ||| d3.toNat
    let buf ← puts buf o [BitVec.ofNat 8 ((block >>> 16) &&& 0xFF), BitVec.ofNat 8 ((block >>> 8) &&& 0xFF), BitVec.ofNat 8 (block &&& 0xFF)]
    b64DecRounds src n (itr + 4) buf (o + 3)

/-- `convert_base64_to_bin(begin, end, out)` (4628-4714). `*(end - 2)` on a range of fewer than two characters is out of bounds. -/
def b64Dec (src buf : List Byte) : Outcome (Nat × List Byte) := do
  let c2 ← (if src.length < 2 then ub else deref src (src.length - 2))
  let endItr ← (if c2 = 61 then ok (src.length - 2) else do
    let c1 ← deref src (src.length - 1)
    if c1 = 61 then ok (src.length - 1) else ok src.length)
  let length := endItr
  let (itr, buf, o) ← b64DecRounds src (length / 4) 0 buf 0
  let buf ← match length % 4 with
    | 2 => do
      let c0 ← deref src itr
      let c1 ← deref src (itr + 1)
      let d0 ← deref base64ToBin c0.toNat
      let d1 ← deref base64ToBin c1.toNat
      let block := d0.toNat <<< 18 ||| d1.toNat <<< 12
      puts buf o [BitVec.ofNat 8 ((block >>> 16) &&& 0xFF)]
    | 3 => do
      let c0 ← deref src itr
      let c1 ← deref src (itr + 1)
      let c2 ← deref src (itr + 2)
      let d0 ← deref base64ToBin c0.toNat
      let d1 ← deref base64ToBin c1.toNat
      let d2 ← deref base64ToBin c2.toNat
      let block := d0.toNat <<< 18 ||| d1.toNat <<< 12 ||| d2.toNat <<< 6
      puts buf o [BitVec.ofNat 8 ((block >>> 16) &&& 0xFF), BitVec.ofNat 8 ((block >>> 8) &&& 0xFF)]
    | _ => ok buf
  ok (3 * length / 4, buf)

/-- `convert_base64_to_bin(const std::string&, std::string& output)` (4723-4730). -/
def b64DecStr (src out0 : List Byte) : Outcome (List Byte) := do
  let (n, buf) ← b64Dec src (resize 0 out0 src.length)
  ok (resize 0 buf n)

/-! ## Character conversion (in place, whole range) -/

/-- `convert_to_printable_chars` (4732-4789). -/
def toPrintable : List Byte → Outcome (List Byte)
  | [] => ok []
  | c :: t => do
    let v ← deref printable c.toNat
    let t ← toPrintable t
    ok (v :: t)

/-- `::toupper` of an `unsigned char` value in the C locale. -/
def toupperC (c : Byte) : Byte := if 97 ≤ c.toNat ∧ c.toNat ≤ 122 then BitVec.ofNat 8 (c.toNat - 32) else c

/-- `::tolower` of an `unsigned char` value in the C locale. -/
def tolowerC (c : Byte) : Byte := if 65 ≤ c.toNat ∧ c.toNat ≤ 90 then BitVec.ofNat 8 (c.toNat + 32) else c

/-- `convert_to_uppercase`, `as_uppercase` (4791-4813, 4851-4856). -/
def toUppercase : List Byte → List Byte
  | [] => []
  | c :: t => toupperC c :: toUppercase t

/-- `convert_to_lowercase`, `as_lowercase` (4815-4849). -/
def toLowercase : List Byte → List Byte
  | [] => []
  | c :: t => tolowerC c :: toLowercase t

/-! ## Bitwise interleaving -/

/-- Loop 4907-4912 of `twoway_bitwise_interleave`. -/
def interleaveLoop : List Byte → List Byte → List Byte → Nat → Outcome (List Byte)
  | [], _, buf, _ => ok buf
  | _ :: _, [], _, _ => ub
  | a :: t1, b :: t2, buf, o => do
    let y ← deref interleaveTable b.toNat
    let x ← deref interleaveTable a.toNat
    let buf ← put16 buf o (y <<< 1 ||| x)
    interleaveLoop t1 t2 buf (o + 2)

/-- `twoway_bitwise_interleave(begin1, end1, begin2, end2, out)` (4858-4915). -/
def interleaveRaw (s1 s2 buf : List Byte) : Outcome (Bool × List Byte) :=
  if s1.length ≠ s2.length then ok (false, buf)
  else do
    let buf ← interleaveLoop s1 s2 buf 0
    ok (true, buf)

/-- `twoway_bitwise_interleave(const std::string&, const std::string&, std::string& out)` (4928-4942): the output is resized to the input size. Its
terminating zero is not part of the buffer. -/
def interleaveStr (s1 s2 out0 : List Byte) : Outcome (Bool × List Byte) :=
  if s1.length ≠ s2.length then ok (false, out0) else interleaveRaw s1 s2 (resize 0 out0 s1.length)

/-- Entry `i` of `create_nway_interleave_table<n>` (4958-4966): `type` has `8 * n` bits, `n` is 2, 4 or 8; `1 << j` is an `int`, and none of the
shifts loses a bit. -/
def nwayEntry (n : Nat) (i : BitVec (8 * n)) : BitVec (8 * n) :=
  (List.range 8).foldl (fun acc j => acc ||| ((i &&& ((1 : BitVec (8 * n)) <<< j)) <<< (j * (n - 1)))) 0

/-- The whole table. -/
def nwayTable (n : Nat) : List (BitVec (8 * n)) := (List.range 256).map fun i => nwayEntry n (BitVec.ofNat _ i)

/-! ## bitwise_transform -/

/-- `bitwise_operation::type` (4969). -/
inductive BitOp | eAND | eOR | eXOR
  deriving DecidableEq, Repr

/-- The operations of 4981-4983. -/
def BitOp.apply : BitOp → Byte → Byte → Byte
  | .eAND, a, b => a &&& b
  | .eOR, a, b => a ||| b
  | .eXOR, a, b => a ^^^ b

/-- Loops 4981-4983: the second range is only known by its beginning. -/
def bitwiseLoop (op : BitOp) : List Byte → List Byte → List Byte → Nat → Outcome (List Byte)
  | [], _, buf, _ => ok buf
  | _ :: _, [], _, _ => ub
  | a :: t1, b :: t2, buf, o => do
    let buf ← puts buf o [op.apply a b]
    bitwiseLoop op t1 t2 buf (o + 1)

/-- `bitwise_transform(operation, const std::string&, const std::string&, std::string& out)` (4999-5010). -/
def bitwiseTransform (op : BitOp) (s1 s2 out0 : List Byte) : Outcome (List Byte) :=
  if s1.length ≠ s2.length then ok out0 else bitwiseLoop op s1 s2 (resize 0 out0 s1.length) 0

/-! ## Bit counting -/

/-- `high_bit_count(unsigned char)` (5012-5035). -/
def highBitCount8 (c : Byte) : Outcome Nat := do
  let v ← deref highBits c.toNat
  ok v.toNat

/-- Sum over the bytes at `ptr`, in the order of the code. -/
def highBitCountBytes : List Byte → Outcome Nat
  | [] => ok 0
  | c :: t => do
    let v ← highBitCount8 c
    let r ← highBitCountBytes t
    ok (v + r)

/-- `high_bit_count(const unsigned short&)` (5037-5041): the object's bytes. -/
def highBitCount16 (x : BitVec 16) : Outcome Nat := highBitCountBytes [x.extractLsb' 0 8, x.extractLsb' 8 8]

/-- `high_bit_count(const unsigned int&)` (5043-5048). -/
def highBitCount32 (x : BitVec 32) : Outcome Nat :=
  highBitCountBytes [x.extractLsb' 0 8, x.extractLsb' 8 8, x.extractLsb' 16 8, x.extractLsb' 24 8]

/-- `high_bit_count(const long long int&)` (5050-5057). -/
def highBitCount64 (x : BitVec 64) : Outcome Nat :=
  highBitCountBytes [x.extractLsb' 0 8, x.extractLsb' 8 8, x.extractLsb' 16 8, x.extractLsb' 24 8,
    x.extractLsb' 32 8, x.extractLsb' 40 8, x.extractLsb' 48 8, x.extractLsb' 56 8]

/-- Loop 5064-5067 of `high_bit_count(begin, end)`; the sum does not reach 2^64 for any range that fits in memory. -/
def highBitCountLoop : List Byte → Nat → Outcome Nat
  | [], count => ok count
  | c :: t, count => do
    let v ← highBitCount8 c
    highBitCountLoop t (count + v)

/-- `high_bit_count(begin, end)`, `high_bit_count(str)` (5059-5082). -/
def highBitCountRange (s : List Byte) : Outcome Nat := highBitCountLoop s 0

/-- Loop 5144-5147 of `hamming_distance`. -/
def hammingLoop : List Byte → List Byte → Nat → Outcome Nat
  | [], _, d => ok d
  | _ :: _, [], _ => ub
  | a :: t1, b :: t2, d => do
    let v ← highBitCount8 ((a ^^^ b) &&& 0xFF)
    hammingLoop t1 t2 (d + v)

/-- `hamming_distance` (5132-5165). -/
def hamming (s1 s2 : List Byte) : Outcome Nat := if s1.length ≠ s2.length then ok (2 ^ 64 - 1) else hammingLoop s1 s2 0

/-- Loop 5180-5184 of `hamming_distance_elementwise`, exactly as written: neither iterator moves. -/
def hammingElemLoop {α : Type} [DecidableEq α] (s1 s2 : List α) : Nat → Nat → Nat → Nat → Outcome Nat
  | 0, _, _, _ => diverge
  | fuel + 1, i1, i2, d =>
    if s1.length ≠ i1 then do
      let a ← deref s1 i1
      let b ← deref s2 i2
      hammingElemLoop s1 s2 fuel i1 i2 (if a ≠ b then d + 1 else d)
    else ok d

/-- `hamming_distance_elementwise` (5168-5193). -/
def hammingElem {α : Type} [DecidableEq α] (s1 s2 : List α) (fuel : Nat) : Outcome Nat :=
  if s1.length ≠ s2.length then ok (2 ^ 64 - 1) else hammingElemLoop s1 s2 fuel 0 0 0

/-! ## Single bits -/

/-- `bit_mask` of 5086-5096 and 5102-5112. -/
def bitMaskHigh : List Byte := [0x01, 0x02, 0x04, 0x08, 0x10, 0x20, 0x40, 0x80]

/-- `bit_mask` of 5118-5128. -/
def bitMaskLow : List Byte := [0xFE, 0xFD, 0xFB, 0xF7, 0xEF, 0xDF, 0xBF, 0x7F]

/-- `bit_state(index, ptr)` (5084-5098). -/
def bitState (index : Nat) (ptr : List Byte) : Outcome Bool := do
  let b ← deref ptr (index >>> 3)
  let m ← deref bitMaskHigh (index &&& 7)
  ok (decide (0 ≠ b &&& m))

/-- `set_bit_high(index, ptr)` (5100-5114). -/
def setBitHigh (index : Nat) (ptr : List Byte) : Outcome (List Byte) := do
  let b ← deref ptr (index >>> 3)
  let m ← deref bitMaskHigh (index &&& 7)
  store ptr (index >>> 3) (b ||| m)

/-- `set_bit_low(index, ptr)` (5116-5130). -/
def setBitLow (index : Nat) (ptr : List Byte) : Outcome (List Byte) := do
  let b ← deref ptr (index >>> 3)
  let m ← deref bitMaskLow (index &&& 7)
  store ptr (index >>> 3) (b &&& m)

end Strtk.Codec
