import Verif.Outcome
import Verif.Mem
import Verif.Number.Tables

/-!
# Model of the integer <-> text conversions (strtk.hpp 16726-16952, 17377-17497, 17782-17800, 17876-18000)

The platform is LP64 (`short` 16, `int` 32, `long` and `long long` 64 bits) with a signed 8-bit two's complement `char`; conversion of
an out-of-range value to a narrower signed type wraps (implementation-defined before C++20, fixed since).  Signed arithmetic that
overflows is `ub`.  An iterator pair `[itr,end)` is the list of characters that remain.
-/

namespace Strtk.Number
open Outcome Mem

/-- A `char` / a byte of text. -/
abbrev Byte := BitVec 8

/-- `*itr`: undefined at the end of the range. -/
def look : List Byte → Outcome Byte
  | [] => ub
  | c :: _ => ok c

/-- `numeric<T>` for an unsigned `T` (16881-16889, 16902-16910, 16923-16931, 16944-16952) together with the width of `T`. -/
structure UTy where
  bits : Nat
  boundLength : Nat
  m10 : Nat
  ldpos : Nat

/-- `numeric<unsigned short>` (16882-16889). -/
def ushort : UTy := ⟨16, 5, 6553, 5⟩
/-- `numeric<unsigned int>` (16903-16910). -/
def uint : UTy := ⟨32, 10, 429496729, 5⟩
/-- `numeric<unsigned long>` (16924-16931): 32-bit bounds although the type has 64 bits. -/
def ulong : UTy := ⟨64, 10, 429496729, 5⟩
/-- `numeric<unsigned long long int>` (16945-16952). -/
def ulonglong : UTy := ⟨64, 20, 1844674407370955161, 5⟩

/-- `numeric<T>` for a signed `T` (16870-16879, 16891-16900, 16912-16921, 16933-16942) together with the width of `T`. -/
structure STy where
  bits : Nat
  boundLength : Nat
  m10 : Int
  ldpos : Int
  ldneg : Int

/-- `numeric<short>` (16871-16879). -/
def short : STy := ⟨16, 5, 3276, 7, 8⟩
/-- `numeric<int>` (16892-16900). -/
def int : STy := ⟨32, 10, 214748364, 7, 8⟩
/-- `numeric<long>` (16913-16921): 32-bit bounds although the type has 64 bits. -/
def long : STy := ⟨64, 10, 214748364, 7, 8⟩
/-- `numeric<long long>` (16934-16942). -/
def longlong : STy := ⟨64, 19, 922337203685477580, 7, 8⟩

/-- `digit = (*itr - '0')` as an `unsigned int` (17399, 17409, 17463, 17473): sign extension, subtraction modulo 2^32. -/
def digitOf (c : Byte) : Nat := (c.signExtend 32 - 48#32).toNat

/-- `while ((end != itr) && ('0' == (*itr))) ++itr;` (17386, 17450). -/
def skipZeros : List Byte → List Byte
  | [] => []
  | c :: t => if c = 48 then skipZeros t else c :: t

/-- `t * 10 + static_cast<T>(digit)` in an unsigned type (17400, 17429): modulo 2^bits (for `unsigned short` the sum is formed in `int`,
where it cannot overflow, and then narrowed). -/
def UTy.mulAdd (ty : UTy) (t d : Nat) : Nat := (t * 10 + d) % 2 ^ ty.bits

/-- The fall-through `switch` (17396-17412) entered at case `n` with the remaining text and the accumulator; `none` is `return false`,
otherwise the final `(t, digit)`. -/
def uSwitch (ty : UTy) : Nat → List Byte → Nat → Outcome (Option (Nat × Nat))
  | 0, _, t => ok (some (t, 0))
  | 1, s, t => do
    let c ← look s
    if digitOf c ≥ 10 then ok none else ok (some (t, digitOf c))
  | n + 2, s, t => do
    let c ← look s
    if digitOf c < 10 then uSwitch ty (n + 1) s.tail (ty.mulAdd t (digitOf c)) else ok none

/-- The part of the unsigned converter after the leading zeros have been skipped (17388-17432).  A length above 20 would select no
case; the length is at most `bound_length` there. -/
def uTail (ty : UTy) (s2 : List Byte) (r0 : Nat) : Outcome (Bool × Nat) :=
  if s2.length > ty.boundLength then ok (false, r0) else do
  let r ← if s2.length > 20 then ok (some (0, 0)) else uSwitch ty s2.length s2 0
  match r with
  | none => ok (false, r0)
  | some (t, digit) =>
    if s2.length = ty.boundLength ∧ ¬ (t < ty.m10 ∨ (t = ty.m10 ∧ digit ≤ ty.ldpos)) then ok (false, r0)
    else ok (true, ty.mulAdd t digit)

/-- `string_to_type_converter_impl(itr,end,T&,unsigned_type_tag)` (17378-17433): the success flag and the value of the target afterwards
(`r0` is its value before). -/
def parseUnsigned (ty : UTy) (s : List Byte) (r0 : Nat) : Outcome (Bool × Nat) :=
  if s = [] then ok (false, r0) else do
  let c ← look s
  let s1 := if c = 43 then s.tail else s
  if c = 43 ∧ s1 = [] then ok (false, r0) else uTail ty (skipZeros s1) r0

/-- Narrowing to a signed type of `w` bits: modulo 2^w. -/
def wrap (w : Nat) (v : Int) : Int := v.bmod (2 ^ w)

/-- Is `v` representable in `w` bits? -/
def fits (w : Nat) (v : Int) : Prop := -(2 ^ (w - 1)) ≤ v ∧ v < 2 ^ (w - 1)

instance (w : Nat) (v : Int) : Decidable (fits w v) := by unfold fits; infer_instance

/-- `t * 10 + static_cast<T>(digit)` assigned to a signed `T` (17464, 17492): types narrower than `int` are promoted, computed in `int`
and narrowed; otherwise both operations must not overflow. -/
def STy.mulAdd (ty : STy) (t d : Int) : Outcome Int :=
  if ty.bits < 32 then
    if fits 32 (t * 10) ∧ fits 32 (t * 10 + d) then ok (wrap ty.bits (t * 10 + d)) else ub
  else if fits ty.bits (t * 10) ∧ fits ty.bits (t * 10 + d) then ok (t * 10 + d) else ub

/-- `-t` assigned to a signed `T` (17494). -/
def STy.neg (ty : STy) (t : Int) : Outcome Int :=
  if ty.bits < 32 then ok (wrap ty.bits (-t)) else if fits ty.bits (-t) then ok (-t) else ub

/-- The fall-through `switch` of the signed version (17460-17476). -/
def sSwitch (ty : STy) : Nat → List Byte → Int → Outcome (Option (Int × Nat))
  | 0, _, t => ok (some (t, 0))
  | 1, s, t => do
    let c ← look s
    if digitOf c ≥ 10 then ok none else ok (some (t, digitOf c))
  | n + 2, s, t => do
    let c ← look s
    if digitOf c < 10 then do
      let t ← ty.mulAdd t (digitOf c)
      sSwitch ty (n + 1) s.tail t
    else ok none

/-- The part of the signed converter after the leading zeros have been skipped (17452-17496).  In 17484 the comparison of `t` with the
unsigned constant of `long long` converts `t`; `t` is not negative there. -/
def sTail (ty : STy) (lastDigit : Int) (s2 : List Byte) (r0 : Int) : Outcome (Bool × Int) :=
  if s2.length > ty.boundLength then ok (false, r0) else do
  let r ← if s2.length > 19 then ok (some (0, 0)) else sSwitch ty s2.length s2 0
  match r with
  | none => ok (false, r0)
  | some (t, digit) =>
    if s2.length = ty.boundLength ∧ ¬ (t < ty.m10 ∨ (t = ty.m10 ∧ (digit : Int) ≤ lastDigit)) then ok (false, r0)
    else do
      let t ← ty.mulAdd t digit
      let v ← if lastDigit = ty.ldpos then ok t else ty.neg t
      ok (true, v)

/-- `string_to_type_converter_impl(itr,end,T&,signed_type_tag)` (17436-17497). -/
def parseSigned (ty : STy) (s : List Byte) (r0 : Int) : Outcome (Bool × Int) :=
  if s = [] then ok (false, r0) else do
  let c ← look s
  let lastDigit := if c = 45 then ty.ldneg else ty.ldpos
  let signed := ty.ldneg = lastDigit ∨ c = 43
  let s1 := if signed then s.tail else s
  if signed ∧ s1 = [] then ok (false, r0) else sTail ty lastDigit (skipZeros s1) r0

/-- `memcpy(itr -= n, &lut[n * k], n)` (17893, 17901, 17960, 17967): the text from `itr` on grows at the front; the buffer has
`buffer_size` bytes and may not be left. -/
def prepend (bufferSize : Nat) (lut : List Byte) (n k : Nat) (text : List Byte) : Outcome (List Byte) := do
  let chunk ← slice lut (n * k) n
  if text.length + n ≤ bufferSize then ok (chunk ++ text) else ub

/-- The first loop, three digits at a time (17889-17895, 17956-17961); `fuel` bounds the recursion (the value shrinks each round). -/
def threes (bufferSize : Nat) : Nat → Nat → List Byte → Outcome (Nat × List Byte)
  | 0, _, _ => diverge
  | fuel + 1, value, text =>
    if value ≥ 100 then do
      let tempV := value / 1000
      let text ← prepend bufferSize rev3Digit 3 (value - tempV * 1000) text
      threes bufferSize fuel tempV text
    else ok (value, text)

/-- The second loop, two digits at a time (17897-17903, 17963-17968). -/
def twos (bufferSize : Nat) : Nat → Nat → List Byte → Outcome (Nat × List Byte)
  | 0, _, _ => diverge
  | fuel + 1, value, text =>
    if value ≥ 10 then do
      let tempV := value / 100
      let text ← prepend bufferSize rev2Digit 2 (value - tempV * 100) text
      twos bufferSize fuel tempV text
    else ok (value, text)

/-- `*(--itr) = c` (17907, 17911, 17972, 17977, 17981). -/
def push (bufferSize : Nat) (c : Byte) (text : List Byte) : Outcome (List Byte) :=
  if text.length + 1 ≤ bufferSize then ok (c :: text) else ub

/-- The digits of a non-zero value (17889-17908, 17956-17973). -/
def digitsLoop (bufferSize value : Nat) : Outcome (List Byte) := do
  let (value, text) ← threes bufferSize (value + 1) value []
  let (value, text) ← twos bufferSize (value + 1) value text
  if value ≠ 0 then push bufferSize (BitVec.ofNat 8 (48 + value)) text else ok text

/-- `type_to_string_converter_impl(T,std::string&,unsigned_type_tag)` (17877-17915).  `numeric<T>::size` is at least 16 for every
registered type, so the buffer has 32 bytes (17882).  No intermediate value exceeds the argument, so no reduction modulo 2^bits. -/
def unsignedToString (value : Nat) : Outcome (List Byte) :=
  if value ≠ 0 then digitsLoop 32 value else push 32 48 []

/-- `type_to_string_converter_impl(T,std::string&,signed_type_tag)` (17935-17985): `value = negative ? -TT(valuex) : valuex` in the
unsigned type of the same width (for `short`: negation happens in `int` and is narrowed to `unsigned short`). -/
def signedToString (bits : Nat) (valuex : Int) : Outcome (List Byte) :=
  let negative := valuex < 0
  let value : Nat := ((if negative then -valuex else valuex) % 2 ^ bits).toNat
  if value ≠ 0 then do
    let text ← digitsLoop 32 value
    if negative then push 32 45 text else ok text
  else push 32 48 []

/-- `string_to_type_converter_impl(itr,end,T&,byte_type_tag)` (17783-17790). -/
def parseByte (s : List Byte) (r0 : Byte) : Outcome (Bool × Byte) :=
  if s.length ≠ 1 then ok (false, r0) else do
    let c ← look s
    ok (true, c)

/-- `type_to_string_converter_impl(const T&,std::string&,byte_type_tag)` (17988-17993). -/
def byteToString (v : Byte) : List Byte := [v]

/-- `string_to_type_converter_impl(itr,end,bool&,bool_type_tag)` (17793-17800). -/
def parseBool (s : List Byte) (r0 : Bool) : Outcome (Bool × Bool) :=
  if s.length ≠ 1 then ok (false, r0) else do
    let c ← look s
    ok (true, if c = 48 then false else true)

/-- `type_to_string_converter_impl(const bool&,std::string&,bool_type_tag)` (17995-18000). -/
def boolToString (v : Bool) : List Byte := [if v then 49 else 48]

end Strtk.Number
