import Verif.Number.Model

/-!
# Model of strtk::fast (strtk.hpp 12844-13708)

The hand-unrolled templates for every N (12854-13165, 13167-13499) are modelled by one recursion over N; the compile-time overloads use
the same bodies.  Same platform assumptions as in `Verif.Number.Model`.
-/

namespace Strtk.Fast
open Outcome Strtk.Number

/-- An integer type: signedness and width (16, 32 or 64 bits). -/
structure IntTy where
  signed : Bool
  bits : Nat

/-- `static_cast<T>(v)` of an integer (modulo 2^bits). -/
def IntTy.conv (ty : IntTy) (v : Int) : Int := if ty.signed then v.bmod (2 ^ ty.bits) else v % (2 ^ ty.bits : Nat)

/-- The result `v` of an addition, multiplication by ten or negation on `T`, assigned to a `T`: unsigned arithmetic and types narrower
than `int` (which are promoted) wrap, signed overflow is undefined. -/
def IntTy.arith (ty : IntTy) (v : Int) : Outcome Int :=
  if ty.signed ∧ 32 ≤ ty.bits ∧ ¬ fits ty.bits v then ub else ok (ty.conv v)

/-- `static_cast<unsigned char>(itr[i] - '0') < 10` (12868 ...). -/
def isDigitU8 (c : Byte) : Bool := decide ((c - 48).toNat < 10)

/-- `all_digits_check_impl<Iterator,N>::process(itr)` (12863-13165): short-circuit conjunction over the first N characters. -/
def allDigits : Nat → List Byte → Outcome Bool
  | 0, _ => ok true
  | n + 1, s => do
    let c ← look s
    if isDigitU8 c then allDigits n s.tail else ok false

/-- `all_digits_check(n,itr)` (13531-13546): cases 0..19, otherwise false. -/
def allDigitsCheck (n : Nat) (s : List Byte) : Outcome Bool := if n ≤ 19 then allDigits n s else ok false

/-- The lines `x = x * 10 + static_cast<T>(itr[i] - '0');` (13220-13234 ...). -/
def horner (ty : IntTy) : Nat → List Byte → Int → Outcome Int
  | 0, _, x => ok x
  | n + 1, s, x => do
    let c ← look s
    let y ← ty.arith (x * 10)
    let x ← ty.arith (y + ty.conv (c.toInt - 48))
    horner ty n s.tail x

/-- `(itr[0] - '0') * 1000...0LL` for N = 17..19 (13190, 13200, 13210), `ULL` for N = 20 (13180). -/
def topProduct (n : Nat) (c : Byte) : Outcome Int :=
  if n = 20 then ok (((c.toInt - 48) * 10 ^ (n - 1)) % 2 ^ 64)
  else if fits 64 ((c.toInt - 48) * 10 ^ (n - 1)) then ok ((c.toInt - 48) * 10 ^ (n - 1)) else ub

/-- `numeric_convert_impl<T,Iterator,N>::process(itr,t)` (13167-13499), N = 0..20. -/
def convertImpl (ty : IntTy) : Nat → List Byte → Outcome Int
  | 0, _ => ok 0
  | n + 1, s =>
    if n + 1 ≤ 16 then do
      let c ← look s
      horner ty n s.tail (ty.conv (c.toInt - 48))
    else do
      let t ← convertImpl ty n s.tail
      let c ← look s
      let p ← topProduct (n + 1) c
      ty.arith (t + ty.conv p)

/-- `numeric_convert(n,itr,t,digit_check)` (13618-13644): flag and target afterwards. -/
def numericConvert (ty : IntTy) (n : Nat) (s : List Byte) (t0 : Int) (digitCheck : Bool) : Outcome (Bool × Int) := do
  let good ← if digitCheck then allDigitsCheck n s else ok true
  if good then
    if n ≤ 20 then do
      let t ← convertImpl ty n s
      ok (true, t)
    else ok (false, t0)
  else ok (false, t0)

/-- `numeric_convert<N>(itr,t,digit_check)` (13595-13609), N = 0..19: a failed check sets the target to 0. -/
def numericConvertN (ty : IntTy) (n : Nat) (s : List Byte) (digitCheck : Bool) : Outcome Int := do
  let good ← if digitCheck then allDigits n s else ok true
  if good then convertImpl ty n s else ok 0

/-- `signed_numeric_convert(itr,end,t,digit_check)` (13670-13692). -/
def signedNumericConvert (ty : IntTy) (s : List Byte) (t0 : Int) (digitCheck : Bool) : Outcome (Bool × Int) := do
  let c ← look s
  let hasSign := c = 45 ∨ c = 43
  let s1 := if hasSign then s.tail else s
  if hasSign ∧ s1 = [] then ok (false, t0) else do
  let s2 := skipZeros s1
  let (okay, t) ← numericConvert ty s2.length s2 t0 digitCheck
  if okay then do
    let t ← if c = 45 then ty.arith (-t) else ok t
    ok (true, t)
  else ok (false, t)

/-- `signed_all_digits_check(n,itr)` (13568-13575); `n - 1` is computed in `size_t`. -/
def signedAllDigitsCheck (n : Nat) (s : List Byte) : Outcome Bool := do
  let c ← look s
  if c = 45 ∨ c = 43 then allDigitsCheck ((n + 2 ^ 64 - 1) % 2 ^ 64) s.tail else allDigitsCheck n s

end Strtk.Fast
