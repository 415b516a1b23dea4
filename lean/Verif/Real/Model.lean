import Verif.Number.Model

/-!
# Model of the text → real conversion (strtk.hpp 16781-16841, 17499-17777)

Floating point arithmetic itself is not modelled: the code is modelled over any type `R` with the few operations it uses, `Ops R`. The
control flow, every read of the text and every table index are modelled exactly. The macros `strtk_use_lut` and
`strtk_enable_superscalar` are not defined (the header does not define them); see `Switches.lean` for builds with them. An iterator pair is the list of remaining characters.
-/

namespace Strtk.Real
open Outcome Mem Number

/-- The arithmetic of `real_t` used by the conversion. -/
structure Ops (R : Type) where
  /-- `real_t(0)` -/
  zero : R
  /-- `d * real_t(10) + digit` (17647) -/
  step : R → Nat → R
  /-- `d + x` (17701) -/
  add : R → R → R
  /-- `-d` (17775) -/
  neg : R → R
  /-- `d * fract10[e]` (16829) -/
  mulTable : R → Nat → R
  /-- `d / fract10[e]` (16831, 16838, 16839) -/
  divTable : R → Nat → R
  /-- `d * std::pow(10.0, 10.0 * exponent)` (16834) -/
  mulPow : R → Int → R
  /-- `std::numeric_limits<T>::infinity()` (17611) -/
  inf : R
  /-- `std::numeric_limits<T>::quiet_NaN()` (17578) -/
  nan : R

/-- `fract10_size` (16820): 0.0 and the powers 1 to 308. -/
def fract10Size : Nat := 309

/-- `std::numeric_limits<T>::min_exponent10` of `double`; `float` is converted through `double` (287). -/
def doubleMin : Int := -307
/-- The same of the 80-bit `long double`. -/
def longDoubleMin : Int := -4931

/-- `pow10(d, exponent)` (16781-16841). -/
def pow10 {R : Type} (o : Ops R) (minExp : Int) (d : R) (exponent : Int) : Outcome R :=
  if exponent = -2 ^ 31 then ub
  else if minExp ≤ exponent then
    if exponent.natAbs < fract10Size then
      if 0 < exponent then ok (o.mulTable d exponent.natAbs) else ok (o.divTable d exponent.natAbs)
    else ok (o.mulPow d exponent)
  else if (-minExp).toNat < fract10Size then
    if (-exponent + minExp).toNat < fract10Size then ok (o.divTable (o.divTable d (-minExp).toNat) (-exponent + minExp).toNat) else ub
  else ub

/-- The unrolled digit loop (17660-17671, 17686-17696): the first number is the macro about to be executed (0 and 1: `parse_digit_1`
(17646), 2: `parse_digit_2` (17649)); before 0 the loop has checked for the end. -/
def digitLoop {R : Type} (o : Ops R) : Nat → List Byte → R → Outcome (R × List Byte)
  | k, [], d => if k = 0 then ok (d, []) else ub
  | k, c :: t, d =>
    if digitOf c < 10 then
      if k < 2 then if t = [] then ok (o.step d (digitOf c), t) else digitLoop o (k + 1) t (o.step d (digitOf c))
      else digitLoop o 0 t (o.step d (digitOf c))
    else ok (d, c :: t)

/-- The switch of the exponent parser (17522-17541) and the last digit (17547-17551), for `length` remaining characters. -/
def expSwitch : Nat → List Byte → Int → Outcome (Bool × List Byte × Int)
  | 0, s, result => ok (true, s, result)
  | 1, s, result => do
    let c ← look s
    if 10 ≤ digitOf c then ok (false, s, result) else ok (true, s.tail, result * 10 + digitOf c)
  | n + 2, s, result => do
    let c ← look s
    if digitOf c < 10 then expSwitch (n + 1) s.tail (result * 10 + digitOf c) else ok (false, s.tail, result)

/-- From the stripping of zeros on (17513-17554). -/
def expDigits (negative : Bool) (s : List Byte) : Outcome (Bool × List Byte × Int) := do
  let s := skipZeros s
  let r ← if s.length ≤ 4 then expSwitch s.length s 0 else ok (false, s, 0)
  ok (r.1, r.2.1, if negative then -r.2.2 else r.2.2)

/-- `string_to_type_converter_impl_ref(itr, end, result, signed_type_tag)` with `result` 0 (17499-17555): the return value, the iterator
and `result` afterwards. -/
def parseExp (s : List Byte) : Outcome (Bool × List Byte × Int) :=
  match s with
  | [] => ok (false, [], 0)
  | c :: t =>
    if c = 45 ∨ c = 43 then
      if t = [] then ok (false, [], 0) else expDigits (c = 45) t
    else expDigits false (c :: t)

/-- `parse_nan` (17557-17581). -/
def parseNan {R : Type} (o : Ops R) (s : List Byte) : Outcome (Option R) :=
  if s.length ≠ 3 then ok none
  else do
    let c ← look s
    let c1 ← look (s.drop 1)
    let c2 ← look (s.drop 2)
    if c = 110 then (if c1 ≠ 97 ∨ c2 ≠ 110 then ok none else ok (some o.nan))
    else if c1 ≠ 65 ∨ c2 ≠ 78 then ok none else ok (some o.nan)

/-- `"infinity"` with its terminator (17587). -/
def infLower : List Byte := [105, 110, 102, 105, 110, 105, 116, 121, 0]
/-- `"INFINITY"` with its terminator (17586). -/
def infUpper : List Byte := [73, 78, 70, 73, 78, 73, 84, 89, 0]

/-- Loop 17596-17606. -/
def infLoop (lit : List Byte) : Nat → List Byte → Outcome Bool
  | _, [] => ok true
  | i, c :: t => do
    let x ← deref lit i
    if x = c then infLoop lit (i + 1) t else ok false

/-- `parse_inf` (17583-17614). -/
def parseInf {R : Type} (o : Ops R) (s : List Byte) (negative : Bool) : Outcome (Option R) :=
  if s.length ≠ 3 ∧ s.length ≠ 8 then ok none
  else do
    let c ← look s
    let b ← infLoop (if c = 105 then infLower else infUpper) 0 s
    ok (if b then some (if negative then o.neg o.inf else o.inf) else none)

/-- What the treatment of the ending (17727-17766) leads to. -/
inductive Ending (R : Type) where
  | result (r : Option R)
  | more (rest : List Byte)

/-- 17735-17749 and 17751-17765. -/
def special {R : Type} (o : Ops R) (negative : Bool) (s : List Byte) : Outcome (Option R) := do
  let c ← look s
  if 73 ≤ c.toNat ∧ c.toNat ≤ 110 then
    if c = 105 ∨ c = 73 then parseInf o s negative
    else if c = 110 ∨ c = 78 then parseNan o s
    else ok none
  else ok none

/-- 17727-17766, entered with `end != itr`; `c` is the variable of that name. -/
def ending {R : Type} (o : Ops R) (negative : Bool) (c : Byte) (s : List Byte) : Outcome (Ending R) :=
  if c = 102 ∨ c = 70 ∨ c = 108 ∨ c = 76 then ok (.more s.tail)
  else if c = 35 then
    if s.tail = [] then ok (.result none) else do
      let r ← special o negative s.tail
      ok (.result r)
  else do
    let r ← special o negative s
    ok (.result r)

/-- 17770-17776. -/
def finish {R : Type} (o : Ops R) (minExp : Int) (negative instate : Bool) (d : R) (exponent : Int) (s : List Byte) : Outcome (Option R) :=
  if s ≠ [] ∨ instate = false then ok none
  else do
    let d ← if exponent ≠ 0 then pow10 o minExp d exponent else ok d
    ok (some (if negative then o.neg d else d))

/-- 17727-17776: the ending, if there is one, and the result. -/
def endAndFinish {R : Type} (o : Ops R) (minExp : Int) (negative instate : Bool) (d : R) (exponent : Int) (c : Byte) (s : List Byte) :
    Outcome (Option R) :=
  if s = [] then finish o minExp negative instate d exponent s
  else do
    match ← ending o negative c s with
    | .result r => ok r
    | .more rest => finish o minExp negative instate d exponent rest

/-- 17708-17776: the exponent, if there is one, and what follows. -/
def afterMantissa {R : Type} (o : Ops R) (minExp : Int) (negative instate : Bool) (d : R) (s : List Byte) : Outcome (Option R) :=
  match s with
  | [] => finish o minExp negative instate d 0 []
  | c :: t =>
    if c = 101 ∨ c = 69 then do
      let r ← parseExp t
      if r.1 then endAndFinish o minExp negative instate d r.2.2 c r.2.1
      else if r.2.1 = [] then ok none
      else do
        let c ← look r.2.1
        endAndFinish o minExp negative instate d r.2.2 c r.2.1
    else endAndFinish o minExp negative instate d 0 c (c :: t)

/-- `static_cast<int>(-std::distance(curr,itr))` (17701). -/
def negDistance (n : Nat) : Int := (-(n : Int)).bmod (2 ^ 32)

/-- 17678-17776: the fraction, if there is one, and what follows. -/
def fraction {R : Type} (o : Ops R) (minExp : Int) (negative instate : Bool) (d : R) (s : List Byte) : Outcome (Option R) :=
  match s with
  | [] => afterMantissa o minExp negative instate d []
  | c :: t =>
    if c = 46 then do
      let r ← digitLoop o 0 t o.zero
      if r.2.length ≠ t.length then do
        let f ← pow10 o minExp r.1 (negDistance (t.length - r.2.length))
        afterMantissa o minExp negative true (o.add d f) r.2
      else afterMantissa o minExp negative instate d r.2
    else afterMantissa o minExp negative instate d (c :: t)

/-- 17634-17776: the part before the point, if there is one, and what follows. -/
def intPart {R : Type} (o : Ops R) (minExp : Int) (negative : Bool) (s : List Byte) : Outcome (Option R) := do
  let c ← look s
  if c ≠ 46 then do
    let r ← digitLoop o 0 (skipZeros s) o.zero
    fraction o minExp negative (r.2.length ≠ s.length) r.1 r.2
  else fraction o minExp negative false o.zero s

/-- `string_to_type_converter_impl(itr, end, t, real_type_tag)` (17616-17777): the value, `none` for a failure. -/
def realParse {R : Type} (o : Ops R) (minExp : Int) (s : List Byte) : Outcome (Option R) :=
  match s with
  | [] => ok none
  | c :: t =>
    if c = 45 ∨ c = 43 then
      if t = [] then ok none else intPart o minExp (c = 45) t
    else intPart o minExp false (c :: t)

end Strtk.Real
