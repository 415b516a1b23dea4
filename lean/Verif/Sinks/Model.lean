import Verif.Codec.Model
import Verif.Mem

/-!
# Model of the token sinks (strtk.hpp 14797-15238)

The object behind `T* t_` is the list of its `sizeof(T)` bytes in memory order; the host is little-endian.
`range_only_contains` (883-899, modelled in `Verif.Strings.Model`) is used through `List.all`.
-/

namespace Strtk.Sinks
open Outcome Mem Strtk.Codec

/-- `hex_value_check` (14819-14832). -/
def hexValueCheck (c : Byte) : Bool :=
  (48 ≤ c.toNat && c.toNat ≤ 57) || (65 ≤ c.toNat && c.toNat ≤ 70) || (97 ≤ c.toNat && c.toNat ≤ 102)

/-- `offset` (14856-14859, 15039-15041). -/
def hexOffset (s : List Byte) : Outcome Nat :=
  if s.length > 2 then do
    let c0 ← deref s 0
    let c1 ← deref s 1
    if c0 = 48 ∧ (c1 = 120 ∨ c1 = 88) then ok 2 else ok 0
  else ok 0

/-- State of a number sink: `valid_` and the bytes of `*t_`. -/
structure Sink where
  valid : Bool
  mem : List Byte
  deriving DecidableEq, Repr

/-- `reverse_bytes()` (14893-14904, 14995-15006). -/
def reverseBytes (mem : List Byte) : Outcome (List Byte) := reverseLoop (mem.length + 1) mem 0 mem.length

/-- `hex_to_number_sink<T>::operator=(std::pair)` (14853-14879); `w` is `sizeof(T)`. -/
def hexToNumber (w : Nat) (sink : Sink) (s : List Byte) : Outcome Sink := do
  let offset ← hexOffset s
  let size := s.length
  if size - offset > 2 * w then ok sink else do
  let bufferOffset := (size - offset) % 2
  let buffer := 48 :: List.replicate (2 * w - 1) 0
  if !((s.drop offset).all hexValueCheck) then ok { sink with valid := false } else do
  let buffer ← copyTo buffer bufferOffset (s.drop offset)
  let text ← slice buffer 0 (size - offset + bufferOffset)
  let (valid, mem) ← hexToBinRaw text (List.replicate w 0) 0
  let mem ← reverseBytes mem
  ok { valid := valid, mem := mem }

/-- `base64_value_check` (14918-14934). -/
def base64ValueCheck (c : Byte) : Bool :=
  (48 ≤ c.toNat && c.toNat ≤ 57) || (65 ≤ c.toNat && c.toNat ≤ 90) || (97 ≤ c.toNat && c.toNat ≤ 122) || c == 43 || c == 47 || c == 61

/-- `base64_to_number_sink<T>::operator=` (14955-14986). -/
def base64ToNumber (w : Nat) (sink : Sink) (s : List Byte) : Outcome Sink :=
  if !(s.all base64ValueCheck) then ok { sink with valid := false } else do
  let (_, mem) ← b64Dec s (List.replicate w 0)
  let mem ← reverseBytes mem
  ok { sink with mem := mem }

/-- `hex_to_string_sink::operator=(std::pair)` (15035-15052): validity and the target string. -/
def hexToString (s0 : List Byte) (s : List Byte) : Outcome (Bool × List Byte) := do
  let offset ← hexOffset s
  if s.length - offset < 2 then ok (false, s0) else
  hexToBinRaw (s.drop offset) (resize 0 s0 ((s.length - offset) / 2)) 0

/-- `truncated_int<T>::operator()(begin,end)` (15099-15119) with a target: `frac` is `fractional_size_` (`none` for the maximum), `conv` is
`string_to_type_converter` for `T`. -/
def truncatedInt {β : Type} (conv : List Byte → Outcome (Bool × β)) (t0 : β) (frac : Option Nat) (s : List Byte) : Outcome (Bool × β) :=
  match frac with
  | some f => if s.length < f + 1 then ok (false, t0) else conv (s.take (s.length - (f + 1)))
  | none => conv (s.takeWhile (fun c => !(c == 46)))

end Strtk.Sinks
