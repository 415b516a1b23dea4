import Verif.Codec.Spec

/-! # Specification for the sinks -/

namespace Strtk.Sinks
open Strtk.Codec

/-- Every character is a hexadecimal digit. -/
def IsHex (s : List (BitVec 8)) : Prop := ∀ c ∈ s, (hexValue c).isSome

/-- Value of a hexadecimal numeral. -/
def hexVal (s : List (BitVec 8)) : Nat := s.foldl (fun acc c => acc * 16 + (hexValue c).getD 0) 0

/-- The numeral without its optional prefix: `s` is `ds`, or "0x" / "0X" followed by a non-empty `ds`; a numeral `ds` does not begin with
"0x" itself. -/
def HexNumeral (s ds : List (BitVec 8)) : Prop := IsHex ds ∧ (s = ds ∨ (ds ≠ [] ∧ (s = 48 :: 120 :: ds ∨ s = 48 :: 88 :: ds)))

/-- Value of an object whose bytes, lowest address first, are given (little-endian). -/
def leVal : List (BitVec 8) → Nat
  | [] => 0
  | b :: t => b.toNat + 256 * leVal t

end Strtk.Sinks
