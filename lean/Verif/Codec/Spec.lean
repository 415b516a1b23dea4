/-!
# Specifications for the codecs and bit utilities
-/

namespace Strtk.Codec

/-- The upper-case hexadecimal digit of a value below 16. -/
def hexDigit (n : Nat) : BitVec 8 := if n < 10 then BitVec.ofNat 8 (48 + n) else BitVec.ofNat 8 (65 + (n - 10))

/-- Hexadecimal text of a byte string: high digit first. -/
def hexText : List (BitVec 8) → List (BitVec 8)
  | [] => []
  | c :: t => hexDigit (c.toNat / 16) :: hexDigit (c.toNat % 16) :: hexText t

/-- The value of a hexadecimal digit of either case. -/
def hexValue (c : BitVec 8) : Option Nat :=
  if 48 ≤ c.toNat ∧ c.toNat ≤ 57 then some (c.toNat - 48)
  else if 65 ≤ c.toNat ∧ c.toNat ≤ 70 then some (c.toNat - 55)
  else if 97 ≤ c.toNat ∧ c.toNat ≤ 102 then some (c.toNat - 87)
  else none

/-- The RFC 4648 base64 alphabet. -/
def base64Char (n : Nat) : BitVec 8 :=
  if n < 26 then BitVec.ofNat 8 (65 + n)
  else if n < 52 then BitVec.ofNat 8 (97 + (n - 26))
  else if n < 62 then BitVec.ofNat 8 (48 + (n - 52))
  else if n = 62 then 43 else 47

/-- RFC 4648 base64 with padding (61 is '='). -/
def base64Text : List (BitVec 8) → List (BitVec 8)
  | [] => []
  | [a] => [base64Char (a.toNat / 4), base64Char (a.toNat % 4 * 16), 61, 61]
  | [a, b] => [base64Char (a.toNat / 4), base64Char (a.toNat % 4 * 16 + b.toNat / 16), base64Char (b.toNat % 16 * 4), 61]
  | a :: b :: c :: t =>
    base64Char (a.toNat / 4) :: base64Char (a.toNat % 4 * 16 + b.toNat / 16) ::
      base64Char (b.toNat % 16 * 4 + c.toNat / 64) :: base64Char (c.toNat % 64) :: base64Text t

/-- The number of one bits. -/
def popcount {w : Nat} (x : BitVec w) : Nat := (List.range w).countP fun i => x.getLsbD i

/-- The number of positions (byte and bit) at which two byte strings differ. -/
def bitDiff (s1 s2 : List (BitVec 8)) : Nat := ((s1.zip s2).map fun p => popcount (p.1 ^^^ p.2)).sum

/-- Bit `i` of a bitmap: bit `i % 8` of byte `i / 8`. -/
def bitAt (s : List (BitVec 8)) (i : Nat) : Option Bool := s[i / 8]?.map fun b => b.getLsbD (i % 8)

end Strtk.Codec
