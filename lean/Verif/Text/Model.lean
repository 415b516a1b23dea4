import Verif.Mem

/-! # `strtk::text` (strtk.hpp 15419-15605)

Characters are `UInt8` (their values as `unsigned char`). -/

namespace Strtk.Text
open Outcome Mem

/-- `center` (15421-15429). -/
def center (width : Nat) (pad : UInt8) (str : List UInt8) : List UInt8 :=
  if str.length ≥ width then str
  else
    let pad_count := width - str.length
    let pad_count_2 := (pad_count >>> 1) + (pad_count &&& 1)
    List.replicate (pad_count >>> 1) pad ++ str ++ List.replicate pad_count_2 pad

/-- `right_align` (15431-15437). -/
def rightAlign {α : Type} (width : Nat) (pad : α) (str : List α) : List α :=
  if str.length ≥ width then str else List.replicate (width - str.length) pad ++ str

/-- `left_align` (15439-15445). -/
def leftAlign (width : Nat) (pad : UInt8) (str : List UInt8) : List UInt8 :=
  if str.length ≥ width then str else str ++ List.replicate (width - str.length) pad

/-- `remaining_string` (15489-15508, both overloads); `substr` with a position inside the string. -/
def remainingString (index : Nat) (str : List UInt8) (returnEmpty : Bool) : List UInt8 :=
  if index < str.length then (str.drop index).take (str.length - index) else if !returnEmpty then str else []

/-- `is_uppercase_letter` (15520-15523); `char` is signed, so bytes from 0x80 on are negative and in none of the classes: the comparison of the unsigned
values gives the same. -/
def isUpper (c : UInt8) : Bool := 0x41 ≤ c && c ≤ 0x5A
/-- `is_lowercase_letter` (15515-15518). -/
def isLower (c : UInt8) : Bool := 0x61 ≤ c && c ≤ 0x7A
/-- `is_letter` (15510-15513). -/
def isLetter (c : UInt8) : Bool := (0x41 ≤ c && c ≤ 0x5A) || (0x61 ≤ c && c ≤ 0x7A)
/-- `is_digit` (15525-15528). -/
def isDigit (c : UInt8) : Bool := 0x30 ≤ c && c ≤ 0x39
/-- `is_hex_digit` (15530-15535). -/
def isHexDigit (c : UInt8) : Bool := (0x30 ≤ c && c ≤ 0x39) || (0x41 ≤ c && c ≤ 0x46) || (0x61 ≤ c && c ≤ 0x66)
/-- `is_letter_or_digit` (15537-15540). -/
def isLetterOrDigit (c : UInt8) : Bool := isLetter c || isDigit c

/-- The loops of `is_all_letters` and `is_all_digits` (15542-15560), with the index as the number of characters in front. -/
def isAll (p : UInt8 → Bool) : List UInt8 → Bool
  | [] => true
  | c :: s => if !p c then false else isAll p s

/-- `swap_inplace` and `swap` (15562-15574). -/
def swap (s : List UInt8) (i0 i1 : Nat) : Outcome (List UInt8) :=
  if i0 ≥ s.length then ok s
  else if i1 ≥ s.length then ok s
  else do
    let a ← deref s i0
    let b ← deref s i1
    let s ← store s i0 b
    store s i1 a

/-- `std::memcpy(mem + dst, mem + src, n)` inside one object.  `overlap` is what copying between overlapping ranges does: undefined by the standard
(`ub`); `ok ()` stands for a `memcpy` that behaves like `memmove`. -/
def memcpy (overlap : Outcome Unit) (mem : List UInt8) (dst src n : Nat) : Outcome (List UInt8) := do
  let bs ← slice mem src n
  (if n ≠ 0 ∧ dst < src + n ∧ src < dst + n then overlap else ok ())
  copyTo mem dst bs

/-- The string of `size` characters in memory `mem`, which must still end with the terminator (overwriting it with something else is undefined). -/
def ofMem (size : Nat) (mem : List UInt8) : Outcome (List UInt8) :=
  if mem.length = size + 1 ∧ mem[size]? = some 0 then ok (mem.take size) else ub

/-- `remove_inplace` and `remove` (15576-15589).  The memory of a string is its characters and the terminator. -/
def remove (overlap : Outcome Unit) (s : List UInt8) (index : Nat) : Outcome (List UInt8) :=
  if index ≥ s.length then ok s
  else do
    let mem ← memcpy overlap (s ++ [0]) index (index + 1) (s.length - index)
    let s ← ofMem s.length mem
    ok (resize 0 s (s.length - 1))

/-- `insert_inplace` and `insert` (15591-15603); `s.size() - index` is computed in 64 bits; `s[index] = c` with `index == s.size()` may only write 0. -/
def insert (overlap : Outcome Unit) (s : List UInt8) (index : Nat) (c : UInt8) : Outcome (List UInt8) := do
  let s := resize 0 s (s.length + 1)
  let mem ← memcpy overlap (s ++ [0]) (index + 1) index ((s.length + 2 ^ 64 - index) % 2 ^ 64)
  let mem ← store mem index c
  ofMem s.length mem

end Strtk.Text
