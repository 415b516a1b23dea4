import Verif.Strings.Model
import Verif.Codec.Model
import Verif.Join.Model
import Verif.Parse.Model

/-!
# Model of ext_string and build_string (strtk.hpp 11393-11428, 18159-18457)

The state of both is the text they hold (`s_`, `data_`). What `type_to_string` delivers for an appended value is a parameter of the operation (the
integer types are C28).
-/

namespace Strtk.ExtString
open Outcome Strtk.Codec

/-- The member functions that change the text. -/
inductive Call where
  /-- `operator<<` (18182-18187), `operator+=` (18281-18286), `build_string::operator<<` (11402-11413) -/
  | append (t : List Byte)
  /-- `operator-=` (18288-18292) -/
  | minus (p : List Byte)
  /-- `operator*=` (18294-18298) -/
  | times (n : Nat)
  /-- `to_lowercase` (18231-18235) -/
  | lower
  /-- `to_uppercase` (18237-18241) -/
  | upper
  /-- `remove_leading(removal_set)` (18251-18260) -/
  | leading (set : List Byte)
  /-- `remove_trailing(removal_set)` (18270-18279) -/
  | trailing (set : List Byte)
  /-- `replace(pattern, replace_pattern)` (18300-18306) -/
  | replace (p r : List Byte)

/-- `remove_leading(removal_set)` (18251-18260). -/
def removeLeading (set s : List Byte) : Outcome (List Byte) :=
  if set = [] then ok s else Strings.removeLeading (Parse.delimPred set) s

/-- `remove_trailing(removal_set)` (18270-18279). -/
def removeTrailing (set s : List Byte) : Outcome (List Byte) :=
  if set = [] then ok s else Strings.removeTrailing (Parse.delimPred set) s

/-- `replace` (18300-18306): through an empty string of its own. -/
def replace (p r s : List Byte) : Outcome (List Byte) := Strings.replacePattern s p r []

/-- One member function. -/
def call (s : List Byte) : Call → Outcome (List Byte)
  | .append t => ok (s ++ t)
  | .minus p => replace p [] s
  | .times n => ok (Join.replicateInplace n s)
  | .lower => ok (toLowercase s)
  | .upper => ok (toUppercase s)
  | .leading set => removeLeading set s
  | .trailing set => removeTrailing set s
  | .replace p r => replace p r s

/-- A sequence of calls. -/
def run (s : List Byte) : List Call → Outcome (List Byte)
  | [] => ok s
  | c :: cs => do
    let s ← call s c
    run s cs

/-- `operator+` with the text of a value on the right (18424-18428). -/
def plus (s t : List Byte) : List Byte := s ++ t
/-- `operator+` with the text of a value on the left (18430-18434). -/
def plusLeft (t s : List Byte) : List Byte := t ++ s
/-- `operator*` (18414-18422), either order. -/
def mult (n : Nat) (s : List Byte) : List Byte := Join.replicate n s []
/-- `operator-` (18436-18452). -/
def sub (s p : List Byte) : Outcome (List Byte) := Strings.removePattern s p []
/-- `all_chars` (18399-18407). -/
def allChars : List Byte := Join.iota 256 0

end Strtk.ExtString
