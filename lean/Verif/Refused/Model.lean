import Verif.Codec.Model
import Verif.Strings.Model
import Verif.Join.Model

/-!
# The functions that write to a string, when memory can be refused (strtk.hpp 1190-1760, 1869-1875, 4450-5010, 10925-11273, 11430-11482)

The other models let every string grow.  Here an output string has a capacity, and a change that needs more asks for memory; each request has
a number and may be refused, in which case `std::bad_alloc` leaves the function and the string is as it was before that change (the guarantee
of the standard library).  How much a string takes when it grows, and whether `reserve` with a smaller number asks for a smaller block (it
does in older versions of libstdc++), is left to the machine.
-/

namespace Strtk.Refused
open Outcome Mem Strtk.Codec

/-- A machine: which requests it grants, the capacity a string of capacity `c` takes when it needs `n`, whether `reserve` may ask for less, and
the capacity of a new string. -/
structure Machine where
  grants : Nat → Bool
  grow : Nat → Nat → Nat
  shrinks : Bool
  small : Nat

/-- A string that has to grow gets what it needs. -/
def Machine.Sound (M : Machine) : Prop := ∀ c n, n ≤ M.grow c n

/-- The output string and the number of requests made so far. -/
structure State where
  text : List Byte
  cap : Nat
  asked : Nat
  deriving DecidableEq, Repr

/-- A string is no longer than its capacity. -/
def State.Fits (st : State) : Prop := st.text.length ≤ st.cap

/-- A run: `none` is `std::bad_alloc`. -/
abbrev Run (β : Type) := Outcome (Option β × State)

/-- Code that works on the output string. -/
def Prog (β : Type) := State → Run β

/-- One statement after another; an exception ends the function. -/
def Prog.andThen {β γ : Type} (p : Prog β) (f : β → Prog γ) : Prog γ := fun st =>
  match p st with
  | ok (some b, st) => f b st
  | ok (none, st) => ok (none, st)
  | ub => ub
  | diverge => diverge
  | thrown => thrown

instance : Monad Prog where
  pure b := fun st => ok (some b, st)
  bind := Prog.andThen

/-- One request. -/
def request (M : Machine) : Prog Unit := fun st =>
  if M.grants st.asked then ok (some (), { st with asked := st.asked + 1 }) else ok (none, { st with asked := st.asked + 1 })

/-- `k` requests, for a temporary object. -/
def requests (M : Machine) : Nat → Prog Unit
  | 0 => pure ()
  | k + 1 => do request M; requests M k

/-- Make room for `n` characters. -/
def room (M : Machine) (n : Nat) : Prog Unit := fun st =>
  if n ≤ st.cap then ok (some (), st) else (do request M; fun st => ok (some (), { st with cap := M.grow st.cap n }) : Prog Unit) st

/-- A change of the text that asks for no memory. -/
def inPlace {β : Type} (f : List Byte → Outcome (β × List Byte)) : Prog β := fun st =>
  (f st.text).bind fun (b, t) => ok (some b, { st with text := t })

/-- A computation that does not touch the text. -/
def value {β : Type} (x : Outcome β) : Prog β := fun st => x.bind fun b => ok (some b, st)

/-- `std::string::size()`. -/
def size : Prog Nat := fun st => ok (some st.text.length, st)

/-- `std::string::resize(n)`. -/
def resizeTo (M : Machine) (n : Nat) : Prog Unit := do
  room M n
  inPlace fun t => ok ((), resize 0 t n)

/-- `std::string::append`, `operator+=`. -/
def append (M : Machine) (x : List Byte) : Prog Unit := do
  let n ← size
  room M (n + x.length)
  inPlace fun t => ok ((), t ++ x)

/-- `std::string::assign`. -/
def assign (M : Machine) (x : List Byte) : Prog Unit := do
  room M x.length
  inPlace fun _ => ok ((), x)

/-- `std::string::reserve(n)`. -/
def reserve (M : Machine) (n : Nat) : Prog Unit := fun st =>
  if n ≤ st.cap ∧ M.shrinks then
    (do request M; fun st => ok (some (), { st with cap := max n st.text.length }) : Prog Unit) st
  else room M n st

/-! ## Codecs -/

/-- `convert_bin_to_hex(const std::string&, std::string&)` (4450-4457). -/
def binToHexM (M : Machine) (b : List Byte) : Prog Unit := do
  resizeTo M (b.length * 2)
  inPlace fun buf => do let buf ← binToHexLoop b buf 0; ok ((), buf)

/-- `convert_hex_to_bin(const std::string&, std::string&)` (4551-4561). -/
def hexToBinM (M : Machine) (h : List Byte) : Prog Bool :=
  if h = [] ∨ h.length % 2 = 1 then pure false
  else do
    resizeTo M (h.length >>> 1)
    inPlace fun buf => hexToBinRaw h buf 0

/-- `convert_bin_to_base64(const std::string&, std::string&)` (4618-4626). -/
def b64EncM (M : Machine) (src : List Byte) : Prog Unit := do
  resizeTo M (max 4 (src.length <<< 1))
  let n ← inPlace fun buf => b64Enc src buf
  resizeTo M n

/-- `convert_base64_to_bin(const std::string&, std::string&)` (4723-4730). -/
def b64DecM (M : Machine) (src : List Byte) : Prog Unit := do
  resizeTo M src.length
  let n ← inPlace fun buf => b64Dec src buf
  resizeTo M n

/-- `twoway_bitwise_interleave(const std::string&, const std::string&, std::string&)` (4928-4942). -/
def interleaveM (M : Machine) (s1 s2 : List Byte) : Prog Bool :=
  if s1.length ≠ s2.length then pure false
  else do
    resizeTo M s1.length
    inPlace fun buf => interleaveRaw s1 s2 buf

/-- `bitwise_transform(operation, const std::string&, const std::string&, std::string&)` (4999-5010). -/
def bitwiseTransformM (M : Machine) (op : BitOp) (s1 s2 : List Byte) : Prog Unit :=
  if s1.length ≠ s2.length then pure ()
  else do
    resizeTo M s1.length
    inPlace fun buf => do let buf ← bitwiseLoop op s1 s2 buf 0; ok ((), buf)

/-! ## Patterns -/

/-- The requests of `delta_list.push_back` (1720): `k` more elements for a vector of `n` elements and capacity `c`. -/
def pushRequests (M : Machine) : Nat → Nat → Nat → Prog Unit
  | 0, _, _ => pure ()
  | k + 1, n, c => if n = c then do request M; pushRequests M k (n + 1) (M.grow c (n + 1)) else pushRequests M k (n + 1) c

/-- `replace_pattern(s, p, r, n)` (1695-1760).  The searches ask for no memory, so they are made first. -/
def replacePatternM (M : Machine) (s p r : List Byte) : Prog Unit :=
  if p = [] ∨ p = r then assign M s
  else do
    request M
    let deltas ← value (Strings.deltaLoop s p (s.length + 2) 0 [])
    pushRequests M deltas.length 0 (min 32 (s.length / p.length + 1))
    if deltas = [] then assign M s
    else do
      let inc := Strings.toInt32 r.length - Strings.toInt32 p.length
      resizeTo M ((deltas.length * (inc % 2 ^ 64).toNat + s.length) % 2 ^ 64)
      inPlace fun n => do
        let (sItr, nItr, n) ← Strings.patCopy s p.length r deltas 0 0 0 n
        if s.length ≠ sItr then do
          let piece ← slice s sItr (s.length - sItr)
          let n ← copyTo n nItr piece
          ok ((), n)
        else ok ((), n)

/-- `remove_pattern(s, p, n)` (1869-1875); the static empty string asks for no memory. -/
def removePatternM (M : Machine) (s p : List Byte) : Prog Unit := replacePatternM M s p []

/-- `remove_inplace(predicate, std::string&)` (1190-1261). -/
def removeInplaceM (M : Machine) (p : Byte → Bool) : Prog Unit := do
  let removed ← inPlace fun s => do let (s, n) ← Strings.removeInplaceRange p s; ok (n, s)
  if removed > 0 then do
    let n ← size
    resizeTo M (n - removed)
  else pure ()

/-! ## Appending -/

/-- `join(output, delimiter, begin, end)` (11102-11116); `construct` (10925-11100) makes the same calls.  `cost a` is the number of requests made
by `type_to_string(a)`. -/
def joinM {β : Type} (M : Machine) (txt : β → List Byte) (cost : β → Nat) (delim : List Byte) : List β → Prog Unit
  | [] => pure ()
  | [a] => do
    requests M (cost a)
    append M (txt a)
  | a :: b :: t => do
    requests M (cost a)
    append M (txt a)
    append M delim
    joinM M txt cost delim (b :: t)

/-- The delimiter of `join_if` (11261-11264). -/
def between (M : Machine) (first : Bool) (delim : List Byte) : Prog Unit := if !first then append M delim else pure ()

/-- `join_if(output, delimiter, predicate, begin, end)` (11249-11273). -/
def joinIfM {β : Type} (M : Machine) (txt : β → List Byte) (cost : β → Nat) (p : β → Bool) (delim : List Byte) : Bool → List β → Prog Unit
  | _, [] => pure ()
  | first, a :: t =>
    if p a then do
      between M first delim
      requests M (cost a)
      append M (txt a)
      joinIfM M txt cost p delim false t
    else joinIfM M txt cost p delim first t

/-- A local string of capacity `c` that becomes `n` long: its capacity then. -/
def localRoom (M : Machine) (c n : Nat) : Prog Nat := if n ≤ c then pure c else do request M; pure (M.grow c n)

/-- Loop 11473-11481 of `bracketize`; `c` is the capacity of the local string. -/
def bracketizeLoop {β : Type} (M : Machine) (txt : β → List Byte) (cost : β → Nat) (pre post : List Byte) : Nat → List β → Prog Unit
  | _, [] => pure ()
  | c, a :: t => do
    let c ← localRoom M c pre.length
    requests M (cost a)
    let c ← localRoom M c (pre ++ txt a).length
    let c ← localRoom M c (pre ++ txt a ++ post).length
    append M (pre ++ txt a ++ post)
    bracketizeLoop M txt cost pre post c t

/-- `bracketize(output, pre, post, begin, end)` (11463-11482). -/
def bracketizeM {β : Type} (M : Machine) (txt : β → List Byte) (cost : β → Nat) (pre post : List Byte) (l : List β) : Prog Unit := do
  let c ← localRoom M M.small 1024
  bracketizeLoop M txt cost pre post c l

/-- Loops 11436-11439 and 11456-11459. -/
def appendTimes (M : Machine) (s : List Byte) : Nat → Prog Unit
  | 0 => pure ()
  | n + 1 => do append M s; appendTimes M s n

/-- `replicate(n, str, output)` (11430-11440); the sum and the product are computed on 64 bits. -/
def replicateM (M : Machine) (n : Nat) (s : List Byte) : Prog Unit :=
  if n = 0 then pure ()
  else do
    let l ← size
    reserve M ((l + s.length * n) % 2 ^ 64)
    appendTimes M s n

/-- The copy of a string of `n` characters (11454). -/
def tempCopy (M : Machine) (n : Nat) : Prog Unit := if n ≤ M.small then pure () else request M

/-- `replicate_inplace(n, str)` (11450-11460). -/
def replicateInplaceM (M : Machine) (n : Nat) : Prog Unit := do
  let temp ← inPlace fun t => ok (t, t)
  tempCopy M temp.length
  let l ← size
  reserve M ((l + l * n) % 2 ^ 64)
  appendTimes M temp n

end Strtk.Refused
