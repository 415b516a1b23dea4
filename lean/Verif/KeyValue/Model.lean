import Verif.Split.Props
import Verif.Fast.Props

/-! # Key/value parsing (strtk.hpp 24012-24312, `split_pair` 4054-4086, `util::value` 21162-21333)

A registered variable is a number `x`; `Nat → V` is the memory holding the variables.  What `util::value` does with a text (converting it to the type of
the variable, 21202-21205 and 21264-21271) is the parameter `conv`: given the old contents and the text, the flag returned and the new contents.  Token
ranges are represented by their text. -/

namespace Strtk.KeyValue
open Outcome Strtk.Number

/-- The loop of `split_pair` (4067-4085) from offset `i`: key range and value range. -/
def splitPairLoop {α : Type} (d : α → Bool) (s : List α) : Nat → Nat → Outcome (Option ((Nat × Nat) × (Nat × Nat)))
  | 0, _ => diverge
  | fuel + 1, i =>
    if s.length ≠ i then do
      let c ← deref s i
      if d c then
        let itr := i + 1
        if s.length - itr ≠ 0 then ok (some ((0, i), (itr, s.length))) else ok none
      else splitPairLoop d s fuel (i + 1)
    else ok none

/-- `split_pair` (4057-4086); `none` is the result `false`. -/
def splitPair {α : Type} (d : α → Bool) (s : List α) : Outcome (Option ((Nat × Nat) × (Nat × Nat))) :=
  if s.length = 0 then ok none else splitPairLoop d s (s.length + 1) 0

/-! ## Key maps -/

/-- `uintkey_map::operator()` up to the lookup (24181-24190): `lut` is `value_lut_`, an unregistered entry is `none`. -/
def uintFind (lut : List (Option Nat)) (key : List Byte) : Outcome (Option Nat) := do
  let (good, k) ← Fast.numericConvert ⟨false, 64⟩ key.length key 0 true
  if good then
    if k ≥ lut.length then ok none
    else do
      let v ← deref lut k.toNat
      ok v
  else ok none

/-- `uintkey_map::register_keyvalue` (24196-24209). -/
def uintRegister (lut : List (Option Nat)) (key x : Nat) : Bool × List (Option Nat) :=
  if key < lut.length then (true, lut.set key (some x)) else (false, lut)

/-- `std::map::find`. -/
def mapFind {K : Type} [DecidableEq K] (m : List (K × Nat)) (k : K) : Option Nat := (m.find? fun e => e.1 = k).map Prod.snd

/-- `key_map::register_keyvalue` (24297-24305): the entry is made or replaced. -/
def mapRegister {K : Type} [DecidableEq K] (m : List (K × Nat)) (k : K) (x : Nat) : List (K × Nat) := (k, x) :: m.filter fun e => e.1 ≠ k

/-- `key_map<std::string>` up to the lookup (24280-24292, keygen 24228-24234), with the default validators. -/
def stringFind (m : List (List Byte × Nat)) (key : List Byte) : Outcome (Option Nat) := ok (mapFind m key)

/-- `key_map<unsigned int>` (24280-24292, keygen 24237-24247): a text that is no number becomes the greatest `unsigned int`. -/
def numberFind (m : List (Int × Nat)) (key : List Byte) : Outcome (Option Nat) := do
  let (good, k) ← Fast.numericConvert ⟨false, 32⟩ key.length key 0 true
  ok (mapFind m (if good then k else 4294967295))

/-! ## The parser -/

variable {V : Type}

/-- Assigning a variable. -/
def setVar (mem : Nat → V) (x : Nat) (v : V) : Nat → V := fun y => if y = x then v else mem y

/-- `kv_map_(key_range, value_range)` (24181-24193, 24280-24294). -/
def deliver (find : List Byte → Outcome (Option Nat)) (conv : Nat → V → List Byte → Bool × V) (mem : Nat → V) (key value : List Byte) :
    Outcome (Bool × (Nat → V)) := do
  let r ← find key
  match r with
  | none => ok (false, mem)
  | some x =>
    let (good, v) := conv x (mem x) value
    ok (good, setVar mem x v)

/-- `split_pair` and the delivery for one token (24075-24080, 24121-24128). -/
def process (pair : Byte → Bool) (find : List Byte → Outcome (Option Nat)) (conv : Nat → V → List Byte → Bool × V) (mem : Nat → V) (tok : List Byte) :
    Outcome (Bool × (Nat → V)) := do
  let r ← splitPair pair tok
  match r with
  | none => ok (false, mem)
  | some (k, v) => deliver find conv mem (Split.textOf tok k) (Split.textOf tok v)

/-- The loop over the tokens (24070-24082). -/
def strictLoop (pair : Byte → Bool) (find : List Byte → Outcome (Option Nat)) (conv : Nat → V → List Byte → Bool × V) :
    (Nat → V) → List (List Byte) → Outcome (Bool × (Nat → V))
  | mem, [] => ok (true, mem)
  | mem, t :: ts =>
    if t.length = 0 then strictLoop pair find conv mem ts
    else do
      let (good, mem) ← process pair find conv mem t
      if good then strictLoop pair find conv mem ts else ok (false, mem)

/-- `operator()(data, false)` (24056-24083). -/
def parseStrict (block pair : Byte → Bool) (find : List Byte → Outcome (Option Nat)) (conv : Nat → V → List Byte → Bool × V) (mem : Nat → V)
    (data : List Byte) : Outcome (Bool × (Nat → V)) := do
  let (toks, count) ← Split.split {} block data
  if count = 0 then ok (false, mem) else strictLoop pair find conv mem (toks.map (Split.textOf data))

/-- `pair_token_processor` called for each token (24116-24131): the number of failures and the memory. -/
def lenientLoop (pair : Byte → Bool) (find : List Byte → Outcome (Option Nat)) (conv : Nat → V → List Byte → Bool × V) :
    Nat → (Nat → V) → List (List Byte) → Outcome (Nat × (Nat → V))
  | n, mem, [] => ok (n, mem)
  | n, mem, t :: ts =>
    if t.length = 0 then lenientLoop pair find conv n mem ts
    else do
      let (good, mem) ← process pair find conv mem t
      lenientLoop pair find conv (if good then n else n + 1) mem ts

/-- `operator()(data, true)` (24084-24093): the result is always `true`; the failure count and the memory. -/
def parseLenient (block pair : Byte → Bool) (find : List Byte → Outcome (Option Nat)) (conv : Nat → V → List Byte → Bool × V) (mem : Nat → V)
    (data : List Byte) : Outcome (Nat × (Nat → V)) := do
  let (toks, _) ← Split.split {} block data
  lenientLoop pair find conv 0 mem (toks.map (Split.textOf data))

end Strtk.KeyValue
