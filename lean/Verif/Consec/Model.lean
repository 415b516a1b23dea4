import Verif.Text.Model

/-! # Runs of consecutive values (strtk.hpp 15607-16240)

A range is a list; iterators are offsets.  A predicate may have state (`σ`), which is passed along; `stateless` wraps one without. -/

namespace Strtk.Consec
open Outcome

variable {α σ : Type}

/-- A predicate object: from its state and an element the answer and the next state. -/
abbrev Pred (σ α : Type) := σ → α → Bool × σ

/-- A predicate without state. -/
abbrev stateless (p : α → Bool) : Pred Unit α := fun u a => (p a, u)

/-- `--count` for a `std::size_t`. -/
def dec (c : Nat) : Nat := (c + (2 ^ 64 - 1)) % 2 ^ 64

/-- `while ((end != itr) && !p(*itr)) ++itr` (15663-15664, 15704-15705). -/
def skip (p : Pred σ α) (s : List α) : Nat → σ → Nat → Outcome (σ × Nat)
  | 0, _, _ => diverge
  | fuel + 1, u, itr =>
    if itr = s.length then ok (u, itr)
    else do
      let c ← deref s itr
      let (b, u) := p u c
      if b then ok (u, itr) else skip p s fuel u (itr + 1)

/-- The loop of `find_exactly_n_consecutive_values` (15648-15673); the result is the offset of the first element found, `none` for `(end,end)`.
`std::advance(itr, 1 - n)` moves back by `n - 1`. -/
def exactlyLoop (p : Pred σ α) (n : Nat) (stateful : Bool) (s : List α) : Nat → σ → Nat → Nat → Outcome (Option Nat)
  | 0, _, _, _ => diverge
  | fuel + 1, u, itr, count =>
    if itr = s.length then ok none
    else do
      let c ← deref s itr
      let (b, u) := p u c
      if b then
        if dec count ≠ 0 then exactlyLoop p n stateful s fuel u (itr + 1) (dec count)
        else if n ≤ itr + 1 ∧ 1 ≤ n then ok (some (itr + 1 - n)) else ub
      else do
        let (u, itr) ← skip p s (s.length + 1) u (itr + 1)
        if !stateful then exactlyLoop p n stateful s fuel u itr n
        else if itr = s.length then ub
        else exactlyLoop p n stateful s fuel u (itr + 1) (dec count)

/-- `find_exactly_n_consecutive_values` (15637-15676) for the range from offset `itr`; the distance is cast to `unsigned int`. -/
def findExactly (p : Pred σ α) (u : σ) (n : Nat) (stateful : Bool) (s : List α) (itr : Nat) : Outcome (Option Nat) :=
  if (s.length - itr) % 2 ^ 32 < n then ok none else exactlyLoop p n stateful s (s.length + 1) u itr n

/-- The loop of `find_atleast_n_consecutive_values` (15689-15716); the result is offset and length of the run.  A count that does not fit `int` is
taken as undefined. -/
def atleastLoop (p : α → Bool) (n : Nat) (s : List α) : Nat → Nat → Nat → Outcome (Option (Nat × Nat))
  | 0, _, _ => diverge
  | fuel + 1, itr, count =>
    let back := if count < 2 ^ 31 ∧ count ≤ itr then ok (some (itr - count, count)) else ub
    if itr = s.length then
      if count ≥ n then back else ok none
    else do
      let c ← deref s itr
      if p c then atleastLoop p n s fuel (itr + 1) (count + 1)
      else if count ≥ n then back
      else do
        let (_, itr) ← skip (stateless p) s (s.length + 1) () itr
        atleastLoop p n s fuel itr 0

/-- `find_atleast_n_consecutive_values` (15679-15717). -/
def findAtleast (p : α → Bool) (n : Nat) (s : List α) (itr : Nat) : Outcome (Option (Nat × Nat)) :=
  if (s.length - itr) % 2 ^ 32 < n then ok none else atleastLoop p n s (2 * s.length + 2) itr 0

/-- The loop of `match_exactly_n_consecutive_values` (15762-15775), over the elements that remain. -/
def matchExactlyLoop (p : α → Bool) : List α → Nat → Bool
  | [], _ => false
  | c :: s, count => if p c then (if dec count = 0 then true else matchExactlyLoop p s (dec count)) else false

/-- `match_exactly_n_consecutive_values` (15752-15776). -/
def matchExactly (p : α → Bool) (n : Nat) (s : List α) : Bool :=
  if s.length % 2 ^ 32 < n then false else matchExactlyLoop p s n

/-- The loop of `match_atleast_n_consecutive_values` (15789-15802). -/
def matchAtleastLoop (p : α → Bool) (n : Nat) : List α → Nat → Bool
  | [], _ => false
  | c :: s, count => if p c then matchAtleastLoop p n s (count + 1) else if count ≥ n then true else false

/-- `match_atleast_n_consecutive_values` (15779-15803). -/
def matchAtleast (p : α → Bool) (n : Nat) (s : List α) : Bool :=
  if s.length % 2 ^ 32 < n then false else matchAtleastLoop p n s 0

/-- `find_mode` (15607-15614). -/
inductive Mode where
  | exactly
  | atleast
deriving DecidableEq

/-- `find_n_consecutive_values` (15737-15749): offset and length of what is found. -/
def findMode (p : α → Bool) (n : Nat) (mode : Mode) (s : List α) (itr : Nat) : Outcome (Option (Nat × Nat)) :=
  match mode with
  | .exactly => do let r ← findExactly (stateless p) () n false s itr; ok (r.map fun i => (i, n))
  | .atleast => findAtleast p n s itr

/-- `find_type` and its predicates (15616-15626, 15823-15857). -/
inductive FindType where
  | digits
  | letters
  | lowercase
  | uppercase
  | lettersDigits
deriving DecidableEq

/-- The predicate of a `find_type` (15828-15853). -/
def FindType.pred : FindType → UInt8 → Bool
  | digits => Text.isDigit
  | letters => Text.isLetter
  | lowercase => Text.isLower
  | uppercase => Text.isUpper
  | lettersDigits => Text.isLetterOrDigit

/-- The loops of the `split_on_consecutive` functions (15912-15933, 15953-15969, 15988-16005, 16025-16042), `find` being the search used and `limit` the
bound of the loop condition `match_count <= n` if there is one.  A range found at the end with length 0 ends the loop. -/
def splitLoop (find : Nat → Outcome (Option (Nat × Nat))) (len : Nat) (limit : Option Nat) : Nat → Nat → Nat → Outcome (List (Nat × Nat))
  | 0, _, _ => diverge
  | fuel + 1, itr, count =>
    if itr ≠ len ∧ limit.all (count ≤ ·) then do
      let r ← find itr
      match r with
      | none => ok []
      | some (i, k) =>
        if i = len ∧ k = 0 then ok []
        else do
          let rest ← splitLoop find len limit fuel (i + k) (count + 1)
          ok ((i, k) :: rest)
    else ok []

/-- `split_on_consecutive(n, p, ...)` (15898-15934) with `stateful_predicate` false: the ranges put out, as offset and length. -/
def splitPred (fuel : Nat) (p : α → Bool) (n : Nat) (s : List α) : Outcome (List (Nat × Nat)) :=
  if n = 0 then ok [] else splitLoop (findMode p n .exactly s) s.length none fuel 0 0

/-- `split_on_consecutive(n, m, p, ...)` (15937-15970). -/
def splitPredN (fuel : Nat) (p : α → Bool) (n m : Nat) (s : List α) : Outcome (List (Nat × Nat)) :=
  if n = 0 then ok [] else splitLoop (findMode p m .exactly s) s.length (some n) fuel 0 0

/-- `split_on_consecutive(n, type, mode, ...)` (15973-16006). -/
def splitType (fuel : Nat) (n : Nat) (type : FindType) (mode : Mode) (s : List UInt8) : Outcome (List (Nat × Nat)) :=
  if n = 0 then ok [] else splitLoop (findMode type.pred n mode s) s.length none fuel 0 0

/-- `split_on_consecutive_n(n, m, type, mode, ...)` (16009-16043). -/
def splitTypeN (fuel : Nat) (n m : Nat) (type : FindType) (mode : Mode) (s : List UInt8) : Outcome (List (Nat × Nat)) :=
  if n = 0 then ok [] else splitLoop (findMode type.pred m mode s) s.length (some n) fuel 0 0

end Strtk.Consec
