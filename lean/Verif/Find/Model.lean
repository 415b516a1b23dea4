import Verif.Mem

/-!
# Model of matching and searching (strtk.hpp 1882-2305)
-/

namespace Strtk.Find
open Outcome Mem

variable {α : Type}

/-! ## match -/

/-- Inner loop 1915-1918: skip wildcards of the pattern. -/
def skipWild (pat : List α) (isWild : α → Bool) : Nat → Nat → Outcome Nat
  | 0, _ => diverge
  | fuel + 1, p =>
    if p ≠ pat.length then do
      let c ← deref pat p
      if isWild c then skipWild pat isWild fuel (p + 1) else ok p
    else ok p

/-- Inner loop 1925-1928: skip data up to a character matching `c`. The loop condition compares `d` with the end by `!=`. -/
def skipData (cmp : α → α → Bool) (c : α) (data : List α) : Nat → Nat → Outcome Nat
  | 0, _ => diverge
  | fuel + 1, d =>
    if d ≠ data.length then do
      let x ← deref data d
      if !cmp c x then skipData cmp c data fuel (d + 1) else ok d
    else ok d

/-- Main loop and epilogue of `match_impl` (1911-1948).  `d` may step one past the end on 1930, as in the code: merely forming that pointer
is not treated as an error (for `std::string` data it is the position after the terminating zero), reading through it is. -/
def matchLoop [DecidableEq α] (cmp : α → α → Bool) (star quest : α) (pat data : List α) : Nat → Nat → Nat → Outcome Bool
  | 0, _, _ => diverge
  | fuel + 1, p, d =>
    if p ≠ pat.length ∧ d ≠ data.length then do
      let pc ← deref pat p
      if star = pc then do
        let p ← skipWild pat (fun x => decide (x = star) || decide (x = quest)) (pat.length + 1) p
        if p = pat.length then ok true
        else do
          let c ← deref pat p
          let d ← skipData cmp c data (data.length + 1) d
          matchLoop cmp star quest pat data fuel (p + 1) (d + 1)
      else if pc = quest then matchLoop cmp star quest pat data fuel (p + 1) (d + 1)
      else do
        let x ← deref data d
        if cmp pc x then matchLoop cmp star quest pat data fuel (p + 1) (d + 1) else ok false
    else if d ≠ data.length then ok false
    else if p = pat.length then ok true
    else do
      let pc ← deref pat p
      let p := if star = pc ∨ quest = pc then p + 1 else p
      ok (decide (pat.length = p))

/-- `match_impl` (1903-1949); `match` (1953-1975) passes equality as `cmp`. -/
def matchImpl [DecidableEq α] (cmp : α → α → Bool) (star quest : α) (pat data : List α) : Outcome Bool :=
  matchLoop cmp star quest pat data (pat.length + 1) 0 0

/-! ## imatch -/

/-- `std::toupper(c)` in the C locale for a signed `char`: defined for 0..127 and for EOF (-1, the byte 0xFF), undefined for the
other negative values (C17 7.4). -/
def toUpper (c : BitVec 8) : Outcome Int :=
  if c.toNat < 128 then ok (if 97 ≤ c.toNat ∧ c.toNat ≤ 122 then c.toNat - 32 else c.toNat)
  else if c = 0xFF then ok (-1)
  else ub

/-- `imatch_char` (1977-1980). -/
def imatchChar (a b : BitVec 8) : Outcome Bool := do
  let x ← toUpper a
  let y ← toUpper b
  ok (decide (x = y))

/-- Loop of `imatch` (1996-2005). -/
def imatchLoop (s1 s2 : List (BitVec 8)) : Nat → Nat → Nat → Outcome Bool
  | 0, _, _ => diverge
  | fuel + 1, i1, i2 =>
    if s1.length ≠ i1 then do
      let a ← deref s1 i1
      let b ← deref s2 i2
      let e ← imatchChar a b
      if !e then ok false else imatchLoop s1 s2 fuel (i1 + 1) (i2 + 1)
    else ok true

/-- `imatch(begin1, end1, begin2, end2)` (1983-2008), `imatch(s1, s2)` (2016-2020). -/
def imatch (s1 s2 : List (BitVec 8)) : Outcome Bool := if s1.length ≠ s2.length then ok false else imatchLoop s1 s2 (s1.length + 1) 0 0

/-! ## Searching -/

/-- `std::equal(p, p_end, s + i)` when enough data is left: used by `std::search` and below. -/
def equalAt (eq : α → α → Bool) (p s : List α) (i : Nat) : Bool :=
  (List.range p.length).all fun j => match s[i + j]?, p[j]? with
    | some a, some b => eq a b
    | _, _ => false

/-- `std::search(s + start, s_end, p, p_end, eq)` by its contract: the first position at which the pattern occurs, the end otherwise. -/
def search (eq : α → α → Bool) (s p : List α) (start : Nat) : Nat :=
  ((List.range' start (s.length + 1 - p.length - start)).find? (equalAt eq p s)).getD s.length

/-- Loop of `find_all` (2064-2070) and `ifind_all` (2113-2119). -/
def findAllLoop (eq : α → α → Bool) (p s : List α) : Nat → Nat → List (Nat × Nat) → Outcome (List (Nat × Nat))
  | 0, _, _ => diverge
  | fuel + 1, itr, out =>
    let itr := search eq s p itr
    if s.length ≠ itr then findAllLoop eq p s fuel (itr + p.length) (out ++ [(itr, itr + p.length)]) else ok out

/-- `find_all` / `ifind_all` (2055-2162): the ranges written; the count returned is their number. -/
def findAll (eq : α → α → Bool) (p s : List α) (fuel : Nat) : Outcome (List (Nat × Nat)) := findAllLoop eq p s fuel 0 []

/-- `index_of` (2289-2305); `none` is `npos`. -/
def indexOf (eq : α → α → Bool) (p s : List α) : Option Nat :=
  if p = [] then none
  else if s = [] then none
  else if p.length > s.length then none
  else
    let itr := search eq s p 0
    if s.length = itr then none else some itr

/-- `ifind` (2087-2100); `none` is `npos`. -/
def ifind (eq : α → α → Bool) (p s : List α) : Option Nat :=
  if p.length > s.length then none
  else
    let itr := search eq s p 0
    if s.length = itr then none else some itr

/-- `std::equal(p, p_end, s + i)` element by element, with checked reads. -/
def stdEqual (eq : α → α → Bool) (s : List α) : List α → Nat → Outcome Bool
  | [], _ => ok true
  | b :: p, i => do
    let a ← deref s i
    if eq b a then stdEqual eq s p (i + 1) else ok false

/-- `begins_with` / `ibegins_with` (2165-2218). -/
def beginsWith (eq : α → α → Bool) (p s : List α) : Outcome Bool := if p.length ≤ s.length then stdEqual eq s p 0 else ok false

/-- `ends_with` / `iends_with` (2221-2287). -/
def endsWith (eq : α → α → Bool) (p s : List α) : Outcome Bool :=
  if p.length ≤ s.length then stdEqual eq s p (s.length - p.length) else ok false

end Strtk.Find
