import Verif.Outcome

/-!
# Model of the tokenising functions of strtk.hpp

Positions are offsets into the input list; `end` is `s.length`.  Every dereference is `Outcome.deref`, so reading at or past the end is
`ub`.  Delimiter predicates are pure functions `α → Bool` (simplification: strtk also accepts predicates with mutable state, such as
the quote-tracking one of `token_grid`; that one is covered in `Verif/Grid/Quote.lean`).  Tokens are written to an output
iterator that appends, modelled by the list `out`.
-/

namespace Strtk.Split
open Outcome

variable {α : Type}

/-- `split_options` / `tokenize_options` (2307-2333, 3271-3297): the three option bits. -/
structure Opt where
  compress : Bool := false
  first : Bool := false
  all : Bool := false
  deriving DecidableEq, Repr

/-- Decoding of the option word, `perform_compress_delimiters` and friends (3282-3295, 2318-2331). -/
def Opt.ofBits (opt : Nat) : Opt :=
  { compress := opt &&& 1 == 1, first := opt &&& 2 == 2, all := opt &&& 4 == 4 }

/-- `while ((end != range.second) && delimiter(*range.second)) ++range.second;` (3372, 3376, 3590, 2394, 2397). -/
def skipRun (d : α → Bool) (s : List α) : Nat → Nat → Outcome Nat
  | 0, _ => diverge
  | fuel + 1, i =>
    if i ≠ s.length then do
      let c ← deref s i
      if d c then skipRun d s fuel (i + 1) else ok i
    else ok i

/-- The final test and emission (3328-3333, 3391-3396, 3612-3617):
`if ((first != second) || delimiter(*(second - 1))) { *out++ = range; ++token_count; }`.
For `second = 0` the read of `*(second - 1)` is out of range. -/
def finish (d : α → Bool) (s : List α) (first second : Nat) (out : List (Nat × Nat)) (count : Nat) :
    Outcome (List (Nat × Nat) × Nat) :=
  if first ≠ second then ok (out ++ [(first, second)], count + 1)
  else if second = 0 then ub
  else do
    let c ← deref s (second - 1)
    if d c then ok (out ++ [(first, second)], count + 1) else ok (out, count)

/-- Loop of `details::split_compress_delimiters` (3312-3326). -/
def compressLoop (d : α → Bool) (s : List α) :
    Nat → Nat → Nat → List (Nat × Nat) → Nat → Outcome (List (Nat × Nat) × Nat)
  | 0, _, _, _, _ => diverge
  | fuel + 1, first, second, out, count =>
    if second ≠ s.length then do
      let c ← deref s second
      if d c then do
        let out := out ++ [(first, second)]
        -- while ((end != ++range.second) && delimiter(*range.second));
        let second ← skipRun d s (s.length + 1) (second + 1)
        let first := second
        let second := if second ≠ s.length then second + 1 else second
        compressLoop d s fuel first second out (count + 1)
      else compressLoop d s fuel first (second + 1) out count
    else finish d s first second out count

/-- `details::split_compress_delimiters` (3304-3336). -/
def splitCompress (d : α → Bool) (s : List α) : Outcome (List (Nat × Nat) × Nat) :=
  compressLoop d s (s.length + 1) 0 0 [] 0

/-- Loop of `split` (3363-3389). `inclAll` is already masked with `!include_1st_delimiter` as on 3352. -/
def splitLoop (compress incl1 inclAll : Bool) (d : α → Bool) (s : List α) :
    Nat → Nat → Nat → List (Nat × Nat) → Nat → Outcome (List (Nat × Nat) × Nat)
  | 0, _, _, _, _ => diverge
  | fuel + 1, first, second, out, count =>
    if second ≠ s.length then do
      let c ← deref s second
      if d c then do
        if incl1 || inclAll then do
          let second ← (if incl1 then ok (second + 1) else if inclAll then skipRun d s (s.length + 1) second else ok second)
          let out := out ++ [(first, second)]
          let second ← (if !inclAll && compress then skipRun d s (s.length + 1) second else ok second)
          splitLoop compress incl1 inclAll d s fuel second second out (count + 1)
        else do
          let out := out ++ [(first, second)]
          let second := second + 1
          splitLoop compress incl1 inclAll d s fuel second second out (count + 1)
      else splitLoop compress incl1 inclAll d s fuel first (second + 1) out count
    else finish d s first second out count

/-- `split` (3342-3399): the tokens written, as offset pairs, and the returned count. -/
def split (opt : Opt) (d : α → Bool) (s : List α) : Outcome (List (Nat × Nat) × Nat) :=
  if s.length = 0 then ok ([], 0)
  else
    let incl1 := opt.first
    let inclAll := !incl1 && opt.all
    if opt.compress && !(incl1 || inclAll) then splitCompress d s
    else splitLoop opt.compress incl1 inclAll d s (s.length + 1) 0 0 [] 0

/-- Loop of `split_n` (3576-3610) with the early returns on 3586 and 3597. -/
def splitNLoop (compress incl : Bool) (d : α → Bool) (s : List α) (n : Nat) :
    Nat → Nat → Nat → List (Nat × Nat) → Nat → Outcome (List (Nat × Nat) × Nat)
  | 0, _, _, _, _ => diverge
  | fuel + 1, first, second, out, count =>
    if second ≠ s.length then do
      let c ← deref s second
      if d c then do
        if incl then do
          let second := second + 1
          let out := out ++ [(first, second)]
          let count := count + 1
          if count ≥ n then ok (out, count)
          else do
            let second ← (if compress then skipRun d s (s.length + 1) second else ok second)
            splitNLoop compress incl d s n fuel second second out count
        else do
          let out := out ++ [(first, second)]
          let count := count + 1
          if count ≥ n then ok (out, count)
          else do
            -- while ((end != (++range.second)) && delimiter(*range.second)) ;
            let second ← (if compress then skipRun d s (s.length + 1) (second + 1) else ok (second + 1))
            splitNLoop compress incl d s n fuel second second out count
      else splitNLoop compress incl d s n fuel first (second + 1) out count
    else finish d s first second out count

/-- `split_n` (3557-3620). -/
def splitN (opt : Opt) (d : α → Bool) (s : List α) (n : Nat) : Outcome (List (Nat × Nat) × Nat) :=
  if n = 0 then ok ([], 0)
  else if s.length = 0 then ok ([], 0)
  else
    let incl1 := opt.first
    let inclAll := !incl1 && opt.all
    splitNLoop opt.compress (incl1 || inclAll) d s n (s.length + 1) 0 0 [] 0

/-! ## `tokenizer` (2336-2586) -/

/-- State of `tokenizer_iterator` (2493-2501); the flags and the predicate are parameters. -/
structure Tok where
  range : Nat × Nat
  current : Nat × Nat
  lastDone : Bool
  deriving DecidableEq, Repr

/-- The `while` loop of `operator++` (2385-2412).  `some` result: returned from inside the loop. -/
def Tok.scan (opt : Opt) (d : α → Bool) (s : List α) : Nat → Tok → Outcome (Bool × Tok)
  | 0, _ => diverge
  | fuel + 1, t =>
    if s.length ≠ t.range.2 then do
      let c ← deref s t.range.2
      if d c then do
        if opt.first || opt.all then do
          let second ← (if opt.first then ok (t.range.2 + 1) else skipRun d s (s.length + 1) t.range.2)
          let current := (t.range.1, second)
          let second ← (if !opt.all && opt.compress then skipRun d s (s.length + 1) second else ok second)
          ok (true, { t with range := (t.range.1, second), current := current })
        else do
          let current := t.range
          let second ← (if opt.compress then skipRun d s (s.length + 1) (t.range.2 + 1) else ok (t.range.2 + 1))
          ok (true, { t with range := (t.range.1, second), current := current })
      else Tok.scan opt d s fuel { t with range := (t.range.1, t.range.2 + 1) }
    else ok (false, t)

/-- `tokenizer_iterator::operator++` (2373-2430). -/
def Tok.next (opt : Opt) (d : α → Bool) (s : List α) (t : Tok) : Outcome Tok :=
  if t.lastDone then ok { t with range := (t.range.2, t.range.2) }
  else do
    let t := if s.length ≠ t.range.2 then { t with range := (t.range.2, t.range.2) } else t
    let (returned, t) ← Tok.scan opt d s (s.length + 1) t
    if returned then ok t
    else if t.range.1 ≠ t.range.2 then do
      -- here last_token_done_ is false, so the else branch on 2425-2426 is dead
      if t.range.2 = 0 then ub
      else do
        let c ← deref s (t.range.2 - 1)
        let first := if d c then t.range.2 else t.range.1
        ok { range := t.range, current := (first, t.range.2), lastDone := true }
    else ok t

/-- Constructor of `tokenizer_iterator` (2353-2371) for `[start, s.length)`. -/
def Tok.make (opt : Opt) (d : α → Bool) (s : List α) (start : Nat) : Outcome Tok :=
  let t : Tok := { range := (start, start), current := (s.length, s.length), lastDone := false }
  if s.length ≠ start then Tok.next opt d s t else ok t

/-- `for (itr = tok.begin(); itr != tok.end(); ++itr) use(*itr);` with `operator!=` (2464-2467) and `operator*` (2449-2452). -/
def Tok.walk (opt : Opt) (d : α → Bool) (s : List α) (endItr : Tok) : Nat → Tok → List (Nat × Nat) → Outcome (List (Nat × Nat))
  | 0, _, _ => diverge
  | fuel + 1, t, out =>
    if t.range ≠ endItr.range then do
      let out := out ++ [t.current]
      let t ← Tok.next opt d s t
      Tok.walk opt d s endItr fuel t out
    else ok out

/-- All tokens visited between `begin()` and `end()` (2513-2523, 2568-2576). -/
def tokenizerTokens (opt : Opt) (d : α → Bool) (s : List α) : Outcome (List (Nat × Nat)) := do
  let b ← Tok.make opt d s 0
  let e ← Tok.make opt d s s.length
  Tok.walk opt d s e (s.length + 2) b []

/-! ## `offset_splitter` (3872-4043) -/

/-- `offset_predicate::next` (3899-3909) on the stored list `offs` (the array has one more entry, 0, see 3881).
Reading past that extra entry is out of range.  `size` is `offset_list_size`. Returns the offset and the new `current_index_`. -/
def offsetNext (offs : List Int) (rotate : Bool) (idx : Nat) : Outcome (Int × Nat) := do
  let r ← deref (offs ++ [0]) idx
  let idx := idx + 1
  if rotate && decide (idx ≥ offs.length) then ok (r, 0) else ok (r, idx)

/-- Loop of `offset_splitter` (4031-4040); `length` is the remaining length. -/
def offsetLoop (s : List α) (offs : List Int) (rotate : Bool) :
    Nat → Nat → Nat → Nat → List (Nat × Nat) → Nat → Outcome (List (Nat × Nat) × Nat × Nat)
  | 0, _, _, _, _, _ => diverge
  | fuel + 1, idx, second, length, out, count =>
    if s.length ≠ second then do
      let (o, idx) ← offsetNext offs rotate idx
      if 0 < o then
        let inc := min length o.toNat
        offsetLoop s offs rotate fuel idx (second + inc) (length - inc) (out ++ [(second, second + inc)]) (count + 1)
      else ok (out, count, idx)
    else ok (out, count, idx)

/-- `offset_splitter` (4017-4043): tokens, returned count, and the predicate's `current_index_` afterwards. -/
def offsetSplitter (s : List α) (offs : List Int) (rotate : Bool) (idx : Nat) : Outcome (List (Nat × Nat) × Nat × Nat) :=
  if s.length = 0 then ok ([], 0, idx)
  else offsetLoop s offs rotate (s.length + 1) idx 0 s.length [] 0

/-! ## `split_pair` (4057-4086) -/

/-- Loop of `split_pair` (4067-4083). `v1`, `v2` are the output parameters (unchanged = `none`). -/
def splitPairLoop (d : α → Bool) (s : List α) : Nat → Nat → Outcome (Bool × Option (Nat × Nat) × Option (Nat × Nat))
  | 0, _ => diverge
  | fuel + 1, itr =>
    if s.length ≠ itr then do
      let c ← deref s itr
      if d c then
        if s.length - (itr + 1) ≠ 0 then ok (true, some (0, itr), some (itr + 1, s.length))
        else ok (false, some (0, itr), none)
      else splitPairLoop d s fuel (itr + 1)
    else ok (false, none, none)

/-- `split_pair` (4057-4086): returned flag and the values assigned to `v1` and `v2`, if any. -/
def splitPair (d : α → Bool) (s : List α) : Outcome (Bool × Option (Nat × Nat) × Option (Nat × Nat)) :=
  if s.length = 0 then ok (false, none, none) else splitPairLoop d s (s.length + 1) 0

end Strtk.Split
