import Verif.Outcome

/-!
# Model of the line-based helpers

A `std::istream` is the text not read yet; `std::getline` is modelled below.  Simplifications: streams fail only at the end of the text
(no I/O errors), text-mode newline translation is absent (as on POSIX), counters are naturals.  A callback is a state transformer: it may
have any side effects, and its result may depend on them.
-/

namespace Strtk.Lines
open Outcome

variable {σ T : Type}

/-- '\n'. -/
def newline : UInt8 := 10

/-- `std::getline(stream, buffer)` (C++ library) on the text not read yet: nothing left to read is failure; otherwise the line up to the
newline, which is consumed, or up to the end of the text. -/
def getline : List UInt8 → Option (List UInt8 × List UInt8)
  | [] => none
  | c :: rest =>
    if c = newline then some ([], rest)
    else match getline rest with
      | none => some ([c], [])
      | some (line, more) => some (c :: line, more)

/-- The loop of `for_each_line` (strtk.hpp 119-127): the callback's state, the count and the text left. -/
def forEachLineLoop (f : σ → List UInt8 → σ) : Nat → List UInt8 → σ → Nat → Outcome (Nat × σ × List UInt8)
  | 0, _, _, _ => diverge
  | fuel + 1, text, s, count =>
    match getline text with
    | none => ok (count, s, text)
    | some (line, text) => forEachLineLoop f fuel text (f s line) (count + 1)

/-- `for_each_line(stream, function)` (strtk.hpp 112-128). -/
def forEachLine (f : σ → List UInt8 → σ) (text : List UInt8) (s : σ) : Outcome (Nat × σ × List UInt8) :=
  forEachLineLoop f (text.length + 1) text s 0

/-- The loop of `for_each_line_n` (strtk.hpp 138-147). -/
def forEachLineNLoop (n : Nat) (f : σ → List UInt8 → σ) : Nat → List UInt8 → σ → Nat → Outcome (Nat × σ × List UInt8)
  | 0, _, _, _ => diverge
  | fuel + 1, text, s, count =>
    match getline text with
    | none => ok (count, s, text)
    | some (line, text) =>
      let s := f s line
      if n = count + 1 then ok (count + 1, s, text) else forEachLineNLoop n f fuel text s (count + 1)

/-- `for_each_line_n(stream, n, function)` (strtk.hpp 130-148). -/
def forEachLineN (n : Nat) (f : σ → List UInt8 → σ) (text : List UInt8) (s : σ) : Outcome (Nat × σ × List UInt8) :=
  forEachLineNLoop n f (text.length + 1) text s 0

/-- The loop of `for_each_line_conditional` (strtk.hpp 182-193); the callback returns whether to go on. -/
def forEachLineCondLoop (f : σ → List UInt8 → Bool × σ) : Nat → List UInt8 → σ → Nat → Outcome (Nat × σ × List UInt8)
  | 0, _, _, _ => diverge
  | fuel + 1, text, s, count =>
    match getline text with
    | none => ok (count, s, text)
    | some (line, text) =>
      let (go, s) := f s line
      if go then forEachLineCondLoop f fuel text s (count + 1) else ok (count, s, text)

/-- `for_each_line_conditional(stream, function)` (strtk.hpp 175-194). -/
def forEachLineCond (f : σ → List UInt8 → Bool × σ) (text : List UInt8) (s : σ) : Outcome (Nat × σ × List UInt8) :=
  forEachLineCondLoop f (text.length + 1) text s 0

/-- The loop of `for_each_line_n_conditional` (strtk.hpp 204-214). -/
def forEachLineNCondLoop (n : Nat) (f : σ → List UInt8 → Bool × σ) : Nat → List UInt8 → σ → Nat → Outcome (Nat × σ × List UInt8)
  | 0, _, _, _ => diverge
  | fuel + 1, text, s, count =>
    match getline text with
    | none => ok (count, s, text)
    | some (line, text) =>
      let (go, s) := f s line
      if go then
        if n = count + 1 then ok (count + 1, s, text) else forEachLineNCondLoop n f fuel text s (count + 1)
      else ok (count, s, text)

/-- `for_each_line_n_conditional(stream, n, function)` (strtk.hpp 196-215). -/
def forEachLineNCond (n : Nat) (f : σ → List UInt8 → Bool × σ) (text : List UInt8) (s : σ) : Outcome (Nat × σ × List UInt8) :=
  forEachLineNCondLoop n f (text.length + 1) text s 0

/-- The overloads that take a file name (strtk.hpp 150-173, 217-241): a file that cannot be opened gives 0, otherwise as for its
contents. -/
def onFile (file : Option (List UInt8)) (s : σ) (run : List UInt8 → σ → Outcome (Nat × σ × List UInt8)) : Outcome (Nat × σ) :=
  match file with
  | none => ok (0, s)
  | some text => do
    let (n, s, _) ← run text s
    ok (n, s)

/-- `read_line_as_value(stream, t)` (strtk.hpp 243-255); `conv` is `string_to_type_converter(buffer, t)`, which returns its success and
the new value of `t`. -/
def readLineAsValue (conv : List UInt8 → T → Bool × T) (text : List UInt8) (t : T) : Bool × T × List UInt8 :=
  match getline text with
  | none => (false, t, text)
  | some (line, text) =>
    let (r, t) := conv line t
    (r, t, text)

/-- `load_from_text_file(stream, sequence)` for sequences, queues and stacks (strtk.hpp 451-471, 517-555): `conv` is
`string_to_type_converter<T>(buffer)`, where `none` is the exception `std::invalid_argument` (strtk.hpp 387-400). -/
def loadLoop (conv : List UInt8 → Option T) : Nat → List UInt8 → List T → Nat → Outcome (Nat × List T)
  | 0, _, _, _ => diverge
  | fuel + 1, text, seq, count =>
    match getline text with
    | none => ok (count, seq)
    | some (line, text) =>
      match conv line with
      | none => thrown
      | some t => loadLoop conv fuel text (seq ++ [t]) (count + 1)

/-- `load_from_text_file` (strtk.hpp 451-471). -/
def loadFromText (conv : List UInt8 → Option T) (text : List UInt8) (seq : List T) : Outcome (Nat × List T) :=
  loadLoop conv (text.length + 1) text seq 0

/-- `write_to_text_file(stream, sequence, delimiter)` for sequences, sets and multisets (strtk.hpp 659-762) with `show'` for the
element's `operator<<`: the count and the text written. -/
def writeToText (show' : T → List UInt8) (delimiter : List UInt8) : List T → List UInt8 → Nat → Nat × List UInt8
  | [], out, count => (count, out)
  | t :: ts, out, count =>
    if delimiter ≠ [] then writeToText show' delimiter ts (out ++ show' t ++ delimiter) (count + 1)
    else writeToText show' delimiter ts (out ++ show' t) (count + 1)

/-- `for_each_token(buffer, tokenizer, function)` (strtk.hpp 91-110) over the tokens that the tokenizer's iterator delivers
(the tokenizer itself is in `Verif/Split`). -/
def forEachToken {τ : Type} (f : σ → τ → σ) : List τ → σ → Nat → Nat × σ
  | [], s, count => (count, s)
  | t :: ts, s, count => forEachToken f ts (f s t) (count + 1)

end Strtk.Lines
