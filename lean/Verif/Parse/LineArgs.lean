import Verif.Parse.Props
import Verif.Lines.Props

/-!
# `parse_line`, `parse_line_n` and `parse(argc, argv, ...)` (strtk.hpp 10107-10276, 10410-10921)
-/

namespace Strtk.Parse
open Outcome Strtk.Codec Strtk.Split Strtk.Lines

/-! ## Model -/

/-- A file stream: the text not read yet, and whether an earlier read failed (`!stream`).  Streams fail only at the end of the text. -/
structure InStream where
  left : List UInt8
  failed : Bool
deriving DecidableEq

/-- The body common to all versions of `parse_line` and `parse_line_n` (10417-10430, repeated up to 10921): `no` is what is returned, and what the targets
are, without a call to `body`. -/
def parseLineWith {R : Type} (no : R) (body : List Byte → Outcome R) (delims : List Byte) (st : InStream) : Outcome (R × InStream) :=
  if st.failed then ok (no, st)
  else match getline st.left with
    | none => ok (no, ⟨st.left, true⟩)
    | some (data, rest) =>
      if data = [] ∨ delims = [] then ok (no, ⟨rest, false⟩)
      else do
        let r ← body (data.map UInt8.toBitVec)
        ok (r, ⟨rest, false⟩)

/-- `parse_line(stream,delimiters,t1,...,tn)` (10410-10647). -/
def parseLine {V : Type} (delims : List Byte) (fs : List (Conv V)) (ts : List V) (st : InStream) : Outcome ((Bool × List V) × InStream) :=
  parseLineWith (false, ts) (parse delims fs ts) delims st

/-- `parse_line(stream,delimiters,container,split_option)` (10649-10778). -/
def parseLineContainer {V C : Type} (opt : Opt) (delims : List Byte) (conv : List Byte → Outcome (Bool × V)) (push : C → V → C) (c : C) (st : InStream) :
    Outcome ((Nat × C) × InStream) :=
  parseLineWith (0, c) (parseContainer opt delims conv push c) delims st

/-- `parse_line_n(stream,delimiters,n,container,split_option)` (10780-10921). -/
def parseLineN {V C : Type} (opt : Opt) (delims : List Byte) (n : Nat) (conv : List Byte → Outcome (Bool × V)) (push : C → V → C) (size : C → Nat) (c : C)
    (st : InStream) : Outcome ((Nat × C) × InStream) :=
  parseLineWith (0, c) (parseN opt delims n conv push size c) delims st

/-- `std::string(argv[i])`: no string behind the array, and none for a null pointer. -/
def argString (argv : List (Option (List Byte))) (i : Nat) : Outcome (List Byte) :=
  match argv[i]? with
  | some (some s) => ok s
  | _ => ub

/-- The loop of `parse(argc,argv,sequence,break_on_fail)` (10116-10129); `n` arguments are left. -/
def parseArgvLoop {V : Type} (conv : List Byte → Outcome (Bool × V)) (breakOnFail : Bool) (argv : List (Option (List Byte))) :
    Nat → Nat → List V → Outcome (Nat × List V)
  | 0, i, c => ok (i, c)
  | n + 1, i, c => do
    let s ← argString argv i
    let (good, v) ← conv s
    if good then parseArgvLoop conv breakOnFail argv n (i + 1) (c ++ [v])
    else if breakOnFail then ok (i, c) else parseArgvLoop conv breakOnFail argv n (i + 1) c

/-- `parse(argc,argv,sequence,break_on_fail)` (10107-10130). -/
def parseArgvSeq {V : Type} (conv : List Byte → Outcome (Bool × V)) (breakOnFail : Bool) (argc : Nat) (argv : List (Option (List Byte))) (c : List V) :
    Outcome (Nat × List V) := parseArgvLoop conv breakOnFail argv argc 0 c

/-- The `strtk_cmpstmt` sequence (10144-10157): target number `k`, counted from 1, takes `argv[k]`. -/
def parseArgvTargets {V : Type} (argv : List (Option (List Byte))) : Nat → List (Conv V) → List V → Outcome (Nat × List V)
  | k, [], ts => ok (k, ts)
  | _, _ :: _, [] => ub
  | k, f :: fs, t :: ts => do
    let s ← argString argv (k + 1)
    let (good, v) ← f s t
    if good then do
      let (n, vs) ← parseArgvTargets argv (k + 1) fs ts
      ok (n, v :: vs)
    else ok (k, v :: ts)

/-- `parse(argc,argv,t1,...,tn)` (10132-10276; the nine overloads have the same body). -/
def parseArgv {V : Type} (argc : Nat) (argv : List (Option (List Byte))) (fs : List (Conv V)) (ts : List V) : Outcome (Nat × List V) :=
  if fs.length ≠ argc then ok (0, ts) else parseArgvTargets argv 0 fs ts

/-! ## parse_line -/

/-- The stream at the beginning of the next line. -/
theorem next_line (text : List UInt8) (l : List UInt8) (ls : List (List UInt8)) (h : linesOf text = l :: ls) :
    ∃ rest, getline text = some (l, rest) ∧ linesOf rest = ls := by
  rcases getline_spec text with ⟨rfl, _⟩ | ⟨line, rest, h1, h2, _⟩
  · rw [linesOf_nil] at h; simp at h
  · rw [h2] at h
    obtain ⟨rfl, rfl⟩ := List.cons.inj h
    exact ⟨rest, h1, rfl⟩

theorem parseLineWith_line {R : Type} (no : R) (body : List Byte → Outcome R) (delims : List Byte) (text : List UInt8) (l : List UInt8) (ls : List (List UInt8))
    (h : linesOf text = l :: ls) (hno : delims ≠ [] → body [] = ok no) :
    ∃ rest, linesOf rest = ls ∧
      parseLineWith no body delims ⟨text, false⟩ = (if delims = [] then ok (no, ⟨rest, false⟩) else do
        let r ← body (l.map UInt8.toBitVec)
        ok (r, ⟨rest, false⟩)) := by
  obtain ⟨rest, h1, h2⟩ := next_line text l ls h
  refine ⟨rest, h2, ?_⟩
  unfold parseLineWith
  simp only [h1, Bool.false_eq_true, if_false]
  by_cases hd : delims = []
  · simp [hd]
  · by_cases hl : l = []
    · subst hl
      simp [hd, hno hd]
    · simp [hd, hl]

theorem parse_nil {V : Type} (delims : List Byte) (fs : List (Conv V)) (ts : List V) (hf : fs ≠ []) : parse delims fs ts [] = ok (false, ts) := by
  apply C33_too_few_fields
  have : fields delims [] = [] := by simp [fields]
  rw [this]
  exact List.length_pos_iff.mpr hf

/-- C129: each call of `parse_line` takes exactly the next line off the stream, whether or not it can be parsed, and does with it what `parse` does with the
text of the line; without delimiters the line is lost. -/
theorem C129_parse_line {V : Type} (delims : List Byte) (fs : List (Conv V)) (ts : List V) (hf : fs ≠ []) (text : List UInt8) (l : List UInt8)
    (ls : List (List UInt8)) (h : linesOf text = l :: ls) :
    ∃ rest, linesOf rest = ls ∧
      (delims ≠ [] → parseLine delims fs ts ⟨text, false⟩ = do
        let r ← parse delims fs ts (l.map UInt8.toBitVec)
        ok (r, ⟨rest, false⟩)) ∧
      (delims = [] → parseLine delims fs ts ⟨text, false⟩ = ok ((false, ts), ⟨rest, false⟩)) := by
  obtain ⟨rest, h1, h2⟩ := parseLineWith_line (false, ts) (parse delims fs ts) delims text l ls h (fun _ => parse_nil delims fs ts hf)
  refine ⟨rest, h1, fun hd => ?_, fun hd => ?_⟩
  · unfold parseLine; rw [h2, if_neg hd]
  · unfold parseLine; rw [h2, if_pos hd]

/-- C129: at the end of the text, and on a stream that has failed, nothing is touched and the stream is failed. -/
theorem C129_end {V : Type} (delims : List Byte) (fs : List (Conv V)) (ts : List V) (st : InStream) (h : st.failed = true ∨ linesOf st.left = []) :
    parseLine delims fs ts st = ok ((false, ts), ⟨st.left, true⟩) := by
  obtain ⟨text, failed⟩ := st
  unfold parseLine parseLineWith
  cases failed with
  | true => rfl
  | false =>
    have h : linesOf text = [] := by simpa using h
    rcases getline_spec text with ⟨rfl, _⟩ | ⟨line, rest, _, h2, _⟩
    · rfl
    · rw [h2] at h; simp at h

/-- C129: the fields of the line land in the targets. -/
theorem C129_fields {V : Type} (delims : List Byte) (hd : delims ≠ []) (fs : List (Conv V)) (hf : fs ≠ []) (ts vs : List V) (text l : List UInt8)
    (ls : List (List UInt8)) (h : linesOf text = l :: ls) (h1 : ts.length = fs.length) (h2 : vs.length = fs.length)
    (hn : fs.length ≤ (fields delims (l.map UInt8.toBitVec)).length)
    (hconv : ∀ (i : Nat) (f : Conv V) t v w, fs[i]? = some f → ts[i]? = some t → vs[i]? = some v → (fields delims (l.map UInt8.toBitVec))[i]? = some w →
      f w t = ok (true, v)) :
    ∃ rest, linesOf rest = ls ∧ parseLine delims fs ts ⟨text, false⟩ = ok ((true, vs), ⟨rest, false⟩) := by
  obtain ⟨rest, r1, r2, _⟩ := C129_parse_line delims fs ts hf text l ls h
  refine ⟨rest, r1, ?_⟩
  rw [r2 hd, C33_parse_succeeds delims _ fs ts vs h1 h2 hn hconv]
  rfl

/-- C129: the versions for containers take one line in the same way; the container receives the fields of the line that convert, and with
`parse_line_n` those among the first `n`. -/
theorem C129_containers {V C : Type} (delims : List Byte) (hd : delims ≠ []) (conv : List Byte → Outcome (Bool × V)) (spec : List Byte → Option V)
    (hspec : ∀ w, (∀ v, spec w = some v → conv w = ok (true, v)) ∧ (spec w = none → ∃ v, conv w = ok (false, v)))
    (push : C → V → C) (c : C) (d : List V) (n : Nat) (text : List UInt8) (l : List UInt8) (ls : List (List UInt8)) (h : linesOf text = l :: ls) :
    ∃ rest, linesOf rest = ls ∧
      parseLineContainer { compress := true } delims conv push c ⟨text, false⟩ =
        ok (((fields delims (l.map UInt8.toBitVec)).length, (converted spec (fields delims (l.map UInt8.toBitVec))).foldl push c), ⟨rest, false⟩) ∧
      parseLineN { compress := true } delims n conv (fun c v => c ++ [v]) List.length d ⟨text, false⟩ =
        ok (((converted spec ((fields delims (l.map UInt8.toBitVec)).take n)).length,
          d ++ converted spec ((fields delims (l.map UInt8.toBitVec)).take n)), ⟨rest, false⟩) := by
  have hf : fields delims [] = [] := by simp [fields]
  obtain ⟨rest, h1, h2⟩ := parseLineWith_line (0, c) (parseContainer { compress := true } delims conv push c) delims text l ls h (fun _ => by
    rw [C34_parse_container delims [] conv spec push c hspec, hf]; rfl)
  obtain ⟨rest', h1', h2'⟩ := parseLineWith_line (0, d) (parseN { compress := true } delims n conv (fun c v => c ++ [v]) List.length d) delims text l ls h (fun _ => by
    rw [C34_parse_n delims [] n conv spec d hspec, hf]; simp [converted])
  have e : rest' = rest := by
    obtain ⟨r, g, _⟩ := next_line text l ls h
    have k : ∀ (R : Type) (no : R) (body : List Byte → Outcome R) (r' : List UInt8) (x : R), (parseLineWith no body delims ⟨text, false⟩ = ok (x, ⟨r', false⟩)) → r' = r := by
      intro R no body r' x hx
      unfold parseLineWith at hx
      simp only [g, Bool.false_eq_true, if_false] at hx
      split at hx
      · simp only [Outcome.ok.injEq, Prod.mk.injEq, InStream.mk.injEq] at hx; exact hx.2.1.symm
      · obtain ⟨y, _, hy⟩ := bind_eq_ok.mp hx
        simp only [Outcome.ok.injEq, Prod.mk.injEq, InStream.mk.injEq] at hy; exact hy.2.1.symm
    rw [if_neg hd, C34_parse_container delims _ conv spec push c hspec, ok_bind] at h2
    rw [if_neg hd, C34_parse_n delims _ n conv spec d hspec, ok_bind] at h2'
    rw [k _ _ _ _ _ h2, k _ _ _ _ _ h2']
  subst e
  refine ⟨rest', h1, ?_, ?_⟩
  · unfold parseLineContainer
    rw [h2, if_neg hd, C34_parse_container delims _ conv spec push c hspec, ok_bind]
  · unfold parseLineN
    rw [h2', if_neg hd, C34_parse_n delims _ n conv spec d hspec, ok_bind]

/-- `n` calls of `parse_line` one after another on the same targets; the results of the calls. -/
def parseLines {V : Type} (delims : List Byte) (fs : List (Conv V)) : Nat → List V → InStream → Outcome (List Bool × List V × InStream)
  | 0, ts, st => ok ([], ts, st)
  | n + 1, ts, st => do
    let ((good, ts), st) ← parseLine delims fs ts st
    let (gs, ts, st) ← parseLines delims fs n ts st
    ok (good :: gs, ts, st)

/-- C129: `n` calls read the first `n` lines, if there are so many, and none of them twice: the next call sees line `n + 1`. -/
theorem C129_one_line_per_call {V : Type} (delims : List Byte) (fs : List (Conv V)) (hf : fs ≠ []) : ∀ (n : Nat) (ts : List V) (text : List UInt8) gs ts' st,
    n ≤ (linesOf text).length → parseLines delims fs n ts ⟨text, false⟩ = ok (gs, ts', st) →
    gs.length = n ∧ st.failed = false ∧ linesOf st.left = (linesOf text).drop n := by
  intro n
  induction n with
  | zero =>
    intro ts text gs ts' st _ h
    simp only [parseLines, Outcome.ok.injEq, Prod.mk.injEq] at h
    obtain ⟨rfl, rfl, rfl⟩ := h
    exact ⟨rfl, rfl, rfl⟩
  | succ n ih =>
    intro ts text gs ts' st hn h
    obtain ⟨l, ls, hl⟩ := List.exists_cons_of_length_pos (show 0 < (linesOf text).length by omega)
    obtain ⟨rest, r1, r2, r3⟩ := C129_parse_line delims fs ts hf text l ls hl
    simp only [parseLines] at h
    obtain ⟨⟨⟨good, ts1⟩, st1⟩, e1, h⟩ := bind_eq_ok.mp h
    obtain ⟨⟨gs1, ts2, st2⟩, e2, h⟩ := bind_eq_ok.mp h
    simp only [Outcome.ok.injEq, Prod.mk.injEq] at h
    obtain ⟨rfl, rfl, rfl⟩ := h
    have hst : st1 = ⟨rest, false⟩ := by
      by_cases hd : delims = []
      · rw [r3 hd] at e1
        simp only [Outcome.ok.injEq, Prod.mk.injEq] at e1
        exact e1.2.symm
      · rw [r2 hd] at e1
        obtain ⟨y, _, hy⟩ := bind_eq_ok.mp e1
        simp only [Outcome.ok.injEq, Prod.mk.injEq] at hy
        exact hy.2.symm
    subst hst
    obtain ⟨i1, i2, i3⟩ := ih ts1 rest gs1 ts2 st2 (by rw [r1]; rw [hl] at hn; simp at hn; omega) e2
    refine ⟨by simp [i1], i2, ?_⟩
    rw [i3, r1, hl, List.drop_succ_cons]

/-! ## parse(argc, argv, ...) -/

theorem argString_ok (pre : List (Option (List Byte))) (s : List Byte) (rest : List (Option (List Byte))) : argString (pre ++ some s :: rest) pre.length = ok s := by
  unfold argString
  simp

theorem parseArgvLoop_spec {V : Type} (conv : List Byte → Outcome (Bool × V)) (spec : List Byte → Option V)
    (hspec : ∀ w, (∀ v, spec w = some v → conv w = ok (true, v)) ∧ (spec w = none → ∃ v, conv w = ok (false, v))) (b : Bool) (rest : List (Option (List Byte))) :
    ∀ (args : List (List Byte)) (pre : List (Option (List Byte))) (c : List V),
    parseArgvLoop conv b (pre ++ args.map some ++ rest) args.length pre.length c =
      (if b then ok (pre.length + (args.takeWhile fun w => (spec w).isSome).length, c ++ converted spec (args.takeWhile fun w => (spec w).isSome))
      else ok (pre.length + args.length, c ++ converted spec args)) := by
  intro args
  induction args with
  | nil => intro pre c; cases b <;> simp [parseArgvLoop, converted]
  | cons a args ih =>
    intro pre c
    have e : pre ++ (a :: args).map some ++ rest = pre ++ some a :: (args.map some ++ rest) := by simp
    simp only [List.length_cons, parseArgvLoop]
    rw [e, argString_ok, ok_bind]
    have e' : pre ++ some a :: (args.map some ++ rest) = (pre ++ [some a]) ++ args.map some ++ rest := by simp
    have ih' := fun c => ih (pre ++ [some a]) c
    rw [← e'] at ih'
    rw [show (pre ++ [some a]).length = pre.length + 1 by simp] at ih'
    cases hs : spec a with
    | some v =>
      rw [(hspec a).1 v hs, ok_bind]
      simp only [if_true]
      rw [ih']
      cases b <;> simp [converted, hs, List.takeWhile_cons] <;> omega
    | none =>
      obtain ⟨v, hv⟩ := (hspec a).2 hs
      rw [hv, ok_bind]
      simp only [Bool.false_eq_true, if_false]
      cases b with
      | true => simp [converted, hs, List.takeWhile_cons]
      | false =>
        simp only [Bool.false_eq_true, if_false]
        rw [ih']
        simp [converted, hs]; omega

/-- C130: `parse(argc,argv,sequence)` appends the values of the arguments, in order.  With `break_on_fail` it stops at the first argument that does not
convert and returns its number; without, it leaves such arguments out and returns `argc`.  Nothing behind the `argc` arguments is looked at. -/
theorem C130_sequence {V : Type} (conv : List Byte → Outcome (Bool × V)) (spec : List Byte → Option V)
    (hspec : ∀ w, (∀ v, spec w = some v → conv w = ok (true, v)) ∧ (spec w = none → ∃ v, conv w = ok (false, v)))
    (args : List (List Byte)) (rest : List (Option (List Byte))) (c : List V) :
    parseArgvSeq conv true args.length (args.map some ++ rest) c =
      ok ((args.takeWhile fun w => (spec w).isSome).length, c ++ converted spec (args.takeWhile fun w => (spec w).isSome)) ∧
    parseArgvSeq conv false args.length (args.map some ++ rest) c = ok (args.length, c ++ converted spec args) := by
  have h := fun b => parseArgvLoop_spec conv spec hspec b rest args [] c
  constructor
  · have := h true; simpa [parseArgvSeq] using this
  · have := h false; simpa [parseArgvSeq] using this

theorem parseArgvTargets_ok {V : Type} (rest : List (Option (List Byte))) : ∀ (fs : List (Conv V)) (ts vs : List V) (args : List (List Byte)) (k : Nat)
    (pre : List (Option (List Byte))), pre.length = k + 1 → ts.length = fs.length → vs.length = fs.length → args.length = fs.length →
    (∀ (i : Nat) (f : Conv V) t v w, fs[i]? = some f → ts[i]? = some t → vs[i]? = some v → args[i]? = some w → f w t = ok (true, v)) →
    parseArgvTargets (pre ++ args.map some ++ rest) k fs ts = ok (k + fs.length, vs) := by
  intro fs
  induction fs with
  | nil =>
    intro ts vs args k pre _ h1 h2 _ _
    have e1 : ts = [] := List.length_eq_zero_iff.mp (by simpa using h1)
    have e2 : vs = [] := List.length_eq_zero_iff.mp (by simpa using h2)
    subst e1; subst e2; rfl
  | cons f fs ih =>
    intro ts vs args k pre hp h1 h2 h3 hc
    match ts, vs, args, h1, h2, h3 with
    | t :: ts, v :: vs, a :: args, h1, h2, h3 =>
      have e : pre ++ (a :: args).map some ++ rest = pre ++ some a :: (args.map some ++ rest) := by simp
      simp only [parseArgvTargets]
      rw [e, ← hp, argString_ok, ok_bind, hc 0 f t v a rfl rfl rfl rfl, ok_bind]
      simp only [if_true]
      have e' : pre ++ some a :: (args.map some ++ rest) = (pre ++ [some a]) ++ args.map some ++ rest := by simp
      rw [e', hp, ih ts vs args (k + 1) (pre ++ [some a]) (by simp; omega) (by simpa using h1) (by simpa using h2) (by simpa using h3)
        (fun i f t v w a b c d => hc (i + 1) f t v w (by simpa using a) (by simpa using b) (by simpa using c) (by simpa using d)), ok_bind]
      simp; omega

/-- C130: a wrong number of arguments is refused, the targets are left alone. -/
theorem C130_wrong_count {V : Type} (argc : Nat) (argv : List (Option (List Byte))) (fs : List (Conv V)) (ts : List V) (h : fs.length ≠ argc) :
    parseArgv argc argv fs ts = ok (0, ts) := by
  unfold parseArgv; rw [if_pos h]

/-- C130: the targets receive `argv[1]`, `argv[2]`, ..., `argv[argc]`, if all of these exist and convert.  Missing for the property: these are not the `argc`
arguments `argv[0]`, ..., `argv[argc - 1]` (`C130_values_of_main`). -/
theorem C130_values_partial {V : Type} (first : Option (List Byte)) (rest : List (Option (List Byte))) (fs : List (Conv V)) (ts vs : List V)
    (args : List (List Byte)) (h1 : ts.length = fs.length) (h2 : vs.length = fs.length) (h3 : args.length = fs.length)
    (hc : ∀ (i : Nat) (f : Conv V) t v w, fs[i]? = some f → ts[i]? = some t → vs[i]? = some v → args[i]? = some w → f w t = ok (true, v)) :
    parseArgv args.length (first :: (args.map some ++ rest)) fs ts = ok (args.length, vs) := by
  unfold parseArgv
  rw [if_neg (by omega)]
  have := parseArgvTargets_ok rest fs ts vs args 0 [first] rfl h1 h2 h3 hc
  rw [show [first] ++ args.map some ++ rest = first :: (args.map some ++ rest) by simp] at this
  rw [this, h3]; simp

theorem parseArgvTargets_main {V : Type} : ∀ (fs : List (Conv V)) (ts : List V) (args : List (List Byte)) (k : Nat)
    (pre : List (Option (List Byte))) n vs, pre.length = k + 1 → fs.length = args.length + 1 →
    parseArgvTargets (pre ++ args.map some ++ [none]) k fs ts = ok (n, vs) → n < k + fs.length := by
  intro fs
  induction fs with
  | nil => intro ts args k pre n vs _ h; simp at h
  | cons f fs ih =>
    intro ts args k pre n vs hp hf h
    match ts with
    | [] => simp [parseArgvTargets] at h
    | t :: ts =>
      simp only [parseArgvTargets] at h
      match args with
      | [] =>
        have : argString (pre ++ ([] : List (List Byte)).map some ++ [none]) (k + 1) = ub := by
          unfold argString; rw [← hp]; simp
        rw [this] at h; cases h
      | a :: args =>
        have e : pre ++ (a :: args).map some ++ [none] = pre ++ some a :: (args.map some ++ [none]) := by simp
        rw [e, ← hp, argString_ok, ok_bind] at h
        obtain ⟨⟨good, v⟩, _, h⟩ := bind_eq_ok.mp h
        cases good with
        | false =>
          simp only [Bool.false_eq_true, if_false, Outcome.ok.injEq, Prod.mk.injEq] at h
          rw [← h.1]; simp
        | true =>
          simp only [if_true] at h
          obtain ⟨⟨n', vs'⟩, e2, h⟩ := bind_eq_ok.mp h
          simp only [Outcome.ok.injEq, Prod.mk.injEq] at h
          have e' : pre ++ some a :: (args.map some ++ [none]) = (pre ++ [some a]) ++ args.map some ++ [none] := by simp
          rw [e', hp] at e2
          have := ih ts args (k + 1) (pre ++ [some a]) n' vs' (by simp; omega) (by simpa using hf) e2
          rw [← h.1]; simp; omega

/-- C130 (negative result): with the `argc` and `argv` of `main`, where `argv[argc]` is a null pointer, the call never succeeds: all that is converted are the
arguments behind the first, and when these have all converted a string is made from the null pointer. -/
theorem C130_values_of_main {V : Type} (fs : List (Conv V)) (ts : List V) (first : List Byte) (args : List (List Byte)) (h : fs.length = args.length + 1) (n : Nat)
    (vs : List V) : parseArgv (args.length + 1) (some first :: (args.map some ++ [none])) fs ts ≠ ok (args.length + 1, vs) ∧
    (parseArgv (args.length + 1) (some first :: (args.map some ++ [none])) fs ts = ok (n, vs) → n < args.length + 1) := by
  have key : ∀ n, parseArgv (args.length + 1) (some first :: (args.map some ++ [none])) fs ts = ok (n, vs) → n < args.length + 1 := by
    intro n hn
    unfold parseArgv at hn
    rw [if_neg (by omega)] at hn
    have := parseArgvTargets_main fs ts args 0 [some first] n vs rfl h (by simpa using hn)
    omega
  exact ⟨fun e => by have := key _ e; omega, key n⟩

/-- C130: one argument, as `main` gets it, and one target: a null pointer is made into a string at once. -/
theorem C130_one_of_main {V : Type} (f : Conv V) (t : V) (first : List Byte) : parseArgv 1 [some first, none] [f] [t] = ub := rfl

/-- A converter for the examples: takes the text itself unless it is empty. -/
def keepText : Conv (List Byte) := fun w _ => ok (!w.isEmpty, w)

-- "a,b\nc" : two records
example : parseLine [44] [keepText, keepText] [[], []] ⟨[97, 44, 98, 10, 99], false⟩ = ok ((true, [[97], [98]]), ⟨[99], false⟩) ∧
    parseLine [44] [keepText, keepText] [[97], [98]] ⟨[99], false⟩ = ok ((false, [[97], [98]]), ⟨[], false⟩) ∧
    parseLine [44] [keepText] [[7]] ⟨[], false⟩ = ok ((false, [[7]]), ⟨[], true⟩) := by decide +kernel
example : linesOf [97, 44, 98, 10, 99] = [97, 44, 98] :: [[99]] ∧ fields [44] ([97, 44, 98].map UInt8.toBitVec) = [[97], [98]] := by decide +kernel
example : parseArgv 2 [some [112], some [97], some [98], none] [keepText, keepText] [[], []] = ok (2, [[97], [98]]) ∧
    parseArgv 2 [some [97], some [98], none] [keepText, keepText] [[], []] = ub := by decide +kernel
example : parseArgvSeq (fun w => ok (!w.isEmpty, w)) true 3 [some [97], some [], some [98], none] [] = ok (1, [[97]]) ∧
    parseArgvSeq (fun w => ok (!w.isEmpty, w)) false 3 [some [97], some [], some [98], none] [] = ok (3, [[97], [98]]) := by decide +kernel

/-! ## Concrete cases of C129 -/

example := C129_parse_line [44] [keepText, keepText] [[], []] (by simp) [97, 44, 98, 10, 99] [97, 44, 98] [[99]] (by decide)

example := C129_end [44] [keepText] [[7]] ⟨[], false⟩ (Or.inr (by decide))

example := C129_fields [44] (by decide) [keepText, keepText] (by simp) [[], []] [[97], [98]] [97, 44, 98, 10, 99] [97, 44, 98] [[99]] (by decide) rfl rfl (by decide +kernel) (by
  have e : fields [44] (([97, 44, 98] : List UInt8).map UInt8.toBitVec) = [[97], [98]] := by decide +kernel
  rw [e]
  intro i f t v w h1 h2 h3 h4
  match i with
  | 0 => simp at h1 h3 h4; subst h1 h3 h4; rfl
  | 1 => simp at h1 h3 h4; subst h1 h3 h4; rfl
  | i + 2 => simp at h1)

example := C129_containers (V := List Byte) (C := List (List Byte)) [44] (by decide) (fun w => ok (true, w)) some (by simp) (fun c v => c ++ [v]) [] [] 0 [97, 44, 98, 10, 99]
  [97, 44, 98] [[99]] (by decide)

example := C129_one_line_per_call [44] [keepText, keepText] (by simp) 1 [[], []] [97, 44, 98, 10, 99] [true] [[97], [98]] ⟨[99], false⟩ (by decide) (by decide +kernel)

end Strtk.Parse
