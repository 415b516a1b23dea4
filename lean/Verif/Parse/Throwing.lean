import Verif.Parse.Props
import Verif.Split.Callbacks
import Verif.Lines.Props

/-!
# Parsing when a conversion or a container throws (strtk.hpp 8023-8833, 9030-9689, 112-241)

A conversion may throw (a user-defined converter, a `std::string` that gets no memory), and so may the container that a value is stored in.  What they do may
depend on the state `w` of the rest of the world (the memory left, say), which they may change.  A container that throws is as it was before the call: the strong
guarantee that the standard gives for adding one value at the end, to a set, or to an adapter.
-/

namespace Strtk.Parse
open Outcome Mem Strtk.Codec Strtk.Split

variable {σ V W C : Type}

/-- A target's converter: from the state of the world, the text and the old value to the returned flag (`none` if it throws), the value the target then holds,
and the new state. -/
abbrev ConvE (σ V : Type) := σ → List Byte → V → Option Bool × V × σ

/-- The `strtk_cmpstmt` sequence of `parse` (8053-8073) with converters that may throw: the flag (`none` if one threw), the targets and the state of the world. -/
def convertAllE : List (ConvE σ V) → σ → List V → List (List Byte) → Outcome (Option Bool × List V × σ)
  | [], w, ts, _ => ok (some true, ts, w)
  | _ :: _, _, [], _ => ub
  | _ :: _, _, _ :: _, [] => ub
  | f :: fs, w, t :: ts, x :: xs =>
    match f w x t with
    | (none, v, w) => ok (none, v :: ts, w)
    | (some false, v, w) => ok (some false, v :: ts, w)
    | (some true, v, w) => do
      let (r, vs, w) ← convertAllE fs w ts xs
      ok (r, v :: vs, w)

/-- `parse(begin,end,delimiters,t1,...,tn)` (8023-8619); the array of tokens is on the stack. -/
def parseE (delims : List Byte) (fs : List (ConvE σ V)) (w : σ) (ts : List V) (s : List Byte) : Outcome (Option Bool × List V × σ) := do
  let (toks, n) ← splitN { compress := true } (delimPred delims) s fs.length
  if fs.length > n then ok (some false, ts, w)
  else convertAllE fs w ts (toks.map (textOf s))

/-- The conversion of a token to a new value: `none` if it throws, `some none` if it fails. -/
abbrev NewE (σ V : Type) := σ → List Byte → Option (Option V) × σ

/-- Adding a value to the container; `none` if it throws. -/
abbrev PushE (σ V C : Type) := σ → C → V → Option C × σ

/-- `operator=` of the converting inserters (2638-2647, 2729-2737, 2795-2818): the container and the state of the world, or `none` if something threw. -/
def addE (conv : NewE σ V) (push : PushE σ V C) (c : C × σ) (x : List Byte) : Option (C × σ) :=
  match conv c.2 x with
  | (none, _) => none
  | (some none, w) => some (c.1, w)
  | (some (some v), w) =>
    match push w c.1 v with
    | (none, _) => none
    | (some c, w) => some (c, w)

/-- Texts given to the inserter one after the other. -/
def addAllE (conv : NewE σ V) (push : PushE σ V C) : C × σ → List (List Byte) → Option (C × σ)
  | c, [] => some c
  | c, x :: xs =>
    match addE conv push c x with
    | none => none
    | some c => addAllE conv push c xs

/-- The output that `split` has: it throws if the container, which has taken the tokens `out`, cannot take the next. -/
def taker (conv : NewE σ V) (push : PushE σ V C) (c : C × σ) (s : List Byte) : Put := fun out t => (addAllE conv push c ((out ++ [t]).map (textOf s))).isSome

/-- The container behind the output when `split` has ended or let the exception out: the strong guarantee leaves it as the tokens in `out` made it. -/
def holds (conv : NewE σ V) (push : PushE σ V C) (c : C × σ) (s : List Byte) (out : List (Nat × Nat)) : C :=
  match addAllE conv push c (out.map (textOf s)) with
  | some c => c.1
  | none => c.1

/-- `parse(begin,end,delimiters,container,split_option)` through `parse_impl` (8623-8833): the count (`none` if something threw) and the container. -/
def parseContainerE (opt : Opt) (delims : List Byte) (conv : NewE σ V) (push : PushE σ V C) (c : C × σ) (s : List Byte) : Outcome (Option Nat × C) := do
  let (out, r) ← splitE (s.length + 1) opt (plain (delimPred delims)) (taker conv push c s) () s
  ok (r.map Prod.fst, holds conv push c s out)

/-- `parse_n(begin,end,delimiters,n,container,split_option)` (9495-9689). -/
def parseNE (opt : Opt) (delims : List Byte) (n : Nat) (conv : NewE σ V) (push : PushE σ V C) (size : C → Nat) (c : C × σ) (s : List Byte) : Outcome (Option Nat × C) := do
  let (out, r) ← splitNE opt (plain (delimPred delims)) (taker conv push c s) () s n
  let c' := holds conv push c s out
  ok (r.map fun _ => size c' - size c.1, c')

/-- `container_adder::operator()(begin,end)` (9030-9042): stops at the first text that does not convert. -/
def adderE (conv : NewE σ W) (push : PushE σ W C) : C × σ → List (List Byte) → Option Bool × C
  | c, [] => (some true, c.1)
  | c, x :: xs =>
    match conv c.2 x with
    | (none, _) => (none, c.1)
    | (some none, _) => (some false, c.1)
    | (some (some v), w) =>
      match push w c.1 v with
      | (none, _) => (none, c.1)
      | (some c, w) => adderE conv push (c, w) xs

/-- `parse(begin,end,delimiters,t1,...,tk,container)` (9058-9493): `room` says whether the list of tokens gets the memory for one more (9071-9085); the flag (`none` if
something threw), the targets and the container. -/
def parseTailE (room : Put) (delims : List Byte) (fs : List (ConvE σ V)) (w : σ) (ts : List V) (conv : NewE σ W) (push : PushE σ W C) (c : C) (s : List Byte) :
    Outcome (Option Bool × List V × C) := do
  let (toks, r) ← splitE (s.length + 1) { compress := true } (plain (delimPred delims)) room () s
  match r with
  | none => ok (none, ts, c)
  | some _ =>
    if toks.length < fs.length + 1 then ok (some false, ts, c) else do
    let (r, vs, w) ← convertAllE fs w ts (toks.map (textOf s))
    match r with
    | none => ok (none, vs, c)
    | some false => ok (some false, vs, c)
    | some true =>
      let (r, c) := adderE conv push (c, w) ((toks.map (textOf s)).drop fs.length)
      ok (r, vs, c)

/-! ## Specification -/

/-- Each of the targets `ts` takes its text and then holds the value in `vs`; the world goes from `w` to `w'`. -/
inductive AllTake : σ → List (ConvE σ V) → List V → List (List Byte) → List V → σ → Prop
  | nil (w : σ) : AllTake w [] [] [] [] w
  | cons {w w' w'' : σ} {f : ConvE σ V} {t v : V} {x : List Byte} {fs : List (ConvE σ V)} {ts vs : List V} {xs : List (List Byte)} (h : f w x t = (some true, v, w'))
      (rest : AllTake w' fs ts xs vs w'') : AllTake w (f :: fs) (t :: ts) (x :: xs) (v :: vs) w''

/-- The texts `xs` go into the container one after the other, and `vs` are the values of those that convert. -/
inductive AllGo (conv : NewE σ V) (push : PushE σ V C) : C × σ → List (List Byte) → List V → C × σ → Prop
  | nil (c : C × σ) : AllGo conv push c [] [] c
  | skip {c : C} {w w' : σ} {x : List Byte} {xs : List (List Byte)} {vs : List V} {d : C × σ} (h : conv w x = (some none, w')) (rest : AllGo conv push (c, w') xs vs d) :
      AllGo conv push (c, w) (x :: xs) vs d
  | push {c c' : C} {w w' w'' : σ} {x : List Byte} {v : V} {xs : List (List Byte)} {vs : List V} {d : C × σ} (h : conv w x = (some (some v), w'))
      (hp : push w' c v = (some c', w'')) (rest : AllGo conv push (c', w'') xs vs d) : AllGo conv push (c, w) (x :: xs) (v :: vs) d

/-- The text `x` cannot go into the container: its conversion throws, or it converts and the container throws. -/
def Throws (conv : NewE σ V) (push : PushE σ V C) (c : C × σ) (x : List Byte) : Prop :=
  (conv c.2 x).1 = none ∨ ∃ v w, conv c.2 x = (some (some v), w) ∧ (push w c.1 v).1 = none

/-! ## Targets -/

theorem convertAllE_spec : ∀ (fs : List (ConvE σ V)) (w : σ) (ts : List V) (xs : List (List Byte)), ts.length = fs.length → fs.length ≤ xs.length →
    (∃ vs w', AllTake w fs ts (xs.take fs.length) vs w' ∧ convertAllE fs w ts xs = ok (some true, vs, w')) ∨
    ∃ fs1 f fs2 ts1 t ts2 xs1 x xs2 vs1 w' r v w'', fs = fs1 ++ f :: fs2 ∧ ts = ts1 ++ t :: ts2 ∧ xs = xs1 ++ x :: xs2 ∧ AllTake w fs1 ts1 xs1 vs1 w' ∧
      f w' x t = (r, v, w'') ∧ r ≠ some true ∧ convertAllE fs w ts xs = ok (r, vs1 ++ v :: ts2, w'') := by
  intro fs
  induction fs with
  | nil =>
    intro w ts xs h1 _
    have : ts = [] := List.length_eq_zero_iff.mp h1
    subst this
    exact Or.inl ⟨[], w, .nil w, rfl⟩
  | cons f fs ih =>
    intro w ts xs h1 h2
    match ts, xs with
    | [], _ => simp at h1
    | _ :: _, [] => simp at h2
    | t :: ts, x :: xs =>
      rcases hf : f w x t with ⟨r, v, w'⟩
      by_cases hr : r = some true
      · subst hr
        have hstep : convertAllE (f :: fs) w (t :: ts) (x :: xs) = (convertAllE fs w' ts xs >>= fun y => ok (y.1, v :: y.2.1, y.2.2)) := by
          rw [convertAllE, hf]
        rcases ih w' ts xs (by simpa using h1) (by simpa using h2) with ⟨vs, w2, h3, h4⟩ | ⟨fs1, g, fs2, ts1, u, ts2, xs1, y, xs2, vs1, w2, r, v', w3, rfl, rfl, rfl, h3, h4, h5, h6⟩
        · left
          refine ⟨v :: vs, w2, ?_, by rw [hstep, h4, ok_bind]⟩
          rw [List.length_cons, List.take_succ_cons]
          exact .cons hf h3
        · right
          exact ⟨f :: fs1, g, fs2, t :: ts1, u, ts2, x :: xs1, y, xs2, v :: vs1, w2, r, v', w3, rfl, rfl, rfl, .cons hf h3, h4, h5, by rw [hstep, h6, ok_bind]; rfl⟩
      · right
        refine ⟨[], f, fs, [], t, ts, [], x, xs, [], w, r, v, w', rfl, rfl, rfl, .nil w, hf, hr, ?_⟩
        rw [convertAllE, hf]
        match r with
        | none => rfl
        | some false => rfl
        | some true => exact absurd rfl hr

/-- C173: with too few fields `parse` converts nothing.  Otherwise either every target takes its field, or there is a first one that fails or throws: then the targets in front of it
hold the values of their fields, it holds what its own conversion left in it, the targets behind it are as they were, and `parse` returns `false` or throws accordingly. -/
theorem C173_targets (delims s : List Byte) (fs : List (ConvE σ V)) (w : σ) (ts : List V) (hts : ts.length = fs.length) :
    ((fields delims s).length < fs.length → parseE delims fs w ts s = ok (some false, ts, w)) ∧
    (fs.length ≤ (fields delims s).length →
      (∃ vs w', AllTake w fs ts ((fields delims s).take fs.length) vs w' ∧ parseE delims fs w ts s = ok (some true, vs, w')) ∨
      ∃ fs1 f fs2 ts1 t ts2 xs1 x xs2 vs1 w' r v w'', fs = fs1 ++ f :: fs2 ∧ ts = ts1 ++ t :: ts2 ∧ fields delims s = xs1 ++ x :: xs2 ∧ AllTake w fs1 ts1 xs1 vs1 w' ∧
        f w' x t = (r, v, w'') ∧ r ≠ some true ∧ parseE delims fs w ts s = ok (r, vs1 ++ v :: ts2, w'')) := by
  obtain ⟨r, e1, e2⟩ := splitN_fields delims s fs.length
  unfold parseE
  rw [e1, ok_bind]
  simp only
  constructor
  · intro h
    rw [if_pos (by omega)]
  · intro h
    rw [if_neg (by omega), e2]
    rcases convertAllE_spec fs w ts ((fields delims s).take fs.length) hts (by rw [List.length_take]; omega) with ⟨vs, w', h3, h4⟩ | ⟨fs1, f, fs2, ts1, t, ts2, xs1, x, xs2, vs1, w', r, v, w'', h0, h1, h2, h3, h4, h5, h6⟩
    · left
      refine ⟨vs, w', ?_, h4⟩
      rwa [List.take_take, Nat.min_self] at h3
    · right
      refine ⟨fs1, f, fs2, ts1, t, ts2, xs1, x, xs2 ++ (fields delims s).drop fs.length, vs1, w', r, v, w'', h0, h1, ?_, h3, h4, h5, h6⟩
      rw [← List.cons_append, ← List.append_assoc, ← h2, List.take_append_drop]

/-- Of three targets the second throws on "x", leaving 7 in its target. -/
def sampleConv : ConvE Unit Nat := fun w x t => match x with
  | [120] => (none, 7, w)
  | [c] => if 48 ≤ c.toNat ∧ c.toNat ≤ 57 then (some true, c.toNat - 48, w) else (some false, t, w)
  | _ => (some false, t, w)

example : parseE [44] [sampleConv, sampleConv, sampleConv] () [0, 0, 9] [49, 44, 120, 44, 51] = ok (none, [1, 7, 9], ()) ∧
    parseE [44] [sampleConv, sampleConv, sampleConv] () [0, 0, 9] [49, 44, 50, 44, 121] = ok (some false, [1, 2, 9], ()) := by decide +kernel

/-! ## Containers -/

theorem addAllE_append (conv : NewE σ V) (push : PushE σ V C) : ∀ (xs : List (List Byte)) (c : C × σ) (x : List Byte),
    addAllE conv push c (xs ++ [x]) = (addAllE conv push c xs).bind fun d => addE conv push d x := by
  intro xs
  induction xs with
  | nil =>
    intro c x
    simp only [List.nil_append, addAllE, Option.bind_some]
    cases addE conv push c x <;> rfl
  | cons y ys ih =>
    intro c x
    simp only [List.cons_append, addAllE]
    cases addE conv push c y with
    | none => rfl
    | some d => exact ih d x

theorem addE_cases (conv : NewE σ V) (push : PushE σ V C) (c : C) (w : σ) (x : List Byte) :
    (∃ w', conv w x = (some none, w') ∧ addE conv push (c, w) x = some (c, w')) ∨
    (∃ v w' c' w'', conv w x = (some (some v), w') ∧ push w' c v = (some c', w'') ∧ addE conv push (c, w) x = some (c', w'')) ∨
    (Throws conv push (c, w) x ∧ addE conv push (c, w) x = none) := by
  unfold addE Throws
  rcases h : conv w x with ⟨r, w'⟩
  match r with
  | none => right; right; simp
  | some none => left; exact ⟨w', rfl, by simp⟩
  | some (some v) =>
    rcases hp : push w' c v with ⟨p, w''⟩
    match p with
    | none => right; right; exact ⟨Or.inr ⟨v, w', rfl, by simp [hp]⟩, by simp [hp]⟩
    | some c' => right; left; exact ⟨v, w', c', w'', rfl, hp, by simp [hp]⟩

theorem addAllE_go (conv : NewE σ V) (push : PushE σ V C) : ∀ (xs : List (List Byte)) (c : C × σ),
    (∀ d, addAllE conv push c xs = some d → ∃ vs, AllGo conv push c xs vs d) := by
  intro xs
  induction xs with
  | nil => intro c d h; cases h; exact ⟨[], .nil c⟩
  | cons x xs ih =>
    rintro ⟨c, w⟩ d h
    rw [addAllE] at h
    rcases addE_cases conv push c w x with ⟨w', h1, h2⟩ | ⟨v, w', c', w'', h1, h2, h3⟩ | ⟨_, h2⟩
    · rw [h2] at h
      obtain ⟨vs, g⟩ := ih (c, w') d h
      exact ⟨vs, .skip h1 g⟩
    · rw [h3] at h
      obtain ⟨vs, g⟩ := ih (c', w'') d h
      exact ⟨v :: vs, .push h1 h2 g⟩
    · rw [h2] at h; exact absurd h (by simp)

/-- What offering the tokens one by one comes to. -/
theorem offer_taker (conv : NewE σ V) (push : PushE σ V C) (c : C × σ) (s : List Byte) (n : Nat) (ts : List (Nat × Nat)) :
    (∃ vs d, AllGo conv push c (ts.map (textOf s)) vs d ∧ offer (taker conv push c s) n () [] ts = (ts, some (n, ())) ∧ holds conv push c s ts = d.1) ∨
    ∃ pre t post vs d, ts = pre ++ t :: post ∧ AllGo conv push c (pre.map (textOf s)) vs d ∧ Throws conv push d (textOf s t) ∧
      offer (taker conv push c s) n () [] ts = (pre, none) ∧ holds conv push c s pre = d.1 := by
  have reach : ∀ k, k ≤ ts.length → (∀ j u, j < k → ts[j]? = some u → taker conv push c s (ts.take j) u = true) → ∃ d, addAllE conv push c ((ts.take k).map (textOf s)) = some d := by
    intro k hk h
    match k with
    | 0 => exact ⟨c, rfl⟩
    | k + 1 =>
      have hk' : k < ts.length := by omega
      have h1 := h k ts[k] (by omega) (List.getElem?_eq_getElem hk')
      unfold taker at h1
      rw [List.take_append_getElem hk'] at h1
      exact Option.isSome_iff_exists.mp h1
  rcases offer_spec (taker conv push c s) n () ts [] with ⟨h1, h2⟩ | ⟨k, t, h1, h2, h3, h4⟩
  · left
    obtain ⟨d, hd⟩ := reach ts.length (Nat.le_refl _) (by intro j u _ hu; simpa using h1 j u hu)
    rw [List.take_length] at hd
    obtain ⟨vs, g⟩ := addAllE_go conv push _ c d hd
    exact ⟨vs, d, g, by simpa using h2, by unfold holds; rw [hd]⟩
  · right
    have hk : k < ts.length := (List.getElem?_eq_some_iff.mp h1).1
    obtain ⟨d, hd⟩ := reach k (by omega) (by intro j u hj hu; simpa using h3 j u hj hu)
    obtain ⟨vs, g⟩ := addAllE_go conv push _ c d hd
    refine ⟨ts.take k, t, ts.drop (k + 1), vs, d, ?_, g, ?_, by simpa using h4, by unfold holds; rw [hd]⟩
    · have e : ts[k] = t := (List.getElem?_eq_some_iff.mp h1).2
      rw [← e, List.getElem_cons_drop hk, List.take_append_drop]
    · rw [List.nil_append] at h2
      unfold taker at h2
      rw [List.map_append, List.map_cons, List.map_nil, addAllE_append, hd, Option.bind_some] at h2
      rcases addE_cases conv push d.1 d.2 (textOf s t) with ⟨w', _, g2⟩ | ⟨v, w', c', w'', _, _, g3⟩ | ⟨g1, _⟩
      · rw [g2] at h2; simp at h2
      · rw [g3] at h2; simp at h2
      · exact g1

/-- C173: `parse` into a container, with any option.  Either every token goes in (those that do not convert are left out) and the number of tokens is returned, or there is a
first token that throws: then the container holds exactly what the tokens in front of it put in. -/
theorem C173_container (opt : Opt) (delims s : List Byte) (conv : NewE σ V) (push : PushE σ V C) (c : C × σ) :
    ∃ toks, split opt (fun x => decide (x ∈ delims)) s = ok (toks, toks.length) ∧
      ((∃ vs d, AllGo conv push c (toks.map (textOf s)) vs d ∧ parseContainerE opt delims conv push c s = ok (some toks.length, d.1)) ∨
      ∃ pre t post vs d, toks = pre ++ t :: post ∧ AllGo conv push c (pre.map (textOf s)) vs d ∧ Throws conv push d (textOf s t) ∧
        parseContainerE opt delims conv push c s = ok (none, d.1)) := by
  obtain ⟨toks, h1, _⟩ := C03_split_in_bounds opt (fun x => decide (x ∈ delims)) s
  refine ⟨toks, h1, ?_⟩
  unfold parseContainerE
  rw [C79_delimiter_string, splitE_plain opt _ _ () s toks toks.length h1, ok_bind]
  rcases offer_taker conv push c s toks.length toks with ⟨vs, d, g1, g2, g3⟩ | ⟨pre, t, post, vs, d, g0, g1, g2, g3, g4⟩
  · left; exact ⟨vs, d, g1, by rw [g2]; simp only [g3, Option.map_some]⟩
  · right; exact ⟨pre, t, post, vs, d, g0, g1, g2, by rw [g3]; simp only [g4, Option.map_none]⟩

/-- C173: `parse_n` into a container. -/
theorem C173_container_n (opt : Opt) (delims s : List Byte) (n : Nat) (conv : NewE σ V) (push : PushE σ V C) (size : C → Nat) (c : C × σ) (toks : List (Nat × Nat))
    (k : Nat) (h : splitN opt (fun x => decide (x ∈ delims)) s n = ok (toks, k)) :
    (∃ vs d, AllGo conv push c (toks.map (textOf s)) vs d ∧ parseNE opt delims n conv push size c s = ok (some (size d.1 - size c.1), d.1)) ∨
    ∃ pre t post vs d, toks = pre ++ t :: post ∧ AllGo conv push c (pre.map (textOf s)) vs d ∧ Throws conv push d (textOf s t) ∧
      parseNE opt delims n conv push size c s = ok (none, d.1) := by
  unfold parseNE
  rw [C79_delimiter_string, splitNE_plain opt _ _ () s n toks k h, ok_bind]
  rcases offer_taker conv push c s k toks with ⟨vs, d, g1, g2, g3⟩ | ⟨pre, t, post, vs, d, g0, g1, g2, g3, g4⟩
  · left; exact ⟨vs, d, g1, by rw [g2]; simp only [g3, Option.map_some]⟩
  · right; exact ⟨pre, t, post, vs, d, g0, g1, g2, by rw [g3]; simp only [g4, Option.map_none]⟩

/-- C173: a sequence then has its old elements and behind them the values of the texts that converted. -/
theorem C173_sequence (conv : NewE σ V) (push : PushE σ V (List V)) (hpush : ∀ w c v c' w', push w c v = (some c', w') → c' = c ++ [v]) {c d : List V × σ}
    {xs : List (List Byte)} {vs : List V} (h : AllGo conv push c xs vs d) : d.1 = c.1 ++ vs := by
  induction h with
  | nil => simp
  | skip _ _ ih => exact ih
  | push _ hp _ ih => rw [ih, hpush _ _ _ _ _ hp]; simp

/-- Digits go into a vector that has memory for `w` more elements. -/
def sampleNew : NewE Nat Nat := fun w x => match x with
  | [c] => if 48 ≤ c.toNat ∧ c.toNat ≤ 57 then (some (some (c.toNat - 48)), w) else (some none, w)
  | _ => (some none, w)

/-- See `sampleNew`. -/
def samplePush : PushE Nat Nat (List Nat) := fun w c v => match w with
  | 0 => (none, 0)
  | w + 1 => (some (c ++ [v]), w)

example : parseContainerE { compress := true } [44] sampleNew samplePush ([9], 2) [49, 44, 120, 44, 51, 44, 52] = ok (none, [9, 1, 3]) ∧
    parseContainerE { compress := true } [44] sampleNew samplePush ([9], 3) [49, 44, 120, 44, 51, 44, 52] = ok (some 4, [9, 1, 3, 4]) ∧
    parseNE { compress := true } [44] 3 sampleNew samplePush List.length ([9], 2) [49, 44, 120, 44, 51, 44, 52] = ok (some 2, [9, 1, 3]) ∧
    parseNE { compress := true } [44] 3 sampleNew samplePush List.length ([9], 1) [49, 44, 120, 44, 51, 44, 52] = ok (none, [9, 1]) := by decide +kernel

example {c d : List Nat × Nat} {xs vs} (h : AllGo sampleNew samplePush c xs vs d) : d.1 = c.1 ++ vs :=
  C173_sequence sampleNew samplePush (by
    intro w c v c' w' h
    match w with
    | 0 => simp [samplePush] at h
    | w + 1 => simp only [samplePush, Prod.mk.injEq, Option.some.injEq] at h; exact h.1.symm) h

example : AllGo sampleNew samplePush ([9], 2) [[49], [120], [51]] [1, 3] ([9, 1, 3], 0) ∧ Throws sampleNew samplePush ([9, 1, 3], 0) [52] :=
  ⟨.push rfl rfl (.skip rfl (.push rfl rfl (.nil _))), Or.inr ⟨4, 0, rfl, rfl⟩⟩

/-! ## Targets and a container -/

theorem adderE_spec (conv : NewE σ W) (push : PushE σ W C) : ∀ (xs : List (List Byte)) (c : C × σ),
    (∃ vs d, AllGo conv push c xs vs d ∧ vs.length = xs.length ∧ adderE conv push c xs = (some true, d.1)) ∨
    ∃ pre x post vs d, xs = pre ++ x :: post ∧ AllGo conv push c pre vs d ∧ vs.length = pre.length ∧
      (((conv d.2 x).1 = some none ∧ adderE conv push c xs = (some false, d.1)) ∨ (Throws conv push d x ∧ adderE conv push c xs = (none, d.1))) := by
  intro xs
  induction xs with
  | nil => intro c; left; exact ⟨[], c, .nil c, rfl, rfl⟩
  | cons x xs ih =>
    rintro ⟨c, w⟩
    rcases h : conv w x with ⟨r, w'⟩
    match r with
    | none => right; exact ⟨[], x, xs, [], (c, w), rfl, .nil _, rfl, Or.inr ⟨Or.inl (by simp [h]), by simp [adderE, h]⟩⟩
    | some none => right; exact ⟨[], x, xs, [], (c, w), rfl, .nil _, rfl, Or.inl ⟨by simp [h], by simp [adderE, h]⟩⟩
    | some (some v) =>
      rcases hp : push w' c v with ⟨p, w''⟩
      match p with
      | none => right; exact ⟨[], x, xs, [], (c, w), rfl, .nil _, rfl, Or.inr ⟨Or.inr ⟨v, w', h, by simp [hp]⟩, by simp [adderE, h, hp]⟩⟩
      | some c' =>
        have e : adderE conv push (c, w) (x :: xs) = adderE conv push (c', w'') xs := by simp [adderE, h, hp]
        rcases ih (c', w'') with ⟨vs, d, g1, g2, g3⟩ | ⟨pre, y, post, vs, d, g0, g1, g2, g3⟩
        · left; exact ⟨v :: vs, d, .push h hp g1, by simp [g2], by rw [e, g3]⟩
        · right
          refine ⟨x :: pre, y, post, v :: vs, d, by rw [g0]; rfl, .push h hp g1, by simp [g2], ?_⟩
          rw [e]; exact g3

/-- C173: `parse` into targets followed by a container.  If there is no memory for the list of tokens, or if there are too few fields, or if a target fails or throws, the container
is as it was; the targets are as without it (`C173_targets`).  If all targets take their fields, the container has the values of the following fields up to the
first that fails or throws. -/
theorem C173_tail (room : Put) (delims s : List Byte) (fs : List (ConvE σ V)) (w : σ) (ts : List V) (hts : ts.length = fs.length) (conv : NewE σ W) (push : PushE σ W C) (c : C) :
    ((∃ toks k t, split { compress := true } (fun x => decide (x ∈ delims)) s = ok (toks, toks.length) ∧ toks[k]? = some t ∧ room (toks.take k) t = false) ∧
      parseTailE room delims fs w ts conv push c s = ok (none, ts, c)) ∨
    ((fields delims s).length ≤ fs.length ∧ parseTailE room delims fs w ts conv push c s = ok (some false, ts, c)) ∨
    (∃ fs1 f fs2 ts1 t ts2 xs1 x xs2 vs1 w' r v w'', fs = fs1 ++ f :: fs2 ∧ ts = ts1 ++ t :: ts2 ∧ fields delims s = xs1 ++ x :: xs2 ∧ AllTake w fs1 ts1 xs1 vs1 w' ∧
      f w' x t = (r, v, w'') ∧ r ≠ some true ∧ parseTailE room delims fs w ts conv push c s = ok (r, vs1 ++ v :: ts2, c)) ∨
    ∃ vs w', AllTake w fs ts ((fields delims s).take fs.length) vs w' ∧
      ((∃ us d, AllGo conv push (c, w') ((fields delims s).drop fs.length) us d ∧ us.length = ((fields delims s).drop fs.length).length ∧
        parseTailE room delims fs w ts conv push c s = ok (some true, vs, d.1)) ∨
      ∃ pre x post us d, (fields delims s).drop fs.length = pre ++ x :: post ∧ AllGo conv push (c, w') pre us d ∧ us.length = pre.length ∧
        (((conv d.2 x).1 = some none ∧ parseTailE room delims fs w ts conv push c s = ok (some false, vs, d.1)) ∨
          (Throws conv push d x ∧ parseTailE room delims fs w ts conv push c s = ok (none, vs, d.1)))) := by
  obtain ⟨toks, e1, e2⟩ := split_fields delims s
  have hlen : toks.length = (fields delims s).length := by rw [← e2, List.length_map]
  unfold parseTailE
  rw [splitE_plain _ _ room () s toks toks.length e1, ok_bind]
  rcases offer_spec room toks.length () toks [] with ⟨_, h2⟩ | ⟨k, t, g1, g2, _, h4⟩
  · rw [h2]
    simp only [List.nil_append]
    right
    by_cases hn : toks.length < fs.length + 1
    · left; exact ⟨by omega, by rw [if_pos hn]⟩
    · right
      rw [if_neg hn, e2]
      rcases convertAllE_spec fs w ts (fields delims s) hts (by omega) with ⟨vs, w', h3, h4⟩ | ⟨fs1, f, fs2, ts1, t, ts2, xs1, x, xs2, vs1, w', r, v, w'', h0, h1, h2, h3, h4, h5, h6⟩
      · right
        refine ⟨vs, w', h3, ?_⟩
        rw [h4, ok_bind]
        simp only
        rcases adderE_spec conv push ((fields delims s).drop fs.length) (c, w') with ⟨us, d, g1, g2, g3⟩ | ⟨pre, x, post, us, d, g0, g1, g2, g3⟩
        · left; exact ⟨us, d, g1, g2, by rw [g3]⟩
        · right
          refine ⟨pre, x, post, us, d, g0, g1, g2, ?_⟩
          rcases g3 with ⟨g3, g4⟩ | ⟨g3, g4⟩
          · left; exact ⟨g3, by rw [g4]⟩
          · right; exact ⟨g3, by rw [g4]⟩
      · left
        refine ⟨fs1, f, fs2, ts1, t, ts2, xs1, x, xs2, vs1, w', r, v, w'', h0, h1, h2, h3, h4, h5, ?_⟩
        rw [h6, ok_bind]
        match r with
        | none => rfl
        | some false => rfl
        | some true => exact absurd rfl h5
  · left
    exact ⟨⟨toks, k, t, by rw [← C79_delimiter_string]; exact e1, g1, by simpa using g2⟩, by rw [h4]⟩

/-- Without memory for the list of tokens nothing is converted. -/
theorem C173_tail_no_memory (room : Put) (delims s : List Byte) (fs : List (ConvE σ V)) (w : σ) (ts : List V) (conv : NewE σ W) (push : PushE σ W C) (c : C) (toks : List (Nat × Nat))
    (n : Nat) (h : split { compress := true } (fun x => decide (x ∈ delims)) s = ok (toks, n)) (k : Nat) (t : Nat × Nat) (hk : toks[k]? = some t)
    (hroom : room (toks.take k) t = false) : parseTailE room delims fs w ts conv push c s = ok (none, ts, c) := by
  unfold parseTailE
  rw [C79_delimiter_string, splitE_plain _ _ room () s toks n h, ok_bind]
  rcases offer_spec room n () toks [] with ⟨h1, _⟩ | ⟨_, _, _, _, _, h4⟩
  · have := h1 k t hk
    rw [List.nil_append, hroom] at this
    exact absurd this (by simp)
  · rw [h4]

example : parseTailE always [44] [fun w x t => sampleConv () x t |> fun r => (r.1, r.2.1, w)] 1 [0] sampleNew samplePush [] [49, 44, 50, 44, 51] = ok (none, [1], [2]) ∧
    parseTailE (fun out _ => decide (out.length < 2)) [44] [fun w x t => sampleConv () x t |> fun r => (r.1, r.2.1, w)] 1 [0] sampleNew samplePush [] [49, 44, 50, 44, 51] =
      ok (none, [0], []) ∧
    split { compress := true } (fun x => decide (x ∈ [(44 : Byte)])) [49, 44, 50, 44, 51] = ok ([(0, 1), (2, 3), (4, 5)], 3) := by decide +kernel

end Strtk.Parse

/-! ## Lines -/

namespace Strtk.Lines
open Outcome

variable {σ : Type}

/-- The loop of `for_each_line` (119-127) with a callback that may throw (`false`), having changed the state: the count (`none` if it threw), the state and the text left. -/
def forEachLineLoopE (f : σ → List UInt8 → Bool × σ) : Nat → List UInt8 → σ → Nat → Outcome (Option Nat × σ × List UInt8)
  | 0, _, _, _ => diverge
  | fuel + 1, text, s, count =>
    match getline text with
    | none => ok (some count, s, text)
    | some (line, text) =>
      match f s line with
      | (false, s) => ok (none, s, text)
      | (true, s) => forEachLineLoopE f fuel text s (count + 1)

/-- `for_each_line(stream, function)` (112-128). -/
def forEachLineE (f : σ → List UInt8 → Bool × σ) (text : List UInt8) (s : σ) : Outcome (Option Nat × σ × List UInt8) := forEachLineLoopE f (text.length + 1) text s 0

/-- The loop of `for_each_line_n` (138-147). -/
def forEachLineNLoopE (n : Nat) (f : σ → List UInt8 → Bool × σ) : Nat → List UInt8 → σ → Nat → Outcome (Option Nat × σ × List UInt8)
  | 0, _, _, _ => diverge
  | fuel + 1, text, s, count =>
    match getline text with
    | none => ok (some count, s, text)
    | some (line, text) =>
      match f s line with
      | (false, s) => ok (none, s, text)
      | (true, s) => if n = count + 1 then ok (some (count + 1), s, text) else forEachLineNLoopE n f fuel text s (count + 1)

/-- `for_each_line_n(stream, n, function)` (130-148). -/
def forEachLineNE (n : Nat) (f : σ → List UInt8 → Bool × σ) (text : List UInt8) (s : σ) : Outcome (Option Nat × σ × List UInt8) := forEachLineNLoopE n f (text.length + 1) text s 0

/-- What a traversal with a callback that may throw does: `k` lines are taken, and the state and the lines left are those behind them; or the next line throws, and it counts as read. -/
structure EndsAt (f : σ → List UInt8 → Bool × σ) (lines : List (List UInt8)) (limit : Nat) (s : σ) (r : Option Nat) (s' : σ) (left : List (List UInt8)) : Prop where
  taken : ∃ k, k ≤ lines.length ∧ k ≤ limit ∧ (∀ j line, j < k → lines[j]? = some line → (f (stateAfter f lines s j) line).1 = true) ∧
    ((r = some k ∧ k = min limit lines.length ∧ s' = stateAfter f lines s k ∧ left = lines.drop k) ∨
    ∃ line, r = none ∧ k < limit ∧ lines[k]? = some line ∧ (f (stateAfter f lines s k) line).1 = false ∧ s' = stateAfter f lines s (k + 1) ∧ left = lines.drop (k + 1))

theorem EndsAt.cons {f : σ → List UInt8 → Bool × σ} {line : List UInt8} {lines : List (List UInt8)} {limit : Nat} {s : σ} {r : Option Nat} {s' : σ} {left : List (List UInt8)}
    (hgo : (f s line).1 = true) (h : EndsAt f lines limit (f s line).2 r s' left) : EndsAt f (line :: lines) (limit + 1) s (r.map (· + 1)) s' left := by
  obtain ⟨k, h0, h1, h2, h3⟩ := h
  refine ⟨k + 1, by simp; omega, by omega, ?_, ?_⟩
  · intro j l hj hl
    cases j with
    | zero => simp at hl; subst hl; simpa [stateAfter] using hgo
    | succ j =>
      have := h2 j l (by omega) (by simpa using hl)
      simpa [stateAfter] using this
  · rcases h3 with ⟨h3, h4, h5, h6⟩ | ⟨l, h3, h4, h5, h6, h7, h8⟩
    · left
      exact ⟨by rw [h3]; rfl, by rw [List.length_cons]; omega, by simpa [stateAfter] using h5, by simpa using h6⟩
    · right
      exact ⟨l, by rw [h3]; rfl, by omega, by simpa using h5, by simpa [stateAfter] using h6, by simpa [stateAfter] using h7, by simpa using h8⟩

theorem forEachLineLoopE_spec (f : σ → List UInt8 → Bool × σ) : ∀ fuel text s count, text.length < fuel →
    ∃ r s' rest, forEachLineLoopE f fuel text s count = ok (r.map (count + ·), s', rest) ∧ EndsAt f (linesOf text) (linesOf text).length s r s' (linesOf rest) ∧
      (r = none → rest.length < text.length) ∧ (r ≠ none → rest = []) := by
  intro fuel
  induction fuel with
  | zero => intro text _ _ h; omega
  | succ fuel ih =>
    intro text s count hf
    unfold forEachLineLoopE
    rcases getline_spec text with ⟨rfl, h⟩ | ⟨line, rest, h1, h2, h3, _⟩
    · rw [h]
      exact ⟨some 0, s, [], rfl, ⟨0, by simp, by simp, by intro j l hj; omega, Or.inl ⟨rfl, by simp [linesOf_nil], rfl, by simp [linesOf_nil]⟩⟩, by simp, fun _ => rfl⟩
    · rw [h1, h2]
      simp only
      rcases hl : f s line with ⟨go, s1⟩
      cases go with
      | false =>
        refine ⟨none, s1, rest, rfl, ⟨0, by simp, by simp, by intro j l hj; omega, Or.inr ⟨line, rfl, by simp, by simp, by simpa [stateAfter] using congrArg Prod.fst hl, ?_, by simp⟩⟩,
          fun _ => by omega, by simp⟩
        simp [stateAfter, hl]
      | true =>
        obtain ⟨r, s', more, g1, g2, g3, g4⟩ := ih rest s1 (count + 1) (by omega)
        refine ⟨r.map (· + 1), s', more, ?_, ?_, ?_, ?_⟩
        · simp only [g1]
          cases r with
          | none => rfl
          | some k => simp only [Option.map_some]; congr 3; omega
        · rw [List.length_cons]
          exact EndsAt.cons (by rw [hl]) (by rw [hl]; exact g2)
        · intro h; have := g3 (by cases r <;> simp_all); omega
        · intro h; exact g4 (by cases r <;> simp_all)

/-- C173: `for_each_line` with a callback that may throw: the lines in front have been shown once and in order, the line that threw has been read, and the stream stands at the next. -/
theorem C173_lines (f : σ → List UInt8 → Bool × σ) (text : List UInt8) (s : σ) :
    ∃ r s' rest, forEachLineE f text s = ok (r, s', rest) ∧ EndsAt f (linesOf text) (linesOf text).length s r s' (linesOf rest) := by
  obtain ⟨r, s', rest, h1, h2, _⟩ := forEachLineLoopE_spec f (text.length + 1) text s 0 (by omega)
  refine ⟨r, s', rest, ?_, h2⟩
  unfold forEachLineE
  rw [h1]
  cases r <;> simp

theorem forEachLineNLoopE_spec (n : Nat) (f : σ → List UInt8 → Bool × σ) : ∀ fuel text s count, text.length < fuel → count < n →
    ∃ r s' rest, forEachLineNLoopE n f fuel text s count = ok (r.map (count + ·), s', rest) ∧ EndsAt f (linesOf text) (n - count) s r s' (linesOf rest) := by
  intro fuel
  induction fuel with
  | zero => intro text _ _ h; omega
  | succ fuel ih =>
    intro text s count hf hc
    have hsub : n - count = (n - (count + 1)) + 1 := by omega
    unfold forEachLineNLoopE
    rcases getline_spec text with ⟨rfl, h⟩ | ⟨line, rest, h1, h2, h3, _⟩
    · rw [h]
      exact ⟨some 0, s, [], rfl, ⟨0, by simp, by simp, by intro j l hj; omega, Or.inl ⟨rfl, by simp [linesOf_nil], rfl, by simp [linesOf_nil]⟩⟩⟩
    · rw [h1, h2]
      simp only
      rcases hl : f s line with ⟨go, s1⟩
      cases go with
      | false =>
        refine ⟨none, s1, rest, rfl, ⟨0, by simp, by simp, by intro j l hj; omega, Or.inr ⟨line, rfl, by omega, by simp, by simpa [stateAfter] using congrArg Prod.fst hl, ?_, by simp⟩⟩⟩
        simp [stateAfter, hl]
      | true =>
        by_cases hn : n = count + 1
        · refine ⟨(some 0).map (· + 1), s1, rest, by simp [hn], ?_⟩
          rw [hsub]
          have h0 : n - (count + 1) = 0 := by omega
          rw [h0]
          refine EndsAt.cons (by rw [hl]) ?_
          rw [hl]
          exact ⟨0, by simp, by simp, by intro j l hj; omega, Or.inl ⟨rfl, by simp, rfl, by simp⟩⟩
        · obtain ⟨r, s', more, g1, g2⟩ := ih rest s1 (count + 1) (by omega) (by omega)
          refine ⟨r.map (· + 1), s', more, ?_, ?_⟩
          · simp only [if_neg hn, g1]
            cases r with
            | none => rfl
            | some k => simp only [Option.map_some]; congr 3; omega
          · rw [hsub]
            exact EndsAt.cons (by rw [hl]) (by rw [hl]; exact g2)

/-- C173: with `n ≥ 1` (0 means all lines, see `C68_zero_is_all`) the same for `for_each_line_n`. -/
theorem C173_lines_n (n : Nat) (hn : 1 ≤ n) (f : σ → List UInt8 → Bool × σ) (text : List UInt8) (s : σ) :
    ∃ r s' rest, forEachLineNE n f text s = ok (r, s', rest) ∧ EndsAt f (linesOf text) n s r s' (linesOf rest) := by
  obtain ⟨r, s', rest, h1, h2⟩ := forEachLineNLoopE_spec n f (text.length + 1) text s 0 (by omega) hn
  refine ⟨r, s', rest, ?_, h2⟩
  unfold forEachLineNE
  rw [h1]
  cases r <;> simp

/-- A caller that catches every exception and calls `for_each_line` again on the same stream until it returns. -/
def again (f : σ → List UInt8 → Bool × σ) : Nat → List UInt8 → σ → Outcome (σ × List UInt8)
  | 0, _, _ => diverge
  | fuel + 1, text, s => do
    let (r, s, text) ← forEachLineE f text s
    match r with
    | none => again f fuel text s
    | some _ => ok (s, text)

/-- C173: a caller that catches and calls again has every line of the stream shown exactly once, in order, however often the callback throws. -/
theorem C173_lines_again (f : σ → List UInt8 → Bool × σ) (text : List UInt8) (s : σ) :
    again f (text.length + 1) text s = ok ((linesOf text).foldl (fun s l => (f s l).2) s, []) := by
  have key : ∀ fuel text s, text.length < fuel → again f fuel text s = ok ((linesOf text).foldl (fun s l => (f s l).2) s, []) := by
    intro fuel
    induction fuel with
    | zero => intro text _ h; omega
    | succ fuel ih =>
      intro text s hf
      obtain ⟨r, s', rest, h1, ⟨k, g0, g1, g2, g3⟩, h3, h4⟩ := forEachLineLoopE_spec f (text.length + 1) text s 0 (by omega)
      unfold again forEachLineE
      rw [h1, ok_bind]
      rcases g3 with ⟨rfl, e1, e2, e3⟩ | ⟨line, rfl, e1, e2, e3, e4, e5⟩
      · rw [Nat.min_self] at e1
        simp only [Option.map_some]
        rw [h4 (by simp), e2, stateAfter, e1, List.take_length]
      · simp only [Option.map_none]
        rw [ih rest s' (by have := h3 rfl; omega), e4, e5, stateAfter, ← List.foldl_append, List.take_append_drop]
  exact key _ text s (by omega)

/-- The callback throws at the lines "x", after noting them. -/
def sampleLine : List (List UInt8) → List UInt8 → Bool × List (List UInt8) := fun s l => (l ≠ [120], s ++ [l])

example : forEachLineE sampleLine [49, 10, 120, 10, 51] [] = ok (none, [[49], [120]], [51]) ∧ forEachLineNE 1 sampleLine [49, 10, 120, 10, 51] [] = ok (some 1, [[49]], [120, 10, 51]) ∧
    again sampleLine 7 [49, 10, 120, 10, 51] [] = ok ([[49], [120], [51]], []) := by decide

end Strtk.Lines
