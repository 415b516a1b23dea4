import Verif.KeyValue.Props
import Verif.Split.Callbacks

/-! # The key/value parser when a lookup, a conversion or the list of pairs throws (strtk.hpp 24024-24150, C187)

A lookup may throw (the `std::string` made from the key gets no memory, a validator throws), a conversion may throw, and so may the list of pairs when it grows.  What they
do may depend on the state `w` of the rest of the world, which they may change. -/

namespace Strtk.KeyValue
open Outcome Strtk.Number Strtk.Split

variable {σ V : Type}

/-- The variables and the rest of the world. -/
abbrev St (σ V : Type) := (Nat → V) × σ

/-- The lookup of a key, `key_map::operator()` up to line 24292 or `uintkey_map::operator()` up to line 24190: `none` if it throws, `some none` if there is no such key.  (That
the lookups read only the key is part of C59.) -/
abbrev LookE (σ : Type) := σ → List Byte → Option (Option Nat) × σ

/-- The conversion for a variable: the flag (`none` if it throws), the contents then and the world. -/
abbrev TakeE (σ V : Type) := Nat → σ → V → List Byte → Option Bool × V × σ

/-- `kv_map_(key_range, value_range)` (24181-24193, 24280-24294). -/
def deliverE (look : LookE σ) (conv : TakeE σ V) (s : St σ V) (key value : List Byte) : Option Bool × St σ V :=
  match look s.2 key with
  | (none, w) => (none, (s.1, w))
  | (some none, w) => (some false, (s.1, w))
  | (some (some x), w) =>
    let (r, v, w) := conv x w (s.1 x) value
    (r, (setVar s.1 x v, w))

/-- `split_pair` and the delivery for one token (24075-24080, 24121-24128). -/
def processE (pair : Byte → Bool) (look : LookE σ) (conv : TakeE σ V) (s : St σ V) (tok : List Byte) : Outcome (Option Bool × St σ V) := do
  let r ← splitPair pair tok
  match r with
  | none => ok (some false, s)
  | some (k, v) => ok (deliverE look conv s (textOf tok k) (textOf tok v))

/-- The loop over the tokens (24070-24082); the result is `none` if something threw. -/
def strictLoopE (pair : Byte → Bool) (look : LookE σ) (conv : TakeE σ V) : St σ V → List (List Byte) → Outcome (Option Bool × St σ V)
  | s, [] => ok (some true, s)
  | s, t :: ts =>
    if t.length = 0 then strictLoopE pair look conv s ts
    else do
      let (r, s) ← processE pair look conv s t
      if r = some true then strictLoopE pair look conv s ts else ok (r, s)

/-- What the parser object keeps between calls (24146, 24150): the number of failures and the list of pairs. -/
structure Parser where
  failures : Nat
  pairs : List (Nat × Nat)

/-- `operator()(data, false)` (24056-24083): the result (`none` if something threw), the parser, the variables and the world.  `room` says whether the list of pairs, which
holds the given ranges, gets the memory for one more; a list that does not is as it was. -/
def callStrict (room : Put) (block pair : Byte → Bool) (look : LookE σ) (conv : TakeE σ V) (p : Parser) (s : St σ V) (data : List Byte) :
    Outcome (Option Bool × Parser × St σ V) := do
  let cleared : List (Nat × Nat) := []
  let (out, r) ← splitE (data.length + 1) {} (plain block) (fun l t => room (cleared ++ l) t) () data
  let p := { p with pairs := cleared ++ out }
  match r with
  | none => ok (none, p, s)
  | some (count, _) =>
    if count = 0 then ok (some false, p, s)
    else do
      let (b, s) ← strictLoopE pair look conv s ((p.pairs.take count).map (textOf data))
      ok (b, p, s)

/-- `pair_token_processor` called for one token after the other (24116-24131): whether it got through all, the failures, the variables and the world. -/
def lenientLoopE (pair : Byte → Bool) (look : LookE σ) (conv : TakeE σ V) : Nat → St σ V → List (List Byte) → Outcome (Bool × Nat × St σ V)
  | n, s, [] => ok (true, n, s)
  | n, s, t :: ts =>
    if t.length = 0 then lenientLoopE pair look conv n s ts
    else do
      let (r, s) ← processE pair look conv s t
      match r with
      | none => ok (false, n, s)
      | some good => lenientLoopE pair look conv (if good then n else n + 1) s ts

/-- The output `functional_inserter(processor)` that `split` has: after the tokens `out`, does the processor return from the next? -/
def returns (pair : Byte → Bool) (look : LookE σ) (conv : TakeE σ V) (s : St σ V) (data : List Byte) : Put := fun out t =>
  match lenientLoopE pair look conv 0 s ((out ++ [t]).map (textOf data)) with
  | ok r => r.1
  | _ => false

/-- `operator()(data, true)` (24084-24093): whether it returned (`true`, always) or something threw, the parser, the variables and the world.  If the output of `split` threw, it
had been given the tokens in `out` and the one behind them. -/
def callLenient (block pair : Byte → Bool) (look : LookE σ) (conv : TakeE σ V) (p : Parser) (s : St σ V) (data : List Byte) : Outcome (Option Bool × Parser × St σ V) := do
  let failures := 0
  let (out, r) ← splitE (data.length + 1) {} (plain block) (returns pair look conv s data) () data
  match r with
  | some _ => do
    let (_, n, s) ← lenientLoopE pair look conv failures s (out.map (textOf data))
    ok (some true, { p with failures := n }, s)
  | none => do
    let (toks, _) ← split {} block data
    let (_, n, s) ← lenientLoopE pair look conv failures s ((toks.take (out.length + 1)).map (textOf data))
    ok (none, { p with failures := n }, s)

/-! ## Specification -/

/-- One token is dealt with: `r` is what comes of it, `none` if something threw. -/
inductive Step (d : Byte → Bool) (look : LookE σ) (conv : TakeE σ V) : St σ V → List Byte → Option Bool → St σ V → Prop
  | noPair {s : St σ V} {t : List Byte} (h : ∀ k v, ¬ IsPair d t k v) : Step d look conv s t (some false) s
  | lookThrew {m : Nat → V} {w w' : σ} {t k v : List Byte} (h : IsPair d t k v) (hl : look w k = (none, w')) : Step d look conv (m, w) t none (m, w')
  | unknown {m : Nat → V} {w w' : σ} {t k v : List Byte} (h : IsPair d t k v) (hl : look w k = (some none, w')) : Step d look conv (m, w) t (some false) (m, w')
  | taken {m m' : Nat → V} {w w' w'' : σ} {t k v : List Byte} {x : Nat} {r : Option Bool} {a : V} (h : IsPair d t k v) (hl : look w k = (some (some x), w'))
      (hc : conv x w' (m x) v = (r, a, w'')) (hx : m' x = a) (hy : ∀ y, y ≠ x → m' y = m y) : Step d look conv (m, w) t r (m', w'')

/-- The tokens are dealt with one after the other without an exception; their flags. -/
inductive Steps (d : Byte → Bool) (look : LookE σ) (conv : TakeE σ V) : St σ V → List (List Byte) → List Bool → St σ V → Prop
  | nil (s : St σ V) : Steps d look conv s [] [] s
  | cons {s s' s'' : St σ V} {t : List Byte} {ts : List (List Byte)} {b : Bool} {bs : List Bool} (h : Step d look conv s t (some b) s')
      (rest : Steps d look conv s' ts bs s'') : Steps d look conv s (t :: ts) (b :: bs) s''

/-! ## One token -/

/-- One token, in terms of the specification. -/
def stepE (d : Byte → Bool) (look : LookE σ) (conv : TakeE σ V) (s : St σ V) (t : List Byte) : Option Bool × St σ V :=
  match pairOf d t with
  | none => (some false, s)
  | some (k, v) => deliverE look conv s k v

theorem processE_eq (d : Byte → Bool) (look : LookE σ) (conv : TakeE σ V) (s : St σ V) (t : List Byte) : processE d look conv s t = ok (stepE d look conv s t) := by
  obtain ⟨r, h1, h2⟩ := splitPair_eq d t
  unfold processE stepE
  rw [h1, ok_bind, ← h2]
  cases r with
  | none => rfl
  | some p => rfl

theorem isPair_unique {d : Byte → Bool} {t k v k' v' : List Byte} (h : IsPair d t k v) (h' : IsPair d t k' v') : k = k' ∧ v = v' := by
  have e := ((pairOf_iff d t k v).mpr h).symm.trans ((pairOf_iff d t k' v').mpr h')
  cases e
  exact ⟨rfl, rfl⟩

theorem step_iff (d : Byte → Bool) (look : LookE σ) (conv : TakeE σ V) (s : St σ V) (t : List Byte) (r : Option Bool) (s' : St σ V) :
    Step d look conv s t r s' ↔ stepE d look conv s t = (r, s') := by
  constructor
  · intro h
    unfold stepE
    cases h with
    | noPair h =>
      cases hp : pairOf d t with
      | none => rfl
      | some p => exact absurd ((pairOf_iff d t p.1 p.2).mp hp) (h _ _)
    | lookThrew h hl => rw [(pairOf_iff d _ _ _).mpr h]; simp [deliverE, hl]
    | unknown h hl => rw [(pairOf_iff d _ _ _).mpr h]; simp [deliverE, hl]
    | taken h hl hc hx hy =>
      rename_i m m' w w' w'' k v x a
      rw [(pairOf_iff d _ _ _).mpr h]
      simp only [deliverE, hl, hc]
      have : setVar m x a = m' := by
        funext y
        unfold setVar
        split
        · rename_i e; rw [e, hx]
        · rename_i e; rw [hy y e]
      rw [this]
  · intro h
    obtain ⟨m, w⟩ := s
    unfold stepE at h
    cases hp : pairOf d t with
    | none =>
      rw [hp] at h
      cases h
      refine .noPair fun k v hk => ?_
      rw [(pairOf_iff d t k v).mpr hk] at hp
      cases hp
    | some p =>
      obtain ⟨k, v⟩ := p
      rw [hp] at h
      have hk := (pairOf_iff d t k v).mp hp
      simp only [deliverE] at h
      rcases hl : look w k with ⟨_ | _ | x, w'⟩
      · rw [hl] at h; cases h; exact .lookThrew hk hl
      · rw [hl] at h; cases h; exact .unknown hk hl
      · rw [hl] at h
        rcases hc : conv x w' (m x) v with ⟨b, a, w''⟩
        simp only [hc] at h
        cases h
        exact .taken hk hl hc (by simp [setVar]) (by intro y hy; simp [setVar, hy])

/-! ## The strict parser -/

/-- The tokens before the first that is not good. -/
def strictAll (d : Byte → Bool) (look : LookE σ) (conv : TakeE σ V) : St σ V → List (List Byte) → Option Bool × St σ V
  | s, [] => (some true, s)
  | s, t :: ts => if (stepE d look conv s t).1 = some true then strictAll d look conv (stepE d look conv s t).2 ts else stepE d look conv s t

theorem strictLoopE_eq (d : Byte → Bool) (look : LookE σ) (conv : TakeE σ V) : ∀ (ts : List (List Byte)) (s : St σ V),
    strictLoopE d look conv s ts = ok (strictAll d look conv s (ts.filter fun t => t ≠ [])) := by
  intro ts
  induction ts with
  | nil => intro s; rfl
  | cons t ts ih =>
    intro s
    rw [strictLoopE]
    by_cases ht : t = []
    · subst ht
      rw [if_pos (by rfl), ih]
      simp
    · rw [if_neg (by simpa using ht), processE_eq, ok_bind, filter_cons_ne ht, strictAll]
      by_cases hg : (stepE d look conv s t).1 = some true
      · simp only [if_pos hg]; exact ih _
      · simp only [if_neg hg]

theorem strictAll_spec (d : Byte → Bool) (look : LookE σ) (conv : TakeE σ V) : ∀ (ts : List (List Byte)) (s : St σ V),
    (∃ s', Steps d look conv s ts (List.replicate ts.length true) s' ∧ strictAll d look conv s ts = (some true, s')) ∨
    ∃ pre t post s1 r s2, ts = pre ++ t :: post ∧ Steps d look conv s pre (List.replicate pre.length true) s1 ∧ Step d look conv s1 t r s2 ∧ r ≠ some true ∧
      strictAll d look conv s ts = (r, s2) := by
  intro ts
  induction ts with
  | nil => intro s; left; exact ⟨s, .nil s, rfl⟩
  | cons t ts ih =>
    intro s
    rw [strictAll]
    have hs : Step d look conv s t (stepE d look conv s t).1 (stepE d look conv s t).2 := (step_iff ..).mpr rfl
    by_cases hg : (stepE d look conv s t).1 = some true
    · rw [if_pos hg]
      rw [hg] at hs
      rcases ih (stepE d look conv s t).2 with ⟨s', h1, h2⟩ | ⟨pre, u, post, s1, r, s2, rfl, h2, h3⟩
      · left; exact ⟨s', .cons hs h1, h2⟩
      · right; exact ⟨t :: pre, u, post, s1, r, s2, rfl, .cons hs h2, h3⟩
    · rw [if_neg hg]
      right
      exact ⟨[], t, ts, s, _, _, rfl, .nil s, hs, hg, rfl⟩

theorem strictAll_steps (d : Byte → Bool) (look : LookE σ) (conv : TakeE σ V) {ts : List (List Byte)} {s s' : St σ V} {bs : List Bool} (h : Steps d look conv s ts bs s')
    (hb : bs = List.replicate ts.length true) : strictAll d look conv s ts = (some true, s') := by
  induction h with
  | nil => rfl
  | cons h _ ih =>
    rw [List.length_cons, List.replicate_succ] at hb
    cases hb
    rw [strictAll, (step_iff ..).mp h, if_pos rfl]
    exact ih rfl

/-- The ranges `split` finds. -/
theorem ranges (block : Byte → Bool) (data : List Byte) (hd : data ≠ []) :
    ∃ rs, split {} block data = ok (rs, rs.length) ∧ rs.length ≠ 0 ∧ (rs.map (textOf data)).filter (fun t => t ≠ []) = tokens block data := by
  obtain ⟨rs, h1, h2⟩ := (Split.C01_split_default block data).2 hd
  refine ⟨rs, h1, ?_, ?_⟩
  · have := congrArg List.length h2
    rw [List.length_map] at this
    rw [this]
    have := List.splitOnP_ne_nil block data
    simpa using this
  · rw [h2]; rfl

/-- C187: a strict call, when the list of pairs gets the memory it asks for.  Either every pair is taken, and the result is `true`; or the pairs before some first token are
taken, that token is no pair, has an unknown key, does not convert or throws, and nothing else happens.  The count of failures stays. -/
theorem C187_strict (room : Put) (block d : Byte → Bool) (look : LookE σ) (conv : TakeE σ V) (p : Parser) (s : St σ V) (data : List Byte) (hd : data ≠ [])
    (hroom : ∀ out t, room out t = true) :
    ∃ p' : Parser, p'.failures = p.failures ∧
      ((∃ s', Steps d look conv s (tokens block data) (List.replicate (tokens block data).length true) s' ∧
        callStrict room block d look conv p s data = ok (some true, p', s')) ∨
      ∃ pre t post s1 r s2, tokens block data = pre ++ t :: post ∧ Steps d look conv s pre (List.replicate pre.length true) s1 ∧ Step d look conv s1 t r s2 ∧ r ≠ some true ∧
        callStrict room block d look conv p s data = ok (r, p', s2)) := by
  obtain ⟨rs, h1, h2, h3⟩ := ranges block data hd
  refine ⟨{ p with pairs := rs }, rfl, ?_⟩
  have e : callStrict room block d look conv p s data =
      ok ((strictAll d look conv s (tokens block data)).1, { p with pairs := rs }, (strictAll d look conv s (tokens block data)).2) := by
    unfold callStrict
    simp only
    rcases C172_output_throws {} block (fun l t => room ([] ++ l) t) () data rs rs.length h1 with ⟨_, h⟩ | ⟨k, t, _, h, _⟩
    · rw [h, ok_bind]
      simp only [List.nil_append]
      rw [if_neg h2, List.take_length, strictLoopE_eq, h3, ok_bind]
    · rw [hroom] at h; cases h
  rcases strictAll_spec d look conv (tokens block data) s with ⟨s', g1, g2⟩ | ⟨pre, t, post, s1, r, s2, g0, g1, g2, g3, g4⟩
  · left; exact ⟨s', g1, by rw [e, g2]⟩
  · right; exact ⟨pre, t, post, s1, r, s2, g0, g1, g2, g3, by rw [e, g4]⟩

/-- C187: a strict call whose list of pairs gets no memory for one of the pairs throws before anything is looked up or converted. -/
theorem C187_strict_memory (room : Put) (block d : Byte → Bool) (look : LookE σ) (conv : TakeE σ V) (p : Parser) (s : St σ V) (data : List Byte) (rs : List (Nat × Nat))
    (hrs : split {} block data = ok (rs, rs.length)) (k : Nat) (t : Nat × Nat) (hk : rs[k]? = some t) (hroom : room (rs.take k) t = false) :
    ∃ p', p'.failures = p.failures ∧ callStrict room block d look conv p s data = ok (none, p', s) := by
  unfold callStrict
  simp only
  rcases C172_output_throws {} block (fun l t => room ([] ++ l) t) () data rs rs.length hrs with ⟨h, _⟩ | ⟨j, u, _, _, _, h⟩
  · have := h k t hk
    rw [List.nil_append, hroom] at this
    cases this
  · rw [h, ok_bind]
    exact ⟨{ p with pairs := [] ++ rs.take j }, rfl, rfl⟩

/-- C187: the empty text. -/
theorem C187_empty (room : Put) (block d : Byte → Bool) (look : LookE σ) (conv : TakeE σ V) (p : Parser) (s : St σ V) :
    (∃ p', p'.failures = p.failures ∧ callStrict room block d look conv p s [] = ok (some false, p', s)) ∧
    ∃ p', p'.failures = 0 ∧ callLenient block d look conv p s [] = ok (some true, p', s) :=
  ⟨⟨{ p with pairs := [] }, rfl, rfl⟩, ⟨{ p with failures := 0 }, rfl, rfl⟩⟩

/-! ## The lenient parser -/

/-- The tokens up to the first that throws. -/
def lenientAll (d : Byte → Bool) (look : LookE σ) (conv : TakeE σ V) : Nat → St σ V → List (List Byte) → Bool × Nat × St σ V
  | n, s, [] => (true, n, s)
  | n, s, t :: ts =>
    match stepE d look conv s t with
    | (none, s) => (false, n, s)
    | (some good, s) => lenientAll d look conv (if good then n else n + 1) s ts

theorem lenientLoopE_eq (d : Byte → Bool) (look : LookE σ) (conv : TakeE σ V) : ∀ (ts : List (List Byte)) (n : Nat) (s : St σ V),
    lenientLoopE d look conv n s ts = ok (lenientAll d look conv n s (ts.filter fun t => t ≠ [])) := by
  intro ts
  induction ts with
  | nil => intro n s; rfl
  | cons t ts ih =>
    intro n s
    rw [lenientLoopE]
    by_cases ht : t = []
    · subst ht
      rw [if_pos (by rfl), ih]
      simp
    · rw [if_neg (by simpa using ht), processE_eq, ok_bind, filter_cons_ne ht, lenientAll]
      rcases stepE d look conv s t with ⟨_ | good, s'⟩
      · rfl
      · exact ih _ _

theorem lenientAll_threw (d : Byte → Bool) (look : LookE σ) (conv : TakeE σ V) : ∀ (xs ys : List (List Byte)) (n : Nat) (s : St σ V),
    (lenientAll d look conv n s xs).1 = false → lenientAll d look conv n s (xs ++ ys) = lenientAll d look conv n s xs := by
  intro xs
  induction xs with
  | nil => intro ys n s h; cases h
  | cons x xs ih =>
    intro ys n s h
    rw [List.cons_append, lenientAll, lenientAll]
    rw [lenientAll] at h
    rcases hs : stepE d look conv s x with ⟨_ | good, s'⟩
    · rfl
    · simp only [hs] at h ⊢; exact ih ys _ _ h

theorem lenientAll_spec (d : Byte → Bool) (look : LookE σ) (conv : TakeE σ V) : ∀ (ts : List (List Byte)) (n : Nat) (s : St σ V),
    (∃ bs s', Steps d look conv s ts bs s' ∧ lenientAll d look conv n s ts = (true, n + bs.count false, s')) ∨
    ∃ pre t post bs s1 s2, ts = pre ++ t :: post ∧ Steps d look conv s pre bs s1 ∧ Step d look conv s1 t none s2 ∧
      lenientAll d look conv n s ts = (false, n + bs.count false, s2) := by
  intro ts
  induction ts with
  | nil => intro n s; left; exact ⟨[], s, .nil s, rfl⟩
  | cons t ts ih =>
    intro n s
    rw [lenientAll]
    rcases hs : stepE d look conv s t with ⟨_ | good, s'⟩
    · right; exact ⟨[], t, ts, [], s, s', rfl, .nil s, (step_iff ..).mpr hs, rfl⟩
    · have h := (step_iff ..).mpr hs
      have hc : ∀ bs : List Bool, (if good then n else n + 1) + bs.count false = n + (good :: bs).count false := by
        intro bs
        cases good
        · simp; omega
        · simp
      simp only
      rcases ih (if good then n else n + 1) s' with ⟨bs, s'', h1, h2⟩ | ⟨pre, u, post, bs, s1, s2, rfl, h1, h2, h3⟩
      · left; exact ⟨good :: bs, s'', .cons h h1, by rw [h2, hc]⟩
      · right; exact ⟨t :: pre, u, post, good :: bs, s1, s2, rfl, .cons h h1, h2, by rw [h3, hc]⟩

theorem callLenient_eq (block d : Byte → Bool) (look : LookE σ) (conv : TakeE σ V) (p : Parser) (s : St σ V) (data : List Byte) (hd : data ≠ []) :
    callLenient block d look conv p s data =
      ok (if (lenientAll d look conv 0 s (tokens block data)).1 then some true else none, { p with failures := (lenientAll d look conv 0 s (tokens block data)).2.1 },
        (lenientAll d look conv 0 s (tokens block data)).2.2) := by
  obtain ⟨rs, h1, _, h3⟩ := ranges block data hd
  unfold callLenient
  simp only
  have hret : ∀ out t, returns d look conv s data out t = (lenientAll d look conv 0 s (((out ++ [t]).map (textOf data)).filter fun t => t ≠ [])).1 := by
    intro out t
    unfold returns
    rw [lenientLoopE_eq]
  rcases C172_output_throws {} block (returns d look conv s data) () data rs rs.length h1 with ⟨hall, h⟩ | ⟨k, t, hk, hput, _, h⟩
  · rw [h, ok_bind]
    simp only [lenientLoopE_eq, h3, ok_bind]
    have ht : (lenientAll d look conv 0 s (tokens block data)).1 = true := by
      rw [← h3]
      rcases List.eq_nil_or_concat rs with rfl | ⟨init, last, rfl⟩
      · rfl
      · have := hall init.length last (by simp)
        rw [hret] at this
        simpa using this
    rw [if_pos ht]
  · have hkl : k < rs.length := (List.getElem?_eq_some_iff.mp hk).1
    have hkt : rs[k] = t := (List.getElem?_eq_some_iff.mp hk).2
    have hlen : (rs.take k).length + 1 = k + 1 := by simp; omega
    rw [h, ok_bind]
    simp only [h1, ok_bind, lenientLoopE_eq, hlen]
    rw [hret, ← hkt, List.take_append_getElem hkl] at hput
    have := lenientAll_threw d look conv _ (((rs.drop (k + 1)).map (textOf data)).filter fun t => t ≠ []) 0 s hput
    rw [← List.filter_append, ← List.map_append, List.take_append_drop, h3] at this
    simp only [this, hput, Bool.false_eq_true, if_false]

/-- C187: a lenient call.  Either every token is dealt with and the result is `true`, or the tokens before the first that throws are dealt with, and what that one did before it threw
stays.  The count of failures is that of the tokens of this call that were dealt with. -/
theorem C187_lenient (block d : Byte → Bool) (look : LookE σ) (conv : TakeE σ V) (p : Parser) (s : St σ V) (data : List Byte) (hd : data ≠ []) :
    (∃ p' bs s', Steps d look conv s (tokens block data) bs s' ∧ p'.failures = bs.count false ∧ callLenient block d look conv p s data = ok (some true, p', s')) ∨
    ∃ p' pre t post bs s1 s2, tokens block data = pre ++ t :: post ∧ Steps d look conv s pre bs s1 ∧ Step d look conv s1 t none s2 ∧ p'.failures = bs.count false ∧
      callLenient block d look conv p s data = ok (none, p', s2) := by
  rw [callLenient_eq block d look conv p s data hd]
  rcases lenientAll_spec d look conv (tokens block data) 0 s with ⟨bs, s', h1, h2⟩ | ⟨pre, t, post, bs, s1, s2, h0, h1, h2, h3⟩
  · left; rw [h2]; exact ⟨_, bs, s', h1, by simp, rfl⟩
  · right; rw [h3]; exact ⟨_, pre, t, post, bs, s1, s2, h0, h1, h2, by simp, rfl⟩

/-! ## What stays, and the next call -/

/-- The key of the token is registered for `x`, in some state of the world. -/
def Names (d : Byte → Bool) (look : LookE σ) (x : Nat) (t : List Byte) : Prop := ∃ k v w w', IsPair d t k v ∧ look w k = (some (some x), w')

theorem step_frame {d : Byte → Bool} {look : LookE σ} {conv : TakeE σ V} {s s' : St σ V} {t : List Byte} {r : Option Bool} (h : Step d look conv s t r s') (x : Nat)
    (hx : ¬ Names d look x t) : s'.1 x = s.1 x := by
  cases h with
  | noPair => rfl
  | lookThrew => rfl
  | unknown => rfl
  | taken h hl hc _ hy =>
    refine hy x fun e => hx ?_
    subst e
    exact ⟨_, _, _, _, h, hl⟩

theorem steps_frame {d : Byte → Bool} {look : LookE σ} {conv : TakeE σ V} {s s' : St σ V} {ts : List (List Byte)} {bs : List Bool} (h : Steps d look conv s ts bs s') (x : Nat)
    (hx : ∀ t ∈ ts, ¬ Names d look x t) : s'.1 x = s.1 x := by
  induction h with
  | nil => rfl
  | cons h _ ih => rw [ih fun t ht => hx t (List.mem_cons_of_mem _ ht), step_frame h x (hx _ List.mem_cons_self)]

/-- C187: whatever is thrown, a call of either kind changes no variable that no pair of the text names. -/
theorem C187_others (room : Put) (block d : Byte → Bool) (look : LookE σ) (conv : TakeE σ V) (p p' : Parser) (s s' : St σ V) (data : List Byte) (r : Option Bool) (x : Nat)
    (hx : ∀ t ∈ tokens block data, ¬ Names d look x t)
    (h : callStrict room block d look conv p s data = ok (r, p', s') ∨ callLenient block d look conv p s data = ok (r, p', s')) : s'.1 x = s.1 x := by
  by_cases hd : data = []
  · subst hd
    rcases h with h | h <;> cases h <;> rfl
  rcases h with h | h
  · obtain ⟨rs, h1, _, h3⟩ := ranges block data hd
    by_cases hroom : ∀ j t, rs[j]? = some t → room (rs.take j) t = true
    · have e : callStrict room block d look conv p s data = callStrict (fun _ _ => true) block d look conv p s data := by
        unfold callStrict
        simp only
        rcases C172_output_throws {} block (fun l t => room ([] ++ l) t) () data rs rs.length h1 with ⟨_, g⟩ | ⟨k, t, hk, g, _⟩
        · rcases C172_output_throws {} block (fun _ _ => true) () data rs rs.length h1 with ⟨_, g'⟩ | ⟨k, t, hk, g', _⟩
          · rw [g, g']
          · cases g'
        · rw [List.nil_append, hroom k t hk] at g; cases g
      rw [e] at h
      obtain ⟨q, _, ⟨t', g1, g2⟩ | ⟨pre, t, post, s1, b, s2, g0, g1, g2, _, g3⟩⟩ := C187_strict (fun _ _ => true) block d look conv p s data hd (fun _ _ => rfl)
      · rw [h] at g2; cases g2; exact steps_frame g1 x hx
      · rw [h] at g3; cases g3
        rw [g0] at hx
        rw [step_frame g2 x (hx t (by simp)), steps_frame g1 x fun u hu => hx u (by simp [hu])]
    · simp only [not_forall] at hroom
      obtain ⟨k, t, hk, hr⟩ := hroom
      obtain ⟨q, _, g⟩ := C187_strict_memory room block d look conv p s data rs h1 k t hk (by simpa using hr)
      rw [h] at g; cases g; rfl
  · rcases C187_lenient block d look conv p s data hd with ⟨q, bs, t', g1, _, g2⟩ | ⟨q, pre, t, post, bs, s1, s2, g0, g1, g2, _, g3⟩
    · rw [h] at g2; cases g2; exact steps_frame g1 x hx
    · rw [h] at g3; cases g3
      rw [g0] at hx
      rw [step_frame g2 x (hx t (by simp)), steps_frame g1 x fun u hu => hx u (by simp [hu])]

/-- C187: what a parser has been through does not show.  After any calls, ended by exceptions or not, a call does what it does on another parser with the same keys, and
after a lenient call the counts of failures are the same. -/
theorem C187_again (room : Put) (block d : Byte → Bool) (look : LookE σ) (conv : TakeE σ V) (p q : Parser) (s : St σ V) (data : List Byte) :
    (∃ r p' q' s', callStrict room block d look conv p s data = ok (r, p', s') ∧ callStrict room block d look conv q s data = ok (r, q', s') ∧
      p'.failures = p.failures ∧ q'.failures = q.failures) ∧
    ∃ r p' q' s', callLenient block d look conv p s data = ok (r, p', s') ∧ callLenient block d look conv q s data = ok (r, q', s') ∧ p'.failures = q'.failures := by
  by_cases hd : data = []
  · subst hd
    exact ⟨⟨_, _, _, _, rfl, rfl, rfl, rfl⟩, ⟨_, _, _, _, rfl, rfl, rfl⟩⟩
  constructor
  · obtain ⟨rs, h1, h2, h3⟩ := ranges block data hd
    unfold callStrict
    simp only
    rcases C172_output_throws {} block (fun l t => room ([] ++ l) t) () data rs rs.length h1 with ⟨_, g⟩ | ⟨k, t, _, _, _, g⟩
    · rw [g, ok_bind]
      simp only [List.nil_append, ok_bind]
      rw [if_neg h2, if_neg h2, List.take_length, strictLoopE_eq, ok_bind, ok_bind]
      exact ⟨_, _, _, _, rfl, rfl, rfl, rfl⟩
    · rw [g, ok_bind]
      exact ⟨_, _, _, _, rfl, rfl, rfl, rfl⟩
  · rw [callLenient_eq block d look conv p s data hd, callLenient_eq block d look conv q s data hd]
    exact ⟨_, _, _, _, rfl, rfl, rfl⟩

/-- C187: the exception leaves what a strict call on the pairs in front gives, and the change made by the pair that threw. -/
theorem C187_prefix (room : Put) (block d : Byte → Bool) (look : LookE σ) (conv : TakeE σ V) (p q : Parser) (s s' : St σ V) (data : List Byte) (hd : data ≠ [])
    (hroom : ∀ out t, room out t = true) (p' : Parser) (h : callStrict room block d look conv p s data = ok (none, p', s')) :
    ∃ pre t post, tokens block data = pre ++ t :: post ∧ ∀ front, front ≠ [] → tokens block front = pre → ∃ q' s1,
      callStrict room block d look conv q s front = ok (some true, q', s1) ∧ Step d look conv s1 t none s' := by
  obtain ⟨_, _, ⟨t', _, g2⟩ | ⟨pre, t, post, s1, b, s2, g0, g1, g2, _, g3⟩⟩ := C187_strict room block d look conv p s data hd hroom
  · rw [h] at g2; cases g2
  · rw [h] at g3; cases g3
    refine ⟨pre, t, post, g0, fun front hf ht => ?_⟩
    obtain ⟨q', _, ⟨t', k1, k2⟩ | ⟨pre', t', post', s1', b', s2', k0, k1, k2, k3, k4⟩⟩ := C187_strict room block d look conv q s front hf hroom
    · rw [ht] at k1
      have e := (strictAll_steps d look conv k1 rfl).symm.trans (strictAll_steps d look conv g1 rfl)
      cases e
      exact ⟨q', _, k2, g2⟩
    · exfalso
      rw [ht] at k0
      have e := strictAll_steps d look conv g1 rfl
      have e' : strictAll d look conv s pre ≠ (some true, s1) := by
        intro e
        clear g0 g1 g2 k4 h ht e
        rename_i e
        rw [k0] at e
        have : ∀ (bs : List Bool) (s : St σ V), Steps d look conv s pre' bs s1' → bs = List.replicate pre'.length true →
            (strictAll d look conv s (pre' ++ t' :: post')).1 = b' := by
          intro bs s hs
          clear k0 k1 e
          induction hs with
          | nil => intro _; rw [List.nil_append, strictAll, (step_iff ..).mp k2, if_neg k3]
          | cons h _ ih =>
            intro hb
            rw [List.length_cons, List.replicate_succ] at hb
            cases hb
            rw [List.cons_append, strictAll, (step_iff ..).mp h, if_pos rfl]
            exact ih k2 rfl
        have := this _ _ k1 rfl
        rw [e] at this
        exact k3 this.symm
      exact e' e

/-- C187: if nothing throws, this is the parser of C59. -/
theorem C187_no_throw (block d : Byte → Bool) (find : List Byte → Outcome (Option Nat)) (look0 : List Byte → Option Nat) (hf : ∀ k, find k = ok (look0 k))
    (conv0 : Nat → V → List Byte → Bool × V) (p : Parser) (mem : Nat → V) (data : List Byte) :
    (callStrict (fun _ _ => true) block d (fun w k => (some (look0 k), w)) (fun x w a v => (some (conv0 x a v).1, (conv0 x a v).2, w)) p (mem, ()) data >>= fun r =>
      ok (r.1, r.2.2.1)) = (parseStrict block d find conv0 mem data >>= fun r => ok (some r.1, r.2)) ∧
    (callLenient block d (fun w k => (some (look0 k), w)) (fun x w a v => (some (conv0 x a v).1, (conv0 x a v).2, w)) p (mem, ()) data >>= fun r =>
      ok (r.1, r.2.1.failures, r.2.2.1)) = (parseLenient block d find conv0 mem data >>= fun r => ok (some true, r)) := by
  generalize hl : (fun (w : Unit) k => (some (look0 k), w)) = look
  generalize hc : (fun x (w : Unit) a v => (some (conv0 x a v).1, (conv0 x a v).2, w)) = conv
  have hstep : ∀ m t, stepE d look conv (m, ()) t = (some (step d look0 conv0 m t).1, ((step d look0 conv0 m t).2, ())) := by
    intro m t
    subst hl hc
    unfold stepE step
    cases pairOf d t with
    | none => rfl
    | some p =>
      simp only [deliverE]
      cases look0 p.1 <;> rfl
  have hS : ∀ (ts : List (List Byte)) (m : Nat → V), (strictLoop d find conv0 m ts >>= fun r => ok (some r.1, r.2)) =
      ok ((strictAll d look conv (m, ()) (ts.filter fun t => t ≠ [])).1, (strictAll d look conv (m, ()) (ts.filter fun t => t ≠ [])).2.1) := by
    intro ts
    induction ts with
    | nil => intro m; rfl
    | cons t ts ih =>
      intro m
      rw [strictLoop]
      by_cases ht : t = []
      · subst ht
        rw [if_pos (by rfl), ih]
        simp
      · rw [if_neg (by simpa using ht), process_eq d find look0 hf, ok_bind, filter_cons_ne ht, strictAll, hstep]
        rcases step d look0 conv0 m t with ⟨_ | _, m'⟩
        · rfl
        · exact ih m'
  have hL : ∀ (ts : List (List Byte)) (n : Nat) (m : Nat → V), ∃ r, lenientLoop d find conv0 n m ts = ok r ∧
      lenientAll d look conv n (m, ()) (ts.filter fun t => t ≠ []) = (true, r.1, (r.2, ())) := by
    intro ts
    induction ts with
    | nil => intro n m; exact ⟨_, rfl, rfl⟩
    | cons t ts ih =>
      intro n m
      rw [lenientLoop]
      by_cases ht : t = []
      · subst ht
        obtain ⟨r, h1, h2⟩ := ih n m
        rw [if_pos (by rfl)]
        exact ⟨r, h1, by simpa using h2⟩
      · rw [if_neg (by simpa using ht), process_eq d find look0 hf, ok_bind, filter_cons_ne ht, lenientAll, hstep]
        exact ih _ _
  by_cases hd : data = []
  · subst hd
    unfold parseStrict parseLenient
    rw [(Split.C01_split_default block []).1 rfl]
    exact ⟨rfl, rfl⟩
  obtain ⟨rs, h1, h2, h3⟩ := ranges block data hd
  constructor
  · unfold callStrict parseStrict
    rw [h1]
    simp only [ok_bind]
    rcases C172_output_throws {} block (fun _ _ => true) () data rs rs.length h1 with ⟨_, g⟩ | ⟨k, t, _, g, _⟩
    · rw [g, ok_bind]
      simp only [List.nil_append]
      rw [if_neg h2, if_neg h2, List.take_length, strictLoopE_eq, hS]
      rfl
    · cases g
  · rw [callLenient_eq block d look conv p _ data hd]
    unfold parseLenient
    rw [h1]
    simp only [ok_bind]
    obtain ⟨r, e1, e2⟩ := hL (rs.map (textOf data)) 0 mem
    rw [h3] at e2
    rw [e1, e2]
    rfl

/-! ### Concrete cases of C187 -/

/-- The keys `a` and `b` are known; looking up a key of three characters or more throws. -/
private def lookS : LookE Nat := fun w k => if 3 ≤ k.length then (none, w) else (some (if k = [97] then some 5 else if k = [98] then some 6 else none), w)

/-- Values are stored; one that begins with `x` does not convert, and one that begins with `!` throws after the variable was emptied.  The world counts the conversions. -/
private def takeS : TakeE Nat (List Byte) := fun _ w old v => match v with
  | 120 :: _ => (some false, old, w + 1)
  | 33 :: _ => (none, [], w + 1)
  | _ => (some true, v, w + 1)

private def start : St Nat (List Byte) := (fun _ => [48], 0)

private def fresh : Parser := ⟨0, []⟩

/-- `a=1|b=!|a=2`: the first pair is taken, the second throws, the third is not looked at. -/
example : ∃ p' s', callStrict (fun _ _ => true) (· == 124) (· == 61) lookS takeS fresh start [97, 61, 49, 124, 98, 61, 33, 124, 97, 61, 50] = ok (none, p', s') ∧
    s'.1 5 = [49] ∧ s'.1 6 = [] ∧ s'.2 = 2 ∧ p'.failures = 0 := ⟨_, _, rfl, by decide, by decide, by decide, rfl⟩

/-- The same text when the list of pairs gets no memory for a third. -/
example : ∃ p' s', callStrict (fun l _ => l.length < 2) (· == 124) (· == 61) lookS takeS fresh start [97, 61, 49, 124, 98, 61, 33, 124, 97, 61, 50] = ok (none, p', s') ∧
    s' = start := by
  obtain ⟨p', _, h⟩ := C187_strict_memory (fun l _ => l.length < 2) (· == 124) (· == 61) lookS takeS fresh start [97, 61, 49, 124, 98, 61, 33, 124, 97, 61, 50]
    [(0, 3), (4, 7), (8, 11)] (by decide +kernel) 2 (8, 11) rfl (by decide)
  exact ⟨p', start, h, rfl⟩

/-- `a=x|q|a=1|abc=2|b=3`: two failures, then the lookup of `abc` throws; the failures of an earlier call are forgotten. -/
example : ∃ p' s', callLenient (· == 124) (· == 61) lookS takeS ⟨7, []⟩ start [97, 61, 120, 124, 113, 124, 97, 61, 49, 124, 97, 98, 99, 61, 50, 124, 98, 61, 51] = ok (none, p', s') ∧
    p'.failures = 2 ∧ s'.1 5 = [49] ∧ s'.1 6 = [48] := ⟨_, _, rfl, by decide, by decide, by decide⟩

example : ∃ p' s', callLenient (· == 124) (· == 61) lookS takeS ⟨7, []⟩ start [97, 61, 120, 124, 98, 61, 51] = ok (some true, p', s') ∧ p'.failures = 1 ∧ s'.1 6 = [51] :=
  ⟨_, _, rfl, by decide, by decide⟩

example := C187_strict (fun _ _ => true) (· == 124) (· == 61) lookS takeS fresh start [97, 61, 49, 124, 98, 61, 33, 124, 97, 61, 50] (by decide) (fun _ _ => rfl)

example := C187_lenient (· == 124) (· == 61) lookS takeS fresh start [97, 61, 49, 124, 98, 61, 33, 124, 97, 61, 50] (by decide)

/-- `C187_prefix`: the text `a=1` is the front of `a=1|b=!|a=2`. -/
example : tokens (· == 124) ([97, 61, 49, 124, 98, 61, 33, 124, 97, 61, 50] : List Byte) = tokens (· == 124) [97, 61, 49] ++ [98, 61, 33] :: [[97, 61, 50]] := by decide +kernel

/-- `C187_others`: no pair of `a=1` names the variable 6. -/
example : ∀ t ∈ tokens (· == 124) ([97, 61, 49] : List Byte), ¬ Names (· == 61) lookS 6 t := by
  have : tokens (· == 124) ([97, 61, 49] : List Byte) = [[97, 61, 49]] := by decide +kernel
  rw [this]
  rintro t ht ⟨k, v, w, w', h1, h2⟩
  simp only [List.mem_singleton] at ht
  subst ht
  have hk := (pairOf_iff (· == 61) [97, 61, 49] k v).mpr h1
  have hk' : k = [97] := by
    have : pairOf (· == 61) ([97, 61, 49] : List Byte) = some ([97], [49]) := by decide +kernel
    rw [this] at hk
    cases hk; rfl
  subst hk'
  simp [lookS] at h2

/-- `C187_no_throw`: a lookup of the kind it speaks of. -/
example : ∀ k : List Byte, (fun k => ok (if k = [97] then some 5 else none) : List Byte → Outcome (Option Nat)) k = ok (if k = [97] then some 5 else none) := fun _ => rfl

end Strtk.KeyValue
