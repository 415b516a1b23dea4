import Verif.Split.Callbacks
import Verif.Split.Objects

/-!
# tokenizer with predicates that remember or throw (strtk.hpp 2344-2501)

As in `Verif/Split/Model.lean`, with a predicate that has a state and may throw.  An exception leaves `operator++` with the members as they are at that moment.
-/

namespace Strtk.Split
open Outcome Grid

variable {α σ : Type}

/-- A delimiter predicate: from its state and a character to the answer (`none` if it throws) and the new state. -/
abbrev AskT (σ α : Type) := σ → α → Option Bool × σ

/-- How the loop of `operator++` ends: with a return from inside, at the end of the text, or by an exception. -/
inductive Stop
  | returned
  | ended
  | threw
  deriving DecidableEq, Repr

/-- `while ((end_ != range_.second) && predicate_(*(range_.second))) ++range_.second;` (2394, 2397, 2403): whether the predicate threw, and `range_.second`. -/
def skipRunT (ask : AskT σ α) (s : List α) : Nat → σ → Nat → Outcome (Bool × Nat × σ)
  | 0, _, _ => diverge
  | fuel + 1, q, i =>
    if s.length ≠ i then do
      let c ← deref s i
      match ask q c with
      | (none, q) => ok (true, i, q)
      | (some true, q) => skipRunT ask s fuel q (i + 1)
      | (some false, q) => ok (false, i, q)
    else ok (false, i, q)

/-- A run skipped, if `skip`. -/
def skipIfT (skip : Bool) (ask : AskT σ α) (s : List α) (q : σ) (i : Nat) : Outcome (Bool × Nat × σ) := if skip then skipRunT ask s (s.length + 1) q i else ok (false, i, q)

/-- The `while` loop of `operator++` (2385-2412). -/
def Tok.scanT (opt : Opt) (ask : AskT σ α) (s : List α) : Nat → Tok → σ → Outcome (Stop × Tok × σ)
  | 0, _, _ => diverge
  | fuel + 1, t, q =>
    if s.length ≠ t.range.2 then do
      let c ← deref s t.range.2
      match ask q c with
      | (none, q) => ok (.threw, t, q)
      | (some false, q) => Tok.scanT opt ask s fuel { t with range := (t.range.1, t.range.2 + 1) } q
      | (some true, q) =>
        if opt.first || opt.all then do
          let (threw, second, q) ← (if opt.first then ok (false, t.range.2 + 1, q) else skipRunT ask s (s.length + 1) q t.range.2)
          let t := { t with range := (t.range.1, second) }
          if threw then ok (.threw, t, q) else do
          let t := { t with current := t.range }
          let (threw, second, q) ← skipIfT (!opt.all && opt.compress) ask s q second
          ok (if threw then .threw else .returned, { t with range := (t.range.1, second) }, q)
        else do
          let t := { t with current := t.range }
          let (threw, second, q) ← skipIfT opt.compress ask s q (t.range.2 + 1)
          ok (if threw then .threw else .returned, { t with range := (t.range.1, second) }, q)
    else ok (.ended, t, q)

/-- `tokenizer_iterator::operator++` (2373-2430): whether it threw, the iterator and the state of the predicate. -/
def Tok.nextT (opt : Opt) (ask : AskT σ α) (s : List α) (t : Tok) (q : σ) : Outcome (Bool × Tok × σ) :=
  if t.lastDone then ok (false, { t with range := (t.range.2, t.range.2) }, q)
  else do
    let t := if s.length ≠ t.range.2 then { t with range := (t.range.2, t.range.2) } else t
    let (how, t, q) ← Tok.scanT opt ask s (s.length + 1) t q
    match how with
    | .returned => ok (false, t, q)
    | .threw => ok (true, t, q)
    | .ended =>
      if t.range.1 ≠ t.range.2 then
        let t := { t with current := (t.current.1, t.range.2) }
        if t.range.2 = 0 then ub
        else do
          let c ← deref s (t.range.2 - 1)
          match ask q c with
          | (none, q) => ok (true, t, q)
          | (some b, q) => ok (false, { range := t.range, current := (if b then t.range.2 else t.range.1, t.range.2), lastDone := true }, q)
      else ok (false, t, q)

/-- Constructor of `tokenizer_iterator` (2353-2371) for `[start, s.length)`; if it throws there is no iterator. -/
def Tok.makeT (opt : Opt) (ask : AskT σ α) (s : List α) (start : Nat) (q : σ) : Outcome (Bool × Tok × σ) :=
  let t : Tok := { range := (start, start), current := (s.length, s.length), lastDone := false }
  if s.length ≠ start then Tok.nextT opt ask s t q else ok (false, t, q)

/-- `for (itr = tok.begin(); itr != tok.end(); ++itr) use(*itr);` (2449-2467): the tokens used, and the state of the predicate unless it threw. -/
def Tok.walkT (opt : Opt) (ask : AskT σ α) (s : List α) : Nat → Tok → σ → List (Nat × Nat) → Outcome (List (Nat × Nat) × Option σ)
  | 0, _, _, _ => diverge
  | fuel + 1, t, q, out =>
    if t.range ≠ (s.length, s.length) then do
      let (threw, t', q) ← Tok.nextT opt ask s t q
      if threw then ok (out ++ [t.current], none) else Tok.walkT opt ask s fuel t' q (out ++ [t.current])
    else ok (out, some q)

/-- All tokens from `begin()` to `end()` (2513-2523, 2568-2576). -/
def tokenizerTokensT (opt : Opt) (ask : AskT σ α) (q : σ) (s : List α) : Outcome (List (Nat × Nat) × Option σ) := do
  let (threw, t, q) ← Tok.makeT opt ask s 0 q
  if threw then ok ([], none) else Tok.walkT opt ask s (s.length + 2) t q []

/-- A caller that calls `++` a number of times and catches what is thrown. -/
def Tok.attempts (opt : Opt) (ask : AskT σ α) (s : List α) : Nat → Tok → σ → Outcome (Tok × σ)
  | 0, t, q => ok (t, q)
  | n + 1, t, q => do
    let (_, t, q) ← Tok.nextT opt ask s t q
    Tok.attempts opt ask s n t q

/-! ## Specification -/

/-- The predicate `step`, which never throws. -/
def neverT (step : σ → α → Bool × σ) : AskT σ α := fun q c => (some (step q c).1, (step q c).2)

/-- The plain predicate `d`, except that question number `m`, counted from 0, throws. -/
def onceT (m : Nat) (d : α → Bool) : AskT Nat α := fun i c => (if i = m then none else some (d c), i + 1)

/-- The token an iterator shows and the part it has looked at lie in a text of the given length. -/
structure Tok.In (t : Tok) (len : Nat) : Prop where
  range : t.range.1 ≤ t.range.2 ∧ t.range.2 ≤ len
  current : t.current.1 ≤ t.current.2 ∧ t.current.2 ≤ len

/-! ## Nothing outside the text is read -/

theorem skipRunT_ok (ask : AskT σ α) (s : List α) : ∀ fuel q i, i ≤ s.length → s.length < fuel + i → ∃ b j q', skipRunT ask s fuel q i = ok (b, j, q') ∧ i ≤ j ∧ j ≤ s.length := by
  intro fuel
  induction fuel with
  | zero => intro q i h1 h2; omega
  | succ fuel ih =>
    intro q i h1 h2
    unfold skipRunT
    by_cases hi : s.length = i
    · rw [if_neg (by simp [hi])]; exact ⟨false, i, q, rfl, Nat.le_refl _, h1⟩
    · rw [if_pos hi, deref_eq_ok (show i < s.length by omega), ok_bind]
      rcases ha : ask q s[i] with ⟨r, q'⟩
      match r with
      | none => exact ⟨true, i, q', rfl, Nat.le_refl _, h1⟩
      | some false => exact ⟨false, i, q', rfl, Nat.le_refl _, h1⟩
      | some true =>
        obtain ⟨b, j, q2, h3, h4, h5⟩ := ih q' (i + 1) (by omega) (by omega)
        exact ⟨b, j, q2, h3, by omega, h5⟩

theorem skipIfT_ok (skip : Bool) (ask : AskT σ α) (s : List α) (q : σ) (i : Nat) (h : i ≤ s.length) : ∃ b j q', skipIfT skip ask s q i = ok (b, j, q') ∧ i ≤ j ∧ j ≤ s.length := by
  unfold skipIfT
  cases skip with
  | false => exact ⟨false, i, q, rfl, Nat.le_refl _, h⟩
  | true => exact skipRunT_ok ask s _ q i h (by omega)

theorem scanT_ok (opt : Opt) (ask : AskT σ α) (s : List α) : ∀ fuel (t : Tok) q, t.In s.length → s.length < fuel + t.range.2 →
    ∃ how t' q', Tok.scanT opt ask s fuel t q = ok (how, t', q') ∧ t'.In s.length ∧ t'.lastDone = t.lastDone ∧ t'.range.1 = t.range.1 ∧ t.range.2 ≤ t'.range.2 ∧
      (how = .ended → t'.range.2 = s.length ∧ t'.current = t.current) ∧ (how = .returned → opt.first = true ∨ opt.all = false → t.range.2 < t'.range.2) := by
  intro fuel
  induction fuel with
  | zero => intro t q h h2; have := h.range.2; omega
  | succ fuel ih =>
    intro t q h h2
    have hr := h.range
    unfold Tok.scanT
    by_cases hi : s.length = t.range.2
    · rw [if_neg (by simp [hi])]
      exact ⟨.ended, t, q, rfl, h, rfl, rfl, Nat.le_refl _, fun _ => ⟨hi.symm, rfl⟩, by simp⟩
    · have hlt : t.range.2 < s.length := by omega
      rw [if_pos hi, deref_eq_ok hlt, ok_bind]
      rcases ha : ask q s[t.range.2] with ⟨r, q'⟩
      match r with
      | none => exact ⟨.threw, t, q', rfl, h, rfl, rfl, Nat.le_refl _, by simp, by simp⟩
      | some false =>
        obtain ⟨how, t', q2, g1, g2, g3, g4, g5, g6, g7⟩ := ih { t with range := (t.range.1, t.range.2 + 1) } q' ⟨⟨by simp only; omega, by simp only; omega⟩, h.current⟩ (by simp only; omega)
        exact ⟨how, t', q2, g1, g2, g3, g4, by simp only at g5; omega, g6, fun a b => by have := g7 a b; simp only at this; omega⟩
      | some true =>
        simp only
        by_cases hfa : (opt.first || opt.all) = true
        · rw [if_pos hfa]
          by_cases hf : opt.first = true
          · rw [if_pos hf, ok_bind]
            simp only [Bool.false_eq_true, if_false]
            obtain ⟨b, j, q2, e1, e2, e3⟩ := skipIfT_ok (!opt.all && opt.compress) ask s q' (t.range.2 + 1) (by omega)
            rw [e1, ok_bind]
            refine ⟨_, _, _, rfl, ⟨⟨by simp only; omega, e3⟩, ⟨by simp only; omega, by simp only; omega⟩⟩, rfl, rfl, by simp only; omega, ?_, fun _ _ => by simp only; omega⟩
            cases b <;> simp
          · rw [if_neg hf]
            have hall : opt.all = true := by cases h1 : opt.first <;> cases h2 : opt.all <;> simp_all
            obtain ⟨b, j, q2, e1, e2, e3⟩ := skipRunT_ok ask s (s.length + 1) q' t.range.2 (by omega) (by omega)
            rw [e1, ok_bind]
            simp only
            cases b with
            | true =>
              rw [if_pos rfl]
              exact ⟨_, _, _, rfl, ⟨⟨by simp only; omega, e3⟩, h.current⟩, rfl, rfl, e2, by simp, by simp⟩
            | false =>
              rw [if_neg (by simp)]
              obtain ⟨b', j', q3, f1, f2, f3⟩ := skipIfT_ok (!opt.all && opt.compress) ask s q2 j e3
              rw [f1, ok_bind]
              refine ⟨_, _, _, rfl, ⟨⟨by simp only; omega, f3⟩, ⟨by simp only; omega, by simp only; omega⟩⟩, rfl, rfl, by simp only; omega, ?_, fun _ a => ?_⟩
              · cases b' <;> simp
              · rcases a with a | a
                · exact absurd a hf
                · rw [hall] at a; exact absurd a (by simp)
        · rw [if_neg hfa]
          obtain ⟨b, j, q2, e1, e2, e3⟩ := skipIfT_ok opt.compress ask s q' (t.range.2 + 1) (by omega)
          rw [e1, ok_bind]
          refine ⟨_, _, _, rfl, ⟨⟨by simp only; omega, e3⟩, ⟨by simp only; omega, by simp only; omega⟩⟩, rfl, rfl, by simp only; omega, ?_, fun _ _ => by simp only; omega⟩
          cases b <;> simp

theorem nextT_ok (opt : Opt) (ask : AskT σ α) (s : List α) (t : Tok) (q : σ) (h : t.In s.length) (hl : t.lastDone = true → t.range.2 = s.length) :
    ∃ b t' q', Tok.nextT opt ask s t q = ok (b, t', q') ∧ t'.In s.length ∧ (t'.lastDone = true → t'.range.2 = s.length) ∧
      (b = false → opt.first = true ∨ opt.all = false →
        t'.range = (s.length, s.length) ∨ (t'.lastDone = true ∧ t.lastDone = false) ∨ (t'.lastDone = false ∧ t.range.2 < t'.range.2)) := by
  unfold Tok.nextT
  by_cases hd : t.lastDone = true
  · rw [if_pos hd]
    have := hl hd
    exact ⟨false, _, q, rfl, ⟨⟨Nat.le_refl _, h.range.2⟩, h.current⟩, fun _ => this, fun _ _ => Or.inl (by simp only [this])⟩
  · rw [if_neg hd]
    have h' : (if s.length ≠ t.range.2 then { t with range := (t.range.2, t.range.2) } else t).In s.length := by
      split
      · exact ⟨⟨Nat.le_refl _, h.range.2⟩, h.current⟩
      · exact h
    have hr2 : (if s.length ≠ t.range.2 then { t with range := (t.range.2, t.range.2) } else t).range.2 = t.range.2 := by split <;> rfl
    have hdd : (if s.length ≠ t.range.2 then { t with range := (t.range.2, t.range.2) } else t).lastDone = t.lastDone := by split <;> rfl
    generalize (if s.length ≠ t.range.2 then { t with range := (t.range.2, t.range.2) } else t) = t0 at h' hr2 hdd
    obtain ⟨how, t', q', g1, g2, g3, g4, g5, g6, g7⟩ := scanT_ok opt ask s (s.length + 1) t0 q h' (by omega)
    have hdf : t'.lastDone = false := by rw [g3, hdd]; simpa using hd
    simp only [g1, ok_bind]
    match how with
    | .returned => exact ⟨false, t', q', rfl, g2, by simp [hdf], fun _ ho => Or.inr (Or.inr ⟨hdf, by have := g7 rfl ho; omega⟩)⟩
    | .threw => exact ⟨true, t', q', rfl, g2, by simp [hdf], by simp⟩
    | .ended =>
      obtain ⟨e1, e2⟩ := g6 rfl
      simp only
      by_cases hr : t'.range.1 = t'.range.2
      · rw [if_neg (by simp [hr])]
        exact ⟨false, t', q', rfl, g2, by simp [hdf], fun _ _ => Or.inl (Prod.ext (by simp only; omega) (by simp only; omega))⟩
      · have hr' := g2.range
        rw [if_pos hr, if_neg (by omega), deref_eq_ok (show t'.range.2 - 1 < s.length by omega), ok_bind]
        rcases ha : ask q' s[t'.range.2 - 1] with ⟨r, q2⟩
        have hc := g2.current
        match r with
        | none => exact ⟨true, _, q2, rfl, ⟨g2.range, ⟨by simp only; omega, by simp only; omega⟩⟩, by simp [hdf], by simp⟩
        | some b =>
          refine ⟨false, _, q2, rfl, ⟨g2.range, ⟨?_, by simp only; omega⟩⟩, fun _ => e1, fun _ _ => Or.inr (Or.inl ⟨rfl, by simpa using hd⟩)⟩
          simp only
          split <;> omega

/-- What a fresh iterator of a text is. -/
theorem makeT_ok (opt : Opt) (ask : AskT σ α) (s : List α) (start : Nat) (hst : start ≤ s.length) (q : σ) : ∃ b t q', Tok.makeT opt ask s start q = ok (b, t, q') ∧ t.In s.length ∧
    (t.lastDone = true → t.range.2 = s.length) := by
  have h0 : (⟨(start, start), (s.length, s.length), false⟩ : Tok).In s.length := ⟨⟨Nat.le_refl _, hst⟩, ⟨Nat.le_refl _, Nat.le_refl _⟩⟩
  unfold Tok.makeT
  simp only
  split
  · obtain ⟨b, t, q', h1, h2, h3, _⟩ := nextT_ok opt ask s ⟨(start, start), (s.length, s.length), false⟩ q h0 (by simp)
    exact ⟨b, t, q', h1, h2, h3⟩
  · exact ⟨false, _, q, rfl, h0, by simp⟩

/-- C174: for every predicate, whatever it remembers and whenever it throws: the constructor and every number of `++`, with exceptions caught in between, read nothing outside the text,
and the token shown always lies in the text. -/
theorem C174_safe (opt : Opt) (ask : AskT σ α) (q : σ) (s : List α) :
    ∃ threw t q', Tok.makeT opt ask s 0 q = ok (threw, t, q') ∧ ∀ n, ∃ t' q'', Tok.attempts opt ask s n t q' = ok (t', q'') ∧ t'.current.1 ≤ t'.current.2 ∧ t'.current.2 ≤ s.length := by
  obtain ⟨b, t, q', h1, h2, h3⟩ := makeT_ok opt ask s 0 (Nat.zero_le _) q
  refine ⟨b, t, q', h1, ?_⟩
  intro n
  have key : ∀ n (t : Tok) q, t.In s.length → (t.lastDone = true → t.range.2 = s.length) → ∃ t' q'', Tok.attempts opt ask s n t q = ok (t', q'') ∧ t'.current.1 ≤ t'.current.2 ∧ t'.current.2 ≤ s.length := by
    intro n
    induction n with
    | zero => intro t q h _; exact ⟨t, q, rfl, h.current⟩
    | succ n ih =>
      intro t q h hl
      obtain ⟨b, t', q', g1, g2, g3, _⟩ := nextT_ok opt ask s t q h hl
      unfold Tok.attempts
      rw [g1, ok_bind]
      exact ih t' q' g2 g3
  exact key n t q' h2 h3

/-- C174 (partial: not with all delimiters kept): going from `begin()` to `end()` ends, at the end of the tokens or with the exception of the predicate. -/
theorem C174_ends_partial (opt : Opt) (ho : opt.first = true ∨ opt.all = false) (ask : AskT σ α) (q : σ) (s : List α) : ∃ r, tokenizerTokensT opt ask q s = ok r := by
  have key : ∀ fuel (t : Tok) q out, t.In s.length → (t.lastDone = true → t.range.2 = s.length) →
      (t.range = (s.length, s.length) ∧ 1 ≤ fuel) ∨ (t.lastDone = true ∧ 2 ≤ fuel) ∨ (t.lastDone = false ∧ s.length + 3 ≤ fuel + t.range.2) →
      ∃ r, Tok.walkT opt ask s fuel t q out = ok r := by
    intro fuel
    induction fuel with
    | zero => intro t q out h _ hf; have := h.range.2; rcases hf with hf | hf | hf <;> omega
    | succ fuel ih =>
      intro t q out h hl hf
      unfold Tok.walkT
      by_cases he : t.range = (s.length, s.length)
      · rw [if_neg (by simp [he])]; exact ⟨_, rfl⟩
      · rw [if_pos he]
        obtain ⟨b, t', q', g1, g2, g3, g4⟩ := nextT_ok opt ask s t q h hl
        rw [g1, ok_bind]
        simp only
        cases b with
        | true => rw [if_pos rfl]; exact ⟨_, rfl⟩
        | false =>
          rw [if_neg (by simp)]
          have hr := g2.range
          have hr0 := h.range
          refine ih t' q' _ g2 g3 ?_
          rcases g4 rfl ho with g | ⟨g, g'⟩ | ⟨g, g'⟩
          · refine Or.inl ⟨g, ?_⟩
            rcases hf with hf | hf | hf
            · exact absurd hf.1 he
            · omega
            · omega
          · refine Or.inr (Or.inl ⟨g, ?_⟩)
            rcases hf with hf | hf | hf
            · exact absurd hf.1 he
            · rw [g'] at hf; exact absurd hf.1 (by simp)
            · omega
          · refine Or.inr (Or.inr ⟨g, ?_⟩)
            rcases hf with hf | hf | hf
            · exact absurd hf.1 he
            · have := hl hf.1; omega
            · omega
  obtain ⟨b, t, q', h1, h2, h3⟩ := makeT_ok opt ask s 0 (Nat.zero_le _) q
  unfold tokenizerTokensT
  rw [h1, ok_bind]
  simp only
  cases b with
  | true => exact ⟨_, rfl⟩
  | false =>
    rw [if_neg (by simp)]
    refine key _ t q' [] h2 h3 ?_
    unfold Tok.makeT at h1
    simp only at h1
    split at h1
    · obtain ⟨b, t1, q1, g1, _, _, g4⟩ := nextT_ok opt ask s ⟨(0, 0), (s.length, s.length), false⟩ q ⟨⟨Nat.le_refl _, Nat.zero_le _⟩, ⟨Nat.le_refl _, Nat.le_refl _⟩⟩ (by simp)
      rw [g1] at h1
      have e := Outcome.ok.inj h1
      simp only [Prod.mk.injEq] at e
      obtain ⟨rfl, rfl, rfl⟩ := e
      rcases g4 rfl ho with g | ⟨g, _⟩ | ⟨g, g'⟩
      · exact Or.inl ⟨g, by omega⟩
      · exact Or.inr (Or.inl ⟨g, by omega⟩)
      · simp only at g'; exact Or.inr (Or.inr ⟨g, by omega⟩)
    · rename_i hne
      have e := Outcome.ok.inj h1
      simp only [Prod.mk.injEq] at e
      obtain ⟨-, rfl, -⟩ := e
      refine Or.inl ⟨?_, by omega⟩
      have : s.length = 0 := by simpa using hne
      simp [this]

/-- C174 (the other side): with all delimiters kept, and not the first, a predicate that answers yes, no, yes, no, … gives empty tokens without end: every `++` succeeds, shows an empty token at the
same place and is not at the end. -/
theorem C174_forever (s : List α) (hs : s ≠ []) (n : Nat) :
    ∃ t q, Tok.makeT ⟨false, false, true⟩ (neverT fun q _ => (!q, !q)) s 0 false = ok (false, t, q) ∧ Tok.attempts ⟨false, false, true⟩ (neverT fun q _ => (!q, !q)) s n t q = ok (t, q) ∧
      t.range ≠ (s.length, s.length) ∧ t.current = (0, 0) := by
  have hp : 0 < s.length := List.length_pos_of_ne_nil hs
  have step : ∀ (cur : Nat × Nat), Tok.nextT ⟨false, false, true⟩ (neverT fun q _ => (!q, !q)) s ⟨(0, 0), cur, false⟩ false = ok (false, ⟨(0, 0), (0, 0), false⟩, false) := by
    intro cur
    unfold Tok.nextT
    simp only [Bool.false_eq_true, if_false]
    rw [if_pos (show s.length ≠ 0 by omega)]
    unfold Tok.scanT
    rw [if_pos (by simp only; omega), deref_eq_ok (by simpa using hp), ok_bind]
    simp only [neverT, Bool.not_false, Bool.or_true, if_true, Bool.false_eq_true, if_false]
    unfold skipRunT
    rw [if_pos (by omega), deref_eq_ok (by simpa using hp)]
    rfl
  refine ⟨⟨(0, 0), (0, 0), false⟩, false, ?_, ?_, ?_, rfl⟩
  · unfold Tok.makeT
    simp only
    rw [if_pos (by omega), step]
  · induction n with
    | zero => rfl
    | succ n ih => unfold Tok.attempts; rw [step, ok_bind]; exact ih
  · simp only [ne_eq, Prod.mk.injEq, and_self]; omega

/-! ## Where an exception leaves the iterator -/

theorem onceT_eq (m i : Nat) (d : α → Bool) (c : α) : onceT m d i c = (if i = m then none else some (d c), i + 1) := rfl

/-- The plain loop runs over a part without delimiters, with the predicate that throws once elsewhere. -/
theorem scanT_over (d : α → Bool) (m : Nat) (opt : Opt) (w : List α) : ∀ (pre post : List α) fuel x cur ld i, (∀ c ∈ w, d c = false) → (∀ k < w.length, i + k ≠ m) →
    Tok.scanT opt (onceT m d) (pre ++ w ++ post) (fuel + w.length) ⟨(x, pre.length), cur, ld⟩ i = Tok.scanT opt (onceT m d) (pre ++ w ++ post) fuel ⟨(x, pre.length + w.length), cur, ld⟩ (i + w.length) := by
  induction w with
  | nil => intros; rfl
  | cons c w ih =>
    intro pre post fuel x cur ld i hw hi
    rw [List.length_cons, ← Nat.add_assoc]
    conv => lhs; unfold Tok.scanT
    rw [if_pos (by simp), deref_eq_ok (show pre.length < (pre ++ c :: w ++ post).length by simp), ok_bind]
    have e : (pre ++ c :: w ++ post)[pre.length]'(by simp) = c := by simp
    simp only [e, onceT_eq]
    rw [if_neg (by simpa using hi 0 (by simp)), hw c (by simp)]
    simp only
    have e2 : pre ++ c :: w ++ post = (pre ++ [c]) ++ w ++ post := by simp
    have := ih (pre ++ [c]) post fuel x cur ld (i + 1) (fun x hx => hw x (by simp [hx])) (fun k hk => by have := hi (k + 1) (by simp; omega); omega)
    rw [List.length_append, List.length_singleton] at this
    rw [e2, this]
    congr 1
    · congr 2; omega
    · omega

/-- One round of the plain loop at a delimiter, and one where the predicate throws. -/
theorem scanT_delimiter (d : α → Bool) (m : Nat) (pre post : List α) (c : α) (hc : d c = true) (fuel x : Nat) (cur : Nat × Nat) (i : Nat) (hi : i ≠ m) :
    Tok.scanT ⟨false, false, false⟩ (onceT m d) (pre ++ c :: post) (fuel + 1) ⟨(x, pre.length), cur, false⟩ i = ok (.returned, ⟨(x, pre.length + 1), (x, pre.length), false⟩, i + 1) := by
  unfold Tok.scanT
  rw [if_pos (by simp), deref_eq_ok (show pre.length < (pre ++ c :: post).length by simp), ok_bind]
  have e : (pre ++ c :: post)[pre.length]'(by simp) = c := by simp
  simp only [e, onceT_eq]
  rw [if_neg hi, hc]
  rfl

theorem scanT_throws (d : α → Bool) (opt : Opt) (s : List α) (p : Nat) (hp : p < s.length) (fuel x : Nat) (cur : Nat × Nat) (ld : Bool) (m : Nat) :
    Tok.scanT opt (onceT m d) s (fuel + 1) ⟨(x, p), cur, ld⟩ m = ok (.threw, ⟨(x, p), cur, ld⟩, m + 1) := by
  unfold Tok.scanT
  rw [if_pos (by simp only; omega), deref_eq_ok hp, ok_bind]
  simp only [onceT_eq]
  rfl

theorem nextT_of_scan (opt : Opt) (ask : AskT σ α) (s : List α) (x p : Nat) (hp : p < s.length) (cur : Nat × Nat) (q : σ) (how : Stop) (t' : Tok) (q' : σ)
    (h : Tok.scanT opt ask s (s.length + 1) ⟨(p, p), cur, false⟩ q = ok (how, t', q')) (hh : how ≠ .ended) : Tok.nextT opt ask s ⟨(x, p), cur, false⟩ q = ok (how == .threw, t', q') := by
  unfold Tok.nextT
  simp only [Bool.false_eq_true, if_false]
  rw [if_pos (by omega), h, ok_bind]
  cases how with
  | ended => exact absurd rfl hh
  | returned => rfl
  | threw => rfl

/-- Plain `++` over a part without delimiters that ends with one, the predicate throwing elsewhere. -/
theorem nextT_token (d : α → Bool) (pre w post : List α) (c : α) (hw : ∀ x ∈ w, d x = false) (hc : d c = true) (cur : Nat × Nat) (x m i : Nat) (hi : ∀ k ≤ w.length, i + k ≠ m) :
    Tok.nextT ⟨false, false, false⟩ (onceT m d) (pre ++ w ++ c :: post) ⟨(x, pre.length), cur, false⟩ i =
      ok (false, ⟨(pre.length, pre.length + w.length + 1), (pre.length, pre.length + w.length), false⟩, i + w.length + 1) := by
  have hlen : (pre ++ w ++ c :: post).length + 1 = (pre.length + post.length + 2 - 1 + 1) + w.length := by simp; omega
  refine nextT_of_scan _ _ _ _ _ (by simp; omega) _ _ .returned _ _ ?_ (by simp)
  rw [hlen, scanT_over d m _ w pre (c :: post) _ _ _ _ _ hw (fun k hk => hi k (by omega))]
  have := scanT_delimiter d m (pre ++ w) post c hc (pre.length + post.length + 2 - 1) pre.length cur (i + w.length) (hi _ (Nat.le_refl _))
  rw [List.length_append] at this
  exact this

/-- C174 (the other side): what an exception costs.  An iterator that has read `pre` is about to read `u`, `w` and a delimiter.  Without an exception before the delimiter, `++` shows `u` and `w` as one
token.  If the predicate throws once, after `u`, the iterator goes on showing the token it showed, and the next `++` shows `w` alone: `u` is in no token. -/
theorem C174_loses (d : α → Bool) (pre u w post : List α) (c : α) (hu : ∀ x ∈ u ++ w, d x = false) (hc : d c = true) (cur : Nat × Nat) (x : Nat) :
    (∃ t q, Tok.nextT ⟨false, false, false⟩ (onceT (u.length + w.length + 1) d) (pre ++ u ++ w ++ c :: post) ⟨(x, pre.length), cur, false⟩ 0 = ok (false, t, q) ∧
      t.current = (pre.length, pre.length + u.length + w.length)) ∧
    ∃ t1 q1 t2 q2,
      Tok.nextT ⟨false, false, false⟩ (onceT u.length d) (pre ++ u ++ w ++ c :: post) ⟨(x, pre.length), cur, false⟩ 0 = ok (true, t1, q1) ∧ t1.current = cur ∧
      Tok.nextT ⟨false, false, false⟩ (onceT u.length d) (pre ++ u ++ w ++ c :: post) t1 q1 = ok (false, t2, q2) ∧
      t2.current = (pre.length + u.length, pre.length + u.length + w.length) := by
  constructor
  · have := nextT_token d pre (u ++ w) post c hu hc cur x (u.length + w.length + 1) 0 (fun k hk => by simp at hk; omega)
    rw [← List.append_assoc] at this
    refine ⟨_, _, this, ?_⟩
    simp only [List.length_append, Nat.add_assoc]
  · have h1 : Tok.nextT ⟨false, false, false⟩ (onceT u.length d) (pre ++ u ++ w ++ c :: post) ⟨(x, pre.length), cur, false⟩ 0 = ok (true, ⟨(pre.length, pre.length + u.length), cur, false⟩, u.length + 1) := by
      have hlen : (pre ++ u ++ w ++ c :: post).length + 1 = (pre.length + w.length + post.length + 1 + 1) + u.length := by simp; omega
      refine nextT_of_scan _ _ _ _ _ (by simp; omega) _ _ .threw _ _ ?_ (by simp)
      rw [hlen, List.append_assoc (pre ++ u)]
      have := scanT_over d u.length ⟨false, false, false⟩ u pre (w ++ c :: post) (pre.length + w.length + post.length + 1 + 1) pre.length cur false 0 (fun x hx => hu x (by simp [hx])) (fun k hk => by omega)
      rw [this, Nat.zero_add, scanT_throws d _ _ _ (by simp; omega)]
    have h2 := nextT_token d (pre ++ u) w post c (fun x hx => hu x (by simp [hx])) hc cur pre.length u.length (u.length + 1) (fun k _ => by omega)
    rw [List.length_append] at h2
    exact ⟨_, _, _, _, h1, rfl, h2, rfl⟩

/-- C174 (the other side): an exception from the question about the last character leaves an iterator that shows a wrong token.  An iterator that has read `pre` and shows `cur` is about to read the last
token `w`; the predicate throws when it is asked again about the last character.  Then the iterator shows all from where `cur` begins to the end of the text, delimiters included; one more `++` shows `w`
all the same. -/
theorem C174_last_question (d : α → Bool) (pre w : List α) (hne : w ≠ []) (hw : ∀ x ∈ w, d x = false) (cur : Nat × Nat) (x : Nat) :
    ∃ t1 q1 t2 q2,
      Tok.nextT ⟨false, false, false⟩ (onceT w.length d) (pre ++ w) ⟨(x, pre.length), cur, false⟩ 0 = ok (true, t1, q1) ∧ t1.current = (cur.1, (pre ++ w).length) ∧
      Tok.nextT ⟨false, false, false⟩ (onceT w.length d) (pre ++ w) t1 q1 = ok (false, t2, q2) ∧ t2.current = (pre.length, (pre ++ w).length) := by
  have hp : 0 < w.length := List.length_pos_of_ne_nil hne
  have hlast : d ((pre ++ w)[(pre ++ w).length - 1]'(by simp; omega)) = false := by
    refine hw _ ?_
    rw [List.getElem_append_right (by simp; omega)]
    exact List.getElem_mem _
  have ended : ∀ (x : Nat) (cur : Nat × Nat) fuel i, Tok.scanT ⟨false, false, false⟩ (onceT w.length d) (pre ++ w) (fuel + 1) ⟨(x, (pre ++ w).length), cur, false⟩ i = ok (.ended, ⟨(x, (pre ++ w).length), cur, false⟩, i) := by
    intro x cur fuel i
    unfold Tok.scanT
    rw [if_neg (by simp)]
  have h1 : Tok.nextT ⟨false, false, false⟩ (onceT w.length d) (pre ++ w) ⟨(x, pre.length), cur, false⟩ 0 = ok (true, ⟨(pre.length, (pre ++ w).length), (cur.1, (pre ++ w).length), false⟩, w.length + 1) := by
    unfold Tok.nextT
    simp only [Bool.false_eq_true, if_false]
    rw [if_pos (by simp; omega)]
    have := scanT_over d w.length ⟨false, false, false⟩ w pre [] (pre.length + 1) pre.length cur false 0 hw (fun k hk => by omega)
    rw [List.append_nil, ← List.length_append] at this
    rw [show (pre ++ w).length + 1 = pre.length + 1 + w.length by simp; omega, this, ended, ok_bind]
    simp only
    rw [if_pos (show pre.length ≠ (pre ++ w).length by rw [List.length_append]; omega), if_neg (show ¬ (pre ++ w).length = 0 by rw [List.length_append]; omega),
      deref_eq_ok (show (pre ++ w).length - 1 < (pre ++ w).length by rw [List.length_append]; omega), ok_bind]
    simp only [onceT_eq, Nat.zero_add, if_true]
  have h2 : Tok.nextT ⟨false, false, false⟩ (onceT w.length d) (pre ++ w) ⟨(pre.length, (pre ++ w).length), (cur.1, (pre ++ w).length), false⟩ (w.length + 1) =
      ok (false, ⟨(pre.length, (pre ++ w).length), (pre.length, (pre ++ w).length), true⟩, w.length + 1 + 1) := by
    unfold Tok.nextT
    simp only [Bool.false_eq_true, if_false]
    rw [if_neg (by simp), ended, ok_bind]
    simp only
    rw [if_pos (show pre.length ≠ (pre ++ w).length by rw [List.length_append]; omega), if_neg (show ¬ (pre ++ w).length = 0 by rw [List.length_append]; omega),
      deref_eq_ok (show (pre ++ w).length - 1 < (pre ++ w).length by rw [List.length_append]; omega), ok_bind]
    simp only [onceT_eq]
    rw [if_neg (by omega)]
    simp only [hlast, Bool.false_eq_true, if_false]
  exact ⟨_, _, _, _, h1, rfl, h2, rfl⟩

/-! ## Tokens used before an exception -/

theorem skipRunT_agrees {ask ask' : AskT σ α} (ha : ∀ q c b q', ask q c = (some b, q') → ask' q c = (some b, q')) (s : List α) : ∀ fuel q i j q',
    skipRunT ask s fuel q i = ok (false, j, q') → skipRunT ask' s fuel q i = ok (false, j, q') := by
  intro fuel
  induction fuel with
  | zero => intro q i j q' h; cases h
  | succ fuel ih =>
    intro q i j q' h
    unfold skipRunT at h ⊢
    split
    · rename_i hi
      rw [if_pos hi] at h
      obtain ⟨c, hc, h⟩ := bind_eq_ok.mp h
      rw [hc, ok_bind]
      rcases e : ask q c with ⟨r, q2⟩
      rw [e] at h
      match r with
      | none => simp at h
      | some true => rw [ha _ _ _ _ e]; exact ih _ _ _ _ h
      | some false => rw [ha _ _ _ _ e]; exact h
    · rename_i hi
      rw [if_neg hi] at h; exact h

theorem skipIfT_agrees {ask ask' : AskT σ α} (ha : ∀ q c b q', ask q c = (some b, q') → ask' q c = (some b, q')) (skip : Bool) (s : List α) (q : σ) (i j : Nat) (q' : σ)
    (h : skipIfT skip ask s q i = ok (false, j, q')) : skipIfT skip ask' s q i = ok (false, j, q') := by
  unfold skipIfT at h ⊢
  cases skip with
  | true => exact skipRunT_agrees ha s _ _ _ _ _ h
  | false => exact h

theorem scanT_agrees {ask ask' : AskT σ α} (ha : ∀ q c b q', ask q c = (some b, q') → ask' q c = (some b, q')) (opt : Opt) (s : List α) : ∀ fuel (t : Tok) q how t' q', how ≠ Stop.threw →
    Tok.scanT opt ask s fuel t q = ok (how, t', q') → Tok.scanT opt ask' s fuel t q = ok (how, t', q') := by
  intro fuel
  induction fuel with
  | zero => intro t q how t' q' _ h; cases h
  | succ fuel ih =>
    intro t q how t' q' hh h
    unfold Tok.scanT at h ⊢
    split
    · rename_i hi
      rw [if_pos hi] at h
      obtain ⟨c, hc, h⟩ := bind_eq_ok.mp h
      rw [hc, ok_bind]
      rcases e : ask q c with ⟨r, q2⟩
      rw [e] at h
      match r with
      | none => simp only [Outcome.ok.injEq, Prod.mk.injEq] at h; exact absurd h.1.symm hh
      | some false => rw [ha _ _ _ _ e]; exact ih _ _ _ _ _ hh h
      | some true =>
        rw [ha _ _ _ _ e]
        simp only at h ⊢
        split
        · rename_i hfa
          rw [if_pos hfa] at h
          obtain ⟨⟨b, j, q3⟩, h1, h⟩ := bind_eq_ok.mp h
          simp only at h
          cases b with
          | true => simp only [if_true, Outcome.ok.injEq, Prod.mk.injEq] at h; exact absurd h.1.symm hh
          | false =>
            have h1' : (if opt.first = true then ok (false, t.range.2 + 1, q2) else skipRunT ask' s (s.length + 1) q2 t.range.2) = ok (false, j, q3) := by
              split
              · rename_i hf; rw [if_pos hf] at h1; exact h1
              · rename_i hf; rw [if_neg hf] at h1; exact skipRunT_agrees ha s _ _ _ _ _ h1
            rw [h1', ok_bind]
            simp only [Bool.false_eq_true, if_false] at h ⊢
            obtain ⟨⟨b, j', q4⟩, h2, h⟩ := bind_eq_ok.mp h
            cases b with
            | true => simp only [if_true, Outcome.ok.injEq, Prod.mk.injEq] at h; exact absurd h.1.symm hh
            | false => rw [skipIfT_agrees ha _ s _ _ _ _ h2, ok_bind]; exact h
        · rename_i hfa
          rw [if_neg hfa] at h
          obtain ⟨⟨b, j, q3⟩, h1, h⟩ := bind_eq_ok.mp h
          cases b with
          | true => simp only [if_true, Outcome.ok.injEq, Prod.mk.injEq] at h; exact absurd h.1.symm hh
          | false => rw [skipIfT_agrees ha _ s _ _ _ _ h1, ok_bind]; exact h
    · rename_i hi
      rw [if_neg hi] at h; exact h

theorem nextT_agrees {ask ask' : AskT σ α} (ha : ∀ q c b q', ask q c = (some b, q') → ask' q c = (some b, q')) (opt : Opt) (s : List α) (t : Tok) (q : σ) (t' : Tok) (q' : σ)
    (h : Tok.nextT opt ask s t q = ok (false, t', q')) : Tok.nextT opt ask' s t q = ok (false, t', q') := by
  unfold Tok.nextT at h ⊢
  split
  · rename_i hd
    rw [if_pos hd] at h; exact h
  · rename_i hd
    rw [if_neg hd] at h
    obtain ⟨⟨how, t1, q1⟩, h1, h⟩ := bind_eq_ok.mp h
    simp only
    match how with
    | .threw => simp at h
    | .returned => rw [scanT_agrees ha opt s _ _ _ _ _ _ (by simp) h1, ok_bind]; exact h
    | .ended =>
      rw [scanT_agrees ha opt s _ _ _ _ _ _ (by simp) h1, ok_bind]
      simp only at h ⊢
      split
      · rename_i hr
        rw [if_pos hr] at h
        split
        · rename_i h0; rw [if_pos h0] at h; cases h
        · rename_i h0
          rw [if_neg h0] at h
          obtain ⟨c, hc, h⟩ := bind_eq_ok.mp h
          rw [hc, ok_bind]
          rcases e : ask q1 c with ⟨r, q2⟩
          rw [e] at h
          match r with
          | none => simp at h
          | some b => rw [ha _ _ _ _ e]; exact h
      · rename_i hr
        rw [if_neg hr] at h; exact h

theorem walkT_adds (opt : Opt) (ask : AskT σ α) (s : List α) : ∀ fuel (t : Tok) q out ts x, Tok.walkT opt ask s fuel t q out = ok (ts, x) → out <+: ts := by
  intro fuel
  induction fuel with
  | zero => intro t q out ts x h; cases h
  | succ fuel ih =>
    intro t q out ts x h
    unfold Tok.walkT at h
    split at h
    · obtain ⟨⟨b, t', q'⟩, h1, h⟩ := bind_eq_ok.mp h
      cases b with
      | true => simp only [if_true, Outcome.ok.injEq, Prod.mk.injEq] at h; rw [← h.1]; exact List.prefix_append _ _
      | false => exact (List.prefix_append _ _).trans (ih _ _ _ _ _ h)
    · simp only [Outcome.ok.injEq, Prod.mk.injEq] at h; exact h.1 ▸ List.prefix_refl _

/-- C174: if a predicate answers as another one until it throws, the tokens used before the exception are the first ones of those the other gives; if it does not throw they are the same. -/
theorem C174_prefix {ask ask' : AskT σ α} (ha : ∀ q c b q', ask q c = (some b, q') → ask' q c = (some b, q')) (opt : Opt) (q : σ) (s : List α) (ts ts' : List (Nat × Nat)) (x x' : Option σ)
    (h : tokenizerTokensT opt ask q s = ok (ts, x)) (h' : tokenizerTokensT opt ask' q s = ok (ts', x')) : ts <+: ts' ∧ (x.isSome = true → ts = ts' ∧ x = x') := by
  have key : ∀ fuel (t : Tok) q out, Tok.walkT opt ask s fuel t q out = ok (ts, x) → Tok.walkT opt ask' s fuel t q out = ok (ts', x') → ts <+: ts' ∧ (x.isSome = true → ts = ts' ∧ x = x') := by
    intro fuel
    induction fuel with
    | zero => intro t q out h; cases h
    | succ fuel ih =>
      intro t q out h h'
      unfold Tok.walkT at h h'
      split at h
      · rename_i he
        rw [if_pos he] at h'
        obtain ⟨⟨b, t1, q1⟩, h1, h⟩ := bind_eq_ok.mp h
        obtain ⟨⟨b', t2, q2⟩, h1', h'⟩ := bind_eq_ok.mp h'
        cases b with
        | true =>
          simp only [if_true, Outcome.ok.injEq, Prod.mk.injEq] at h
          obtain ⟨rfl, rfl⟩ := h
          refine ⟨?_, by simp⟩
          cases b' with
          | true => simp only [if_true, Outcome.ok.injEq, Prod.mk.injEq] at h'; exact h'.1 ▸ List.prefix_refl _
          | false => exact walkT_adds _ _ _ _ _ _ _ _ _ h'
        | false =>
          rw [nextT_agrees ha opt s t q t1 q1 h1] at h1'
          simp only [Outcome.ok.injEq, Prod.mk.injEq] at h1'
          obtain ⟨rfl, rfl, rfl⟩ := h1'
          exact ih _ _ _ h h'
      · rename_i he
        rw [if_neg he] at h'
        simp only [Outcome.ok.injEq, Prod.mk.injEq] at h h'
        obtain ⟨rfl, rfl⟩ := h
        obtain ⟨rfl, rfl⟩ := h'
        exact ⟨List.prefix_refl _, fun _ => ⟨rfl, rfl⟩⟩
  unfold tokenizerTokensT at h h'
  obtain ⟨⟨b, t, q1⟩, h1, h⟩ := bind_eq_ok.mp h
  obtain ⟨⟨b', t', q1'⟩, h1', h'⟩ := bind_eq_ok.mp h'
  cases b with
  | true =>
    simp only [if_true, Outcome.ok.injEq, Prod.mk.injEq] at h
    obtain ⟨rfl, rfl⟩ := h
    exact ⟨List.nil_prefix, by simp⟩
  | false =>
    have e : Tok.makeT opt ask' s 0 q = ok (false, t, q1) := by
      unfold Tok.makeT at h1 ⊢
      simp only at h1 ⊢
      split
      · rename_i hl; rw [if_pos hl] at h1; exact nextT_agrees ha opt s _ _ _ _ h1
      · rename_i hl; rw [if_neg hl] at h1; exact h1
    rw [e] at h1'
    simp only [Outcome.ok.injEq, Prod.mk.injEq] at h1'
    obtain ⟨rfl, rfl, rfl⟩ := h1'
    exact key _ _ _ _ h h'

/-! ## Predicates that remember -/

theorem scanT_never (first all : Bool) (ho : first = true ∨ all = false) (step : σ → α → Bool × σ) (q : σ) (s : List α) : ∀ fuel (t : Tok) b t', t.range.2 ≤ s.length →
    Tok.scan ⟨false, first, all⟩ Prod.snd (ann step q s) fuel t = ok (b, t') →
    Tok.scanT ⟨false, first, all⟩ (neverT step) s fuel t (after step q (s.take t.range.2)) = ok (if b then .returned else .ended, t', after step q (s.take t'.range.2)) ∧ t'.lastDone = t.lastDone ∧ t'.range.2 ≤ s.length ∧
      (b = false → t'.range.2 = s.length) := by
  intro fuel
  induction fuel with
  | zero => intro t b t' _ h; cases h
  | succ fuel ih =>
    intro t b t' hr h
    unfold Tok.scan at h
    unfold Tok.scanT
    rw [ann_length] at h
    by_cases hi : s.length = t.range.2
    · rw [if_neg (by simp [hi])] at h ⊢
      simp only [Outcome.ok.injEq, Prod.mk.injEq] at h
      obtain ⟨rfl, rfl⟩ := h
      exact ⟨rfl, rfl, hr, fun _ => hi.symm⟩
    · have hlt : t.range.2 < s.length := by omega
      rw [if_pos hi] at h ⊢
      rw [ann_getElem step q s _ hlt, ok_bind] at h
      rw [deref_eq_ok hlt, ok_bind]
      simp only [neverT] at h ⊢
      rw [← after_succ step q s _ hlt]
      by_cases hb : (step (after step q (s.take t.range.2)) s[t.range.2]).1 = true
      · rw [if_pos hb] at h
        rw [hb]
        simp only at h ⊢
        cases first with
        | true =>
          simp only [Bool.true_or, if_true, ok_bind, Bool.and_false, Bool.false_eq_true, if_false, skipIfT, Outcome.ok.injEq, Prod.mk.injEq] at h ⊢
          obtain ⟨rfl, rfl⟩ := h
          exact ⟨⟨rfl, rfl, rfl⟩, rfl, hlt, by simp⟩
        | false =>
          have hall : all = false := by simpa using ho
          subst hall
          simp only [Bool.or_self, Bool.false_eq_true, if_false, skipIfT, ok_bind, Outcome.ok.injEq, Prod.mk.injEq] at h ⊢
          obtain ⟨rfl, rfl⟩ := h
          exact ⟨⟨rfl, rfl, rfl⟩, rfl, hlt, by simp⟩
      · rw [if_neg hb] at h
        rw [Bool.not_eq_true] at hb
        rw [hb]
        simp only at h ⊢
        exact ih { t with range := (t.range.1, t.range.2 + 1) } b t' hlt h

/-- The predicate answers the same when it is asked a second time about the last character of the text, right after the first time. -/
def SameAgain (step : σ → α → Bool × σ) (q : σ) (s : List α) : Prop := ∀ u c, s = u ++ [c] → (step (after step q s) c).1 = (step (after step q u) c).1

theorem nextT_never (first all : Bool) (ho : first = true ∨ all = false) (step : σ → α → Bool × σ) (q : σ) (s : List α) (hsame : SameAgain step q s) (t t' : Tok) (hr : t.range.2 ≤ s.length) (q0 : σ)
    (hq : t.lastDone = false → q0 = after step q (s.take t.range.2)) (h : Tok.next ⟨false, first, all⟩ Prod.snd (ann step q s) t = ok t') :
    ∃ q', Tok.nextT ⟨false, first, all⟩ (neverT step) s t q0 = ok (false, t', q') ∧ (t'.lastDone = false → q' = after step q (s.take t'.range.2)) ∧ t'.range.2 ≤ s.length := by
  unfold Tok.next at h
  unfold Tok.nextT
  by_cases hd : t.lastDone = true
  · rw [if_pos hd] at h ⊢
    simp only [Outcome.ok.injEq] at h
    subst h
    exact ⟨q0, rfl, by simp [hd], hr⟩
  · rw [if_neg hd] at h ⊢
    rw [hq (by simpa using hd), ann_length] at *
    have hr2 : (if s.length ≠ t.range.2 then { t with range := (t.range.2, t.range.2) } else t).range.2 = t.range.2 := by split <;> rfl
    have hdd : (if s.length ≠ t.range.2 then { t with range := (t.range.2, t.range.2) } else t).lastDone = t.lastDone := by split <;> rfl
    simp only at h ⊢
    generalize (if s.length ≠ t.range.2 then { t with range := (t.range.2, t.range.2) } else t) = t0 at h hr2 hdd
    obtain ⟨⟨b, t1⟩, h1, h⟩ := bind_eq_ok.mp h
    obtain ⟨g1, g2, g3, g4⟩ := scanT_never first all ho step q s _ t0 b t1 (by omega) h1
    rw [hr2] at g1
    rw [g1, ok_bind]
    cases b with
    | true =>
      simp only [if_true, Outcome.ok.injEq] at h ⊢
      subst h
      exact ⟨_, rfl, fun _ => rfl, g3⟩
    | false =>
      simp only [Bool.false_eq_true, if_false] at h ⊢
      have hl := g4 rfl
      split at h
      · rename_i hne
        rw [if_pos hne]
        split at h
        · cases h
        · rename_i h0
          have hlt : t1.range.2 - 1 < s.length := by omega
          rw [ann_getElem step q s _ hlt, ok_bind] at h
          rw [if_neg h0, deref_eq_ok hlt, ok_bind]
          simp only [Outcome.ok.injEq, neverT] at h ⊢
          have hs : s = s.take (t1.range.2 - 1) ++ [s[t1.range.2 - 1]] := by
            rw [← take_succ_getElem s _ hlt, show t1.range.2 - 1 + 1 = s.length by omega, List.take_length]
          have e := hsame _ _ hs
          rw [show s.take t1.range.2 = s by rw [hl, List.take_length], e]
          exact ⟨_, by rw [← h], by rw [← h]; simp, by rw [← h]; exact g3⟩
      · rename_i hne
        rw [if_neg hne]
        simp only [Outcome.ok.injEq] at h
        subst h
        exact ⟨_, rfl, fun _ => rfl, g3⟩

/-- C174 (partial: without compressed delimiters, and not with all delimiters kept alone): the tokens a predicate that remembers gives are those of the text whose characters carry its answers, asked
about each character once, in order, from the front — as long as it answers the same when it is asked again about the last one. -/
theorem C174_remembers_partial (first all : Bool) (ho : first = true ∨ all = false) (step : σ → α → Bool × σ) (q : σ) (s : List α) (hsame : SameAgain step q s) :
    ∃ ts q', tokenizerTokens ⟨false, first, all⟩ Prod.snd (ann step q s) = ok ts ∧ tokenizerTokensT ⟨false, first, all⟩ (neverT step) q s = ok (ts, some q') := by
  obtain ⟨ts, hts⟩ := tokenizerTokens_ok ⟨false, first, all⟩ Prod.snd (ann step q s)
  refine ⟨ts, ?_⟩
  suffices ∃ q', tokenizerTokensT ⟨false, first, all⟩ (neverT step) q s = ok (ts, some q') by
    obtain ⟨q', h⟩ := this
    exact ⟨q', hts, h⟩
  unfold tokenizerTokens at hts
  obtain ⟨b, hb, hts⟩ := bind_eq_ok.mp hts
  obtain ⟨e, he, hts⟩ := bind_eq_ok.mp hts
  have hee : e.range = (s.length, s.length) := by
    unfold Tok.make at he
    simp only at he
    rw [if_neg (by simp)] at he
    cases he
    simp [ann_length]
  have key : ∀ fuel (t : Tok) q0 out, t.range.2 ≤ s.length → (t.lastDone = false → q0 = after step q (s.take t.range.2)) →
      Tok.walk ⟨false, first, all⟩ Prod.snd (ann step q s) e fuel t out = ok ts → ∃ q', Tok.walkT ⟨false, first, all⟩ (neverT step) s fuel t q0 out = ok (ts, some q') := by
    intro fuel
    induction fuel with
    | zero => intro t q0 out _ _ h; cases h
    | succ fuel ih =>
      intro t q0 out hr hq h
      unfold Tok.walk at h
      unfold Tok.walkT
      rw [hee] at h
      split at h
      · rename_i hne
        rw [if_pos hne]
        obtain ⟨t', h1, h⟩ := bind_eq_ok.mp h
        obtain ⟨q', g1, g2, g3⟩ := nextT_never first all ho step q s hsame t t' hr q0 hq h1
        rw [g1, ok_bind]
        exact ih t' q' _ g3 g2 h
      · rename_i hne
        rw [if_neg hne]
        simp only [Outcome.ok.injEq] at h
        subst h
        exact ⟨q0, rfl⟩
  have hm : ∃ q', Tok.makeT ⟨false, first, all⟩ (neverT step) s 0 q = ok (false, b, q') ∧ (b.lastDone = false → q' = after step q (s.take b.range.2)) ∧ b.range.2 ≤ s.length := by
    unfold Tok.make at hb
    unfold Tok.makeT
    rw [ann_length] at hb
    simp only at hb ⊢
    split at hb
    · rename_i hne
      rw [if_pos hne]
      exact nextT_never first all ho step q s hsame _ b (Nat.zero_le _) q (fun _ => rfl) hb
    · rename_i hne
      rw [if_neg hne]
      cases hb
      exact ⟨q, rfl, fun _ => rfl, Nat.zero_le _⟩
  obtain ⟨q', g1, g2, g3⟩ := hm
  unfold tokenizerTokensT
  rw [g1, ok_bind]
  rw [ann_length] at hts
  exact key _ b q' [] g3 g2 hts

/-- C174 (the other side): a predicate that takes every second question for a delimiter and the text `ab`.  The answers to the characters in order, no and yes, make a token `a` and an empty one; but the
last character is asked about again, the answer is no, and the tokens are `a` and `ab`: they overlap. -/
theorem C174_again (a b : α) :
    tokenizerTokens ⟨false, false, false⟩ Prod.snd (ann (fun (q : Bool) (_ : α) => (q, !q)) false [a, b]) = ok [(0, 1), (2, 2)] ∧
    tokenizerTokensT ⟨false, false, false⟩ (neverT fun q _ => (q, !q)) false [a, b] = ok ([(0, 1), (0, 2)], some true) := ⟨rfl, rfl⟩

/-- C174 (the other side): with compressed delimiters the first character of a token that follows a delimiter is asked about twice: text `a,b`, questions a , b b and, for the final test, b again. -/
theorem C174_twice : tokenizerTokensT ⟨true, false, false⟩ (neverT (recorded fun (q : Unit) c => (c == ',', q))) ((), []) ['a', ',', 'b'] =
    ok ([(0, 1), (2, 3)], some ((), ['a', ',', 'b', 'b', 'b'])) := rfl

/-! ## Concrete cases -/

/-- Two predicates that agree until the first throws at the fourth question: the tokens used before are a prefix. -/
example : tokenizerTokensT ⟨false, false, false⟩ (onceT 3 (· == ',')) 0 ['a', ',', 'b', 'c', ',', 'd'] = ok ([(0, 1)], none) ∧
    tokenizerTokensT ⟨false, false, false⟩ (onceT 100 (· == ',')) 0 ['a', ',', 'b', 'c', ',', 'd'] = ok ([(0, 1), (2, 4), (5, 6)], some 7) := ⟨rfl, rfl⟩

/-- `C174_prefix` applies to the two. -/
example : [((0 : Nat), (1 : Nat))] <+: [(0, 1), (2, 4), (5, 6)] := by
  have ha : ∀ q c b q', onceT 3 (· == ',') q c = (some b, q') → (fun i c => (some (c == ','), i + 1) : AskT Nat Char) q c = (some b, q') := by
    intro q c b q' h
    simp only [onceT_eq] at h
    split at h
    · simp at h
    · exact h
  exact (C174_prefix ha ⟨false, false, false⟩ 0 ['a', ',', 'b', 'c', ',', 'd'] [(0, 1)] [(0, 1), (2, 4), (5, 6)] none (some 7) rfl rfl).1

/-- Quoted delimiters: the predicate remembers whether it is between quotes. -/
example : SameAgain (fun (q : Bool) (c : Char) => (!q && c == ',', if c == '"' then !q else q)) false ['a', ',', '"', ',', '"'] := by
  intro u c h
  have h2 : u = ['a', ',', '"', ','] ∧ c = '"' := by
    have := List.append_inj' (s₁ := ['a', ',', '"', ',']) (t₁ := ['"']) h rfl
    exact ⟨this.1.symm, by simpa using this.2.symm⟩
  rw [h2.1, h2.2]
  decide

example : tokenizerTokensT ⟨false, false, false⟩ (neverT fun (q : Bool) (c : Char) => (!q && c == ',', if c == '"' then !q else q)) false ['a', ',', '"', ',', '"'] = ok ([(0, 1), (2, 5)], some true) := rfl

/-- An iterator that shows `p` of `p,uv,w`: the predicate throws after `u`, or when asked again about the last character of `p,uv`. -/
example := C174_loses (· == ',') ['p', ','] ['u'] ['v'] ['w'] ',' (by decide) (by decide) (0, 1) 0

example := C174_last_question (· == ',') ['p', ','] ['u', 'v'] (by decide) (by decide) (0, 1) 0

/-- An option with which the walk ends, and one with which it does not. -/
example := C174_ends_partial ⟨true, true, false⟩ (Or.inl rfl) (onceT 3 (· == ',')) 0 ['a', ',', ',', 'b']

example := C174_forever ['a'] (by decide) 1000

/-! ## Plain predicates, and exceptions inside a run of delimiters -/

theorem skipRunT_plain (d : α → Bool) (q : σ) (s : List α) : ∀ fuel i j, skipRun d s fuel i = ok j → skipRunT (neverT fun q c => (d c, q)) s fuel q i = ok (false, j, q) := by
  intro fuel
  induction fuel with
  | zero => intro i j h; cases h
  | succ fuel ih =>
    intro i j h
    unfold skipRun at h
    unfold skipRunT
    by_cases hi : i = s.length
    · rw [if_neg (by simp [hi])] at h ⊢
      cases h; rfl
    · rw [if_pos hi] at h
      rw [if_pos (Ne.symm hi)]
      obtain ⟨c, hc, h⟩ := bind_eq_ok.mp h
      rw [hc, ok_bind]
      simp only [neverT]
      by_cases hd : d c = true
      · rw [if_pos hd] at h; rw [hd]; exact ih _ _ h
      · rw [if_neg hd] at h
        rw [Bool.not_eq_true] at hd
        rw [hd]
        cases h; rfl

theorem skipIfT_plain (skip : Bool) (d : α → Bool) (q : σ) (s : List α) (i j : Nat) (h : (if skip = true then skipRun d s (s.length + 1) i else ok i) = ok j) :
    skipIfT skip (neverT fun q c => (d c, q)) s q i = ok (false, j, q) := by
  unfold skipIfT
  cases skip with
  | true => exact skipRunT_plain d q s _ i j h
  | false => cases h; rfl

theorem scanT_plain (opt : Opt) (d : α → Bool) (q : σ) (s : List α) : ∀ fuel (t : Tok) b t', Tok.scan opt d s fuel t = ok (b, t') →
    Tok.scanT opt (neverT fun q c => (d c, q)) s fuel t q = ok (if b then .returned else .ended, t', q) := by
  intro fuel
  induction fuel with
  | zero => intro t b t' h; cases h
  | succ fuel ih =>
    intro t b t' h
    unfold Tok.scan at h
    unfold Tok.scanT
    split
    · rename_i hi
      rw [if_pos hi] at h
      obtain ⟨c, hc, h⟩ := bind_eq_ok.mp h
      rw [hc, ok_bind]
      simp only [neverT] at h ⊢
      by_cases hd : d c = true
      · rw [if_pos hd] at h
        rw [hd]
        simp only at h ⊢
        split
        · rename_i hfa
          rw [if_pos hfa] at h
          obtain ⟨j, h1, h⟩ := bind_eq_ok.mp h
          obtain ⟨j', h2, h⟩ := bind_eq_ok.mp h
          have h1' : (if opt.first = true then ok (false, t.range.2 + 1, q) else skipRunT (neverT fun q c => (d c, q)) s (s.length + 1) q t.range.2) = ok (false, j, q) := by
            split
            · rename_i hf; rw [if_pos hf] at h1; cases h1; rfl
            · rename_i hf; rw [if_neg hf] at h1; exact skipRunT_plain d q s _ _ _ h1
          have h2' := skipIfT_plain (!opt.all && opt.compress) d q s j j' h2
          rw [h1', ok_bind]
          simp only [Bool.false_eq_true, if_false]
          rw [h2', ok_bind]
          cases h; rfl
        · rename_i hfa
          rw [if_neg hfa] at h
          obtain ⟨j, h1, h⟩ := bind_eq_ok.mp h
          have h1' := skipIfT_plain opt.compress d q s _ j h1
          rw [h1', ok_bind]
          cases h; rfl
      · rw [if_neg hd] at h
        rw [Bool.not_eq_true] at hd
        rw [hd]
        exact ih _ _ _ h
    · rename_i hi
      rw [if_neg hi] at h
      cases h; rfl

theorem nextT_plain (opt : Opt) (d : α → Bool) (q : σ) (s : List α) (t t' : Tok) (h : Tok.next opt d s t = ok t') : Tok.nextT opt (neverT fun q c => (d c, q)) s t q = ok (false, t', q) := by
  unfold Tok.next at h
  unfold Tok.nextT
  split
  · rename_i hd
    rw [if_pos hd] at h
    cases h; rfl
  · rename_i hd
    rw [if_neg hd] at h
    obtain ⟨⟨b, t1⟩, h1, h⟩ := bind_eq_ok.mp h
    simp only
    rw [scanT_plain opt d q s _ _ _ _ h1, ok_bind]
    cases b with
    | true => cases h; rfl
    | false =>
      simp only [Bool.false_eq_true, if_false] at h ⊢
      split
      · rename_i hr
        rw [if_pos hr] at h
        split
        · rename_i h0; rw [if_pos h0] at h; cases h
        · rename_i h0
          rw [if_neg h0] at h
          obtain ⟨c, hc, h⟩ := bind_eq_ok.mp h
          rw [hc, ok_bind]
          cases h; rfl
      · rename_i hr
        rw [if_neg hr] at h
        cases h; rfl

/-- C174: with a predicate that neither remembers nor throws, and all options, the tokens are those of the plain tokenizer (C05, C114). -/
theorem C174_plain (opt : Opt) (d : α → Bool) (q : σ) (s : List α) :
    ∃ ts, tokenizerTokens opt d s = ok ts ∧ tokenizerTokensT opt (neverT fun q c => (d c, q)) q s = ok (ts, some q) := by
  obtain ⟨ts, hts⟩ := tokenizerTokens_ok opt d s
  refine ⟨ts, hts, ?_⟩
  unfold tokenizerTokens at hts
  obtain ⟨b, hb, hts⟩ := bind_eq_ok.mp hts
  obtain ⟨e, he, hts⟩ := bind_eq_ok.mp hts
  have hee : e.range = (s.length, s.length) := by
    unfold Tok.make at he
    simp only at he
    rw [if_neg (by simp)] at he
    cases he
    rfl
  have key : ∀ fuel (t : Tok) out, Tok.walk opt d s e fuel t out = ok ts → Tok.walkT opt (neverT fun q c => (d c, q)) s fuel t q out = ok (ts, some q) := by
    intro fuel
    induction fuel with
    | zero => intro t out h; cases h
    | succ fuel ih =>
      intro t out h
      unfold Tok.walk at h
      unfold Tok.walkT
      rw [hee] at h
      split at h
      · rename_i hne
        obtain ⟨t', h1, h⟩ := bind_eq_ok.mp h
        rw [if_pos hne, nextT_plain opt d q s t t' h1, ok_bind]
        exact ih t' _ h
      · rename_i hne
        rw [if_neg hne]
        cases h; rfl
  have hm : Tok.makeT opt (neverT fun q c => (d c, q)) s 0 q = ok (false, b, q) := by
    unfold Tok.make at hb
    unfold Tok.makeT
    simp only at hb ⊢
    split at hb
    · rename_i hne
      rw [if_pos hne]
      exact nextT_plain opt d q s _ b hb
    · rename_i hne
      rw [if_neg hne]
      cases hb
      rfl
  unfold tokenizerTokensT
  rw [hm, ok_bind]
  exact key _ b [] hts

/-- A run of delimiters after which the predicate throws. -/
theorem skipRunT_throws (d : α → Bool) (r : List α) : ∀ (pre post : List α) fuel i, (∀ c ∈ r, d c = true) → post ≠ [] → r.length < fuel →
    skipRunT (onceT (i + r.length) d) (pre ++ r ++ post) fuel i pre.length = ok (true, pre.length + r.length, i + r.length + 1) := by
  induction r with
  | nil =>
    intro pre post fuel i _ hp hf
    obtain ⟨f, rfl⟩ : ∃ f, fuel = f + 1 := ⟨fuel - 1, by simp at hf; omega⟩
    have : 0 < post.length := List.length_pos_of_ne_nil hp
    unfold skipRunT
    rw [if_pos (by simp; exact hp), deref_eq_ok (by simp; omega), ok_bind]
    simp only [onceT_eq, List.length_nil, Nat.add_zero, if_true]
  | cons c r ih =>
    intro pre post fuel i hr hp hf
    obtain ⟨f, rfl⟩ : ∃ f, fuel = f + 1 := ⟨fuel - 1, by simp at hf; omega⟩
    unfold skipRunT
    rw [if_pos (by simp), deref_eq_ok (show pre.length < (pre ++ c :: r ++ post).length by simp), ok_bind]
    have e : (pre ++ c :: r ++ post)[pre.length]'(by simp) = c := by simp
    simp only [e, onceT_eq]
    rw [if_neg (by simp), hr c (by simp)]
    simp only
    have := ih (pre ++ [c]) post f (i + 1) (fun x hx => hr x (by simp [hx])) hp (by simp at hf; omega)
    simp only [List.length_append, List.length_singleton, List.append_assoc, List.cons_append, List.nil_append] at this ⊢
    rw [List.length_cons, show i + (r.length + 1) = i + 1 + r.length by omega, this]
    simp only [Outcome.ok.injEq, Prod.mk.injEq, and_true, true_and]
    omega

/-- C174 (the other side): with compressed delimiters, an exception from the questions about the delimiters that follow a token leaves the iterator showing that token, the new one: a caller that
catches the exception and increments again never uses it.  The text is `pre`, the token `w`, its delimiter, more delimiters `r`, and the rest; the predicate throws behind `r`. -/
theorem C174_skips (d : α → Bool) (pre w r post : List α) (c : α) (hw : ∀ x ∈ w, d x = false) (hc : d c = true) (hr : ∀ x ∈ r, d x = true) (hp : post ≠ []) (cur : Nat × Nat) (x : Nat) :
    Tok.nextT ⟨true, false, false⟩ (onceT (w.length + 1 + r.length) d) (pre ++ w ++ c :: r ++ post) ⟨(x, pre.length), cur, false⟩ 0 =
      ok (true, ⟨(pre.length, pre.length + w.length + 1 + r.length), (pre.length, pre.length + w.length), false⟩, w.length + 1 + r.length + 1) := by
  refine nextT_of_scan _ _ _ _ _ (by simp; omega) _ _ .threw _ _ ?_ (by simp)
  have hlen : (pre ++ w ++ c :: r ++ post).length + 1 = (pre.length + r.length + post.length + 1 + 1) + w.length := by simp; omega
  rw [hlen, List.append_assoc (pre ++ w), scanT_over d _ _ w pre (c :: r ++ post) _ _ _ _ _ hw (fun k hk => by omega)]
  unfold Tok.scanT
  have hl : pre.length + w.length < (pre ++ w ++ (c :: r ++ post)).length := by simp
  rw [if_pos (by simp only; omega), deref_eq_ok hl, ok_bind]
  have e : (pre ++ w ++ (c :: r ++ post))[pre.length + w.length]'hl = c := by simp [List.getElem_append]
  simp only [e, onceT_eq]
  rw [if_neg (by omega), hc]
  simp only [Bool.or_self, Bool.false_eq_true, if_false, skipIfT, if_true]
  have := skipRunT_throws d r (pre ++ w ++ [c]) post ((pre ++ w ++ (c :: r ++ post)).length + 1) (0 + w.length + 1) hr hp (by simp; omega)
  simp only [List.length_append, List.length_nil, List.length_cons, List.append_assoc, List.cons_append, List.nil_append, Nat.zero_add, ← Nat.add_assoc] at this ⊢
  rw [this]
  rfl

/-- C174: with all delimiters kept, an exception from the questions about the delimiters that follow a token leaves the iterator showing the token it showed; the part scanned is lost as in
`C174_loses`.  The predicate is asked about the first delimiter of the run twice. -/
theorem C174_all_run (d : α → Bool) (pre w r post : List α) (c : α) (hw : ∀ x ∈ w, d x = false) (hc : d c = true) (hr : ∀ x ∈ r, d x = true) (hp : post ≠ []) (cur : Nat × Nat) (x : Nat) (comp : Bool) :
    Tok.nextT ⟨comp, false, true⟩ (onceT (w.length + 2 + r.length) d) (pre ++ w ++ c :: r ++ post) ⟨(x, pre.length), cur, false⟩ 0 =
      ok (true, ⟨(pre.length, pre.length + w.length + 1 + r.length), cur, false⟩, w.length + 2 + r.length + 1) := by
  refine nextT_of_scan _ _ _ _ _ (by simp; omega) _ _ .threw _ _ ?_ (by simp)
  have hlen : (pre ++ w ++ c :: r ++ post).length + 1 = (pre.length + r.length + post.length + 1 + 1) + w.length := by simp; omega
  rw [hlen, List.append_assoc (pre ++ w), scanT_over d _ _ w pre (c :: r ++ post) _ _ _ _ _ hw (fun k hk => by omega)]
  unfold Tok.scanT
  have hl : pre.length + w.length < (pre ++ w ++ (c :: r ++ post)).length := by simp
  rw [if_pos (by simp only; omega), deref_eq_ok hl, ok_bind]
  have e : (pre ++ w ++ (c :: r ++ post))[pre.length + w.length]'hl = c := by simp [List.getElem_append]
  simp only [e, onceT_eq]
  rw [if_neg (by omega), hc]
  simp only [Bool.or_true, Bool.false_eq_true, if_false, if_true]
  have := skipRunT_throws d (c :: r) (pre ++ w) post ((pre ++ w ++ (c :: r ++ post)).length + 1) (0 + w.length + 1) (by intro x hx; rcases List.mem_cons.mp hx with rfl | h; exacts [hc, hr x h]) hp (by simp; omega)
  simp only [List.length_append, List.length_cons, List.append_assoc, List.cons_append, Nat.zero_add, ← Nat.add_assoc] at this ⊢
  rw [show w.length + 2 + r.length = w.length + 1 + r.length + 1 by omega, this]
  simp only [ok_bind, if_true, Outcome.ok.injEq, Prod.mk.injEq, true_and, and_true, Tok.mk.injEq]
  omega

example := C174_skips (· == ',') ['p', ','] ['u'] [',', ','] ['v'] ',' (by decide) (by decide) (by decide) (by decide) (0, 1) 0

example := C174_all_run (· == ',') ['p', ','] ['u'] [',', ','] ['v'] ',' (by decide) (by decide) (by decide) (by decide) (0, 1) 0 true

end Strtk.Split
