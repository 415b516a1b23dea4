import Verif.Split.Props
import Mathlib.Data.List.Forall2

/-!
# `tokenizer` objects and their iterators (strtk.hpp 2336-2586)

A tokenizer and each of its iterators hold a *reference* to the delimiter predicate of the caller (2493, 2581). Predicates are named by numbers; `preds p` is the
predicate that lives there, if any.
-/

namespace Strtk.Split
open Outcome

variable {α : Type}

/-! ## Model -/

/-- The predicates that live. -/
abbrev Preds (α : Type) := Nat → Option (α → Bool)

/-- `tokenizer_iterator` (2493-2501): the predicate's name, the options and the text (its `end_`) next to the state `Tok`. -/
structure Iter (α : Type) where
  pred : Nat
  opt : Opt
  text : List α
  tok : Tok

/-- Following the reference. -/
def getPred (preds : Preds α) (p : Nat) : Outcome (α → Bool) := match preds p with
  | some d => ok d
  | none => ub

/-- The constructor (2353-2371), for the part of the text from `start` on. The predicate is not looked at when that part is empty. -/
def Iter.make (preds : Preds α) (p : Nat) (opt : Opt) (s : List α) (start : Nat) : Outcome (Iter α) :=
  if s.length = start then ok ⟨p, opt, s, ⟨(start, start), (s.length, s.length), false⟩⟩
  else do
    let d ← getPred preds p
    let t ← Tok.make opt d s start
    ok ⟨p, opt, s, t⟩

/-- `operator++` (2373-2430). Simplification: incrementing an iterator whose predicate is gone is undefined also where the increment would not look at it. -/
def Iter.next (preds : Preds α) (it : Iter α) : Outcome (Iter α) := do
  let d ← getPred preds it.pred
  let t ← Tok.next it.opt d it.text it.tok
  ok { it with tok := t }

/-- The loop of `operator+=` (2443). -/
def Iter.advance (preds : Preds α) : Nat → Iter α → Outcome (Iter α)
  | 0, it => ok it
  | n + 1, it => do
    let it ← it.next preds
    it.advance preds n

/-- `operator+=` (2439-2447). -/
def Iter.plus (preds : Preds α) (it : Iter α) (inc : Int) : Outcome (Iter α) := if inc > 0 then it.advance preds inc.toNat else ok it

/-- `as_string` (2454-2457). -/
def Iter.asString (it : Iter α) : List α := textOf it.text it.tok.current

/-- `remaining` (2486-2489). -/
def Iter.remaining (it : Iter α) : List α := it.text.drop it.tok.current.1

/-- `operator=` (2469-2484): everything but the reference. -/
def Iter.assign (a b : Iter α) : Iter α := { b with pred := a.pred }

/-- A `tokenizer` (2580-2585). -/
structure Obj (α : Type) where
  pred : Nat
  opt : Opt
  text : List α
  first : Iter α
  last : Iter α

/-- The constructors (2513-2534). -/
def Obj.make (preds : Preds α) (p : Nat) (opt : Opt) (s : List α) : Outcome (Obj α) := do
  let b ← Iter.make preds p opt s 0
  let e ← Iter.make preds p opt s s.length
  ok ⟨p, opt, s, b, e⟩

/-- `operator=` (2536-2548). -/
def Obj.assign (a b : Obj α) : Obj α := { a with opt := b.opt, text := b.text, first := a.first.assign b.first, last := a.last.assign b.last }

/-- `assign(text)` (2555-2566): the iterators are assigned from new ones. -/
def Obj.assignText (preds : Preds α) (a : Obj α) (s : List α) : Outcome (Obj α) := do
  let b ← Iter.make preds a.pred a.opt s 0
  let e ← Iter.make preds a.pred a.opt s s.length
  ok { a with text := s, first := a.first.assign b, last := a.last.assign e }

/-- `for (itr = t.begin(); itr != t.end(); ++itr) use(itr.as_string());` with `operator!=` (2464-2467; both iterators have the same `end_`). -/
def Iter.walk (preds : Preds α) (e : Iter α) : Nat → Iter α → List (List α) → Outcome (List (List α))
  | 0, _, _ => diverge
  | fuel + 1, it, out =>
    if it.tok.range ≠ e.tok.range then do
      let next ← it.next preds
      Iter.walk preds e fuel next (out ++ [it.asString])
    else ok out

/-- The tokens between `begin()` and `end()` (2568-2576). -/
def Obj.tokens (preds : Preds α) (o : Obj α) : Outcome (List (List α)) := Iter.walk preds o.last (o.text.length + 2) o.first []

/-- What a program does with tokenizers and predicates; tokenizers are numbered in order of creation. -/
inductive Act (α : Type) where
  | make (p : Nat) (opt : Opt) (s : List α)
  | copy (i : Nat)
  | assign (i j : Nat)
  | assignText (i : Nat) (s : List α)

/-- One action; the implicit copy constructor copies all members. Assigning a tokenizer to itself does nothing (2538). -/
def Act.run (preds : Preds α) (objs : List (Obj α)) : Act α → Outcome (List (Obj α))
  | .make p opt s => do
    let o ← Obj.make preds p opt s
    ok (objs ++ [o])
  | .copy i => do
    let o ← deref objs i
    ok (objs ++ [o])
  | .assign i j => do
    let a ← deref objs i
    let b ← deref objs j
    if i = j then ok objs else store objs i (a.assign b)
  | .assignText i s => do
    let a ← deref objs i
    let a ← a.assignText preds s
    store objs i a

def runActs (preds : Preds α) : List (Act α) → List (Obj α) → Outcome (List (Obj α))
  | [], objs => ok objs
  | a :: as, objs => do
    let objs ← a.run preds objs
    runActs preds as objs

/-! ## Specification -/

/-- What a tokenizer should tokenise, and how. -/
structure Job (α : Type) where
  pred : Nat
  opt : Opt
  text : List α

def Act.expect (jobs : List (Job α)) : Act α → List (Job α)
  | .make p opt s => jobs ++ [⟨p, opt, s⟩]
  | .copy i => jobs ++ (jobs[i]?).toList
  | .assign i j => match jobs[j]? with
    | some job => jobs.set i job
    | none => jobs
  | .assignText i s => match jobs[i]? with
    | some job => jobs.set i { job with text := s }
    | none => jobs

/-- The predicates used live, the tokenizers named exist, and assignments are between tokenizers with the same predicate. -/
def Act.Good (preds : Preds α) (jobs : List (Job α)) : Act α → Prop
  | .make p _ _ => (preds p).isSome = true
  | .copy i => i < jobs.length
  | .assign i j => ∃ a b, jobs[i]? = some a ∧ jobs[j]? = some b ∧ a.pred = b.pred
  | .assignText i _ => i < jobs.length

def AllGood (preds : Preds α) : List (Act α) → List (Job α) → Prop
  | [], _ => True
  | a :: as, jobs => a.Good preds jobs ∧ AllGood preds as (a.expect jobs)

/-- The tokens of a job: for all options but one combination those of `split` (`C05_tokenizer_eq_split_partial`). -/
def Job.Tokens (preds : Preds α) (job : Job α) (ts : List (List α)) : Prop :=
  ∃ d r, preds job.pred = some d ∧ tokenizerTokens job.opt d job.text = ok r ∧ ts = r.map (textOf job.text)

/-! ## C114 -/

theorem Iter.walk_eq (preds : Preds α) (d : α → Bool) (e : Iter α) : ∀ (fuel : Nat) (it : Iter α) (out : List (Nat × Nat)) (r : List (Nat × Nat)),
    preds it.pred = some d → Tok.walk it.opt d it.text e.tok fuel it.tok out = ok r →
    Iter.walk preds e fuel it (out.map (textOf it.text)) = ok (r.map (textOf it.text)) := by
  intro fuel
  induction fuel with
  | zero => intro it out r _ h; simp [Tok.walk] at h
  | succ fuel ih =>
    intro it out r hd h
    unfold Tok.walk at h
    unfold Iter.walk
    by_cases hne : it.tok.range ≠ e.tok.range
    · rw [if_pos hne] at h ⊢
      obtain ⟨t, h1, h2⟩ := bind_eq_ok.mp h
      have hn : it.next preds = ok { it with tok := t } := by
        simp [Iter.next, getPred, hd, h1]
      rw [hn, ok_bind]
      have := ih { it with tok := t } (out ++ [it.tok.current]) r hd h2
      simpa [Iter.asString] using this
    · rw [if_neg hne] at h ⊢
      cases h
      rfl

theorem tokenizerTokens_ok (opt : Opt) (d : α → Bool) (s : List α) : ∃ r, tokenizerTokens opt d s = ok r := by
  by_cases hs : s = []
  · subst hs; exact ⟨[], by simp [tokenizerTokens, Tok.make, Tok.walk]⟩
  · obtain ⟨toks, _, h⟩ := tokenizer_spec opt d s hs
    exact ⟨_, h⟩

/-- The iterators of a tokenizer that has not been assigned from one with another predicate. -/
structure Fresh (preds : Preds α) (job : Job α) (o : Obj α) : Prop where
  pred : o.pred = job.pred
  opt : o.opt = job.opt
  text : o.text = job.text
  live : ∃ d, preds job.pred = some d ∧ Tok.make job.opt d job.text 0 = ok o.first.tok
  first : o.first = ⟨job.pred, job.opt, job.text, o.first.tok⟩
  last : o.last = ⟨job.pred, job.opt, job.text, ⟨(job.text.length, job.text.length), (job.text.length, job.text.length), false⟩⟩

theorem Iter.make_first {preds : Preds α} {p : Nat} {d : α → Bool} (hd : preds p = some d) (opt : Opt) (s : List α) :
    ∃ t, Tok.make opt d s 0 = ok t ∧ Iter.make preds p opt s 0 = ok ⟨p, opt, s, t⟩ := by
  by_cases hs : s = []
  · subst hs
    exact ⟨⟨(0, 0), (0, 0), false⟩, by simp [Tok.make], by simp [Iter.make]⟩
  · have hl : s.length ≠ 0 := by simpa using hs
    obtain ⟨r, hr⟩ := tokenizerTokens_ok opt d s
    obtain ⟨t, h1, _⟩ := bind_eq_ok.mp hr
    exact ⟨t, h1, by simp [Iter.make, hl, getPred, hd, h1]⟩

theorem Iter.make_last (preds : Preds α) (p : Nat) (opt : Opt) (s : List α) :
    Iter.make preds p opt s s.length = ok ⟨p, opt, s, ⟨(s.length, s.length), (s.length, s.length), false⟩⟩ := by
  simp [Iter.make]

theorem Fresh.tokens {preds : Preds α} {job : Job α} {o : Obj α} (h : Fresh preds job o) : ∃ ts, o.tokens preds = ok ts ∧ job.Tokens preds ts := by
  obtain ⟨d, hd, hm⟩ := h.live
  obtain ⟨r, hr⟩ := tokenizerTokens_ok job.opt d job.text
  refine ⟨r.map (textOf job.text), ?_, d, r, hd, hr, rfl⟩
  have hr' := hr
  unfold tokenizerTokens at hr'
  rw [hm, ok_bind] at hr'
  have he : Tok.make job.opt d job.text job.text.length = ok ⟨(job.text.length, job.text.length), (job.text.length, job.text.length), false⟩ := by
    simp [Tok.make]
  rw [he, ok_bind] at hr'
  have hf := h.first
  have := Iter.walk_eq preds d o.last (o.text.length + 2) o.first [] r (by rw [hf]; exact hd) (by
    rw [hf, h.last, h.text]; exact hr')
  unfold Obj.tokens
  rw [show ([] : List (List α)) = ([] : List (Nat × Nat)).map (textOf o.first.text) from rfl, this, hf]

theorem Act.run_good (preds : Preds α) (a : Act α) (jobs : List (Job α)) (objs : List (Obj α)) (h : List.Forall₂ (Fresh preds) jobs objs)
    (hg : a.Good preds jobs) : ∃ objs', a.run preds objs = ok objs' ∧ List.Forall₂ (Fresh preds) (a.expect jobs) objs' := by
  have hlen := h.length_eq
  have hset : ∀ (i : Nat) (job : Job α) (o : Obj α), Fresh preds job o → List.Forall₂ (Fresh preds) (jobs.set i job) (objs.set i o) := by
    intro i job o ho
    clear hlen hg
    induction h generalizing i with
    | nil => simp
    | cons hx ht ih =>
      cases i with
      | zero => exact List.Forall₂.cons ho ht
      | succ i => exact List.Forall₂.cons hx (ih i)
  have hget : ∀ i (hi : i < jobs.length), Fresh preds jobs[i] (objs[i]'(by omega)) := by
    intro i hi
    exact (List.forall₂_iff_get.mp h).2 i hi (by omega)
  cases a with
  | make p opt s =>
    obtain ⟨d, hd⟩ := Option.isSome_iff_exists.mp hg
    obtain ⟨t, h1, h2⟩ := Iter.make_first hd opt s
    refine ⟨_, by simp only [Act.run, Obj.make, h2, Iter.make_last, ok_bind]; rfl, ?_⟩
    exact List.rel_append h (List.Forall₂.cons ⟨rfl, rfl, rfl, ⟨d, hd, h1⟩, rfl, rfl⟩ List.Forall₂.nil)
  | copy i =>
    simp only [Act.Good] at hg
    refine ⟨_, by simp only [Act.run, deref_eq_ok (show i < objs.length by omega), ok_bind]; rfl, ?_⟩
    simp only [Act.expect, List.getElem?_eq_getElem hg, Option.toList_some]
    exact List.rel_append h (List.Forall₂.cons (hget i hg) List.Forall₂.nil)
  | assign i j =>
    obtain ⟨a, b, ha, hb, hab⟩ := hg
    obtain ⟨hi, rfl⟩ := List.getElem?_eq_some_iff.mp ha
    obtain ⟨hj, rfl⟩ := List.getElem?_eq_some_iff.mp hb
    have fi := hget i hi
    have fj := hget j hj
    simp only [Act.run, deref_eq_ok (show i < objs.length by omega), deref_eq_ok (show j < objs.length by omega), ok_bind, Act.expect, hb]
    by_cases hij : i = j
    · subst hij
      exact ⟨objs, by simp, by simpa using h⟩
    · rw [if_neg hij, store_eq_ok _ (show i < objs.length by omega)]
      refine ⟨_, rfl, hset i _ _ ?_⟩
      have e1 := fi.first; have e2 := fj.first; have e3 := fi.last; have e4 := fj.last
      refine ⟨by simp only [Obj.assign]; rw [fi.pred, hab], fj.opt, fj.text, ?_, ?_, ?_⟩
      · obtain ⟨d, hd, hm⟩ := fj.live
        exact ⟨d, hd, hm⟩
      · simp only [Obj.assign, Iter.assign]
        rw [e2, e1, hab]
      · simp only [Obj.assign, Iter.assign]
        rw [e4, e3, hab]
  | assignText i s =>
    simp only [Act.Good] at hg
    have fi := hget i hg
    obtain ⟨d, hd, _⟩ := fi.live
    obtain ⟨t, h1, h2⟩ := Iter.make_first hd jobs[i].opt s
    simp only [Act.run, deref_eq_ok (show i < objs.length by omega), ok_bind, Obj.assignText, fi.pred, fi.opt, h2, Iter.make_last]
    rw [store_eq_ok _ (show i < objs.length by omega)]
    refine ⟨_, rfl, ?_⟩
    simp only [Act.expect, List.getElem?_eq_getElem hg]
    refine hset i _ _ ⟨rfl, rfl, rfl, ⟨d, hd, h1⟩, ?_, ?_⟩
    · simp only [Iter.assign]; rw [fi.first]
    · simp only [Iter.assign]; rw [fi.last]

/-- Any history of constructions, copies, `assign(text)` and assignments between tokenizers of the same predicate, while the predicates live: every tokenizer gives
the tokens of its text.  Missing for C114: assignments between tokenizers of different predicates (`C114_assign_mixes`). -/
theorem C114_history_partial (preds : Preds α) (as : List (Act α)) (hg : AllGood preds as []) :
    ∃ objs, runActs preds as [] = ok objs ∧ List.Forall₂ (fun job o => ∃ ts, o.tokens preds = ok ts ∧ job.Tokens preds ts) (as.foldl Act.expect []) objs := by
  have key : ∀ (as : List (Act α)) (jobs : List (Job α)) (objs : List (Obj α)), List.Forall₂ (Fresh preds) jobs objs → AllGood preds as jobs →
      ∃ objs', runActs preds as objs = ok objs' ∧ List.Forall₂ (Fresh preds) (as.foldl Act.expect jobs) objs' := by
    intro as
    induction as with
    | nil => intro jobs objs h _; exact ⟨objs, rfl, h⟩
    | cons a as ih =>
      intro jobs objs h hg
      obtain ⟨objs1, h1, h2⟩ := a.run_good preds jobs objs h hg.1
      obtain ⟨objs2, h3, h4⟩ := ih _ _ h2 hg.2
      exact ⟨objs2, by show (do runActs preds as (← a.run preds objs)) = _; rw [h1, ok_bind, h3], h4⟩
  obtain ⟨objs, h1, h2⟩ := key as [] [] List.Forall₂.nil hg
  exact ⟨objs, h1, h2.imp fun _ _ h => h.tokens⟩

/-- Two tokenizers with the same predicate, one assigned to the other, then given a text. -/
example : AllGood (fun p => if p = 0 then some (· == ',') else none) [.make 0 {} "a,b".toList, .make 0 { compress := true } "c".toList, .assign 0 1, .assignText 0 "d,,e".toList] [] := by
  simp [AllGood, Act.Good, Act.expect]

/-- After `a = b` with tokenizers of different predicates, a token ended by a delimiter of `b` and then the text behind it split by the delimiters of `a`. -/
theorem C114_assign_mixes (preds : Preds α) (p q : Nat) (d d' : α → Bool) (hp : preds p = some d) (hq : preds q = some d') (s0 u v : List α) (c : α)
    (hu : ∀ x ∈ u, d' x = false) (hc : d' c = true) (hv : v ≠ []) :
    ∃ a b, Obj.make preds p {} s0 = ok a ∧ Obj.make preds q {} (u ++ c :: v) = ok b ∧ b.tokens preds = ok (u :: v.splitOnP d') ∧
      (a.assign b).tokens preds = ok (u :: v.splitOnP d) := by
  have hne : u ++ c :: v ≠ [] := by simp
  have mix : ∀ (d : α → Bool) (r : Nat) (hr : preds r = some d),
      Iter.walk preds ⟨r, {}, u ++ c :: v, ⟨((u ++ c :: v).length, (u ++ c :: v).length), ((u ++ c :: v).length, (u ++ c :: v).length), false⟩⟩ ((u ++ c :: v).length + 2)
        ⟨r, {}, u ++ c :: v, ⟨(0, u.length + 1), (0, u.length), false⟩⟩ [] = ok (u :: v.splitOnP d) := by
    intro d r hr
    have hvl : 0 < v.length := List.length_pos_iff.mpr hv
    obtain ⟨toks, h1, h2⟩ := walk_spec {} d (u ++ c :: v) ⟨((u ++ c :: v).length, (u ++ c :: v).length), ((u ++ c :: v).length, (u ++ c :: v).length), false⟩ rfl hne
      ((u ++ c :: v).length + 1) (u ++ [c]) v 0 (0, u.length) [(0, u.length)] (by simp) (fun h => absurd h hv) (fun h => absurd h hv) (by simp)
    have hw : Tok.walk {} d (u ++ c :: v) ⟨((u ++ c :: v).length, (u ++ c :: v).length), ((u ++ c :: v).length, (u ++ c :: v).length), false⟩ ((u ++ c :: v).length + 2)
        ⟨(0, u.length + 1), (0, u.length), false⟩ [] = ok ([(0, u.length)] ++ toks.map pairOf) := by
      unfold Tok.walk
      rw [if_pos (by simp)]
      rw [← h2]
      simp
    have := Iter.walk_eq preds d ⟨r, {}, u ++ c :: v, ⟨((u ++ c :: v).length, (u ++ c :: v).length), ((u ++ c :: v).length, (u ++ c :: v).length), false⟩⟩ ((u ++ c :: v).length + 2)
      ⟨r, {}, u ++ c :: v, ⟨(0, u.length + 1), (0, u.length), false⟩⟩ [] _ hr hw
    rw [List.map_nil] at this
    rw [this]
    have ht : ∀ t ∈ toks, textOf (u ++ c :: v) (pairOf t) = t.2 := by
      intro t ht
      have := h1.text (u ++ [c]) (by simp) t ht
      simpa using this
    rw [← Splits.splitOnP h1]
    simp only [List.map_append, List.map_cons, List.map_nil, List.map_map, List.singleton_append]
    have e0 : textOf (u ++ c :: v) (0, u.length) = u := by simp [textOf]
    rw [e0]
    congr 2
    exact List.map_congr_left ht
  obtain ⟨ta, ha1, ha2⟩ := Iter.make_first hp {} s0
  have hscan := scan_some {} d' (u ++ c :: v) ((u ++ c :: v).length + 1) [] [] u c v ((u ++ c :: v).length, (u ++ c :: v).length) false (by simp) hu hc (by simp)
  have hb : Iter.make preds q {} (u ++ c :: v) 0 = ok ⟨q, {}, u ++ c :: v, ⟨(0, u.length + 1), (0, u.length), false⟩⟩ := by
    have hm : Tok.make {} d' (u ++ c :: v) 0 = ok ⟨(0, u.length + 1), (0, u.length), false⟩ := by
      have hscan' : Tok.scan {} d' (u ++ c :: v) ((u ++ c :: v).length + 1) ⟨(0, 0), ((u ++ c :: v).length, (u ++ c :: v).length), false⟩ =
          ok (true, ⟨(0, u.length + 1), (0, u.length), false⟩) := by
        simpa [blockOf, tokPerRun, keepOf, Keep.part] using hscan
      have hl : (u ++ c :: v).length ≠ 0 := by simp
      unfold Tok.make Tok.next
      simp only [if_pos hl, Bool.false_eq_true, if_false]
      rw [hscan', ok_bind]
      rfl
    simp [Iter.make, getPred, hq, hm]
  refine ⟨⟨p, {}, s0, ⟨p, {}, s0, ta⟩, ⟨p, {}, s0, ⟨(s0.length, s0.length), (s0.length, s0.length), false⟩⟩⟩,
    ⟨q, {}, u ++ c :: v, ⟨q, {}, u ++ c :: v, ⟨(0, u.length + 1), (0, u.length), false⟩⟩,
      ⟨q, {}, u ++ c :: v, ⟨((u ++ c :: v).length, (u ++ c :: v).length), ((u ++ c :: v).length, (u ++ c :: v).length), false⟩⟩⟩, ?_, ?_, mix d' q hq, mix d p hp⟩
  · simp only [Obj.make, ha2, Iter.make_last, ok_bind]
  · simp only [Obj.make, hb, Iter.make_last, ok_bind]

/-- Non-vacuity: "a,b;c" with the predicates `;` (of the tokenizer assigned to) and `,`: "a", "b", "c" instead of "a", "b;c". -/
example : ∃ a b : Obj Char, Obj.make (fun p => if p = 0 then some (· == ';') else some (· == ',')) 0 {} [] = ok a ∧
    Obj.make (fun p => if p = 0 then some (· == ';') else some (· == ',')) 1 {} "a,b;c".toList = ok b ∧
    b.tokens (fun p => if p = 0 then some (· == ';') else some (· == ',')) = ok ["a".toList, "b;c".toList] ∧
    (a.assign b).tokens (fun p => if p = 0 then some (· == ';') else some (· == ',')) = ok ["a".toList, "b".toList, "c".toList] :=
  C114_assign_mixes (fun p => if p = 0 then some (· == ';') else some (· == ',')) 0 1 (· == ';') (· == ',') rfl rfl [] "a".toList "b;c".toList ',' (by decide) (by decide) (by decide)

/-- Advancing an iterator whose predicate does not live any more is undefined, and so is constructing a tokenizer with one for a non-empty text. -/
theorem C114_dangling (preds : Preds α) (p : Nat) (hp : preds p = none) :
    (∀ (it : Iter α) (n : Int), it.pred = p → 0 < n → it.plus preds n = ub) ∧
    (∀ (opt : Opt) (s : List α), s ≠ [] → Obj.make preds p opt s = ub) ∧
    (∀ (o : Obj α), o.first.pred = p → o.first.tok.range ≠ o.last.tok.range → o.tokens preds = ub) := by
  have hn : ∀ it : Iter α, it.pred = p → it.next preds = ub := by
    intro it h
    unfold Iter.next getPred
    rw [h, hp]
    rfl
  refine ⟨?_, ?_, ?_⟩
  · intro it n h hpos
    unfold Iter.plus
    rw [if_pos hpos]
    obtain ⟨k, hk⟩ : ∃ k, n.toNat = k + 1 := ⟨n.toNat - 1, by omega⟩
    rw [hk, Iter.advance, hn it h]
    rfl
  · intro opt s hs
    have hl : s.length ≠ 0 := by simpa using hs
    unfold Obj.make Iter.make getPred
    rw [if_neg hl, hp]
    rfl
  · intro o h hne
    unfold Obj.tokens Iter.walk
    rw [if_pos hne, hn _ h]
    rfl

theorem Tok.walk_prefix (opt : Opt) (d : α → Bool) (s : List α) (e : Tok) : ∀ (fuel : Nat) (t : Tok) (out r : List (Nat × Nat)),
    Tok.walk opt d s e fuel t out = ok r → ∃ r', out ++ r' = r := by
  intro fuel
  induction fuel with
  | zero => intro it out r h; simp [Tok.walk] at h
  | succ fuel ih =>
    intro it out r h
    unfold Tok.walk at h
    by_cases hne : it.range ≠ e.range
    · rw [if_pos hne] at h
      obtain ⟨nx, _, h2⟩ := bind_eq_ok.mp h
      obtain ⟨r', hr'⟩ := ih _ _ _ h2
      exact ⟨[it.current] ++ r', by rw [← List.append_assoc, hr']⟩
    · rw [if_neg hne] at h
      cases h
      exact ⟨[], by simp⟩

theorem Iter.advance_walk (preds : Preds α) (d : α → Bool) (e : Tok) : ∀ (k : Nat) (it : Iter α) (fuel : Nat) (out r : List (Nat × Nat)),
    preds it.pred = some d → Tok.walk it.opt d it.text e fuel it.tok out = ok (out ++ r) → k < r.length →
    ∃ it', it.advance preds k = ok it' ∧ r[k]? = some it'.tok.current ∧ it'.text = it.text := by
  intro k
  induction k with
  | zero =>
    intro it fuel out r _ h hr
    cases fuel with
    | zero => simp [Tok.walk] at h
    | succ fuel =>
      unfold Tok.walk at h
      by_cases hne : it.tok.range ≠ e.range
      · rw [if_pos hne] at h
        obtain ⟨nx, _, h2⟩ := bind_eq_ok.mp h
        refine ⟨it, rfl, ?_, rfl⟩
        obtain ⟨r', hr'⟩ := Tok.walk_prefix _ _ _ _ _ _ _ _ h2
        rw [List.append_assoc] at hr'
        rw [← List.append_cancel_left hr']
        rfl
      · rw [if_neg hne] at h
        have : out = out ++ r := by injection h
        have : r = [] := by simpa using this
        subst this
        simp at hr
  | succ k ih =>
    intro it fuel out r hd h hr
    cases fuel with
    | zero => simp [Tok.walk] at h
    | succ fuel =>
      unfold Tok.walk at h
      by_cases hne : it.tok.range ≠ e.range
      · rw [if_pos hne] at h
        obtain ⟨nx, h1, h2⟩ := bind_eq_ok.mp h
        obtain ⟨r', hr'⟩ := Tok.walk_prefix _ _ _ _ _ _ _ _ h2
        rw [List.append_assoc] at hr'
        have hrr := List.append_cancel_left hr'
        subst hrr
        have h3 : Tok.walk it.opt d it.text e fuel nx (out ++ [it.tok.current]) = ok ((out ++ [it.tok.current]) ++ r') := by rw [h2]; simp
        obtain ⟨it', g1, g2, g3⟩ := ih { it with tok := nx } fuel _ r' hd h3 (by simpa using hr)
        refine ⟨it', ?_, by simpa using g2, g3⟩
        have hn : it.next preds = ok { it with tok := nx } := by
          simp [Iter.next, getPred, hd, h1]
        rw [Iter.advance, hn, ok_bind, g1]
      · rw [if_neg hne] at h
        have : out = out ++ r := by injection h
        have : r = [] := by simpa using this
        subst this
        simp at hr

/-- `begin() += n` points at the token with number `n` (from 0), and `remaining()` is the whole text from the first character of this token on. A negative number
does nothing. `r` lists the tokens as pairs of positions. -/
theorem C114_advance (preds : Preds α) (p : Nat) (d : α → Bool) (hp : preds p = some d) (opt : Opt) (s : List α) :
    ∃ o r, Obj.make preds p opt s = ok o ∧ tokenizerTokens opt d s = ok r ∧ o.tokens preds = ok (r.map (textOf s)) ∧
      (∀ n : Int, n ≤ 0 → o.first.plus preds n = ok o.first) ∧
      (∀ n : Nat, ∀ h : n < r.length, ∃ it, o.first.plus preds n = ok it ∧ it.asString = textOf s r[n] ∧ it.remaining = s.drop r[n].1) := by
  obtain ⟨t, h1, h2⟩ := Iter.make_first hp opt s
  have hf : Fresh preds ⟨p, opt, s⟩ ⟨p, opt, s, ⟨p, opt, s, t⟩, ⟨p, opt, s, ⟨(s.length, s.length), (s.length, s.length), false⟩⟩⟩ := ⟨rfl, rfl, rfl, ⟨d, hp, h1⟩, rfl, rfl⟩
  obtain ⟨ts, ht, d', r, hd', hr, rfl⟩ := hf.tokens
  obtain rfl : d = d' := Option.some.inj (hp.symm.trans hd')
  refine ⟨_, r, by simp only [Obj.make, h2, Iter.make_last, ok_bind], hr, ht, ?_, ?_⟩
  · intro n hn
    unfold Iter.plus
    rw [if_neg (by omega)]
  · intro n hn
    have hw := hr
    unfold tokenizerTokens at hw
    have he : Tok.make opt d s s.length = ok ⟨(s.length, s.length), (s.length, s.length), false⟩ := by simp [Tok.make]
    simp only [h1, he, ok_bind] at hw
    obtain ⟨it, g1, g2, g3⟩ := Iter.advance_walk preds d _ n ⟨p, opt, s, t⟩ _ [] r hp hw hn
    rw [List.getElem?_eq_getElem hn] at g2
    have e := Option.some.inj g2
    refine ⟨it, ?_, ?_, ?_⟩
    · unfold Iter.plus
      by_cases h0 : (n : Int) > 0
      · rw [if_pos h0]; exact g1
      · rw [if_neg h0]
        have : n = 0 := by omega
        subst this
        exact g1
    · unfold Iter.asString
      rw [g3, e]
    · unfold Iter.remaining
      rw [g3, e]

/-- Non-vacuity: "a,bc,d", the token with number 1. -/
example : ∃ it : Iter Char, (do let o ← Obj.make (fun _ => some (· == ',')) 0 {} "a,bc,d".toList; o.first.plus (fun _ => some (· == ',')) 1) = ok it ∧
    it.asString = "bc".toList ∧ it.remaining = "bc,d".toList := ⟨⟨0, {}, "a,bc,d".toList, ⟨(2, 5), (2, 4), false⟩⟩, by rfl, by rfl, by rfl⟩

end Strtk.Split
