import Verif.Grid.Props

/-!
# The buffers of a token_grid: constructors, load, clear, destructor (C108)

A token is a pair of pointers; the grid holds pointers into a buffer that it either allocated (after reading a file) or got from the caller.
-/

namespace Strtk.Grid
open Outcome Split

variable {α : Type}

/-- `token_grid::options` (5489-5544) without double quote support: how columns are split, the row and the column delimiters. -/
structure Opts (α : Type) where
  opt : Split.Opt
  dr : α → Bool
  dc : α → Bool

/-- The memory: `heap b` is the content of the live buffer `b`; buffers from `next` on have never been used; `users` are the buffers of the caller, in the order
of their allocation. -/
structure World (α : Type) where
  heap : Nat → Option (List α)
  next : Nat
  users : List Nat

/-- The data members (7602-7610).  `src` records which buffer the pointers of the token list go into; `file_name_` and `buffer_size_` are left out. -/
structure Obj where
  grid : Grid (Nat × Nat)
  src : Option Nat
  buffer : Option Nat
  fromFile : Bool
  state : Bool

/-- The default constructor (6298-6306). -/
def Obj.new : Obj := ⟨⟨⟨[], []⟩, 0, 0⟩, none, none, false, false⟩

/-- `new unsigned char[n]`, filled with `s`. -/
def World.alloc (w : World α) (s : List α) : World α := { w with heap := fun b => if b = w.next then some s else w.heap b, next := w.next + 1 }

/-- `delete[] p`: nothing for a null pointer, undefined for a buffer that is not live. -/
def World.delete (w : World α) : Option Nat → Outcome (World α)
  | none => ok w
  | some b => match w.heap b with
    | some _ => ok { w with heap := fun c => if c = b then none else w.heap c }
    | none => ub

/-- `if (load_from_file_ && buffer_) { delete[] buffer_; buffer_ = 0; }` (6428-6432, 7334-7338, 7353-7357, 7369-7373, 7389-7393). -/
def release (w : World α) (o : Obj) : Outcome (World α × Obj) :=
  if o.fromFile && o.buffer.isSome then do
    let w ← w.delete o.buffer
    ok (w, { o with buffer := none })
  else ok (w, o)

/-- `load()` (7475-7526) once the buffer is there. -/
def loadText (p : Opts α) (w : World α) (o : Obj) : Outcome (World α × Obj) := do
  let g ← match o.buffer.bind w.heap with
    | some s => load p.opt p.dr p.dc s
    | none => ub
  ok (w, { o with grid := g, src := o.buffer, state := true })

/-- `load(file_name,options)` (7329-7361, 7477-7478, 7528-7547); `file` is the content of the file, `none` if it cannot be opened.  Reading errors are left out. -/
def loadFile (p : Opts α) (file : Option (List α)) (w : World α) (o : Obj) : Outcome (Bool × World α × Obj) := do
  let (w, o) ← release w o
  let o := { o with grid := { o.grid with minCol := 0, maxCol := 0 }, fromFile := true }
  match file with
  | some (c :: s) =>
    let b := w.next
    let (w, o) ← loadText p (w.alloc (c :: s)) { o with buffer := some b }
    ok (true, w, o)
  | _ =>
    let (w, o) ← release w { o with state := false }
    ok (false, w, o)

/-- `load(buffer,buffer_size,options)` (7363-7397) with a whole buffer. -/
def loadBuffer (p : Opts α) (b : Nat) (w : World α) (o : Obj) : Outcome (Bool × World α × Obj) := do
  let (w, o) ← release w o
  let (w, o) ← loadText p w { o with fromFile := false, buffer := some b }
  ok (true, w, o)

/-- `if (load_from_file_ || force_delete_buffer) delete[] buffer_` (6897-6898). -/
def deleteIf (c : Bool) (w : World α) (b : Option Nat) : Outcome (World α) := if c then w.delete b else ok w

/-- `clear(force_delete_buffer)` (6895-6907). -/
def clear (force : Bool) (w : World α) (o : Obj) : Outcome (World α × Obj) := do
  let w ← deleteIf (o.fromFile || force) w o.buffer
  ok (w, { o with grid := ⟨⟨[], []⟩, 0, 0⟩, src := none, buffer := none, state := false })

/-- The destructor (6426-6433). -/
def destroy (w : World α) (o : Obj) : Outcome (World α) := do
  let (w, _) ← release w o
  ok w

/-- The text of the token `token(row,col)`: reading through a pointer into a buffer that is no longer live is undefined. -/
def readToken (w : World α) (o : Obj) (row col : Nat) : Outcome (Option (List α)) := do
  let t ← o.grid.token row col
  match t with
  | none => ok none
  | some t => match o.src.bind w.heap with
    | some s => ok (some (textOf s t))
    | none => ub

/-- What the caller does.  `provide` allocates a buffer of its own; `loadBuffer k` hands over the `k`-th of them. -/
inductive Act (α : Type) where
  | provide (s : List α)
  | loadFile (p : Opts α) (file : Option (List α))
  | loadBuffer (p : Opts α) (k : Nat)
  | clear

/-- One action. -/
def Act.run : Act α → World α × Obj → Outcome (World α × Obj)
  | .provide s, (w, o) => ok ({ w.alloc s with users := w.users ++ [w.next] }, o)
  | .loadFile p f, (w, o) => do
    let (_, w, o) ← Grid.loadFile p f w o
    ok (w, o)
  | .loadBuffer p k, (w, o) => do
    let b ← deref w.users k
    let (_, w, o) ← Grid.loadBuffer p b w o
    ok (w, o)
  | .clear, (w, o) => Grid.clear false w o

/-- A history of actions. -/
def runActs : List (Act α) → World α × Obj → Outcome (World α × Obj)
  | [], s => ok s
  | a :: as, s => do
    let s ← a.run s
    runActs as s

/-! ## What the caller expects -/

/-- The texts of the caller's buffers, and what the grid shows: the options and the text loaded last, nothing at first, after `clear` and after a failed load. -/
structure Expect (α : Type) where
  texts : List (List α)
  shown : Option (Opts α × List α)

/-- The effect of an action. -/
def Act.expect (e : Expect α) : Act α → Expect α
  | .provide s => { e with texts := e.texts ++ [s] }
  | .loadFile p (some (c :: s)) => { e with shown := some (p, c :: s) }
  | .loadFile _ _ => { e with shown := none }
  | .loadBuffer p k => { e with shown := (e.texts[k]?).map fun s => (p, s) }
  | .clear => { e with shown := none }

/-- The file loads succeed, the buffers exist, and the texts are shorter than `2^32 - 1`. -/
def Act.Good (e : Expect α) : Act α → Prop
  | .provide s => s.length + 1 < 2 ^ 32
  | .loadFile _ f => ∃ c s, f = some (c :: s) ∧ (c :: s).length + 1 < 2 ^ 32
  | .loadBuffer _ k => k < e.texts.length
  | .clear => True

/-- Every action of a history is good when its turn comes. -/
def AllGood : List (Act α) → Expect α → Prop
  | [], _ => True
  | a :: as, e => a.Good e ∧ AllGood as (a.expect e)

/-- The grid shows the rows of a text: one row for every non-empty line, with the tokens of the line. -/
def Displays (w : World α) (o : Obj) : Option (Opts α × List α) → Prop
  | none => o.grid.rowCount = 0 ∧ o.state = false ∧ ∀ row col, readToken w o row col = ok none
  | some (p, s) => o.state = true ∧ ∃ rows : List (List (List α)), List.Forall₂ (RowTokens p.opt p.dc) ((s.splitOnP p.dr).filter fun l => !l.isEmpty) rows ∧
      o.grid.rowCount = rows.length ∧ ∀ row col, readToken w o row col = ok (rows[row]?.bind fun r => r[col]?)

/-! ## The invariant -/

/-- Buffers owned by the grid. -/
def Obj.owned (o : Obj) : List Nat := if o.fromFile then o.buffer.toList else []

/-- State of memory and grid after a history with expectation `e`. -/
structure Inv (w : World α) (o : Obj) (e : Expect α) : Prop where
  fresh : ∀ b, w.next ≤ b → w.heap b = none
  users : w.users.map w.heap = e.texts.map some
  owned_live : ∀ b ∈ o.owned, ∃ s, w.heap b = some s
  apart : ∀ b ∈ o.owned, b ∉ w.users
  no_leak : ∀ b s, w.heap b = some s → b ∈ w.users ∨ b ∈ o.owned
  small : ∀ s ∈ e.texts, s.length + 1 < 2 ^ 32
  nothing : e.shown = none → o.grid = ⟨⟨[], []⟩, o.grid.minCol, o.grid.maxCol⟩ ∧ o.state = false
  shown : ∀ p s, e.shown = some (p, s) → s.length + 1 < 2 ^ 32 ∧ load p.opt p.dr p.dc s = ok o.grid ∧ o.state = true ∧ ∃ b, o.src = some b ∧ w.heap b = some s

theorem Inv.init : Inv (⟨fun _ => none, 0, []⟩ : World α) Obj.new ⟨[], none⟩ :=
  { fresh := fun _ _ => rfl
    users := rfl
    owned_live := fun b hb => by simp [Obj.owned, Obj.new] at hb
    apart := fun b hb => by simp [Obj.owned, Obj.new] at hb
    no_leak := fun b s h => by cases h
    small := fun s h => by cases h
    nothing := fun _ => ⟨rfl, rfl⟩
    shown := fun p s h => by cases h }

theorem Inv.user_live {w : World α} {o : Obj} {e : Expect α} (h : Inv w o e) (k b : Nat) (hb : w.users[k]? = some b) : w.heap b = e.texts[k]? := by
  have := congrArg (fun l => l[k]?) h.users
  simp only [List.getElem?_map, hb, Option.map_some] at this
  cases ht : e.texts[k]? with
  | none => rw [ht] at this; cases this
  | some s => rw [ht] at this; simpa using this

theorem Inv.user_lt {w : World α} {o : Obj} {e : Expect α} (h : Inv w o e) (b : Nat) (hb : b ∈ w.users) : b < w.next := by
  obtain ⟨k, hk, rfl⟩ := List.getElem_of_mem hb
  have hlen : w.users.length = e.texts.length := by simpa using congrArg List.length h.users
  have hl := h.user_live k _ (List.getElem?_eq_getElem hk)
  rcases Nat.lt_or_ge w.users[k] w.next with hlt | hge
  · exact hlt
  · rw [h.fresh _ hge, List.getElem?_eq_getElem (by omega)] at hl; cases hl

/-- After `release` only the caller's buffers are live, and the grid holds none of its own. -/
theorem Inv.release {w : World α} {o : Obj} {e : Expect α} (h : Inv w o e) :
    ∃ w' o', Grid.release w o = ok (w', o') ∧ w'.next = w.next ∧ w'.users = w.users ∧ (∀ b ∈ w.users, w'.heap b = w.heap b) ∧
      (∀ b, w.next ≤ b → w'.heap b = none) ∧ (∀ b s, w'.heap b = some s → b ∈ w.users) ∧ o'.grid = o.grid ∧ o'.fromFile = o.fromFile ∧
      o'.state = o.state ∧ o'.src = o.src ∧ (o.fromFile = true → o'.buffer = none) := by
  unfold Grid.release
  by_cases hf : (o.fromFile && o.buffer.isSome) = true
  · rw [if_pos hf]
    simp only [Bool.and_eq_true] at hf
    obtain ⟨hf, hb⟩ := hf
    obtain ⟨b, hb⟩ := Option.isSome_iff_exists.mp hb
    have hmem : b ∈ o.owned := by simp [Obj.owned, hf, hb]
    obtain ⟨s, hs⟩ := h.owned_live b hmem
    refine ⟨{ w with heap := fun c => if c = b then none else w.heap c }, { o with buffer := none }, ?_, rfl, rfl, ?_, ?_, ?_, rfl, rfl, rfl, rfl, fun _ => rfl⟩
    · rw [hb]
      simp only [World.delete, hs, ok_bind]
    · intro c hc
      have : c ≠ b := fun hh => h.apart b hmem (hh ▸ hc)
      simp [this]
    · intro c hc
      simp only
      split
      · rfl
      · exact h.fresh c hc
    · intro c t hc
      simp only at hc
      split at hc
      · cases hc
      · rename_i hne
        rcases h.no_leak c t hc with hu | ho
        · exact hu
        · simp [Obj.owned, hf, hb] at ho
          exact absurd ho hne
  · rw [if_neg hf]
    refine ⟨w, o, rfl, rfl, rfl, fun _ _ => rfl, h.fresh, ?_, rfl, rfl, rfl, rfl, ?_⟩
    · intro b s hb
      rcases h.no_leak b s hb with hu | ho
      · exact hu
      · exfalso
        apply hf
        unfold Obj.owned at ho
        split at ho
        · rename_i hff
          cases hbb : o.buffer with
          | none => rw [hbb] at ho; simp at ho
          | some c => simp [hff]
        · cases ho
    · intro hff
      cases hbb : o.buffer with
      | none => rfl
      | some c => exfalso; apply hf; simp [hff, hbb]

theorem map_heap_eq {w w' : World α} (l : List Nat) (h : ∀ b ∈ l, w'.heap b = w.heap b) : l.map w'.heap = l.map w.heap := List.map_congr_left h

theorem Act.run_spec (a : Act α) (w : World α) (o : Obj) (e : Expect α) (h : Inv w o e) (hg : a.Good e) :
    ∃ w' o', a.run (w, o) = ok (w', o') ∧ Inv w' o' (a.expect e) := by
  cases a with
  | provide s =>
    refine ⟨_, _, rfl, ?_⟩
    have hnu : w.next ∉ w.users := fun hh => Nat.lt_irrefl _ (h.user_lt _ hh)
    have hkeep : ∀ b t, w.heap b = some t → b ≠ w.next := by
      intro b t hb hh
      rw [hh, h.fresh _ (Nat.le_refl _)] at hb
      cases hb
    have hother : ∀ b, b ≠ w.next → (w.alloc s).heap b = w.heap b := fun b hb => by simp [World.alloc, hb]
    refine ⟨?_, ?_, ?_, ?_, ?_, ?_, ?_, ?_⟩
    · intro b hb
      have hb : w.next + 1 ≤ b := hb
      show (w.alloc s).heap b = none
      rw [hother b (by omega)]
      exact h.fresh b (by omega)
    · show (w.users ++ [w.next]).map (w.alloc s).heap = (e.texts ++ [s]).map some
      rw [List.map_append, List.map_append, ← h.users]
      congr 1
      · exact List.map_congr_left fun b hb => hother b (fun hh => hnu (hh ▸ hb))
      · simp [World.alloc]
    · intro b hb
      obtain ⟨t, ht⟩ := h.owned_live b hb
      exact ⟨t, by rw [← ht]; exact hother b (hkeep b t ht)⟩
    · intro b hb
      obtain ⟨t, ht⟩ := h.owned_live b hb
      have := h.apart b hb
      simp only [List.mem_append, List.mem_singleton, not_or]
      exact ⟨this, hkeep b t ht⟩
    · intro b t hb
      have hb : (w.alloc s).heap b = some t := hb
      by_cases hbn : b = w.next
      · left; simp [hbn]
      · rw [hother b hbn] at hb
        rcases h.no_leak b t hb with hu | ho
        · left; simp [hu]
        · right; exact ho
    · intro t ht
      have ht : t ∈ e.texts ++ [s] := ht
      rcases List.mem_append.mp ht with ht | ht
      · exact h.small t ht
      · rw [List.mem_singleton.mp ht]; exact hg
    · intro hn; exact h.nothing hn
    · intro p t hs
      obtain ⟨h1, h2, h3, b, h4, h5⟩ := h.shown p t hs
      exact ⟨h1, h2, h3, b, h4, by rw [← h5]; exact hother b (hkeep b t h5)⟩
  | loadFile p f =>
    obtain ⟨c, s, rfl, hsm⟩ := hg
    obtain ⟨w1, o1, r1, r2, r3, r4, r5, r6, r7, r8, r9, r10, r11⟩ := h.release
    obtain ⟨g, rows, l1, _⟩ := C60_load p.opt p.dr p.dc (c :: s) hsm
    have hnu : w.next ∉ w.users := fun hh => Nat.lt_irrefl _ (h.user_lt _ hh)
    have hself : (w1.alloc (c :: s)).heap w1.next = some (c :: s) := by simp [World.alloc]
    have hother : ∀ b, b ≠ w1.next → (w1.alloc (c :: s)).heap b = w1.heap b := fun b hb => by simp [World.alloc, hb]
    refine ⟨w1.alloc (c :: s), { o1 with grid := g, fromFile := true, buffer := some w1.next, src := some w1.next, state := true }, ?_, ?_⟩
    · simp only [Act.run, Grid.loadFile, loadText]
      rw [r1]
      simp only [ok_bind, Option.bind_some, hself, l1]
    · refine ⟨?_, ?_, ?_, ?_, ?_, ?_, ?_, ?_⟩
      · intro b hb
        have hb : w1.next + 1 ≤ b := hb
        rw [hother b (by omega)]
        exact r5 b (by omega)
      · show (w1.users).map (w1.alloc (c :: s)).heap = _
        rw [r3]
        have : (Act.expect e (.loadFile p (some (c :: s)))).texts = e.texts := rfl
        rw [this, ← h.users]
        refine List.map_congr_left fun b hb => ?_
        rw [hother b (fun hh => hnu (by rw [← r2, ← hh]; exact hb)), r4 b hb]
      · intro b hb
        simp [Obj.owned] at hb
        exact ⟨_, by rw [hb]; exact hself⟩
      · intro b hb
        simp [Obj.owned] at hb
        show b ∉ w1.users
        rw [r3, hb, r2]
        exact hnu
      · intro b t hb
        by_cases hbn : b = w1.next
        · right; simp [Obj.owned, hbn]
        · rw [hother b hbn] at hb
          left
          show b ∈ w1.users
          rw [r3]
          exact r6 b t hb
      · exact h.small
      · intro hn; cases hn
      · intro p' t hs
        cases hs
        exact ⟨hsm, l1, rfl, _, rfl, hself⟩
  | loadBuffer p k =>
    have hk : k < e.texts.length := hg
    obtain ⟨w1, o1, r1, r2, r3, r4, r5, r6, r7, r8, r9, r10, r11⟩ := h.release
    have hlen : w.users.length = e.texts.length := by simpa using congrArg List.length h.users
    have hku : k < w.users.length := by omega
    have hlive := h.user_live k _ (List.getElem?_eq_getElem hku)
    rw [List.getElem?_eq_getElem hk] at hlive
    have hsm := h.small e.texts[k] (by simp)
    obtain ⟨g, rows, l1, _⟩ := C60_load p.opt p.dr p.dc e.texts[k] hsm
    have hlive1 : w1.heap w.users[k] = some e.texts[k] := by rw [r4 _ (by simp), hlive]
    refine ⟨w1, { o1 with grid := g, fromFile := false, buffer := some w.users[k], src := some w.users[k], state := true }, ?_, ?_⟩
    · simp only [Act.run, Grid.loadBuffer, loadText]
      rw [deref_eq_ok hku, ok_bind, r1]
      simp only [ok_bind, Option.bind_some, hlive1, l1]
    · refine ⟨?_, ?_, ?_, ?_, ?_, ?_, ?_, ?_⟩
      · intro b hb
        exact r5 b (by omega)
      · show (w1.users).map w1.heap = _
        rw [r3]
        have : (Act.expect e (.loadBuffer p k)).texts = e.texts := rfl
        rw [this, ← h.users]
        exact map_heap_eq _ r4
      · intro b hb; simp [Obj.owned] at hb
      · intro b hb; simp [Obj.owned] at hb
      · intro b t hb
        left
        rw [r3]
        exact r6 b t hb
      · exact h.small
      · intro hn
        simp [Act.expect, hk] at hn
      · intro p' t hs
        simp only [Act.expect, List.getElem?_eq_getElem hk, Option.map_some, Option.some.injEq, Prod.mk.injEq] at hs
        obtain ⟨rfl, rfl⟩ := hs
        exact ⟨hsm, l1, rfl, _, rfl, hlive1⟩
  | clear =>
    obtain ⟨w1, o1, r1, r2, r3, r4, r5, r6, r7, r8, r9, r10, r11⟩ := h.release
    have hd : deleteIf (o.fromFile || false) w o.buffer = ok w1 := by
      rw [Bool.or_false]
      unfold deleteIf
      unfold Grid.release at r1
      cases hf : o.fromFile with
      | false =>
        rw [if_neg (by simp)]
        rw [hf] at r1
        simp at r1
        rw [r1.1]
      | true =>
        rw [if_pos rfl]
        rw [hf] at r1
        cases hb : o.buffer with
        | none => rw [hb] at r1; simp at r1; rw [← r1.1]; rfl
        | some b =>
          rw [hb] at r1
          simp only [Option.isSome_some, Bool.and_self, if_true] at r1
          cases hdel : w.delete (some b) with
          | ok w2 => rw [hdel] at r1; simp at r1; rw [r1.1]
          | ub => rw [hdel] at r1; cases r1
          | thrown => rw [hdel] at r1; cases r1
          | diverge => rw [hdel] at r1; cases r1
    refine ⟨w1, { o with grid := ⟨⟨[], []⟩, 0, 0⟩, src := none, buffer := none, state := false }, ?_, ?_⟩
    · simp only [Act.run, Grid.clear]
      rw [hd, ok_bind]
    · refine ⟨?_, ?_, ?_, ?_, ?_, ?_, ?_, ?_⟩
      · intro b hb
        exact r5 b (by omega)
      · show (w1.users).map w1.heap = _
        rw [r3]
        have : (Act.expect e .clear).texts = e.texts := rfl
        rw [this, ← h.users]
        exact map_heap_eq _ r4
      · intro b hb; simp [Obj.owned] at hb
      · intro b hb; simp [Obj.owned] at hb
      · intro b t hb
        left
        rw [r3]
        exact r6 b t hb
      · exact h.small
      · intro _; exact ⟨rfl, rfl⟩
      · intro p' t hs; cases hs

theorem runActs_spec (as : List (Act α)) : ∀ (w : World α) (o : Obj) (e : Expect α), Inv w o e → AllGood as e →
    ∃ w' o', runActs as (w, o) = ok (w', o') ∧ Inv w' o' (as.foldl Act.expect e) := by
  induction as with
  | nil => intro w o e h _; exact ⟨w, o, rfl, h⟩
  | cons a as ih =>
    intro w o e h hg
    obtain ⟨w1, o1, h1, h2⟩ := a.run_spec w o e h hg.1
    obtain ⟨w2, o2, h3, h4⟩ := ih w1 o1 _ h2 hg.2
    refine ⟨w2, o2, ?_, h4⟩
    simp only [runActs]
    rw [h1, ok_bind, h3]

theorem Inv.shows {w : World α} {o : Obj} {e : Expect α} (h : Inv w o e) : Displays w o e.shown := by
  cases he : e.shown with
  | none =>
    obtain ⟨h1, h2⟩ := h.nothing he
    refine ⟨by rw [h1]; rfl, h2, fun row col => ?_⟩
    unfold readToken
    rw [h1]
    simp [Grid.token]
  | some ps =>
    obtain ⟨p, s⟩ := ps
    obtain ⟨h1, h2, h3, b, h4, h5⟩ := h.shown p s he
    obtain ⟨g, rows, l1, l2, _, _, l5⟩ := C60_load p.opt p.dr p.dc s h1
    rw [h2] at l1
    cases l1
    obtain ⟨hc, ht⟩ := C60_rep_shows _ _ l2
    refine ⟨h3, _, l5, by rw [hc]; simp, fun row col => ?_⟩
    unfold readToken
    rw [ht, ok_bind]
    cases hr : rows[row]? with
    | none => simp [hr]
    | some r =>
      cases hcol : r[col]? with
      | none => simp [hr, hcol]
      | some t => simp [hr, hcol, h4, h5]

/-! ## C108 -/

/-- Any history of loads and clears in which the loaded files can be read and are not empty: the grid shows the text loaded last and reading its tokens is
defined; the caller's buffers are live and unchanged; after destruction nothing but them is live.  Missing for C108: loads that fail
(`C108_failed_load_frees_callers_buffer`, `C108_failed_load_dangles`). -/
theorem C108_history_partial (as : List (Act α)) (hg : AllGood as ⟨[], none⟩) :
    ∃ w o, runActs as (⟨fun _ => none, 0, []⟩, Obj.new) = ok (w, o) ∧ Displays w o (as.foldl Act.expect ⟨[], none⟩).shown ∧
      w.users.map w.heap = (as.foldl Act.expect ⟨[], none⟩).texts.map some ∧
      ∃ w', destroy w o = ok w' ∧ w'.users = w.users ∧ (∀ b ∈ w.users, w'.heap b = w.heap b) ∧ ∀ b, b ∉ w.users → w'.heap b = none := by
  obtain ⟨w, o, h1, h2⟩ := runActs_spec as _ _ _ Inv.init hg
  obtain ⟨w1, o1, r1, r2, r3, r4, r5, r6, _⟩ := h2.release
  refine ⟨w, o, h1, h2.shows, h2.users, w1, ?_, r3, r4, ?_⟩
  · unfold destroy
    rw [r1, ok_bind]
  · intro b hb
    cases hh : w1.heap b with
    | none => rfl
    | some s => exact absurd (r6 b s hh) hb

/-- A grid that shows a buffer of the caller, then a file that cannot be read or is empty: `load` returns `false` after deleting the caller's buffer. -/
theorem C108_failed_load_frees_callers_buffer (p q : Opts α) (w : World α) (o : Obj) (b : Nat) (s : List α) (hb : w.heap b = some s)
    (ho : o.fromFile = false) (hsm : s.length + 1 < 2 ^ 32) (file : Option (List α)) (hf : file = none ∨ file = some []) :
    ∃ w1 o1 w2 o2, loadBuffer p b w o = ok (true, w1, o1) ∧ loadFile q file w1 o1 = ok (false, w2, o2) ∧ w1.heap b = some s ∧ w2.heap b = none := by
  obtain ⟨g, rows, l1, _⟩ := C60_load p.opt p.dr p.dc s hsm
  have e1 : loadBuffer p b w o = ok (true, w, { o with grid := g, fromFile := false, buffer := some b, src := some b, state := true }) := by
    simp only [loadBuffer, release, ho, Bool.false_and, loadText]
    simp [hb, l1]
  refine ⟨_, _, { w with heap := fun c => if c = b then none else w.heap c }, ⟨{ g with minCol := 0, maxCol := 0 }, some b, none, true, false⟩, e1, ?_, hb, by simp⟩
  rcases hf with rfl | rfl <;> simp [loadFile, release, World.delete, hb]

/-- A grid loaded from a file, then a file that cannot be read or is empty: `load` returns `false`, but the grid still has the rows of the first file, and
reading any of its tokens goes through a pointer into a deleted buffer. -/
theorem C108_failed_load_dangles (p q : Opts α) (w : World α) (o : Obj) (c : α) (s : List α) (ho : o.fromFile = false) (hsm : (c :: s).length + 1 < 2 ^ 32)
    (file : Option (List α)) (hf : file = none ∨ file = some []) :
    ∃ w1 o1 w2 o2, loadFile p (some (c :: s)) w o = ok (true, w1, o1) ∧ loadFile q file w1 o1 = ok (false, w2, o2) ∧ o2.state = false ∧
      o2.grid.rowCount = o1.grid.rowCount ∧ ∀ row col t, readToken w1 o1 row col = ok (some t) → readToken w2 o2 row col = ub := by
  obtain ⟨g, rows, l1, l2, _⟩ := C60_load p.opt p.dr p.dc (c :: s) hsm
  have hself : (w.alloc (c :: s)).heap w.next = some (c :: s) := by simp [World.alloc]
  have e1 : loadFile p (some (c :: s)) w o = ok (true, w.alloc (c :: s), ⟨g, some w.next, some w.next, true, true⟩) := by
    simp only [loadFile, release, ho, Bool.false_and, loadText]
    simp [hself, l1]
  refine ⟨_, _, { w.alloc (c :: s) with heap := fun d => if d = w.next then none else (w.alloc (c :: s)).heap d },
    ⟨{ g with minCol := 0, maxCol := 0 }, some w.next, none, true, false⟩, e1, ?_, rfl, rfl, ?_⟩
  · rcases hf with rfl | rfl <;> simp [loadFile, release, World.delete, hself]
  · intro row col t ht
    unfold readToken at ht ⊢
    have hg : ({ g with minCol := 0, maxCol := 0 } : Grid (Nat × Nat)).token row col = g.token row col := rfl
    simp only [hg]
    have hh := (C60_rep_shows _ _ l2).2 row col
    simp only [hh, ok_bind] at ht ⊢
    cases hr : (rows[row]?.bind fun r => r[col]?) with
    | none => rw [hr] at ht; cases ht
    | some t => simp

/-- `load(file_name,options)` (7329-7345, 7528-7542) of a non-empty file for which `new` throws: `state_` and the rows are as they were. -/
def loadFileThrows (w : World α) (o : Obj) : Outcome (World α × Obj) := do
  let (w, o) ← release w o
  ok (w, { o with grid := { o.grid with minCol := 0, maxCol := 0 }, fromFile := true })

/-- A grid that shows a buffer of the caller, then a file for which there is no memory: the destructor deletes the caller's buffer. -/
theorem C108_no_memory_frees_callers_buffer (p : Opts α) (w : World α) (o : Obj) (b : Nat) (s : List α) (hb : w.heap b = some s)
    (ho : o.fromFile = false) (hsm : s.length + 1 < 2 ^ 32) :
    ∃ w1 o1 w2 o2 w3, loadBuffer p b w o = ok (true, w1, o1) ∧ loadFileThrows w1 o1 = ok (w2, o2) ∧ w2.heap b = some s ∧ destroy w2 o2 = ok w3 ∧ w3.heap b = none := by
  obtain ⟨g, rows, l1, _⟩ := C60_load p.opt p.dr p.dc s hsm
  have e1 : loadBuffer p b w o = ok (true, w, { o with grid := g, fromFile := false, buffer := some b, src := some b, state := true }) := by
    simp only [loadBuffer, release, ho, Bool.false_and, loadText]
    simp [hb, l1]
  refine ⟨_, _, w, ⟨{ g with minCol := 0, maxCol := 0 }, some b, some b, true, true⟩, { w with heap := fun c => if c = b then none else w.heap c }, e1, ?_, hb, ?_, by simp⟩
  · simp [loadFileThrows, release]
  · simp [destroy, release, World.delete, hb]

/-- A grid loaded from a file, then a file for which there is no memory: the grid still calls itself loaded and has the rows of the first file, and reading any of
its tokens goes through a pointer into a deleted buffer. -/
theorem C108_no_memory_dangles (p : Opts α) (w : World α) (o : Obj) (c : α) (s : List α) (ho : o.fromFile = false) (hsm : (c :: s).length + 1 < 2 ^ 32) :
    ∃ w1 o1 w2 o2, loadFile p (some (c :: s)) w o = ok (true, w1, o1) ∧ loadFileThrows w1 o1 = ok (w2, o2) ∧ o2.state = true ∧
      o2.grid.rowCount = o1.grid.rowCount ∧ ∀ row col t, readToken w1 o1 row col = ok (some t) → readToken w2 o2 row col = ub := by
  obtain ⟨g, rows, l1, l2, _⟩ := C60_load p.opt p.dr p.dc (c :: s) hsm
  have hself : (w.alloc (c :: s)).heap w.next = some (c :: s) := by simp [World.alloc]
  have e1 : loadFile p (some (c :: s)) w o = ok (true, w.alloc (c :: s), ⟨g, some w.next, some w.next, true, true⟩) := by
    simp only [loadFile, release, ho, Bool.false_and, loadText]
    simp [hself, l1]
  refine ⟨_, _, { w.alloc (c :: s) with heap := fun d => if d = w.next then none else (w.alloc (c :: s)).heap d },
    ⟨{ g with minCol := 0, maxCol := 0 }, some w.next, none, true, true⟩, e1, ?_, rfl, rfl, ?_⟩
  · simp [loadFileThrows, release, World.delete, hself]
  · intro row col t ht
    unfold readToken at ht ⊢
    have hg : ({ g with minCol := 0, maxCol := 0 } : Grid (Nat × Nat)).token row col = g.token row col := rfl
    simp only [hg]
    have hh := (C60_rep_shows _ _ l2).2 row col
    simp only [hh, ok_bind] at ht ⊢
    cases hr : (rows[row]?.bind fun r => r[col]?) with
    | none => rw [hr] at ht; cases ht
    | some t => simp

/-- A file, a buffer of the caller, `clear`, and another file. -/
example : AllGood [.loadFile ⟨{}, (· == '\n'), (· == ',')⟩ (some "a,b\n".toList), .provide "x\ny".toList, .loadBuffer ⟨{}, (· == '\n'), (· == ',')⟩ 0, .clear,
    .loadFile ⟨{}, (· == '\n'), (· == ',')⟩ (some "c".toList)] ⟨[], none⟩ :=
  ⟨⟨_, _, rfl, by decide⟩, (by decide : (3 : Nat) + 1 < 2 ^ 32), (by decide : 0 < 1), trivial, ⟨_, _, rfl, by decide⟩, trivial⟩

end Strtk.Grid
