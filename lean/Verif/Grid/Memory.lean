import Verif.Grid.Life

/-!
# A token_grid when memory runs out (strtk.hpp 5439-5457, 6308-6433, 7329-7397, 7475-7547)

Requests for memory that may throw `std::bad_alloc`: the buffer for the content of a file (7542) and the growth of the two lists of the index while a text is split.  The copies of the
file name and the options (7332, 7343) are taken not to throw.
-/

namespace Strtk.Grid
open Outcome Split

variable {α : Type}

/-- `row_processor::operator()` (5439-5457) when only `n` more `push_back`s succeed (`none`: all do): the tokens of the row are appended one by one (5446-5449), then the row (5453).  The
result says whether a `push_back` threw, the lists at that point, and how many more succeed. -/
def processRowB (opt : Opt) (dc : α → Bool) (buf : List α) (st : Store (Nat × Nat)) (n : Option Nat) (r : Nat × Nat) : Outcome (Bool × Store (Nat × Nat) × Option Nat) :=
  if r.2 - r.1 = 0 then ok (false, st, n)
  else do
    let full ← processRow opt dc buf st r
    let pushes := full.tokens.length - st.tokens.length + 1
    match n with
    | none => ok (false, full, none)
    | some n => if n < pushes then ok (true, ⟨full.tokens.take (st.tokens.length + n), st.index⟩, some 0) else ok (false, full, some (n - pushes))

/-- The calls of the row processor, up to the first that throws. -/
def processRowsB (opt : Opt) (dc : α → Bool) (buf : List α) : Store (Nat × Nat) → Option Nat → List (Nat × Nat) → Outcome (Bool × Store (Nat × Nat))
  | st, _, [] => ok (false, st)
  | st, n, r :: rs => do
    let (threw, st, n) ← processRowB opt dc buf st n r
    if threw then ok (true, st) else processRowsB opt dc buf st n rs

/-- `load()` (7480-7525) once the buffer is there; the column counts were set to 0 (7341-7342, 7375-7376) and stay so if it throws. -/
def loadB (opt : Opt) (dr dc : α → Bool) (buf : List α) (n : Option Nat) : Outcome (Bool × Grid (Nat × Nat)) := do
  let (rows, _) ← Split.split { compress := true } dr buf
  let (threw, st) ← processRowsB opt dc buf ⟨[], []⟩ n rows
  if threw then ok (true, ⟨st, 0, 0⟩) else ok (false, updateMinMax st)

/-- How a call ended: it returned, or it threw. -/
inductive Ended where
  | returned (b : Bool)
  | threw
  deriving DecidableEq

/-- `loadText` with exceptions: `state_` is set only when `load()` returns (7345, 7381). -/
def loadTextB (p : Opts α) (n : Option Nat) (w : World α) (o : Obj) : Outcome (Ended × World α × Obj) := do
  let (t, g) ← match o.buffer.bind w.heap with
    | some s => loadB p.opt p.dr p.dc s n
    | none => ub
  if t then ok (.threw, w, { o with grid := g, src := o.buffer })
  else ok (.returned true, w, { o with grid := g, src := o.buffer, state := true })

/-- `load(file_name,options)` (7329-7361): `noBuffer` says that `new` (7542) throws, `n` how many `push_back`s succeed. -/
def loadFileB (p : Opts α) (file : Option (List α)) (noBuffer : Bool) (n : Option Nat) (w : World α) (o : Obj) : Outcome (Ended × World α × Obj) := do
  let (w, o) ← release w o
  let o := { o with grid := { o.grid with minCol := 0, maxCol := 0 }, fromFile := true }
  match file with
  | some (c :: s) =>
    if noBuffer then ok (.threw, w, o)
    else loadTextB p n (w.alloc (c :: s)) { o with buffer := some w.next }
  | _ =>
    let (w, o) ← release w { o with state := false }
    ok (.returned false, w, o)

/-- `load(buffer,buffer_size,options)` (7363-7397). -/
def loadBufferB (p : Opts α) (b : Nat) (n : Option Nat) (w : World α) (o : Obj) : Outcome (Ended × World α × Obj) := do
  let (w, o) ← release w o
  loadTextB p n w { o with fromFile := false, buffer := some b }

/-- The constructor with a file name (6308-6318): the members are destroyed if `load()` throws, but not by the destructor of the class; `buffer_` is a plain pointer. -/
def constructFile (p : Opts α) (file : Option (List α)) (noBuffer : Bool) (n : Option Nat) (w : World α) : Outcome (Option Obj × World α) :=
  let o : Obj := { Obj.new with fromFile := true }
  match file with
  | some (c :: s) =>
    if noBuffer then ok (none, w)
    else do
      let (e, w, o) ← loadTextB p n (w.alloc (c :: s)) { o with buffer := some w.next }
      ok (if e = .threw then none else some o, w)
  | _ => ok (some o, w)

/-- What the caller does, with the failures of memory; exceptions are caught. -/
inductive ActB (α : Type) where
  | provide (s : List α)
  | loadFile (p : Opts α) (file : Option (List α)) (noBuffer : Bool) (n : Option Nat)
  | loadBuffer (p : Opts α) (k : Nat) (n : Option Nat)
  | clear

/-- One action. -/
def ActB.run : ActB α → World α × Obj → Outcome (World α × Obj)
  | .provide s, (w, o) => ok ({ w.alloc s with users := w.users ++ [w.next] }, o)
  | .loadFile p f noBuffer n, (w, o) => do
    let (_, w, o) ← loadFileB p f noBuffer n w o
    ok (w, o)
  | .loadBuffer p k n, (w, o) => do
    let b ← deref w.users k
    let (_, w, o) ← loadBufferB p b n w o
    ok (w, o)
  | .clear, (w, o) => Grid.clear false w o

/-- A history of actions. -/
def runActsB : List (ActB α) → World α × Obj → Outcome (World α × Obj)
  | [], s => ok s
  | a :: as, s => do
    let s ← a.run s
    runActsB as s

/-- Nothing but a fresh grid. -/
def startB : World α × Obj := (⟨fun _ => none, 0, []⟩, Obj.new)

/-! ## Specification -/

/-- What the caller knows: the texts provided, and whether the grid was last given one of the caller's buffers. -/
structure Known (α : Type) where
  texts : List (List α)
  lent : Bool

/-- A file load gets as far as the grid's own buffer. -/
def GetsBuffer (f : Option (List α)) (noBuffer : Bool) : Prop := noBuffer = false ∧ ∃ c s, f = some (c :: s)

/-- The effect of an action. -/
def ActB.known (k : Known α) : ActB α → Known α
  | .provide s => { k with texts := k.texts ++ [s] }
  | .loadFile _ _ _ _ => { k with lent := false }
  | .loadBuffer _ _ _ => { k with lent := true }
  | .clear => { k with lent := false }

/-- Texts are shorter than `2^32 - 1`, and buffers exist.  Files may be missing and any request for memory may fail, except that a file load must get a buffer if the grid still has one of
the caller's. -/
def ActB.Allowed (k : Known α) : ActB α → Prop
  | .provide s => s.length + 1 < 2 ^ 32
  | .loadFile _ f noBuffer _ => (∀ s, f = some s → s.length + 1 < 2 ^ 32) ∧ (k.lent = true → GetsBuffer f noBuffer)
  | .loadBuffer _ i _ => i < k.texts.length
  | .clear => True

/-- A history all actions of which are allowed, and what is known after it. -/
inductive History : List (ActB α) → Known α → Prop where
  | nil : History [] ⟨[], false⟩
  | snoc {as k a} : History as k → a.Allowed k → History (as ++ [a]) (a.known k)

/-- Requests for memory made for an index: one for every token and one for every row. -/
def need {T : Type} (rows : List (List T)) : Nat := rows.flatten.length + rows.length

/-- The grid shows these rows and no others. -/
def Reads (w : World α) (o : Obj) (rows : List (List (List α))) : Prop :=
  o.grid.rowCount = rows.length ∧ ∀ row col, readToken w o row col = ok (rows[row]?.bind fun r => r[col]?)

/-- The end of a load of the text `s` when `n` requests succeed: it returns and all rows are shown, or it throws in row `k`, the first for which memory does not suffice, and the rows before
are shown; then the grid is in the state it was in and both column counts are 0. -/
def LoadEnds (p : Opts α) (s : List α) (n : Option Nat) (e : Ended) (before : Bool) (w : World α) (o : Obj) : Prop :=
  ∃ rows : List (List (List α)), List.Forall₂ (RowTokens p.opt p.dc) ((s.splitOnP p.dr).filter fun l => !l.isEmpty) rows ∧
    (((∀ m, n = some m → need rows ≤ m) ∧ e = .returned true ∧ o.state = true ∧ Reads w o rows) ∨
     (∃ m k, n = some m ∧ k < rows.length ∧ need (rows.take k) ≤ m ∧ m < need (rows.take (k + 1)) ∧ e = .threw ∧ o.state = before ∧ o.grid.minCol = 0 ∧ o.grid.maxCol = 0 ∧
       Reads w o (rows.take k)))

/-! ## Partial loads -/

/-- All rows of a text, or the first `k` of them with further tokens that belong to no row. -/
theorem processRowsB_spec (opt : Opt) (dc : α → Bool) (buf : List α) : ∀ (rs : List (Nat × Nat)) (rows : List (List (Nat × Nat))),
    (∀ r ∈ rs, r.2 ≤ buf.length) → rows.flatten.length + ((rs.map (textOf buf)).map fun w => w.length + 1).sum < 2 ^ 32 →
    ∃ new, (processRows opt dc buf ⟨rows.flatten, idx 0 rows⟩ rs = ok ⟨(rows ++ new).flatten, idx 0 (rows ++ new)⟩ ∧ (∀ r ∈ new, r ≠ []) ∧
        (rows ++ new).flatten.length < 2 ^ 32 ∧ (∀ r ∈ new, ∀ t ∈ r, t.1 ≤ t.2 ∧ t.2 ≤ buf.length) ∧
        List.Forall₂ (RowTokens opt dc) ((rs.map (textOf buf)).filter fun w => !w.isEmpty) (new.map fun row => row.map (textOf buf))) ∧
      processRowsB opt dc buf ⟨rows.flatten, idx 0 rows⟩ none rs = ok (false, ⟨(rows ++ new).flatten, idx 0 (rows ++ new)⟩) ∧
      ∀ n, (processRowsB opt dc buf ⟨rows.flatten, idx 0 rows⟩ (some n) rs = ok (false, ⟨(rows ++ new).flatten, idx 0 (rows ++ new)⟩) ∧
          new.flatten.length + new.length ≤ n) ∨
        (∃ k extra, k < new.length ∧ (new.take k).flatten.length + (new.take k).length ≤ n ∧ n < (new.take (k + 1)).flatten.length + (new.take (k + 1)).length ∧
          processRowsB opt dc buf ⟨rows.flatten, idx 0 rows⟩ (some n) rs = ok (true, ⟨(rows ++ new.take k).flatten ++ extra, idx 0 (rows ++ new.take k)⟩)) := by
  intro rs
  induction rs with
  | nil => intro rows _ h; exact ⟨[], ⟨by simp [processRows], by simp, by simpa using h, by simp, by simp⟩, by simp [processRowsB], fun n => Or.inl ⟨by simp [processRowsB], by simp⟩⟩
  | cons r rs ih =>
    intro rows h1 h2
    simp only [List.map_cons, List.sum_cons] at h2
    have hlen : (textOf buf r).length = r.2 - r.1 := by have := h1 r (by simp); unfold textOf; simp; omega
    by_cases hw : textOf buf r = []
    · obtain ⟨new, ⟨n1, m2, m3, m4, m5⟩, n2, n3⟩ := ih rows (fun x hx => h1 x (by simp [hx])) (by omega)
      rw [hw] at hlen
      simp only [List.length_nil] at hlen
      have e1 : ∀ n, processRowB opt dc buf ⟨rows.flatten, idx 0 rows⟩ n r = ok (false, ⟨rows.flatten, idx 0 rows⟩, n) := by
        intro n; unfold processRowB; rw [if_pos hlen.symm]
      have e2 : ∀ n, processRowsB opt dc buf ⟨rows.flatten, idx 0 rows⟩ n (r :: rs) = processRowsB opt dc buf ⟨rows.flatten, idx 0 rows⟩ n rs := by
        intro n; rw [processRowsB, e1, ok_bind]; rfl
      refine ⟨new, ⟨?_, m2, m3, m4, by simpa [hw] using m5⟩, by rw [e2]; exact n2, fun n => by rw [e2]; exact n3 n⟩
      rw [processRows, processRow, if_pos hlen.symm, ok_bind, n1]
    · obtain ⟨row, p1, p2, p3, p4, p5⟩ := processRow_spec opt dc buf rows r (h1 r (by simp)) hw (by omega)
      obtain ⟨new, ⟨n1, m2, m3, m4, m5⟩, n2, n3⟩ := ih (rows ++ [row]) (fun x hx => h1 x (by simp [hx])) (by
        rw [List.flatten_append, List.length_append]
        simp only [List.flatten_cons, List.flatten_nil, List.append_nil]
        omega)
      have hne : ¬ r.2 - r.1 = 0 := by
        have := List.length_pos_iff.mpr hw
        omega
      have eassoc : rows ++ [row] ++ new = rows ++ row :: new := by simp
      have hfl : (rows ++ [row]).flatten.length - rows.flatten.length + 1 = row.length + 1 := by simp
      refine ⟨row :: new, ⟨?_, ?_, ?_, ?_, ?_⟩, ?_, fun n => ?_⟩
      · rw [processRows, p1, ok_bind, n1, eassoc]
      · intro x hx
        rcases List.mem_cons.mp hx with rfl | hx
        · exact p2
        · exact m2 x hx
      · rw [eassoc] at m3; exact m3
      · intro x hx
        rcases List.mem_cons.mp hx with rfl | hx
        · exact p4
        · exact m4 x hx
      · have he : (textOf buf r).isEmpty = false := by cases h : textOf buf r with | nil => exact absurd h hw | cons _ _ => rfl
        simp only [List.map_cons, List.filter_cons, he]
        exact List.Forall₂.cons p5 m5
      · rw [processRowsB, processRowB, if_neg hne, p1, ok_bind]
        simp only [ok_bind, Bool.false_eq_true, if_false]
        rw [n2, eassoc]
      · have hstep : processRowsB opt dc buf ⟨rows.flatten, idx 0 rows⟩ (some n) (r :: rs) =
            if n < row.length + 1 then ok (true, ⟨(rows ++ [row]).flatten.take (rows.flatten.length + n), idx 0 rows⟩)
            else processRowsB opt dc buf ⟨(rows ++ [row]).flatten, idx 0 (rows ++ [row])⟩ (some (n - (row.length + 1))) rs := by
          rw [processRowsB, processRowB, if_neg hne, p1, ok_bind]
          simp only [hfl]
          split
          · simp only [ok_bind, if_true]
          · simp only [ok_bind, Bool.false_eq_true, if_false]
        rw [hstep]
        have hcount : (row :: new).flatten.length + (row :: new).length = (row.length + 1) + (new.flatten.length + new.length) := by
          simp only [List.flatten_cons, List.length_append, List.length_cons]
          omega
        rw [hcount]
        by_cases hn : n < row.length + 1
        · right
          refine ⟨0, row.take n, by simp, by simp, by simpa using hn, ?_⟩
          rw [if_pos hn]
          have e : (rows ++ [row]).flatten.take (rows.flatten.length + n) = rows.flatten ++ row.take n := by
            rw [List.flatten_append, List.take_length_add_append]
            simp
          rw [e]
          simp
        · rw [if_neg hn]
          rcases n3 (n - (row.length + 1)) with ⟨a, b⟩ | ⟨k, extra, b, b1, b2, c⟩
          · left
            refine ⟨by rw [a, eassoc], by omega⟩
          · right
            refine ⟨k + 1, extra, by simpa using b, ?_, ?_, ?_⟩
            · rw [List.take_succ_cons]
              simp only [List.flatten_cons, List.length_append, List.length_cons]
              omega
            · rw [List.take_succ_cons]
              simp only [List.flatten_cons, List.length_append, List.length_cons]
              omega
            · rw [c, List.take_succ_cons]
              simp

/-- A load under a shortage of memory: the whole index, or the first rows of it. -/
theorem loadB_spec (opt : Opt) (dr dc : α → Bool) (buf : List α) (hsm : buf.length + 1 < 2 ^ 32) :
    ∃ g rows, load opt dr dc buf = ok g ∧ Rep g rows ∧ (∀ r ∈ rows, ∀ t ∈ r, t.1 ≤ t.2 ∧ t.2 ≤ buf.length) ∧
      List.Forall₂ (RowTokens opt dc) ((buf.splitOnP dr).filter fun w => !w.isEmpty) (rows.map fun row => row.map (textOf buf)) ∧
      loadB opt dr dc buf none = ok (false, g) ∧
      ∀ n, (loadB opt dr dc buf (some n) = ok (false, g) ∧ rows.flatten.length + rows.length ≤ n) ∨
        (∃ k extra, k < rows.length ∧ (rows.take k).flatten.length + (rows.take k).length ≤ n ∧ n < (rows.take (k + 1)).flatten.length + (rows.take (k + 1)).length ∧
          loadB opt dr dc buf (some n) = ok (true, ⟨⟨(rows.take k).flatten ++ extra, idx 0 (rows.take k)⟩, 0, 0⟩)) := by
  by_cases hb : buf = []
  · subst hb
    obtain ⟨u1, u2, _⟩ := updateMinMax_spec ([] : List (List (Nat × Nat))) ⟨[], []⟩ rfl rfl (by simp) (by simp)
    exact ⟨_, [], by rfl, u1, by simp, by simp, by rfl, fun n => Or.inl ⟨by rfl, by simp⟩⟩
  · obtain ⟨rs, r1, r2⟩ := C02_split_compress dr buf hb
    obtain ⟨q, q1, q2, _⟩ := C03_split_in_bounds { compress := true } dr buf
    have hq : q = rs := by rw [r1] at q1; injection q1 with q1; exact (Prod.mk.inj q1).1.symm
    subst hq
    have hlen := collapse_length dr buf
    obtain ⟨new, ⟨n1, m2, m3, m4, m5⟩, n2, n3⟩ := processRowsB_spec opt dc buf q [] (fun r hr => (q2 r hr).2) (by
      rw [r2, sum_splitOnP]; simp; omega)
    simp only [List.nil_append] at n1 n2 n3 m3
    have hload : load opt dr dc buf = ok (updateMinMax ⟨new.flatten, idx 0 new⟩) := by
      unfold load
      rw [r1, ok_bind]
      simp only
      have : processRows opt dc buf ⟨[], []⟩ q = ok ⟨new.flatten, idx 0 new⟩ := n1
      rw [this, ok_bind]
    obtain ⟨u1, _, _⟩ := updateMinMax_spec new ⟨new.flatten, idx 0 new⟩ rfl rfl m2 m3
    rw [r2, lines_collapse] at m5
    have hB : ∀ n t st, processRowsB opt dc buf ⟨[], []⟩ n q = ok (t, st) → loadB opt dr dc buf n = if t then ok (true, ⟨st, 0, 0⟩) else ok (false, updateMinMax st) := by
      intro n t st h
      unfold loadB
      rw [r1, ok_bind]
      simp only [h, ok_bind]
    refine ⟨_, new, hload, u1, m4, m5, ?_, fun n => ?_⟩
    · rw [hB _ _ _ n2]; rfl
    · rcases n3 n with ⟨a, b⟩ | ⟨k, extra, b, b1, b2, c⟩
      · left; exact ⟨by rw [hB _ _ _ a]; rfl, b⟩
      · right; exact ⟨k, extra, b, b1, b2, by rw [hB _ _ _ c]; rfl⟩

/-- The two ends of a load of a text that is there. -/
theorem loadTextB_spec (p : Opts α) (n : Option Nat) (w : World α) (o : Obj) (s : List α) (hs : o.buffer.bind w.heap = some s) (hsm : s.length + 1 < 2 ^ 32) :
    ∃ e o', loadTextB p n w o = ok (e, w, o') ∧ o'.buffer = o.buffer ∧ o'.fromFile = o.fromFile ∧ o'.src = o.buffer := by
  obtain ⟨g, rows, _, _, _, _, h5, h6⟩ := loadB_spec p.opt p.dr p.dc s hsm
  unfold loadTextB
  rw [hs]
  cases n with
  | none =>
    refine ⟨.returned true, { o with grid := g, src := o.buffer, state := true }, ?_, rfl, rfl, rfl⟩
    simp only [h5, ok_bind]
    rfl
  | some m =>
    rcases h6 m with ⟨a, _⟩ | ⟨k, extra, _, _, _, a⟩
    · refine ⟨.returned true, { o with grid := g, src := o.buffer, state := true }, ?_, rfl, rfl, rfl⟩
      simp only [a, ok_bind]
      rfl
    · refine ⟨.threw, { o with grid := ⟨⟨(rows.take k).flatten ++ extra, idx 0 (rows.take k)⟩, 0, 0⟩, src := o.buffer }, ?_, rfl, rfl, rfl⟩
      simp only [a, ok_bind]
      rfl

/-! ## What is shown -/

theorem deref_get {T : Type} {l : List T} {i : Nat} {x : T} (h : deref l i = ok x) : l[i]? = some x := by
  unfold deref at h
  cases hg : l[i]? with
  | none => rw [hg] at h; cases h
  | some y => rw [hg] at h; cases h; rfl

/-- Tokens behind those of the rows are never read. -/
theorem token_extra {T : Type} (rows : List (List T)) (extra : List T) (hne : ∀ r ∈ rows, r ≠ []) (hsm : rows.flatten.length < 2 ^ 32) (a b row col : Nat) :
    (⟨⟨rows.flatten ++ extra, idx 0 rows⟩, a, b⟩ : Grid T).token row col = ok (rows[row]?.bind fun r => r[col]?) := by
  have hrep : Rep (⟨⟨rows.flatten, idx 0 rows⟩, a, rows.flatten.length⟩ : Grid T) rows := ⟨rfl, rfl, hne, hsm, fun r hr => mem_length_le rows r hr⟩
  have h := (C60_rep_shows _ _ hrep).2 row col
  unfold Grid.token at h ⊢
  simp only at h ⊢
  split at h
  · rename_i hr
    rw [if_pos hr]
    obtain ⟨r, h1, h2⟩ := bind_eq_ok.mp h
    rw [h1, ok_bind]
    split at h2
    · rename_i hc
      rw [if_pos hc]
      obtain ⟨t, h3, h4⟩ := bind_eq_ok.mp h2
      have h3 := deref_get h3
      have : deref (rows.flatten ++ extra) (r.1 + col) = ok t := by
        unfold deref
        rw [List.getElem?_append_left (List.getElem?_eq_some_iff.mp h3).1, h3]
      rw [this, ok_bind, h4]
    · rename_i hc
      rw [if_neg hc, h2]
  · rename_i hr
    rw [if_neg hr, h]

theorem reads_text {w : World α} {o : Obj} {b : Nat} {s : List α} (hb : o.src = some b) (hs : w.heap b = some s) (rows : List (List (Nat × Nat)))
    (hc : o.grid.rowCount = rows.length) (ht : ∀ row col, o.grid.token row col = ok (rows[row]?.bind fun r => r[col]?)) :
    Reads w o (rows.map fun row => row.map (textOf s)) := by
  refine ⟨by rw [hc, List.length_map], fun row col => ?_⟩
  unfold readToken
  rw [ht, ok_bind]
  cases hr : rows[row]? with
  | none => simp [hr]
  | some r =>
    cases hcol : r[col]? with
    | none => simp [hr, hcol]
    | some t => simp [hr, hcol, hb, hs]

theorem need_map {T U : Type} (f : T → U) (rows : List (List T)) : need (rows.map fun r => r.map f) = need rows := by
  unfold need
  rw [← List.map_flatten, List.length_map, List.length_map]

theorem load_ends {p : Opts α} {s : List α} (n : Option Nat) {e : Ended} {before : Bool} {w : World α} {o : Obj} {b : Nat} (hsm : s.length + 1 < 2 ^ 32) (hb : o.src = some b)
    (hs : w.heap b = some s) (h : ∃ w0 o0, loadTextB p n w0 o0 = ok (e, w0, o) ∧ o0.buffer.bind w0.heap = some s ∧ o0.state = before) : LoadEnds p s n e before w o := by
  obtain ⟨w0, o0, h1, h2, h3⟩ := h
  obtain ⟨g, rows, l1, l2, l3, l4, l5, l6⟩ := loadB_spec p.opt p.dr p.dc s hsm
  unfold loadTextB at h1
  rw [h2] at h1
  simp only at h1
  refine ⟨_, l4, ?_⟩
  have full : loadB p.opt p.dr p.dc s n = ok (false, g) → e = .returned true ∧ o.state = true ∧ Reads w o (rows.map fun row => row.map (textOf s)) := by
    intro hl
    rw [hl, ok_bind] at h1
    have h1 := Outcome.ok.inj h1
    simp only [Prod.mk.injEq] at h1
    have hg : o.grid = g := by rw [← h1.2.2]
    refine ⟨h1.1.symm, by rw [← h1.2.2], reads_text hb hs rows ?_ ?_⟩
    · rw [hg]; exact (C60_rep_shows _ _ l2).1
    · rw [hg]; exact (C60_rep_shows _ _ l2).2
  cases n with
  | none => left; exact ⟨by simp, full l5⟩
  | some m =>
    rcases l6 m with ⟨a, c⟩ | ⟨k, extra, k1, k2, k3, a⟩
    · left
      refine ⟨?_, full a⟩
      intro m' hm
      cases hm
      rw [need_map]; exact c
    · right
      rw [a, ok_bind] at h1
      have h1 := Outcome.ok.inj h1
      simp only [Prod.mk.injEq] at h1
      have hg : o.grid = ⟨⟨(rows.take k).flatten ++ extra, idx 0 (rows.take k)⟩, 0, 0⟩ := by rw [← h1.2.2]
      have hle : (rows.take k).flatten.length ≤ rows.flatten.length := by
        conv => rhs; rw [← List.take_append_drop k rows, List.flatten_append, List.length_append]
        omega
      refine ⟨m, k, rfl, by rw [List.length_map]; exact k1, ?_, ?_, h1.1.symm, ?_, by rw [hg], by rw [hg], ?_⟩
      · rw [← List.map_take, need_map]; exact k2
      · rw [← List.map_take, need_map]; exact k3
      · rw [← h1.2.2]; exact h3
      · rw [← List.map_take]
        refine reads_text hb hs _ ?_ ?_
        · rw [hg]; exact idx_length _ _
        · intro row col
          rw [hg]
          exact token_extra _ _ (fun r hr => l2.nonempty r (List.mem_of_mem_take hr)) (by have := l2.small; omega) _ _ _ _

/-! ## The invariant -/

/-- Memory after a history: the caller's buffers are as provided, and all others that are live belong to the grid. -/
structure MInv (w : World α) (o : Obj) (texts : List (List α)) : Prop where
  fresh : ∀ b, w.next ≤ b → w.heap b = none
  users : w.users.map w.heap = texts.map some
  owned_live : ∀ b ∈ o.owned, ∃ s, w.heap b = some s
  apart : ∀ b ∈ o.owned, b ∉ w.users
  no_leak : ∀ b s, w.heap b = some s → b ∈ w.users ∨ b ∈ o.owned
  small : ∀ s ∈ texts, s.length + 1 < 2 ^ 32

theorem MInv.init : MInv (⟨fun _ => none, 0, []⟩ : World α) Obj.new [] :=
  { fresh := fun _ _ => rfl
    users := rfl
    owned_live := fun b hb => by simp [Obj.owned, Obj.new] at hb
    apart := fun b hb => by simp [Obj.owned, Obj.new] at hb
    no_leak := fun b s h => by cases h
    small := fun s h => by cases h }

/-- The invariant of `Life.lean` without what the grid shows. -/
theorem MInv.inv {w : World α} {o : Obj} {texts : List (List α)} (h : MInv w o texts) :
    Inv w { o with grid := ⟨⟨[], []⟩, o.grid.minCol, o.grid.maxCol⟩, state := false } ⟨texts, none⟩ :=
  { fresh := h.fresh
    users := h.users
    owned_live := h.owned_live
    apart := h.apart
    no_leak := h.no_leak
    small := h.small
    nothing := fun _ => ⟨rfl, rfl⟩
    shown := fun p s h => by cases h }

/-- After `release` only the caller's buffers are live. -/
theorem MInv.release {w : World α} {o : Obj} {texts : List (List α)} (h : MInv w o texts) :
    ∃ w' o', Grid.release w o = ok (w', o') ∧ w'.next = w.next ∧ w'.users = w.users ∧ (∀ b ∈ w.users, w'.heap b = w.heap b) ∧
      (∀ b, w.next ≤ b → w'.heap b = none) ∧ (∀ b s, w'.heap b = some s → b ∈ w.users) ∧ o'.grid = o.grid ∧ o'.fromFile = o.fromFile ∧
      o'.state = o.state ∧ o'.src = o.src ∧ (o.fromFile = true → o'.buffer = none) := by
  obtain ⟨w', o', r1, r2, r3, r4, r5, r6, r7, r8, r9, r10, r11⟩ := h.inv.release
  clear r7 r8 r9 r10
  unfold Grid.release at r1 ⊢
  by_cases hf : (o.fromFile && o.buffer.isSome) = true
  · rw [if_pos hf] at r1 ⊢
    obtain ⟨w1, h1, h2⟩ := bind_eq_ok.mp r1
    have e := Prod.mk.inj (Outcome.ok.inj h2)
    have hb : o'.buffer = none := by rw [← e.2]
    rw [h1, ok_bind]
    exact ⟨w1, { o with buffer := none }, rfl, by rw [e.1]; exact r2, by rw [e.1]; exact r3, by rw [e.1]; exact r4, by rw [e.1]; exact r5, by rw [e.1]; exact r6, rfl, rfl, rfl, rfl,
      fun _ => rfl⟩
  · rw [if_neg hf] at r1 ⊢
    have e := Prod.mk.inj (Outcome.ok.inj r1)
    have e1 := e.1
    subst e1
    refine ⟨w, o, rfl, r2, r3, r4, r5, r6, rfl, rfl, rfl, rfl, fun hff => ?_⟩
    have := r11 hff
    rw [← e.2] at this
    exact this

theorem MInv.user_lt {w : World α} {o : Obj} {texts : List (List α)} (h : MInv w o texts) (b : Nat) (hb : b ∈ w.users) : b < w.next := h.inv.user_lt b hb

/-- After `release`, in a grid that owns nothing. -/
theorem MInv.released {w w' : World α} {o o' : Obj} {texts : List (List α)} (h : MInv w o texts) (r2 : w'.next = w.next) (r3 : w'.users = w.users)
    (r4 : ∀ b ∈ w.users, w'.heap b = w.heap b) (r5 : ∀ b, w.next ≤ b → w'.heap b = none) (r6 : ∀ b s, w'.heap b = some s → b ∈ w.users) (ho : o'.owned = []) : MInv w' o' texts :=
  { fresh := fun b hb => r5 b (by omega)
    users := by rw [r3, List.map_congr_left r4]; exact h.users
    owned_live := fun b hb => by rw [ho] at hb; cases hb
    apart := fun b hb => by rw [ho] at hb; cases hb
    no_leak := fun b s hb => Or.inl (by rw [r3]; exact r6 b s hb)
    small := h.small }

/-- A grid that takes over a fresh buffer. -/
theorem MInv.taken {w : World α} {o o' : Obj} {texts : List (List α)} (h : MInv w o texts) (hn : o.owned = []) (s : List α) (ho : o'.owned = [w.next]) : MInv (w.alloc s) o' texts := by
  have hnu : w.next ∉ w.users := fun hh => Nat.lt_irrefl _ (h.user_lt _ hh)
  have hself : (w.alloc s).heap w.next = some s := by simp [World.alloc]
  have hother : ∀ b, b ≠ w.next → (w.alloc s).heap b = w.heap b := fun b hb => by simp [World.alloc, hb]
  refine ⟨?_, ?_, ?_, ?_, ?_, h.small⟩
  · intro b hb
    have hb : w.next + 1 ≤ b := hb
    rw [hother b (by omega)]
    exact h.fresh b (by omega)
  · rw [← h.users]
    exact List.map_congr_left fun b hb => hother b fun hh => hnu (hh ▸ hb)
  · intro b hb
    rw [ho, List.mem_singleton] at hb
    exact ⟨s, by rw [hb, hself]⟩
  · intro b hb
    rw [ho, List.mem_singleton] at hb
    rw [hb]; exact hnu
  · intro b t hb
    by_cases hbn : b = w.next
    · right; rw [ho, hbn]; simp
    · rw [hother b hbn] at hb
      rcases h.no_leak b t hb with hu | hu
      · exact Or.inl hu
      · rw [hn] at hu; cases hu

/-- With what is known about a buffer of the caller's: without one, a grid that owns nothing has no buffer at all. -/
structure KInv (w : World α) (o : Obj) (k : Known α) : Prop where
  mem : MInv w o k.texts
  free : k.lent = false → o.buffer ≠ none → o.fromFile = true

theorem owned_none {o : Obj} (h : o.buffer = none) : o.owned = [] := by unfold Obj.owned; rw [h]; split <;> rfl

theorem KInv.loadFile {w : World α} {o : Obj} {k : Known α} (h : KInv w o k) (p : Opts α) (f : Option (List α)) (noBuffer : Bool) (n : Option Nat)
    (ha : (ActB.loadFile p f noBuffer n).Allowed k) :
    ∃ e w' o', loadFileB p f noBuffer n w o = ok (e, w', o') ∧ KInv w' o' { k with lent := false } ∧ o'.fromFile = true ∧
      ((GetsBuffer f noBuffer ∧ ∃ s, f = some s ∧ o'.src = some w.next ∧ o'.buffer = some w.next ∧ w'.heap w.next = some s ∧ LoadEnds p s n e o.state w' o') ∨
       (¬ GetsBuffer f noBuffer ∧ o'.buffer = none ∧ o'.grid.store = o.grid.store ∧ o'.src = o.src ∧ o'.grid.minCol = 0 ∧ o'.grid.maxCol = 0 ∧ (∀ b s, w'.heap b = some s → b ∈ w.users) ∧
        (∀ b ∈ w.users, w'.heap b = w.heap b) ∧
        ((e = .returned false ∧ o'.state = false ∧ ∀ c s, f ≠ some (c :: s)) ∨ (e = .threw ∧ o'.state = o.state ∧ ∃ c s, f = some (c :: s))))) := by
  obtain ⟨w1, o1, r1, r2, r3, r4, r5, r6, r7, r8, r9, r10, r11⟩ := h.mem.release
  have hfree : k.lent = false → o1.buffer = none := by
    intro hl
    cases hb : o.buffer with
    | none =>
      have : Grid.release w o = ok (w, o) := by unfold Grid.release; rw [hb]; simp
      rw [this] at r1
      rw [← (Prod.mk.inj (Outcome.ok.inj r1)).2, hb]
    | some b => exact r11 (h.free hl (by rw [hb]; simp))
  unfold loadFileB
  rw [r1, ok_bind]
  simp only
  by_cases hg : GetsBuffer f noBuffer
  · obtain ⟨rfl, c, s, rfl⟩ := hg
    have hself : (w1.alloc (c :: s)).heap w1.next = some (c :: s) := by simp [World.alloc]
    have hbase : MInv w1 { o1 with buffer := none } k.texts := h.mem.released r2 r3 r4 r5 r6 (owned_none rfl)
    obtain ⟨e, o', t1, t2, t3, t4⟩ := loadTextB_spec p n (w1.alloc (c :: s))
      { o1 with grid := { o1.grid with minCol := 0, maxCol := 0 }, fromFile := true, buffer := some w1.next } (c :: s) (by simpa using hself) (ha.1 _ rfl)
    refine ⟨e, w1.alloc (c :: s), o', ?_, ⟨?_, ?_⟩, t3, Or.inl ⟨⟨rfl, c, s, rfl⟩, c :: s, rfl, ?_, ?_, ?_, ?_⟩⟩
    · simpa using t1
    · refine hbase.taken (owned_none rfl) (c :: s) ?_
      unfold Obj.owned
      rw [t3, t2]
      simp
    · intro _ _; exact t3
    · rw [t4, r2]
    · rw [t2, r2]
    · rw [← r2]; exact hself
    · exact load_ends n (ha.1 _ rfl) t4 hself ⟨_, _, t1, by simpa using hself, r9⟩
  · have hl : k.lent = false := by
      cases hl : k.lent with
      | false => rfl
      | true => exact absurd (ha.2 hl) hg
    have hb := hfree hl
    have hcase : (∃ c s, f = some (c :: s) ∧ noBuffer = true) ∨ ∀ c s, f ≠ some (c :: s) := by
      cases f with
      | none => exact Or.inr (by simp)
      | some t =>
        cases t with
        | nil => exact Or.inr (by simp)
        | cons c s =>
          refine Or.inl ⟨c, s, rfl, ?_⟩
          cases noBuffer with
          | true => rfl
          | false => exact absurd ⟨rfl, c, s, rfl⟩ hg
    rcases hcase with ⟨c, s, rfl, rfl⟩ | hno
    · refine ⟨.threw, w1, { o1 with grid := { o1.grid with minCol := 0, maxCol := 0 }, fromFile := true }, by simp, ⟨?_, ?_⟩, rfl, Or.inr ⟨hg, hb, ?_, r10, rfl, rfl, r6, r4, Or.inr ⟨rfl, r9, c, s, rfl⟩⟩⟩
      · exact h.mem.released r2 r3 r4 r5 r6 (owned_none hb)
      · intro _ _; rfl
      · show o1.grid.store = _; rw [r7]
    · have hrel : ∀ o2 : Obj, o2.buffer = none → Grid.release w1 o2 = ok (w1, o2) := by
        intro o2 h2; unfold Grid.release; rw [h2]; simp
      refine ⟨.returned false, w1, { o1 with grid := { o1.grid with minCol := 0, maxCol := 0 }, fromFile := true, state := false }, ?_, ⟨?_, ?_⟩, rfl,
        Or.inr ⟨hg, hb, ?_, r10, rfl, rfl, r6, r4, Or.inl ⟨rfl, rfl, hno⟩⟩⟩
      · split
        · rename_i c s
          exact absurd rfl (hno c s)
        · rw [hrel { o1 with grid := { o1.grid with minCol := 0, maxCol := 0 }, fromFile := true, state := false } hb, ok_bind]
      · exact h.mem.released r2 r3 r4 r5 r6 (owned_none hb)
      · intro _ _; rfl
      · show o1.grid.store = _; rw [r7]

theorem KInv.loadBuffer {w : World α} {o : Obj} {k : Known α} (h : KInv w o k) (p : Opts α) (i : Nat) (n : Option Nat) (hi : i < k.texts.length) :
    ∃ b e w' o', deref w.users i = ok b ∧ loadBufferB p b n w o = ok (e, w', o') ∧ KInv w' o' { k with lent := true } ∧ o'.fromFile = false ∧ o'.src = some b ∧ o'.buffer = some b ∧
      b ∈ w'.users ∧ w'.heap b = some k.texts[i] ∧ LoadEnds p k.texts[i] n e o.state w' o' := by
  obtain ⟨w1, o1, r1, r2, r3, r4, r5, r6, r7, r8, r9, r10, r11⟩ := h.mem.release
  have hlen : w.users.length = k.texts.length := by simpa using congrArg List.length h.mem.users
  have hd : w.users[i]? = some w.users[i] := List.getElem?_eq_getElem (by omega)
  have hmem : w.users[i] ∈ w.users := List.getElem_mem _
  have hlive : w1.heap w.users[i] = some k.texts[i] := by
    rw [r4 _ hmem]
    have := h.mem.inv.user_live i _ hd
    rw [this]
    exact List.getElem?_eq_getElem hi
  obtain ⟨e, o', t1, t2, t3, t4⟩ := loadTextB_spec p n w1 { o1 with fromFile := false, buffer := some w.users[i] } k.texts[i] (by simpa using hlive)
    (h.mem.small _ (List.getElem_mem _))
  refine ⟨w.users[i], e, w1, o', ?_, ?_, ⟨?_, by simp⟩, t3, t4, t2, by rw [r3]; exact hmem, hlive, ?_⟩
  · unfold deref; rw [hd]
  · unfold loadBufferB; rw [r1, ok_bind]; exact t1
  · refine h.mem.released r2 r3 r4 r5 r6 ?_
    unfold Obj.owned; rw [t3]; rfl
  · exact load_ends n (h.mem.small _ (List.getElem_mem _)) t4 hlive ⟨_, _, t1, by simpa using hlive, r9⟩

theorem KInv.provide {w : World α} {o : Obj} {k : Known α} (h : KInv w o k) (s : List α) (hs : s.length + 1 < 2 ^ 32) :
    KInv { w.alloc s with users := w.users ++ [w.next] } o { k with texts := k.texts ++ [s] } := by
  obtain ⟨w', o', r1, r2⟩ := Act.run_spec (.provide s) w _ _ h.mem.inv hs
  have e := Prod.mk.inj (Outcome.ok.inj r1)
  have e1 := e.1; have e2 := e.2
  subst e1 e2
  exact ⟨⟨r2.fresh, r2.users, r2.owned_live, r2.apart, r2.no_leak, r2.small⟩, h.free⟩

theorem KInv.clear {w : World α} {o : Obj} {k : Known α} (h : KInv w o k) :
    ∃ w' o', Grid.clear false w o = ok (w', o') ∧ KInv w' o' { k with lent := false } ∧ o'.buffer = none ∧ o'.grid.store = ⟨[], []⟩ ∧ o'.state = false := by
  obtain ⟨w', o', r1, r2⟩ := Act.run_spec .clear w _ _ h.mem.inv trivial
  have r1 : Grid.clear false w _ = ok (w', o') := r1
  unfold Grid.clear at r1 ⊢
  obtain ⟨w1, h1, h2⟩ := bind_eq_ok.mp r1
  have e := Prod.mk.inj (Outcome.ok.inj h2)
  have e1 := e.1
  subst e1
  have h1 : deleteIf (o.fromFile || false) w o.buffer = ok w1 := h1
  rw [h1, ok_bind]
  have hm : MInv w1 o' k.texts := ⟨r2.fresh, r2.users, r2.owned_live, r2.apart, r2.no_leak, r2.small⟩
  have hb : o'.buffer = none := by rw [← e.2]
  refine ⟨w1, _, rfl, ⟨⟨hm.fresh, hm.users, ?_, ?_, ?_, hm.small⟩, by simp⟩, rfl, rfl, rfl⟩
  · intro b hb; rw [owned_none rfl] at hb; cases hb
  · intro b hb; rw [owned_none rfl] at hb; cases hb
  · intro b s hs
    rcases hm.no_leak b s hs with hu | hu
    · exact Or.inl hu
    · rw [owned_none hb] at hu; cases hu

theorem run_known {as : List (ActB α)} {k : Known α} (h : History as k) : ∃ w o, runActsB as startB = ok (w, o) ∧ KInv w o k := by
  induction h with
  | nil => exact ⟨_, _, rfl, MInv.init, fun _ h => absurd rfl h⟩
  | @snoc as k a _ ha ih =>
    obtain ⟨w, o, h1, h2⟩ := ih
    have hsnoc : ∀ (as : List (ActB α)) s, runActsB (as ++ [a]) s = (do let s ← runActsB as s; a.run s) := by
      intro as
      induction as with
      | nil =>
        intro s
        show (do let s ← a.run s; ok s) = _
        rw [runActsB, ok_bind]
        cases a.run s <;> rfl
      | cons b as ih2 =>
        intro s
        rw [List.cons_append, runActsB, runActsB]
        cases hb : b.run s with
        | ok s' => rw [ok_bind, ok_bind, ih2]
        | _ => rfl
    rw [hsnoc, h1, ok_bind]
    cases a with
    | provide s => exact ⟨_, _, rfl, h2.provide s ha⟩
    | loadFile p f noBuffer n =>
      obtain ⟨e, w', o', t1, t2, _⟩ := h2.loadFile p f noBuffer n ha
      exact ⟨w', o', by rw [ActB.run, t1, ok_bind], t2⟩
    | loadBuffer p i n =>
      obtain ⟨b, e, w', o', t1, t2, t3, _⟩ := h2.loadBuffer p i n ha
      exact ⟨w', o', by rw [ActB.run, t1, ok_bind, t2, ok_bind], t3⟩
    | clear =>
      obtain ⟨w', o', t1, t2, _⟩ := h2.clear
      exact ⟨w', o', by rw [ActB.run, t1], t2⟩

/-! ## C171 -/

/-- Any history of loads and clears during which files may be missing and requests for memory may fail, provided that no file load fails to get its buffer while the grid still has a buffer of
the caller's: nothing is undefined, the caller's buffers are live and unchanged, and after destruction nothing but them is live.  Missing for C171: file loads that fail while the grid has a
buffer of the caller's (`C171_frees_callers_buffer`), reading tokens after a failed file load (`C108_no_memory_dangles`), constructors (`C171_constructor_leaks`). -/
theorem C171_history_partial (as : List (ActB α)) (k : Known α) (h : History as k) :
    ∃ w o, runActsB as startB = ok (w, o) ∧ w.users.map w.heap = k.texts.map some ∧
      ∃ w', destroy w o = ok w' ∧ w'.users = w.users ∧ (∀ b ∈ w.users, w'.heap b = w.heap b) ∧ ∀ b, b ∉ w.users → w'.heap b = none := by
  obtain ⟨w, o, h1, h2⟩ := run_known h
  obtain ⟨w1, o1, r1, r2, r3, r4, r5, r6, _⟩ := h2.mem.release
  refine ⟨w, o, h1, h2.mem.users, w1, ?_, r3, r4, ?_⟩
  · unfold destroy
    rw [r1, ok_bind]
  · intro b hb
    cases hh : w1.heap b with
    | none => rfl
    | some s => exact absurd (r6 b s hh) hb

/-- After such a history, loading a buffer of the caller's. -/
theorem C171_load_buffer (as : List (ActB α)) (k : Known α) (h : History as k) (p : Opts α) (i : Nat) (s : List α) (hi : k.texts[i]? = some s) (n : Option Nat) :
    ∃ w o b e w' o', runActsB as startB = ok (w, o) ∧ w.users[i]? = some b ∧ loadBufferB p b n w o = ok (e, w', o') ∧ LoadEnds p s n e o.state w' o' := by
  obtain ⟨w, o, h1, h2⟩ := run_known h
  obtain ⟨hl, rfl⟩ := List.getElem?_eq_some_iff.mp hi
  obtain ⟨b, e, w', o', t1, t2, _, _, _, _, _, _, t3⟩ := h2.loadBuffer p i n hl
  exact ⟨w, o, b, e, w', o', h1, deref_get t1, t2, t3⟩

/-- After such a history, loading a file that can be read, is not empty and gets a buffer. -/
theorem C171_load_file (as : List (ActB α)) (k : Known α) (h : History as k) (p : Opts α) (s : List α) (hne : s ≠ []) (hsm : s.length + 1 < 2 ^ 32) (n : Option Nat) :
    ∃ w o e w' o', runActsB as startB = ok (w, o) ∧ loadFileB p (some s) false n w o = ok (e, w', o') ∧ LoadEnds p s n e o.state w' o' := by
  obtain ⟨w, o, h1, h2⟩ := run_known h
  have hg : GetsBuffer (some s) false := by
    cases s with
    | nil => exact absurd rfl hne
    | cons c s => exact ⟨rfl, c, s, rfl⟩
  obtain ⟨e, w', o', t1, _, _, t2⟩ := h2.loadFile p (some s) false n ⟨fun t ht => by cases ht; exact hsm, fun _ => hg⟩
  rcases t2 with ⟨_, t, ht, _, _, _, t3⟩ | ⟨hno, _⟩
  · cases ht
    exact ⟨w, o, e, w', o', h1, t1, t3⟩
  · exact absurd hg hno

/-- A load with enough memory shows the text, whatever failed before. -/
theorem C171_recovers (p : Opts α) (s : List α) (e : Ended) (before : Bool) (w : World α) (o : Obj) (h : LoadEnds p s none e before w o) :
    e = .returned true ∧ Displays w o (some (p, s)) := by
  obtain ⟨rows, h1, ⟨_, h2, h3, h4⟩ | ⟨m, k, h2, _⟩⟩ := h
  · exact ⟨h2, h3, rows, h1, h4⟩
  · cases h2

/-- After a file load for which there was no file or no buffer, the grid owns nothing and has the row count it had; it calls itself loaded if it did before and there was no memory. -/
theorem C171_no_buffer (as : List (ActB α)) (k : Known α) (h : History as k) (hl : k.lent = false) (p : Opts α) (f : Option (List α)) (noBuffer : Bool) (n : Option Nat)
    (hsm : ∀ s, f = some s → s.length + 1 < 2 ^ 32) (hg : ¬ GetsBuffer f noBuffer) :
    ∃ w o e w' o', runActsB as startB = ok (w, o) ∧ loadFileB p f noBuffer n w o = ok (e, w', o') ∧ o'.grid.rowCount = o.grid.rowCount ∧ o'.grid.minCol = 0 ∧ o'.grid.maxCol = 0 ∧
      (∀ b s, w'.heap b = some s → b ∈ w.users) ∧ (∀ b ∈ w.users, w'.heap b = w.heap b) ∧
      ((e = .returned false ∧ o'.state = false ∧ ∀ c s, f ≠ some (c :: s)) ∨ (e = .threw ∧ o'.state = o.state ∧ ∃ c s, f = some (c :: s))) := by
  obtain ⟨w, o, h1, h2⟩ := run_known h
  obtain ⟨e, w', o', t1, _, _, t2⟩ := h2.loadFile p f noBuffer n ⟨hsm, fun hh => by rw [hl] at hh; cases hh⟩
  rcases t2 with ⟨hno, _⟩ | ⟨_, _, t3, _, m1, m2, t4, t5, t6⟩
  · exact absurd hno hg
  · exact ⟨w, o, e, w', o', h1, t1, by unfold Grid.rowCount; rw [t3], m1, m2, t4, t5, t6⟩

/-- A grid given a buffer of the caller's, then a file for which there is no buffer: it is deleted with the grid, or at once if there is no such file. -/
theorem C171_frees_callers_buffer (p q : Opts α) (s : List α) (hsm : s.length + 1 < 2 ^ 32) (f : Option (List α)) (noBuffer : Bool) (n : Option Nat) (hg : ¬ GetsBuffer f noBuffer) :
    ∃ w o w', runActsB [.provide s, .loadBuffer p 0 none, .loadFile q f noBuffer n] startB = ok (w, o) ∧ destroy w o = ok w' ∧ w'.users = [0] ∧ w'.heap 0 = none := by
  obtain ⟨g, rows, _, _, _, _, l5, _⟩ := loadB_spec p.opt p.dr p.dc s hsm
  have hcase : (∃ c s, f = some (c :: s) ∧ noBuffer = true) ∨ ∀ c s, f ≠ some (c :: s) := by
    cases f with
    | none => exact Or.inr (by simp)
    | some t =>
      cases t with
      | nil => exact Or.inr (by simp)
      | cons c s =>
        refine Or.inl ⟨c, s, rfl, ?_⟩
        cases noBuffer with
        | true => rfl
        | false => exact absurd ⟨rfl, c, s, rfl⟩ hg
  let W : World α := { (startB (α := α)).1.alloc s with users := [0] }
  have hW : W.heap 0 = some s := rfl
  have e1 : loadBufferB p 0 none W Obj.new = ok (.returned true, W, ⟨g, some 0, some 0, false, true⟩) := by
    simp only [loadBufferB, release, Obj.new, Bool.false_and, Bool.false_eq_true, if_false, ok_bind, loadTextB]
    simp [hW, l5]
  have hrun : ∀ e w' o', loadFileB q f noBuffer n W ⟨g, some 0, some 0, false, true⟩ = ok (e, w', o') →
      runActsB [.provide s, .loadBuffer p 0 none, .loadFile q f noBuffer n] startB = ok (w', o') := by
    intro e w' o' h
    have s1 : ActB.run (.provide s) startB = ok (W, Obj.new) := rfl
    have s2 : ActB.run (.loadBuffer p 0 none) (W, Obj.new) = ok (W, ⟨g, some 0, some 0, false, true⟩) := by
      have hd : deref W.users 0 = ok 0 := rfl
      rw [ActB.run, hd, ok_bind, e1, ok_bind]
    have s3 : ActB.run (.loadFile q f noBuffer n) (W, ⟨g, some 0, some 0, false, true⟩) = ok (w', o') := by
      rw [ActB.run, h, ok_bind]
    rw [runActsB, s1, ok_bind, runActsB, s2, ok_bind, runActsB, s3, ok_bind, runActsB]
  rcases hcase with ⟨c, t, rfl, rfl⟩ | hno
  · refine ⟨_, _, { W with heap := fun c => if c = 0 then none else W.heap c }, hrun .threw W ⟨{ g with minCol := 0, maxCol := 0 }, some 0, some 0, true, true⟩ ?_, ?_, rfl, rfl⟩
    · simp [loadFileB, release]
    · simp [destroy, release, World.delete, hW]
  · refine ⟨_, _, { W with heap := fun c => if c = 0 then none else W.heap c },
      hrun (.returned false) { W with heap := fun c => if c = 0 then none else W.heap c } ⟨{ g with minCol := 0, maxCol := 0 }, some 0, none, true, false⟩ ?_, ?_, rfl, rfl⟩
    · cases f with
      | none => simp [loadFileB, release, World.delete, hW]
      | some t =>
        cases t with
        | nil => simp [loadFileB, release, World.delete, hW]
        | cons c t => exact absurd rfl (hno c t)
    · simp [destroy, release]

/-- A constructor given a file: if memory runs out for the index there is no grid and the content of the file stays allocated, and if there is none for the buffer nothing does. -/
theorem C171_constructor_leaks (p : Opts α) (w : World α) (c : α) (s : List α) (hsm : (c :: s).length + 1 < 2 ^ 32) :
    (∀ n, constructFile p (some (c :: s)) true n w = ok (none, w)) ∧
    ∃ rows : List (List (List α)), List.Forall₂ (RowTokens p.opt p.dc) (((c :: s).splitOnP p.dr).filter fun l => !l.isEmpty) rows ∧
      ∀ m, m < need rows → constructFile p (some (c :: s)) false (some m) w = ok (none, w.alloc (c :: s)) := by
  refine ⟨fun n => rfl, ?_⟩
  obtain ⟨g, rows, l1, l2, l3, l4, l5, l6⟩ := loadB_spec p.opt p.dr p.dc (c :: s) hsm
  refine ⟨_, l4, fun m hm => ?_⟩
  rw [need_map] at hm
  have hself : (w.alloc (c :: s)).heap w.next = some (c :: s) := by simp [World.alloc]
  rcases l6 m with ⟨_, a⟩ | ⟨k, extra, _, _, _, a⟩
  · unfold need at hm; omega
  · simp [constructFile, loadTextB, hself, a]

/-- A constructor given a file for which the memory suffices: the grid shows the file, and its destructor frees what the constructor allocated and nothing else. -/
theorem C171_constructor (p : Opts α) (w : World α) (c : α) (s : List α) (hsm : (c :: s).length + 1 < 2 ^ 32) :
    ∃ o w', constructFile p (some (c :: s)) false none w = ok (some o, w.alloc (c :: s)) ∧ o.state = true ∧ Displays (w.alloc (c :: s)) o (some (p, c :: s)) ∧
      destroy (w.alloc (c :: s)) o = ok w' ∧ ∀ b, w'.heap b = if b = w.next then none else w.heap b := by
  obtain ⟨g, rows, l1, l2, l3, l4, l5, l6⟩ := loadB_spec p.opt p.dr p.dc (c :: s) hsm
  have hself : (w.alloc (c :: s)).heap w.next = some (c :: s) := by simp [World.alloc]
  obtain ⟨hcount, htok⟩ := C60_rep_shows _ _ l2
  obtain ⟨r1, r2⟩ := reads_text (w := w.alloc (c :: s)) (o := ⟨g, some w.next, some w.next, true, true⟩) rfl hself rows hcount htok
  refine ⟨⟨g, some w.next, some w.next, true, true⟩, { w.alloc (c :: s) with heap := fun b => if b = w.next then none else (w.alloc (c :: s)).heap b },
    by simp [constructFile, loadTextB, hself, l5, Obj.new], rfl, ⟨rfl, _, l4, r1, r2⟩, by simp [destroy, release, World.delete, hself], ?_⟩
  intro b
  by_cases hb : b = w.next <;> simp [hb, World.alloc]

/-- A file whose second row does not fit, another for which there is no buffer, a missing one, then a buffer of the caller's. -/
example : History [.loadFile ⟨{}, (· == '\n'), (· == ',')⟩ (some "a,b\nc,d,e".toList) false (some 4), .loadFile ⟨{}, (· == '\n'), (· == ',')⟩ (some "x".toList) true none,
    .loadFile ⟨{}, (· == '\n'), (· == ',')⟩ none false none, .provide "u\nv".toList, .loadBuffer ⟨{}, (· == '\n'), (· == ',')⟩ 0 (some 1)] ⟨["u\nv".toList], true⟩ := by
  refine History.snoc (as := [_, _, _, _]) (k := ⟨["u\nv".toList], false⟩) ?_ (by decide : 0 < 1)
  refine History.snoc (as := [_, _, _]) (k := ⟨[], false⟩) ?_ (by decide : (3 : Nat) + 1 < 2 ^ 32)
  refine History.snoc (as := [_, _]) (k := ⟨[], false⟩) ?_ ⟨by simp, by simp⟩
  refine History.snoc (as := [_]) (k := ⟨[], false⟩) ?_ ⟨by intro s h; cases h; decide, by simp⟩
  exact History.snoc (as := []) (k := ⟨[], false⟩) History.nil ⟨by intro s h; cases h; decide, by simp⟩

/-- The first load of that history: row 0 is shown, a token of row 1 was stored but is not. -/
example : (match runActsB [.loadFile ⟨{}, (· == '\n'), (· == ',')⟩ (some "a,b\nc,d,e".toList) false (some 4)] startB with
    | ok (w, o) => some (o.grid.rowCount, o.grid.store.tokens.length, readToken w o 0 1, readToken w o 1 0, o.state)
    | _ => none) = some (1, 3, ok (some ['b']), ok none, false) := by rfl

example : ¬ GetsBuffer (some "x".toList) true ∧ ¬ GetsBuffer (none : Option (List Char)) false := ⟨fun h => absurd h.1 (by decide), fun ⟨_, _, _, h⟩ => by cases h⟩

example (w : World Char) := C171_constructor ⟨{}, (· == '\n'), (· == ',')⟩ w 'a' ",b\nc".toList (by decide)

/-- A buffer of the caller's, loaded with memory for two tokens only. -/
example := C171_load_buffer [.provide "u\nv".toList] ⟨["u\nv".toList], false⟩
  (History.snoc (as := []) (k := ⟨[], false⟩) History.nil (by decide : (3 : Nat) + 1 < 2 ^ 32)) ⟨{}, (· == '\n'), (· == ',')⟩ 0 "u\nv".toList rfl (some 2)

end Strtk.Grid
