import Verif.Bloom.Props

/-!
# The memory of bloom filters when allocations fail (strtk.hpp 20081-20158, 20349-20429, 20604-20652)

Only the buffers obtained with `new` are modelled: which are live, which object points at which, and what each function does when the n-th request for memory
throws `std::bad_alloc`.  The vectors of a filter (`salt_`, `size_list`) free their memory themselves; growing one may throw as well.
-/

namespace Strtk.FilterMemory
open Outcome

/-- The live buffers, the next new name for one, and how many requests for memory there have been. -/
structure Heap where
  live : List Nat
  next : Nat
  requests : Nat

/-- `new unsigned char[n]`; `fails k` says whether the `k`-th request throws. -/
def Heap.alloc (fails : Nat → Bool) (h : Heap) : Option Nat × Heap :=
  if fails h.requests then (none, { h with requests := h.requests + 1 })
  else (some h.next, ⟨h.next :: h.live, h.next + 1, h.requests + 1⟩)

/-- A vector grows: true if that throws. -/
def Heap.grow (fails : Nat → Bool) (h : Heap) : Bool × Heap := (fails h.requests, { h with requests := h.requests + 1 })

/-- `delete[] p`: nothing for a null pointer, undefined for a buffer that is not live. -/
def Heap.delete (h : Heap) : Option Nat → Outcome Heap
  | none => ok h
  | some b => if b ∈ h.live then ok { h with live := h.live.erase b } else ub

/-- What is observed of a call. -/
inductive Event where
  | done
  /-- returned `false` -/
  | refused
  /-- `std::bad_alloc` -/
  | threw
  /-- `std::bad_alloc` from `operator =` because of the table -/
  | assignThrew
  /-- `std::bad_alloc` from `read_from_file` with the file's buffer in use -/
  | readThrew
  deriving DecidableEq

/-- `bit_table_` (20451) of a filter that exists, `none` for one that does not (any more); a null pointer is `some none`. -/
abbrev Obj := Option (Option Nat)

/-- How far a file can be read: it cannot be opened; it ends before the salts; it ends within them or in the table; all of it. -/
inductive FileShape where
  | cannotOpen | noSalts | noTable | whole

structure State where
  heap : Heap
  objs : List Obj
  log : List Event

/-- The things done with filters; filters are numbered in the order of their construction. -/
inductive Act where
  /-- the default constructor -/
  | makeEmpty
  | make
  | makeCompressible
  | assign (i j : Nat)
  | read (i : Nat) (f : FileShape)
  /-- `begun`: the filter has a table size and the file can be opened -/
  | write (i : Nat) (begun : Bool)
  /-- `accepted`: the percentage is one `compress` acts on -/
  | compress (i : Nat) (accepted : Bool)
  | destroy (i : Nat)

/-- The state after a call (exposition only). -/
def State.log' (s : State) (h : Heap) (objs : List Obj) (e : Event) : State := ⟨h, objs, s.log ++ [e]⟩

/-- `filter()` (20081-20090): no table, no request for memory. -/
def makeEmpty (s : State) : State := s.log' s.heap (s.objs ++ [some none]) .done

/-- `filter(const parameters&)` (20092-20105): the salts (the many growths of the vector count as one request), then the table.  If a constructor throws
there is no object. -/
def make (fails : Nat → Bool) (s : State) : State :=
  let (t, h) := s.heap.grow fails
  if t then s.log' h s.objs .threw else
  match h.alloc fails with
  | (none, h) => s.log' h s.objs .threw
  | (some b, h) => s.log' h (s.objs ++ [some (some b)]) .done

/-- `compressible_filter(const parameters&)` (20608-20612): the base class is destroyed if `push_back` throws. -/
def makeCompressible (fails : Nat → Bool) (s : State) : Outcome State :=
  let (t, h) := s.heap.grow fails
  if t then ok (s.log' h s.objs .threw) else
  match h.alloc fails with
  | (none, h) => ok (s.log' h s.objs .threw)
  | (some b, h) => do
    let (t, h) := h.grow fails
    if t then do
      let h ← h.delete (some b)
      ok (s.log' h s.objs .threw)
    else ok (s.log' h (s.objs ++ [some (some b)]) .done)

/-- `operator =` between two objects (20136-20153): `delete[] bit_table_; bit_table_ = new ...; ...; salt_ = f.salt_`.  If `new` throws, `bit_table_` still
holds the old address. -/
def assign (fails : Nat → Bool) (s : State) (i : Nat) (p : Option Nat) : Outcome State := do
  let h ← s.heap.delete p
  match h.alloc fails with
  | (none, h) => ok (s.log' h s.objs .assignThrew)
  | (some b, h) => do
    let (t, h) := h.grow fails
    ok (s.log' h (s.objs.set i (some (some b))) (if t then .threw else .done))

/-- `read_from_file` (20388-20429). -/
def read (fails : Nat → Bool) (s : State) (i : Nat) (p : Option Nat) (f : FileShape) : Outcome State :=
  match f with
  | .cannotOpen => ok (s.log' s.heap s.objs .refused)
  | f => do
    let h ← s.heap.delete p
    match h.alloc fails with
    | (none, h) => ok (s.log' h (s.objs.set i (some none)) .threw)
    | (some buffer, h) =>
      match f with
      | .noSalts => do
        let h ← h.delete (some buffer)
        ok (s.log' h (s.objs.set i (some none)) .refused)
      | .noTable => do
        let (t, h) := h.grow fails
        if t then ok (s.log' h (s.objs.set i (some none)) .readThrew) else do
        let h ← h.delete (some buffer)
        ok (s.log' h (s.objs.set i (some none)) .refused)
      | _ => do
        let (t, h) := h.grow fails
        if t then ok (s.log' h (s.objs.set i (some none)) .readThrew) else
        match h.alloc fails with
        | (none, h) => ok (s.log' h (s.objs.set i (some none)) .readThrew)
        | (some b, h) => do
          let h ← h.delete (some buffer)
          ok (s.log' h (s.objs.set i (some (some b))) .done)

/-- `write_to_file` (20349-20386); without a table size, or if the file cannot be opened, it returns `false` at once. -/
def write (fails : Nat → Bool) (s : State) (begun : Bool) : Outcome State :=
  if begun = false then ok (s.log' s.heap s.objs .refused) else
  match s.heap.alloc fails with
  | (none, h) => ok (s.log' h s.objs .threw)
  | (some buffer, h) => do
    let h ← h.delete (some buffer)
    ok (s.log' h s.objs .done)

/-- `compress` (20619-20652); the percentage decides before any memory is asked for (20621-20633).  What is copied into the new table is not modelled here
(see `Bloom/Compress`). -/
def compress (fails : Nat → Bool) (s : State) (i : Nat) (p : Option Nat) (accepted : Bool) : Outcome State :=
  if accepted = false then ok (s.log' s.heap s.objs .refused) else
  match s.heap.alloc fails with
  | (none, h) => ok (s.log' h s.objs .threw)
  | (some tmp, h) => do
    let h ← h.delete p
    let (t, h) := h.grow fails
    ok (s.log' h (s.objs.set i (some (some tmp))) (if t then .threw else .done))

/-- The destructor (20155-20158). -/
def destroy (s : State) (i : Nat) (p : Option Nat) : Outcome State := do
  let h ← s.heap.delete p
  ok (s.log' h (s.objs.set i none) .done)

/-- One action; actions on objects that do not exist do nothing. -/
def Act.run (fails : Nat → Bool) (s : State) : Act → Outcome State
  | .makeEmpty => ok (Strtk.FilterMemory.makeEmpty s)
  | .make => ok (Strtk.FilterMemory.make fails s)
  | .makeCompressible => Strtk.FilterMemory.makeCompressible fails s
  | .assign i j =>
    match s.objs[i]?, s.objs[j]? with
    | some (some p), some (some _) => if i ≠ j then Strtk.FilterMemory.assign fails s i p else ok (s.log' s.heap s.objs .done)
    | _, _ => ok s
  | .read i f =>
    match s.objs[i]? with
    | some (some p) => Strtk.FilterMemory.read fails s i p f
    | _ => ok s
  | .write i begun =>
    match s.objs[i]? with
    | some (some _) => Strtk.FilterMemory.write fails s begun
    | _ => ok s
  | .compress i accepted =>
    match s.objs[i]? with
    | some (some p) => Strtk.FilterMemory.compress fails s i p accepted
    | _ => ok s
  | .destroy i =>
    match s.objs[i]? with
    | some (some p) => Strtk.FilterMemory.destroy s i p
    | _ => ok s

/-- A program: exceptions are caught and the program goes on. -/
def runActs (fails : Nat → Bool) : List Act → State → Outcome State
  | [], s => ok s
  | a :: as, s => do
    let s ← a.run fails s
    runActs fails as s

/-- The start: no objects, no buffers. -/
def State.start : State := ⟨⟨[], 0, 0⟩, [], []⟩

/-- The end of the program: everything is destroyed. -/
def destroyAll (s : State) : List Act := (List.range s.objs.length).map .destroy

/-! ## Specification -/

/-- A program followed by the destruction of all filters. -/
def whole (fails : Nat → Bool) (as : List Act) : Outcome State := do
  let s ← runActs fails as .start
  runActs fails (destroyAll s) s

/-! ## Proofs -/

/-- The buffers that objects point at. -/
def owned (objs : List Obj) : List Nat := objs.filterMap fun o => o.join

theorem owned_set : ∀ (objs : List Obj) (i : Nat) (o : Obj), objs[i]? = some o → ∀ o' : Obj,
    (owned (objs.set i o')).Perm (o'.join.toList ++ owned (objs.eraseIdx i))
  | [], _, _, h, _ => by simp at h
  | x :: objs, 0, o, h, o' => by
    rw [List.set_cons_zero, List.eraseIdx_cons_zero]
    rw [owned, List.filterMap_cons]
    cases o'.join <;> exact List.Perm.refl _
  | x :: objs, i + 1, o, h, o' => by
    have ih := owned_set objs i o (by simpa using h) o'
    rw [List.set_cons_succ, List.eraseIdx_cons_succ]
    simp only [owned, List.filterMap_cons] at ih ⊢
    cases hx : x.join with
    | none => simpa [hx] using ih
    | some b =>
      simp only [hx]
      exact (ih.cons b).trans List.perm_middle.symm

theorem owned_get (objs : List Obj) (i : Nat) (o : Obj) (h : objs[i]? = some o) : (owned objs).Perm (o.join.toList ++ owned (objs.eraseIdx i)) := by
  have := owned_set objs i o h o
  have hset : objs.set i o = objs := by
    apply List.ext_getElem?
    intro k
    rw [List.getElem?_set]
    split
    · rename_i hik
      subst hik
      obtain ⟨hl, -⟩ := List.getElem?_eq_some_iff.mp h
      rw [if_pos hl, h]
    · rfl
  rwa [hset] at this

/-- The heap is in order and its live buffers are those of the list. -/
structure Good (h : Heap) (l : List Nat) : Prop where
  fresh : ∀ b ∈ h.live, b < h.next
  nodup : h.live.Nodup
  perm : h.live.Perm l

theorem Good.mono {h : Heap} {l l' : List Nat} (g : Good h l) (hp : l.Perm l') : Good h l' := ⟨g.fresh, g.nodup, g.perm.trans hp⟩

theorem Good.delete {h : Heap} {l : List Nat} {p : Option Nat} (g : Good h (p.toList ++ l)) : ∃ h', h.delete p = ok h' ∧ Good h' l := by
  cases p with
  | none => exact ⟨h, rfl, g⟩
  | some b =>
    have hb : b ∈ h.live := g.perm.mem_iff.mpr (by simp)
    refine ⟨{ h with live := h.live.erase b }, by rw [Heap.delete, if_pos hb], ?_, g.nodup.erase b, ?_⟩
    · intro c hc
      exact g.fresh c (List.mem_of_mem_erase hc)
    · have := g.perm.erase b
      simpa using this

theorem Good.alloc {h : Heap} {l : List Nat} (fails : Nat → Bool) (g : Good h l) :
    (∃ h', h.alloc fails = (none, h') ∧ Good h' l ∧ fails h.requests = true) ∨
    (∃ b h', h.alloc fails = (some b, h') ∧ Good h' (b :: l)) := by
  unfold Heap.alloc
  by_cases hf : fails h.requests
  · exact Or.inl ⟨{ h with requests := h.requests + 1 }, by rw [if_pos hf], ⟨g.fresh, g.nodup, g.perm⟩, hf⟩
  · refine Or.inr ⟨_, _, by rw [if_neg hf], ?_, ?_, g.perm.cons _⟩
    · intro b hb
      rcases List.mem_cons.mp hb with rfl | hb
      · exact Nat.lt_succ_self _
      · exact Nat.lt_succ_of_lt (g.fresh b hb)
    · exact List.nodup_cons.mpr ⟨fun hm => absurd (g.fresh _ hm) (Nat.lt_irrefl _), g.nodup⟩

theorem Good.grow {h : Heap} {l : List Nat} (fails : Nat → Bool) (g : Good h l) : Good (h.grow fails).2 l := ⟨g.fresh, g.nodup, g.perm⟩

/-- Every live buffer is pointed at by exactly one object, except those lost by reads that threw. -/
def Inv (s : State) : Prop := ∃ lost : List Nat, Good s.heap (owned s.objs ++ lost) ∧ lost.length = s.log.count .readThrew

/-- What one action does to a state in order: if it is not an assignment that runs out of memory, the state is in order again. -/
def Step (fails : Nat → Bool) (s s' : State) : Prop :=
  ∃ es, s'.log = s.log ++ es ∧ ((.assignThrew ∉ es) → Inv s') ∧ ((∀ k, fails k = false) → ∀ e ∈ es, e = .done ∨ e = .refused)

theorem count_snoc (l : List Event) (e : Event) (he : e ≠ .readThrew) : (l ++ [e]).count .readThrew = l.count .readThrew := by
  rw [List.count_append, List.count_singleton, if_neg (by simpa using he), Nat.add_zero]

theorem Step.of {fails : Nat → Bool} {s : State} {h : Heap} {objs : List Obj} {e : Event} {lost : List Nat} (he : e ≠ .readThrew)
    (hl : lost.length = s.log.count .readThrew) (g : e ≠ .assignThrew → Good h (owned objs ++ lost))
    (hn : (∀ k, fails k = false) → e = .done ∨ e = .refused) : Step fails s (s.log' h objs e) := by
  refine ⟨[e], rfl, fun hm => ⟨lost, g (by simpa [eq_comm] using hm), ?_⟩, fun hk x hx => ?_⟩
  · rw [State.log', count_snoc _ _ he, hl]
  · rw [List.mem_singleton] at hx
    rw [hx]
    exact hn hk

theorem grow_fst (fails : Nat → Bool) (h : Heap) : h.grow fails = (fails h.requests, (h.grow fails).2) := rfl

theorem owned_snoc (objs : List Obj) (b : Nat) : (owned (objs ++ [some (some b)])).Perm (b :: owned objs) := by
  simp only [owned, List.filterMap_append]
  exact List.perm_append_comm

theorem make_step (fails : Nat → Bool) (s : State) (hi : Inv s) : Step fails s (make fails s) := by
  obtain ⟨lost, g, hl⟩ := hi
  unfold make
  rw [grow_fst]
  simp only
  by_cases ht : fails s.heap.requests
  · rw [if_pos ht]
    exact Step.of (by decide) hl (fun _ => g.grow fails) (fun hk => by rw [hk] at ht; cases ht)
  · rw [if_neg ht]
    rcases (g.grow fails).alloc fails with ⟨h', e, g', hf⟩ | ⟨b, h', e, g'⟩
    · rw [e]
      exact Step.of (by decide) hl (fun _ => g') (fun hk => by rw [hk] at hf; cases hf)
    · rw [e]
      exact Step.of (by decide) hl (fun _ => g'.mono ((owned_snoc _ _).symm.append_right lost)) (fun _ => Or.inl rfl)

theorem makeCompressible_step (fails : Nat → Bool) (s : State) (hi : Inv s) : ∃ s', makeCompressible fails s = ok s' ∧ Step fails s s' := by
  obtain ⟨lost, g, hl⟩ := hi
  unfold makeCompressible
  rw [grow_fst]
  simp only
  by_cases ht : fails s.heap.requests
  · rw [if_pos ht]
    exact ⟨_, rfl, Step.of (by decide) hl (fun _ => g.grow fails) (fun hk => by rw [hk] at ht; cases ht)⟩
  · rw [if_neg ht]
    rcases (g.grow fails).alloc fails with ⟨h', e, g', hf⟩ | ⟨b, h', e, g'⟩
    · rw [e]
      exact ⟨_, rfl, Step.of (by decide) hl (fun _ => g') (fun hk => by rw [hk] at hf; cases hf)⟩
    · rw [e]
      simp only
      rw [grow_fst]
      simp only
      by_cases ht2 : fails h'.requests
      · rw [if_pos ht2]
        obtain ⟨h'', e2, g2⟩ := Good.delete (p := some b) (l := owned s.objs ++ lost) (g'.grow fails)
        rw [e2, ok_bind]
        exact ⟨_, rfl, Step.of (by decide) hl (fun _ => g2) (fun hk => by rw [hk] at ht2; cases ht2)⟩
      · rw [if_neg ht2]
        exact ⟨_, rfl, Step.of (by decide) hl (fun _ => (g'.grow fails).mono ((owned_snoc _ _).symm.append_right lost)) (fun _ => Or.inl rfl)⟩

theorem getRest {s : State} {i : Nat} {p : Option Nat} {lost : List Nat} (hp : s.objs[i]? = some (some p)) (g : Good s.heap (owned s.objs ++ lost)) :
    Good s.heap (p.toList ++ (owned (s.objs.eraseIdx i) ++ lost)) := by
  rw [← List.append_assoc]
  exact g.mono ((owned_get _ _ _ hp).append_right lost)

theorem setRest {s : State} {i : Nat} {p : Option Nat} {lost : List Nat} {h : Heap} (hp : s.objs[i]? = some (some p)) (o : Obj)
    (g : Good h (o.join.toList ++ (owned (s.objs.eraseIdx i) ++ lost))) : Good h (owned (s.objs.set i o) ++ lost) := by
  rw [← List.append_assoc] at g
  exact g.mono ((owned_set _ _ _ hp o).symm.append_right lost)

theorem assign_step (fails : Nat → Bool) (s : State) (hi : Inv s) (i : Nat) (p : Option Nat) (hp : s.objs[i]? = some (some p)) :
    ∃ s', assign fails s i p = ok s' ∧ Step fails s s' := by
  obtain ⟨lost, g, hl⟩ := hi
  unfold assign
  obtain ⟨h1, e1, g1⟩ := Good.delete (getRest hp g)
  rw [e1, ok_bind]
  rcases g1.alloc fails with ⟨h', e, g', hf⟩ | ⟨b, h', e, g'⟩
  · rw [e]
    exact ⟨_, rfl, Step.of (by decide) hl (fun h => absurd rfl h) (fun hk => by rw [hk] at hf; cases hf)⟩
  · rw [e]
    simp only
    rw [grow_fst]
    simp only
    refine ⟨_, rfl, Step.of (by split <;> decide) hl (fun _ => setRest hp _ (g'.grow fails)) (fun hk => ?_)⟩
    rw [hk]
    exact Or.inl rfl

theorem Step.ofRead {fails : Nat → Bool} {s : State} {h : Heap} {objs : List Obj} {lost : List Nat} (b : Nat)
    (hl : lost.length = s.log.count .readThrew) (g : Good h (owned objs ++ (b :: lost)))
    (hn : ¬ ∀ k, fails k = false) : Step fails s (s.log' h objs .readThrew) := by
  refine ⟨[.readThrew], rfl, fun _ => ⟨b :: lost, g, ?_⟩, fun hk => absurd hk hn⟩
  rw [State.log', List.count_append, ← hl]
  rfl

theorem read_step (fails : Nat → Bool) (s : State) (hi : Inv s) (i : Nat) (p : Option Nat) (hp : s.objs[i]? = some (some p)) (f : FileShape) :
    ∃ s', read fails s i p f = ok s' ∧ Step fails s s' := by
  obtain ⟨lost, g, hl⟩ := hi
  obtain ⟨h1, e1, g1⟩ := Good.delete (getRest hp g)
  have hlate : ∀ (h : Heap) (b : Nat), Good h (b :: (owned (s.objs.eraseIdx i) ++ lost)) → Good h (owned (s.objs.set i (some none)) ++ (b :: lost)) := by
    intro h b gb
    apply gb.mono
    refine List.Perm.trans ?_ (List.perm_middle (l₁ := owned (s.objs.set i (some none)))).symm
    exact ((owned_set _ _ _ hp (some none)).symm.append_right lost).cons b
  have hnull : ∀ h, Good h (owned (s.objs.eraseIdx i) ++ lost) → Good h (owned (s.objs.set i (some none)) ++ lost) := fun h gh => setRest hp (some none) gh
  cases f with
  | cannotOpen => exact ⟨_, rfl, Step.of (by decide) hl (fun _ => g) (fun _ => Or.inr rfl)⟩
  | noSalts =>
    unfold read
    simp only
    rw [e1, ok_bind]
    rcases g1.alloc fails with ⟨h', e, g', hf⟩ | ⟨b, h', e, g'⟩
    · rw [e]
      exact ⟨_, rfl, Step.of (by decide) hl (fun _ => hnull _ g') (fun hk => by rw [hk] at hf; cases hf)⟩
    · rw [e]
      simp only
      obtain ⟨h2, e2, g2⟩ := Good.delete (p := some b) g'
      rw [e2, ok_bind]
      exact ⟨_, rfl, Step.of (by decide) hl (fun _ => hnull _ g2) (fun _ => Or.inr rfl)⟩
  | noTable =>
    unfold read
    simp only
    rw [e1, ok_bind]
    rcases g1.alloc fails with ⟨h', e, g', hf⟩ | ⟨b, h', e, g'⟩
    · rw [e]
      exact ⟨_, rfl, Step.of (by decide) hl (fun _ => hnull _ g') (fun hk => by rw [hk] at hf; cases hf)⟩
    · rw [e]
      simp only
      rw [grow_fst]
      simp only
      by_cases ht : fails h'.requests
      · rw [if_pos ht]
        exact ⟨_, rfl, Step.ofRead b hl (hlate _ b (g'.grow fails)) (fun hk => by rw [hk] at ht; cases ht)⟩
      · rw [if_neg ht]
        obtain ⟨h2, e2, g2⟩ := Good.delete (p := some b) (g'.grow fails)
        rw [e2, ok_bind]
        exact ⟨_, rfl, Step.of (by decide) hl (fun _ => hnull _ g2) (fun _ => Or.inr rfl)⟩
  | whole =>
    unfold read
    simp only
    rw [e1, ok_bind]
    rcases g1.alloc fails with ⟨h', e, g', hf⟩ | ⟨b, h', e, g'⟩
    · rw [e]
      exact ⟨_, rfl, Step.of (by decide) hl (fun _ => hnull _ g') (fun hk => by rw [hk] at hf; cases hf)⟩
    · rw [e]
      simp only
      rw [grow_fst]
      simp only
      by_cases ht : fails h'.requests
      · rw [if_pos ht]
        exact ⟨_, rfl, Step.ofRead b hl (hlate _ b (g'.grow fails)) (fun hk => by rw [hk] at ht; cases ht)⟩
      · rw [if_neg ht]
        rcases (g'.grow fails).alloc fails with ⟨h2, e2, g2, hf⟩ | ⟨c, h2, e2, g2⟩
        · rw [e2]
          exact ⟨_, rfl, Step.ofRead b hl (hlate _ b g2) (fun hk => by rw [hk] at hf; cases hf)⟩
        · rw [e2]
          simp only
          obtain ⟨h3, e3, g3⟩ := Good.delete (p := some b) (g2.mono (List.Perm.swap b c _))
          rw [e3, ok_bind]
          exact ⟨_, rfl, Step.of (by decide) hl (fun _ => setRest hp (some (some c)) g3) (fun _ => Or.inl rfl)⟩

theorem write_step (fails : Nat → Bool) (s : State) (hi : Inv s) (begun : Bool) : ∃ s', write fails s begun = ok s' ∧ Step fails s s' := by
  obtain ⟨lost, g, hl⟩ := hi
  unfold write
  split
  · exact ⟨_, rfl, Step.of (by decide) hl (fun _ => g) (fun _ => Or.inr rfl)⟩
  rcases g.alloc fails with ⟨h', e, g', hf⟩ | ⟨b, h', e, g'⟩
  · rw [e]
    exact ⟨_, rfl, Step.of (by decide) hl (fun _ => g') (fun hk => by rw [hk] at hf; cases hf)⟩
  · rw [e]
    simp only
    obtain ⟨h2, e2, g2⟩ := Good.delete (p := some b) g'
    rw [e2, ok_bind]
    exact ⟨_, rfl, Step.of (by decide) hl (fun _ => g2) (fun _ => Or.inl rfl)⟩

theorem compress_step (fails : Nat → Bool) (s : State) (hi : Inv s) (i : Nat) (p : Option Nat) (hp : s.objs[i]? = some (some p)) (accepted : Bool) :
    ∃ s', compress fails s i p accepted = ok s' ∧ Step fails s s' := by
  obtain ⟨lost, g, hl⟩ := hi
  unfold compress
  split
  · exact ⟨_, rfl, Step.of (by decide) hl (fun _ => g) (fun _ => Or.inr rfl)⟩
  rcases g.alloc fails with ⟨h', e, g', hf⟩ | ⟨b, h', e, g'⟩
  · rw [e]
    exact ⟨_, rfl, Step.of (by decide) hl (fun _ => g') (fun hk => by rw [hk] at hf; cases hf)⟩
  · rw [e]
    simp only
    obtain ⟨h2, e2, g2⟩ := Good.delete (p := p) (l := b :: (owned (s.objs.eraseIdx i) ++ lost)) (g'.mono (by
      refine List.Perm.trans (List.Perm.cons b ((owned_get _ _ _ hp).append_right lost)) ?_
      rw [List.append_assoc]
      exact List.perm_middle.symm))
    rw [e2, ok_bind, grow_fst]
    simp only
    refine ⟨_, rfl, Step.of (by split <;> decide) hl (fun _ => setRest hp (some (some b)) (g2.grow fails)) (fun hk => ?_)⟩
    rw [hk]
    exact Or.inl rfl

theorem destroy_step (fails : Nat → Bool) (s : State) (hi : Inv s) (i : Nat) (p : Option Nat) (hp : s.objs[i]? = some (some p)) :
    ∃ s', destroy s i p = ok s' ∧ Step fails s s' := by
  obtain ⟨lost, g, hl⟩ := hi
  unfold destroy
  obtain ⟨h1, e1, g1⟩ := Good.delete (getRest hp g)
  rw [e1, ok_bind]
  exact ⟨_, rfl, Step.of (by decide) hl (fun _ => setRest hp none g1) (fun _ => Or.inl rfl)⟩

theorem Step.refl (fails : Nat → Bool) (s : State) (hi : Inv s) : Step fails s s := ⟨[], by simp, fun _ => hi, by simp⟩

theorem Act.run_step (fails : Nat → Bool) (s : State) (hi : Inv s) (a : Act) : ∃ s', a.run fails s = ok s' ∧ Step fails s s' := by
  cases a with
  | makeEmpty =>
    obtain ⟨lost, g, hl⟩ := hi
    refine ⟨_, rfl, Step.of (by decide) hl (fun _ => ?_) (fun _ => Or.inl rfl)⟩
    simpa [owned] using g
  | make => exact ⟨_, rfl, make_step fails s hi⟩
  | makeCompressible => exact makeCompressible_step fails s hi
  | assign i j =>
    simp only [Act.run]
    split
    · rename_i p q hp hq
      split
      · exact assign_step fails s hi i p hp
      · obtain ⟨lost, g, hl⟩ := hi
        exact ⟨_, rfl, Step.of (by decide) hl (fun _ => g) (fun _ => Or.inl rfl)⟩
    · exact ⟨_, rfl, Step.refl fails s hi⟩
  | read i f =>
    simp only [Act.run]
    split
    · rename_i p hp
      exact read_step fails s hi i p hp f
    · exact ⟨_, rfl, Step.refl fails s hi⟩
  | write i begun =>
    simp only [Act.run]
    split
    · exact write_step fails s hi begun
    · exact ⟨_, rfl, Step.refl fails s hi⟩
  | compress i accepted =>
    simp only [Act.run]
    split
    · rename_i p hp
      exact compress_step fails s hi i p hp accepted
    · exact ⟨_, rfl, Step.refl fails s hi⟩
  | destroy i =>
    simp only [Act.run]
    split
    · rename_i p hp
      exact destroy_step fails s hi i p hp
    · exact ⟨_, rfl, Step.refl fails s hi⟩

/-- The log only grows. -/
theorem Act.run_log (fails : Nat → Bool) (s s' : State) (a : Act) (h : a.run fails s = ok s') : ∃ es, s'.log = s.log ++ es := by
  have hk : ∀ (hp : Heap) (o : List Obj) (e : Event), ok (s.log' hp o e) = ok s' → ∃ es, s'.log = s.log ++ es := by
    intro hp o e h
    rw [← Outcome.ok.inj h]
    exact ⟨_, rfl⟩
  have hb : ∀ (x : Outcome Heap) (o : List Obj) (e : Event), (do let h ← x; ok (s.log' h o e)) = ok s' → ∃ es, s'.log = s.log ++ es := by
    intro x o e h
    obtain ⟨t, -, h⟩ := bind_eq_ok.mp h
    exact hk _ _ _ h
  have hs : ok s = ok s' → ∃ es, s'.log = s.log ++ es := fun h => ⟨[], by rw [Outcome.ok.inj h, List.append_nil]⟩
  cases a with
  | makeEmpty => exact hk _ _ _ h
  | make =>
    simp only [Act.run, FilterMemory.make] at h
    repeat' split at h
    all_goals exact hk _ _ _ h
  | makeCompressible =>
    simp only [Act.run, FilterMemory.makeCompressible] at h
    repeat' split at h
    all_goals first | exact hk _ _ _ h | exact hb _ _ _ h
  | assign i j =>
    simp only [Act.run] at h
    split at h
    · split at h
      · simp only [FilterMemory.assign] at h
        obtain ⟨t, -, h⟩ := bind_eq_ok.mp h
        repeat' split at h
        all_goals exact hk _ _ _ h
      · exact hk _ _ _ h
    · exact hs h
  | read i f =>
    simp only [Act.run] at h
    split at h
    · cases f <;> simp only [FilterMemory.read] at h
      · exact hk _ _ _ h
      all_goals
        obtain ⟨t, -, h⟩ := bind_eq_ok.mp h
        repeat' split at h
        all_goals first | exact hk _ _ _ h | exact hb _ _ _ h
    · exact hs h
  | write i begun =>
    simp only [Act.run] at h
    split at h
    · simp only [FilterMemory.write] at h
      repeat' split at h
      all_goals first | exact hk _ _ _ h | exact hb _ _ _ h
    · exact hs h
  | compress i accepted =>
    simp only [Act.run] at h
    split at h
    · simp only [FilterMemory.compress] at h
      split at h
      · exact hk _ _ _ h
      split at h
      · exact hk _ _ _ h
      · obtain ⟨t, -, h⟩ := bind_eq_ok.mp h
        repeat' split at h
        all_goals exact hk _ _ _ h
    · exact hs h
  | destroy i =>
    simp only [Act.run] at h
    split at h
    · exact hb _ _ _ h
    · exact hs h

theorem runActs_log (fails : Nat → Bool) : ∀ (as : List Act) (s s' : State), runActs fails as s = ok s' → ∃ es, s'.log = s.log ++ es
  | [], s, s', h => ⟨[], by rw [Outcome.ok.inj h, List.append_nil]⟩
  | a :: as, s, s', h => by
    rw [runActs] at h
    obtain ⟨t, h1, h2⟩ := bind_eq_ok.mp h
    obtain ⟨es, e1⟩ := Act.run_log fails s t a h1
    obtain ⟨es', e2⟩ := runActs_log fails as t s' h2
    exact ⟨es ++ es', by rw [e2, e1, List.append_assoc]⟩

/-- A run whose log has no failed assignment ends in order. -/
theorem runActs_inv (fails : Nat → Bool) : ∀ (as : List Act) (s s' : State), Inv s → runActs fails as s = ok s' → Event.assignThrew ∉ s'.log → Inv s'
  | [], s, s', h, e, _ => by rw [← Outcome.ok.inj e]; exact h
  | a :: as, s, s', h, e, hn => by
    obtain ⟨s1, e1, es, hlog, hinv, -⟩ := Act.run_step fails s h a
    rw [runActs, e1, ok_bind] at e
    refine runActs_inv fails as s1 s' (hinv fun hm => hn ?_) e hn
    obtain ⟨es', hl⟩ := runActs_log fails as s1 s' e
    rw [hl, hlog]
    exact List.mem_append_left _ (List.mem_append_right _ hm)

/-- A program without an assignment that runs out of memory stays in order. -/
theorem runActs_step (fails : Nat → Bool) : ∀ (as : List Act) (s : State), Inv s →
    (∃ k s', runActs fails (as.take k) s = ok s' ∧ .assignThrew ∈ s'.log.drop s.log.length) ∨
    (∃ s', runActs fails as s = ok s' ∧ Inv s' ∧ ∃ es, s'.log = s.log ++ es ∧ .assignThrew ∉ es ∧ ((∀ k, fails k = false) → ∀ e ∈ es, e = .done ∨ e = .refused))
  | [], s, hi => Or.inr ⟨s, rfl, hi, [], by simp, by simp, by simp⟩
  | a :: as, s, hi => by
    obtain ⟨s1, e1, es, hlog, hinv, hok⟩ := Act.run_step fails s hi a
    by_cases hm : .assignThrew ∈ es
    · left
      refine ⟨1, s1, ?_, ?_⟩
      · rw [List.take_succ_cons, List.take_zero, runActs, e1, ok_bind]
        rfl
      · rw [hlog, List.drop_left]
        exact hm
    · rcases runActs_step fails as s1 (hinv hm) with ⟨k, s2, e2, hs⟩ | ⟨s2, e2, hi2, es2, hlog2, hn2, hok2⟩
      · left
        refine ⟨k + 1, s2, ?_, ?_⟩
        · rw [List.take_succ_cons, runActs, e1, ok_bind, e2]
        · rw [hlog, List.length_append, ← List.drop_drop] at hs
          exact List.mem_of_mem_drop hs
      · right
        refine ⟨s2, ?_, hi2, es ++ es2, by rw [hlog2, hlog, List.append_assoc], ?_, ?_⟩
        · rw [runActs, e1, ok_bind, e2]
        · simp only [List.mem_append, not_or]
          exact ⟨hm, hn2⟩
        · intro hk e he
          rcases List.mem_append.mp he with he | he
          · exact hok hk e he
          · exact hok2 hk e he

theorem inv_start : Inv .start := ⟨[], ⟨by simp [State.start], by simp [State.start], List.Perm.refl _⟩, rfl⟩

/-- Destroying the objects numbered below `n` leaves none of them. -/
theorem destroy_range (fails : Nat → Bool) : ∀ (n : Nat) (s : State), Inv s →
    ∃ s', runActs fails ((List.range n).map .destroy) s = ok s' ∧ Inv s' ∧ s'.objs.length = s.objs.length ∧ (∀ i, i < n → ∀ o, s'.objs[i]? = some o → o = none) ∧
      ∃ k, s'.log = s.log ++ List.replicate k .done := by
  intro n
  induction n with
  | zero => intro s hi; exact ⟨s, rfl, hi, rfl, by simp, 0, by simp⟩
  | succ n ih =>
    intro s hi
    obtain ⟨s1, e1, hi1, hlen, hnone, k, hlog⟩ := ih s hi
    have happ : ∀ (as bs : List Act) (s : State), runActs fails (as ++ bs) s = (do let s ← runActs fails as s; runActs fails bs s) := by
      intro as bs
      induction as with
      | nil => intro s; rfl
      | cons a as ih =>
        intro s
        rw [List.cons_append, runActs, runActs]
        cases a.run fails s with
        | ok x => rw [ok_bind, ok_bind, ih]
        | ub => rfl
        | diverge => rfl
        | thrown => rfl
    rw [List.range_succ, List.map_append, List.map_singleton, happ, e1, ok_bind, runActs]
    have hrun : (Act.destroy n).run fails s1 = match s1.objs[n]? with
        | some (some p) => destroy s1 n p
        | _ => ok s1 := rfl
    rw [hrun]
    split
    · rename_i p hp
      obtain ⟨s2, e2, es, hl2, hinv2, -⟩ := destroy_step fails s1 hi1 n p hp
      have hs2 : s2.objs = s1.objs.set n none ∧ s2.log = s1.log ++ [.done] := by
        unfold destroy at e2
        obtain ⟨h, -, e⟩ := bind_eq_ok.mp e2
        rw [← Outcome.ok.inj e]
        exact ⟨rfl, rfl⟩
      have hes : es = [.done] := by
        rw [hs2.2] at hl2
        exact (List.append_cancel_left hl2).symm
      rw [e2, ok_bind, runActs]
      refine ⟨s2, rfl, hinv2 (by rw [hes]; decide), by rw [hs2.1, List.length_set, hlen], ?_, k + 1, ?_⟩
      · intro i hin o ho
        rw [hs2.1, List.getElem?_set] at ho
        split at ho
        · split at ho
          · exact (Option.some.inj ho).symm
          · cases ho
        · exact hnone i (by omega) o ho
      · rw [hs2.2, hlog, List.append_assoc, List.replicate_succ']
    · rename_i hp
      rw [ok_bind, runActs]
      refine ⟨s1, rfl, hi1, hlen, ?_, k, hlog⟩
      intro i hin o ho
      by_cases h : i = n
      · subst h
        cases o with
        | none => rfl
        | some p => exact absurd ho (hp p)
      · exact hnone i (by omega) o ho

theorem whole_spec (fails : Nat → Bool) (s : State) (hi : Inv s) :
    ∃ s', runActs fails (destroyAll s) s = ok s' ∧ s'.heap.live.length = s'.log.count .readThrew ∧ ∃ k, s'.log = s.log ++ List.replicate k .done := by
  obtain ⟨s', e, ⟨lost, g, hl⟩, hlen, hnone, k, hlog⟩ := destroy_range fails s.objs.length s hi
  refine ⟨s', e, ?_, k, hlog⟩
  have : owned s'.objs = [] := by
    rw [owned, List.filterMap_eq_nil_iff]
    intro o ho
    obtain ⟨i, hi', rfl⟩ := List.mem_iff_getElem.mp ho
    rw [hnone i (by omega) _ (List.getElem?_eq_getElem hi')]
    rfl
  rw [g.perm.length_eq, this, List.nil_append, hl]

/-- **C160.** While there is memory: whatever a program does with filters (constructing, assigning, reading, writing, compressing, destroying, in any order), no
buffer is deleted twice, and when all filters are destroyed no buffer is left. -/
theorem C160_enough_memory (as : List Act) : ∃ s, whole (fun _ => false) as = ok s ∧ s.heap.live = [] ∧ ∀ e ∈ s.log, e = .done ∨ e = .refused := by
  unfold whole
  rcases runActs_step (fun _ => false) as .start inv_start with ⟨k, s', e, hs⟩ | ⟨s', e, hi, es, hlog, hn, hok⟩
  · exfalso
    rcases runActs_step (fun _ => false) (as.take k) .start inv_start with ⟨k', s'', e'', hs''⟩ | ⟨s'', e'', hi, es, hlog, hn, hok⟩
    · have key : ∀ (as : List Act) (s s' : State), Inv s → runActs (fun _ => false) as s = ok s' → ∃ es, s'.log = s.log ++ es ∧ Event.assignThrew ∉ es := by
        intro as
        induction as with
        | nil => intro s s' _ h; cases h; exact ⟨[], by simp, by simp⟩
        | cons a as ih =>
          intro s s' hi h
          obtain ⟨s1, e1, es, hlog, hinv, hok⟩ := Act.run_step (fun _ => false) s hi a
          have hm : Event.assignThrew ∉ es := fun hm => by rcases hok (fun _ => rfl) _ hm with h | h <;> cases h
          rw [runActs, e1, ok_bind] at h
          obtain ⟨es', hl', hn'⟩ := ih s1 s' (hinv hm) h
          exact ⟨es ++ es', by rw [hl', hlog, List.append_assoc], by simp only [List.mem_append, not_or]; exact ⟨hm, hn'⟩⟩
      obtain ⟨es, hl, hn⟩ := key _ _ _ inv_start e
      rw [hl, List.drop_left] at hs
      exact hn hs
    · rw [e''] at e
      cases Outcome.ok.inj e
      rw [hlog, List.drop_left] at hs
      exact hn hs
  · rw [e, ok_bind]
    obtain ⟨s2, e2, hlen, k, hl2⟩ := whole_spec (fun _ => false) s' hi
    refine ⟨s2, e2, ?_, ?_⟩
    · apply List.eq_nil_of_length_eq_zero
      rw [hlen, List.count_eq_zero, hl2, hlog]
      intro hm
      rcases List.mem_append.mp hm with hm | hm
      · rcases List.mem_append.mp hm with hm | hm
        · simp [State.start] at hm
        · rcases hok (fun _ => rfl) _ hm with h | h <;> cases h
      · cases List.eq_of_mem_replicate hm
    · intro x hx
      rw [hl2, hlog] at hx
      rcases List.mem_append.mp hx with hx | hx
      · rcases List.mem_append.mp hx with hx | hx
        · simp [State.start] at hx
        · exact hok (fun _ => rfl) _ hx
      · exact Or.inl (List.eq_of_mem_replicate hx)

/-- Whichever requests for memory fail: if no assignment fails for want of a table, no buffer is deleted twice, and what is left when all filters are destroyed is
one buffer for each read that threw after it had got the buffer for the file.  Missing: failing assignments (`C160_failed_assignment`). -/
theorem C160_any_failure_partial (fails : Nat → Bool) (as : List Act) :
    (∃ k s, runActs fails (as.take k) .start = ok s ∧ .assignThrew ∈ s.log) ∨
    (∃ s, whole fails as = ok s ∧ s.heap.live.length = s.log.count .readThrew) := by
  rcases runActs_step fails as .start inv_start with ⟨k, s', e, hs⟩ | ⟨s', e, hi, -⟩
  · exact Or.inl ⟨k, s', e, List.mem_of_mem_drop hs⟩
  · right
    obtain ⟨s2, e2, hlen, -⟩ := whole_spec fails s' hi
    exact ⟨s2, by rw [whole, e, ok_bind, e2], hlen⟩

/-- An assignment that gets no memory for the table leaves the filter with a pointer to the deleted one: destroying the filter deletes it again, whatever happened
before. -/
theorem C160_failed_assignment (fails : Nat → Bool) (as : List Act) (s : State) (hrun : runActs fails as .start = ok s) (hgood : .assignThrew ∉ s.log)
    (i j b : Nat) (q : Option Nat) (hi : s.objs[i]? = some (some (some b))) (hj : s.objs[j]? = some (some q)) (hij : i ≠ j)
    (hf : fails s.heap.requests = true) : runActs fails [.assign i j, .destroy i] s = ub := by
  have hinv : Inv s := runActs_inv fails as _ _ inv_start hrun hgood
  obtain ⟨lost, g, -⟩ := hinv
  obtain ⟨h1, e1, g1⟩ := Good.delete (getRest hi g)
  have hb : b ∈ s.heap.live := (getRest hi g).perm.mem_iff.mpr (by simp)
  have hreq : h1 = { s.heap with live := s.heap.live.erase b } := by
    rw [Heap.delete, if_pos hb] at e1
    exact (Outcome.ok.inj e1).symm
  rw [runActs, Act.run, hi, hj]
  simp only
  rw [if_pos hij, assign, e1, ok_bind, hreq, Heap.alloc, if_pos hf, ok_bind, runActs, Act.run]
  simp only [State.log']
  rw [hi]
  simp only
  rw [destroy, Heap.delete, if_neg]
  · rfl
  · exact fun hm => absurd ((List.Nodup.mem_erase_iff g.nodup).mp hm).1 (by simp)

/-- A read that runs out of memory once it has the file's buffer loses that buffer for good. -/
theorem C160_failed_read (fails : Nat → Bool) (as : List Act) (s : State) (hrun : runActs fails as .start = ok s) (hgood : .assignThrew ∉ s.log)
    (i : Nat) (p : Option Nat) (hi : s.objs[i]? = some (some p)) (h1 : fails s.heap.requests = false) (h2 : fails (s.heap.requests + 1) = true) :
    ∃ s', whole fails (as ++ [.read i .whole]) = ok s' ∧ s'.heap.live.length = s.log.count .readThrew + 1 := by
  have hinv : Inv s := runActs_inv fails as _ _ inv_start hrun hgood
  obtain ⟨lost, g, hl⟩ := hinv
  obtain ⟨h1', e1, g1⟩ := Good.delete (getRest hi g)
  have hreq : h1'.requests = s.heap.requests := by
    cases p with
    | none => rw [Heap.delete] at e1; rw [← Outcome.ok.inj e1]
    | some b =>
      rw [Heap.delete] at e1
      split at e1
      · rw [← Outcome.ok.inj e1]
      · cases e1
  have happ : ∀ (as bs : List Act) (s : State), runActs fails (as ++ bs) s = (do let s ← runActs fails as s; runActs fails bs s) := by
    intro as bs
    induction as with
    | nil => intro s; rfl
    | cons a as ih =>
      intro s
      rw [List.cons_append, runActs, runActs]
      cases a.run fails s with
      | ok x => rw [ok_bind, ok_bind, ih]
      | ub => rfl
      | diverge => rfl
      | thrown => rfl
  obtain ⟨s', e, hstep⟩ := read_step fails s ⟨lost, g, hl⟩ i p hi .whole
  have hs' : s'.log = s.log ++ [.readThrew] := by
    rw [read] at e
    · rw [e1, ok_bind, Heap.alloc, hreq, h1] at e
      simp only [Bool.false_eq_true, if_false, Heap.grow, hreq, h2, if_true] at e
      rw [← Outcome.ok.inj e]
      rfl
    · intro h; cases h
  obtain ⟨es, hlog, hinv', -⟩ := hstep
  have hes : es = [.readThrew] := List.append_cancel_left (hlog.symm.trans hs')
  have hi' := hinv' (by rw [hes]; decide)
  obtain ⟨s2, e2, hlen, k, hl2⟩ := whole_spec fails s' hi'
  refine ⟨s2, ?_, ?_⟩
  · rw [whole, happ, hrun, ok_bind, runActs]
    simp only [Act.run, hi]
    rw [e, ok_bind, runActs, ok_bind, e2]
  · rw [hlen, hl2, hs', List.count_append, List.count_append]
    have : List.count Event.readThrew (List.replicate k .done) = 0 := by
      rw [List.count_eq_zero]
      intro hm
      cases List.eq_of_mem_replicate hm
    rw [this]
    rfl

/-- Nothing done with one filter touches another: an action names at most one filter that it may change. -/
def Act.changes : Act → Option Nat
  | .assign i _ | .read i _ | .compress i _ | .destroy i => some i
  | _ => none

/-- Whether or not it runs out of memory, a call leaves every other existing filter with its table. -/
theorem C160_others_keep (fails : Nat → Bool) (s s' : State) (a : Act) (h : a.run fails s = ok s') (k : Nat) (hk : a.changes ≠ some k) (hlt : k < s.objs.length) :
    s'.objs[k]? = s.objs[k]? := by
  have hset : ∀ (i : Nat) (o : Obj), i ≠ k → (s.objs.set i o)[k]? = s.objs[k]? := fun i o hne => by rw [List.getElem?_set, if_neg hne]
  have h0 : ∀ (hp : Heap) (e : Event), ok (s.log' hp s.objs e) = ok s' → s'.objs[k]? = s.objs[k]? := by
    intro hp e h
    rw [← Outcome.ok.inj h]
    rfl
  have h1 : ∀ (hp : Heap) (o : Obj) (e : Event), ok (s.log' hp (s.objs ++ [o]) e) = ok s' → s'.objs[k]? = s.objs[k]? := by
    intro hp o e h
    rw [← Outcome.ok.inj h]
    exact List.getElem?_append_left hlt
  have h2 : ∀ (hp : Heap) (i : Nat) (o : Obj) (e : Event), i ≠ k → ok (s.log' hp (s.objs.set i o) e) = ok s' → s'.objs[k]? = s.objs[k]? := by
    intro hp i o e hne h
    rw [← Outcome.ok.inj h]
    exact hset i o hne
  have hs : ok s = ok s' → s'.objs[k]? = s.objs[k]? := fun h => by rw [Outcome.ok.inj h]
  cases a with
  | makeEmpty => exact h1 _ _ _ h
  | make =>
    simp only [Act.run, FilterMemory.make] at h
    repeat' split at h
    all_goals first | exact h0 _ _ h | exact h1 _ _ _ h
  | makeCompressible =>
    simp only [Act.run, FilterMemory.makeCompressible] at h
    repeat' split at h
    · exact h0 _ _ h
    · exact h0 _ _ h
    · obtain ⟨t, -, h⟩ := bind_eq_ok.mp h
      exact h0 _ _ h
    · exact h1 _ _ _ h
  | assign i j =>
    have hne : i ≠ k := fun e => hk (by rw [e]; rfl)
    simp only [Act.run] at h
    split at h
    · split at h
      · simp only [FilterMemory.assign] at h
        obtain ⟨t, -, h⟩ := bind_eq_ok.mp h
        repeat' split at h
        all_goals first | exact h0 _ _ h | exact h2 _ _ _ _ hne h
      · exact h0 _ _ h
    · exact hs h
  | read i f =>
    have hne : i ≠ k := fun e => hk (by rw [e]; rfl)
    simp only [Act.run] at h
    split at h
    · cases f <;> simp only [FilterMemory.read] at h
      · exact h0 _ _ h
      all_goals
        obtain ⟨t, -, h⟩ := bind_eq_ok.mp h
        repeat' split at h
        all_goals first
          | exact h2 _ _ _ _ hne h
          | (obtain ⟨t, -, h⟩ := bind_eq_ok.mp h
             exact h2 _ _ _ _ hne h)
    · exact hs h
  | write i begun =>
    simp only [Act.run] at h
    split at h
    · simp only [FilterMemory.write] at h
      repeat' split at h
      · exact h0 _ _ h
      · exact h0 _ _ h
      · obtain ⟨t, -, h⟩ := bind_eq_ok.mp h
        exact h0 _ _ h
    · exact hs h
  | compress i accepted =>
    have hne : i ≠ k := fun e => hk (by rw [e]; rfl)
    simp only [Act.run] at h
    split at h
    · simp only [FilterMemory.compress] at h
      split at h
      · exact h0 _ _ h
      split at h
      · exact h0 _ _ h
      · obtain ⟨t, -, h⟩ := bind_eq_ok.mp h
        repeat' split at h
        all_goals exact h2 _ _ _ _ hne h
    · exact hs h
  | destroy i =>
    have hne : i ≠ k := fun e => hk (by rw [e]; rfl)
    simp only [Act.run] at h
    split at h
    · obtain ⟨t, -, h⟩ := bind_eq_ok.mp h
      exact h2 _ _ _ _ hne h
    · exact hs h

/-- A program with two filters, a copy, a file and a compression: no buffer is left. -/
example : ∃ s, whole (fun _ => false) [.make, .makeCompressible, .assign 0 1, .write 0 true, .read 0 .noTable, .compress 1 true, .read 0 .whole] = ok s ∧ s.heap.live = [] ∧
    s.log.length = 9 := ⟨_, rfl, rfl, rfl⟩

/-- The fifth request fails: it is the table of the copy, and what was said of it holds. -/
example : runActs (fun k => k == 4) [.make, .make, .assign 0 1, .destroy 0] .start = ub := rfl

/-- The last request fails: it is the new table of the file's filter, and the file's buffer stays. -/
example : ∃ s, whole (fun k => k == 4) [.make, .read 0 .whole] = ok s ∧ s.heap.live.length = 1 := ⟨_, rfl, rfl⟩

/-- Other failures leave nothing. -/
example : ∃ s, whole (fun k => k == 1) [.make, .make, .read 0 .whole] = ok s ∧ s.heap.live = [] ∧ Event.threw ∈ s.log := ⟨_, rfl, rfl, by decide⟩

/-! ### `compress` stopping half way -/

/-- `compress` (20635-20649) when `size_list.push_back` throws: the tables have been exchanged, the list of sizes is the old one. -/
def compressThrew (f : Bloom.Filter) (raw fpp : Nat) : Outcome Bloom.Filter := do
  let (_, g) ← f.compress raw fpp
  ok { g with sizes := f.sizes }

/-- A `compress` that runs out of memory at its last statement leaves a filter that looks for keys behind its table: every key whose first bit lay in the part
that was cut off. -/
theorem C160_failed_compress (rand : UInt32 → Nat → UInt32) (fuel : Nat) (p : Bloom.Params) (f : Bloom.Filter) (hnew : Bloom.Filter.newCompressible rand fuel p = ok f)
    (h8 : 8 ∣ p.tableSize) (raw fpp : Nat) (h : 8 ≤ raw) (h1 : raw < p.tableSize) (h2 : p.tableSize ≤ 2 * (raw / 8 * 8))
    (key : List UInt8) (salt : UInt32) (rest : List UInt32) (hs : f.salts = salt :: rest) (hk : raw ≤ (Bloom.hashAp key salt).toNat % p.tableSize) :
    ∃ g, compressThrew f raw fpp = ok g ∧ g.contains key = ub := by
  have inv0 := Bloom.newCompressible_inv hnew h8 (by omega)
  have hsz : f.sizes = some [p.tableSize] := by
    unfold Bloom.Filter.newCompressible Bloom.Filter.new at hnew
    simp only [bind_eq_ok] at hnew
    obtain ⟨f', ⟨salts, _, h⟩, h'⟩ := hnew
    cases h
    cases h'
    rfl
  obtain ⟨g, hg, inv⟩ := (inv0.compress raw fpp).1 (by omega) h2
  refine ⟨{ g with sizes := f.sizes }, by rw [compressThrew, hg, ok_bind], ?_⟩
  have hsalts : g.salts = salt :: rest := inv.salts.trans hs
  rw [Bloom.Filter.contains]
  simp only [hsalts]
  rw [Bloom.containsLoop, Bloom.computeIndex]
  simp only [hsz, Bloom.reduce, Bloom.remainder]
  rw [if_neg (by omega), ok_bind, ok_bind]
  have hd : deref g.table ((Bloom.hashAp key salt).toNat % p.tableSize / 8) = ub := by
    have hl := inv.len
    rw [deref, List.getElem?_eq_none]
    rw [hl]
    omega
  rw [hd, ub_bind]

/-- 64 bits compressed to 40: the key `[3]` lay behind. -/
example : (do
    let f ← Bloom.Filter.newCompressible (fun _ _ => 0) 0 ⟨3, 64, 10, 0, 7⟩
    let f ← compressThrew f 44 0
    f.contains [3]) = ub := by decide +kernel

end Strtk.FilterMemory
