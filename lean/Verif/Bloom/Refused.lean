import Verif.Binary.Cut

/-!
# What `read_from_file` leaves in the filter it is called on (C166; strtk.hpp 20388-20429)

`readFile` of `Verif/Bloom/Model.lean` gives the filter read, or nothing.  Here the members are followed through the call, one after the other, for a filter that was in use
before, plain or compressible.  The null pointer in `bit_table_` is the empty table: neither has a cell that could be read or written.
-/

namespace Strtk.Bloom
open Outcome Mem Binary

/-- Calls joined with `&&` (20416-20424), each of which may change the filter. -/
def readChain : List (Filter → St → Outcome (Bool × Filter × St)) → Filter → St → Outcome (Bool × Filter × St)
  | [], f, st => ok (true, f, st)
  | r :: rs, f, st => do
    let (good, f, st) ← r f st
    if good then readChain rs f st else ok (false, f, st)

/-- `reader(member)` for a member of `n` bytes (20416-20422, 14132-14135): the member keeps its value when there are not enough bytes. -/
def readMember (n : Nat) (set : Nat → Filter → Filter) (f : Filter) (st : St) : Outcome (Bool × Filter × St) := do
  let (r, st) ← readPod n st
  match r with
  | none => ok (false, f, st)
  | some bs => ok (true, set (leNat bs) f, st)

/-- `reader(salt_)` (20423, 14053-14067): the vector is resized only when all of its bytes are there. -/
def readSalts (f : Filter) (st : St) : Outcome (Bool × Filter × St) := do
  let (good, salts, st) ← readPodVec (ok ()) 4 [] st
  if good then ok (true, { f with salts := salts.map fun b => UInt32.ofNat (leNat b) }, st) else ok (false, f, st)

/-- `reader(bit_table_,raw_table_size_)` (20424, 13957-13989): the table is allocated, and the size replaced, only when all of its bytes are there. -/
def readTable (f : Filter) (st : St) : Outcome (Bool × Filter × St) := do
  let (r, st) ← readPtr 1 st
  match r with
  | none => ok (false, f, st)
  | some table => ok (true, { f with table := table, rawSize := table.length }, st)

/-- The calls for the numbers (20416-20422). -/
def memberCalls : List (Filter → St → Outcome (Bool × Filter × St)) :=
  [readMember 4 fun v f => { f with saltCount := v },
   readMember 8 fun v f => { f with tableSize := v },
   readMember 8 fun v f => { f with rawSize := v },
   readMember 8 fun v f => { f with projected := v },
   readMember 4 fun v f => { f with inserted := v },
   readMember 8 fun v f => { f with seed := v },
   readMember 8 fun v f => { f with fpp := v }]

/-- The calls before the last (20416-20423). -/
def headCalls : List (Filter → St → Outcome (Bool × Filter × St)) := memberCalls ++ [readSalts]

/-- The members are reset before the file is looked at (20395-20407).  The base class knows nothing of `size_list`. -/
def Filter.reset (f : Filter) : Filter :=
  { f with salts := [], table := [], saltCount := 0, tableSize := 0, rawSize := 0, projected := 0, inserted := 0, seed := 0, fpp := 0 }

/-- `read_from_file` (20388-20429) of a file that can be opened and has the given contents. -/
def Filter.readInto (f : Filter) (contents : List UInt8) : Outcome (Bool × Filter) := do
  let (good, f, _) ← readChain (headCalls ++ [readTable]) f.reset (St.fresh contents)
  ok (good, f)

/-! ## Lemmas -/

theorem readMember_some {n : Nat} {st st1 : St} {bs : List UInt8} (set : Nat → Filter → Filter) (f : Filter) (h : readPod n st = ok (some bs, st1)) :
    readMember n set f st = ok (true, set (leNat bs) f, st1) := by
  unfold readMember; rw [h, ok_bind]

theorem readMember_none {n : Nat} {st st1 : St} (set : Nat → Filter → Filter) (f : Filter) (h : readPod n st = ok (none, st1)) :
    readMember n set f st = ok (false, f, st1) := by
  unfold readMember; rw [h, ok_bind]

theorem readChain_append (as bs : List (Filter → St → Outcome (Bool × Filter × St))) : ∀ (f : Filter) (st : St),
    readChain (as ++ bs) f st = (do let (good, f, st) ← readChain as f st; if good then readChain bs f st else ok (false, f, st)) := by
  induction as with
  | nil => intro f st; rfl
  | cons a as ih =>
    intro f st
    simp only [List.cons_append, readChain]
    cases a f st with
    | ok x =>
      obtain ⟨good, f1, st1⟩ := x
      rw [ok_bind, ok_bind]
      cases good with
      | true => simp only [if_true]; exact ih f1 st1
      | false => rfl
    | ub => rfl
    | thrown => rfl
    | diverge => rfl

/-- What a call keeps when it does not succeed. -/
def Keeps (r : Filter → St → Outcome (Bool × Filter × St)) : Prop := ∀ f st f' st', r f st = ok (false, f', st') → f' = f

theorem keeps_member (n : Nat) (set : Nat → Filter → Filter) : Keeps (readMember n set) := by
  intro f st f' st' h
  unfold readMember at h
  obtain ⟨⟨r, st1⟩, _, h2⟩ := bind_eq_ok.mp h
  cases r with
  | none => simp only [ok.injEq, Prod.mk.injEq, true_and] at h2; exact h2.1.symm
  | some bs => simp at h2

theorem keeps_salts : Keeps readSalts := by
  intro f st f' st' h
  unfold readSalts at h
  obtain ⟨⟨g, s, st1⟩, _, h2⟩ := bind_eq_ok.mp h
  cases g with
  | false => simp only [Bool.false_eq_true, if_false, ok.injEq, Prod.mk.injEq, true_and] at h2; exact h2.1.symm
  | true => simp at h2

theorem keeps_table : Keeps readTable := by
  intro f st f' st' h
  unfold readTable at h
  obtain ⟨⟨r, st1⟩, _, h2⟩ := bind_eq_ok.mp h
  cases r with
  | none => simp only [ok.injEq, Prod.mk.injEq, true_and] at h2; exact h2.1.symm
  | some bs => simp at h2

theorem mono_member (n : Nat) (set : Nat → Filter → Filter) : Mono (readMember n set) := by
  intro f st f' st' b h
  unfold readMember at h ⊢
  obtain ⟨⟨r, st1⟩, h1, h2⟩ := bind_eq_ok.mp h
  cases r with
  | none => simp at h2
  | some bs =>
    simp only [ok.injEq, Prod.mk.injEq, true_and] at h2
    rw [readPod_ext b h1, ok_bind]
    simp [h2]

theorem mono_salts : Mono readSalts := by
  intro f st f' st' b h
  unfold readSalts at h ⊢
  obtain ⟨⟨g, s, st1⟩, h1, h2⟩ := bind_eq_ok.mp h
  cases g with
  | false => simp at h2
  | true =>
    simp only [if_true, ok.injEq, Prod.mk.injEq, true_and] at h2
    rw [mono_podVec 4 [] st s st1 b h1, ok_bind]
    simp [h2]

theorem mono_chain : ∀ (rs : List (Filter → St → Outcome (Bool × Filter × St))), (∀ r ∈ rs, Mono r) → Mono (readChain rs)
  | [], _ => by
    intro f st f' st' b h
    simp only [readChain, ok.injEq, Prod.mk.injEq, true_and] at h ⊢
    exact ⟨h.1, by rw [h.2]⟩
  | r :: rs, hr => by
    intro f st f' st' b h
    simp only [readChain] at h ⊢
    obtain ⟨⟨g, f1, st1⟩, h1, h2⟩ := bind_eq_ok.mp h
    cases g with
    | false => simp at h2
    | true =>
      simp only [if_true] at h2
      rw [hr r (by simp) f st f1 st1 b h1, ok_bind]
      exact mono_chain rs (fun r h => hr r (by simp [h])) f1 st1 f' st' b h2

theorem thenPod_none {n : Nat} {st : St} {k : Nat → St → Outcome (Option Filter)} (h : thenPod n st k = ok none) :
    (∃ st1, readPod n st = ok (none, st1)) ∨ ∃ bs st1, readPod n st = ok (some bs, st1) ∧ k (leNat bs) st1 = ok none := by
  unfold thenPod at h
  obtain ⟨⟨r, st1⟩, h1, h2⟩ := bind_eq_ok.mp h
  cases r with
  | none => exact Or.inl ⟨_, h1⟩
  | some bs => exact Or.inr ⟨_, _, h1, h2⟩

theorem thenPod_read {n : Nat} {st : St} {k : Nat → St → Outcome (Option Filter)} {g : Filter} (h : thenPod n st k = ok (some g)) :
    ∃ bs st1, readPod n st = ok (some bs, st1) ∧ k (leNat bs) st1 = ok (some g) := by
  unfold thenPod at h
  obtain ⟨⟨r, st1⟩, h1, h2⟩ := bind_eq_ok.mp h
  cases r with
  | none => simp at h2
  | some bs => exact ⟨_, _, h1, h2⟩

theorem step_none {n : Nat} {st st1 : St} (set : Nat → Filter → Filter) (f : Filter) (rs) (h : readPod n st = ok (none, st1)) :
    readChain (readMember n set :: rs) f st = ok (false, f, st1) := by
  rw [readChain, readMember_none set f h, ok_bind]; rfl

theorem step_some {n : Nat} {st st1 : St} {bs : List UInt8} (set : Nat → Filter → Filter) (f : Filter) (rs) (h : readPod n st = ok (some bs, st1)) :
    readChain (readMember n set :: rs) f st = readChain rs (set (leNat bs) f) st1 := by
  rw [readChain, readMember_some set f h, ok_bind]; rfl

/-- A file that `readFile` accepts. -/
theorem readInto_some {p : List UInt8} {g : Filter} (f : Filter) (h : readFile p = ok (some g)) : f.readInto p = ok (true, { g with sizes := f.sizes }) := by
  unfold readFile at h
  obtain ⟨b1, s1, r1, h⟩ := thenPod_read h
  obtain ⟨b2, s2, r2, h⟩ := thenPod_read h
  obtain ⟨b3, s3, r3, h⟩ := thenPod_read h
  obtain ⟨b4, s4, r4, h⟩ := thenPod_read h
  obtain ⟨b5, s5, r5, h⟩ := thenPod_read h
  obtain ⟨b6, s6, r6, h⟩ := thenPod_read h
  obtain ⟨b7, s7, r7, h⟩ := thenPod_read h
  obtain ⟨⟨good, salts, s8⟩, r8, h⟩ := bind_eq_ok.mp h
  cases good with
  | false => simp at h
  | true =>
    simp only [if_true] at h
    obtain ⟨⟨r, s9⟩, r9, h⟩ := bind_eq_ok.mp h
    cases r with
    | none => simp at h
    | some table =>
      have hg := Option.some.inj (Outcome.ok.inj h)
      unfold Filter.readInto headCalls memberCalls
      simp only [List.cons_append, List.nil_append]
      rw [step_some _ _ _ r1, step_some _ _ _ r2, step_some _ _ _ r3, step_some _ _ _ r4, step_some _ _ _ r5, step_some _ _ _ r6, step_some _ _ _ r7]
      simp only [readChain, readSalts, readTable, r8, r9, ok_bind, if_true]
      rw [← hg]
      rfl

theorem refused_step {n : Nat} {st : St} {k : Nat → St → Outcome (Option Filter)} (h : thenPod n st k = ok none) (set : Nat → Filter → Filter) (rs) (f : Filter)
    (hset : ∀ v f, (set v f).table = f.table ∧ (set v f).sizes = f.sizes)
    (cont : ∀ v st1 (f1 : Filter), k v st1 = ok none → ∃ f' st', readChain rs f1 st1 = ok (false, f', st') ∧ f'.table = f1.table ∧ f'.sizes = f1.sizes) :
    ∃ f' st', readChain (readMember n set :: rs) f st = ok (false, f', st') ∧ f'.table = f.table ∧ f'.sizes = f.sizes := by
  rcases thenPod_none h with ⟨s1, r1⟩ | ⟨b1, s1, r1, h⟩
  · rw [step_none _ _ _ r1]; exact ⟨_, _, rfl, rfl, rfl⟩
  · rw [step_some _ _ _ r1]
    obtain ⟨f', st', h1, h2, h3⟩ := cont _ _ (set (leNat b1) f) h
    exact ⟨f', st', h1, by rw [h2, (hset _ _).1], by rw [h3, (hset _ _).2]⟩

/-- A file that `readFile` refuses. -/
theorem readInto_none {p : List UInt8} (f : Filter) (h : readFile p = ok none) : ∃ f', f.readInto p = ok (false, f') ∧ f'.table = [] ∧ f'.sizes = f.sizes := by
  suffices hs : ∃ f' st', readChain (headCalls ++ [readTable]) f.reset (St.fresh p) = ok (false, f', st') ∧ f'.table = f.reset.table ∧ f'.sizes = f.reset.sizes by
    obtain ⟨f', st', h1, h2, h3⟩ := hs
    exact ⟨f', by unfold Filter.readInto; rw [h1, ok_bind], h2, h3⟩
  generalize f.reset = g
  unfold headCalls memberCalls
  simp only [List.cons_append, List.nil_append]
  unfold readFile at h
  refine refused_step h _ _ g (fun _ _ => ⟨rfl, rfl⟩) fun v1 s1 g h => ?_
  refine refused_step h _ _ g (fun _ _ => ⟨rfl, rfl⟩) fun v2 s2 g h => ?_
  refine refused_step h _ _ g (fun _ _ => ⟨rfl, rfl⟩) fun v3 s3 g h => ?_
  refine refused_step h _ _ g (fun _ _ => ⟨rfl, rfl⟩) fun v4 s4 g h => ?_
  refine refused_step h _ _ g (fun _ _ => ⟨rfl, rfl⟩) fun v5 s5 g h => ?_
  refine refused_step h _ _ g (fun _ _ => ⟨rfl, rfl⟩) fun v6 s6 g h => ?_
  refine refused_step h _ _ g (fun _ _ => ⟨rfl, rfl⟩) fun v7 s7 g h => ?_
  obtain ⟨⟨good, salts, s8⟩, r8, h⟩ := bind_eq_ok.mp h
  cases good with
  | false =>
    rw [readChain, readSalts, r8, ok_bind]
    exact ⟨_, _, rfl, rfl, rfl⟩
  | true =>
    simp only [if_true] at h
    obtain ⟨⟨r, s9⟩, r9, h⟩ := bind_eq_ok.mp h
    cases r with
    | none =>
      rw [readChain, readSalts, r8, ok_bind]
      simp only [if_true]
      rw [ok_bind]
      simp only [if_true]
      rw [readChain, readTable, r9, ok_bind]
      exact ⟨_, _, rfl, rfl, rfl⟩
    | some table => simp at h

/-! ## The theorems -/

/-- **C166**: on any file the call returns; with `true` the filter is the one in the file whatever it was before, with `false` it has no table.  The list of sizes of a
compressible filter stays what it was. -/
theorem C166_any_file (f : Filter) (contents : List UInt8) (hl : contents.length < 2 ^ 63) :
    (∃ g, readFile contents = ok (some g) ∧ f.readInto contents = ok (true, { g with sizes := f.sizes })) ∨
    (readFile contents = ok none ∧ ∃ f', f.readInto contents = ok (false, f') ∧ f'.table = [] ∧ f'.sizes = f.sizes) := by
  obtain ⟨r, hr⟩ := readFile_total contents hl
  cases r with
  | some g => exact Or.inl ⟨g, hr, readInto_some f hr⟩
  | none => exact Or.inr ⟨hr, readInto_none f hr⟩

theorem reduce_or (x : Nat) (l : List Nat) : (∃ i, reduce x l = ok i) ∨ reduce x l = ub := by
  induction l generalizing x with
  | nil => exact Or.inl ⟨x, rfl⟩
  | cons m ms ih =>
    unfold reduce remainder
    by_cases hm : m = 0
    · rw [if_pos hm]; exact Or.inr rfl
    · rw [if_neg hm, ok_bind]; exact ih _

theorem computeIndex_or (f : Filter) (h : UInt32) : (∃ i, computeIndex f h = ok i) ∨ computeIndex f h = ub := by
  unfold computeIndex
  cases f.sizes with
  | none =>
    unfold remainder
    by_cases hm : f.tableSize = 0
    · simp [hm]
    · simp [hm]
  | some l => exact reduce_or _ l

theorem no_table_contains (f : Filter) (ht : f.table = []) (key : List UInt8) :
    (f.salts = [] → f.contains key = ok true ∧ f.insert key = ok { f with inserted := (f.inserted + 1) % 2 ^ 32 }) ∧
    (f.salts ≠ [] → f.contains key = ub ∧ f.insert key = ub) := by
  constructor
  · intro h
    unfold Filter.contains Filter.insert
    rw [h]
    exact ⟨rfl, rfl⟩
  · intro h
    unfold Filter.contains Filter.insert
    cases hs : f.salts with
    | nil => exact absurd hs h
    | cons s ss =>
      unfold containsLoop insertLoop
      rcases computeIndex_or f (hashAp key s) with ⟨i, hi⟩ | hi
      · rw [hi, ok_bind, ok_bind, ht]; exact ⟨rfl, rfl⟩
      · rw [hi]; exact ⟨rfl, rfl⟩

/-- **C166** (negative result): a filter whose `read_from_file` has returned `false` either claims to contain every key, and forgets every key inserted, or cannot be asked
at all. -/
theorem C166_refused (f f' : Filter) (contents key : List UInt8) (hl : contents.length < 2 ^ 63) (h : f.readInto contents = ok (false, f')) :
    (f'.contains key = ok true ∧ ∃ f'', f'.insert key = ok f'' ∧ f''.table = []) ∨ (f'.contains key = ub ∧ f'.insert key = ub) := by
  have ht : f'.table = [] := by
    rcases C166_any_file f contents hl with ⟨g, _, h2⟩ | ⟨_, f2, h2, h3, _⟩
    · rw [h] at h2; simp at h2
    · rw [h] at h2
      simp only [ok.injEq, Prod.mk.injEq, true_and] at h2
      rw [h2]; exact h3
  obtain ⟨h1, h2⟩ := no_table_contains f' ht key
  by_cases hs : f'.salts = []
  · exact Or.inl ⟨(h1 hs).1, _, (h1 hs).2, ht⟩
  · exact Or.inr (h2 hs)

/-- The bytes of a file up to and with the salts. -/
def headBytes (f : Filter) : List UInt8 :=
  leBytes 4 f.saltCount ++ (leBytes 8 f.tableSize ++ (leBytes 8 f.rawSize ++ (leBytes 8 f.projected ++ (leBytes 4 f.inserted ++
    (leBytes 8 f.seed ++ (leBytes 8 f.fpp ++ withLen 4 f.saltCount (f.salts.flatMap fun s => leBytes 4 s.toNat)))))))

theorem salts_flat_length (f : Filter) : (f.salts.flatMap fun s => leBytes 4 s.toNat).length = 4 * f.salts.length := by
  induction f.salts with
  | nil => rfl
  | cons s ss ih => rw [List.flatMap_cons, List.length_append, ih, leBytes_length, List.length_cons]; omega

theorem headBytes_length (f : Filter) : (headBytes f).length = 52 + 4 * f.salts.length := by
  unfold headBytes
  simp only [List.length_append, leBytes_length, withLen_length, salts_flat_length]
  omega

theorem fileBytes_head (f : Filter) : fileBytes f = headBytes f ++ withLen 4 (f.rawSize % 2 ^ 32) (f.table.take (f.rawSize % 2 ^ 32)) := by
  unfold fileBytes headBytes
  simp only [List.append_assoc]

theorem step_at (n v : Nat) (hv : v < 256 ^ n) (set : Nat → Filter → Filter) (f : Filter) (rs) (pre post : List UInt8)
    (hl : (pre ++ (leBytes n v ++ post)).length < 2 ^ 63) :
    readChain (readMember n set :: rs) f (at' pre (leBytes n v ++ post) []) = readChain rs (set v f) (at' (pre ++ leBytes n v) post []) := by
  have := readPod_at pre (leBytes n v) post [] hl
  rw [leBytes_length] at this
  rw [step_some _ _ _ this]
  simp only [leNat_leBytes, Nat.mod_eq_of_lt hv]

theorem head_exact (f g : Filter) (hf : Fits f) (rest : List UInt8) (hl : (headBytes f ++ rest).length < 2 ^ 63) :
    readChain headCalls g (St.fresh (headBytes f ++ rest)) = ok (true,
      { g with salts := f.salts, saltCount := f.saltCount, tableSize := f.tableSize, rawSize := f.rawSize, projected := f.projected, inserted := f.inserted,
               seed := f.seed, fpp := f.fpp }, at' (headBytes f) rest []) := by
  have e := hf.salts
  have hlen4 : ∀ x ∈ f.salts.map (fun s => leBytes 4 s.toNat), x.length = 4 := by
    intro x hx
    obtain ⟨s, _, rfl⟩ := List.mem_map.mp hx
    exact leBytes_length _ _
  rw [List.length_append, headBytes_length] at hl
  have hflat := salts_flat_length f
  have h0 : ∀ l, St.fresh l = at' [] l [] := fun _ => rfl
  rw [h0]
  unfold headBytes headCalls memberCalls
  simp only [List.append_assoc, List.cons_append, List.nil_append]
  rw [step_at _ _ (by have := hf.saltCount; omega)]
  rw [step_at _ _ (by have := hf.tableSize; omega)]
  rw [step_at _ _ (by have := hf.raw; omega)]
  rw [step_at _ _ (by have := hf.projected; omega)]
  rw [step_at _ _ (by have := hf.inserted; omega)]
  rw [step_at _ _ (by have := hf.seed; omega)]
  rw [step_at _ _ (by have := hf.fpp; omega)]
  case hl => simp only [List.length_append, leBytes_length, withLen_length, hflat, List.length_nil]; omega
  case hl => simp only [List.length_append, leBytes_length, withLen_length, hflat, List.length_nil]; omega
  case hl => simp only [List.length_append, leBytes_length, withLen_length, hflat, List.length_nil]; omega
  case hl => simp only [List.length_append, leBytes_length, withLen_length, hflat, List.length_nil]; omega
  case hl => simp only [List.length_append, leBytes_length, withLen_length, hflat, List.length_nil]; omega
  case hl => simp only [List.length_append, leBytes_length, withLen_length, hflat, List.length_nil]; omega
  case hl => simp only [List.length_append, leBytes_length, withLen_length, hflat, List.length_nil]; omega
  generalize hpre : ([] ++ leBytes 4 f.saltCount ++ leBytes 8 f.tableSize ++ leBytes 8 f.rawSize ++ leBytes 8 f.projected ++ leBytes 4 f.inserted ++
    leBytes 8 f.seed ++ leBytes 8 f.fpp) = pre
  have hprel : pre.length = 48 := by rw [← hpre]; simp [leBytes_length]
  have hv := read_podVec 4 [] (f.salts.map fun s => leBytes 4 s.toNat) pre rest []
    (by rw [List.length_map]; have := hf.saltCount; omega) hlen4 (by
      rw [← List.flatMap_def]
      simp only [List.length_append, withLen_length, hflat, hprel]; omega)
  rw [List.length_map, e, ← List.flatMap_def] at hv
  have hs : f.salts.map ((fun b => UInt32.ofNat (leNat b)) ∘ fun s => leBytes 4 s.toNat) = f.salts := by
    conv => rhs; rw [← List.map_id f.salts]
    apply List.map_congr_left
    intro s _
    simp only [Function.comp, leNat_leBytes, id]
    rw [Nat.mod_eq_of_lt (by have := s.toNat_lt; omega)]
    simp
  simp only [readChain, readSalts, hv, ok_bind, if_true, List.map_map, hs]
  simp only [← hpre, List.nil_append, List.append_assoc]

theorem mono_head : Mono (readChain headCalls) := by
  apply mono_chain
  intro r hr
  unfold headCalls memberCalls at hr
  simp only [List.cons_append, List.nil_append, List.mem_cons, List.not_mem_nil, or_false] at hr
  rcases hr with rfl | rfl | rfl | rfl | rfl | rfl | rfl | rfl
  all_goals first | exact mono_salts | exact mono_member _ _

/-- How far a call moves. -/
theorem member_ptr {n : Nat} {set : Nat → Filter → Filter} {f f' : Filter} {st st' : St} (h : readMember n set f st = ok (true, f', st')) :
    st'.ptr ≤ st'.buf.length ∧ st'.buf = st.buf := by
  unfold readMember at h
  obtain ⟨⟨r, st1⟩, h1, h2⟩ := bind_eq_ok.mp h
  cases r with
  | none => simp at h2
  | some bs =>
    simp only [ok.injEq, Prod.mk.injEq, true_and] at h2
    obtain ⟨q1, q2, _, q4⟩ := readPod_fits h1
    rw [← h2.2, q1, q2]
    exact ⟨q4, rfl⟩

theorem salts_ptr {f f' : Filter} {st st' : St} (h : readSalts f st = ok (true, f', st')) : st'.ptr ≤ st'.buf.length ∧ st'.buf = st.buf := by
  unfold readSalts at h
  obtain ⟨⟨g, s, st1⟩, h1, h2⟩ := bind_eq_ok.mp h
  cases g with
  | false => simp at h2
  | true =>
    simp only [if_true, ok.injEq, Prod.mk.injEq, true_and] at h2
    rw [← h2.2]
    unfold readPodVec at h1
    obtain ⟨⟨r, st2⟩, h3, h4⟩ := bind_eq_ok.mp h1
    cases r with
    | none => simp at h4
    | some l =>
      obtain ⟨q1, q2, _, q4⟩ := readPod_fits h3
      have hif : (if leNat l = 0 then (ok () : Outcome Unit) else ok ()) = ok () := by split <;> rfl
      simp only [hif] at h4
      split at h4
      · rw [ok_bind] at h4
        obtain ⟨⟨bs, st3⟩, h5, h6⟩ := bind_eq_ok.mp h4
        simp only [ok.injEq, Prod.mk.injEq, true_and] at h6
        rw [← h6.2]
        unfold takeBytes slice at h5
        split at h5
        · simp only [ok_bind, ok.injEq, Prod.mk.injEq] at h5
          rw [← h5.2]
          exact ⟨by assumption, q2⟩
        · simp at h5
      · simp at h4

theorem chain_ptr : ∀ (rs : List (Filter → St → Outcome (Bool × Filter × St))),
    (∀ r ∈ rs, ∀ f st f' st', r f st = ok (true, f', st') → st'.ptr ≤ st'.buf.length ∧ st'.buf = st.buf) →
    ∀ f st f' st', st.ptr ≤ st.buf.length → readChain rs f st = ok (true, f', st') → st'.ptr ≤ st'.buf.length ∧ st'.buf = st.buf
  | [], _ => by
    intro f st f' st' hp h
    simp only [readChain, ok.injEq, Prod.mk.injEq, true_and] at h
    rw [← h.2]; exact ⟨hp, rfl⟩
  | r :: rs, hr => by
    intro f st f' st' hp h
    simp only [readChain] at h
    obtain ⟨⟨g, f1, st1⟩, h1, h2⟩ := bind_eq_ok.mp h
    cases g with
    | false => simp at h2
    | true =>
      simp only [if_true] at h2
      obtain ⟨p1, p2⟩ := hr r (by simp) f st f1 st1 h1
      obtain ⟨p3, p4⟩ := chain_ptr rs (fun r h => hr r (by simp [h])) f1 st1 f' st' p1 h2
      exact ⟨p3, by rw [p4, p2]⟩

theorem member_salts {n : Nat} {set : Nat → Filter → Filter} (hset : ∀ v f, (set v f).salts = f.salts) {g : Bool} {f f' : Filter} {st st' : St}
    (h : readMember n set f st = ok (g, f', st')) : f'.salts = f.salts := by
  unfold readMember at h
  obtain ⟨⟨r, st1⟩, _, h2⟩ := bind_eq_ok.mp h
  cases r with
  | none => simp only [ok.injEq, Prod.mk.injEq] at h2; rw [← h2.2.1]
  | some bs => simp only [ok.injEq, Prod.mk.injEq] at h2; rw [← h2.2.1]; exact hset _ _

theorem chain_salts : ∀ (rs : List (Filter → St → Outcome (Bool × Filter × St))),
    (∀ r ∈ rs, ∀ f st g f' st', r f st = ok (g, f', st') → f'.salts = f.salts) →
    ∀ f st g f' st', readChain rs f st = ok (g, f', st') → f'.salts = f.salts
  | [], _ => by
    intro f st g f' st' h
    simp only [readChain, ok.injEq, Prod.mk.injEq] at h
    rw [← h.2.1]
  | r :: rs, hr => by
    intro f st g f' st' h
    simp only [readChain] at h
    obtain ⟨⟨g1, f1, st1⟩, h1, h2⟩ := bind_eq_ok.mp h
    have e1 := hr r (by simp) f st g1 f1 st1 h1
    cases g1 with
    | false =>
      simp only [Bool.false_eq_true, if_false, ok.injEq, Prod.mk.injEq] at h2
      rw [← h2.2.1]; exact e1
    | true =>
      simp only [if_true] at h2
      rw [chain_salts rs (fun r h => hr r (by simp [h])) f1 st1 g f' st' h2, e1]

/-- As long as the salts are not complete there are none. -/
theorem head_false {f f' : Filter} {st st' : St} (hs : f.salts = []) (h : readChain headCalls f st = ok (false, f', st')) : f'.salts = [] := by
  unfold headCalls at h
  rw [readChain_append] at h
  obtain ⟨⟨g1, f1, st1⟩, h1, h2⟩ := bind_eq_ok.mp h
  have e1 : f1.salts = f.salts := by
    apply chain_salts memberCalls ?_ f st g1 f1 st1 h1
    intro r hr
    unfold memberCalls at hr
    simp only [List.mem_cons, List.not_mem_nil, or_false] at hr
    rcases hr with rfl | rfl | rfl | rfl | rfl | rfl | rfl
    all_goals
      intro f st g f' st' h
      refine member_salts ?_ h
      intros; rfl
  cases g1 with
  | false =>
    simp only [Bool.false_eq_true, if_false, ok.injEq, Prod.mk.injEq, true_and] at h2
    rw [← h2.1, e1, hs]
  | true =>
    simp only [if_true, readChain] at h2
    obtain ⟨⟨g2, f2, st2⟩, h3, h4⟩ := bind_eq_ok.mp h2
    cases g2 with
    | true => simp at h4
    | false =>
      simp only [Bool.false_eq_true, if_false, ok.injEq, Prod.mk.injEq, true_and] at h4
      rw [← h4.1, keeps_salts f1 st1 f2 st2 h3, e1, hs]

theorem head_ptr {f f' : Filter} {st st' : St} (hp : st.ptr ≤ st.buf.length) (h : readChain headCalls f st = ok (true, f', st')) : st'.ptr ≤ st.buf.length := by
  obtain ⟨h1, h2⟩ := chain_ptr headCalls (by
    intro r hr
    unfold headCalls memberCalls at hr
    simp only [List.cons_append, List.nil_append, List.mem_cons, List.not_mem_nil, or_false] at hr
    rcases hr with rfl | rfl | rfl | rfl | rfl | rfl | rfl | rfl
    all_goals first | exact fun f st f' st' h => salts_ptr h | exact fun f st f' st' h => member_ptr h) f st f' st' hp h
  rw [h2] at h1
  exact h1

/-- **C166**: what is left by the file of a filter `f` that was cut short: cut before the end of the salts it gives a filter without salts, which claims to contain
everything; cut later, one with the salts and sizes of `f` but no table. -/
theorem C166_cut_file (f g : Filter) (hf : Fits f) (ht : 0 < f.tableSize) :
    ∃ bytes, f.writeFile = ok (some bytes) ∧ ∀ k < bytes.length, ∃ g', g.readInto (bytes.take k) = ok (false, g') ∧ g'.table = [] ∧
      (k < 52 + 4 * f.saltCount → g'.salts = [] ∧ ∀ key, g'.contains key = ok true) ∧
      (52 + 4 * f.saltCount ≤ k → g'.salts = f.salts ∧ g'.tableSize = f.tableSize ∧ g'.rawSize = f.rawSize ∧
        (0 < f.saltCount → ∀ key, g'.contains key = ub ∧ g'.insert key = ub)) := by
  obtain ⟨bytes, h1, ⟨_, hok⟩, h2⟩ := C158_filter_cut_short_partial f hf ht
  refine ⟨bytes, h1, fun k hk => ?_⟩
  have hb : bytes = fileBytes f := by
    rw [writeFile_eq f hf ht] at h1
    exact (Option.some.inj (Outcome.ok.inj h1)).symm
  obtain ⟨g', r1, r2, _⟩ := readInto_none g (h2 k hk)
  have e := hf.salts
  have hlen := headBytes_length f
  have hsmall : bytes.length < 2 ^ 63 := by
    rw [hb, fileBytes_head, List.length_append, hlen, withLen_length, List.length_take]
    have := hf.saltCount
    have : f.rawSize % 2 ^ 32 < 2 ^ 32 := Nat.mod_lt _ (by decide)
    omega
  refine ⟨g', r1, r2, ?_, ?_⟩
  · intro hlt
    have hs : g'.salts = [] := by
      unfold Filter.readInto at r1
      rw [readChain_append] at r1
      obtain ⟨⟨q, f1, _⟩, h3, h4⟩ := bind_eq_ok.mp r1
      simp only [ok.injEq, Prod.mk.injEq] at h4
      obtain ⟨rfl, rfl⟩ := h4
      obtain ⟨⟨q, f2, st2⟩, h5, h6⟩ := bind_eq_ok.mp h3
      cases q with
      | false =>
        simp only [Bool.false_eq_true, if_false, ok.injEq, Prod.mk.injEq, true_and] at h6
        rw [← h6.1]
        exact head_false rfl h5
      | true =>
        exfalso
        have hp := head_ptr (Nat.zero_le _) h5
        have hm := mono_head _ _ _ _ (bytes.drop k) h5
        have hx : ext (St.fresh (bytes.take k)) (bytes.drop k) = St.fresh bytes := by
          unfold ext St.fresh
          simp only [List.take_append_drop]
        rw [hx, hb, fileBytes_head, head_exact f g.reset hf _ (by rw [← fileBytes_head, ← hb]; exact hsmall)] at hm
        simp only [ok.injEq, Prod.mk.injEq, true_and] at hm
        have h7 := congrArg St.ptr hm.2
        have h8 : ∀ b, (ext st2 b).ptr = st2.ptr := fun _ => rfl
        rw [h8] at h7
        have h9 : ∀ a b, (at' a b []).ptr = a.length := fun _ _ => rfl
        rw [h9, hlen] at h7
        have h10 : (St.fresh (bytes.take k)).buf.length = k := by
          show (bytes.take k).length = k
          rw [List.length_take]; omega
        rw [h10] at hp
        omega
    exact ⟨hs, fun key => ((no_table_contains g' r2 key).1 hs).1⟩
  · intro hge
    have hsplit : bytes.take k = headBytes f ++ (bytes.take k).drop (headBytes f).length := by
      conv => lhs; rw [← List.take_append_drop (headBytes f).length (bytes.take k)]
      rw [List.take_take, Nat.min_eq_left (by omega), hb, fileBytes_head, List.take_left]
    have hx := head_exact f g.reset hf ((bytes.take k).drop (headBytes f).length) (by
      rw [← hsplit, List.length_take]; omega)
    rw [← hsplit] at hx
    unfold Filter.readInto at r1
    rw [readChain_append, hx, ok_bind] at r1
    simp only [if_true, readChain] at r1
    obtain ⟨⟨q, f1, st1⟩, h3, h4⟩ := bind_eq_ok.mp r1
    simp only [ok.injEq, Prod.mk.injEq] at h4
    obtain ⟨rfl, rfl⟩ := h4
    obtain ⟨⟨q, f2, st2⟩, h5, h6⟩ := bind_eq_ok.mp h3
    cases q with
    | true => simp at h6
    | false =>
      simp only [Bool.false_eq_true, if_false, ok.injEq, Prod.mk.injEq, true_and] at h6
      have h7 := keeps_table _ _ _ _ h5
      rw [h7] at h6
      rw [← h6.1]
      refine ⟨rfl, rfl, rfl, fun hpos key => ?_⟩
      rw [h6.1]
      apply (no_table_contains _ r2 key).2
      rw [← h6.1]
      intro hnil
      have hnil : f.salts = [] := hnil
      rw [hnil] at e
      simp at e
      omega

/-- **C166**: reading a complete file makes up for everything: whatever the filter was before, also one whose last reading failed, it is then the filter written. -/
theorem C166_complete_file (f g : Filter) (hf : Fits f) (ht : 0 < f.tableSize) (hr : f.rawSize < 2 ^ 32) :
    ∃ bytes, f.writeFile = ok (some bytes) ∧ g.readInto bytes = ok (true, { f with sizes := g.sizes }) := by
  obtain ⟨bytes, h1, h2, _⟩ := C56_round_trip_partial f hf ht hr
  exact ⟨bytes, h1, readInto_some g h2⟩

/-- **C166**: so does assigning another filter to one whose last reading failed. -/
theorem C166_assigned (f g g' : Filter) (contents : List UInt8) (_h : g.readInto contents = ok (false, g')) (hf : Fits f) :
    assign (some g'.table) f = ok f := by
  unfold assign
  have : slice f.table 0 f.rawSize = ok f.table := by simp [slice, hf.table, List.take_of_length_le (Nat.le_of_eq hf.table)]
  simp only [this, ok_bind]
  rw [← hf.plain]

/-- **C166** (negative result): that a file is accepted does not mean that the filter can be used: the size of the table is not compared with the number of its bits. -/
theorem C166_accepted_unchecked (f g : Filter) (hf : Fits f) (ht : 0 < f.tableSize) (hs : 0 < f.saltCount) :
    ∃ contents g', g.readInto contents = ok (true, g') ∧ g'.tableSize = f.tableSize ∧ g'.salts = f.salts ∧ ∀ key, g'.contains key = ub ∧ g'.insert key = ub := by
  have hf0 : Fits { f with table := [], rawSize := 0 } :=
    ⟨hf.salts, hf.saltCount, hf.tableSize, by show (0 : Nat) < 2 ^ 62; omega, hf.projected, hf.inserted, hf.seed, hf.fpp, rfl, hf.plain⟩
  obtain ⟨bytes, _, h2⟩ := C166_complete_file { f with table := [], rawSize := 0 } g hf0 ht (by show (0 : Nat) < 2 ^ 32; omega)
  refine ⟨bytes, _, h2, rfl, rfl, fun key => (no_table_contains _ rfl key).2 ?_⟩
  intro h
  have h : f.salts = [] := h
  have := hf.salts
  rw [h] at this
  simp at this
  omega

theorem containsLoop_congr (f g : Filter) (hi : ∀ h, computeIndex f h = computeIndex g h) (ht : f.table = g.table) (key : List UInt8) :
    ∀ ss, containsLoop f key ss = containsLoop g key ss := by
  intro ss
  induction ss with
  | nil => rfl
  | cons s ss ih => rw [containsLoop, containsLoop, hi, ht, ih]

/-- **C166**: a compressible filter made for a table of the same size, and not compressed, answers like the filter in the file. -/
theorem C166_compressible_same_size (f g : Filter) (hf : Fits f) (ht : 0 < f.tableSize) (hr : f.rawSize < 2 ^ 32) (hg : g.sizes = some [f.tableSize]) :
    ∃ bytes g', f.writeFile = ok (some bytes) ∧ g.readInto bytes = ok (true, g') ∧ ∀ key, g'.contains key = f.contains key := by
  obtain ⟨bytes, h1, h2⟩ := C166_complete_file f g hf ht hr
  refine ⟨bytes, _, h1, h2, fun key => ?_⟩
  refine containsLoop_congr { f with sizes := g.sizes } f (fun h => ?_) rfl key f.salts
  unfold computeIndex
  simp only [hg, hf.plain, reduce]
  unfold remainder
  split <;> rfl

/-- A filter of 64 bits and three salts is given the key "a" and saved; a compressible filter made for `size` bits reads the file.  The results: of the reading, and of
asking the first and then the second filter for the key. -/
def readElsewhere (size : Nat) : Outcome (Bool × Outcome Bool × Outcome Bool) := do
  let f ← Filter.new (fun _ _ => 0) 0 ⟨3, 64, 10, 0, 7⟩
  let f ← f.insert [97]
  match ← f.writeFile with
  | none => ub
  | some bytes => do
    let g ← Filter.newCompressible (fun _ _ => 0) 0 ⟨3, size, 10, 0, 7⟩
    let (good, g) ← g.readInto bytes
    ok (good, f.contains [97], g.contains [97])

/-- **C166** (negative result): a compressible filter keeps the sizes of its own construction when it reads a file.  With another size it misses keys that are in the
file's filter, or looks for their bits outside the table. -/
theorem C166_compressible_other_size :
    readElsewhere 64 = ok (true, ok true, ok true) ∧ readElsewhere 8 = ok (true, ok true, ok false) ∧ readElsewhere 800 = ok (true, ok true, ub) := by
  decide +kernel

/-- A filter of 64 bits with one key, its file of 76 bytes cut behind byte 10 and behind byte 70, read into a filter that had another key: the first then contains
everything, the second cannot be asked. -/
example : (do
    let f ← (Hist.insert .fresh [97]).run (fun _ _ => 0) 0 ⟨3, 64, 10, 0, 7⟩
    let g ← (Hist.insert .fresh [98]).run (fun _ _ => 0) 0 ⟨5, 128, 10, 0, 7⟩
    match ← f.writeFile with
    | none => ub
    | some bytes => do
      let (r1, g1) ← g.readInto (bytes.take 10)
      let (r2, g2) ← g.readInto (bytes.take 70)
      let (r3, g3) ← g2.readInto bytes
      ok ((bytes.length, r1, r2, r3), g1.contains [99], g2.contains [99], decide (g3 = f))) = ok ((76, false, false, true), ok true, ub, true) := by
  decide +kernel

/-! ## Concrete cases of C166 -/

/-- A filter of 64 bits with one salt. -/
def sampleFilter : Filter := ⟨[0x55555555], List.replicate 8 0, 1, 64, 8, 10, 0, 1, 0, none⟩

theorem sampleFilter_fits : Fits sampleFilter := by constructor <;> decide

example := C166_any_file sampleFilter [1, 2, 3] (by decide)

example : ∃ f', sampleFilter.readInto [1, 2, 3] = ok (false, f') ∧
    ((f'.contains [97] = ok true ∧ ∃ f'', f'.insert [97] = ok f'' ∧ f''.table = []) ∨ (f'.contains [97] = ub ∧ f'.insert [97] = ub)) :=
  ⟨_, rfl, C166_refused sampleFilter _ [1, 2, 3] [97] (by decide) rfl⟩

example := C166_cut_file sampleFilter sampleFilter sampleFilter_fits (by decide)

example := C166_complete_file sampleFilter sampleFilter sampleFilter_fits (by decide) (by decide)

end Strtk.Bloom
