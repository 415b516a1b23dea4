import Verif.Bloom.Props

/-! # Bloom filter: exact answers (C54) and equality (C56) -/

namespace Strtk.Bloom
open Outcome Mem

/-! ## Specification -/

/-- How a filter came about, with `^=` as well. -/
inductive Calls where
  | fresh
  | insert (h : Calls) (key : List UInt8)
  | clear (h : Calls)
  | union (a b : Calls)
  | inter (a b : Calls)
  | diff (a b : Calls)

/-- The set of bits after a history; `pos k` are the bits of the key `k`. -/
def Calls.bits (pos : List UInt8 → Nat → Prop) : Calls → Nat → Prop
  | fresh, _ => False
  | insert h key, i => h.bits pos i ∨ pos key i
  | clear _, _ => False
  | union a b, i => a.bits pos i ∨ b.bits pos i
  | inter a b, i => a.bits pos i ∧ b.bits pos i
  | diff a b, i => ¬ (a.bits pos i ↔ b.bits pos i)

/-- `element_count()` after a history: the insertions since the last `clear`, in the operand on the left. -/
def Calls.count : Calls → Nat
  | fresh => 0
  | insert h _ => h.count + 1
  | clear _ => 0
  | union a _ => a.count
  | inter a _ => a.count
  | diff a _ => a.count

/-- The filter at the end of a history. -/
def Calls.run (rand : UInt32 → Nat → UInt32) (fuel : Nat) (p : Params) : Calls → Outcome Filter
  | fresh => Filter.new rand fuel p
  | insert h key => do let f ← h.run rand fuel p; f.insert key
  | clear h => do let f ← h.run rand fuel p; f.clear
  | union a b => do let f ← a.run rand fuel p; let g ← b.run rand fuel p; f.union g
  | inter a b => do let f ← a.run rand fuel p; let g ← b.run rand fuel p; f.inter g
  | diff a b => do let f ← a.run rand fuel p; let g ← b.run rand fuel p; f.diff g

/-- The bits of a key: its hash under each salt, modulo the number of bits. -/
def positions (salts : List UInt32) (size : Nat) (key : List UInt8) (i : Nat) : Prop := ∃ s ∈ salts, i = (hashAp key s).toNat % size

/-! ## Bits of a table -/

/-- Bit `i` of a table. -/
def bit (t : List UInt8) (i : Nat) : Bool := ((t[i / 8]?).getD 0).toBitVec.getLsbD (i % 8)

theorem mask_bit (b j : Nat) (hb : b < 8) (hj : j < 8) : (bitMask b).toBitVec.getLsbD j = decide (j = b) := by
  have : ∀ b j : Fin 8, (bitMask b.val).toBitVec.getLsbD j.val = decide (j.val = b.val) := by decide +kernel
  exact this ⟨b, hb⟩ ⟨j, hj⟩

theorem mask_test (c : UInt8) (b : Nat) (hb : b < 8) : c &&& bitMask b = bitMask b ↔ c.toBitVec.getLsbD b = true := by
  constructor
  · intro h
    have h := congrArg (fun x : UInt8 => x.toBitVec.getLsbD b) h
    simp only [UInt8.toBitVec_and, BitVec.getLsbD_and, mask_bit b b hb hb, decide_true, Bool.and_true] at h
    exact h
  · intro h
    apply UInt8.eq_of_toBitVec_eq
    apply BitVec.eq_of_getLsbD_eq
    intro j hj
    simp only [UInt8.toBitVec_and, BitVec.getLsbD_and, mask_bit b j hb hj]
    by_cases e : j = b
    · subst e; simp [h]
    · simp [e]

theorem bit_set (t : List UInt8) (i j : Nat) (c : UInt8) (hc : t[i / 8]? = some c) :
    bit (t.set (i / 8) (c ||| bitMask (i % 8))) j = (bit t j || decide (j = i)) := by
  have hl : i / 8 < t.length := (List.getElem?_eq_some_iff.mp hc).1
  have hi := Nat.mod_lt i (show 0 < 8 by decide)
  have hj := Nat.mod_lt j (show 0 < 8 by decide)
  unfold bit
  by_cases e : i / 8 = j / 8
  · have e1 : (t.set (i / 8) (c ||| bitMask (i % 8)))[j / 8]? = some (c ||| bitMask (i % 8)) := by rw [← e]; simp [hl]
    have e2 : t[j / 8]? = some c := by rw [← e]; exact hc
    rw [e1, e2]
    simp only [Option.getD_some, UInt8.toBitVec_or, BitVec.getLsbD_or, mask_bit _ _ hi hj]
    congr 1
    have : (j % 8 = i % 8) ↔ j = i := by omega
    simp [this]
  · rw [List.getElem?_set_ne e]
    have : j ≠ i := by rintro rfl; exact e rfl
    simp [this]

theorem insertLoop_bits (f : Filter) (key : List UInt8) (ix : UInt32 → Nat) : ∀ (salts : List UInt32) (t : List UInt8),
    (∀ s ∈ salts, computeIndex f (hashAp key s) = ok (ix s) ∧ ix s / 8 < t.length) →
    ∃ t', insertLoop f key salts t = ok t' ∧ t'.length = t.length ∧ ∀ j, bit t' j = true ↔ bit t j = true ∨ ∃ s ∈ salts, j = ix s := by
  intro salts
  induction salts with
  | nil => intro t _; exact ⟨t, rfl, rfl, by simp⟩
  | cons s salts ih =>
    intro t h
    obtain ⟨h1, h2⟩ := h s (by simp)
    obtain ⟨c, hc, hd⟩ := deref_lt h2
    obtain ⟨t', e1, e2, e3⟩ := ih (t.set (ix s / 8) (c ||| bitMask (ix s % 8))) (by
      intro s' hs
      obtain ⟨a, b⟩ := h s' (by simp [hs])
      exact ⟨a, by simpa using b⟩)
    refine ⟨t', ?_, by simpa using e2, ?_⟩
    · unfold insertLoop
      rw [h1, ok_bind, hd, ok_bind, store_lt _ h2, ok_bind, e1]
    · intro j
      rw [e3, bit_set t (ix s) j c hc]
      simp only [Bool.or_eq_true, decide_eq_true_eq, List.mem_cons, exists_eq_or_imp]
      constructor
      · rintro ((h | h) | h)
        · exact Or.inl h
        · exact Or.inr (Or.inl h)
        · exact Or.inr (Or.inr h)
      · rintro (h | h | h)
        · exact Or.inl (Or.inl h)
        · exact Or.inl (Or.inr h)
        · exact Or.inr h

theorem containsLoop_bits (f : Filter) (key : List UInt8) (ix : UInt32 → Nat) : ∀ (salts : List UInt32),
    (∀ s ∈ salts, computeIndex f (hashAp key s) = ok (ix s) ∧ ix s / 8 < f.table.length) →
    containsLoop f key salts = ok (salts.all fun s => bit f.table (ix s)) := by
  intro salts
  induction salts with
  | nil => intro _; rfl
  | cons s salts ih =>
    intro h
    obtain ⟨h1, h2⟩ := h s (by simp)
    obtain ⟨c, hc, hd⟩ := deref_lt h2
    have hb : bit f.table (ix s) = c.toBitVec.getLsbD (ix s % 8) := by unfold bit; rw [hc]; rfl
    have hm := mask_test c (ix s % 8) (Nat.mod_lt _ (by decide))
    unfold containsLoop
    rw [h1, ok_bind, hd, ok_bind, List.all_cons, hb]
    by_cases e : c.toBitVec.getLsbD (ix s % 8) = true
    · rw [if_neg (by simpa using hm.mpr e), e, Bool.true_and]
      exact ih fun s' hs => h s' (by simp [hs])
    · rw [if_pos (fun h => e (hm.mp h)), Bool.eq_false_iff.mpr e, Bool.false_and]

theorem bit_zipWith (op : UInt8 → UInt8 → UInt8) (g : Bool → Bool → Bool)
    (hop : ∀ a b j, j < 8 → (op a b).toBitVec.getLsbD j = g (a.toBitVec.getLsbD j) (b.toBitVec.getLsbD j)) (t u : List UInt8) (hl : t.length = u.length)
    (i : Nat) (hi : i / 8 < t.length) : bit (List.zipWith op t u) i = g (bit t i) (bit u i) := by
  unfold bit
  rw [List.getElem?_zipWith, List.getElem?_eq_getElem hi, List.getElem?_eq_getElem (by omega : i / 8 < u.length)]
  exact hop _ _ _ (Nat.mod_lt _ (by decide))

theorem bit_replicate (n i : Nat) : bit (List.replicate n 0) i = false := by
  unfold bit
  rw [List.getElem?_replicate]
  split <;> simp

/-! ## The exact invariant -/

/-- Everything but the table and the element count is as it was constructed, the table has its size, the bits are those of the history. -/
structure Exact (f0 : Filter) (h : Calls) (f : Filter) : Prop where
  same : f = { f0 with table := f.table, inserted := f.inserted }
  len : f.table.length = f.rawSize
  bits : ∀ i < f0.tableSize, bit f.table i = true ↔ h.bits (positions f0.salts f0.tableSize) i
  count : f.inserted = h.count % 2 ^ 32

theorem new_fields {rand : UInt32 → Nat → UInt32} {fuel : Nat} {p : Params} {f0 : Filter} (hnew : Filter.new rand fuel p = ok f0) :
    f0.sizes = none ∧ f0.tableSize = p.tableSize ∧ f0.rawSize = p.tableSize / 8 ∧ f0.table = List.replicate (p.tableSize / 8) 0 ∧ f0.inserted = 0 := by
  unfold Filter.new at hnew
  simp only [bind_eq_ok] at hnew
  obtain ⟨salts, _, h⟩ := hnew
  cases h
  simp

theorem run_merge {f0 f g : Filter} {a b : Calls} (ea : Exact f0 a f) (eb : Exact f0 b g) (op : UInt8 → UInt8 → UInt8) :
    f.merge op g = ok { f with table := List.zipWith op f.table g.table } := by
  have hfg : f.table.length = g.table.length := by rw [ea.len, eb.len, ea.same, eb.same]
  unfold Filter.merge
  rw [if_pos (by rw [ea.same, eb.same]; exact ⟨rfl, rfl, rfl⟩), ← ea.len, merge_all _ _ _ hfg]
  simp [ea.len]

theorem merge_exact {f0 f g : Filter} {a b c : Calls} (ea : Exact f0 a f) (eb : Exact f0 b g) (h8 : f0.tableSize ≤ 8 * f0.rawSize)
    (op : UInt8 → UInt8 → UInt8) (bop : Bool → Bool → Bool)
    (hop : ∀ a b j, j < 8 → (op a b).toBitVec.getLsbD j = bop (a.toBitVec.getLsbD j) (b.toBitVec.getLsbD j))
    (hc : c.count = a.count) (hb : ∀ i (x y : Bool), (x = true ↔ a.bits (positions f0.salts f0.tableSize) i) →
      (y = true ↔ b.bits (positions f0.salts f0.tableSize) i) → (bop x y = true ↔ c.bits (positions f0.salts f0.tableSize) i)) :
    Exact f0 c { f with table := List.zipWith op f.table g.table } := by
  have hfg : f.table.length = g.table.length := by rw [ea.len, eb.len, ea.same, eb.same]
  have hr : f.rawSize = f0.rawSize := by rw [ea.same]
  refine ⟨by rw [ea.same], by simp [← hfg, ea.len], ?_, by rw [hc]; exact ea.count⟩
  intro i hi
  show bit (List.zipWith op f.table g.table) i = true ↔ _
  rw [bit_zipWith op bop hop _ _ hfg i (by rw [ea.len, hr]; omega)]
  exact hb i _ _ (ea.bits i hi) (eb.bits i hi)

theorem run_exact {rand : UInt32 → Nat → UInt32} {fuel : Nat} {p : Params} {f0 : Filter} (hnew : Filter.new rand fuel p = ok f0) (h8 : 8 ∣ p.tableSize)
    (hpos : 0 < p.tableSize) : ∀ h : Calls, ∃ f, h.run rand fuel p = ok f ∧ Exact f0 h f := by
  obtain ⟨hs, ht, hr, hl, hi⟩ := new_fields hnew
  have hbig : f0.tableSize ≤ 8 * f0.rawSize := by omega
  intro h
  induction h with
  | fresh =>
    refine ⟨f0, hnew, rfl, by rw [hl, hr]; simp, ?_, by rw [hi]; rfl⟩
    intro i _
    rw [hl, bit_replicate]
    simp [Calls.bits]
  | insert h key ih =>
    obtain ⟨f, hf, inv⟩ := ih
    have hix := index_plain hs inv.same (by rw [ht]; exact h8) (by omega) (by rw [hr, ht])
    have e0 : f.tableSize = f0.tableSize := by rw [inv.same]
    have e0' : f.salts = f0.salts := by rw [inv.same]
    obtain ⟨t', e1, e2, e3⟩ := insertLoop_bits f key (fun s => (hashAp key s).toNat % f.tableSize) f.salts f.table (by
      intro s _
      obtain ⟨a, b⟩ := hix key s
      exact ⟨a, by rw [inv.len]; exact b⟩)
    refine ⟨{ f with table := t', inserted := (f.inserted + 1) % 2 ^ 32 }, ?_, ?_, ?_, ?_, ?_⟩
    · simp only [Calls.run, hf, ok_bind, Filter.insert, e1]
    · rw [inv.same]
    · simp only [e2, inv.len]
    · intro i hi
      show bit t' i = true ↔ _
      rw [e3, inv.bits i hi, e0, e0']
      rfl
    · show (f.inserted + 1) % 2 ^ 32 = (h.count + 1) % 2 ^ 32
      rw [inv.count]
      omega
  | clear h ih =>
    obtain ⟨f, hf, inv⟩ := ih
    refine ⟨{ f with table := List.replicate f.rawSize 0, inserted := 0 }, ?_, ?_, by simp, ?_, rfl⟩
    · have : copyTo f.table 0 (List.replicate f.rawSize 0) = ok (List.replicate f.rawSize 0) := by
        simp [copyTo, inv.len]
      simp only [Calls.run, hf, ok_bind, Filter.clear, this]
    · rw [inv.same]
    · intro i _
      show bit (List.replicate f.rawSize 0) i = true ↔ _
      rw [bit_replicate]
      simp [Calls.bits]
  | union a b iha ihb =>
    obtain ⟨f, hf, ea⟩ := iha
    obtain ⟨g, hg, eb⟩ := ihb
    refine ⟨_, by simp only [Calls.run, hf, hg, ok_bind, Filter.union]; exact run_merge ea eb _, ?_⟩
    refine merge_exact ea eb hbig _ (· || ·) (by intros; simp) rfl ?_
    intro i x y hx hy
    simp only [Bool.or_eq_true, hx, hy]; rfl
  | inter a b iha ihb =>
    obtain ⟨f, hf, ea⟩ := iha
    obtain ⟨g, hg, eb⟩ := ihb
    refine ⟨_, by simp only [Calls.run, hf, hg, ok_bind, Filter.inter]; exact run_merge ea eb _, ?_⟩
    refine merge_exact ea eb hbig _ (· && ·) (by intros; simp) rfl ?_
    intro i x y hx hy
    simp only [Bool.and_eq_true, hx, hy]; rfl
  | diff a b iha ihb =>
    obtain ⟨f, hf, ea⟩ := iha
    obtain ⟨g, hg, eb⟩ := ihb
    refine ⟨_, by simp only [Calls.run, hf, hg, ok_bind, Filter.diff]; exact run_merge ea eb _, ?_⟩
    refine merge_exact ea eb hbig _ xor (by intros; simp) rfl ?_
    intro i x y hx hy
    show _ ↔ ¬ (_ ↔ _)
    rw [← hx, ← hy]
    cases x <;> cases y <;> simp

/-! ## C54 -/

/-- C54, exactly.  After every history of `insert`, `clear`, `|=`, `&=` and `^=` a key is reported as contained if and only if all its bits belong to the set
of bits computed on the side, and the element count is the number of insertions (modulo 2^32). -/
theorem C54_exact (rand : UInt32 → Nat → UInt32) (fuel : Nat) (p : Params) (f0 : Filter) (hnew : Filter.new rand fuel p = ok f0)
    (h8 : 8 ∣ p.tableSize) (hpos : 0 < p.tableSize) (h : Calls) :
    ∃ f, h.run rand fuel p = ok f ∧ f.inserted = h.count % 2 ^ 32 ∧
      ∀ k, ∃ b, f.contains k = ok b ∧
        (b = true ↔ ∀ i, positions f0.salts p.tableSize k i → h.bits (positions f0.salts p.tableSize) i) := by
  obtain ⟨f, hf, inv⟩ := run_exact hnew h8 hpos h
  obtain ⟨hs, ht, hr, _, _⟩ := new_fields hnew
  have hix := index_plain hs inv.same (by rw [ht]; exact h8) (by omega) (by rw [hr, ht])
  have e0 : f.tableSize = p.tableSize := by rw [inv.same]; exact ht
  have e0' : f.salts = f0.salts := by rw [inv.same]
  refine ⟨f, hf, inv.count, fun k => ⟨_, containsLoop_bits f k (fun s => (hashAp k s).toNat % f.tableSize) f.salts
    (fun s _ => by rw [inv.len]; exact hix k s), ?_⟩⟩
  have hb := inv.bits
  rw [ht] at hb
  rw [List.all_eq_true, e0, e0']
  constructor
  · rintro h i ⟨s, hs, rfl⟩
    exact (hb _ (Nat.mod_lt _ hpos)).mp (h s hs)
  · intro h s hs
    exact (hb _ (Nat.mod_lt _ hpos)).mpr (h _ ⟨s, hs, rfl⟩)

/-- A new or cleared filter with at least one hash function contains no key. -/
theorem C54_empty (rand : UInt32 → Nat → UInt32) (fuel : Nat) (p : Params) (f0 : Filter) (hnew : Filter.new rand fuel p = ok f0)
    (h8 : 8 ∣ p.tableSize) (hpos : 0 < p.tableSize) (hash : 0 < p.hashes) (h : Calls) :
    (∀ k, f0.contains k = ok false) ∧ ∃ f, (Calls.clear h).run rand fuel p = ok f ∧ f.inserted = 0 ∧ ∀ k, f.contains k = ok false := by
  have hsalt : f0.salts ≠ [] := by
    have := (C54_new rand fuel p).2 f0 hnew
    rw [← List.length_pos_iff]; omega
  obtain ⟨s, hs⟩ := List.exists_mem_of_ne_nil _ hsalt
  have key : ∀ h : Calls, (∀ i, ¬ h.bits (positions f0.salts p.tableSize) i) → ∃ f, h.run rand fuel p = ok f ∧ f.inserted = h.count % 2 ^ 32 ∧
      ∀ k, f.contains k = ok false := by
    intro h hn
    obtain ⟨f, h1, h2, h3⟩ := C54_exact rand fuel p f0 hnew h8 hpos h
    refine ⟨f, h1, h2, fun k => ?_⟩
    obtain ⟨b, hb, hi⟩ := h3 k
    cases b with
    | false => exact hb
    | true => exact absurd (hi.mp rfl _ ⟨s, hs, rfl⟩) (hn _)
  constructor
  · obtain ⟨f, h1, _, h3⟩ := key .fresh (fun _ => id)
    rw [show (Calls.fresh).run rand fuel p = ok f0 from hnew] at h1
    cases h1
    exact h3
  · obtain ⟨f, h1, h2, h3⟩ := key (.clear h) (fun _ => id)
    exact ⟨f, h1, h2, h3⟩

/-- `==` on filters that have their table: all members agree. -/
theorem C56_equal (f g : Filter) (hf : f.table.length = f.rawSize) (hg : g.table.length = g.rawSize) (hs : f.sizes = g.sizes) :
    ∃ b, f.equal g = ok b ∧ (b = true ↔ f = g) := by
  unfold Filter.equal
  split
  · rename_i h
    obtain ⟨h1, h2, h3, h4, h5, h6, h7, h8⟩ := h
    have e1 : slice f.table 0 f.rawSize = ok f.table := by simp [slice, hf, List.take_of_length_le (Nat.le_of_eq hf)]
    have e2 : slice g.table 0 f.rawSize = ok g.table := by simp [slice, h3, hg, List.take_of_length_le (Nat.le_of_eq hg)]
    rw [e1, ok_bind, e2, ok_bind]
    refine ⟨_, rfl, ?_⟩
    rw [beq_iff_eq]
    constructor
    · intro ht
      cases f; cases g
      simp_all
    · rintro rfl; rfl
  · rename_i h
    refine ⟨false, rfl, by simp, ?_⟩
    rintro rfl
    exact absurd ⟨rfl, rfl, rfl, rfl, rfl, rfl, rfl, rfl⟩ h

theorem bit_ext {t u : List UInt8} (hl : t.length = u.length) (h : ∀ i, i < 8 * t.length → (bit t i = true ↔ bit u i = true)) : t = u := by
  apply List.ext_getElem hl
  intro n h1 h2
  apply UInt8.eq_of_toBitVec_eq
  apply BitVec.eq_of_getLsbD_eq
  intro j hj
  have e := h (8 * n + j) (by omega)
  have d : (8 * n + j) / 8 = n := by omega
  have m : (8 * n + j) % 8 = j := by omega
  unfold bit at e
  rw [d, m, List.getElem?_eq_getElem h1, List.getElem?_eq_getElem h2, Option.getD_some, Option.getD_some] at e
  exact Bool.eq_iff_iff.mpr e

/-- Two filters with the same parameters are equal if and only if their histories set the same bits and count the same number of elements. -/
theorem C56_equal_histories (rand : UInt32 → Nat → UInt32) (fuel : Nat) (p : Params) (f0 : Filter) (hnew : Filter.new rand fuel p = ok f0)
    (h8 : 8 ∣ p.tableSize) (hpos : 0 < p.tableSize) (a b : Calls) :
    ∃ f g r, a.run rand fuel p = ok f ∧ b.run rand fuel p = ok g ∧ f.equal g = ok r ∧
      (r = true ↔ a.count % 2 ^ 32 = b.count % 2 ^ 32 ∧
        ∀ i < p.tableSize, a.bits (positions f0.salts p.tableSize) i ↔ b.bits (positions f0.salts p.tableSize) i) := by
  obtain ⟨f, hf, ea⟩ := run_exact hnew h8 hpos a
  obtain ⟨g, hg, eb⟩ := run_exact hnew h8 hpos b
  obtain ⟨_, ht, hr, _, _⟩ := new_fields hnew
  have e1 : f.rawSize = f0.rawSize := by rw [ea.same]
  have e2 : g.rawSize = f0.rawSize := by rw [eb.same]
  obtain ⟨r, h1, h2⟩ := C56_equal f g ea.len eb.len (by rw [ea.same, eb.same])
  refine ⟨f, g, r, hf, hg, h1, ?_⟩
  rw [h2, ← ht]
  constructor
  · rintro rfl
    exact ⟨by rw [← ea.count, ← eb.count], fun i hi => by rw [← ea.bits i hi, ← eb.bits i hi]⟩
  · rintro ⟨hc, hb⟩
    have t : f.table = g.table := by
      apply bit_ext (by rw [ea.len, eb.len, e1, e2])
      intro i hi
      have : i < f0.tableSize := by rw [ea.len, e1, hr] at hi; omega
      rw [ea.bits i this, eb.bits i this, hb i this]
    rw [ea.same, eb.same, t, ea.count, eb.count, hc]

example : (Filter.new (fun _ _ => 0) 0 ⟨3, 64, 10, 0, 7⟩ >>= fun f => f.insert [99] >>= fun f => f.insert [97] >>= fun g => f.equal g) = ok false := by
  decide +kernel
example : 8 ∣ 64 ∧ (Calls.diff (.insert .fresh [99]) (.insert (.insert .fresh [1]) [2])).count = 1 := by decide

end Strtk.Bloom
