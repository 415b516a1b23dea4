import Verif.Bloom.Model
import Verif.Binary.Trip

/-! # Bloom filter: no false negatives (C54), compression (C55) -/

namespace Strtk.Bloom
open Outcome Mem

/-! ## Specification -/

/-- How a filter came about: constructed from the parameters, then any calls.  The operands of `|=` and `&=` have histories of their own. -/
inductive Hist where
  | fresh
  | insert (h : Hist) (key : List UInt8)
  | clear (h : Hist)
  | union (a b : Hist)
  | inter (a b : Hist)

/-- The keys that have to be found: inserted since the last `clear`, in either operand of `|=`, in both operands of `&=`. -/
def Hist.keys : Hist → List UInt8 → Prop
  | fresh, _ => False
  | insert h key, k => k = key ∨ h.keys k
  | clear _, _ => False
  | union a b, k => a.keys k ∨ b.keys k
  | inter a b, k => a.keys k ∧ b.keys k

/-- The filter at the end of a history. -/
def Hist.run (rand : UInt32 → Nat → UInt32) (fuel : Nat) (p : Params) : Hist → Outcome Filter
  | fresh => Filter.new rand fuel p
  | insert h key => do let f ← h.run rand fuel p; f.insert key
  | clear h => do let f ← h.run rand fuel p; f.clear
  | union a b => do let f ← a.run rand fuel p; let g ← b.run rand fuel p; f.union g
  | inter a b => do let f ← a.run rand fuel p; let g ← b.run rand fuel p; f.inter g

/-- A call on a compressible filter; for `compress` see `Filter.compress`. -/
inductive Op where
  | insert (key : List UInt8)
  | compress (raw fpp : Nat)

/-- A history of a compressible filter. -/
def runOps (f : Filter) : List Op → Outcome Filter
  | [] => ok f
  | .insert k :: os => do let f ← f.insert k; runOps f os
  | .compress raw fpp :: os => do let (_, f) ← f.compress raw fpp; runOps f os

/-- No compression takes away more than half of the table: `size` is the number of bits before. -/
def Halves : Nat → List Op → Prop
  | _, [] => True
  | size, .insert _ :: os => Halves size os
  | size, .compress raw _ :: os =>
    if 8 ≤ raw / 8 * 8 ∧ raw / 8 * 8 < size then size ≤ 2 * (raw / 8 * 8) ∧ Halves (raw / 8 * 8) os else Halves size os

/-! ## Bits -/

/-- Bit `i` of the table is set. -/
def BitSet (t : List UInt8) (i : Nat) : Prop := ∃ c, t[i / 8]? = some c ∧ c &&& bitMask (i % 8) = bitMask (i % 8)

theorem or_keeps (a b m : UInt8) (h : a &&& m = m) : (a ||| b) &&& m = m := by
  apply UInt8.eq_of_toBitVec_eq
  have h := congrArg UInt8.toBitVec h
  simp only [UInt8.toBitVec_and, UInt8.toBitVec_or] at *
  apply BitVec.eq_of_getLsbD_eq
  intro i hi
  have h := congrArg (fun v => v.getLsbD i) h
  simp only [BitVec.getLsbD_and, BitVec.getLsbD_or] at *
  revert h
  cases a.toBitVec.getLsbD i <;> cases b.toBitVec.getLsbD i <;> cases m.toBitVec.getLsbD i <;> decide

theorem or_keeps' (a b m : UInt8) (h : b &&& m = m) : (a ||| b) &&& m = m := by
  rw [UInt8.or_comm]; exact or_keeps b a m h

theorem or_sets (a m : UInt8) : (a ||| m) &&& m = m := or_keeps' a m m (by simp)

theorem and_keeps (a b m : UInt8) (h : a &&& m = m) (h' : b &&& m = m) : (a &&& b) &&& m = m := by
  rw [UInt8.and_assoc, h', h]

theorem deref_some {α : Type} {s : List α} {i : Nat} {a : α} (h : s[i]? = some a) : deref s i = ok a := by
  simp [deref, h]

theorem deref_lt {α : Type} {s : List α} {i : Nat} (h : i < s.length) : ∃ a, s[i]? = some a ∧ deref s i = ok a :=
  ⟨s[i], by simp [h], deref_some (by simp [h])⟩

theorem store_lt {α : Type} {s : List α} {i : Nat} (a : α) (h : i < s.length) : store s i a = ok (s.set i a) := by
  simp [store, h]

theorem BitSet.set {t : List UInt8} {i j : Nat} {c : UInt8} (x : UInt8) (hc : t[j]? = some c) (h : BitSet t i) : BitSet (t.set j (c ||| x)) i := by
  obtain ⟨b, hb, hm⟩ := h
  by_cases e : j = i / 8
  · subst e
    rw [hc] at hb
    cases hb
    refine ⟨c ||| x, ?_, or_keeps _ _ _ hm⟩
    have hl : i / 8 < t.length := by
      rcases Nat.lt_or_ge (i / 8) t.length with h | h
      · exact h
      · rw [List.getElem?_eq_none h] at hc; cases hc
    simp [hl]
  · exact ⟨b, by rw [List.getElem?_set_ne e]; exact hb, hm⟩

/-! ## insert and contains -/

theorem insertLoop_spec (f : Filter) (key : List UInt8) (ix : UInt32 → Nat) : ∀ (salts : List UInt32) (t : List UInt8),
    (∀ s ∈ salts, computeIndex f (hashAp key s) = ok (ix s) ∧ ix s / 8 < t.length) →
    ∃ t', insertLoop f key salts t = ok t' ∧ t'.length = t.length ∧ (∀ i, BitSet t i → BitSet t' i) ∧ ∀ s ∈ salts, BitSet t' (ix s) := by
  intro salts
  induction salts with
  | nil => intro t _; exact ⟨t, rfl, rfl, fun _ h => h, by simp⟩
  | cons s salts ih =>
    intro t h
    obtain ⟨h1, h2⟩ := h s (by simp)
    obtain ⟨c, hc, hd⟩ := deref_lt h2
    obtain ⟨t', e1, e2, e3, e4⟩ := ih (t.set (ix s / 8) (c ||| bitMask (ix s % 8))) (by
      intro s' hs
      obtain ⟨a, b⟩ := h s' (by simp [hs])
      exact ⟨a, by simpa using b⟩)
    refine ⟨t', ?_, by simpa using e2, fun i hi => e3 i (hi.set _ hc), ?_⟩
    · unfold insertLoop
      rw [h1, ok_bind, hd, ok_bind, store_lt _ h2, ok_bind, e1]
    · intro s' hs
      rcases List.mem_cons.mp hs with rfl | hs
      · apply e3
        exact ⟨c ||| bitMask (ix s' % 8), by simp [h2], or_sets _ _⟩
      · exact e4 s' hs

theorem containsLoop_spec (f : Filter) (key : List UInt8) (ix : UInt32 → Nat) : ∀ (salts : List UInt32),
    (∀ s ∈ salts, computeIndex f (hashAp key s) = ok (ix s) ∧ BitSet f.table (ix s)) → containsLoop f key salts = ok true := by
  intro salts
  induction salts with
  | nil => intro _; rfl
  | cons s salts ih =>
    intro h
    obtain ⟨h1, c, hc, hm⟩ := h s (by simp)
    unfold containsLoop
    rw [h1, ok_bind, deref_some hc, ok_bind, if_neg (by simp [hm])]
    exact ih fun s' hs => h s' (by simp [hs])

/-- Whatever the table holds, `contains` answers without leaving it. -/
theorem containsLoop_safe (f : Filter) (key : List UInt8) (ix : UInt32 → Nat) : ∀ (salts : List UInt32),
    (∀ s ∈ salts, computeIndex f (hashAp key s) = ok (ix s) ∧ ix s / 8 < f.table.length) → ∃ b, containsLoop f key salts = ok b := by
  intro salts
  induction salts with
  | nil => intro _; exact ⟨true, rfl⟩
  | cons s salts ih =>
    intro h
    obtain ⟨h1, h2⟩ := h s (by simp)
    obtain ⟨c, hc, hd⟩ := deref_lt h2
    unfold containsLoop
    rw [h1, ok_bind, hd, ok_bind]
    split
    · exact ⟨false, rfl⟩
    · exact ih fun s' hs => h s' (by simp [hs])

/-! ## Merging -/

theorem mergeLoop_spec (op : UInt8 → UInt8 → UInt8) (other : List UInt8) : ∀ (n i : Nat) (t : List UInt8),
    i + n = t.length → t.length = other.length →
    mergeLoop op other n i t = ok (t.take i ++ List.zipWith op (t.drop i) (other.drop i)) := by
  intro n
  induction n with
  | zero =>
    intro i t h1 h2
    have : t.drop i = [] := by apply List.drop_eq_nil_of_le; omega
    simp only [mergeLoop, this, List.zipWith_nil_left, List.append_nil]
    rw [List.take_of_length_le (by omega)]
  | succ n ih =>
    intro i t h1 h2
    have hi : i < t.length := by omega
    have hi' : i < other.length := by omega
    unfold mergeLoop
    rw [deref_some (a := t[i]) (by simp [hi]), ok_bind, deref_some (a := other[i]) (by simp [hi']), ok_bind, store_lt _ hi, ok_bind,
      ih (i + 1) _ (by simp; omega) (by simpa using h2)]
    rw [List.drop_eq_getElem_cons hi, List.drop_eq_getElem_cons hi', List.zipWith_cons_cons]
    congr 1
    rw [List.drop_set_of_lt (by omega)]
    rw [List.take_succ_eq_append_getElem (by simpa using hi)]
    simp [List.take_set_of_le]

theorem merge_all (op : UInt8 → UInt8 → UInt8) (t other : List UInt8) (h : t.length = other.length) :
    mergeLoop op other t.length 0 t = ok (List.zipWith op t other) := by
  rw [mergeLoop_spec op other t.length 0 t (by omega) h]
  simp

theorem BitSet.zipWith_or {t u : List UInt8} {i : Nat} (hl : t.length = u.length) (h : BitSet t i ∨ BitSet u i) :
    BitSet (List.zipWith (· ||| ·) t u) i := by
  rcases h with ⟨c, hc, hm⟩ | ⟨c, hc, hm⟩
  · obtain ⟨d, hd⟩ : ∃ d, u[i / 8]? = some d := by
      have := (List.getElem?_eq_some_iff.mp hc).1
      exact ⟨u[i / 8]'(by omega), by simp⟩
    exact ⟨c ||| d, by simp [List.getElem?_zipWith, hc, hd], or_keeps _ _ _ hm⟩
  · obtain ⟨d, hd⟩ : ∃ d, t[i / 8]? = some d := by
      have := (List.getElem?_eq_some_iff.mp hc).1
      exact ⟨t[i / 8]'(by omega), by simp⟩
    exact ⟨d ||| c, by simp [List.getElem?_zipWith, hc, hd], or_keeps' _ _ _ hm⟩

theorem BitSet.zipWith_and {t u : List UInt8} {i : Nat} (h : BitSet t i) (h' : BitSet u i) : BitSet (List.zipWith (· &&& ·) t u) i := by
  obtain ⟨c, hc, hm⟩ := h
  obtain ⟨d, hd, hm'⟩ := h'
  exact ⟨c &&& d, by simp [List.getElem?_zipWith, hc, hd], and_keeps _ _ _ hm hm'⟩

/-! ## The invariant of a plain filter -/

/-- Everything but the table and the element count is as it was constructed, the table has its size, and the bits of all `keys` are set. -/
structure Inv (f0 : Filter) (keys : List UInt8 → Prop) (f : Filter) : Prop where
  same : f = { f0 with table := f.table, inserted := f.inserted }
  len : f.table.length = f.rawSize
  bits : ∀ k, keys k → ∀ s ∈ f.salts, BitSet f.table ((hashAp k s).toNat % f.tableSize)
  count : f.inserted < 2 ^ 32

theorem index_plain {f0 f : Filter} (h0 : f0.sizes = none) (hf : f = { f0 with table := f.table, inserted := f.inserted }) (h8 : 8 ∣ f0.tableSize)
    (hpos : 0 < f0.tableSize) (hr : f0.rawSize = f0.tableSize / 8) (key : List UInt8) (s : UInt32) :
    computeIndex f (hashAp key s) = ok ((hashAp key s).toNat % f.tableSize) ∧ (hashAp key s).toNat % f.tableSize / 8 < f.rawSize := by
  have e1 : f.sizes = none := by rw [hf]; exact h0
  have e2 : f.tableSize = f0.tableSize := by rw [hf]
  have e3 : f.rawSize = f0.rawSize := by rw [hf]
  constructor
  · simp only [computeIndex, e1, remainder]
    rw [if_neg (by omega)]
  · rw [e2, e3, hr]
    have := Nat.mod_lt (hashAp key s).toNat hpos
    omega

theorem run_inv {rand : UInt32 → Nat → UInt32} {fuel : Nat} {p : Params} {f0 : Filter} (hnew : Filter.new rand fuel p = ok f0) (h8 : 8 ∣ p.tableSize)
    (hpos : 0 < p.tableSize) : ∀ h : Hist, ∃ f, h.run rand fuel p = ok f ∧ Inv f0 h.keys f := by
  have hf0 : f0.sizes = none ∧ f0.tableSize = p.tableSize ∧ f0.rawSize = p.tableSize / 8 ∧ f0.table.length = p.tableSize / 8 ∧ f0.inserted = 0 := by
    unfold Filter.new at hnew
    simp only [bind_eq_ok] at hnew
    obtain ⟨salts, _, h⟩ := hnew
    cases h
    simp
  obtain ⟨hs, ht, hr, hl, hi⟩ := hf0
  intro h
  induction h with
  | fresh => exact ⟨f0, hnew, rfl, by rw [hl, hr], by intro k hk; exact absurd hk id, by omega⟩
  | insert h key ih =>
    obtain ⟨f, hf, inv⟩ := ih
    have hix := index_plain hs inv.same (by rw [ht]; exact h8) (by omega) (by rw [hr, ht])
    obtain ⟨t', e1, e2, e3, e4⟩ := insertLoop_spec f key (fun s => (hashAp key s).toNat % f.tableSize) f.salts f.table (by
      intro s _
      obtain ⟨a, b⟩ := hix key s
      exact ⟨a, by rw [inv.len]; exact b⟩)
    refine ⟨{ f with table := t', inserted := (f.inserted + 1) % 2 ^ 32 }, ?_, ?_, ?_, ?_, Nat.mod_lt _ (by decide)⟩
    · simp only [Hist.run, hf, ok_bind, Filter.insert, e1]
    · rw [inv.same]
    · simp only [e2, inv.len]
    · intro k hk s hsalt
      rcases hk with rfl | hk
      · exact e4 s hsalt
      · exact e3 _ (inv.bits k hk s hsalt)
  | clear h ih =>
    obtain ⟨f, hf, inv⟩ := ih
    refine ⟨{ f with table := List.replicate f.rawSize 0, inserted := 0 }, ?_, ?_, by simp, by intro k hk; exact absurd hk id, Nat.two_pow_pos 32⟩
    · have : copyTo f.table 0 (List.replicate f.rawSize 0) = ok (List.replicate f.rawSize 0) := by
        simp [copyTo, inv.len]
      simp only [Hist.run, hf, ok_bind, Filter.clear, this]
    · rw [inv.same]
  | union a b iha ihb =>
    obtain ⟨f, hf, inv⟩ := iha
    obtain ⟨g, hg, ing⟩ := ihb
    have hfg : f.table.length = g.table.length := by rw [inv.len, ing.len, inv.same, ing.same]
    refine ⟨{ f with table := List.zipWith (· ||| ·) f.table g.table }, ?_, ?_, ?_, ?_, inv.count⟩
    · simp only [Hist.run, hf, hg, ok_bind, Filter.union, Filter.merge]
      rw [if_pos (by rw [inv.same, ing.same]; exact ⟨rfl, rfl, rfl⟩), ← inv.len, merge_all _ _ _ hfg]
      simp [inv.len]
    · rw [inv.same]
    · simp [← hfg, inv.len]
    · intro k hk s hsalt
      apply BitSet.zipWith_or hfg
      rcases hk with hk | hk
      · exact Or.inl (inv.bits k hk s hsalt)
      · refine Or.inr ?_
        have e : g.tableSize = f.tableSize := by rw [inv.same, ing.same]
        have e' : g.salts = f.salts := by rw [inv.same, ing.same]
        have := ing.bits k hk s (by rw [e']; exact hsalt)
        rw [e] at this
        exact this
  | inter a b iha ihb =>
    obtain ⟨f, hf, inv⟩ := iha
    obtain ⟨g, hg, ing⟩ := ihb
    have hfg : f.table.length = g.table.length := by rw [inv.len, ing.len, inv.same, ing.same]
    refine ⟨{ f with table := List.zipWith (· &&& ·) f.table g.table }, ?_, ?_, ?_, ?_, inv.count⟩
    · simp only [Hist.run, hf, hg, ok_bind, Filter.inter, Filter.merge]
      rw [if_pos (by rw [inv.same, ing.same]; exact ⟨rfl, rfl, rfl⟩), ← inv.len, merge_all _ _ _ hfg]
      simp [inv.len]
    · rw [inv.same]
    · simp [← hfg, inv.len]
    · intro k hk s hsalt
      refine BitSet.zipWith_and (inv.bits k hk.1 s hsalt) ?_
      have e : g.tableSize = f.tableSize := by rw [inv.same, ing.same]
      have e' : g.salts = f.salts := by rw [inv.same, ing.same]
      have := ing.bits k hk.2 s (by rw [e']; exact hsalt)
      rw [e] at this
      exact this

/-! ## C54 -/

/-- C54.  For every parameter set with a positive table size that is a multiple of eight and every history of `insert`, `clear`, `|=` and `&=`: no
access leaves the table, every query is answered, and every key that has to be found is found. -/
theorem C54_no_false_negatives (rand : UInt32 → Nat → UInt32) (fuel : Nat) (p : Params) (f0 : Filter) (hnew : Filter.new rand fuel p = ok f0)
    (h8 : 8 ∣ p.tableSize) (hpos : 0 < p.tableSize) (h : Hist) :
    ∃ f, h.run rand fuel p = ok f ∧ (∀ k, ∃ b, f.contains k = ok b) ∧ ∀ k, h.keys k → f.contains k = ok true := by
  obtain ⟨f, hf, inv⟩ := run_inv hnew h8 hpos h
  have hf0 : f0.sizes = none ∧ f0.tableSize = p.tableSize ∧ f0.rawSize = p.tableSize / 8 := by
    unfold Filter.new at hnew
    simp only [bind_eq_ok] at hnew
    obtain ⟨salts, _, h⟩ := hnew
    cases h
    simp
  obtain ⟨hs, ht, hr⟩ := hf0
  have hix := index_plain hs inv.same (by rw [ht]; exact h8) (by omega) (by rw [hr, ht])
  refine ⟨f, hf, ?_, ?_⟩
  · intro k
    exact containsLoop_safe f k (fun s => (hashAp k s).toNat % f.tableSize) f.salts fun s _ => by
      rw [inv.len]; exact hix k s
  · intro k hk
    exact containsLoop_spec f k (fun s => (hashAp k s).toNat % f.tableSize) f.salts fun s hs => ⟨(hix k s).1, inv.bits k hk s hs⟩

theorem mixSalts_ok (seed : UInt32) : ∀ (n i : Nat) (salts : List UInt32), i + n = salts.length →
    ∃ l, mixSalts seed n i salts = ok l ∧ l.length = salts.length := by
  intro n
  induction n with
  | zero => intro i salts _; exact ⟨salts, rfl, rfl⟩
  | succ n ih =>
    intro i salts h
    obtain ⟨a, _, ha⟩ := deref_lt (s := salts) (i := i) (by omega)
    obtain ⟨b, _, hb⟩ := deref_lt (s := salts) (i := (i + 3) % salts.length) (Nat.mod_lt _ (by omega))
    obtain ⟨l, h1, h2⟩ := ih (i + 1) (salts.set i (a * b + seed)) (by simp; omega)
    refine ⟨l, ?_, by simpa using h2⟩
    unfold mixSalts
    rw [ha, ok_bind, hb, ok_bind, store_lt _ (by omega), ok_bind, h1]

theorem moreSalts_spec (rnd : Nat → UInt32) (count : Nat) : ∀ (fuel j : Nat) (salts l : List UInt32), salts.length ≤ count → salts.Nodup →
    moreSalts rnd count fuel j salts = ok l → l.length = count ∧ l.Nodup := by
  intro fuel
  induction fuel with
  | zero => intro j salts l _ _ h; cases h
  | succ fuel ih =>
    intro j salts l hl hn h
    unfold moreSalts at h
    split at h
    · simp only at h
      split at h
      · exact ih _ _ _ hl hn h
      · split at h
        · exact ih _ _ _ hl hn h
        · refine ih _ _ _ (by simp; omega) ?_ h
          rw [List.nodup_append]
          refine ⟨hn, by simp, ?_⟩
          intro a ha b hb
          simp only [List.mem_singleton] at hb
          rintro rfl
          subst hb
          contradiction
    · cases h
      exact ⟨by omega, hn⟩

/-- Construction always succeeds for up to 128 hash functions; beyond, it succeeds if the random numbers yield enough different salts.  There is one
salt for each hash function, and the salts are the same for equal parameters. -/
theorem C54_new (rand : UInt32 → Nat → UInt32) (fuel : Nat) (p : Params) :
    (p.hashes ≤ 128 → ∃ f, Filter.new rand fuel p = ok f) ∧
    ∀ f, Filter.new rand fuel p = ok f → f.salts.length = p.hashes ∧ (128 < p.hashes → f.salts.Nodup) := by
  constructor
  · intro h
    obtain ⟨l, h1, _⟩ := mixSalts_ok (UInt32.ofNat ((p.seed * 0xA5A5A5A5 + 1) % 2 ^ 64)) (predefSalt.take p.hashes).length 0 (predefSalt.take p.hashes)
      (by omega)
    unfold Filter.new generateSalts
    simp only [if_pos h, h1, ok_bind]
    exact ⟨_, rfl⟩
  · intro f hf
    have hl128 : predefSalt.length = 128 := by decide +kernel
    unfold Filter.new at hf
    simp only [bind_eq_ok] at hf
    obtain ⟨salts, hs, h⟩ := hf
    cases h
    unfold generateSalts at hs
    simp only
    split at hs
    · rename_i hc
      obtain ⟨l, h1, h2⟩ := mixSalts_ok (UInt32.ofNat ((p.seed * 0xA5A5A5A5 + 1) % 2 ^ 64)) (predefSalt.take p.hashes).length 0
        (predefSalt.take p.hashes) (by omega)
      rw [h1] at hs
      cases hs
      refine ⟨?_, by omega⟩
      rw [h2, List.length_take]
      omega
    · rename_i hc
      have := moreSalts_spec _ _ _ _ _ _ (by omega) (by decide +kernel) hs
      exact ⟨this.1, fun _ => this.2⟩

/-- `contains_all` on inserted keys arrives at the end; `contains_none` stops at the first of them. -/
theorem C54_ranges (rand : UInt32 → Nat → UInt32) (fuel : Nat) (p : Params) (f0 : Filter) (hnew : Filter.new rand fuel p = ok f0)
    (h8 : 8 ∣ p.tableSize) (hpos : 0 < p.tableSize) (h : Hist) (keys : List (List UInt8)) (hk : ∀ k ∈ keys, h.keys k) :
    ∃ f, h.run rand fuel p = ok f ∧ f.containsAll keys = ok keys.length ∧ f.containsNone keys = ok 0 := by
  obtain ⟨f, h1, _, h2⟩ := C54_no_false_negatives rand fuel p f0 hnew h8 hpos h
  refine ⟨f, h1, ?_, ?_⟩
  · have : ∀ (ks : List (List UInt8)) (i : Nat), (∀ k ∈ ks, h.keys k) → f.scan false ks i = ok (i + ks.length) := by
      intro ks
      induction ks with
      | nil => intro i _; rfl
      | cons k ks ih =>
        intro i hks
        unfold Filter.scan
        rw [h2 k (hks k (by simp)), ok_bind, if_neg (by decide), ih _ fun k hk => hks k (by simp [hk])]
        simp; omega
    have := this keys 0 hk
    simpa [Filter.containsAll] using this
  · unfold Filter.containsNone
    cases keys with
    | nil => rfl
    | cons k ks =>
      unfold Filter.scan
      rw [h2 k (hk k (by simp)), ok_bind, if_pos rfl]

/-- `insert(begin, end)` is the insertion of one key after the other: it succeeds after every history, and afterwards the keys of the range, and those
that had to be found before, are found. -/
theorem C54_insert_range (rand : UInt32 → Nat → UInt32) (fuel : Nat) (p : Params) (f0 : Filter) (hnew : Filter.new rand fuel p = ok f0)
    (h8 : 8 ∣ p.tableSize) (hpos : 0 < p.tableSize) (keys : List (List UInt8)) (h : Hist) :
    ∃ f f', h.run rand fuel p = ok f ∧ f.insertRange keys = ok f' ∧ (∀ k ∈ keys, f'.contains k = ok true) ∧
      ∀ k, h.keys k → f'.contains k = ok true := by
  have key : ∀ (ks : List (List UInt8)) (h : Hist) (f : Filter), h.run rand fuel p = ok f →
      ∃ f' h', f.insertRange ks = ok f' ∧ Hist.run rand fuel p h' = ok f' ∧ (∀ k, Hist.keys h' k ↔ k ∈ ks ∨ h.keys k) := by
    intro ks
    induction ks with
    | nil => intro h f hf; exact ⟨f, h, rfl, hf, fun k => by simp⟩
    | cons k ks ih =>
      intro h f hf
      obtain ⟨f1, hf1, _⟩ := C54_no_false_negatives rand fuel p f0 hnew h8 hpos (.insert h k)
      have hf1' := hf1
      rw [Hist.run, hf, ok_bind] at hf1
      obtain ⟨f', h', e1, e2, e3⟩ := ih (.insert h k) f1 hf1'
      refine ⟨f', h', ?_, e2, ?_⟩
      · rw [Filter.insertRange, hf1, ok_bind, e1]
      · intro x
        rw [e3]
        simp only [Hist.keys, List.mem_cons]
        rw [or_left_comm, or_assoc]
  obtain ⟨f, hf, _⟩ := C54_no_false_negatives rand fuel p f0 hnew h8 hpos h
  obtain ⟨f', h', e1, e2, e3⟩ := key keys h f hf
  obtain ⟨f'', e4, _, e5⟩ := C54_no_false_negatives rand fuel p f0 hnew h8 hpos h'
  rw [e2] at e4
  injection e4 with e4
  subst e4
  exact ⟨f, f', hf, e1, fun k hk => e5 k ((e3 k).mpr (Or.inl hk)), fun k hk => e5 k ((e3 k).mpr (Or.inr hk))⟩

/-- The number of hash functions is the computed one moved into the limits. -/
theorem C54_hash_count (k minimum maximum : Nat) (h : minimum ≤ maximum) :
    minimum ≤ optimalHashes k minimum maximum ∧ optimalHashes k minimum maximum ≤ maximum ∧
      (minimum ≤ k → k ≤ maximum → optimalHashes k minimum maximum = k) := by
  unfold optimalHashes
  split <;> (try split) <;> omega

/-- The table size computed from the parameters is a positive multiple of eight when the limits are multiples of eight and the lower limit is positive. -/
theorem C54_table_size (m minimum maximum : Nat) (h1 : 8 ∣ minimum) (h2 : 8 ∣ maximum ∨ m + 7 ≤ maximum) (h3 : 0 < minimum) (h4 : minimum ≤ maximum) :
    8 ∣ optimalTableSize m minimum maximum ∧ 0 < optimalTableSize m minimum maximum := by
  unfold optimalTableSize
  simp only
  split <;> split <;> (try split) <;> omega

/-- A lower limit that is not a multiple of eight gives a table size that is not one, and then an insertion writes behind the table: with a limit of nine
bits (one cell) the key "g" sets bit 8. -/
theorem C54_odd_table_size : optimalTableSize 1 9 (2 ^ 64 - 1) = 9 ∧ (∃ f, Filter.new (fun _ _ => 0) 0 ⟨1, 9, 1, 0, 1⟩ = ok f) ∧
    (Filter.new (fun _ _ => 0) 0 ⟨1, 9, 1, 0, 1⟩ >>= fun f => f.insert [103]) = ub :=
  ⟨by decide +kernel, (C54_new _ _ _).1 (by decide), by decide +kernel⟩

/-- `&`, `|` and `^` copy a filter, and the copy constructor deletes a pointer that was never set: undefined behaviour for all operands. -/
theorem C54_copy_undefined (op : UInt8 → UInt8 → UInt8) (f g : Filter) : f.mergeCopy op g = ub := rfl

/-- Non-vacuity: three hash functions, 64 bits; "ab" is inserted before and "c" after a clear, then the filter is merged with one holding "d". -/
example : ∃ f0, Filter.new (fun _ _ => 0) 0 ⟨3, 64, 10, 0, 7⟩ = ok f0 := (C54_new _ _ _).1 (by decide)
example : 8 ∣ 64 ∧ (Hist.union (.insert (.clear (.insert .fresh [97, 98])) [99]) (.insert .fresh [100])).keys [100] := ⟨by decide, Or.inr (Or.inl rfl)⟩
example : (Filter.new (fun _ _ => 0) 0 ⟨3, 64, 10, 0, 7⟩ >>= fun f => f.insert [99] >>= fun f => f.contains [97]) = ok false := by decide +kernel

/-! ## C55: compression -/

/-- Successive remainders. -/
def index (l : List Nat) (x : Nat) : Nat := l.foldl (· % ·) x

theorem reduce_eq : ∀ (l : List Nat) (x : Nat), (∀ m ∈ l, 0 < m) → reduce x l = ok (index l x) := by
  intro l
  induction l with
  | nil => intro x _; rfl
  | cons m l ih =>
    intro x h
    have hm := h m (by simp)
    unfold reduce remainder
    rw [if_neg (by omega), ok_bind, ih _ fun k hk => h k (by simp [hk])]
    rfl

theorem index_snoc (l : List Nat) (m x : Nat) : index (l ++ [m]) x = index l x % m := by
  simp [index]

/-- A compressible filter of `size` bits in which the bits of all `keys` are set. -/
structure CInv (f0 : Filter) (size : Nat) (keys : List UInt8 → Prop) (f : Filter) : Prop where
  salts : f.salts = f0.salts
  raw : f.rawSize = f0.rawSize
  tsize : f.tableSize = f0.tableSize
  count : f.saltCount = f0.saltCount
  seed : f.seed = f0.seed
  h8 : 8 ∣ size
  hpos : 0 < size
  len : f.table.length = size / 8
  small : size ≤ f0.tableSize
  list : ∃ l, f.sizes = some (l ++ [size]) ∧ (∀ m ∈ l, 0 < m) ∧
    ∀ k, keys k → ∀ s ∈ f.salts, BitSet f.table (index (l ++ [size]) (hashAp k s).toNat)

theorem CInv.index {f0 f : Filter} {size : Nat} {keys : List UInt8 → Prop} (inv : CInv f0 size keys f) {l : List Nat} (hl : f.sizes = some (l ++ [size]))
    (hm : ∀ m ∈ l, 0 < m) (key : List UInt8) (s : UInt32) :
    computeIndex f (hashAp key s) = ok (Bloom.index (l ++ [size]) (hashAp key s).toNat) ∧
    Bloom.index (l ++ [size]) (hashAp key s).toNat / 8 < f.table.length := by
  constructor
  · simp only [computeIndex, hl]
    apply reduce_eq
    intro m hm'
    rcases List.mem_append.mp hm' with h | h
    · exact hm m h
    · simp only [List.mem_singleton] at h
      rw [h]; exact inv.hpos
  · rw [index_snoc, inv.len]
    have := Nat.mod_lt (Bloom.index l (hashAp key s).toNat) inv.hpos
    have := inv.h8
    omega

theorem CInv.insert {f0 f : Filter} {size : Nat} {keys : List UInt8 → Prop} (inv : CInv f0 size keys f) (key : List UInt8) :
    ∃ f', f.insert key = ok f' ∧ CInv f0 size (fun k => k = key ∨ keys k) f' := by
  obtain ⟨l, hl, hm, hb⟩ := inv.list
  obtain ⟨t', e1, e2, e3, e4⟩ := insertLoop_spec f key (fun s => Bloom.index (l ++ [size]) (hashAp key s).toNat) f.salts f.table
    fun s _ => inv.index hl hm key s
  refine ⟨{ f with table := t', inserted := (f.inserted + 1) % 2 ^ 32 }, by simp only [Filter.insert, e1, ok_bind], inv.salts, inv.raw, inv.tsize,
    inv.count, inv.seed, inv.h8, inv.hpos, by simp only [e2, inv.len], inv.small, l, hl, hm, ?_⟩
  intro k hk s hs
  rcases hk with rfl | hk
  · exact e4 s hs
  · exact e3 _ (hb k hk s hs)

theorem CInv.contains {f0 f : Filter} {size : Nat} {keys : List UInt8 → Prop} (inv : CInv f0 size keys f) :
    (∀ k, ∃ b, f.contains k = ok b) ∧ ∀ k, keys k → f.contains k = ok true := by
  obtain ⟨l, hl, hm, hb⟩ := inv.list
  constructor
  · intro k
    exact containsLoop_safe f k (fun s => Bloom.index (l ++ [size]) (hashAp k s).toNat) f.salts fun s _ => inv.index hl hm k s
  · intro k hk
    exact containsLoop_spec f k (fun s => Bloom.index (l ++ [size]) (hashAp k s).toNat) f.salts fun s hs =>
      ⟨(inv.index hl hm k s).1, hb k hk s hs⟩

theorem foldLoop_spec (table : List UInt8) : ∀ (n i o : Nat) (tmp : List UInt8), o + n ≤ tmp.length → i + n ≤ table.length →
    ∃ t', foldLoop table n i o tmp = ok t' ∧ t'.length = tmp.length ∧ (∀ j, BitSet tmp j → BitSet t' j) ∧
      ∀ j, o ≤ j / 8 → j / 8 < o + n → BitSet table (j + 8 * i - 8 * o) → BitSet t' j := by
  intro n
  induction n with
  | zero => intro i o tmp _ _; exact ⟨tmp, rfl, rfl, fun _ h => h, by intro j h1 h2; omega⟩
  | succ n ih =>
    intro i o tmp h1 h2
    obtain ⟨a, ha, hda⟩ := deref_lt (s := tmp) (i := o) (by omega)
    obtain ⟨b, hb, hdb⟩ := deref_lt (s := table) (i := i) (by omega)
    obtain ⟨t', e1, e2, e3, e4⟩ := ih (i + 1) (o + 1) (tmp.set o (a ||| b)) (by simp; omega) (by omega)
    refine ⟨t', ?_, by simpa using e2, fun j hj => e3 j (hj.set _ ha), ?_⟩
    · unfold foldLoop
      rw [hda, ok_bind, hdb, ok_bind, store_lt _ (by omega), ok_bind, e1]
    · intro j hj1 hj2 hj3
      by_cases hj : j / 8 = o
      · apply e3
        obtain ⟨c, hc, hcm⟩ := hj3
        have e : (j + 8 * i - 8 * o) / 8 = i := by omega
        have e' : (j + 8 * i - 8 * o) % 8 = j % 8 := by omega
        rw [e, hb] at hc
        cases hc
        rw [e'] at hcm
        refine ⟨a ||| b, ?_, or_keeps' _ _ _ hcm⟩
        rw [hj]
        have : o < tmp.length := by omega
        simp [this]
      · apply e4 j (by omega) (by omega)
        have : j + 8 * (i + 1) - 8 * (o + 1) = j + 8 * i - 8 * o := by omega
        rw [this]
        exact hj3

theorem foldLoop_ub (table : List UInt8) : ∀ (n i o : Nat) (tmp : List UInt8), o ≤ tmp.length → tmp.length < o + n → i + n ≤ table.length →
    foldLoop table n i o tmp = ub := by
  intro n
  induction n with
  | zero => intro i o tmp h1 h2; omega
  | succ n ih =>
    intro i o tmp h1 h2 h3
    unfold foldLoop
    by_cases h : o < tmp.length
    · obtain ⟨a, ha, hda⟩ := deref_lt h
      obtain ⟨b, hb, hdb⟩ := deref_lt (s := table) (i := i) (by omega)
      rw [hda, ok_bind, hdb, ok_bind, store_lt _ h, ok_bind]
      exact ih _ _ _ (by simp; omega) (by simp; omega) (by omega)
    · have : deref tmp o = ub := by simp [deref, List.getElem?_eq_none (Nat.le_of_not_lt h)]
      rw [this, ub_bind]

theorem round_down (raw : Nat) : raw - (if raw % 8 ≠ 0 then raw % 8 else 0) = raw / 8 * 8 := by
  split <;> omega

theorem CInv.compress {f0 f : Filter} {size : Nat} {keys : List UInt8 → Prop} (inv : CInv f0 size keys f) (raw fpp : Nat) :
    (8 ≤ raw / 8 * 8 ∧ raw / 8 * 8 < size → size ≤ 2 * (raw / 8 * 8) →
      ∃ f', f.compress raw fpp = ok (true, f') ∧ CInv f0 (raw / 8 * 8) keys f') ∧
    (8 ≤ raw / 8 * 8 ∧ raw / 8 * 8 < size → 2 * (raw / 8 * 8) < size → f.compress raw fpp = ub) ∧
    (¬ (8 ≤ raw / 8 * 8 ∧ raw / 8 * 8 < size) → f.compress raw fpp = ok (false, f)) := by
  obtain ⟨l, hl, hm, hb⟩ := inv.list
  have hlast : (l ++ [size]).getLast? = some size := by simp
  generalize hn : raw / 8 * 8 = new at *
  have hn8 : new % 8 = 0 := by omega
  have hs8 := inv.h8
  have hlen := inv.len
  have hslice : new < size → slice f.table 0 (new / 8) = ok (f.table.take (new / 8)) := by
    intro h
    simp only [slice, List.drop_zero]
    rw [if_pos (by omega)]
  refine ⟨?_, ?_, ?_⟩
  · rintro ⟨h1, h2⟩ h3
    obtain ⟨t', e1, e2, e3, e4⟩ := foldLoop_spec f.table (size / 8 - new / 8) (new / 8) 0 (f.table.take (new / 8))
      (by simp; omega) (by omega)
    refine ⟨{ f with table := t', sizes := some (l ++ [size] ++ [new]), fpp := fpp }, ?_, ?_⟩
    · simp only [Filter.compress, hl, hlast, round_down, hn]
      rw [if_neg (by omega), hslice h2, ok_bind, e1, ok_bind]
    · refine ⟨inv.salts, inv.raw, inv.tsize, inv.count, inv.seed, by omega, by omega, ?_, by have := inv.small; omega, l ++ [size], rfl, ?_, ?_⟩
      · rw [e2, List.length_take]; omega
      · intro m hm'
        rcases List.mem_append.mp hm' with h | h
        · exact hm m h
        · simp only [List.mem_singleton] at h
          rw [h]; exact inv.hpos
      · intro k hk s hs
        have hbit := hb k hk s hs
        have hlt : Bloom.index (l ++ [size]) (hashAp k s).toNat < size := by
          rw [index_snoc]; exact Nat.mod_lt _ inv.hpos
        rw [index_snoc (l ++ [size])]
        generalize Bloom.index (l ++ [size]) (hashAp k s).toNat = b at *
        rcases Nat.lt_or_ge b new with h | h
        · rw [Nat.mod_eq_of_lt h]
          apply e3
          obtain ⟨c, hc, hcm⟩ := hbit
          refine ⟨c, ?_, hcm⟩
          rw [List.getElem?_take_of_lt (by omega)]
          exact hc
        · have : b % new = b - new := by
            rw [Nat.mod_eq_sub_mod h, Nat.mod_eq_of_lt (by omega)]
          rw [this]
          apply e4 (b - new) (by omega) (by omega)
          have : b - new + 8 * (new / 8) - 8 * 0 = b := by omega
          rw [this]
          exact hbit
  · rintro ⟨h1, h2⟩ h3
    simp only [Filter.compress, hl, hlast, round_down, hn]
    rw [if_neg (by omega), hslice h2, ok_bind, foldLoop_ub f.table _ _ _ _ (by simp) (by simp; omega) (by omega), ub_bind]
  · intro h
    simp only [Filter.compress, hl, hlast, round_down, hn]
    rw [if_pos (by omega)]

theorem newCompressible_inv {rand : UInt32 → Nat → UInt32} {fuel : Nat} {p : Params} {f0 : Filter} (hnew : Filter.newCompressible rand fuel p = ok f0)
    (h8 : 8 ∣ p.tableSize) (hpos : 0 < p.tableSize) : CInv f0 p.tableSize (fun _ => False) f0 := by
  unfold Filter.newCompressible Filter.new at hnew
  simp only [bind_eq_ok] at hnew
  obtain ⟨f, ⟨salts, _, h⟩, h'⟩ := hnew
  cases h
  cases h'
  exact ⟨rfl, rfl, rfl, rfl, rfl, h8, hpos, by simp, Nat.le_refl _, [], rfl, by simp, by intro k hk; exact absurd hk id⟩

theorem runOps_inv {f0 : Filter} : ∀ (os : List Op) (size : Nat) (keys : List UInt8 → Prop) (f : Filter), CInv f0 size keys f → Halves size os →
    ∃ f' size' keys', runOps f os = ok f' ∧ CInv f0 size' keys' f' ∧ (∀ k, keys k → keys' k) ∧ ∀ k, Op.insert k ∈ os → keys' k := by
  intro os
  induction os with
  | nil => intro size keys f inv _; exact ⟨f, size, keys, rfl, inv, fun _ h => h, by simp⟩
  | cons o os ih =>
    intro size keys f inv hh
    cases o with
    | insert k =>
      obtain ⟨f1, h1, inv1⟩ := inv.insert k
      obtain ⟨f2, s2, k2, h2, inv2, h3, h4⟩ := ih size _ f1 inv1 hh
      refine ⟨f2, s2, k2, by simp only [runOps, h1, ok_bind, h2], inv2, fun x hx => h3 x (Or.inr hx), ?_⟩
      intro x hx
      simp only [List.mem_cons, Op.insert.injEq] at hx
      rcases hx with rfl | hx
      · exact h3 x (Or.inl rfl)
      · exact h4 x hx
    | compress raw fpp =>
      simp only [Halves] at hh
      obtain ⟨ha, _, hc⟩ := inv.compress raw fpp
      split at hh
      · rename_i hcond
        obtain ⟨f1, h1, inv1⟩ := ha hcond hh.1
        obtain ⟨f2, s2, k2, h2, inv2, h3, h4⟩ := ih _ _ f1 inv1 hh.2
        refine ⟨f2, s2, k2, by simp only [runOps, h1, ok_bind, h2], inv2, h3, ?_⟩
        intro x hx
        simp only [List.mem_cons, reduceCtorEq, false_or] at hx
        exact h4 x hx
      · rename_i hcond
        obtain ⟨f2, s2, k2, h2, inv2, h3, h4⟩ := ih _ _ f inv hh
        refine ⟨f2, s2, k2, by simp only [runOps, hc hcond, ok_bind, h2], inv2, h3, ?_⟩
        intro x hx
        simp only [List.mem_cons, reduceCtorEq, false_or] at hx
        exact h4 x hx

/-- C55, as far as it holds: if no compression takes away more than half of the table, then in every history of insertions and compressions no access
leaves a table, and every key inserted, before or after the compressions, is found.  Missing: larger compressions (`C55_overflow`). -/
theorem C55_compress_partial (rand : UInt32 → Nat → UInt32) (fuel : Nat) (p : Params) (f0 : Filter) (hnew : Filter.newCompressible rand fuel p = ok f0)
    (h8 : 8 ∣ p.tableSize) (hpos : 0 < p.tableSize) (os : List Op) (hh : Halves p.tableSize os) :
    ∃ f, runOps f0 os = ok f ∧ (∀ k, ∃ b, f.contains k = ok b) ∧ ∀ k, Op.insert k ∈ os → f.contains k = ok true := by
  obtain ⟨f, s, keys, h1, inv, _, h2⟩ := runOps_inv os p.tableSize _ f0 (newCompressible_inv hnew h8 hpos) hh
  exact ⟨f, h1, inv.contains.1, fun k hk => inv.contains.2 k (h2 k hk)⟩

/-- Non-vacuity: 64 bits are compressed to 40 and then to 24 (two fifths). -/
example : Halves 64 [.insert [1, 2], .compress 44 0, .insert [3], .compress 24 0] := by
  simp [Halves]
example : ∃ f0, Filter.newCompressible (fun _ _ => 0) 0 ⟨3, 64, 10, 0, 7⟩ = ok f0 := by
  obtain ⟨f, hf⟩ := (C54_new (fun _ _ => 0) 0 ⟨3, 64, 10, 0, 7⟩).1 (by decide)
  exact ⟨_, by rw [Filter.newCompressible, hf, ok_bind]⟩

/-- A compression that takes away more than half of a table (any history before it) always writes behind the new table. -/
theorem C55_overflow (rand : UInt32 → Nat → UInt32) (fuel : Nat) (p : Params) (f0 : Filter) (hnew : Filter.newCompressible rand fuel p = ok f0)
    (h8 : 8 ∣ p.tableSize) (hpos : 0 < p.tableSize) (keys : List (List UInt8)) (raw fpp : Nat) (h : 8 ≤ raw) (h2 : 2 * raw < p.tableSize) :
    runOps f0 (keys.map Op.insert ++ [.compress raw fpp]) = ub := by
  have : ∀ (ks : List (List UInt8)) (K : List UInt8 → Prop) (f : Filter), CInv f0 p.tableSize K f →
      runOps f (ks.map Op.insert ++ [.compress raw fpp]) = ub := by
    intro ks
    induction ks with
    | nil =>
      intro K f inv
      simp only [List.map_nil, List.nil_append, runOps]
      rw [(inv.compress raw fpp).2.1 (by omega) (by omega), ub_bind]
    | cons k ks ih =>
      intro K f inv
      obtain ⟨f1, h1, inv1⟩ := inv.insert k
      simp only [List.map_cons, List.cons_append, runOps, h1, ok_bind]
      exact ih _ f1 inv1
  exact this keys _ f0 (newCompressible_inv hnew h8 hpos)

/-- 60% of 40 bits: 16 bits are left, and the third cell written lies behind the two that were allocated. -/
example : 8 ≤ 16 ∧ 2 * 16 < 40 ∧ ∃ f0, Filter.newCompressible (fun _ _ => 0) 0 ⟨1, 40, 10, 0, 7⟩ = ok f0 := by
  obtain ⟨f, hf⟩ := (C54_new (fun _ _ => 0) 0 ⟨1, 40, 10, 0, 7⟩).1 (by decide)
  exact ⟨by decide, by decide, _, by rw [Filter.newCompressible, hf, ok_bind]⟩

/-- After a successful compression the filter still uses the old number of cells: `clear` writes, and `|=`, `&=`, `^=` with an equally constructed
filter read and write, behind the table. -/
theorem C55_clear_after_compress (rand : UInt32 → Nat → UInt32) (fuel : Nat) (p : Params) (f0 : Filter)
    (hnew : Filter.newCompressible rand fuel p = ok f0) (h8 : 8 ∣ p.tableSize) (hpos : 0 < p.tableSize) (raw fpp : Nat)
    (h : 8 ≤ raw) (h1 : raw < p.tableSize) (h2 : p.tableSize ≤ 2 * (raw / 8 * 8)) (op : UInt8 → UInt8 → UInt8) :
    ∃ f, f0.compress raw fpp = ok (true, f) ∧ f.clear = ub ∧ f.merge op f0 = ub := by
  have inv0 := newCompressible_inv hnew h8 hpos
  obtain ⟨f, hf, inv⟩ := (inv0.compress raw fpp).1 (by omega) h2
  have hraw : f0.rawSize = p.tableSize / 8 := by
    unfold Filter.newCompressible Filter.new at hnew
    simp only [bind_eq_ok] at hnew
    obtain ⟨f, ⟨salts, _, h⟩, h'⟩ := hnew
    cases h
    cases h'
    rfl
  have hl := inv.len
  refine ⟨f, hf, ?_, ?_⟩
  · simp only [Filter.clear, copyTo, inv.raw, hraw, hl, List.length_replicate]
    rw [if_neg (by omega), ub_bind]
  · unfold Filter.merge
    rw [if_pos ⟨inv.count, inv.tsize, inv.seed⟩]
    have : ∀ (n i : Nat) (t : List UInt8), i ≤ t.length → t.length < i + n → i + n ≤ f0.table.length → mergeLoop op f0.table n i t = ub := by
      intro n
      induction n with
      | zero => intro i t _ _; omega
      | succ n ih =>
        intro i t ha hb hc
        unfold mergeLoop
        by_cases hi : i < t.length
        · obtain ⟨a, _, hda⟩ := deref_lt hi
          obtain ⟨b, _, hdb⟩ := deref_lt (s := f0.table) (i := i) (by omega)
          rw [hda, ok_bind, hdb, ok_bind, store_lt _ hi, ok_bind]
          exact ih _ _ (by simp; omega) (by simp; omega) (by omega)
        · have : deref t i = ub := by simp [deref, List.getElem?_eq_none (Nat.le_of_not_lt hi)]
          rw [this, ub_bind]
    rw [this f.rawSize 0 f.table (by omega) (by rw [hl, inv.raw, hraw]; omega) (by rw [inv.raw, hraw, inv0.len]; omega), ub_bind]

/-! ## Concrete cases of C54 and C55 -/

example : ∃ f, (Hist.union (.insert (.clear (.insert .fresh [97, 98])) [99]) (.insert .fresh [100])).run (fun _ _ => 0) 0 ⟨3, 64, 10, 0, 7⟩ = ok f ∧
    f.contains [99] = ok true ∧ f.contains [100] = ok true := by
  obtain ⟨f0, h0⟩ := (C54_new (fun _ _ => 0) 0 ⟨3, 64, 10, 0, 7⟩).1 (by decide)
  obtain ⟨f, h1, _, h2⟩ := C54_no_false_negatives (fun _ _ => 0) 0 ⟨3, 64, 10, 0, 7⟩ f0 h0 (by decide) (by decide)
    (.union (.insert (.clear (.insert .fresh [97, 98])) [99]) (.insert .fresh [100]))
  exact ⟨f, h1, h2 _ (Or.inl (Or.inl rfl)), h2 _ (Or.inr (Or.inl rfl))⟩

example : ∃ f0 f, Filter.newCompressible (fun _ _ => 0) 0 ⟨3, 64, 10, 0, 7⟩ = ok f0 ∧ f0.compress 44 0 = ok (true, f) ∧ f.clear = ub := by
  obtain ⟨f1, hf⟩ := (C54_new (fun _ _ => 0) 0 ⟨3, 64, 10, 0, 7⟩).1 (by decide)
  obtain ⟨f0, hnew⟩ : ∃ f0, Filter.newCompressible (fun _ _ => 0) 0 ⟨3, 64, 10, 0, 7⟩ = ok f0 := ⟨_, by rw [Filter.newCompressible, hf, ok_bind]⟩
  obtain ⟨f, h1, h2, _⟩ := C55_clear_after_compress (fun _ _ => 0) 0 ⟨3, 64, 10, 0, 7⟩ _ hnew (by decide) (by decide) 44 0 (by decide) (by decide) (by decide) (· ||| ·)
  exact ⟨_, f, hnew, h1, h2⟩

end Strtk.Bloom
