import Verif.Programs.CombExamples
import Verif.Bloom.File
import Verif.Bloom.Exact

/-!
# strtk_bloom_filter_example.cpp

The letters, `k` and the parameters of the filter (those computed at 59-76) are arguments; the printed times and rates are left out, and a written file is assumed to be read
back as it was written.  Letters are kept as the natural numbers they stand for (below 128, so that `char` orders them in the same way).
-/

namespace Strtk.Programs
open Outcome Mem Strtk.Combi Strtk.Bloom

/-- The bytes of a combination. -/
def lowerBytes (c : List Nat) : List UInt8 := c.map UInt8.ofNat

/-- `convert_to_uppercase(s)` (4809-4813 of strtk.hpp) on the bytes of a combination. -/
def upperBytes (c : List Nat) : List UInt8 := (Codec.toUppercase (c.map (BitVec.ofNat 8))).map UInt8.ofBitVec

/-- Copying behind what has been written of a buffer of `size` bytes (104-105, 107-108). -/
def putBuffer (size : Nat) (buf s : List UInt8) : Outcome (List UInt8) := if buf.length + s.length ≤ size then ok (buf ++ s) else ub

/-- The loop that writes the elements (100-111). -/
def fillLoop (n size : Nat) : Nat → ItWorld Nat → List UInt8 → Outcome (List UInt8)
  | 0, _, _ => diverge
  | fuel + 1, w, buf =>
    match w.its[0]? with
    | none => ub
    | some it =>
      if !(itEq (itEnd n) it) then do
        let c := itShow w it
        let buf ← putBuffer size buf (lowerBytes c)
        let buf ← putBuffer size buf (upperBytes c)
        let w ← itInc w 0
        fillLoop n size fuel w buf
      else ok buf

/-- `while (buf_end != buf_itr) { ...; buf_itr += step; }` (121-125, 141-149, 171-179, 215-224): bytes never written are not read. -/
def overBuffer {σ : Type} (step size : Nat) (buf : List UInt8) (body : σ → List UInt8 → Outcome σ) : Nat → Nat → σ → Outcome σ
  | 0, _, _ => diverge
  | fuel + 1, pos, s =>
    if size ≠ pos then do
      let x ← slice buf pos step
      let s ← body s x
      overBuffer step size buf body fuel (pos + step) s
    else ok s

/-- An element that is not found is reported (143-146, 217-221). -/
def report (f : Filter) (missing : List (List UInt8)) (x : List UInt8) : Outcome (List (List UInt8)) := do
  let b ← f.contains x
  ok (if !b then missing ++ [x] else missing)

/-- Counting the short elements: all of them and those found (171-179). -/
def countShort (f : Filter) (s : Nat × Nat) (x : List UInt8) : Outcome (Nat × Nat) := do
  let b ← f.contains x
  ok (s.1 + 1, if b then s.2 + 1 else s.2)

/-- How the last part ends (194-231). -/
inductive Persisted
  | notWritten
  | notRead
  | different
  /-- the elements reported as missing -/
  | searched (missing : List (List UInt8))
deriving DecidableEq

/-- What the program prints. -/
structure BloomReport where
  /-- `filter.element_count()` behind the insertions -/
  inserted : Nat
  missing : List (List UInt8)
  shorts : Nat
  falsePositives : Nat
  persisted : Persisted
deriving DecidableEq

/-- `main` (50-235). -/
def bloomMain (rand : UInt32 → Nat → UInt32) (fuel : Nat) (letters : List Nat) (k : Nat) (p : Params) : Outcome BloomReport := do
  let n := letters.length
  let (count, _) ← nChooseK freshTable n k
  let elements := 2 * count.toNat % 2 ^ 64
  let f ← Filter.new rand fuel p
  let size := k * elements % 2 ^ 64
  let w ← itMake k letters true
  let buf ← fillLoop n size fuel w []
  let f ← overBuffer k size buf Filter.insert fuel 0 f
  let missing ← overBuffer k size buf (report f) fuel 0 []
  let (shorts, positives) ← overBuffer (k / 2) size buf (countShort f) fuel 0 (0, 0)
  let file ← f.writeFile
  let persisted ← match file with
    | none => ok .notWritten
    | some bytes => do
      let g ← readFile bytes
      match g with
      | none => ok .notRead
      | some g => do
        let same ← g.equal f
        if !same then ok .different else do
          let missing ← overBuffer k size buf (report g) fuel 0 []
          ok (.searched missing)
  ok ⟨f.inserted, missing, shorts, positives, persisted⟩

/-! ## Specification -/

/-- The elements: the choices, each followed by its upper-case version. -/
def elementsOf (V : List (List Nat)) : List (List UInt8) := V.flatMap fun c => [lowerBytes c, upperBytes c]

/-! ## Proofs -/

/-- Running a body over blocks. -/
def overBlocks {σ : Type} (body : σ → List UInt8 → Outcome σ) : List (List UInt8) → σ → Outcome σ
  | [], s => ok s
  | x :: xs, s => do
    let s ← body s x
    overBlocks body xs s

theorem flatten_len {α : Type} {step : Nat} : ∀ {bs : List (List α)}, (∀ x ∈ bs, x.length = step) → bs.flatten.length = step * bs.length
  | [], _ => by simp
  | b :: bs, h => by
    rw [List.flatten_cons, List.length_append, flatten_len fun x hx => h x (by simp [hx]), h b (by simp), List.length_cons, Nat.mul_succ, Nat.add_comm]

theorem overBuffer_eq {σ : Type} {step : Nat} (hstep : 0 < step) (body : σ → List UInt8 → Outcome σ) (buf : List UInt8) :
    ∀ (bs pre : List (List UInt8)) (fuel : Nat) (s : σ), (∀ x ∈ pre ++ bs, x.length = step) → buf = (pre ++ bs).flatten → bs.length < fuel →
      overBuffer step buf.length buf body fuel pre.flatten.length s = overBlocks body bs s := by
  intro bs
  induction bs with
  | nil =>
    intro pre fuel s h hb hf
    obtain ⟨g, rfl⟩ : ∃ g, fuel = g + 1 := ⟨fuel - 1, by simp at hf; omega⟩
    rw [overBuffer, if_neg (by rw [hb]; simp)]
    rfl
  | cons b bs ih =>
    intro pre fuel s h hb hf
    obtain ⟨g, rfl⟩ : ∃ g, fuel = g + 1 := ⟨fuel - 1, by simp at hf; omega⟩
    have hbl : b.length = step := h b (by simp)
    have hs : slice buf pre.flatten.length step = ok b := by
      have := slice_append pre.flatten b bs.flatten
      rw [hbl] at this
      rw [hb, List.flatten_append, List.flatten_cons, ← List.append_assoc]
      exact this
    rw [overBuffer, if_pos (by rw [hb, List.flatten_append, List.flatten_cons]; simp only [List.length_append]; omega), hs, ok_bind, overBlocks]
    cases hx : body s b with
    | ok s' =>
      rw [ok_bind, ok_bind]
      have := ih (pre ++ [b]) g s' (by simpa using h) (by simpa using hb) (by simp at hf; omega)
      rw [← this]
      simp [hbl]
    | ub => rfl
    | diverge => rfl
    | thrown => rfl

theorem overBlocks_report (f : Filter) : ∀ (bs : List (List UInt8)) (m : List (List UInt8)), (∀ x ∈ bs, f.contains x = ok true) → overBlocks (report f) bs m = ok m
  | [], _, _ => rfl
  | x :: bs, m, h => by
    rw [overBlocks, report, h x (by simp), ok_bind, ok_bind]
    exact overBlocks_report f bs m fun y hy => h y (by simp [hy])

theorem overBlocks_short (f : Filter) (hf : ∀ x, ∃ b, f.contains x = ok b) : ∀ (bs : List (List UInt8)) (s : Nat × Nat),
    ∃ q, q ≤ bs.length ∧ overBlocks (countShort f) bs s = ok (s.1 + bs.length, s.2 + q)
  | [], s => ⟨0, Nat.le_refl _, rfl⟩
  | x :: bs, s => by
    obtain ⟨b, hb⟩ := hf x
    obtain ⟨q, hq, e⟩ := overBlocks_short f hf bs (s.1 + 1, if b then s.2 + 1 else s.2)
    refine ⟨q + if b then 1 else 0, ?_, ?_⟩
    · rw [List.length_cons]; split <;> omega
    · rw [overBlocks, countShort, hb, ok_bind, ok_bind, e, List.length_cons]
      simp only [Outcome.ok.injEq, Prod.mk.injEq]
      constructor
      · omega
      · split <;> omega

/-- The history of the insertions. -/
def insertAll : List (List UInt8) → Hist → Hist
  | [], h => h
  | x :: xs, h => insertAll xs (.insert h x)

theorem insertAll_keys : ∀ (xs : List (List UInt8)) (h : Hist) (k : List UInt8), (k ∈ xs ∨ h.keys k) → (insertAll xs h).keys k
  | [], h, k, hk => by simpa [insertAll] using hk
  | x :: xs, h, k, hk => by
    apply insertAll_keys xs
    rcases hk with hk | hk
    · rcases List.mem_cons.mp hk with rfl | hk
      · exact Or.inr (Or.inl rfl)
      · exact Or.inl hk
    · exact Or.inr (Or.inr hk)

theorem insertAll_run (rand : UInt32 → Nat → UInt32) (fuel : Nat) (p : Params) : ∀ (xs : List (List UInt8)) (h : Hist) (f : Filter), h.run rand fuel p = ok f →
    (insertAll xs h).run rand fuel p = overBlocks Filter.insert xs f
  | [], h, f, hf => hf
  | x :: xs, h, f, hf => by
    rw [insertAll, overBlocks]
    have e : (Hist.insert h x).run rand fuel p = f.insert x := by rw [Hist.run, hf, ok_bind]
    cases hx : f.insert x with
    | ok f' => rw [ok_bind]; exact insertAll_run rand fuel p xs _ f' (by rw [e, hx])
    | ub =>
      have : ∀ (xs : List (List UInt8)) (h : Hist), h.run rand fuel p = ub → (insertAll xs h).run rand fuel p = ub := by
        intro xs
        induction xs with
        | nil => intro h hh; exact hh
        | cons y ys ih => intro h hh; exact ih _ (by rw [Hist.run, hh]; rfl)
      exact this xs _ (by rw [e, hx])
    | diverge =>
      have : ∀ (xs : List (List UInt8)) (h : Hist), h.run rand fuel p = diverge → (insertAll xs h).run rand fuel p = diverge := by
        intro xs
        induction xs with
        | nil => intro h hh; exact hh
        | cons y ys ih => intro h hh; exact ih _ (by rw [Hist.run, hh]; rfl)
      exact this xs _ (by rw [e, hx])
    | thrown =>
      have : ∀ (xs : List (List UInt8)) (h : Hist), h.run rand fuel p = thrown → (insertAll xs h).run rand fuel p = thrown := by
        intro xs
        induction xs with
        | nil => intro h hh; exact hh
        | cons y ys ih => intro h hh; exact ih _ (by rw [Hist.run, hh]; rfl)
      exact this xs _ (by rw [e, hx])

theorem inserted_count : ∀ (xs : List (List UInt8)) (f g : Filter), overBlocks Filter.insert xs f = ok g → f.inserted < 2 ^ 32 →
    g.inserted = (f.inserted + xs.length) % 2 ^ 32
  | [], f, g, h, hf => by cases h; rw [List.length_nil, Nat.add_zero, Nat.mod_eq_of_lt hf]
  | x :: xs, f, g, h, hf => by
    rw [overBlocks] at h
    obtain ⟨f', h1, h2⟩ := bind_eq_ok.mp h
    rw [Filter.insert] at h1
    obtain ⟨t, -, h3⟩ := bind_eq_ok.mp h1
    cases h3
    rw [inserted_count xs _ g h2 (Nat.mod_lt _ (by decide)), List.length_cons]
    simp only
    omega

theorem upperBytes_length (c : List Nat) : (upperBytes c).length = c.length := by
  have : ∀ l : List Codec.Byte, (Codec.toUppercase l).length = l.length := by
    intro l
    induction l with
    | nil => rfl
    | cons a l ih => simpa [Codec.toUppercase] using ih
  simp [upperBytes, this]

theorem fill_eq (letters : List Nat) (k : Nat) (hs : letters.Pairwise (· < ·)) (hne : letters ≠ []) (hk : k ≤ letters.length) :
    ∃ V w0, V.Pairwise (· < ·) ∧ V.Perm (letters.sublistsLen k) ∧ itMake k letters true = ok w0 ∧
      ∀ fuel, V.length < fuel → fillLoop letters.length (elementsOf V).flatten.length fuel w0 [] = ok (elementsOf V).flatten := by
  obtain ⟨V, v1, v2, w0, e0, hm⟩ := C119_combination_iterator_partial k letters hs hk hne letters true (Or.inl rfl)
  refine ⟨V, w0, v1, v2, e0, ?_⟩
  have hsum : ∀ N, ((List.replicate N Move.pre).map Move.steps).sum = N := by intro N; simp [Move.steps]
  have key : ∀ r N w buf g, N + r = V.length → r < g → itMoves w0 (List.replicate N .pre) = ok w → buf ++ (elementsOf (V.drop N)).flatten = (elementsOf V).flatten →
      fillLoop letters.length (elementsOf V).flatten.length g w buf = ok (elementsOf V).flatten := by
    intro r
    induction r with
    | zero =>
      intro N w buf g hN hg hw hb
      obtain ⟨g, rfl⟩ : ∃ g', g = g' + 1 := ⟨g - 1, by omega⟩
      obtain ⟨w', it, e1, e2, -, h4⟩ := hm (List.replicate N .pre)
      rw [hw] at e1
      cases e1
      rw [hsum] at h4
      rw [fillLoop, e2]
      simp only
      rw [itEq_comm, (h4 (by omega)).1]
      rw [List.drop_of_length_le (by omega)] at hb
      simpa [elementsOf] using hb
    | succ r ih =>
      intro N w buf g hN hg hw hb
      obtain ⟨g, rfl⟩ : ∃ g', g = g' + 1 := ⟨g - 1, by omega⟩
      obtain ⟨w', it, e1, e2, h3, -⟩ := hm (List.replicate N .pre)
      obtain ⟨w'', it'', e1', -, -, -⟩ := hm (List.replicate (N + 1) .pre)
      rw [hw] at e1
      cases e1
      rw [hsum] at h3
      obtain ⟨hsh, hne⟩ := h3 (by omega)
      have hinc : itInc w 0 = ok w'' := by
        have := itMoves_snoc .pre (List.replicate N .pre) w0
        rw [← List.replicate_succ', e1', hw, ok_bind] at this
        exact this.symm
      rw [List.drop_eq_getElem_cons (show N < V.length by omega)] at hb
      have hb' : buf ++ lowerBytes V[N] ++ upperBytes V[N] ++ (elementsOf (V.drop (N + 1))).flatten = (elementsOf V).flatten := by
        rw [← hb]
        simp only [elementsOf, List.flatMap_cons, List.flatten_append, List.flatten_cons, List.flatten_nil, List.append_nil, List.append_assoc]
      rw [fillLoop, e2]
      simp only
      rw [itEq_comm, hne, hsh]
      simp only [Bool.not_false, if_true]
      rw [putBuffer, if_pos (by rw [← hb']; simp), ok_bind, putBuffer, if_pos (by rw [← hb']; simp only [List.length_append]; omega), ok_bind, hinc, ok_bind]
      exact ih (N + 1) w'' _ g (by omega) (by omega) e1' hb'
  intro fuel hf
  exact key V.length 0 w0 [] fuel (by omega) hf rfl (by simp)

/-- What the searches report about any filter and any elements of one length in the buffer: exactly the elements that are not found are reported as missing, and
exactly those found are counted. -/
theorem C147_search (f : Filter) (g : List UInt8 → Bool) (step : Nat) (hstep : 0 < step) (bs : List (List UInt8)) (hb : ∀ x ∈ bs, x.length = step ∧ f.contains x = ok (g x))
    (fuel : Nat) (hf : bs.length < fuel) :
    overBuffer step bs.flatten.length bs.flatten (report f) fuel 0 [] = ok (bs.filter fun x => !g x) ∧
    overBuffer step bs.flatten.length bs.flatten (countShort f) fuel 0 (0, 0) = ok (bs.length, bs.countP g) := by
  have h1 : ∀ (bs : List (List UInt8)) (m : List (List UInt8)), (∀ x ∈ bs, f.contains x = ok (g x)) → overBlocks (report f) bs m = ok (m ++ bs.filter fun x => !g x) := by
    intro bs
    induction bs with
    | nil => intro m _; simp [overBlocks]
    | cons x bs ih =>
      intro m h
      rw [overBlocks, report, h x (by simp), ok_bind, ok_bind, ih _ fun y hy => h y (by simp [hy])]
      cases hg : g x <;> simp [hg]
  have h2 : ∀ (bs : List (List UInt8)) (s : Nat × Nat), (∀ x ∈ bs, f.contains x = ok (g x)) → overBlocks (countShort f) bs s = ok (s.1 + bs.length, s.2 + bs.countP g) := by
    intro bs
    induction bs with
    | nil => intro s _; rfl
    | cons x bs ih =>
      intro s h
      rw [overBlocks, countShort, h x (by simp), ok_bind, ok_bind, ih _ fun y hy => h y (by simp [hy])]
      cases hg : g x <;> simp [hg] <;> omega
  have e1 := overBuffer_eq hstep (report f) bs.flatten bs [] fuel [] (fun x hx => (hb x (by simpa using hx)).1) (by simp) hf
  have e2 := overBuffer_eq hstep (countShort f) bs.flatten bs [] fuel (0, 0) (fun x hx => (hb x (by simpa using hx)).1) (by simp) hf
  refine ⟨e1.trans ?_, e2.trans ?_⟩
  · rw [h1 bs [] fun x hx => (hb x hx).2, List.nil_append]
  · rw [h2 bs (0, 0) fun x hx => (hb x hx).2]
    simp

/-- **C147.** Sorted letters, an even number `k` of them chosen, a filter of any parameters with at most 128 hash functions and a table of less than 4 GiB: the
program ends, reports no element as missing, neither in the filter nor in the one read back from the file, says that the filter was replicated, and counts every
choice twice. -/
theorem C147_no_errors (rand : UInt32 → Nat → UInt32) (letters : List Nat) (hs : letters.Pairwise (· < ·)) (k : Nat) (hk2 : 2 ∣ k) (hk0 : 0 < k) (hk : k ≤ letters.length)
    (hn : letters.length < 2 ^ 32) (hfit : k * (2 * letters.length.choose k) < 2 ^ 64)
    (p : Params) (hp1 : p.hashes ≤ 128) (h8 : 8 ∣ p.tableSize) (hpos : 0 < p.tableSize) (hsz : p.tableSize < 2 ^ 35) (hp3 : p.projected < 2 ^ 64) (hp4 : p.fpp < 2 ^ 64)
    (fuel : Nat) (hfuel : 4 * letters.length.choose k < fuel) :
    ∃ q, q ≤ 4 * letters.length.choose k ∧
      bloomMain rand fuel letters k p = ok ⟨2 * letters.length.choose k % 2 ^ 32, [], 4 * letters.length.choose k, q, .searched []⟩ := by
  have hne : letters ≠ [] := by intro h; subst h; simp at hk; omega
  obtain ⟨V, w0, v1, v2, e0, hfill⟩ := fill_eq letters k hs hne hk
  have hVl : V.length = letters.length.choose k := by rw [v2.length_eq, List.length_sublistsLen]
  have hEl : (elementsOf V).length = 2 * V.length := by
    simp [elementsOf, List.length_flatMap, Nat.mul_comm]
  have hEk : ∀ x ∈ elementsOf V, x.length = k := by
    intro x hx
    obtain ⟨c, hc, hx⟩ := List.mem_flatMap.mp hx
    have := (List.mem_sublistsLen.mp (v2.subset hc)).2
    simp only [List.mem_cons, List.not_mem_nil, or_false] at hx
    rcases hx with rfl | rfl
    · simp [lowerBytes, this]
    · rw [upperBytes_length, this]
  have hBl : (elementsOf V).flatten.length = k * (2 * V.length) := by rw [flatten_len hEk, hEl]
  set buf := (elementsOf V).flatten with hbuf
  obtain ⟨st, c1, -⟩ := nChooseK_spec freshTable staticOk_fresh letters.length k hn (by omega)
  have hpos' : 2 * letters.length.choose k ≤ k * (2 * letters.length.choose k) := Nat.le_mul_of_pos_left _ hk0
  have hcnt : (binom letters.length k).toNat = letters.length.choose k := by rw [binom, BitVec.toNat_ofNat, Nat.mod_eq_of_lt (by omega)]
  have hsize : k * (2 * letters.length.choose k % 2 ^ 64) % 2 ^ 64 = buf.length := by
    rw [Nat.mod_eq_of_lt (a := 2 * letters.length.choose k) (by omega), Nat.mod_eq_of_lt (by omega), hBl, hVl]
  obtain ⟨f0, hnew⟩ := (C54_new rand fuel p).1 hp1
  obtain ⟨f, r1, r2, r3⟩ := C54_no_false_negatives rand fuel p f0 hnew h8 hpos (insertAll (elementsOf V) .fresh)
  obtain ⟨f', r1', r4, r5⟩ := C56_history_fits rand fuel p f0 hnew h8 hpos ⟨by omega, by omega, hp3, hp4⟩ (insertAll (elementsOf V) .fresh)
  rw [r1] at r1'
  cases r1'
  have hins : overBlocks Filter.insert (elementsOf V) f0 = ok f := by rw [← insertAll_run rand fuel p _ .fresh f0 hnew]; exact r1
  have hraw : f.rawSize < 2 ^ 32 := by
    have : ∀ (xs : List (List UInt8)) (a b : Filter), overBlocks Filter.insert xs a = ok b → b.rawSize = a.rawSize := by
      intro xs
      induction xs with
      | nil => intro a b h; cases h; rfl
      | cons x xs ih =>
        intro a b h
        rw [overBlocks] at h
        obtain ⟨a', h1, h2⟩ := bind_eq_ok.mp h
        rw [Filter.insert] at h1
        obtain ⟨t, -, h3⟩ := bind_eq_ok.mp h1
        cases h3
        have := ih _ b h2
        exact this
    rw [this _ _ _ hins, (new_fields hnew).2.2.1]
    omega
  obtain ⟨bytes, w1, w2, w3⟩ := C56_round_trip_partial f r4 r5 hraw
  have hfound : ∀ x ∈ elementsOf V, f.contains x = ok true := fun x hx => r3 x (insertAll_keys _ _ x (Or.inl hx))
  have b1 : overBuffer k buf.length buf Filter.insert fuel 0 f0 = ok f := by
    rw [← hins]
    exact overBuffer_eq hk0 Filter.insert buf (elementsOf V) [] fuel f0 hEk rfl (by omega)
  have b2 : overBuffer k buf.length buf (report f) fuel 0 [] = ok [] := by
    rw [← overBlocks_report f (elementsOf V) [] hfound]
    exact overBuffer_eq hk0 (report f) buf (elementsOf V) [] fuel [] hEk rfl (by omega)
  obtain ⟨h, hh⟩ := hk2
  have hdiv : k / 2 = h := by omega
  let halves := (elementsOf V).flatMap fun x => [x.take h, x.drop h]
  have hHl : halves.length = 4 * V.length := by
    have : halves.length = 2 * (elementsOf V).length := by simp [halves, List.length_flatMap, Nat.mul_comm]
    omega
  have hHk : ∀ x ∈ halves, x.length = h := by
    intro x hx
    obtain ⟨y, hy, hx⟩ := List.mem_flatMap.mp hx
    have := hEk y hy
    simp only [List.mem_cons, List.not_mem_nil, or_false] at hx
    rcases hx with rfl | rfl
    · rw [List.length_take]; omega
    · rw [List.length_drop]; omega
  have hHf : halves.flatten = buf := by
    have : ∀ l : List (List UInt8), (l.flatMap fun x => [x.take h, x.drop h]).flatten = l.flatten := by
      intro l
      induction l with
      | nil => rfl
      | cons a l ih => rw [List.flatMap_cons, List.flatten_append, ih]; simp [← List.append_assoc, List.take_append_drop]
    exact this _
  obtain ⟨q, hq, b3⟩ := overBlocks_short f r2 halves (0, 0)
  rw [← overBuffer_eq (by omega) (countShort f) buf halves [] fuel (0, 0) hHk (by rw [List.nil_append, hHf]) (by omega)] at b3
  have hcount : f.inserted = 2 * letters.length.choose k % 2 ^ 32 := by
    rw [inserted_count _ _ _ hins (by rw [(new_fields hnew).2.2.2.2]; decide), (new_fields hnew).2.2.2.2, hEl, hVl, Nat.zero_add]
  refine ⟨q, by omega, ?_⟩
  unfold bloomMain
  simp only [List.flatten_nil, List.length_nil] at b3
  simp only [c1, ok_bind, hcnt, hnew, hsize, e0, hfill fuel (by omega), b1, b2, hdiv, b3, w1, w2, w3, Bool.not_true, if_false, Bool.false_eq_true, hcount, hHl, hVl, Nat.zero_add]

/-- The program itself: 26 letters, 14 of them. -/
example : ((List.range 26).map (97 + ·)).Pairwise (· < ·) ∧ 2 ∣ 14 ∧ 14 ≤ 26 ∧ 14 * (2 * Nat.choose 26 14) < 2 ^ 64 := by
  refine ⟨by decide, by decide, by decide, by decide +kernel⟩

-- a filter that holds [99], searched for [99] and [97]
example : (Filter.new (fun _ _ => 0) 0 ⟨3, 64, 10, 0, 7⟩ >>= fun f => f.insert [99] >>= fun f => overBuffer 1 2 [99, 97] (report f) 3 0 []) = ok [[97]] := by decide +kernel

/-- With an odd number of letters the short elements need not fill the buffer: 7 of 7 letters are read in steps of 3 from 14 bytes, behind their end. -/
theorem C147_odd_overrun : bloomMain (fun _ _ => 0) 100 [97, 98, 99, 100, 101, 102, 103] 7 ⟨1, 64, 1, 0, 1⟩ = ub := by decide +kernel

end Strtk.Programs
