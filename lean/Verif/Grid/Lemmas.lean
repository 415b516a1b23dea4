import Verif.Grid.Model

/-! # Lemmas about the token grid: the row index and the removal of index lists -/

namespace Strtk.Grid
open Outcome

variable {T : Type}

/-! ## Masks -/

/-- The elements whose mask is not set. -/
def keep {α : Type} : List Bool → List α → List α
  | [], xs => xs
  | _ :: _, [] => []
  | true :: m, _ :: xs => keep m xs
  | false :: m, x :: xs => x :: keep m xs

/-- The set positions of a mask that starts at position `k`. -/
def pos : Nat → List Bool → List Nat
  | _, [] => []
  | k, true :: m => k :: pos (k + 1) m
  | k, false :: m => pos (k + 1) m

theorem keep_of_pos_nil {α : Type} : ∀ (m : List Bool) (k : Nat) (xs : List α), pos k m = [] → m.length ≤ xs.length → keep m xs = xs := by
  intro m
  induction m with
  | nil => intro k xs _ _; cases xs <;> rfl
  | cons b m ih =>
    intro k xs h hl
    cases b with
    | true => cases h
    | false =>
      cases xs with
      | nil => simp at hl
      | cons x xs =>
        simp only [keep]
        rw [ih (k + 1) xs h (by simpa using hl)]

theorem pos_length (m : List Bool) : ∀ k, (pos k m).length = m.count true := by
  induction m with
  | nil => intro k; rfl
  | cons b m ih => intro k; cases b <;> simp [pos, ih]

theorem keep_append {α : Type} : ∀ (m1 : List Bool) (xs : List α) (m2 : List Bool) (ys : List α), m1.length = xs.length →
    keep (m1 ++ m2) (xs ++ ys) = keep m1 xs ++ keep m2 ys := by
  intro m1
  induction m1 with
  | nil =>
    intro xs m2 ys h
    have : xs = [] := List.length_eq_zero_iff.mp (by simpa using h.symm)
    subst this
    rfl
  | cons b m1 ih =>
    intro xs m2 ys h
    cases xs with
    | nil => simp at h
    | cons x xs =>
      cases b <;> simp [keep, ih xs m2 ys (by simpa using h)]

theorem pos_append : ∀ (m1 m2 : List Bool) (k : Nat), pos k (m1 ++ m2) = pos k m1 ++ pos (k + m1.length) m2 := by
  intro m1
  induction m1 with
  | nil => intro m2 k; rfl
  | cons b m1 ih =>
    intro m2 k
    have e : k + (m1.length + 1) = k + 1 + m1.length := by omega
    cases b <;> simp [pos, ih, e]

theorem keep_false {α : Type} (n : Nat) (xs : List α) (h : n ≤ xs.length) : keep (List.replicate n false) xs = xs := by
  apply keep_of_pos_nil _ 0 _ _ (by simpa using h)
  induction n generalizing xs with
  | zero => rfl
  | succ n ih =>
    have : ∀ k m, pos k (List.replicate m false) = [] := by
      intro k m
      induction m generalizing k with
      | zero => rfl
      | succ m ih => simp [List.replicate_succ, pos, ih]
    exact this 0 _

theorem pos_false (k m : Nat) : pos k (List.replicate m false) = [] := by
  induction m generalizing k with
  | zero => rfl
  | succ m ih => simp [List.replicate_succ, pos, ih]

theorem pos_true (k m : Nat) : pos k (List.replicate m true) = List.range' k m := by
  induction m generalizing k with
  | zero => rfl
  | succ m ih => simp [List.replicate_succ, pos, ih, List.range'_succ]

theorem keep_true {α : Type} (xs : List α) : keep (List.replicate xs.length true) xs = [] := by
  induction xs with
  | nil => rfl
  | cons x xs ih => simp [List.replicate_succ, keep, ih]

theorem keep_map_filter {α : Type} (q : α → Bool) (xs : List α) : keep (xs.map q) xs = xs.filter fun x => !q x := by
  induction xs with
  | nil => rfl
  | cons x xs ih => cases h : q x <;> simp [keep, h, ih]

/-! ## remove_inplace with index_remover -/

theorem removeLoop_spec {α : Type} : ∀ (rest : List α) (fuel : Nat) (out junk : List α) (m : List Bool) (rm : Remover) (count : Nat),
    rest.length < fuel → m.length ≤ rest.length →
    ((rm.check = true ∧ rm.left = pos (out.length + junk.length) m ∧ rm.current = out.length + junk.length ∧ pos (out.length + junk.length) m ≠ []) ∨
      (rm.check = false ∧ pos (out.length + junk.length) m = [])) →
    ∃ tail, removeLoop fuel rm (out ++ junk ++ rest) (out.length + junk.length) out.length count =
      ok (out ++ keep m rest ++ tail, count + m.count true) ∧ tail.length = junk.length + m.count true := by
  intro rest
  induction rest with
  | nil =>
    intro fuel out junk m rm count hf hm _
    have : m = [] := List.length_eq_zero_iff.mp (by simpa using hm)
    subst this
    cases fuel with
    | zero => simp at hf
    | succ fuel =>
      unfold removeLoop
      rw [if_neg (by simp)]
      exact ⟨junk, by simp [keep], by simp⟩
  | cons c rest ih =>
    intro fuel out junk m rm count hf hm hrm
    cases fuel with
    | zero => simp at hf
    | succ fuel =>
      unfold removeLoop
      have hd : deref (out ++ junk ++ c :: rest) (out.length + junk.length) = ok c := by
        have := deref_append_cons (out ++ junk) c rest
        rwa [List.length_append] at this
      rw [if_pos (by simp), hd, ok_bind]
      -- keeping the element
      have keepCase : ∀ (rm' : Remover) (m' : List Bool), m'.length ≤ rest.length →
          ((rm'.check = true ∧ rm'.left = pos (out.length + junk.length + 1) m' ∧ rm'.current = out.length + junk.length + 1 ∧
            pos (out.length + junk.length + 1) m' ≠ []) ∨ (rm'.check = false ∧ pos (out.length + junk.length + 1) m' = [])) →
          ∃ tail, (if out.length + junk.length ≠ out.length then store (out ++ junk ++ c :: rest) out.length c >>= fun buf =>
              removeLoop fuel rm' buf (out.length + junk.length + 1) (out.length + 1) count
            else ok (out ++ junk ++ c :: rest) >>= fun buf => removeLoop fuel rm' buf (out.length + junk.length + 1) (out.length + 1) count) =
            ok (out ++ c :: keep m' rest ++ tail, count + m'.count true) ∧ tail.length = junk.length + m'.count true := by
        intro rm' m' hm' hrm'
        cases junk with
        | nil =>
          rw [if_neg (by simp), ok_bind]
          have := ih fuel (out ++ [c]) [] m' rm' count (by simpa using hf) hm' (by simpa using hrm')
          simpa using this
        | cons j js =>
          rw [if_pos (by simp)]
          have hst : store (out ++ j :: js ++ c :: rest) out.length c = ok ((out ++ [c]) ++ (js ++ [c]) ++ rest) := by
            rw [store_eq_ok _ (by simp)]
            simp
          rw [hst, ok_bind]
          have := ih fuel (out ++ [c]) (js ++ [c]) m' rm' count (by simpa using hf) hm' (by
            have e : (out ++ [c]).length + (js ++ [c]).length = out.length + (j :: js).length + 1 := by simp; omega
            rw [e]; exact hrm')
          have e1 : (out ++ [c]).length + (js ++ [c]).length = out.length + (j :: js).length + 1 := by simp; omega
          have e2 : (out ++ [c]).length = out.length + 1 := by simp
          rw [e1, e2] at this
          obtain ⟨tail, h1, h2⟩ := this
          refine ⟨tail, ?_, by simpa using h2⟩
          rw [h1]
          simp
      rcases hrm with ⟨h1, h2, h3, h4⟩ | ⟨h1, h2⟩
      · cases m with
        | nil => exact absurd rfl h4
        | cons b m =>
          cases b with
          | true =>
            have hst : rm.step = ok (true, if pos (out.length + junk.length + 1) m = [] then
                ⟨pos (out.length + junk.length + 1) m, out.length + junk.length + 1, false⟩ else
                ⟨pos (out.length + junk.length + 1) m, out.length + junk.length + 1, true⟩) := by
              unfold Remover.step
              rw [if_pos h1, h2, h3]
              simp only [pos, deref, List.getElem?_cons_zero, ok_bind, if_true, List.tail_cons, h1]
            rw [hst, ok_bind]
            simp only [if_true]
            have := ih fuel out (junk ++ [c]) m (if pos (out.length + junk.length + 1) m = [] then
                ⟨pos (out.length + junk.length + 1) m, out.length + junk.length + 1, false⟩ else
                ⟨pos (out.length + junk.length + 1) m, out.length + junk.length + 1, true⟩) (count + 1) (by simpa using hf) (by simpa using hm) (by
              have e : out.length + (junk ++ [c]).length = out.length + junk.length + 1 := by simp; omega
              rw [e]
              split
              · rename_i hn; exact Or.inr ⟨rfl, hn⟩
              · rename_i hn; exact Or.inl ⟨rfl, rfl, rfl, hn⟩)
            have e : out.length + (junk ++ [c]).length = out.length + junk.length + 1 := by simp; omega
            rw [e] at this
            obtain ⟨tail, g1, g2⟩ := this
            refine ⟨tail, ?_, ?_⟩
            · have : out ++ junk ++ c :: rest = out ++ (junk ++ [c]) ++ rest := by simp
              rw [this, g1]
              simp only [keep, List.count_cons_self, Outcome.ok.injEq, Prod.mk.injEq, true_and]
              omega
            · rw [g2]; simp; omega
          | false =>
            have hne : pos (out.length + junk.length + 1) m ≠ [] := h4
            obtain ⟨i, rest', hi⟩ := List.exists_cons_of_ne_nil hne
            have hgt : ∀ (m : List Bool) (k : Nat), ∀ x ∈ pos k m, k ≤ x := by
              intro m
              induction m with
              | nil => intro k x hx; cases hx
              | cons b m ih =>
                intro k x hx
                cases b with
                | true =>
                  rcases List.mem_cons.mp hx with rfl | hx
                  · exact Nat.le_refl _
                  · have := ih (k + 1) x hx; omega
                | false => have := ih (k + 1) x hx; omega
            have hig : out.length + junk.length + 1 ≤ i := hgt m _ i (by rw [hi]; simp)
            have hst : rm.step = ok (false, ⟨pos (out.length + junk.length + 1) m, out.length + junk.length + 1, true⟩) := by
              unfold Remover.step
              rw [if_pos h1, h2, h3]
              simp only [pos, hi, deref, List.getElem?_cons_zero, ok_bind]
              rw [if_neg (by omega), h1]
            rw [hst, ok_bind]
            simp only [Bool.false_eq_true, if_false]
            have := keepCase ⟨pos (out.length + junk.length + 1) m, out.length + junk.length + 1, true⟩ m (by simpa using hm) (Or.inl ⟨rfl, rfl, rfl, hne⟩)
            simpa [keep] using this
      · have hst : rm.step = ok (false, rm) := by
          unfold Remover.step
          rw [if_neg (by simp [h1])]
        rw [hst, ok_bind]
        simp only [Bool.false_eq_true, if_false]
        cases m with
        | nil =>
          have := keepCase rm [] (by simp) (Or.inr ⟨h1, rfl⟩)
          simpa [keep] using this
        | cons b m =>
          cases b with
          | true => cases h2
          | false =>
            have := keepCase rm m (by simpa using hm) (Or.inr ⟨h1, h2⟩)
            simpa [keep] using this

theorem keep_length {α : Type} : ∀ (m : List Bool) (xs : List α), m.length ≤ xs.length → (keep m xs).length + m.count true = xs.length := by
  intro m
  induction m with
  | nil => intro xs _; cases xs <;> simp [keep]
  | cons b m ih =>
    intro xs h
    cases xs with
    | nil => simp at h
    | cons x xs =>
      have := ih xs (by simpa using h)
      cases b <;> simp [keep] <;> omega

/-- The removal of a non-empty, increasing list of positions. -/
theorem removeIndexes_spec {α : Type} (m : List Bool) (xs : List α) (hm : m.length ≤ xs.length) (hne : pos 0 m ≠ []) :
    removeIndexes (pos 0 m) xs = ok (keep m xs) := by
  unfold removeIndexes
  obtain ⟨tail, h1, h2⟩ := removeLoop_spec xs (xs.length + 1) [] [] m ⟨pos 0 m, 0, true⟩ 0 (by omega) hm (Or.inl ⟨rfl, rfl, rfl, hne⟩)
  simp only [List.nil_append, List.length_nil, Nat.add_zero] at h1
  rw [h1, ok_bind]
  simp only
  have := keep_length m xs hm
  congr 1
  apply List.take_left'
  omega

/-- Both cases of the code: nothing is done for an empty list. -/
theorem removeIndexes_if {α : Type} (m : List Bool) (xs : List α) (hm : m.length ≤ xs.length) :
    (if pos 0 m ≠ [] then removeIndexes (pos 0 m) xs else ok xs) = ok (keep m xs) := by
  split
  · rename_i h; exact removeIndexes_spec m xs hm h
  · rename_i h; rw [keep_of_pos_nil m 0 xs (by simpa using h) hm]

/-! ## The row index -/

/-- The index of the last of `n` tokens from token `k` on, as an `unsigned int`. -/
def lastIx (k n : Nat) : Nat := (k + n + (2 ^ 32 - 1)) % 2 ^ 32

/-- The row index of rows stored from token `k` on. -/
def idx : Nat → List (List T) → List (Nat × Nat)
  | _, [] => []
  | k, r :: rs => (k, lastIx k r.length) :: idx (k + r.length) rs

theorem idx_length (rows : List (List T)) : ∀ k, (idx k rows).length = rows.length := by
  induction rows with
  | nil => intro k; rfl
  | cons r rs ih => intro k; simp [idx, ih]

theorem idx_append (a b : List (List T)) : ∀ k, idx k (a ++ b) = idx k a ++ idx (k + a.flatten.length) b := by
  induction a with
  | nil => intro k; rfl
  | cons r rs ih => intro k; simp [idx, ih, Nat.add_assoc]

theorem tokenCount_idx (k n : Nat) (h : k + n < 2 ^ 32) : tokenCount (k, lastIx k n) = n := by
  unfold tokenCount sub32 lastIx
  simp only
  omega

theorem sub32_le (a b : Nat) (h1 : b ≤ a) (h2 : a < 2 ^ 32) : sub32 a b = a - b := by
  unfold sub32; omega

theorem sub32_second (k n b : Nat) (h1 : b ≤ k + n) (h2 : k + n < 2 ^ 32) :
    sub32 (lastIx k n) b = lastIx (k + n - b) 0 := by
  unfold sub32 lastIx; omega

theorem lastIx_zero (k n : Nat) : lastIx (k + n) 0 = lastIx k n := rfl

theorem lastIx_pos (k n : Nat) (h : 0 < n) (h2 : k + n < 2 ^ 32) : lastIx k n + 1 - k = n := by
  unfold lastIx; omega

theorem idx_shift (b : Nat) (rows : List (List T)) : ∀ k, b ≤ k → k + rows.flatten.length < 2 ^ 32 →
    (idx k rows).map (fun q => (sub32 q.1 b, sub32 q.2 b)) = idx (k - b) rows := by
  induction rows with
  | nil => intro k _ _; rfl
  | cons r rs ih =>
    intro k h1 h2
    simp only [List.flatten_cons, List.length_append] at h2
    simp only [idx, List.map_cons]
    rw [ih (k + r.length) (by omega) (by omega), sub32_le k b h1 (by omega), sub32_second k r.length b (by omega) (by omega)]
    have e : k + r.length - b = k - b + r.length := by omega
    rw [e, lastIx_zero]

/-- Dropping the entries of the rows that have become empty. -/
theorem keep_idx (rows : List (List T)) : ∀ k, keep (rows.map fun r => r.isEmpty) (idx k rows) = idx k (rows.filter fun r => !r.isEmpty) := by
  induction rows with
  | nil => intro k; rfl
  | cons r rs ih =>
    intro k
    cases r with
    | nil => simp [idx, keep, ih]
    | cons t r => simp [idx, keep, ih]

theorem rowOf_idx (pre post row : List T) (h : pre.length + row.length < 2 ^ 32) :
    rowOf (pre ++ row ++ post) (pre.length, lastIx pre.length row.length) = ok row := by
  unfold rowOf
  rw [tokenCount_idx _ _ h, if_pos (by simp)]
  simp

theorem idx_getElem (pre : List (List T)) (row : List T) (post : List (List T)) (k : Nat) :
    deref (idx k (pre ++ row :: post)) pre.length =
      ok (k + pre.flatten.length, lastIx (k + pre.flatten.length) row.length) := by
  rw [idx_append]
  have := deref_append_cons (idx k pre) (k + pre.flatten.length, lastIx (k + pre.flatten.length) row.length)
    (idx (k + pre.flatten.length + row.length) post)
  rw [idx_length] at this
  exact this

end Strtk.Grid
