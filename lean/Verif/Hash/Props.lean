import Verif.Hash.Model

/-! # Hashing (C57) and fixed-size comparison (C58) -/

namespace Strtk.Hash
open Outcome Mem

/-! ## Hash -/

/-- The specification: every element mixed in, in order. -/
def fold {α : Type} (m : UInt32 → α → UInt32) (data : List α) (seed : UInt32) : UInt32 := data.foldl m seed

theorem blockSteps_eq {α : Type} (m : UInt32 → α → UInt32) : ∀ (n : Nat) (pre rest : List α) (h : UInt32), n ≤ rest.length →
    blockSteps m (pre ++ rest) n pre.length h = ok (fold m (rest.take n) h) := by
  intro n
  induction n with
  | zero => intro pre rest h _; simp [blockSteps, fold]
  | succ n ih =>
    intro pre rest h hl
    cases rest with
    | nil => simp at hl
    | cons a rest =>
      unfold blockSteps
      rw [deref_append_cons, ok_bind]
      have := ih (pre ++ [a]) rest (m h a) (by simpa using hl)
      simp only [List.append_assoc, List.singleton_append, List.length_append, List.length_singleton] at this
      rw [this]
      simp [fold]

theorem blockLoop_eq {α : Type} (m : UInt32 → α → UInt32) (size : Nat) (hs : 0 < size) : ∀ (fuel : Nat) (pre rest : List α) (length : Nat) (h : UInt32),
    length < fuel → size * (length / size) ≤ rest.length →
    blockLoop m (pre ++ rest) size fuel pre.length length h = ok (length % size, fold m (rest.take (size * (length / size))) h) := by
  intro fuel
  induction fuel with
  | zero => intro pre rest length h hf; omega
  | succ fuel ih =>
    intro pre rest length h hf hl
    unfold blockLoop
    split
    · rename_i hc
      have e1 : length / size = (length - size) / size + 1 := by
        rw [Nat.div_eq length size, if_pos ⟨hs, hc⟩]
      have e2 : length % size = (length - size) % size := Nat.mod_eq_sub_mod hc
      have hsr : size ≤ rest.length := by
        rw [e1, Nat.mul_succ] at hl; omega
      rw [blockSteps_eq m size pre rest h hsr, ok_bind]
      have := ih (pre ++ rest.take size) (rest.drop size) (length - size) (fold m (rest.take size) h) (by omega) (by
        rw [List.length_drop]; rw [e1, Nat.mul_succ] at hl; omega)
      rw [List.append_assoc, List.take_append_drop, List.length_append, List.length_take, Nat.min_eq_left hsr] at this
      rw [this, e2, e1, Nat.mul_succ, Nat.add_comm _ size, List.take_add]
      simp [fold]
    · rename_i hc
      rw [Nat.div_eq_of_lt (by omega), Nat.mod_eq_of_lt (by omega)]
      simp [fold]

theorem pass_eq {α : Type} (m : UInt32 → α → UInt32) (data : List α) (size length : Nat) (h : UInt32) (hs : 0 < size) (hl : length ≤ data.length) :
    pass m data size (length, h) = ok (length % size, fold m (data.take (size * (length / size))) h) := by
  have hle : size * (length / size) ≤ length := Nat.mul_div_le _ _
  unfold pass
  simp only
  split
  · have := blockLoop_eq m size hs (length + 1) [] data length h (by omega) (by omega)
    simpa using this
  · rw [Nat.div_eq_of_lt (by omega), Nat.mod_eq_of_lt (by omega)]
    simp [fold]

/-- The elements that are mixed in, in order. -/
def visited {α : Type} (data : List α) (n : Nat) : List α :=
  data.take (64 * (n / 64)) ++ data.take (32 * (n % 64 / 32)) ++ data.take (16 * (n % 32 / 16)) ++ data.take (8 * (n % 16 / 8)) ++
    data.take (4 * (n % 8 / 4)) ++ data.take (2 * (n % 4 / 2))

/-- What `hash` computes, for every mixer, data, length and seed: all 64-byte blocks are mixed in; for every smaller power of two in the length the
**first** bytes of the data are mixed in again, and an odd last byte is left out. -/
theorem C57_exact {α : Type} (m : UInt32 → α → UInt32) (data : List α) (n : Nat) (hn : n ≤ data.length) (seed : UInt32) :
    hash m data n seed = ok (fold m (visited data n) seed) := by
  unfold hash
  rw [pass_eq m data 64 n seed (by omega) hn, ok_bind, pass_eq m data 32 _ _ (by omega) (by omega), ok_bind,
    pass_eq m data 16 _ _ (by omega) (by omega), ok_bind, pass_eq m data 8 _ _ (by omega) (by omega), ok_bind,
    pass_eq m data 4 _ _ (by omega) (by omega), ok_bind, pass_eq m data 2 _ _ (by omega) (by omega), ok_bind]
  have e1 : n % 64 % 32 = n % 32 := by omega
  have e2 : n % 32 % 16 = n % 16 := by omega
  have e3 : n % 16 % 8 = n % 8 := by omega
  have e4 : n % 8 % 4 = n % 4 := by omega
  simp only [e1, e2, e3, e4]
  have key : ∀ x h, (if x = 0 then blockLoop m data 1 1 0 x h else ok (x, h)) = ok (x, h) := by
    intro x h
    split
    · rename_i hx; subst hx; simp [blockLoop]
    · rfl
  simp only [key, ok_bind]
  simp [fold, visited]

/-- C57 as far as it holds: for lengths that are a multiple of 64, or 2, 4, 8, 16 or 32, hashing is the fold of the mixer over all bytes.
Missing: all other lengths (`C57_ignored`). -/
theorem C57_fold_partial {α : Type} (m : UInt32 → α → UInt32) (data : List α) (seed : UInt32)
    (h : data.length % 64 = 0 ∨ data.length = 2 ∨ data.length = 4 ∨ data.length = 8 ∨ data.length = 16 ∨ data.length = 32) :
    hash m data data.length seed = ok (fold m data seed) := by
  rw [C57_exact m data data.length (Nat.le_refl _) seed]
  have : visited data data.length = data := by
    unfold visited
    rcases h with h | h | h | h | h | h
    · have e : ∀ k, k ∣ 64 → data.length % k = 0 := fun k hk => Nat.mod_eq_zero_of_dvd (Nat.dvd_trans hk (Nat.dvd_of_mod_eq_zero h))
      rw [h, e 32 (by decide), e 16 (by decide), e 8 (by decide), e 4 (by decide), Nat.mul_div_cancel' (Nat.dvd_of_mod_eq_zero h)]
      simp
    all_goals
      rw [h]
      simp [List.take_of_length_le (Nat.le_of_eq h)]
  rw [this]

/-- Non-vacuity. -/
example : hashString [97, 98] 0xAAAAAAAA = ok (fold (mixByte true) [97, 98] 0xAAAAAAAA) := C57_fold_partial _ _ _ (by simp)
example : hashString [97, 98] 0xAAAAAAAA ≠ hashString [97, 99] 0xAAAAAAAA ∧ hashString [97, 98] 0xAAAAAAAA ≠ hashString [98, 98] 0xAAAAAAAA := by
  decide +kernel

/-- How many bytes, from the front, are looked at at all. -/
def seen (n : Nat) : Nat :=
  if n ≥ 64 then 64 * (n / 64) else if n ≥ 32 then 32 else if n ≥ 16 then 16 else if n ≥ 8 then 8 else if n ≥ 4 then 4 else if n ≥ 2 then 2 else 0

/-- The bytes behind the whole 64-byte blocks (for shorter data: behind the greatest power of two, starting from 2) have no influence: data that agree
in the bytes before them have the same hash, for every seed and mixer. -/
theorem C57_ignored {α : Type} (m : UInt32 → α → UInt32) (a b : List α) (hl : a.length = b.length) (hp : a.take (seen a.length) = b.take (seen a.length))
    (seed : UInt32) : hash m a a.length seed = hash m b b.length seed := by
  rw [C57_exact m a _ (Nat.le_refl _), C57_exact m b _ (Nat.le_refl _), ← hl]
  have h : ∀ k, k ≤ seen a.length → a.take k = b.take k := by
    intro k hk
    have := congrArg (List.take k) hp
    rwa [List.take_take, List.take_take, Nat.min_eq_left hk] at this
  unfold visited
  generalize a.length = n at *
  have hs : 64 * (n / 64) ≤ seen n ∧ 32 * (n % 64 / 32) ≤ seen n ∧ 16 * (n % 32 / 16) ≤ seen n ∧ 8 * (n % 16 / 8) ≤ seen n ∧
      4 * (n % 8 / 4) ≤ seen n ∧ 2 * (n % 4 / 2) ≤ seen n := by
    unfold seen
    refine ⟨?_, ?_, ?_, ?_, ?_, ?_⟩ <;> (repeat' split) <;> omega
  rw [h _ hs.1, h _ hs.2.1, h _ hs.2.2.1, h _ hs.2.2.2.1, h _ hs.2.2.2.2.1, h _ hs.2.2.2.2.2]

/-- A single character is never hashed; of 100 bytes the last 36 are not looked at. -/
theorem C57_collisions : (∀ x y : UInt8, ∀ seed, hashString [x] seed = hashString [y] seed) ∧
    ∀ (a b c : List UInt8), a.length = 64 → b.length = 36 → c.length = 36 → ∀ seed, hashString (a ++ b) seed = hashString (a ++ c) seed := by
  constructor
  · intro x y seed
    exact C57_ignored _ [x] [y] rfl rfl seed
  · intro a b c ha hb hc seed
    apply C57_ignored _ _ _ (by simp [hb, hc])
    have : seen (a ++ b).length = a.length := by rw [List.length_append, ha, hb]; rfl
    rw [this]
    simp

/-! ## memcmp_n -/

theorem memcmpGo_eq (c1 c2 : List UInt8) : ∀ (fuel n i : Nat), n ≤ fuel → i + n ≤ c1.length → i + n ≤ c2.length →
    memcmpGo c1 c2 fuel n i = ok ((c1.drop i).take n == (c2.drop i).take n) := by
  intro fuel
  induction fuel with
  | zero =>
    intro n i h _ _
    have : n = 0 := by omega
    subst this
    simp [memcmpGo]
  | succ fuel ih =>
    intro n i h h1 h2
    cases n with
    | zero => simp [memcmpGo]
    | succ n =>
      unfold memcmpGo
      simp only
      have hk : nextSize (n + 1) ≤ n + 1 ∧ 1 ≤ nextSize (n + 1) ∧
          (nextSize (n + 1) = 8 ∨ nextSize (n + 1) = 4 ∨ nextSize (n + 1) = 2 ∨ nextSize (n + 1) = 1) := by
        unfold nextSize
        repeat' split
        all_goals omega
      generalize nextSize (n + 1) = k at *
      obtain ⟨k1, k2, k3⟩ := hk
      have hsl : ∀ c : List UInt8, i + (n + 1) ≤ c.length → slice c i k = ok ((c.drop i).take k) := by
        intro c hc
        unfold slice
        rw [if_pos (by omega)]
      have hsplit : ∀ c : List UInt8, (c.drop i).take (n + 1) = (c.drop i).take k ++ (c.drop (i + k)).take (n + 1 - k) := by
        intro c
        have := List.take_add (l := c.drop i) (i := k) (j := n + 1 - k)
        rw [List.drop_drop] at this
        rw [← this]
        congr 1
        omega
      unfold sizeCmp
      rw [if_pos k3, hsl c1 h1, ok_bind, hsl c2 h2, ok_bind, ok_bind, hsplit c1, hsplit c2]
      have hlen : ((c1.drop i).take k).length = ((c2.drop i).take k).length := by simp; omega
      by_cases he : (c1.drop i).take k = (c2.drop i).take k
      · rw [if_pos (by simp [he]), ih _ _ (by omega) (by omega) (by omega), he]
        congr 1
        rw [Bool.eq_iff_iff, beq_iff_eq, beq_iff_eq, List.append_cancel_left_eq]
      · rw [if_neg (by simp [he])]
        congr 1
        symm
        rw [beq_eq_false_iff_ne]
        intro hc
        exact he (List.append_inj hc hlen).1

/-- C58: for every `N` and all arrays of at least `N` bytes, `memcmp_n<N>` holds exactly when the first `N` bytes are equal; nothing behind them is
read (the arrays may end there). -/
theorem C58_memcmp_n (n : Nat) (c1 c2 : List UInt8) (h1 : n ≤ c1.length) (h2 : n ≤ c2.length) :
    ∃ b, memcmpN n c1 c2 = ok b ∧ (b = true ↔ ∀ i < n, c1[i]? = c2[i]?) := by
  refine ⟨_, memcmpGo_eq c1 c2 n n 0 (Nat.le_refl _) (by omega) (by omega), ?_⟩
  simp only [List.drop_zero, beq_iff_eq]
  constructor
  · intro h i hi
    have := congrArg (fun l => l[i]?) h
    simpa [List.getElem?_take, hi] using this
  · intro h
    apply List.ext_getElem?
    intro i
    rw [List.getElem?_take, List.getElem?_take]
    split
    · exact h i (by assumption)
    · rfl

/-- Non-vacuity: 15 bytes are compared as 8, 4, 2 and 1. -/
example : memcmpN 3 [1, 2, 3] [1, 2, 3, 4] = ok true ∧ memcmpN 3 [1, 2, 3] [1, 2, 4] = ok false := by decide

end Strtk.Hash
