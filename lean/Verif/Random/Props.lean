import Verif.Random.Model
import Mathlib.Data.List.Perm.Subperm

/-! # Random selection (C81-C83) -/

namespace Strtk.Random
open Outcome Mem

variable {α : Type}

/-- The arithmetic keeps the draws of a generator inside ranges of up to `bound` elements. -/
def Inside (A : Arith) (rng : Nat → Draw) (bound : Nat) : Prop := ∀ i size, 0 < size → size ≤ bound → A.index (rng i) size < size

theorem exact_index_lt {d : Draw} (h : d.Below) {size : Nat} (hs : 0 < size) : exact.index d size < size := by
  unfold exact
  unfold Draw.Below at h
  have hd : 0 < d.den := by omega
  rw [Nat.div_lt_iff_lt_mul hd]
  exact Nat.mul_lt_mul_of_pos_left h hs

theorem exact_inside (rng : Nat → Draw) (hr : ∀ i, (rng i).Below) (bound : Nat) : Inside exact rng bound :=
  fun i _ hs _ => exact_index_lt (hr i) hs

theorem filterMap_range (s : List α) : (List.range s.length).filterMap (s[·]?) = s := by
  induction s with
  | nil => rfl
  | cons a t ih =>
    rw [List.length_cons, List.range_succ_eq_map, List.filterMap_cons]
    simp only [List.getElem?_cons_zero, List.filterMap_map]
    congr 1

theorem drawLoop_spec (A : Arith) (rng : Nat → Draw) (s : List α) (hr : Inside A rng s.length) : ∀ (count i : Nat) (index : List Nat),
    (∀ p ∈ index, p < s.length) → count ≤ index.length → index.length ≤ s.length →
    ∃ out rest, drawLoop A rng s count i index = ok out ∧ out.length = count ∧ (out ++ rest).Perm (index.filterMap (s[·]?)) := by
  intro count
  induction count with
  | zero => intro i index _ _ _; exact ⟨[], index.filterMap (s[·]?), rfl, rfl, by simp⟩
  | succ c ih =>
    intro i index hp hc hle
    have hlt := hr i index.length (by omega) hle
    unfold drawLoop
    simp only
    generalize A.index (rng i) index.length = j at hlt ⊢
    have hj : index[j] < s.length := hp _ (List.getElem_mem hlt)
    have h1 : deref index j = ok index[j] := by unfold deref; rw [List.getElem?_eq_getElem hlt]
    have h2 : deref s index[j] = ok s[index[j]] := by unfold deref; rw [List.getElem?_eq_getElem hj]
    rw [h1, ok_bind, h2, ok_bind]
    obtain ⟨out, rest, g1, g2, g3⟩ := ih (i + 1) (index.eraseIdx j) (fun p hq => hp p (List.mem_of_mem_eraseIdx hq))
      (by rw [List.length_eraseIdx_of_lt hlt]; omega) (by rw [List.length_eraseIdx_of_lt hlt]; omega)
    refine ⟨s[index[j]] :: out, rest, by rw [g1, ok_bind], by simp [g2], ?_⟩
    have hperm := (List.getElem_cons_eraseIdx_perm hlt).filterMap (s[·]?)
    rw [List.filterMap_cons, List.getElem?_eq_getElem hj] at hperm
    exact ((g3.cons _).trans hperm)

theorem randomPermutation_perm (A : Arith) (rng : Nat → Draw) (s : List α) (hr : Inside A rng s.length) :
    ∃ out, randomPermutation A true rng s = ok out ∧ out.Perm s := by
  obtain ⟨out, rest, g1, g2, g3⟩ := drawLoop_spec A rng s hr s.length 0 (List.range s.length) (by simp) (by simp) (by simp)
  refine ⟨out, g1, ?_⟩
  rw [filterMap_range] at g3
  have hl := g3.length_eq
  have : rest = [] := List.length_eq_zero_iff.mp (by simp at hl; omega)
  subst this
  simpa using g3

/-- Exact arithmetic: whatever the generator returns in [0,1), the output is a permutation of the input. -/
theorem C81_exact_permutation (rng : Nat → Draw) (hr : ∀ i, (rng i).Below) (s : List α) :
    ∃ out, randomPermutation exact true rng s = ok out ∧ out.Perm s :=
  randomPermutation_perm exact rng s (exact_inside rng hr _)

/-- A generator that announces a range outside [0,1] is not used: nothing is written. -/
theorem C81_range_refused (A : Arith) (rng : Nat → Draw) (s : List α) (k : Nat) :
    randomPermutation A false rng s = ok [] ∧ randomCombination A false rng s k = ok none := by
  constructor
  · rfl
  · rw [randomCombination, if_pos (by simp)]

theorem drawLoop_congr (A : Arith) (rng rng' : Nat → Draw) (s : List α) : ∀ (count i : Nat) (index : List Nat), (∀ m, i ≤ m → rng m = rng' m) →
    drawLoop A rng s count i index = drawLoop A rng' s count i index := by
  intro count
  induction count with
  | zero => intros; rfl
  | succ c ih =>
    intro i index h
    unfold drawLoop
    simp only [h i (Nat.le_refl _)]
    congr 1; funext p
    congr 1; funext x
    rw [ih (i + 1) _ (fun m hm => h m (by omega))]

/-- The arithmetic lets a permitted draw (`P`) reach every element of ranges of up to `bound` elements. -/
def Reaches (A : Arith) (P : Draw → Prop) (bound : Nat) : Prop := ∀ size j, size ≤ bound → j < size → ∃ d, P d ∧ A.index d size = j

theorem exact_reaches (bound : Nat) : Reaches exact Draw.Below bound :=
  fun size j _ hj => ⟨⟨j, size⟩, hj, Nat.mul_div_cancel_left j (by omega)⟩

theorem drawLoop_attain (A : Arith) (P : Draw → Prop) (s : List α) (hA : Reaches A P s.length) (d₀ : Draw) (h₀ : P d₀) :
    ∀ (out : List α) (i : Nat) (index : List Nat) (rest : List α), (∀ p ∈ index, p < s.length) → index.length ≤ s.length →
    (out ++ rest).Perm (index.filterMap (s[·]?)) →
    ∃ rng : Nat → Draw, (∀ m, P (rng m)) ∧ drawLoop A rng s out.length i index = ok out := by
  intro out
  induction out with
  | nil => intro i index rest _ _ _; exact ⟨fun _ => d₀, fun _ => h₀, rfl⟩
  | cons x out ih =>
    intro i index rest hp hle h
    have hx : x ∈ index.filterMap (s[·]?) := h.subset (by simp)
    rw [List.mem_filterMap] at hx
    obtain ⟨p, hpi, hpx⟩ := hx
    obtain ⟨j, hj, rfl⟩ := List.getElem_of_mem hpi
    have hperm := (List.getElem_cons_eraseIdx_perm hj).filterMap (s[·]?)
    rw [List.filterMap_cons, hpx] at hperm
    have h' : (out ++ rest).Perm ((index.eraseIdx j).filterMap (s[·]?)) := (h.trans hperm.symm).cons_inv
    obtain ⟨rng, hr1, hr2⟩ := ih (i + 1) (index.eraseIdx j) rest (fun p hq => hp p (List.mem_of_mem_eraseIdx hq))
      (by rw [List.length_eraseIdx_of_lt hj]; omega) h'
    obtain ⟨d, hd, hidx⟩ := hA index.length j hle hj
    refine ⟨fun m => if m = i then d else rng m, ?_, ?_⟩
    · intro m
      dsimp only
      split
      · exact hd
      · exact hr1 m
    · rw [List.length_cons]
      unfold drawLoop
      simp only [if_true, hidx]
      have h1 : deref index j = ok index[j] := by unfold deref; rw [List.getElem?_eq_getElem hj]
      have h2 : deref s index[j] = ok x := by unfold deref; rw [hpx]
      rw [h1, ok_bind, h2, ok_bind, drawLoop_congr _ _ rng _ _ _ _ (fun m hm => if_neg (by omega)), hr2, ok_bind]

theorem randomPermutation_attain (A : Arith) (P : Draw → Prop) (s out : List α) (hA : Reaches A P s.length) (d₀ : Draw) (h₀ : P d₀) (h : out.Perm s) :
    ∃ rng : Nat → Draw, (∀ m, P (rng m)) ∧ randomPermutation A true rng s = ok out := by
  obtain ⟨rng, h1, h2⟩ := drawLoop_attain A P s hA d₀ h₀ out 0 (List.range s.length) [] (by simp) (by simp) (by simpa [filterMap_range] using h)
  rw [h.length_eq] at h2
  exact ⟨rng, h1, h2⟩

/-- Every permutation can come out. -/
theorem C81_every_permutation (s out : List α) (h : out.Perm s) :
    ∃ rng : Nat → Draw, (∀ m, (rng m).Below) ∧ randomPermutation exact true rng s = ok out :=
  randomPermutation_attain exact _ s out (exact_reaches _) ⟨0, 1⟩ (by simp [Draw.Below]) h

theorem randomCombination_subperm (A : Arith) (rng : Nat → Draw) (s : List α) (hr : Inside A rng s.length) (k : Nat) :
    (s.length < k → randomCombination A true rng s k = ok none) ∧
    (k ≤ s.length → ∃ out, randomCombination A true rng s k = ok (some out) ∧ out.length = k ∧ out.Subperm s) := by
  constructor
  · intro h; rw [randomCombination, if_pos (by simpa using h)]
  · intro h
    obtain ⟨out, rest, g1, g2, g3⟩ := drawLoop_spec A rng s hr k 0 (List.range s.length) (by simp) (by simpa using h) (by simp)
    rw [filterMap_range] at g3
    refine ⟨out, ?_, g2, (List.sublist_append_left out rest).subperm.trans g3.subperm⟩
    rw [randomCombination, if_neg (by simpa using h), g1, ok_bind]

/-- `random_combination` in exact arithmetic: exactly `set_size` elements from different positions, or false when there are not enough. -/
theorem C81_exact_combination (rng : Nat → Draw) (hr : ∀ i, (rng i).Below) (s : List α) (k : Nat) :
    (s.length < k → randomCombination exact true rng s k = ok none) ∧
    (k ≤ s.length → ∃ out, randomCombination exact true rng s k = ok (some out) ∧ out.length = k ∧ out.Subperm s) :=
  randomCombination_subperm exact rng s (exact_inside rng hr _) k

theorem randomCombination_attain (A : Arith) (P : Draw → Prop) (s out : List α) (hA : Reaches A P s.length) (d₀ : Draw) (h₀ : P d₀) (h : out.Subperm s) :
    ∃ rng : Nat → Draw, (∀ m, P (rng m)) ∧ randomCombination A true rng s out.length = ok (some out) := by
  obtain ⟨rest, hrest⟩ := List.subperm_iff.mp h
  obtain ⟨rest', hp⟩ : ∃ r, (out ++ r).Perm s := by
    obtain ⟨h1, h2⟩ := hrest
    obtain ⟨r, hr⟩ := h2.exists_perm_append
    exact ⟨r, hr.symm.trans h1⟩
  obtain ⟨rng, h1, h2⟩ := drawLoop_attain A P s hA d₀ h₀ out 0 (List.range s.length) rest' (by simp) (by simp) (by simpa [filterMap_range] using hp)
  refine ⟨rng, h1, ?_⟩
  have := h.length_le
  rw [randomCombination, if_neg (by simpa using this), h2, ok_bind]

/-- Every selection in every order can come out. -/
theorem C81_every_combination (s out : List α) (h : out.Subperm s) :
    ∃ rng : Nat → Draw, (∀ m, (rng m).Below) ∧ randomCombination exact true rng s out.length = ok (some out) :=
  randomCombination_attain exact _ s out (exact_reaches _) ⟨0, 1⟩ (by simp [Draw.Below]) h

/-- A generator that returns exactly 1 passes the test `rng.max() > 1.0`, and the deque is read behind its end. -/
theorem C81_one_out_of_bounds (s : List α) (hs : s ≠ []) : randomPermutation exact true (fun _ => ⟨1, 1⟩) s = ub := by
  obtain ⟨a, t, rfl⟩ := List.exists_cons_of_ne_nil hs
  rw [randomPermutation, List.length_cons, if_neg (by simp)]
  unfold drawLoop
  have : deref (List.range (t.length + 1)) (exact.index ⟨1, 1⟩ (List.range (t.length + 1)).length) = ub := by
    unfold deref exact
    rw [List.getElem?_eq_none (by simp)]
  simp only
  rw [this]
  rfl

example : randomPermutation exact true (fun _ => ⟨1, 2⟩) [1, 2, 3, 4] = ok [3, 2, 4, 1] := by decide
example : Draw.Below ⟨1, 2⟩ := by unfold Draw.Below; decide

/-! ## Reservoir selection -/

theorem store_subperm (sel seen : List α) (j : Nat) (x : α) (hj : j < sel.length) (h : sel.Subperm seen) : (sel.set j x).Subperm (seen ++ [x]) := by
  have hperm := List.getElem_cons_eraseIdx_perm hj
  have h1 : (sel.eraseIdx j).Subperm seen := ((List.eraseIdx_sublist sel j).subperm).trans h
  have h2 : (sel.set j x).Perm (sel.eraseIdx j ++ [x]) := by
    have hs : j < (sel.set j x).length := by simpa using hj
    have := List.getElem_cons_eraseIdx_perm hs
    rw [List.getElem_set_self] at this
    refine this.symm.trans ?_
    rw [List.eraseIdx_set_eq]
    exact (List.perm_append_singleton _ _).symm
  exact h2.subperm.trans (by
    have := (List.subperm_append_right [x]).mpr h1
    exact this)

theorem reservoirLoop_spec (A : Arith) (rng : Nat → Draw) (k : Nat) (hr : Inside A rng k) (hk : 0 < k) : ∀ (rest seen : List α) (n i : Nat) (sel : List α),
    sel.length = k → sel.Subperm seen →
    ∃ out, reservoirLoop A rng k rest n i sel = ok out ∧ out.length = k ∧ out.Subperm (seen ++ rest) := by
  intro rest
  induction rest with
  | nil => intro seen n i sel hl hs; exact ⟨sel, rfl, hl, by simpa using hs⟩
  | cons x rest ih =>
    intro seen n i sel hl hs
    unfold reservoirLoop
    have happ : seen ++ x :: rest = (seen ++ [x]) ++ rest := by simp
    rw [happ]
    by_cases hc : A.less (rng i) k n = true
    · rw [if_pos hc]
      have hj := hr (i + 1) k hk (Nat.le_refl _)
      unfold store
      rw [if_pos (by omega), ok_bind]
      exact ih (seen ++ [x]) (n + 1) (i + 2) _ (by simp [hl]) (store_subperm _ _ _ _ (by omega) hs)
    · rw [if_neg hc]
      exact ih (seen ++ [x]) (n + 1) (i + 1) sel hl (hs.trans (List.sublist_append_left seen [x]).subperm)

theorem selectK_subperm (A : Arith) (rng : Nat → Draw) (s : List α) (k : Nat) (hr : k ≤ s.length → Inside A rng k) :
    ∃ out, selectK A rng s k = ok out ∧ out.length = min k s.length ∧ out.Subperm s ∧ (s.length ≤ k → out = s) := by
  unfold selectK
  simp only
  by_cases h0 : (s.take k).length = 0
  · rw [if_pos h0]
    have h0' := h0
    rw [List.length_take] at h0'
    refine ⟨[], rfl, by simp; omega, List.nil_subperm, fun h => ?_⟩
    exact (List.length_eq_zero_iff.mp (by omega)).symm
  · rw [if_neg h0]
    by_cases h1 : (s.take k).length < k
    · rw [if_pos h1]
      rw [List.length_take] at h1
      have : s.take k = s := List.take_of_length_le (by omega)
      rw [this]
      exact ⟨s, rfl, by omega, List.Subperm.refl s, fun _ => rfl⟩
    · rw [if_neg h1]
      rw [List.length_take] at h1 h0
      obtain ⟨out, g1, g2, g3⟩ := reservoirLoop_spec A rng k (hr (by omega)) (by omega) (s.drop k) (s.take k) (k + 1) 0 (s.take k) (by simp; omega) (List.Subperm.refl _)
      rw [List.take_append_drop] at g3
      refine ⟨out, g1, by omega, g3, fun h => ?_⟩
      have hd : s.drop k = [] := List.drop_eq_nil_of_le (by omega)
      have ht : s.take k = s := List.take_of_length_le (by omega)
      rw [hd, ht] at g1
      simpa [reservoirLoop] using g1.symm

/-- `select_k_randomly`: min(k, n) elements from different positions, all of the input when it has at most `k` elements. -/
theorem C82_select_k (rng : Nat → Draw) (hr : ∀ i, (rng i).Below) (s : List α) (k : Nat) :
    ∃ out, selectK exact rng s k = ok out ∧ out.length = min k s.length ∧ out.Subperm s ∧ (s.length ≤ k → out = s) :=
  selectK_subperm exact rng s k (fun _ => exact_inside rng hr k)

example : selectK exact (fun i => ⟨i % 2, 5⟩) [10, 20, 30, 40] 2 = ok [40, 20] := by decide

theorem selectOneLoop_mem (A : Arith) (rng : Nat → Draw) : ∀ (rest seen : List α) (n : Nat) (sel : Option α), (∀ x, sel = some x → x ∈ seen) →
    ∀ x, selectOneLoop A rng rest n sel = some x → x ∈ seen ++ rest := by
  intro rest
  induction rest with
  | nil => intro seen n sel h x hx; simpa using h x hx
  | cons a t ih =>
    intro seen n sel h x hx
    have := ih (seen ++ [a]) (n + 1) _ (by
      intro y hy
      split at hy
      · simp only [Option.some.injEq] at hy; simp [hy]
      · simp [h y hy]) x hx
    simpa using this

theorem selectOneLoop_isSome (A : Arith) (rng : Nat → Draw) : ∀ (rest : List α) (n : Nat) (sel : Option α), sel.isSome = true →
    (selectOneLoop A rng rest n sel).isSome = true := by
  intro rest
  induction rest with
  | nil => intro n sel h; exact h
  | cons a t ih =>
    intro n sel h
    unfold selectOneLoop
    apply ih
    split
    · rfl
    · exact h

theorem selectOne_mem (A : Arith) (rng : Nat → Draw) (h0 : A.less (rng 0) 1 1 = true) (s : List α) :
    (s = [] → selectOne A rng s = ok []) ∧ (s ≠ [] → ∃ x ∈ s, selectOne A rng s = ok [x]) := by
  constructor
  · rintro rfl; rfl
  · intro hs
    obtain ⟨a, t, rfl⟩ := List.exists_cons_of_ne_nil hs
    have hsome : (selectOneLoop A rng (a :: t) 0 none).isSome = true := by
      unfold selectOneLoop
      apply selectOneLoop_isSome
      rw [if_pos h0]
      rfl
    obtain ⟨x, hx⟩ := Option.isSome_iff_exists.mp hsome
    refine ⟨x, by simpa using selectOneLoop_mem A rng (a :: t) [] 0 none (by simp) x hx, ?_⟩
    unfold selectOne
    simp only [hx]

/-- `select_1_randomly`: nothing for an empty range, otherwise one of its elements. -/
theorem C82_select_1 (rng : Nat → Draw) (hr : ∀ i, (rng i).Below) (s : List α) :
    (s = [] → selectOne exact rng s = ok []) ∧ (s ≠ [] → ∃ x ∈ s, selectOne exact rng s = ok [x]) :=
  selectOne_mem exact rng (by have := hr 0; unfold Draw.Below at this; simp [exact]; omega) s

example : selectOne exact (fun i => ⟨i % 3, 4⟩) [10, 20, 30, 40] = ok [40] := by decide

/-! ## generate_random_data -/

theorem randomDataLoop_spec (words : Nat → List UInt8) (hw : ∀ i, (words i).length = 4) : ∀ (n i fuel : Nat) (done room : List UInt8), room.length < fuel →
    room.length / 4 = n →
    randomDataLoop words fuel (done ++ room) done.length i room.length =
      ok (done ++ ((List.range' i n).flatMap words ++ room.drop (4 * n)), done.length + 4 * n, i + n, room.length - 4 * n) := by
  intro n
  induction n with
  | zero =>
    intro i fuel done room hf hn
    cases fuel with
    | zero => omega
    | succ f => unfold randomDataLoop; rw [if_neg (by omega)]; simp
  | succ n ih =>
    intro i fuel done room hf hn
    cases fuel with
    | zero => omega
    | succ f =>
      unfold randomDataLoop
      rw [if_pos (by omega)]
      have hwr : writeWord (done ++ room) (done.length : Nat) (words i) = ok ((done ++ words i) ++ room.drop 4) := by
        unfold writeWord
        rw [if_pos (by simp; omega)]
        simp [List.drop_append]
      rw [hwr, ok_bind]
      have := ih (i + 1) f (done ++ words i) (room.drop 4) (by simp; omega) (by simp; omega)
      rw [List.length_append, hw i, List.length_drop] at this
      rw [this, List.range'_succ, List.flatMap_cons, List.drop_drop]
      simp only [List.append_assoc]
      congr 2
      · rw [show 4 + 4 * n = 4 * (n + 1) by omega]
      · congr 1
        · omega
        · congr 1 <;> omega

/-- For every buffer of zero or at least four bytes every byte is taken from the generator's words: consecutive words, and, when the length is not a
multiple of four, one more word over the last four bytes. -/
theorem C83_generate_random_data_partial (words : Nat → List UInt8) (hw : ∀ i, (words i).length = 4) (buf : List UInt8)
    (hl : buf.length = 0 ∨ 4 ≤ buf.length) :
    ∃ out, generateRandomData words buf = ok out ∧ out.length = buf.length ∧
      (buf.length % 4 = 0 → out = (List.range (buf.length / 4)).flatMap words) ∧
      (buf.length % 4 ≠ 0 → out = ((List.range (buf.length / 4)).flatMap words).take (buf.length - 4) ++ words (buf.length / 4)) := by
  have h := randomDataLoop_spec words hw (buf.length / 4) 0 (buf.length + 1) [] buf (by omega) rfl
  simp only [List.nil_append, List.length_nil, Nat.zero_add, ← List.range_eq_range'] at h
  have hlenf : ∀ n, ((List.range n).flatMap words).length = 4 * n := by
    intro n
    induction n with
    | zero => rfl
    | succ n ih => rw [List.range_succ, List.flatMap_append, List.length_append, ih]; simp [hw]; omega
  unfold generateRandomData
  rw [h, ok_bind]
  simp only
  have hF := hlenf (buf.length / 4)
  generalize (List.range (buf.length / 4)).flatMap words = F at *
  by_cases hm : buf.length - 4 * (buf.length / 4) > 0
  · rw [if_pos hm]
    unfold writeWord
    have hlen : (F ++ buf.drop (4 * (buf.length / 4))).length = buf.length := by simp [hF]; omega
    rw [if_pos (by rw [hlen]; omega)]
    have e1 : (((4 * (buf.length / 4) : Nat) : Int) - (4 - ((buf.length - 4 * (buf.length / 4) : Nat) : Int))).toNat = buf.length - 4 := by omega
    rw [e1]
    have e2 : (F ++ buf.drop (4 * (buf.length / 4))).drop (buf.length - 4 + 4) = [] := List.drop_eq_nil_of_le (by rw [hlen]; omega)
    have e3 : (F ++ buf.drop (4 * (buf.length / 4))).take (buf.length - 4) = F.take (buf.length - 4) := by
      rw [List.take_append_of_le_length (by rw [hF]; omega)]
    rw [e2, e3, List.append_nil]
    refine ⟨_, rfl, by simp [hw, hF]; omega, by intro h; omega, fun _ => rfl⟩
  · rw [if_neg hm]
    have e2 : buf.drop (4 * (buf.length / 4)) = [] := List.drop_eq_nil_of_le (by omega)
    rw [e2, List.append_nil]
    exact ⟨F, rfl, by rw [hF]; omega, fun _ => rfl, by intro h; omega⟩

/-- For buffers of one to three bytes the function writes in front of the buffer. -/
theorem C83_short_buffer_ub (words : Nat → List UInt8) (buf : List UInt8) (h0 : 0 < buf.length) (h4 : buf.length < 4) :
    generateRandomData words buf = ub := by
  unfold generateRandomData randomDataLoop
  rw [if_neg (by omega), ok_bind]
  simp only
  rw [if_pos h0]
  unfold writeWord
  rw [if_neg (by omega)]

example : generateRandomData (fun i => List.replicate 4 (UInt8.ofNat (i + 1))) (List.replicate 6 0) = ok [1, 1, 2, 2, 2, 2] := by decide

/-! ## Concrete cases -/

example : ∃ out, randomPermutation exact true (fun i => ⟨i % 3, 4⟩) [1, 2, 3, 4] = ok out ∧ out.Perm [1, 2, 3, 4] :=
  C81_exact_permutation (fun i => ⟨i % 3, 4⟩) (fun i => by unfold Draw.Below; show i % 3 < 4; omega) [1, 2, 3, 4]

example : randomPermutation exact false (fun _ => ⟨1, 2⟩) [1, 2, 3] = ok [] ∧ randomCombination exact false (fun _ => ⟨1, 2⟩) [1, 2, 3] 2 = ok none :=
  C81_range_refused exact (fun _ => ⟨1, 2⟩) [1, 2, 3] 2

end Strtk.Random
