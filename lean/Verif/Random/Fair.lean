import Verif.Random.Props
import Mathlib.MeasureTheory.Measure.Lebesgue.Basic
import Mathlib.Data.Nat.Choose.Basic
import Mathlib.Data.Nat.Factorial.Basic
import Mathlib.Algebra.Order.Floor.Semifield

/-!
# Fairness of the random selections (strtk.hpp 11987-12158), C135

The numbers drawn are real numbers from [0,1), independent and evenly distributed: an event that depends on the first `N` draws has as its probability the
volume of the set of draws in the unit cube for which it happens.
-/

namespace Strtk.Random
open Outcome Mem MeasureTheory

/-! ## Specification -/

open Classical in
/-- The two expressions in which the program uses a drawn number (11997, 12044, 12117 and 12115, 12147), for real numbers. -/
noncomputable def reals : Arith ℝ where
  index u size := ⌊(size : ℝ) * u⌋₊
  less u k n := decide (u < (k : ℝ) / n)

/-- The sequence that begins with the given numbers. -/
noncomputable def drawn {N : Nat} (u : Fin N → ℝ) (k : Nat) : ℝ := if h : k < N then u ⟨k, h⟩ else 0

/-- All sequences of `N` random numbers from [0, 1): a set of volume 1. -/
def Draws (N : Nat) : Set (Fin N → ℝ) := {u | ∀ i, 0 ≤ u i ∧ u i < 1}

/-- The probability that `N` draws (followed by zeros) have the property. -/
noncomputable def prob (N : Nat) (E : (Nat → ℝ) → Prop) : ENNReal := volume {u : Fin N → ℝ | u ∈ Draws N ∧ E (drawn u)}

/-! ## Calculating with probabilities -/

theorem drawn_range {N : Nat} {u : Fin N → ℝ} (h : u ∈ Draws N) (k : Nat) : 0 ≤ drawn u k ∧ drawn u k < 1 := by
  unfold drawn
  split
  · exact h _
  · simp

theorem prob_congr (N : Nat) (E E' : (Nat → ℝ) → Prop) (h : ∀ r, (∀ i, 0 ≤ r i ∧ r i < 1) → (E r ↔ E' r)) : prob N E = prob N E' := by
  unfold prob
  congr 1
  ext u
  simp only [Set.mem_setOf_eq]
  constructor
  · rintro ⟨h1, h2⟩; exact ⟨h1, (h _ (drawn_range h1)).mp h2⟩
  · rintro ⟨h1, h2⟩; exact ⟨h1, (h _ (drawn_range h1)).mpr h2⟩

theorem prob_true (N : Nat) : prob N (fun _ => True) = 1 := by
  have : {u : Fin N → ℝ | u ∈ Draws N ∧ True} = Set.univ.pi fun _ : Fin N => Set.Ico (0 : ℝ) 1 := by
    ext u; simp [Draws, Set.mem_pi]
  unfold prob
  rw [this, Real.volume_pi_Ico]; simp

theorem prob_false (N : Nat) : prob N (fun _ => False) = 0 := by
  unfold prob; simp

/-- The first draw is independent of the others. -/
theorem prob_first (N : Nat) (B : Set ℝ) (E : (Nat → ℝ) → Prop) :
    prob (N + 1) (fun r => r 0 ∈ B ∧ E (fun m => r (m + 1))) = volume (B ∩ Set.Ico 0 1) * prob N E := by
  have hpre : {u : Fin (N + 1) → ℝ | u ∈ Draws (N + 1) ∧ (drawn u 0 ∈ B ∧ E fun m => drawn u (m + 1))} =
      (MeasurableEquiv.piFinSuccAbove (fun _ : Fin (N + 1) => ℝ) 0) ⁻¹' ((B ∩ Set.Ico 0 1) ×ˢ {v : Fin N → ℝ | v ∈ Draws N ∧ E (drawn v)}) := by
    ext u
    have h0 : drawn u 0 = u 0 := by unfold drawn; simp
    have hs : (fun m => drawn u (m + 1)) = drawn (fun i : Fin N => u i.succ) := by
      funext m
      unfold drawn
      by_cases hm : m < N
      · rw [dif_pos (by omega), dif_pos hm]; rfl
      · rw [dif_neg (by omega), dif_neg hm]
    have he : (MeasurableEquiv.piFinSuccAbove (fun _ : Fin (N + 1) => ℝ) 0) u = (u 0, fun i : Fin N => u i.succ) := rfl
    rw [Set.mem_preimage, he, Set.mem_prod]
    simp only [Set.mem_setOf_eq, Set.mem_inter_iff, h0, hs, Draws, Set.mem_Ico]
    constructor
    · rintro ⟨h1, h2, h3⟩
      exact ⟨⟨h2, h1 0⟩, fun i => h1 i.succ, h3⟩
    · rintro ⟨⟨h1, h2⟩, h3, h4⟩
      refine ⟨fun i => ?_, h1, h4⟩
      cases i using Fin.cases with
      | zero => exact h2
      | succ i => exact h3 i
  have hmp := volume_preserving_piFinSuccAbove (fun _ : Fin (N + 1) => ℝ) 0
  unfold prob
  rw [hpre, hmp.measure_preimage_equiv, Measure.volume_eq_prod, Measure.prod_prod]

/-- Finitely many cases for the first draw. -/
theorem prob_split (N : Nat) (B : Nat → Set ℝ) (hB : ∀ j, MeasurableSet (B j)) (E : Nat → (Nat → ℝ) → Prop) (J : Finset Nat)
    (hd : ∀ i ∈ J, ∀ j ∈ J, i ≠ j → Disjoint (B i) (B j)) :
    prob (N + 1) (fun r => ∃ j ∈ J, r 0 ∈ B j ∧ E j (fun m => r (m + 1))) = ∑ j ∈ J, volume (B j ∩ Set.Ico 0 1) * prob N (E j) := by
  classical
  induction J using Finset.induction_on with
  | empty => simpa using prob_false (N + 1)
  | insert a J ha ih =>
    rw [Finset.sum_insert ha, ← ih fun i hi j hj => hd i (by simp [hi]) j (by simp [hj]), ← prob_first]
    have hM : MeasurableSet {u : Fin (N + 1) → ℝ | u 0 ∈ B a} := (measurable_pi_apply (0 : Fin (N + 1))) (hB a)
    have h0 : ∀ u : Fin (N + 1) → ℝ, drawn u 0 = u 0 := fun u => by unfold drawn; simp
    unfold prob
    rw [← measure_inter_add_diff _ hM]
    congr 2
    · ext u
      simp only [Set.mem_inter_iff, Set.mem_setOf_eq, Finset.mem_insert, h0]
      constructor
      · rintro ⟨⟨h1, j, hj, h2, h3⟩, h4⟩
        rcases hj with rfl | hj
        · exact ⟨h1, h2, h3⟩
        · exfalso
          exact Set.disjoint_left.mp (hd a (by simp) j (by simp [hj]) (fun e => ha (e ▸ hj))) h4 h2
      · rintro ⟨h1, h2, h3⟩
        exact ⟨⟨h1, a, Or.inl rfl, h2, h3⟩, h2⟩
    · ext u
      simp only [Set.mem_diff, Set.mem_setOf_eq, Finset.mem_insert, h0]
      constructor
      · rintro ⟨⟨h1, j, hj, h2, h3⟩, h4⟩
        rcases hj with rfl | hj
        · exact absurd h2 h4
        · exact ⟨h1, j, hj, h2, h3⟩
      · rintro ⟨h1, j, hj, h2, h3⟩
        exact ⟨⟨h1, j, Or.inr hj, h2, h3⟩,
          fun h4 => Set.disjoint_left.mp (hd a (by simp) j (by simp [hj]) (fun e => ha (e ▸ hj))) h4 h2⟩

/-- The draws that give index `j` of `size`. -/
noncomputable def slot (size j : Nat) : Set ℝ := Set.Ico ((j : ℝ) / size) (((j : ℝ) + 1) / size)

theorem slot_measurable (size j : Nat) : MeasurableSet (slot size j) := measurableSet_Ico

theorem mem_slot (size j : Nat) (hs : 0 < size) (u : ℝ) (hu : 0 ≤ u) : u ∈ slot size j ↔ reals.index u size = j := by
  have hp : (0 : ℝ) < size := by exact_mod_cast hs
  show u ∈ Set.Ico _ _ ↔ ⌊(size : ℝ) * u⌋₊ = j
  rw [Nat.floor_eq_iff (by positivity), Set.mem_Ico, div_le_iff₀ hp, lt_div_iff₀ hp, mul_comm u]

theorem slot_volume (size j : Nat) (hj : j < size) : volume (slot size j ∩ Set.Ico 0 1) = ENNReal.ofReal (1 / size) := by
  have hp : (0 : ℝ) < size := by exact_mod_cast (by omega : 0 < size)
  have : slot size j ∩ Set.Ico 0 1 = slot size j := by
    rw [Set.inter_eq_left]
    intro x hx
    refine ⟨le_trans (by positivity) hx.1, lt_of_lt_of_le hx.2 ?_⟩
    rw [div_le_one hp]
    exact_mod_cast hj
  rw [this, slot, Real.volume_Ico]
  congr 1
  field_simp
  ring

theorem slot_disjoint (size : Nat) (hs : 0 < size) (i j : Nat) (h : i ≠ j) : Disjoint (slot size i) (slot size j) := by
  rw [Set.disjoint_left]
  intro u hi hj
  have h0 : 0 ≤ u := le_trans (by positivity) hi.1
  exact h (((mem_slot size i hs u h0).mp hi).symm.trans ((mem_slot size j hs u h0).mp hj))

theorem index_lt (size : Nat) (hs : 0 < size) (u : ℝ) (h : 0 ≤ u ∧ u < 1) : reals.index u size < size := by
  have hp : (0 : ℝ) < size := by exact_mod_cast hs
  show ⌊(size : ℝ) * u⌋₊ < size
  rw [Nat.floor_lt (by have := h.1; positivity)]
  calc (size : ℝ) * u < size * 1 := by apply mul_lt_mul_of_pos_left h.2 hp
    _ = size := mul_one _

/-! ## Permutations and combinations -/

variable {α : Type}

theorem drawLoop_shift {D : Type} (A : Arith D) (s : List α) (rng : Nat → D) : ∀ (count i : Nat) (index : List Nat),
    drawLoop A rng s count (i + 1) index = drawLoop A (fun m => rng (m + 1)) s count i index := by
  intro count
  induction count with
  | zero => intros; rfl
  | succ c ih => intro i index; simp only [drawLoop]; simp only [ih]

theorem drawLoop_prob (s : List α) (hs : s.Nodup) : ∀ (count N : Nat) (index : List Nat) (out : List α), count ≤ N → index.Nodup →
    (∀ p ∈ index, p < s.length) → out.length = count → out.Nodup → (∀ x ∈ out, ∃ p ∈ index, s[p]? = some x) →
    prob N (fun r => drawLoop reals r s count 0 index = ok out) = ENNReal.ofReal (1 / (index.length.descFactorial count : ℝ)) := by
  intro count
  induction count with
  | zero =>
    intro N index out _ _ _ hl _ _
    have : out = [] := List.length_eq_zero_iff.mp hl
    subst this
    simp only [drawLoop, Nat.descFactorial_zero]
    simpa using prob_true N
  | succ c ih =>
    intro N index out hN hnd hlt hl hno hmem
    obtain ⟨N, rfl⟩ : ∃ n, N = n + 1 := ⟨N - 1, by omega⟩
    match out, hl with
    | x :: out, hl =>
      obtain ⟨p, hp, hx⟩ := hmem x (by simp)
      obtain ⟨j, hj, hjp⟩ := List.mem_iff_getElem.mp hp
      have hlen : 0 < index.length := by omega
      have hno' := List.nodup_cons.mp hno
      have heq : prob (N + 1) (fun r => drawLoop reals r s (c + 1) 0 index = ok (x :: out)) =
          prob (N + 1) (fun r => r 0 ∈ slot index.length j ∧ (fun r => drawLoop reals r s c 0 (index.eraseIdx j) = ok out) fun m => r (m + 1)) := by
        refine prob_congr _ _ _ fun r hr => ?_
        have hi := index_lt index.length hlen (r 0) (hr 0)
        rw [mem_slot _ _ hlen _ (hr 0).1]
        generalize hidx : reals.index (r 0) index.length = idx at hi
        have hq : index[idx] < s.length := hlt _ (List.getElem_mem hi)
        have h1 : deref index idx = ok index[idx] := by unfold deref; rw [List.getElem?_eq_getElem hi]
        have h2 : deref s index[idx] = ok s[index[idx]] := by unfold deref; rw [List.getElem?_eq_getElem hq]
        have hstep : drawLoop reals r s (c + 1) 0 index =
            (drawLoop reals (fun m => r (m + 1)) s c 0 (index.eraseIdx idx) >>= fun rest => ok (s[index[idx]] :: rest)) := by
          conv => lhs; unfold drawLoop
          simp only [hidx]
          rw [h1, ok_bind, h2, ok_bind, drawLoop_shift]
        rw [hstep]
        constructor
        · intro h
          obtain ⟨rest, hr1, hr2⟩ := bind_eq_ok.mp h
          have e : s[index[idx]] :: rest = x :: out := by injection hr2
          have e1 := (List.cons.inj e).1
          have e2 := (List.cons.inj e).2
          have hpi : index[idx] = p := by
            have : s[index[idx]]? = s[p]? := by rw [List.getElem?_eq_getElem hq, e1, hx]
            exact (List.getElem?_inj hq hs).mp this
          have : idx = j := by
            refine (List.getElem?_inj hi hnd).mp ?_
            rw [List.getElem?_eq_getElem hi, List.getElem?_eq_getElem hj, hpi, hjp]
          subst this
          exact ⟨rfl, by rw [← e2]; exact hr1⟩
        · rintro ⟨rfl, h⟩
          have h : drawLoop reals (fun m => r (m + 1)) s c 0 (index.eraseIdx idx) = ok out := h
          rw [h, ok_bind]
          congr 2
          have : s[p]? = some s[index[idx]] := by rw [← hjp, List.getElem?_eq_getElem hq]
          rw [hx] at this
          exact (Option.some.inj this).symm
      rw [heq, prob_first N (slot index.length j) fun r => drawLoop reals r s c 0 (index.eraseIdx j) = ok out, slot_volume _ _ hj]
      have hel := List.length_eraseIdx_of_lt hj
      have hrec := ih N (index.eraseIdx j) out (by omega) (hnd.eraseIdx j) (fun q hq => hlt q (List.mem_of_mem_eraseIdx hq)) (by simpa using hl) hno'.2 (by
        intro y hy
        obtain ⟨q, hq, hqy⟩ := hmem y (by simp [hy])
        refine ⟨q, ?_, hqy⟩
        rw [List.mem_eraseIdx_iff_getElem?]
        obtain ⟨i, hi, hiq⟩ := List.mem_iff_getElem.mp hq
        refine ⟨i, ?_, by rw [List.getElem?_eq_getElem hi, hiq]⟩
        rintro rfl
        rw [hjp] at hiq
        subst hiq
        rw [hx] at hqy
        exact hno'.1 (Option.some.inj hqy ▸ hy))
      rw [hrec, hel, ← ENNReal.ofReal_mul (by positivity)]
      congr 1
      obtain ⟨m, hm⟩ : ∃ m, index.length = m + 1 := ⟨index.length - 1, by omega⟩
      rw [hm, Nat.succ_descFactorial_succ]
      push_cast
      rw [one_div_mul_one_div]

/-- C135: `random_combination` gives each arrangement of `k` of `n` different elements with the same probability, `1/(n(n-1)...(n-k+1))`. -/
theorem C135_combination (s out : List α) (hs : s.Nodup) (ho : out.Nodup) (hsub : ∀ x ∈ out, x ∈ s) (N : Nat) (hN : out.length ≤ N) :
    prob N (fun r => randomCombination reals true r s out.length = ok (some out)) = ENNReal.ofReal (1 / (s.length.descFactorial out.length : ℝ)) := by
  have hk : out.length ≤ s.length := (List.subperm_of_subset ho hsub).length_le
  have := drawLoop_prob s hs out.length N (List.range s.length) out hN List.nodup_range (by simp) rfl ho (by
    intro x hx
    obtain ⟨i, hi, h⟩ := List.mem_iff_getElem.mp (hsub x hx)
    exact ⟨i, by simpa using hi, by rw [List.getElem?_eq_getElem hi, h]⟩)
  rw [List.length_range] at this
  rw [← this]
  refine prob_congr _ _ _ fun r _ => ?_
  rw [randomCombination, if_neg (by simpa using hk)]
  constructor
  · intro h
    obtain ⟨x, h1, h2⟩ := bind_eq_ok.mp h
    have : some x = some out := by injection h2
    rw [h1, Option.some.inj this]
  · intro h
    show (drawLoop reals r s out.length 0 (List.range s.length) >>= fun r => ok (some r)) = _
    rw [h, ok_bind]

/-- C135: `random_permutation` gives each order of `n` different elements with probability `1/n!`. -/
theorem C135_permutation (s out : List α) (hs : s.Nodup) (h : out.Perm s) (N : Nat) (hN : s.length ≤ N) :
    prob N (fun r => randomPermutation reals true r s = ok out) = ENNReal.ofReal (1 / (s.length.factorial : ℝ)) := by
  have := drawLoop_prob s hs s.length N (List.range s.length) out hN List.nodup_range (by simp) h.length_eq (h.nodup_iff.mpr hs) (by
    intro x hx
    obtain ⟨i, hi, e⟩ := List.mem_iff_getElem.mp (h.subset hx)
    exact ⟨i, by simpa using hi, by rw [List.getElem?_eq_getElem hi, e]⟩)
  rw [List.length_range, Nat.descFactorial_self] at this
  exact this

/-! ## One element -/

/-- The loop of `select_1_randomly` with the number of the draw apart from the position. -/
def oneLoop {D : Type} (A : Arith D) (rng : Nat → D) : List α → Nat → Nat → Option α → Option α
  | [], _, _, sel => sel
  | x :: rest, n, i, sel => oneLoop A rng rest (n + 1) (i + 1) (if A.less (rng i) 1 (n + 1) then some x else sel)

theorem selectOneLoop_eq {D : Type} (A : Arith D) (rng : Nat → D) : ∀ (rest : List α) (n : Nat) (sel : Option α),
    selectOneLoop A rng rest n sel = oneLoop A rng rest n n sel := by
  intro rest
  induction rest with
  | nil => intros; rfl
  | cons x rest ih => intro n sel; exact ih _ _

theorem oneLoop_shift {D : Type} (A : Arith D) (rng : Nat → D) : ∀ (rest : List α) (n i : Nat) (sel : Option α),
    oneLoop A rng rest n (i + 1) sel = oneLoop A (fun m => rng (m + 1)) rest n i sel := by
  intro rest
  induction rest with
  | nil => intros; rfl
  | cons x rest ih => intro n i sel; exact ih _ _ _

theorem less_iff (u : ℝ) (k n : Nat) : reals.less u k n = true ↔ u < (k : ℝ) / n := by simp [reals]

theorem ico_volume (a b : ℝ) (h0 : 0 ≤ a) (h1 : b ≤ 1) : volume (Set.Ico a b ∩ Set.Ico 0 1) = ENNReal.ofReal (b - a) := by
  have : Set.Ico a b ∩ Set.Ico 0 1 = Set.Ico a b := by
    rw [Set.inter_eq_left]
    exact fun x hx => ⟨le_trans h0 hx.1, lt_of_lt_of_le hx.2 h1⟩
  rw [this, Real.volume_Ico]

/-- Two cases for the first draw: below `t` or not. -/
theorem prob_below (N : Nat) (t : ℝ) (h0 : 0 ≤ t) (h1 : t ≤ 1) (E F : (Nat → ℝ) → Prop) :
    prob (N + 1) (fun r => (r 0 < t ∧ E (fun m => r (m + 1))) ∨ (¬ r 0 < t ∧ F (fun m => r (m + 1)))) =
      ENNReal.ofReal t * prob N E + ENNReal.ofReal (1 - t) * prob N F := by
  have h := prob_split N (fun j => if j = 0 then Set.Ico 0 t else Set.Ico t 1) (fun j => by split <;> exact measurableSet_Ico)
    (fun j => if j = 0 then E else F) {0, 1} (by
      intro i hi j hj hij
      have hd : Disjoint (Set.Ico 0 t) (Set.Ico t 1) := by
        rw [Set.disjoint_left]; intro x h1 h2; exact absurd h2.1 (not_le.mpr h1.2)
      simp only [Finset.mem_insert, Finset.mem_singleton] at hi hj
      rcases hi with rfl | rfl <;> rcases hj with rfl | rfl
      · exact absurd rfl hij
      · simpa using hd
      · simpa using hd.symm
      · exact absurd rfl hij)
  rw [Finset.sum_pair (by decide)] at h
  simp only [if_true, if_neg (by decide : ¬ 1 = 0)] at h
  rw [ico_volume 0 t (le_refl _) h1, ico_volume t 1 h0 (le_refl _), sub_zero] at h
  rw [← h]
  refine prob_congr _ _ _ fun r hr => ?_
  constructor
  · rintro (⟨h1, h2⟩ | ⟨h1, h2⟩)
    · exact ⟨0, by simp, by simpa using ⟨(hr 0).1, h1⟩, by simpa using h2⟩
    · exact ⟨1, by simp, by simpa using ⟨not_lt.mp h1, (hr 0).2⟩, by simpa using h2⟩
  · rintro ⟨j, hj, h1, h2⟩
    simp only [Finset.mem_insert, Finset.mem_singleton] at hj
    rcases hj with rfl | rfl
    · left; simp at h1 h2; exact ⟨h1.2, h2⟩
    · right; simp at h1 h2; exact ⟨not_lt.mpr h1.1, h2⟩

theorem oneLoop_mem {D : Type} (A : Arith D) (rng : Nat → D) : ∀ (rest : List α) (n i : Nat) (sel : Option α),
    oneLoop A rng rest n i sel = sel ∨ ∃ x ∈ rest, oneLoop A rng rest n i sel = some x := by
  intro rest
  induction rest with
  | nil => intro n i sel; exact Or.inl rfl
  | cons x rest ih =>
    intro n i sel
    unfold oneLoop
    rcases ih (n + 1) (i + 1) (if A.less (rng i) 1 (n + 1) then some x else sel) with h | ⟨y, hy, h⟩
    · rw [h]
      split
      · exact Or.inr ⟨x, by simp, rfl⟩
      · exact Or.inl rfl
    · exact Or.inr ⟨y, by simp [hy], h⟩

theorem oneLoop_prob (x : α) : ∀ (rest : List α) (n N : Nat) (sel : Option α), rest.Nodup → (∀ y ∈ rest, sel ≠ some y) → rest.length ≤ N →
    (x ∈ rest → prob N (fun r => oneLoop reals r rest n 0 sel = some x) = ENNReal.ofReal (1 / ((n + rest.length : ℕ) : ℝ))) ∧
    (sel = some x → 0 < n → prob N (fun r => oneLoop reals r rest n 0 sel = some x) = ENNReal.ofReal ((n : ℝ) / ((n + rest.length : ℕ) : ℝ))) := by
  intro rest
  induction rest with
  | nil =>
    intro n N sel _ _ _
    refine ⟨fun h => by simp at h, fun h hn => ?_⟩
    have hn' : (n : ℝ) ≠ 0 := by positivity
    simp only [oneLoop, h, List.length_nil, Nat.add_zero]
    rw [div_self hn']
    simpa using prob_true N
  | cons y rest ih =>
    intro n N sel hnd hne hN
    obtain ⟨N, rfl⟩ : ∃ m, N = m + 1 := ⟨N - 1, by simp at hN; omega⟩
    have hN' : rest.length ≤ N := by simpa using hN
    have hnd' := List.nodup_cons.mp hnd
    have ht0 : (0 : ℝ) ≤ 1 / ((n : ℝ) + 1) := by positivity
    have ht1 : 1 / ((n : ℝ) + 1) ≤ 1 := by rw [div_le_one (by positivity)]; simp
    have hsplit : prob (N + 1) (fun r => oneLoop reals r (y :: rest) n 0 sel = some x) =
        ENNReal.ofReal (1 / ((n : ℝ) + 1)) * prob N (fun r => oneLoop reals r rest (n + 1) 0 (some y) = some x) +
        ENNReal.ofReal (1 - 1 / ((n : ℝ) + 1)) * prob N (fun r => oneLoop reals r rest (n + 1) 0 sel = some x) := by
      rw [← prob_below N (1 / ((n : ℝ) + 1)) ht0 ht1]
      refine prob_congr _ _ _ fun r _ => ?_
      show oneLoop reals r rest (n + 1) (0 + 1) (if reals.less (r 0) 1 (n + 1) then some y else sel) = some x ↔ _
      rw [oneLoop_shift]
      have hl := less_iff (r 0) 1 (n + 1)
      push_cast at hl
      by_cases h : r 0 < 1 / ((n : ℝ) + 1)
      · rw [if_pos (hl.mpr h)]; simp only [h, not_true, true_and, false_and, or_false]
      · rw [if_neg (fun e => h (hl.mp e))]; simp only [h, not_false_iff, true_and, false_and, false_or]
    have hy := ih (n + 1) N (some y) hnd'.2 (fun z hz e => hnd'.1 (Option.some.inj e ▸ hz)) hN'
    have hs := ih (n + 1) N sel hnd'.2 (fun z hz => hne z (by simp [hz])) hN'
    have hlen : n + (y :: rest).length = n + 1 + rest.length := by simp; omega
    rw [hsplit, hlen]
    have hz : (0 : ℝ) < n + 1 := by positivity
    have hz' : (0 : ℝ) < ((n + 1 + rest.length : ℕ) : ℝ) := by positivity
    constructor
    · intro hx
      rcases List.mem_cons.mp hx with rfl | hx
      · have h2 : prob N (fun r => oneLoop reals r rest (n + 1) 0 sel = some x) = 0 := by
          rw [← prob_false N]
          refine prob_congr _ _ _ fun r _ => ⟨fun h => ?_, False.elim⟩
          rcases oneLoop_mem reals r rest (n + 1) 0 sel with e | ⟨z, hz, e⟩
          · exact hne x (by simp) (e ▸ h)
          · rw [e] at h
            exact hnd'.1 (Option.some.inj h ▸ hz)
        rw [h2, hy.2 rfl (by omega), mul_zero, add_zero, ← ENNReal.ofReal_mul ht0]
        congr 1
        push_cast
        field_simp
      · rw [hy.1 hx, hs.1 hx, ← add_mul, ← ENNReal.ofReal_add ht0 (by linarith)]
        simp
    · intro hsx hn
      have h1 : prob N (fun r => oneLoop reals r rest (n + 1) 0 (some y) = some x) = 0 := by
        rw [← prob_false N]
        refine prob_congr _ _ _ fun r _ => ⟨fun h => ?_, False.elim⟩
        rcases oneLoop_mem reals r rest (n + 1) 0 (some y) with e | ⟨z, hz, e⟩
        · rw [e] at h; exact hne y (by simp) (hsx.trans h.symm)
        · rw [e] at h
          exact hne z (by simp [hz]) (hsx.trans h.symm)
      rw [h1, hs.2 hsx (by omega), mul_zero, zero_add, ← ENNReal.ofReal_mul (by linarith)]
      congr 1
      push_cast
      field_simp
      ring

/-- C135: `select_1_randomly` gives each of `n` different elements with probability `1/n`. -/
theorem C135_select_1 (s : List α) (hs : s.Nodup) (x : α) (hx : x ∈ s) (N : Nat) (hN : s.length ≤ N) :
    prob N (fun r => selectOne reals r s = ok [x]) = ENNReal.ofReal (1 / (s.length : ℝ)) := by
  have h := (oneLoop_prob x s 0 N none hs (by simp) hN).1 hx
  rw [Nat.zero_add] at h
  rw [← h]
  refine prob_congr _ _ _ fun r _ => ?_
  have hne : s ≠ [] := List.ne_nil_of_mem hx
  rw [← selectOneLoop_eq]
  unfold selectOne
  match s, hne with
  | a :: t, _ =>
    simp only
    cases selectOneLoop reals r (a :: t) 0 none with
    | none => simp
    | some y => simp

/-! ## Several elements -/

theorem reservoirLoop_shift {D : Type} (A : Arith D) (rng : Nat → D) (k : Nat) : ∀ (rest : List α) (n i : Nat) (sel : List α),
    reservoirLoop A rng k rest n (i + 1) sel = reservoirLoop A (fun m => rng (m + 1)) k rest n i sel := by
  intro rest
  induction rest with
  | nil => intros; rfl
  | cons x rest ih =>
    intro n i sel
    simp only [reservoirLoop, ih]

theorem reservoirLoop_subset {D : Type} (A : Arith D) (rng : Nat → D) (k : Nat) : ∀ (rest : List α) (n i : Nat) (sel out : List α),
    reservoirLoop A rng k rest n i sel = ok out → ∀ y ∈ out, y ∈ sel ∨ y ∈ rest := by
  intro rest
  induction rest with
  | nil => intro n i sel out h y hy; simp only [reservoirLoop] at h; injection h with h; subst h; exact Or.inl hy
  | cons x rest ih =>
    intro n i sel out h y hy
    simp only [reservoirLoop] at h
    split at h
    · obtain ⟨sel', h1, h2⟩ := bind_eq_ok.mp h
      unfold store at h1
      split at h1
      case isFalse => simp at h1
      injection h1 with h1
      subst h1
      rcases ih _ _ _ _ h2 y hy with hm | hm
      · rcases List.mem_or_eq_of_mem_set hm with hm | rfl
        · exact Or.inl hm
        · exact Or.inr (by simp)
      · exact Or.inr (by simp [hm])
    · rcases ih _ _ _ _ h y hy with hm | hm
      · exact Or.inl hm
      · exact Or.inr (by simp [hm])

/-- The number of positions whose element has a property. -/
theorem card_positions (P : α → Bool) (l : List α) : ((Finset.range l.length).filter fun j => (l[j]?.any P) = true).card = l.countP P := by
  induction l using List.reverseRecOn with
  | nil => rfl
  | append_singleton l a ih =>
    rw [List.length_append, List.length_singleton, Finset.range_add_one, Finset.filter_insert, List.countP_append, ← ih]
    have hcongr : (Finset.range l.length).filter (fun j => ((l ++ [a])[j]?.any P) = true) = (Finset.range l.length).filter fun j => (l[j]?.any P) = true := by
      refine Finset.filter_congr fun j hj => ?_
      rw [List.getElem?_append_left (Finset.mem_range.mp hj)]
    have hlast : (l ++ [a])[l.length]? = some a := by simp
    rw [hcongr, hlast]
    by_cases hP : P a
    · rw [if_pos (by simpa using hP), Finset.card_insert_of_notMem (by simp)]
      simp [List.countP_cons, hP]
    · rw [if_neg (by simpa using hP)]
      simp [List.countP_cons, hP]

/-- The probability that the selection, `sel` after `m` elements with `b` elements that are not wanted, ends as the wanted one after `R` more elements. -/
noncomputable def chance (k m b R : Nat) : ℝ := (m.choose k : ℝ) / (((m + R).choose k : ℝ) * ((m - k + b).choose b : ℝ))

theorem chance_nonneg (k m b R : Nat) : 0 ≤ chance k m b R := by unfold chance; positivity

theorem chance_wanted (k m b R : Nat) (hk : k ≤ m) : ((b : ℝ) + 1) / ((m : ℝ) + 1) * chance k (m + 1) b R = chance k m (b + 1) (R + 1) := by
  obtain ⟨d, rfl⟩ := Nat.exists_eq_add_of_le hk
  unfold chance
  have e1 : k + d + 1 - k + b = d + b + 1 := by omega
  have e2 : k + d - k + (b + 1) = d + b + 1 := by omega
  have e3 : k + d + (R + 1) = k + d + 1 + R := by omega
  rw [e1, e2, e3]
  have c1 : ((k + d).choose k : ℝ) * (((k + d : ℕ) : ℝ) + 1) = ((k + d + 1).choose k : ℝ) * ((d : ℝ) + 1) := by
    have := Nat.choose_mul_succ_eq (k + d) k
    have h : k + d + 1 - k = d + 1 := by omega
    rw [h] at this
    exact_mod_cast this
  have c2 : ((d + b + 1).choose (b + 1) : ℝ) * ((b : ℝ) + 1) = ((d + b + 1).choose b : ℝ) * ((d : ℝ) + 1) := by
    have := Nat.choose_succ_right_eq (d + b + 1) b
    have h : d + b + 1 - b = d + 1 := by omega
    rw [h] at this
    exact_mod_cast this
  have p1 : (0 : ℝ) < ((k + d + 1 + R).choose k : ℝ) := by exact_mod_cast Nat.choose_pos (by omega)
  have p2 : (0 : ℝ) < ((d + b + 1).choose b : ℝ) := by exact_mod_cast Nat.choose_pos (by omega)
  have p3 : (0 : ℝ) < ((d + b + 1).choose (b + 1) : ℝ) := by exact_mod_cast Nat.choose_pos (by omega)
  have p4 : (0 : ℝ) < ((k + d : ℕ) : ℝ) + 1 := by positivity
  have p5 : (0 : ℝ) < (d : ℝ) + 1 := by positivity
  rw [div_mul_div_comm, div_eq_div_iff (by positivity) (by positivity)]
  have : ((b : ℝ) + 1) * ((k + d + 1).choose k : ℝ) * (((k + d + 1 + R).choose k : ℝ) * ((d + b + 1).choose (b + 1) : ℝ)) =
      ((k + d + 1).choose k : ℝ) * ((k + d + 1 + R).choose k : ℝ) * (((d + b + 1).choose (b + 1) : ℝ) * ((b : ℝ) + 1)) := by ring
  rw [this, c2]
  have : ((k + d).choose k : ℝ) * ((((k + d : ℕ) : ℝ) + 1) * (((k + d + 1 + R).choose k : ℝ) * ((d + b + 1).choose b : ℝ))) =
      (((k + d).choose k : ℝ) * (((k + d : ℕ) : ℝ) + 1)) * (((k + d + 1 + R).choose k : ℝ) * ((d + b + 1).choose b : ℝ)) := by ring
  rw [this, c1]
  ring

theorem chance_unwanted (k m b R : Nat) (hk : k ≤ m) :
    (b : ℝ) / ((m : ℝ) + 1) * chance k (m + 1) b R + (1 - (k : ℝ) / ((m : ℝ) + 1)) * chance k (m + 1) b R = chance k m b (R + 1) := by
  obtain ⟨d, rfl⟩ := Nat.exists_eq_add_of_le hk
  unfold chance
  have e1 : k + d + 1 - k + b = d + b + 1 := by omega
  have e2 : k + d - k + b = d + b := by omega
  have e3 : k + d + (R + 1) = k + d + 1 + R := by omega
  rw [e1, e2, e3]
  have c1 : ((k + d).choose k : ℝ) * (((k + d : ℕ) : ℝ) + 1) = ((k + d + 1).choose k : ℝ) * ((d : ℝ) + 1) := by
    have := Nat.choose_mul_succ_eq (k + d) k
    have h : k + d + 1 - k = d + 1 := by omega
    rw [h] at this
    exact_mod_cast this
  have c2 : ((d + b).choose b : ℝ) * ((d : ℝ) + b + 1) = ((d + b + 1).choose b : ℝ) * ((d : ℝ) + 1) := by
    have := Nat.choose_mul_succ_eq (d + b) b
    have h : d + b + 1 - b = d + 1 := by omega
    rw [h] at this
    exact_mod_cast this
  have p1 : (0 : ℝ) < ((k + d + 1 + R).choose k : ℝ) := by exact_mod_cast Nat.choose_pos (by omega)
  have p2 : (0 : ℝ) < ((d + b + 1).choose b : ℝ) := by exact_mod_cast Nat.choose_pos (by omega)
  have p3 : (0 : ℝ) < ((d + b).choose b : ℝ) := by exact_mod_cast Nat.choose_pos (by omega)
  have p4 : (0 : ℝ) < ((k + d : ℕ) : ℝ) + 1 := by positivity
  have p5 : (0 : ℝ) < (d : ℝ) + 1 := by positivity
  have hsum : (b : ℝ) / (((k + d : ℕ) : ℝ) + 1) + (1 - (k : ℝ) / (((k + d : ℕ) : ℝ) + 1)) = ((d : ℝ) + b + 1) / (((k + d : ℕ) : ℝ) + 1) := by
    field_simp
    push_cast
    ring
  rw [← add_mul, hsum, div_mul_div_comm, div_eq_div_iff (by positivity) (by positivity)]
  have : ((d : ℝ) + b + 1) * ((k + d + 1).choose k : ℝ) * (((k + d + 1 + R).choose k : ℝ) * ((d + b).choose b : ℝ)) =
      ((k + d + 1).choose k : ℝ) * ((k + d + 1 + R).choose k : ℝ) * (((d + b).choose b : ℝ) * ((d : ℝ) + b + 1)) := by ring
  rw [this, c2]
  have : ((k + d).choose k : ℝ) * ((((k + d : ℕ) : ℝ) + 1) * (((k + d + 1 + R).choose k : ℝ) * ((d + b + 1).choose b : ℝ))) =
      (((k + d).choose k : ℝ) * (((k + d : ℕ) : ℝ) + 1)) * (((k + d + 1 + R).choose k : ℝ) * ((d + b + 1).choose b : ℝ)) := by ring
  rw [this, c1]
  ring

/-- The selection ends as the wanted one, in whatever order. -/
def Ends (T : List α) (k : Nat) (rest : List α) (n : Nat) (sel : List α) (r : Nat → ℝ) : Prop :=
  ∃ out, reservoirLoop reals r k rest n 0 sel = ok out ∧ out.Perm T

theorem ends_lost (T : List α) (k : Nat) (rest : List α) (n : Nat) (sel : List α) (r : Nat → ℝ) (y : α) (hy : y ∈ T) (h1 : y ∉ sel) (h2 : y ∉ rest) :
    ¬ Ends T k rest n sel r := by
  rintro ⟨out, h, hp⟩
  rcases reservoirLoop_subset reals r k rest n 0 sel out h y (hp.symm.subset hy) with e | e
  · exact h1 e
  · exact h2 e

/-- One round of the loop. -/
theorem ends_step (T : List α) (k : Nat) (hk : 0 < k) (x : α) (rest : List α) (m : Nat) (sel : List α) (hsel : sel.length = k) (r : Nat → ℝ)
    (hr : ∀ i, 0 ≤ r i ∧ r i < 1) : Ends T k (x :: rest) (m + 1) sel r ↔
      (r 0 < (k : ℝ) / ((m : ℝ) + 1) ∧ ∃ j ∈ Finset.range k, r 1 ∈ slot k j ∧ Ends T k rest (m + 2) (sel.set j x) fun i => r (i + 2)) ∨
      (¬ r 0 < (k : ℝ) / ((m : ℝ) + 1) ∧ Ends T k rest (m + 2) sel fun i => r (i + 1)) := by
  have hl := less_iff (r 0) k (m + 1)
  push_cast at hl
  unfold Ends
  by_cases h : r 0 < (k : ℝ) / ((m : ℝ) + 1)
  · have hi := index_lt k hk (r 1) (hr 1)
    have hst : store sel (reals.index (r 1) k) x = ok (sel.set (reals.index (r 1) k) x) := by
      unfold store; rw [if_pos (by omega)]
    have e : reservoirLoop reals r k (x :: rest) (m + 1) 0 sel =
        reservoirLoop reals (fun i => r (i + 2)) k rest (m + 2) 0 (sel.set (reals.index (r 1) k) x) := by
      conv => lhs; unfold reservoirLoop
      rw [if_pos (hl.mpr h)]
      show (store sel (reals.index (r 1) k) x >>= fun selection => reservoirLoop reals r k rest (m + 1 + 1) (0 + 1 + 1) selection) = _
      rw [hst, ok_bind, reservoirLoop_shift, reservoirLoop_shift]
    rw [e]
    simp only [h, not_true, true_and, false_and, or_false]
    constructor
    · rintro ⟨out, h1, h2⟩
      exact ⟨_, Finset.mem_range.mpr hi, (mem_slot k _ hk _ (hr 1).1).mpr rfl, out, h1, h2⟩
    · rintro ⟨j, _, hj, out, h1, h2⟩
      have := (mem_slot k j hk _ (hr 1).1).mp hj
      subst this
      exact ⟨out, h1, h2⟩
  · have e : reservoirLoop reals r k (x :: rest) (m + 1) 0 sel = reservoirLoop reals (fun i => r (i + 1)) k rest (m + 2) 0 sel := by
      conv => lhs; unfold reservoirLoop
      rw [if_neg (fun e => h (hl.mp e)), reservoirLoop_shift]
    rw [e]
    simp only [h, not_false_iff, true_and, false_and, false_or]

theorem reservoir_prob [DecidableEq α] (T : List α) (k : Nat) (hk : 0 < k) (hT : T.Nodup) (hTk : T.length = k) :
    ∀ (rest : List α) (m : Nat) (sel : List α) (N : Nat), sel.length = k → k ≤ m → (sel ++ rest).Nodup → (∀ y ∈ T, y ∈ sel ++ rest) →
      2 * rest.length ≤ N →
      prob N (Ends T k rest (m + 1) sel) = ENNReal.ofReal (chance k m (sel.countP fun y => decide (y ∉ T)) rest.length) := by
  intro rest
  induction rest with
  | nil =>
    intro m sel N hsel hkm hnd hsub hN
    have hsub' : ∀ y ∈ T, y ∈ sel := by simpa using hsub
    have hp : T.Perm sel := (List.subperm_of_subset hT hsub').perm_of_length_le (by omega)
    have hb : sel.countP (fun y => decide (y ∉ T)) = 0 := by
      rw [List.countP_eq_zero]
      intro y hy
      simpa using hp.symm.subset hy
    rw [hb]
    have : chance k m 0 0 = 1 := by
      unfold chance
      have : (0 : ℝ) < (m.choose k : ℝ) := by exact_mod_cast Nat.choose_pos hkm
      simp [this.ne']
    rw [List.length_nil, this, ENNReal.ofReal_one, ← prob_true N]
    exact prob_congr _ _ _ fun r _ => ⟨fun _ => trivial, fun _ => ⟨sel, rfl, hp.symm⟩⟩
  | cons x rest ih =>
    intro m sel N hsel hkm hnd hsub hN
    obtain ⟨N, rfl⟩ : ∃ n, N = n + 2 := ⟨N - 2, by simp at hN; omega⟩
    have hN' : 2 * rest.length ≤ N := by simp at hN; omega
    have hm0 : (0 : ℝ) < (m : ℝ) + 1 := by positivity
    have hk0 : (0 : ℝ) < k := by exact_mod_cast hk
    have ht0 : 0 ≤ (k : ℝ) / ((m : ℝ) + 1) := by positivity
    have ht1 : (k : ℝ) / ((m : ℝ) + 1) ≤ 1 := by
      rw [div_le_one hm0]
      have : (k : ℝ) ≤ m := by exact_mod_cast hkm
      linarith
    -- the list without x in the middle
    have hperm : (x :: (sel ++ rest)).Perm (sel ++ x :: rest) := List.perm_middle.symm
    have hnd' : x ∉ sel ++ rest ∧ (sel ++ rest).Nodup := List.nodup_cons.mp (hperm.nodup_iff.mpr hnd)
    have hxs : x ∉ sel := fun h => hnd'.1 (by simp [h])
    have hxr : x ∉ rest := fun h => hnd'.1 (by simp [h])
    have hselnd : sel.Nodup := (List.nodup_append.mp hnd'.2).1
    have hrestnd : rest.Nodup := (List.nodup_append.mp hnd'.2).2.1
    have hdisj : ∀ y ∈ sel, y ∉ rest := fun y h1 h2 => (List.nodup_append.mp hnd'.2).2.2 y h1 y h2 rfl
    -- the selections that remain possible after replacing
    have hset : ∀ j (hj : j < sel.length), (sel.set j x ++ rest).Nodup ∧ ∀ y, y ∈ sel.set j x ↔ y = x ∨ (y ∈ sel ∧ y ≠ sel[j]) := by
      intro j hj
      have hmem : ∀ y, y ∈ sel.set j x ↔ y = x ∨ (y ∈ sel ∧ y ≠ sel[j]) := by
        intro y
        rw [List.mem_iff_getElem?]
        constructor
        · rintro ⟨i, hi⟩
          rw [List.getElem?_set] at hi
          split at hi
          · exact Or.inl (Option.some.inj hi).symm
          · rename_i hij
            right
            refine ⟨List.mem_of_getElem? hi, fun e => ?_⟩
            obtain ⟨hi', e'⟩ := List.getElem?_eq_some_iff.mp hi
            exact hij ((List.Nodup.getElem_inj_iff hselnd).mp (e.symm.trans e'.symm))
        · rintro (rfl | ⟨h1, h2⟩)
          · exact ⟨j, by rw [List.getElem?_set]; simp [hj]⟩
          · obtain ⟨i, hi, e⟩ := List.mem_iff_getElem.mp h1
            refine ⟨i, ?_⟩
            rw [List.getElem?_set, if_neg, List.getElem?_eq_getElem hi, e]
            rintro rfl
            exact h2 e.symm
      refine ⟨?_, hmem⟩
      rw [List.nodup_append]
      refine ⟨?_, hrestnd, ?_⟩
      · exact hselnd.set hxs
      · rintro y hy z hz rfl
        rcases (hmem y).mp hy with rfl | ⟨h1, _⟩
        · exact hxr hz
        · exact hdisj y h1 hz
    -- after a replacement
    have hinner : ∀ (b' : Nat), (∀ j (hj : j < sel.length), sel[j] ∉ T → (sel.set j x).countP (fun y => decide (y ∉ T)) = b') →
        prob (N + 1) (fun r => ∃ j ∈ Finset.range k, r 0 ∈ slot k j ∧ Ends T k rest (m + 2) (sel.set j x) fun i => r (i + 1)) =
          ENNReal.ofReal ((sel.countP (fun y => decide (y ∉ T)) : ℝ) / k * chance k (m + 1) b' rest.length) := by
      intro b' hb'
      rw [prob_split N (slot k) (slot_measurable k) (fun j => Ends T k rest (m + 2) (sel.set j x)) (Finset.range k) (fun i _ j _ h => slot_disjoint k hk i j h)]
      have hterm : ∀ j ∈ Finset.range k, volume (slot k j ∩ Set.Ico 0 1) * prob N (Ends T k rest (m + 2) (sel.set j x)) =
          if (sel[j]?.any fun y => decide (y ∉ T)) = true then ENNReal.ofReal (1 / k * chance k (m + 1) b' rest.length) else 0 := by
        intro j hj
        have hj' : j < sel.length := by rw [hsel]; exact Finset.mem_range.mp hj
        rw [slot_volume k j (Finset.mem_range.mp hj), List.getElem?_eq_getElem hj']
        by_cases hin : sel[j] ∈ T
        · rw [if_neg (by simpa using hin)]
          have : prob N (Ends T k rest (m + 2) (sel.set j x)) = 0 := by
            rw [← prob_false N]
            refine prob_congr _ _ _ fun r _ => ⟨fun h => ?_, False.elim⟩
            refine ends_lost T k rest (m + 2) (sel.set j x) r sel[j] hin ?_ (hdisj _ (List.getElem_mem hj')) h
            rw [(hset j hj').2]
            rintro (e | ⟨_, e⟩)
            · exact hxs (e ▸ List.getElem_mem hj')
            · exact e rfl
          rw [this, mul_zero]
        · rw [if_pos (by simpa using hin), ENNReal.ofReal_mul (by positivity)]
          congr 1
          have := ih (m + 1) (sel.set j x) N (by simp [hsel]) (by omega) (hset j hj').1 (by
            intro y hy
            rw [List.mem_append, (hset j hj').2]
            have := hsub y hy
            simp only [List.mem_append, List.mem_cons] at this
            rcases this with h | h | h
            · exact Or.inl (Or.inr ⟨h, fun e => hin (e ▸ hy)⟩)
            · exact Or.inl (Or.inl h)
            · exact Or.inr h) hN'
          rw [hb' j hj' hin] at this
          exact this
      rw [Finset.sum_congr rfl hterm, Finset.sum_ite, Finset.sum_const_zero, add_zero, Finset.sum_const, nsmul_eq_mul]
      have hcard := card_positions (fun y => decide (y ∉ T)) sel
      rw [hsel] at hcard
      rw [hcard, ← ENNReal.ofReal_natCast, ← ENNReal.ofReal_mul (by positivity)]
      congr 1
      ring
    have hsplit : prob (N + 2) (Ends T k (x :: rest) (m + 1) sel) =
        ENNReal.ofReal ((k : ℝ) / ((m : ℝ) + 1)) *
          prob (N + 1) (fun r => ∃ j ∈ Finset.range k, r 0 ∈ slot k j ∧ Ends T k rest (m + 2) (sel.set j x) fun i => r (i + 1)) +
        ENNReal.ofReal (1 - (k : ℝ) / ((m : ℝ) + 1)) * prob (N + 1) (Ends T k rest (m + 2) sel) := by
      rw [← prob_below (N + 1) _ ht0 ht1]
      exact prob_congr _ _ _ fun r hr => ends_step T k hk x rest m sel hsel r hr
    rw [hsplit]
    by_cases hx : x ∈ T
    · -- x is wanted: it has to be taken
      obtain ⟨b, hb⟩ : ∃ b, sel.countP (fun y => decide (y ∉ T)) = b + 1 := by
        refine ⟨sel.countP (fun y => decide (y ∉ T)) - 1, ?_⟩
        have : sel.countP (fun y => decide (y ∉ T)) ≠ 0 := by
          intro h0
          rw [List.countP_eq_zero] at h0
          have hall : ∀ y ∈ x :: sel, y ∈ T := by
            intro y hy
            rcases List.mem_cons.mp hy with rfl | hy
            · exact hx
            · simpa using h0 y hy
          have := (List.subperm_of_subset (List.nodup_cons.mpr ⟨hxs, hselnd⟩) hall).length_le
          simp at this
          omega
        omega
      have h0 : prob (N + 1) (Ends T k rest (m + 2) sel) = 0 := by
        rw [← prob_false (N + 1)]
        exact prob_congr _ _ _ fun r _ => ⟨fun h => ends_lost T k rest (m + 2) sel r x hx hxs hxr h, False.elim⟩
      rw [h0, mul_zero, add_zero, hinner b (by
        intro j hj hjT
        rw [List.countP_set hj, hb]
        simp [hjT, hx]), hb, ← ENNReal.ofReal_mul ht0]
      congr 1
      rw [List.length_cons, ← chance_wanted k m b rest.length hkm]
      push_cast
      field_simp
    · -- x is not wanted
      rw [hinner (sel.countP fun y => decide (y ∉ T)) (by
        intro j hj hjT
        rw [List.countP_set hj]
        have : 0 < sel.countP (fun y => decide (y ∉ T)) := List.countP_pos_iff.mpr ⟨sel[j], List.getElem_mem hj, by simpa using hjT⟩
        simp only [hjT, hx, not_false_iff, decide_true, if_true]
        omega)]
      have := ih (m + 1) sel (N + 1) hsel (by omega) hnd'.2 (by
        intro y hy
        have := hsub y hy
        simp only [List.mem_append, List.mem_cons] at this ⊢
        rcases this with h | h | h
        · exact Or.inl h
        · exact absurd (h ▸ hy) hx
        · exact Or.inr h) (by omega)
      rw [this, ← ENNReal.ofReal_mul ht0, ← ENNReal.ofReal_mul (by linarith), ← ENNReal.ofReal_add]
      · congr 1
        rw [List.length_cons, ← chance_unwanted k m _ rest.length hkm]
        field_simp
      · exact mul_nonneg ht0 (mul_nonneg (by positivity) (chance_nonneg _ _ _ _))
      · exact mul_nonneg (by linarith) (chance_nonneg _ _ _ _)

/-- C135: `select_k_randomly` gives each set of `k` of `n` different elements with the same probability, `1/C(n,k)`. -/
theorem C135_select_k [DecidableEq α] (s T : List α) (hs : s.Nodup) (hT : T.Nodup) (hsub : ∀ y ∈ T, y ∈ s) (h0 : T ≠ []) (N : Nat)
    (hN : 2 * (s.length - T.length) ≤ N) :
    prob N (fun r => ∃ out, selectK reals r s T.length = ok out ∧ out.Perm T) = ENNReal.ofReal (1 / (s.length.choose T.length : ℝ)) := by
  have hk : 0 < T.length := List.length_pos_iff.mpr h0
  have hle : T.length ≤ s.length := (List.subperm_of_subset hT hsub).length_le
  have htl : (s.take T.length).length = T.length := by simp [hle]
  have h := reservoir_prob T T.length hk hT rfl (s.drop T.length) T.length (s.take T.length) N htl (le_refl _) (by rw [List.take_append_drop]; exact hs)
    (by rw [List.take_append_drop]; exact hsub) (by simpa using hN)
  have hc : chance T.length T.length ((s.take T.length).countP fun y => decide (y ∉ T)) (s.drop T.length).length = 1 / (s.length.choose T.length : ℝ) := by
    unfold chance
    have : T.length + (s.drop T.length).length = s.length := by simp; omega
    rw [this]
    simp
  rw [hc] at h
  rw [← h]
  refine prob_congr _ _ _ fun r _ => ?_
  unfold Ends selectK
  simp only
  rw [if_neg (by omega), if_neg (by omega)]

-- three different elements, an order of them, a choice of two
example : ([1, 2, 3] : List Nat).Nodup ∧ ([3, 1, 2] : List Nat).Perm [1, 2, 3] ∧ ([3, 1] : List Nat).Nodup ∧ ∀ y ∈ ([3, 1] : List Nat), y ∈ [1, 2, 3] := by decide

/-! ## Fractions -/

/-- **C135**: for draws that are fractions, the arithmetic of C81 and C82 makes the same decisions as that of the reals. -/
theorem C135_fractions (d : Draw) (hd : 0 < d.den) (size k n : Nat) (hn : 0 < n) :
    exact.index d size = reals.index ((d.num : ℝ) / d.den) size ∧ exact.less d k n = reals.less ((d.num : ℝ) / d.den) k n := by
  have h1 : (0 : ℝ) < d.den := by exact_mod_cast hd
  have h2 : (0 : ℝ) < n := by exact_mod_cast hn
  constructor
  · show size * d.num / d.den = ⌊(size : ℝ) * ((d.num : ℝ) / d.den)⌋₊
    rw [← mul_div_assoc, ← Nat.cast_mul, Nat.floor_div_eq_div]
  · rw [Bool.eq_iff_iff, less_iff, div_lt_div_iff₀ h1 h2]
    show decide (d.num * n < k * d.den) = true ↔ _
    rw [decide_eq_true_iff]
    exact_mod_cast Iff.rfl

/-- Non-vacuity: 1/3 is not less than 1/3. -/
example : reals.less (((⟨1, 3⟩ : Draw).num : ℝ) / (⟨1, 3⟩ : Draw).den) 1 3 = false ∧ exact.less ⟨1, 4⟩ 1 3 = true := by
  rw [← (C135_fractions ⟨1, 3⟩ (by decide) 1 1 3 (by decide)).2]
  decide

/-! ## Concrete cases -/

example : prob 2 (fun r => randomCombination reals true r [1, 2, 3] 2 = ok (some [3, 1])) = ENNReal.ofReal (1 / ((3 : Nat).descFactorial 2 : ℝ)) :=
  C135_combination [1, 2, 3] [3, 1] (by decide) (by decide) (by decide) 2 (by decide)

example : prob 5 (fun r => randomPermutation reals true r [1, 2, 3] = ok [3, 1, 2]) = ENNReal.ofReal (1 / ((3 : Nat).factorial : ℝ)) :=
  C135_permutation [1, 2, 3] [3, 1, 2] (by decide) (by decide) 5 (by decide)

example : prob 3 (fun r => selectOne reals r [1, 2, 3] = ok [2]) = ENNReal.ofReal (1 / ((3 : Nat) : ℝ)) :=
  C135_select_1 [1, 2, 3] (by decide) 2 (by decide) 3 (by decide)

end Strtk.Random
