import Verif.Lines.Props
import Mathlib.MeasureTheory.Measure.Lebesgue.Basic

/-!
# strtk_random_line.cpp

Line numbers refer to strtk_random_line.cpp.  The random numbers are a sequence of reals; a `double` takes the place of each in the program, so that the
rounding of the numbers and of `1.0 / line_count_` is not modelled.  The number of lines is below 2^64.
-/

namespace Strtk.Programs
open Outcome Strtk.Lines MeasureTheory Set

/-- `line_count_` and the string referred to by `line_` (67-68). -/
structure Selector where
  count : Nat
  line : List UInt8

/-- `random_line_selector::operator()` (56-61); `rng k` is the random number drawn by call `k`, counting from 0. -/
noncomputable def Selector.take (rng : Nat → ℝ) (st : Selector) (s : List UInt8) : Selector :=
  ⟨st.count + 1, if rng (st.count - 1) < 1 / (st.count : ℝ) then s else st.line⟩

/-- `main` (81-88) with a file name, and the constructor (50-54): what is written; `none` is a file that cannot be opened. -/
noncomputable def randomLine (file : Option (List UInt8)) (rng : Nat → ℝ) : Outcome (List UInt8) := do
  let (_, st) ← onFile file ⟨1, []⟩ (forEachLine (Selector.take rng))
  ok (st.line ++ [10])

/-! ## Specification -/

/-- The sequence that begins with the given numbers. -/
noncomputable def drawn {N : Nat} (u : Fin N → ℝ) (k : Nat) : ℝ := if h : k < N then u ⟨k, h⟩ else 0

/-- All sequences of `N` random numbers from [0, 1): a set of volume 1, on which volume is the probability. -/
def Draws (N : Nat) : Set (Fin N → ℝ) := {u | ∀ i, 0 ≤ u i ∧ u i < 1}

/-! ## Theorems -/

/-- The draws by which line `j` is the last one taken. -/
def box (N j : Nat) : Set (Fin N → ℝ) :=
  Set.univ.pi fun i : Fin N => Set.Ico (if i.val ≤ j then 0 else 1 / ((i.val : ℝ) + 1)) (if i.val = j then 1 / ((j : ℝ) + 1) else 1)

theorem box_measurable (N j : Nat) : MeasurableSet (box N j) := MeasurableSet.univ_pi fun _ => measurableSet_Ico

theorem box_volume (N j : Nat) (h : j < N) : volume (box N j) = ENNReal.ofReal (1 / N) := by
  unfold box
  rw [Real.volume_pi_Ico]
  rw [Fin.prod_univ_eq_prod_range (fun i => ENNReal.ofReal ((if i = j then 1 / ((j : ℝ) + 1) else 1) - (if i ≤ j then 0 else 1 / ((i : ℝ) + 1)))) N]
  have key : ∀ n, j < n → ∏ i ∈ Finset.range n, ENNReal.ofReal ((if i = j then 1 / ((j : ℝ) + 1) else 1) - (if i ≤ j then 0 else 1 / ((i : ℝ) + 1))) =
      ENNReal.ofReal (1 / n) := by
    intro n hn
    induction n with
    | zero => omega
    | succ n ih =>
      rw [Finset.prod_range_succ]
      by_cases hj : j = n
      · subst hj
        rw [Finset.prod_eq_one]
        · simp
        · intro i hi
          have : i < j := Finset.mem_range.mp hi
          rw [if_neg (by omega), if_pos (by omega)]; simp
      · rw [ih (by omega), if_neg (fun e => hj e.symm), if_neg (by omega), ← ENNReal.ofReal_mul (by positivity)]
        congr 1
        have h1 : (n : ℝ) ≠ 0 := by have : 0 < n := by omega
                                    positivity
        have h2 : (n : ℝ) + 1 ≠ 0 := by positivity
        push_cast
        field_simp
        ring
  exact key N h

theorem box_disjoint (N : Nat) (i j : Fin N) (h : i ≠ j) : Disjoint (box N i.val) (box N j.val) := by
  have key : ∀ i j : Fin N, i.val < j.val → Disjoint (box N i.val) (box N j.val) := by
    intro i j hij
    rw [Set.disjoint_left]
    intro u hi hj
    have h1 := hi j (Set.mem_univ j)
    have h2 := hj j (Set.mem_univ j)
    simp only at h1
    rw [if_neg (by omega : ¬ j.val ≤ i.val)] at h1
    simp only [le_refl, if_true] at h2
    exact absurd h1.1 (not_le.mpr h2.2)
  rcases Nat.lt_trichotomy i.val j.val with hlt | heq | hgt
  · exact key i j hlt
  · exact absurd (Fin.ext heq) h
  · exact (key j i hgt).symm

theorem fold_miss (rng : Nat → ℝ) : ∀ (B : List (List UInt8)) (k : Nat) (l : List UInt8),
    (∀ i, k ≤ i → i < k + B.length → ¬ rng i < 1 / ((i : ℝ) + 1)) → (B.foldl (Selector.take rng) ⟨k + 1, l⟩).line = l := by
  intro B
  induction B with
  | nil => intro k l _; rfl
  | cons b B ih =>
    intro k l h
    rw [List.foldl_cons]
    have h0 := h k (by omega) (by simp)
    have e : Selector.take rng ⟨k + 1, l⟩ b = ⟨k + 1 + 1, l⟩ := by
      unfold Selector.take
      simp only [Nat.add_sub_cancel]
      rw [if_neg]
      push_cast
      exact h0
    rw [e]
    exact ih (k + 1) l fun i h1 h2 => h i (by omega) (by simp only [List.length_cons]; omega)

theorem fold_count (rng : Nat → ℝ) : ∀ (A : List (List UInt8)) (st : Selector), (A.foldl (Selector.take rng) st).count = st.count + A.length := by
  intro A
  induction A with
  | nil => intro st; rfl
  | cons a A ih => intro st; rw [List.foldl_cons, ih]; simp only [Selector.take, List.length_cons]; omega

theorem fold_hit (rng : Nat → ℝ) (A : List (List UInt8)) (x : List UInt8) (B : List (List UInt8)) (h1 : rng A.length < 1 / ((A.length : ℝ) + 1))
    (h2 : ∀ i, A.length < i → i < A.length + 1 + B.length → ¬ rng i < 1 / ((i : ℝ) + 1)) :
    ((A ++ x :: B).foldl (Selector.take rng) ⟨1, []⟩).line = x := by
  rw [List.foldl_append, List.foldl_cons]
  have hc := fold_count rng A ⟨1, []⟩
  generalize A.foldl (Selector.take rng) ⟨1, []⟩ = st at hc
  have e : Selector.take rng st x = ⟨A.length + 1 + 1, x⟩ := by
    unfold Selector.take
    rw [hc]
    simp only [Nat.add_sub_cancel_left]
    rw [if_pos]
    · congr 1; omega
    · push_cast
      rw [add_comm (1 : ℝ)]
      exact h1
  rw [e]
  exact fold_miss rng B (A.length + 1) x fun i a b => h2 i (by omega) (by omega)

theorem box_output (L : List (List UInt8)) (j : Fin L.length) (u : Fin L.length → ℝ) (hu : u ∈ box L.length j.val) :
    (L.foldl (Selector.take (drawn u)) ⟨1, []⟩).line = L[j.val] := by
  have hL : L = L.take j.val ++ L[j.val] :: L.drop (j.val + 1) := by simp
  have hlen : (L.take j.val).length = j.val := by simp
  have := fold_hit (drawn u) (L.take j.val) L[j.val] (L.drop (j.val + 1))
    (by
      rw [hlen]
      have := (hu j (Set.mem_univ j)).2
      simp only [if_true] at this
      unfold drawn
      rw [dif_pos j.isLt]
      exact this)
    (by
      intro i h1 h2
      rw [hlen] at h1 h2
      have hi : i < L.length := by simp only [List.length_drop] at h2; omega
      have := (hu ⟨i, hi⟩ (Set.mem_univ _)).1
      simp only at this
      rw [if_neg (by omega)] at this
      unfold drawn
      rw [dif_pos hi]
      exact not_lt.mpr this)
  rw [← hL] at this
  exact this

theorem draws_boxes (N : Nat) (hN : 0 < N) (u : Fin N → ℝ) : u ∈ Draws N ↔ ∃ j : Fin N, u ∈ box N j.val := by
  constructor
  · intro hu
    classical
    let S : Finset (Fin N) := Finset.univ.filter fun i => u i < 1 / ((i.val : ℝ) + 1)
    have hS : S.Nonempty := ⟨⟨0, hN⟩, by simp only [S, Finset.mem_filter, Finset.mem_univ, true_and]; simpa using (hu ⟨0, hN⟩).2⟩
    refine ⟨S.max' hS, fun i _ => ?_⟩
    have hm : u (S.max' hS) < 1 / (((S.max' hS).val : ℝ) + 1) := by
      have := S.max'_mem hS
      simpa only [S, Finset.mem_filter, Finset.mem_univ, true_and] using this
    constructor
    · split
      · exact (hu i).1
      · rename_i hlt
        by_contra hc
        have : i ∈ S := by simp only [S, Finset.mem_filter, Finset.mem_univ, true_and]; exact not_le.mp hc
        exact hlt (S.le_max' i this)
    · split
      · rename_i he
        have : i = S.max' hS := Fin.ext he
        rw [this]; exact hm
      · exact (hu i).2
  · rintro ⟨j, hj⟩ i
    have h := hj i (Set.mem_univ i)
    constructor
    · refine le_trans ?_ h.1
      split
      · exact le_refl _
      · positivity
    · refine lt_of_lt_of_le h.2 ?_
      split
      · rw [div_le_one (by positivity)]; simp
      · exact le_refl _

/-- The draws have volume 1. -/
theorem draws_volume (N : Nat) : volume (Draws N) = 1 := by
  have : Draws N = Set.univ.pi fun _ : Fin N => Set.Ico (0 : ℝ) 1 := by
    ext u; simp [Draws, Set.mem_pi]
  rw [this, Real.volume_pi_Ico]; simp

/-- C134: for a file of `N` lines, the draws for which line `j` (or one equal to it) is written contain a set of probability `1/N`, for different `j` disjoint. -/
theorem C134_each_line (text : List UInt8) :
    ∃ D : Fin (linesOf text).length → Set (Fin (linesOf text).length → ℝ),
      (∀ j, D j ⊆ Draws _ ∧ MeasurableSet (D j) ∧ volume (D j) = ENNReal.ofReal (1 / ((linesOf text).length : ℝ))) ∧ (∀ i j, i ≠ j → Disjoint (D i) (D j)) ∧
      ∀ j, ∀ u ∈ D j, randomLine (some text) (drawn u) = ok ((linesOf text)[j.val] ++ [10]) := by
  refine ⟨fun j => box _ j.val, fun j => ⟨fun u hu => ?_, box_measurable _ _, box_volume _ _ j.isLt⟩, fun i j h => box_disjoint _ i j h, fun j u hu => ?_⟩
  · exact (draws_boxes _ (by have := j.isLt; omega) u).mpr ⟨j, hu⟩
  · unfold randomLine
    rw [(C68_file _ _).2, ok_bind]
    simp only
    rw [box_output _ j u hu]

/-- C134: the probability that the text `w` is written is the number of lines equal to `w` divided by the number of lines. -/
theorem C134_uniform (text : List UInt8) (h : linesOf text ≠ []) (w : List UInt8) :
    volume {u : Fin (linesOf text).length → ℝ | u ∈ Draws _ ∧ randomLine (some text) (drawn u) = ok (w ++ [10])} =
      ENNReal.ofReal (((linesOf text).count w : ℝ) / (linesOf text).length) := by
  generalize hL : linesOf text = L at h
  have hN : 0 < L.length := List.length_pos_iff.mpr h
  have hout : ∀ u : Fin L.length → ℝ, randomLine (some text) (drawn u) = ok ((L.foldl (Selector.take (drawn u)) ⟨1, []⟩).line ++ [10]) := by
    intro u
    unfold randomLine
    rw [(C68_file _ _).2, ok_bind, hL]
  have hset : {u : Fin L.length → ℝ | u ∈ Draws _ ∧ randomLine (some text) (drawn u) = ok (w ++ [10])} =
      ⋃ j ∈ Finset.univ.filter (fun j : Fin L.length => L[j.val] = w), box L.length j.val := by
    ext u
    simp only [Set.mem_setOf_eq, Set.mem_iUnion, Finset.mem_filter, Finset.mem_univ, true_and, exists_prop]
    rw [hout u, draws_boxes _ hN]
    constructor
    · rintro ⟨⟨j, hj⟩, he⟩
      rw [box_output L j u hj] at he
      have : L[j.val] ++ [10] = w ++ [(10 : UInt8)] := by injection he
      exact ⟨j, List.append_cancel_right this, hj⟩
    · rintro ⟨j, he, hj⟩
      rw [box_output L j u hj, he]
      exact ⟨⟨j, hj⟩, rfl⟩
  rw [hset, measure_biUnion_finset (fun i _ j _ hij => box_disjoint _ i j hij) fun j _ => box_measurable _ _,
    Finset.sum_congr rfl fun j _ => box_volume _ _ j.isLt, Finset.sum_const, nsmul_eq_mul]
  have hcard : (Finset.univ.filter (fun j : Fin L.length => L[j.val] = w)).card = L.count w := by
    have := Fin.card_filter_univ_eq_vector_get_eq_count w (⟨L, rfl⟩ : List.Vector (List UInt8) L.length)
    have e : List.Vector.toList (⟨L, rfl⟩ : List.Vector (List UInt8) L.length) = L := rfl
    rw [e] at this
    have hc : ∀ (b1 b2 : BEq (List UInt8)) (_ : @LawfulBEq _ b1) (_ : @LawfulBEq _ b2), @List.count _ b1 w L = @List.count _ b2 w L := by
      intro b1 b2 h1 h2
      unfold List.count
      congr 1
      funext x
      rw [Bool.eq_iff_iff, @beq_iff_eq _ b1, @beq_iff_eq _ b2]
    rw [hc _ instBEqOfDecidableEq inferInstance inferInstance, ← this]
    rfl
  rw [hcard, ← ENNReal.ofReal_natCast, ← ENNReal.ofReal_mul (by positivity)]
  congr 1
  ring

/-- C134: without lines, or without a file, an empty line is written. -/
theorem C134_nothing (rng : Nat → ℝ) : randomLine none rng = ok [10] ∧ randomLine (some []) rng = ok [10] := by
  constructor
  · rfl
  · unfold randomLine
    rw [(C68_file _ _).2, ok_bind]
    rfl

-- a file of three lines
example : linesOf [97, 10, 98, 10, 97] = [[97], [98], [97]] := by decide
example : volume (Draws 3) = 1 := draws_volume 3

end Strtk.Programs
