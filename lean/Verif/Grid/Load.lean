import Verif.Grid.Remove
import Mathlib.Data.List.Forall2

/-! # Loading a grid -/

namespace Strtk.Grid
open Outcome Split

variable {α : Type}

/-- The lines of a text: what lies between row delimiters, without the empty pieces. -/
def lines (dr : α → Bool) (buf : List α) : List (List α) := (buf.splitOnP dr).filter fun w => !w.isEmpty

theorem splitOnP_cons' (d : α → Bool) (a : α) (s : List α) : (a :: s).splitOnP d = if d a then [] :: s.splitOnP d else (s.splitOnP d).modifyHead (a :: ·) := by
  simp [List.splitOnP_cons_eq_if_modifyHead]

theorem collapse_heads (d : α → Bool) (s : List α) : ∃ h l1 l2, (collapseRuns d s).splitOnP d = h :: l1 ∧ s.splitOnP d = h :: l2 ∧
    (l1.filter fun w => !w.isEmpty) = l2.filter fun w => !w.isEmpty := by
  fun_induction collapseRuns d s with
  | case1 => exact ⟨[], [], [], by simp, by simp, rfl⟩
  | case2 a =>
    cases hd : d a
    · exact ⟨[a], [], [], by simp [splitOnP_cons', hd], by simp [splitOnP_cons', hd], rfl⟩
    · exact ⟨[], [[]], [[]], by simp [splitOnP_cons', hd], by simp [splitOnP_cons', hd], rfl⟩
  | case3 a b t hab ih =>
    obtain ⟨h, l1, l2, h1, h2, h3⟩ := ih
    simp only [Bool.and_eq_true] at hab
    have hh : h = [] := by
      rw [splitOnP_cons', if_pos hab.2] at h2
      exact (List.cons.inj h2).1.symm
    subst hh
    exact ⟨[], l1, [] :: l2, h1, by rw [splitOnP_cons', if_pos hab.1, h2], by simpa using h3⟩
  | case4 a b t _ ih =>
    obtain ⟨h, l1, l2, h1, h2, h3⟩ := ih
    cases hd : d a
    · exact ⟨a :: h, l1, l2, by rw [splitOnP_cons', hd, h1]; rfl, by rw [splitOnP_cons', hd, h2]; rfl, h3⟩
    · refine ⟨[], h :: l1, h :: l2, by rw [splitOnP_cons', hd, h1]; rfl, by rw [splitOnP_cons', hd, h2]; rfl, ?_⟩
      simp only [List.filter_cons, h3]

/-- Collapsing runs of row delimiters does not change the lines. -/
theorem lines_collapse (d : α → Bool) (s : List α) : ((collapseRuns d s).splitOnP d).filter (fun w => !w.isEmpty) = lines d s := by
  obtain ⟨h, l1, l2, h1, h2, h3⟩ := collapse_heads d s
  unfold lines
  rw [h1, h2]
  simp only [List.filter_cons, h3]

/-- The meaning of the column split option for one line. -/
def RowTokens (opt : Opt) (dc : α → Bool) (w : List α) (texts : List (List α)) : Prop :=
  ∃ toks, Splits (opt.compress || (!opt.first && opt.all)) (if opt.first then .firstOnly else if opt.all then .all else .none) dc 0 w toks ∧
    texts = toks.map Prod.snd

theorem textOf_textOf (buf : List α) (r t : Nat × Nat) (h : t.2 ≤ r.2 - r.1) :
    textOf buf (r.1 + t.1, r.1 + t.2) = textOf (textOf buf r) t := by
  unfold textOf
  simp only
  rw [List.drop_take, List.take_take, List.drop_drop]
  congr 1
  omega

theorem Splits.count_le {perRun : Bool} {k : Keep} {d : α → Bool} {off : Nat} {s : List α} {toks : List (Nat × List α)} (h : Splits perRun k d off s toks) :
    toks.length ≤ s.length + 1 ∧ 0 < toks.length := by
  induction h with
  | last off w hw => simp
  | more off w block rest toks hw hne hblock hmax hrest ih =>
    have := List.length_pos_iff.mpr hne
    simp only [List.length_cons, List.length_append]
    omega

theorem processRow_spec (opt : Opt) (dc : α → Bool) (buf : List α) (rows : List (List (Nat × Nat))) (r : Nat × Nat) (h1 : r.2 ≤ buf.length)
    (hw : textOf buf r ≠ []) (hsm : rows.flatten.length + (textOf buf r).length + 1 < 2 ^ 32) :
    ∃ row, processRow opt dc buf ⟨rows.flatten, idx 0 rows⟩ r = ok ⟨(rows ++ [row]).flatten, idx 0 (rows ++ [row])⟩ ∧ row ≠ [] ∧
      row.length ≤ (textOf buf r).length + 1 ∧ (∀ t ∈ row, t.1 ≤ t.2 ∧ t.2 ≤ buf.length) ∧ RowTokens opt dc (textOf buf r) (row.map (textOf buf)) := by
  obtain ⟨toks, a1, a2, a3⟩ := C04_split_modes opt dc (textOf buf r) hw
  obtain ⟨c1, c2⟩ := Splits.count_le a1
  obtain ⟨q, b1, b2, b3⟩ := C03_split_in_bounds opt dc (textOf buf r)
  rw [a2] at b1
  have hq : q = toks.map pairOf := by injection b1 with b1; exact (Prod.mk.inj b1).1.symm
  have hlen : (textOf buf r).length = r.2 - r.1 := by unfold textOf; simp; omega
  have hpos : 0 < (textOf buf r).length := List.length_pos_iff.mpr hw
  refine ⟨(toks.map pairOf).map fun t => (r.1 + t.1, r.1 + t.2), ?_, ?_, by simpa using c1, ?_, toks, a1, ?_⟩
  · unfold processRow
    rw [if_neg (by omega), a2, ok_bind]
    simp only
    have e1 : u32 rows.flatten.length = rows.flatten.length := by unfold u32; omega
    have e2 : u32 (rows.flatten.length + toks.length + (2 ^ 64 - 1)) = lastIx rows.flatten.length toks.length := by unfold u32 lastIx; omega
    rw [e1, e2, idx_append]
    simp [idx]
  · intro h0
    have := congrArg List.length h0
    simp only [List.length_map, List.length_nil] at this
    omega
  · intro t ht
    simp only [List.mem_map] at ht
    obtain ⟨u, ⟨v, hv, rfl⟩, rfl⟩ := ht
    have := b2 (pairOf v) (by rw [hq]; exact List.mem_map_of_mem hv)
    simp only
    omega
  · rw [← a3, List.map_map]
    apply List.map_congr_left
    intro t ht
    have := b2 t (by rw [hq]; exact ht)
    exact textOf_textOf buf r t (by omega)

theorem processRows_spec (opt : Opt) (dc : α → Bool) (buf : List α) : ∀ (rs : List (Nat × Nat)) (rows : List (List (Nat × Nat))),
    (∀ r ∈ rs, r.2 ≤ buf.length) → rows.flatten.length + ((rs.map (textOf buf)).map fun w => w.length + 1).sum < 2 ^ 32 →
    ∃ new, processRows opt dc buf ⟨rows.flatten, idx 0 rows⟩ rs = ok ⟨(rows ++ new).flatten, idx 0 (rows ++ new)⟩ ∧ (∀ r ∈ new, r ≠ []) ∧
      (rows ++ new).flatten.length < 2 ^ 32 ∧ (∀ r ∈ new, ∀ t ∈ r, t.1 ≤ t.2 ∧ t.2 ≤ buf.length) ∧
      List.Forall₂ (RowTokens opt dc) ((rs.map (textOf buf)).filter fun w => !w.isEmpty) (new.map fun row => row.map (textOf buf)) := by
  intro rs
  induction rs with
  | nil => intro rows _ h; exact ⟨[], by simp [processRows], by simp, by simpa using h, by simp, by simp⟩
  | cons r rs ih =>
    intro rows h1 h2
    simp only [List.map_cons, List.sum_cons] at h2
    by_cases hw : textOf buf r = []
    · obtain ⟨new, n1, n2, n3, n4, n5⟩ := ih rows (fun x hx => h1 x (by simp [hx])) (by omega)
      refine ⟨new, ?_, n2, n3, n4, by simpa [hw] using n5⟩
      have hlen : (textOf buf r).length = r.2 - r.1 := by have := h1 r (by simp); unfold textOf; simp; omega
      rw [hw] at hlen
      simp only [List.length_nil] at hlen
      simp only [processRows, processRow]
      rw [if_pos hlen.symm, ok_bind, n1]
    · obtain ⟨row, p1, p2, p3, p4, p5⟩ := processRow_spec opt dc buf rows r (h1 r (by simp)) hw (by omega)
      obtain ⟨new, n1, n2, n3, n4, n5⟩ := ih (rows ++ [row]) (fun x hx => h1 x (by simp [hx])) (by
        rw [List.flatten_append, List.length_append]
        simp only [List.flatten_cons, List.flatten_nil, List.append_nil]
        omega)
      refine ⟨row :: new, ?_, ?_, ?_, ?_, ?_⟩
      · simp only [processRows]
        rw [p1, ok_bind, n1]
        simp
      · intro x hx
        rcases List.mem_cons.mp hx with rfl | hx
        · exact p2
        · exact n2 x hx
      · rw [List.append_assoc] at n3; exact n3
      · intro x hx
        rcases List.mem_cons.mp hx with rfl | hx
        · exact p4
        · exact n4 x hx
      · have he : (textOf buf r).isEmpty = false := by cases h : textOf buf r with | nil => exact absurd h hw | cons _ _ => rfl
        simp only [List.map_cons, List.filter_cons, he]
        exact List.Forall₂.cons p5 n5

theorem sum_splitOnP (d : α → Bool) (s : List α) : ((s.splitOnP d).map fun w => w.length + 1).sum = s.length + 1 := by
  induction s with
  | nil => simp
  | cons a s ih =>
    rw [splitOnP_cons']
    split
    · simp only [List.map_cons, List.sum_cons, List.length_nil, ih, List.length_cons]; omega
    · cases h : s.splitOnP d with
      | nil => exact absurd h (by simp)
      | cons w ws =>
        rw [h] at ih
        simp only [List.map_cons, List.sum_cons, List.modifyHead_cons, List.length_cons] at ih ⊢
        omega

theorem collapse_length (d : α → Bool) (s : List α) : (collapseRuns d s).length ≤ s.length := by
  fun_induction collapseRuns d s with
  | case1 => simp
  | case2 => simp
  | case3 a b t _ ih => simp only [List.length_cons] at ih ⊢; omega
  | case4 a b t _ ih => simp only [List.length_cons] at ih ⊢; omega

theorem load_spec (opt : Opt) (dr dc : α → Bool) (buf : List α) (hsm : buf.length + 1 < 2 ^ 32) :
    ∃ g rows, load opt dr dc buf = ok g ∧ Rep g rows ∧ MinMax g rows ∧ (∀ r ∈ rows, ∀ t ∈ r, t.1 ≤ t.2 ∧ t.2 ≤ buf.length) ∧
      List.Forall₂ (RowTokens opt dc) (lines dr buf) (rows.map fun row => row.map (textOf buf)) := by
  by_cases hb : buf = []
  · subst hb
    obtain ⟨u1, u2, _⟩ := updateMinMax_spec ([] : List (List (Nat × Nat))) ⟨[], []⟩ rfl rfl (by simp) (by simp)
    exact ⟨_, [], by rfl, u1, u2, by simp, by simp [lines]⟩
  · obtain ⟨rs, r1, r2⟩ := C02_split_compress dr buf hb
    obtain ⟨q, q1, q2, _⟩ := C03_split_in_bounds { compress := true } dr buf
    have hq : q = rs := by rw [r1] at q1; injection q1 with q1; exact (Prod.mk.inj q1).1.symm
    subst hq
    have hlen := collapse_length dr buf
    obtain ⟨new, n1, n2, n3, n4, n5⟩ := processRows_spec opt dc buf q [] (fun r hr => (q2 r hr).2) (by
      rw [r2, sum_splitOnP]; simp; omega)
    simp only [List.nil_append] at n1 n3
    obtain ⟨u1, u2, _⟩ := updateMinMax_spec new ⟨new.flatten, idx 0 new⟩ rfl rfl n2 n3
    refine ⟨_, new, ?_, u1, u2, n4, ?_⟩
    · unfold load
      rw [r1, ok_bind]
      simp only
      have : processRows opt dc buf ⟨[], []⟩ q = ok ⟨new.flatten, idx 0 new⟩ := n1
      rw [this, ok_bind]
    · rw [r2, lines_collapse] at n5
      exact n5

end Strtk.Grid
