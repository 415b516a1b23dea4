import Verif.Refused.GridJoin
import Verif.Grid.More

/-!
# Joining a column of a token grid over selected rows (strtk.hpp 7205-7256): what is joined, and what happens when memory is refused
-/

namespace Strtk.Refused
open Outcome Mem Strtk.Codec Strtk.Grid

/-! ## Model -/

/-- The loop of `join_column` with a predicate (7221-7244); `last` is `pre_end_index`. -/
def joinColumnIfLoopM (M : Machine) (st : Store (Nat × Nat)) (buf : List Byte) (p : Nat → List (List Byte) → Bool) (col last : Nat) (delim : List Byte) :
    Nat → Nat → Bool → Prog Unit
  | 0, _, _ => pure ()
  | n + 1, i, appended => do
    let r ← value (deref st.index i)
    if col < tokenCount r then do
      let row ← value (rowOf st.tokens r)
      let t ← value (deref st.tokens (r.1 + col))
      (if !delim.isEmpty && appended && last != i then append M delim else pure ())
      if t.1 ≠ t.2 ∧ p i (row.map (tokenText buf)) = true then do
        append M (tokenText buf t)
        joinColumnIfLoopM M st buf p col last delim n (i + 1) true
      else joinColumnIfLoopM M st buf p col last delim n (i + 1) false
    else joinColumnIfLoopM M st buf p col last delim n (i + 1) appended

/-- `join_column(col,row_range,predicate,delimiter,result)` (7206-7247). -/
def joinColumnIfM (M : Machine) (g : Grid (Nat × Nat)) (buf : List Byte) (p : Nat → List (List Byte) → Bool) (col a b : Nat) (delim : List Byte) : Prog Bool :=
  if col > g.maxCol then pure false
  else if g.rangeInvalid a b then pure false
  else do
    joinColumnIfLoopM M g.store buf p col (sub32 b 1) delim (b - a) a false
    pure true

/-! ## Specification -/

/-- What joining a column over selected rows puts behind the text, piece by piece; the rows begin with number `i`.  A token is put out when it is not empty and the
predicate says yes to its row; a delimiter in front of each token whose predecessor in the column was put out, but never in the last row of the range. -/
def columnPieces {α : Type} (delim : List α) (p : Nat → List (List α) → Bool) (col : Nat) : Bool → Nat → List (List (List α)) → List (List α)
  | _, _, [] => []
  | prev, i, row :: rest =>
    match row[col]? with
    | none => columnPieces delim p col prev (i + 1) rest
    | some t =>
      (if prev = true ∧ delim ≠ [] ∧ rest ≠ [] then [delim] else []) ++ ((if t ≠ [] ∧ p i row = true then [t] else []) ++
        columnPieces delim p col (decide (t ≠ [] ∧ p i row = true)) (i + 1) rest)

/-! ## Rules -/

theorem rows_small {T : Type} {g : Grid T} {rows : List (List T)} (h : Rep g rows) : rows.length < 2 ^ 32 := by
  have := h.small
  have h3 : rows.length ≤ rows.flatten.length := by
    rw [List.length_flatten]
    have : ∀ (l : List (List T)), (∀ r ∈ l, r ≠ []) → l.length ≤ (l.map List.length).sum := by
      intro l
      induction l with
      | nil => intro _; simp
      | cons r l ih =>
        intro hne
        have h1 := ih (fun x hx => hne x (by simp [hx]))
        have h2 : 0 < r.length := List.length_pos_iff.mpr (hne r (by simp))
        simp only [List.map_cons, List.sum_cons, List.length_cons]
        omega
    exact this rows h.nonempty
  omega

theorem take_rest {T : Type} (rows : List (List T)) (i n b : Nat) (hi : i + (n + 1) = b) (hb : b ≤ rows.length) : (rows.drop (i + 1)).take n ≠ [] ↔ (b - 1 != i) = true := by
  rw [← List.length_pos_iff, List.length_take, List.length_drop]
  simp only [bne_iff_ne, ne_eq]
  omega

theorem joinColumnIf_pieces {α : Type} {g : Grid (List α)} {rows : List (List (List α))} (h : Rep g rows) (p : Nat → List (List α) → Bool) (col b : Nat) (delim : List α)
    (hb : b ≤ rows.length) : ∀ (n i : Nat) (ap : Bool) (res : List α), i + n = b →
    joinColumnIfLoop g.store p col (b - 1) delim n i ap res = ok (res ++ (columnPieces delim p col ap i ((rows.drop i).take n)).flatten) := by
  intro n
  induction n with
  | zero => intro i ap res _; simp [joinColumnIfLoop, columnPieces]
  | succ n ih =>
    intro i ap res hi
    obtain ⟨r, h1, _, _, h3, h4, h5, _⟩ := h.access i (by omega)
    have hd : (rows.drop i).take (n + 1) = rows[i] :: (rows.drop (i + 1)).take n := by
      rw [List.drop_eq_getElem_cons (by omega), List.take_succ_cons]
    have hrest := take_rest rows i n b hi hb
    simp only [hd, columnPieces, joinColumnIfLoop, h1, ok_bind, h3, hrest]
    by_cases hc : col < rows[i].length
    · simp only [if_pos hc, h5, h4 col hc, ok_bind, List.getElem?_eq_getElem hc]
      have hdl : (if (!delim.isEmpty && ap && b - 1 != i) = true then res ++ delim else res) =
          res ++ (if ap = true ∧ delim ≠ [] ∧ (b - 1 != i) = true then [delim] else []).flatten := by
        cases ap <;> cases delim <;> cases (b - 1 != i) <;> simp
      rw [hdl]
      by_cases hk : rows[i][col] ≠ [] ∧ p i rows[i] = true
      · simp only [if_pos hk, decide_eq_true hk]
        rw [ih _ _ _ (by omega)]
        simp
      · simp only [if_neg hk, decide_eq_false hk]
        rw [ih _ _ _ (by omega)]
        simp
    · simp only [if_neg hc, List.getElem?_eq_none (Nat.le_of_not_lt hc)]
      exact ih _ _ _ (by omega)

theorem joinColumnIfLoopM_pieces (M : Machine) (hM : M.Sound) {g : Grid (Nat × Nat)} {rows : List (List (Nat × Nat))} (h : Rep g rows) (buf : List Byte)
    (hv : ∀ t ∈ rows.flatten, t.1 ≤ t.2 ∧ t.2 ≤ buf.length) (p : Nat → List (List Byte) → Bool) (col b : Nat) (delim : List Byte) (hb : b ≤ rows.length) :
    ∀ (n i : Nat) (ap : Bool) (st : State), i + n = b →
    WholePieces M st (joinColumnIfLoopM M g.store buf p col (b - 1) delim n i ap st) (columnPieces delim p col ap i (((rows.drop i).take n).map (List.map (tokenText buf)))) := by
  intro n
  induction n with
  | zero => intro i ap st _; simpa [joinColumnIfLoopM, columnPieces] using pieces_nil M st
  | succ n ih =>
    intro i ap st hi
    obtain ⟨r, h1, _, _, h3, h4, h5, _⟩ := h.access i (by omega)
    have hval : ∀ {β γ : Type} (x : Outcome β) (v : β) (f : β → Prog γ) (st : State), x = ok v → (value x >>= f) st = f v st := by
      intro β γ x v f st hx
      subst hx
      rfl
    have hd : (rows.drop i).take (n + 1) = rows[i] :: (rows.drop (i + 1)).take n := by
      rw [List.drop_eq_getElem_cons (by omega), List.take_succ_cons]
    have hrest : ((rows.drop (i + 1)).take n).map (List.map (tokenText buf)) ≠ [] ↔ (b - 1 != i) = true := by
      rw [← take_rest rows i n b hi hb]; simp
    rw [hd, List.map_cons, joinColumnIfLoopM, hval _ _ _ _ h1, h3]
    simp only [columnPieces, hrest, List.getElem?_map]
    by_cases hc : col < rows[i].length
    · rw [if_pos hc, hval _ _ _ _ h5, hval _ _ _ _ (h4 col hc), List.getElem?_eq_getElem hc]
      simp only [Option.map_some]
      have hm := hv rows[i][col] (List.mem_flatten.mpr ⟨rows[i], by simp, List.getElem_mem hc⟩)
      have hne := tokenText_ne buf rows[i][col] hm.1 hm.2
      have hcd : (if (ap = true ∧ delim ≠ [] ∧ (b - 1 != i) = true) then [delim] else []) = if (!delim.isEmpty && ap && b - 1 != i) = true then [delim] else [] := by
        cases ap <;> cases delim <;> cases (b - 1 != i) <;> simp
      rw [hcd]
      refine WholePieces.maybe hM ?_
      intro a
      simp only [hne]
      by_cases hk : rows[i][col].1 ≠ rows[i][col].2 ∧ p i (rows[i].map (tokenText buf)) = true
      · simp only [if_pos hk, decide_eq_true hk, List.singleton_append]
        exact WholePieces.cons (append_piece M hM _ a) (fun c _ => ih _ true c (by omega))
      · simp only [if_neg hk, decide_eq_false hk, List.nil_append]
        exact ih _ false a (by omega)
    · rw [if_neg hc, List.getElem?_eq_none (by omega)]
      simp only [Option.map_none]
      exact ih _ _ _ (by omega)

/-! ## C65, C189 -/

/-- **C65**: `join_column` with a predicate, for all predicates and columns: the text that results.  In the last row of the range the delimiter is missing. -/
theorem C65_join_column_if {α : Type} (g : Grid (List α)) (rows : List (List (List α))) (h : Rep g rows) (p : Nat → List (List α) → Bool) (col a b : Nat) (hc : col ≤ g.maxCol)
    (hv : a ≤ b ∧ b ≤ rows.length) (delim res : List α) :
    g.joinColumnIf p col a b delim res = ok (true, res ++ (columnPieces delim p col false a (Grid.between a b rows)).flatten) := by
  unfold Grid.joinColumnIf
  rw [if_neg (by omega), if_neg (fun hh => (h.rangeInvalid a b).mp hh hv)]
  rcases Nat.eq_zero_or_pos b with hz | hz
  · have : a = 0 := by omega
    subst hz this
    simp [joinColumnIfLoop, Grid.between, columnPieces]
  · have hsm := rows_small h
    have hs : sub32 b 1 = b - 1 := by unfold sub32; omega
    rw [hs, joinColumnIf_pieces h p col b delim hv.2 (b - a) a false res (by omega), ok_bind]
    rfl

/-- **C189**: `join_column` with a predicate: all the pieces, or, after a refusal, the first of them, each of them whole. -/
theorem C189_column_if (M : Machine) (hM : M.Sound) (g : Grid (Nat × Nat)) (rows : List (List (Nat × Nat))) (h : Rep g rows) (buf : List Byte) (ho : InOrder buf rows.flatten)
    (p : Nat → List (List Byte) → Bool) (col a b : Nat) (hc : col ≤ g.maxCol) (hv : a ≤ b ∧ b ≤ rows.length) (delim : List Byte) (st : State) :
    Joins M st (joinColumnIfM M g buf p col a b delim st) (columnPieces delim p col false a ((Grid.between a b rows).map (List.map (tokenText buf)))) := by
  unfold Joins joinColumnIfM
  rw [if_neg (by omega), if_neg (fun hh => (h.rangeInvalid a b).mp hh hv)]
  have main : WholePieces M st (joinColumnIfLoopM M g.store buf p col (sub32 b 1) delim (b - a) a false st)
      (columnPieces delim p col false a ((Grid.between a b rows).map (List.map (tokenText buf)))) := by
    rcases Nat.eq_zero_or_pos b with hz | hz
    · have : a = 0 := by omega
      subst hz this
      simpa [joinColumnIfLoopM, Grid.between, columnPieces] using pieces_nil M st
    · have hsm := rows_small h
      have hs : sub32 b 1 = b - 1 := by unfold sub32; omega
      rw [hs]
      exact joinColumnIfLoopM_pieces M hM h buf ho.1 p col b delim hv.2 (b - a) a false st (by omega)
  exact Ends.bind main (fun c hc => by obtain ⟨k, hk, hc⟩ := hc; exact ⟨k, Nat.le_of_lt hk, hc⟩) (fun _ c hc => Ends.pure true ⟨rfl, hc⟩)

/-- **C189**: with a predicate, too, a column or a range that is not there leaves the string as it is. -/
theorem C189_none_if (M : Machine) (g : Grid (Nat × Nat)) (rows : List (List (Nat × Nat))) (h : Rep g rows) (buf : List Byte) (p : Nat → List (List Byte) → Bool) (col a b : Nat)
    (delim : List Byte) (st : State) (hn : g.maxCol < col ∨ ¬ (a ≤ b ∧ b ≤ rows.length)) : joinColumnIfM M g buf p col a b delim st = ok (some false, st) := by
  unfold joinColumnIfM
  split
  · rfl
  · rw [if_pos ((h.rangeInvalid a b).mpr (hn.resolve_left (by omega)))]; rfl

/-! ## Concrete cases -/

example : Grid.sampleText.joinColumnIf (fun _ _ => true) 0 0 2 [';'] ['x'] = ok (true, "xac".toList) :=
  C65_join_column_if Grid.sampleText [[['a'], [], ['b']], [['c'], ['d'], ['e', 'f']]] ⟨rfl, by decide, by decide, by decide, by decide⟩ _ 0 0 2 (by decide) (by decide) [';'] ['x']

/-- Three rows: the second delimiter is missing. -/
example : columnPieces [';'] (fun _ _ => true) 0 false 0 [[['a']], [['b']], [['c']]] = [['a'], [';'], ['b'], ['c']] := by decide

example := C189_column_if (without 0) (fun _ n => Nat.le_refl n) Grid.sample _ sample_rep sampleBuf sample_inOrder (fun i _ => i == 1) 1 0 2 (by decide) (by decide) [59] ⟨[1, 2], 20, 0⟩
example : joinColumnIfM (without 1) Grid.sample sampleBuf (fun _ _ => true) 1 0 2 [59] ⟨[7], 1, 0⟩ = ok (none, ⟨[7, 98], 2, 2⟩) := by decide
example := C189_none_if (without 0) Grid.sample _ sample_rep sampleBuf (fun _ _ => true) 9 0 2 [59] ⟨[1, 2], 20, 0⟩ (Or.inl (by decide))

end Strtk.Refused
