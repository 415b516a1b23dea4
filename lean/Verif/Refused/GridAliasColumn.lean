import Verif.Refused.GridAlias

/-!
# Joining a column of a token grid into the string that is the delimiter, or into the string whose text was loaded (strtk.hpp 7160-7203)
-/

namespace Strtk.Refused
open Outcome Mem Strtk.Codec Strtk.Grid

/-! ## Model -/

/-- The loop of `join_column` (7172-7193) when `delimiter` and `result` are one string. -/
def joinColumnLoopSelf {α : Type} (st : Store (List α)) (col : Nat) : Nat → Nat → Bool → List α → Outcome (List α)
  | 0, _, _, result => ok result
  | n + 1, i, appended, result => do
    let r ← deref st.index i
    if col < tokenCount r then do
      let t ← deref st.tokens (r.1 + col)
      let result := if !result.isEmpty && appended then result ++ result else result
      if t ≠ [] then joinColumnLoopSelf st col n (i + 1) true (result ++ t) else joinColumnLoopSelf st col n (i + 1) false result
    else joinColumnLoopSelf st col n (i + 1) appended result

/-- `join_column(col,row_range,s,s)` (7160-7196). -/
def joinColumnSelf {α : Type} (g : Grid (List α)) (col a b : Nat) (result : List α) : Outcome (Bool × List α) :=
  if col > g.maxCol then ok (false, result)
  else if g.rangeInvalid a b then ok (false, result)
  else do
    let result ← joinColumnLoopSelf g.store col (b - a) a false result
    ok (true, result)

/-- The loop of `join_column` (7172-7193) when the tokens lie in `result`. -/
def joinColumnLoopOwn (grow : Nat → Nat → Nat) (st : Store (Nat × Nat)) (col : Nat) (delim : List Byte) : Nat → Nat → Bool → Own → Outcome Own
  | 0, _, _, s => ok s
  | n + 1, i, appended, s => do
    let r ← deref st.index i
    if col < tokenCount r then do
      let t ← deref st.tokens (r.1 + col)
      let s := if !delim.isEmpty && appended then s.append grow delim else s
      if t.1 ≠ t.2 then
        if s.live then joinColumnLoopOwn grow st col delim n (i + 1) true (s.append grow (tokenText s.text t)) else ub
      else joinColumnLoopOwn grow st col delim n (i + 1) false s
    else joinColumnLoopOwn grow st col delim n (i + 1) appended s

/-- `join_column(col,row_range,delimiter,s)` (7160-7196) of a grid that was made from the string `s`: nothing is reserved. -/
def joinColumnOwn (grow : Nat → Nat → Nat) (g : Grid (Nat × Nat)) (col a b : Nat) (delim : List Byte) (s : Own) : Outcome (Bool × Own) :=
  if col > g.maxCol then ok (false, s)
  else if g.rangeInvalid a b then ok (false, s)
  else do
    let s ← joinColumnLoopOwn grow g.store col delim (b - a) a false s
    ok (true, s)

/-! ## The loops go over the tokens of the column -/

theorem joinColumnLoopSelf_eq {α : Type} {g : Grid (List α)} {rows : List (List (List α))} (h : Rep g rows) (col : Nat) : ∀ (n i : Nat) (b : Bool) (res : List α),
    i + n ≤ rows.length →
    joinColumnLoopSelf g.store col n i b res = ok (joinTokensSelf (fun _ => true) (((rows.drop i).take n).filterMap fun r => r[col]?) b res) := by
  intro n
  induction n with
  | zero => intro i b res _; simp [joinColumnLoopSelf, joinTokensSelf]
  | succ n ih =>
    intro i b res hi
    obtain ⟨r, h1, _, _, h3, h4, _⟩ := h.access i (by omega)
    have hd : (rows.drop i).take (n + 1) = rows[i] :: (rows.drop (i + 1)).take n := by
      rw [List.drop_eq_getElem_cons (by omega), List.take_succ_cons]
    rw [hd, List.filterMap_cons, joinColumnLoopSelf, h1, ok_bind, h3]
    by_cases hc : col < rows[i].length
    · rw [if_pos hc, h4 col hc, List.getElem?_eq_getElem hc]
      simp only [ok_bind, joinTokensSelf, and_true]
      split <;> exact ih _ _ _ (by omega)
    · rw [if_neg hc, List.getElem?_eq_none (by omega)]
      exact ih _ _ _ (by omega)

theorem joinColumnLoopOwn_eq {g : Grid (Nat × Nat)} {rows : List (List (Nat × Nat))} (h : Rep g rows) (grow : Nat → Nat → Nat) (col : Nat) (delim : List Byte) :
    ∀ (n i : Nat) (b : Bool) (s : Own), i + n ≤ rows.length →
    joinColumnLoopOwn grow g.store col delim n i b s = joinTokensOwn grow (fun _ => true) delim (((rows.drop i).take n).filterMap fun r => r[col]?) b s := by
  intro n
  induction n with
  | zero => intro i b s _; simp [joinColumnLoopOwn, joinTokensOwn]
  | succ n ih =>
    intro i b s hi
    obtain ⟨r, h1, _, _, h3, h4, _⟩ := h.access i (by omega)
    have hd : (rows.drop i).take (n + 1) = rows[i] :: (rows.drop (i + 1)).take n := by
      rw [List.drop_eq_getElem_cons (by omega), List.take_succ_cons]
    rw [hd, List.filterMap_cons, joinColumnLoopOwn, h1, ok_bind, h3]
    by_cases hc : col < rows[i].length
    · rw [if_pos hc, h4 col hc, List.getElem?_eq_getElem hc]
      simp only [ok_bind, joinTokensOwn, if_true]
      simp only [ih _ _ _ (show i + 1 + n ≤ rows.length by omega)]
    · rw [if_neg hc, List.getElem?_eq_none (by omega)]
      exact ih _ _ _ (by omega)

theorem joinColumnOwn_steps {g : Grid (Nat × Nat)} {rows : List (List (Nat × Nat))} (h : Rep g rows) (grow : Nat → Nat → Nat) (col a b : Nat) (hc : col ≤ g.maxCol)
    (hv : a ≤ b ∧ b ≤ rows.length) (delim : List Byte) (s : Own) :
    joinColumnOwn grow g col a b delim s =
      (joinTokensOwn grow (fun _ => true) delim ((Grid.between a b rows).filterMap fun r => r[col]?) false s).bind fun s => ok (true, s) := by
  unfold joinColumnOwn
  rw [if_neg (by omega), if_neg (fun hh => (h.rangeInvalid a b).mp hh hv), joinColumnLoopOwn_eq h grow col delim (b - a) a false s (by omega)]
  rfl

/-! ## C190 -/

/-- **C190**: `join_column` with one string as delimiter and as result does the same as with a copy of it as delimiter exactly when no row of the range has the column
behind a row whose token in the column is not empty.  Missing for C190: columns where one has. -/
theorem C190_column_delimiter_partial {α : Type} (g : Grid (List α)) (rows : List (List (List α))) (h : Rep g rows) (col a b : Nat) (hc : col ≤ g.maxCol)
    (hv : a ≤ b ∧ b ≤ rows.length) (s : List α) :
    joinColumnSelf g col a b s = g.joinColumn col a b s s ↔ ¬ Follows (fun _ => true) ((Grid.between a b rows).filterMap fun r => r[col]?) := by
  rw [← joinTokensSelf_iff (fun _ => true) s]
  unfold joinColumnSelf Grid.joinColumn
  rw [if_neg (by omega), if_neg (fun hh => (h.rangeInvalid a b).mp hh hv), if_neg (by omega), if_neg (fun hh => (h.rangeInvalid a b).mp hh hv),
    joinColumnLoopSelf_eq h col (b - a) a false s (by omega), h.joinColumnLoop col s (b - a) a false s (by omega), ok_bind, ok_bind]
  constructor
  · intro e; exact (Prod.mk.inj (Outcome.ok.inj e)).2
  · intro e
    show ok (true, joinTokensSelf _ (Grid.between a b rows |>.filterMap _) false s) = _
    rw [e]
    rfl

/-- **C190**: `join_column` into the string that the grid was made from, with room for all of the column: the column is put behind the text, and the grid still points to its
tokens.  Missing for C190: without the room, `C190_column_moved`. -/
theorem C190_column_own_partial (grow : Nat → Nat → Nat) (g : Grid (Nat × Nat)) (rows : List (List (Nat × Nat))) (h : Rep g rows) (buf more : List Byte)
    (ho : InOrder buf rows.flatten) (col a b : Nat) (hc : col ≤ g.maxCol) (hv : a ≤ b ∧ b ≤ rows.length) (delim : List Byte) (cap : Nat) :
    let ts := ((Grid.between a b rows).filterMap fun r => r[col]?).map (tokenText buf)
    (buf ++ more ++ joinSpec delim (fun _ => true) false ts).length ≤ cap →
    joinColumnOwn grow g col a b delim ⟨buf ++ more, cap, true⟩ = ok (true, ⟨buf ++ more ++ joinSpec delim (fun _ => true) false ts, cap, true⟩) := by
  intro ts hroom
  have hmem : ∀ t ∈ (Grid.between a b rows).filterMap (fun r => r[col]?), t.1 ≤ t.2 ∧ t.2 ≤ buf.length := by
    intro t ht
    obtain ⟨r, hr, he⟩ := List.mem_filterMap.mp ht
    exact ho.1 t (List.mem_flatten.mpr ⟨r, List.mem_of_mem_drop (List.mem_of_mem_take hr), List.mem_of_getElem? he⟩)
  rw [List.length_append] at hroom
  rw [joinColumnOwn_steps h grow col a b hc hv, joinTokensOwn_ok grow (fun _ => true) delim buf _ false _ more rfl rfl hmem hroom]
  rfl

/-- **C190** (negative result): as soon as what was put out no longer fits in the string, the next token that is not empty is read from memory that was given back. -/
theorem C190_column_moved (grow : Nat → Nat → Nat) (g : Grid (Nat × Nat)) (rows : List (List (Nat × Nat))) (h : Rep g rows) (buf more : List Byte)
    (ho : InOrder buf rows.flatten) (col a b : Nat) (hc : col ≤ g.maxCol) (hv : a ≤ b ∧ b ≤ rows.length) (delim : List Byte) (cap : Nat) (hcap : (buf ++ more).length ≤ cap)
    (pre : List (List Byte)) (w : List Byte) (post : List (List Byte))
    (hsplit : ((Grid.between a b rows).filterMap fun r => r[col]?).map (tokenText buf) = pre ++ w :: post) (hw : w ≠ [])
    (hlong : cap < (buf ++ more ++ joinSpec delim (fun _ => true) false pre).length) :
    joinColumnOwn grow g col a b delim ⟨buf ++ more, cap, true⟩ = ub := by
  have hmem : ∀ t ∈ (Grid.between a b rows).filterMap (fun r => r[col]?), t.1 ≤ t.2 ∧ t.2 ≤ buf.length := by
    intro t ht
    obtain ⟨r, hr, he⟩ := List.mem_filterMap.mp ht
    exact ho.1 t (List.mem_flatten.mpr ⟨r, List.mem_of_mem_drop (List.mem_of_mem_take hr), List.mem_of_getElem? he⟩)
  rw [joinColumnOwn_steps h grow col a b hc hv]
  generalize (Grid.between a b rows).filterMap (fun r => r[col]?) = ts at hsplit hmem ⊢
  obtain ⟨p, q, rfl, hp, hq⟩ := List.map_eq_append_iff.mp hsplit
  obtain ⟨t, post', rfl, ht, _⟩ := List.map_eq_cons_iff.mp hq
  subst hp
  have hvt := hmem t (by simp)
  rw [List.length_append] at hlong
  rw [joinTokensOwn_late grow (fun _ => true) delim buf t post' ((tokenText_ne buf t hvt.1 hvt.2).mp (by rw [ht]; exact hw)) p false _ more rfl
    (fun u hu => hmem u (by simp [hu])) hcap hlong]
  rfl

/-! ## Concrete cases -/

example : joinColumnSelf Grid.sampleText 0 0 2 [';'] = ok (true, ";a;ac".toList) ∧ Grid.sampleText.joinColumn 0 0 2 [';'] [';'] = ok (true, ";a;c".toList) := by decide
example : joinColumnSelf Grid.sampleText 1 0 2 [';'] = Grid.sampleText.joinColumn 1 0 2 [';'] [';'] :=
  (C190_column_delimiter_partial Grid.sampleText _ sampleText_rep 1 0 2 (by decide) (by decide) [';']).mpr (by
    rw [← joinTokensSelf_iff _ [';']]; decide)

example : joinColumnOwn (fun _ n => n) Grid.sample 0 0 2 [59] ⟨sampleBuf, 16, true⟩ = ok (true, ⟨sampleBuf ++ [97, 59, 99], 16, true⟩) :=
  C190_column_own_partial (fun _ n => n) Grid.sample _ sample_rep sampleBuf [] sample_inOrder 0 0 2 (by decide) (by decide) [59] 16 (by decide)
example : joinColumnOwn (fun _ n => n) Grid.sample 0 0 2 [59] ⟨sampleBuf, 13, true⟩ = ub :=
  C190_column_moved (fun _ n => n) Grid.sample _ sample_rep sampleBuf [] sample_inOrder 0 0 2 (by decide) (by decide) [59] 13 (by decide) [[97]] [99] [] (by decide) (by decide)
    (by decide)

end Strtk.Refused
