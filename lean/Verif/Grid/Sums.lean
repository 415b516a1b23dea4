import Verif.Grid.More
import Verif.Grid.Csv
import Verif.Number.Props

/-!
# Sums over a token grid in the arithmetic of the machine (strtk.hpp 6960-7066)

The functions of `Grid/Model.lean` and `Grid/More.lean` once more, with the conversion as it is (it may fail or be undefined, and leaves `current_value` as it was when it fails) and
the addition of the result type: modulo `2 ^ w` for unsigned types, undefined on overflow for signed ones from `int` on, narrowed for `short`.
-/

namespace Strtk.Grid
open Outcome Split

variable {T V : Type}

/-- A type of results: the conversion of a token, given the previous value of the variable, and `+=`. -/
structure Arith (T V : Type) where
  conv : T → V → Outcome (Bool × V)
  add : V → V → Outcome V

/-- Loop of `accumulate_row` (6973-6984). -/
def sumTokens (A : Arith T V) : List T → V → V → Nat → Outcome (Nat × V)
  | [], _, sum, count => ok (count, sum)
  | t :: ts, cur, sum, count => do
    let (good, cur) ← A.conv t cur
    if good then do
      let sum ← A.add sum cur
      sumTokens A ts cur sum (count + 1)
    else ok (0, sum)

/-- `accumulate_row(row,result)` (6960-6987); `zero` is `T()`. -/
def Grid.sumRow (g : Grid T) (A : Arith T V) (zero : V) (row : Nat) (sum : V) : Outcome (Nat × V) :=
  if row ≥ g.store.index.length then ok (0, sum)
  else do
    let r ← deref g.store.index row
    if r.1 ≤ r.2 + 1 ∧ r.2 + 1 ≤ g.store.tokens.length then
      sumTokens A ((g.store.tokens.drop r.1).take (r.2 + 1 - r.1)) zero sum 0
    else ub

/-- Loop of `accumulate_column` (7002-7017). -/
def sumColumnLoop (A : Arith T V) (st : Store T) (col : Nat) : Nat → Nat → V → V → Nat → Outcome (Nat × V)
  | 0, _, _, sum, count => ok (count, sum)
  | n + 1, i, cur, sum, count => do
    let r ← deref st.index i
    if col < tokenCount r then do
      let t ← deref st.tokens (r.1 + col)
      let (good, cur) ← A.conv t cur
      if good then do
        let sum ← A.add sum cur
        sumColumnLoop A st col n (i + 1) cur sum (count + 1)
      else ok (0, sum)
    else sumColumnLoop A st col n (i + 1) cur sum (count + 1)

/-- `accumulate_column(col,row_range,result)` (6990-7020). -/
def Grid.sumColumn (g : Grid T) (A : Arith T V) (zero : V) (col a b : Nat) (sum : V) : Outcome (Nat × V) :=
  if col > g.maxCol then ok (0, sum) else if g.rangeInvalid a b then ok (0, sum) else sumColumnLoop A g.store col (b - a) a zero sum 0

/-- Loop of `accumulate_column` with a predicate (7042-7063). -/
def sumColumnIfLoop (p : Nat → List T → Bool) (A : Arith T V) (st : Store T) (col : Nat) : Nat → Nat → V → V → Nat → Outcome (Nat × V)
  | 0, _, _, sum, count => ok (count, sum)
  | n + 1, i, cur, sum, count => do
    let r ← deref st.index i
    if col < tokenCount r then do
      let row ← rowOf st.tokens r
      if p i row then do
        let t ← deref st.tokens (r.1 + col)
        let (good, cur) ← A.conv t cur
        if good then do
          let sum ← A.add sum cur
          sumColumnIfLoop p A st col n (i + 1) cur sum (count + 1)
        else ok (0, sum)
      else sumColumnIfLoop p A st col n (i + 1) cur sum count
    else sumColumnIfLoop p A st col n (i + 1) cur sum count

/-- `accumulate_column(col,row_range,predicate,result)` (7029-7066). -/
def Grid.sumColumnIf (g : Grid T) (p : Nat → List T → Bool) (A : Arith T V) (zero : V) (col a b : Nat) (sum : V) : Outcome (Nat × V) :=
  if col > g.maxCol then ok (0, sum) else if g.rangeInvalid a b then ok (0, sum) else sumColumnIfLoop p A g.store col (b - a) a zero sum 0

/-- `result += current_value` for an unsigned type of `w` bits. -/
def addUnsigned (w : Nat) (a b : Nat) : Outcome Nat := ok ((a + b) % 2 ^ w)

/-- `result += current_value` for a signed type of `w` bits: computed in `int` and narrowed if the type is narrower, otherwise undefined on overflow. -/
def addSigned (w : Nat) (a b : Int) : Outcome Int := if w < 32 then ok (Number.wrap w (a + b)) else if Number.fits w (a + b) then ok (a + b) else ub

/-- `unsigned short`, `unsigned int` and `unsigned long long` results over the characters of the tokens. -/
def unsignedArith (ty : Number.UTy) (buf : List Number.Byte) : Arith (Nat × Nat) Nat :=
  ⟨fun t cur => Number.parseUnsigned ty (textOf buf t) cur, addUnsigned ty.bits⟩

@[inherit_doc unsignedArith] def signedArith (ty : Number.STy) (buf : List Number.Byte) : Arith (Nat × Nat) Int :=
  ⟨fun t cur => Number.parseSigned ty (textOf buf t) cur, addSigned ty.bits⟩

/-! ## Specification -/

/-- Adding values one after the other. -/
def addUp (add : V → V → Outcome V) : V → List V → Outcome V
  | s, [] => ok s
  | s, v :: vs => do
    let s ← add s v
    addUp add s vs

/-! ## The loops -/

/-- The loops in common: `none` stands for a row without the column. -/
def sumOver (A : Arith T V) : List (Option T) → V → V → Nat → Outcome (Nat × V)
  | [], _, sum, count => ok (count, sum)
  | none :: ts, cur, sum, count => sumOver A ts cur sum (count + 1)
  | some t :: ts, cur, sum, count => do
    let (good, cur) ← A.conv t cur
    if good then do
      let sum ← A.add sum cur
      sumOver A ts cur sum (count + 1)
    else ok (0, sum)

theorem sumOver_good (A : Arith T V) (val : T → V) : ∀ (l : List (Option T)) (cur sum : V) (count : Nat),
    (∀ t, some t ∈ l → ∀ c, A.conv t c = ok (true, val t)) →
      sumOver A l cur sum count = (do let s ← addUp A.add sum ((l.filterMap id).map val); ok (count + l.length, s)) := by
  intro l
  induction l with
  | nil => intro cur sum count _; rfl
  | cons o l ih =>
    intro cur sum count h
    have ht : ∀ t, some t ∈ l → ∀ c, A.conv t c = ok (true, val t) := fun t hm => h t (List.mem_cons_of_mem _ hm)
    cases o with
    | none => rw [sumOver, ih _ _ _ ht]; simp only [List.filterMap_cons, id, List.length_cons]; simp only [Nat.add_comm l.length, Nat.add_assoc]
    | some t =>
      rw [sumOver, h t (by simp) cur, ok_bind]
      simp only [if_true, List.filterMap_cons, id, List.map_cons, addUp, List.length_cons]
      cases A.add sum (val t) with
      | ok s => rw [ok_bind, ok_bind, ih _ _ _ ht]; simp only [Nat.add_comm l.length, Nat.add_assoc]; rfl
      | ub => rfl
      | thrown => rfl
      | diverge => rfl

theorem sumOver_bad (A : Arith T V) (val : T → V) (t : T) (l₂ : List (Option T)) (hbad : ∀ c, ∃ c', A.conv t c = ok (false, c')) :
    ∀ (l : List (Option T)) (cur sum : V) (count : Nat), (∀ t, some t ∈ l → ∀ c, A.conv t c = ok (true, val t)) →
      sumOver A (l ++ some t :: l₂) cur sum count = (do let s ← addUp A.add sum ((l.filterMap id).map val); ok (0, s)) := by
  intro l
  induction l with
  | nil =>
    intro cur sum count _
    obtain ⟨c', h⟩ := hbad cur
    rw [List.nil_append, sumOver, h, ok_bind]; rfl
  | cons o l ih =>
    intro cur sum count h
    have ht : ∀ t, some t ∈ l → ∀ c, A.conv t c = ok (true, val t) := fun t hm => h t (List.mem_cons_of_mem _ hm)
    cases o with
    | none => rw [List.cons_append, sumOver, ih _ _ _ ht]; rfl
    | some t' =>
      rw [List.cons_append, sumOver, h t' (by simp) cur, ok_bind]
      simp only [if_true, List.filterMap_cons, id, List.map_cons, addUp]
      cases A.add sum (val t') with
      | ok s => rw [ok_bind, ok_bind, ih _ _ _ ht]; rfl
      | ub => rfl
      | thrown => rfl
      | diverge => rfl

theorem sumTokens_eq (A : Arith T V) : ∀ (ts : List T) (cur sum : V) (count : Nat), sumTokens A ts cur sum count = sumOver A (ts.map some) cur sum count := by
  intro ts
  induction ts with
  | nil => intro cur sum count; rfl
  | cons t ts ih => intro cur sum count; simp only [sumTokens, List.map_cons, sumOver, ih]

theorem Rep.sumColumnLoop {g : Grid T} {rows : List (List T)} (h : Rep g rows) (A : Arith T V) (col : Nat) : ∀ (n i : Nat) (cur sum : V) (count : Nat),
    i + n ≤ rows.length →
    Grid.sumColumnLoop A g.store col n i cur sum count = sumOver A (((rows.drop i).take n).map (fun r => r[col]?)) cur sum count := by
  intro n
  induction n with
  | zero => intro i cur sum count _; simp [Grid.sumColumnLoop, sumOver]
  | succ n ih =>
    intro i cur sum count hi
    obtain ⟨r, h1, _, _, h3, h4, _⟩ := h.access i (by omega)
    rw [range_succ rows i n (by omega), List.map_cons]
    simp only [Grid.sumColumnLoop]
    rw [h1, ok_bind]
    split
    · rename_i hc
      rw [h3] at hc
      rw [h4 col hc, ok_bind, List.getElem?_eq_getElem hc, sumOver]
      cases A.conv rows[i][col] cur with
      | ok x =>
        obtain ⟨b, c⟩ := x
        rw [ok_bind, ok_bind]
        simp only
        cases b with
        | false => rfl
        | true =>
          simp only [if_true]
          cases A.add sum c with
          | ok s => rw [ok_bind, ok_bind, ih _ _ _ _ (by omega)]
          | ub => rfl
          | thrown => rfl
          | diverge => rfl
      | ub => rfl
      | thrown => rfl
      | diverge => rfl
    · rename_i hc
      rw [h3] at hc
      rw [List.getElem?_eq_none (by omega), sumOver, ih _ _ _ _ (by omega)]

theorem Rep.sumColumnIfLoop {g : Grid T} {rows : List (List T)} (h : Rep g rows) (p : Nat → List T → Bool) (A : Arith T V) (col : Nat) :
    ∀ (n i : Nat) (cur sum : V) (count : Nat), i + n ≤ rows.length → ∀ ts, ts = (selected p col i (i + n) rows).filterMap (fun e => e.2[col]?) →
      Grid.sumColumnIfLoop p A g.store col n i cur sum count = sumOver A (ts.map some) cur sum count := by
  intro n
  induction n with
  | zero => intro i cur sum count _ ts hts; subst hts; simp [Grid.sumColumnIfLoop, selected, sumOver]
  | succ n ih =>
    intro i cur sum count hi ts hts
    obtain ⟨r, h1, _, _, h3, h4, h5, _⟩ := h.access i (by omega)
    have hsel : selected p col i (i + (n + 1)) rows =
        (if col < rows[i].length ∧ p i rows[i] = true then [(i, rows[i])] else []) ++ selected p col (i + 1) (i + 1 + n) rows := by
      unfold selected
      rw [show i + (n + 1) - i = n + 1 by omega, range_succ rows i n (by omega), List.zipIdx_cons, List.filterMap_cons, show i + 1 + n - (i + 1) = n by omega]
      by_cases hc : col < rows[i].length ∧ p i rows[i] = true
      · rw [if_pos hc, if_pos hc]; rfl
      · rw [if_neg hc, if_neg hc]; rfl
    simp only [Grid.sumColumnIfLoop]
    rw [h1, ok_bind]
    rw [hsel, List.filterMap_append] at hts
    by_cases hc : col < tokenCount r
    · rw [if_pos hc, h5, ok_bind]
      rw [h3] at hc
      by_cases hp : p i rows[i] = true
      · rw [if_pos hp, h4 col hc, ok_bind]
        rw [if_pos ⟨hc, hp⟩] at hts
        simp only [List.filterMap_cons, List.filterMap_nil, List.getElem?_eq_getElem hc, List.cons_append, List.nil_append] at hts
        subst hts
        rw [List.map_cons, sumOver]
        cases A.conv rows[i][col] cur with
        | ok x =>
          obtain ⟨b, c⟩ := x
          rw [ok_bind, ok_bind]
          simp only
          cases b with
          | false => rfl
          | true =>
            simp only [if_true]
            cases A.add sum c with
            | ok s => rw [ok_bind, ok_bind, ih (i + 1) _ _ _ (by omega) _ rfl]
            | ub => rfl
            | thrown => rfl
            | diverge => rfl
        | ub => rfl
        | thrown => rfl
        | diverge => rfl
      · rw [if_neg hp]
        rw [if_neg (fun hh => hp hh.2)] at hts
        exact ih (i + 1) cur sum count (by omega) ts (by simpa using hts)
    · rw [if_neg hc]
      rw [h3] at hc
      rw [if_neg (fun hh => hc hh.1)] at hts
      exact ih (i + 1) cur sum count (by omega) ts (by simpa using hts)

/-! ## Addition -/

theorem addUp_unsigned (w : Nat) : ∀ (vs : List Nat) (s : Nat), s < 2 ^ w → addUp (addUnsigned w) s vs = ok ((s + vs.sum) % 2 ^ w) := by
  intro vs
  induction vs with
  | nil => intro s hs; rw [addUp, List.sum_nil, Nat.add_zero, Nat.mod_eq_of_lt hs]
  | cons v vs ih =>
    intro s _
    rw [addUp, addUnsigned, ok_bind, ih _ (Nat.mod_lt _ (Nat.two_pow_pos w)), List.sum_cons, Nat.mod_add_mod, Nat.add_assoc]

theorem addUp_signed (w : Nat) (hw : 32 ≤ w) : ∀ (vs : List Int) (s : Int),
    ((∀ n, n ≠ 0 → n ≤ vs.length → Number.fits w (s + (vs.take n).sum)) → addUp (addSigned w) s vs = ok (s + vs.sum)) ∧
    ((∃ n, n ≠ 0 ∧ n ≤ vs.length ∧ ¬ Number.fits w (s + (vs.take n).sum)) → addUp (addSigned w) s vs = ub) := by
  intro vs
  induction vs with
  | nil => intro s; exact ⟨fun _ => by simp [addUp], fun ⟨n, h1, h2, _⟩ => absurd h2 (by simpa using h1)⟩
  | cons v vs ih =>
    intro s
    have hstep : addUp (addSigned w) s (v :: vs) = if Number.fits w (s + v) then addUp (addSigned w) (s + v) vs else ub := by
      rw [addUp, addSigned, if_neg (by omega)]
      split <;> rfl
    rw [hstep]
    constructor
    · intro h
      have h1 := h 1 (by omega) (by simp)
      simp only [List.take_succ_cons, List.take_zero, List.sum_cons, List.sum_nil, Int.add_zero] at h1
      rw [if_pos h1, (ih (s + v)).1, List.sum_cons, Int.add_assoc]
      intro n hn hl
      have := h (n + 1) (by omega) (by simpa using hl)
      rwa [List.take_succ_cons, List.sum_cons, ← Int.add_assoc] at this
    · rintro ⟨n, hn, hl, hf⟩
      split
      · rename_i h1
        obtain ⟨m, rfl⟩ := Nat.exists_eq_succ_of_ne_zero hn
        rw [Nat.succ_eq_add_one, List.take_succ_cons, List.sum_cons, ← Int.add_assoc] at hf
        refine (ih (s + v)).2 ⟨m, ?_, by simpa using hl, hf⟩
        rintro rfl
        simp at hf
        exact hf h1
      · rfl

theorem addUp_short : ∀ (vs : List Int) (s : Int), s = Number.wrap 16 s → addUp (addSigned 16) s vs = ok (Number.wrap 16 (s + vs.sum)) := by
  intro vs
  induction vs with
  | nil => intro s hs; rw [addUp, List.sum_nil, Int.add_zero, ← hs]
  | cons v vs ih =>
    intro s _
    rw [addUp, addSigned, if_pos (by omega), ok_bind, ih _ (by simp [Number.wrap]), List.sum_cons, Number.wrap, Number.wrap, Number.wrap, Int.bmod_add_bmod, Int.add_assoc]

/-! ## C165 -/

/-- **C165**: `accumulate_row`.  If all cells of the row convert, their values are added one by one and their number is returned; if one does not, those in front of it have been
added and 0 is returned. -/
theorem C165_row (g : Grid T) (rows : List (List T)) (h : Rep g rows) (A : Arith T V) (val : T → V) (zero : V) (i : Nat) (hi : i < rows.length) (sum : V) :
    ((∀ t ∈ rows[i], ∀ c, A.conv t c = ok (true, val t)) → g.sumRow A zero i sum = (do let s ← addUp A.add sum (rows[i].map val); ok (rows[i].length, s))) ∧
    (∀ us t ws, rows[i] = us ++ t :: ws → (∀ u ∈ us, ∀ c, A.conv u c = ok (true, val u)) → (∀ c, ∃ c', A.conv t c = ok (false, c')) →
      g.sumRow A zero i sum = (do let s ← addUp A.add sum (us.map val); ok (0, s))) := by
  obtain ⟨r, h1, _, h2, _, _, _, h6, h7⟩ := h.access i hi
  have e : g.sumRow A zero i sum = sumOver A (rows[i].map some) zero sum 0 := by
    unfold Grid.sumRow
    rw [if_neg (by rw [h.rowCount]; omega), h1, ok_bind, if_pos ⟨by omega, by omega⟩]
    have : r.2 + 1 - r.1 = rows[i].length := by omega
    rw [this, h7, sumTokens_eq]
  rw [e]
  constructor
  · intro hall
    rw [sumOver_good A val _ _ _ _ (fun t ht => hall t (by simpa using ht))]
    simp
  · intro us t ws hs hus hbad
    rw [hs, List.map_append, List.map_cons, sumOver_bad A val t _ hbad _ _ _ _ (fun t ht => hus t (by simpa using ht))]
    simp

/-- **C165**: `accumulate_column` over the rows from `a` to `b`, the rows without the column being skipped.  The number returned is that of the rows of the range (C86). -/
theorem C165_column (g : Grid T) (rows : List (List T)) (h : Rep g rows) (A : Arith T V) (val : T → V) (zero : V) (col a b : Nat) (hc : col ≤ g.maxCol)
    (hv : a ≤ b ∧ b ≤ rows.length) (sum : V) :
    ((∀ t ∈ (between a b rows).filterMap (fun r => r[col]?), ∀ c, A.conv t c = ok (true, val t)) →
      g.sumColumn A zero col a b sum = (do let s ← addUp A.add sum (((between a b rows).filterMap fun r => r[col]?).map val); ok (b - a, s))) ∧
    (∀ rs r t rs', between a b rows = rs ++ r :: rs' → r[col]? = some t → (∀ u ∈ rs.filterMap (fun r => r[col]?), ∀ c, A.conv u c = ok (true, val u)) →
      (∀ c, ∃ c', A.conv t c = ok (false, c')) → g.sumColumn A zero col a b sum = (do let s ← addUp A.add sum ((rs.filterMap fun r => r[col]?).map val); ok (0, s))) := by
  have e : g.sumColumn A zero col a b sum = sumOver A ((between a b rows).map fun r => r[col]?) zero sum 0 := by
    unfold Grid.sumColumn
    rw [if_neg (by omega), if_neg (fun hh => (h.rangeInvalid a b).mp hh hv), h.sumColumnLoop A col (b - a) a zero sum 0 (by omega)]
    rfl
  have hid : ∀ rs : List (List T), (rs.map fun r => r[col]?).filterMap id = rs.filterMap fun r => r[col]? := by
    intro rs; rw [List.filterMap_map]; rfl
  have hl : (between a b rows).length = b - a := by unfold between; rw [List.length_take, List.length_drop]; omega
  have hmem : ∀ (rs : List (List T)) t, some t ∈ rs.map (fun r => r[col]?) → t ∈ rs.filterMap fun r => r[col]? := by
    intro rs t ht
    obtain ⟨r, hr, he⟩ := List.mem_map.mp ht
    exact List.mem_filterMap.mpr ⟨r, hr, he⟩
  rw [e]
  constructor
  · intro hall
    rw [sumOver_good A val _ _ _ _ (fun t ht => hall t (hmem _ _ ht)), hid, List.length_map, hl, Nat.zero_add]
  · intro rs r t rs' hs hr hus hbad
    rw [hs, List.map_append, List.map_cons, hr, sumOver_bad A val t _ hbad _ _ _ _ (fun t ht => hus t (hmem _ _ ht)), hid]

/-- **C165**: `accumulate_column` with a predicate: only the cells of the selected rows are added, and their number is returned. -/
theorem C165_column_if (g : Grid T) (rows : List (List T)) (h : Rep g rows) (p : Nat → List T → Bool) (A : Arith T V) (val : T → V) (zero : V) (col a b : Nat)
    (hc : col ≤ g.maxCol) (hv : a ≤ b ∧ b ≤ rows.length) (sum : V) (ts : List T) (hts : ts = (selected p col a b rows).filterMap fun e => e.2[col]?) :
    ((∀ t ∈ ts, ∀ c, A.conv t c = ok (true, val t)) → g.sumColumnIf p A zero col a b sum = (do let s ← addUp A.add sum (ts.map val); ok (ts.length, s))) ∧
    (∀ us t ws, ts = us ++ t :: ws → (∀ u ∈ us, ∀ c, A.conv u c = ok (true, val u)) → (∀ c, ∃ c', A.conv t c = ok (false, c')) →
      g.sumColumnIf p A zero col a b sum = (do let s ← addUp A.add sum (us.map val); ok (0, s))) := by
  have e : g.sumColumnIf p A zero col a b sum = sumOver A (ts.map some) zero sum 0 := by
    unfold Grid.sumColumnIf
    rw [if_neg (by omega), if_neg (fun hh => (h.rangeInvalid a b).mp hh hv)]
    exact h.sumColumnIfLoop p A col (b - a) a zero sum 0 (by omega) ts (by rw [hts, show a + (b - a) = b by omega])
  rw [e]
  constructor
  · intro hall
    rw [sumOver_good A val _ _ _ _ (fun t ht => hall t (by simpa using ht))]
    simp
  · intro us t ws hs hus hbad
    rw [hs, List.map_append, List.map_cons, sumOver_bad A val t _ hbad _ _ _ _ (fun t ht => hus t (by simpa using ht))]
    simp

/-- **C165**: sums of an unsigned type are the sums of the values modulo `2 ^ w`, in any order of addition; sums of `int`, `long` and `long long` are exact if all the intermediate
sums are in the range of the type, and otherwise undefined; sums of `short` are exact modulo `2 ^ 16`. -/
theorem C165_additions :
    (∀ (w : Nat) (vs : List Nat) (s : Nat), s < 2 ^ w → addUp (addUnsigned w) s vs = ok ((s + vs.sum) % 2 ^ w)) ∧
    (∀ (w : Nat), 32 ≤ w → ∀ (vs : List Int) (s : Int),
      ((∀ n, n ≠ 0 → n ≤ vs.length → -2 ^ (w - 1) ≤ s + (vs.take n).sum ∧ s + (vs.take n).sum < 2 ^ (w - 1)) → addUp (addSigned w) s vs = ok (s + vs.sum)) ∧
      ((∃ n, n ≠ 0 ∧ n ≤ vs.length ∧ ¬ (-2 ^ (w - 1) ≤ s + (vs.take n).sum ∧ s + (vs.take n).sum < 2 ^ (w - 1))) → addUp (addSigned w) s vs = ub)) ∧
    (∀ (vs : List Int) (s : Int), -2 ^ 15 ≤ s → s < 2 ^ 15 → ∃ r, addUp (addSigned 16) s vs = ok r ∧ -2 ^ 15 ≤ r ∧ r < 2 ^ 15 ∧ (r - (s + vs.sum)) % 2 ^ 16 = 0) := by
  refine ⟨addUp_unsigned, fun w hw vs s => addUp_signed w hw vs s, fun vs s h1 h2 => ⟨_, addUp_short vs s ?_, ?_, ?_, ?_⟩⟩
  · unfold Number.wrap; simp only [Int.bmod_def]; omega
  · unfold Number.wrap; simp only [Int.bmod_def]; omega
  · unfold Number.wrap; simp only [Int.bmod_def]; omega
  · unfold Number.wrap; simp only [Int.bmod_def]; omega

/-- **C165**: a column of a table written as text, in which every row has the column and the column holds numerals of `unsigned int` values (or `unsigned short`, or `unsigned long
long`): the call adds their sum, modulo the size of the type. -/
theorem C165_table_unsigned (ty : Number.UTy) (hty : ty = Number.ushort ∨ ty = Number.uint ∨ ty = Number.ulonglong) (g : Grid (Nat × Nat)) (rows : List (List (Nat × Nat)))
    (buf : List Number.Byte) (h : Rep g rows) (col : Nat) (hc : col ≤ g.maxCol) (num : List (List Number.Byte) → Nat) (sum : Nat) (hs : sum < 2 ^ ty.bits)
    (hcell : ∀ row ∈ rows.map (fun r => r.map (textOf buf)), ∃ w, row[col]? = some w ∧ Number.UNumeral w (num row) ∧ num row < 2 ^ ty.bits) :
    g.sumColumn (unsignedArith ty buf) 0 col 0 rows.length sum = ok (rows.length, (sum + ((rows.map fun r => num (r.map (textOf buf))).sum)) % 2 ^ ty.bits) := by
  have hval : ∀ t ∈ (between 0 rows.length rows).filterMap (fun r => r[col]?), ∀ c, (unsignedArith ty buf).conv t c =
      ok (true, (fun t => match Number.parseUnsigned ty (textOf buf t) 0 with | ok (true, v) => v | _ => 0) t) := by
    intro t ht c
    obtain ⟨r, hr, hrt⟩ := List.mem_filterMap.mp ht
    have hr' : r ∈ rows := by simpa [between] using hr
    obtain ⟨w, hw1, hw2, hw3⟩ := hcell _ (List.mem_map.mpr ⟨r, hr', rfl⟩)
    rw [List.getElem?_map, hrt, Option.map_some, Option.some.injEq] at hw1
    subst hw1
    simp only [unsignedArith]
    rw [(Number.C29_unsigned ty hty _ c).1 _ hw2 hw3, (Number.C29_unsigned ty hty _ 0).1 _ hw2 hw3]
  rw [(C165_column g rows h (unsignedArith ty buf) _ 0 col 0 rows.length hc ⟨Nat.zero_le _, Nat.le_refl _⟩ sum).1 hval]
  have hb : between 0 rows.length rows = rows := by simp [between]
  rw [hb]
  have hl : (rows.filterMap fun r => r[col]?).map (fun t => match Number.parseUnsigned ty (textOf buf t) 0 with | ok (true, v) => v | _ => 0) =
      rows.map fun r => num (r.map (textOf buf)) := by
    have : ∀ l : List (List (Nat × Nat)), (∀ r ∈ l, r ∈ rows) →
        (l.filterMap fun r => r[col]?).map (fun t => match Number.parseUnsigned ty (textOf buf t) 0 with | ok (true, v) => v | _ => 0) = l.map fun r => num (r.map (textOf buf)) := by
      intro l
      induction l with
      | nil => intro _; rfl
      | cons r l ih =>
        intro hsub
        obtain ⟨w, hw1, hw2, hw3⟩ := hcell _ (List.mem_map.mpr ⟨r, hsub r (by simp), rfl⟩)
        rw [List.getElem?_map, Option.map_eq_some_iff] at hw1
        obtain ⟨t, ht, rfl⟩ := hw1
        rw [List.filterMap_cons, ht]
        simp only [List.map_cons]
        rw [ih (fun x hx => hsub x (by simp [hx])), (Number.C29_unsigned ty hty _ 0).1 _ hw2 hw3]
    exact this rows fun r hr => hr
  rw [hl, show (unsignedArith ty buf).add = addUnsigned ty.bits from rfl, addUp_unsigned _ _ _ hs, ok_bind, Nat.sub_zero]

/-- **C165**: the same for `int` and `long long`, with the exact sum, if no intermediate sum leaves the range of the type; otherwise the behaviour is undefined. -/
theorem C165_table_signed (ty : Number.STy) (hty : ty = Number.int ∨ ty = Number.longlong) (g : Grid (Nat × Nat)) (rows : List (List (Nat × Nat)))
    (buf : List Number.Byte) (h : Rep g rows) (col : Nat) (hc : col ≤ g.maxCol) (num : List (List Number.Byte) → Int) (sum : Int)
    (hcell : ∀ row ∈ rows.map (fun r => r.map (textOf buf)), ∃ w, row[col]? = some w ∧ Number.SNumeral w (num row) ∧ -2 ^ (ty.bits - 1) < num row ∧ num row < 2 ^ (ty.bits - 1))
    (vs : List Int) (hvs : vs = rows.map fun r => num (r.map (textOf buf))) :
    ((∀ n, n ≠ 0 → n ≤ rows.length → -2 ^ (ty.bits - 1) ≤ sum + (vs.take n).sum ∧ sum + (vs.take n).sum < 2 ^ (ty.bits - 1)) →
      g.sumColumn (signedArith ty buf) 0 col 0 rows.length sum = ok (rows.length, sum + vs.sum)) ∧
    ((∃ n, n ≠ 0 ∧ n ≤ rows.length ∧ ¬ (-2 ^ (ty.bits - 1) ≤ sum + (vs.take n).sum ∧ sum + (vs.take n).sum < 2 ^ (ty.bits - 1))) →
      g.sumColumn (signedArith ty buf) 0 col 0 rows.length sum = ub) := by
  have hbits : 32 ≤ ty.bits := by rcases hty with rfl | rfl <;> simp [Number.int, Number.longlong]
  have hval : ∀ t ∈ (between 0 rows.length rows).filterMap (fun r => r[col]?), ∀ c, (signedArith ty buf).conv t c =
      ok (true, (fun t => match Number.parseSigned ty (textOf buf t) 0 with | ok (true, v) => v | _ => 0) t) := by
    intro t ht c
    obtain ⟨r, hr, hrt⟩ := List.mem_filterMap.mp ht
    have hr' : r ∈ rows := by simpa [between] using hr
    obtain ⟨w, hw1, hw2, hw3, hw4⟩ := hcell _ (List.mem_map.mpr ⟨r, hr', rfl⟩)
    rw [List.getElem?_map, hrt, Option.map_some, Option.some.injEq] at hw1
    subst hw1
    simp only [signedArith]
    rw [(Number.C29_signed_partial ty hty _ c).1 _ hw2 hw3 hw4, (Number.C29_signed_partial ty hty _ 0).1 _ hw2 hw3 hw4]
  rw [(C165_column g rows h (signedArith ty buf) _ 0 col 0 rows.length hc ⟨Nat.zero_le _, Nat.le_refl _⟩ sum).1 hval]
  have hb : between 0 rows.length rows = rows := by simp [between]
  rw [hb]
  have hl : (rows.filterMap fun r => r[col]?).map (fun t => match Number.parseSigned ty (textOf buf t) 0 with | ok (true, v) => v | _ => 0) = vs := by
    have : ∀ l : List (List (Nat × Nat)), (∀ r ∈ l, r ∈ rows) →
        (l.filterMap fun r => r[col]?).map (fun t => match Number.parseSigned ty (textOf buf t) 0 with | ok (true, v) => v | _ => 0) = l.map fun r => num (r.map (textOf buf)) := by
      intro l
      induction l with
      | nil => intro _; rfl
      | cons r l ih =>
        intro hsub
        obtain ⟨w, hw1, hw2, hw3, hw4⟩ := hcell _ (List.mem_map.mpr ⟨r, hsub r (by simp), rfl⟩)
        rw [List.getElem?_map, Option.map_eq_some_iff] at hw1
        obtain ⟨t, ht, rfl⟩ := hw1
        rw [List.filterMap_cons, ht]
        simp only [List.map_cons]
        rw [ih (fun x hx => hsub x (by simp [hx])), (Number.C29_signed_partial ty hty _ 0).1 _ hw2 hw3 hw4]
    rw [hvs]
    exact this rows fun r hr => hr
  have hlen : vs.length = rows.length := by rw [hvs, List.length_map]
  rw [hl, show (signedArith ty buf).add = addSigned ty.bits from rfl, Nat.sub_zero]
  constructor
  · intro hh
    rw [(addUp_signed ty.bits hbits vs sum).1 (fun n hn hl' => hh n hn (by omega)), ok_bind]
  · rintro ⟨n, hn, hl', hf⟩
    rw [(addUp_signed ty.bits hbits vs sum).2 ⟨n, hn, by omega, hf⟩]
    rfl

/-- **C165**: the sums of C86 are these in unbounded integers. -/
theorem C165_unbounded (g : Grid T) (conv : T → Option Int) (A : Arith T Int)
    (hA : A = ⟨fun t cur => ok (match conv t with | some v => (true, v) | none => (false, cur)), fun a b => ok (a + b)⟩) (p : Nat → List T → Bool) (row col a b : Nat) (sum : Int) :
    g.sumRow A 0 row sum = g.accumulateRow conv row sum ∧ g.sumColumn A 0 col a b sum = g.accumulateColumn conv col a b sum ∧
      g.sumColumnIf p A 0 col a b sum = g.accumulateColumnIf p conv col a b sum := by
  subst hA
  refine ⟨?_, ?_, ?_⟩
  · unfold Grid.sumRow Grid.accumulateRow
    have key : ∀ (ts : List T) (cur sum : Int) (count : Nat),
        sumTokens ⟨fun t cur => ok (match conv t with | some v => (true, v) | none => (false, cur)), fun a b => ok (a + b)⟩ ts cur sum count =
          ok (accumulateTokens conv ts sum count) := by
      intro ts
      induction ts with
      | nil => intro cur sum count; rfl
      | cons t ts ih =>
        intro cur sum count
        rw [sumTokens, accumulateTokens, ok_bind]
        cases conv t with
        | none => rfl
        | some v => exact ih _ _ _
    simp only [key]
  · unfold Grid.sumColumn Grid.accumulateColumn
    have key : ∀ (n i : Nat) (cur sum : Int) (count : Nat),
        sumColumnLoop ⟨fun t cur => ok (match conv t with | some v => (true, v) | none => (false, cur)), fun a b => ok (a + b)⟩ g.store col n i cur sum count =
          accumulateLoop conv g.store col n i sum count := by
      intro n
      induction n with
      | zero => intro i cur sum count; rfl
      | succ n ih =>
        intro i cur sum count
        rw [sumColumnLoop, accumulateLoop]
        refine congrArg _ (funext fun r => ?_)
        split
        · refine congrArg _ (funext fun t => ?_)
          rw [ok_bind]
          cases conv t with
          | none => rfl
          | some v => exact ih _ _ _ _
        · exact ih _ _ _ _
    simp only [key]
  · unfold Grid.sumColumnIf Grid.accumulateColumnIf
    have key : ∀ (n i : Nat) (cur sum : Int) (count : Nat),
        sumColumnIfLoop p ⟨fun t cur => ok (match conv t with | some v => (true, v) | none => (false, cur)), fun a b => ok (a + b)⟩ g.store col n i cur sum count =
          accumulateIfLoop p conv g.store col n i sum count := by
      intro n
      induction n with
      | zero => intro i cur sum count; rfl
      | succ n ih =>
        intro i cur sum count
        rw [sumColumnIfLoop, accumulateIfLoop]
        refine congrArg _ (funext fun r => ?_)
        split
        · refine congrArg _ (funext fun row => ?_)
          split
          · refine congrArg _ (funext fun t => ?_)
            rw [ok_bind]
            cases conv t with
            | none => rfl
            | some v => exact ih _ _ _ _
          · exact ih _ _ _ _
        · exact ih _ _ _ _
    simp only [key]

-- "a,2147483647" and "b,1": the sum of the second column overflows int but not unsigned int; starting from -1 it fits
example : (do let g ← load {} (· == 10) (· == 44) [97, 44, 50, 49, 52, 55, 52, 56, 51, 54, 52, 55, 10, 98, 44, 49, 10]
              g.sumColumn (signedArith Number.int [97, 44, 50, 49, 52, 55, 52, 56, 51, 54, 52, 55, 10, 98, 44, 49, 10]) 0 1 0 2 0) = ub ∧
    (do let g ← load {} (· == 10) (· == 44) [97, 44, 50, 49, 52, 55, 52, 56, 51, 54, 52, 55, 10, 98, 44, 49, 10]
        g.sumColumn (signedArith Number.int [97, 44, 50, 49, 52, 55, 52, 56, 51, 54, 52, 55, 10, 98, 44, 49, 10]) 0 1 0 2 (-1)) = ok (2, 2147483647) ∧
    (do let g ← load {} (· == 10) (· == 44) [97, 44, 50, 49, 52, 55, 52, 56, 51, 54, 52, 55, 10, 98, 44, 49, 10]
        g.sumColumn (unsignedArith Number.uint [97, 44, 50, 49, 52, 55, 52, 56, 51, 54, 52, 55, 10, 98, 44, 49, 10]) 0 1 0 2 0) = ok (2, 2147483648) ∧
    (do let g ← load {} (· == 10) (· == 44) [97, 44, 50, 49, 52, 55, 52, 56, 51, 54, 52, 55, 10, 98, 44, 49, 10]
        g.sumColumn (unsignedArith Number.uint [97, 44, 50, 49, 52, 55, 52, 56, 51, 54, 52, 55, 10, 98, 44, 49, 10]) 0 0 0 2 7) = ok (0, 7) := by decide +kernel

example (A : Arith (Nat × Nat) Int) (hA : ∀ t c, A.conv t c = ok (true, (t.2 : Int))) :
    sample.sumRow A 0 1 5 = (do let s ← addUp A.add 5 [7, 9, 12]; ok (3, s)) :=
  (C165_row sample _ sample_rep A (fun t => (t.2 : Int)) 0 1 (by decide) 5).1 (fun t _ c => hA t c)

end Strtk.Grid
