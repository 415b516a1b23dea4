import Verif.Grid.Load

/-! # Reading a grid: columns, sums, joining, partitioning and row parsing -/

namespace Strtk.Grid
open Outcome

variable {T : Type}

theorem Rep.access {g : Grid T} {rows : List (List T)} (h : Rep g rows) (i : Nat) (hi : i < rows.length) :
    ∃ r, deref g.store.index i = ok r ∧ r.1 = (rows.take i).flatten.length ∧ r.2 + 1 = r.1 + rows[i].length ∧ tokenCount r = rows[i].length ∧
      (∀ c (hc : c < rows[i].length), deref g.store.tokens (r.1 + c) = ok rows[i][c]) ∧ rowOf g.store.tokens r = ok rows[i] ∧
      r.1 + rows[i].length ≤ g.store.tokens.length ∧ (g.store.tokens.drop r.1).take rows[i].length = rows[i] := by
  have hsplit : rows = rows.take i ++ rows[i] :: rows.drop (i + 1) := by simp
  have h' := h
  rw [hsplit] at h'
  have hl : (rows.take i).length = i := by simp; omega
  have hd := h'.deref_index
  rw [hl] at hd
  have hsm := h'.small_split
  have hpos : 0 < rows[i].length := List.length_pos_iff.mpr (h.nonempty _ (by simp))
  have htok : g.store.tokens = (rows.take i).flatten ++ rows[i] ++ (rows.drop (i + 1)).flatten := by
    rw [h'.tokens]; simp only [List.flatten_append, List.flatten_cons, List.append_assoc]
  refine ⟨_, hd, rfl, ?_, tokenCount_idx _ _ hsm, fun c hc => h'.deref_token c hc, ?_, ?_, ?_⟩
  · simp only [lastIx]; omega
  · rw [htok]; exact rowOf_idx _ _ _ hsm
  · rw [htok, List.length_append, List.length_append]; omega
  · rw [htok, List.append_assoc]; simp only [List.drop_left, List.take_left]

theorem range_succ (rows : List (List T)) (i n : Nat) (h : i < rows.length) : (rows.drop i).take (n + 1) = rows[i] :: (rows.drop (i + 1)).take n := by
  rw [List.drop_eq_getElem_cons h, List.take_succ_cons]

/-- The rows `a ≤ i < b`. -/
def between (a b : Nat) (rows : List (List T)) : List (List T) := (rows.drop a).take (b - a)

theorem Rep.extractLoop {U : Type} {g : Grid T} {rows : List (List T)} (h : Rep g rows) (conv : T → U) (col : Nat) : ∀ (n i : Nat) (out : List U),
    i + n ≤ rows.length → Grid.extractLoop conv g.store col n i out = ok (out ++ ((rows.drop i).take n).filterMap fun r => (r[col]?).map conv) := by
  intro n
  induction n with
  | zero => intro i out _; simp [Grid.extractLoop]
  | succ n ih =>
    intro i out hi
    obtain ⟨r, h1, _, _, h3, h4, _⟩ := h.access i (by omega)
    rw [range_succ rows i n (by omega)]
    simp only [Grid.extractLoop]
    rw [h1, ok_bind]
    split
    · rename_i hc
      rw [h3] at hc
      rw [h4 col hc, ok_bind, ih _ _ (by omega), List.filterMap_cons, List.getElem?_eq_getElem hc]
      simp
    · rename_i hc
      rw [h3] at hc
      rw [ih _ _ (by omega), List.filterMap_cons, List.getElem?_eq_none (by omega)]
      simp

theorem Rep.extractCheckedLoop {U : Type} {g : Grid T} {rows : List (List T)} (h : Rep g rows) (conv : T → Option U) (col : Nat) : ∀ (n i : Nat) (out : List U),
    i + n ≤ rows.length → Grid.extractCheckedLoop conv g.store col n i out = ok (out ++ ((rows.drop i).take n).filterMap fun r => (r[col]?).bind conv) := by
  intro n
  induction n with
  | zero => intro i out _; simp [Grid.extractCheckedLoop]
  | succ n ih =>
    intro i out hi
    obtain ⟨r, h1, _, _, h3, h4, _⟩ := h.access i (by omega)
    rw [range_succ rows i n (by omega)]
    simp only [Grid.extractCheckedLoop]
    rw [h1, ok_bind]
    split
    · rename_i hc
      rw [h3] at hc
      rw [h4 col hc, ok_bind, ih _ _ (by omega), List.filterMap_cons, List.getElem?_eq_getElem hc]
      simp only [Option.bind_some]
      cases conv rows[i][col] <;> simp
    · rename_i hc
      rw [h3] at hc
      rw [ih _ _ (by omega), List.filterMap_cons, List.getElem?_eq_none (by omega)]
      simp

theorem Rep.extractPlainLoop {U : Type} {g : Grid T} {rows : List (List T)} (h : Rep g rows) (conv : T → U) (col pos : Nat) : ∀ (n i : Nat) (mem : List U),
    i + n ≤ rows.length → pos < mem.length → Grid.extractPlainLoop conv g.store col pos n i mem =
      ok (match (((rows.drop i).take n).filterMap fun r => (r[col]?).map conv).getLast? with | some u => mem.set pos u | none => mem) := by
  intro n
  induction n with
  | zero => intro i mem _ _; simp [Grid.extractPlainLoop]
  | succ n ih =>
    intro i mem hi hp
    obtain ⟨r, h1, _, _, h3, h4, _⟩ := h.access i (by omega)
    rw [range_succ rows i n (by omega)]
    simp only [Grid.extractPlainLoop]
    rw [h1, ok_bind]
    split
    · rename_i hc
      rw [h3] at hc
      rw [h4 col hc, ok_bind, store_eq_ok _ hp, ok_bind, ih _ _ (by omega) (by simpa using hp), List.filterMap_cons, List.getElem?_eq_getElem hc]
      simp only [Option.map_some, List.getLast?_cons]
      cases (List.filterMap (fun r => Option.map conv r[col]?) (List.take n (List.drop (i + 1) rows))).getLast? <;> simp
    · rename_i hc
      rw [h3] at hc
      rw [ih _ _ (by omega) hp, List.filterMap_cons, List.getElem?_eq_none (by omega)]
      simp

theorem Rep.extract2Loop {U W : Type} {g : Grid T} {rows : List (List T)} (h : Rep g rows) (c0 : T → U) (c1 : T → W) (k0 k1 : Nat) :
    ∀ (n i : Nat) (o0 : List U) (o1 : List W), i + n ≤ rows.length → ∃ ps : List (T × T),
      ps = ((rows.drop i).take n).filterMap (fun r => (r[k0]?).bind fun x => (r[k1]?).map fun y => (x, y)) ∧
      Grid.extract2Loop c0 c1 g.store k0 k1 n i o0 o1 = ok (o0 ++ ps.map (fun p => c0 p.1), o1 ++ ps.map (fun p => c1 p.2)) := by
  intro n
  induction n with
  | zero => intro i o0 o1 _; exact ⟨[], by simp, by simp [Grid.extract2Loop]⟩
  | succ n ih =>
    intro i o0 o1 hi
    obtain ⟨r, h1, _, _, h3, h4, _⟩ := h.access i (by omega)
    rw [range_succ rows i n (by omega)]
    simp only [Grid.extract2Loop]
    rw [h1, ok_bind, List.filterMap_cons]
    by_cases hc : max k0 k1 < tokenCount r
    · rw [if_pos hc]
      rw [h3] at hc
      have e0 : k0 < rows[i].length := by omega
      have e1 : k1 < rows[i].length := by omega
      rw [h4 k0 e0, ok_bind, h4 k1 e1, ok_bind]
      obtain ⟨ps, p1, p2⟩ := ih (i + 1) (o0 ++ [c0 rows[i][k0]]) (o1 ++ [c1 rows[i][k1]]) (by omega)
      refine ⟨_, rfl, ?_⟩
      rw [p2, List.getElem?_eq_getElem e0, List.getElem?_eq_getElem e1]
      simp [← p1]
    · rw [if_neg hc]
      rw [h3] at hc
      obtain ⟨ps, p1, p2⟩ := ih (i + 1) o0 o1 (by omega)
      refine ⟨_, rfl, ?_⟩
      rw [p2]
      have : (rows[i][k0]?).bind (fun x => (rows[i][k1]?).map fun y => (x, y)) = none := by
        by_cases e0 : k0 < rows[i].length
        · rw [List.getElem?_eq_none (l := rows[i]) (i := k1) (by omega)]; simp
        · rw [List.getElem?_eq_none (l := rows[i]) (i := k0) (by omega)]; rfl
      rw [this]
      simp [← p1]

theorem Rep.widthLoop {g : Grid T} {rows : List (List T)} (h : Rep g rows) (len : T → Nat) (col : Nat) : ∀ (n i m : Nat), i + n ≤ rows.length →
    Grid.widthLoop len g.store col n i m = ok ((((rows.drop i).take n).filterMap fun r => (r[col]?).map len).foldl max m) := by
  intro n
  induction n with
  | zero => intro i m _; simp [Grid.widthLoop]
  | succ n ih =>
    intro i m hi
    obtain ⟨r, h1, _, _, h3, h4, _⟩ := h.access i (by omega)
    rw [range_succ rows i n (by omega)]
    simp only [Grid.widthLoop]
    rw [h1, ok_bind]
    split
    · rename_i hc
      rw [h3] at hc
      rw [h4 col hc, ok_bind, ih _ _ (by omega), List.filterMap_cons, List.getElem?_eq_getElem hc]
      simp [Nat.max_comm]
    · rename_i hc
      rw [h3] at hc
      rw [ih _ _ (by omega), List.filterMap_cons, List.getElem?_eq_none (by omega)]
      simp

/-- The values of a list of tokens, up to the first that does not convert. -/
def goodValues (conv : T → Option Int) (ts : List T) : List Int := (ts.takeWhile fun t => (conv t).isSome).filterMap conv

theorem accumulateTokens_spec (conv : T → Option Int) : ∀ (ts : List T) (sum : Int) (count : Nat),
    accumulateTokens conv ts sum count = (if ts.all fun t => (conv t).isSome then count + ts.length else 0, sum + (goodValues conv ts).sum) := by
  intro ts
  induction ts with
  | nil => intro sum count; simp [accumulateTokens, goodValues]
  | cons t ts ih =>
    intro sum count
    simp only [accumulateTokens]
    cases hc : conv t with
    | none => simp [goodValues, hc]
    | some v =>
      simp only [ih]
      simp only [goodValues, List.all_cons, hc, Option.isSome_some, Bool.true_and, List.takeWhile_cons, if_true, List.filterMap_cons, List.sum_cons, List.length_cons]
      rw [Int.add_assoc]
      congr 1
      split <;> omega

theorem Rep.accumulateLoop {g : Grid T} {rows : List (List T)} (h : Rep g rows) (conv : T → Option Int) (col : Nat) : ∀ (n i : Nat) (sum : Int) (count : Nat),
    i + n ≤ rows.length → ∀ ts, ts = ((rows.drop i).take n).filterMap (fun r => r[col]?) →
    Grid.accumulateLoop conv g.store col n i sum count =
      ok (if ts.all fun t => (conv t).isSome then count + n else 0, sum + (goodValues conv ts).sum) := by
  intro n
  induction n with
  | zero => intro i sum count _ ts hts; simp at hts; subst hts; simp [Grid.accumulateLoop, goodValues]
  | succ n ih =>
    intro i sum count hi ts hts
    obtain ⟨r, h1, _, _, h3, h4, _⟩ := h.access i (by omega)
    rw [range_succ rows i n (by omega), List.filterMap_cons] at hts
    simp only [Grid.accumulateLoop]
    rw [h1, ok_bind]
    split
    · rename_i hc
      rw [h3] at hc
      rw [h4 col hc, ok_bind]
      rw [List.getElem?_eq_getElem hc] at hts
      simp only at hts
      subst hts
      cases hv : conv rows[i][col] with
      | none => simp [goodValues, hv]
      | some v =>
        simp only
        rw [ih _ _ _ (by omega) _ rfl]
        simp only [goodValues, List.all_cons, hv, Option.isSome_some, Bool.true_and, List.takeWhile_cons, if_true, List.filterMap_cons, List.sum_cons]
        rw [Int.add_assoc]
        congr 2
        split <;> omega
    · rename_i hc
      rw [h3] at hc
      rw [List.getElem?_eq_none (by omega)] at hts
      simp only at hts
      rw [ih _ _ _ (by omega) _ hts]
      congr 2
      split <;> omega

theorem Rep.forEachLoop {g : Grid T} {rows : List (List T)} (h : Rep g rows) : ∀ (n i : Nat) (out : List (Nat × List T)), i + n ≤ rows.length →
    Grid.forEachLoop g.store n i out = ok (out ++ (((rows.drop i).take n).zipIdx i).map fun e => (e.2, e.1)) := by
  intro n
  induction n with
  | zero => intro i out _; simp [Grid.forEachLoop]
  | succ n ih =>
    intro i out hi
    obtain ⟨r, h1, _, _, h3, _, h5, _⟩ := h.access i (by omega)
    rw [range_succ rows i n (by omega)]
    simp only [Grid.forEachLoop]
    rw [h1, ok_bind, h5, ok_bind, ih _ _ (by omega)]
    simp [List.zipIdx_cons]

/-! ## Joining -/

section
variable {α : Type}

theorem joinTokens_nonempty (delim : List α) : ∀ (ts : List (List α)) (b : Bool) (res : List α), (∀ t ∈ ts, t ≠ []) →
    joinTokens delim (fun _ => true) ts b res = res ++ (if b && !ts.isEmpty then delim else []) ++ delim.intercalate ts := by
  intro ts
  induction ts with
  | nil => intro b res _; cases b <;> simp [joinTokens]
  | cons t ts ih =>
    intro b res h
    have ht := h t (by simp)
    simp only [joinTokens]
    rw [if_pos ⟨ht, trivial⟩, ih _ _ (fun x hx => h x (by simp [hx]))]
    have hd : (if (!delim.isEmpty && b) = true then res ++ delim else res) = res ++ (if b && !(t :: ts).isEmpty then delim else []) := by
      cases b <;> cases delim <;> simp
    rw [hd]
    cases ts with
    | nil => simp [List.intercalate]
    | cons u us => simp [List.intercalate]

/-- The output of the join loop in general: a delimiter precedes a token when the token before it was output. -/
def joinSpec (delim : List α) (keep : List α → Bool) : Bool → List (List α) → List α
  | _, [] => []
  | prev, t :: ts =>
    (if prev then delim else []) ++ (if t ≠ [] ∧ keep t = true then t else []) ++ joinSpec delim keep (decide (t ≠ [] ∧ keep t = true)) ts

theorem joinTokens_spec (delim : List α) (keep : List α → Bool) : ∀ (ts : List (List α)) (b : Bool) (res : List α),
    joinTokens delim keep ts b res = res ++ joinSpec delim keep b ts := by
  intro ts
  induction ts with
  | nil => intro b res; simp [joinTokens, joinSpec]
  | cons t ts ih =>
    intro b res
    have hd : (if (!delim.isEmpty && b) = true then res ++ delim else res) = res ++ (if b then delim else []) := by
      cases b <;> cases delim <;> simp
    simp only [joinTokens, joinSpec]
    rw [hd]
    split
    · rename_i hk; rw [ih]; simp [hk]
    · rename_i hk; rw [ih]; simp [hk]

theorem Rep.joinColumnLoop {g : Grid (List α)} {rows : List (List (List α))} (h : Rep g rows) (col : Nat) (delim : List α) : ∀ (n i : Nat) (b : Bool) (res : List α),
    i + n ≤ rows.length →
    Grid.joinColumnLoop g.store col delim n i b res = ok (joinTokens delim (fun _ => true) (((rows.drop i).take n).filterMap fun r => r[col]?) b res) := by
  intro n
  induction n with
  | zero => intro i b res _; simp [Grid.joinColumnLoop, joinTokens]
  | succ n ih =>
    intro i b res hi
    obtain ⟨r, h1, _, _, h3, h4, _⟩ := h.access i (by omega)
    rw [range_succ rows i n (by omega), List.filterMap_cons]
    simp only [Grid.joinColumnLoop]
    rw [h1, ok_bind]
    split
    · rename_i hc
      rw [h3] at hc
      rw [h4 col hc, ok_bind, List.getElem?_eq_getElem hc]
      simp only [joinTokens, and_true]
      split
      · rw [ih _ _ _ (by omega)]
      · rw [ih _ _ _ (by omega)]
    · rename_i hc
      rw [h3] at hc
      rw [ih _ _ _ (by omega), List.getElem?_eq_none (by omega)]

/-- The tokens `join_row` looks at: all of them, except that the last one is left out in the last row. -/
def joinedTokens (rows : List (List (List α))) (i : Nat) (hi : i < rows.length) : List (List α) :=
  if i + 1 < rows.length then rows[i] else rows[i].dropLast

theorem Rep.joinRow {g : Grid (List α)} {rows : List (List (List α))} (h : Rep g rows) (i : Nat) (hi : i < rows.length) (keep : List α → Bool)
    (delim res : List α) : g.joinRow i keep delim res = ok (true, joinTokens delim keep (joinedTokens rows i hi) false res) := by
  obtain ⟨r, h1, h0, h2, h3, h4, h5, h6, h7⟩ := h.access i hi
  have hne : 0 < rows[i].length := List.length_pos_iff.mpr (h.nonempty _ (by simp))
  unfold Grid.joinRow
  rw [h.rowCount, if_neg (by omega), h1, ok_bind]
  simp only
  unfold joinedTokens
  by_cases hl : i + 1 < rows.length
  · have hlt : r.1 + rows[i].length < g.store.tokens.length := by
      obtain ⟨r', _, k0, _, _, _, _, k6, _⟩ := h.access (i + 1) hl
      have : 0 < (rows[i + 1]).length := List.length_pos_iff.mpr (h.nonempty _ (by simp))
      have e : (rows.take (i + 1)).flatten.length = (rows.take i).flatten.length + rows[i].length := by
        rw [List.take_succ_eq_append_getElem hi, List.flatten_append, List.length_append]
        simp
      omega
    rw [if_pos (show i < rows.length - 1 by omega), if_pos hl, if_pos ⟨by omega, by omega⟩]
    have : r.2 + 1 - r.1 = rows[i].length := by omega
    rw [this, h7]
  · rw [if_neg (show ¬ i < rows.length - 1 by omega), if_neg hl, Nat.add_zero, if_pos ⟨by omega, by omega⟩]
    have : r.2 - r.1 = rows[i].length - 1 := by omega
    rw [this, List.dropLast_eq_take]
    have e : (g.store.tokens.drop r.1).take (rows[i].length - 1) = ((g.store.tokens.drop r.1).take rows[i].length).take (rows[i].length - 1) := by
      rw [List.take_take]; congr 1; omega
    rw [e, h7]

end

/-! ## Partitioning -/

/-- Row `j` signals a transition. -/
def signals (p : Nat → List T → Bool) (rows : List (List T)) (j : Nat) : Prop := ∃ r, rows[j]? = some r ∧ p j r = true

/-- The row ranges handed to the function: consecutive, from `a` to `b`.  A range ends at a row that signals, provided that some row after the first of
the range did not signal; otherwise the range goes on. -/
inductive Pieces (sig : Nat → Prop) (b : Nat) : Nat → List (Nat × Nat) → Prop
  | none : Pieces sig b b []
  | last (a : Nat) (h : a < b) (hin : ∀ j, a < j → j < b → sig j → ∀ k, a < k → k < j → sig k) : Pieces sig b a [(a, b)]
  | cons (a c : Nat) (rest : List (Nat × Nat)) (h1 : a < c) (h2 : c < b) (hin : ∀ j, a < j → j < c → sig j → ∀ k, a < k → k < j → sig k)
      (hsig : sig c) (hno : ∃ k, a < k ∧ k < c ∧ ¬ sig k) (hr : Pieces sig b c rest) : Pieces sig b a ((a, c) :: rest)

/-- The calls that are made: all, up to the first that is answered with `false`. -/
def untilFalse {β : Type} (f : β → Bool) : List β → List β
  | [] => []
  | x :: xs => if f x then x :: untilFalse f xs else [x]

theorem Rep.partitionLoop {g : Grid T} {rows : List (List T)} (h : Rep g rows) (p : Nat → List T → Bool) (f : Nat × Nat → Bool) (b : Nat) (hb : b ≤ rows.length) :
    ∀ (n i first second : Nat) (calls : List (Nat × Nat)), i + n = b → first ≤ i →
      (first ≠ second ↔ ∃ k, first < k ∧ k < i ∧ ¬ signals p rows k) →
      (∀ j, first < j → j < i → signals p rows j → ∀ k, first < k → k < j → signals p rows k) → (first = i → second = i) → 
      ∃ pieces, Pieces (signals p rows) b first pieces ∧ ∃ go last done, Grid.partitionLoop p f g.store n i first second calls = ok (go, last, calls ++ done) ∧
        (if go = true then (if last ≠ b then done ++ [(last, b)] = pieces else done = pieces) ∧ done.all f = true else
          pieces.all f = false ∧ done = untilFalse f pieces) := by
  intro n
  induction n with
  | zero =>
    intro i first second calls hi hfi h1 h2 _
    by_cases hfb : first = b
    · refine ⟨[], by rw [hfb]; exact .none, true, first, [], by simp [Grid.partitionLoop], ?_⟩
      simp [hfb]
    · refine ⟨[(first, b)], .last _ (by omega) (fun j hj hjb => h2 j hj (by omega)), true, first, [], by simp [Grid.partitionLoop], ?_⟩
      simp [hfb]
  | succ n ih =>
    intro i first second calls hi hfi h1 h2 h3
    obtain ⟨r, d1, _, _, _, _, d5, _⟩ := h.access i (by omega)
    have hsig : signals p rows i ↔ p i rows[i] = true := by
      unfold signals
      rw [List.getElem?_eq_getElem (by omega)]
      simp
    simp only [Grid.partitionLoop]
    rw [d1, ok_bind, d5, ok_bind]
    by_cases hp : p i rows[i] = true
    · rw [if_pos hp]
      by_cases hfs : first ≠ second
      · rw [if_pos hfs]
        obtain ⟨k, k1, k2, k3⟩ := h1.mp hfs
        obtain ⟨pieces, q1, go, last, done, q2, q3⟩ := ih (i + 1) i i (calls ++ [(first, i)]) (by omega) (by omega)
          ⟨fun hh => absurd rfl hh, fun ⟨k, a1, a2, _⟩ => by omega⟩ (fun j a1 a2 => by omega) (fun hh => by omega)
        refine ⟨(first, i) :: pieces, .cons _ _ _ (by omega) (by omega) h2 (hsig.mpr hp) ⟨k, k1, k2, k3⟩ q1, ?_⟩
        by_cases hf : f (first, i) = true
        · refine ⟨go, last, (first, i) :: done, ?_, ?_⟩
          · rw [hf]; simp only [Bool.not_true, Bool.false_eq_true, if_false]; rw [q2]; simp
          · split at q3
            · rename_i hgo
              rw [if_pos hgo]
              obtain ⟨e1, e2⟩ := q3
              refine ⟨?_, by simp [hf, e2]⟩
              split at e1
              · rename_i hlb; rw [if_pos hlb, ← e1]; rfl
              · rename_i hlb; rw [if_neg hlb, ← e1]
            · rename_i hgo
              rw [if_neg hgo]
              obtain ⟨e1, e2⟩ := q3
              refine ⟨by simp only [List.all_cons, hf, e1, Bool.and_false], by rw [e2]; simp [untilFalse, hf]⟩
        · have hf' : f (first, i) = false := by simpa using hf
          refine ⟨false, first, [(first, i)], by rw [hf']; simp, ?_⟩
          rw [if_neg (by simp)]
          exact ⟨by simp [hf'], by simp [untilFalse, hf']⟩
      · rw [if_neg hfs]
        have hfs' : first = second := by omega
        subst hfs'
        by_cases hfi' : first = i
        · exact ih (i + 1) first first calls (by omega) (by omega)
            ⟨fun hh => absurd rfl hh, fun ⟨k, a1, a2, _⟩ => by omega⟩ (fun j a1 a2 => by omega) (fun hh => by omega)
        · refine ih (i + 1) first first calls (by omega) (by omega)
            ⟨fun hh => absurd rfl hh, fun ⟨k, a1, a2, a3⟩ => ?_⟩ (fun j a1 a2 _ k b1 b2 => ?_) (fun hh => by omega)
          · by_cases hk : k < i
            · exact h1.mpr ⟨k, a1, hk, a3⟩
            · have : k = i := by omega
              subst this
              exact absurd (hsig.mpr hp) a3
          · have hall : ¬ ∃ k, first < k ∧ k < i ∧ ¬ signals p rows k := fun hh => absurd rfl (h1.mpr hh)
            by_cases hs : signals p rows k
            · exact hs
            · exact absurd ⟨k, b1, by omega, hs⟩ hall
    · rw [if_neg hp]
      have hns : ¬ signals p rows i := fun hh => hp (hsig.mp hh)
      refine ih (i + 1) first i calls (by omega) (by omega) ⟨fun hh => ⟨i, by omega, by omega, hns⟩, fun ⟨k, a1, a2, _⟩ => by omega⟩
        (fun j a1 a2 hj => ?_) (fun hh => by omega)
      by_cases hji : j = i
      · subst hji; exact absurd hj hns
      · exact h2 j a1 (by omega) hj

theorem untilFalse_all {β : Type} (f : β → Bool) (l : List β) (h : l.all f = true) : untilFalse f l = l := by
  induction l with
  | nil => rfl
  | cons x xs ih =>
    simp only [List.all_cons, Bool.and_eq_true] at h
    simp [untilFalse, h.1, ih h.2]

theorem untilFalse_last {β : Type} (f : β → Bool) (l : List β) (x : β) (h : l.all f = true) : untilFalse f (l ++ [x]) = l ++ [x] := by
  induction l with
  | nil => simp [untilFalse]
  | cons y ys ih =>
    simp only [List.all_cons, Bool.and_eq_true] at h
    simp [untilFalse, h.1, ih h.2]

theorem Rep.partition {g : Grid T} {rows : List (List T)} (h : Rep g rows) (a b : Nat) (hv : ValidRange rows a b) (p : Nat → List T → Bool) (f : Nat × Nat → Bool) :
    ∃ pieces, Pieces (signals p rows) b a pieces ∧ g.partition a b p f = ok (pieces.all f, untilFalse f pieces) := by
  have hv' : ¬ g.rangeInvalid a b = true := fun hh => (h.rangeInvalid a b).mp hh hv
  obtain ⟨pieces, p1, go, last, done, p2, p3⟩ := h.partitionLoop p f b hv.2 (b - a) a a a [] (by have := hv.1; omega) (Nat.le_refl _)
    ⟨fun hh => absurd rfl hh, fun ⟨k, a1, a2, _⟩ => by omega⟩ (fun j a1 a2 => by omega) (fun _ => rfl)
  refine ⟨pieces, p1, ?_⟩
  unfold Grid.partition
  rw [if_neg hv', p2, ok_bind]
  simp only [List.nil_append]
  cases go with
  | false =>
    simp only [Bool.false_eq_true, if_false] at p3
    simp [p3.1, p3.2]
  | true =>
    simp only [if_true] at p3
    obtain ⟨p3, p4⟩ := p3
    simp only [Bool.not_true, Bool.false_eq_true, if_false]
    split
    · rename_i hl
      rw [if_pos hl] at p3
      subst p3
      rw [untilFalse_last f _ _ p4]
      simp [p4]
    · rename_i hl
      rw [if_neg hl] at p3
      subst p3
      rw [untilFalse_all f _ p4, p4]

/-- The ranges are consecutive, non-empty and cover `a..b`. -/
theorem Pieces.tiles {sig : Nat → Prop} {b a : Nat} {l : List (Nat × Nat)} (h : Pieces sig b a l) :
    a ≤ b ∧ (l.flatMap fun q => List.range' q.1 (q.2 - q.1)) = List.range' a (b - a) ∧ ∀ q ∈ l, q.1 < q.2 := by
  induction h with
  | none => simp
  | last a h _ => simp; omega
  | cons a c rest h1 h2 _ _ _ _ ih =>
    obtain ⟨i1, i2, i3⟩ := ih
    refine ⟨by omega, ?_, ?_⟩
    · rw [List.flatMap_cons, i2]
      have : b - a = (c - a) + (b - c) := by omega
      rw [this, ← List.range'_append (s := a) (m := c - a) (n := b - c) (step := 1)]
      congr 2
      omega
    · intro q hq
      rcases List.mem_cons.mp hq with rfl | hq
      · exact h1
      · exact i3 q hq

theorem Pieces.starts {sig : Nat → Prop} {b a : Nat} {l : List (Nat × Nat)} (h : Pieces sig b a l)
    (hs : ∀ j, a < j → j < b → sig j → a + 1 < j ∧ ¬ sig (j - 1)) (j : Nat) :
    (∃ y, (j, y) ∈ l) ↔ a < b ∧ (j = a ∨ (a < j ∧ j < b ∧ sig j)) := by
  induction h with
  | none => simp
  | last a h hin =>
    simp only [List.mem_singleton, Prod.mk.injEq]
    constructor
    · rintro ⟨y, rfl, _⟩; exact ⟨h, Or.inl rfl⟩
    · rintro ⟨_, rfl | ⟨h1, h2, h3⟩⟩
      · exact ⟨b, rfl, rfl⟩
      · obtain ⟨e1, e2⟩ := hs j h1 h2 h3
        exact absurd (hin j h1 h2 h3 (j - 1) (by omega) (by omega)) e2
  | cons a c rest h1 h2 hin hsig hno hr ih =>
    have hs' : ∀ j, c < j → j < b → sig j → c + 1 < j ∧ ¬ sig (j - 1) := by
      intro j j1 j2 j3
      obtain ⟨e1, e2⟩ := hs j (by omega) j2 j3
      refine ⟨?_, e2⟩
      rcases Nat.lt_or_ge (c + 1) j with hlt | hge
      · exact hlt
      · have : j - 1 = c := by omega
        rw [this] at e2; exact absurd hsig e2
    have := ih hs'
    simp only [List.mem_cons, Prod.mk.injEq]
    constructor
    · rintro ⟨y, ⟨rfl, _⟩ | hy⟩
      · exact ⟨by omega, Or.inl rfl⟩
      · rcases this.mp ⟨y, hy⟩ with ⟨_, rfl | ⟨k1, k2, k3⟩⟩
        · exact ⟨by omega, Or.inr ⟨h1, h2, hsig⟩⟩
        · exact ⟨by omega, Or.inr ⟨by omega, k2, k3⟩⟩
    · rintro ⟨_, rfl | ⟨k1, k2, k3⟩⟩
      · exact ⟨c, Or.inl ⟨rfl, rfl⟩⟩
      · rcases Nat.lt_trichotomy j c with hj | rfl | hj
        · obtain ⟨e1, e2⟩ := hs j k1 k2 k3
          exact absurd (hin j k1 hj k3 (j - 1) (by omega) (by omega)) e2
        · obtain ⟨y, hy⟩ := this.mpr ⟨by omega, Or.inl rfl⟩
          exact ⟨y, Or.inr hy⟩
        · obtain ⟨y, hy⟩ := this.mpr ⟨by omega, Or.inr ⟨hj, k2, k3⟩⟩
          exact ⟨y, Or.inr hy⟩

/-! ## Row parsing -/

/-- Convert until one conversion fails. -/
def convertAll {V : Type} (conv : Nat → T → Bool × V) : Nat → List T → Bool × List V
  | _, [] => (true, [])
  | k, t :: ts => if (conv k t).1 then ((convertAll conv (k + 1) ts).1, (conv k t).2 :: (convertAll conv (k + 1) ts).2) else (false, [(conv k t).2])

theorem parseRowAt_spec {V : Type} (conv : Nat → T → Bool × V) (tokens : List T) (b : Nat) : ∀ (cols : List Nat) (k : Nat) (out : List V) (ts : List T),
    cols.mapM (fun c => tokens[b + c]?) = some ts →
    parseRowAt conv tokens b k cols out = ok ((convertAll conv k ts).1, out ++ (convertAll conv k ts).2) := by
  intro cols
  induction cols with
  | nil => intro k out ts h; simp at h; subst h; simp [parseRowAt, convertAll]
  | cons c cs ih =>
    intro k out ts h
    rw [List.mapM_cons] at h
    simp only [Option.bind_eq_bind, Option.bind_eq_some_iff, Option.pure_def, Option.some.injEq] at h
    obtain ⟨t, h1, ts', h2, rfl⟩ := h
    simp only [parseRowAt]
    have : deref tokens (b + c) = ok t := by unfold deref; rw [h1]
    rw [this, ok_bind]
    simp only [convertAll]
    split
    · rw [ih _ _ _ h2]; simp
    · simp

theorem Rep.rowParse {V : Type} {g : Grid T} {rows : List (List T)} (h : Rep g rows) (conv : Nat → T → Bool × V) (i : Nat) (hi : i < rows.length) (cols : List Nat)
    (hc : ∀ c ∈ cols, c < rows[i].length) : ∃ ts, cols.mapM (fun c => rows[i][c]?) = some ts ∧ g.rowParse conv i cols = ok (convertAll conv 0 ts) := by
  obtain ⟨r, h1, _, _, _, h4, _⟩ := h.access i hi
  have : ∀ (cols : List Nat), (∀ c ∈ cols, c < rows[i].length) → ∃ ts, cols.mapM (fun c => rows[i][c]?) = some ts ∧
      cols.mapM (fun c => g.store.tokens[r.1 + c]?) = some ts := by
    intro cols
    induction cols with
    | nil => intro _; exact ⟨[], rfl, rfl⟩
    | cons c cs ih =>
      intro hc
      obtain ⟨ts, t1, t2⟩ := ih (fun x hx => hc x (by simp [hx]))
      have hcl := hc c (by simp)
      have hd := h4 c hcl
      have hd : g.store.tokens[r.1 + c]? = some rows[i][c] := by
        unfold deref at hd
        cases he : g.store.tokens[r.1 + c]? with
        | none => rw [he] at hd; exact absurd hd (by simp)
        | some v => rw [he] at hd; injection hd with hd; rw [hd]
      exact ⟨rows[i][c] :: ts, by rw [List.mapM_cons, t1, List.getElem?_eq_getElem hcl]; rfl, by rw [List.mapM_cons, t2, hd]; rfl⟩
  obtain ⟨ts, t1, t2⟩ := this cols hc
  refine ⟨ts, t1, ?_⟩
  unfold Grid.rowParse
  rw [h1, ok_bind, parseRowAt_spec conv _ _ cols 0 [] ts t2]
  simp

end Strtk.Grid
