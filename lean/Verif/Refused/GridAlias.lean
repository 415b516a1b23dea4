import Verif.Refused.GridJoin

/-!
# Joining a row of a token grid into the string that is the delimiter, or into the string whose text was loaded (strtk.hpp 7076-7158)

`join_row` takes the delimiter by reference, and a grid made from a string (6346-6357, 6409-6424) points into the memory of that string.
-/

namespace Strtk.Refused
open Outcome Mem Strtk.Codec Strtk.Grid

/-! ## Model: the result is the delimiter -/

/-- The loop of `join_row` (7092-7106, 7129-7146) when `delimiter` and `result` are one string. -/
def joinTokensSelf {α : Type} (keep : List α → Bool) : List (List α) → Bool → List α → List α
  | [], _, result => result
  | t :: ts, appended, result =>
    let result := if !result.isEmpty && appended then result ++ result else result
    if t ≠ [] ∧ keep t = true then joinTokensSelf keep ts true (result ++ t) else joinTokensSelf keep ts false result

/-- `join_row(row,[predicate,]s,s)` (7076-7149). -/
def joinRowSelf {α : Type} (g : Grid (List α)) (row : Nat) (keep : List α → Bool) (result : List α) : Outcome (Bool × List α) :=
  if row ≥ g.store.index.length then ok (false, result)
  else do
    let r ← deref g.store.index row
    let stop := r.2 + (if row < g.store.index.length - 1 then 1 else 0)
    if r.1 ≤ stop ∧ stop < g.store.tokens.length then
      ok (true, joinTokensSelf keep ((g.store.tokens.drop r.1).take (stop - r.1)) false result)
    else ub

/-! ## Model: the result is the string that was loaded -/

/-- The string, its capacity, and whether its characters are still where the grid points to. -/
structure Own where
  text : List Byte
  cap : Nat
  live : Bool
  deriving DecidableEq, Repr

/-- `std::string::append`; `grow` is the policy of the string, as in C179.  A text that does not fit moves to another place. -/
def Own.append (grow : Nat → Nat → Nat) (s : Own) (x : List Byte) : Own :=
  if s.text.length + x.length ≤ s.cap then { s with text := s.text ++ x } else ⟨s.text ++ x, grow s.cap (s.text.length + x.length), false⟩

/-- `std::string::reserve` (one that does not give memory back). -/
def Own.reserve (grow : Nat → Nat → Nat) (s : Own) (n : Nat) : Own :=
  if n ≤ s.cap then s else ⟨s.text, grow s.cap n, false⟩

/-- The loop of `join_row` (7092-7106, 7129-7146) when the tokens lie in `result`.  A token of some length is read by `append` (through a temporary string, since its
iterators are `unsigned char*`) and by the predicate. -/
def joinTokensOwn (grow : Nat → Nat → Nat) (keep : List Byte → Bool) (delim : List Byte) : List (Nat × Nat) → Bool → Own → Outcome Own
  | [], _, s => ok s
  | t :: ts, appended, s =>
    let s := if !delim.isEmpty && appended then s.append grow delim else s
    if t.1 ≠ t.2 then
      if s.live then
        if keep (tokenText s.text t) then joinTokensOwn grow keep delim ts true (s.append grow (tokenText s.text t))
        else joinTokensOwn grow keep delim ts false s
      else ub
    else joinTokensOwn grow keep delim ts false s

/-- `join_row(row,[predicate,]delimiter,s)` (7076-7149) of a grid that was made from the string `s`. -/
def joinRowOwn (grow : Nat → Nat → Nat) (g : Grid (Nat × Nat)) (row : Nat) (keep : List Byte → Bool) (delim : List Byte) (s : Own) : Outcome (Bool × Own) :=
  if row ≥ g.store.index.length then ok (false, s)
  else do
    let r ← deref g.store.index row
    let stop := r.2 + (if row < g.store.index.length - 1 then 1 else 0)
    let first ← deref g.store.tokens r.1
    let last ← deref g.store.tokens stop
    let s := s.reserve grow ((delim.length * tokenCount r + (2 ^ 64 + last.2 - first.1)) % 2 ^ 64)
    let s ← joinTokensOwn grow keep delim ((g.store.tokens.drop r.1).take (stop - r.1)) false s
    ok (true, s)

/-! ## Specification -/

/-- Some token is looked at behind one that was put out. -/
def Follows {α : Type} (keep : List α → Bool) (ts : List (List α)) : Prop := ∃ pre t u post, ts = pre ++ t :: u :: post ∧ t ≠ [] ∧ keep t = true

/-- What `join_row` reserves: the delimiters, and the characters from the beginning of the row to the end of the first token of the next row (in the last row, of its own
last token). -/
def reserved (delim : List Byte) (rows : List (List (Nat × Nat))) (i : Nat) (hi : i < rows.length) : Nat :=
  delim.length * rows[i].length +
    ((if i + 1 < rows.length then (rows[i + 1]?.getD []).headD (0, 0) else rows[i].getLastD (0, 0)).2 - (rows[i].headD (0, 0)).1)

/-! ## The delimiter -/

theorem joinTokensSelf_le {α : Type} (keep : List α → Bool) (d : List α) : ∀ (ts : List (List α)) (b : Bool) (r r' : List α), r.length ≤ r'.length → d.length ≤ r'.length →
    (joinTokens d keep ts b r).length ≤ (joinTokensSelf keep ts b r').length := by
  intro ts
  induction ts with
  | nil => intro b r r' h _; exact h
  | cons t ts ih =>
    intro b r r' h hd
    have h1 : (if !d.isEmpty && b then r ++ d else r).length ≤ (if !r'.isEmpty && b then r' ++ r' else r').length := by
      cases b
      · simpa using h
      · cases d with
        | nil => cases r' <;> simp at h ⊢ <;> omega
        | cons c d =>
          cases r' with
          | nil => simp at hd
          | cons c' r' => simp at h hd ⊢; omega
    have h2 : d.length ≤ (if !r'.isEmpty && b then r' ++ r' else r').length := by
      split
      · simp; omega
      · exact hd
    simp only [joinTokens, joinTokensSelf]
    split
    · exact ih _ _ _ (by simp only [List.length_append]; omega) (by simp only [List.length_append]; omega)
    · exact ih _ _ _ h1 h2

theorem joinTokensSelf_lt {α : Type} (keep : List α → Bool) (d : List α) (t : List α) (ts : List (List α)) (r : List α) (hr : d.length < r.length) :
    (joinTokens d keep (t :: ts) true r).length < (joinTokensSelf keep (t :: ts) true r).length := by
  have hlt : ∀ (ts : List (List α)) (b : Bool) (r r' : List α), r.length < r'.length → d.length ≤ r'.length →
      (joinTokens d keep ts b r).length < (joinTokensSelf keep ts b r').length := by
    intro ts
    induction ts with
    | nil => intro b r r' h _; exact h
    | cons t ts ih =>
      intro b r r' h hd
      have h1 : (if !d.isEmpty && b then r ++ d else r).length < (if !r'.isEmpty && b then r' ++ r' else r').length := by
        cases b
        · simpa using h
        · cases d with
          | nil => cases r' <;> simp at h ⊢ <;> omega
          | cons c d =>
            cases r' with
            | nil => simp at hd
            | cons c' r' => simp at h hd ⊢; omega
      have h2 : d.length ≤ (if !r'.isEmpty && b then r' ++ r' else r').length := by
        split
        · simp; omega
        · exact hd
      simp only [joinTokens, joinTokensSelf]
      split
      · exact ih _ _ _ (by simp only [List.length_append]; omega) (by simp only [List.length_append]; omega)
      · exact ih _ _ _ h1 h2
  have h1 : (if !d.isEmpty && true then r ++ d else r).length < (if !r.isEmpty && true then r ++ r else r).length := by
    cases r with
    | nil => simp at hr
    | cons c r => cases d <;> simp at hr ⊢; omega
  have h2 : d.length ≤ (if !r.isEmpty && true then r ++ r else r).length := by
    split
    · simp; omega
    · omega
  simp only [joinTokens, joinTokensSelf]
  split
  · exact hlt _ _ _ _ (by simp only [List.length_append]; omega) (by simp only [List.length_append]; omega)
  · exact hlt _ _ _ _ h1 h2

theorem joinTokensSelf_iff {α : Type} (keep : List α → Bool) (d : List α) : ∀ (ts : List (List α)),
    joinTokensSelf keep ts false d = joinTokens d keep ts false d ↔ ¬ Follows keep ts := by
  intro ts
  induction ts with
  | nil =>
    refine ⟨fun _ => ?_, fun _ => rfl⟩
    rintro ⟨pre, t, u, post, h, _⟩
    cases pre <;> simp at h
  | cons t ts ih =>
    simp only [joinTokens, joinTokensSelf, Bool.and_false, Bool.false_eq_true, if_false]
    by_cases hk : t ≠ [] ∧ keep t = true
    · rw [if_pos hk, if_pos hk]
      cases ts with
      | nil =>
        refine ⟨fun _ => ?_, fun _ => rfl⟩
        rintro ⟨pre, a, u, post, h, _⟩
        cases pre with
        | nil => simp at h
        | cons b pre => cases pre <;> simp at h
      | cons u us =>
        have hpos := List.length_pos_iff.mpr hk.1
        have := joinTokensSelf_lt keep d u us (d ++ t) (by simp only [List.length_append]; omega)
        refine ⟨fun e => ?_, fun h => absurd ⟨[], t, u, us, rfl, hk⟩ h⟩
        rw [e] at this
        omega
    · rw [if_neg hk, if_neg hk, ih]
      refine not_congr ⟨?_, ?_⟩
      · rintro ⟨pre, a, u, post, h, ha⟩
        exact ⟨t :: pre, a, u, post, by rw [h]; rfl, ha⟩
      · rintro ⟨pre, a, u, post, h, ha⟩
        cases pre with
        | nil =>
          rw [List.nil_append] at h
          rw [← (List.cons.inj h).1] at ha
          exact absurd ha hk
        | cons b pre => exact ⟨pre, a, u, post, (List.cons.inj h).2, ha⟩

theorem joinRowSelf_eq {α : Type} (g : Grid (List α)) (rows : List (List (List α))) (h : Rep g rows) (i : Nat) (hi : i < rows.length) (keep : List α → Bool) (s : List α) :
    joinRowSelf g i keep s = ok (true, joinTokensSelf keep (if i + 1 < rows.length then rows[i] else rows[i].dropLast) false s) := by
  obtain ⟨r, h1, h0, h2, h3, h4, h5, h6, h7⟩ := h.access i hi
  have hne : 0 < rows[i].length := List.length_pos_iff.mpr (h.nonempty _ (by simp))
  unfold joinRowSelf
  rw [h.rowCount, if_neg (by omega), h1, ok_bind]
  simp only
  by_cases hl : i + 1 < rows.length
  · have hlt : r.1 + rows[i].length < g.store.tokens.length := by
      obtain ⟨r', _, k0, _, _, _, _, k6, _⟩ := h.access (i + 1) hl
      have : 0 < (rows[i + 1]).length := List.length_pos_iff.mpr (h.nonempty _ (by simp))
      have e : (rows.take (i + 1)).flatten.length = (rows.take i).flatten.length + rows[i].length := by
        rw [List.take_succ_eq_append_getElem hi, List.flatten_append, List.length_append]
        simp
      omega
    rw [if_pos (show i < rows.length - 1 by omega), if_pos hl, if_pos ⟨by omega, by omega⟩]
    have : r.2 + 1 - r.1 = rows[i].length := by omega
    rw [this, h7]
  · rw [if_neg (show ¬ i < rows.length - 1 by omega), if_neg hl, Nat.add_zero, if_pos ⟨by omega, by omega⟩]
    have : r.2 - r.1 = rows[i].length - 1 := by omega
    rw [this, List.dropLast_eq_take]
    have e : (g.store.tokens.drop r.1).take (rows[i].length - 1) = ((g.store.tokens.drop r.1).take rows[i].length).take (rows[i].length - 1) := by
      rw [List.take_take]; congr 1; omega
    rw [e, h7]

/-- **C190**: `join_row` with one string as delimiter and as result does the same as with a copy of it as delimiter exactly when no token is looked at behind one that
was put out.  Missing for C190: rows where one is. -/
theorem C190_delimiter_partial {α : Type} (g : Grid (List α)) (rows : List (List (List α))) (h : Rep g rows) (i : Nat) (hi : i < rows.length) (keep : List α → Bool) (s : List α) :
    joinRowSelf g i keep s = g.joinRow i keep s s ↔ ¬ Follows keep (if i + 1 < rows.length then rows[i] else rows[i].dropLast) := by
  rw [joinRowSelf_eq g rows h i hi, h.joinRow i hi, ← joinTokensSelf_iff keep s]
  unfold joinedTokens
  constructor
  · intro e; exact (Prod.mk.inj (Outcome.ok.inj e)).2
  · intro e; rw [e]

/-- **C190**: the text that results, for a row (not the last) whose tokens are not empty: it doubles with every token. -/
theorem C190_doubles {α : Type} (g : Grid (List α)) (rows : List (List (List α))) (h : Rep g rows) (i : Nat) (hi : i + 1 < rows.length) (s t : List α) (ts : List (List α))
    (hr : rows[i] = t :: ts) (hne : ∀ u ∈ rows[i], u ≠ []) :
    joinRowSelf g i (fun _ => true) s = ok (true, ts.foldl (fun r u => r ++ r ++ u) (s ++ t)) := by
  rw [joinRowSelf_eq g rows h i (by omega), if_pos hi, hr]
  rw [hr] at hne
  have loop : ∀ (ts : List (List α)) (r : List α), r ≠ [] → (∀ u ∈ ts, u ≠ []) → joinTokensSelf (fun _ => true) ts true r = ts.foldl (fun r u => r ++ r ++ u) r := by
    intro ts
    induction ts with
    | nil => intro r _ _; rfl
    | cons u ts ih =>
      intro r hr hu
      have hr' : r.isEmpty = false := by cases r with | nil => exact absurd rfl hr | cons _ _ => rfl
      simp only [joinTokensSelf, hr', Bool.not_false, Bool.and_self, if_true, and_true, List.foldl_cons]
      rw [if_pos (hu u (by simp))]
      exact ih _ (by simp [hr]) (fun v hv => hu v (by simp [hv]))
  simp only [joinTokensSelf, Bool.and_false, Bool.false_eq_true, if_false, and_true]
  rw [if_pos (hne t (by simp)), loop ts _ (by simp [hne t (by simp)]) (fun u hu => hne u (by simp [hu]))]

/-! ## The string that was loaded -/

theorem tokenText_prefix (buf more : List Byte) (t : Nat × Nat) (h1 : t.1 ≤ t.2) (h : t.2 ≤ buf.length) : tokenText (buf ++ more) t = tokenText buf t := by
  unfold tokenText
  rw [List.drop_append_of_le_length (by omega), List.take_append_of_le_length (by rw [List.length_drop]; omega)]

theorem joinTokensOwn_ok (grow : Nat → Nat → Nat) (keep : List Byte → Bool) (delim buf : List Byte) : ∀ (ts : List (Nat × Nat)) (b : Bool) (s : Own) (more : List Byte),
    s.live = true → s.text = buf ++ more → (∀ t ∈ ts, t.1 ≤ t.2 ∧ t.2 ≤ buf.length) →
    s.text.length + (joinSpec delim keep b (ts.map (tokenText buf))).length ≤ s.cap →
    joinTokensOwn grow keep delim ts b s = ok { s with text := s.text ++ joinSpec delim keep b (ts.map (tokenText buf)) } := by
  intro ts
  induction ts with
  | nil => intro b s more _ _ _ _; simp [joinTokensOwn, joinSpec]
  | cons t ts ih =>
    intro b s more hl ht hv hroom
    have h1 := hv t (by simp)
    have hne := tokenText_ne buf t h1.1 h1.2
    have hvs : ∀ u ∈ ts, u.1 ≤ u.2 ∧ u.2 ≤ buf.length := fun u hu => hv u (by simp [hu])
    simp only [List.map_cons, joinSpec, List.length_append] at hroom
    have e : (if (!delim.isEmpty && b) = true then s.append grow delim else s) = { s with text := s.text ++ (if b then delim else []) } := by
      cases b
      · simp
      · cases hd : delim with
        | nil => simp
        | cons c d =>
          simp only [List.isEmpty_cons, Bool.not_false, Bool.and_self, if_true, Own.append]
          rw [if_pos (by simp only [hd, if_true] at hroom; omega)]
    have ht' : ∀ x, s.text ++ x = buf ++ (more ++ x) := by intro x; rw [ht]; simp
    simp only [joinTokensOwn, e, hl, if_true, List.map_cons, joinSpec]
    rw [ht', tokenText_prefix buf _ t h1.1 h1.2, ← ht']
    by_cases ha : t.1 ≠ t.2
    · rw [if_pos ha]
      by_cases hk : keep (tokenText buf t) = true
      · have hb : tokenText buf t ≠ [] ∧ keep (tokenText buf t) = true := ⟨hne.mpr ha, hk⟩
        simp only [if_pos hb, decide_eq_true hb] at hroom
        rw [if_pos hk]
        simp only [if_pos hb, decide_eq_true hb]
        rw [Own.append, if_pos (by simp only [List.length_append]; omega)]
        refine (ih true _ (more ++ (if b then delim else []) ++ tokenText buf t) rfl (by simp [ht]) hvs (by simp only [List.length_append]; omega)).trans ?_
        simp
      · have hb : ¬ (tokenText buf t ≠ [] ∧ keep (tokenText buf t) = true) := fun h => hk h.2
        simp only [if_neg hb, decide_eq_false hb, List.length_nil] at hroom
        rw [if_neg hk]
        simp only [if_neg hb, decide_eq_false hb]
        refine (ih false _ (more ++ (if b then delim else [])) rfl (by simp [ht]) hvs (by simp only [List.length_append]; omega)).trans ?_
        simp
    · have hb : ¬ (tokenText buf t ≠ [] ∧ keep (tokenText buf t) = true) := fun h => ha (hne.mp h.1)
      simp only [if_neg hb, decide_eq_false hb, List.length_nil] at hroom
      rw [if_neg ha]
      simp only [if_neg hb, decide_eq_false hb]
      refine (ih false _ (more ++ (if b then delim else [])) rfl (by simp [ht]) hvs (by simp only [List.length_append]; omega)).trans ?_
      simp

theorem append_dead (grow : Nat → Nat → Nat) (s : Own) (x : List Byte) (h : s.live = false) : (s.append grow x).live = false := by
  unfold Own.append
  split
  · exact h
  · rfl

theorem joinTokensOwn_dead (grow : Nat → Nat → Nat) (keep : List Byte → Bool) (delim : List Byte) : ∀ (ts : List (Nat × Nat)) (b : Bool) (s : Own),
    s.live = false → (∃ t ∈ ts, t.1 ≠ t.2) → joinTokensOwn grow keep delim ts b s = ub := by
  intro ts
  induction ts with
  | nil => rintro b s _ ⟨t, ht, _⟩; cases ht
  | cons t ts ih =>
    rintro b s hl ⟨u, hu, hn⟩
    have hd : (if (!delim.isEmpty && b) = true then s.append grow delim else s).live = false := by
      split
      · exact append_dead grow s delim hl
      · exact hl
    simp only [joinTokensOwn, hd, Bool.false_eq_true, if_false]
    by_cases ha : t.1 ≠ t.2
    · rw [if_pos ha]
    · rw [if_neg ha]
      rcases List.mem_cons.mp hu with rfl | hu
      · exact absurd hn ha
      · exact ih false _ hd ⟨u, hu, hn⟩

theorem joinTokensOwn_late (grow : Nat → Nat → Nat) (keep : List Byte → Bool) (delim buf : List Byte) (t : Nat × Nat) (post : List (Nat × Nat)) (hn : t.1 ≠ t.2) :
    ∀ (pre : List (Nat × Nat)) (b : Bool) (s : Own) (more : List Byte), s.text = buf ++ more → (∀ t ∈ pre, t.1 ≤ t.2 ∧ t.2 ≤ buf.length) → s.text.length ≤ s.cap →
    s.cap < s.text.length + (joinSpec delim keep b (pre.map (tokenText buf))).length →
    joinTokensOwn grow keep delim (pre ++ t :: post) b s = ub := by
  intro pre
  induction pre with
  | nil => intro b s more _ _ h1 h2; simp only [List.map_nil, joinSpec, List.length_nil] at h2; omega
  | cons u pre ih =>
    intro b s more ht hv hfit hlong
    have h1 := hv u (by simp)
    have hne := tokenText_ne buf u h1.1 h1.2
    have hvs : ∀ u ∈ pre, u.1 ≤ u.2 ∧ u.2 ≤ buf.length := fun x hx => hv x (by simp [hx])
    have later : ∃ x ∈ pre ++ t :: post, x.1 ≠ x.2 := ⟨t, by simp, hn⟩
    simp only [List.map_cons, joinSpec, List.length_append] at hlong
    rw [List.cons_append]
    by_cases hl : s.live = true
    swap
    · exact joinTokensOwn_dead grow keep delim _ b s (by simpa using hl) ⟨t, by simp, hn⟩
    by_cases hd : s.text.length + (if b then delim else []).length ≤ s.cap
    · have e : (if (!delim.isEmpty && b) = true then s.append grow delim else s) = { s with text := s.text ++ (if b then delim else []) } := by
        cases b
        · simp
        · cases hdd : delim with
          | nil => simp
          | cons c d =>
            simp only [List.isEmpty_cons, Bool.not_false, Bool.and_self, if_true, Own.append]
            rw [if_pos (by simp only [hdd, if_true] at hd; exact hd)]
      have ht' : ∀ x, s.text ++ x = buf ++ (more ++ x) := by intro x; rw [ht]; simp
      simp only [joinTokensOwn, e, hl, if_true]
      rw [ht', tokenText_prefix buf _ u h1.1 h1.2, ← ht']
      by_cases ha : u.1 ≠ u.2
      · rw [if_pos ha]
        by_cases hk : keep (tokenText buf u) = true
        · have hb : tokenText buf u ≠ [] ∧ keep (tokenText buf u) = true := ⟨hne.mpr ha, hk⟩
          simp only [if_pos hb, decide_eq_true hb] at hlong
          rw [if_pos hk]
          by_cases hroom : s.text.length + (if b then delim else []).length + (tokenText buf u).length ≤ s.cap
          · rw [Own.append, if_pos (by simp only [List.length_append]; omega)]
            exact ih true _ (more ++ (if b then delim else []) ++ tokenText buf u) (by simp [ht]) hvs (by simp only [List.length_append]; omega)
              (by simp only [List.length_append]; omega)
          · rw [Own.append, if_neg (by simp only [List.length_append]; omega)]
            exact joinTokensOwn_dead grow keep delim _ true _ rfl later
        · have hb : ¬ (tokenText buf u ≠ [] ∧ keep (tokenText buf u) = true) := fun h => hk h.2
          simp only [if_neg hb, decide_eq_false hb, List.length_nil] at hlong
          rw [if_neg hk]
          exact ih false _ (more ++ (if b then delim else [])) (by simp [ht]) hvs (by simp only [List.length_append]; omega) (by simp only [List.length_append]; omega)
      · have hb : ¬ (tokenText buf u ≠ [] ∧ keep (tokenText buf u) = true) := fun h => ha (hne.mp h.1)
        simp only [if_neg hb, decide_eq_false hb, List.length_nil] at hlong
        rw [if_neg ha]
        exact ih false _ (more ++ (if b then delim else [])) (by simp [ht]) hvs (by simp only [List.length_append]; omega) (by simp only [List.length_append]; omega)
    · have hb : b = true ∧ delim ≠ [] := by
        cases b
        · simp only [Bool.false_eq_true, if_false, List.length_nil] at hd; omega
        · refine ⟨rfl, ?_⟩
          rintro rfl
          simp only [if_true, List.length_nil] at hd
          omega
      have hde : (!delim.isEmpty && b) = true := by
        rw [hb.1]
        cases hx : delim with
        | nil => exact absurd hx hb.2
        | cons _ _ => rfl
      rw [hb.1, if_pos rfl] at hd
      have hdead : (s.append grow delim).live = false := by rw [Own.append, if_neg hd]
      simp only [joinTokensOwn, if_pos hde, hdead, Bool.false_eq_true, if_false]
      split
      · rfl
      · exact joinTokensOwn_dead grow keep delim _ false _ hdead later

theorem joinRowOwn_steps (grow : Nat → Nat → Nat) (g : Grid (Nat × Nat)) (rows : List (List (Nat × Nat))) (h : Rep g rows) (buf : List Byte)
    (ho : InOrder buf rows.flatten) (i : Nat) (hi : i < rows.length) (keep : List Byte → Bool) (delim : List Byte)
    (hb : delim.length * rows[i].length + buf.length < 2 ^ 64) (s : Own) :
    joinRowOwn grow g i keep delim s =
      (joinTokensOwn grow keep delim (if i + 1 < rows.length then rows[i] else rows[i].dropLast) false (s.reserve grow (reserved delim rows i hi))).bind
        fun s => ok (true, s) := by
  obtain ⟨r, h1, h0, h2, h3, h4, h5, h6, h7⟩ := h.access i hi
  have hne : 0 < rows[i].length := List.length_pos_iff.mpr (h.nonempty _ (by simp))
  have hfirst := h4 0 hne
  rw [Nat.add_zero] at hfirst
  have hhead : rows[i].headD (0, 0) = rows[i][0] := by
    rw [List.headD_eq_head?_getD, List.head?_eq_getElem?, List.getElem?_eq_getElem hne]; rfl
  have hfb := (ho.1 _ (List.mem_flatten.mpr ⟨rows[i], by simp, List.getElem_mem hne⟩))
  obtain ⟨hv, hp⟩ := ho
  rw [List.pairwise_flatten] at hp
  obtain ⟨hp1, hp2⟩ := hp
  have main : ∀ (stop : Nat) (last : Nat × Nat) (ts : List (Nat × Nat)), stop = r.2 + (if i < g.store.index.length - 1 then 1 else 0) →
      deref g.store.tokens stop = ok last → (g.store.tokens.drop r.1).take (stop - r.1) = ts → (rows[i][0]).1 ≤ last.2 → last.2 ≤ buf.length →
      joinRowOwn grow g i keep delim s =
        (joinTokensOwn grow keep delim ts false (s.reserve grow (delim.length * rows[i].length + (last.2 - (rows[i][0]).1)))).bind fun s => ok (true, s) := by
    intro stop last ts hstop hlast hts hle hlb
    unfold joinRowOwn
    rw [h.rowCount] at hstop ⊢
    rw [if_neg (by omega), h1, ok_bind, hfirst]
    simp only
    rw [ok_bind, ← hstop, hlast, ok_bind, hts, h3]
    have : (delim.length * rows[i].length + (2 ^ 64 + last.2 - (rows[i][0]).1)) % 2 ^ 64 = delim.length * rows[i].length + (last.2 - (rows[i][0]).1) := by
      omega
    rw [this]
    rfl
  unfold reserved
  by_cases hl : i + 1 < rows.length
  · obtain ⟨r', _, k0, _, _, k4, _, _, _⟩ := h.access (i + 1) hl
    have hne' : 0 < (rows[i + 1]).length := List.length_pos_iff.mpr (h.nonempty _ (by simp))
    have e : (rows.take (i + 1)).flatten.length = (rows.take i).flatten.length + rows[i].length := by
      rw [List.take_succ_eq_append_getElem hi, List.flatten_append, List.length_append]
      simp
    have hl' := k4 0 hne'
    rw [show r'.1 + 0 = r.2 + 1 by omega] at hl'
    have hcross := (List.pairwise_iff_getElem.mp hp2) i (i + 1) hi hl (by omega)
    have hm' := hv (rows[i + 1][0]) (List.mem_flatten.mpr ⟨rows[i + 1], by simp, by simp⟩)
    have hhead' : (rows[i + 1]?.getD []).headD (0, 0) = rows[i + 1][0] := by
      rw [List.getElem?_eq_getElem hl, Option.getD_some, List.headD_eq_head?_getD, List.head?_eq_getElem?, List.getElem?_eq_getElem hne']; rfl
    rw [if_pos hl, if_pos hl, hhead', hhead]
    refine main (r.2 + 1) (rows[i + 1][0]) rows[i] (by rw [h.rowCount, if_pos (by omega)]) hl' ?_ ?_ hm'.2
    · rw [show r.2 + 1 - r.1 = rows[i].length by omega, h7]
    · have a := hcross _ (List.getElem_mem hne) _ (List.getElem_mem hne')
      omega
  · have hl' := h4 (rows[i].length - 1) (by omega)
    rw [show r.1 + (rows[i].length - 1) = r.2 by omega] at hl'
    have hlen : rows[i].length - 1 < rows[i].length := by omega
    have hm' := hv (rows[i][rows[i].length - 1]) (List.mem_flatten.mpr ⟨rows[i], by simp, List.getElem_mem hlen⟩)
    have hlast : rows[i].getLastD (0, 0) = rows[i][rows[i].length - 1] := by
      rw [List.getLastD_eq_getLast?, List.getLast?_eq_getElem?, List.getElem?_eq_getElem hlen]; rfl
    rw [if_neg hl, if_neg hl, hlast, hhead]
    refine main r.2 _ rows[i].dropLast (by rw [h.rowCount, if_neg (by omega), Nat.add_zero]) hl' ?_ ?_ hm'.2
    · rw [show r.2 - r.1 = rows[i].length - 1 by omega, List.dropLast_eq_take]
      have e : (g.store.tokens.drop r.1).take (rows[i].length - 1) = ((g.store.tokens.drop r.1).take rows[i].length).take (rows[i].length - 1) := by
        rw [List.take_take]; congr 1; omega
      rw [e, h7]
    · rcases Nat.eq_zero_or_pos (rows[i].length - 1) with hz | hz
      · have : rows[i][rows[i].length - 1] = rows[i][0] := by congr 1
        rw [this]; exact hfb.1
      · have := (List.pairwise_iff_getElem.mp (hp1 rows[i] (by simp))) 0 (rows[i].length - 1) hne hlen hz
        omega

/-- **C190**: `join_row` of a grid made from a string, into that string, with capacity for what is reserved and for the text with the row behind it: the result is as with a
separate string, and the characters are where they were, so that the grid can still be used.  Missing for C190: strings with less capacity (`C190_moved`, `C190_moved_late`). -/
theorem C190_own_partial (grow : Nat → Nat → Nat) (g : Grid (Nat × Nat)) (rows : List (List (Nat × Nat))) (h : Rep g rows) (buf more : List Byte)
    (ho : InOrder buf rows.flatten) (i : Nat) (hi : i < rows.length) (keep : List Byte → Bool) (delim : List Byte)
    (hb : delim.length * rows[i].length + buf.length < 2 ^ 64) (cap : Nat) (hr : reserved delim rows i hi ≤ cap)
    (hroom : (buf ++ more ++ joinSpec delim keep false (rowTokens buf rows i hi)).length ≤ cap) :
    joinRowOwn grow g i keep delim ⟨buf ++ more, cap, true⟩ = ok (true, ⟨buf ++ more ++ joinSpec delim keep false (rowTokens buf rows i hi), cap, true⟩) := by
  have hv : ∀ t ∈ (if i + 1 < rows.length then rows[i] else rows[i].dropLast), t.1 ≤ t.2 ∧ t.2 ≤ buf.length := by
    intro t ht
    refine ho.1 t (List.mem_flatten.mpr ⟨rows[i], by simp, ?_⟩)
    split at ht
    · exact ht
    · exact List.dropLast_subset _ ht
  unfold rowTokens at hroom ⊢
  rw [joinRowOwn_steps grow g rows h buf ho i hi keep delim hb, Own.reserve, if_pos hr,
    joinTokensOwn_ok grow keep delim buf _ false _ more rfl rfl hv (by simp only [List.length_append] at hroom ⊢; omega)]
  rfl

/-- **C190** (negative result): if the string has less capacity than is reserved and a token that is looked at has any characters, the characters are read where they no longer
are. -/
theorem C190_moved (grow : Nat → Nat → Nat) (g : Grid (Nat × Nat)) (rows : List (List (Nat × Nat))) (h : Rep g rows) (buf : List Byte)
    (ho : InOrder buf rows.flatten) (i : Nat) (hi : i < rows.length) (keep : List Byte → Bool) (delim : List Byte)
    (hb : delim.length * rows[i].length + buf.length < 2 ^ 64) (s : Own) (hr : s.cap < reserved delim rows i hi) (hw : ∃ w ∈ rowTokens buf rows i hi, w ≠ []) :
    joinRowOwn grow g i keep delim s = ub := by
  obtain ⟨w, hw, hn⟩ := hw
  obtain ⟨t, ht, rfl⟩ := List.mem_map.mp hw
  have hv : t.1 ≤ t.2 ∧ t.2 ≤ buf.length := by
    refine ho.1 t (List.mem_flatten.mpr ⟨rows[i], by simp, ?_⟩)
    split at ht
    · exact ht
    · exact List.dropLast_subset _ ht
  rw [joinRowOwn_steps grow g rows h buf ho i hi keep delim hb, Own.reserve, if_neg (show ¬ reserved delim rows i hi ≤ s.cap by omega),
    joinTokensOwn_dead grow keep delim _ false _ rfl ⟨t, ht, (tokenText_ne buf t hv.1 hv.2).mp hn⟩]
  rfl

/-- **C190** (negative result): the same if the reserved capacity is there, but the text and what is joined in front of a token with characters does not fit; what is reserved
does not count the text that is there. -/
theorem C190_moved_late (grow : Nat → Nat → Nat) (g : Grid (Nat × Nat)) (rows : List (List (Nat × Nat))) (h : Rep g rows) (buf more : List Byte)
    (ho : InOrder buf rows.flatten) (i : Nat) (hi : i < rows.length) (keep : List Byte → Bool) (delim : List Byte)
    (hb : delim.length * rows[i].length + buf.length < 2 ^ 64) (cap : Nat) (hc : (buf ++ more).length ≤ cap) (pre : List (List Byte)) (w : List Byte) (post : List (List Byte))
    (hsplit : rowTokens buf rows i hi = pre ++ w :: post) (hw : w ≠ []) (hlong : cap < (buf ++ more ++ joinSpec delim keep false pre).length) :
    joinRowOwn grow g i keep delim ⟨buf ++ more, cap, true⟩ = ub := by
  have hv : ∀ t ∈ (if i + 1 < rows.length then rows[i] else rows[i].dropLast), t.1 ≤ t.2 ∧ t.2 ≤ buf.length := by
    intro t ht
    refine ho.1 t (List.mem_flatten.mpr ⟨rows[i], by simp, ?_⟩)
    split at ht
    · exact ht
    · exact List.dropLast_subset _ ht
  by_cases hr : reserved delim rows i hi ≤ cap
  · unfold rowTokens at hsplit
    obtain ⟨p, q, e, hp, hq⟩ := List.map_eq_append_iff.mp hsplit
    obtain ⟨t, q', rfl, rfl, _⟩ := List.map_eq_cons_iff.mp hq
    rw [joinRowOwn_steps grow g rows h buf ho i hi keep delim hb, Own.reserve, if_pos hr]
    rw [e] at hv ⊢
    have ht := hv t (by simp)
    rw [joinTokensOwn_late grow keep delim buf t q' ((tokenText_ne buf t ht.1 ht.2).mp hw) p false _ more rfl (fun u hu => hv u (by simp [hu])) hc
      (by rw [hp]; simpa only [List.length_append] using hlong)]
    rfl
  · exact C190_moved grow g rows h buf ho i hi keep delim hb _ (by simp only; omega) ⟨w, by rw [hsplit]; simp, hw⟩

/-! ## Concrete cases -/

theorem sampleText_rep : Rep Grid.sampleText [[['a'], [], ['b']], [['c'], ['d'], ['e', 'f']]] := ⟨rfl, by decide, by decide, by decide, by decide⟩

example : joinRowSelf Grid.sampleText 1 (fun _ => true) [';'] = ok (true, ";c;cd".toList) ∧
    Grid.sampleText.joinRow 1 (fun _ => true) [';'] [';'] = ok (true, ";c;d".toList) := by decide
example := C190_delimiter_partial Grid.sampleText _ sampleText_rep 0 (by decide) (fun t => decide (t = ['b'])) [';']
example : ¬ Follows (fun t => decide (t = ['b'])) [['a'], [], ['b']] := by
  rw [← joinTokensSelf_iff _ [';']]; decide

/-- The rows of the sample grid with texts of one and two characters. -/
def pairs : Grid (List Char) := ⟨⟨[['a'], ['b', 'c'], ['d']], [(0, 1), (2, 2)]⟩, 1, 2⟩

example : joinRowSelf pairs 0 (fun _ => true) [';'] = ok (true, ";a;abc".toList) :=
  C190_doubles pairs [[['a'], ['b', 'c']], [['d']]] ⟨rfl, by decide, by decide, by decide, by decide⟩ 0 (by decide) [';'] ['a'] [['b', 'c']] rfl (by decide)

example : joinRowOwn (fun _ n => n) Grid.sample 0 (fun _ => true) [59] ⟨sampleBuf, 16, true⟩ = ok (true, ⟨sampleBuf ++ [97, 59, 98], 16, true⟩) :=
  C190_own_partial (fun _ n => n) Grid.sample _ sample_rep sampleBuf [] sample_inOrder 0 (by decide) (fun _ => true) [59] (by decide) 16 (by decide) (by decide)
example : joinRowOwn (fun _ n => n) Grid.sample 1 (fun _ => true) (List.replicate 9 59) ⟨sampleBuf, 13, true⟩ = ub :=
  C190_moved (fun _ n => n) Grid.sample _ sample_rep sampleBuf sample_inOrder 1 (by decide) (fun _ => true) (List.replicate 9 59) (by decide) _ (by decide) ⟨[99], by decide, by decide⟩
example : joinRowOwn (fun _ n => n) Grid.sample 0 (fun _ => true) [59] ⟨sampleBuf, 13, true⟩ = ub :=
  C190_moved_late (fun _ n => n) Grid.sample _ sample_rep sampleBuf [] sample_inOrder 0 (by decide) (fun _ => true) [59] (by decide) 13 (by decide) [[97]] [98] [] (by decide)
    (by decide) (by decide)

end Strtk.Refused
