import Verif.Refused.Props
import Verif.Grid.Props

/-!
# Joining a row or a column of a token grid when memory can be refused (strtk.hpp 7076-7204)

Here the tokens are ranges of positions in the buffer of the grid, because the number of characters that `join_row` reserves is computed from the positions.
-/

namespace Strtk.Refused
open Outcome Mem Strtk.Codec Strtk.Grid

/-! ## Model -/

/-- The characters of a token. -/
def tokenText (buf : List Byte) (t : Nat × Nat) : List Byte := (buf.drop t.1).take (t.2 - t.1)

/-- The loop of `join_row` (7092-7106, with a predicate 7129-7146); `appended` is the flag of the code. -/
def joinTokensM (M : Machine) (buf : List Byte) (keep : List Byte → Bool) (delim : List Byte) : List (Nat × Nat) → Bool → Prog Unit
  | [], _ => pure ()
  | t :: ts, appended => do
    (if !delim.isEmpty && appended then append M delim else pure ())
    if t.1 ≠ t.2 ∧ keep (tokenText buf t) = true then do
      append M (tokenText buf t)
      joinTokensM M buf keep delim ts true
    else joinTokensM M buf keep delim ts false

/-- `join_row(row,[predicate,]delimiter,result)` (7076-7149).  The string reserves room for the delimiters and for what lies between the beginning of the first token
and the end of the token at the end iterator (7088, 7125), counted on `std::size_t`.  Simplified: a number beyond `max_size()` is a request like any other. -/
def joinRowM (M : Machine) (g : Grid (Nat × Nat)) (buf : List Byte) (row : Nat) (keep : List Byte → Bool) (delim : List Byte) : Prog Bool :=
  if row ≥ g.store.index.length then pure false
  else do
    let r ← value (deref g.store.index row)
    let stop := r.2 + (if row < g.store.index.length - 1 then 1 else 0)
    let first ← value (deref g.store.tokens r.1)
    let last ← value (deref g.store.tokens stop)
    reserve M ((delim.length * tokenCount r + (2 ^ 64 + last.2 - first.1)) % 2 ^ 64)
    joinTokensM M buf keep delim ((g.store.tokens.drop r.1).take (stop - r.1)) false
    pure true

/-- The loop of `join_column` (7172-7193). -/
def joinColumnLoopM (M : Machine) (st : Store (Nat × Nat)) (buf : List Byte) (col : Nat) (delim : List Byte) : Nat → Nat → Bool → Prog Unit
  | 0, _, _ => pure ()
  | n + 1, i, appended => do
    let r ← value (deref st.index i)
    if col < tokenCount r then do
      let t ← value (deref st.tokens (r.1 + col))
      (if !delim.isEmpty && appended then append M delim else pure ())
      if t.1 ≠ t.2 then do
        append M (tokenText buf t)
        joinColumnLoopM M st buf col delim n (i + 1) true
      else joinColumnLoopM M st buf col delim n (i + 1) false
    else joinColumnLoopM M st buf col delim n (i + 1) appended

/-- `join_column(col,row_range,delimiter,result)` (7160-7196): nothing is reserved. -/
def joinColumnM (M : Machine) (g : Grid (Nat × Nat)) (buf : List Byte) (col a b : Nat) (delim : List Byte) : Prog Bool :=
  if col > g.maxCol then pure false
  else if g.rangeInvalid a b then pure false
  else do
    joinColumnLoopM M g.store buf col delim (b - a) a false
    pure true

/-! ## Specification -/

/-- The tokens lie in the buffer, one after the other. -/
def InOrder (buf : List Byte) (ts : List (Nat × Nat)) : Prop :=
  (∀ t ∈ ts, t.1 ≤ t.2 ∧ t.2 ≤ buf.length) ∧ ts.Pairwise fun s t => s.2 ≤ t.1

/-- What joining puts behind the text, piece by piece: the tokens that are not empty and that the predicate keeps, and a delimiter in front of each token whose
predecessor was one of these. -/
def joinPieces (delim : List Byte) (keep : List Byte → Bool) : Bool → List (List Byte) → List (List Byte)
  | _, [] => []
  | prev, t :: ts =>
    (if prev ∧ delim ≠ [] then [delim] else []) ++ (if t ≠ [] ∧ keep t = true then [t] else []) ++ joinPieces delim keep (decide (t ≠ [] ∧ keep t = true)) ts

/-- The tokens that `join_row` looks at: those of the row, without the last one in the last row. -/
def rowTokens (buf : List Byte) (rows : List (List (Nat × Nat))) (i : Nat) (hi : i < rows.length) : List (List Byte) :=
  (if i + 1 < rows.length then rows[i] else rows[i].dropLast).map (tokenText buf)

/-- Success with all the pieces behind the text, or an exception with the first ones, each of them whole. -/
def Joins (M : Machine) (before : State) (run : Run Bool) (pieces : List (List Byte)) : Prop :=
  Ends M before run (fun b after => b = true ∧ after.text = before.text ++ pieces.flatten)
    (fun after => ∃ k, k ≤ pieces.length ∧ after.text = before.text ++ (pieces.take k).flatten)

/-! ## Rules -/

/-- The pieces put together are the text of C65. -/
theorem joinPieces_flatten (delim : List Byte) (keep : List Byte → Bool) : ∀ (ts : List (List Byte)) (b : Bool),
    (joinPieces delim keep b ts).flatten = joinSpec delim keep b ts := by
  intro ts
  induction ts with
  | nil => intro b; rfl
  | cons t ts ih =>
    intro b
    simp only [joinPieces, joinSpec, List.flatten_append, ih]
    congr 1
    congr 1
    · cases b <;> cases delim <;> simp
    · split <;> simp

theorem tokenText_length (buf : List Byte) (t : Nat × Nat) (h : t.2 ≤ buf.length) : (tokenText buf t).length = t.2 - t.1 := by
  unfold tokenText
  rw [List.length_take, List.length_drop]
  omega

theorem tokenText_ne (buf : List Byte) (t : Nat × Nat) (h1 : t.1 ≤ t.2) (h : t.2 ≤ buf.length) : tokenText buf t ≠ [] ↔ t.1 ≠ t.2 := by
  rw [← List.length_pos_iff, tokenText_length buf t h]
  omega

theorem WholePieces.maybe {M : Machine} (hM : M.Sound) {st : State} {c : Prop} [Decidable c] {x : List Byte} {q : Prog Unit} {xs : List (List Byte)}
    (hq : ∀ a, WholePieces M a (q a) xs) :
    WholePieces M st ((do (if c then append M x else pure ()); q : Prog Unit) st) ((if c then [x] else []) ++ xs) := by
  by_cases h : c
  · simp only [if_pos h, List.singleton_append]
    exact WholePieces.cons (append_piece M hM x st) (fun a _ => hq a)
  · simp only [if_neg h, List.nil_append]
    exact hq st

theorem joinTokensM_pieces (M : Machine) (hM : M.Sound) (buf : List Byte) (keep : List Byte → Bool) (delim : List Byte) :
    ∀ (ts : List (Nat × Nat)) (b : Bool) (st : State), (∀ t ∈ ts, t.1 ≤ t.2 ∧ t.2 ≤ buf.length) →
    WholePieces M st (joinTokensM M buf keep delim ts b st) (joinPieces delim keep b (ts.map (tokenText buf))) := by
  intro ts
  induction ts with
  | nil => intro b st _; exact pieces_nil M st
  | cons t ts ih =>
    intro b st hv
    have hne := tokenText_ne buf t (hv t (by simp)).1 (hv t (by simp)).2
    have ih' := fun b st => ih b st (fun t ht => hv t (by simp [ht]))
    simp only [joinTokensM, List.map_cons, joinPieces, hne, List.append_assoc]
    have hc : (if (b = true ∧ delim ≠ []) then [delim] else []) = if (!delim.isEmpty && b) = true then [delim] else [] := by
      cases b <;> cases delim <;> simp
    rw [hc]
    refine WholePieces.maybe hM ?_
    intro a
    by_cases hk : t.1 ≠ t.2 ∧ keep (tokenText buf t) = true
    · simp only [if_pos hk, decide_eq_true hk, List.singleton_append]
      exact WholePieces.cons (append_piece M hM _ a) (fun c _ => ih' true c)
    · simp only [if_neg hk, decide_eq_false hk, List.nil_append]
      exact ih' false a

theorem joinTokensM_enough (M : Machine) (buf : List Byte) (keep : List Byte → Bool) (delim : List Byte) :
    ∀ (ts : List (Nat × Nat)) (b : Bool) (st : State), (∀ t ∈ ts, t.1 ≤ t.2 ∧ t.2 ≤ buf.length) →
    st.text.length + (joinPieces delim keep b (ts.map (tokenText buf))).flatten.length ≤ st.cap →
    joinTokensM M buf keep delim ts b st = ok (some (), { st with text := st.text ++ (joinPieces delim keep b (ts.map (tokenText buf))).flatten }) := by
  intro ts
  induction ts with
  | nil => intro b st _ _; simp [joinTokensM, joinPieces, pure_apply]
  | cons t ts ih =>
    intro b st hv hroom
    have hne := tokenText_ne buf t (hv t (by simp)).1 (hv t (by simp)).2
    have ih' := fun b st => ih b st (fun t ht => hv t (by simp [ht]))
    have hc : (if (b = true ∧ delim ≠ []) then [delim] else []) = if (!delim.isEmpty && b) = true then [delim] else [] := by
      cases b <;> cases delim <;> simp
    simp only [List.map_cons, joinPieces, hne, List.append_assoc, hc] at hroom
    simp only [joinTokensM, List.map_cons, joinPieces, hne, List.append_assoc, hc]
    have step : ∀ (c : Prop) [Decidable c] (x : List Byte) (st : State) (n : Nat), st.text.length + (if c then [x] else []).flatten.length + n ≤ st.cap →
        (if c then append M x else pure () : Prog Unit) st = ok (some (), { st with text := st.text ++ (if c then [x] else []).flatten }) := by
      intro c _ x st n h
      by_cases hc : c
      · simp only [if_pos hc, List.flatten_cons, List.flatten_nil, List.append_nil] at h ⊢
        exact append_enough M x st (by omega)
      · simp only [if_neg hc, List.flatten_nil, List.append_nil]
        rfl
    simp only [List.flatten_append, List.length_append] at hroom
    rw [bind_ok (step _ _ st _ (by rw [Nat.add_assoc]; exact hroom))]
    by_cases hk : t.1 ≠ t.2 ∧ keep (tokenText buf t) = true
    · simp only [if_pos hk, decide_eq_true hk, List.flatten_append, List.flatten_cons, List.flatten_nil, List.append_nil] at hroom ⊢
      rw [bind_ok (append_enough M _ _ (by simp only [List.length_append]; omega)), ih' true _ (by simp only [List.length_append]; omega)]
      simp
    · simp only [if_neg hk, decide_eq_false hk, List.flatten_append, List.flatten_nil, List.length_nil, List.nil_append] at hroom ⊢
      rw [ih' false _ (by simp only [List.length_append]; omega)]
      simp

theorem joinPieces_length (delim : List Byte) (keep : List Byte → Bool) : ∀ (ts : List (List Byte)) (b : Bool),
    (joinPieces delim keep b ts).flatten.length ≤ delim.length * ts.length + (ts.map List.length).sum := by
  intro ts
  induction ts with
  | nil => intro b; simp [joinPieces]
  | cons t ts ih =>
    intro b
    have := ih (decide (t ≠ [] ∧ keep t = true))
    simp only [joinPieces, List.flatten_append, List.length_append, List.map_cons, List.sum_cons, List.length_cons, Nat.mul_add, Nat.mul_one]
    have h1 : (if (b = true ∧ delim ≠ []) then [delim] else []).flatten.length ≤ delim.length := by split <;> simp
    have h2 : (if (t ≠ [] ∧ keep t = true) then [t] else []).flatten.length ≤ t.length := by split <;> simp
    omega

theorem inOrder_sum (buf : List Byte) : ∀ (ts : List (Nat × Nat)) (lo hi : Nat), InOrder buf ts → (∀ t ∈ ts, lo ≤ t.1 ∧ t.2 ≤ hi) → lo ≤ hi →
    ((ts.map (tokenText buf)).map List.length).sum ≤ hi - lo := by
  intro ts
  induction ts with
  | nil => intro lo hi _ _ _; simp
  | cons t ts ih =>
    intro lo hi ho hb hle
    obtain ⟨hv, hp⟩ := ho
    rw [List.pairwise_cons] at hp
    have h1 := hb t (by simp)
    have h2 := hv t (by simp)
    have := ih t.2 hi ⟨fun s hs => hv s (by simp [hs]), hp.2⟩ (fun s hs => ⟨hp.1 s hs, (hb s (by simp [hs])).2⟩) h1.2
    simp only [List.map_cons, List.sum_cons]
    rw [tokenText_length buf t h2.2]
    omega

theorem reserve_once (M : Machine) (hM : M.Sound) (n : Nat) (st : State) :
    (∃ after, reserve M n st = ok (some (), after) ∧ after.text = st.text ∧ n ≤ after.cap ∧ st.asked ≤ after.asked ∧ after.asked ≤ st.asked + 1) ∨
    (reserve M n st = ok (none, { st with asked := st.asked + 1 }) ∧ M.grants st.asked = false) := by
  have hreq : ∀ c : State → Nat, (do request M; fun st => ok (some (), { st with cap := c st }) : Prog Unit) st =
      if M.grants st.asked then ok (some (), { st with asked := st.asked + 1, cap := c { st with asked := st.asked + 1 } })
      else ok (none, { st with asked := st.asked + 1 }) := by
    intro c
    cases hg : M.grants st.asked
    · exact (bind_none (p := request M) (f := fun _ => (fun st => ok (some (), { st with cap := c st }) : Prog Unit)) (after := { st with asked := st.asked + 1 })
        (by simp [request, hg])).trans (by simp)
    · exact (bind_ok (p := request M) (f := fun _ => (fun st => ok (some (), { st with cap := c st }) : Prog Unit)) (b := ()) (after := { st with asked := st.asked + 1 })
        (by simp [request, hg])).trans (by simp)
  unfold reserve
  split
  · rw [hreq fun st => max n st.text.length]
    cases M.grants st.asked
    · exact Or.inr ⟨rfl, rfl⟩
    · exact Or.inl ⟨_, rfl, rfl, by simp only; omega, by simp only; omega, by simp only; omega⟩
  · unfold room
    split
    · exact Or.inl ⟨st, rfl, rfl, by assumption, by omega, by omega⟩
    · rw [hreq fun st => M.grow st.cap n]
      have := hM st.cap n
      cases M.grants st.asked
      · exact Or.inr ⟨rfl, rfl⟩
      · exact Or.inl ⟨_, rfl, rfl, by simp only; omega, by simp only; omega, by simp only; omega⟩

/-- What is joined is not longer than what is reserved. -/
theorem joinRow_steps (M : Machine) (g : Grid (Nat × Nat)) (rows : List (List (Nat × Nat))) (h : Rep g rows) (buf : List Byte) (ho : InOrder buf rows.flatten) (i : Nat)
    (hi : i < rows.length) (keep : List Byte → Bool) (delim : List Byte) (hb : delim.length * rows[i].length + buf.length < 2 ^ 64) :
    ∃ n ts, (∀ st, joinRowM M g buf i keep delim st = (do reserve M n; joinTokensM M buf keep delim ts false; pure true : Prog Bool) st) ∧
      ts.map (tokenText buf) = rowTokens buf rows i hi ∧ (∀ t ∈ ts, t.1 ≤ t.2 ∧ t.2 ≤ buf.length) ∧
      (joinPieces delim keep false (rowTokens buf rows i hi)).flatten.length ≤ n ∧ n ≤ delim.length * rows[i].length + buf.length := by
  obtain ⟨hv, hp⟩ := ho
  rw [List.pairwise_flatten] at hp
  obtain ⟨hp1, hp2⟩ := hp
  obtain ⟨r, h1, h0, h2, h3, h4, h5, h6, h7⟩ := h.access i hi
  have hne : 0 < rows[i].length := List.length_pos_iff.mpr (h.nonempty _ (by simp))
  have hmem : ∀ t ∈ rows[i], t.1 ≤ t.2 ∧ t.2 ≤ buf.length := fun t ht => hv t (List.mem_flatten.mpr ⟨rows[i], by simp, ht⟩)
  have hrow := hp1 rows[i] (by simp)
  have hfirst := h4 0 hne
  rw [Nat.add_zero] at hfirst
  have hlo : ∀ t ∈ rows[i], (rows[i][0]).1 ≤ t.1 := by
    intro t ht
    obtain ⟨j, hj, rfl⟩ := List.getElem_of_mem ht
    rcases Nat.eq_zero_or_pos j with hz | hz
    · subst hz; exact Nat.le_refl _
    · have a := (List.pairwise_iff_getElem.mp hrow) 0 j hne hj hz
      have b := (hmem _ (List.getElem_mem hne)).1
      omega
  have hval : ∀ {β γ : Type} (x : Outcome β) (v : β) (f : β → Prog γ) (st : State), x = ok v → (value x >>= f) st = f v st := by
    intro β γ x v f st hx
    subst hx
    rfl
  have main : ∀ (stop : Nat) (last : Nat × Nat) (ts : List (Nat × Nat)), stop = r.2 + (if i < g.store.index.length - 1 then 1 else 0) →
      deref g.store.tokens stop = ok last → (g.store.tokens.drop r.1).take (stop - r.1) = ts → ts.map (tokenText buf) = rowTokens buf rows i hi →
      (∀ t ∈ ts, t ∈ rows[i]) → ts.Sublist rows[i] → (∀ t ∈ ts, t.2 ≤ last.2) → (rows[i][0]).1 ≤ last.2 → last.2 ≤ buf.length →
      ∃ n ts, (∀ st, joinRowM M g buf i keep delim st = (do reserve M n; joinTokensM M buf keep delim ts false; pure true : Prog Bool) st) ∧
        ts.map (tokenText buf) = rowTokens buf rows i hi ∧ (∀ t ∈ ts, t.1 ≤ t.2 ∧ t.2 ≤ buf.length) ∧
        (joinPieces delim keep false (rowTokens buf rows i hi)).flatten.length ≤ n ∧ n ≤ delim.length * rows[i].length + buf.length := by
    intro stop last ts hstop hlast hts htext hsub hsl hhi hfl hlb
    refine ⟨delim.length * rows[i].length + (last.2 - (rows[i][0]).1), ts, ?_, htext, fun t ht => hmem t (hsub t ht), ?_, by omega⟩
    · intro st
      unfold joinRowM
      rw [h.rowCount] at hstop ⊢
      rw [if_neg (by omega), hval _ _ _ _ h1]
      rw [hval _ _ _ _ hfirst, ← hstop, hval _ _ _ _ hlast, hts, h3]
      have : (delim.length * rows[i].length + (2 ^ 64 + last.2 - (rows[i][0]).1)) % 2 ^ 64 = delim.length * rows[i].length + (last.2 - (rows[i][0]).1) := by
        omega
      rw [this]
    · have a := joinPieces_length delim keep (rowTokens buf rows i hi) false
      have b := inOrder_sum buf ts (rows[i][0]).1 last.2 ⟨fun t ht => hmem t (hsub t ht), hrow.sublist hsl⟩ (fun t ht => ⟨hlo t (hsub t ht), hhi t ht⟩) hfl
      rw [htext] at b
      have c : (rowTokens buf rows i hi).length ≤ rows[i].length := by
        rw [← htext, List.length_map]; exact hsl.length_le
      have := Nat.mul_le_mul_left delim.length c
      omega
  by_cases hl : i + 1 < rows.length
  · obtain ⟨r', _, k0, _, _, k4, _, _, _⟩ := h.access (i + 1) hl
    have hne' : 0 < (rows[i + 1]).length := List.length_pos_iff.mpr (h.nonempty _ (by simp))
    have e : (rows.take (i + 1)).flatten.length = (rows.take i).flatten.length + rows[i].length := by
      rw [List.take_succ_eq_append_getElem hi, List.flatten_append, List.length_append]
      simp
    have hl' := k4 0 hne'
    rw [show r'.1 + 0 = r.2 + 1 by omega] at hl'
    have hcross := (List.pairwise_iff_getElem.mp hp2) i (i + 1) hi hl (by omega)
    have hm' := hv (rows[i + 1][0]) (List.mem_flatten.mpr ⟨rows[i + 1], by simp, by simp⟩)
    refine main (r.2 + 1) (rows[i + 1][0]) rows[i] (by rw [h.rowCount, if_pos (by omega)]) hl' ?_ (by rw [rowTokens, if_pos hl]) (fun t ht => ht) (List.Sublist.refl _) ?_ ?_ hm'.2
    · rw [show r.2 + 1 - r.1 = rows[i].length by omega, h7]
    · intro t ht
      have := hcross t ht _ (List.getElem_mem hne')
      omega
    · have a := hcross _ (List.getElem_mem hne) _ (List.getElem_mem hne')
      have b := (hmem _ (List.getElem_mem hne)).1
      omega
  · have hl' := h4 (rows[i].length - 1) (by omega)
    rw [show r.1 + (rows[i].length - 1) = r.2 by omega] at hl'
    have hm' := hmem _ (List.getElem_mem (show rows[i].length - 1 < rows[i].length by omega))
    refine main r.2 _ rows[i].dropLast (by rw [h.rowCount, if_neg (by omega), Nat.add_zero]) hl' ?_ (by rw [rowTokens, if_neg hl])
      (fun t ht => List.dropLast_subset _ ht) (List.dropLast_sublist _) ?_ ?_ hm'.2
    · rw [show r.2 - r.1 = rows[i].length - 1 by omega, List.dropLast_eq_take]
      have e : (g.store.tokens.drop r.1).take (rows[i].length - 1) = ((g.store.tokens.drop r.1).take rows[i].length).take (rows[i].length - 1) := by
        rw [List.take_take]; congr 1; omega
      rw [e, h7]
    · intro t ht
      obtain ⟨j, hj, rfl⟩ := List.getElem_of_mem ht
      rw [List.length_dropLast] at hj
      rw [List.getElem_dropLast]
      have := (List.pairwise_iff_getElem.mp hrow) j (rows[i].length - 1) (by omega) (by omega) hj
      omega
    · have := hlo _ (List.getElem_mem (show rows[i].length - 1 < rows[i].length by omega))
      omega

theorem Rep.joinColumnLoopM {g : Grid (Nat × Nat)} {rows : List (List (Nat × Nat))} (h : Rep g rows) (M : Machine) (buf : List Byte) (col : Nat) (delim : List Byte) :
    ∀ (n i : Nat) (b : Bool) (st : State), i + n ≤ rows.length →
    joinColumnLoopM M g.store buf col delim n i b st = joinTokensM M buf (fun _ => true) delim (((rows.drop i).take n).filterMap fun r => r[col]?) b st := by
  intro n
  induction n with
  | zero => intro i b st _; simp [Refused.joinColumnLoopM, joinTokensM]
  | succ n ih =>
    intro i b st hi
    obtain ⟨r, h1, _, _, h3, h4, _⟩ := h.access i (by omega)
    have hval : ∀ {β γ : Type} (x : Outcome β) (v : β) (f : β → Prog γ) (st : State), x = ok v → (value x >>= f) st = f v st := by
      intro β γ x v f st hx
      subst hx
      rfl
    have hd : (rows.drop i).take (n + 1) = rows[i] :: (rows.drop (i + 1)).take n := by
      rw [List.drop_eq_getElem_cons (by omega), List.take_succ_cons]
    rw [hd, List.filterMap_cons, Refused.joinColumnLoopM, hval _ _ _ _ h1, h3]
    by_cases hc : col < rows[i].length
    · rw [if_pos hc, hval _ _ _ _ (h4 col hc), List.getElem?_eq_getElem hc]
      simp only [joinTokensM, and_true]
      rw [bind_apply, bind_apply, Prog.andThen, Prog.andThen]
      have : ∀ a : State, (if rows[i][col].1 ≠ rows[i][col].2 then
            (do append M (tokenText buf rows[i][col]); Refused.joinColumnLoopM M g.store buf col delim n (i + 1) true : Prog Unit)
          else Refused.joinColumnLoopM M g.store buf col delim n (i + 1) false) a =
          (if rows[i][col].1 ≠ rows[i][col].2 then
            (do append M (tokenText buf rows[i][col]); joinTokensM M buf (fun _ => true) delim (((rows.drop (i + 1)).take n).filterMap fun r => r[col]?) true : Prog Unit)
          else joinTokensM M buf (fun _ => true) delim (((rows.drop (i + 1)).take n).filterMap fun r => r[col]?) false) a := by
        intro a
        split
        · rw [bind_apply, bind_apply, Prog.andThen, Prog.andThen]
          split <;> first | rfl | exact ih _ _ _ (by omega)
        · exact ih _ _ _ (by omega)
      split <;> first | rfl | exact this _
    · rw [if_neg hc, List.getElem?_eq_none (by omega)]
      exact ih _ _ _ (by omega)

/-! ## The tokens of a grid are in order -/

theorem InOrder.sublist {buf : List Byte} {ts us : List (Nat × Nat)} (h : InOrder buf ts) (hs : us.Sublist ts) : InOrder buf us :=
  ⟨fun t ht => h.1 t (hs.subset ht), h.2.sublist hs⟩

theorem processRows_inOrder (opt : Split.Opt) (dc : Byte → Bool) (buf : List Byte) : ∀ (rs : List (Nat × Nat)) (st after : Store (Nat × Nat)),
    InOrder buf rs → (∀ t ∈ st.tokens, ∀ r ∈ rs, t.2 ≤ r.1) → InOrder buf st.tokens → processRows opt dc buf st rs = ok after → InOrder buf after.tokens := by
  intro rs
  induction rs with
  | nil => intro st after _ _ h e; rw [processRows] at e; cases e; exact h
  | cons r rs ih =>
    intro st after hr hc hst e
    obtain ⟨hr1, hr2⟩ := hr
    rw [List.pairwise_cons] at hr2
    have hb := hr1 r (by simp)
    rw [processRows] at e
    obtain ⟨st', e1, e2⟩ := bind_eq_ok.mp e
    have hrs : InOrder buf rs := ⟨fun t ht => hr1 t (by simp [ht]), hr2.2⟩
    unfold processRow at e1
    split at e1
    · cases e1
      exact ih st after hrs (fun t ht x hx => hc t ht x (by simp [hx])) hst e2
    · obtain ⟨q, q1, q2, q3⟩ := Split.C03_split_in_bounds opt dc (Split.textOf buf r)
      rw [q1, ok_bind] at e1
      cases e1
      have hlen : (Split.textOf buf r).length = r.2 - r.1 := by unfold Split.textOf; simp; omega
      refine ih _ after hrs ?_ ⟨?_, ?_⟩ e2
      · intro t ht x hx
        rcases List.mem_append.mp ht with ht | ht
        · exact hc t ht x (by simp [hx])
        · obtain ⟨u, hu, rfl⟩ := List.mem_map.mp ht
          have := (q2 u hu).2
          have := hr2.1 x hx
          simp only
          omega
      · intro t ht
        rcases List.mem_append.mp ht with ht | ht
        · exact hst.1 t ht
        · obtain ⟨u, hu, rfl⟩ := List.mem_map.mp ht
          have := q2 u hu
          simp only
          omega
      · refine List.pairwise_append.mpr ⟨hst.2, ?_, ?_⟩
        · rw [List.pairwise_map]
          exact q3.imp (fun h => by simp only; omega)
        · intro t ht u hu
          obtain ⟨v, _, rfl⟩ := List.mem_map.mp hu
          have := hc t ht r (by simp)
          simp only
          omega

/-- **C189**: the tokens of a loaded grid lie in the buffer one after the other, and so do those that are left when some are removed. -/
theorem C189_loaded (opt : Split.Opt) (dr dc : Byte → Bool) (buf : List Byte) (g : Grid (Nat × Nat)) (hl : load opt dr dc buf = ok g) :
    (∀ rows, Rep g rows → InOrder buf rows.flatten) ∧ ∀ left : List (List (Nat × Nat)), left.flatten.Sublist g.store.tokens → InOrder buf left.flatten := by
  unfold load at hl
  obtain ⟨q, q1, q2, q3⟩ := Split.C03_split_in_bounds { compress := true } dr buf
  rw [q1, ok_bind] at hl
  obtain ⟨st, e1, e2⟩ := bind_eq_ok.mp hl
  cases e2
  have h := processRows_inOrder opt dc buf q ⟨[], []⟩ st ⟨q2, q3⟩ (by simp) ⟨by simp, by simp⟩ e1
  exact ⟨fun rows hr => by rw [← hr.tokens]; exact h, fun left hs => h.sublist hs⟩

/-! ## C189 -/

/-- **C189**: `join_row` with or without a predicate: all the pieces behind the text, or, when a request was refused, the first ones, each of them whole. -/
theorem C189_row (M : Machine) (hM : M.Sound) (g : Grid (Nat × Nat)) (rows : List (List (Nat × Nat))) (h : Rep g rows) (buf : List Byte)
    (ho : InOrder buf rows.flatten) (i : Nat) (hi : i < rows.length) (keep : List Byte → Bool) (delim : List Byte)
    (hb : delim.length * rows[i].length + buf.length < 2 ^ 64) (st : State) :
    Joins M st (joinRowM M g buf i keep delim st) (joinPieces delim keep false (rowTokens buf rows i hi)) := by
  obtain ⟨n, ts, e, ht, hv, _, _⟩ := joinRow_steps M g rows h buf ho i hi keep delim hb
  unfold Joins
  rw [e st]
  rcases reserve_once M hM n st with ⟨a, ha, h1, _, h3, _⟩ | ⟨ha, hr⟩
  · rw [bind_ok ha]
    have := joinTokensM_pieces M hM buf keep delim ts false a hv
    rw [ht] at this
    unfold WholePieces at this
    rw [h1] at this
    rcases Ends.bind this (good' := fun b after => b = true ∧ after.text = st.text ++ (joinPieces delim keep false (rowTokens buf rows i hi)).flatten)
      (bad' := fun after => ∃ k, k ≤ (joinPieces delim keep false (rowTokens buf rows i hi)).length ∧
        after.text = st.text ++ ((joinPieces delim keep false (rowTokens buf rows i hi)).take k).flatten)
      (f := fun _ => pure true) (fun c hc => by obtain ⟨k, hk, hc⟩ := hc; exact ⟨k, by omega, hc⟩) (fun _ c hc => Ends.pure true ⟨rfl, hc⟩) with
      ⟨b, c, e1, l, g1⟩ | ⟨c, e1, r, g1⟩
    · exact Or.inl ⟨b, c, e1, by omega, g1⟩
    · exact Or.inr ⟨c, e1, ⟨by have := r.1; omega, r.2⟩, g1⟩
  · rw [bind_none ha]
    exact Or.inr ⟨_, rfl, ⟨by simp, by simpa using hr⟩, 0, by simp, by simp⟩

/-- **C189**: `join_row` to an empty string asks for memory at most once, and it is all or nothing: the string has the whole row, or it is still empty and has the
capacity it had. -/
theorem C189_row_new (M : Machine) (hM : M.Sound) (g : Grid (Nat × Nat)) (rows : List (List (Nat × Nat))) (h : Rep g rows) (buf : List Byte)
    (ho : InOrder buf rows.flatten) (i : Nat) (hi : i < rows.length) (keep : List Byte → Bool) (delim : List Byte)
    (hb : delim.length * rows[i].length + buf.length < 2 ^ 64) (cap asked : Nat) :
    (∃ after, joinRowM M g buf i keep delim ⟨[], cap, asked⟩ = ok (some true, after) ∧ after.text = joinSpec delim keep false (rowTokens buf rows i hi) ∧
      asked ≤ after.asked ∧ after.asked ≤ asked + 1) ∨
    (joinRowM M g buf i keep delim ⟨[], cap, asked⟩ = ok (none, ⟨[], cap, asked + 1⟩) ∧ M.grants asked = false) := by
  obtain ⟨n, ts, e, ht, hv, hn, _⟩ := joinRow_steps M g rows h buf ho i hi keep delim hb
  rw [e]
  rcases reserve_once M hM n ⟨[], cap, asked⟩ with ⟨a, ha, h1, h2, h3, h4⟩ | ⟨ha, hr⟩
  · refine Or.inl ⟨{ a with text := a.text ++ (joinPieces delim keep false (rowTokens buf rows i hi)).flatten }, ?_, ?_, h3, h4⟩
    · rw [bind_ok ha, bind_ok (joinTokensM_enough M buf keep delim ts false a hv (by rw [ht, h1]; simp only [List.length_nil]; omega)), ht]
      rfl
    · simp only [h1, List.nil_append]
      exact joinPieces_flatten _ _ _ _
  · exact Or.inr ⟨by rw [bind_none ha], hr⟩

/-- **C189**: `join_row` to a string whose capacity is enough for the text with the row behind it, and for what is reserved, asks for nothing, unless `reserve` gives
memory back. -/
theorem C189_row_room (M : Machine) (hs : M.shrinks = false) (g : Grid (Nat × Nat)) (rows : List (List (Nat × Nat))) (h : Rep g rows) (buf : List Byte)
    (ho : InOrder buf rows.flatten) (i : Nat) (hi : i < rows.length) (keep : List Byte → Bool) (delim : List Byte)
    (hb : delim.length * rows[i].length + buf.length < 2 ^ 64) (st : State) (hc : delim.length * rows[i].length + buf.length ≤ st.cap)
    (hr : st.text.length + (joinSpec delim keep false (rowTokens buf rows i hi)).length ≤ st.cap) :
    joinRowM M g buf i keep delim st = ok (some true, { st with text := st.text ++ joinSpec delim keep false (rowTokens buf rows i hi) }) := by
  obtain ⟨n, ts, e, ht, hv, _, hn⟩ := joinRow_steps M g rows h buf ho i hi keep delim hb
  rw [e, bind_ok (b := ()) (after := st) (by rw [reserve, if_neg (by simp [hs]), room_enough M _ st (by omega)]),
    bind_ok (joinTokensM_enough M buf keep delim ts false st hv (by rw [ht, joinPieces_flatten]; exact hr)), ht, joinPieces_flatten]
  rfl

/-- **C189**: `join_column`: all the pieces behind the text, or, when a request was refused, the first ones, each of them whole; with enough capacity there is no request. -/
theorem C189_column (M : Machine) (hM : M.Sound) (g : Grid (Nat × Nat)) (rows : List (List (Nat × Nat))) (h : Rep g rows) (buf : List Byte)
    (ho : InOrder buf rows.flatten) (col a b : Nat) (hc : col ≤ g.maxCol) (hv : a ≤ b ∧ b ≤ rows.length) (delim : List Byte) (st : State) :
    let ts := ((Grid.between a b rows).filterMap fun r => r[col]?).map (tokenText buf)
    Joins M st (joinColumnM M g buf col a b delim st) (joinPieces delim (fun _ => true) false ts) ∧
    (st.text.length + (joinSpec delim (fun _ => true) false ts).length ≤ st.cap →
      joinColumnM M g buf col a b delim st = ok (some true, { st with text := st.text ++ joinSpec delim (fun _ => true) false ts })) := by
  intro ts
  have hmem : ∀ t ∈ (Grid.between a b rows).filterMap (fun r => r[col]?), t.1 ≤ t.2 ∧ t.2 ≤ buf.length := by
    intro t ht
    obtain ⟨r, hr, he⟩ := List.mem_filterMap.mp ht
    exact ho.1 t (List.mem_flatten.mpr ⟨r, List.mem_of_mem_drop (List.mem_of_mem_take hr), List.mem_of_getElem? he⟩)
  have e : joinColumnM M g buf col a b delim st =
      (do joinTokensM M buf (fun _ => true) delim ((Grid.between a b rows).filterMap fun r => r[col]?) false; pure true : Prog Bool) st := by
    unfold joinColumnM
    rw [if_neg (by omega), if_neg (fun hh => (h.rangeInvalid a b).mp hh hv), bind_apply, bind_apply, Prog.andThen, Prog.andThen,
      Rep.joinColumnLoopM h M buf col delim (b - a) a false st (by omega)]
    rfl
  constructor
  · unfold Joins
    rw [e]
    have := joinTokensM_pieces M hM buf (fun _ => true) delim _ false st hmem
    exact Ends.bind this (fun c hc => by obtain ⟨k, hk, hc⟩ := hc; exact ⟨k, Nat.le_of_lt hk, hc⟩) (fun _ c hc => Ends.pure true ⟨rfl, hc⟩)
  · intro hroom
    rw [e, bind_ok (joinTokensM_enough M buf (fun _ => true) delim _ false st hmem (by rw [joinPieces_flatten]; exact hroom)), joinPieces_flatten]
    rfl

/-- **C189**: a row or column that is not there leaves the string as it is, whatever is refused. -/
theorem C189_none (M : Machine) (g : Grid (Nat × Nat)) (rows : List (List (Nat × Nat))) (h : Rep g rows) (buf : List Byte) (keep : List Byte → Bool) (delim : List Byte)
    (st : State) :
    (∀ i, rows.length ≤ i → joinRowM M g buf i keep delim st = ok (some false, st)) ∧
    (∀ col a b, g.maxCol < col → joinColumnM M g buf col a b delim st = ok (some false, st)) ∧
    (∀ col a b, ¬ (a ≤ b ∧ b ≤ rows.length) → joinColumnM M g buf col a b delim st = ok (some false, st)) := by
  refine ⟨fun i hi => ?_, fun col a b hc => ?_, fun col a b hv => ?_⟩
  · rw [joinRowM, h.rowCount, if_pos hi]; rfl
  · rw [joinColumnM, if_pos hc]; rfl
  · unfold joinColumnM
    split
    · rfl
    · rw [if_pos ((h.rangeInvalid a b).mpr hv)]; rfl

/-- **C189**: to a string that is not empty it is not all or nothing: the room reserved does not count the text that is there, so that the row can be cut behind one of its
pieces (here the delimiter is refused, after the text of the first token). -/
theorem C189_row_half : ∃ (M : Machine) (g : Grid (Nat × Nat)) (rows : List (List (Nat × Nat))) (buf delim : List Byte) (st after : State), M.Sound ∧ M.shrinks = false ∧
    Rep g rows ∧ InOrder buf rows.flatten ∧ st.Fits ∧ joinRowM M g buf 0 (fun _ => true) delim st = ok (none, after) ∧
    after.text ≠ st.text ∧ after.text ≠ st.text ++ joinSpec delim (fun _ => true) false ((rows.headD []).map (tokenText buf)) :=
  ⟨⟨fun i => i != 0, fun _ n => n, false, 15⟩, ⟨⟨[(1, 2), (3, 4), (6, 7), (8, 9), (10, 12)], [(0, 1), (2, 4)]⟩, 2, 3⟩, [[(1, 2), (3, 4)], [(6, 7), (8, 9), (10, 12)]],
    [10, 97, 44, 98, 10, 10, 99, 44, 100, 44, 101, 102, 10], [59], ⟨[1, 2, 3, 4, 5, 6, 7], 8, 0⟩, ⟨[1, 2, 3, 4, 5, 6, 7, 97], 8, 1⟩,
    fun _ n => Nat.le_refl n, rfl, ⟨rfl, by decide, by decide, by decide, by decide⟩, ⟨by decide, by decide⟩, by unfold State.Fits; decide, by decide, by decide, by decide⟩

/-! ## Concrete cases -/

/-- The characters of the sample grid: `"\na,b\n\nc,d,ef\n"`. -/
def sampleBuf : List Byte := [10, 97, 44, 98, 10, 10, 99, 44, 100, 44, 101, 102, 10]

theorem sample_rep : Rep Grid.sample [[(1, 2), (3, 4)], [(6, 7), (8, 9), (10, 12)]] := ⟨rfl, by decide, by decide, by decide, by decide⟩

theorem sample_inOrder : InOrder sampleBuf [[(1, 2), (3, 4)], [(6, 7), (8, 9), (10, 12)]].flatten := ⟨by decide, by decide⟩

/-- Grants everything but request number `k`; strings get what they need. -/
def without (k : Nat) : Machine := ⟨fun i => i != k, fun _ n => n, false, 15⟩

example := C189_row (without 1) (fun _ n => Nat.le_refl n) Grid.sample _ sample_rep sampleBuf sample_inOrder 0 (by decide) (fun _ => true) [59] (by decide) ⟨[1, 2], 2, 0⟩
example := C189_row_new (without 0) (fun _ n => Nat.le_refl n) Grid.sample _ sample_rep sampleBuf sample_inOrder 1 (by decide) (fun _ => true) [59] (by decide) 3 0
example := C189_row_room (without 0) rfl Grid.sample _ sample_rep sampleBuf sample_inOrder 0 (by decide) (fun _ => true) [59] (by decide) ⟨[1, 2], 20, 0⟩ (by decide) (by decide)
example := C189_column (without 0) (fun _ n => Nat.le_refl n) Grid.sample _ sample_rep sampleBuf sample_inOrder 1 0 2 (by decide) (by decide) [59] ⟨[1, 2], 20, 0⟩
example := C189_none (without 0) Grid.sample _ sample_rep sampleBuf (fun _ => true) [59] ⟨[1, 2], 20, 0⟩
example := C189_row_half

example : joinRowM (without 1) Grid.sample sampleBuf 0 (fun _ => true) [59] ⟨[], 0, 0⟩ = ok (some true, ⟨[97, 59, 98], 8, 1⟩) := by decide
example : joinRowM (without 0) Grid.sample sampleBuf 0 (fun _ => true) [59] ⟨[], 0, 0⟩ = ok (none, ⟨[], 0, 1⟩) := by decide
example : joinColumnM (without 1) Grid.sample sampleBuf 1 0 2 [59] ⟨[7], 1, 0⟩ = ok (none, ⟨[7, 98], 2, 2⟩) := by decide

example : InOrder sampleBuf [[(1, 2), (3, 4)], [(6, 7), (8, 9), (10, 12)]].flatten :=
  (C189_loaded {} (· == 10) (· == 44) sampleBuf Grid.sample (by decide +kernel)).1 _ sample_rep

end Strtk.Refused
