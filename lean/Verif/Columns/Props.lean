import Verif.Columns.Model

/-!
# C73: column selection
-/

namespace Strtk.Columns
open Outcome Strtk.Codec Strtk.Split Strtk.Parse

/-- Strictly increasing column numbers below the greatest `std::size_t`. -/
def Increasing (cols : List Nat) : Prop := cols.Pairwise (· < ·) ∧ ∀ c ∈ cols, c < 2 ^ 64 - 1

theorem Increasing.lt {cols : List Nat} (h : Increasing cols) {i j a b : Nat} (hij : i < j) (ha : cols[i]? = some a) (hb : cols[j]? = some b) :
    a < b := by
  obtain ⟨hi, rfl⟩ := List.getElem?_eq_some_iff.mp ha
  obtain ⟨hj, rfl⟩ := List.getElem?_eq_some_iff.mp hb
  exact List.pairwise_iff_getElem.mp h.1 i j hi hj hij

theorem deref_some {α : Type} {l : List α} {i : Nat} {a : α} (h : l[i]? = some a) : deref l i = ok a := by unfold deref; rw [h]

/-- Where a selector stands after `c` columns, `k` of them selected. -/
structure At (cols : List Nat) (current target index : Nat) : Prop where
  le : index ≤ cols.length
  tgt : (∃ col, cols[index]? = some col ∧ target = col) ∨ (index = cols.length ∧ target = npos)
  before : ∀ j col, j < index → cols[j]? = some col → col < current
  after : ∀ j col, index ≤ j → cols[j]? = some col → current ≤ col

theorem At.start {cols : List Nat} (first : Nat) (hf : cols[0]? = some first) : At cols 0 first 0 :=
  ⟨by omega, Or.inl ⟨first, hf, rfl⟩, by intros; omega, by intros; omega⟩

theorem At.skip {cols : List Nat} {c t k : Nat} (h : At cols c t k) (hne : c ≠ t) (hinc : Increasing cols) : At cols (c + 1) t k := by
  refine ⟨h.le, h.tgt, fun j col hj hc => by have := h.before j col hj hc; omega, ?_⟩
  intro j col hj hc
  have h1 := h.after j col hj hc
  rcases h.tgt with ⟨col', h2, rfl⟩ | ⟨h2, _⟩
  · have h3 := h.after k t (by omega) h2
    by_cases hjk : j = k
    · subst hjk; rw [h2] at hc; cases hc; omega
    · have := hinc.lt (show k < j by omega) h2 hc; omega
  · have := (List.getElem?_eq_some_iff.mp hc).1; omega

theorem At.hit {cols : List Nat} {c t k : Nat} (h : At cols c t k) (he : c = t) (hinc : Increasing cols) (hc : c < npos) :
    cols[k]? = some c ∧ ∃ t', nextTarget cols (k + 1) = ok t' ∧ At cols (c + 1) t' (k + 1) := by
  have hk : cols[k]? = some c := by
    rcases h.tgt with ⟨col', h2, rfl⟩ | ⟨_, h3⟩
    · rw [he]; exact h2
    · omega
  refine ⟨hk, ?_⟩
  have hklt := (List.getElem?_eq_some_iff.mp hk).1
  have hb : ∀ j col, j < k + 1 → cols[j]? = some col → col < c + 1 := by
    intro j col hj hcol
    by_cases hjk : j = k
    · subst hjk; rw [hk] at hcol; cases hcol; omega
    · have := h.before j col (by omega) hcol; omega
  have ha : ∀ j col, k + 1 ≤ j → cols[j]? = some col → c + 1 ≤ col := by
    intro j col hj hcol
    exact hinc.lt (show k < j by omega) hk hcol
  unfold nextTarget
  by_cases hlt : k + 1 < cols.length
  · rw [if_pos hlt]
    refine ⟨cols[k + 1], deref_some (List.getElem?_eq_getElem hlt), by omega, Or.inl ⟨_, List.getElem?_eq_getElem hlt, rfl⟩, hb, ha⟩
  · rw [if_neg hlt]
    exact ⟨npos, rfl, by omega, Or.inr ⟨by omega, rfl⟩, hb, ha⟩

theorem assignAll_spec (cols : List Nat) (hinc : Increasing cols) : ∀ (rs : List (List Byte)) (st : Csii),
    At cols st.current st.target st.index → st.tokens.length = cols.length → st.current + rs.length ≤ npos →
    ∃ st', st.assignAll cols rs = ok st' ∧ st'.tokens.length = cols.length ∧ (∀ j, j < st.index → st'.tokens[j]? = st.tokens[j]?) ∧
      ∀ j col, st.index ≤ j → cols[j]? = some col → st'.tokens[j]? = if col - st.current < rs.length then rs[col - st.current]? else st.tokens[j]? := by
  intro rs
  induction rs with
  | nil => intro st _ hl _; exact ⟨st, rfl, hl, fun _ _ => rfl, by simp⟩
  | cons r rs ih =>
    intro st hat hl hn
    simp only [List.length_cons] at hn
    unfold Csii.assignAll Csii.assign
    by_cases he : st.current = st.target
    · obtain ⟨hk, t', hnt, hat'⟩ := hat.hit he hinc (by omega)
      have hklt := (List.getElem?_eq_some_iff.mp hk).1
      have hstore : store st.tokens st.index r = ok (st.tokens.set st.index r) := by unfold store; rw [if_pos (by omega)]
      rw [if_pos he, hstore, ok_bind]
      simp only [hnt, ok_bind]
      obtain ⟨st', h1, h2, h3, h4⟩ := ih ⟨st.tokens.set st.index r, st.current + 1, t', st.index + 1⟩ hat' (by simp [hl]) (by simp only; omega)
      refine ⟨st', h1, h2, ?_, ?_⟩
      · intro j hj
        rw [h3 j (by simp only; omega)]
        simp only
        rw [List.getElem?_set_ne (by omega)]
      · intro j col hj hcol
        by_cases hjk : j = st.index
        · subst hjk
          rw [hk] at hcol; cases hcol
          rw [h3 _ (by simp only; omega)]
          simp only [Nat.sub_self, List.length_cons, Nat.zero_lt_succ, if_true, List.getElem?_cons_zero]
          rw [List.getElem?_set_self (by omega)]
        · have h5 := h4 j col (by simp only; omega) hcol
          rw [h5]
          have hlt := hinc.lt (show st.index < j by omega) hk hcol
          simp only
          rw [List.getElem?_set_ne (by omega)]
          have e : col - st.current = col - (st.current + 1) + 1 := by omega
          rw [e, List.getElem?_cons_succ, List.length_cons]
          simp only [Nat.add_lt_add_iff_right]
    · rw [if_neg he, ok_bind, ok_bind]
      have hat' := hat.skip he hinc
      obtain ⟨st', h1, h2, h3, h4⟩ := ih ⟨st.tokens, st.current + 1, st.target, st.index⟩ hat' hl (by simp only; omega)
      refine ⟨st', h1, h2, h3, ?_⟩
      intro j col hj hcol
      rw [h4 j col hj hcol]
      have hge := hat'.after j col hj hcol
      simp only
      have e : col - st.current = col - (st.current + 1) + 1 := by omega
      rw [e, List.getElem?_cons_succ, List.length_cons]
      simp only [Nat.add_lt_add_iff_right]

/-- What `parse_columns` computes: it fails without touching a target if the text has too few columns; otherwise the requested columns are
converted in order. -/
theorem parseColumns_eq {V : Type} (delims s : List Byte) (cols : List Nat) (last : Nat) (hinc : Increasing cols) (hlast : cols.getLast? = some last)
    (fs : List (Conv V)) (ts : List V) :
    ((fields delims s).length ≤ last → parseColumns delims cols fs ts s = ok (false, ts)) ∧
    (last < (fields delims s).length → ∃ ws : List (List Byte), ws.length = cols.length ∧
      (∀ (j col : Nat), cols[j]? = some col → ws[j]? = (fields delims s)[col]?) ∧ parseColumns delims cols fs ts s = convertAll fs ts ws) := by
  have hne : cols ≠ [] := by rintro rfl; simp at hlast
  have hpos : 0 < cols.length := List.length_pos_iff.mpr hne
  have hl : cols[cols.length - 1]? = some last := by rw [← List.getLast?_eq_getElem?]; exact hlast
  obtain ⟨first, hfirst⟩ : ∃ f, cols[0]? = some f := ⟨_, List.getElem?_eq_getElem hpos⟩
  have hmem : last < 2 ^ 64 - 1 := hinc.2 last (List.mem_of_getElem? hl)
  obtain ⟨r, e1, e2⟩ := splitN_fields delims s (last + 1)
  have hrl : r.length ≤ last + 1 := by
    have := congrArg List.length e2
    rw [List.length_map, List.length_take] at this; omega
  obtain ⟨st', h1, h2, _, h4⟩ := assignAll_spec cols hinc (r.map (textOf s)) ⟨List.replicate cols.length [], 0, first, 0⟩ (At.start first hfirst)
    (by simp) (by simp only [List.length_map, Nat.zero_add]; unfold npos; omega)
  have hmod : (last + 1) % 2 ^ 64 = last + 1 := Nat.mod_eq_of_lt (by omega)
  have hval : parseColumns delims cols fs ts s =
      if last + 1 > min (fields delims s).length (last + 1) then ok (false, ts) else convertAll fs ts st'.tokens := by
    unfold parseColumns
    rw [deref_some hl, ok_bind]
    simp only [hmod]
    rw [deref_some hfirst, ok_bind, e1, ok_bind]
    simp only
    rw [h1, ok_bind]
  rw [hval]
  constructor
  · intro h; rw [if_pos (by omega)]
  · intro h
    rw [if_neg (by omega)]
    refine ⟨st'.tokens, h2, ?_, rfl⟩
    intro j col hcol
    have hcl : col ≤ last := by
      have hjlt := (List.getElem?_eq_some_iff.mp hcol).1
      by_cases hj : j = cols.length - 1
      · subst hj; rw [hl] at hcol; cases hcol; omega
      · have := hinc.lt (show j < cols.length - 1 by omega) hcol hl; omega
    have := h4 j col (by simp only; omega) hcol
    simp only [Nat.sub_zero] at this
    rw [e2] at this
    rw [this, if_pos (by rw [List.length_take]; omega), List.getElem?_take, if_pos (by omega)]

/-- **C73**: with increasing columns all of which the text has and each of which converts, `parse_columns` succeeds and the i-th target
holds the value of the i-th requested column (fields are the texts between runs of delimiters). -/
theorem C73_parse_columns {V : Type} (delims s : List Byte) (cols : List Nat) (hne : cols ≠ []) (hinc : Increasing cols) (fs : List (Conv V))
    (ts vs : List V) (h0 : fs.length = cols.length) (h1 : ts.length = cols.length) (h2 : vs.length = cols.length)
    (hcols : ∀ col ∈ cols, col < (fields delims s).length)
    (hconv : ∀ (i : Nat) (f : Conv V) t v col w, fs[i]? = some f → ts[i]? = some t → vs[i]? = some v → cols[i]? = some col →
      (fields delims s)[col]? = some w → f w t = ok (true, v)) :
    parseColumns delims cols fs ts s = ok (true, vs) := by
  obtain ⟨last, hlast⟩ : ∃ l, cols.getLast? = some l := ⟨_, List.getLast?_eq_some_getLast hne⟩
  obtain ⟨ws, w1, w2, w3⟩ := (parseColumns_eq delims s cols last hinc hlast fs ts).2 (hcols last (List.mem_of_getLast? hlast))
  rw [w3]
  apply convertAll_ok _ _ _ _ (by omega) (by omega) (by omega)
  intro i f t v w a b c d
  have hi : i < cols.length := by have := (List.getElem?_eq_some_iff.mp d).1; omega
  have hcol := List.getElem?_eq_getElem hi
  exact hconv i f t v _ w a b c hcol (by rw [← w2 i _ hcol]; exact d)

/-- **C73**: a text without one of the requested columns is refused and no target changes. -/
theorem C73_missing_column {V : Type} (delims s : List Byte) (cols : List Nat) (hinc : Increasing cols) (fs : List (Conv V)) (ts : List V)
    (col : Nat) (hcol : col ∈ cols) (hmiss : (fields delims s).length ≤ col) : parseColumns delims cols fs ts s = ok (false, ts) := by
  have hne : cols ≠ [] := by rintro rfl; simp at hcol
  obtain ⟨last, hlast⟩ : ∃ l, cols.getLast? = some l := ⟨_, List.getLast?_eq_some_getLast hne⟩
  apply (parseColumns_eq delims s cols last hinc hlast fs ts).1
  have hl : cols[cols.length - 1]? = some last := by rw [← List.getLast?_eq_getElem?]; exact hlast
  obtain ⟨j, hj⟩ := List.mem_iff_getElem?.mp hcol
  have hjlt := (List.getElem?_eq_some_iff.mp hj).1
  by_cases hje : j = cols.length - 1
  · subst hje; rw [hl] at hj; cases hj; omega
  · have := hinc.lt (show j < cols.length - 1 by omega) hj hl; omega

/-- **C73**: the first requested column that does not convert makes it fail; the targets before it hold the values of their columns, those
after it are unchanged. -/
theorem C73_bad_column {V : Type} (delims s : List Byte) (cols1 cols2 : List Nat) (c : Nat) (hinc : Increasing (cols1 ++ c :: cols2))
    (fs1 fs2 : List (Conv V)) (f : Conv V) (ts1 ts2 vs1 : List V) (t v : V) (w : List Byte)
    (h1 : fs1.length = cols1.length) (h2 : ts1.length = cols1.length) (h3 : vs1.length = cols1.length)
    (hcols : ∀ col ∈ cols1 ++ c :: cols2, col < (fields delims s).length)
    (hw : (fields delims s)[c]? = some w) (hbad : f w t = ok (false, v))
    (hconv : ∀ (i : Nat) (f : Conv V) t v col w, fs1[i]? = some f → ts1[i]? = some t → vs1[i]? = some v → cols1[i]? = some col →
      (fields delims s)[col]? = some w → f w t = ok (true, v)) :
    parseColumns delims (cols1 ++ c :: cols2) (fs1 ++ f :: fs2) (ts1 ++ t :: ts2) s = ok (false, vs1 ++ v :: ts2) := by
  obtain ⟨last, hlast⟩ : ∃ l, (cols1 ++ c :: cols2).getLast? = some l := ⟨_, List.getLast?_eq_some_getLast (by simp)⟩
  obtain ⟨ws, w1, w2, w3⟩ := (parseColumns_eq delims s _ last hinc hlast (fs1 ++ f :: fs2) (ts1 ++ t :: ts2)).2
    (hcols last (List.mem_of_getLast? hlast))
  rw [w3]
  simp only [List.length_append, List.length_cons] at w1
  have hc : (cols1 ++ c :: cols2)[cols1.length]? = some c := by simp
  have hwc : ws[cols1.length]? = some w := by rw [w2 _ _ hc]; exact hw
  have hsplit : ws = ws.take cols1.length ++ w :: ws.drop (cols1.length + 1) := by
    obtain ⟨hlt, hget⟩ := List.getElem?_eq_some_iff.mp hwc
    conv_lhs => rw [← List.take_append_drop cols1.length ws, List.drop_eq_getElem_cons hlt, hget]
  rw [hsplit]
  apply convertAll_fail _ _ _ _ _ _ _ _ _ _ _ (by omega) (by omega) (by rw [List.length_take]; omega) _ hbad
  intro i f' t' v' w' a b c' d
  rw [List.getElem?_take] at d
  split at d
  case isFalse => simp at d
  case isTrue hi =>
    have hcol := List.getElem?_eq_getElem hi
    have : (cols1 ++ c :: cols2)[i]? = some cols1[i] := by rw [List.getElem?_append_left hi]; exact hcol
    exact hconv i f' t' v' _ w' a b c' hcol (by rw [← w2 i _ this]; exact d)

/-- Non-vacuity: columns 0 and 2 of "a,b,,c" into text targets. -/
example : parseColumns [44] [0, 2] [fun w _ => ok (true, w), fun w _ => ok (true, w)] [[], []] [97, 44, 98, 44, 44, 99] =
    ok (true, [[97], [99]]) ∧
    parseColumns [44] [0, 3] [fun w _ => ok (true, w), fun w _ => ok (true, w)] [[], []] [97, 44, 98, 44, 44, 99] = ok (false, [[], []]) := by
  decide +kernel

/-- **C73** (why the columns must increase): columns listed in another order are delivered as empty texts, reported as success. -/
theorem C73_decreasing_columns : parseColumns [44] [1, 0] [fun w _ => ok (true, w), fun w _ => ok (true, w)] [[120], [120]] [97, 44, 98] =
    ok (true, [[], []]) := by decide +kernel

/-! ## The selector object -/

/-- A converter that is total. -/
def total {V : Type} (g : List Byte → V → Bool × V) : Conv V := fun w t => ok (g w t)

theorem processAll_spec {V : Type} (cols : List Nat) (hinc : Increasing cols) (gs : List (List Byte → V → Bool × V)) (hg : gs.length = cols.length) :
    ∀ (rs : List (List Byte)) (st : Selector V), At cols st.current st.target st.index → st.values.length = cols.length →
    st.current + rs.length ≤ npos →
    ∃ st', st.processAll cols (gs.map total) rs = ok st' ∧ st'.values.length = cols.length ∧ (∀ j, j < st.index → st'.values[j]? = st.values[j]?) ∧
      ∀ j col g v, st.index ≤ j → cols[j]? = some col → gs[j]? = some g → st.values[j]? = some v →
        st'.values[j]? = some (match rs[col - st.current]? with | some w => (g w v).2 | none => v) := by
  intro rs
  induction rs with
  | nil =>
    intro st _ hl _
    exact ⟨st, rfl, hl, fun _ _ => rfl, by intro j col g v _ _ _ hv; simpa using hv⟩
  | cons r rs ih =>
    intro st hat hl hn
    simp only [List.length_cons] at hn
    unfold Selector.processAll Selector.process
    have hle : ¬ st.current > st.target := by
      rcases hat.tgt with ⟨col, h1, h2⟩ | ⟨_, h2⟩
      · have := hat.after _ _ (Nat.le_refl _) h1; omega
      · omega
    rw [if_neg hle]
    by_cases he : st.current = st.target
    · obtain ⟨hk, t', hnt, hat'⟩ := hat.hit he hinc (by omega)
      have hklt := (List.getElem?_eq_some_iff.mp hk).1
      have hfk : (gs.map total)[st.index]? = some (total (gs[st.index]'(by omega))) := by
        rw [List.getElem?_map, List.getElem?_eq_getElem (by omega)]; rfl
      have hvk : st.values[st.index]? = some (st.values[st.index]'(by omega)) := List.getElem?_eq_getElem (by omega)
      generalize hgk : gs[st.index]'(by omega) = g at hfk
      generalize hvv : st.values[st.index]'(by omega) = v at hvk
      rw [if_pos he, deref_some hfk, ok_bind, deref_some hvk, ok_bind]
      unfold total
      simp only [ok_bind]
      have hstore : store st.values st.index (g r v).2 = ok (st.values.set st.index (g r v).2) := by unfold store; rw [if_pos (by omega)]
      rw [hstore, ok_bind, hnt]
      simp only [ok_bind]
      obtain ⟨st', h1, h2, h3, h4⟩ := ih ⟨st.values.set st.index (g r v).2, st.current + 1, t', st.index + 1,
        if (g r v).1 then st.errors else st.errors + 1⟩ hat' (by simp [hl]) (by simp only; omega)
      refine ⟨st', h1, h2, ?_, ?_⟩
      · intro j hj
        rw [h3 j (by simp only; omega)]
        simp only
        rw [List.getElem?_set_ne (by omega)]
      · intro j col g' v' hj hcol hgj hvj
        by_cases hjk : j = st.index
        · subst hjk
          rw [hk] at hcol; cases hcol
          rw [h3 _ (by simp only; omega)]
          simp only [Nat.sub_self, List.getElem?_cons_zero]
          rw [List.getElem?_set_self (by omega)]
          rw [hvk] at hvj; cases hvj
          rw [List.getElem?_eq_getElem (by omega), hgk] at hgj; cases hgj
          rfl
        · have hlt := hinc.lt (show st.index < j by omega) hk hcol
          rw [h4 j col g' v' (by simp only; omega) hcol hgj (by simp only; rw [List.getElem?_set_ne (by omega)]; exact hvj)]
          simp only
          have e : col - st.current = col - (st.current + 1) + 1 := by omega
          rw [e, List.getElem?_cons_succ]
    · rw [if_neg he, ok_bind, ok_bind]
      have hat' := hat.skip he hinc
      obtain ⟨st', h1, h2, h3, h4⟩ := ih ⟨st.values, st.current + 1, st.target, st.index, st.errors⟩ hat' hl (by simp only; omega)
      refine ⟨st', h1, h2, h3, ?_⟩
      intro j col g v hj hcol hgj hvj
      rw [h4 j col g v hj hcol hgj hvj]
      have hge := hat'.after j col hj hcol
      simp only
      have e : col - st.current = col - (st.current + 1) + 1 := by omega
      rw [e, List.getElem?_cons_succ]

/-- **C73**: a `column_selector` fed with the tokens of a row hands to its j-th target the token of the j-th requested column, and leaves the
targets of missing columns alone. -/
theorem C73_selector {V : Type} (cols : List Nat) (hne : cols ≠ []) (hinc : Increasing cols) (gs : List (List Byte → V → Bool × V)) (ts : List V)
    (hg : gs.length = cols.length) (ht : ts.length = cols.length) (tokens : List (List Byte)) (hn : tokens.length < 2 ^ 64) :
    ∃ st0 st, Selector.make cols ts = ok st0 ∧ st0.processAll cols (gs.map total) tokens = ok st ∧
      ∀ (j col : Nat) g v, cols[j]? = some col → gs[j]? = some g → ts[j]? = some v →
        st.values[j]? = some (match tokens[col]? with | some w => (g w v).2 | none => v) := by
  have hpos : 0 < cols.length := List.length_pos_iff.mpr hne
  have hfirst := List.getElem?_eq_getElem hpos
  obtain ⟨st', h1, _, _, h4⟩ := processAll_spec cols hinc gs hg tokens ⟨ts, 0, cols[0], 0, 0⟩ (At.start _ hfirst) ht
    (by simp only; unfold npos; omega)
  refine ⟨_, st', by unfold Selector.make; rw [deref_some hfirst]; rfl, h1, ?_⟩
  intro j col g v hc hgj hv
  have := h4 j col g v (by simp only; omega) hc hgj hv
  simpa using this

example : (do let st ← Selector.make [1, 2] [[], []]
              let st ← st.processAll [1, 2] [fun w _ => ok (true, w), fun w _ => ok (true, w)] [[97], [98]]
              ok st.values) = ok [[98], []] := by decide

end Strtk.Columns
