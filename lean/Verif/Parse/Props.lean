import Verif.Parse.Model
import Verif.Parse.Spec
import Verif.Split.Props
import Verif.Number.Props

/-! # Theorems about delimiter predicates and parse (C33, C34, C37, C79) -/

namespace Strtk.Parse
open Outcome Mem Strtk.Codec Strtk.Split

/-! ## C79: delimiter predicates -/

theorem setupLoop_spec : ∀ (delims : List Byte) (table : List Bool), table.length = 256 →
    ∃ t, setupLoop delims table = ok t ∧ t.length = 256 ∧ ∀ c : Byte, t[c.toNat]? = (table[c.toNat]?).map (fun b => b || decide (c ∈ delims)) := by
  intro delims
  induction delims with
  | nil => intro table h; exact ⟨table, rfl, h, fun c => by simp⟩
  | cons d delims ih =>
    intro table h
    have hd := d.isLt
    unfold setupLoop
    rw [store_eq_ok _ (by omega), ok_bind]
    obtain ⟨t, h1, h2, h3⟩ := ih (table.set d.toNat true) (by simpa using h)
    refine ⟨t, h1, h2, fun c => ?_⟩
    rw [h3 c, List.getElem?_set]
    have hc := c.isLt
    by_cases e : d.toNat = c.toNat
    · have e' : d = c := BitVec.eq_of_toNat_eq e
      subst e'
      rw [if_pos rfl, if_pos (by omega)]
      have : table[d.toNat]? = some table[d.toNat] := List.getElem?_eq_getElem (by omega)
      rw [this]
      simp
    · have e' : c ≠ d := fun hh => e (by rw [hh])
      rw [if_neg e]
      simp [e']

/-- The table-based predicate never leaves its table and decides membership in the delimiter string, for all 256 characters. -/
theorem C79_multiple_char_predicate (delims : List Byte) (c : Byte) : multipleCharPred delims c = ok (decide (c ∈ delims)) := by
  unfold multipleCharPred delimiterTable
  obtain ⟨t, h1, h2, h3⟩ := setupLoop_spec delims (List.replicate 256 false) List.length_replicate
  rw [h1, ok_bind]
  have hc := c.isLt
  have := h3 c
  rw [List.getElem?_replicate, if_pos (by omega)] at this
  simp [deref, this]

/-- So do the other two predicates, for any character type. -/
theorem C79_single_predicate {α : Type} [DecidableEq α] (d c : α) : singlePred d c = decide (c = d) := by
  unfold singlePred
  by_cases h : c = d
  · simp [h]
  · simp [h, Ne.symm h]

theorem C79_multiple_predicate {α : Type} [DecidableEq α] (delims : List α) (c : α) : multiplePred delims c = decide (c ∈ delims) := by
  induction delims with
  | nil => simp [multiplePred]
  | cons d t ih =>
    unfold multiplePred
    by_cases h : d = c
    · simp [h]
    · rw [if_neg h, ih]
      simp [Ne.symm h]

/-- Whatever the number of delimiters, the predicate chosen from a delimiter string decides membership. -/
theorem C79_delimiter_string (delims : List Byte) : delimPred delims = fun c => decide (c ∈ delims) := by
  funext c
  unfold delimPred
  split
  · rw [C79_single_predicate]; simp
  · rw [C79_multiple_char_predicate]

example : delimPred [44, 59] 59 = true ∧ delimPred [44, 59] 0xFF = false ∧ delimPred [0xFF] 0xFF = true := by decide +kernel

/-! ## Fields -/

theorem split_fields (delims s : List Byte) : ∃ r, split { compress := true } (delimPred delims) s = ok (r, r.length) ∧ r.map (textOf s) = fields delims s := by
  rw [C79_delimiter_string]
  by_cases hs : s = []
  · subst hs
    exact ⟨[], rfl, by simp [fields]⟩
  · obtain ⟨r, h1, h2⟩ := C02_split_compress (fun c => decide (c ∈ delims)) s hs
    exact ⟨r, h1, by rw [h2, fields, if_neg hs]⟩

theorem splitN_fields (delims s : List Byte) (n : Nat) : ∃ r, splitN { compress := true } (delimPred delims) s n = ok (r, min (fields delims s).length n) ∧
    r.map (textOf s) = (fields delims s).take n := by
  obtain ⟨r, h1, h2⟩ := split_fields delims s
  obtain ⟨r', h3, h4⟩ := C06_split_n_prefix true (delimPred delims) s n
  rw [h1] at h3
  simp only [ok.injEq, Prod.mk.injEq] at h3
  obtain ⟨rfl, _⟩ := h3
  refine ⟨r.take n, ?_, ?_⟩
  · rw [h4, ← h2, List.length_map]
  · rw [List.map_take, h2]

/-! ## C33 -/

theorem convertAll_ok {V : Type} : ∀ (fs : List (Conv V)) (ts vs : List V) (ws : List (List Byte)), ts.length = fs.length → vs.length = fs.length →
    fs.length ≤ ws.length → (∀ (i : Nat) (f : Conv V) t v w, fs[i]? = some f → ts[i]? = some t → vs[i]? = some v → ws[i]? = some w → f w t = ok (true, v)) →
    convertAll fs ts ws = ok (true, vs) := by
  intro fs
  induction fs with
  | nil =>
    intro ts vs ws h1 h2 _ _
    have e1 : ts = [] := List.length_eq_zero_iff.mp (by simpa using h1)
    have e2 : vs = [] := List.length_eq_zero_iff.mp (by simpa using h2)
    subst e1 e2; rfl
  | cons f fs ih =>
    intro ts vs ws h1 h2 h3 h
    match ts, vs, ws, h1, h2, h3 with
    | t :: ts, v :: vs, w :: ws, h1, h2, h3 =>
      unfold convertAll
      rw [h 0 f t v w rfl rfl rfl rfl, ok_bind]
      simp only [if_true]
      rw [ih ts vs ws (by simpa using h1) (by simpa using h2) (by simpa using h3) (fun i f' t' v' w' a b c d => h (i + 1) f' t' v' w' (by simpa using a) (by simpa using b) (by simpa using c) (by simpa using d)), ok_bind]

theorem convertAll_fail {V : Type} : ∀ (fs1 : List (Conv V)) (ts1 vs1 : List V) (ws1 : List (List Byte)) (f : Conv V) (fs2 : List (Conv V)) (t v : V)
    (ts2 : List V) (w : List Byte) (ws2 : List (List Byte)), ts1.length = fs1.length → vs1.length = fs1.length → ws1.length = fs1.length →
    (∀ (i : Nat) (f : Conv V) t v w, fs1[i]? = some f → ts1[i]? = some t → vs1[i]? = some v → ws1[i]? = some w → f w t = ok (true, v)) → f w t = ok (false, v) →
    convertAll (fs1 ++ f :: fs2) (ts1 ++ t :: ts2) (ws1 ++ w :: ws2) = ok (false, vs1 ++ v :: ts2) := by
  intro fs1
  induction fs1 with
  | nil =>
    intro ts1 vs1 ws1 f fs2 t v ts2 w ws2 h1 h2 h3 _ hf
    have e1 : ts1 = [] := List.length_eq_zero_iff.mp (by simpa using h1)
    have e2 : vs1 = [] := List.length_eq_zero_iff.mp (by simpa using h2)
    have e3 : ws1 = [] := List.length_eq_zero_iff.mp (by simpa using h3)
    subst e1 e2 e3
    simp only [List.nil_append]
    unfold convertAll
    rw [hf, ok_bind]
    simp
  | cons g fs1 ih =>
    intro ts1 vs1 ws1 f fs2 t v ts2 w ws2 h1 h2 h3 h hf
    match ts1, vs1, ws1, h1, h2, h3 with
    | t' :: ts1, v' :: vs1, w' :: ws1, h1, h2, h3 =>
      simp only [List.cons_append]
      unfold convertAll
      rw [h 0 g t' v' w' rfl rfl rfl rfl, ok_bind]
      simp only [if_true]
      rw [ih ts1 vs1 ws1 f fs2 t v ts2 w ws2 (by simpa using h1) (by simpa using h2) (by simpa using h3)
        (fun i f' t' v' w' a b c d => h (i + 1) f' t' v' w' (by simpa using a) (by simpa using b) (by simpa using c) (by simpa using d)) hf, ok_bind]

/-- With at least as many fields as targets, each of the first of which converts, parsing succeeds and every target holds the value of its
field (further fields are ignored). -/
theorem C33_parse_succeeds {V : Type} (delims s : List Byte) (fs : List (Conv V)) (ts vs : List V) (h1 : ts.length = fs.length)
    (h2 : vs.length = fs.length) (hn : fs.length ≤ (fields delims s).length)
    (hconv : ∀ (i : Nat) (f : Conv V) t v w, fs[i]? = some f → ts[i]? = some t → vs[i]? = some v → (fields delims s)[i]? = some w → f w t = ok (true, v)) :
    parse delims fs ts s = ok (true, vs) := by
  unfold parse
  obtain ⟨r, e1, e2⟩ := splitN_fields delims s fs.length
  rw [e1, ok_bind]
  simp only
  rw [if_neg (by omega), e2]
  apply convertAll_ok _ _ _ _ h1 h2 (by simp; omega)
  intro i f t v w a b c d
  apply hconv i f t v w a b c
  rw [List.getElem?_take] at d
  split at d
  · exact d
  · simp at d

/-- With fewer fields than targets it fails and no target changes. -/
theorem C33_too_few_fields {V : Type} (delims s : List Byte) (fs : List (Conv V)) (ts : List V) (hn : (fields delims s).length < fs.length) :
    parse delims fs ts s = ok (false, ts) := by
  unfold parse
  obtain ⟨r, e1, e2⟩ := splitN_fields delims s fs.length
  rw [e1, ok_bind]
  simp only
  rw [if_pos (by omega)]

/-- Otherwise some field is the first that does not convert: parsing fails, the targets before it hold the values of their fields, those
after it are unchanged. -/
theorem C33_bad_field {V : Type} (delims s : List Byte) (fs1 fs2 : List (Conv V)) (f : Conv V) (ts1 ts2 vs1 : List V) (t v : V) (w : List Byte)
    (h1 : ts1.length = fs1.length) (h2 : vs1.length = fs1.length) (hn : fs1.length + 1 + fs2.length ≤ (fields delims s).length)
    (hw : (fields delims s)[fs1.length]? = some w) (hbad : f w t = ok (false, v))
    (hconv : ∀ (i : Nat) (f : Conv V) t v w, fs1[i]? = some f → ts1[i]? = some t → vs1[i]? = some v → (fields delims s)[i]? = some w → f w t = ok (true, v)) :
    parse delims (fs1 ++ f :: fs2) (ts1 ++ t :: ts2) s = ok (false, vs1 ++ v :: ts2) := by
  unfold parse
  obtain ⟨r, e1, e2⟩ := splitN_fields delims s (fs1 ++ f :: fs2).length
  rw [e1, ok_bind]
  simp only
  have hlen : (fs1 ++ f :: fs2).length = fs1.length + 1 + fs2.length := by simp; omega
  rw [if_neg (by omega), e2, hlen]
  generalize fields delims s = F at *
  have hsplit : F.take (fs1.length + 1 + fs2.length) = F.take fs1.length ++ w :: (F.drop (fs1.length + 1)).take fs2.length := by
    have hlt : fs1.length < F.length := by omega
    have hget : F[fs1.length] = w := by
      rw [List.getElem?_eq_getElem hlt] at hw
      exact Option.some.inj hw
    have hd : F.drop fs1.length = w :: F.drop (fs1.length + 1) := by rw [List.drop_eq_getElem_cons hlt, hget]
    conv_lhs => rw [show fs1.length + 1 + fs2.length = fs1.length + (fs2.length + 1) by omega, List.take_add, hd, List.take_succ_cons]
  rw [hsplit]
  apply convertAll_fail _ _ _ _ _ _ _ _ _ _ _ h1 h2 (by simp; omega) _ hbad
  intro i f' t' v' w' a b c d
  apply hconv i f' t' v' w' a b c
  rw [List.getElem?_take] at d
  split at d
  · exact d
  · simp at d

/-- "12,;-7,x" with delimiters ",;" into two ints. -/
example : parse [44, 59] [fun s r => Number.parseSigned Number.int s r, fun s r => Number.parseSigned Number.int s r] [0, 0] [49, 50, 44, 59, 45, 55, 44, 120] = ok (true, [12, -7]) := by
  decide +kernel
example : fields [44, 59] [49, 50, 44, 59, 45, 55, 44, 120] = [[49, 50], [45, 55], [120]] := by decide +kernel
example : parse [44, 59] [fun s r => Number.parseSigned Number.int s r, fun s r => Number.parseSigned Number.int s r] [0, 0] [49, 50, 44, 120] = ok (false, [12, 0]) := by
  decide +kernel

/-! ## C34 -/

theorem insertAll_spec {V C : Type} (conv : List Byte → Outcome (Bool × V)) (spec : List Byte → Option V) (push : C → V → C)
    (hspec : ∀ w, (∀ v, spec w = some v → conv w = ok (true, v)) ∧ (spec w = none → ∃ v, conv w = ok (false, v))) :
    ∀ (ws : List (List Byte)) (c : C), insertAll conv push c ws = ok ((converted spec ws).foldl push c) := by
  intro ws
  induction ws with
  | nil => intro c; rfl
  | cons w ws ih =>
    intro c
    unfold insertAll
    cases hw : spec w with
    | none =>
      obtain ⟨v, hv⟩ := (hspec w).2 hw
      rw [hv, ok_bind]
      simp only [Bool.false_eq_true, if_false]
      rw [ih]
      simp [converted, hw]
    | some v =>
      rw [(hspec w).1 v hw, ok_bind]
      simp only [if_true]
      rw [ih]
      simp [converted, hw]

/-- Parsing into a container pushes exactly the values of the fields that convert, in order, and returns the number of fields. -/
theorem C34_parse_container {V C : Type} (delims s : List Byte) (conv : List Byte → Outcome (Bool × V)) (spec : List Byte → Option V)
    (push : C → V → C) (c : C) (hspec : ∀ w, (∀ v, spec w = some v → conv w = ok (true, v)) ∧ (spec w = none → ∃ v, conv w = ok (false, v))) :
    parseContainer { compress := true } delims conv push c s = ok ((fields delims s).length, (converted spec (fields delims s)).foldl push c) := by
  unfold parseContainer
  obtain ⟨r, e1, e2⟩ := split_fields delims s
  rw [e1, ok_bind]
  simp only
  rw [e2, insertAll_spec conv spec push hspec, ok_bind, ← e2, List.length_map]

/-- The same for every split option: the tokens are those `split` delivers. -/
theorem C34_parse_container_any_option {V C : Type} (opt : Opt) (delims s : List Byte) (conv : List Byte → Outcome (Bool × V))
    (spec : List Byte → Option V) (push : C → V → C) (c : C)
    (hspec : ∀ w, (∀ v, spec w = some v → conv w = ok (true, v)) ∧ (spec w = none → ∃ v, conv w = ok (false, v))) :
    ∃ r, split opt (fun x => decide (x ∈ delims)) s = ok (r, r.length) ∧
      parseContainer opt delims conv push c s = ok (r.length, (converted spec (r.map (textOf s))).foldl push c) := by
  obtain ⟨r, h1, _⟩ := C03_split_in_bounds opt (fun x => decide (x ∈ delims)) s
  refine ⟨r, h1, ?_⟩
  unfold parseContainer
  rw [C79_delimiter_string, h1, ok_bind]
  simp only
  rw [insertAll_spec conv spec push hspec, ok_bind]

/-- `parse_n` into a sequence: only the first n fields count, and the number of appended elements is returned. -/
theorem C34_parse_n {V : Type} (delims s : List Byte) (n : Nat) (conv : List Byte → Outcome (Bool × V)) (spec : List Byte → Option V)
    (c : List V) (hspec : ∀ w, (∀ v, spec w = some v → conv w = ok (true, v)) ∧ (spec w = none → ∃ v, conv w = ok (false, v))) :
    let new := converted spec ((fields delims s).take n)
    parseN { compress := true } delims n conv (fun c v => c ++ [v]) List.length c s = ok (new.length, c ++ new) := by
  unfold parseN
  obtain ⟨r, e1, e2⟩ := splitN_fields delims s n
  have hfold : ∀ (l : List V) (c : List V), l.foldl (fun c v => c ++ [v]) c = c ++ l := by
    intro l
    induction l with
    | nil => simp
    | cons a l ih => intro c; rw [List.foldl_cons, ih]; simp
  simp only [e1, ok_bind, e2]
  rw [insertAll_spec conv spec _ hspec, ok_bind, hfold]
  simp

/-- A last container argument takes all remaining fields, of which there must be at least one; the first one that does not convert makes
the call fail (the earlier ones stay in the container). -/
theorem C34_parse_tail {V W C : Type} (delims s : List Byte) (fs : List (Conv V)) (ts vs : List V) (conv : List Byte → Outcome (Bool × W))
    (spec : List Byte → Option W) (push : C → W → C) (c : C)
    (hspec : ∀ w, (∀ v, spec w = some v → conv w = ok (true, v)) ∧ (spec w = none → ∃ v, conv w = ok (false, v)))
    (h1 : ts.length = fs.length) (h2 : vs.length = fs.length)
    (hconv : ∀ (i : Nat) (f : Conv V) t v w, fs[i]? = some f → ts[i]? = some t → vs[i]? = some v → (fields delims s)[i]? = some w → f w t = ok (true, v)) :
    ((fields delims s).length ≤ fs.length → parseTail delims fs ts conv push c s = ok (false, ts, c)) ∧
    (fs.length < (fields delims s).length →
      parseTail delims fs ts conv push c s =
        let rest := (fields delims s).drop fs.length
        ok (rest.all (fun w => (spec w).isSome), vs, (converted spec (rest.takeWhile (fun w => (spec w).isSome))).foldl push c)) := by
  have hadd : ∀ (ws : List (List Byte)) (c : C), addAll conv push c ws =
      ok (ws.all (fun w => (spec w).isSome), (converted spec (ws.takeWhile (fun w => (spec w).isSome))).foldl push c) := by
    intro ws
    induction ws with
    | nil => intro c; rfl
    | cons w ws ih =>
      intro c
      unfold addAll
      cases hw : spec w with
      | none =>
        obtain ⟨v, hv⟩ := (hspec w).2 hw
        rw [hv, ok_bind]
        simp [hw, converted]
      | some v =>
        rw [(hspec w).1 v hw, ok_bind]
        simp only [if_true]
        rw [ih]
        simp [hw, converted]
  obtain ⟨r, e1, e2⟩ := split_fields delims s
  have hl : r.length = (fields delims s).length := by rw [← e2, List.length_map]
  unfold parseTail
  constructor
  · intro hle
    rw [e1, ok_bind]
    simp only
    rw [if_pos (by omega)]
  · intro hlt
    rw [e1, ok_bind]
    simp only
    rw [if_neg (by omega), e2, convertAll_ok fs ts vs _ h1 h2 (by omega) hconv, ok_bind]
    simp only [if_true]
    rw [hadd, ok_bind]

/-- The converters of the integer types meet the hypotheses (here `short`). -/
theorem C34_short_converter (w : List Byte) :
    (∀ v, (∃ v : Int, Number.SNumeral w v ∧ -2 ^ 15 ≤ v ∧ v < 2 ^ 15) → Number.SNumeral w v → Number.parseSigned Number.short w 0 = ok (true, v)) ∧
    ((¬ ∃ v : Int, Number.SNumeral w v ∧ -2 ^ 15 ≤ v ∧ v < 2 ^ 15) → Number.parseSigned Number.short w 0 = ok (false, 0)) := by
  constructor
  · rintro v ⟨v', hv', h1, h2⟩ hv
    have e1 := (Number.C29_short w 0).1 v' hv' h1 h2
    have : v = v' := by
      obtain ⟨ds, hd, h⟩ := hv
      obtain ⟨ds', hd', h'⟩ := hv'
      have key : ∀ ds : List Byte, Number.Digits ds → ∀ x : Byte, x = 45 ∨ x = 43 → ∀ t, ds ≠ x :: t := by
        rintro ds ⟨_, hd⟩ x hx t rfl
        have := hd x (by simp)
        rcases hx with rfl | rfl <;> exact absurd this (by decide)
      rcases h with ⟨rfl | rfl, rfl⟩ | ⟨rfl, rfl⟩ <;> rcases h' with ⟨h' | h', rfl⟩ | ⟨h', rfl⟩
      · rw [h']
      · exact absurd h' (key _ hd 43 (Or.inr rfl) _)
      · exact absurd h' (key _ hd 45 (Or.inl rfl) _)
      · exact absurd h'.symm (key _ hd' 43 (Or.inr rfl) _)
      · rw [List.cons.injEq] at h'; rw [h'.2]
      · rw [List.cons.injEq] at h'; exact absurd h'.1 (by decide)
      · exact absurd h'.symm (key _ hd' 45 (Or.inl rfl) _)
      · rw [List.cons.injEq] at h'; exact absurd h'.1 (by decide)
      · rw [List.cons.injEq] at h'; rw [h'.2]
    rw [this, e1]
  · intro h
    apply (Number.C29_short w 0).2
    intro v hv
    by_contra hcon
    exact h ⟨v, hv, by omega, by omega⟩

example : parseContainer { compress := true } [44] (fun s => Number.parseSigned Number.int s 0) (fun c v => c ++ [v]) [] [49, 44, 44, 120, 44, 51] = ok (3, [1, 3]) := by
  decide +kernel
example : parseN { compress := true } [44] 2 (fun s => Number.parseSigned Number.int s 0) (fun c v => c ++ [v]) List.length [9] [49, 44, 44, 120, 44, 51] = ok (1, [9, 1]) := by
  decide +kernel
example : parseTail [44] [fun s r => Number.parseSigned Number.int s r] [0] (fun s => Number.parseSigned Number.int s 0) (fun c v => c ++ [v]) [] [49, 44, 44, 50, 44, 51] =
    ok (true, [1], [2, 3]) := by decide +kernel

/-! ## C37 -/

theorem construct_append (ws : List (List Byte)) : ∀ (out delim : List Byte), construct out delim ws = out ++ List.intercalate delim ws := by
  induction ws with
  | nil => intro out delim; simp [construct, List.intercalate]
  | cons w ws ih =>
    intro out delim
    cases ws with
    | nil => simp [construct, List.intercalate]
    | cons w' ws =>
      rw [construct, ih]
      · simp [List.intercalate, List.intersperse]
      · simp

theorem splits_intercalate (d : Byte → Bool) (delim : List Byte) (hne : delim ≠ []) (hd : ∀ c ∈ delim, d c = true) :
    ∀ (ws : List (List Byte)) (off : Nat), ws ≠ [] → (∀ w ∈ ws, w ≠ [] ∧ ∀ c ∈ w, d c = false) →
    ∃ toks, Splits true .none d off (List.intercalate delim ws) toks ∧ toks.map Prod.snd = ws := by
  intro ws
  induction ws with
  | nil => intro off h; exact absurd rfl h
  | cons w ws ih =>
    intro off _ hw
    cases ws with
    | nil =>
      refine ⟨[(off, w)], ?_, rfl⟩
      simp only [List.intercalate, List.intersperse, List.flatten_cons, List.flatten_nil, List.append_nil]
      exact .last off w (hw w (by simp)).2
    | cons w' ws =>
      obtain ⟨toks, h1, h2⟩ := ih (off + w.length + delim.length) (by simp) (fun x hx => hw x (List.mem_cons_of_mem _ hx))
      refine ⟨(off, w ++ Keep.none.part delim) :: toks, ?_, by simp [h2, Keep.part]⟩
      have e : List.intercalate delim (w :: w' :: ws) = w ++ delim ++ List.intercalate delim (w' :: ws) := by
        simp [List.intercalate, List.intersperse]
      rw [e]
      refine .more off w delim _ toks (hw w (by simp)).2 hne hd ?_ h1
      rw [if_pos rfl]
      obtain ⟨hn, hx⟩ := hw w' (by simp)
      obtain ⟨a, t, rfl⟩ := List.exists_cons_of_ne_nil hn
      have : (List.intercalate delim ((a :: t) :: ws)).head? = some a := by
        cases ws <;> simp [List.intercalate, List.intersperse]
      rw [this]
      intro c hc
      simp at hc
      subst hc
      exact hx _ (by simp)

/-- The fields of a constructed line are the texts, if these are non-empty and free of delimiters. -/
theorem C37_construct_fields (delim : List Byte) (ws : List (List Byte)) (hne : delim ≠ []) (hws : ws ≠ [])
    (hw : ∀ w ∈ ws, w ≠ [] ∧ ∀ c ∈ w, c ∉ delim) : fields delim (construct [] delim ws) = ws := by
  rw [construct_append, List.nil_append]
  obtain ⟨toks, h1, h2⟩ := splits_intercalate (fun c => decide (c ∈ delim)) delim hne (by simp) ws 0 hws
    (fun w h => ⟨(hw w h).1, fun c hc => by simpa using (hw w h).2 c hc⟩)
  have hnil : List.intercalate delim ws ≠ [] := by
    obtain ⟨w, t, rfl⟩ := List.exists_cons_of_ne_nil hws
    have := (hw w (by simp)).1
    obtain ⟨a, u, rfl⟩ := List.exists_cons_of_ne_nil this
    cases t <;> simp [List.intercalate, List.intersperse]
  rw [fields, if_neg hnil, ← Splits.splitOnP_collapse h1, h2]

/-- Parsing a constructed line returns the original values, for converters that undo `type_to_string` on these values. -/
theorem C37_construct_then_parse {V : Type} (delim : List Byte) (ws : List (List Byte)) (fs : List (Conv V)) (ts vs : List V) (hne : delim ≠ [])
    (hws : ws ≠ []) (hw : ∀ w ∈ ws, w ≠ [] ∧ ∀ c ∈ w, c ∉ delim) (h1 : ts.length = fs.length) (h2 : vs.length = fs.length)
    (h3 : ws.length = fs.length)
    (hconv : ∀ (i : Nat) (f : Conv V) t v w, fs[i]? = some f → ts[i]? = some t → vs[i]? = some v → ws[i]? = some w → f w t = ok (true, v)) :
    parse delim fs ts (construct [] delim ws) = ok (true, vs) := by
  have hf := C37_construct_fields delim ws hne hws hw
  apply C33_parse_succeeds delim _ fs ts vs h1 h2 (by rw [hf]; omega)
  rw [hf]
  exact hconv

/-- In particular for any number of `int`s other than the least one, with a delimiter string without digits and minus signs. -/
theorem C37_ints (delim : List Byte) (vs ts : List Int) (hne : delim ≠ []) (hd : ∀ c ∈ delim, ¬ Number.isDigit c ∧ c ≠ 45)
    (hvs : vs ≠ []) (hv : ∀ v ∈ vs, -2 ^ 31 < v ∧ v < 2 ^ 31) (hts : ts.length = vs.length) :
    ∃ ws, vs.map (Number.signedToString 32) = ws.map ok ∧
      parse delim (vs.map fun _ => fun s r => Number.parseSigned Number.int s r) ts (construct [] delim ws) = ok (true, vs) := by
  refine ⟨vs.map Number.intText, ?_, ?_⟩
  · rw [List.map_map]
    apply List.map_congr_left
    intro v h
    have := hv v h
    exact Number.C28_signed_text 32 (by simp) v (by simpa using Int.le_of_lt this.1) (by simpa using this.2)
  · apply C37_construct_then_parse delim _ _ ts vs hne (by simpa using hvs) _ (by simpa using hts) (by simp) (by simp)
    · intro i f t v w a b c d
      rw [List.getElem?_map, Option.map_eq_some_iff] at a d
      obtain ⟨x, _, rfl⟩ := a
      obtain ⟨y, hy, rfl⟩ := d
      rw [c] at hy
      obtain rfl := Option.some.inj hy
      have hm := hv v (List.mem_of_getElem? c)
      exact (Number.C29_signed_partial Number.int (Or.inl rfl) _ t).1 v (Number.intText_numeral v) (by simpa [Number.int] using hm.1) (by simpa [Number.int] using hm.2)
    · intro w hw
      rw [List.mem_map] at hw
      obtain ⟨v, _, rfl⟩ := hw
      obtain ⟨ds, ⟨hn, hdig⟩, h⟩ := Number.intText_numeral v
      have hc : ∀ c ∈ Number.intText v, Number.isDigit c ∨ c = 45 := by
        intro c hc
        unfold Number.intText at hc
        split at hc
        · rcases List.mem_cons.mp hc with rfl | hc
          · exact Or.inr rfl
          · exact Or.inl ((Number.decText_digits _).1.2 c hc)
        · exact Or.inl ((Number.decText_digits _).1.2 c hc)
      constructor
      · rcases h with ⟨h | h, _⟩ | ⟨h, _⟩ <;> rw [h]
        · exact hn
        · simp
        · simp
      · intro c hcm hdm
        rcases hc c hcm with h | h
        · exact (hd c hdm).1 h
        · exact (hd c hdm).2 h

example : construct [] [44, 32] [[49], [45, 50]] = [49, 44, 32, 45, 50] := by decide
example : parse [44, 32] [fun s r => Number.parseSigned Number.int s r, fun s r => Number.parseSigned Number.int s r] [0, 0] (construct [] [44, 32] [[49], [45, 50]]) = ok (true, [1, -2]) := by
  decide +kernel

end Strtk.Parse
