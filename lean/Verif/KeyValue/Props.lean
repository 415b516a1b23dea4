import Verif.KeyValue.Model

/-! # Key/value parsing (C59) -/

namespace Strtk.KeyValue
open Outcome Strtk.Number

variable {V : Type}

/-! ## Specification -/

/-- `t` is a pair: a key without delimiter, a delimiter, a value that is not empty. -/
def IsPair (d : Byte → Bool) (t k v : List Byte) : Prop := v ≠ [] ∧ (∀ c ∈ k, d c = false) ∧ ∃ c, d c = true ∧ t = k ++ c :: v

/-- The key and the value of a token, if it is a pair (see `pairOf_iff`). -/
def pairOf (d : Byte → Bool) (t : List Byte) : Option (List Byte × List Byte) :=
  match t.dropWhile (fun c => !d c) with
  | _ :: v => if v = [] then none else some (t.takeWhile (fun c => !d c), v)
  | [] => none

/-- The tokens of a text that are not empty. -/
def tokens (block : Byte → Bool) (data : List Byte) : List (List Byte) := (data.splitOnP block).filter (fun t => t ≠ [])

/-- The values given for variable `x`, in order; `look` is the variable a key is registered for. -/
def valuesFor (d : Byte → Bool) (look : List Byte → Option Nat) (x : Nat) (toks : List (List Byte)) : List (List Byte) :=
  toks.filterMap fun t => match pairOf d t with
    | some (k, v) => if look k = some x then some v else none
    | none => none

/-- The token is a pair with a known key. -/
def Known (d : Byte → Bool) (look : List Byte → Option Nat) (t : List Byte) : Prop := ∃ k v x, IsPair d t k v ∧ look k = some x

/-- All values are converted, one after the other: flag and contents at the end. -/
def convAll (conv : V → List Byte → Bool × V) : V → List (List Byte) → Bool × V
  | a, [] => (true, a)
  | a, v :: vs => if (conv a v).1 then convAll conv (conv a v).2 vs else (false, (conv a v).2)

/-- The contents after all conversions, successful or not. -/
def lastOf (conv : V → List Byte → Bool × V) (a : V) (vs : List (List Byte)) : V := vs.foldl (fun a v => (conv a v).2) a

theorem dropWhile_cons_split (d : Byte → Bool) : ∀ (t : List Byte) (c : Byte) (v : List Byte), t.dropWhile (fun c => !d c) = c :: v →
    d c = true ∧ t = t.takeWhile (fun c => !d c) ++ c :: v ∧ ∀ x ∈ t.takeWhile (fun c => !d c), d x = false := by
  intro t
  induction t with
  | nil => intro c v h; cases h
  | cons a t ih =>
    intro c v h
    by_cases ha : d a = true
    · simp only [List.dropWhile_cons, ha, Bool.not_true, Bool.false_eq_true, if_false, List.cons.injEq] at h
      obtain ⟨rfl, rfl⟩ := h
      simp [ha]
    · simp only [Bool.not_eq_true] at ha
      simp only [List.dropWhile_cons, ha, Bool.not_false, if_true] at h
      obtain ⟨h1, h2, h3⟩ := ih c v h
      refine ⟨h1, ?_, ?_⟩
      · simp only [List.takeWhile_cons, ha, Bool.not_false, if_true, List.cons_append, ← h2]
      · intro x hx
        simp only [List.takeWhile_cons, ha, Bool.not_false, if_true, List.mem_cons] at hx
        rcases hx with rfl | hx
        · exact ha
        · exact h3 x hx

theorem pairOf_iff (d : Byte → Bool) (t k v : List Byte) : pairOf d t = some (k, v) ↔ IsPair d t k v := by
  constructor
  · intro h
    unfold pairOf at h
    split at h
    · rename_i c w hw
      split at h
      · cases h
      · rename_i hne
        cases h
        obtain ⟨h1, h2, h3⟩ := dropWhile_cons_split d t c _ hw
        exact ⟨hne, h3, c, h1, h2⟩
    · cases h
  · rintro ⟨h1, h2, c, h3, rfl⟩
    have e1 : (k ++ c :: v).takeWhile (fun c => !d c) = k := by
      induction k with
      | nil => simp [h3]
      | cons a k ih => simp [h2 a (by simp), ih fun x hx => h2 x (by simp [hx])]
    have e2 : (k ++ c :: v).dropWhile (fun c => !d c) = c :: v := by
      clear e1
      induction k with
      | nil => simp [h3]
      | cons a k ih => simp [h2 a (by simp), ih fun x hx => h2 x (by simp [hx])]
    unfold pairOf
    rw [e2]
    simp [h1, e1]

/-! ## split_pair -/

theorem splitPairLoop_eq (d : Byte → Bool) : ∀ (fuel : Nat) (pre rest : List Byte), rest.length < fuel →
    (∀ c ∈ pre, d c = false) →
    splitPairLoop d (pre ++ rest) fuel pre.length = ok ((pairOf d (pre ++ rest)).map fun p =>
      ((0, p.1.length), (p.1.length + 1, (pre ++ rest).length))) := by
  intro fuel
  induction fuel with
  | zero => intro pre rest h; omega
  | succ fuel ih =>
    intro pre rest hf hp
    unfold splitPairLoop
    cases rest with
    | nil =>
      rw [if_neg (by simp)]
      have : pairOf d (pre ++ []) = none := by
        have : (pre ++ []).dropWhile (fun c => !d c) = [] := by
          rw [List.append_nil]
          clear ih hf
          induction pre with
          | nil => rfl
          | cons a pre ihp => simp [hp a (by simp), ihp fun x hx => hp x (by simp [hx])]
        unfold pairOf
        rw [this]
      rw [this]
      rfl
    | cons c rest =>
      rw [if_pos (by simp), deref_append_cons, ok_bind]
      by_cases hc : d c = true
      · rw [if_pos hc]
        simp only
        cases rest with
        | nil =>
          rw [if_neg (by simp)]
          have : pairOf d (pre ++ [c]) = none := by
            cases h : pairOf d (pre ++ [c]) with
            | none => rfl
            | some p =>
              obtain ⟨k, v⟩ := p
              exfalso
              obtain ⟨h1, h2, c', h3, h4⟩ := (pairOf_iff d _ k v).mp h
              have hl := congrArg List.length h4
              have hvl : 0 < v.length := List.length_pos_iff.mpr h1
              simp only [List.length_append, List.length_nil, List.length_cons] at hl
              have hm : c' ∈ pre := by
                have hk : k.length < pre.length := by omega
                have e := congrArg (fun l => l[k.length]?) h4
                simp only [List.getElem?_append_left hk, List.getElem?_concat_length] at e
                rw [List.getElem?_append_right (Nat.le_refl _)] at e
                simp only [Nat.sub_self, List.getElem?_cons_zero] at e
                exact List.mem_of_getElem? e
              rw [hp c' hm] at h3
              cases h3
          rw [this]
          rfl
        | cons v0 rest =>
          rw [if_pos (by simp; omega)]
          have : pairOf d (pre ++ c :: v0 :: rest) = some (pre, v0 :: rest) := (pairOf_iff d _ _ _).mpr ⟨by simp, hp, c, hc, rfl⟩
          rw [this]
          rfl
      · rw [if_neg hc]
        have := ih (pre ++ [c]) rest (by simpa using hf) (by
          intro x hx
          rcases List.mem_append.mp hx with h | h
          · exact hp x h
          · simp only [List.mem_singleton] at h; subst h; simpa using hc)
        simpa using this

theorem splitPair_eq (d : Byte → Bool) (t : List Byte) :
    ∃ r, splitPair d t = ok r ∧ (r.map fun p => (Split.textOf t p.1, Split.textOf t p.2)) = pairOf d t := by
  unfold splitPair
  split
  · rename_i h
    have : t = [] := List.length_eq_zero_iff.mp h
    subst this
    exact ⟨none, rfl, rfl⟩
  · have := splitPairLoop_eq d (t.length + 1) [] t (by omega) (by simp)
    simp only [List.nil_append, List.length_nil] at this
    refine ⟨_, this, ?_⟩
    cases h : pairOf d t with
    | none => rfl
    | some p =>
      obtain ⟨k, v⟩ := p
      obtain ⟨h1, h2, c, h3, rfl⟩ := (pairOf_iff d _ k v).mp h
      simp [Split.textOf]
      rw [List.take_of_length_le (by omega)]

/-! ## One token -/

/-- One token, in terms of the specification. -/
def step (d : Byte → Bool) (look : List Byte → Option Nat) (conv : Nat → V → List Byte → Bool × V) (mem : Nat → V) (t : List Byte) : Bool × (Nat → V) :=
  match pairOf d t with
  | none => (false, mem)
  | some (k, v) => match look k with
    | none => (false, mem)
    | some x => ((conv x (mem x) v).1, setVar mem x (conv x (mem x) v).2)

theorem process_eq (d : Byte → Bool) (find : List Byte → Outcome (Option Nat)) (look : List Byte → Option Nat) (hf : ∀ k, find k = ok (look k))
    (conv : Nat → V → List Byte → Bool × V) (mem : Nat → V) (t : List Byte) : process d find conv mem t = ok (step d look conv mem t) := by
  obtain ⟨r, h1, h2⟩ := splitPair_eq d t
  unfold process step
  rw [h1, ok_bind, ← h2]
  cases r with
  | none => rfl
  | some p =>
    simp only [Option.map_some, deliver, hf, ok_bind]
    cases look (Split.textOf t p.1) <;> rfl

/-- The values of a single token. -/
theorem valuesFor_cons (d : Byte → Bool) (look : List Byte → Option Nat) (x : Nat) (t : List Byte) (ts : List (List Byte)) :
    valuesFor d look x (t :: ts) = valuesFor d look x [t] ++ valuesFor d look x ts := by
  simp only [valuesFor, List.filterMap_cons, List.filterMap_nil]
  cases pairOf d t with
  | none => rfl
  | some p =>
    obtain ⟨k, v⟩ := p
    by_cases h : look k = some x <;> simp [h]

theorem step_mem (d : Byte → Bool) (look : List Byte → Option Nat) (conv : Nat → V → List Byte → Bool × V) (mem : Nat → V) (t : List Byte) (x : Nat) :
    (step d look conv mem t).2 x = lastOf (conv x) (mem x) (valuesFor d look x [t]) := by
  unfold step valuesFor
  simp only [List.filterMap_cons, List.filterMap_nil]
  cases pairOf d t with
  | none => rfl
  | some p =>
    obtain ⟨k, v⟩ := p
    simp only
    cases h : look k with
    | none => simp [lastOf]
    | some y =>
      by_cases hxy : x = y
      · subst hxy; simp [setVar, lastOf]
      · have : y ≠ x := fun h => hxy h.symm
        simp [setVar, hxy, this, lastOf]

theorem step_good (d : Byte → Bool) (look : List Byte → Option Nat) (conv : Nat → V → List Byte → Bool × V) (mem : Nat → V) (t : List Byte) :
    (step d look conv mem t).1 = true ↔ Known d look t ∧ ∀ x, (convAll (conv x) (mem x) (valuesFor d look x [t])).1 = true := by
  unfold step valuesFor Known
  simp only [List.filterMap_cons, List.filterMap_nil, ← pairOf_iff]
  cases hp : pairOf d t with
  | none => simp
  | some p =>
    obtain ⟨k, v⟩ := p
    simp only
    cases h : look k with
    | none =>
      simp only [Bool.false_eq_true, false_iff, not_and]
      rintro ⟨k', v', x, h1, h2⟩
      cases h1
      rw [h] at h2
      cases h2
    | some y =>
      constructor
      · intro hc
        refine ⟨⟨k, v, y, rfl, h⟩, ?_⟩
        intro x
        by_cases hxy : y = x
        · subst hxy
          replace hc : (conv y (mem y) v).1 = true := hc
          simp [convAll, hc]
        · simp [convAll, hxy]
      · rintro ⟨_, hx⟩
        have := hx y
        simp only [if_true, convAll] at this
        by_cases hc : (conv y (mem y) v).1 = true
        · exact hc
        · simp [hc] at this

theorem convAll_append (conv : V → List Byte → Bool × V) : ∀ (us vs : List (List Byte)) (a : V),
    convAll conv a (us ++ vs) = if (convAll conv a us).1 then convAll conv (convAll conv a us).2 vs else convAll conv a us := by
  intro us
  induction us with
  | nil => intro vs a; simp [convAll]
  | cons u us ih =>
    intro vs a
    simp only [List.cons_append, convAll]
    by_cases h : (conv a u).1 = true
    · simp only [h, if_true]; exact ih vs _
    · simp [h]

theorem convAll_last (conv : V → List Byte → Bool × V) : ∀ (vs : List (List Byte)) (a : V), (convAll conv a vs).1 = true →
    (convAll conv a vs).2 = lastOf conv a vs := by
  intro vs
  induction vs with
  | nil => intro a _; rfl
  | cons v vs ih =>
    intro a h
    simp only [convAll] at h ⊢
    by_cases hc : (conv a v).1 = true
    · simp only [hc, if_true] at h ⊢
      rw [ih _ h]
      rfl
    · simp [hc] at h

/-! ## The strict parser -/

theorem filter_cons_ne {t : List Byte} {ts : List (List Byte)} (h : t ≠ []) : (t :: ts).filter (fun t => t ≠ []) = t :: ts.filter (fun t => t ≠ []) := by
  simp [h]

theorem strictLoop_true (d : Byte → Bool) (find : List Byte → Outcome (Option Nat)) (look : List Byte → Option Nat) (hf : ∀ k, find k = ok (look k))
    (conv : Nat → V → List Byte → Bool × V) : ∀ (ts : List (List Byte)) (mem mem' : Nat → V),
    strictLoop d find conv mem ts = ok (true, mem') ↔
      (∀ t ∈ ts.filter (fun t => t ≠ []), Known d look t) ∧
      ∀ x, convAll (conv x) (mem x) (valuesFor d look x (ts.filter (fun t => t ≠ []))) = (true, mem' x) := by
  intro ts
  induction ts with
  | nil =>
    intro mem mem'
    simp only [strictLoop, Outcome.ok.injEq, Prod.mk.injEq, true_and, List.filter_nil, List.not_mem_nil, false_implies, implies_true, valuesFor,
      List.filterMap_nil, convAll]
    exact ⟨fun h x => congrFun h x, fun h => funext h⟩
  | cons t ts ih =>
    intro mem mem'
    unfold strictLoop
    by_cases ht : t = []
    · subst ht
      simp only [List.length_nil, if_true]
      rw [ih]
      simp
    · rw [if_neg (by simpa using ht), process_eq d find look hf, ok_bind, filter_cons_ne ht]
      have hg := step_good d look conv mem t
      have hm := step_mem d look conv mem t
      generalize step d look conv mem t = r at *
      obtain ⟨good, m⟩ := r
      simp only at hg hm ⊢
      have hval : ∀ x, convAll (conv x) (mem x) (valuesFor d look x (t :: ts.filter (fun t => t ≠ []))) =
          if (convAll (conv x) (mem x) (valuesFor d look x [t])).1 then
            convAll (conv x) (convAll (conv x) (mem x) (valuesFor d look x [t])).2 (valuesFor d look x (ts.filter (fun t => t ≠ [])))
          else convAll (conv x) (mem x) (valuesFor d look x [t]) := by
        intro x
        rw [valuesFor_cons, convAll_append]
      cases good with
      | true =>
        simp only [if_true]
        obtain ⟨hk, hc⟩ := hg.mp rfl
        rw [ih]
        constructor
        · rintro ⟨h1, h2⟩
          refine ⟨?_, ?_⟩
          · intro u hu
            rcases List.mem_cons.mp hu with rfl | hu
            · exact hk
            · exact h1 u hu
          · intro x
            rw [hval x, if_pos (hc x), convAll_last _ _ _ (hc x), ← hm x, h2 x]
        · rintro ⟨h1, h2⟩
          refine ⟨fun u hu => h1 u (List.mem_cons_of_mem _ hu), ?_⟩
          intro x
          have := h2 x
          rw [hval x, if_pos (hc x), convAll_last _ _ _ (hc x), ← hm x] at this
          exact this
      | false =>
        simp only [Bool.false_eq_true, if_false, Outcome.ok.injEq, Prod.mk.injEq, false_and, false_iff, not_and]
        intro h1 h2
        have hc : ∀ x, (convAll (conv x) (mem x) (valuesFor d look x [t])).1 = true := by
          intro x
          have := h2 x
          rw [hval x] at this
          split at this
          · assumption
          · rw [this]
        have := hg.mpr ⟨h1 t (by simp), hc⟩
        cases this

/-- C59, strict mode: for every text, set of registered keys (`look`) and converters, parsing succeeds exactly when the text is not empty, every non-empty
token is a pair with a registered key, and for every variable all values given for it convert, in order; the variables then hold the results. -/
theorem C59_strict (block d : Byte → Bool) (find : List Byte → Outcome (Option Nat)) (look : List Byte → Option Nat) (hf : ∀ k, find k = ok (look k))
    (conv : Nat → V → List Byte → Bool × V) (mem mem' : Nat → V) (data : List Byte) :
    parseStrict block d find conv mem data = ok (true, mem') ↔
      data ≠ [] ∧ (∀ t ∈ tokens block data, Known d look t) ∧
      ∀ x, convAll (conv x) (mem x) (valuesFor d look x (tokens block data)) = (true, mem' x) := by
  unfold parseStrict
  by_cases hd : data = []
  · subst hd
    rw [(Split.C01_split_default block []).1 rfl, ok_bind]
    simp
  · obtain ⟨r, h1, h2⟩ := (Split.C01_split_default block data).2 hd
    have hne : r.length ≠ 0 := by
      have := congrArg List.length h2
      rw [List.length_map] at this
      rw [this]
      have := List.splitOnP_ne_nil block data
      simpa using this
    rw [h1, ok_bind]
    simp only
    rw [if_neg hne, h2, strictLoop_true d find look hf]
    simp [hd, tokens]

/-- Consequences of success: a variable for which nothing was given is unchanged; a variable whose converter replaces the contents holds the last value
given for it. -/
theorem C59_last_value (block d : Byte → Bool) (find : List Byte → Outcome (Option Nat)) (look : List Byte → Option Nat) (hf : ∀ k, find k = ok (look k))
    (conv : Nat → V → List Byte → Bool × V) (mem mem' : Nat → V) (data : List Byte) (h : parseStrict block d find conv mem data = ok (true, mem')) (x : Nat) :
    (valuesFor d look x (tokens block data) = [] → mem' x = mem x) ∧
    ∀ (val : List Byte → V), (∀ a s, (conv x a s).1 = true → (conv x a s).2 = val s) →
      ∀ init last, valuesFor d look x (tokens block data) = init ++ [last] → mem' x = val last := by
  have hx := ((C59_strict block d find look hf conv mem mem' data).mp h).2.2 x
  constructor
  · intro he
    rw [he] at hx
    simpa [convAll] using (congrArg Prod.snd hx).symm
  · intro val hv init last he
    rw [he, convAll_append] at hx
    split at hx
    · simp only [convAll] at hx
      split at hx
      · rename_i hc
        have e : (conv x _ last).2 = mem' x := congrArg Prod.snd hx
        rw [← e]
        exact hv _ _ hc
      · cases hx
    · rename_i hc
      rw [hx] at hc
      exact absurd rfl hc

theorem strictLoop_false (d : Byte → Bool) (find : List Byte → Outcome (Option Nat)) (look : List Byte → Option Nat) (hf : ∀ k, find k = ok (look k))
    (conv : Nat → V → List Byte → Bool × V) : ∀ (ts : List (List Byte)) (mem mem' : Nat → V), strictLoop d find conv mem ts = ok (false, mem') →
      ∃ done t rest, ts.filter (fun t => t ≠ []) = done ++ t :: rest ∧
        (∀ u ∈ done, Known d look u) ∧ (∀ x, (convAll (conv x) (mem x) (valuesFor d look x done)).1 = true) ∧
        ¬ (Known d look t ∧ ∀ x, (convAll (conv x) (mem x) (valuesFor d look x (done ++ [t]))).1 = true) ∧
        ∀ x, mem' x = lastOf (conv x) (mem x) (valuesFor d look x (done ++ [t])) := by
  intro ts
  induction ts with
  | nil => intro mem mem' h; cases h
  | cons t ts ih =>
    intro mem mem' h
    unfold strictLoop at h
    by_cases ht : t = []
    · subst ht
      simp only [List.length_nil, if_true] at h
      obtain ⟨done, u, rest, h1, h2⟩ := ih mem mem' h
      exact ⟨done, u, rest, by simpa using h1, h2⟩
    · rw [if_neg (by simpa using ht), process_eq d find look hf, ok_bind] at h
      have hg := step_good d look conv mem t
      have hm := step_mem d look conv mem t
      generalize step d look conv mem t = r at *
      obtain ⟨good, m⟩ := r
      simp only at hg hm h
      cases good with
      | true =>
        simp only [if_true] at h
        obtain ⟨hk, hc⟩ := hg.mp rfl
        obtain ⟨done, u, rest, h1, h2, h3, h4, h5⟩ := ih m mem' h
        have hv : ∀ x us, valuesFor d look x (t :: us) = valuesFor d look x [t] ++ valuesFor d look x us := fun x us => valuesFor_cons d look x t us
        have hcv : ∀ x us, convAll (conv x) (mem x) (valuesFor d look x (t :: us)) = convAll (conv x) (m x) (valuesFor d look x us) := by
          intro x us
          rw [hv, convAll_append, if_pos (hc x), convAll_last _ _ _ (hc x), ← hm x]
        refine ⟨t :: done, u, rest, by rw [filter_cons_ne ht, h1]; rfl, ?_, ?_, ?_, ?_⟩
        · intro w hw
          rcases List.mem_cons.mp hw with rfl | hw
          · exact hk
          · exact h2 w hw
        · intro x; rw [hcv]; exact h3 x
        · rintro ⟨a, b⟩
          exact h4 ⟨a, fun x => by have := b x; rw [List.cons_append, hcv] at this; exact this⟩
        · intro x
          rw [h5 x, List.cons_append, hv]
          simp only [lastOf, List.foldl_append]
          rw [hm x]
          rfl
      | false =>
        simp only [Bool.false_eq_true, if_false, Outcome.ok.injEq, Prod.mk.injEq, true_and] at h
        subst h
        refine ⟨[], t, ts.filter (fun t => t ≠ []), filter_cons_ne ht, by simp, by intro x; rfl, ?_, ?_⟩
        · intro hx
          have := hg.mpr hx
          cases this
        · intro x; exact hm x

/-- C59, strict mode, failure: on a text that is not empty, the tokens before the first bad one have been delivered, the bad one is no pair, has an
unknown key or does not convert, and nothing behind it has any effect. -/
theorem C59_strict_failure (block d : Byte → Bool) (find : List Byte → Outcome (Option Nat)) (look : List Byte → Option Nat)
    (hf : ∀ k, find k = ok (look k)) (conv : Nat → V → List Byte → Bool × V) (mem mem' : Nat → V) (data : List Byte) (hd : data ≠ [])
    (h : parseStrict block d find conv mem data = ok (false, mem')) :
    ∃ done t rest, tokens block data = done ++ t :: rest ∧
      (∀ u ∈ done, Known d look u) ∧ (∀ x, (convAll (conv x) (mem x) (valuesFor d look x done)).1 = true) ∧
      ¬ (Known d look t ∧ ∀ x, (convAll (conv x) (mem x) (valuesFor d look x (done ++ [t]))).1 = true) ∧
      ∀ x, mem' x = lastOf (conv x) (mem x) (valuesFor d look x (done ++ [t])) := by
  obtain ⟨r, h1, h2⟩ := (Split.C01_split_default block data).2 hd
  have hne : r.length ≠ 0 := by
    have := congrArg List.length h2
    rw [List.length_map] at this
    rw [this]
    have := List.splitOnP_ne_nil block data
    simpa using this
  unfold parseStrict at h
  rw [h1, ok_bind] at h
  simp only at h
  rw [if_neg hne, h2] at h
  exact strictLoop_false d find look hf conv _ mem mem' h

/-! ## The lenient parser -/

theorem lenientLoop_eq (d : Byte → Bool) (find : List Byte → Outcome (Option Nat)) (look : List Byte → Option Nat) (hf : ∀ k, find k = ok (look k))
    (conv : Nat → V → List Byte → Bool × V) (good : Nat → List Byte → Bool) (hs : ∀ x a v, (conv x a v).1 = good x v) :
    ∀ (ts : List (List Byte)) (n : Nat) (mem : Nat → V),
    ∃ mem', lenientLoop d find conv n mem ts = ok (n + (ts.filter (fun t => t ≠ [])).countP (fun t =>
        !(match pairOf d t with | some (k, v) => (match look k with | some x => good x v | none => false) | none => false)), mem') ∧
      ∀ x, mem' x = lastOf (conv x) (mem x) (valuesFor d look x (ts.filter (fun t => t ≠ []))) := by
  intro ts
  induction ts with
  | nil => intro n mem; exact ⟨mem, rfl, fun x => rfl⟩
  | cons t ts ih =>
    intro n mem
    unfold lenientLoop
    by_cases ht : t = []
    · subst ht
      simp only [List.length_nil, if_true]
      obtain ⟨m, h1, h2⟩ := ih n mem
      exact ⟨m, by rw [h1]; simp, by simpa using h2⟩
    · rw [if_neg (by simpa using ht), process_eq d find look hf, ok_bind, filter_cons_ne ht]
      have hm := step_mem d look conv mem t
      have hg : (step d look conv mem t).1 =
          (match pairOf d t with | some (k, v) => (match look k with | some x => good x v | none => false) | none => false) := by
        unfold step
        cases pairOf d t with
        | none => rfl
        | some p =>
          obtain ⟨k, v⟩ := p
          simp only
          cases look k with
          | none => rfl
          | some x => exact hs x (mem x) v
      generalize step d look conv mem t = r at *
      obtain ⟨b, m⟩ := r
      simp only at hg hm ⊢
      obtain ⟨m', h1, h2⟩ := ih (if b then n else n + 1) m
      refine ⟨m', ?_, ?_⟩
      · rw [h1, List.countP_cons, ← hg]
        cases b <;> simp
        omega
      · intro x
        rw [h2 x, valuesFor_cons]
        simp only [lastOf, List.foldl_append]
        rw [hm x]
        rfl

/-- A token that delivers its value: a pair with a registered key and a value that converts. -/
def Delivers (d : Byte → Bool) (look : List Byte → Option Nat) (good : Nat → List Byte → Bool) (t : List Byte) : Prop :=
  ∃ k v x, IsPair d t k v ∧ look k = some x ∧ good x v = true

instance (d : Byte → Bool) (look : List Byte → Option Nat) (good : Nat → List Byte → Bool) (t : List Byte) : Decidable (Delivers d look good t) :=
  decidable_of_iff ((match pairOf d t with | some (k, v) => (match look k with | some x => good x v | none => false) | none => false) = true) (by
    unfold Delivers
    simp only [← pairOf_iff]
    cases hp : pairOf d t with
    | none => simp
    | some p =>
      obtain ⟨k, v⟩ := p
      simp only
      cases h : look k with
      | none =>
        simp only [Bool.false_eq_true, false_iff]
        rintro ⟨k', v', x, h1, h2, _⟩
        cases h1
        rw [h] at h2
        cases h2
      | some x =>
        constructor
        · intro hg; exact ⟨k, v, x, rfl, h, hg⟩
        · rintro ⟨k', v', y, h1, h2, h3⟩
          cases h1
          rw [h] at h2
          cases h2
          exact h3)

/-- C59, lenient mode: for every text, the failure count is the number of non-empty tokens that do not deliver a value (whether a text converts does not
depend on the old contents), and every variable has received all values given for it, in order, whatever the other tokens were. -/
theorem C59_lenient (block d : Byte → Bool) (find : List Byte → Outcome (Option Nat)) (look : List Byte → Option Nat) (hf : ∀ k, find k = ok (look k))
    (conv : Nat → V → List Byte → Bool × V) (good : Nat → List Byte → Bool) (hs : ∀ x a v, (conv x a v).1 = good x v) (mem : Nat → V) (data : List Byte) :
    ∃ mem', parseLenient block d find conv mem data = ok ((tokens block data).countP (fun t => ¬ Delivers d look good t), mem') ∧
      ∀ x, mem' x = lastOf (conv x) (mem x) (valuesFor d look x (tokens block data)) := by
  have main : ∀ ts : List (List Byte), ∃ mem', lenientLoop d find conv 0 mem ts =
      ok ((ts.filter (fun t => t ≠ [])).countP (fun t => ¬ Delivers d look good t), mem') ∧
      ∀ x, mem' x = lastOf (conv x) (mem x) (valuesFor d look x (ts.filter (fun t => t ≠ []))) := by
    intro ts
    obtain ⟨m, h1, h2⟩ := lenientLoop_eq d find look hf conv good hs ts 0 mem
    refine ⟨m, ?_, h2⟩
    rw [h1, Nat.zero_add]
    congr 2
    apply List.countP_congr
    intro t _
    have : Delivers d look good t ↔
        (match pairOf d t with | some (k, v) => (match look k with | some x => good x v | none => false) | none => false) = true := by
      unfold Delivers
      simp only [← pairOf_iff]
      cases hp : pairOf d t with
      | none => simp
      | some p =>
        obtain ⟨k, v⟩ := p
        simp only
        cases h : look k with
        | none =>
          simp only [Bool.false_eq_true, iff_false]
          rintro ⟨k', v', x, h1, h2, _⟩
          cases h1
          rw [h] at h2
          cases h2
        | some x =>
          constructor
          · rintro ⟨k', v', y, h1, h2, h3⟩
            cases h1
            rw [h] at h2
            cases h2
            exact h3
          · intro hg; exact ⟨k, v, x, rfl, h, hg⟩
    simp [this]
  unfold parseLenient
  by_cases hd : data = []
  · subst hd
    rw [(Split.C01_split_default block []).1 rfl, ok_bind]
    obtain ⟨m, h1, h2⟩ := main []
    refine ⟨m, ?_, ?_⟩
    · simp only [List.map_nil]
      rw [h1]
      simp [tokens]
    · intro x
      rw [h2 x]
      simp [tokens]
  · obtain ⟨r, h1, h2⟩ := (Split.C01_split_default block data).2 hd
    rw [h1, ok_bind]
    simp only
    rw [h2]
    exact main _

end Strtk.KeyValue

namespace Strtk.KeyValue
open Outcome Strtk.Number

/-! ## The three kinds of key map -/

theorem uarith (b : Nat) (v : Int) : (⟨false, b⟩ : Fast.IntTy).arith v = ok (v % (2 ^ b : Nat)) := by
  simp [Fast.IntTy.arith, Fast.IntTy.conv]

theorem uhorner (b : Nat) (s : List Byte) : ∀ x : Nat, (∀ c ∈ s, isDigit c) →
    Fast.horner ⟨false, b⟩ s.length s ((x % 2 ^ b : Nat) : Int) = ok (((x * 10 ^ s.length + decVal s) % 2 ^ b : Nat) : Int) := by
  induction s with
  | nil => intro x _; simp [Fast.horner, decVal]
  | cons c s ih =>
    intro x hd
    have hc := hd c (List.mem_cons_self)
    simp only [List.length_cons, Fast.horner, look, ok_bind, List.tail_cons, uarith]
    rw [Fast.toInt_digit c hc]
    have e : (((x % 2 ^ b : Nat) : Int) * 10 % (2 ^ b : Nat) + (⟨false, b⟩ : Fast.IntTy).conv ((c.toNat - 48 : Nat) : Int)) % (2 ^ b : Nat) =
        (((x * 10 + (c.toNat - 48)) % 2 ^ b : Nat) : Int) := by
      unfold Fast.IntTy.conv
      simp only [Bool.false_eq_true, if_false]
      push_cast
      rw [Int.emod_add_emod, Int.add_emod_emod, Int.add_emod, Int.mul_emod, Int.emod_emod, ← Int.mul_emod, ← Int.add_emod]
    rw [e, ih _ (fun y hy => hd y (List.mem_cons_of_mem _ hy)), decVal_cons]
    congr 3
    ring

theorem uconvert (b : Nat) (s : List Byte) (hl : s.length ≤ 19) (hd : ∀ c ∈ s, isDigit c) :
    Fast.convertImpl ⟨false, b⟩ s.length s = ok ((decVal s % 2 ^ b : Nat) : Int) := by
  induction s with
  | nil => simp [Fast.convertImpl, decVal]
  | cons c s ih =>
    have hc := hd c (List.mem_cons_self)
    have hd' := fun y hy => hd y (List.mem_cons_of_mem c hy)
    simp only [List.length_cons, Fast.convertImpl, look, ok_bind, List.tail_cons]
    by_cases h16 : s.length + 1 ≤ 16
    · rw [if_pos h16, Fast.toInt_digit c hc]
      have : (⟨false, b⟩ : Fast.IntTy).conv ((c.toNat - 48 : Nat) : Int) = (((c.toNat - 48) % 2 ^ b : Nat) : Int) := by
        unfold Fast.IntTy.conv
        simp only [Bool.false_eq_true, if_false]
        push_cast
        rfl
      rw [this, uhorner b s _ hd', decVal_cons]
    · rw [if_neg h16, ih (by simp at hl; omega) hd', ok_bind]
      simp only [List.length_cons] at hl
      have ht : Fast.topProduct (s.length + 1) c = ok (((c.toNat - 48) * 10 ^ s.length : Nat) : Int) := by
        unfold Fast.topProduct
        rw [Fast.toInt_digit c hc, if_neg (by omega)]
        have h2 := hc.2
        have hpl' : (10 : Nat) ^ s.length ≤ 10 ^ 18 := Nat.pow_le_pow_right (by omega) (by omega)
        have h9 : (c.toNat - 48) * 10 ^ s.length ≤ 9 * 10 ^ 18 := Nat.mul_le_mul (by omega) hpl'
        simp only [Nat.add_sub_cancel]
        have hcast : ((c.toNat - 48 : Nat) : Int) * 10 ^ s.length = (((c.toNat - 48) * 10 ^ s.length : Nat) : Int) := by push_cast; rfl
        rw [hcast, if_pos]
        unfold fits
        simp only [Nat.add_one_sub_one]
        omega
      rw [ht, ok_bind, uarith, decVal_cons]
      congr 1
      unfold Fast.IntTy.conv
      simp only [Bool.false_eq_true, if_false]
      push_cast
      rw [Int.emod_add_emod, Int.add_emod_emod, Int.add_comm]

theorem unumeric (b : Nat) (s : List Byte) :
    Fast.numericConvert ⟨false, b⟩ s.length s 0 true =
      ok (if s.length ≤ 19 ∧ ∀ c ∈ s, isDigit c then (true, ((decVal s % 2 ^ b : Nat) : Int)) else (false, 0)) := by
  by_cases h : s.length ≤ 19 ∧ ∀ c ∈ s, isDigit c
  · rw [if_pos h]
    unfold Fast.numericConvert Fast.allDigitsCheck
    simp only [if_true]
    rw [if_pos h.1, Fast.allDigits_spec, ok_bind, if_pos (by simpa using h.2), if_pos (by omega), uconvert b s h.1 h.2, ok_bind]
  · rw [if_neg h]
    apply Fast.C31_numeric_convert_rejects
    by_cases hd : ∀ c ∈ s, isDigit c
    · right
      by_cases hl : 20 ≤ s.length
      · exact hl
      · exact absurd ⟨by omega, hd⟩ h
    · exact Or.inl hd

/-- The variable a `uintkey_map` finds for a key text. -/
def uintLook (lut : List (Option Nat)) (key : List Byte) : Option Nat :=
  if key.length ≤ 19 ∧ (∀ c ∈ key, isDigit c) then lut.getD (decVal key) none else none

/-- The variable a `key_map<unsigned int>` finds for a key text. -/
def numberLook (m : List (Int × Nat)) (key : List Byte) : Option Nat :=
  if key.length ≤ 19 ∧ (∀ c ∈ key, isDigit c) then mapFind m ((decVal key % 2 ^ 32 : Nat) : Int) else mapFind m 4294967295

theorem decVal_lt (s : List Byte) (hd : ∀ c ∈ s, isDigit c) : decVal s < 10 ^ s.length := by
  induction s with
  | nil => simp [decVal]
  | cons c s ih =>
    have h := ih fun x hx => hd x (List.mem_cons_of_mem _ hx)
    have hc := (hd c (by simp)).2
    rw [decVal_cons, List.length_cons, Nat.pow_succ]
    have : (c.toNat - 48) * 10 ^ s.length ≤ 9 * 10 ^ s.length := Nat.mul_le_mul_right _ (by omega)
    omega

/-- C59: the look-up in a `uintkey_map` never leaves the table, whatever the key text is (so `C59_strict`, `C59_strict_failure` and `C59_lenient` apply). -/
theorem C59_uint_find (lut : List (Option Nat)) (key : List Byte) : uintFind lut key = ok (uintLook lut key) := by
  unfold uintFind uintLook
  rw [unumeric, ok_bind]
  by_cases h : key.length ≤ 19 ∧ ∀ c ∈ key, isDigit c
  · rw [if_pos h, if_pos h]
    have hlt := decVal_lt key h.2
    have : (10 : Nat) ^ key.length ≤ 10 ^ 19 := Nat.pow_le_pow_right (by omega) h.1
    have e : decVal key % 2 ^ 64 = decVal key := Nat.mod_eq_of_lt (by omega)
    simp only [if_true, e]
    by_cases hb : decVal key < lut.length
    · rw [if_neg (by omega), Int.toNat_natCast]
      simp [deref, hb, List.getD]
    · rw [if_pos (by omega)]
      simp [List.getD, List.getElem?_eq_none (Nat.le_of_not_lt hb)]
  · rw [if_neg h, if_neg h]
    simp

/-- C59: the same for `key_map<unsigned int>`. -/
theorem C59_number_find (m : List (Int × Nat)) (key : List Byte) : numberFind m key = ok (numberLook m key) := by
  unfold numberFind numberLook
  rw [unumeric, ok_bind]
  by_cases h : key.length ≤ 19 ∧ ∀ c ∈ key, isDigit c
  · rw [if_pos h, if_pos h]; rfl
  · rw [if_neg h, if_neg h]; rfl

/-- C59: the same for `key_map<std::string>`. -/
theorem C59_string_find (m : List (List Byte × Nat)) (key : List Byte) : stringFind m key = ok (mapFind m key) := rfl

/-! ### Registration -/

/-- A decimal numeral (at most 19 digits) for `n`. -/
def NumeralOf (key : List Byte) (n : Nat) : Prop := key ≠ [] ∧ key.length ≤ 19 ∧ (∀ c ∈ key, isDigit c) ∧ decVal key = n

/-- C59: registration in a `uintkey_map` succeeds exactly for keys below the capacity; afterwards every numeral of that key finds the new variable, and
numerals of other keys find what they found before. -/
theorem C59_uint_register (lut : List (Option Nat)) (n x : Nat) :
    ((uintRegister lut n x).1 = true ↔ n < lut.length) ∧ (n < lut.length → ∀ key m, NumeralOf key m →
      uintLook (uintRegister lut n x).2 key = if m = n then some x else uintLook lut key) := by
  unfold uintRegister
  by_cases hn : n < lut.length
  · refine ⟨by simp [hn], fun _ key m hk => ?_⟩
    obtain ⟨_, h1, h2, h3⟩ := hk
    rw [if_pos hn]
    have h12 : key.length ≤ 19 ∧ ∀ c ∈ key, isDigit c := ⟨h1, h2⟩
    unfold uintLook
    rw [if_pos h12, if_pos h12, h3]
    simp only [List.getD, List.getElem?_set]
    by_cases hm : m = n
    · subst hm; simp [hn]
    · simp [hm, Ne.symm hm]
  · exact ⟨by simp [hn], fun h => absurd h hn⟩

theorem mapFind_register {K : Type} [DecidableEq K] (m : List (K × Nat)) (k : K) (x : Nat) (k' : K) :
    mapFind (mapRegister m k x) k' = if k' = k then some x else mapFind m k' := by
  unfold mapFind mapRegister
  by_cases h : k' = k
  · subst h; simp
  · have hk : ¬ k = k' := fun e => h e.symm
    simp only [h, if_false, List.find?_cons, hk, decide_false]
    congr 1
    induction m with
    | nil => rfl
    | cons e m ih =>
      by_cases he : e.1 = k
      · have : ¬ e.1 = k' := fun e' => h (e'.symm.trans he)
        rw [List.filter_cons_of_neg (by simpa using he), ih, List.find?_cons_of_neg (by simpa using this)]
      · by_cases he' : e.1 = k'
        · rw [List.filter_cons_of_pos (by simpa using he), List.find?_cons_of_pos (by simpa using he'), List.find?_cons_of_pos (by simpa using he')]
        · rw [List.filter_cons_of_pos (by simpa using he), List.find?_cons_of_neg (by simpa using he'), List.find?_cons_of_neg (by simpa using he'), ih]

/-- C59: a `key_map<std::string>` finds exactly the variable registered last for exactly the key text. -/
theorem C59_string_register (m : List (List Byte × Nat)) (k : List Byte) (x : Nat) (key : List Byte) :
    stringFind (mapRegister m k x) key = if key = k then ok (some x) else stringFind m key := by
  unfold stringFind
  rw [mapFind_register]
  split <;> rfl

/-- C59: a `key_map<unsigned int>`: numerals below 2^32 find exactly the variable registered last for their value. -/
theorem C59_number_register (m : List (Int × Nat)) (n x : Nat) (key : List Byte) (v : Nat) (hk : NumeralOf key v) (hv : v < 2 ^ 32) :
    numberFind (mapRegister m (n : Int) x) key = if v = n then ok (some x) else numberFind m key := by
  obtain ⟨_, h1, h2, h3⟩ := hk
  rw [C59_number_find, C59_number_find]
  have h12 : key.length ≤ 19 ∧ ∀ c ∈ key, isDigit c := ⟨h1, h2⟩
  unfold numberLook
  rw [if_pos h12, if_pos h12, h3, Nat.mod_eq_of_lt hv, mapFind_register]
  by_cases h : v = n
  · subst h; simp
  · have : ¬ ((v : Int) = (n : Int)) := by omega
    simp [h, this]

/-! ### Where the code departs from the property -/

/-- A text as bytes. -/
private def b (s : String) : List Byte := s.toList.map fun c => BitVec.ofNat 8 c.toNat

/-- An identity converter. -/
private def idConv : Nat → List Byte → List Byte → Bool × List Byte := fun _ _ v => (true, v)

/-- "=7" has no key, but its value is delivered to key 0 of a `uintkey_map`. -/
theorem C59_empty_key : ∃ mem', parseStrict (· = 124) (· = 61) (uintFind [some 5]) idConv (fun _ => []) (b "=7") = ok (true, mem') ∧ mem' 5 = b "7" := by
  obtain ⟨mem', h⟩ : ∃ mem', parseStrict (· = 124) (· = 61) (uintFind [some 5]) idConv (fun _ => []) (b "=7") = ok (true, mem') := ⟨_, rfl⟩
  exact ⟨mem', h, by cases h; decide⟩

/-- In a `key_map<unsigned int>` a key that is no number is taken for 4294967295, and 4294967296 for 0. -/
theorem C59_number_confusion : numberFind [(4294967295, 3), (0, 4)] (b "abc") = ok (some 3) ∧ numberFind [(4294967295, 3), (0, 4)] (b "4294967296") = ok (some 4) := by
  decide

/-- The hypotheses are met: "0=ab|1=c||0=d" delivers two values to key 0 and one to key 1. -/
example : ∃ mem', parseStrict (· = 124) (· = 61) (uintFind [some 5, some 6]) idConv (fun _ => []) (b "0=ab|1=c||0=d") = ok (true, mem') ∧
    mem' 5 = b "d" ∧ mem' 6 = b "c" := by
  obtain ⟨mem', h⟩ : ∃ mem', parseStrict (· = 124) (· = 61) (uintFind [some 5, some 6]) idConv (fun _ => []) (b "0=ab|1=c||0=d") = ok (true, mem') := ⟨_, rfl⟩
  exact ⟨mem', h, by cases h; decide, by cases h; decide⟩

example : ∃ mem', parseLenient (· = 124) (· = 61) (uintFind [some 5, some 6]) idConv (fun _ => []) (b "0=ab|1|9=c||x=d|1=") = ok (4, mem') := ⟨_, rfl⟩

example : NumeralOf (b "017") 17 := by unfold NumeralOf; decide

/-! ### Concrete cases of C59 -/

/-- The keys "a" and "b" are known. -/
private def look2 (k : List Byte) : Option Nat := if k = b "a" then some 5 else if k = b "b" then some 6 else none

/-- Values without an 'x' are accepted. -/
private def noX : Nat → List Byte → List Byte → Bool × List Byte := fun _ old v => if v.contains 120 then (false, old) else (true, v)

example : ∃ mem', parseStrict (· = 124) (· = 61) (fun k => ok (look2 k)) noX (fun _ => []) (b "a=1|b=2|a=34") = ok (true, mem') ∧ mem' 5 = b "34" := by
  obtain ⟨mem', h⟩ : ∃ mem', parseStrict (· = 124) (· = 61) (fun k => ok (look2 k)) noX (fun _ => []) (b "a=1|b=2|a=34") = ok (true, mem') := ⟨_, rfl⟩
  have hs := (C59_strict (· = 124) (· = 61) (fun k => ok (look2 k)) look2 (fun _ => rfl) noX (fun _ => []) mem' (b "a=1|b=2|a=34")).mp h
  have hl := (C59_last_value (· = 124) (· = 61) (fun k => ok (look2 k)) look2 (fun _ => rfl) noX (fun _ => []) mem' (b "a=1|b=2|a=34") h 5).2 id (by
    intro a s hc
    by_cases hx : s.contains 120 = true
    · simp only [noX, if_pos hx] at hc; exact absurd hc (by decide)
    · simp only [noX, if_neg hx, id]) [b "1"] (b "34") (by decide)
  exact ⟨mem', h, hl⟩

example : ∃ mem', parseStrict (· = 124) (· = 61) (fun k => ok (look2 k)) noX (fun _ => []) (b "a=1|b=x|a=34") = ok (false, mem') ∧
    ∃ done t rest, tokens (· = 124) (b "a=1|b=x|a=34") = done ++ t :: rest ∧ ∀ u ∈ done, Known (· = 61) look2 u := by
  obtain ⟨mem', h⟩ : ∃ mem', parseStrict (· = 124) (· = 61) (fun k => ok (look2 k)) noX (fun _ => []) (b "a=1|b=x|a=34") = ok (false, mem') := ⟨_, rfl⟩
  obtain ⟨done, t, rest, h1, h2, _⟩ := C59_strict_failure (· = 124) (· = 61) (fun k => ok (look2 k)) look2 (fun _ => rfl) noX (fun _ => []) mem' (b "a=1|b=x|a=34") (by decide) h
  exact ⟨mem', h, done, t, rest, h1, h2⟩

example : ∃ mem' n, parseLenient (· = 124) (· = 61) (fun k => ok (look2 k)) noX (fun _ => []) (b "a=1|b=x|q=7|a=34") = ok (n, mem') ∧ mem' 5 = b "34" := by
  obtain ⟨mem', h1, h2⟩ := C59_lenient (· = 124) (· = 61) (fun k => ok (look2 k)) look2 (fun _ => rfl) noX (fun _ v => !v.contains 120) (by
    intro x a v
    by_cases hx : v.contains 120 = true
    · simp only [noX, if_pos hx, hx]; rfl
    · simp only [noX, if_neg hx, Bool.eq_false_iff.mpr hx]; rfl) (fun _ => []) (b "a=1|b=x|q=7|a=34")
  exact ⟨mem', _, h1, by rw [h2]; decide⟩

end Strtk.KeyValue
