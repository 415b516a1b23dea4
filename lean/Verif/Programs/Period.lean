import Verif.Split.Props
import Verif.Parse.Props
import Verif.Real.Value

/-!
# The period parser of strtk_period_parser.cpp

Line numbers refer to strtk_period_parser.cpp.  The arithmetic of `double` is left open, as in the model of the conversion (Real/Model.lean): the theorems
hold whatever it is.  `char` is signed, as on x86, and has eight bits; `long long` has 64 bits.
-/

namespace Strtk.Programs
open Outcome Strtk.Codec Strtk.Split Strtk.Real

/-- What the parser does with `double`: the conversion from text, `86400000.0 * t` and so on (71-74), `t < 0.0` (78) and `static_cast<long long>(t)` (81),
which is undefined out of range. -/
structure Clock (R : Type) where
  ops : Ops R
  times : Nat → R → R
  negative : R → Bool
  toInt : R → Outcome Int

/-- The delimiters "DHRMINSECdhrminsec :" (41). -/
def periodDelims : List Byte := [68, 72, 82, 77, 73, 78, 83, 69, 67, 100, 104, 114, 109, 105, 110, 115, 101, 99, 32, 58]

/-- `string_to_type_converter(token.first, token.second - 1, t)` (65).  Only the last token can be empty: then the pair is (end, end - 1) and the conversion
looks at nothing but the terminating zero behind the text, which is no sign, point, zero, digit or letter it knows, and returns false (strtk.hpp
17618-17766); this is put in as the result here. -/
def partValue {R : Type} (o : Ops R) (s : List Byte) (r : Nat × Nat) : Outcome (Option R) :=
  if r.1 < r.2 then realParse o doubleMin (textOf s (r.1, r.2 - 1)) else ok none

/-- `std::toupper` of a character; undefined for negative values other than EOF. -/
def upper (c : Byte) : Outcome Byte :=
  if 128 ≤ c.toNat ∧ c ≠ 255 then ub else if 97 ≤ c.toNat ∧ c.toNat ≤ 122 then ok (c - 32) else ok c

/-- The cases of the switch (68-75): the index in `encounterd`; the factors are those of `factor`. -/
def caseOf (c : Byte) : Option Nat :=
  if c = 68 then some 0 else if c = 72 then some 1 else if c = 77 then some 2 else if c = 83 then some 3 else none

/-- The factors (70-73). -/
def factor (k : Nat) : Nat := if k = 0 then 86400000 else if k = 1 then 3600000 else if k = 2 then 60000 else 1000

/-- `period += x` (81); signed overflow is undefined. -/
def addLong (p x : Int) : Outcome Int := if -2 ^ 63 ≤ p + x ∧ p + x < 2 ^ 63 then ok (p + x) else ub

/-- The loop 63-82 over the remaining tokens; the return value and `period`. -/
def periodLoop {R : Type} (K : Clock R) (s : List Byte) : List (Nat × Nat) → List Bool → Int → Outcome (Bool × Int)
  | [], _, p => ok (true, p)
  | r :: rs, enc, p => do
    match ← partValue K.ops s r with
    | none => ok (false, p)
    | some t => do
      let c ← deref s (r.2 - 1)
      let c ← upper c
      match caseOf c with
      | none => ok (false, p)
      | some k => do
        let seen ← deref enc k
        if seen then ok (false, p)
        else do
          let t := K.times (factor k) t
          let enc ← store enc k true
          if c ≠ 68 ∧ K.negative t then ok (false, p)
          else do
            let x ← K.toInt t
            let p ← addLong p x
            periodLoop K s rs enc p

/-- `period_parser::operator()` (44-85); `p` is the former value of the target. -/
def periodParse {R : Type} (K : Clock R) (s : List Byte) (p : Int) : Outcome (Bool × Int) :=
  if s = [] then ok (false, p)
  else do
    let (toks, count) ← splitN { compress := true, first := true } (Parse.delimPred periodDelims) s 4
    if count = 0 then ok (false, p) else periodLoop K s (toks.take count) [false, false, false, false] 0

/-! ## Specification -/

/-- What a letter stands for: the number of milliseconds of a day, an hour, a minute, a second. -/
def unitMs (u : Byte) : Option Nat :=
  if u = 68 ∨ u = 100 then some 86400000
  else if u = 72 ∨ u = 104 then some 3600000
  else if u = 77 ∨ u = 109 then some 60000
  else if u = 83 ∨ u = 115 then some 1000
  else none

/-- What may stand between fields: a blank, a colon, and every letter of "dhr", "min" and "sec" in either case. -/
def Separates (c : Byte) : Prop := (Char.ofNat c.toNat).toLower ∈ " :dhrminsec".toList

/-- The fields, each a text without delimiters and the letter behind it, are written in `s` one after the other.  Any delimiters may follow the letter;
anything may follow the last field. -/
def Laid : List (List Byte × Byte) → List Byte → Prop
  | [], _ => True
  | (w, u) :: fs, s => ∃ g rest, s = w ++ u :: (g ++ rest) ∧ (∀ c ∈ w, ¬ Separates c) ∧ (∀ c ∈ g, Separates c) ∧ Laid fs rest

/-- The field stands for `x` milliseconds: `ms` is its unit. -/
def Means {R : Type} (K : Clock R) (f : List Byte × Byte) (ms : Nat) (x : Int) : Prop :=
  unitMs f.2 = some ms ∧ ∃ v, realParse K.ops doubleMin f.1 = ok (some v) ∧ K.toInt (K.times ms v) = ok x ∧ (ms = 86400000 ∨ K.negative (K.times ms v) = false)

/-- No overflow while the numbers are added up from `p` on. -/
def Fits : Int → List Int → Prop
  | _, [] => True
  | p, x :: xs => (-2 ^ 63 ≤ p + x ∧ p + x < 2 ^ 63) ∧ Fits (p + x) xs

/-! ## Theorems -/

/-- The loop on the texts of the tokens. -/
def textLoop {R : Type} (K : Clock R) : List (List Byte) → List Bool → Int → Outcome (Bool × Int)
  | [], _, p => ok (true, p)
  | w :: ws, enc, p =>
    match w.getLast? with
    | none => ok (false, p)
    | some u => do
      match ← realParse K.ops doubleMin w.dropLast with
      | none => ok (false, p)
      | some t => do
        let c ← upper u
        match caseOf c with
        | none => ok (false, p)
        | some k => do
          let seen ← deref enc k
          if seen then ok (false, p)
          else do
            let t := K.times (factor k) t
            let enc ← store enc k true
            if c ≠ 68 ∧ K.negative t then ok (false, p)
            else do
              let x ← K.toInt t
              let p ← addLong p x
              textLoop K ws enc p

theorem periodLoop_text {R : Type} (K : Clock R) (s : List Byte) (rs : List (Nat × Nat)) (hb : ∀ r ∈ rs, r.1 ≤ r.2 ∧ r.2 ≤ s.length) :
    ∀ enc p, periodLoop K s rs enc p = textLoop K (rs.map (textOf s)) enc p := by
  induction rs with
  | nil => intros; rfl
  | cons r rs ih =>
    intro enc p
    obtain ⟨h1, h2⟩ := hb r (by simp)
    have ih := ih fun r hr => hb r (by simp [hr])
    simp only [periodLoop, List.map_cons, textLoop]
    by_cases h : r.1 < r.2
    · have hw : textOf s r = textOf s (r.1, r.2 - 1) ++ [s[r.2 - 1]] := by
        unfold textOf
        simp only
        have : r.2 - r.1 = (r.2 - 1 - r.1) + 1 := by omega
        rw [this, List.take_add_one, List.getElem?_drop, show r.1 + (r.2 - 1 - r.1) = r.2 - 1 by omega, List.getElem?_eq_getElem (by omega)]
        rfl
      rw [hw, List.getLast?_append, List.dropLast_concat]
      simp only [partValue, if_pos h, deref_eq_ok (show r.2 - 1 < s.length by omega), ok_bind, List.getLast?_singleton, Option.some_or]
      simp only [ih]
    · have hw : textOf s r = [] := by
        unfold textOf
        simp [show r.2 - r.1 = 0 by omega]
      rw [hw]
      simp [partValue, if_neg h]

/-- A field is accepted with the kinds seen so far. -/
def Run {R : Type} (K : Clock R) : List (List Byte × Byte) → List Bool → Int → Int → Prop
  | [], _, p, q => p = q
  | (w, u) :: fs, enc, p, q => ∃ v c k x, realParse K.ops doubleMin w = ok (some v) ∧ upper u = ok c ∧ caseOf c = some k ∧ enc[k]? = some false ∧
      (c = 68 ∨ K.negative (K.times (factor k) v) = false) ∧ K.toInt (K.times (factor k) v) = ok x ∧ (-2 ^ 63 ≤ p + x ∧ p + x < 2 ^ 63) ∧
      Run K fs (enc.set k true) (p + x) q

theorem textLoop_cons {R : Type} (K : Clock R) (w : List Byte) (u : Byte) (ws : List (List Byte)) (enc : List Bool) (p q : Int) :
    textLoop K ((w ++ [u]) :: ws) enc p = ok (true, q) ↔ ∃ v c k x, realParse K.ops doubleMin w = ok (some v) ∧ upper u = ok c ∧ caseOf c = some k ∧
      enc[k]? = some false ∧ (c = 68 ∨ K.negative (K.times (factor k) v) = false) ∧ K.toInt (K.times (factor k) v) = ok x ∧
      (-2 ^ 63 ≤ p + x ∧ p + x < 2 ^ 63) ∧ textLoop K ws (enc.set k true) (p + x) = ok (true, q) := by
  simp only [textLoop, List.getLast?_append, List.getLast?_singleton, Option.some_or, List.dropLast_concat]
  constructor
  · intro h
    obtain ⟨v, h1, h⟩ := bind_eq_ok.mp h
    cases v with
    | none => simp at h
    | some v =>
      obtain ⟨c, h2, h⟩ := bind_eq_ok.mp h
      cases hk : caseOf c with
      | none => simp [hk] at h
      | some k =>
        simp only [hk] at h
        obtain ⟨b, h3, h⟩ := bind_eq_ok.mp h
        cases b with
        | true => simp at h
        | false =>
          simp only [Bool.false_eq_true, if_false] at h
          obtain ⟨enc', h4, h⟩ := bind_eq_ok.mp h
          have h3' : enc[k]? = some false := by
            unfold deref at h3
            cases he : enc[k]? with
            | none => simp [he] at h3
            | some b => simp [he] at h3; rw [h3]
          have hlt : k < enc.length := (List.getElem?_eq_some_iff.mp h3').1
          rw [store_eq_ok _ hlt] at h4
          injection h4 with h4
          subst h4
          split at h
          · simp at h
          · rename_i hn
            obtain ⟨x, h5, h⟩ := bind_eq_ok.mp h
            obtain ⟨p', h6, h⟩ := bind_eq_ok.mp h
            unfold addLong at h6
            split at h6
            case isFalse => simp at h6
            rename_i hr
            injection h6 with h6
            subst h6
            refine ⟨v, c, k, x, h1, h2, hk, h3', ?_, h5, hr, h⟩
            by_cases hc : c = 68
            · exact Or.inl hc
            · right
              cases hneg : K.negative (K.times (factor k) v) with
              | false => rfl
              | true => exact absurd ⟨hc, hneg⟩ hn
  · rintro ⟨v, c, k, x, h1, h2, hk, h3, h4, h5, h6, h7⟩
    have hlt : k < enc.length := (List.getElem?_eq_some_iff.mp h3).1
    have hd : deref enc k = ok false := by unfold deref; rw [h3]
    rw [h1, ok_bind]
    simp only [h2, ok_bind, hk, hd, Bool.false_eq_true, if_false, store_eq_ok _ hlt]
    rw [if_neg (by
      rintro ⟨hc, hn⟩
      rcases h4 with h4 | h4
      · exact hc h4
      · rw [h4] at hn; simp at hn), h5, ok_bind]
    unfold addLong
    rw [if_pos h6, ok_bind]
    exact h7

theorem caseOf_delim (u c : Byte) (k : Nat) (h1 : upper u = ok c) (h2 : caseOf c = some k) : unitMs u = some (factor k) ∧ k < 4 ∧ (c = 68 ↔ k = 0) := by
  have hall : ∀ u : Fin 256, (match upper (BitVec.ofFin u) with
      | ok c => (match caseOf c with
        | some k => decide (unitMs (BitVec.ofFin u) = some (factor k) ∧ k < 4 ∧ (c = 68 ↔ k = 0))
        | none => true)
      | _ => true) = true := by decide +kernel
  have := hall u.toFin
  have e : (BitVec.ofFin u.toFin : Byte) = u := rfl
  rw [e, h1] at this
  simp only [h2] at this
  exact of_decide_eq_true this

theorem delims_separate (c : Byte) : c ∈ periodDelims ↔ Separates c := by
  have hall : ∀ u : Fin 256, decide ((BitVec.ofFin u : Byte) ∈ periodDelims) = decide ((Char.ofNat u).toLower ∈ " :dhrminsec".toList) := by decide +kernel
  have := hall c.toFin
  exact decide_eq_decide.mp this

theorem delim_of_unit (u : Byte) (ms : Nat) (h : unitMs u = some ms) : u ∈ periodDelims ∧ ∃ c k, upper u = ok c ∧ caseOf c = some k ∧ factor k = ms ∧ k < 4 ∧ (c = 68 ↔ ms = 86400000) := by
  have hall : ∀ u : Fin 256, (match unitMs (BitVec.ofFin u) with
      | some ms => decide ((BitVec.ofFin u : Byte) ∈ periodDelims) && match upper (BitVec.ofFin u) with
        | ok c => (match caseOf c with
          | some k => decide (factor k = ms ∧ k < 4 ∧ (c = 68 ↔ ms = 86400000))
          | none => false)
        | _ => false
      | none => true) = true := by decide +kernel
  have := hall u.toFin
  have e : (BitVec.ofFin u.toFin : Byte) = u := rfl
  rw [e] at this
  simp only [h, Bool.and_eq_true] at this
  refine ⟨of_decide_eq_true this.1, ?_⟩
  have h2 := this.2
  cases hu : upper u with
  | ok c =>
    simp only [hu] at h2
    cases hk : caseOf c with
    | none => simp [hk] at h2
    | some k => simp only [hk] at h2; exact ⟨c, k, rfl, hk, of_decide_eq_true h2⟩
  | ub => simp [hu] at h2
  | diverge => simp [hu] at h2
  | thrown => simp [hu] at h2

theorem splits_run {R : Type} (K : Clock R) {off : Nat} {s : List Byte} {toks : List (Nat × List Byte)}
    (h : Splits true Keep.firstOnly (fun c => decide (c ∈ periodDelims)) off s toks) : ∀ (n : Nat) (enc : List Bool) (p q : Int),
      textLoop K ((toks.map Prod.snd).take n) enc p = ok (true, q) ↔ ∃ fs, fs.length = n ∧ Laid fs s ∧ Run K fs enc p q := by
  induction h with
  | last off w hw =>
    intro n enc p q
    cases n with
    | zero =>
      simp only [List.take_zero, textLoop, List.length_eq_zero_iff]
      constructor
      · intro h; injection h with h; exact ⟨[], rfl, trivial, (Prod.mk.inj h).2⟩
      · rintro ⟨fs, rfl, _, h⟩; simp only [Run] at h; rw [h]
    | succ n =>
      constructor
      · intro h
        simp only [List.map_cons, List.map_nil, List.take_succ_cons, List.take_nil] at h
        exfalso
        rcases List.eq_nil_or_concat w with rfl | ⟨w', u, rfl⟩
        · simp [textLoop] at h
        · rw [List.concat_eq_append, textLoop_cons] at h
          obtain ⟨v, c, k, x, _, h2, h3, _⟩ := h
          have := (delim_of_unit u _ (caseOf_delim u c k h2 h3).1).1
          have := hw u (by simp)
          simp_all
      · rintro ⟨fs, hl, hlaid, hrun⟩
        exfalso
        cases fs with
        | nil => simp at hl
        | cons f fs =>
          obtain ⟨w', u⟩ := f
          obtain ⟨g, rest, e, _⟩ := hlaid
          obtain ⟨v, c, k, x, _, h2, h3, _⟩ := hrun
          have := (delim_of_unit u _ (caseOf_delim u c k h2 h3).1).1
          have := hw u (by rw [e]; simp)
          simp_all
  | more off w block rest toks hw hne hblock hmax hrest ih =>
    intro n enc p q
    cases n with
    | zero =>
      simp only [List.take_zero, textLoop, List.length_eq_zero_iff]
      constructor
      · intro h; injection h with h; exact ⟨[], rfl, trivial, (Prod.mk.inj h).2⟩
      · rintro ⟨fs, rfl, _, h⟩; simp only [Run] at h; rw [h]
    | succ n =>
      cases block with
      | nil => exact absurd rfl hne
      | cons u g =>
        have hw' : ∀ c ∈ w, c ∉ periodDelims := fun c hc => by simpa using hw c hc
        have hu : u ∈ periodDelims := by simpa using hblock u (by simp)
        have hg : ∀ c ∈ g, c ∈ periodDelims := fun c hc => by simpa using hblock c (by simp [hc])
        have hr : ∀ c ∈ rest.head?, c ∉ periodDelims := fun c hc => by
          rw [if_pos rfl] at hmax
          exact of_decide_eq_false (hmax c hc)
        have hpart : Keep.part Keep.firstOnly (u :: g) = [u] := rfl
        rw [List.map_cons, List.take_succ_cons, hpart, textLoop_cons]
        constructor
        · rintro ⟨v, c, k, x, h1, h2, h3, h4, h5, h6, h7, h8⟩
          obtain ⟨fs, hl, hlaid, hrun⟩ := (ih n _ _ q).mp h8
          exact ⟨(w, u) :: fs, by simp [hl], ⟨g, rest, by simp, fun c hc h => hw' c hc ((delims_separate c).mpr h), fun c hc => (delims_separate c).mp (hg c hc), hlaid⟩, v, c, k, x, h1, h2, h3, h4, h5, h6, h7, hrun⟩
        · rintro ⟨fs, hl, hlaid, hrun⟩
          cases fs with
          | nil => simp at hl
          | cons f fs =>
            obtain ⟨w', u'⟩ := f
            obtain ⟨g', rest', e, hw2, hg', hlaid'⟩ := hlaid
            obtain ⟨v, c, k, x, h1, h2, h3, h4, h5, h6, h7, h8⟩ := hrun
            have hu' := (delim_of_unit u' _ (caseOf_delim u' c k h2 h3).1).1
            -- the word and the letter are those of the token
            have tw : ∀ (a : List Byte) (b : Byte) (t : List Byte), (∀ c ∈ a, c ∉ periodDelims) → b ∈ periodDelims →
                (a ++ b :: t).takeWhile (fun c => decide (c ∉ periodDelims)) = a := by
              intro a b t h1 h2
              rw [List.takeWhile_append_of_pos (by intro c hc; simpa using h1 c hc)]
              simp [h2]
            have e' : w ++ u :: (g ++ rest) = w' ++ u' :: (g' ++ rest') := by rw [← e]; simp
            have hww : w = w' := by
              rw [← tw w u (g ++ rest) hw' hu, e', tw w' u' _ (fun c hc h => hw2 c hc ((delims_separate c).mp h)) hu']
            subst hww
            have e2 := List.append_cancel_left e'
            injection e2 with huu e3
            subst huu
            refine ⟨v, c, k, x, h1, h2, h3, h4, h5, h6, h7, (ih n _ _ q).mpr ⟨fs, by simpa using hl, ?_, h8⟩⟩
            cases fs with
            | nil => trivial
            | cons f2 fs =>
              -- the next word is not empty
              have hhead : ∀ c ∈ rest'.head?, c ∉ periodDelims := by
                obtain ⟨w2, u2⟩ := f2
                obtain ⟨g2, r2, e4, hw3, _⟩ := hlaid'
                obtain ⟨v2, _, _, _, hv2, _⟩ := h8
                cases w2 with
                | nil => simp [realParse] at hv2
                | cons a w2 =>
                  intro c hc
                  rw [e4] at hc
                  simp at hc
                  exact fun h => hw3 c (by simp [hc]) ((delims_separate c).mp h)
              have dw : ∀ (a t : List Byte), (∀ c ∈ a, c ∈ periodDelims) → (∀ c ∈ t.head?, c ∉ periodDelims) →
                  (a ++ t).dropWhile (fun c => decide (c ∈ periodDelims)) = t := by
                intro a t h1 h2
                rw [List.dropWhile_append_of_pos (by intro c hc; simpa using h1 c hc)]
                cases t with
                | nil => rfl
                | cons b t => rw [List.dropWhile_cons, if_neg (by simpa using h2 b (by simp))]
              have : rest = rest' := by rw [← dw g rest hg hr, e3, dw g' rest' (fun c hc => (delims_separate c).mpr (hg' c hc)) hhead]
              subst this
              exact hlaid'

/-- The kinds still free. -/
def freeKinds (enc : List Bool) : List Nat := (List.range 4).filter fun k => enc[k]? == some false

theorem run_means {R : Type} (K : Clock R) : ∀ (fs : List (List Byte × Byte)) (enc : List Bool) (p q : Int), enc.length = 4 →
    (Run K fs enc p q ↔ ∃ ks : List Nat, ∃ xs : List Int, ks.length = fs.length ∧ xs.length = fs.length ∧ ks.Nodup ∧ (∀ k ∈ ks, enc[k]? = some false) ∧
      (∀ (i : Nat) f k x, fs[i]? = some f → ks[i]? = some k → xs[i]? = some x → Means K f (factor k) x) ∧ Fits p xs ∧ q = p + xs.sum) := by
  intro fs
  induction fs with
  | nil =>
    intro enc p q _
    constructor
    · intro h; simp only [Run] at h; exact ⟨[], [], rfl, rfl, by simp, by simp, by simp, trivial, by simp [h]⟩
    · rintro ⟨ks, xs, h1, h2, -, -, -, -, h⟩
      have : xs = [] := List.length_eq_zero_iff.mp h2
      subst this
      simp only [Run]; simp at h; exact h.symm
  | cons f fs ih =>
    intro enc p q hl
    obtain ⟨w, u⟩ := f
    have hfac : ∀ k < 4, (factor k = 86400000 ↔ k = 0) := by decide
    have hinj : ∀ k < 4, ∀ k' < 4, factor k = factor k' → k = k' := by decide
    constructor
    · rintro ⟨v, c, k, x, h1, h2, h3, h4, h5, h6, h7, h8⟩
      obtain ⟨ks, xs, l1, l2, nd, fr, mn, ft, sm⟩ := (ih _ _ q (by simpa using hl)).mp h8
      obtain ⟨c1, c2, c3⟩ := caseOf_delim u c k h2 h3
      have hset : ∀ k', (enc.set k true)[k']? = some false → k' ≠ k ∧ enc[k']? = some false := by
        intro k' h
        rw [List.getElem?_set] at h
        split at h
        · split at h <;> simp at h
        · rename_i hne; exact ⟨fun e => hne e.symm, h⟩
      refine ⟨k :: ks, x :: xs, by simp [l1], by simp [l2], ?_, ?_, ?_, ⟨h7, ft⟩, by rw [sm]; simp; omega⟩
      · rw [List.nodup_cons]
        exact ⟨fun hk => (hset k (fr k hk)).1 rfl, nd⟩
      · intro k' hk'
        rcases List.mem_cons.mp hk' with rfl | hk'
        · exact h4
        · exact (hset k' (fr k' hk')).2
      · intro i f k' x' e1 e2 e3
        cases i with
        | zero =>
          simp at e1 e2 e3
          subst e1 e2 e3
          refine ⟨c1, v, h1, h6, ?_⟩
          rcases h5 with h5 | h5
          · left; exact (hfac k c2).mpr (c3.mp h5)
          · exact Or.inr h5
        | succ i => simp at e1 e2 e3; exact mn i f k' x' e1 e2 e3
    · rintro ⟨ks, xs, l1, l2, nd, fr, mn, ft, sm⟩
      cases ks with
      | nil => simp at l1
      | cons k ks =>
        cases xs with
        | nil => simp at l2
        | cons x xs =>
          obtain ⟨m1, v, m2, m3, m4⟩ := mn 0 (w, u) k x rfl rfl rfl
          have hk4 : k < 4 := by have := (List.getElem?_eq_some_iff.mp (fr k (by simp))).1; omega
          obtain ⟨_, c, k', d1, d2, d3, d4, d5⟩ := delim_of_unit u _ m1
          have : k' = k := hinj k' d4 k hk4 d3
          subst this
          refine ⟨v, c, k', x, m2, d1, d2, fr k' (by simp), ?_, m3, ft.1, ?_⟩
          · rcases m4 with m4 | m4
            · exact Or.inl (d5.mpr m4)
            · exact Or.inr m4
          · rw [ih _ _ q (by simpa using hl)]
            refine ⟨ks, xs, by simpa using l1, by simpa using l2, (List.nodup_cons.mp nd).2, ?_, ?_, ft.2, by rw [sm]; simp; omega⟩
            · intro k2 hk2
              rw [List.getElem?_set, if_neg]
              · exact fr k2 (by simp [hk2])
              · rintro rfl; exact (List.nodup_cons.mp nd).1 hk2
            · intro i f k2 x2 e1 e2 e3
              exact mn (i + 1) f k2 x2 (by simpa using e1) (by simpa using e2) (by simpa using e3)

/-- C136: a text is accepted exactly if it begins with four fields, one in days, one in hours, one in minutes and one in seconds, in any order; the period
is the sum of what they stand for. -/
theorem C136_accepted {R : Type} (K : Clock R) (s : List Byte) (p q : Int) :
    periodParse K s p = ok (true, q) ↔ ∃ f₁ f₂ f₃ f₄ : List Byte × Byte, ∃ u₁ u₂ u₃ u₄ : Nat, ∃ x₁ x₂ x₃ x₄ : Int,
      Laid [f₁, f₂, f₃, f₄] s ∧ [u₁, u₂, u₃, u₄].Perm [86400000, 3600000, 60000, 1000] ∧
      Means K f₁ u₁ x₁ ∧ Means K f₂ u₂ x₂ ∧ Means K f₃ u₃ x₃ ∧ Means K f₄ u₄ x₄ ∧ Fits 0 [x₁, x₂, x₃, x₄] ∧ q = x₁ + x₂ + x₃ + x₄ := by
  unfold periodParse
  by_cases hs : s = []
  · rw [if_pos hs]
    subst hs
    constructor
    · intro h; simp at h
    · rintro ⟨f₁, _, _, _, _, _, _, _, _, _, _, _, ⟨g, rest, e, _⟩, _⟩
      simp at e
  · rw [if_neg hs]
    obtain ⟨toks, h1, h2⟩ := splitN_spec { compress := true, first := true } (Parse.delimPred periodDelims) s 4 hs (by decide)
    have hne := h1.ne_nil
    have hpos : 0 < toks.length := List.length_pos_iff.mpr hne
    rw [h2, ok_bind]
    simp only
    rw [if_neg (by omega)]
    have htake : ((toks.map pairOf).take 4).take (min toks.length 4) = (toks.map pairOf).take 4 := by
      rw [List.take_take, List.take_eq_take_iff]
      simp; omega
    rw [htake]
    have hb := h1.bounds.1
    rw [periodLoop_text K s _ (by
      intro r hr
      have := hb r (List.mem_of_mem_take hr)
      omega)]
    have htext : ((toks.map pairOf).take 4).map (textOf s) = (toks.map Prod.snd).take 4 := by
      rw [List.map_take, List.map_map]
      congr 1
      refine List.map_congr_left fun t ht => ?_
      exact h1.text [] rfl t ht
    rw [htext]
    rw [Parse.C79_delimiter_string] at h1
    have hk : (if ({ compress := true, first := true } : Opt).first || ({ compress := true, first := true } : Opt).all then Keep.firstOnly else Keep.none) = Keep.firstOnly := rfl
    rw [hk] at h1
    rw [splits_run K h1 4]
    constructor
    · rintro ⟨fs, hl, hlaid, hrun⟩
      obtain ⟨ks, xs, l1, l2, nd, fr, mn, ft, sm⟩ := (run_means K fs _ _ q rfl).mp hrun
      match fs, ks, xs, hl, l1, l2 with
      | [f₁, f₂, f₃, f₄], [k₁, k₂, k₃, k₄], [x₁, x₂, x₃, x₄], _, _, _ =>
        refine ⟨f₁, f₂, f₃, f₄, factor k₁, factor k₂, factor k₃, factor k₄, x₁, x₂, x₃, x₄, hlaid, ?_, mn 0 _ _ _ rfl rfl rfl, mn 1 _ _ _ rfl rfl rfl,
          mn 2 _ _ _ rfl rfl rfl, mn 3 _ _ _ rfl rfl rfl, ft, by rw [sm]; simp; omega⟩
        have hlt : ∀ k ∈ [k₁, k₂, k₃, k₄], k < 4 := fun k hk => by
          have := (List.getElem?_eq_some_iff.mp (fr k hk)).1
          simpa using this
        have hall : ∀ a < 4, ∀ b < 4, ∀ c < 4, ∀ d < 4, [a, b, c, d].Nodup →
            [factor a, factor b, factor c, factor d].isPerm [86400000, 3600000, 60000, 1000] = true := by decide +kernel
        exact List.isPerm_iff.mp <| hall k₁ (hlt _ (by simp)) k₂ (hlt _ (by simp)) k₃ (hlt _ (by simp)) k₄ (hlt _ (by simp)) nd
    · rintro ⟨f₁, f₂, f₃, f₄, u₁, u₂, u₃, u₄, x₁, x₂, x₃, x₄, hlaid, hp, m1, m2, m3, m4, ft, sm⟩
      refine ⟨[f₁, f₂, f₃, f₄], rfl, hlaid, ?_⟩
      rw [run_means K _ _ _ q rfl]
      have hex : ∀ u ∈ [u₁, u₂, u₃, u₄], ∃ k < 4, factor k = u := by
        intro u hu
        have := hp.subset hu
        simp only [List.mem_cons, List.not_mem_nil, or_false] at this
        rcases this with rfl | rfl | rfl | rfl
        · exact ⟨0, by decide, rfl⟩
        · exact ⟨1, by decide, rfl⟩
        · exact ⟨2, by decide, rfl⟩
        · exact ⟨3, by decide, rfl⟩
      obtain ⟨k₁, l1, rfl⟩ := hex u₁ (by simp)
      obtain ⟨k₂, l2, rfl⟩ := hex u₂ (by simp)
      obtain ⟨k₃, l3, rfl⟩ := hex u₃ (by simp)
      obtain ⟨k₄, l4, rfl⟩ := hex u₄ (by simp)
      refine ⟨[k₁, k₂, k₃, k₄], [x₁, x₂, x₃, x₄], rfl, rfl, ?_, ?_, ?_, ft, by rw [sm]; simp; omega⟩
      · have hnd : [factor k₁, factor k₂, factor k₃, factor k₄].Nodup := hp.nodup_iff.mpr (by decide)
        exact List.Pairwise.of_map (l := [k₁, k₂, k₃, k₄]) factor (fun a b h e => h (by rw [e])) hnd
      · have : ∀ k < 4, [false, false, false, false][k]? = some false := by decide
        intro k hk
        simp only [List.mem_cons, List.not_mem_nil, or_false] at hk
        rcases hk with rfl | rfl | rfl | rfl
        · exact this _ l1
        · exact this _ l2
        · exact this _ l3
        · exact this _ l4
      · intro i f k x e1 e2 e3
        match i with
        | 0 => simp at e1 e2 e3; subst e1 e2 e3; exact m1
        | 1 => simp at e1 e2 e3; subst e1 e2 e3; exact m2
        | 2 => simp at e1 e2 e3; subst e1 e2 e3; exact m3
        | 3 => simp at e1 e2 e3; subst e1 e2 e3; exact m4
        | i + 4 => simp at e1

theorem laid_append (fs : List (List Byte × Byte)) : ∀ (s t : List Byte), Laid fs s → Laid fs (s ++ t) := by
  induction fs with
  | nil => intros; trivial
  | cons f fs ih =>
    rintro s t ⟨g, rest, rfl, h2, h3, h4⟩
    exact ⟨g, rest ++ t, by simp, h2, h3, ih _ _ h4⟩

/-- C136: what follows the fourth field is not looked at. -/
theorem C136_rest_ignored {R : Type} (K : Clock R) (s t : List Byte) (p q : Int) (h : periodParse K s p = ok (true, q)) : periodParse K (s ++ t) p = ok (true, q) := by
  rw [C136_accepted] at h ⊢
  obtain ⟨f₁, f₂, f₃, f₄, u₁, u₂, u₃, u₄, x₁, x₂, x₃, x₄, hl, h⟩ := h
  exact ⟨f₁, f₂, f₃, f₄, u₁, u₂, u₃, u₄, x₁, x₂, x₃, x₄, laid_append _ _ _ hl, h⟩

theorem fits_of_small : ∀ (xs : List Int) (p : Int), p.natAbs + (xs.map Int.natAbs).sum < 2 ^ 63 → Fits p xs := by
  intro xs
  induction xs with
  | nil => intros; trivial
  | cons x xs ih =>
    intro p h
    simp at h
    exact ⟨by omega, ih _ (by omega)⟩

/-- The fields one after the other, with nothing between them. -/
def fieldsText (fs : List (List Byte × Byte)) : List Byte := (fs.map fun f => f.1 ++ [f.2]).flatten

/-- C136: four fields, one for each unit, give the sum whatever the order in which they are written, unless the sum is out of range. -/
theorem C136_any_order {R : Type} (K : Clock R) (d h m sec : List Byte × Byte) (xd xh xm xs p : Int)
    (hw : ∀ f ∈ [d, h, m, sec], ∀ c ∈ f.1, ¬ Separates c)
    (h1 : Means K d 86400000 xd) (h2 : Means K h 3600000 xh) (h3 : Means K m 60000 xm) (h4 : Means K sec 1000 xs)
    (hr : xd.natAbs + xh.natAbs + xm.natAbs + xs.natAbs < 2 ^ 63) (fs : List (List Byte × Byte)) (hp : fs.Perm [d, h, m, sec]) :
    periodParse K (fieldsText fs) p = ok (true, xd + xh + xm + xs) := by
  rw [C136_accepted]
  -- the fields with their units and values
  let z : List ((List Byte × Byte) × Nat × Int) := [(d, 86400000, xd), (h, 3600000, xh), (m, 60000, xm), (sec, 1000, xs)]
  have hz : ∃ z' : List ((List Byte × Byte) × Nat × Int), z'.Perm z ∧ z'.map Prod.fst = fs := by
    clear hw h1 h2 h3 h4 hr
    have key : ∀ (a b : List (List Byte × Byte)), a.Perm b → ∀ zb : List ((List Byte × Byte) × Nat × Int), zb.map Prod.fst = b →
        ∃ za : List ((List Byte × Byte) × Nat × Int), za.Perm zb ∧ za.map Prod.fst = a := by
      intro a b hab
      induction hab with
      | nil => intro zb hb; exact ⟨zb, List.Perm.refl _, hb⟩
      | cons x _ ih =>
        intro zb hb
        cases zb with
        | nil => simp at hb
        | cons y zb =>
          simp at hb
          obtain ⟨za, e1, e2⟩ := ih zb hb.2
          exact ⟨y :: za, e1.cons y, by simp [hb.1, e2]⟩
      | swap x y l =>
        intro zb hb
        match zb, hb with
        | a :: b :: zb, hb =>
          simp at hb
          exact ⟨b :: a :: zb, List.Perm.swap a b zb, by simp [hb]⟩
      | trans _ _ ih1 ih2 =>
        intro zb hb
        obtain ⟨zm, e1, e2⟩ := ih2 zb hb
        obtain ⟨za, e3, e4⟩ := ih1 zm e2
        exact ⟨za, e3.trans e1, e4⟩
    exact key fs _ hp z rfl
  obtain ⟨z', hz', hf⟩ := hz
  have hmeans : ∀ t ∈ z', Means K t.1 t.2.1 t.2.2 := by
    intro t ht
    have := hz'.subset ht
    simp only [z, List.mem_cons, List.not_mem_nil, or_false] at this
    rcases this with rfl | rfl | rfl | rfl
    · exact h1
    · exact h2
    · exact h3
    · exact h4
  have hlaid : ∀ l : List (List Byte × Byte), (∀ f ∈ l, ∀ c ∈ f.1, ¬ Separates c) → Laid l (fieldsText l) := by
    intro l
    induction l with
    | nil => intro _; trivial
    | cons f l ih =>
      intro hl
      exact ⟨[], fieldsText l, by simp [fieldsText], hl f (by simp), by simp, ih fun f hf => hl f (by simp [hf])⟩
  have hlf : Laid fs (fieldsText fs) := hlaid fs fun f hf => hw f (hp.subset hf)
  have hu : (z'.map fun t => t.2.1).Perm [86400000, 3600000, 60000, 1000] := hz'.map _
  have hsum : (z'.map fun t => t.2.2).sum = xd + xh + xm + xs := by
    rw [(hz'.map fun t => t.2.2).sum_eq]
    simp [z]; omega
  have habs : ((z'.map fun t => t.2.2).map Int.natAbs).sum < 2 ^ 63 := by
    rw [((hz'.map fun t => t.2.2).map Int.natAbs).sum_eq]
    simp [z]; omega
  have hlen : z'.length = 4 := hz'.length_eq
  have hfour : ∀ l : List ((List Byte × Byte) × Nat × Int), l.length = 4 → ∃ t₁ t₂ t₃ t₄, l = [t₁, t₂, t₃, t₄] := by
    intro l hl
    match l, hl with
    | [t₁, t₂, t₃, t₄], _ => exact ⟨t₁, t₂, t₃, t₄, rfl⟩
  obtain ⟨t₁, t₂, t₃, t₄, e⟩ := hfour z' hlen
  subst e
  subst hf
  exact ⟨t₁.1, t₂.1, t₃.1, t₄.1, t₁.2.1, t₂.2.1, t₃.2.1, t₄.2.1, t₁.2.2, t₂.2.2, t₃.2.2, t₄.2.2, hlf, hu, hmeans t₁ (by simp), hmeans t₂ (by simp),
      hmeans t₃ (by simp), hmeans t₄ (by simp), fits_of_small _ 0 (by simpa using habs), by rw [← hsum]; simp; omega⟩

/-- C136: fewer than four fields are never accepted, so neither are single periods such as `5H`. -/
theorem C136_not_alone {R : Type} (K : Clock R) (w : List Byte) (u : Byte) (hw : ∀ c ∈ w, ¬ Separates c) (p q : Int) :
    periodParse K (w ++ [u]) p ≠ ok (true, q) := by
  intro h
  rw [C136_accepted] at h
  obtain ⟨f₁, f₂, _, _, u₁, u₂, _, _, x₁, x₂, _, _, ⟨g, rest, e, _, _, g2, rest2, e2, _⟩, _, m1, m2, _⟩ := h
  have d1 := (delim_of_unit _ _ m1.1).1
  have d2 := (delim_of_unit _ _ m2.1).1
  subst e2
  -- two delimiters in a text that can have one at most
  have c1 : (w ++ [u]).countP (fun c => decide (c ∈ periodDelims)) ≤ 1 := by
    rw [List.countP_append]
    have : w.countP (fun c => decide (c ∈ periodDelims)) = 0 := List.countP_eq_zero.mpr fun c hc => by simpa using fun h => hw c hc ((delims_separate c).mp h)
    rw [this]
    have := List.countP_le_length (p := fun c => decide (c ∈ periodDelims)) (l := [u])
    simpa using this
  rw [e] at c1
  simp [List.countP_append, List.countP_cons, d1, d2] at c1
  omega

/-! ## An example -/

/-- Whole numbers instead of `double`. -/
def wholeClock : Clock Int where
  ops := ⟨0, fun d x => d * 10 + x, (· + ·), Neg.neg, fun d e => d * 10 ^ e, fun d e => d / 10 ^ e, fun d _ => d, 0, 0⟩
  times k t := k * t
  negative t := decide (t < 0)
  toInt t := if -2 ^ 63 ≤ t ∧ t < 2 ^ 63 then ok t else ub

-- "2Hr 30Min -1D 15Sec" and, not accepted, "-2H 30M 1D 15S" and "2H 30M 1D"
example : periodParse wholeClock [50, 72, 114, 32, 51, 48, 77, 105, 110, 32, 45, 49, 68, 32, 49, 53, 83, 101, 99] 7 = ok (true, -77385000) ∧
    periodParse wholeClock [45, 50, 72, 32, 51, 48, 77, 32, 49, 68, 32, 49, 53, 83] 7 = ok (false, 0) ∧
    periodParse wholeClock [50, 72, 32, 51, 48, 77, 32, 49, 68] 7 = ok (false, 95400000) := by decide +kernel

example : Means wholeClock ([50], 72) 3600000 7200000 ∧ Means wholeClock ([45, 49], 100) 86400000 (-86400000) := by
  refine ⟨⟨rfl, 2, ?_, ?_, ?_⟩, ⟨rfl, -1, ?_, ?_, ?_⟩⟩ <;> decide +kernel

end Strtk.Programs
