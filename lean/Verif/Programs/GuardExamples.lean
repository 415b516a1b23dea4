import Verif.Parse.Props
import Verif.Guards.Props
import Verif.Number.Props
import Verif.Real.Ieee

/-!
# strtk_examples.cpp: `parse_example11` (953-1089)

Words that are expected, values that must lie in a range, and trimmed or case-changed targets among the targets of `parse`.
-/

namespace Strtk.Programs
open Outcome Strtk.Codec Strtk.Split Strtk.Parse
open Strtk.Guards hiding Byte
open Strtk.Number hiding Byte

/-- `operator<` of `std::string`: characters compare as `unsigned char`. -/
def stringLt (a b : List Byte) : Bool := decide (a.map BitVec.toNat < b.map BitVec.toNat)

/-- `operator<` of `double`. -/
def doubleLt : Real.Val → Real.Val → Bool
  | .num p, .num q => decide (p < q)
  | .num _, .inf neg => !neg
  | .inf neg, .num _ => neg
  | .inf a, .inf b => a && !b
  | _, _ => false

/-- The targets that occur in `parse_example11`: variables, expected words, ranges, trimmed and case-changed variables; the last member of each is the
variable's value. -/
inductive Arg where
  | text (v : List Byte) | int (v : Int) | dbl (v : Real.Val)
  | expect (s : List Byte) | iexpect (s : List Byte) | like (s : List Byte)
  | dblRange (low hi v : Real.Val) | textRange (low hi v : List Byte)
  | trimText (mode : Nat) (rem v : List Byte) | trimInt (mode : Nat) (rem : List Byte) (v : Int) | trimDbl (mode : Nat) (rem : List Byte) (v : Real.Val)
  | lcase (v : List Byte) | ucase (v : List Byte)

/-- `trim_details::convert_impl` (strtk.hpp 16390-16411) with a converter that may misbehave. -/
def trimmed {T : Type} (conv : List Byte → Outcome (Bool × T)) (rem : List Byte) (mode : Nat) (t : T) (token : List Byte) : Outcome (Bool × T) := do
  match ← Guards.trimText rem token mode with
  | none => ok (false, t)
  | some s => conv s

/-- The conversion of a token for each of them (strtk.hpp 17297-17358, 17616-17777, and the integer converters). -/
def Arg.conv (w : List Byte) : Arg → Outcome (Bool × Arg)
  | .text _ => ok (true, .text w)
  | .int v => do let (g, v) ← parseSigned Number.int w v; ok (g, .int v)
  | .dbl v => do let r ← Real.realParse Real.ieee Real.doubleMin w; ok (r.isSome, .dbl (r.getD v))
  | .expect s => do let g ← Guards.expect s w; ok (g, .expect s)
  | .iexpect s => do let g ← Guards.iexpect s w; ok (g, .iexpect s)
  | .like s => do let g ← Guards.like s w; ok (g, .like s)
  | .dblRange low hi v => do
    let r ← Real.realParse Real.ieee Real.doubleMin w
    let (g, v) := inrange (fun _ => r) doubleLt low hi v w
    ok (g, .dblRange low hi v)
  | .textRange low hi v =>
    let (g, v) := inrange some stringLt low hi v w
    ok (g, .textRange low hi v)
  | .trimText mode rem _ => do let (g, v) ← trimString rem mode w; ok (g, .trimText mode rem v)
  | .trimInt mode rem v => do let (g, v) ← trimmed (fun s => parseSigned Number.int s v) rem mode v w; ok (g, .trimInt mode rem v)
  | .trimDbl mode rem v => do
    let (g, v) ← trimmed (fun s => do let r ← Real.realParse Real.ieee Real.doubleMin s; ok (r.isSome, r.getD v)) rem mode v w
    ok (g, .trimDbl mode rem v)
  | .lcase _ => ok ((Guards.lcase w).1, .lcase (Guards.lcase w).2)
  | .ucase _ => ok ((Guards.ucase w).1, .ucase (Guards.ucase w).2)

/-- `strtk::parse` with such targets. -/
def parseArgs (delims : List Byte) (ts : List Arg) (s : List Byte) : Outcome (Bool × List Arg) := parse delims (ts.map fun _ w t => t.conv w) ts s

/-- `var foo : InTeGeR = 3;` (955-973): the result, the variable's name and its initial value; both are as given before the call. -/
def declaration (name : List Byte) (value : Int) (data : List Byte) : Outcome (Bool × List Byte × Int) := do
  let (g, ts) ← parseArgs [32, 59] [.expect [118, 97, 114], .text name, .expect [58], .iexpect [73, 110, 116, 101, 103, 101, 114], .expect [61], .int value] data
  match ts with
  | [_, .text name, _, _, _, .int value] => ok (g, name, value)
  | _ => ub

/-- `temperature=+123.456;name=rumpelstilzchen` (1002-1024), for any limits. -/
def temperature (low hi t : Real.Val) (first last name : List Byte) (data : List Byte) : Outcome (Bool × Real.Val × List Byte) := do
  let (g, ts) ← parseArgs [61, 59] [.expect [116, 101, 109, 112, 101, 114, 97, 116, 117, 114, 101], .dblRange low hi t, .expect [110, 97, 109, 101],
    .textRange first last name] data
  match ts with
  | [_, .dblRange _ _ t, _, .textRange _ _ name] => ok (g, t, name)
  | _ => ub

/-- `****abc123****,****abc123****,****abc123****` (1026-1046). -/
def trimming (s0 s1 s2 : List Byte) (data : List Byte) : Outcome (Bool × List Byte × List Byte × List Byte) := do
  let (g, ts) ← parseArgs [44] [.trimText 0 [42] s0, .trimText 1 [42] s1, .trimText 2 [42] s2] data
  match ts with
  | [.trimText _ _ s0, .trimText _ _ s1, .trimText _ _ s2] => ok (g, s0, s1, s2)
  | _ => ub

/-- `*?*?a string*?*?,*?*123456,123.456?*?*?` (1048-1068). -/
def trimmingValues (s : List Byte) (i : Int) (d : Real.Val) (data : List Byte) : Outcome (Bool × List Byte × Int × Real.Val) := do
  let (g, ts) ← parseArgs [44] [.trimText 0 [42, 63] s, .trimInt 1 [63, 42] i, .trimDbl 2 [42, 63] d] data
  match ts with
  | [.trimText _ _ s, .trimInt _ _ i, .trimDbl _ _ d] => ok (g, s, i, d)
  | _ => ub

/-- `AbCd,EfGhI` (1070-1087). -/
def casing (s0 s1 : List Byte) (data : List Byte) : Outcome (Bool × List Byte × List Byte) := do
  let (g, ts) ← parseArgs [44] [.lcase s0, .ucase s1] data
  match ts with
  | [.lcase s0, .ucase s1] => ok (g, s0, s1)
  | _ => ub

/-! ## Specification -/

/-- The value is a number in the range, limits included, or `nan`, which compares with nothing. -/
def InRange (low hi : ℚ) : Real.Val → Prop
  | .num q => low ≤ q ∧ q ≤ hi
  | .inf _ => False
  | .nan => True

/-! ## Proofs -/

/-- The targets take the fields one by one. -/
inductive ArgsTaken : List Arg → List (List Byte) → List Arg → Prop
  | nil : ArgsTaken [] [] []
  | cons {t v : Arg} {w : List Byte} {ts vs : List Arg} {ws : List (List Byte)} : t.conv w = ok (true, v) → ArgsTaken ts ws vs → ArgsTaken (t :: ts) (w :: ws) (v :: vs)

theorem convertAll_taken : ∀ (ts vs : List Arg) (ws : List (List Byte)), ts.length = ws.length →
    (convertAll (ts.map fun _ w (t : Arg) => t.conv w) ts ws = ok (true, vs) ↔ ArgsTaken ts ws vs) := by
  intro ts
  induction ts with
  | nil =>
    intro vs ws h
    cases ws with
    | nil =>
      simp only [List.map_nil, convertAll]
      constructor
      · intro h; cases h; exact .nil
      · intro h; cases h; rfl
    | cons w ws => simp at h
  | cons t ts ih =>
    intro vs ws h
    cases ws with
    | nil => simp at h
    | cons w ws =>
      rw [List.map_cons, convertAll]
      constructor
      · intro hc
        obtain ⟨⟨g, v⟩, h1, h2⟩ := bind_eq_ok.mp hc
        cases g with
        | false => simp at h2
        | true =>
          simp only [if_true] at h2
          obtain ⟨⟨g2, v2⟩, h3, h4⟩ := bind_eq_ok.mp h2
          have := Outcome.ok.inj h4
          simp only [Prod.mk.injEq] at this
          obtain ⟨rfl, rfl⟩ := this
          exact .cons h1 ((ih v2 ws (by simpa using h)).mp h3)
      · intro hc
        cases hc with
        | cons h1 h2 =>
          rw [h1, ok_bind]
          simp only [if_true]
          rw [(ih _ ws (by simpa using h)).mpr h2, ok_bind]

/-- `parse` succeeds with any list of such targets exactly if there are enough fields and each target takes its field. -/
theorem parseArgs_iff (delims s : List Byte) (ts vs : List Arg) :
    parseArgs delims ts s = ok (true, vs) ↔ ∃ ws rest, fields delims s = ws ++ rest ∧ ArgsTaken ts ws vs := by
  unfold parseArgs parse
  rw [List.length_map]
  obtain ⟨r, e1, e2⟩ := splitN_fields delims s ts.length
  rw [e1, ok_bind]
  simp only
  by_cases hn : ts.length ≤ (fields delims s).length
  · rw [if_neg (by omega), e2]
    have hl : ts.length = ((fields delims s).take ts.length).length := by simp; omega
    rw [convertAll_taken ts vs _ hl]
    constructor
    · intro h; exact ⟨_, (fields delims s).drop ts.length, (List.take_append_drop _ _).symm, h⟩
    · rintro ⟨ws, rest, h1, h2⟩
      have hlen : ts.length = ws.length := by
        clear h1 hl e1 e2 hn
        induction h2 with
        | nil => rfl
        | cons _ _ ih => simp [ih]
      rw [h1, hlen, List.take_left]
      exact h2
  · rw [if_pos (by omega)]
    constructor
    · intro h; cases h
    · rintro ⟨ws, rest, h1, h2⟩
      have hlen : ts.length = ws.length := by
        clear h1 e1 e2 hn
        induction h2 with
        | nil => rfl
        | cons _ _ ih => simp [ih]
      rw [h1] at hn
      simp at hn
      omega

theorem expect_iff (s w : List Byte) (v : Arg) : Arg.conv w (.expect s) = ok (true, v) ↔ w = s ∧ v = .expect s := by
  rw [Arg.conv, C70_expect, ok_bind]
  simp [eq_comm]

theorem iexpect_iff (s w : List Byte) (hs : ∀ c ∈ s, c.toNat < 128) (hw : ∀ c ∈ w, c.toNat < 128) (v : Arg) :
    Arg.conv w (.iexpect s) = ok (true, v) ↔ w.map Find.asciiUpper = s.map Find.asciiUpper ∧ v = .iexpect s := by
  rw [Arg.conv, C70_iexpect_partial s w hs hw, ok_bind]
  simp [eq_comm]

theorem int_iff (w : List Byte) (i : Int) (v : Arg) :
    Arg.conv w (.int i) = ok (true, v) ↔ ∃ n, SNumeral w n ∧ -2 ^ 31 < n ∧ n < 2 ^ 31 ∧ v = .int n := by
  rw [Arg.conv]
  have h : (∀ v, SNumeral w v → -2 ^ 31 < v → v < 2 ^ 31 → parseSigned Number.int w i = ok (true, v)) ∧
      ((∀ v, SNumeral w v → v < -2 ^ 31 ∨ 2 ^ 31 ≤ v) → parseSigned Number.int w i = ok (false, i)) := C29_signed_partial Number.int (Or.inl rfl) w i
  have h3 : SNumeral w (-2 ^ 31) → parseSigned Number.int w i = ub := C29_least_value_overflows Number.int (Or.inl rfl) w i
  constructor
  · intro hc
    obtain ⟨⟨g, n⟩, h1, h2⟩ := bind_eq_ok.mp hc
    have := Outcome.ok.inj h2
    simp only [Prod.mk.injEq] at this
    obtain ⟨rfl, rfl⟩ := this
    by_contra hno
    by_cases hm : SNumeral w (-2 ^ 31)
    · rw [h3 hm] at h1; cases h1
    by_cases hbad : ∀ v, SNumeral w v → v < -2 ^ 31 ∨ 2 ^ 31 ≤ v
    · have := h.2 hbad
      rw [this] at h1
      cases h1
    · rw [not_forall] at hbad
      obtain ⟨n', hn'⟩ := hbad
      rw [Classical.not_imp] at hn'
      have hne : n' ≠ -2 ^ 31 := by rintro rfl; exact hm hn'.1
      have := h.1 n' hn'.1 (by omega) (by omega)
      rw [this] at h1
      have := Outcome.ok.inj h1
      simp only [Prod.mk.injEq] at this
      exact hno ⟨n', hn'.1, by omega, by omega, by rw [this.2]⟩
  · rintro ⟨n, h1, h2, h4, rfl⟩
    rw [h.1 n h1 h2 h4, ok_bind]

theorem inRange_iff (low hi : ℚ) (v : Real.Val) : InRange low hi v ↔ doubleLt v (.num low) = false ∧ doubleLt (.num hi) v = false := by
  cases v with
  | num q => simp [InRange, doubleLt]
  | inf neg => cases neg <;> simp [InRange, doubleLt]
  | nan => simp [InRange, doubleLt]

theorem dblRange_iff (low hi : ℚ) (t : Real.Val) (w : List Byte) (v : Arg) :
    Arg.conv w (.dblRange (.num low) (.num hi) t) = ok (true, v) ↔
      ∃ x, Real.realParse Real.ieee Real.doubleMin w = ok (some x) ∧ InRange low hi x ∧ v = .dblRange (.num low) (.num hi) x := by
  rw [Arg.conv]
  simp only [inRange_iff]
  cases hr : Real.realParse Real.ieee Real.doubleMin w with
  | ok r =>
    rw [ok_bind]
    cases r with
    | none => simp [inrange]
    | some x =>
      simp only [inrange]
      constructor
      · intro h
        cases h1 : doubleLt x (.num low) <;> cases h2 : doubleLt (.num hi) x <;> rw [h1] at h <;> simp [h2] at h
        exact ⟨x, rfl, ⟨h1, h2⟩, h.symm⟩
      · rintro ⟨y, hy, ⟨h1, h2⟩, rfl⟩
        have := Option.some.inj (Outcome.ok.inj hy)
        subst this
        simp [h1, h2]
  | ub => simp [ub_bind]
  | thrown => simp
  | diverge => simp

theorem textRange_iff (low hi t : List Byte) (w : List Byte) (v : Arg) :
    Arg.conv w (.textRange low hi t) = ok (true, v) ↔ low.map BitVec.toNat ≤ w.map BitVec.toNat ∧ w.map BitVec.toNat ≤ hi.map BitVec.toNat ∧ v = .textRange low hi w := by
  rw [Arg.conv]
  unfold stringLt
  simp only [inrange]
  by_cases h1 : w.map BitVec.toNat < low.map BitVec.toNat
  · simp [h1]
  · by_cases h2 : hi.map BitVec.toNat < w.map BitVec.toNat
    · simp [h1, h2]
    · simp only [h1, h2, decide_false, Bool.false_eq_true, if_false, not_lt.mp h1, not_lt.mp h2, true_and, Outcome.ok.injEq, Prod.mk.injEq]
      exact eq_comm

/-- Which of the targets it is. -/
def Arg.kind : Arg → Nat
  | .text _ => 0 | .int _ => 1 | .dbl _ => 2 | .expect _ => 3 | .iexpect _ => 4 | .like _ => 5 | .dblRange _ _ _ => 6 | .textRange _ _ _ => 7
  | .trimText _ _ _ => 8 | .trimInt _ _ _ => 9 | .trimDbl _ _ _ => 10 | .lcase _ => 11 | .ucase _ => 12

theorem conv_kind (w : List Byte) (t v : Arg) (g : Bool) (h : t.conv w = ok (g, v)) : v.kind = t.kind := by
  cases t <;> rw [Arg.conv] at h
  case text => cases h; rfl
  case lcase => have := Outcome.ok.inj h; simp only [Prod.mk.injEq] at this; rw [← this.2]; rfl
  case ucase => have := Outcome.ok.inj h; simp only [Prod.mk.injEq] at this; rw [← this.2]; rfl
  case textRange => have := Outcome.ok.inj h; simp only [Prod.mk.injEq] at this; rw [← this.2]; rfl
  all_goals
    obtain ⟨a, _, h2⟩ := bind_eq_ok.mp h
    have := Outcome.ok.inj h2
    simp only [Prod.mk.injEq] at this
    obtain ⟨_, rfl⟩ := this
    rfl

theorem convertAll_kind : ∀ (ts vs : List Arg) (ws : List (List Byte)) (g : Bool),
    convertAll (ts.map fun _ w (t : Arg) => t.conv w) ts ws = ok (g, vs) → vs.map Arg.kind = ts.map Arg.kind := by
  intro ts
  induction ts with
  | nil => intro vs ws g h; cases h; rfl
  | cons t ts ih =>
    intro vs ws g h
    cases ws with
    | nil => cases h
    | cons w ws =>
      rw [List.map_cons, convertAll] at h
      obtain ⟨⟨g1, v⟩, h1, h2⟩ := bind_eq_ok.mp h
      cases g1 with
      | false =>
        have := Outcome.ok.inj h2
        simp only [Prod.mk.injEq] at this
        rw [← this.2, List.map_cons, List.map_cons, conv_kind w t v _ h1]
      | true =>
        simp only [if_true] at h2
        obtain ⟨⟨g2, v2⟩, h3, h4⟩ := bind_eq_ok.mp h2
        have := Outcome.ok.inj h4
        simp only [Prod.mk.injEq] at this
        rw [← this.2, List.map_cons, List.map_cons, conv_kind w t v _ h1, ih v2 ws g2 h3]

theorem parseArgs_kind (delims s : List Byte) (ts vs : List Arg) (g : Bool) (h : parseArgs delims ts s = ok (g, vs)) : vs.map Arg.kind = ts.map Arg.kind := by
  unfold parseArgs parse at h
  rw [List.length_map] at h
  obtain ⟨r, e1, e2⟩ := splitN_fields delims s ts.length
  rw [e1, ok_bind] at h
  simp only at h
  split at h
  · cases h; rfl
  · exact convertAll_kind _ _ _ _ h

theorem convertAll_total : ∀ (ts : List Arg) (ws : List (List Byte)), ts.length ≤ ws.length → (∀ t ∈ ts, ∀ w ∈ ws, ∃ r, t.conv w = ok r) →
    ∃ r, convertAll (ts.map fun _ w (t : Arg) => t.conv w) ts ws = ok r := by
  intro ts
  induction ts with
  | nil => intro ws _ _; exact ⟨_, rfl⟩
  | cons t ts ih =>
    intro ws hl h
    cases ws with
    | nil => simp at hl
    | cons w ws =>
      obtain ⟨⟨g, v⟩, h1⟩ := h t (by simp) w (by simp)
      obtain ⟨⟨g2, vs⟩, h2⟩ := ih ws (by simpa using hl) (fun t ht w hw => h t (by simp [ht]) w (by simp [hw]))
      rw [List.map_cons, convertAll, h1, ok_bind]
      cases g with
      | false => exact ⟨_, rfl⟩
      | true => simp only [if_true]; rw [h2, ok_bind]; exact ⟨_, rfl⟩

theorem parseArgs_total (delims s : List Byte) (ts : List Arg) (h : ∀ t ∈ ts, ∀ w ∈ fields delims s, ∃ r, t.conv w = ok r) :
    ∃ r, parseArgs delims ts s = ok r := by
  unfold parseArgs parse
  rw [List.length_map]
  obtain ⟨r, e1, e2⟩ := splitN_fields delims s ts.length
  rw [e1, ok_bind]
  simp only
  split
  · exact ⟨_, rfl⟩
  · rw [e2]
    exact convertAll_total ts _ (by simp; omega) (fun t ht w hw => h t ht w (List.mem_of_mem_take hw))

theorem collapseRuns_subset (d : Byte → Bool) : ∀ s : List Byte, ∀ c ∈ collapseRuns d s, c ∈ s
  | [], c, h => by simp [collapseRuns] at h
  | [a], c, h => by simpa [collapseRuns] using h
  | a :: b :: t, c, h => by
    rw [collapseRuns] at h
    split at h
    · exact List.mem_cons_of_mem _ (collapseRuns_subset d (b :: t) c h)
    · rcases List.mem_cons.mp h with rfl | h
      · simp
      · exact List.mem_cons_of_mem _ (collapseRuns_subset d (b :: t) c h)

theorem splitOnP_subset (p : Byte → Bool) : ∀ s : List Byte, ∀ w ∈ s.splitOnP p, ∀ c ∈ w, c ∈ s := by
  intro s
  induction s with
  | nil => intro w hw c hc; simp at hw; subst hw; simp at hc
  | cons a s ih =>
    intro w hw c hc
    rw [List.splitOnP_cons] at hw
    split at hw
    · rcases List.mem_cons.mp hw with rfl | hw
      · simp at hc
      · exact List.mem_cons_of_mem _ (ih w hw c hc)
    · cases hs : s.splitOnP p with
      | nil => rw [hs] at hw; simp at hw
      | cons x xs =>
        rw [hs, List.modifyHead_cons] at hw
        rcases List.mem_cons.mp hw with rfl | hw
        · rcases List.mem_cons.mp hc with rfl | hc
          · simp
          · exact List.mem_cons_of_mem _ (ih x (by rw [hs]; simp) c hc)
        · exact List.mem_cons_of_mem _ (ih w (by rw [hs]; simp [hw]) c hc)

/-- A field consists of characters of the text. -/
theorem fields_subset (delims s : List Byte) (w : List Byte) (hw : w ∈ fields delims s) (c : Byte) (hc : c ∈ w) : c ∈ s := by
  unfold fields at hw
  split at hw
  · simp at hw
  · exact collapseRuns_subset _ s c (splitOnP_subset _ _ w hw c hc)

/-- **C163**: the declaration is recognised exactly if the line begins with `var`, a name, a colon, the word `Integer` in any case, an equals sign and
an integer, separated by runs of blanks and semicolons; then the name and the integer are stored. -/
theorem C163_declaration (name name' : List Byte) (value value' : Int) (data : List Byte) (hd : ∀ c ∈ data, c.toNat < 128) :
    declaration name value data = ok (true, name', value') ↔
      ∃ ty num rest, fields [32, 59] data = [118, 97, 114] :: name' :: [58] :: ty :: [61] :: num :: rest ∧
        ty.map Find.asciiUpper = [73, 78, 84, 69, 71, 69, 82] ∧ SNumeral num value' ∧ -2 ^ 31 < value' ∧ value' < 2 ^ 31 := by
  have hI : ([73, 110, 116, 101, 103, 101, 114] : List Byte).map Find.asciiUpper = [73, 78, 84, 69, 71, 69, 82] := by decide
  have ha : ∀ w ∈ fields [32, 59] data, ∀ c ∈ w, c.toNat < 128 := fun w hw c hc => hd c (fields_subset _ _ w hw c hc)
  unfold declaration
  constructor
  · intro h
    obtain ⟨⟨g, vs⟩, h1, h2⟩ := bind_eq_ok.mp h
    have hg : g = true := by
      simp only at h2
      split at h2
      · have := Outcome.ok.inj h2; simp only [Prod.mk.injEq] at this; exact this.1
      · cases h2
    subst hg
    obtain ⟨ws, rest, hf, ht⟩ := (parseArgs_iff _ _ _ _).mp h1
    cases ht with
    | cons a1 ht => cases ht with
      | cons a2 ht => cases ht with
        | cons a3 ht => cases ht with
          | cons a4 ht => cases ht with
            | cons a5 ht => cases ht with
              | cons a6 ht =>
                cases ht
                obtain ⟨rfl, rfl⟩ := (expect_iff _ _ _).mp a1
                cases a2
                obtain ⟨rfl, rfl⟩ := (expect_iff _ _ _).mp a3
                obtain ⟨a7, rfl⟩ := (iexpect_iff _ _ (by decide) (ha _ (by rw [hf]; simp)) _).mp a4
                obtain ⟨rfl, rfl⟩ := (expect_iff _ _ _).mp a5
                obtain ⟨n, b1, b2, b3, rfl⟩ := (int_iff _ _ _).mp a6
                simp only at h2
                have := Outcome.ok.inj h2
                simp only [Prod.mk.injEq, true_and] at this
                obtain ⟨rfl, rfl⟩ := this
                exact ⟨_, _, rest, hf, by rw [a7, hI], b1, b2, b3⟩
  · rintro ⟨ty, num, rest, hf, h1, h2, h3, h4⟩
    have := (parseArgs_iff [32, 59] data [.expect [118, 97, 114], .text name, .expect [58], .iexpect [73, 110, 116, 101, 103, 101, 114], .expect [61], .int value]
      [.expect [118, 97, 114], .text name', .expect [58], .iexpect [73, 110, 116, 101, 103, 101, 114], .expect [61], .int value']).mpr
      ⟨[[118, 97, 114], name', [58], ty, [61], num], rest, hf,
        .cons ((expect_iff _ _ _).mpr ⟨rfl, rfl⟩) (.cons rfl (.cons ((expect_iff _ _ _).mpr ⟨rfl, rfl⟩)
          (.cons ((iexpect_iff _ _ (by decide) (ha _ (by rw [hf]; simp)) _).mpr ⟨by rw [h1, hI], rfl⟩) (.cons ((expect_iff _ _ _).mpr ⟨rfl, rfl⟩)
            (.cons ((int_iff _ _ _).mpr ⟨value', h2, h3, h4, rfl⟩) .nil)))))⟩
    rw [this, ok_bind]

/-- **C163**: for any other line the call returns false, unless a field is the numeral of the least `int` (C29). -/
theorem C163_declaration_refused (name : List Byte) (value : Int) (data : List Byte) (hd : ∀ c ∈ data, c.toNat < 128)
    (hl : ∀ w ∈ fields [32, 59] data, ¬ SNumeral w (-2 ^ 31)) : ∃ g name' value', declaration name value data = ok (g, name', value') := by
  have ha : ∀ w ∈ fields [32, 59] data, ∀ c ∈ w, c.toNat < 128 := fun w hw c hc => hd c (fields_subset _ _ w hw c hc)
  unfold declaration
  obtain ⟨⟨g, vs⟩, hr⟩ := parseArgs_total [32, 59] data [.expect [118, 97, 114], .text name, .expect [58], .iexpect [73, 110, 116, 101, 103, 101, 114], .expect [61], .int value] (by
    intro t ht w hw
    have hexp : ∀ s, ∃ r, Arg.conv w (.expect s) = ok r := fun s => by rw [Arg.conv, C70_expect, ok_bind]; exact ⟨_, rfl⟩
    simp only [List.mem_cons, List.not_mem_nil, or_false] at ht
    rcases ht with rfl | rfl | rfl | rfl | rfl | rfl
    · exact hexp _
    · exact ⟨_, rfl⟩
    · exact hexp _
    · rw [Arg.conv, C70_iexpect_partial _ w (by decide) (ha w hw), ok_bind]; exact ⟨_, rfl⟩
    · exact hexp _
    · rw [Arg.conv]
      have h : (∀ v, SNumeral w v → -2 ^ 31 < v → v < 2 ^ 31 → parseSigned Number.int w value = ok (true, v)) ∧
          ((∀ v, SNumeral w v → v < -2 ^ 31 ∨ 2 ^ 31 ≤ v) → parseSigned Number.int w value = ok (false, value)) :=
        C29_signed_partial Number.int (Or.inl rfl) w value
      by_cases hb : ∀ v, SNumeral w v → v < -2 ^ 31 ∨ 2 ^ 31 ≤ v
      · rw [h.2 hb, ok_bind]; exact ⟨_, rfl⟩
      · rw [not_forall] at hb
        obtain ⟨n, hn⟩ := hb
        rw [Classical.not_imp] at hn
        have : n ≠ -2 ^ 31 := by rintro rfl; exact hl w hw hn.1
        rw [h.1 n hn.1 (by omega) (by omega), ok_bind]; exact ⟨_, rfl⟩)
  have hk := parseArgs_kind _ _ _ _ _ hr
  rw [hr, ok_bind]
  have hlen : vs.length = 6 := by simpa using congrArg List.length hk
  obtain ⟨v0, vs, rfl⟩ := List.exists_cons_of_length_eq_add_one hlen
  obtain ⟨v1, vs, rfl⟩ := List.exists_cons_of_length_eq_add_one (by simpa using hlen : vs.length = 4 + 1)
  obtain ⟨v2, vs, rfl⟩ := List.exists_cons_of_length_eq_add_one (by simpa using hlen : vs.length = 3 + 1)
  obtain ⟨v3, vs, rfl⟩ := List.exists_cons_of_length_eq_add_one (by simpa using hlen : vs.length = 2 + 1)
  obtain ⟨v4, vs, rfl⟩ := List.exists_cons_of_length_eq_add_one (by simpa using hlen : vs.length = 1 + 1)
  obtain ⟨v5, vs, rfl⟩ := List.exists_cons_of_length_eq_add_one (by simpa using hlen : vs.length = 0 + 1)
  have : vs = [] := List.length_eq_zero_iff.mp (by simpa using hlen)
  subst this
  simp only [List.map_cons, List.map_nil, List.cons.injEq] at hk
  obtain ⟨_, h1, _, _, _, h5, _⟩ := hk
  cases v1 with
  | text n =>
    cases v5 with
    | int v => exact ⟨_, _, _, rfl⟩
    | _ => simp [Arg.kind] at h5
  | _ => simp [Arg.kind] at h1

/-- **C163**: the temperature and the name are stored exactly if the text begins with the two keys, each followed by a value in its range. -/
theorem C163_temperature (low hi : ℚ) (t t' : Real.Val) (first last name name' data : List Byte) :
    temperature (.num low) (.num hi) t first last name data = ok (true, t', name') ↔
      ∃ num rest, fields [61, 59] data = [116, 101, 109, 112, 101, 114, 97, 116, 117, 114, 101] :: num :: [110, 97, 109, 101] :: name' :: rest ∧
        Real.realParse Real.ieee Real.doubleMin num = ok (some t') ∧ InRange low hi t' ∧
        first.map BitVec.toNat ≤ name'.map BitVec.toNat ∧ name'.map BitVec.toNat ≤ last.map BitVec.toNat := by
  unfold temperature
  constructor
  · intro h
    obtain ⟨⟨g, vs⟩, h1, h2⟩ := bind_eq_ok.mp h
    have hg : g = true := by
      simp only at h2
      split at h2
      · have := Outcome.ok.inj h2; simp only [Prod.mk.injEq] at this; exact this.1
      · cases h2
    subst hg
    obtain ⟨ws, rest, hf, ht⟩ := (parseArgs_iff _ _ _ _).mp h1
    cases ht with
    | cons a1 ht => cases ht with
      | cons a2 ht => cases ht with
        | cons a3 ht => cases ht with
          | cons a4 ht =>
            cases ht
            obtain ⟨rfl, rfl⟩ := (expect_iff _ _ _).mp a1
            obtain ⟨x, b1, b2, rfl⟩ := (dblRange_iff _ _ _ _ _).mp a2
            obtain ⟨rfl, rfl⟩ := (expect_iff _ _ _).mp a3
            obtain ⟨b3, b4, rfl⟩ := (textRange_iff _ _ _ _ _).mp a4
            simp only at h2
            have := Outcome.ok.inj h2
            simp only [Prod.mk.injEq, true_and] at this
            obtain ⟨rfl, rfl⟩ := this
            exact ⟨_, rest, hf, b1, b2, b3, b4⟩
  · rintro ⟨num, rest, hf, h1, h2, h3, h4⟩
    have := (parseArgs_iff [61, 59] data [.expect [116, 101, 109, 112, 101, 114, 97, 116, 117, 114, 101], .dblRange (.num low) (.num hi) t, .expect [110, 97, 109, 101], .textRange first last name]
      [.expect [116, 101, 109, 112, 101, 114, 97, 116, 117, 114, 101], .dblRange (.num low) (.num hi) t', .expect [110, 97, 109, 101], .textRange first last name']).mpr
      ⟨[_, num, _, name'], rest, hf, .cons ((expect_iff _ _ _).mpr ⟨rfl, rfl⟩) (.cons ((dblRange_iff _ _ _ _ _).mpr ⟨t', h1, h2, rfl⟩)
        (.cons ((expect_iff _ _ _).mpr ⟨rfl, rfl⟩) (.cons ((textRange_iff _ _ _ _ _).mpr ⟨h3, h4, rfl⟩) .nil)))⟩
    rw [this, ok_bind]

/-- **C163** (negative result): `nan` is in every range. -/
theorem C163_temperature_nan (low hi : ℚ) (t : Real.Val) (name : List Byte) :
    temperature (.num low) (.num hi) t [97, 97, 97] [122, 122, 122] name
      [116, 101, 109, 112, 101, 114, 97, 116, 117, 114, 101, 61, 110, 97, 110, 59, 110, 97, 109, 101, 61, 98, 111, 98] = ok (true, .nan, [98, 111, 98]) := by
  rw [C163_temperature]
  refine ⟨[110, 97, 110], [], by decide +kernel, rfl, trivial, by decide, by decide⟩

/-- **C163**: three fields are stored without the stars on both sides, in front, and behind; fewer are refused.  Missing: a last field of nothing but
stars, which keeps one (C93). -/
theorem C163_trimming_partial (s0 s1 s2 data : List Byte) :
    (∀ a b c rest, fields [44] data = a :: b :: c :: rest → (c = [] ∨ ∃ x ∈ c, x ≠ 42) →
      trimming s0 s1 s2 data = ok (true, stripRight [42] (stripLeft [42] a), stripLeft [42] b, stripRight [42] c)) ∧
    ((fields [44] data).length < 3 → trimming s0 s1 s2 data = ok (false, s0, s1, s2)) := by
  unfold trimming
  constructor
  · intro a b c rest hf hc
    have h1 := (C93_trim_string_partial [42] a).1
    have h2 := (C93_trim_string_partial [42] b).2.1
    have h3 := (C93_trim_string_partial [42] c).2.2 (by simpa using hc)
    have := (parseArgs_iff [44] data [.trimText 0 [42] s0, .trimText 1 [42] s1, .trimText 2 [42] s2]
      [.trimText 0 [42] (stripRight [42] (stripLeft [42] a)), .trimText 1 [42] (stripLeft [42] b), .trimText 2 [42] (stripRight [42] c)]).mpr
      ⟨[a, b, c], rest, hf, .cons (by rw [Arg.conv, h1, ok_bind]) (.cons (by rw [Arg.conv, h2, ok_bind]) (.cons (by rw [Arg.conv, h3, ok_bind]) .nil))⟩
    rw [this, ok_bind]
  · intro h
    unfold parseArgs
    rw [C33_too_few_fields _ _ _ _ (by simpa using h), ok_bind]

/-- **C163**: two fields are stored in lower and in upper case; fewer are refused. -/
theorem C163_casing (s0 s1 data : List Byte) :
    (∀ a b rest, fields [44] data = a :: b :: rest →
      casing s0 s1 data = ok (true, a.map fun c => if 65 ≤ c.toNat ∧ c.toNat ≤ 90 then c + 32 else c, b.map fun c => if 97 ≤ c.toNat ∧ c.toNat ≤ 122 then c - 32 else c)) ∧
    ((fields [44] data).length < 2 → casing s0 s1 data = ok (false, s0, s1)) := by
  unfold casing
  constructor
  · intro a b rest hf
    have := (parseArgs_iff [44] data [.lcase s0, .ucase s1] [.lcase _, .ucase _]).mpr
      ⟨[a, b], rest, hf, .cons (by rw [Arg.conv, (C93_case a).1]) (.cons (by rw [Arg.conv, (C93_case b).2]) .nil)⟩
    rw [this, ok_bind]
  · intro h
    unfold parseArgs
    rw [C33_too_few_fields _ _ _ _ (by simpa using h), ok_bind]

/-- **C163**: a text, an integer and a floating-point number are converted without the characters around them. -/
theorem C163_trimming_values_partial (s : List Byte) (i n : Int) (d x : Real.Val) (data a b c : List Byte) (rest : List (List Byte))
    (hf : fields [44] data = a :: b :: c :: rest) (hc : c = [] ∨ ∃ y ∈ c, y ≠ 42 ∧ y ≠ 63) (hb : SNumeral (stripLeft [63, 42] b) n) (h1 : -2 ^ 31 < n) (h2 : n < 2 ^ 31)
    (hx : Real.realParse Real.ieee Real.doubleMin (stripRight [42, 63] c) = ok (some x)) :
    trimmingValues s i d data = ok (true, stripRight [42, 63] (stripLeft [42, 63] a), n, x) := by
  unfold trimmingValues
  have g1 := (C93_trim_string_partial [42, 63] a).1
  have g2 := (trimText_eq [63, 42] b).2.1
  have g3 := (trimText_eq [42, 63] c).2.2 (by simpa using hc)
  have g4 : parseSigned Number.int (stripLeft [63, 42] b) i = ok (true, n) := (C29_signed_partial Number.int (Or.inl rfl) _ i).1 n hb h1 h2
  have := (parseArgs_iff [44] data [.trimText 0 [42, 63] s, .trimInt 1 [63, 42] i, .trimDbl 2 [42, 63] d]
    [.trimText 0 [42, 63] (stripRight [42, 63] (stripLeft [42, 63] a)), .trimInt 1 [63, 42] n, .trimDbl 2 [42, 63] x]).mpr
    ⟨[a, b, c], rest, hf, .cons (by rw [Arg.conv, g1, ok_bind]) (.cons (by rw [Arg.conv, trimmed, g2, ok_bind]; simp only; rw [g4, ok_bind])
      (.cons (by rw [Arg.conv, trimmed, g3, ok_bind]; simp only; rw [hx, ok_bind]; rfl) .nil))⟩
  rw [this, ok_bind]

/-- Non-vacuity: `var foo : InTeGeR = 3;`. -/
example : declaration [] 0 [118, 97, 114, 32, 102, 111, 111, 32, 58, 32, 73, 110, 84, 101, 71, 101, 82, 32, 61, 32, 51, 59] = ok (true, [102, 111, 111], 3) := by
  rw [C163_declaration _ _ _ _ _ (by decide)]
  exact ⟨[73, 110, 84, 101, 71, 101, 82], [51], [[]], by decide +kernel, by decide, ⟨[51], ⟨by simp, by decide⟩, Or.inl ⟨Or.inl rfl, by decide⟩⟩, by norm_num, by norm_num⟩

/-- Non-vacuity: `**a**,**b**,**c**` and `AbCd,EfG`. -/
example : trimming [] [] [] [42, 97, 42, 44, 42, 98, 42, 44, 42, 99, 42] = ok (true, [97], [98, 42], [42, 99]) ∧
    casing [] [] [65, 98, 44, 69, 102] = ok (true, [97, 98], [69, 70]) := by
  constructor
  · exact (C163_trimming_partial [] [] [] _).1 [42, 97, 42] [42, 98, 42] [42, 99, 42] [] (by decide +kernel) (Or.inr ⟨99, by simp, by decide⟩)
  · exact (C163_casing [] [] _).1 [65, 98] [69, 102] [] (by decide +kernel)

end Strtk.Programs
