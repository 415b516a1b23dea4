import Verif.Real.Model

/-! # The macros strtk_use_lut and strtk_enable_superscalar in the conversion to reals (strtk.hpp 16669-16703, 17524-17533, 17636-17696), C122

`Verif/Real/Model.lean` models the build without them. Here the two places that change are parametrised; everything else is the same text. -/

namespace Strtk.Real
open Outcome Mem Number

/-- The macros defined in a build. -/
structure Build where
  lut : Bool
  superscalar : Bool

/-- `details::digit_table` (16669-16703). -/
def digitTable : List Nat :=
  [0xFF, 0xFF, 0xFF, 0xFF, 0xFF, 0xFF, 0xFF, 0xFF, 0xFF, 0xFF, 0xFF, 0xFF, 0xFF, 0xFF, 0xFF, 0xFF,
   0xFF, 0xFF, 0xFF, 0xFF, 0xFF, 0xFF, 0xFF, 0xFF, 0xFF, 0xFF, 0xFF, 0xFF, 0xFF, 0xFF, 0xFF, 0xFF,
   0xFF, 0xFF, 0xFF, 0xFF, 0xFF, 0xFF, 0xFF, 0xFF, 0xFF, 0xFF, 0xFF, 0xFF, 0xFF, 0xFF, 0xFF, 0xFF,
   0x00, 0x01, 0x02, 0x03, 0x04, 0x05, 0x06, 0x07, 0x08, 0x09, 0xFF, 0xFF, 0xFF, 0xFF, 0xFF, 0xFF] ++ List.replicate 192 0xFF

/-- The value of a digit: `details::digit_table[(int)*itr]` with the table (17527, 17639, 17642; a negative index for a `char` from 0x80 on),
`*itr - '0'` without (17531, 17647, 17650). -/
def digitV (b : Build) (c : Byte) : Outcome Nat :=
  if b.lut then (if c.toInt < 0 then ub else deref digitTable c.toInt.toNat) else ok (digitOf c)

/-- The number of `parse_digit_1` before the `parse_digit_2` in the loop of the integer part (17664-17670). -/
def intUnroll (b : Build) : Nat := if b.superscalar then 4 else 2

/-- The same in the loop of the fraction (17688-17695). -/
def fracUnroll (b : Build) : Nat := if b.superscalar then 5 else 2

/-- `digitLoop` with `u` times `parse_digit_1` before `parse_digit_2`. -/
def digitLoopV {R : Type} (b : Build) (u : Nat) (o : Ops R) : Nat → List Byte → R → Outcome (R × List Byte)
  | k, [], d => if k = 0 then ok (d, []) else ub
  | k, c :: t, d => do
    let x ← digitV b c
    if x < 10 then
      if k < u then if t = [] then ok (o.step d x, t) else digitLoopV b u o (k + 1) t (o.step d x)
      else digitLoopV b u o 0 t (o.step d x)
    else ok (d, c :: t)

/-- `expSwitch` with the macro (17524-17541); the last digit does not use the table (17538). -/
def expSwitchV (b : Build) : Nat → List Byte → Int → Outcome (Bool × List Byte × Int)
  | 0, s, result => ok (true, s, result)
  | 1, s, result => do
    let c ← look s
    if 10 ≤ digitOf c then ok (false, s, result) else ok (true, s.tail, result * 10 + digitOf c)
  | n + 2, s, result => do
    let c ← look s
    let x ← digitV b c
    if x < 10 then expSwitchV b (n + 1) s.tail (result * 10 + x) else ok (false, s.tail, result)

/-- `expDigits` (17513-17554). -/
def expDigitsV (b : Build) (negative : Bool) (s : List Byte) : Outcome (Bool × List Byte × Int) := do
  let s := skipZeros s
  let r ← if s.length ≤ 4 then expSwitchV b s.length s 0 else ok (false, s, 0)
  ok (r.1, r.2.1, if negative then -r.2.2 else r.2.2)

/-- `parseExp` (17499-17555). -/
def parseExpV (b : Build) (s : List Byte) : Outcome (Bool × List Byte × Int) :=
  match s with
  | [] => ok (false, [], 0)
  | c :: t =>
    if c = 45 ∨ c = 43 then
      if t = [] then ok (false, [], 0) else expDigitsV b (c = 45) t
    else expDigitsV b false (c :: t)

/-- `afterMantissa` (17708-17776). -/
def afterMantissaV {R : Type} (b : Build) (o : Ops R) (minExp : Int) (negative instate : Bool) (d : R) (s : List Byte) : Outcome (Option R) :=
  match s with
  | [] => finish o minExp negative instate d 0 []
  | c :: t =>
    if c = 101 ∨ c = 69 then do
      let r ← parseExpV b t
      if r.1 then endAndFinish o minExp negative instate d r.2.2 c r.2.1
      else if r.2.1 = [] then ok none
      else do
        let c ← look r.2.1
        endAndFinish o minExp negative instate d r.2.2 c r.2.1
    else endAndFinish o minExp negative instate d 0 c (c :: t)

/-- `fraction` (17678-17776). -/
def fractionV {R : Type} (b : Build) (o : Ops R) (minExp : Int) (negative instate : Bool) (d : R) (s : List Byte) : Outcome (Option R) :=
  match s with
  | [] => afterMantissaV b o minExp negative instate d []
  | c :: t =>
    if c = 46 then do
      let r ← digitLoopV b (fracUnroll b) o 0 t o.zero
      if r.2.length ≠ t.length then do
        let f ← pow10 o minExp r.1 (negDistance (t.length - r.2.length))
        afterMantissaV b o minExp negative true (o.add d f) r.2
      else afterMantissaV b o minExp negative instate d r.2
    else afterMantissaV b o minExp negative instate d (c :: t)

/-- `intPart` (17634-17776). -/
def intPartV {R : Type} (b : Build) (o : Ops R) (minExp : Int) (negative : Bool) (s : List Byte) : Outcome (Option R) := do
  let c ← look s
  if c ≠ 46 then do
    let r ← digitLoopV b (intUnroll b) o 0 (skipZeros s) o.zero
    fractionV b o minExp negative (r.2.length ≠ s.length) r.1 r.2
  else fractionV b o minExp negative false o.zero s

/-- The conversion (17616-17777) in a build with the given macros. -/
def realParseV {R : Type} (b : Build) (o : Ops R) (minExp : Int) (s : List Byte) : Outcome (Option R) :=
  match s with
  | [] => ok none
  | c :: t =>
    if c = 45 ∨ c = 43 then
      if t = [] then ok none else intPartV b o minExp (c = 45) t
    else intPartV b o minExp false (c :: t)

/-! ## Proof -/

/-- A build and a character for which the macros do not matter. -/
def Plain (b : Build) (c : Byte) : Prop := b.lut = true → c.toNat < 128

theorem digitV_lut (c : Byte) (h : c.toNat < 128) :
    ∃ x, (if c.toInt < 0 then ub else deref digitTable c.toInt.toNat) = ok x ∧ (x < 10 ↔ digitOf c < 10) ∧ (x < 10 → x = digitOf c) := by
  have key : ∀ n : Fin 128, ∃ x, (if (BitVec.ofNat 8 n.val).toInt < 0 then ub else deref digitTable (BitVec.ofNat 8 n.val).toInt.toNat) = ok x ∧
      (x < 10 ↔ digitOf (BitVec.ofNat 8 n.val) < 10) ∧ (x < 10 → x = digitOf (BitVec.ofNat 8 n.val)) := by
    have h' : ∀ n : Fin 128, (match (if (BitVec.ofNat 8 n.val).toInt < 0 then ub else deref digitTable (BitVec.ofNat 8 n.val).toInt.toNat) with
        | ok x => decide ((x < 10 ↔ digitOf (BitVec.ofNat 8 n.val) < 10) ∧ (x < 10 → x = digitOf (BitVec.ofNat 8 n.val)))
        | _ => false) = true := by decide +kernel
    intro n
    have := h' n
    split at this
    · rename_i x e
      exact ⟨x, e, of_decide_eq_true this⟩
    · cases this
  have := key ⟨c.toNat, h⟩
  simpa using this

theorem digitV_plain {b : Build} {c : Byte} (h : Plain b c) : ∃ x, digitV b c = ok x ∧ (x < 10 ↔ digitOf c < 10) ∧ (x < 10 → x = digitOf c) := by
  unfold digitV
  split
  · rename_i hb
    exact digitV_lut c (h hb)
  · exact ⟨_, rfl, Iff.rfl, fun _ => rfl⟩

/-- The digit loop written without unrolling. -/
def plainLoop {R : Type} (o : Ops R) : List Byte → R → R × List Byte
  | [], d => (d, [])
  | c :: t, d => if digitOf c < 10 then plainLoop o t (o.step d (digitOf c)) else (d, c :: t)

theorem digitLoop_plain {R : Type} (o : Ops R) : ∀ (s : List Byte) (k : Nat) (d : R), k = 0 ∨ s ≠ [] → digitLoop o k s d = ok (plainLoop o s d) := by
  intro s
  induction s with
  | nil =>
    intro k d h
    have : k = 0 := by simpa using h
    simp [digitLoop, plainLoop, this]
  | cons c t ih =>
    intro k d _
    unfold digitLoop plainLoop
    split
    · split
      · split
        · rename_i ht
          subst ht; rfl
        · rename_i ht
          exact ih _ _ (Or.inr ht)
      · exact ih _ _ (Or.inl rfl)
    · rfl

theorem digitLoopV_plain {R : Type} (b : Build) (u : Nat) (o : Ops R) : ∀ (s : List Byte) (k : Nat) (d : R), (∀ c ∈ s, Plain b c) →
    k = 0 ∨ s ≠ [] → digitLoopV b u o k s d = ok (plainLoop o s d) := by
  intro s
  induction s with
  | nil =>
    intro k d _ h
    have : k = 0 := by simpa using h
    simp [digitLoopV, plainLoop, this]
  | cons c t ih =>
    intro k d hp _
    obtain ⟨x, e, h1, h2⟩ := digitV_plain (hp c (by simp))
    have hp' : ∀ c ∈ t, Plain b c := fun c hc => hp c (by simp [hc])
    unfold digitLoopV plainLoop
    rw [e, ok_bind]
    by_cases hx : x < 10
    · rw [if_pos hx, if_pos (h1.mp hx), h2 hx]
      split
      · split
        · rename_i ht
          subst ht; rfl
        · rename_i ht
          exact ih _ _ hp' (Or.inr ht)
      · exact ih _ _ hp' (Or.inl rfl)
    · rw [if_neg hx, if_neg (fun h => hx (h1.mpr h))]

theorem digitLoopV_eq {R : Type} {b : Build} (u : Nat) (o : Ops R) {s : List Byte} (d : R) (h : ∀ c ∈ s, Plain b c) :
    digitLoopV b u o 0 s d = digitLoop o 0 s d := by
  rw [digitLoopV_plain b u o s 0 d h (Or.inl rfl), digitLoop_plain o s 0 d (Or.inl rfl)]

theorem plainLoop_subset {R : Type} (o : Ops R) : ∀ (s : List Byte) (d : R), ∀ c ∈ (plainLoop o s d).2, c ∈ s := by
  intro s
  induction s with
  | nil => intro d c h; simp [plainLoop] at h
  | cons a t ih =>
    intro d c h
    unfold plainLoop at h
    split at h
    · exact List.mem_cons_of_mem _ (ih _ c h)
    · exact h

theorem skipZeros_subset : ∀ (s : List Byte), ∀ c ∈ skipZeros s, c ∈ s := by
  intro s
  induction s with
  | nil => intro c h; simp [skipZeros] at h
  | cons a t ih =>
    intro c h
    unfold skipZeros at h
    split at h
    · exact List.mem_cons_of_mem _ (ih c h)
    · exact h

theorem expSwitchV_eq {b : Build} : ∀ (n : Nat) (s : List Byte) (r : Int), (∀ c ∈ s, Plain b c) → expSwitchV b n s r = expSwitch n s r := by
  intro n
  induction n with
  | zero => intro s r _; rfl
  | succ n ih =>
    intro s r h
    cases n with
    | zero => rfl
    | succ n =>
      cases s with
      | nil => rfl
      | cons c t =>
        obtain ⟨x, e, h1, h2⟩ := digitV_plain (h c (by simp))
        unfold expSwitchV expSwitch
        simp only [look, ok_bind, e, List.tail_cons]
        by_cases hx : x < 10
        · rw [if_pos hx, if_pos (h1.mp hx), h2 hx, ih _ _ fun c hc => h c (by simp [hc])]
        · rw [if_neg hx, if_neg (fun h => hx (h1.mpr h))]

theorem parseExpV_eq {b : Build} (s : List Byte) (h : ∀ c ∈ s, Plain b c) : parseExpV b s = parseExp s := by
  have hd : ∀ (neg : Bool) (t : List Byte), (∀ c ∈ t, Plain b c) → expDigitsV b neg t = expDigits neg t := by
    intro neg t ht
    unfold expDigitsV expDigits
    simp only [expSwitchV_eq _ _ _ fun c hc => ht c (skipZeros_subset t c hc)]
  unfold parseExpV parseExp
  cases s with
  | nil => rfl
  | cons c t =>
    simp only
    rw [hd _ t fun c hc => h c (by simp [hc]), hd _ (c :: t) h]

theorem afterMantissaV_eq {R : Type} {b : Build} (o : Ops R) (minExp : Int) (negative instate : Bool) (d : R) (s : List Byte) (h : ∀ c ∈ s, Plain b c) :
    afterMantissaV b o minExp negative instate d s = afterMantissa o minExp negative instate d s := by
  unfold afterMantissaV afterMantissa
  cases s with
  | nil => rfl
  | cons c t => simp only [parseExpV_eq t fun c hc => h c (by simp [hc])]

theorem fractionV_eq {R : Type} {b : Build} (o : Ops R) (minExp : Int) (negative instate : Bool) (d : R) (s : List Byte) (h : ∀ c ∈ s, Plain b c) :
    fractionV b o minExp negative instate d s = fraction o minExp negative instate d s := by
  unfold fractionV fraction
  cases s with
  | nil => rfl
  | cons c t =>
    have ht : ∀ c ∈ t, Plain b c := fun c hc => h c (by simp [hc])
    simp only
    rw [digitLoopV_eq _ o _ ht, digitLoop_plain o t 0 _ (Or.inl rfl)]
    simp only [ok_bind]
    have hr : ∀ c ∈ (plainLoop o t o.zero).2, Plain b c := fun c hc => ht c (plainLoop_subset o t _ c hc)
    simp only [afterMantissaV_eq o minExp _ _ _ _ hr, afterMantissaV_eq o minExp _ _ _ _ h]

theorem intPartV_eq {R : Type} {b : Build} (o : Ops R) (minExp : Int) (negative : Bool) (s : List Byte) (h : ∀ c ∈ s, Plain b c) :
    intPartV b o minExp negative s = intPart o minExp negative s := by
  unfold intPartV intPart
  have hz : ∀ c ∈ skipZeros s, Plain b c := fun c hc => h c (skipZeros_subset s c hc)
  rw [digitLoopV_eq _ o _ hz, digitLoop_plain o _ 0 _ (Or.inl rfl)]
  simp only [ok_bind]
  have hr : ∀ c ∈ (plainLoop o (skipZeros s) o.zero).2, Plain b c := fun c hc => hz c (plainLoop_subset o _ _ c hc)
  simp only [fractionV_eq o minExp _ _ _ _ hr, fractionV_eq o minExp _ _ _ _ h]

/-- In every build, for every text of 7-bit characters (every text at all, without `strtk_use_lut`), the conversion to a real does exactly the
same: the same verdict and the same value, computed by the same operations. -/
theorem C122_macros_partial {R : Type} (b : Build) (o : Ops R) (minExp : Int) (s : List Byte) (h : b.lut = true → ∀ c ∈ s, c.toNat < 128) :
    realParseV b o minExp s = realParseV ⟨false, false⟩ o minExp s ∧ realParseV b o minExp s = realParse o minExp s := by
  have key : ∀ b : Build, (∀ c ∈ s, Plain b c) → realParseV b o minExp s = realParse o minExp s := by
    intro b h
    unfold realParseV realParse
    cases s with
    | nil => rfl
    | cons c t =>
      simp only
      rw [intPartV_eq o minExp _ t fun c hc => h c (by simp [hc]), intPartV_eq o minExp _ (c :: t) h]
  have h1 := key b fun c hc hb => h hb c hc
  have h2 := key ⟨false, false⟩ fun c hc hb => by cases hb
  exact ⟨h1.trans h2.symm, h1⟩

/-- With `strtk_use_lut`, a text of digits followed by a character from 0x80 on reads in front of the table; without it the text is refused. -/
theorem C122_lut_high_byte {R : Type} (super : Bool) (o : Ops R) (minExp : Int) (ds : List Byte) (x : Byte) (rest : List Byte)
    (hds : ∀ c ∈ ds, 49 ≤ c.toNat ∧ c.toNat ≤ 57) (hx : 128 ≤ x.toNat) (h0 : ds ≠ []) :
    realParseV ⟨true, super⟩ o minExp (ds ++ x :: rest) = ub ∧ realParse o minExp (ds ++ x :: rest) = ok none := by
  have hxn : ∀ n : Nat, n < 128 → x ≠ BitVec.ofNat 8 n := by
    intro n hn e
    subst e
    simp at hx; omega
  have hloop : ∀ (l : List Byte) (k : Nat) (d : R), (∀ c ∈ l, 49 ≤ c.toNat ∧ c.toNat ≤ 57) →
      digitLoopV ⟨true, super⟩ (intUnroll ⟨true, super⟩) o k (l ++ x :: rest) d = ub := by
    intro l
    induction l with
    | nil =>
      intro k d _
      have : x.toInt < 0 := by rw [BitVec.toInt_eq_toNat_cond]; split <;> omega
      simp [digitLoopV, digitV, this]
    | cons c l ih =>
      intro k d hl
      obtain ⟨y, e, h1, h2⟩ := digitV_plain (b := ⟨true, super⟩) (c := c) (fun _ => by have := hl c (by simp); omega)
      rw [List.cons_append]
      unfold digitLoopV
      rw [e, ok_bind]
      have hne : l ++ x :: rest ≠ [] := by simp
      have hdig : digitOf c < 10 := by
        have := hl c (by simp)
        have key : ∀ n : Fin 256, 49 ≤ n.val → n.val ≤ 57 → digitOf (BitVec.ofNat 8 n.val) < 10 := by decide +kernel
        have := key ⟨c.toNat, c.isLt⟩ this.1 this.2
        simpa using this
      rw [if_pos (h1.mpr hdig)]
      split
      · first
          | rw [if_neg hne]
          | skip
        exact ih _ _ fun c hc => hl c (by simp [hc])
      · exact ih _ _ fun c hc => hl c (by simp [hc])
  have hplain : ∀ (l : List Byte) (d : R), (∀ c ∈ l, 49 ≤ c.toNat ∧ c.toNat ≤ 57) → (plainLoop o (l ++ x :: rest) d).2 = x :: rest := by
    intro l
    induction l with
    | nil =>
      intro d _
      have key : ∀ n : Fin 256, 128 ≤ n.val → ¬ digitOf (BitVec.ofNat 8 n.val) < 10 := by decide +kernel
      have := key ⟨x.toNat, x.isLt⟩ hx
      simp only [BitVec.ofNat_toNat, BitVec.setWidth_eq] at this
      simp only [List.nil_append, plainLoop, if_neg this]
    | cons c l ih =>
      intro d hl
      have hdig : digitOf c < 10 := by
        have := hl c (by simp)
        have key : ∀ n : Fin 256, 49 ≤ n.val → n.val ≤ 57 → digitOf (BitVec.ofNat 8 n.val) < 10 := by decide +kernel
        have := key ⟨c.toNat, c.isLt⟩ this.1 this.2
        simpa using this
      simp only [List.cons_append, plainLoop, if_pos hdig]
      exact ih _ fun c hc => hl c (by simp [hc])
  match ds, h0 with
  | c :: l, _ =>
    have hc := hds c (by simp)
    have hcn : ∀ n : Nat, n < 49 → c ≠ BitVec.ofNat 8 n := by
      intro n hn e
      subst e
      simp at hc; omega
    have e1 : c ≠ 45 := hcn 45 (by omega)
    have e2 : c ≠ 43 := hcn 43 (by omega)
    have e3 : c ≠ 46 := hcn 46 (by omega)
    have e4 : c ≠ 48 := hcn 48 (by omega)
    have hsk : skipZeros (c :: l ++ x :: rest) = c :: l ++ x :: rest := by
      rw [List.cons_append, skipZeros, if_neg e4]
    constructor
    · simp only [realParseV, List.cons_append]
      rw [if_neg (not_or.mpr ⟨e1, e2⟩)]
      have hl := hloop (c :: l) 0 o.zero hds
      rw [List.cons_append] at hsk hl
      unfold intPartV
      simp only [look, ok_bind]
      rw [if_pos e3, hsk, hl]
      rfl
    · simp only [realParse, List.cons_append]
      rw [if_neg (not_or.mpr ⟨e1, e2⟩)]
      have hl := hplain (c :: l) o.zero hds
      rw [List.cons_append] at hsk hl
      unfold intPart
      simp only [look, ok_bind]
      rw [if_pos e3, hsk, digitLoop_plain o _ 0 _ (Or.inl rfl), ok_bind, hl]
      have x1 : x ≠ 46 := hxn 46 (by omega)
      have x2 : x ≠ 101 := hxn 101 (by omega)
      have x3 : x ≠ 69 := hxn 69 (by omega)
      have x4 : x ≠ 102 := hxn 102 (by omega)
      have x5 : x ≠ 70 := hxn 70 (by omega)
      have x6 : x ≠ 108 := hxn 108 (by omega)
      have x7 : x ≠ 76 := hxn 76 (by omega)
      have x8 : x ≠ 35 := hxn 35 (by omega)
      unfold fraction
      simp only
      rw [if_neg x1]
      unfold afterMantissa
      simp only
      rw [if_neg (by simp only [not_or]; exact ⟨x2, x3⟩)]
      unfold endAndFinish
      rw [if_neg (by simp)]
      unfold ending
      rw [if_neg (by simp only [not_or]; exact ⟨x4, x5, x6, x7⟩), if_neg x8]
      unfold special
      simp only [look, ok_bind]
      rw [if_neg (by omega)]
      rfl

/-- Non-vacuity: an arithmetic over the natural numbers; "1234567.25e1" and "12\xFF". -/
def natOps : Ops Nat := ⟨0, fun d x => d * 10 + x, (· + ·), id, fun d e => d * 10 ^ e, fun d e => d / 10 ^ e, fun d _ => d, 0, 0⟩
example : realParseV ⟨true, true⟩ natOps doubleMin [49, 50, 51, 52, 53, 54, 55, 46, 50, 53, 101, 49] = ok (some 12345670) := by decide +kernel
example : (∀ c ∈ ([49, 50] : List Byte), 49 ≤ c.toNat ∧ c.toNat ≤ 57) ∧ 128 ≤ (0xFF : Byte).toNat ∧ ([49, 50] : List Byte) ≠ [] := by decide

end Strtk.Real
