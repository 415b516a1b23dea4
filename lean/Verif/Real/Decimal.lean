import Verif.Real.Value

/-!
# `decimal_sink` (strtk.hpp 15133-15238), C102

As for the other conversions, arithmetic is an argument `o : Ops R` and an iterator pair is the list of the remaining characters.
-/

namespace Strtk.Real
open Outcome Mem Number

/-- The loop over the digits before the point (15192-15203); the number counts `end_n - itr`. `none` is `return false`. -/
def decIntLoop {R : Type} (o : Ops R) : Nat → List Byte → R → Outcome (Option (R × List Byte))
  | 0, s, d => ok (some (d, s))
  | _ + 1, [], _ => ub
  | n + 1, c :: t, d =>
    if digitOf c < 10 then decIntLoop o n t (o.step d (digitOf c))
    else if c = 46 then ok (some (d, c :: t))
    else ok none

/-- The loop over the digits behind the point (15212-15221). -/
def decFracLoop {R : Type} (o : Ops R) : Nat → List Byte → R → Outcome (Option R)
  | 0, _, f => ok (some f)
  | _ + 1, [], _ => ub
  | n + 1, c :: t, f => if digitOf c < 10 then decFracLoop o n t (o.step f (digitOf c)) else ok none

/-- 15207-15230, `s` from behind the `++itr` on. -/
def decFrac {R : Type} (o : Ops R) (minExp : Int) (fracSize : Nat) (negative : Bool) (d : R) (s : List Byte) : Outcome (Option R) := do
  match ← decFracLoop o (min fracSize s.length) s o.zero with
  | none => ok none
  | some f =>
    if min fracSize s.length ≠ 0 then do
      let f ← pow10 o minExp f (negDistance (min fracSize s.length))
      ok (some (if negative then o.neg (o.add d f) else o.add d f))
    else ok (some (if negative then o.neg d else d))

/-- 15184-15230: `++itr` (15205) at the end of the token leaves it: `ub` here; `DecimalMem.lean` follows it into a surrounding text. -/
def decBody {R : Type} (o : Ops R) (minExp : Int) (intSize fracSize : Nat) (negative : Bool) (s : List Byte) : Outcome (Option R) := do
  match ← decIntLoop o (min (skipZeros s).length intSize) (skipZeros s) o.zero with
  | none => ok none
  | some (_, []) => ub
  | some (d, _ :: rest) => decFrac o minExp fracSize negative d rest

/-- `decimal_sink::operator()(itr, end)` (15168-15231) of a sink bound to a variable: the value stored, `none` for `false` (nothing stored). -/
def decimalSink {R : Type} (o : Ops R) (minExp : Int) (intSize fracSize : Nat) (s : List Byte) : Outcome (Option R) :=
  match s with
  | [] => ub
  | c :: t =>
    if c = 45 ∨ c = 43 then
      if t = [] then ok none else decBody o minExp intSize fracSize (c = 45) t
    else decBody o minExp intSize fracSize false (c :: t)

theorem digitOf_digit {c : Byte} (h : isDigit c) : digitOf c < 10 ∧ digitOf c = c.toNat - 48 := by
  revert h; revert c; decide +kernel

theorem digitOf_not {c : Byte} (h : ¬ isDigit c) : ¬ digitOf c < 10 := by
  revert h; revert c; decide +kernel

theorem decIntLoop_digits {R : Type} (o : Ops R) (ds : List Byte) : ∀ (n : Nat) (rest : List Byte) (d : R), (∀ c ∈ ds, isDigit c) →
    decIntLoop o (ds.length + n) (ds ++ rest) d = decIntLoop o n rest (horner o ds d) := by
  induction ds with
  | nil => intro n rest d _; simp [horner]
  | cons c ds ih =>
    intro n rest d h
    obtain ⟨h1, h2⟩ := digitOf_digit (h c (by simp))
    have e : (c :: ds).length + n = (ds.length + n) + 1 := by simp; omega
    rw [e, List.cons_append, decIntLoop, if_pos h1, ih n rest _ fun x hx => h x (by simp [hx]), h2]
    rfl

theorem decFracLoop_digits {R : Type} (o : Ops R) (ds : List Byte) : ∀ (n : Nat) (rest : List Byte) (d : R), (∀ c ∈ ds, isDigit c) →
    decFracLoop o (ds.length + n) (ds ++ rest) d = decFracLoop o n rest (horner o ds d) := by
  induction ds with
  | nil => intro n rest d _; simp [horner]
  | cons c ds ih =>
    intro n rest d h
    obtain ⟨h1, h2⟩ := digitOf_digit (h c (by simp))
    have e : (c :: ds).length + n = (ds.length + n) + 1 := by simp; omega
    rw [e, List.cons_append, decFracLoop, if_pos h1, ih n rest _ fun x hx => h x (by simp [hx]), h2]
    rfl

theorem decimalSink_sign {R : Type} (o : Ops R) (m : Int) (is fs : Nat) (sg : List Byte) (neg : Bool) (body : List Byte) (hs : Sign sg neg)
    (hb : body ≠ []) (hh : ∀ c t, body = c :: t → c ≠ 45 ∧ c ≠ 43) : decimalSink o m is fs (sg ++ body) = decBody o m is fs neg body := by
  obtain ⟨c, t, rfl⟩ := List.exists_cons_of_ne_nil hb
  obtain ⟨h1, h2⟩ := hh c t rfl
  rcases hs with ⟨rfl, rfl⟩ | ⟨rfl, rfl⟩ | ⟨rfl, rfl⟩
  · simp only [List.nil_append, decimalSink]
    rw [if_neg (by rintro (h | h); exacts [h1 h, h2 h])]
  · rfl
  · rfl

theorem point_stop (t : List Byte) : Stop (46 :: t) := by
  intro c t' h
  cases h
  decide

/-- The digits before the point have been read when the loop stops at the point. -/
theorem decIntLoop_point {R : Type} (o : Ops R) (ds t : List Byte) (is : Nat) (d : R) (hd : ∀ c ∈ ds, isDigit c) (hl : ds.length ≤ is) :
    decIntLoop o (min (ds ++ 46 :: t).length is) (ds ++ 46 :: t) d = ok (some (horner o ds d, 46 :: t)) := by
  have e : min (ds ++ 46 :: t).length is = ds.length + min (t.length + 1) (is - ds.length) := by
    simp only [List.length_append, List.length_cons]; omega
  rw [e, decIntLoop_digits o ds _ _ d hd]
  cases hn : min (t.length + 1) (is - ds.length) with
  | zero => rfl
  | succ n =>
    rw [decIntLoop, if_neg (by decide), if_pos rfl]

theorem decVal_skipZeros' (ds : List Byte) : decVal (skipZeros ds) = decVal ds := by
  induction ds with
  | nil => rfl
  | cons c ds ih =>
    unfold skipZeros
    by_cases h : c = 48
    · subst h
      rw [if_pos rfl, ih, decVal_cons]
      have : (48 : Byte).toNat - 48 = 0 := by decide
      rw [this]; omega
    · rw [if_neg h]

/-- **C102** (part): a number with a point whose part before it has, without leading zeros, at most `int_size` digits. The digits behind the
point that are read, `fd`, are the first `frac_size` ones, or all there are when the text ends before. What is stored is exactly the number
denoted (in exact arithmetic), for digit counts covered by the tables. Missing: texts without a point, see `C102_no_point`. -/
theorem C102_decimal_partial (m : Int) (is fs : Nat) (sg : List Byte) (neg : Bool) (ip fd rest : List Byte) (hs : Sign sg neg)
    (hip : ∀ c ∈ ip, isDigit c) (hlen : (skipZeros ip).length ≤ is) (hfd : ∀ c ∈ fd, isDigit c)
    (hcut : fd.length = fs ∨ (fd.length ≤ fs ∧ rest = [])) (hc : Covered m (-(fd.length : Int))) :
    decimalSink exact m is fs (sg ++ (ip ++ 46 :: (fd ++ rest))) =
      ok (some (.num ((if neg then -1 else 1) * (decVal ip + decVal fd / 10 ^ fd.length)))) := by
  rw [decimalSink_sign exact m is fs sg neg _ hs (by simp)]
  · unfold decBody
    have hz : ∀ c ∈ skipZeros ip, isDigit c := (digits_skipZeros ip).mpr hip
    rw [skipZeros_append ip _ (point_stop _) hip, decIntLoop_point exact _ _ is _ hz hlen, ok_bind]
    simp only
    have hmin : min fs (fd ++ rest).length = fd.length := by
      rcases hcut with h | ⟨h, rfl⟩
      · rw [List.length_append]; omega
      · rw [List.append_nil]; omega
    unfold decFrac
    have hh : decFracLoop exact fd.length (fd ++ rest) exact.zero = ok (some (horner exact fd exact.zero)) := by
      have := decFracLoop_digits exact fd 0 rest exact.zero hfd
      rwa [Nat.add_zero, decFracLoop] at this
    rw [hmin, hh, ok_bind]
    simp only
    have h1 : horner exact (skipZeros ip) exact.zero = .num (decVal ip) := by
      have := horner_exact (skipZeros ip) 0
      rw [decVal_skipZeros', zero_mul, zero_add] at this
      exact this
    have h2 : horner exact fd exact.zero = .num (decVal fd) := by
      have := horner_exact fd 0
      rw [zero_mul, zero_add] at this
      exact this
    rw [h1, h2]
    by_cases h0 : fd = []
    · subst h0
      rw [if_neg (by simp)]
      cases neg <;> simp [exact, decVal]
    · have hpos := List.length_pos_iff.mpr h0
      rw [if_pos (by omega), negDistance_small _ (by unfold Covered at hc; omega), pow10_exact m _ hc (by omega), ok_bind]
      cases neg <;> simp [exact, div_eq_mul_inv, add_comm]
  · intro c t h
    cases ip with
    | nil => cases h; decide
    | cons a ip =>
      cases h
      have := digit_props (hip c (by simp))
      exact ⟨this.1, this.2.1⟩

/-- Non-vacuity: "-12.345xyz" with two digits each is -12.34. -/
example : decimalSink exact doubleMin 2 2 [45, 49, 50, 46, 51, 52, 53, 120, 121, 122] = ok (some (.num (-(12 + 34 / 100)))) := by
  have := C102_decimal_partial doubleMin 2 2 [45] true [49, 50] [51, 52] [53, 120, 121, 122] (Or.inr (Or.inr ⟨rfl, rfl⟩)) (by decide) (by decide) (by decide) (Or.inl rfl)
    (Or.inl ⟨rfl, by decide, by decide⟩)
  rw [List.singleton_append] at this
  refine this.trans ?_
  have e1 : decVal [49, 50] = 12 := by decide
  have e2 : decVal [51, 52] = 34 := by decide
  rw [e1, e2]
  norm_num

/-- **C102** (negative result): for every number written without a point whose digits fit, the iterator is moved past the end of the text. -/
theorem C102_no_point {R : Type} (o : Ops R) (m : Int) (is fs : Nat) (sg : List Byte) (neg : Bool) (ip : List Byte) (hs : Sign sg neg)
    (hne : ip ≠ []) (hip : ∀ c ∈ ip, isDigit c) (hlen : (skipZeros ip).length ≤ is) : decimalSink o m is fs (sg ++ ip) = ub := by
  rw [decimalSink_sign o m is fs sg neg ip hs hne]
  · unfold decBody
    have hz : ∀ c ∈ skipZeros ip, isDigit c := (digits_skipZeros ip).mpr hip
    have := decIntLoop_digits o (skipZeros ip) 0 [] o.zero hz
    rw [Nat.add_zero, List.append_nil, decIntLoop] at this
    rw [Nat.min_eq_left hlen, this, ok_bind]
  · intro c t h
    subst h
    have := digit_props (hip c (by simp))
    exact ⟨this.1, this.2.1⟩

/-- Non-vacuity: "12" with two digits. -/
example : decimalSink exact doubleMin 2 2 [49, 50] = ub :=
  C102_no_point exact doubleMin 2 2 [] false [49, 50] (Or.inl ⟨rfl, rfl⟩) (by decide) (by decide) (by decide)

/-- **C102** (negative result): a part before the point with more than `int_size` digits is not refused: one character is skipped and the rest
taken as the fraction. "12345" with two digits each is 12.45. -/
theorem C102_skips_a_digit : decimalSink exact doubleMin 2 2 [49, 50, 51, 52, 53] = ok (some (.num (12 + 45 / 100))) := by
  have e : decimalSink exact doubleMin 2 2 [49, 50, 51, 52, 53] =
      (do let f ← pow10 exact doubleMin (.num ((0 * 10 + (4 : Nat)) * 10 + (5 : Nat))) (-2); ok (some (exact.add (.num ((0 * 10 + (1 : Nat)) * 10 + (2 : Nat))) f))) := by
    rfl
  rw [e, pow10_exact doubleMin (-2) (Or.inl ⟨rfl, by decide, by decide⟩) (by decide), ok_bind]
  simp only [exact]
  norm_num

/-- **C102**: whatever is stored, the text is one with a sign, digits, one arbitrary character (the point if the digits before it are fewer
than `int_size`) and digits; anything else is refused or undefined. -/
theorem C102_accepts_only {R : Type} (o : Ops R) (m : Int) (is fs : Nat) (s : List Byte) (v : R) (h : decimalSink o m is fs s = ok (some v)) :
    ∃ sg neg zs ip c fd rest, Sign sg neg ∧ s = sg ++ (zs ++ (ip ++ c :: (fd ++ rest))) ∧ (∀ x ∈ zs, x = 48) ∧ (∀ x ∈ ip, isDigit x) ∧
      (∀ x ∈ fd, isDigit x) ∧ ip.length ≤ is ∧ (c = 46 ∨ ip.length = is) ∧ (fd.length = fs ∨ (fd.length ≤ fs ∧ rest = [])) := by
  have hI : ∀ (n : Nat) (s : List Byte) (d : R) (d' : R) (r : List Byte), decIntLoop o n s d = ok (some (d', r)) →
      ∃ ip, s = ip ++ r ∧ (∀ x ∈ ip, isDigit x) ∧ ip.length ≤ n ∧ (ip.length = n ∨ ∃ t, r = 46 :: t) := by
    intro n
    induction n with
    | zero => intro s d d' r h; simp only [decIntLoop, ok.injEq, Option.some.injEq, Prod.mk.injEq] at h; exact ⟨[], by simp [h.2], by simp, by simp, by simp⟩
    | succ n ih =>
      intro s d d' r h
      cases s with
      | nil => simp [decIntLoop] at h
      | cons c t =>
        rw [decIntLoop] at h
        by_cases hc : digitOf c < 10
        · rw [if_pos hc] at h
          obtain ⟨ip, h1, h2, h3, h4⟩ := ih t _ _ _ h
          refine ⟨c :: ip, by simp [h1], ?_, by simp; omega, ?_⟩
          · intro x hx
            rcases List.mem_cons.mp hx with rfl | hx
            · by_contra hn; exact digitOf_not hn hc
            · exact h2 x hx
          · rcases h4 with h4 | h4
            · left; simp [h4]
            · right; exact h4
        · rw [if_neg hc] at h
          by_cases hp : c = 46
          · rw [if_pos hp] at h
            simp only [ok.injEq, Option.some.injEq, Prod.mk.injEq] at h
            exact ⟨[], by simp [h.2], by simp, by simp, Or.inr ⟨t, by rw [← h.2, hp]⟩⟩
          · rw [if_neg hp] at h; simp at h
  have hF : ∀ (n : Nat) (s : List Byte) (d : R) (d' : R), decFracLoop o n s d = ok (some d') →
      ∃ fd rest, s = fd ++ rest ∧ (∀ x ∈ fd, isDigit x) ∧ fd.length = n := by
    intro n
    induction n with
    | zero => intro s d d' _; exact ⟨[], s, by simp, by simp, rfl⟩
    | succ n ih =>
      intro s d d' h
      cases s with
      | nil => simp [decFracLoop] at h
      | cons c t =>
        rw [decFracLoop] at h
        by_cases hc : digitOf c < 10
        · rw [if_pos hc] at h
          obtain ⟨fd, rest, h1, h2, h3⟩ := ih t _ _ h
          refine ⟨c :: fd, rest, by simp [h1], ?_, by simp [h3]⟩
          intro x hx
          rcases List.mem_cons.mp hx with rfl | hx
          · by_contra hn; exact digitOf_not hn hc
          · exact h2 x hx
        · rw [if_neg hc] at h; simp at h
  have hZ : ∀ s : List Byte, ∃ zs, s = zs ++ skipZeros s ∧ ∀ x ∈ zs, x = 48 := by
    intro s
    induction s with
    | nil => exact ⟨[], rfl, by simp⟩
    | cons c t ih =>
      unfold skipZeros
      by_cases hc : c = 48
      · rw [if_pos hc]
        obtain ⟨zs, h1, h2⟩ := ih
        refine ⟨c :: zs, by rw [List.cons_append, ← h1], ?_⟩
        intro x hx
        rcases List.mem_cons.mp hx with rfl | hx
        · exact hc
        · exact h2 x hx
      · rw [if_neg hc]; exact ⟨[], rfl, by simp⟩
  have hB : ∀ (neg : Bool) (s : List Byte), decBody o m is fs neg s = ok (some v) →
      ∃ zs ip c fd rest, s = zs ++ (ip ++ c :: (fd ++ rest)) ∧ (∀ x ∈ zs, x = 48) ∧ (∀ x ∈ ip, isDigit x) ∧
      (∀ x ∈ fd, isDigit x) ∧ ip.length ≤ is ∧ (c = 46 ∨ ip.length = is) ∧ (fd.length = fs ∨ (fd.length ≤ fs ∧ rest = [])) := by
    intro neg s h
    unfold decBody at h
    obtain ⟨r, hr, h⟩ := bind_eq_ok.mp h
    obtain ⟨zs, hz1, hz2⟩ := hZ s
    cases r with
    | none => simp at h
    | some p =>
      obtain ⟨d, r⟩ := p
      obtain ⟨ip, h1, h2, h3, h4⟩ := hI _ _ _ _ _ hr
      cases r with
      | nil => simp at h
      | cons c t =>
        simp only at h
        unfold decFrac at h
        obtain ⟨f, hf, h⟩ := bind_eq_ok.mp h
        cases f with
        | none => simp at h
        | some f =>
          obtain ⟨fd, rest, g1, g2, g3⟩ := hF _ _ _ _ hf
          refine ⟨zs, ip, c, fd, rest, by rw [← g1, ← h1, ← hz1], hz2, h2, g2, by omega, ?_, ?_⟩
          · rcases h4 with h4 | ⟨t', ht⟩
            · right
              rw [h4]
              have : ip.length < (skipZeros s).length := by rw [h1]; simp
              omega
            · left; cases ht; rfl
          · rw [g1, List.length_append] at g3
            by_cases hle : fs ≤ fd.length + rest.length
            · left; omega
            · right
              exact ⟨by omega, List.length_eq_zero_iff.mp (by omega)⟩
  cases s with
  | nil => simp [decimalSink] at h
  | cons c t =>
    unfold decimalSink at h
    simp only at h
    by_cases hc : c = 45 ∨ c = 43
    · rw [if_pos hc] at h
      by_cases ht : t = []
      · rw [if_pos ht] at h; simp at h
      · rw [if_neg ht] at h
        obtain ⟨zs, ip, c', fd, rest, h1, h2⟩ := hB _ _ h
        rcases hc with rfl | rfl
        · exact ⟨[45], true, zs, ip, c', fd, rest, by unfold Sign; simp, by rw [← h1]; rfl, h2⟩
        · exact ⟨[43], false, zs, ip, c', fd, rest, by unfold Sign; simp, by rw [← h1]; rfl, h2⟩
    · rw [if_neg hc] at h
      obtain ⟨zs, ip, c', fd, rest, h1, h2⟩ := hB _ _ h
      exact ⟨[], false, zs, ip, c', fd, rest, Or.inl ⟨rfl, rfl⟩, by rw [← h1]; rfl, h2⟩

/-- **C102**: a lone sign, a character other than a digit or the point among the first `int_size` digits, and a character other than a digit among the first
`frac_size` ones behind the point are refused; nothing is stored. -/
theorem C102_refused {R : Type} (o : Ops R) (m : Int) (is fs : Nat) (sg : List Byte) (neg : Bool) (hs : Sign sg neg) :
    (sg ≠ [] → decimalSink o m is fs sg = ok none) ∧
    (∀ ip x rest, (∀ c ∈ ip, isDigit c) → (skipZeros ip).length < is → ¬ isDigit x → x ≠ 46 → (ip = [] → x ≠ 43 ∧ x ≠ 45) →
      decimalSink o m is fs (sg ++ (ip ++ x :: rest)) = ok none) ∧
    (∀ ip fd x rest, (∀ c ∈ ip, isDigit c) → (skipZeros ip).length ≤ is → (∀ c ∈ fd, isDigit c) → fd.length < fs → ¬ isDigit x →
      decimalSink o m is fs (sg ++ (ip ++ 46 :: (fd ++ x :: rest))) = ok none) := by
  refine ⟨?_, ?_, ?_⟩
  · intro hne
    rcases hs with ⟨rfl, rfl⟩ | ⟨rfl, rfl⟩ | ⟨rfl, rfl⟩
    · exact absurd rfl hne
    · rfl
    · rfl
  · intro ip x rest hip hlen hx hx46 hx0
    have hz : ∀ c ∈ skipZeros ip, isDigit c := (digits_skipZeros ip).mpr hip
    have hstop : Stop (x :: rest) := by
      intro c t h
      cases h
      exact hx
    rw [decimalSink_sign o m is fs sg neg _ hs (by simp)]
    · unfold decBody
      rw [skipZeros_append ip _ hstop hip]
      have e : min (skipZeros ip ++ x :: rest).length is = (skipZeros ip).length + ((min (rest.length + 1) (is - (skipZeros ip).length) - 1) + 1) := by
        simp only [List.length_append, List.length_cons]; omega
      rw [e, decIntLoop_digits o _ _ _ _ hz, decIntLoop, if_neg (digitOf_not hx), if_neg hx46, ok_bind]
    · intro c t h
      cases ip with
      | nil => cases h; exact ⟨(hx0 rfl).2, (hx0 rfl).1⟩
      | cons a ip =>
        cases h
        have := digit_props (hip c (by simp))
        exact ⟨this.1, this.2.1⟩
  · intro ip fd x rest hip hlen hfd hf hx
    have hz : ∀ c ∈ skipZeros ip, isDigit c := (digits_skipZeros ip).mpr hip
    rw [decimalSink_sign o m is fs sg neg _ hs (by simp)]
    · unfold decBody
      rw [skipZeros_append ip _ (point_stop _) hip, decIntLoop_point o _ _ is _ hz hlen, ok_bind]
      simp only
      unfold decFrac
      have e : min fs (fd ++ x :: rest).length = fd.length + ((min (rest.length + 1) (fs - fd.length) - 1) + 1) := by
        simp only [List.length_append, List.length_cons]; omega
      rw [e, decFracLoop_digits o _ _ _ _ hfd, decFracLoop, if_neg (digitOf_not hx), ok_bind]
    · intro c t h
      cases ip with
      | nil => cases h; decide
      | cons a ip =>
        cases h
        have := digit_props (hip c (by simp))
        exact ⟨this.1, this.2.1⟩

/-- Non-vacuity: "-", "1x" and "1.x2". -/
example : decimalSink exact doubleMin 2 2 [45] = ok none ∧ decimalSink exact doubleMin 2 2 [49, 120] = ok none ∧ decimalSink exact doubleMin 2 2 [49, 46, 120, 50] = ok none :=
  ⟨(C102_refused exact doubleMin 2 2 [45] true (Or.inr (Or.inr ⟨rfl, rfl⟩))).1 (by simp),
   (C102_refused exact doubleMin 2 2 [] false (Or.inl ⟨rfl, rfl⟩)).2.1 [49] 120 [] (by decide) (by decide) (by decide) (by decide) (by decide),
   (C102_refused exact doubleMin 2 2 [] false (Or.inl ⟨rfl, rfl⟩)).2.2 [49] [] 120 [50] (by decide) (by decide) (by decide) (by decide) (by decide)⟩

end Strtk.Real
