import Verif.Real.Props

/-!
# C30: the value of a converted text, in exact arithmetic
-/

namespace Strtk.Real
open Outcome Mem Number

/-- Numbers without rounding, and the special values. -/
inductive Val where
  | num (q : ℚ)
  | inf (neg : Bool)
  | nan
  deriving DecidableEq

/-- An operation on numbers; anything else is `nan` (the conversion never operates on special values except to negate them). -/
def Val.map (f : ℚ → ℚ) : Val → Val
  | .num q => .num (f q)
  | _ => .nan

/-- An entry of the table `fract10` (16784-16818): the first is 0. -/
def tableEntry (e : Nat) : ℚ := if e = 0 then 0 else 10 ^ e

/-- Exact arithmetic. -/
def exact : Ops Val where
  zero := .num 0
  step d n := d.map (fun q => q * 10 + n)
  add x y := match x, y with
    | .num p, .num q => .num (p + q)
    | _, _ => .nan
  neg x := match x with
    | .num q => .num (-q)
    | .inf b => .inf (!b)
    | .nan => .nan
  mulTable d e := d.map (fun q => q * tableEntry e)
  divTable d e := d.map (fun q => q / tableEntry e)
  mulPow d x := d.map (fun q => q * (10 : ℚ) ^ (10 * x))
  inf := .inf false
  nan := .nan

/-- The exponents for which `pow10` is right: for `float` and `double` from -615 to 308, for `long double` from -308 to 308. -/
def Covered (m : Int) (x : Int) : Prop := (m = doubleMin ∧ -615 ≤ x ∧ x ≤ 308) ∨ (m = longDoubleMin ∧ -308 ≤ x ∧ x ≤ 308)

theorem pow10_exact (m x : Int) (h : Covered m x) (hx : x ≠ 0) (q : ℚ) : pow10 exact m (.num q) x = ok (.num (q * (10 : ℚ) ^ x)) := by
  have hte : ∀ e : Nat, e ≠ 0 → tableEntry e = 10 ^ e := fun e he => by unfold tableEntry; rw [if_neg he]
  have hb : -615 ≤ x ∧ x ≤ 308 := by rcases h with h | h <;> omega
  unfold pow10 fract10Size
  rw [if_neg (by omega)]
  by_cases hm : m ≤ x
  · rw [if_pos hm, if_pos (by unfold Covered doubleMin longDoubleMin at h; omega)]
    by_cases hp : 0 < x
    · rw [if_pos hp]
      obtain ⟨n, rfl⟩ := Int.eq_ofNat_of_zero_le (by omega : 0 ≤ x)
      simp only [exact, Val.map]
      rw [hte _ (by omega)]
      simp
    · rw [if_neg hp]
      obtain ⟨n, hn⟩ := Int.eq_ofNat_of_zero_le (by omega : 0 ≤ -x)
      have hxn : x = -(n : Int) := by omega
      subst hxn
      simp only [exact, Val.map]
      rw [hte _ (by omega)]
      simp [div_eq_mul_inv, zpow_neg]
  · rw [if_neg hm]
    rcases h with ⟨rfl, h1, h2⟩ | ⟨rfl, h1, h2⟩
    · unfold doubleMin at *
      rw [if_pos (by decide), if_pos (by omega)]
      simp only [exact, Val.map]
      rw [hte _ (by decide), hte _ (by omega)]
      obtain ⟨n, hn⟩ := Int.eq_ofNat_of_zero_le (by omega : 0 ≤ -x + -307)
      have hxn : x = -((307 + n : Nat) : Int) := by omega
      rw [hn]
      simp only [neg_neg, Int.toNat_natCast]
      rw [hxn, zpow_neg, zpow_natCast, pow_add, mul_inv, div_eq_mul_inv, div_eq_mul_inv, mul_assoc]
      rfl
    · unfold longDoubleMin at *; omega

theorem horner_exact (ds : List Byte) : ∀ q : ℚ, horner exact ds (.num q) = .num (q * 10 ^ ds.length + decVal ds) := by
  induction ds with
  | nil => intro q; simp [horner, decVal]
  | cons c ds ih =>
    intro q
    have e : horner exact (c :: ds) (.num q) = horner exact ds (.num (q * 10 + ((c.toNat - 48 : Nat) : ℚ))) := rfl
    rw [e, ih, decVal_cons, List.length_cons]
    congr 1
    push_cast
    ring

/-- **C30**: a number in the usual notation – sign, digits, fraction, exponent, suffix – is converted to exactly the number it denotes, if
the number of digits after the point and the exponent are covered by the tables and there is a digit before the exponent. -/
theorem C30_value (m : Int) (sg : List Byte) (neg : Bool) (ip fp fd ex ed : List Byte) (x : Int) (en : List Byte)
    (hs : Sign sg neg) (hip : ∀ c ∈ ip, isDigit c) (hfp : Fraction fp fd) (hdig : ip ++ fd ≠ []) (hex : Exponent ex ed x) (hed : ex ≠ [] → ed ≠ [])
    (hen : Suffix en) (hc1 : Covered m (-(fd.length : Int))) (hc2 : Covered m x) :
    realParse exact m (sg ++ (ip ++ (fp ++ (ex ++ en)))) =
      ok (some (.num ((if neg then -1 else 1) * ((decVal ip + decVal fd / 10 ^ fd.length) * (10 : ℚ) ^ x)))) := by
  -- what comes after the exponent marker
  have hlet : ∀ c t, ex ++ en = c :: t → c ≠ 45 ∧ c ≠ 43 ∧ c ≠ 46 ∧ ¬ isDigit c := by
    intro c t h
    rcases hex with ⟨rfl, _, _⟩ | ⟨e, sg2, n2, he, _, _, rfl, _⟩
    · rw [List.nil_append] at h
      rcases hen with rfl | ⟨l, hl, rfl⟩
      · cases h
      · cases h; obtain ⟨a1, a2, a3, a4, _, _⟩ := letter_props hl; exact ⟨a2, a3, a4, a1⟩
    · cases h; rcases he with rfl | rfl <;> decide
  have hstop : Stop (ex ++ en) := fun c t h => (hlet c t h).2.2.2
  have hfin : ∀ (inst : Bool) (q : ℚ), inst = true → finish exact m neg inst (.num q) x [] =
      ok (some (.num ((if neg then -1 else 1) * (q * (10 : ℚ) ^ x)))) := by
    rintro inst q rfl
    unfold finish
    rw [if_neg (by simp)]
    by_cases hx : x = 0
    · subst hx
      rw [if_neg (by simp), ok_bind]
      cases neg <;> simp [exact]
    · rw [if_pos hx, pow10_exact m x hc2 hx, ok_bind]
      cases neg <;> simp [exact]
  have hafter : ∀ (inst : Bool) (q : ℚ), inst = true → afterMantissa exact m neg inst (.num q) (ex ++ en) =
      ok (some (.num ((if neg then -1 else 1) * (q * (10 : ℚ) ^ x)))) := by
    intro inst q hi
    rcases hex with ⟨rfl, _, rfl⟩ | ⟨e, sg2, n2, he, hs2, hd2, rfl, hx2⟩
    · rw [List.nil_append]
      rcases hen with rfl | ⟨l, hl, rfl⟩
      · exact hfin inst q hi
      · obtain ⟨a1, a2, a3, a4, a5, a6⟩ := letter_props hl
        rw [afterMantissa_plain _ _ _ _ _ _ _ ⟨a5, a6⟩, endAndFinish_cons, if_pos hl, if_pos rfl]
        exact hfin inst q hi
    · have hne : ed ≠ [] := hed (by simp)
      have hlen : (skipZeros ed).length ≤ 3 := by
        obtain ⟨k, k1, k2⟩ := skipZeros_spec ed
        rcases k2 with k2 | ⟨c, t, k2, k3⟩
        · rw [k2]; simp
        · have hd := (digits_skipZeros ed).mpr hd2
          rw [k2] at hd
          have := decVal_ge c t (hd c (by simp)) k3
          rw [← k2, decVal_skipZeros] at this
          rw [k2, List.length_cons]
          have hb : -615 ≤ x ∧ x ≤ 308 := by rcases hc2 with h | h <;> omega
          have hdv : decVal ed ≤ 615 := by cases n2 <;> simp at hx2 <;> omega
          have : 10 ^ t.length < 10 ^ 3 := by omega
          have := (Nat.pow_lt_pow_iff_right (by omega)).mp this
          omega
      have hstop2 : Stop en := by
        rcases hen with rfl | ⟨l, hl, rfl⟩
        · intro c t h; cases h
        · intro c t h; cases h; exact (letter_props hl).1
      have hhead : sg2 = [] → ∀ c t, ed ++ en = c :: t → c ≠ 45 ∧ c ≠ 43 := by
        intro _ c t h
        refine digits_head hd2 ?_ c t h
        intro c t h
        rcases hen with rfl | ⟨l, hl, rfl⟩
        · cases h
        · cases h; exact ⟨(letter_props hl).2.1, (letter_props hl).2.2.1⟩
      have e1 := parseExp_sign sg2 n2 (ed ++ en) hs2 (by simp [hne]) hhead
      have hx2' : signed n2 (decVal ed) = x := hx2.symm
      have e2 := (expDigits_spec n2 ed en hd2 hstop2).1 (by
        rw [List.length_append]
        rcases hen with rfl | ⟨l, hl, rfl⟩ <;> simp only [List.length_nil, List.length_singleton] <;> omega)
      rw [e2, hx2'] at e1
      rw [List.cons_append, List.append_assoc]
      rcases hen with rfl | ⟨l, hl, rfl⟩
      · rw [afterMantissa_exp_true _ _ _ _ _ e _ x he e1]
        exact hfin inst q hi
      · rw [afterMantissa_exp_false _ _ _ _ _ e _ x [l] he e1]
        simp only []
        rw [endAndFinish_cons, if_pos hl, if_pos rfl]
        exact hfin inst q hi
  have hip0 : horner exact (skipZeros ip) (.num 0) = .num (decVal ip : ℚ) := by
    rw [horner_exact, decVal_skipZeros]; simp
  rcases hfp with ⟨rfl, rfl⟩ | ⟨rfl, hfd⟩
  · rw [List.append_nil] at hdig
    rw [List.nil_append, realParse_sign _ m sg neg _ hs (by simp [hdig]) (fun _ => digits_head hip (fun c t h => ⟨(hlet c t h).1, (hlet c t h).2.1⟩)),
      intPart_spec _ m neg ip _ hip hstop (by simp [hdig]), fraction_other _ _ _ _ _ _ (fun t h => (hlet _ t h).2.2.1 rfl)]
    have : exact.zero = .num 0 := rfl
    rw [this, hip0, hafter _ _ (by simp [hdig])]
    simp [decVal]
  · have hstop3 : Stop (46 :: fd ++ (ex ++ en)) := by intro c t h; cases h; decide
    rw [realParse_sign _ m sg neg _ hs (by simp) (fun _ => digits_head hip (by intro c t h; cases h; decide)),
      intPart_spec _ m neg ip _ hip hstop3 (by simp), List.cons_append, fraction_dot _ _ _ _ _ fd _ hfd hstop]
    have : exact.zero = .num 0 := rfl
    rw [this, hip0]
    by_cases hf : fd = []
    · subst hf
      rw [List.append_nil] at hdig
      rw [if_pos rfl, hafter _ _ (by simp [hdig])]
      simp [decVal]
    · have hl : fd.length ≠ 0 := fun h => hf (List.length_eq_zero_iff.mp h)
      have hl2 : fd.length < 2 ^ 31 := by rcases hc1 with h | h <;> omega
      rw [if_neg hf, negDistance_small _ hl2, horner_exact, pow10_exact m _ hc1 (by omega), ok_bind]
      have : exact.add (.num (decVal ip : ℚ)) (.num ((0 * 10 ^ fd.length + (decVal fd : ℚ)) * 10 ^ (-(fd.length : Int)))) =
          .num ((decVal ip : ℚ) + decVal fd / 10 ^ fd.length) := by
        simp [exact, div_eq_mul_inv, zpow_neg]
      rw [this, hafter _ _ rfl]

/-- **C30**: `inf` and `nan` words, with optional sign and `#`, are converted to the special values. -/
theorem C30_special (m : Int) (sg : List Byte) (neg : Bool) (w h : List Byte) (hs : Sign sg neg) (hh : h = [] ∨ h = [35]) :
    (InfWord w → realParse exact m (sg ++ (h ++ w)) = ok (some (.inf neg))) ∧ (NanWord w → realParse exact m (sg ++ (h ++ w)) = ok (some .nan)) := by
  have key : InfWord w ∨ NanWord w → realParse exact m (sg ++ (h ++ w)) = ok (wordValue exact neg w) := by
    intro hw
    obtain ⟨c, t, hct, hc⟩ : ∃ c t, w = c :: t ∧ (c = 105 ∨ c = 73 ∨ c = 110 ∨ c = 78) := by
      rcases hw with (rfl | rfl | rfl | rfl) | (rfl | rfl) <;> exact ⟨_, _, rfl, by simp⟩
    have hcp : c ≠ 45 ∧ c ≠ 43 ∧ c ≠ 46 ∧ ¬ isDigit c ∧ c ≠ 101 ∧ c ≠ 69 ∧ c ≠ 35 ∧ ¬ Letter c := by
      rcases hc with rfl | rfl | rfl | rfl <;> decide
    have hhead : ∃ a b, h ++ w = a :: b ∧ a ≠ 45 ∧ a ≠ 43 ∧ a ≠ 46 ∧ ¬ isDigit a ∧ a ≠ 101 ∧ a ≠ 69 ∧ ¬ Letter a := by
      rcases hh with rfl | rfl
      · exact ⟨c, t, by rw [hct]; rfl, hcp.1, hcp.2.1, hcp.2.2.1, hcp.2.2.2.1, hcp.2.2.2.2.1, hcp.2.2.2.2.2.1, hcp.2.2.2.2.2.2.2⟩
      · exact ⟨35, w, rfl, by decide⟩
    obtain ⟨a, b, hab, a1, a2, a3, a4, a5, a6, a7⟩ := hhead
    have hstop : Stop (h ++ w) := by rw [hab]; intro x y hxy; cases hxy; exact a4
    have e1 := intPart_spec exact m neg [] (h ++ w) (by simp) hstop (by rw [hab]; simp)
    rw [List.nil_append] at e1
    rw [realParse_sign _ m sg neg _ hs (by rw [hab]; simp) (by rw [hab]; rintro _ x y hxy; cases hxy; exact ⟨a1, a2⟩), e1,
      fraction_other _ _ _ _ _ _ (by rw [hab]; rintro x hx; cases hx; exact a3 rfl), hab, afterMantissa_plain _ _ _ _ _ _ _ ⟨a5, a6⟩,
      endAndFinish_cons, if_neg a7]
    rcases hh with rfl | rfl
    · rw [List.nil_append, hct] at hab
      cases hab
      rw [if_neg hcp.2.2.2.2.2.2.1, hct]
    · cases hab
      rw [if_pos rfl, if_neg (by rw [hct]; simp)]; rfl
  constructor
  · intro hw
    rw [key (Or.inl hw)]
    unfold wordValue
    rw [if_pos hw]
    cases neg <;> rfl
  · intro hw
    rw [key (Or.inr hw)]
    unfold wordValue
    have : ¬ InfWord w := by rcases hw with rfl | rfl <;> decide
    rw [if_neg this, if_pos hw]; rfl

/-- **C30** (negative result): beyond 308 a positive exponent is multiplied by ten: `1e309` is read as 10^3090. -/
theorem C30_large_exponent : realParse exact doubleMin [49, 101, 51, 48, 57] = ok (some (.num ((10 : ℚ) ^ (3090 : Int)))) := by
  have h : realParse exact doubleMin [49, 101, 51, 48, 57] = ok (some (exact.mulPow (.num (0 * 10 + 1)) 309)) := by rfl
  rw [h]
  simp [exact, Val.map]

/-- **C30** (negative result): the number of digits of a fraction is cast to `int`, so 2^32 digits more than `k` scale like `k` digits. -/
theorem C30_fraction_wraps (m : Int) (fd : List Byte) (k : Nat) (hd : ∀ c ∈ fd, isDigit c) (hk : 1 ≤ k ∧ k ≤ 307) (hm : m = doubleMin ∨ m = longDoubleMin)
    (hl : fd.length = 2 ^ 32 + k) : realParse exact m (46 :: fd) = ok (some (.num ((decVal fd : ℚ) / 10 ^ k))) := by
  have hne : fd ≠ [] := by intro h; rw [h] at hl; simp at hl; omega
  have e1 := realParse_sign exact m [] false (46 :: fd) (Or.inl ⟨rfl, rfl⟩) (by simp) (by rintro _ c t h; cases h; decide)
  rw [List.nil_append] at e1
  have hz : Stop (46 :: fd) := by intro c t h; cases h; decide
  have e2 := intPart_spec exact m false [] (46 :: fd) (by simp) hz (by simp)
  rw [List.nil_append] at e2
  have e3 := fraction_dot exact m false (decide (([] : List Byte) ≠ [])) (horner exact (skipZeros []) exact.zero) fd [] hd (by intro c t h; cases h)
  rw [List.append_nil, if_neg hne] at e3
  have hn : negDistance fd.length = -(k : Int) := by
    rw [hl]
    unfold negDistance
    push_cast
    unfold Int.bmod
    simp only
    split <;> omega
  rw [e1, e2, e3, hn, show exact.zero = .num 0 from rfl, horner_exact,
    pow10_exact m _ (by unfold Covered; rcases hm with rfl | rfl <;> [left; right] <;> omega) (by omega), ok_bind]
  simp [afterMantissa, finish, horner, skipZeros, exact, div_eq_mul_inv, zpow_neg]

/-- Non-vacuity: a point, 2^32 zeros and a one are read as one tenth. -/
example (n : Nat) (hn : n = 2 ^ 32) : realParse exact doubleMin (46 :: (List.replicate n 48 ++ [49])) = ok (some (.num (1 / 10))) := by
  have hz : ∀ n, decVal (List.replicate n 48 ++ [49]) = 1 := by
    intro n
    induction n with
    | zero => decide
    | succ n ih => rw [List.replicate_succ, List.cons_append, decVal_cons, ih]; simp
  have h := C30_fraction_wraps doubleMin (List.replicate n 48 ++ [49]) 1 (by
    intro c hc
    rw [List.mem_append, List.mem_replicate] at hc
    rcases hc with ⟨_, rfl⟩ | hc
    · decide
    · rw [List.mem_singleton.mp hc]; decide) (by omega) (Or.inl rfl) (by rw [List.length_append, List.length_replicate, hn]; rfl)
  rw [h, hz]
  norm_num

/-- Non-vacuity: -12.50e+2f. -/
example : realParse exact doubleMin [45, 49, 50, 46, 53, 48, 101, 43, 50, 102] = ok (some (.num (-1250))) := by
  have := C30_value doubleMin [45] true [49, 50] [46, 53, 48] [53, 48] [101, 43, 50] [50] 2 [102] (by simp [Sign]) (by decide)
    (Or.inr ⟨rfl, by decide⟩) (by simp) (Or.inr ⟨101, [43], false, by simp, by simp [Sign], by decide, rfl, by decide⟩) (by simp)
    (Or.inr ⟨102, by decide, rfl⟩) (by simp [Covered]) (by simp [Covered])
  simp only [List.cons_append, List.nil_append] at this
  rw [this]
  have : decVal [49, 50] = 12 ∧ decVal [53, 48] = 50 := by decide
  rw [this.1, this.2]
  norm_num

/-- Non-vacuity: the text `1.5` meets the hypotheses of `C30_no_over_read_partial`, and `1e?f` is accepted. -/
example : (∃ r, realParse exact doubleMin [49, 46, 53] = ok r) ∧ realParse exact doubleMin [49, 101, 63, 102] = ok (some (.num (0 * 10 + 1))) := by
  refine ⟨C30_no_over_read_partial exact doubleMin 615 (Or.inl ⟨rfl, rfl⟩) _ ?_ ?_, rfl⟩
  · intro a ds b h _
    have := congrArg List.length h
    simp at this; omega
  · intro a e ds b h he _
    have : e ∈ ([49, 46, 53] : List Byte) := by rw [h]; simp
    exact absurd this (by rcases he with rfl | rfl <;> decide)

/-- Non-vacuity: `1e-616`. -/
example : realParse exact doubleMin ([49] ++ 101 :: 45 :: [54, 49, 54]) = ub :=
  C30_deep_exponent exact doubleMin 615 (Or.inl ⟨rfl, rfl⟩) [49] [54, 49, 54] 101 ⟨by simp, by decide⟩ ⟨by simp, by decide⟩ (Or.inl rfl) (by decide) (by decide)

end Strtk.Real
