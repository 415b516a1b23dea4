import Verif.Real.Value
import Verif.Real.Rounding
import Mathlib.Tactic.NormNum.Prime

/-!
# C30 with rounding: what the conversion delivers in binary floating point arithmetic
-/

namespace Strtk.Real
open Outcome Mem Number

/-- Floating point arithmetic with `p` significant bits: every operation is followed by a rounding, and the entries of the table (16784-16818) are
rounded decimal literals. (Two roundings in a digit step: the compiler does not fuse the multiplication and the addition.) Overflow, underflow
and the error of `std::pow`, which is not used for the exponents the theorems are about, are not modelled. -/
def rounded (p : Nat) : Ops Val where
  zero := .num 0
  step d n := d.map (fun q => rnd p (rnd p (q * 10) + n))
  add x y := match x, y with
    | .num a, .num b => .num (rnd p (a + b))
    | _, _ => .nan
  neg x := match x with
    | .num q => .num (-q)
    | .inf b => .inf (!b)
    | .nan => .nan
  mulTable d e := d.map (fun q => rnd p (q * rnd p (tableEntry e)))
  divTable d e := d.map (fun q => rnd p (q / rnd p (tableEntry e)))
  mulPow d x := d.map (fun q => rnd p (q * rnd p ((10 : ℚ) ^ (10 * x))))
  inf := .inf false
  nan := .nan

/-- The digits before the point and behind it, put together. -/
def mantissa {R : Type} (o : Ops R) (m : Int) (ip fd : List Byte) : Outcome R :=
  if fd = [] then ok (horner o (skipZeros ip) o.zero) else do
    let f ← pow10 o m (horner o fd o.zero) (-(fd.length : Int))
    ok (o.add (horner o (skipZeros ip) o.zero) f)

/-- The exponent applied. -/
def scaled {R : Type} (o : Ops R) (m : Int) (d : R) (x : Int) : Outcome R := if x ≠ 0 then pow10 o m d x else ok d

/-- The conversion of usual notation, for every arithmetic: digits before the point, digits behind it, their sum, the exponent, the sign.  The exponent
has at most three digits, or four without a suffix. -/
theorem realParse_usual4 {R : Type} (o : Ops R) (m : Int) (sg : List Byte) (neg : Bool) (ip fp fd ex ed : List Byte) (x : Int) (en : List Byte)
    (hs : Sign sg neg) (hip : ∀ c ∈ ip, isDigit c) (hfp : Fraction fp fd) (hdig : ip ++ fd ≠ []) (hex : Exponent ex ed x) (hed : ex ≠ [] → ed ≠ [])
    (hen : Suffix en) (hfl : fd.length < 2 ^ 31) (hx3 : (-1000 < x ∧ x < 1000) ∨ (en = [] ∧ -10000 < x ∧ x < 10000)) :
    realParse o m (sg ++ (ip ++ (fp ++ (ex ++ en)))) = (do
      let d ← mantissa o m ip fd
      let d ← scaled o m d x
      ok (some (if neg then o.neg d else d))) := by
  have hlet : ∀ c t, ex ++ en = c :: t → c ≠ 45 ∧ c ≠ 43 ∧ c ≠ 46 ∧ ¬ isDigit c := by
    intro c t h
    rcases hex with ⟨rfl, _, _⟩ | ⟨e, sg2, n2, he, _, _, rfl, _⟩
    · rw [List.nil_append] at h
      rcases hen with rfl | ⟨l, hl, rfl⟩
      · cases h
      · cases h; obtain ⟨a1, a2, a3, a4, _, _⟩ := letter_props hl; exact ⟨a2, a3, a4, a1⟩
    · cases h; rcases he with rfl | rfl <;> decide
  have hstop : Stop (ex ++ en) := fun c t h => (hlet c t h).2.2.2
  have hfin : ∀ (inst : Bool) (d : R), inst = true → finish o m neg inst d x [] = (do
      let d ← scaled o m d x
      ok (some (if neg then o.neg d else d))) := by
    rintro inst d rfl
    unfold finish scaled
    rw [if_neg (by simp)]
    by_cases h : x ≠ 0
    · rw [if_pos h, if_pos h]
    · rw [if_neg h, if_neg h]
  have hafter : ∀ (inst : Bool) (d : R), inst = true → afterMantissa o m neg inst d (ex ++ en) = (do
      let d ← scaled o m d x
      ok (some (if neg then o.neg d else d))) := by
    intro inst q hi
    rcases hex with ⟨rfl, _, rfl⟩ | ⟨e, sg2, n2, he, hs2, hd2, rfl, hx2⟩
    · rw [List.nil_append]
      rcases hen with rfl | ⟨l, hl, rfl⟩
      · exact hfin inst q hi
      · obtain ⟨a1, a2, a3, a4, a5, a6⟩ := letter_props hl
        rw [afterMantissa_plain _ _ _ _ _ _ _ ⟨a5, a6⟩, endAndFinish_cons, if_pos hl, if_pos rfl]
        exact hfin inst q hi
    · have hne : ed ≠ [] := hed (by simp)
      have hlen : (skipZeros ed).length + en.length ≤ 4 := by
        have hel : en.length ≤ 1 := by rcases hen with rfl | ⟨l, _, rfl⟩ <;> simp
        obtain ⟨k, k1, k2⟩ := skipZeros_spec ed
        rcases k2 with k2 | ⟨c, t, k2, k3⟩
        · rw [k2]; simp; omega
        · have hd := (digits_skipZeros ed).mpr hd2
          rw [k2] at hd
          have := decVal_ge c t (hd c (by simp)) k3
          rw [← k2, decVal_skipZeros] at this
          rw [k2, List.length_cons]
          rcases hx3 with hx3 | ⟨rfl, hx3⟩
          · have hdv : decVal ed < 1000 := by cases n2 <;> simp at hx2 <;> omega
            have : 10 ^ t.length < 10 ^ 3 := by omega
            have := (Nat.pow_lt_pow_iff_right (by omega)).mp this
            omega
          · have hdv : decVal ed < 10000 := by cases n2 <;> simp at hx2 <;> omega
            have : 10 ^ t.length < 10 ^ 4 := by omega
            have := (Nat.pow_lt_pow_iff_right (by omega)).mp this
            simp only [List.length_nil]
            omega
      have hstop2 : Stop en := by
        rcases hen with rfl | ⟨l, hl, rfl⟩
        · intro c t h; cases h
        · intro c t h; cases h; exact (letter_props hl).1
      have hhead : sg2 = [] → ∀ c t, ed ++ en = c :: t → c ≠ 45 ∧ c ≠ 43 := by
        intro _ c t h
        refine digits_head hd2 ?_ c t h
        intro c t h
        rcases hen with rfl | ⟨l, hl, rfl⟩
        · cases h
        · cases h; exact ⟨(letter_props hl).2.1, (letter_props hl).2.2.1⟩
      have e1 := parseExp_sign sg2 n2 (ed ++ en) hs2 (by simp [hne]) hhead
      have hx2' : signed n2 (decVal ed) = x := hx2.symm
      have e2 := (expDigits_spec n2 ed en hd2 hstop2).1 (by
        rw [List.length_append]
        exact hlen)
      rw [e2, hx2'] at e1
      rw [List.cons_append, List.append_assoc]
      rcases hen with rfl | ⟨l, hl, rfl⟩
      · rw [afterMantissa_exp_true _ _ _ _ _ e _ x he e1]
        exact hfin inst q hi
      · rw [afterMantissa_exp_false _ _ _ _ _ e _ x [l] he e1]
        simp only []
        rw [endAndFinish_cons, if_pos hl, if_pos rfl]
        exact hfin inst q hi
  rcases hfp with ⟨rfl, rfl⟩ | ⟨rfl, hfd⟩
  · rw [List.append_nil] at hdig
    rw [List.nil_append, realParse_sign _ m sg neg _ hs (by simp [hdig]) (fun _ => digits_head hip (fun c t h => ⟨(hlet c t h).1, (hlet c t h).2.1⟩)),
      intPart_spec _ m neg ip _ hip hstop (by simp [hdig]), fraction_other _ _ _ _ _ _ (fun t h => (hlet _ t h).2.2.1 rfl),
      hafter _ _ (by simp [hdig]), mantissa, if_pos rfl, ok_bind]
  · have hstop3 : Stop (46 :: fd ++ (ex ++ en)) := by intro c t h; cases h; decide
    rw [realParse_sign _ m sg neg _ hs (by simp) (fun _ => digits_head hip (by intro c t h; cases h; decide)),
      intPart_spec _ m neg ip _ hip hstop3 (by simp), List.cons_append, fraction_dot _ _ _ _ _ fd _ hfd hstop]
    by_cases hf : fd = []
    · subst hf
      rw [List.append_nil] at hdig
      rw [if_pos rfl, hafter _ _ (by simp [hdig]), mantissa, if_pos rfl, ok_bind]
    · rw [if_neg hf, mantissa, if_neg hf, negDistance_small _ hfl]
      cases pow10 o m (horner o fd o.zero) (-(fd.length : Int)) with
      | ok f => rw [ok_bind, ok_bind, ok_bind, hafter _ _ rfl]
      | ub => rfl
      | diverge => rfl
      | thrown => rfl

@[inherit_doc realParse_usual4] theorem realParse_usual {R : Type} (o : Ops R) (m : Int) (sg : List Byte) (neg : Bool) (ip fp fd ex ed : List Byte) (x : Int) (en : List Byte)
    (hs : Sign sg neg) (hip : ∀ c ∈ ip, isDigit c) (hfp : Fraction fp fd) (hdig : ip ++ fd ≠ []) (hex : Exponent ex ed x) (hed : ex ≠ [] → ed ≠ [])
    (hen : Suffix en) (hfl : fd.length < 2 ^ 31) (hx3 : -1000 < x ∧ x < 1000) :
    realParse o m (sg ++ (ip ++ (fp ++ (ex ++ en)))) = (do
      let d ← mantissa o m ip fd
      let d ← scaled o m d x
      ok (some (if neg then o.neg d else d))) :=
  realParse_usual4 o m sg neg ip fp fd ex ed x en hs hip hfp hdig hex hed hen hfl (Or.inl hx3)

/-! ## Numbers of at most `p` bits -/

theorem tableEntry_pos {e : Nat} (he : e ≠ 0) : tableEntry e = 10 ^ e := by unfold tableEntry; rw [if_neg he]

theorem horner_rounded (p : Nat) (hp : 1 ≤ p) (ds : List Byte) : ∀ n : Nat, n * 10 ^ ds.length + decVal ds ≤ 2 ^ p →
    horner (rounded p) ds (.num n) = .num (n * 10 ^ ds.length + decVal ds : Nat) := by
  induction ds with
  | nil => intro n _; simp [horner, decVal]
  | cons c ds ih =>
    intro n h
    rw [List.length_cons, decVal_cons] at *
    have hb : n * 10 + (c.toNat - 48) ≤ 2 ^ p := by
      refine le_trans ?_ h
      have : 1 ≤ 10 ^ ds.length := Nat.one_le_pow _ _ (by omega)
      have e : n * 10 ^ (ds.length + 1) + ((c.toNat - 48) * 10 ^ ds.length + decVal ds) = (n * 10 + (c.toNat - 48)) * 10 ^ ds.length + decVal ds := by ring
      rw [e]
      exact le_trans (Nat.le_mul_of_pos_right _ this) (Nat.le_add_right _ _)
    have r1 : rnd p ((n : ℚ) * 10) = ((n * 10 : Nat) : ℚ) := by
      have := rnd_exact p hp ((n * 10 : Nat) : ℚ) (by
        have := rep_int p ((n * 10 : Nat) : ℤ) (by rw [abs_of_nonneg (by omega)]; exact_mod_cast (by omega : n * 10 ≤ 2 ^ p))
        exact_mod_cast this)
      rw [← this]; push_cast; rfl
    have r2 : rnd p (((n * 10 + (c.toNat - 48) : Nat) : ℚ)) = ((n * 10 + (c.toNat - 48) : Nat) : ℚ) :=
      rnd_exact p hp _ (by
        have := rep_int p ((n * 10 + (c.toNat - 48) : Nat) : ℤ) (by rw [abs_of_nonneg (by omega)]; exact_mod_cast hb)
        exact_mod_cast this)
    have e : horner (rounded p) (c :: ds) (.num n) = horner (rounded p) ds (.num ((n * 10 + (c.toNat - 48) : Nat) : ℚ)) := by
      have : (rounded p).step (.num n) (c.toNat - 48) = .num ((n * 10 + (c.toNat - 48) : Nat) : ℚ) := by
        show Val.num (rnd p (rnd p ((n : ℚ) * 10) + ((c.toNat - 48 : Nat) : ℚ))) = _
        rw [r1, ← Nat.cast_add, r2]
      show horner (rounded p) ds ((rounded p).step (.num n) (c.toNat - 48)) = _
      rw [this]
    rw [e, ih]
    · congr 2; ring
    · refine le_trans (le_of_eq ?_) h; ring

theorem horner_rounded0 (p : Nat) (hp : 1 ≤ p) (ds : List Byte) (h : decVal ds ≤ 2 ^ p) :
    horner (rounded p) ds (rounded p).zero = .num (decVal ds : ℚ) := by
  have := horner_rounded p hp ds 0 (by simpa using h)
  rw [Nat.cast_zero, Nat.zero_mul, Nat.zero_add] at this
  exact this

theorem rnd_pow10 (p : Nat) (hp : 1 ≤ p) (k : Nat) (hk : k ≠ 0) (h5 : 5 ^ k ≤ 2 ^ p) : rnd p (tableEntry k) = 10 ^ k := by
  rw [tableEntry_pos hk]; exact rnd_exact p hp _ (rep_pow10 p k h5)

/-- A power of ten that has at most `p` significant bits costs one rounding. -/
theorem pow10_rounded (p : Nat) (hp : 1 ≤ p) (x : Int) (hx : x ≠ 0) (hr : -307 ≤ x ∧ x ≤ 308) (h5 : 5 ^ x.natAbs ≤ 2 ^ p) (q : ℚ) :
    pow10 (rounded p) doubleMin (.num q) x = ok (.num (rnd p (q * (10 : ℚ) ^ x))) := by
  unfold pow10 fract10Size doubleMin
  rw [if_neg (by omega), if_pos (by omega), if_pos (by omega)]
  have hk : x.natAbs ≠ 0 := by omega
  by_cases h0 : 0 < x
  · rw [if_pos h0]
    show ok (Val.num (rnd p (q * rnd p (tableEntry x.natAbs)))) = _
    rw [rnd_pow10 p hp _ hk h5]
    obtain ⟨n, rfl⟩ := Int.eq_ofNat_of_zero_le (by omega : 0 ≤ x)
    simp
  · rw [if_neg h0]
    show ok (Val.num (rnd p (q / rnd p (tableEntry x.natAbs)))) = _
    rw [rnd_pow10 p hp _ hk h5]
    obtain ⟨n, hn⟩ := Int.eq_ofNat_of_zero_le (by omega : 0 ≤ -x)
    have : x = -(n : Int) := by omega
    subst this
    simp [div_eq_mul_inv, zpow_neg]

/-- The value with its sign. -/
def withSign (neg : Bool) (q : ℚ) : Val := .num (if neg then -q else q)

theorem neg_withSign (p : Nat) (neg : Bool) (q : ℚ) : (if neg then (rounded p).neg (.num q) else .num q) = withSign neg q := by
  cases neg <;> rfl

theorem pow5_small (k : Nat) (p : Nat) (h : 5 ^ k ≤ 2 ^ p) (hp : p ≤ 64) : k ≤ 27 := by
  by_contra hc
  have h1 : 5 ^ 28 ≤ 5 ^ k := Nat.pow_le_pow_right (by omega) (by omega)
  have h2 : 2 ^ p ≤ 2 ^ 64 := Nat.pow_le_pow_right (by omega) hp
  have : (5 : Nat) ^ 28 ≤ 2 ^ 64 := le_trans h1 (le_trans h h2)
  omega

/-- **C30**, with rounding: an integer of at most `p` bits (`2^53` for `double`), written with any number of leading zeros, is converted to
exactly this number. -/
theorem C30_integer_exact (p : Nat) (hp : 1 ≤ p) (m : Int) (sg : List Byte) (neg : Bool) (ip en : List Byte) (hs : Sign sg neg)
    (hip : ∀ c ∈ ip, isDigit c) (hne : ip ≠ []) (hen : Suffix en) (hv : decVal ip ≤ 2 ^ p) :
    realParse (rounded p) m (sg ++ (ip ++ en)) = ok (some (withSign neg (decVal ip))) := by
  have h := realParse_usual (rounded p) m sg neg ip [] [] [] [] 0 en hs hip (Or.inl ⟨rfl, rfl⟩) (by simpa using hne) (Or.inl ⟨rfl, rfl, rfl⟩)
    (by simp) hen (by simp) (by omega)
  simp only [List.nil_append] at h
  rw [h, mantissa, if_pos rfl, ok_bind, scaled, if_neg (by simp), ok_bind, horner_rounded0 p hp _ (by rw [decVal_skipZeros]; exact hv), decVal_skipZeros, neg_withSign]

/-- **C30**, with rounding: an integer of at most `p` bits with an exponent whose power of ten has at most `p` significant bits (up to 22 for
`double`) is converted to a representable number nearest to the number denoted: the conversion is correctly rounded. -/
theorem C30_correctly_rounded (p : Nat) (hp : 1 ≤ p) (hp64 : p ≤ 64) (sg : List Byte) (neg : Bool) (ip ex ed en : List Byte) (x : Int)
    (hs : Sign sg neg) (hip : ∀ c ∈ ip, isDigit c) (hne : ip ≠ []) (hex : Exponent ex ed x) (hed : ex ≠ [] → ed ≠ []) (hen : Suffix en)
    (hv : decVal ip ≤ 2 ^ p) (h5 : 5 ^ x.natAbs ≤ 2 ^ p) :
    ∃ r, Nearest p (decVal ip * (10 : ℚ) ^ x) r ∧ realParse (rounded p) doubleMin (sg ++ (ip ++ (ex ++ en))) = ok (some (withSign neg r)) := by
  have hx := pow5_small _ _ h5 hp64
  have h := realParse_usual (rounded p) doubleMin sg neg ip [] [] ex ed x en hs hip (Or.inl ⟨rfl, rfl⟩) (by simpa using hne) hex hed hen (by simp)
    (by omega)
  simp only [List.nil_append] at h
  refine ⟨rnd p (decVal ip * (10 : ℚ) ^ x), rnd_nearest p hp _, ?_⟩
  rw [h, mantissa, if_pos rfl, ok_bind, scaled, horner_rounded0 p hp _ (by rw [decVal_skipZeros]; exact hv), decVal_skipZeros]
  by_cases h0 : x = 0
  · subst h0
    rw [if_neg (by simp), ok_bind, neg_withSign]
    have : rnd p (decVal ip * (10 : ℚ) ^ (0 : Int)) = decVal ip := by
      rw [zpow_zero, mul_one]
      apply rnd_exact p hp
      have := rep_int p (decVal ip : ℤ) (by rw [abs_of_nonneg (by omega)]; exact_mod_cast hv)
      exact_mod_cast this
    rw [this]
  · rw [if_pos h0, pow10_rounded p hp x h0 (by omega) h5, ok_bind, neg_withSign]

/-- **C30**, with rounding: a fraction without a part before the point, whose digits form an integer of at most `p` bits, with a power of ten of
at most `p` bits: correctly rounded. -/
theorem C30_fraction_correctly_rounded (p : Nat) (hp : 1 ≤ p) (hp64 : p ≤ 64) (sg : List Byte) (neg : Bool) (zs fd en : List Byte) (hs : Sign sg neg)
    (hz : ∀ c ∈ zs, c = 48) (hfd : ∀ c ∈ fd, isDigit c) (hne : fd ≠ []) (hen : Suffix en) (hv : decVal fd ≤ 2 ^ p) (h5 : 5 ^ fd.length ≤ 2 ^ p) :
    ∃ r, Nearest p (decVal fd / 10 ^ fd.length) r ∧ realParse (rounded p) doubleMin (sg ++ (zs ++ (46 :: fd ++ en))) = ok (some (withSign neg r)) := by
  have hl := pow5_small _ _ h5 hp64
  have hl0 : fd.length ≠ 0 := fun h => hne (List.length_eq_zero_iff.mp h)
  have hzd : ∀ c ∈ zs, isDigit c := fun c hc => by rw [hz c hc]; decide
  have h := realParse_usual (rounded p) doubleMin sg neg zs (46 :: fd) fd [] [] 0 en hs hzd (Or.inr ⟨rfl, hfd⟩) (by simp [hne])
    (Or.inl ⟨rfl, rfl, rfl⟩) (by simp) hen (by omega) (by omega)
  simp only [List.nil_append] at h
  refine ⟨rnd p (decVal fd / 10 ^ fd.length), rnd_nearest p hp _, ?_⟩
  have hz0 : skipZeros zs = [] := by
    clear h
    induction zs with
    | nil => rfl
    | cons c zs ih =>
      rw [hz c (by simp), skipZeros]
      simpa using ih (fun c hc => hz c (List.mem_cons_of_mem _ hc)) (fun c hc => hzd c (List.mem_cons_of_mem _ hc))
  have hadd : (rounded p).add (.num 0) (.num (rnd p (decVal fd * (10 : ℚ) ^ (-(fd.length : Int))))) =
      .num (rnd p (decVal fd / 10 ^ fd.length)) := by
    show Val.num (rnd p (0 + rnd p _)) = _
    rw [zero_add, rnd_exact p hp _ (rnd_rep p hp _), zpow_neg, zpow_natCast, div_eq_mul_inv]
  rw [h, mantissa, if_neg hne, horner_rounded0 p hp _ hv, pow10_rounded p hp _ (by omega) (by omega) (by simpa using h5), ok_bind, hz0]
  have hz1 : horner (rounded p) [] (rounded p).zero = .num 0 := rfl
  rw [hz1, hadd, ok_bind, scaled, if_neg (by simp), ok_bind, neg_withSign]

/-- **C30**, with rounding: a number with digits on both sides of the point, each side an integer of at most `p` bits: two roundings, of the
fraction and of the sum. -/
theorem C30_decimal_two_roundings (p : Nat) (hp : 1 ≤ p) (hp64 : p ≤ 64) (sg : List Byte) (neg : Bool) (ip fd en : List Byte) (hs : Sign sg neg)
    (hip : ∀ c ∈ ip, isDigit c) (hfd : ∀ c ∈ fd, isDigit c) (hne : fd ≠ []) (hen : Suffix en) (hv : decVal ip ≤ 2 ^ p) (hf : decVal fd ≤ 2 ^ p)
    (h5 : 5 ^ fd.length ≤ 2 ^ p) :
    ∃ f r, Nearest p (decVal fd / 10 ^ fd.length) f ∧ Nearest p (decVal ip + f) r ∧
      realParse (rounded p) doubleMin (sg ++ (ip ++ (46 :: fd ++ en))) = ok (some (withSign neg r)) := by
  have hl := pow5_small _ _ h5 hp64
  have hl0 : fd.length ≠ 0 := fun h => hne (List.length_eq_zero_iff.mp h)
  have h := realParse_usual (rounded p) doubleMin sg neg ip (46 :: fd) fd [] [] 0 en hs hip (Or.inr ⟨rfl, hfd⟩) (by simp [hne])
    (Or.inl ⟨rfl, rfl, rfl⟩) (by simp) hen (by omega) (by omega)
  simp only [List.nil_append] at h
  refine ⟨rnd p (decVal fd / 10 ^ fd.length), rnd p (decVal ip + rnd p (decVal fd / 10 ^ fd.length)), rnd_nearest p hp _, rnd_nearest p hp _, ?_⟩
  have hadd : (rounded p).add (.num (decVal ip : ℚ)) (.num (rnd p (decVal fd * (10 : ℚ) ^ (-(fd.length : Int))))) =
      .num (rnd p (decVal ip + rnd p (decVal fd / 10 ^ fd.length))) := by
    show Val.num (rnd p (_ + rnd p _)) = _
    rw [zpow_neg, zpow_natCast, div_eq_mul_inv]
  rw [h, mantissa, if_neg hne, horner_rounded0 p hp _ hf, pow10_rounded p hp _ (by omega) (by omega) (by simpa using h5), ok_bind,
    horner_rounded0 p hp _ (by rw [decVal_skipZeros]; exact hv), decVal_skipZeros, hadd, ok_bind, scaled, if_neg (by simp), ok_bind, neg_withSign]

/-! ## Error bound for all texts covered by the tables -/

/-- `w` differs from `v` by at most `n` relative errors of `u`. -/
def Within (u : ℚ) (n : Nat) (v w : ℚ) : Prop := v * (1 - u) ^ n ≤ w ∧ w ≤ v * (1 + u) ^ n

theorem within_self (u v : ℚ) : Within u 0 v v := by simp [Within]

theorem within_nonneg {u v w : ℚ} {n : Nat} (hu : 0 < u ∧ u ≤ 1 / 2) (hv : 0 ≤ v) (h : Within u n v w) : 0 ≤ w :=
  le_trans (mul_nonneg hv (pow_nonneg (by linarith [hu.2]) n)) h.1

theorem within_mono {u v w : ℚ} {n k : Nat} (hu : 0 < u ∧ u ≤ 1 / 2) (hv : 0 ≤ v) (hk : n ≤ k) (h : Within u n v w) : Within u k v w := by
  refine ⟨le_trans (mul_le_mul_of_nonneg_left ?_ hv) h.1, le_trans h.2 (mul_le_mul_of_nonneg_left ?_ hv)⟩
  · exact pow_le_pow_of_le_one (by linarith [hu.2]) (by linarith [hu.1]) hk
  · exact pow_le_pow_right₀ (by linarith [hu.1]) hk

theorem within_factor {u v w f : ℚ} {n j : Nat} (hu : 0 < u ∧ u ≤ 1 / 2) (hv : 0 ≤ v) (h : Within u n v w) (h1 : (1 - u) ^ j ≤ f) (h2 : f ≤ (1 + u) ^ j) :
    Within u (n + j) v (w * f) := by
  have hw := within_nonneg hu hv h
  have hf : 0 ≤ f := le_trans (pow_nonneg (by linarith [hu.2]) j) h1
  constructor
  · rw [pow_add, ← mul_assoc]
    exact mul_le_mul h.1 h1 (pow_nonneg (by linarith [hu.2]) j) hw
  · rw [pow_add, ← mul_assoc]
    exact mul_le_mul h.2 h2 hf (mul_nonneg hv (pow_nonneg (by linarith [hu.1]) n))

theorem rnd_factor (p : Nat) (q : ℚ) (hq : 0 ≤ q) : q * (1 - 1 / 2 ^ p) ≤ rnd p q ∧ rnd p q ≤ q * (1 + 1 / 2 ^ p) := by
  have := abs_le.mp (rnd_error p q)
  rw [abs_of_nonneg hq] at this
  constructor <;> nlinarith [this.1, this.2]

theorem within_rnd (p : Nat) (hu : (0 : ℚ) < 1 / 2 ^ p ∧ (1 : ℚ) / 2 ^ p ≤ 1 / 2) {v w : ℚ} {n : Nat} (hv : 0 ≤ v) (h : Within (1 / 2 ^ p) n v w) :
    Within (1 / 2 ^ p) (n + 1) v (rnd p w) := by
  have hw := within_nonneg hu hv h
  obtain ⟨a, b⟩ := rnd_factor p w hw
  constructor
  · rw [pow_succ, ← mul_assoc]
    exact le_trans (mul_le_mul_of_nonneg_right h.1 (by linarith [hu.2])) a
  · rw [pow_succ, ← mul_assoc]
    exact le_trans b (mul_le_mul_of_nonneg_right h.2 (by linarith [hu.1]))

theorem within_add {u v w v' w' : ℚ} {n : Nat} (h : Within u n v w) (h' : Within u n v' w') : Within u n (v + v') (w + w') := by
  constructor <;> rw [add_mul]
  · exact add_le_add h.1 h'.1
  · exact add_le_add h.2 h'.2

theorem within_scale {u v w c : ℚ} {n : Nat} (hc : 0 ≤ c) (h : Within u n v w) : Within u n (v * c) (w * c) := by
  constructor <;> rw [mul_right_comm]
  · exact mul_le_mul_of_nonneg_right h.1 hc
  · exact mul_le_mul_of_nonneg_right h.2 hc

theorem horner_within (p : Nat) (hu : (0 : ℚ) < 1 / 2 ^ p ∧ (1 : ℚ) / 2 ^ p ≤ 1 / 2) (ds : List Byte) : ∀ (k : Nat) (v w : ℚ), 0 ≤ v →
    Within (1 / 2 ^ p) k v w →
    ∃ r, horner (rounded p) ds (.num w) = .num r ∧ Within (1 / 2 ^ p) (k + 2 * ds.length) (v * 10 ^ ds.length + decVal ds) r := by
  induction ds with
  | nil => intro k v w _ h; exact ⟨w, rfl, by simpa [decVal] using h⟩
  | cons c ds ih =>
    intro k v w hv h
    have h1 := within_rnd p hu (mul_nonneg hv (by norm_num : (0 : ℚ) ≤ 10)) (within_scale (by norm_num : (0 : ℚ) ≤ 10) h)
    have h2 : Within (1 / 2 ^ p) (k + 1) ((c.toNat - 48 : Nat) : ℚ) ((c.toNat - 48 : Nat) : ℚ) :=
      within_mono hu (Nat.cast_nonneg _) (Nat.zero_le _) (within_self _ _)
    have hn : 0 ≤ v * 10 + ((c.toNat - 48 : Nat) : ℚ) := add_nonneg (mul_nonneg hv (by norm_num)) (Nat.cast_nonneg _)
    have h3 := within_rnd p hu hn (within_add h1 h2)
    obtain ⟨r, e, hr⟩ := ih _ _ _ hn h3
    refine ⟨r, e, ?_⟩
    rw [decVal_cons, List.length_cons]
    have e1 : k + 2 * (ds.length + 1) = k + 1 + 1 + 2 * ds.length := by ring
    have e2 : v * 10 ^ (ds.length + 1) + (((c.toNat - 48) * 10 ^ ds.length + decVal ds : Nat) : ℚ) =
        (v * 10 + ((c.toNat - 48 : Nat) : ℚ)) * 10 ^ ds.length + decVal ds := by push_cast; ring
    rw [e1, e2]
    exact hr

theorem table_factor (p : Nat) (hu : (0 : ℚ) < 1 / 2 ^ p ∧ (1 : ℚ) / 2 ^ p ≤ 1 / 2) (e : Nat) (he : e ≠ 0) :
    ∃ f, rnd p (tableEntry e) = 10 ^ e * f ∧ (1 - 1 / 2 ^ p) ^ 1 ≤ f ∧ f ≤ (1 + 1 / 2 ^ p) ^ 1 := by
  rw [tableEntry_pos he]
  have hpos : (0 : ℚ) < 10 ^ e := by positivity
  obtain ⟨a, b⟩ := rnd_factor p ((10 : ℚ) ^ e) hpos.le
  refine ⟨rnd p (10 ^ e) / 10 ^ e, by field_simp, ?_, ?_⟩
  · rw [pow_one, le_div_iff₀ hpos]; linarith
  · rw [pow_one, div_le_iff₀ hpos]; linarith

theorem inv_factor {u f : ℚ} (hu : 0 < u ∧ u ≤ 1 / 2) (h1 : (1 - u) ^ 1 ≤ f) (h2 : f ≤ (1 + u) ^ 1) : (1 - u) ^ 2 ≤ f⁻¹ ∧ f⁻¹ ≤ (1 + u) ^ 2 := by
  rw [pow_one] at h1 h2
  obtain ⟨h3, h4⟩ := hu
  have hf : 0 < f := by linarith
  constructor
  · rw [le_inv_comm₀ (by nlinarith) hf]
    refine le_trans h2 ?_
    rw [le_inv_comm₀ (by linarith) (by nlinarith)]
    rw [← one_div, le_div_iff₀ (by linarith)]
    nlinarith [mul_pos h3 h3, mul_nonneg (mul_nonneg h3.le h3.le) h3.le]
  · rw [inv_le_comm₀ hf (by nlinarith)]
    refine le_trans ?_ h1
    rw [← one_div, div_le_iff₀ (by nlinarith)]
    nlinarith [mul_pos h3 h3, mul_nonneg h3.le (by linarith : 0 ≤ 1 / 2 - u), mul_nonneg (mul_nonneg h3.le h3.le) (by linarith : 0 ≤ 1 / 2 - u)]

theorem mulTable_within (p : Nat) (hu : (0 : ℚ) < 1 / 2 ^ p ∧ (1 : ℚ) / 2 ^ p ≤ 1 / 2) (e : Nat) (he : e ≠ 0) {n : Nat} {v w : ℚ} (hv : 0 ≤ v)
    (h : Within (1 / 2 ^ p) n v w) :
    ∃ r, (rounded p).mulTable (.num w) e = .num r ∧ Within (1 / 2 ^ p) (n + 2) (v * 10 ^ e) r := by
  obtain ⟨f, hf, h1, h2⟩ := table_factor p hu e he
  have a := within_factor hu (mul_nonneg hv (by positivity)) (within_scale (c := 10 ^ e) (by positivity) h) h1 h2
  refine ⟨rnd p (w * rnd p (tableEntry e)), rfl, ?_⟩
  rw [hf, ← mul_assoc]
  exact within_rnd p hu (mul_nonneg hv (by positivity)) a

theorem divTable_within (p : Nat) (hu : (0 : ℚ) < 1 / 2 ^ p ∧ (1 : ℚ) / 2 ^ p ≤ 1 / 2) (e : Nat) (he : e ≠ 0) {n : Nat} {v w : ℚ} (hv : 0 ≤ v)
    (h : Within (1 / 2 ^ p) n v w) :
    ∃ r, (rounded p).divTable (.num w) e = .num r ∧ Within (1 / 2 ^ p) (n + 3) (v / 10 ^ e) r := by
  obtain ⟨f, hf, h1, h2⟩ := table_factor p hu e he
  obtain ⟨g1, g2⟩ := inv_factor hu h1 h2
  have a := within_factor hu (mul_nonneg hv (by positivity)) (within_scale (c := (10 ^ e)⁻¹) (by positivity) h) g1 g2
  refine ⟨rnd p (w / rnd p (tableEntry e)), rfl, ?_⟩
  have e1 : w / (10 ^ e * f) = w * (10 ^ e)⁻¹ * f⁻¹ := by rw [div_eq_mul_inv, mul_inv, ← mul_assoc]
  rw [hf, e1, div_eq_mul_inv v]
  exact within_rnd p hu (mul_nonneg hv (by positivity)) a

theorem pow10_within (p : Nat) (hu : (0 : ℚ) < 1 / 2 ^ p ∧ (1 : ℚ) / 2 ^ p ≤ 1 / 2) (x : Int) (hx : x ≠ 0) (hr : -615 ≤ x ∧ x ≤ 308) {n : Nat} {v w : ℚ}
    (hv : 0 ≤ v) (h : Within (1 / 2 ^ p) n v w) :
    ∃ r, pow10 (rounded p) doubleMin (.num w) x = ok (.num r) ∧ Within (1 / 2 ^ p) (n + 6) (v * (10 : ℚ) ^ x) r := by
  have hvx : 0 ≤ v * (10 : ℚ) ^ x := mul_nonneg hv (by positivity)
  unfold pow10 fract10Size doubleMin
  rw [if_neg (by omega)]
  by_cases hm : -307 ≤ x
  · rw [if_pos hm, if_pos (by omega)]
    by_cases hp : 0 < x
    · rw [if_pos hp]
      obtain ⟨r, e, hw⟩ := mulTable_within p hu x.natAbs (by omega) hv h
      refine ⟨r, by rw [e], ?_⟩
      obtain ⟨k, rfl⟩ := Int.eq_ofNat_of_zero_le (by omega : 0 ≤ x)
      have : (v * (10 : ℚ) ^ ((k : Nat) : Int)) = v * 10 ^ k := by rw [zpow_natCast]
      rw [this] at hvx ⊢
      exact within_mono hu hvx (by omega) hw
    · rw [if_neg hp]
      obtain ⟨r, e, hw⟩ := divTable_within p hu x.natAbs (by omega) hv h
      refine ⟨r, by rw [e], ?_⟩
      obtain ⟨k, hk⟩ := Int.eq_ofNat_of_zero_le (by omega : 0 ≤ -x)
      have hxk : x = -(k : Int) := by omega
      subst hxk
      have : v * (10 : ℚ) ^ (-(k : Int)) = v / 10 ^ k := by rw [zpow_neg, zpow_natCast, div_eq_mul_inv]
      rw [this] at hvx ⊢
      have ek : (-(k : Int)).natAbs = k := by omega
      rw [ek] at hw
      exact within_mono hu hvx (by omega) hw
  · rw [if_neg hm, if_pos (by decide), if_pos (by omega)]
    obtain ⟨r1, e1, hw1⟩ := divTable_within p hu (-(-307 : Int)).toNat (by decide) hv h
    obtain ⟨r2, e2, hw2⟩ := divTable_within p hu (-x + -307).toNat (by omega) (div_nonneg hv (by positivity)) hw1
    refine ⟨r2, by rw [e1, e2], ?_⟩
    obtain ⟨k, hk⟩ := Int.eq_ofNat_of_zero_le (by omega : 0 ≤ -x + -307)
    have hxk : x = -((307 + k : Nat) : Int) := by omega
    have : v * (10 : ℚ) ^ x = v / 10 ^ (-(-307 : Int)).toNat / 10 ^ (-x + -307).toNat := by
      rw [hk]
      simp only [neg_neg, Int.toNat_natCast]
      rw [hxk, zpow_neg, zpow_natCast, pow_add, mul_inv, div_eq_mul_inv, div_eq_mul_inv, mul_assoc]
      rfl
    rw [this]
    exact hw2

/-- **C30**, with rounding: every number in the usual notation whose digits behind the point and exponent are covered by the tables of `double` is
converted with a relative error of at most `2 * max(digits before, digits behind) + 13` roundings, each of at most `2^-p`. -/
theorem C30_error_bound (p : Nat) (hp : 1 ≤ p) (sg : List Byte) (neg : Bool) (ip fp fd ex ed : List Byte) (x : Int) (en : List Byte)
    (hs : Sign sg neg) (hip : ∀ c ∈ ip, isDigit c) (hfp : Fraction fp fd) (hdig : ip ++ fd ≠ []) (hex : Exponent ex ed x) (hed : ex ≠ [] → ed ≠ [])
    (hen : Suffix en) (hfl : fd.length ≤ 615) (hx : -615 ≤ x ∧ x ≤ 308) :
    let v := (decVal ip + decVal fd / 10 ^ fd.length) * (10 : ℚ) ^ x
    let n := 2 * max ip.length fd.length + 13
    ∃ r, realParse (rounded p) doubleMin (sg ++ (ip ++ (fp ++ (ex ++ en)))) = ok (some (withSign neg r)) ∧
      v * (1 - 1 / 2 ^ p) ^ n ≤ r ∧ r ≤ v * (1 + 1 / 2 ^ p) ^ n := by
  intro v n
  have hu : (0 : ℚ) < 1 / 2 ^ p ∧ (1 : ℚ) / 2 ^ p ≤ 1 / 2 := by
    refine ⟨by positivity, ?_⟩
    apply one_div_le_one_div_of_le (by norm_num)
    calc (2 : ℚ) = 2 ^ 1 := by norm_num
      _ ≤ 2 ^ p := pow_le_pow_right₀ (by norm_num) hp
  have h := realParse_usual (rounded p) doubleMin sg neg ip fp fd ex ed x en hs hip hfp hdig hex hed hen (by omega) (by omega)
  set M := max ip.length fd.length with hM
  have hzl : (skipZeros ip).length ≤ ip.length := by
    obtain ⟨k, k1, _⟩ := skipZeros_spec ip
    have := congrArg List.length k1
    simp only [List.length_append] at this
    omega
  obtain ⟨a, ea, ha⟩ := horner_within p hu (skipZeros ip) 0 0 0 le_rfl (within_self _ _)
  rw [zero_mul, zero_add, decVal_skipZeros, zero_add] at ha
  have hmant : ∃ d, mantissa (rounded p) doubleMin ip fd = ok (.num d) ∧ Within (1 / 2 ^ p) (2 * M + 7) (decVal ip + decVal fd / 10 ^ fd.length) d := by
    unfold mantissa
    by_cases hf : fd = []
    · rw [if_pos hf]
      refine ⟨a, congrArg _ ea, ?_⟩
      subst hf
      have : ((decVal ip : ℚ) + (decVal [] : Nat) / 10 ^ ([] : List Byte).length) = decVal ip := by simp [decVal]
      rw [this]
      exact within_mono hu (Nat.cast_nonneg _) (by omega) ha
    · rw [if_neg hf]
      obtain ⟨b, eb, hb⟩ := horner_within p hu fd 0 0 0 le_rfl (within_self _ _)
      rw [zero_mul, zero_add, zero_add] at hb
      have hl0 : fd.length ≠ 0 := fun h => hf (List.length_eq_zero_iff.mp h)
      obtain ⟨c, ec, hc⟩ := pow10_within p hu (-(fd.length : Int)) (by omega) (by omega) (Nat.cast_nonneg _) hb
      have eb' : horner (rounded p) fd (rounded p).zero = .num b := eb
      have ea' : horner (rounded p) (skipZeros ip) (rounded p).zero = .num a := ea
      rw [eb', ec, ok_bind, ea']
      refine ⟨rnd p (a + c), rfl, ?_⟩
      have e : (decVal fd : ℚ) * (10 : ℚ) ^ (-(fd.length : Int)) = decVal fd / 10 ^ fd.length := by rw [zpow_neg, zpow_natCast, div_eq_mul_inv]
      rw [e] at hc
      have h0 : (0 : ℚ) ≤ decVal fd / 10 ^ fd.length := by positivity
      have h1 : Within (1 / 2 ^ p) (2 * M + 6) (decVal ip : ℚ) a := within_mono hu (Nat.cast_nonneg _) (by omega) ha
      have h2 : Within (1 / 2 ^ p) (2 * M + 6) ((decVal fd : ℚ) / 10 ^ fd.length) c := within_mono hu h0 (by omega) hc
      exact within_rnd p hu (add_nonneg (Nat.cast_nonneg _) h0) (within_add h1 h2)
  obtain ⟨d, ed', hd⟩ := hmant
  have hm0 : (0 : ℚ) ≤ decVal ip + decVal fd / 10 ^ fd.length := by positivity
  have hsc : ∃ r, scaled (rounded p) doubleMin (.num d) x = ok (.num r) ∧ Within (1 / 2 ^ p) n v r := by
    unfold scaled
    by_cases hx0 : x = 0
    · rw [if_neg (by simpa using hx0)]
      refine ⟨d, rfl, ?_⟩
      have : v = decVal ip + decVal fd / 10 ^ fd.length := by simp only [v]; rw [hx0, zpow_zero, mul_one]
      rw [this]
      exact within_mono hu hm0 (by omega) hd
    · rw [if_pos hx0]
      exact pow10_within p hu x hx0 hx hm0 hd
  obtain ⟨r, er, hr⟩ := hsc
  refine ⟨r, ?_, hr⟩
  rw [h, ed', ok_bind, er, ok_bind, neg_withSign]

/-- Non-vacuity: `-0042` and `5e-22` and `.1` as `double`. -/
example : realParse (rounded 53) doubleMin [45, 48, 48, 52, 50] = ok (some (.num (-42))) :=
  C30_integer_exact 53 (by omega) doubleMin [45] true [48, 48, 52, 50] [] (by simp [Sign]) (by decide) (by simp) (Or.inl rfl) (by decide)
example : ∃ r, Nearest 53 (5 * (10 : ℚ) ^ (-22 : Int)) r ∧ realParse (rounded 53) doubleMin [53, 101, 45, 50, 50] = ok (some (.num r)) := by
  have := C30_correctly_rounded 53 (by omega) (by omega) [] false [53] [101, 45, 50, 50] [50, 50] [] (-22) (by simp [Sign]) (by decide) (by simp)
    (Or.inr ⟨101, [45], true, by simp, by simp [Sign], by decide, rfl, by decide⟩) (by simp) (Or.inl rfl) (by decide) (by decide)
  have e : decVal [53] = 5 := by decide
  rw [e] at this
  simpa [withSign] using this
example : ∃ r, Nearest 53 (1 / 10 ^ 1) r ∧ realParse (rounded 53) doubleMin [46, 49] = ok (some (.num r)) := by
  have := C30_fraction_correctly_rounded 53 (by omega) (by omega) [] false [] [49] [] (by simp [Sign]) (by simp) (by decide) (by simp) (Or.inl rfl)
    (by decide) (by decide)
  have e : decVal [49] = 1 := by decide
  rw [e] at this
  simpa [withSign] using this
/-- 0.1 is not representable: rounding does happen. -/
example : ¬ Rep 53 (1 / 10) := by
  rintro ⟨k, j, _, h⟩
  have h5 : (k : ℚ) * 10 * (2 : ℚ) ^ j = 1 := by linarith
  rcases Int.le_total 0 j with hj | hj
  · obtain ⟨n, rfl⟩ := Int.eq_ofNat_of_zero_le hj
    have h6 : (k * 10 * 2 ^ n : ℤ) = 1 := by
      have : ((k * 10 * 2 ^ n : ℤ) : ℚ) = 1 := by push_cast; rw [← h5]; simp
      exact_mod_cast this
    have : (10 : ℤ) ∣ 1 := ⟨k * 2 ^ n, by linarith⟩
    omega
  · obtain ⟨n, hn⟩ := Int.eq_ofNat_of_zero_le (by omega : 0 ≤ -j)
    have hjn : j = -(n : Int) := by omega
    subst hjn
    have h6 : (k * 10 : ℤ) = 2 ^ n := by
      have : ((k * 10 : ℤ) : ℚ) = ((2 ^ n : ℤ) : ℚ) := by
        rw [zpow_neg, zpow_natCast] at h5
        have hp : (2 : ℚ) ^ n ≠ 0 := by positivity
        field_simp at h5
        push_cast
        exact h5
      exact_mod_cast this
    have h7 : (5 : ℤ) ∣ 2 ^ n := ⟨k * 2, by linarith⟩
    have h8 : 5 ∣ 2 ^ n := by exact_mod_cast h7
    have h9 := (Nat.Prime.dvd_of_dvd_pow (by norm_num) h8 : 5 ∣ 2)
    omega

example := C30_decimal_two_roundings 53 (by omega) (by omega) [45] true [49, 50] [51, 52] [] (by simp [Sign]) (by decide) (by decide) (by simp) (Or.inl rfl)
  (by decide) (by decide) (by decide)

end Strtk.Real
