import Verif.Real.Lemmas
import Mathlib.Algebra.Order.Field.Rat
import Mathlib.Tactic.FieldSimp
import Mathlib.Tactic.Ring

/-!
# C30: text → real conversion
-/

namespace Strtk.Real
open Outcome Mem Number

/-! ## Which texts are accepted -/

theorem wordValue_some {R : Type} (o : Ops R) (neg : Bool) (s : List Byte) (v : R) (h : wordValue o neg s = some v) : InfWord s ∨ NanWord s := by
  unfold wordValue at h
  by_cases h1 : InfWord s
  · exact Or.inl h1
  · rw [if_neg h1] at h
    by_cases h2 : NanWord s
    · exact Or.inr h2
    · rw [if_neg h2] at h; cases h

theorem end_accept {R : Type} (o : Ops R) (m : Int) (neg inst : Bool) (d : R) (x : Int) (c : Byte) (t : List Byte) (v : R)
    (h : endAndFinish o m neg inst d x c (c :: t) = ok (some v)) : (Letter c ∧ t = [] ∧ inst = true) ∨ SpecialEnd (c :: t) := by
  rw [endAndFinish_cons] at h
  by_cases h1 : Letter c
  · rw [if_pos h1] at h
    by_cases h2 : t = []
    · rw [if_pos h2] at h
      left
      refine ⟨h1, h2, ?_⟩
      cases inst with
      | true => rfl
      | false => unfold finish at h; rw [if_pos (Or.inr rfl)] at h; cases h
    · rw [if_neg h2] at h; cases h
  · right
    rw [if_neg h1] at h
    by_cases h2 : c = 35
    · rw [if_pos h2] at h
      by_cases h3 : t = []
      · rw [if_pos h3] at h; cases h
      · rw [if_neg h3] at h
        exact ⟨t, wordValue_some o neg t v (by cases h' : wordValue o neg t <;> rw [h'] at h <;> cases h; rfl), Or.inr (by rw [h2])⟩
    · rw [if_neg h2] at h
      exact ⟨c :: t, wordValue_some o neg _ v (by cases h' : wordValue o neg (c :: t) <;> rw [h'] at h <;> cases h; rfl), Or.inl rfl⟩

theorem afterMantissa_accept {R : Type} (o : Ops R) (m : Int) (neg inst : Bool) (d : R) (s : List Byte) (v : R)
    (h : afterMantissa o m neg inst d s = ok (some v)) :
    ∃ ex ed x stray en, s = ex ++ stray ++ en ∧ Exponent ex ed x ∧ stray.length ≤ 1 ∧ (ex = [] → stray = []) ∧
      ((Suffix en ∧ inst = true ∧ (en = [] → stray = [] ∧ (ex ≠ [] → ed ≠ []))) ∨ SpecialEnd en) := by
  have hfin : ∀ x, finish o m neg inst d x [] = ok (some v) → inst = true := by
    intro x h
    cases inst with
    | true => rfl
    | false => unfold finish at h; rw [if_pos (Or.inr rfl)] at h; cases h
  cases s with
  | nil =>
    exact ⟨[], [], 0, [], [], rfl, Or.inl ⟨rfl, rfl, rfl⟩, by simp, fun _ => rfl, Or.inl ⟨Or.inl rfl, hfin 0 h, fun _ => ⟨rfl, fun h => absurd rfl h⟩⟩⟩
  | cons c t =>
    by_cases he : c = 101 ∨ c = 69
    · rcases parseExp_total t with ⟨sg, n, ds, h1, h2, h3, h4⟩ | ⟨sg, n, ds, stray, rest, h1, h2, h3, h4, h5⟩
      · rw [afterMantissa_exp_true o m neg inst d c t _ he h4] at h
        exact ⟨c :: t, ds, _, [], [], by simp, Or.inr ⟨c, sg, n, he, h1, h2.2, by rw [h3], rfl⟩, by simp, fun _ => rfl,
          Or.inl ⟨Or.inl rfl, hfin _ h, fun _ => ⟨rfl, fun _ => h2.1⟩⟩⟩
      · rw [afterMantissa_exp_false o m neg inst d c t _ rest he h5] at h
        cases rest with
        | nil => cases h
        | cons c' t' =>
          refine ⟨c :: (sg ++ ds), ds, _, stray, c' :: t', by rw [h4]; simp, Or.inr ⟨c, sg, n, he, h1, h2, rfl, rfl⟩, h3, by simp, ?_⟩
          rcases end_accept o m neg inst d _ c' t' v h with ⟨a, b, e⟩ | a
          · left; exact ⟨Or.inr ⟨c', a, by rw [b]⟩, e, by intro h; cases h⟩
          · exact Or.inr a
    · rw [afterMantissa_plain o m neg inst d c t ⟨fun h => he (Or.inl h), fun h => he (Or.inr h)⟩] at h
      refine ⟨[], [], 0, [], c :: t, rfl, Or.inl ⟨rfl, rfl, rfl⟩, by simp, fun _ => rfl, ?_⟩
      rcases end_accept o m neg inst d _ c t v h with ⟨a, b, e⟩ | a
      · left; exact ⟨Or.inr ⟨c, a, by rw [b]⟩, e, by intro h; cases h⟩
      · exact Or.inr a

theorem fraction_cases (rest : List Byte) : (∃ fd r, rest = 46 :: (fd ++ r) ∧ (∀ c ∈ fd, isDigit c) ∧ Stop r) ∨ ∀ t, rest ≠ 46 :: t := by
  by_cases h : ∃ t, rest = 46 :: t
  · obtain ⟨t, rfl⟩ := h
    obtain ⟨fd, r, h1, h2, h3⟩ := span_digits t
    exact Or.inl ⟨fd, r, by rw [h1], h2, h3⟩
  · exact Or.inr (fun t ht => h ⟨t, ht⟩)

/-- **C30**: a text that is converted consists of an optional sign, digits, an optional fraction, an optional exponent, **at most one stray
character after the exponent**, and either an optional suffix letter – then there is a digit before the exponent – or an `inf`/`nan` word
with an optional `#`. Without a suffix or word there is no stray character and the exponent has a digit. Missing: the stray character
should not be accepted, see `C30_stray`; nor should the digits before a word. -/
theorem C30_accepts_only_partial {R : Type} (o : Ops R) (m : Int) (s : List Byte) (v : R) (h : realParse o m s = ok (some v)) :
    ∃ sg neg ip fp fd ex ed x stray en, s = sg ++ ip ++ fp ++ ex ++ stray ++ en ∧ Sign sg neg ∧ (∀ c ∈ ip, isDigit c) ∧ Fraction fp fd ∧
      Exponent ex ed x ∧ stray.length ≤ 1 ∧ (ex = [] → stray = []) ∧
      ((Suffix en ∧ ip ++ fd ≠ [] ∧ (en = [] → stray = [] ∧ (ex ≠ [] → ed ≠ []))) ∨ SpecialEnd en) := by
  obtain ⟨sg, neg, body, h1, h2, _, h4⟩ := realParse_split o m s
  rw [h] at h4
  by_cases hb : body = []
  · rw [if_pos hb] at h4; cases h4
  rw [if_neg hb] at h4
  obtain ⟨ip, rest, h5, h6, h7⟩ := span_digits body
  subst h5
  rw [intPart_spec o m neg ip rest h6 h7 hb] at h4
  rcases fraction_cases rest with ⟨fd, r, rfl, hfd, hr⟩ | hno
  · rw [fraction_dot o m neg _ _ fd r hfd hr] at h4
    have key : ∀ inst d, afterMantissa o m neg inst d r = ok (some v) → (inst = true → ip ++ fd ≠ []) →
        ∃ sg neg ip fp fd ex ed x stray en, s = sg ++ ip ++ fp ++ ex ++ stray ++ en ∧ Sign sg neg ∧ (∀ c ∈ ip, isDigit c) ∧ Fraction fp fd ∧
      Exponent ex ed x ∧ stray.length ≤ 1 ∧ (ex = [] → stray = []) ∧
      ((Suffix en ∧ ip ++ fd ≠ [] ∧ (en = [] → stray = [] ∧ (ex ≠ [] → ed ≠ []))) ∨ SpecialEnd en) := by
      intro inst d ha hi
      obtain ⟨ex, ed, x, stray, en, a1, a2, a3, a4, a5⟩ := afterMantissa_accept o m neg inst d r v ha
      refine ⟨sg, neg, ip, 46 :: fd, fd, ex, ed, x, stray, en, ?_, h1, h6, Or.inr ⟨rfl, hfd⟩, a2, a3, a4, ?_⟩
      · rw [h2, a1]; simp
      · rcases a5 with ⟨b1, b2, b3⟩ | b
        · exact Or.inl ⟨b1, hi b2, b3⟩
        · exact Or.inr b
    by_cases hf : fd = []
    · rw [if_pos hf] at h4
      exact key _ _ h4.symm (by intro hi; simp at hi; simp [hi])
    · rw [if_neg hf] at h4
      obtain ⟨f, e1, e2⟩ := bind_eq_ok.mp h4.symm
      exact key _ _ e2 (by intro _; simp [hf])
  · rw [fraction_other o m neg _ _ rest hno] at h4
    obtain ⟨ex, ed, x, stray, en, a1, a2, a3, a4, a5⟩ := afterMantissa_accept o m neg _ _ rest v h4.symm
    refine ⟨sg, neg, ip, [], [], ex, ed, x, stray, en, ?_, h1, h6, Or.inl ⟨rfl, rfl⟩, a2, a3, a4, ?_⟩
    · rw [h2, a1]; simp
    · rcases a5 with ⟨b1, b2, b3⟩ | b
      · left; refine ⟨b1, ?_, b3⟩; simp at b2; simp [b2]
      · exact Or.inr b

theorem letter_props {c : Byte} (h : Letter c) : ¬ isDigit c ∧ c ≠ 45 ∧ c ≠ 43 ∧ c ≠ 46 ∧ c ≠ 101 ∧ c ≠ 69 := by
  rcases h with rfl | rfl | rfl | rfl <;> decide

theorem digit_props {c : Byte} (h : isDigit c) : c ≠ 45 ∧ c ≠ 43 ∧ c ≠ 46 := by
  refine ⟨?_, ?_, ?_⟩ <;> rintro rfl <;> revert h <;> decide

/-- **C30** (negative result): *any* character that is no digit is accepted between `e` and a suffix letter, and ignored. -/
theorem C30_stray {R : Type} (o : Ops R) (m : Int) (ip : List Byte) (e c l : Byte) (h1 : Digits ip) (he : e = 101 ∨ e = 69) (hc : ¬ isDigit c)
    (hl : Letter l) : realParse o m (ip ++ [e, c, l]) = ok (some (horner o (skipZeros ip) o.zero)) := by
  obtain ⟨l1, l2, l3, l4, l5, l6⟩ := letter_props hl
  obtain ⟨a, ip', hip⟩ := List.exists_cons_of_ne_nil h1.1
  have hstop : Stop [e, c, l] := by intro x t hx; cases hx; rcases he with rfl | rfl <;> decide
  have e1 := realParse_sign o m [] false (ip ++ [e, c, l]) (Or.inl ⟨rfl, rfl⟩) (by simp) (by
    intro _ x t hx
    rw [hip] at hx
    cases hx
    have := digit_props (h1.2 a (by rw [hip]; simp))
    exact ⟨this.1, this.2.1⟩)
  rw [List.nil_append] at e1
  rw [e1, intPart_spec o m false ip _ h1.2 hstop (by simp), fraction_other _ _ _ _ _ _ (by
    intro t ht; cases ht; rcases he with h | h <;> revert h <;> decide)]
  have hpe : parseExp [c, l] = ok (false, [l], 0) := by
    have hsl : Stop [l] := by intro x t hx; cases hx; exact l1
    by_cases hs : c = 45 ∨ c = 43
    · have e2 := parseExp_sign [c] (decide (c = 45)) [l] (by rcases hs with rfl | rfl <;> simp [Sign]) (by simp) (by intro h; cases h)
      have e3 := (expDigits_spec (decide (c = 45)) [] [l] (by simp) hsl).1 (by simp [skipZeros])
      rw [List.nil_append] at e3
      rw [List.singleton_append] at e2
      rw [e2, e3]
      simp [signed, decVal]
    · have hsc : Stop [c, l] := by intro x t hx; cases hx; exact hc
      have e2 := parseExp_sign [] false [c, l] (Or.inl ⟨rfl, rfl⟩) (by simp) (by
        intro _ x t hx; cases hx; exact ⟨fun h => hs (Or.inl h), fun h => hs (Or.inr h)⟩)
      have e3 := (expDigits_spec false [] [c, l] (by simp) hsc).1 (by simp [skipZeros])
      rw [List.nil_append] at e2 e3
      rw [e2, e3]
      simp [signed, decVal]
  rw [afterMantissa_exp_false o m false _ _ e [c, l] _ _ he hpe]
  simp only []
  rw [endAndFinish_cons, if_pos hl, if_pos rfl]
  simp [finish, h1.1]

/-! ## The tables -/

theorem pow10_safe {R : Type} (o : Ops R) (m : Int) (N : Nat) (hm : (m = doubleMin ∧ N = 615) ∨ (m = longDoubleMin ∧ N = 4931)) (d : R) (x : Int)
    (hx : -(N : Int) ≤ x) : ∃ r, pow10 o m d x = ok r := by
  unfold pow10 fract10Size
  have : N ≤ 4931 := by omega
  rw [if_neg (by omega)]
  split
  · split
    · split <;> exact ⟨_, rfl⟩
    · exact ⟨_, rfl⟩
  · rcases hm with ⟨rfl, rfl⟩ | ⟨rfl, rfl⟩
    · unfold doubleMin at *
      rw [if_pos (by decide), if_pos (by omega)]; exact ⟨_, rfl⟩
    · unfold longDoubleMin at *
      omega

theorem finish_safe {R : Type} (o : Ops R) (m : Int) (neg inst : Bool) (d : R) (x : Int) (s : List Byte) (h : ∀ d : R, ∃ r, pow10 o m d x = ok r) :
    ∃ r, finish o m neg inst d x s = ok r := by
  unfold finish
  split
  · exact ⟨_, rfl⟩
  · by_cases hx : x ≠ 0
    · obtain ⟨r, hr⟩ := h d
      rw [if_pos hx, hr]; exact ⟨_, rfl⟩
    · rw [if_neg hx]; exact ⟨_, rfl⟩

theorem end_safe {R : Type} (o : Ops R) (m : Int) (neg inst : Bool) (d : R) (x : Int) (c : Byte) (t : List Byte) (h : ∀ d : R, ∃ r, pow10 o m d x = ok r) :
    ∃ r, endAndFinish o m neg inst d x c (c :: t) = ok r := by
  rw [endAndFinish_cons]
  split
  · split
    · exact finish_safe o m neg inst d x [] h
    · exact ⟨_, rfl⟩
  · split <;> exact ⟨_, rfl⟩

theorem signed_ge (n : Bool) (ds : List Byte) (N : Nat) (h : n = true → decVal ds ≤ N) : -(N : Int) ≤ signed n (decVal ds) := by
  cases n with
  | false => simp only [signed, Bool.false_eq_true, if_false]; omega
  | true => have := h rfl; simp only [signed, if_true]; omega

theorem afterMantissa_safe {R : Type} (o : Ops R) (m : Int) (N : Nat) (hm : (m = doubleMin ∧ N = 615) ∨ (m = longDoubleMin ∧ N = 4931))
    (neg inst : Bool) (d : R) (s : List Byte)
    (hx : ∀ a e ds b, s = a ++ e :: 45 :: (ds ++ b) → (e = 101 ∨ e = 69) → (∀ c ∈ ds, isDigit c) → decVal ds ≤ N) :
    ∃ r, afterMantissa o m neg inst d s = ok r := by
  have h0 : ∀ d : R, ∃ r, pow10 o m d 0 = ok r := fun d => pow10_safe o m N hm d 0 (by omega)
  cases s with
  | nil => exact finish_safe o m neg inst d 0 [] h0
  | cons c t =>
    by_cases he : c = 101 ∨ c = 69
    · rcases parseExp_total t with ⟨sg, n, ds, h1, h2, h3, h4⟩ | ⟨sg, n, ds, stray, rest, h1, h2, h3, h4, h5⟩
      · rw [afterMantissa_exp_true o m neg inst d c t _ he h4]
        refine finish_safe o m neg inst d _ [] (fun d => pow10_safe o m N hm d _ (signed_ge n ds N ?_))
        rintro rfl
        rcases h1 with ⟨_, h⟩ | ⟨_, h⟩ | ⟨rfl, _⟩
        · cases h
        · cases h
        · exact hx [] c ds [] (by rw [h3]; simp) he h2.2
      · rw [afterMantissa_exp_false o m neg inst d c t _ rest he h5]
        cases rest with
        | nil => exact ⟨_, rfl⟩
        | cons c' t' =>
          refine end_safe o m neg inst d _ c' t' (fun d => pow10_safe o m N hm d _ (signed_ge n ds N ?_))
          rintro rfl
          rcases h1 with ⟨_, h⟩ | ⟨_, h⟩ | ⟨rfl, _⟩
          · cases h
          · cases h
          · exact hx [] c ds (stray ++ c' :: t') (by rw [h4]; simp) he h2
    · rw [afterMantissa_plain o m neg inst d c t ⟨fun h => he (Or.inl h), fun h => he (Or.inr h)⟩]
      exact end_safe o m neg inst d 0 c t h0

/-- `static_cast<int>` of a small negative distance. -/
theorem negDistance_small (n : Nat) (h : n < 2 ^ 31) : negDistance n = -(n : Int) := by
  unfold negDistance
  rw [Int.bmod_eq_of_le] <;> omega

/-- **C30**: no text makes the conversion read outside the text or its tables, if no run of digits after a point is longer than `N` and no
negative exponent is lower than `-N`; `N` is 615 for `float` and `double` and 4931 for `long double`. Missing: the other texts, for which
the table is indeed read outside its bounds, see `C30_deep_fraction` and `C30_deep_exponent`. -/
theorem C30_no_over_read_partial {R : Type} (o : Ops R) (m : Int) (N : Nat) (hm : (m = doubleMin ∧ N = 615) ∨ (m = longDoubleMin ∧ N = 4931)) (s : List Byte)
    (hf : ∀ a ds b, s = a ++ 46 :: (ds ++ b) → (∀ c ∈ ds, isDigit c) → ds.length ≤ N)
    (hx : ∀ a e ds b, s = a ++ e :: 45 :: (ds ++ b) → (e = 101 ∨ e = 69) → (∀ c ∈ ds, isDigit c) → decVal ds ≤ N) :
    ∃ r, realParse o m s = ok r := by
  obtain ⟨sg, neg, body, h1, h2, _, h4⟩ := realParse_split o m s
  rw [h4]
  by_cases hb : body = []
  · rw [if_pos hb]; exact ⟨_, rfl⟩
  rw [if_neg hb]
  obtain ⟨ip, rest, h5, h6, h7⟩ := span_digits body
  subst h5
  rw [intPart_spec o m neg ip rest h6 h7 hb]
  rcases fraction_cases rest with ⟨fd, r, rfl, hfd, hr⟩ | hno
  · rw [fraction_dot o m neg _ _ fd r hfd hr]
    have hx' : ∀ a e ds b, r = a ++ e :: 45 :: (ds ++ b) → (e = 101 ∨ e = 69) → (∀ c ∈ ds, isDigit c) → decVal ds ≤ N := by
      intro a e ds b hr he hd
      exact hx (sg ++ ip ++ 46 :: fd ++ a) e ds b (by rw [h2, hr]; simp) he hd
    split
    · exact afterMantissa_safe o m N hm _ _ _ r hx'
    · have hlen := hf (sg ++ ip) fd r (by rw [h2]; simp) hfd
      have hN : N ≤ 4931 := by omega
      obtain ⟨f, hf'⟩ := pow10_safe o m N hm (horner o fd o.zero) (negDistance fd.length) (by rw [negDistance_small _ (by omega)]; omega)
      rw [hf', ok_bind]
      exact afterMantissa_safe o m N hm _ _ _ r hx'
  · rw [fraction_other o m neg _ _ rest hno]
    refine afterMantissa_safe o m N hm _ _ _ rest ?_
    intro a e ds b hr he hd
    exact hx (sg ++ ip ++ a) e ds b (by rw [h2, hr]; simp) he hd

theorem pow10_deep {R : Type} (o : Ops R) (m : Int) (N : Nat) (hm : (m = doubleMin ∧ N = 615) ∨ (m = longDoubleMin ∧ N = 4931)) (d : R) (n : Nat)
    (hn : N < n) : pow10 o m d (-(n : Int)) = ub := by
  unfold pow10 fract10Size
  split
  · rfl
  · rcases hm with ⟨rfl, rfl⟩ | ⟨rfl, rfl⟩
    · unfold doubleMin
      rw [if_neg (by omega), if_pos (by decide), if_neg (by omega)]
    · unfold longDoubleMin
      rw [if_neg (by omega), if_neg (by decide)]

theorem digits_head {ip rest : List Byte} (h1 : ∀ c ∈ ip, isDigit c) (h2 : ∀ c t, rest = c :: t → c ≠ 45 ∧ c ≠ 43) :
    ∀ c t, ip ++ rest = c :: t → c ≠ 45 ∧ c ≠ 43 := by
  intro c t h
  cases ip with
  | nil => exact h2 c t h
  | cons a ip =>
    cases h
    have := digit_props (h1 c (by simp))
    exact ⟨this.1, this.2.1⟩

/-- **C30** (negative result): with more than 615 digits (`long double`: 4931) after the point the table of powers is read outside its bounds. -/
theorem C30_deep_fraction {R : Type} (o : Ops R) (m : Int) (N : Nat) (hm : (m = doubleMin ∧ N = 615) ∨ (m = longDoubleMin ∧ N = 4931))
    (sg : List Byte) (neg : Bool) (ip fd rest : List Byte) (hs : Sign sg neg) (h1 : ∀ c ∈ ip, isDigit c) (h2 : ∀ c ∈ fd, isDigit c) (h3 : Stop rest)
    (hN : N < fd.length) (hmax : fd.length < 2 ^ 31) : realParse o m (sg ++ (ip ++ 46 :: (fd ++ rest))) = ub := by
  have hstop : Stop (46 :: (fd ++ rest)) := by intro c t h; cases h; decide
  rw [realParse_sign o m sg neg _ hs (by simp) (fun _ => digits_head h1 (by intro c t h; cases h; decide)),
    intPart_spec o m neg ip _ h1 hstop (by simp), fraction_dot o m neg _ _ fd rest h2 h3, if_neg (by rintro rfl; simp at hN),
    negDistance_small _ hmax, pow10_deep o m N hm _ _ hN]
  rfl

/-- **C30** (negative result): exponents below -615 (`long double`: -4931) make the table of powers be read outside its bounds. -/
theorem C30_deep_exponent {R : Type} (o : Ops R) (m : Int) (N : Nat) (hm : (m = doubleMin ∧ N = 615) ∨ (m = longDoubleMin ∧ N = 4931))
    (ip ed : List Byte) (e : Byte) (h1 : Digits ip) (h2 : Digits ed) (he : e = 101 ∨ e = 69) (hN : N < decVal ed) (hmax : decVal ed < 10 ^ 4) :
    realParse o m (ip ++ e :: 45 :: ed) = ub := by
  have hstop : Stop (e :: 45 :: ed) := by intro x t hx; cases hx; rcases he with rfl | rfl <;> decide
  have e1 := realParse_sign o m [] false (ip ++ e :: 45 :: ed) (Or.inl ⟨rfl, rfl⟩) (by simp) (fun _ => digits_head h1.2 (by
    intro c t h; cases h; rcases he with rfl | rfl <;> decide))
  rw [List.nil_append] at e1
  rw [e1, intPart_spec o m false ip _ h1.2 hstop (by simp), fraction_other _ _ _ _ _ _ (by
    intro t ht; cases ht; rcases he with h | h <;> revert h <;> decide)]
  have hlen : (skipZeros ed ++ []).length ≤ 4 := by
    rw [List.append_nil]
    obtain ⟨k, k1, k2⟩ := skipZeros_spec ed
    rcases k2 with k2 | ⟨c, t, k2, k3⟩
    · rw [k2]; simp
    · have hd := (digits_skipZeros ed).mpr h2.2
      rw [k2] at hd
      have := decVal_ge c t (hd c (by simp)) k3
      rw [← k2, decVal_skipZeros] at this
      rw [k2, List.length_cons]
      have : 10 ^ t.length < 10 ^ 4 := by omega
      have := (Nat.pow_lt_pow_iff_right (by omega)).mp this
      omega
  have hpe : parseExp (45 :: ed) = ok (true, [], -(decVal ed : Int)) := by
    have e2 := parseExp_sign [45] true ed (Or.inr (Or.inr ⟨rfl, rfl⟩)) h2.1 (by intro h; cases h)
    have e3 := (expDigits_spec true ed [] h2.2 (by intro c t h; cases h)).1 hlen
    rw [List.append_nil] at e3
    rw [List.singleton_append] at e2
    rw [e2, e3]; rfl
  rw [afterMantissa_exp_true o m false _ _ e _ _ he hpe]
  unfold finish
  rw [if_neg (by simp [h1.1]), if_pos (by omega), pow10_deep o m N hm _ _ hN]
  rfl

/-! ## Concrete cases of C30 -/

/-- `7exf` is accepted, and its `x` is the stray character. -/
example {R : Type} (o : Ops R) : ∃ v, realParse o doubleMin [55, 101, 120, 102] = ok (some v) ∧
    ∃ sg neg ip fp fd ex ed x stray en, [55, 101, 120, 102] = sg ++ ip ++ fp ++ ex ++ stray ++ en ∧ Sign sg neg ∧ (∀ c ∈ ip, isDigit c) ∧ Fraction fp fd ∧
      Exponent ex ed x ∧ stray.length ≤ 1 ∧ (ex = [] → stray = []) ∧
      ((Suffix en ∧ ip ++ fd ≠ [] ∧ (en = [] → stray = [] ∧ (ex ≠ [] → ed ≠ []))) ∨ SpecialEnd en) :=
  have h := C30_stray o doubleMin [55] 101 120 102 ⟨by decide, by decide⟩ (Or.inl rfl) (by decide) (by decide)
  ⟨_, h, C30_accepts_only_partial o doubleMin _ _ h⟩

example {R : Type} (o : Ops R) : realParse o doubleMin ([] ++ ([48] ++ 46 :: (List.replicate 616 49 ++ []))) = ub :=
  C30_deep_fraction o doubleMin 615 (Or.inl ⟨rfl, rfl⟩) [] false [48] (List.replicate 616 49) [] (Or.inl ⟨rfl, rfl⟩) (by decide)
    (fun c hc => by rw [(List.mem_replicate.mp hc).2]; decide) (fun c t h => by cases h) (by rw [List.length_replicate]; omega) (by rw [List.length_replicate]; omega)

end Strtk.Real
