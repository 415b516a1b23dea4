import Verif.Number.Lemmas

/-! # Theorems about integer conversions (C28, C29) -/

namespace Strtk.Number
open Outcome Mem

/-! ## Parsing: general statements with the limits actually built into the tables -/

/-- The constants of an unsigned type describe the decimal expansion of the limit `L`. -/
structure UTy.Good (ty : UTy) (L : Nat) : Prop where
  lim : ty.m10 * 10 + ty.ldpos = L
  ld : ty.ldpos < 10
  lo : 10 ^ (ty.boundLength - 1) ≤ L
  hi : L < 10 ^ ty.boundLength
  fit : L < 2 ^ ty.bits
  len : 0 < ty.boundLength ∧ ty.boundLength ≤ 20

theorem uTail_spec (ty : UTy) (L : Nat) (g : ty.Good L) (s : List Byte) (r0 : Nat) (h0 : s = [] ∨ ∃ c t, s = c :: t ∧ c ≠ 48) :
    ((∀ c ∈ s, isDigit c) ∧ decVal s ≤ L → uTail ty s r0 = ok (true, decVal s)) ∧
    (¬ ((∀ c ∈ s, isDigit c) ∧ decVal s ≤ L) → uTail ty s r0 = ok (false, r0)) := by
  suffices h : uTail ty s r0 = @ite _ ((∀ c ∈ s, isDigit c) ∧ decVal s ≤ L) (Classical.propDecidable _) (ok (true, decVal s)) (ok (false, r0)) by
    constructor
    · intro hh; rw [h, if_pos hh]
    · intro hh; rw [h, if_neg hh]
  obtain ⟨lim, ld, lo, hi, fit, len⟩ := g
  unfold uTail
  have hp : ∀ n, n ≤ ty.boundLength - 1 → 10 ^ n ≤ 10 ^ (ty.boundLength - 1) := fun n h => Nat.pow_le_pow_right (by omega) h
  rcases h0 with rfl | ⟨c, t, hs, hc⟩
  · rw [if_neg (by simp), if_neg (by simp), uSwitch_nil, ok_bind]
    simp only [List.length_nil]
    rw [if_neg (by omega), if_pos (by simp [decVal])]
    simp [UTy.mulAdd, decVal]
  · by_cases hl : s.length > ty.boundLength
    · rw [if_pos hl, if_neg]
      rintro ⟨hd, hv⟩
      have h1 := decVal_ge c t (hd c (by simp [hs])) hc
      rw [← hs] at h1
      have : 10 ^ ty.boundLength ≤ 10 ^ t.length := Nat.pow_le_pow_right (by omega) (by rw [hs] at hl; simp at hl; omega)
      omega
    · rw [if_neg hl, if_neg (by omega)]
      have hb : (0 + 1) * 10 ^ (s.length - 1) ≤ 2 ^ ty.bits := by have := hp (s.length - 1) (by omega); omega
      have hsw := uSwitch_spec ty s 0 hb
      by_cases hd : ∀ c ∈ s, isDigit c
      · obtain ⟨p, d, e, hd10, hv⟩ := hsw.2 hd (by simp [hs])
        rw [e, ok_bind]
        simp only
        rw [Nat.zero_mul, Nat.zero_add] at hv
        have hlt := decVal_lt s hd
        have hin : (s.length = ty.boundLength ∧ ¬ (p < ty.m10 ∨ (p = ty.m10 ∧ d ≤ ty.ldpos))) ↔ ¬ decVal s ≤ L := by
          constructor
          · rintro ⟨_, h2⟩; omega
          · intro h
            refine ⟨?_, by omega⟩
            by_cases he : s.length = ty.boundLength
            · exact he
            · have := hp s.length (by omega); omega
        by_cases hL : decVal s ≤ L
        · rw [if_neg (fun h => (hin.mp h) hL), if_pos ⟨hd, hL⟩, UTy.mulAdd, Nat.mod_eq_of_lt (by omega), hv]
        · rw [if_pos (hin.mpr hL), if_neg (fun h => hL h.2)]
      · rw [hsw.1 hd, ok_bind, if_neg (fun h => hd h.1)]

theorem not_digit_plus : ¬ isDigit 43 := by decide
theorem not_digit_minus : ¬ isDigit 45 := by decide

theorem parseUnsigned_spec (ty : UTy) (L : Nat) (g : ty.Good L) (s : List Byte) (r0 : Nat) :
    (∀ v, UNumeral s v → v ≤ L → parseUnsigned ty s r0 = ok (true, v)) ∧
    ((∀ v, UNumeral s v → L < v) → parseUnsigned ty s r0 = ok (false, r0)) := by
  unfold parseUnsigned
  cases s with
  | nil =>
    rw [if_pos rfl]
    refine ⟨?_, fun _ => rfl⟩
    rintro v ⟨ds, hd, h | h, _⟩
    · exact absurd h.symm hd.1
    · exact absurd h (by simp)
  | cons c t =>
    rw [if_neg (by simp), look, ok_bind]
    simp only [List.tail_cons]
    -- the digits the code looks at
    have key : ∀ s1 : List Byte, s1 ≠ [] → (∀ v, UNumeral (c :: t) v ↔ (Digits s1 ∧ v = decVal s1)) →
        (∀ v, UNumeral (c :: t) v → v ≤ L → uTail ty (skipZeros s1) r0 = ok (true, v)) ∧
        ((∀ v, UNumeral (c :: t) v → L < v) → uTail ty (skipZeros s1) r0 = ok (false, r0)) := by
      intro s1 hne hiff
      have hz : skipZeros s1 = [] ∨ ∃ c t, skipZeros s1 = c :: t ∧ c ≠ 48 := by
        obtain ⟨k, _, h⟩ := skipZeros_spec s1; exact h
      have hT := uTail_spec ty L g _ r0 hz
      rw [digits_skipZeros, decVal_skipZeros] at hT
      constructor
      · intro v hv hL
        obtain ⟨hd, rfl⟩ := (hiff v).mp hv
        exact hT.1 ⟨hd.2, hL⟩
      · intro h
        apply hT.2
        rintro ⟨hd, hv⟩
        have := h _ ((hiff _).mpr ⟨⟨hne, hd⟩, rfl⟩)
        omega
    by_cases hc : c = 43
    · subst hc
      simp only [if_true, true_and]
      by_cases ht : t = []
      · subst ht
        rw [if_pos rfl]
        refine ⟨?_, fun _ => rfl⟩
        rintro v ⟨ds, hd, h | h, _⟩
        · exact absurd (hd.2 43 (by rw [← h]; simp)) not_digit_plus
        · simp at h; exact absurd h hd.1
      · rw [if_neg ht]
        apply key t ht
        intro v
        constructor
        · rintro ⟨ds, hd, h | h, hv⟩
          · exact absurd (hd.2 43 (by rw [← h]; simp)) not_digit_plus
          · simp at h; subst h; exact ⟨hd, hv⟩
        · rintro ⟨hd, hv⟩; exact ⟨t, hd, Or.inr rfl, hv⟩
    · simp only [hc, if_false, false_and]
      apply key (c :: t) (by simp)
      intro v
      constructor
      · rintro ⟨ds, hd, h | h, hv⟩
        · subst h; exact ⟨hd, hv⟩
        · simp at h; exact absurd h.1 hc
      · rintro ⟨hd, hv⟩; exact ⟨c :: t, hd, Or.inl rfl, hv⟩

/-- The constants of a signed type describe the decimal expansion of the limits `L` and `-(L+1)`. -/
structure STy.Good (ty : STy) (L : Nat) : Prop where
  lim : ty.m10 * 10 + ty.ldpos = L
  ldp : ty.ldpos = 7
  ldn : ty.ldneg = 8
  lo : 10 ^ (ty.boundLength - 1) ≤ L
  hi : L + 1 < 10 ^ ty.boundLength
  fit : (L : Int) < 2 ^ (ty.bits - 1)
  w : 16 ≤ ty.bits
  len : 0 < ty.boundLength ∧ ty.boundLength ≤ 19

theorem sTail_spec (ty : STy) (L : Nat) (g : ty.Good L) (neg : Bool) (s : List Byte) (r0 : Int) (h0 : s = [] ∨ ∃ c t, s = c :: t ∧ c ≠ 48) :
    ((∀ c ∈ s, isDigit c) → decVal s ≤ L →
      sTail ty (if neg then ty.ldneg else ty.ldpos) s r0 = ok (true, if neg then -(decVal s : Int) else decVal s)) ∧
    (¬ ((∀ c ∈ s, isDigit c) ∧ decVal s ≤ L + (if neg then 1 else 0)) → sTail ty (if neg then ty.ldneg else ty.ldpos) s r0 = ok (false, r0)) ∧
    ((∀ c ∈ s, isDigit c) → neg = true → decVal s = L + 1 → sTail ty (if neg then ty.ldneg else ty.ldpos) s r0 =
      (do let t ← ty.mulAdd ty.m10 8
          let v ← ty.neg t
          ok (true, v))) := by
  obtain ⟨lim, ldp, ldn, lo, hi, fit, w, len⟩ := g
  have hp : ∀ n, n ≤ ty.boundLength - 1 → 10 ^ n ≤ 10 ^ (ty.boundLength - 1) := fun n h => Nat.pow_le_pow_right (by omega) h
  have h2 : (0 : Int) < 2 ^ (ty.bits - 1) := Int.pow_pos (by omega)
  have hneg : ∀ v : Nat, v ≤ L → ty.neg v = ok (-(v : Int)) := by
    intro v hv
    unfold STy.neg
    split
    · congr 1
      unfold wrap
      have : (2 : Int) ^ ty.bits = 2 * 2 ^ (ty.bits - 1) := by
        conv => lhs; rw [show ty.bits = (ty.bits - 1) + 1 by omega, Int.pow_succ]
        omega
      rw [Int.bmod_eq_of_le_mul_two]
      · push_cast; omega
      · push_cast; omega
    · rw [if_pos (by unfold fits; omega)]
  have hld : (if neg then ty.ldneg else ty.ldpos) = 7 + (if neg then 1 else 0) := by cases neg <;> simp [ldp, ldn]
  rcases h0 with rfl | ⟨c, t, hs, hc⟩
  · refine ⟨?_, ?_, ?_⟩
    · intro _ _
      unfold sTail
      rw [if_neg (by simp), if_neg (by simp)]
      have hm := sMulAdd_ok ty w 0 0 (by simpa using h2)
      simp only [Nat.zero_mul, Nat.add_zero, Int.ofNat_zero] at hm
      simp only [List.length_nil, sSwitch, ok_bind]
      have hm' : ty.mulAdd 0 ((0 : Nat) : Int) = ok 0 := hm
      rw [if_neg (by omega), hm', ok_bind]
      have hz : decVal ([] : List Byte) = 0 := rfl
      rw [hz]
      have h0 := hneg 0 (by omega)
      cases neg
      · simp
      · simp only [if_true]
        rw [if_neg (by omega)]
        simp only [Int.ofNat_zero] at h0 ⊢
        rw [h0, ok_bind]
    · intro h; exfalso; apply h; simp [decVal]
    · intro _ _ h; simp [decVal] at h
  · by_cases hl : s.length > ty.boundLength
    · have hbig : (∀ c ∈ s, isDigit c) → L + 1 < decVal s := by
        intro hd
        have h1 := decVal_ge c t (hd c (by simp [hs])) hc
        rw [← hs] at h1
        have : 10 ^ ty.boundLength ≤ 10 ^ t.length := Nat.pow_le_pow_right (by omega) (by rw [hs] at hl; simp at hl; omega)
        omega
      refine ⟨fun hd h => absurd h (by have := hbig hd; omega), ?_, fun hd _ h => absurd h (by have := hbig hd; omega)⟩
      intro _
      unfold sTail
      rw [if_pos hl]
    · have hb : (((0 + 1) * 10 ^ (s.length - 1) : Nat) : Int) ≤ 2 ^ (ty.bits - 1) := by
        have := hp (s.length - 1) (by omega)
        rw [Nat.zero_add, Nat.one_mul]
        have : ((10 ^ (s.length - 1) : Nat) : Int) ≤ (L : Int) := by exact_mod_cast (by omega : 10 ^ (s.length - 1) ≤ L)
        omega
      have hsw := sSwitch_spec ty w s 0 hb
      unfold sTail
      rw [if_neg hl, if_neg (by omega)]
      simp only [Int.ofNat_zero] at hsw
      by_cases hd : ∀ c ∈ s, isDigit c
      · obtain ⟨p, d, e, hd10, hv⟩ := hsw.2 hd (by simp [hs])
        rw [e, ok_bind]
        simp only
        rw [Nat.zero_mul, Nat.zero_add] at hv
        have hlt := decVal_lt s hd
        have hin : (s.length = ty.boundLength ∧ ¬ ((p : Int) < ty.m10 ∨ ((p : Int) = ty.m10 ∧ (d : Int) ≤ if neg then ty.ldneg else ty.ldpos))) ↔
            ¬ decVal s ≤ L + (if neg then 1 else 0) := by
          constructor
          · rintro ⟨_, h2⟩
            rw [hld] at h2
            cases neg <;> simp only [if_true, if_false, Bool.false_eq_true] at h2 ⊢ <;> omega
          · intro h
            refine ⟨?_, by rw [hld]; cases neg <;> simp only [if_true, if_false, Bool.false_eq_true] at h ⊢ <;> omega⟩
            by_cases he : s.length = ty.boundLength
            · exact he
            · have := hp s.length (by omega); omega
        refine ⟨?_, ?_, ?_⟩
        · intro _ hL
          rw [if_neg (fun h => (hin.mp h) (by omega)), sMulAdd_ok ty w p d (by omega), ok_bind, hv]
          cases neg
          · simp
          · simp only [if_true]
            rw [if_neg (by omega), hneg _ hL, ok_bind]
        · intro h
          rw [if_pos (hin.mpr (fun h' => h ⟨hd, h'⟩))]
        · intro _ hn hL
          rw [if_neg (fun h => (hin.mp h) (by rw [hn]; simp; omega))]
          have hpm : (p : Int) = ty.m10 := by omega
          have hdm : d = 8 := by omega
          subst hn
          have hne : ¬ ty.ldneg = ty.ldpos := by omega
          simp only [if_true, if_neg hne, hpm, hdm]
          rfl
      · rw [hsw.1 hd, ok_bind]
        exact ⟨fun h => absurd h hd, fun _ => rfl, fun h => absurd h hd⟩

theorem parseSigned_spec (ty : STy) (L : Nat) (g : ty.Good L) (s : List Byte) (r0 : Int) :
    (∀ v, SNumeral s v → -(L : Int) ≤ v → v ≤ L → parseSigned ty s r0 = ok (true, v)) ∧
    ((∀ v, SNumeral s v → v < -(L : Int) - 1 ∨ (L : Int) < v) → parseSigned ty s r0 = ok (false, r0)) ∧
    (SNumeral s (-(L : Int) - 1) → parseSigned ty s r0 =
      (do let t ← ty.mulAdd ty.m10 8
          let v ← ty.neg t
          ok (true, v))) := by
  have g' := g
  obtain ⟨lim, ldp, ldn, lo, hi, fit, w, len⟩ := g'
  unfold parseSigned
  cases s with
  | nil =>
    have hno : ∀ v, ¬ SNumeral [] v := by
      rintro v ⟨ds, hd, ⟨h | h, _⟩ | ⟨h, _⟩⟩
      · exact hd.1 h.symm
      · simp at h
      · simp at h
    rw [if_pos rfl]
    exact ⟨fun v hv => absurd hv (hno v), fun _ => rfl, fun hv => absurd hv (hno _)⟩
  | cons c t =>
    rw [if_neg (by simp), look, ok_bind]
    simp only [List.tail_cons]
    have key : ∀ (neg : Bool) (s1 : List Byte), s1 ≠ [] →
        (∀ v, SNumeral (c :: t) v ↔ (Digits s1 ∧ v = if neg then -(decVal s1 : Int) else decVal s1)) →
        (∀ v, SNumeral (c :: t) v → -(L : Int) ≤ v → v ≤ L → sTail ty (if neg then ty.ldneg else ty.ldpos) (skipZeros s1) r0 = ok (true, v)) ∧
        ((∀ v, SNumeral (c :: t) v → v < -(L : Int) - 1 ∨ (L : Int) < v) → sTail ty (if neg then ty.ldneg else ty.ldpos) (skipZeros s1) r0 = ok (false, r0)) ∧
        (SNumeral (c :: t) (-(L : Int) - 1) → sTail ty (if neg then ty.ldneg else ty.ldpos) (skipZeros s1) r0 =
          (do let t ← ty.mulAdd ty.m10 8
              let v ← ty.neg t
              ok (true, v))) := by
      intro neg s1 hne hiff
      have hz : skipZeros s1 = [] ∨ ∃ c t, skipZeros s1 = c :: t ∧ c ≠ 48 := by
        obtain ⟨k, _, h⟩ := skipZeros_spec s1; exact h
      have hT := sTail_spec ty L g neg _ r0 hz
      rw [digits_skipZeros, decVal_skipZeros] at hT
      refine ⟨?_, ?_, ?_⟩
      · intro v hv h1 h2
        obtain ⟨hd, hv'⟩ := (hiff v).mp hv
        rw [hv']
        apply hT.1 hd.2
        cases neg <;> simp only [if_true, if_false, Bool.false_eq_true] at hv' <;> omega
      · intro h
        apply hT.2.1
        rintro ⟨hd, hv⟩
        have := h _ ((hiff _).mpr ⟨⟨hne, hd⟩, rfl⟩)
        cases neg <;> simp only [if_true, if_false, Bool.false_eq_true] at this hv <;> omega
      · intro hv
        obtain ⟨hd, hv'⟩ := (hiff _).mp hv
        cases neg
        · simp only [if_false, Bool.false_eq_true] at hv'; omega
        · simp only [if_true] at hv'
          exact hT.2.2 hd.2 rfl (by omega)
    by_cases hm : c = 45
    · subst hm
      simp only [if_true, true_or, true_and]
      by_cases ht : t = []
      · subst ht
        have hno : ∀ v, ¬ SNumeral [45] v := by
          rintro v ⟨ds, hd, ⟨h | h, _⟩ | ⟨h, _⟩⟩
          · exact not_digit_minus (hd.2 45 (by rw [← h]; simp))
          · simp at h
          · simp at h; exact hd.1 h
        rw [if_pos rfl]
        exact ⟨fun v hv => absurd hv (hno v), fun _ => rfl, fun hv => absurd hv (hno _)⟩
      · rw [if_neg ht]
        apply key true t ht
        intro v
        constructor
        · rintro ⟨ds, hd, ⟨h | h, _⟩ | ⟨h, hv⟩⟩
          · exact absurd (hd.2 45 (by rw [← h]; simp)) not_digit_minus
          · simp at h
          · simp at h; subst h; exact ⟨hd, hv⟩
        · rintro ⟨hd, hv⟩; exact ⟨t, hd, Or.inr ⟨rfl, hv⟩⟩
    · rw [if_neg hm]
      have hne : ¬ ty.ldneg = ty.ldpos := by omega
      by_cases hc : c = 43
      · subst hc
        simp only [or_true, if_true, true_and]
        by_cases ht : t = []
        · subst ht
          have hno : ∀ v, ¬ SNumeral [43] v := by
            rintro v ⟨ds, hd, ⟨h | h, _⟩ | ⟨h, _⟩⟩
            · exact not_digit_plus (hd.2 43 (by rw [← h]; simp))
            · simp at h; exact hd.1 h
            · simp at h
          rw [if_pos rfl]
          exact ⟨fun v hv => absurd hv (hno v), fun _ => rfl, fun hv => absurd hv (hno _)⟩
        · rw [if_neg ht]
          apply key false t ht
          intro v
          constructor
          · rintro ⟨ds, hd, ⟨h | h, hv⟩ | ⟨h, hv⟩⟩
            · exact absurd (hd.2 43 (by rw [← h]; simp)) not_digit_plus
            · simp at h; subst h; exact ⟨hd, hv⟩
            · simp at h
          · rintro ⟨hd, hv⟩; exact ⟨t, hd, Or.inl ⟨Or.inr rfl, hv⟩⟩
      · have hns : ¬ (ty.ldneg = ty.ldpos ∨ c = 43) := by rintro (h | h); exacts [hne h, hc h]
        simp only [hns, if_false, false_and]
        apply key false (c :: t) (by simp)
        intro v
        constructor
        · rintro ⟨ds, hd, ⟨h | h, hv⟩ | ⟨h, hv⟩⟩
          · subst h; exact ⟨hd, hv⟩
          · simp at h; exact absurd h.1 hc
          · simp at h; exact absurd h.1 hm
        · rintro ⟨hd, hv⟩; exact ⟨c :: t, hd, Or.inl ⟨Or.inl rfl, hv⟩⟩

theorem ushort_good : ushort.Good (2 ^ 16 - 1) := ⟨by decide, by decide, by decide, by decide, by decide, by decide⟩
theorem uint_good : uint.Good (2 ^ 32 - 1) := ⟨by decide, by decide, by decide, by decide, by decide, by decide⟩
theorem ulong_good : ulong.Good (2 ^ 32 - 1) := ⟨by decide, by decide, by decide, by decide, by decide, by decide⟩
theorem ulonglong_good : ulonglong.Good (2 ^ 64 - 1) := ⟨by decide, by decide, by decide, by decide, by decide, by decide⟩
theorem short_good : short.Good (2 ^ 15 - 1) := ⟨by decide, by decide, by decide, by decide, by decide, by decide, by decide, by decide⟩
theorem int_good : int.Good (2 ^ 31 - 1) := ⟨by decide, by decide, by decide, by decide, by decide, by decide, by decide, by decide⟩
theorem long_good : long.Good (2 ^ 31 - 1) := ⟨by decide, by decide, by decide, by decide, by decide, by decide, by decide, by decide⟩
theorem longlong_good : longlong.Good (2 ^ 63 - 1) := ⟨by decide, by decide, by decide, by decide, by decide, by decide, by decide, by decide⟩

/-! ## C29 -/

/-- `unsigned short`, `unsigned int`, `unsigned long long`: exactly the numerals of representable values are accepted, with their value;
on failure the target is unchanged. -/
theorem C29_unsigned (ty : UTy) (hty : ty = ushort ∨ ty = uint ∨ ty = ulonglong) (s : List Byte) (r0 : Nat) :
    (∀ v, UNumeral s v → v < 2 ^ ty.bits → parseUnsigned ty s r0 = ok (true, v)) ∧
    ((∀ v, UNumeral s v → 2 ^ ty.bits ≤ v) → parseUnsigned ty s r0 = ok (false, r0)) := by
  rcases hty with rfl | rfl | rfl
  · have h := parseUnsigned_spec _ _ ushort_good s r0
    exact ⟨fun v hv hb => h.1 v hv (by simp [ushort] at hb ⊢; omega), fun hh => h.2 fun v hv => by have := hh v hv; simp [ushort] at this; omega⟩
  · have h := parseUnsigned_spec _ _ uint_good s r0
    exact ⟨fun v hv hb => h.1 v hv (by simp [uint] at hb ⊢; omega), fun hh => h.2 fun v hv => by have := hh v hv; simp [uint] at this; omega⟩
  · have h := parseUnsigned_spec _ _ ulonglong_good s r0
    exact ⟨fun v hv hb => h.1 v hv (by simp [ulonglong] at hb ⊢; omega), fun hh => h.2 fun v hv => by have := hh v hv; simp [ulonglong] at this; omega⟩

/-- `unsigned long` (64 bits): only values below 2^32 are accepted, every other text is rejected.  Missing: the representable values from
2^32 on. -/
theorem C29_unsigned_long_partial (s : List Byte) (r0 : Nat) :
    (∀ v, UNumeral s v → v < 2 ^ 32 → parseUnsigned ulong s r0 = ok (true, v)) ∧
    ((∀ v, UNumeral s v → 2 ^ 32 ≤ v) → parseUnsigned ulong s r0 = ok (false, r0)) := by
  have h := parseUnsigned_spec _ _ ulong_good s r0
  exact ⟨fun v hv hb => h.1 v hv (by omega), fun hh => h.2 fun v hv => by have := hh v hv; omega⟩

/-- "4294967296" is representable in a 64-bit `unsigned long` but rejected. -/
theorem C29_unsigned_long_rejects : UNumeral [52, 50, 57, 52, 57, 54, 55, 50, 57, 54] 4294967296 ∧
    parseUnsigned ulong [52, 50, 57, 52, 57, 54, 55, 50, 57, 54] 7 = ok (false, 7) := by
  refine ⟨⟨_, ⟨by simp, by decide⟩, Or.inl rfl, by decide⟩, by decide +kernel⟩

/-- `short`: exactly the numerals of representable values are accepted. -/
theorem C29_short (s : List Byte) (r0 : Int) :
    (∀ v, SNumeral s v → -2 ^ 15 ≤ v → v < 2 ^ 15 → parseSigned short s r0 = ok (true, v)) ∧
    ((∀ v, SNumeral s v → v < -2 ^ 15 ∨ 2 ^ 15 ≤ v) → parseSigned short s r0 = ok (false, r0)) := by
  have h := parseSigned_spec _ _ short_good s r0
  constructor
  · intro v hv h1 h2
    by_cases hmin : v = -2 ^ 15
    · subst hmin
      rw [h.2.2 hv]
      decide
    · exact h.1 v hv (by simp; omega) (by simp; omega)
  · intro hh
    exact h.2.1 fun v hv => by have := hh v hv; simp; omega

/-- `int` and `long long`: exactly the numerals of representable values are accepted, apart from the least value (see
`C29_least_value_overflows`). -/
theorem C29_signed_partial (ty : STy) (hty : ty = int ∨ ty = longlong) (s : List Byte) (r0 : Int) :
    (∀ v, SNumeral s v → -2 ^ (ty.bits - 1) < v → v < 2 ^ (ty.bits - 1) → parseSigned ty s r0 = ok (true, v)) ∧
    ((∀ v, SNumeral s v → v < -2 ^ (ty.bits - 1) ∨ 2 ^ (ty.bits - 1) ≤ v) → parseSigned ty s r0 = ok (false, r0)) := by
  rcases hty with rfl | rfl
  · have h := parseSigned_spec _ _ int_good s r0
    simp only [int, Nat.add_one_sub_one]
    exact ⟨fun v hv h1 h2 => h.1 v hv (by simp; omega) (by simp; omega), fun hh => h.2.1 fun v hv => by have := hh v hv; simp; omega⟩
  · have h := parseSigned_spec _ _ longlong_good s r0
    simp only [longlong, Nat.add_one_sub_one]
    exact ⟨fun v hv h1 h2 => h.1 v hv (by simp; omega) (by simp; omega), fun hh => h.2.1 fun v hv => by have := hh v hv; simp; omega⟩

/-- Every text of the least value of `int` or `long long` makes the code form the positive value first: signed overflow. -/
theorem C29_least_value_overflows (ty : STy) (hty : ty = int ∨ ty = longlong) (s : List Byte) (r0 : Int)
    (h : SNumeral s (-2 ^ (ty.bits - 1))) : parseSigned ty s r0 = ub := by
  rcases hty with rfl | rfl
  · rw [(parseSigned_spec _ _ int_good s r0).2.2 (by simpa [int] using h)]
    decide
  · rw [(parseSigned_spec _ _ longlong_good s r0).2.2 (by simpa [longlong] using h)]
    decide

/-- `long` (64 bits): the accepted values are those of a 32-bit integer.  Missing: the other representable values. -/
theorem C29_long_partial (s : List Byte) (r0 : Int) :
    (∀ v, SNumeral s v → -2 ^ 31 ≤ v → v < 2 ^ 31 → parseSigned long s r0 = ok (true, v)) ∧
    ((∀ v, SNumeral s v → v < -2 ^ 31 ∨ 2 ^ 31 ≤ v) → parseSigned long s r0 = ok (false, r0)) := by
  have h := parseSigned_spec _ _ long_good s r0
  constructor
  · intro v hv h1 h2
    by_cases hmin : v = -2 ^ 31
    · subst hmin
      rw [h.2.2 (by simpa using hv)]
      decide
    · exact h.1 v hv (by simp; omega) (by simp; omega)
  · intro hh
    exact h.2.1 fun v hv => by have := hh v hv; simp; omega

/-- "2147483648" is representable in a 64-bit `long` but rejected. -/
theorem C29_long_rejects : SNumeral [50, 49, 52, 55, 52, 56, 51, 54, 52, 56] 2147483648 ∧
    parseSigned long [50, 49, 52, 55, 52, 56, 51, 54, 52, 56] 7 = ok (false, 7) := by
  refine ⟨⟨_, ⟨by simp, by decide⟩, Or.inl ⟨Or.inl rfl, by decide⟩⟩, by decide +kernel⟩

example : UNumeral [43, 48, 52, 50] 42 := ⟨[48, 52, 50], ⟨by simp, by decide⟩, Or.inr rfl, by decide⟩
example : parseUnsigned uint [43, 48, 52, 50] 7 = ok (true, 42) := by decide +kernel
example : parseUnsigned uint [52, 50, 57, 52, 57, 54, 55, 50, 57, 54] 7 = ok (false, 7) := by decide +kernel
example : SNumeral [45, 49] (-1) := ⟨[49], ⟨by simp, by decide⟩, Or.inr ⟨rfl, by decide⟩⟩
example : parseSigned int [45, 49] 7 = ok (true, -1) := by decide +kernel
example : parseSigned int [45, 50, 49, 52, 55, 52, 56, 51, 54, 52, 56] 7 = ub := by decide +kernel

/-- A byte (`char`, `unsigned char`) is parsed from exactly one character and written as that character. -/
theorem C29_byte (s : List Byte) (r0 : Byte) :
    (∀ c, s = [c] → parseByte s r0 = ok (true, c)) ∧ ((∀ c, s ≠ [c]) → parseByte s r0 = ok (false, r0)) := by
  constructor
  · rintro c rfl; rfl
  · intro h
    match s with
    | [] => rfl
    | [c] => exact absurd rfl (h c)
    | _ :: _ :: _ => rfl

/-! ## C28 -/

/-- The text of an unsigned value of up to 64 bits is the canonical decimal numeral. -/
theorem C28_unsigned_text (v : Nat) (h : v < 2 ^ 64) : unsignedToString v = ok (decText v) := by
  unfold unsignedToString
  by_cases h0 : v = 0
  · subst h0; rw [if_neg (by simp), push, if_pos (by simp), decText, dif_pos (by omega)]; rfl
  · rw [if_pos h0, digitsLoop_spec 32 v h0]
    have := dig_length 20 v (by omega)
    omega

/-- The text of a signed value of 16, 32 or 64 bits is the canonical decimal numeral, including for the least value. -/
theorem C28_signed_text (bits : Nat) (hb : bits = 16 ∨ bits = 32 ∨ bits = 64) (v : Int) (h1 : -2 ^ (bits - 1) ≤ v) (h2 : v < 2 ^ (bits - 1)) :
    signedToString bits v = ok (intText v) := by
  have hv : ((if v < 0 then -v else v) % 2 ^ bits).toNat = v.natAbs := by
    rcases hb with rfl | rfl | rfl <;> simp only [Nat.add_one_sub_one] at h1 h2 <;> split <;> omega
  have hbound : v.natAbs < 10 ^ 20 := by
    rcases hb with rfl | rfl | rfl <;> simp only [Nat.add_one_sub_one] at h1 h2 <;> omega
  unfold signedToString intText
  simp only [hv]
  by_cases h0 : v.natAbs = 0
  · rw [if_neg (by simp [h0]), if_neg (by omega), h0, push, if_pos (by simp), decText, dif_pos (by omega)]; rfl
  · have hlen := dig_length 20 v.natAbs hbound
    rw [if_pos h0, digitsLoop_spec 32 _ h0 (by omega), ok_bind]
    split
    · rw [push, if_pos]
      rw [dig, if_neg h0] at hlen; omega
    · rfl

/-- No leading zero, and digits only. -/
theorem C28_canonical (v : Nat) : Digits (decText v) ∧ decVal (decText v) = v ∧ (v ≠ 0 → ∃ c t, decText v = c :: t ∧ c ≠ 48) := by
  refine ⟨(decText_digits v).1, (decText_digits v).2, ?_⟩
  induction v using Nat.strongRecOn with
  | _ v ih =>
    intro h0
    rw [decText]
    by_cases h : v < 10
    · rw [dif_pos h]
      refine ⟨_, _, rfl, ?_⟩
      intro e
      have := congrArg BitVec.toNat e
      simp at this; omega
    · rw [dif_neg h]
      obtain ⟨c, t, e, hc⟩ := ih (v / 10) (by omega) (by omega)
      exact ⟨c, t ++ [BitVec.ofNat 8 (48 + v % 10)], by rw [e]; rfl, hc⟩

/-- Round trip for `unsigned short`, `unsigned int` and `unsigned long long`. -/
theorem C28_unsigned_round_trip (ty : UTy) (hty : ty = ushort ∨ ty = uint ∨ ty = ulonglong) (v r0 : Nat) (h : v < 2 ^ ty.bits) :
    (do let s ← unsignedToString v; parseUnsigned ty s r0) = ok (true, v) := by
  have h64 : v < 2 ^ 64 := by
    rcases hty with rfl | rfl | rfl <;> simp only [ushort, uint, ulonglong] at h <;> omega
  rw [C28_unsigned_text v h64, ok_bind]
  exact (C29_unsigned ty hty _ r0).1 v ⟨_, (decText_digits v).1, Or.inl rfl, (decText_digits v).2.symm⟩ h

theorem intText_numeral (v : Int) : SNumeral (intText v) v := by
  obtain ⟨h1, h2⟩ := decText_digits v.natAbs
  unfold intText
  split
  · exact ⟨_, h1, Or.inr ⟨rfl, by rw [h2]; omega⟩⟩
  · exact ⟨_, h1, Or.inl ⟨Or.inl rfl, by rw [h2]; omega⟩⟩

/-- Round trip for `short`. -/
theorem C28_short_round_trip (v r0 : Int) (h1 : -2 ^ 15 ≤ v) (h2 : v < 2 ^ 15) :
    (do let s ← signedToString 16 v; parseSigned short s r0) = ok (true, v) := by
  rw [C28_signed_text 16 (by simp) v h1 h2, ok_bind]
  exact (C29_short _ r0).1 v (intText_numeral v) h1 h2

/-- Round trip for `int` and `long long`, apart from the least value (whose parse overflows). -/
theorem C28_signed_round_trip_partial (ty : STy) (hty : ty = int ∨ ty = longlong) (v r0 : Int) (h1 : -2 ^ (ty.bits - 1) < v)
    (h2 : v < 2 ^ (ty.bits - 1)) : (do let s ← signedToString ty.bits v; parseSigned ty s r0) = ok (true, v) := by
  rw [C28_signed_text ty.bits (by rcases hty with rfl | rfl <;> simp [int, longlong]) v (by omega) h2, ok_bind]
  exact (C29_signed_partial ty hty _ r0).1 v (intText_numeral v) h1 h2

/-- The least value of `int` and `long long` does not survive the round trip: parsing its text overflows. -/
theorem C28_least_value_fails (ty : STy) (hty : ty = int ∨ ty = longlong) (r0 : Int) :
    (do let s ← signedToString ty.bits (-2 ^ (ty.bits - 1)); parseSigned ty s r0) = ub := by
  have hpos : (0 : Int) < 2 ^ (ty.bits - 1) := Int.pow_pos (by omega)
  rw [C28_signed_text ty.bits (by rcases hty with rfl | rfl <;> simp [int, longlong]) _ (by omega) (by omega), ok_bind]
  exact C29_least_value_overflows ty hty _ r0 (intText_numeral _)

/-- `long` and `unsigned long` (64 bits): the round trip works for 32-bit values and fails for all others. -/
theorem C28_long_round_trip_partial (v r0 : Int) (h1 : -2 ^ 63 ≤ v) (h2 : v < 2 ^ 63) :
    (do let s ← signedToString 64 v; parseSigned long s r0) = if -2 ^ 31 ≤ v ∧ v < 2 ^ 31 then ok (true, v) else ok (false, r0) := by
  rw [C28_signed_text 64 (by simp) v h1 h2, ok_bind]
  have hu : ∀ w, SNumeral (intText v) w → w = v := by
    intro w hw
    obtain ⟨ds, hd, h⟩ := hw
    obtain ⟨ds', hd', h'⟩ := intText_numeral v
    rcases h with ⟨h | h, hv⟩ | ⟨h, hv⟩ <;> rcases h' with ⟨h' | h', hv'⟩ | ⟨h', hv'⟩ <;> rw [h] at h' <;>
      first
      | (subst h'; omega)
      | (simp at h'; subst h'; omega)
      | (exfalso; simp at h'; done)
      | (exfalso; subst h'; have := hd.2 43 (List.mem_cons_self); exact not_digit_plus this)
      | (exfalso; subst h'; have := hd.2 45 (List.mem_cons_self); exact not_digit_minus this)
      | (exfalso; subst h'; have := hd'.2 43 (List.mem_cons_self); exact not_digit_plus this)
      | (exfalso; subst h'; have := hd'.2 45 (List.mem_cons_self); exact not_digit_minus this)
  split
  · rename_i h; exact (C29_long_partial _ r0).1 v (intText_numeral v) h.1 h.2
  · rename_i h
    exact (C29_long_partial _ r0).2 fun w hw => by rw [hu w hw]; omega

/-- `bool` and byte round trips. -/
theorem C28_bool_byte_round_trip (b b0 : Bool) (c c0 : Byte) :
    parseBool (boolToString b) b0 = ok (true, b) ∧ parseByte (byteToString c) c0 = ok (true, c) := by
  refine ⟨?_, rfl⟩
  cases b <;> rfl

/-- A `bool` is written as `1` or `0`; exactly the texts of one character are read as a `bool`, all but `0` as true, and otherwise the
target keeps its value. -/
theorem C28_bool_exact (b r0 : Bool) (s : List Byte) :
    boolToString true = [49] ∧ boolToString false = [48] ∧
    (∀ c, s = [c] → parseBool s r0 = ok (true, decide (c ≠ 48))) ∧ ((∀ c, s ≠ [c]) → parseBool s r0 = ok (false, r0)) ∧
    byteToString (if b then 49 else 48) = boolToString b := by
  refine ⟨rfl, rfl, ?_, ?_, rfl⟩
  · rintro c rfl
    unfold parseBool look
    rw [if_neg (by simp)]
    show ok (true, if c = 48 then false else true) = _
    by_cases hc : c = 48 <;> simp [hc]
  · intro h
    unfold parseBool
    rw [if_pos]
    intro hl
    obtain ⟨c, hc⟩ := List.length_eq_one_iff.mp hl
    exact h c hc

example : unsignedToString 1005 = ok [49, 48, 48, 53] := by decide +kernel
example : signedToString 64 (-9223372036854775808) = ok [45, 57, 50, 50, 51, 51, 55, 50, 48, 51, 54, 56, 53, 52, 55, 55, 53, 56, 48, 56] := by
  decide +kernel

example : unsignedToString 18446744073709551615 = ok (decText 18446744073709551615) := C28_unsigned_text _ (by decide)

example : signedToString 32 (-2147483648) = ok (intText (-2147483648)) := C28_signed_text 32 (Or.inr (Or.inl rfl)) _ (by decide) (by decide)

example : (do let s ← unsignedToString 65535; parseUnsigned ushort s 7) = ok (true, 65535) := C28_unsigned_round_trip ushort (Or.inl rfl) 65535 7 (by decide)

end Strtk.Number
