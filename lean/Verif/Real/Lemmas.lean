import Verif.Real.Model
import Verif.Real.Spec
import Verif.Number.Lemmas

/-! # Lemmas about the text → real conversion -/

namespace Strtk.Real
open Outcome Mem Number

/-- The text is empty or begins with a character that is no digit. -/
def Stop (s : List Byte) : Prop := ∀ c t, s = c :: t → ¬ isDigit c

/-- Digits from the left, starting from `d`. -/
def horner {R : Type} (o : Ops R) (ds : List Byte) (d : R) : R := ds.foldl (fun d c => o.step d (c.toNat - 48)) d

theorem span_digits (s : List Byte) : ∃ ds rest, s = ds ++ rest ∧ (∀ c ∈ ds, isDigit c) ∧ Stop rest := by
  induction s with
  | nil => exact ⟨[], [], rfl, by simp, by intro c t h; cases h⟩
  | cons c s ih =>
    by_cases hc : isDigit c
    · obtain ⟨ds, rest, h1, h2, h3⟩ := ih
      refine ⟨c :: ds, rest, by rw [h1]; rfl, ?_, h3⟩
      intro x hx
      rcases List.mem_cons.mp hx with rfl | hx
      · exact hc
      · exact h2 x hx
    · exact ⟨[], c :: s, rfl, by simp, by intro x t h; cases h; exact hc⟩

theorem digitLoop_spec {R : Type} (o : Ops R) : ∀ (ds rest : List Byte) (k : Nat) (d : R), (∀ c ∈ ds, isDigit c) → Stop rest → k ≤ 2 →
    (k = 0 ∨ ds ++ rest ≠ []) → digitLoop o k (ds ++ rest) d = ok (horner o ds d, rest) := by
  intro ds
  induction ds with
  | nil =>
    intro rest k d _ hr hk h0
    cases rest with
    | nil =>
      rcases h0 with rfl | h0
      · rfl
      · simp at h0
    | cons c t =>
      have := digitOf_other c (hr c t rfl)
      rw [List.nil_append]
      unfold digitLoop
      rw [if_neg (by omega)]; rfl
  | cons c ds ih =>
    intro rest k d hd hr hk _
    obtain ⟨h1, h2⟩ := digitOf_digit c (hd c (by simp))
    have hd' : ∀ c ∈ ds, isDigit c := fun x hx => hd x (by simp [hx])
    rw [List.cons_append]
    unfold digitLoop
    rw [if_pos h2, h1]
    by_cases hk2 : k < 2
    · rw [if_pos hk2]
      by_cases ht : ds ++ rest = []
      · rw [if_pos ht, ht]
        obtain ⟨rfl, rfl⟩ := List.append_eq_nil_iff.mp ht
        rfl
      · rw [if_neg ht, ih rest (k + 1) _ hd' hr (by omega) (Or.inr ht)]; rfl
    · rw [if_neg hk2, ih rest 0 _ hd' hr (by omega) (Or.inl rfl)]; rfl

theorem skipZeros_append (ds rest : List Byte) (hr : Stop rest) (hd : ∀ c ∈ ds, isDigit c) : skipZeros (ds ++ rest) = skipZeros ds ++ rest := by
  induction ds with
  | nil =>
    cases rest with
    | nil => rfl
    | cons c t =>
      have : c ≠ 48 := by rintro rfl; exact hr _ _ rfl (by decide)
      simp only [List.nil_append, skipZeros]
      rw [if_neg this]
  | cons c ds ih =>
    rw [List.cons_append]
    unfold skipZeros
    by_cases hc : c = 48
    · rw [if_pos hc, if_pos hc]; exact ih (fun x hx => hd x (by simp [hx]))
    · rw [if_neg hc, if_neg hc]; rfl

theorem intPart_spec {R : Type} (o : Ops R) (m : Int) (neg : Bool) (ip rest : List Byte) (hd : ∀ c ∈ ip, isDigit c) (hr : Stop rest)
    (hne : ip ++ rest ≠ []) :
    intPart o m neg (ip ++ rest) = fraction o m neg (decide (ip ≠ [])) (horner o (skipZeros ip) o.zero) rest := by
  have hz : ∀ c ∈ skipZeros ip, isDigit c := (digits_skipZeros ip).mpr hd
  obtain ⟨c, t, hct⟩ := List.exists_cons_of_ne_nil hne
  unfold intPart
  rw [hct]
  simp only [look]
  rw [ok_bind, ← hct]
  by_cases hc : c = 46
  · rw [if_neg (by simpa using hc)]
    have : ip = [] := by
      cases ip with
      | nil => rfl
      | cons a ip =>
        rw [List.cons_append] at hct
        cases hct
        subst hc
        exact absurd (hd 46 (by simp)) (by decide)
    subst this
    rfl
  · rw [if_pos hc, skipZeros_append ip rest hr hd, digitLoop_spec o _ rest 0 _ hz hr (by omega) (Or.inl rfl), ok_bind]
    have : decide (rest.length ≠ (ip ++ rest).length) = decide (ip ≠ []) := by
      rw [List.length_append]
      cases ip with
      | nil => simp
      | cons a ip => simp
    simp only [this]

theorem fraction_dot {R : Type} (o : Ops R) (m : Int) (neg instate : Bool) (d : R) (fd rest : List Byte) (hd : ∀ c ∈ fd, isDigit c) (hr : Stop rest) :
    fraction o m neg instate d (46 :: (fd ++ rest)) = (if fd = [] then afterMantissa o m neg instate d rest else do
      let f ← pow10 o m (horner o fd o.zero) (negDistance fd.length)
      afterMantissa o m neg true (o.add d f) rest) := by
  have e0 : fraction o m neg instate d (46 :: (fd ++ rest)) = (do
      let r ← digitLoop o 0 (fd ++ rest) o.zero
      if r.2.length ≠ (fd ++ rest).length then do
        let f ← pow10 o m r.1 (negDistance ((fd ++ rest).length - r.2.length))
        afterMantissa o m neg true (o.add d f) r.2
      else afterMantissa o m neg instate d r.2) := rfl
  rw [e0, digitLoop_spec o fd rest 0 _ hd hr (by omega) (Or.inl rfl), ok_bind]
  have hlen : (fd ++ rest).length - rest.length = fd.length := by simp
  simp only [hlen]
  cases fd with
  | nil => simp
  | cons a fd =>
    rw [if_pos (by simp; omega), if_neg (by simp)]

theorem fraction_other {R : Type} (o : Ops R) (m : Int) (neg instate : Bool) (d : R) (s : List Byte) (h : ∀ t, s ≠ 46 :: t) :
    fraction o m neg instate d s = afterMantissa o m neg instate d s := by
  unfold fraction
  cases s with
  | nil => rfl
  | cons c t =>
    simp only
    rw [if_neg (by rintro rfl; exact h t rfl)]

/-! ## The exponent -/

theorem expSwitch_spec : ∀ (ds rest : List Byte) (x : Nat), (∀ c ∈ ds, isDigit c) → Stop rest →
    expSwitch (ds ++ rest).length (ds ++ rest) x = ok (match rest with
      | [] => (true, [], ((x * 10 ^ ds.length + decVal ds : Nat) : Int))
      | [c] => (false, [c], ((x * 10 ^ ds.length + decVal ds : Nat) : Int))
      | _ :: c :: t => (false, c :: t, ((x * 10 ^ ds.length + decVal ds : Nat) : Int))) := by
  intro ds
  induction ds with
  | nil =>
    intro rest x _ hr
    cases rest with
    | nil => simp [expSwitch, decVal]
    | cons c t =>
      have h10 := digitOf_other c (hr c t rfl)
      cases t with
      | nil =>
        simp only [List.nil_append, List.length_cons, List.length_nil]
        unfold expSwitch look
        rw [ok_bind, if_pos h10]; simp [decVal]
      | cons c' t =>
        simp only [List.nil_append, List.length_cons]
        unfold expSwitch look
        rw [ok_bind, if_neg (by omega)]; simp [decVal]
  | cons a ds ih =>
    intro rest x hd hr
    obtain ⟨h1, h2⟩ := digitOf_digit a (hd a (by simp))
    have hd' : ∀ c ∈ ds, isDigit c := fun y hy => hd y (by simp [hy])
    have hx : (x : Int) * 10 + (digitOf a : Nat) = ((x * 10 + digitOf a : Nat) : Int) := by push_cast; ring
    have hval : (x * 10 + digitOf a) * 10 ^ ds.length + decVal ds = x * 10 ^ (a :: ds).length + decVal (a :: ds) := by
      rw [decVal_cons, List.length_cons, h1]; ring
    rw [List.cons_append, List.length_cons]
    by_cases hn : (ds ++ rest).length = 0
    · have hnil : ds ++ rest = [] := List.length_eq_zero_iff.mp hn
      obtain ⟨rfl, rfl⟩ := List.append_eq_nil_iff.mp hnil
      simp only [List.append_nil, List.length_nil]
      unfold expSwitch look
      rw [ok_bind, if_neg (by omega), List.tail_cons, hx, ← hval]
      simp [decVal]
    · obtain ⟨n, hn'⟩ := Nat.exists_eq_succ_of_ne_zero hn
      have hih := ih rest (x * 10 + digitOf a) hd' hr
      rw [hn'] at hih ⊢
      unfold expSwitch look
      rw [ok_bind, if_pos h2, List.tail_cons, hx, hih, hval]

/-- `-x` or `x`. -/
def signed (neg : Bool) (x : Int) : Int := if neg then -x else x

theorem expDigits_spec (neg : Bool) (ds rest : List Byte) (hd : ∀ c ∈ ds, isDigit c) (hr : Stop rest) :
    (((skipZeros ds) ++ rest).length ≤ 4 → expDigits neg (ds ++ rest) = ok (match rest with
      | [] => (true, [], signed neg (decVal ds))
      | [c] => (false, [c], signed neg (decVal ds))
      | _ :: c :: t => (false, c :: t, signed neg (decVal ds)))) ∧
    (4 < ((skipZeros ds) ++ rest).length → expDigits neg (ds ++ rest) = ok (false, skipZeros ds ++ rest, 0)) := by
  have hz : ∀ c ∈ skipZeros ds, isDigit c := (digits_skipZeros ds).mpr hd
  constructor
  · intro h
    unfold expDigits
    simp only [skipZeros_append ds rest hr hd]
    have := expSwitch_spec (skipZeros ds) rest 0 hz hr
    rw [if_pos h]
    simp only [Nat.cast_zero] at this
    rw [this, ok_bind, decVal_skipZeros]
    rcases rest with _ | ⟨c, _ | ⟨c', t⟩⟩ <;> simp [signed]
  · intro h
    unfold expDigits
    simp only [skipZeros_append ds rest hr hd]
    rw [if_neg (by omega), ok_bind]; simp

theorem parseExp_sign (sg : List Byte) (neg : Bool) (body : List Byte) (hs : Sign sg neg) (hb : body ≠ [])
    (hh : sg = [] → ∀ c t, body = c :: t → c ≠ 45 ∧ c ≠ 43) : parseExp (sg ++ body) = expDigits neg body := by
  rcases hs with ⟨rfl, rfl⟩ | ⟨rfl, rfl⟩ | ⟨rfl, rfl⟩
  · obtain ⟨c, t, rfl⟩ := List.exists_cons_of_ne_nil hb
    obtain ⟨h1, h2⟩ := hh rfl c t rfl
    simp only [List.nil_append, parseExp]
    rw [if_neg (fun h => h.elim h1 h2)]
  · simp only [List.singleton_append, parseExp]
    rw [if_pos (Or.inr trivial), if_neg hb]; rfl
  · simp only [List.singleton_append, parseExp]
    rw [if_pos (Or.inl trivial), if_neg hb]; rfl

/-- Everything that the exponent parser can do. -/
theorem parseExp_total (t : List Byte) :
    (∃ sg neg ds, Sign sg neg ∧ Digits ds ∧ t = sg ++ ds ∧ parseExp t = ok (true, [], signed neg (decVal ds))) ∨
    (∃ sg neg ds stray rest, Sign sg neg ∧ (∀ c ∈ ds, isDigit c) ∧ stray.length ≤ 1 ∧ t = sg ++ ds ++ stray ++ rest ∧
      parseExp t = ok (false, rest, signed neg (decVal ds))) := by
  have body : ∀ (sg : List Byte) (neg : Bool) (b : List Byte), Sign sg neg → b ≠ [] → (sg = [] → ∀ c t, b = c :: t → c ≠ 45 ∧ c ≠ 43) → t = sg ++ b →
      (∃ sg neg ds, Sign sg neg ∧ Digits ds ∧ t = sg ++ ds ∧ parseExp t = ok (true, [], signed neg (decVal ds))) ∨
      (∃ sg neg ds stray rest, Sign sg neg ∧ (∀ c ∈ ds, isDigit c) ∧ stray.length ≤ 1 ∧ t = sg ++ ds ++ stray ++ rest ∧
      parseExp t = ok (false, rest, signed neg (decVal ds))) := by
    intro sg neg b hs hb hh ht
    obtain ⟨ds, rest, h1, h2, h3⟩ := span_digits b
    have hp := parseExp_sign sg neg b hs hb hh
    rw [← ht] at hp
    subst h1
    obtain ⟨e1, e2⟩ := expDigits_spec neg ds rest h2 h3
    by_cases h4 : (skipZeros ds ++ rest).length ≤ 4
    · rw [e1 h4] at hp
      rcases rest with _ | ⟨c, _ | ⟨c', rest⟩⟩
      · left
        rw [List.append_nil] at ht hb
        exact ⟨sg, neg, ds, hs, ⟨hb, h2⟩, ht, hp⟩
      · right
        exact ⟨sg, neg, ds, [], [c], hs, h2, by simp, by simp [ht], hp⟩
      · right
        exact ⟨sg, neg, ds, [c], c' :: rest, hs, h2, by simp, by simp [ht], hp⟩
    · rw [e2 (by omega)] at hp
      right
      obtain ⟨k, hk, _⟩ := skipZeros_spec ds
      refine ⟨sg, neg, List.replicate k 48, [], skipZeros ds ++ rest, hs, ?_, by simp, ?_, ?_⟩
      · intro c hc; rw [(List.mem_replicate.mp hc).2]; decide
      · rw [ht]
        conv => lhs; rw [hk]
        simp
      · rw [hp, decVal_zeros]; cases neg <;> rfl
  cases t with
  | nil => right; exact ⟨[], false, [], [], [], Or.inl ⟨rfl, rfl⟩, by simp, by simp, rfl, rfl⟩
  | cons c t =>
    by_cases hc : c = 45
    · subst hc
      by_cases ht : t = []
      · subst ht
        right; exact ⟨[45], true, [], [], [], Or.inr (Or.inr ⟨rfl, rfl⟩), by simp, by simp, rfl, rfl⟩
      · exact body [45] true t (Or.inr (Or.inr ⟨rfl, rfl⟩)) ht (by intro h; cases h) rfl
    · by_cases hc2 : c = 43
      · subst hc2
        by_cases ht : t = []
        · subst ht
          right; exact ⟨[43], false, [], [], [], Or.inr (Or.inl ⟨rfl, rfl⟩), by simp, by simp, rfl, rfl⟩
        · exact body [43] false t (Or.inr (Or.inl ⟨rfl, rfl⟩)) ht (by intro h; cases h) rfl
      · exact body [] false (c :: t) (Or.inl ⟨rfl, rfl⟩) (by simp) (by rintro _ x y h; cases h; exact ⟨hc, hc2⟩) rfl

/-! ## The ending -/

theorem infLoop_spec (lit : List Byte) : ∀ (s : List Byte) (i : Nat), i + s.length ≤ lit.length →
    infLoop lit i s = ok (decide (s = (lit.drop i).take s.length)) := by
  intro s
  induction s with
  | nil => intro i _; simp [infLoop]
  | cons c s ih =>
    intro i hi
    rw [List.length_cons] at hi
    have hi' : i < lit.length := by omega
    unfold infLoop
    rw [deref_eq_ok hi', ok_bind, List.drop_eq_getElem_cons hi', List.length_cons, List.take_succ_cons]
    by_cases h : lit[i] = c
    · rw [if_pos h, ih (i + 1) (by omega)]
      simp [h]
    · rw [if_neg h]
      rw [decide_eq_false (fun e => h (List.cons.inj e).1.symm)]

theorem parseInf_spec {R : Type} (o : Ops R) (neg : Bool) (s : List Byte) (h : ∃ t, s = 105 :: t ∨ s = 73 :: t) :
    parseInf o s neg = ok (if InfWord s then some (if neg then o.neg o.inf else o.inf) else none) := by
  unfold parseInf
  by_cases hl : s.length ≠ 3 ∧ s.length ≠ 8
  · rw [if_pos hl, if_neg]
    intro hw
    rcases hw with rfl | rfl | rfl | rfl <;> simp at hl
  · rw [if_neg hl]
    have hl' : s.length = 3 ∨ s.length = 8 := by omega
    obtain ⟨t, rfl | rfl⟩ := h
    · simp only [look, ok_bind, if_true]
      rw [infLoop_spec infLower _ 0 (by simp only [infLower, List.length_cons, List.length_nil] at hl' ⊢; omega), ok_bind]
      congr 1
      have : (105 :: t = (infLower.drop 0).take (105 :: t).length) ↔ InfWord (105 :: t) := by
        rcases hl' with h | h <;> rw [h] <;> constructor
        · intro e; rw [e]; decide
        · intro hw; rcases hw with e | e | e | e <;> rw [e] at h ⊢ <;> first | rfl | (cases h; done) | (cases e; done)
        · intro e; rw [e]; decide
        · intro hw; rcases hw with e | e | e | e <;> rw [e] at h ⊢ <;> first | rfl | (cases h; done) | (cases e; done)
      by_cases hw : InfWord (105 :: t)
      · rw [decide_eq_true (this.mpr hw), if_pos hw]; rfl
      · rw [decide_eq_false (mt this.mp hw), if_neg hw]; rfl
    · simp only [look, ok_bind]
      rw [if_neg (by decide), infLoop_spec infUpper _ 0 (by simp only [infUpper, List.length_cons, List.length_nil] at hl' ⊢; omega), ok_bind]
      congr 1
      have : (73 :: t = (infUpper.drop 0).take (73 :: t).length) ↔ InfWord (73 :: t) := by
        rcases hl' with h | h <;> rw [h] <;> constructor
        · intro e; rw [e]; decide
        · intro hw; rcases hw with e | e | e | e <;> rw [e] at h ⊢ <;> first | rfl | (cases h; done) | (cases e; done)
        · intro e; rw [e]; decide
        · intro hw; rcases hw with e | e | e | e <;> rw [e] at h ⊢ <;> first | rfl | (cases h; done) | (cases e; done)
      by_cases hw : InfWord (73 :: t)
      · rw [decide_eq_true (this.mpr hw), if_pos hw]; rfl
      · rw [decide_eq_false (mt this.mp hw), if_neg hw]; rfl

theorem parseNan_spec {R : Type} (o : Ops R) (s : List Byte) (h : ∃ t, s = 110 :: t ∨ s = 78 :: t) :
    parseNan o s = ok (if NanWord s then some o.nan else none) := by
  unfold parseNan
  by_cases hl : s.length = 3
  · rw [if_neg (by simpa using hl)]
    obtain ⟨t, h⟩ := h
    obtain ⟨a, b, rfl⟩ : ∃ a b, t = [a, b] := by
      rcases t with _ | ⟨a, _ | ⟨b, _ | ⟨c, t⟩⟩⟩ <;> rcases h with rfl | rfl <;> simp at hl ⊢
    rcases h with rfl | rfl
    · simp only [look, ok_bind, List.drop_succ_cons, List.drop_zero, if_true]
      by_cases hw : a = 97 ∧ b = 110
      · obtain ⟨rfl, rfl⟩ := hw
        rfl
      · rw [if_pos (by by_cases ha : a = 97; exacts [Or.inr (fun hb => hw ⟨ha, hb⟩), Or.inl ha]), if_neg]
        intro h
        rcases (h : _ ∨ _) with h | h <;> cases h <;> exact hw ⟨rfl, rfl⟩
    · simp only [look, ok_bind, List.drop_succ_cons, List.drop_zero]
      rw [if_neg (by decide)]
      by_cases hw : a = 65 ∧ b = 78
      · obtain ⟨rfl, rfl⟩ := hw
        rfl
      · rw [if_pos (by by_cases ha : a = 65; exacts [Or.inr (fun hb => hw ⟨ha, hb⟩), Or.inl ha]), if_neg]
        intro h
        rcases (h : _ ∨ _) with h | h <;> cases h <;> exact hw ⟨rfl, rfl⟩
  · rw [if_pos hl, if_neg]
    intro hw
    rcases hw with rfl | rfl <;> simp at hl

/-- The value of an `inf` or `nan` text. -/
def wordValue {R : Type} (o : Ops R) (neg : Bool) (s : List Byte) : Option R :=
  if InfWord s then some (if neg then o.neg o.inf else o.inf) else if NanWord s then some o.nan else none

theorem special_spec {R : Type} (o : Ops R) (neg : Bool) (s : List Byte) (hs : s ≠ []) : special o neg s = ok (wordValue o neg s) := by
  obtain ⟨c, t, rfl⟩ := List.exists_cons_of_ne_nil hs
  unfold special wordValue
  simp only [look, ok_bind]
  have hI : InfWord (c :: t) → c = 105 ∨ c = 73 := by
    intro h; rcases h with h | h | h | h <;> cases h <;> simp
  have hN : NanWord (c :: t) → c = 110 ∨ c = 78 := by
    intro h; rcases h with h | h <;> cases h <;> simp
  by_cases h1 : c = 105 ∨ c = 73
  · rw [if_pos (by rcases h1 with rfl | rfl <;> decide), if_pos h1, parseInf_spec o neg _ ⟨t, by rcases h1 with rfl | rfl <;> simp⟩]
    have : ¬ NanWord (c :: t) := by intro h; rcases hN h with rfl | rfl <;> simp at h1
    rw [if_neg this]
  · have hnI : ¬ InfWord (c :: t) := fun h => h1 (hI h)
    rw [if_neg hnI]
    by_cases h2 : c = 110 ∨ c = 78
    · rw [if_pos (by rcases h2 with rfl | rfl <;> decide), if_neg h1, if_pos h2, parseNan_spec o _ ⟨t, by rcases h2 with rfl | rfl <;> simp⟩]
    · have hnN : ¬ NanWord (c :: t) := fun h => h2 (hN h)
      rw [if_neg hnN, if_neg h1, if_neg h2]
      split <;> rfl

theorem endAndFinish_cons {R : Type} (o : Ops R) (m : Int) (neg inst : Bool) (d : R) (x : Int) (c : Byte) (t : List Byte) :
    endAndFinish o m neg inst d x c (c :: t) =
      if Letter c then (if t = [] then finish o m neg inst d x [] else ok none)
      else if c = 35 then ok (if t = [] then none else wordValue o neg t)
      else ok (wordValue o neg (c :: t)) := by
  unfold endAndFinish ending
  rw [if_neg (by simp)]
  by_cases h1 : Letter c
  · have h1' : c = 102 ∨ c = 70 ∨ c = 108 ∨ c = 76 := h1
    rw [if_pos h1', if_pos h1, ok_bind]
    simp only [List.tail_cons]
    by_cases ht : t = []
    · rw [if_pos ht, ht]
    · rw [if_neg ht]; unfold finish; rw [if_pos (Or.inl ht)]
  · have h1' : ¬ (c = 102 ∨ c = 70 ∨ c = 108 ∨ c = 76) := h1
    rw [if_neg h1', if_neg h1]
    by_cases h2 : c = 35
    · rw [if_pos h2, if_pos h2]
      by_cases ht : t = []
      · subst ht; rfl
      · rw [if_neg ht]
        have : (c :: t).tail ≠ [] := ht
        rw [if_neg this]
        simp only [List.tail_cons]
        rw [special_spec o neg t ht]; rfl
    · rw [if_neg h2, if_neg h2, special_spec o neg _ (by simp)]; rfl

/-- Past the mantissa when there is no exponent. -/
theorem afterMantissa_plain {R : Type} (o : Ops R) (m : Int) (neg inst : Bool) (d : R) (c : Byte) (t : List Byte) (h : c ≠ 101 ∧ c ≠ 69) :
    afterMantissa o m neg inst d (c :: t) = endAndFinish o m neg inst d 0 c (c :: t) := by
  unfold afterMantissa
  simp only []
  rw [if_neg (fun hh => hh.elim h.1 h.2)]

theorem afterMantissa_exp_true {R : Type} (o : Ops R) (m : Int) (neg inst : Bool) (d : R) (e : Byte) (t : List Byte) (x : Int) (he : e = 101 ∨ e = 69)
    (h : parseExp t = ok (true, [], x)) : afterMantissa o m neg inst d (e :: t) = finish o m neg inst d x [] := by
  unfold afterMantissa
  simp only []
  rw [if_pos he, h, ok_bind]
  simp only [if_true]
  unfold endAndFinish
  rw [if_pos rfl]

theorem afterMantissa_exp_false {R : Type} (o : Ops R) (m : Int) (neg inst : Bool) (d : R) (e : Byte) (t : List Byte) (x : Int) (rest : List Byte)
    (he : e = 101 ∨ e = 69) (h : parseExp t = ok (false, rest, x)) :
    afterMantissa o m neg inst d (e :: t) = (match (generalizing := false) rest with
      | [] => ok none
      | c :: t => endAndFinish o m neg inst d x c (c :: t)) := by
  unfold afterMantissa
  simp only []
  rw [if_pos he, h, ok_bind]
  simp only [Bool.false_eq_true, if_false]
  cases rest with
  | nil => rfl
  | cons c t => rw [if_neg (by simp)]; rfl

theorem realParse_sign {R : Type} (o : Ops R) (m : Int) (sg : List Byte) (neg : Bool) (body : List Byte) (hs : Sign sg neg) (hb : body ≠ [])
    (hh : sg = [] → ∀ c t, body = c :: t → c ≠ 45 ∧ c ≠ 43) : realParse o m (sg ++ body) = intPart o m neg body := by
  rcases hs with ⟨rfl, rfl⟩ | ⟨rfl, rfl⟩ | ⟨rfl, rfl⟩
  · obtain ⟨c, t, rfl⟩ := List.exists_cons_of_ne_nil hb
    obtain ⟨h1, h2⟩ := hh rfl c t rfl
    simp only [List.nil_append, realParse]
    rw [if_neg (fun h => h.elim h1 h2)]
  · simp only [List.singleton_append, realParse]
    rw [if_pos (Or.inr trivial), if_neg hb]; rfl
  · simp only [List.singleton_append, realParse]
    rw [if_pos (Or.inl trivial), if_neg hb]; rfl

/-- Every text is a sign and a rest; the conversion fails if the rest is empty. -/
theorem realParse_split {R : Type} (o : Ops R) (m : Int) (s : List Byte) :
    ∃ sg neg body, Sign sg neg ∧ s = sg ++ body ∧ (sg = [] → ∀ c t, body = c :: t → c ≠ 45 ∧ c ≠ 43) ∧
      realParse o m s = if body = [] then ok none else intPart o m neg body := by
  cases s with
  | nil => exact ⟨[], false, [], Or.inl ⟨rfl, rfl⟩, rfl, by simp, rfl⟩
  | cons c t =>
    by_cases h1 : c = 45
    · subst h1; exact ⟨[45], true, t, Or.inr (Or.inr ⟨rfl, rfl⟩), rfl, by simp, rfl⟩
    · by_cases h2 : c = 43
      · subst h2; exact ⟨[43], false, t, Or.inr (Or.inl ⟨rfl, rfl⟩), rfl, by simp, rfl⟩
      · refine ⟨[], false, c :: t, Or.inl ⟨rfl, rfl⟩, rfl, by rintro _ x y h; cases h; exact ⟨h1, h2⟩, ?_⟩
        simp only [realParse]
        rw [if_neg (fun h => h.elim h1 h2), if_neg (by simp)]

end Strtk.Real
