import Verif.Number.Model
import Verif.Number.Spec
import Mathlib.Tactic.Ring

/-! # Lemmas about the integer conversions -/

namespace Strtk.Number
open Outcome Mem

theorem digitOf_digit (c : Byte) (h : isDigit c) : digitOf c = c.toNat - 48 ∧ digitOf c < 10 := by
  have : ∀ c : Byte, isDigit c → digitOf c = c.toNat - 48 ∧ digitOf c < 10 := by decide +kernel
  exact this c h

theorem digitOf_other (c : Byte) (h : ¬ isDigit c) : 10 ≤ digitOf c := by
  have : ∀ c : Byte, ¬ isDigit c → 10 ≤ digitOf c := by decide +kernel
  exact this c h

theorem foldl_dec (s : List Byte) : ∀ a, s.foldl (fun a c => 10 * a + (c.toNat - 48)) a = a * 10 ^ s.length + decVal s := by
  induction s with
  | nil => intro a; simp [decVal]
  | cons c s ih =>
    intro a
    rw [decVal, List.foldl_cons, List.foldl_cons, ih, ih]
    rw [List.length_cons]
    ring

theorem decVal_cons (c : Byte) (s : List Byte) : decVal (c :: s) = (c.toNat - 48) * 10 ^ s.length + decVal s := by
  rw [decVal, List.foldl_cons, foldl_dec]; simp

theorem decVal_append (s t : List Byte) : decVal (s ++ t) = decVal s * 10 ^ t.length + decVal t := by
  rw [decVal, List.foldl_append, foldl_dec]; rfl

theorem decVal_lt (s : List Byte) (h : ∀ c ∈ s, isDigit c) : decVal s < 10 ^ s.length := by
  induction s with
  | nil => simp [decVal]
  | cons c s ih =>
    rw [decVal_cons, List.length_cons, Nat.pow_succ]
    have h1 := ih (fun x hx => h x (List.mem_cons_of_mem _ hx))
    have h2 := (h c (List.mem_cons_self)).2
    have : (c.toNat - 48) * 10 ^ s.length ≤ 9 * 10 ^ s.length := Nat.mul_le_mul_right _ (by omega)
    omega

theorem decVal_ge (c : Byte) (s : List Byte) (h : isDigit c) (hc : c ≠ 48) : 10 ^ s.length ≤ decVal (c :: s) := by
  rw [decVal_cons]
  have : 1 ≤ c.toNat - 48 := by
    have := h.1
    have : c.toNat ≠ 48 := fun e => hc (BitVec.eq_of_toNat_eq (by simpa using e))
    omega
  have := Nat.mul_le_mul_right (10 ^ s.length) this
  omega

/-- Leading zeros do not matter. -/
theorem skipZeros_spec (s : List Byte) :
    ∃ k, s = List.replicate k 48 ++ skipZeros s ∧ (skipZeros s = [] ∨ ∃ c t, skipZeros s = c :: t ∧ c ≠ 48) := by
  induction s with
  | nil => exact ⟨0, rfl, Or.inl rfl⟩
  | cons c s ih =>
    unfold skipZeros
    split
    · rename_i hc
      obtain ⟨k, h1, h2⟩ := ih
      exact ⟨k + 1, by rw [List.replicate_succ, hc, List.cons_append, ← h1], h2⟩
    · rename_i hc
      exact ⟨0, rfl, Or.inr ⟨c, s, rfl, hc⟩⟩

theorem decVal_zeros (k : Nat) : decVal (List.replicate k 48) = 0 := by
  induction k with
  | zero => rfl
  | succ k ih => rw [List.replicate_succ, decVal_cons, ih]; simp

theorem decVal_skipZeros (s : List Byte) : decVal (skipZeros s) = decVal s := by
  obtain ⟨k, h1, _⟩ := skipZeros_spec s
  conv => rhs; rw [h1, decVal_append, decVal_zeros]
  simp

theorem digits_skipZeros (s : List Byte) : (∀ c ∈ skipZeros s, isDigit c) ↔ ∀ c ∈ s, isDigit c := by
  obtain ⟨k, h1, _⟩ := skipZeros_spec s
  constructor
  · intro h c hc
    rw [h1, List.mem_append, List.mem_replicate] at hc
    rcases hc with ⟨_, rfl⟩ | hc
    · decide
    · exact h c hc
  · intro h c hc
    exact h c (by rw [h1, List.mem_append]; exact Or.inr hc)

/-- The unsigned switch: rejects a non-digit, otherwise splits the value into its last digit and the rest. -/
theorem uSwitch_spec (ty : UTy) : ∀ (s : List Byte) (t : Nat), (t + 1) * 10 ^ (s.length - 1) ≤ 2 ^ ty.bits →
    (¬ (∀ c ∈ s, isDigit c) → uSwitch ty s.length s t = ok none) ∧
    ((∀ c ∈ s, isDigit c) → s ≠ [] → ∃ p d, uSwitch ty s.length s t = ok (some (p, d)) ∧ d < 10 ∧
      p * 10 + d = t * 10 ^ s.length + decVal s)
  | [], t, _ => ⟨fun h => absurd (by simp) h, fun _ h => absurd rfl h⟩
  | [c], t, _ => by
    constructor
    · intro h
      have hc : ¬ isDigit c := fun h' => h (by simpa using h')
      have := digitOf_other c hc
      simp only [List.length_cons, List.length_nil, Nat.zero_add, uSwitch, look, ok_bind]
      rw [if_pos this]
    · intro h _
      have hc := digitOf_digit c (h c (by simp))
      refine ⟨t, digitOf c, ?_, hc.2, ?_⟩
      · simp only [List.length_cons, List.length_nil, Nat.zero_add, uSwitch, look, ok_bind]
        rw [if_neg (by omega)]
      · rw [decVal_cons, hc.1]; simp [decVal]
  | c :: c' :: s, t, hb => by
    have hlen : (c :: c' :: s).length = s.length + 2 := rfl
    rw [hlen]
    simp only [uSwitch, look, ok_bind, List.tail_cons]
    by_cases hc : isDigit c
    · have hd := digitOf_digit c hc
      rw [if_pos hd.2]
      have hpow : 1 ≤ 10 ^ s.length := Nat.one_le_pow _ _ (by omega)
      have hb' : (t + 1) * 10 * 10 ^ s.length ≤ 2 ^ ty.bits := by
        rw [hlen, Nat.add_sub_assoc (by omega)] at hb
        simp only [Nat.reduceSub, Nat.pow_succ] at hb
        rw [Nat.mul_assoc, Nat.mul_comm 10]; exact hb
      have hm : ty.mulAdd t (digitOf c) = t * 10 + digitOf c := by
        rw [UTy.mulAdd, Nat.mod_eq_of_lt]
        have : (t + 1) * 10 ≤ (t + 1) * 10 * 10 ^ s.length := Nat.le_mul_of_pos_right _ hpow
        omega
      rw [hm]
      have ih := uSwitch_spec ty (c' :: s) (t * 10 + digitOf c) (by
        simp only [List.length_cons, Nat.add_sub_cancel]
        refine Nat.le_trans (Nat.mul_le_mul_right _ ?_) hb'
        omega)
      constructor
      · intro h
        exact ih.1 (fun h' => h (by
          intro x hx
          rcases List.mem_cons.mp hx with rfl | hx
          · exact hc
          · exact h' x hx))
      · intro h _
        obtain ⟨p, d, h1, h2, h3⟩ := ih.2 (fun x hx => h x (List.mem_cons_of_mem _ hx)) (by simp)
        refine ⟨p, d, h1, h2, ?_⟩
        rw [h3, decVal_cons c, hd.1]
        rw [List.length_cons]
        ring
    · have hd := digitOf_other c hc
      rw [if_neg (by omega)]
      exact ⟨fun _ => rfl, fun h => absurd (h c (by simp)) hc⟩

/-- No digits. -/
theorem uSwitch_nil (ty : UTy) : uSwitch ty ([] : List Byte).length [] 0 = ok (some (0, 0)) := rfl

theorem sMulAdd_ok (ty : STy) (hw : 16 ≤ ty.bits) (t d : Nat) (h : ((t * 10 + d : Nat) : Int) < 2 ^ (ty.bits - 1)) :
    ty.mulAdd t d = ok ((t * 10 + d : Nat) : Int) := by
  unfold STy.mulAdd fits
  have h2 : (0 : Int) < 2 ^ (ty.bits - 1) := Int.pow_pos (by omega)
  by_cases h16 : ty.bits < 32
  · have hle : (2 : Int) ^ (ty.bits - 1) ≤ 2 ^ 31 := by
      have : (2 : Nat) ^ (ty.bits - 1) ≤ 2 ^ 31 := Nat.pow_le_pow_right (by omega) (by omega)
      exact_mod_cast this
    rw [if_pos h16, if_pos (by simp only [Nat.add_one_sub_one]; omega)]
    unfold wrap
    congr 1
    have : (2 : Int) ^ ty.bits = 2 * 2 ^ (ty.bits - 1) := by
      conv => lhs; rw [show ty.bits = (ty.bits - 1) + 1 by omega, Int.pow_succ]
      omega
    rw [Int.bmod_eq_of_le_mul_two]
    · omega
    · push_cast; omega
    · push_cast; push_cast at h; omega
  · rw [if_neg h16, if_pos (by omega)]
    congr 1

/-- The signed switch. -/
theorem sSwitch_spec (ty : STy) (hw : 16 ≤ ty.bits) : ∀ (s : List Byte) (t : Nat), (((t + 1) * 10 ^ (s.length - 1) : Nat) : Int) ≤ 2 ^ (ty.bits - 1) →
    (¬ (∀ c ∈ s, isDigit c) → sSwitch ty s.length s t = ok none) ∧
    ((∀ c ∈ s, isDigit c) → s ≠ [] → ∃ p d : Nat, sSwitch ty s.length s t = ok (some ((p : Int), d)) ∧ d < 10 ∧
      p * 10 + d = t * 10 ^ s.length + decVal s)
  | [], t, _ => ⟨fun h => absurd (by simp) h, fun _ h => absurd rfl h⟩
  | [c], t, _ => by
    constructor
    · intro h
      have hc : ¬ isDigit c := fun h' => h (by simpa using h')
      have := digitOf_other c hc
      simp only [List.length_cons, List.length_nil, Nat.zero_add, sSwitch, look, ok_bind]
      rw [if_pos this]
    · intro h _
      have hc := digitOf_digit c (h c (by simp))
      refine ⟨t, digitOf c, ?_, hc.2, ?_⟩
      · simp only [List.length_cons, List.length_nil, Nat.zero_add, sSwitch, look, ok_bind]
        rw [if_neg (by omega)]
      · rw [decVal_cons, hc.1]; simp [decVal]
  | c :: c' :: s, t, hb => by
    have hlen : (c :: c' :: s).length = s.length + 2 := rfl
    rw [hlen]
    simp only [sSwitch, look, ok_bind, List.tail_cons]
    by_cases hc : isDigit c
    · have hd := digitOf_digit c hc
      rw [if_pos hd.2]
      have hpow : 1 ≤ 10 ^ s.length := Nat.one_le_pow _ _ (by omega)
      have hb' : (((t + 1) * 10 * 10 ^ s.length : Nat) : Int) ≤ 2 ^ (ty.bits - 1) := by
        rw [hlen, Nat.add_sub_assoc (by omega)] at hb
        simp only [Nat.reduceSub, Nat.pow_succ] at hb
        rw [Nat.mul_assoc, Nat.mul_comm 10]; exact hb
      have hm : ty.mulAdd t (digitOf c) = ok ((t * 10 + digitOf c : Nat) : Int) := by
        apply sMulAdd_ok ty hw
        have : (t + 1) * 10 ≤ (t + 1) * 10 * 10 ^ s.length := Nat.le_mul_of_pos_right _ hpow
        omega
      rw [hm, ok_bind]
      have ih := sSwitch_spec ty hw (c' :: s) (t * 10 + digitOf c) (by
        simp only [List.length_cons, Nat.add_sub_cancel]
        refine Int.le_trans (Int.ofNat_le.mpr (Nat.mul_le_mul_right _ ?_)) hb'
        omega)
      constructor
      · intro h
        exact ih.1 (fun h' => h (by
          intro x hx
          rcases List.mem_cons.mp hx with rfl | hx
          · exact hc
          · exact h' x hx))
      · intro h _
        obtain ⟨p, d, h1, h2, h3⟩ := ih.2 (fun x hx => h x (List.mem_cons_of_mem _ hx)) (by simp)
        refine ⟨p, d, h1, h2, ?_⟩
        rw [h3, decVal_cons c, hd.1]
        rw [List.length_cons]
        ring
    · have hd := digitOf_other c hc
      rw [if_neg (by omega)]
      exact ⟨fun _ => rfl, fun h => absurd (h c (by simp)) hc⟩

/-! ## Text -/

/-- The digits of a number without the leading zero of 0. -/
def dig (n : Nat) : List Byte := if n = 0 then [] else decText n

theorem dig_succ (n : Nat) (h : 0 < n) : dig n = dig (n / 10) ++ [BitVec.ofNat 8 (48 + n % 10)] := by
  rw [dig, if_neg (by omega), decText]
  by_cases h10 : n < 10
  · rw [dif_pos h10, dig, if_pos (by omega), Nat.mod_eq_of_lt h10]; rfl
  · rw [dif_neg h10, dig, if_neg (by omega)]

theorem dig_length (k : Nat) : ∀ n, n < 10 ^ k → (dig n).length ≤ k := by
  induction k with
  | zero => intro n h; have : n = 0 := by simpa using h
            subst this; simp [dig]
  | succ k ih =>
    intro n h
    by_cases h0 : n = 0
    · subst h0; simp [dig]
    · rw [dig_succ n (by omega), List.length_append]
      have := ih (n / 10) (by rw [Nat.pow_succ] at h; omega)
      simp; omega

/-- A table of equally long entries. -/
theorem slice_table (f : Nat → List Byte) (w n : Nat) (hf : ∀ k, (f k).length = w) (z : List Byte) (k : Nat) (h : k < n) :
    slice ((List.range n).flatMap f ++ z) (w * k) w = ok (f k) := by
  have hr : List.range n = List.range k ++ [k] ++ (List.range n).drop (k + 1) := by
    conv => lhs; rw [← List.take_append_drop (k + 1) (List.range n)]
    rw [List.take_range, Nat.min_eq_left (by omega), List.range_succ]
  have hl : ((List.range k).flatMap f).length = w * k := by
    clear hr h
    induction k with
    | zero => simp
    | succ k ih => rw [List.range_succ, List.flatMap_append, List.length_append, ih]; simp [hf, Nat.mul_add]
  rw [hr, List.flatMap_append, List.flatMap_append, List.append_assoc]
  have := slice_append ((List.range k).flatMap f) (f k) (List.flatMap f (List.drop (k + 1) (List.range n)) ++ z)
  rw [hl, hf] at this
  simpa using this

theorem rev3_slice (k : Nat) (h : k < 1000) : slice rev3Digit (3 * k) 3 =
    ok [BitVec.ofNat 8 (48 + k / 100), BitVec.ofNat 8 (48 + k / 10 % 10), BitVec.ofNat 8 (48 + k % 10)] := by
  have : rev3Digit = (List.range 1000).flatMap (fun k => [BitVec.ofNat 8 (48 + k / 100), BitVec.ofNat 8 (48 + k / 10 % 10), BitVec.ofNat 8 (48 + k % 10)])
      ++ List.replicate 17 0 := by decide +kernel
  rw [this, slice_table (fun k => [BitVec.ofNat 8 (48 + k / 100), BitVec.ofNat 8 (48 + k / 10 % 10), BitVec.ofNat 8 (48 + k % 10)]) 3 1000 (fun _ => rfl) _ k h]

theorem rev2_slice (k : Nat) (h : k < 100) : slice rev2Digit (2 * k) 2 =
    ok [BitVec.ofNat 8 (48 + k / 10), BitVec.ofNat 8 (48 + k % 10)] := by
  have : rev2Digit = (List.range 100).flatMap (fun k => [BitVec.ofNat 8 (48 + k / 10), BitVec.ofNat 8 (48 + k % 10)])
      ++ List.replicate 17 0 := by decide +kernel
  rw [this, slice_table (fun k => [BitVec.ofNat 8 (48 + k / 10), BitVec.ofNat 8 (48 + k % 10)]) 2 100 (fun _ => rfl) _ k h]

theorem threes_spec (n : Nat) : ∀ fuel v text, v < fuel → (dig v).length + text.length ≤ n →
    ∃ v' text', threes n fuel v text = ok (v', text') ∧ dig v' ++ text' = dig v ++ text ∧ v' < 100 := by
  intro fuel
  induction fuel with
  | zero => intro v text h; omega
  | succ fuel ih =>
    intro v text h hl
    unfold threes
    by_cases hv : v ≥ 100
    · rw [if_pos hv]
      have hd : dig v = dig (v / 1000) ++ [BitVec.ofNat 8 (48 + v / 100 % 10), BitVec.ofNat 8 (48 + v / 10 % 10), BitVec.ofNat 8 (48 + v % 10)] := by
        rw [dig_succ v (by omega), dig_succ (v / 10) (by omega), dig_succ (v / 10 / 10) (by omega)]
        simp [Nat.div_div_eq_div_mul]
      rw [hd] at hl
      simp only [List.length_append, List.length_cons, List.length_nil] at hl
      have hk : v - v / 1000 * 1000 = v % 1000 := by omega
      simp only [prepend, hk]
      rw [rev3_slice _ (by omega), ok_bind, if_pos (by omega), ok_bind]
      obtain ⟨v', text', h1, h2, h3⟩ := ih (v / 1000) ([BitVec.ofNat 8 (48 + v % 1000 / 100), BitVec.ofNat 8 (48 + v % 1000 / 10 % 10),
        BitVec.ofNat 8 (48 + v % 1000 % 10)] ++ text) (by omega) (by simp; omega)
      refine ⟨v', text', h1, ?_, h3⟩
      rw [h2, hd, List.append_assoc, show v % 1000 / 100 = v / 100 % 10 by omega, show v % 1000 / 10 % 10 = v / 10 % 10 by omega,
        show v % 1000 % 10 = v % 10 by omega]
    · rw [if_neg hv]
      exact ⟨v, text, rfl, rfl, by omega⟩

theorem twos_spec (n v : Nat) (text : List Byte) (hv : v < 100) (hl : (dig v).length + text.length ≤ n) :
    ∃ v' text', twos n (v + 1) v text = ok (v', text') ∧ dig v' ++ text' = dig v ++ text ∧ v' < 10 := by
  unfold twos
  by_cases h : v ≥ 10
  · rw [if_pos h]
    have hd : dig v = dig (v / 100) ++ [BitVec.ofNat 8 (48 + v / 10 % 10), BitVec.ofNat 8 (48 + v % 10)] := by
      rw [dig_succ v (by omega), dig_succ (v / 10) (by omega), Nat.div_div_eq_div_mul]
      simp
    rw [hd] at hl
    simp only [List.length_append, List.length_cons, List.length_nil] at hl
    have hk : v - v / 100 * 100 = v := by omega
    have h0 : v / 100 = 0 := by omega
    simp only [prepend, hk]
    rw [rev2_slice _ hv, ok_bind, if_pos (by omega), ok_bind]
    obtain ⟨m, rfl⟩ : ∃ m, v = m + 1 := ⟨v - 1, by omega⟩
    rw [h0, twos, if_neg (by omega)]
    refine ⟨0, _, rfl, ?_, by omega⟩
    rw [hd, h0, show (m + 1) / 10 % 10 = (m + 1) / 10 by omega]
    simp
  · rw [if_neg h]; exact ⟨v, text, rfl, rfl, by omega⟩

theorem digitsLoop_spec (n v : Nat) (h0 : v ≠ 0) (hl : (dig v).length ≤ n) : digitsLoop n v = ok (decText v) := by
  unfold digitsLoop
  obtain ⟨v1, t1, e1, d1, b1⟩ := threes_spec n (v + 1) v [] (by omega) (by simpa using hl)
  have hl1 : (dig v1).length + t1.length ≤ n := by
    have := congrArg List.length d1
    simp only [List.length_append, List.length_nil] at this; omega
  obtain ⟨v2, t2, e2, d2, b2⟩ := twos_spec n v1 t1 b1 hl1
  have hl2 : (dig v2).length + t2.length ≤ n := by
    have := congrArg List.length d2
    simp only [List.length_append] at this; omega
  simp only [e1, e2, ok_bind]
  have hd : dig v2 ++ t2 = decText v := by rw [d2, d1, List.append_nil, dig, if_neg h0]
  by_cases hv : v2 = 0
  · subst hv
    rw [if_neg (by simp), ← hd]; rfl
  · have hdig : dig v2 = [BitVec.ofNat 8 (48 + v2)] := by rw [dig, if_neg hv, decText, dif_pos b2]
    rw [hdig] at hl2 hd
    rw [if_pos hv, push, if_pos (by simp at hl2 ⊢; omega), ← hd]; rfl

theorem decText_digits (n : Nat) : Digits (decText n) ∧ decVal (decText n) = n := by
  induction n using Nat.strongRecOn with
  | _ n ih =>
    have hdig : ∀ m < 10, isDigit (BitVec.ofNat 8 (48 + m)) ∧ (BitVec.ofNat 8 (48 + m)).toNat = 48 + m := by
      intro m hm
      have : (BitVec.ofNat 8 (48 + m)).toNat = 48 + m := by rw [BitVec.toNat_ofNat]; omega
      exact ⟨by unfold isDigit; omega, this⟩
    unfold decText
    by_cases h : n < 10
    · rw [dif_pos h]
      obtain ⟨h1, h2⟩ := hdig n h
      refine ⟨⟨by simp, by simpa using h1⟩, ?_⟩
      rw [decVal_cons, h2]; simp [decVal]
    · rw [dif_neg h]
      obtain ⟨⟨h1, h2⟩, h3⟩ := ih (n / 10) (by omega)
      obtain ⟨g1, g2⟩ := hdig (n % 10) (by omega)
      refine ⟨⟨by simp, ?_⟩, ?_⟩
      · intro c hc
        rcases List.mem_append.mp hc with hc | hc
        · exact h2 c hc
        · rw [List.mem_singleton] at hc; subst hc; exact g1
      · rw [decVal_append, h3, decVal_cons, g2]
        simp only [List.length_cons, List.length_nil, Nat.zero_add, Nat.pow_one, decVal, List.foldl_nil]
        omega

end Strtk.Number
