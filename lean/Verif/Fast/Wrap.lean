import Verif.Fast.Props
import Mathlib.Tactic.Ring

/-! # Unsigned types: the value modulo the size of the type (C31) -/

namespace Strtk.Fast
open Outcome Strtk.Number

theorem arith_unsigned (b : Nat) (v : Int) : (⟨false, b⟩ : IntTy).arith v = ok (v % (2 ^ b : Nat)) := by
  simp [IntTy.arith, IntTy.conv]

theorem conv_unsigned (b : Nat) (v : Int) : (⟨false, b⟩ : IntTy).conv v = v % (2 ^ b : Nat) := by simp [IntTy.conv]

theorem horner_wraps (b : Nat) (s : List Byte) : ∀ x : Int, (∀ c ∈ s, isDigit c) →
    horner ⟨false, b⟩ s.length s (x % (2 ^ b : Nat)) = ok ((x * 10 ^ s.length + decVal s) % (2 ^ b : Nat)) := by
  induction s with
  | nil => intro x _; simp [horner, decVal]
  | cons c s ih =>
    intro x hd
    have hc := hd c List.mem_cons_self
    simp only [List.length_cons, horner, look, ok_bind, List.tail_cons, arith_unsigned, conv_unsigned, toInt_digit c hc]
    have e : (x % ((2 ^ b : Nat) : Int) * 10 % ((2 ^ b : Nat) : Int) + ((c.toNat - 48 : Nat) : Int) % ((2 ^ b : Nat) : Int)) % ((2 ^ b : Nat) : Int) =
        (x * 10 + ((c.toNat - 48 : Nat) : Int)) % ((2 ^ b : Nat) : Int) := by
      rw [← Int.add_emod, Int.add_emod, Int.mul_emod, Int.emod_emod, ← Int.mul_emod, ← Int.add_emod]
    rw [e, ih _ fun y hy => hd y (List.mem_cons_of_mem _ hy), decVal_cons]
    congr 2
    push_cast
    ring

theorem convertImpl_wraps (b : Nat) (hb : b ≤ 64) (s : List Byte) (hl : s.length ≤ 20) (hd : ∀ c ∈ s, isDigit c) :
    convertImpl ⟨false, b⟩ s.length s = ok ((decVal s : Int) % (2 ^ b : Nat)) := by
  induction s with
  | nil => simp [convertImpl, decVal]
  | cons c s ih =>
    have hc := hd c List.mem_cons_self
    have hd' := fun y hy => hd y (List.mem_cons_of_mem c hy)
    have h2 := hc.2
    simp only [List.length_cons, convertImpl, look, ok_bind, List.tail_cons]
    have hcast : (((c.toNat - 48 : Nat) : Int)) * 10 ^ s.length + decVal s = (decVal (c :: s) : Int) := by rw [decVal_cons]; push_cast; ring
    by_cases h16 : s.length + 1 ≤ 16
    · rw [if_pos h16, toInt_digit c hc, conv_unsigned, horner_wraps b s _ hd', hcast]
    · rw [if_neg h16, ih (by simp at hl; omega) hd', ok_bind]
      have ht : ∃ p, topProduct (s.length + 1) c = ok p ∧ p % ((2 ^ b : Nat) : Int) = (((c.toNat - 48 : Nat) : Int) * 10 ^ s.length) % ((2 ^ b : Nat) : Int) := by
        unfold topProduct
        rw [toInt_digit c hc]
        simp only [List.length_cons] at hl
        simp only [Nat.add_sub_cancel]
        by_cases h20 : s.length + 1 = 20
        · rw [if_pos h20]
          refine ⟨_, rfl, ?_⟩
          apply Int.emod_emod_of_dvd
          have : (2 ^ b : Nat) ∣ 2 ^ 64 := Nat.pow_dvd_pow 2 hb
          exact_mod_cast this
        · rw [if_neg h20, if_pos]
          · exact ⟨_, rfl, rfl⟩
          · have hpl' : (10 : Nat) ^ s.length ≤ 10 ^ 18 := Nat.pow_le_pow_right (by omega) (by omega)
            have h9 : (c.toNat - 48) * 10 ^ s.length ≤ 9 * 10 ^ 18 := Nat.mul_le_mul (by omega) hpl'
            have hc' : ((c.toNat - 48 : Nat) : Int) * 10 ^ s.length = (((c.toNat - 48) * 10 ^ s.length : Nat) : Int) := by push_cast; rfl
            rw [hc']
            unfold fits
            simp only [Nat.add_one_sub_one]
            omega
      obtain ⟨p, hp, hpm⟩ := ht
      rw [hp, ok_bind, arith_unsigned, conv_unsigned, hpm, ← Int.add_emod, Int.add_comm, hcast]

/-- C31: with an unsigned target of 16, 32 or 64 bits every text of up to 19 digits is accepted, the empty one too, and gives its value modulo the size of
the type: too large a number is not refused. -/
theorem C31_unsigned_wraps (bits : Nat) (hb : bits ≤ 64) (s : List Byte) (t0 : Int) (hl : s.length ≤ 19) (hd : ∀ c ∈ s, isDigit c) :
    numericConvert ⟨false, bits⟩ s.length s t0 true = ok (true, ((decVal s % 2 ^ bits : Nat) : Int)) := by
  unfold numericConvert allDigitsCheck
  simp only [if_true]
  rw [if_pos hl, allDigits_spec, ok_bind, if_pos (by simpa using hd), if_pos (by omega), convertImpl_wraps bits hb s (by omega) hd, ok_bind]
  push_cast; rfl

example : numericConvert ⟨false, 32⟩ 0 [] 7 true = ok (true, 0) ∧
    numericConvert ⟨false, 16⟩ 5 [54, 53, 53, 51, 55] 7 true = ok (true, 1) := by decide

end Strtk.Fast
