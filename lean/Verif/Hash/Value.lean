import Verif.Hash.Props
import Verif.Bloom.Hash

/-! # `strtk::hash`: the value of one step (C57), over the natural numbers -/

namespace Strtk.Hash
open Outcome Mem

/-- A character as the `int` it is converted to, modulo 2^32. -/
def charInt (signed : Bool) (b : UInt8) : Nat := if signed ∧ 128 ≤ b.toNat then 2 ^ 32 - 256 + b.toNat else b.toNat

/-- The bytes of an `int`, the least significant first. -/
def intByte (v i : Nat) : Nat := v / 256 ^ i % 256

/-- One character mixed into the hash: its four bytes in turn, by multiplication and by addition. -/
def mixSpec (v h : Nat) : Nat :=
  let h := h ^^^ ((h * 128 % 2 ^ 32) ^^^ (intByte v 0 * (h / 8) % 2 ^ 32))
  let h := h ^^^ (2 ^ 32 - 1 - (h * 2048 + (intByte v 1 ^^^ (h / 32))) % 2 ^ 32)
  let h := h ^^^ ((h * 128 % 2 ^ 32) ^^^ (intByte v 2 * (h / 8) % 2 ^ 32))
  h ^^^ (2 ^ 32 - 1 - (h * 2048 + (intByte v 3 ^^^ (h / 32))) % 2 ^ 32)

theorem even_toNat (b : UInt8) (h : UInt32) : (even b h).toNat = h.toNat ^^^ ((h.toNat * 128 % 2 ^ 32) ^^^ (b.toNat * (h.toNat / 8) % 2 ^ 32)) := by
  unfold even
  rw [UInt32.toNat_xor, Bloom.mul_toNat, UInt8.toNat_toUInt32]; rfl

theorem odd_toNat (b : UInt8) (h : UInt32) : (odd b h).toNat = h.toNat ^^^ (2 ^ 32 - 1 - (h.toNat * 2048 + (b.toNat ^^^ (h.toNat / 32))) % 2 ^ 32) := by
  unfold odd
  rw [UInt32.toNat_xor, Bloom.add_toNat, UInt8.toNat_toUInt32]; rfl

/-- C57: what one character does to the hash, for signed and for unsigned characters. -/
theorem C57_step_value (signed : Bool) (h : UInt32) (b : UInt8) : (mixByte signed h b).toNat = mixSpec (charInt signed b) h.toNat := by
  have hb := b.toNat_lt
  have e : ∃ hi : UInt8, (if signed then charHigh b else 0) = hi ∧ intByte (charInt signed b) 0 = b.toNat ∧ intByte (charInt signed b) 1 = hi.toNat ∧
      intByte (charInt signed b) 2 = hi.toNat ∧ intByte (charInt signed b) 3 = hi.toNat := by
    refine ⟨_, rfl, ?_⟩
    unfold charInt charHigh intByte
    cases signed
    · simp; omega
    · by_cases h : b.toNat < 128
      · simp [h, show ¬ 128 ≤ b.toNat by omega]; omega
      · simp [h, show 128 ≤ b.toNat by omega]; omega
  obtain ⟨hi, e0, e1, e2, e3, e4⟩ := e
  unfold mixByte podHash mixSpec
  rw [e0, e1, e2, e3, e4]
  simp only [odd_toNat, even_toNat]

/-- C57: the hash of a string whose length is one of those of `C57_fold_partial` is the fold of the steps over its characters. -/
theorem C57_value_partial (s : List UInt8) (seed : UInt32)
    (h : s.length % 64 = 0 ∨ s.length = 2 ∨ s.length = 4 ∨ s.length = 8 ∨ s.length = 16 ∨ s.length = 32) :
    ∃ v, hashString s seed = ok v ∧ v.toNat = (s.map (charInt true)).foldl (fun h c => mixSpec c h) seed.toNat := by
  refine ⟨_, C57_fold_partial (mixByte true) s seed h, ?_⟩
  clear h
  unfold fold
  induction s generalizing seed with
  | nil => rfl
  | cons b s ih => rw [List.foldl_cons, ih, List.map_cons, List.foldl_cons, C57_step_value]

example : hashString [97, 200] 7 = ok (mixByte true (mixByte true 7 97) 200) := by decide +kernel

end Strtk.Hash
