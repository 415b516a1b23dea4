import Verif.Binary.Model

/-! # Byte order (C46) -/

namespace Strtk.Binary
open Outcome Mem

/-- Byte `j` of a number, 0 being the lowest. -/
def byteOf {w : Nat} (v : BitVec w) (j : Nat) : BitVec 8 := v.extractLsb' (8 * j) 8

theorem byteOf_ext {w : Nat} {a b : BitVec w} (n : Nat) (hw : w = 8 * n) (h : ∀ j < n, byteOf a j = byteOf b j) : a = b := by
  apply BitVec.eq_of_getLsbD_eq
  intro i hi
  have := congrArg (fun x : BitVec 8 => x.getLsbD (i % 8)) (h (i / 8) (by omega))
  simp only [byteOf, BitVec.getLsbD_extractLsb'] at this
  rw [show 8 * (i / 8) + i % 8 = i by omega] at this
  simpa [show i % 8 < 8 by omega] using this

theorem convert64_bit (v : BitVec 64) (i : Nat) (hi : i < 64) : (convert64 v).getLsbD i = v.getLsbD (8 * (7 - i / 8) + i % 8) := by
  have : ∀ i : Fin 64, (convert64 v).getLsbD i = v.getLsbD (8 * (7 - i / 8) + i % 8) := by
    intro i
    match i with
    | ⟨i, hi⟩ =>
      have : ∀ k : Nat, k < 64 → (k = 0 ∨ k = 1 ∨ k = 2 ∨ k = 3 ∨ k = 4 ∨ k = 5 ∨ k = 6 ∨ k = 7 ∨ k = 8 ∨ k = 9 ∨ k = 10 ∨ k = 11 ∨ k = 12 ∨ k = 13 ∨ k = 14 ∨ k = 15 ∨ k = 16 ∨ k = 17 ∨ k = 18 ∨ k = 19 ∨ k = 20 ∨ k = 21 ∨ k = 22 ∨ k = 23 ∨ k = 24 ∨ k = 25 ∨ k = 26 ∨ k = 27 ∨ k = 28 ∨ k = 29 ∨ k = 30 ∨ k = 31 ∨ k = 32 ∨ k = 33 ∨ k = 34 ∨ k = 35 ∨ k = 36 ∨ k = 37 ∨ k = 38 ∨ k = 39 ∨ k = 40 ∨ k = 41 ∨ k = 42 ∨ k = 43 ∨ k = 44 ∨ k = 45 ∨ k = 46 ∨ k = 47 ∨ k = 48 ∨ k = 49 ∨ k = 50 ∨ k = 51 ∨ k = 52 ∨ k = 53 ∨ k = 54 ∨ k = 55 ∨ k = 56 ∨ k = 57 ∨ k = 58 ∨ k = 59 ∨ k = 60 ∨ k = 61 ∨ k = 62 ∨ k = 63) := by omega
      rcases this i hi with rfl | rfl | rfl | rfl | rfl | rfl | rfl | rfl | rfl | rfl | rfl | rfl | rfl | rfl | rfl | rfl | rfl | rfl | rfl | rfl | rfl | rfl | rfl | rfl | rfl | rfl | rfl | rfl | rfl | rfl | rfl | rfl | rfl | rfl | rfl | rfl | rfl | rfl | rfl | rfl | rfl | rfl | rfl | rfl | rfl | rfl | rfl | rfl | rfl | rfl | rfl | rfl | rfl | rfl | rfl | rfl | rfl | rfl | rfl | rfl | rfl | rfl | rfl | rfl <;>
        simp [convert64]
  exact this ⟨i, hi⟩

theorem convert16_bit (v : BitVec 16) (i : Nat) (hi : i < 16) : (convert16 v).getLsbD i = v.getLsbD (8 * (1 - i / 8) + i % 8) := by
  have : i = 0 ∨ i = 1 ∨ i = 2 ∨ i = 3 ∨ i = 4 ∨ i = 5 ∨ i = 6 ∨ i = 7 ∨ i = 8 ∨ i = 9 ∨ i = 10 ∨ i = 11 ∨ i = 12 ∨ i = 13 ∨ i = 14 ∨ i = 15 := by omega
  rcases this with rfl | rfl | rfl | rfl | rfl | rfl | rfl | rfl | rfl | rfl | rfl | rfl | rfl | rfl | rfl | rfl <;>
      simp [convert16]

/-- 16 bits: the bytes change places. -/
theorem C46_convert16 (v : BitVec 16) (j : Nat) (hj : j < 2) : byteOf (convert16 v) j = byteOf v (1 - j) := by
  apply BitVec.eq_of_getLsbD_eq
  intro b hb
  simp only [byteOf, BitVec.getLsbD_extractLsb', hb, decide_true, Bool.true_and]
  rw [convert16_bit _ _ (by omega)]
  congr 1
  omega

/-- 64 bits: the bytes are reversed. -/
theorem C46_convert64 (v : BitVec 64) (j : Nat) (hj : j < 8) : byteOf (convert64 v) j = byteOf v (7 - j) := by
  apply BitVec.eq_of_getLsbD_eq
  intro b hb
  simp only [byteOf, BitVec.getLsbD_extractLsb', hb, decide_true, Bool.true_and]
  rw [convert64_bit _ _ (by omega)]
  congr 1
  omega

/-- Converting twice is the identity for 16 and 64 bits. -/
theorem C46_involution_partial : (∀ v : BitVec 16, convert16 (convert16 v) = v) ∧ ∀ v : BitVec 64, convert64 (convert64 v) = v := by
  constructor
  · intro v
    apply byteOf_ext 2 rfl
    intro j hj
    rw [C46_convert16 _ _ hj, C46_convert16 _ _ (by omega)]
    congr 1
    omega
  · intro v
    apply byteOf_ext 8 rfl
    intro j hj
    rw [C46_convert64 _ _ hj, C46_convert64 _ _ (by omega)]
    congr 1
    omega

/-- 32 bits: only the highest and the second byte are moved; bytes 0 and 2 are lost for every value. -/
theorem C46_convert32_wrong (v : BitVec 32) : byteOf (convert32 v) 0 = byteOf v 3 ∧ byteOf (convert32 v) 1 = 0#8 ∧
    byteOf (convert32 v) 2 = byteOf v 1 ∧ byteOf (convert32 v) 3 = 0#8 := by
  refine ⟨?_, ?_, ?_, ?_⟩ <;>
  · apply BitVec.eq_of_getLsbD_eq
    intro b hb
    have : b = 0 ∨ b = 1 ∨ b = 2 ∨ b = 3 ∨ b = 4 ∨ b = 5 ∨ b = 6 ∨ b = 7 := by omega
    rcases this with rfl | rfl | rfl | rfl | rfl | rfl | rfl | rfl <;> simp [byteOf, convert32]

/-- So the round trip fails: 1 comes back as 0. -/
theorem C46_convert32_not_involution : convert32 (convert32 1#32) = 0#32 ∧ convert32 1#32 = convert32 0#32 := by decide

example : convert64 0x0102030405060708#64 = 0x0807060504030201#64 := by decide
example : convert16 0x0102#16 = 0x0201#16 := by decide

/-! ## On the wire -/

theorem leBytes_length (k v : Nat) : (leBytes k v).length = k := by
  induction k generalizing v with
  | zero => rfl
  | succ k ih => simp [leBytes, ih]

theorem leNat_leBytes (k v : Nat) : leNat (leBytes k v) = v % 256 ^ k := by
  induction k generalizing v with
  | zero => simp [leBytes, leNat, Nat.mod_one]
  | succ k ih =>
    simp only [leBytes, leNat, ih]
    rw [show (UInt8.ofNat (v % 256)).toNat = v % 256 by simp, Nat.pow_succ, Nat.mul_comm (256 ^ k), Nat.mod_mul]

theorem leBytes_get (k v j : Nat) (hj : j < k) : (leBytes k v)[j]? = some (UInt8.ofNat (v / 256 ^ j % 256)) := by
  induction k generalizing v j with
  | zero => omega
  | succ k ih =>
    cases j with
    | zero => simp [leBytes]
    | succ j => rw [leBytes, List.getElem?_cons_succ, ih _ _ (by omega), Nat.div_div_eq_div_mul, Nat.pow_succ, Nat.mul_comm 256]

theorem byteOf_toNat {w : Nat} (v : BitVec w) (j : Nat) : (byteOf v j).toNat = v.toNat / 256 ^ j % 256 := by
  rw [byteOf, BitVec.extractLsb'_toNat, Nat.shiftRight_eq_div_pow, Nat.pow_mul]

theorem reverse_of_bytes (n : Nat) {w : Nat} (a b : BitVec w) (h : ∀ j < n, byteOf a j = byteOf b (n - 1 - j)) :
    leBytes n a.toNat = (leBytes n b.toNat).reverse := by
  apply List.ext_getElem?
  intro j
  by_cases hj : j < n
  · rw [leBytes_get _ _ _ hj, List.getElem?_reverse (by rw [leBytes_length]; exact hj), leBytes_length, leBytes_get _ _ _ (by omega),
      ← byteOf_toNat, ← byteOf_toNat, h j hj]
  · rw [List.getElem?_eq_none (by rw [leBytes_length]; omega), List.getElem?_eq_none (by rw [List.length_reverse, leBytes_length]; omega)]

/-- `native_to_be` (14547-14556) on a little-endian host for 16, 32 and 64 bits. -/
def nativeToBE16 (v : BitVec 16) (st : St) : Outcome (Bool × St) := writePod (leBytes 2 (convert16 v).toNat) st
@[inherit_doc nativeToBE16] def nativeToBE32 (v : BitVec 32) (st : St) : Outcome (Bool × St) := writePod (leBytes 4 (convert32 v).toNat) st
@[inherit_doc nativeToBE16] def nativeToBE64 (v : BitVec 64) (st : St) : Outcome (Bool × St) := writePod (leBytes 8 (convert64 v).toNat) st

/-- `be_to_native` (14144-14155) on a little-endian host. -/
def beToNative16 (st : St) : Outcome (Option (BitVec 16) × St) := do
  let (r, st) ← readPod 2 st
  ok (r.map fun bs => convert16 (BitVec.ofNat 16 (leNat bs)), st)
@[inherit_doc beToNative16] def beToNative32 (st : St) : Outcome (Option (BitVec 32) × St) := do
  let (r, st) ← readPod 4 st
  ok (r.map fun bs => convert32 (BitVec.ofNat 32 (leNat bs)), st)
@[inherit_doc beToNative16] def beToNative64 (st : St) : Outcome (Option (BitVec 64) × St) := do
  let (r, st) ← readPod 8 st
  ok (r.map fun bs => convert64 (BitVec.ofNat 64 (leNat bs)), st)

/-- Writing at a position with enough room. -/
theorem writePod_ok (pre old post bs : List UInt8) (marks : List (Nat × Nat)) (h : old.length = bs.length)
    (hl : (pre ++ (old ++ post)).length < 2 ^ 63) :
    writePod bs ⟨pre ++ (old ++ post), pre.length, pre.length, marks⟩ =
      ok (true, ⟨pre ++ (bs ++ post), pre.length + bs.length, pre.length + bs.length, marks⟩) := by
  simp only [List.length_append] at hl
  unfold writePod capacityOk
  rw [if_pos (by simp; omega)]
  unfold putBytes
  rw [copyTo_append pre _ (old ++ post) bs (by simp; omega) rfl]
  simp [← h]

theorem readPod_ok (pre bs post : List UInt8) (marks : List (Nat × Nat)) (hl : (pre ++ (bs ++ post)).length < 2 ^ 63) :
    readPod bs.length ⟨pre ++ (bs ++ post), pre.length, pre.length, marks⟩ =
      ok (some bs, ⟨pre ++ (bs ++ post), pre.length + bs.length, pre.length + bs.length, marks⟩) := by
  simp only [List.length_append] at hl
  unfold readPod capacityOk
  rw [if_pos (by simp; omega)]
  unfold takeBytes
  rw [← List.append_assoc, slice_append, ok_bind]
  rfl

/-- `native_to_be` puts the bytes in network order, and `be_to_native` reads the value back. -/
theorem C46_network_order_partial (pre post : List UInt8) (marks : List (Nat × Nat)) (hl : pre.length + 8 + post.length < 2 ^ 63) :
    (∀ (v : BitVec 16) (old : List UInt8), old.length = 2 →
      let buf := pre ++ ((leBytes 2 v.toNat).reverse ++ post)
      nativeToBE16 v ⟨pre ++ (old ++ post), pre.length, pre.length, marks⟩ = ok (true, ⟨buf, pre.length + 2, pre.length + 2, marks⟩) ∧
      beToNative16 ⟨buf, pre.length, pre.length, marks⟩ = ok (some v, ⟨buf, pre.length + 2, pre.length + 2, marks⟩)) ∧
    (∀ (v : BitVec 64) (old : List UInt8), old.length = 8 →
      let buf := pre ++ ((leBytes 8 v.toNat).reverse ++ post)
      nativeToBE64 v ⟨pre ++ (old ++ post), pre.length, pre.length, marks⟩ = ok (true, ⟨buf, pre.length + 8, pre.length + 8, marks⟩) ∧
      beToNative64 ⟨buf, pre.length, pre.length, marks⟩ = ok (some v, ⟨buf, pre.length + 8, pre.length + 8, marks⟩)) := by
  constructor
  · intro v old hold buf
    have hrev := reverse_of_bytes 2 (convert16 v) v (fun j hj => C46_convert16 v j hj)
    have hlen : (leBytes 2 (convert16 v).toNat).length = 2 := leBytes_length _ _
    constructor
    · unfold nativeToBE16
      rw [writePod_ok _ _ _ _ _ (by rw [hlen]; exact hold) (by simp [hold]; omega), hlen, hrev]
    · unfold beToNative16
      have := readPod_ok pre (leBytes 2 (convert16 v).toNat) post marks (by simp [hlen]; omega)
      rw [hlen, hrev] at this
      rw [this, ok_bind, ← hrev]
      simp only [Option.map_some, leNat_leBytes]
      rw [Nat.mod_eq_of_lt (convert16 v).isLt, BitVec.ofNat_toNat, BitVec.setWidth_eq, C46_involution_partial.1, hrev]
  · intro v old hold buf
    have hrev := reverse_of_bytes 8 (convert64 v) v (fun j hj => C46_convert64 v j hj)
    have hlen : (leBytes 8 (convert64 v).toNat).length = 8 := leBytes_length _ _
    constructor
    · unfold nativeToBE64
      rw [writePod_ok _ _ _ _ _ (by rw [hlen]; exact hold) (by simp [hold]; omega), hlen, hrev]
    · unfold beToNative64
      have := readPod_ok pre (leBytes 8 (convert64 v).toNat) post marks (by simp [hlen]; omega)
      rw [hlen, hrev] at this
      rw [this, ok_bind, ← hrev]
      simp only [Option.map_some, leNat_leBytes]
      rw [Nat.mod_eq_of_lt (convert64 v).isLt, BitVec.ofNat_toNat, BitVec.setWidth_eq, C46_involution_partial.2, hrev]

/-- The 32-bit number 1 written in network order and read back is 0. -/
theorem C46_network_order_32_wrong :
    nativeToBE32 1#32 (St.fresh [9, 9, 9, 9]) = ok (true, ⟨[0, 0, 0, 0], 4, 4, []⟩) ∧
    beToNative32 (St.fresh [0, 0, 0, 0]) = ok (some 0#32, ⟨[0, 0, 0, 0], 4, 4, []⟩) := by decide +kernel

example := C46_network_order_partial [1, 2] [3] [] (by decide)

end Strtk.Binary
