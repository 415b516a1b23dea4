import Verif.Codec.Props

/-! # What the decoders make of any text, well formed or not (C21) -/

namespace Strtk.Codec
open Outcome Mem

/-! ## Specification -/

/-- The bytes of pairs of characters: what is no hexadecimal digit counts as zero. -/
def hexBytes : List Byte → List Byte
  | a :: b :: t => BitVec.ofNat 8 (16 * (hexValue a).getD 0 + (hexValue b).getD 0) :: hexBytes t
  | _ => []

/-- The value of a character: its place in the base64 alphabet; eight one bits for any other character, `=` among them. -/
def base64Value (c : Byte) : Byte :=
  if 65 ≤ c.toNat ∧ c.toNat ≤ 90 then BitVec.ofNat 8 (c.toNat - 65)
  else if 97 ≤ c.toNat ∧ c.toNat ≤ 122 then BitVec.ofNat 8 (c.toNat - 71)
  else if 48 ≤ c.toNat ∧ c.toNat ≤ 57 then BitVec.ofNat 8 (c.toNat + 4)
  else if c = 43 then 62 else if c = 47 then 63 else 255

/-- The three bytes of four values, each built from two neighbours. -/
def first (a b : Byte) : Byte := base64Value a <<< 2 ||| base64Value b >>> 4
def second (b c : Byte) : Byte := base64Value b <<< 4 ||| base64Value c >>> 2
def third (c d : Byte) : Byte := base64Value c <<< 6 ||| base64Value d

/-- Groups of four characters; one character that is left over adds nothing. -/
def base64Bytes : List Byte → List Byte
  | a :: b :: c :: d :: t => first a b :: second b c :: third c d :: base64Bytes t
  | [a, b, c] => [first a b, second b c]
  | [a, b] => [first a b]
  | _ => []

/-- The padding taken off: two characters if the last but one is `=`, whatever the last one is; otherwise a last `=`. -/
def unpad (s : List Byte) : List Byte :=
  if s[s.length - 2]? = some 61 then s.take (s.length - 2) else if s[s.length - 1]? = some 61 then s.take (s.length - 1) else s

/-! ## Proofs -/

theorem hexToBin_value (c : Byte) : deref hexToBin c.toNat = ok (BitVec.ofNat 8 ((hexValue c).getD 0)) ∧ (hexValue c).getD 0 < 16 := by
  have : ∀ c : Byte, deref hexToBin c.toNat = ok (BitVec.ofNat 8 ((hexValue c).getD 0)) ∧ (hexValue c).getD 0 < 16 := by decide +kernel
  exact this c

theorem nibbles (x y : Nat) (hx : x < 16) (hy : y < 16) : BitVec.ofNat 8 x <<< 4 ||| BitVec.ofNat 8 y = BitVec.ofNat 8 (16 * x + y) := by
  have : ∀ x y : Fin 16, BitVec.ofNat 8 x.val <<< 4 ||| BitVec.ofNat 8 y.val = BitVec.ofNat 8 (16 * x.val + y.val) := by decide +kernel
  exact this ⟨x, hx⟩ ⟨y, hy⟩

theorem hexToBinLoop_exact : ∀ (n : Nat) (h done room : List Byte), h.length = 2 * n → room.length = n →
    hexToBinLoop h (done ++ room) done.length = ok (done ++ hexBytes h) := by
  intro n
  induction n with
  | zero =>
    intro h done room hl hr
    have : h = [] := List.length_eq_zero_iff.mp (by omega)
    subst this
    have : room = [] := List.length_eq_zero_iff.mp hr
    subst this
    rfl
  | succ n ih =>
    intro h done room hl hr
    match h, hl with
    | a :: b :: t, hl =>
      unfold hexToBinLoop
      obtain ⟨ha, ha'⟩ := hexToBin_value a
      obtain ⟨hb, hb'⟩ := hexToBin_value b
      rw [ha, ok_bind, hb, ok_bind, nibbles _ _ ha' hb', puts_append _ done room (by simp; omega), ok_bind]
      have := ih t (done ++ [BitVec.ofNat 8 (16 * (hexValue a).getD 0 + (hexValue b).getD 0)]) (room.drop 1)
        (by simp only [List.length_cons] at hl; omega) (by rw [List.length_drop]; omega)
      rw [List.length_append] at this
      simp only [List.length_cons, List.length_nil, Nat.zero_add] at this ⊢
      rw [this]
      simp [hexBytes]

/-- C21: the hex decoder on every text of even length but the empty one (the others are refused, C21_hex_decoder_safe). -/
theorem C21_hex_exact (h out0 : List Byte) (hn : h ≠ []) (he : h.length % 2 = 0) : hexToBinStr h out0 = ok (true, hexBytes h) := by
  have h0 : h.length ≠ 0 := fun e => hn (List.length_eq_zero_iff.mp e)
  rw [hexToBinStr, if_neg (fun e => e.elim hn (by omega)), hexToBinRaw, if_neg h0, if_neg (by omega)]
  have hs : h.length >>> 1 = h.length / 2 := by rw [Nat.shiftRight_eq_div_pow]
  have := hexToBinLoop_exact (h.length / 2) h [] (resize 0 out0 (h.length >>> 1)) (by omega) (by rw [Mem.resize_length, hs])
  simp only [List.nil_append, List.length_nil] at this
  rw [this, ok_bind]

theorem base64ToBin_value (c : Byte) : deref base64ToBin c.toNat = ok (base64Value c) := by
  have : ∀ c : Byte, deref base64ToBin c.toNat = ok (base64Value c) := by decide +kernel
  exact this c

theorem byte_high (x : Byte) (k : Nat) (h : 8 ≤ k) : x.toNat.testBit k = false :=
  Nat.testBit_lt_two_pow (Nat.lt_of_lt_of_le x.isLt (Nat.pow_le_pow_right (by decide) h))

theorem block_bytes (a b c d : Byte) :
    BitVec.ofNat 8 (((a.toNat <<< 18 ||| b.toNat <<< 12 ||| c.toNat <<< 6 ||| d.toNat) >>> 16) &&& 0xFF) = a <<< 2 ||| b >>> 4 ∧
    BitVec.ofNat 8 (((a.toNat <<< 18 ||| b.toNat <<< 12 ||| c.toNat <<< 6 ||| d.toNat) >>> 8) &&& 0xFF) = b <<< 4 ||| c >>> 2 ∧
    BitVec.ofNat 8 ((a.toNat <<< 18 ||| b.toNat <<< 12 ||| c.toNat <<< 6 ||| d.toNat) &&& 0xFF) = c <<< 6 ||| d := by
  have h255 : ∀ i : Nat, i < 8 → (255 : Nat).testBit i = true := by decide
  refine ⟨?_, ?_, ?_⟩ <;> apply BitVec.eq_of_getLsbD_eq <;> intro i hi <;>
    simp only [BitVec.getLsbD_ofNat, BitVec.getLsbD_or, BitVec.getLsbD_shiftLeft, BitVec.getLsbD_ushiftRight, Nat.testBit_and, Nat.testBit_or,
      Nat.testBit_shiftLeft, Nat.testBit_shiftRight, h255 i hi, Bool.and_true, hi, decide_true, Bool.true_and]
  · rw [byte_high c (16 + i - 6) (by omega), byte_high d (16 + i) (by omega)]
    simp only [BitVec.getLsbD]
    have e1 : (16 + i ≥ 18) ↔ ¬ (i < 2) := by omega
    have e2 : 16 + i ≥ 12 := by omega
    simp only [e1, e2, show 16 + i - 18 = i - 2 by omega, show 16 + i - 12 = 4 + i by omega]
    simp [← Nat.not_lt]
  · rw [byte_high d (8 + i) (by omega)]
    have e0 : ¬ (8 + i ≥ 18) := by omega
    have e1 : (8 + i ≥ 12) ↔ ¬ (i < 4) := by omega
    have e2 : 8 + i ≥ 6 := by omega
    simp only [BitVec.getLsbD, e0, e1, e2, show 8 + i - 12 = i - 4 by omega, show 8 + i - 6 = 2 + i by omega]
    simp [← Nat.not_lt]
  · have e0 : ¬ (i ≥ 18) := by omega
    have e1 : ¬ (i ≥ 12) := by omega
    have e2 : (i ≥ 6) ↔ ¬ (i < 6) := by omega
    simp only [BitVec.getLsbD, e0, e1, e2]
    simp [← Nat.not_lt]

theorem b64DecRounds_exact (src : List Byte) : ∀ (n : Nat) (pre t post done room : List Byte), src = pre ++ t ++ post → t.length = 4 * n →
    3 * n ≤ room.length → b64DecRounds src n pre.length (done ++ room) done.length =
      ok (pre.length + 4 * n, done ++ base64Bytes t ++ room.drop (3 * n), done.length + 3 * n) := by
  intro n
  induction n with
  | zero =>
    intro pre t post done room _ ht _
    have : t = [] := List.length_eq_zero_iff.mp (by omega)
    subst this
    simp [b64DecRounds, base64Bytes]
  | succ n ih =>
    intro pre t post done room hs ht hr
    match t, ht with
    | a :: b :: c :: d :: t, ht =>
      have d0 : deref src pre.length = ok a := by
        rw [hs, List.append_assoc]; exact deref_append_cons pre _ _
      have d1 : deref src (pre.length + 1) = ok b := by
        have := deref_append_cons (pre ++ [a]) b (c :: d :: t ++ post); rw [hs]; simpa using this
      have d2 : deref src (pre.length + 2) = ok c := by
        have := deref_append_cons (pre ++ [a, b]) c (d :: t ++ post); rw [hs]; simpa using this
      have d3 : deref src (pre.length + 3) = ok d := by
        have := deref_append_cons (pre ++ [a, b, c]) d (t ++ post); rw [hs]; simpa using this
      unfold b64DecRounds
      simp only [d0, d1, d2, d3, ok_bind, base64ToBin_value]
      obtain ⟨e0, e1, e2⟩ := block_bytes (base64Value a) (base64Value b) (base64Value c) (base64Value d)
      rw [e0, e1, e2, puts_append _ done room (by simp; omega), ok_bind]
      have hrec := ih (pre ++ [a, b, c, d]) t post (done ++ [first a b, second b c, third c d]) (room.drop 3) (by rw [hs]; simp)
        (by simp only [List.length_cons] at ht; omega) (by rw [List.length_drop]; omega)
      simp only [List.length_append, List.length_cons, List.length_nil, Nat.zero_add, Nat.reduceAdd] at hrec ⊢
      simp only [first, second, third] at hrec
      rw [hrec, List.drop_drop]
      simp only [base64Bytes, first, second, third, List.append_assoc, Outcome.ok.injEq, Prod.mk.injEq, List.cons_append, List.nil_append]
      refine ⟨by omega, ?_, by omega⟩
      congr 6
      omega

theorem base64Bytes_append : ∀ (n : Nat) (t r : List Byte), t.length = 4 * n → base64Bytes (t ++ r) = base64Bytes t ++ base64Bytes r
  | 0, t, r, h => by
    have : t = [] := List.length_eq_zero_iff.mp (by omega)
    subst this
    rfl
  | n + 1, a :: b :: c :: d :: t, r, h => by
    simp only [List.cons_append, base64Bytes]
    rw [base64Bytes_append n t r (by simp only [List.length_cons] at h; omega)]

theorem base64Bytes_length (n : Nat) (t : List Byte) (h : t.length = 4 * n) : (base64Bytes t).length = 3 * n := by
  induction n generalizing t with
  | zero =>
    have : t = [] := List.length_eq_zero_iff.mp (by omega)
    subst this
    rfl
  | succ n ih =>
    match t, h with
    | a :: b :: c :: d :: t, h =>
      simp only [base64Bytes, List.length_cons]
      rw [ih t (by simp only [List.length_cons] at h; omega)]
      omega

/-- C21: the base64 decoder on every text of two or more characters. -/
theorem C21_base64_exact (src out0 : List Byte) (h : 2 ≤ src.length) : b64DecStr src out0 = ok (base64Bytes (unpad src)) := by
  obtain ⟨e, he, hun, hee⟩ : ∃ e ≤ src.length, unpad src = src.take e ∧ (if src[src.length - 2] = 61 then ok (src.length - 2) else do
      let c1 ← deref src (src.length - 1)
      if c1 = 61 then ok (src.length - 1) else ok src.length) = ok e := by
    unfold unpad
    rw [List.getElem?_eq_getElem (by omega), List.getElem?_eq_getElem (by omega)]
    by_cases c : src[src.length - 2] = 61
    · exact ⟨src.length - 2, by omega, by rw [if_pos (by rw [c])], by rw [if_pos c]⟩
    · by_cases c' : src[src.length - 1] = 61
      · exact ⟨src.length - 1, by omega, by rw [if_neg (by simpa using c), if_pos (by rw [c'])], by
          rw [if_neg c, deref_eq_ok (by omega), ok_bind, if_pos c']⟩
      · exact ⟨src.length, Nat.le_refl _, by rw [if_neg (by simpa using c), if_neg (by simpa using c'), List.take_length], by
          rw [if_neg c, deref_eq_ok (by omega), ok_bind, if_neg c']⟩
  unfold b64DecStr b64Dec
  rw [if_neg (by omega), deref_eq_ok (by omega), ok_bind, hee, ok_bind, hun]
  have hroom : (resize (0 : Byte) out0 src.length).length = src.length := Mem.resize_length _ _ _
  generalize resize (0 : Byte) out0 src.length = room at hroom ⊢
  have htl : ((src.take e).take (4 * (e / 4))).length = 4 * (e / 4) := by rw [List.length_take, List.length_take]; omega
  have hrest : ((src.take e).drop (4 * (e / 4))).length = e % 4 := by rw [List.length_drop, List.length_take]; omega
  have hsrc : src = (src.take e).take (4 * (e / 4)) ++ ((src.take e).drop (4 * (e / 4)) ++ src.drop e) := by
    rw [← List.append_assoc, List.take_append_drop, List.take_append_drop]
  have hdec : base64Bytes (src.take e) = base64Bytes ((src.take e).take (4 * (e / 4))) ++ base64Bytes ((src.take e).drop (4 * (e / 4))) := by
    rw [← base64Bytes_append _ _ _ htl, List.take_append_drop]
  have hfull := base64Bytes_length _ _ htl
  rw [hdec]
  generalize (src.take e).take (4 * (e / 4)) = t at *
  generalize (src.take e).drop (4 * (e / 4)) = r at *
  generalize src.drop e = post at hsrc
  have hrounds := b64DecRounds_exact src (e / 4) [] t (r ++ post) [] room (by simpa using hsrc) htl (by omega)
  simp only [List.nil_append, List.length_nil, Nat.zero_add] at hrounds
  simp only [hrounds, ok_bind]
  generalize base64Bytes t = bt at *
  have hdrop : (room.drop (3 * (e / 4))).length = src.length - 3 * (e / 4) := by rw [List.length_drop, hroom]
  generalize room.drop (3 * (e / 4)) = rm at *
  have hmod : e % 4 = 0 ∨ e % 4 = 1 ∨ e % 4 = 2 ∨ e % 4 = 3 := by omega
  have hres : ∀ (x y : List Byte) (m : Nat), x.length = m → ok (resize (0 : Byte) (x ++ y) m) = ok x := by
    intro x y m hm
    subst hm
    unfold resize
    simp
  rcases hmod with hm | hm | hm | hm
  · simp only [hm, ok_bind]
    match r, hrest.trans hm with
    | [], _ =>
      rw [show base64Bytes [] = [] from rfl, List.append_nil]; exact hres _ _ _ (by omega)
  · simp only [hm, ok_bind]
    match r, hrest.trans hm with
    | [a], _ =>
      rw [show base64Bytes [a] = [] from rfl, List.append_nil]; exact hres _ _ _ (by omega)
  · simp only [hm]
    match r, hrest.trans hm with
    | [a, b], _ =>
      have d0 : deref src (4 * (e / 4)) = ok a := by
        rw [hsrc, ← htl]; exact deref_append_cons t _ _
      have d1 : deref src (4 * (e / 4) + 1) = ok b := by
        have := deref_append_cons (t ++ [a]) b post; rw [hsrc, ← htl]; simpa using this
      obtain ⟨e0, _, _⟩ := block_bytes (base64Value a) (base64Value b) 0 0
      simp only [d0, d1, ok_bind, base64ToBin_value]
      simp only [show BitVec.toNat (0 : Byte) = 0 from rfl, Nat.zero_shiftLeft, Nat.or_zero] at e0
      rw [e0]
      have hp := puts_append [base64Value a <<< 2 ||| base64Value b >>> 4] bt rm (by simp; omega)
      rw [hfull] at hp
      rw [hp, ok_bind, base64Bytes]
      exact hres _ _ _ (by simp; omega)
  · simp only [hm]
    match r, hrest.trans hm with
    | [a, b, c], _ =>
      have d0 : deref src (4 * (e / 4)) = ok a := by
        rw [hsrc, ← htl]; exact deref_append_cons t _ _
      have d1 : deref src (4 * (e / 4) + 1) = ok b := by
        have := deref_append_cons (t ++ [a]) b (c :: post); rw [hsrc, ← htl]; simpa using this
      have d2 : deref src (4 * (e / 4) + 2) = ok c := by
        have := deref_append_cons (t ++ [a, b]) c post; rw [hsrc, ← htl]; simpa using this
      obtain ⟨e0, e1, _⟩ := block_bytes (base64Value a) (base64Value b) (base64Value c) 0
      simp only [d0, d1, d2, ok_bind, base64ToBin_value]
      simp only [show BitVec.toNat (0 : Byte) = 0 from rfl, Nat.or_zero] at e0 e1
      rw [e0, e1]
      have hp := puts_append [base64Value a <<< 2 ||| base64Value b >>> 4, base64Value b <<< 4 ||| base64Value c >>> 2] bt rm (by simp; omega)
      rw [hfull] at hp
      rw [hp, ok_bind, base64Bytes]
      exact hres _ _ _ (by simp; omega)

/-- Non-vacuity: "zz1g" and "T!W=x" (the `=` before the end takes the `x` with it, `!` has all bits set). -/
example : hexToBinStr [122, 122, 49, 103] [] = ok (true, [0, 16]) := C21_hex_exact _ [] (by decide) (by decide)
example : b64DecStr [84, 33, 87, 61, 120] [] = ok [0x4F, 0xF5] := by
  rw [C21_base64_exact _ _ (by decide)]; decide +kernel

end Strtk.Codec
