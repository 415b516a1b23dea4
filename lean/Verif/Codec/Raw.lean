import Verif.Codec.Props
import Verif.Codec.Malformed

/-!
# Conversions into a buffer of the caller (C148)

The overloads on pointers write to `out` without knowing how much room there is.  Exactly how much they write, that the rest of the buffer is left alone,
and the smallest buffer with which they stay inside it.
-/

namespace Strtk.Codec
open Outcome Mem

/-! ## Hexadecimal -/

theorem binToHexLoop_ub (s : List Byte) : ∀ (buf : List Byte) (o : Nat), o ≤ buf.length → buf.length < o + 2 * s.length → binToHexLoop s buf o = ub := by
  induction s with
  | nil => intro buf o h1 h2; simp at h2; omega
  | cons c s ih =>
    intro buf o h1 h2
    unfold binToHexLoop
    obtain ⟨v, hv, hd⟩ := hexLut_at c
    rw [hv, ok_bind, put16]
    by_cases h : o + 2 ≤ buf.length
    · obtain ⟨buf', hb, hl⟩ := puts_length buf o [v.extractLsb' 0 8, v.extractLsb' 8 8] (by simpa using h)
      rw [hb, ok_bind]
      exact ih buf' (o + 2) (by omega) (by simp only [List.length_cons] at h2; omega)
    · rw [puts_ub _ _ _ (by simp; omega) h1]; rfl

/-- C148: the hexadecimal text of `n` bytes takes the first `2n` bytes of the buffer and nothing else changes; with less room the call writes past
the end. -/
theorem C148_bin_to_hex (b buf : List Byte) :
    binToHexLoop b buf 0 = if 2 * b.length ≤ buf.length then ok (hexText b ++ buf.drop (2 * b.length)) else ub := by
  split
  · rename_i h
    have := binToHexLoop_spec b [] buf (by omega)
    simp only [List.nil_append, List.length_nil] at this
    rw [this, Nat.mul_comm]
  · exact binToHexLoop_ub b buf 0 (by omega) (by omega)

theorem hexToBinLoop_room : ∀ (n : Nat) (h done room : List Byte), h.length = 2 * n →
    hexToBinLoop h (done ++ room) done.length = if n ≤ room.length then ok (done ++ hexBytes h ++ room.drop n) else ub := by
  intro n
  induction n with
  | zero =>
    intro h done room hl
    have : h = [] := List.length_eq_zero_iff.mp (by omega)
    subst this
    simp [hexToBinLoop, hexBytes]
  | succ n ih =>
    intro h done room hl
    match h, hl with
    | a :: b :: t, hl =>
      unfold hexToBinLoop
      obtain ⟨ha, ha'⟩ := hexToBin_value a
      obtain ⟨hb, hb'⟩ := hexToBin_value b
      rw [ha, ok_bind, hb, ok_bind, nibbles _ _ ha' hb']
      by_cases hr : 1 ≤ room.length
      · rw [puts_append _ done room (by simpa using hr), ok_bind]
        have := ih t (done ++ [BitVec.ofNat 8 (16 * (hexValue a).getD 0 + (hexValue b).getD 0)]) (room.drop 1)
          (by simp only [List.length_cons] at hl; omega)
        rw [List.length_append, List.length_drop] at this
        simp only [List.length_cons, List.length_nil, Nat.zero_add] at this ⊢
        rw [this]
        have e : (n ≤ room.length - 1) ↔ (n + 1 ≤ room.length) := by omega
        simp only [e, List.drop_drop, Nat.add_comm 1 n]
        simp [hexBytes]
      · rw [puts_ub _ _ _ (by simp only [List.length_append, List.length_cons, List.length_nil]; omega) (by rw [List.length_append]; omega), if_neg (by omega)]; rfl

/-- C148: `2n` characters are decoded to the first `n` bytes of the buffer, whatever the characters are, and nothing else changes; with less room the
call writes past the end.  No characters or an odd number: refused, nothing written. -/
theorem C148_hex_to_bin (h buf : List Byte) :
    hexToBinRaw h buf 0 = if h.length = 0 ∨ h.length % 2 = 1 then ok (false, buf)
      else if h.length / 2 ≤ buf.length then ok (true, hexBytes h ++ buf.drop (h.length / 2)) else ub := by
  unfold hexToBinRaw
  by_cases h0 : h.length = 0
  · rw [if_pos h0, if_pos (.inl h0)]
  by_cases h1 : h.length % 2 = 1
  · rw [if_neg h0, if_pos h1, if_pos (.inr h1)]
  rw [if_neg h0, if_neg h1, if_neg (by omega)]
  have := hexToBinLoop_room (h.length / 2) h [] buf (by omega)
  simp only [List.nil_append, List.length_nil] at this
  rw [this]
  split <;> rfl

/-! ## Base64 -/

theorem b64EncRounds_ub (src : List Byte) : ∀ (n itr : Nat) (buf : List Byte) (o : Nat), itr + 3 * n ≤ src.length → o ≤ buf.length →
    buf.length < o + 4 * n → b64EncRounds src n itr buf o = ub := by
  intro n
  induction n with
  | zero => intro itr buf o _ h1 h2; omega
  | succ n ih =>
    intro itr buf o hs h1 h2
    unfold b64EncRounds
    rw [deref_eq_ok (by omega), ok_bind, deref_eq_ok (by omega), ok_bind, deref_eq_ok (by omega), ok_bind]
    simp only [and63]
    rw [binToBase64_at _ (Nat.mod_lt _ (by omega)), ok_bind, binToBase64_at _ (Nat.mod_lt _ (by omega)), ok_bind,
      binToBase64_at _ (Nat.mod_lt _ (by omega)), ok_bind, binToBase64_at _ (Nat.mod_lt _ (by omega)), ok_bind]
    by_cases h : o + 4 ≤ buf.length
    · obtain ⟨buf', hb, hl⟩ := puts_length buf o [_, _, _, _] (by simpa using h)
      rw [hb, ok_bind]
      exact ih _ _ _ (by omega) (by omega) (by omega)
    · rw [puts_ub _ _ _ (by simp; omega) h1]; rfl

/-- C148: the base64 text of `n` bytes takes the first `4 ⌈n / 3⌉` bytes of the buffer, that number is returned, and nothing else changes; with less room
the call writes past the end. -/
theorem C148_bin_to_base64 (b buf : List Byte) :
    b64Enc b buf = if 4 * ((b.length + 2) / 3) ≤ buf.length
      then ok (4 * ((b.length + 2) / 3), base64Text b ++ buf.drop (4 * ((b.length + 2) / 3))) else ub := by
  obtain ⟨ts, rest, hs, hr⟩ := group3 b.length b rfl
  have hlen : b.length = 3 * ts.length + rest.length := by rw [hs, List.length_append, flat3_length]
  unfold b64Enc
  have hq : b.length / 3 = ts.length := by omega
  by_cases hfit : 4 * ts.length ≤ buf.length
  · have hrounds := b64EncRounds_spec b ts [] rest [] buf (by simpa using hs) hfit
    simp only [List.nil_append, List.length_nil, Nat.zero_add] at hrounds
    simp only [hq, hrounds, ok_bind]
    have hel := encs_length ts
    rw [show base64Text b = (ts.map enc3).flatten ++ base64Text rest by rw [hs, base64Text_append]]
    match rest, hr with
    | [], _ =>
      simp only [List.length_nil, Nat.add_zero] at hlen
      rw [show b.length % 3 = 0 by omega, show (b.length + 2) / 3 = ts.length by omega, if_pos hfit]
      simp only [ok_bind, Nat.lt_irrefl, if_false, Nat.add_zero, base64Text, List.append_nil, gt_iff_lt, Nat.mul_comm]
    | [x], _ =>
      simp only [List.length_cons, List.length_nil, Nat.zero_add] at hlen
      have hx := x.isLt
      have hdx : deref b (3 * ts.length) = ok x := by
        have := deref_append_cons (flat3 ts) x []
        rw [flat3_length] at this
        rw [hs]; exact this
      rw [show b.length % 3 = 1 by omega, show (b.length + 2) / 3 = ts.length + 1 by omega]
      simp only [hdx, ok_bind, and63, Nat.shiftRight_eq_div_pow, Nat.shiftLeft_eq]
      rw [binToBase64_at _ (Nat.mod_lt _ (by omega)), binToBase64_at _ (Nat.mod_lt _ (by omega))]
      simp only [ok_bind]
      by_cases hm : 4 * (ts.length + 1) ≤ buf.length
      · have hp := puts_append [base64Char (x.toNat * 2 ^ 16 / 2 ^ 18 % 64), base64Char (x.toNat * 2 ^ 16 / 2 ^ 12 % 64), 61, 61]
          ((ts.map enc3).flatten) (buf.drop (4 * ts.length)) (by rw [List.length_drop]; simp; omega)
        rw [hel] at hp
        rw [hp, if_pos hm]
        simp only [ok_bind, show (1 > 0) = True by simp, if_true, base64Text, List.drop_drop, List.length_cons, List.length_nil]
        rw [show x.toNat * 2 ^ 16 / 2 ^ 18 % 64 = x.toNat / 4 by omega, show x.toNat * 2 ^ 16 / 2 ^ 12 % 64 = x.toNat % 4 * 16 by omega,
          show ts.length * 4 + 4 = 4 * (ts.length + 1) by omega, show 4 * ts.length + (0 + 1 + 1 + 1 + 1) = 4 * (ts.length + 1) by omega]
      · rw [if_neg hm, puts_ub _ _ _ (by simp [hel]; omega) (by simp [hel])]; rfl
    | [x, y], _ =>
      simp only [List.length_cons, List.length_nil, Nat.zero_add] at hlen
      have hx := x.isLt
      have hy := y.isLt
      have hdx : deref b (3 * ts.length) = ok x := by
        have := deref_append_cons (flat3 ts) x [y]
        rw [flat3_length] at this
        rw [hs]; exact this
      have hdy : deref b (3 * ts.length + 1) = ok y := by
        have := deref_append_cons (flat3 ts ++ [x]) y []
        rw [List.length_append, flat3_length] at this
        rw [hs]; simpa using this
      rw [show b.length % 3 = 2 by omega, show (b.length + 2) / 3 = ts.length + 1 by omega]
      simp only [hdx, hdy, ok_bind, and63, block2, Nat.shiftRight_eq_div_pow]
      rw [binToBase64_at _ (Nat.mod_lt _ (by omega)), binToBase64_at _ (Nat.mod_lt _ (by omega)), binToBase64_at _ (Nat.mod_lt _ (by omega))]
      simp only [ok_bind]
      by_cases hm : 4 * (ts.length + 1) ≤ buf.length
      · have hp := puts_append [base64Char ((x.toNat * 65536 + y.toNat * 256) / 2 ^ 18 % 64), base64Char ((x.toNat * 65536 + y.toNat * 256) / 2 ^ 12 % 64),
          base64Char ((x.toNat * 65536 + y.toNat * 256) / 2 ^ 6 % 64), 61]
          ((ts.map enc3).flatten) (buf.drop (4 * ts.length)) (by rw [List.length_drop]; simp; omega)
        rw [hel] at hp
        rw [hp, if_pos hm]
        simp only [ok_bind, show (2 > 0) = True by simp, if_true, base64Text, List.drop_drop, List.length_cons, List.length_nil]
        rw [show (x.toNat * 65536 + y.toNat * 256) / 2 ^ 18 % 64 = x.toNat / 4 by omega,
          show (x.toNat * 65536 + y.toNat * 256) / 2 ^ 12 % 64 = x.toNat % 4 * 16 + y.toNat / 16 by omega,
          show (x.toNat * 65536 + y.toNat * 256) / 2 ^ 6 % 64 = y.toNat % 16 * 4 by omega,
          show ts.length * 4 + 4 = 4 * (ts.length + 1) by omega, show 4 * ts.length + (0 + 1 + 1 + 1 + 1) = 4 * (ts.length + 1) by omega]
      · rw [if_neg hm, puts_ub _ _ _ (by simp [hel]; omega) (by simp [hel])]; rfl
  · rw [if_neg (by omega)]
    simp only [hq]
    rw [b64EncRounds_ub b ts.length 0 buf 0 (by omega) (by omega) (by omega)]; rfl

theorem b64DecRounds_ub (src : List Byte) : ∀ (n itr : Nat) (buf : List Byte) (o : Nat), itr + 4 * n ≤ src.length → o ≤ buf.length →
    buf.length < o + 3 * n → b64DecRounds src n itr buf o = ub := by
  intro n
  induction n with
  | zero => intro itr buf o _ h1 h2; omega
  | succ n ih =>
    intro itr buf o hs h1 h2
    unfold b64DecRounds
    rw [deref_eq_ok (by omega), ok_bind, deref_eq_ok (by omega), ok_bind, deref_eq_ok (by omega), ok_bind, deref_eq_ok (by omega), ok_bind]
    simp only [base64ToBin_value, ok_bind]
    by_cases h : o + 3 ≤ buf.length
    · obtain ⟨buf', hb, hl⟩ := puts_length buf o [_, _, _] (by simpa using h)
      rw [hb, ok_bind]
      exact ih _ _ _ (by omega) (by omega) (by omega)
    · rw [puts_ub _ _ _ (by simp; omega) h1]; rfl

/-- The number of bytes a text without padding stands for. -/
theorem base64Bytes_size (r : List Byte) : (base64Bytes r).length = 3 * r.length / 4 := by
  have hm : r.length % 4 = 0 ∨ r.length % 4 = 1 ∨ r.length % 4 = 2 ∨ r.length % 4 = 3 := by omega
  have htl : (r.take (4 * (r.length / 4))).length = 4 * (r.length / 4) := by rw [List.length_take]; omega
  have hrl : (r.drop (4 * (r.length / 4))).length = r.length % 4 := by rw [List.length_drop]; omega
  have hsum : (base64Bytes r).length = 3 * (r.length / 4) + (base64Bytes (r.drop (4 * (r.length / 4)))).length := by
    rw [← base64Bytes_length _ _ htl, ← List.length_append, ← base64Bytes_append _ _ _ htl, List.take_append_drop]
  rw [hsum]
  generalize r.drop (4 * (r.length / 4)) = q at hrl ⊢
  rcases hm with h | h | h | h <;> rw [h] at hrl
  · match q, hrl with
    | [], _ => simp [base64Bytes]; omega
  · match q, hrl with
    | [a], _ => simp [base64Bytes]; omega
  · match q, hrl with
    | [a, b], _ => simp [base64Bytes]; omega
  · match q, hrl with
    | [a, b, c], _ => simp [base64Bytes]; omega

/-- C148: any text of two or more characters is decoded to exactly the bytes its characters stand for: they take the first bytes of the buffer, their
number is returned, and nothing else changes; with less room the call writes past the end. -/
theorem C148_base64_to_bin (src buf : List Byte) (h : 2 ≤ src.length) :
    b64Dec src buf = if (base64Bytes (unpad src)).length ≤ buf.length
      then ok ((base64Bytes (unpad src)).length, base64Bytes (unpad src) ++ buf.drop (base64Bytes (unpad src)).length) else ub := by
  obtain ⟨e, he, hun, hee⟩ : ∃ e ≤ src.length, unpad src = src.take e ∧ (if src[src.length - 2] = 61 then ok (src.length - 2) else do
      let c1 ← deref src (src.length - 1)
      if c1 = 61 then ok (src.length - 1) else ok src.length) = ok e := by
    unfold unpad
    rw [List.getElem?_eq_getElem (by omega), List.getElem?_eq_getElem (by omega)]
    by_cases c : src[src.length - 2] = 61
    · exact ⟨src.length - 2, by omega, by rw [if_pos (by rw [c])], by rw [if_pos c]⟩
    · by_cases c' : src[src.length - 1] = 61
      · exact ⟨src.length - 1, by omega, by rw [if_neg (by simpa using c), if_pos (by rw [c'])], by
          rw [if_neg c, deref_eq_ok (by omega), ok_bind, if_pos c']⟩
      · exact ⟨src.length, Nat.le_refl _, by rw [if_neg (by simpa using c), if_neg (by simpa using c'), List.take_length], by
          rw [if_neg c, deref_eq_ok (by omega), ok_bind, if_neg c']⟩
  have hsize : (base64Bytes (src.take e)).length = 3 * e / 4 := by
    rw [base64Bytes_size, List.length_take, Nat.min_eq_left he]
  unfold b64Dec
  rw [if_neg (by omega), deref_eq_ok (by omega), ok_bind, hee, ok_bind, hun, hsize]
  by_cases hfit : 3 * (e / 4) ≤ buf.length
  · have htl : ((src.take e).take (4 * (e / 4))).length = 4 * (e / 4) := by rw [List.length_take, List.length_take]; omega
    have hrest : ((src.take e).drop (4 * (e / 4))).length = e % 4 := by rw [List.length_drop, List.length_take]; omega
    have hsrc : src = (src.take e).take (4 * (e / 4)) ++ ((src.take e).drop (4 * (e / 4)) ++ src.drop e) := by
      rw [← List.append_assoc, List.take_append_drop, List.take_append_drop]
    have hdec : base64Bytes (src.take e) = base64Bytes ((src.take e).take (4 * (e / 4))) ++ base64Bytes ((src.take e).drop (4 * (e / 4))) := by
      rw [← base64Bytes_append _ _ _ htl, List.take_append_drop]
    have hfull := base64Bytes_length _ _ htl
    rw [hdec]
    generalize (src.take e).take (4 * (e / 4)) = t at *
    generalize (src.take e).drop (4 * (e / 4)) = r at *
    generalize src.drop e = post at hsrc
    have hrounds := b64DecRounds_exact src (e / 4) [] t (r ++ post) [] buf (by simpa using hsrc) htl hfit
    simp only [List.nil_append, List.length_nil, Nat.zero_add] at hrounds
    simp only [hrounds, ok_bind]
    generalize base64Bytes t = bt at *
    have hmod : e % 4 = 0 ∨ e % 4 = 1 ∨ e % 4 = 2 ∨ e % 4 = 3 := by omega
    rcases hmod with hm | hm | hm | hm
    · simp only [hm, ok_bind]
      match r, hrest.trans hm with
      | [], _ =>
        rw [show base64Bytes [] = [] from rfl, List.append_nil, if_pos (by omega), show 3 * e / 4 = 3 * (e / 4) by omega]
    · simp only [hm, ok_bind]
      match r, hrest.trans hm with
      | [a], _ =>
        rw [show base64Bytes [a] = [] from rfl, List.append_nil, if_pos (by omega), show 3 * e / 4 = 3 * (e / 4) by omega]
    · simp only [hm]
      match r, hrest.trans hm with
      | [a, b], _ =>
        have d0 : deref src (4 * (e / 4)) = ok a := by
          rw [hsrc, ← htl]; exact deref_append_cons t _ _
        have d1 : deref src (4 * (e / 4) + 1) = ok b := by
          have := deref_append_cons (t ++ [a]) b post; rw [hsrc, ← htl]; simpa using this
        obtain ⟨e0, _, _⟩ := block_bytes (base64Value a) (base64Value b) 0 0
        simp only [d0, d1, ok_bind, base64ToBin_value]
        simp only [show BitVec.toNat (0 : Byte) = 0 from rfl, Nat.zero_shiftLeft, Nat.or_zero] at e0
        rw [e0]
        by_cases hl : 3 * e / 4 ≤ buf.length
        · have hp := puts_append [base64Value a <<< 2 ||| base64Value b >>> 4] bt (buf.drop (3 * (e / 4))) (by simp; omega)
          rw [hfull] at hp
          rw [hp, ok_bind, if_pos hl, base64Bytes, first, List.drop_drop, show 3 * e / 4 = 3 * (e / 4) + 1 by omega]
          rfl
        · rw [if_neg hl, puts_ub _ _ _ (by simp; omega) (by simp; omega)]; rfl
    · simp only [hm]
      match r, hrest.trans hm with
      | [a, b, c], _ =>
        have d0 : deref src (4 * (e / 4)) = ok a := by
          rw [hsrc, ← htl]; exact deref_append_cons t _ _
        have d1 : deref src (4 * (e / 4) + 1) = ok b := by
          have := deref_append_cons (t ++ [a]) b (c :: post); rw [hsrc, ← htl]; simpa using this
        have d2 : deref src (4 * (e / 4) + 2) = ok c := by
          have := deref_append_cons (t ++ [a, b]) c post; rw [hsrc, ← htl]; simpa using this
        obtain ⟨e0, e1, _⟩ := block_bytes (base64Value a) (base64Value b) (base64Value c) 0
        simp only [d0, d1, d2, ok_bind, base64ToBin_value]
        simp only [show BitVec.toNat (0 : Byte) = 0 from rfl, Nat.or_zero] at e0 e1
        rw [e0, e1]
        by_cases hl : 3 * e / 4 ≤ buf.length
        · have hp := puts_append [base64Value a <<< 2 ||| base64Value b >>> 4, base64Value b <<< 4 ||| base64Value c >>> 2] bt
            (buf.drop (3 * (e / 4))) (by simp; omega)
          rw [hfull] at hp
          rw [hp, ok_bind, if_pos hl, base64Bytes, first, second, List.drop_drop, show 3 * e / 4 = 3 * (e / 4) + 2 by omega]
          rfl
        · rw [if_neg hl, puts_ub _ _ _ (by simp; omega) (by simp; omega)]; rfl
  · rw [if_neg (by omega)]
    simp only
    rw [b64DecRounds_ub src (e / 4) 0 buf 0 (by omega) (by omega) (by omega)]; rfl

/-- C148: what the encoder wrote is decoded to the original bytes, and to nothing more. -/
theorem C148_base64_round_trip (b buf out : List Byte) (hb : b ≠ []) (h1 : 4 * ((b.length + 2) / 3) ≤ buf.length) (h2 : b.length ≤ out.length) :
    (do let (n, buf) ← b64Enc b buf; b64Dec (buf.take n) out) = ok (b.length, b ++ out.drop b.length) := by
  have hl := base64Text_length b
  have hpos : 0 < b.length := List.length_pos_iff.mpr hb
  rw [C148_bin_to_base64, if_pos h1, ok_bind]
  simp only
  rw [List.take_left' hl]
  have hd := C20_base64_decode b [] hb
  rw [C21_base64_exact _ _ (by omega)] at hd
  rw [C148_base64_to_bin _ _ (by omega), Outcome.ok.inj hd, if_pos h2]

/-- Non-vacuity: two bytes into buffers with exactly the room they need, and with one byte less. -/
example : b64Enc [77, 97] [0, 0, 0, 0, 9] = ok (4, [84, 87, 69, 61, 9]) ∧ b64Enc [77, 97] [0, 0, 0] = ub ∧ b64Dec [84, 87, 69, 61] [0, 0] = ok (2, [77, 97]) ∧
    b64Dec [84, 87, 69, 61] [0] = ub ∧ binToHexLoop [77] [0, 0, 9] 0 = ok [52, 68, 9] ∧ hexToBinRaw [52, 68] [0, 9] 0 = ok (true, [77, 9]) := by
  decide +kernel

end Strtk.Codec
