import Verif.Codec.Lemmas

/-! # Theorems about the codecs and bit utilities (C19 - C27) -/

namespace Strtk.Codec
open Outcome Mem

/-! ## C19 -/

/-- Encoding writes exactly the hexadecimal text, whatever the output string held before. -/
theorem C19_hex_encode (b out0 : List Byte) : binToHex b out0 = ok (hexText b) := by
  have := binToHexLoop_spec b [] (resize 0 out0 (b.length * 2)) (by simp)
  simp only [List.nil_append, List.length_nil] at this
  rw [binToHex, this, List.drop_eq_nil_of_le (by simp), List.append_nil]

/-- The text has two characters per byte, all of them from 0-9A-F. -/
theorem C19_hex_alphabet (b out0 h : List Byte) (he : binToHex b out0 = ok h) :
    h.length = 2 * b.length ∧ ∀ c ∈ h, (48 ≤ c.toNat ∧ c.toNat ≤ 57) ∨ (65 ≤ c.toNat ∧ c.toNat ≤ 70) := by
  rw [C19_hex_encode] at he
  simp only [ok.injEq] at he
  subst he
  refine ⟨by rw [hexText_length]; omega, ?_⟩
  have hd : ∀ n : Fin 16, (48 ≤ (hexDigit n.val).toNat ∧ (hexDigit n.val).toNat ≤ 57) ∨ (65 ≤ (hexDigit n.val).toNat ∧ (hexDigit n.val).toNat ≤ 70) := by
    decide
  induction b with
  | nil => simp [hexText]
  | cons a b ih =>
    intro c hc
    have := a.isLt
    simp only [hexText, List.mem_cons] at hc
    rcases hc with rfl | rfl | hc
    · exact hd ⟨a.toNat / 16, by omega⟩
    · exact hd ⟨a.toNat % 16, by omega⟩
    · exact ih c hc

/-- Decoding a text of digit pairs of either case yields the bytes those pairs denote. -/
theorem C19_hex_decode (h b out0 : List Byte) (hp : HexPairs h b) (hne : h ≠ []) : hexToBinStr h out0 = ok (true, b) := by
  have hl := hp.length
  have h0 : h.length ≠ 0 := fun e => hne (List.length_eq_zero_iff.mp e)
  unfold hexToBinStr hexToBinRaw
  rw [if_neg (by simp [hne]; omega), if_neg h0, if_neg (by omega)]
  have hs : h.length >>> 1 = b.length := by rw [Nat.shiftRight_eq_div_pow]; omega
  have := hexToBinLoop_spec hp [] (resize 0 out0 (h.length >>> 1)) (by simp [hs])
  simp only [List.nil_append, List.length_nil] at this
  rw [this, ok_bind, List.drop_eq_nil_of_le (by simp [hs]), List.append_nil]

/-- Round trip for every non-empty byte string. -/
theorem C19_hex_round_trip (b out0 out1 : List Byte) (hb : b ≠ []) :
    (do let h ← binToHex b out0; hexToBinStr h out1) = ok (true, b) := by
  rw [C19_hex_encode, ok_bind]
  apply C19_hex_decode _ _ _ (hexText_pairs b)
  cases b with
  | nil => exact absurd rfl hb
  | cons c b => simp [hexText]

example : binToHex [0x00, 0xAF, 0x7e] [] = ok [48, 48, 65, 70, 55, 69] := by decide +kernel
example : hexToBinStr [97, 70] [] = ok (true, [0xAF]) := by decide +kernel
example : HexPairs [97, 70] [0xAF] := HexPairs.cons (x := 10) (y := 15) (by decide) (by decide) .nil

/-! ## C20 -/

/-- Encoding produces RFC 4648 base64 and the buffer of `max(4, 2n)` bytes is always large enough. -/
theorem C20_base64_encode (b out0 : List Byte) : b64EncStr b out0 = ok (base64Text b) := by
  obtain ⟨ts, rest, hs, hr⟩ := group3 b.length b rfl
  have hlen : b.length = 3 * ts.length + rest.length := by rw [hs, List.length_append, flat3_length]
  have hroom : (resize (0 : Byte) out0 (max 4 (b.length <<< 1))).length = max 4 (2 * b.length) := by
    rw [Mem.resize_length, Nat.shiftLeft_eq]; congr 1; omega
  unfold b64EncStr b64Enc
  have hq : b.length / 3 = ts.length := by omega
  have hrounds := b64EncRounds_spec b ts [] rest [] (resize 0 out0 (max 4 (b.length <<< 1))) (by simpa using hs) (by omega)
  simp only [List.nil_append, List.length_nil, Nat.zero_add] at hrounds
  simp only [hq, hrounds, ok_bind]
  have hel := encs_length ts
  rw [hs, base64Text_append]
  rw [← hs]
  match rest, hr with
  | [], _ =>
    simp only [List.length_nil, Nat.add_zero] at hlen
    rw [show b.length % 3 = 0 by omega]
    simp only [ok_bind]
    rw [Mem.resize_le _ _ _ (by simp [hel]; omega)]
    simp only [Nat.lt_irrefl, if_false, Nat.add_zero, base64Text, List.append_nil, gt_iff_lt]
    rw [List.take_left' (by omega)]
  | [x], _ =>
    simp only [List.length_cons, List.length_nil, Nat.zero_add] at hlen
    have hx := x.isLt
    have hdx : deref b (3 * ts.length) = ok x := by
      have := deref_append_cons (flat3 ts) x []
      rw [flat3_length] at this
      rw [hs]; exact this
    rw [show b.length % 3 = 1 by omega]
    simp only [hdx, ok_bind, and63, Nat.shiftRight_eq_div_pow, Nat.shiftLeft_eq]
    rw [binToBase64_at _ (Nat.mod_lt _ (by omega)), binToBase64_at _ (Nat.mod_lt _ (by omega))]
    simp only [ok_bind]
    have hp := puts_append [base64Char (x.toNat * 2 ^ 16 / 2 ^ 18 % 64), base64Char (x.toNat * 2 ^ 16 / 2 ^ 12 % 64), 61, 61]
      ((ts.map enc3).flatten) ((resize (0 : Byte) out0 (max 4 (b.length <<< 1))).drop (4 * ts.length))
      (by rw [List.length_drop, hroom]; simp; omega)
    rw [hel, Nat.shiftLeft_eq] at hp
    rw [hp]
    simp only [ok_bind, show (1 > 0) = True by simp, if_true, base64Text]
    rw [Mem.resize_le _ _ _ (by simp [hel]; omega), List.take_left' (by simp [hel]; omega)]
    simp only [ok.injEq, List.append_cancel_left_eq, List.cons.injEq, and_true]
    exact ⟨congrArg _ (by omega), congrArg _ (by omega)⟩
  | [x, y], _ =>
    simp only [List.length_cons, List.length_nil, Nat.zero_add] at hlen
    have hx := x.isLt
    have hy := y.isLt
    have hdx : deref b (3 * ts.length) = ok x := by
      have := deref_append_cons (flat3 ts) x [y]
      rw [flat3_length] at this
      rw [hs]; exact this
    have hdy : deref b (3 * ts.length + 1) = ok y := by
      have := deref_append_cons (flat3 ts ++ [x]) y []
      rw [List.length_append, flat3_length] at this
      rw [hs]; simpa using this
    rw [show b.length % 3 = 2 by omega]
    simp only [hdx, hdy, ok_bind, and63, block2, Nat.shiftRight_eq_div_pow]
    rw [binToBase64_at _ (Nat.mod_lt _ (by omega)), binToBase64_at _ (Nat.mod_lt _ (by omega)), binToBase64_at _ (Nat.mod_lt _ (by omega))]
    simp only [ok_bind]
    have hp := puts_append [base64Char ((x.toNat * 65536 + y.toNat * 256) / 2 ^ 18 % 64), base64Char ((x.toNat * 65536 + y.toNat * 256) / 2 ^ 12 % 64),
      base64Char ((x.toNat * 65536 + y.toNat * 256) / 2 ^ 6 % 64), 61]
      ((ts.map enc3).flatten) ((resize (0 : Byte) out0 (max 4 (b.length <<< 1))).drop (4 * ts.length))
      (by rw [List.length_drop, hroom]; simp; omega)
    rw [hel] at hp
    rw [hp]
    simp only [ok_bind, show (2 > 0) = True by simp, if_true, base64Text]
    rw [Mem.resize_le _ _ _ (by simp [hel]; omega), List.take_left' (by simp [hel]; omega)]
    simp only [ok.injEq, List.append_cancel_left_eq, List.cons.injEq, and_true]
    exact ⟨congrArg _ (by omega), congrArg _ (by omega), congrArg _ (by omega)⟩

theorem base64Text_length (b : List Byte) : (base64Text b).length = 4 * ((b.length + 2) / 3) := by
  obtain ⟨ts, rest, hs, hr⟩ := group3 b.length b rfl
  rw [hs, base64Text_append, List.length_append, List.length_append, encs_length, flat3_length]
  match rest, hr with
  | [], _ => simp [base64Text]; omega
  | [x], _ => simp [base64Text]; omega
  | [x, y], _ => simp [base64Text]; omega

/-- The length of the encoding, and its alphabet. -/
theorem C20_base64_alphabet (b out0 e : List Byte) (he : b64EncStr b out0 = ok e) :
    e.length = 4 * ((b.length + 2) / 3) ∧ ∀ c ∈ e, c = 61 ∨ ∃ n < 64, c = base64Char n := by
  rw [C20_base64_encode] at he
  simp only [ok.injEq] at he
  subst he
  refine ⟨base64Text_length b, ?_⟩
  obtain ⟨ts, rest, hs, hr⟩ := group3 b.length b rfl
  rw [hs, base64Text_append]
  intro c hc
  rw [List.mem_append] at hc
  rcases hc with hc | hc
  · simp only [List.mem_flatten, List.mem_map] at hc
    obtain ⟨_, ⟨⟨x, y, z⟩, _, rfl⟩, hc⟩ := hc
    have hx := x.isLt; have hy := y.isLt; have hz := z.isLt
    simp only [enc3, List.mem_cons, List.not_mem_nil, or_false] at hc
    right
    rcases hc with rfl | rfl | rfl | rfl <;> exact ⟨_, by omega, rfl⟩
  · match rest, hr with
    | [], _ => simp [base64Text] at hc
    | [x], _ =>
      have hx := x.isLt
      simp only [base64Text, List.mem_cons, List.not_mem_nil, or_false] at hc
      rcases hc with rfl | rfl | rfl | rfl
      · right; exact ⟨_, by omega, rfl⟩
      · right; exact ⟨_, by omega, rfl⟩
      · left; rfl
      · left; rfl
    | [x, y], _ =>
      have hx := x.isLt; have hy := y.isLt
      simp only [base64Text, List.mem_cons, List.not_mem_nil, or_false] at hc
      rcases hc with rfl | rfl | rfl | rfl
      · right; exact ⟨_, by omega, rfl⟩
      · right; exact ⟨_, by omega, rfl⟩
      · right; exact ⟨_, by omega, rfl⟩
      · left; rfl

/-- Decoding the encoding gives the bytes back. -/
theorem C20_base64_decode (b out0 : List Byte) (hb : b ≠ []) : b64DecStr (base64Text b) out0 = ok b := by
  obtain ⟨ts, rest, hs, hr⟩ := group3 b.length b rfl
  have htl := base64Text_length b
  have hbl : 0 < b.length := List.length_pos_iff.mpr hb
  have hlen : b.length = 3 * ts.length + rest.length := by rw [hs, List.length_append, flat3_length]
  have hap : base64Text b = (ts.map enc3).flatten ++ base64Text rest := by rw [hs, base64Text_append]
  have hel := encs_length ts
  generalize hsrc : base64Text b = src at *
  have hroom : (resize (0 : Byte) out0 src.length).length = src.length := Mem.resize_length _ _ _
  unfold b64DecStr b64Dec
  rw [if_neg (by omega)]
  have hrounds := b64DecRounds_spec src ts [] (base64Text rest) [] (resize 0 out0 src.length) (by simpa using hap) (by omega)
  simp only [List.nil_append, List.length_nil, Nat.zero_add] at hrounds
  have hfl := flat3_length ts
  match rest, hr with
  | [], _ =>
    simp only [List.length_nil, Nat.add_zero] at hlen
    simp only [base64Text, List.append_nil] at hap
    have hsl : src.length = 4 * ts.length := by rw [hap, hel]
    -- the last group ends in two alphabet characters
    obtain ⟨ts0, ⟨x, y, z⟩, hts⟩ : ∃ ts0 t, ts = ts0 ++ [t] := by
      rcases List.eq_nil_or_concat ts with h | ⟨t0, t, h⟩
      · subst h; simp at hlen; exact absurd hlen hb
      · exact ⟨t0, t, by simpa using h⟩
    have hz := z.isLt; have hy := y.isLt
    have hap' : src = ((ts0.map enc3).flatten ++ [base64Char (x.toNat / 4), base64Char (x.toNat % 4 * 16 + y.toNat / 16)]) ++
        [base64Char (y.toNat % 16 * 4 + z.toNat / 64), base64Char (z.toNat % 64)] := by
      rw [hap, hts]; simp [enc3]
    have h0 := encs_length ts0
    have htl0 : ts.length = ts0.length + 1 := by rw [hts]; simp
    have d2 : deref src (src.length - 2) = ok (base64Char (y.toNat % 16 * 4 + z.toNat / 64)) := by
      have := deref_append_cons ((ts0.map enc3).flatten ++ [base64Char (x.toNat / 4), base64Char (x.toNat % 4 * 16 + y.toNat / 16)])
        (base64Char (y.toNat % 16 * 4 + z.toNat / 64)) [base64Char (z.toNat % 64)]
      rw [← hap'] at this
      rw [← this]; congr 1; simp [h0]; omega
    have d1 : deref src (src.length - 1) = ok (base64Char (z.toNat % 64)) := by
      have := deref_append_cons ((ts0.map enc3).flatten ++ [base64Char (x.toNat / 4), base64Char (x.toNat % 4 * 16 + y.toNat / 16),
        base64Char (y.toNat % 16 * 4 + z.toNat / 64)]) (base64Char (z.toNat % 64)) []
      have e : src = ((ts0.map enc3).flatten ++ [base64Char (x.toNat / 4), base64Char (x.toNat % 4 * 16 + y.toNat / 16),
        base64Char (y.toNat % 16 * 4 + z.toNat / 64)]) ++ [base64Char (z.toNat % 64)] := by rw [hap']; simp
      rw [← e] at this
      rw [← this]; congr 1; simp [h0]; omega
    rw [d2, ok_bind, if_neg (base64Char_ne_pad _ (by omega)), d1, ok_bind, if_neg (base64Char_ne_pad _ (by omega)), ok_bind]
    simp only
    rw [show src.length / 4 = ts.length by omega, hrounds, ok_bind]
    simp only [show src.length % 4 = 0 by omega, ok_bind]
    rw [Mem.resize_le _ _ _ (by simp [hfl]; omega), List.take_left' (by omega)]
    rw [hs]; simp
  | [x], _ =>
    simp only [List.length_cons, List.length_nil, Nat.zero_add] at hlen
    have hx := x.isLt
    simp only [base64Text] at hap
    have hsl : src.length = 4 * ts.length + 4 := by omega
    have d2 : deref src (src.length - 2) = ok 61 := by
      have := deref_append_cons ((ts.map enc3).flatten ++ [base64Char (x.toNat / 4), base64Char (x.toNat % 4 * 16)]) (61 : Byte) [61]
      rw [hap]; simpa using this
    have e0 : deref src (4 * ts.length) = ok (base64Char (x.toNat / 4)) := by
      have := deref_append_cons ((ts.map enc3).flatten) (base64Char (x.toNat / 4)) [base64Char (x.toNat % 4 * 16), 61, 61]
      rw [hel] at this; rw [hap]; exact this
    have e1 : deref src (4 * ts.length + 1) = ok (base64Char (x.toNat % 4 * 16)) := by
      have := deref_append_cons ((ts.map enc3).flatten ++ [base64Char (x.toNat / 4)]) (base64Char (x.toNat % 4 * 16)) [61, 61]
      rw [List.length_append, hel] at this; rw [hap]; simpa using this
    rw [d2, ok_bind, if_pos rfl, ok_bind]
    simp only
    rw [show (src.length - 2) / 4 = ts.length by omega, hrounds, ok_bind]
    simp only [show (src.length - 2) % 4 = 2 by omega, e0, e1, ok_bind]
    rw [base64ToBin_at _ (by omega), base64ToBin_at _ (by omega)]
    simp only [ok_bind]
    rw [toNat8 _ (by omega), toNat8 _ (by omega), dblock2 _ _ (by omega)]
    have hg : [BitVec.ofNat 8 (((x.toNat / 4 * 262144 + x.toNat % 4 * 16 * 4096) >>> 16) &&& 0xFF)] = [x] := by
      simp only [and255, Nat.shiftRight_eq_div_pow, List.cons.injEq, and_true]
      apply BitVec.eq_of_toNat_eq; simp only [BitVec.toNat_ofNat]; omega
    rw [hg]
    have hp := puts_append [x] (flat3 ts) ((resize (0 : Byte) out0 src.length).drop (3 * ts.length))
      (by rw [List.length_drop, hroom]; simp; omega)
    rw [hfl] at hp
    rw [hp]
    simp only [ok_bind]
    rw [Mem.resize_le _ _ _ (by simp [hfl]; omega), List.take_left' (by simp [hfl]; omega)]
    rw [hs]
  | [x, y], _ =>
    simp only [List.length_cons, List.length_nil, Nat.zero_add] at hlen
    have hx := x.isLt; have hy := y.isLt
    simp only [base64Text] at hap
    have hsl : src.length = 4 * ts.length + 4 := by omega
    have d2 : deref src (src.length - 2) = ok (base64Char (y.toNat % 16 * 4)) := by
      have := deref_append_cons ((ts.map enc3).flatten ++ [base64Char (x.toNat / 4), base64Char (x.toNat % 4 * 16 + y.toNat / 16)])
        (base64Char (y.toNat % 16 * 4)) [61]
      rw [hap]; simpa using this
    have d1 : deref src (src.length - 1) = ok 61 := by
      have := deref_append_cons ((ts.map enc3).flatten ++ [base64Char (x.toNat / 4), base64Char (x.toNat % 4 * 16 + y.toNat / 16),
        base64Char (y.toNat % 16 * 4)]) (61 : Byte) []
      rw [hap]; simpa using this
    have e0 : deref src (4 * ts.length) = ok (base64Char (x.toNat / 4)) := by
      have := deref_append_cons ((ts.map enc3).flatten) (base64Char (x.toNat / 4))
        [base64Char (x.toNat % 4 * 16 + y.toNat / 16), base64Char (y.toNat % 16 * 4), 61]
      rw [hel] at this; rw [hap]; exact this
    have e1 : deref src (4 * ts.length + 1) = ok (base64Char (x.toNat % 4 * 16 + y.toNat / 16)) := by
      have := deref_append_cons ((ts.map enc3).flatten ++ [base64Char (x.toNat / 4)]) (base64Char (x.toNat % 4 * 16 + y.toNat / 16))
        [base64Char (y.toNat % 16 * 4), 61]
      rw [List.length_append, hel] at this; rw [hap]; simpa using this
    have e2 : deref src (4 * ts.length + 2) = ok (base64Char (y.toNat % 16 * 4)) := by
      have := deref_append_cons ((ts.map enc3).flatten ++ [base64Char (x.toNat / 4), base64Char (x.toNat % 4 * 16 + y.toNat / 16)])
        (base64Char (y.toNat % 16 * 4)) [61]
      rw [List.length_append, hel] at this; rw [hap]; simpa using this
    rw [d2, ok_bind, if_neg (base64Char_ne_pad _ (by omega)), d1, ok_bind, if_pos rfl, ok_bind]
    simp only
    rw [show (src.length - 1) / 4 = ts.length by omega, hrounds, ok_bind]
    simp only [show (src.length - 1) % 4 = 3 by omega, e0, e1, e2, ok_bind]
    rw [base64ToBin_at _ (by omega), base64ToBin_at _ (by omega), base64ToBin_at _ (by omega)]
    simp only [ok_bind]
    rw [toNat8 (x.toNat / 4) (by omega), toNat8 (x.toNat % 4 * 16 + y.toNat / 16) (by omega), toNat8 (y.toNat % 16 * 4) (by omega),
      dblock3 _ _ _ (by omega) (by omega)]
    have hg : [BitVec.ofNat 8 (((x.toNat / 4 * 262144 + (x.toNat % 4 * 16 + y.toNat / 16) * 4096 + y.toNat % 16 * 4 * 64) >>> 16) &&& 0xFF),
        BitVec.ofNat 8 (((x.toNat / 4 * 262144 + (x.toNat % 4 * 16 + y.toNat / 16) * 4096 + y.toNat % 16 * 4 * 64) >>> 8) &&& 0xFF)] = [x, y] := by
      simp only [and255, Nat.shiftRight_eq_div_pow, List.cons.injEq, and_true]
      refine ⟨?_, ?_⟩ <;> apply BitVec.eq_of_toNat_eq <;> simp only [BitVec.toNat_ofNat] <;> omega
    rw [hg]
    have hp := puts_append [x, y] (flat3 ts) ((resize (0 : Byte) out0 src.length).drop (3 * ts.length))
      (by rw [List.length_drop, hroom]; simp; omega)
    rw [hfl] at hp
    rw [hp]
    simp only [ok_bind]
    rw [Mem.resize_le _ _ _ (by simp [hfl]; omega), List.take_left' (by simp [hfl]; omega)]
    rw [hs]

/-- Round trip for every non-empty byte string. -/
theorem C20_base64_round_trip (b out0 out1 : List Byte) (hb : b ≠ []) :
    (do let e ← b64EncStr b out0; b64DecStr e out1) = ok b := by
  rw [C20_base64_encode, ok_bind, C20_base64_decode b out1 hb]

example : b64EncStr [77, 97] [] = ok [84, 87, 69, 61] := by decide +kernel
example : b64DecStr [84, 87, 69, 61] [] = ok [77, 97] := by decide +kernel

/-! ## C21 -/

/-- The hex decoder never leaves its ranges; it fails exactly on empty and odd-length text, leaving the output untouched. -/
theorem C21_hex_decoder_safe (h out0 : List Byte) :
    (h = [] ∨ h.length % 2 = 1 → hexToBinStr h out0 = ok (false, out0)) ∧
    (¬(h = [] ∨ h.length % 2 = 1) → ∃ b, hexToBinStr h out0 = ok (true, b) ∧ b.length * 2 = h.length) := by
  constructor
  · intro hh; rw [hexToBinStr, if_pos hh]
  · intro hh
    have h0 : h.length ≠ 0 := fun e => hh (Or.inl (List.length_eq_zero_iff.mp e))
    have h1 : ¬ h.length % 2 = 1 := fun e => hh (Or.inr e)
    rw [hexToBinStr, if_neg hh, hexToBinRaw, if_neg h0, if_neg h1]
    have hs : h.length >>> 1 = h.length / 2 := by rw [Nat.shiftRight_eq_div_pow]
    obtain ⟨buf, g1, g2⟩ := hexToBinLoop_total (h.length / 2) h (resize 0 out0 (h.length >>> 1)) 0 (by omega) (by simp [hs])
    exact ⟨buf, by rw [g1, ok_bind], by rw [g2, Mem.resize_length, hs]; omega⟩

/-- Characters that are no hexadecimal digits are not rejected: they count as 0. -/
theorem C21_hex_accepts_garbage : hexToBinStr [122, 122] [] = ok (true, [0]) := by decide +kernel

/-- The base64 decoder never leaves its ranges for any text of at least two characters, and the output has the reported size. -/
theorem C21_base64_decoder_safe_partial (src out0 : List Byte) (h : 2 ≤ src.length) :
    ∃ b, b64DecStr src out0 = ok b ∧ b.length ≤ src.length := by
  unfold b64DecStr b64Dec
  rw [if_neg (by omega), deref_eq_ok (by omega), ok_bind]
  have hend : ∃ e ≤ src.length, (if src[src.length - 2] = 61 then ok (src.length - 2) else do
      let c1 ← deref src (src.length - 1)
      if c1 = 61 then ok (src.length - 1) else ok src.length) = ok e := by
    split
    · exact ⟨_, by omega, rfl⟩
    · rw [deref_eq_ok (by omega), ok_bind]
      split
      · exact ⟨_, by omega, rfl⟩
      · exact ⟨_, Nat.le_refl _, rfl⟩
  obtain ⟨e, he, hee⟩ := hend
  rw [hee, ok_bind]
  obtain ⟨buf, hb1, hb2⟩ := b64DecRounds_total src (e / 4) 0 (resize 0 out0 src.length) 0 (by omega) (by simp; omega)
  simp only [hb1, ok_bind]
  simp only [Mem.resize_length] at hb2
  have hmod : e % 4 = 0 ∨ e % 4 = 1 ∨ e % 4 = 2 ∨ e % 4 = 3 := by omega
  rcases hmod with hm | hm | hm | hm
  · simp only [hm, ok_bind]; exact ⟨_, rfl, by simp; omega⟩
  · simp only [hm, ok_bind]; exact ⟨_, rfl, by simp; omega⟩
  · simp only [hm, Nat.zero_add]
    rw [deref_eq_ok (by omega), deref_eq_ok (by omega)]
    simp only [ok_bind]
    obtain ⟨d0, e0⟩ := base64ToBin_total (src[4 * (e / 4)]'(by omega))
    obtain ⟨d1, e1⟩ := base64ToBin_total (src[4 * (e / 4) + 1]'(by omega))
    simp only [e0, e1, ok_bind]
    generalize hvs : [BitVec.ofNat 8 _] = vs
    have hvl : vs.length = 1 := by rw [← hvs]; rfl
    obtain ⟨buf', h1, h2⟩ := puts_length buf (3 * (e / 4)) vs (by omega)
    simp only [h1, ok_bind]
    exact ⟨_, rfl, by simp; omega⟩
  · simp only [hm, Nat.zero_add]
    rw [deref_eq_ok (by omega), deref_eq_ok (by omega), deref_eq_ok (by omega)]
    simp only [ok_bind]
    obtain ⟨d0, e0⟩ := base64ToBin_total (src[4 * (e / 4)]'(by omega))
    obtain ⟨d1, e1⟩ := base64ToBin_total (src[4 * (e / 4) + 1]'(by omega))
    obtain ⟨d2, e2⟩ := base64ToBin_total (src[4 * (e / 4) + 2]'(by omega))
    simp only [e0, e1, e2, ok_bind]
    generalize hvs : [BitVec.ofNat 8 _, BitVec.ofNat 8 _] = vs
    have hvl : vs.length = 2 := by rw [← hvs]; rfl
    obtain ⟨buf', h1, h2⟩ := puts_length buf (3 * (e / 4)) vs (by omega)
    simp only [h1, ok_bind]
    exact ⟨_, rfl, by simp; omega⟩

/-- On fewer than two characters (in particular on the encoding of the empty string) it reads before the beginning. -/
theorem C21_base64_short_is_ub (src out0 : List Byte) (h : src.length < 2) : b64DecStr src out0 = ub := by
  unfold b64DecStr b64Dec
  rw [if_pos h]; rfl

/-- Characters outside the alphabet are decoded to something rather than rejected. -/
theorem C21_base64_accepts_garbage : b64DecStr [33, 33, 33, 33] [] = ok [0xFF, 0xFF, 0xFF] := by decide +kernel

/-! ## C22 -/

/-- Upper-casing changes exactly the letters a-z. -/
theorem C22_uppercase (s : List Byte) :
    toUppercase s = s.map fun c => if 97 ≤ c.toNat ∧ c.toNat ≤ 122 then c - 32 else c := by
  have h : ∀ c : Byte, toupperC c = if 97 ≤ c.toNat ∧ c.toNat ≤ 122 then c - 32 else c := by decide +kernel
  induction s with
  | nil => rfl
  | cons c s ih => simp [toUppercase, ih, h]

/-- Lower-casing changes exactly the letters A-Z. -/
theorem C22_lowercase (s : List Byte) :
    toLowercase s = s.map fun c => if 65 ≤ c.toNat ∧ c.toNat ≤ 90 then c + 32 else c := by
  have h : ∀ c : Byte, tolowerC c = if 65 ≤ c.toNat ∧ c.toNat ≤ 90 then c + 32 else c := by decide +kernel
  induction s with
  | nil => rfl
  | cons c s ih => simp [toLowercase, ih, h]

/-- Graphic bytes 0x21-0x7E stay, everything else becomes '.'. -/
theorem C22_printable (s : List Byte) :
    toPrintable s = ok (s.map fun c => if 0x21 ≤ c.toNat ∧ c.toNat ≤ 0x7E then c else 0x2E) := by
  have h : ∀ c : Byte, deref printable c.toNat = ok (if 0x21 ≤ c.toNat ∧ c.toNat ≤ 0x7E then c else 0x2E) := by decide +kernel
  induction s with
  | nil => rfl
  | cons c s ih => simp [toPrintable, ih, h]

/-- All three conversions are idempotent, and upper/lower absorb each other. -/
theorem C22_idempotent (s : List Byte) :
    toUppercase (toUppercase s) = toUppercase s ∧ toLowercase (toLowercase s) = toLowercase s ∧
    toUppercase (toLowercase s) = toUppercase s ∧ toLowercase (toUppercase s) = toLowercase s ∧
    (do let t ← toPrintable s; toPrintable t) = toPrintable s := by
  have a : ∀ c : Byte, toupperC (toupperC c) = toupperC c ∧ tolowerC (tolowerC c) = tolowerC c ∧
      toupperC (tolowerC c) = toupperC c ∧ tolowerC (toupperC c) = tolowerC c := by decide +kernel
  have p : ∀ c : Byte, (if 0x21 ≤ c.toNat ∧ c.toNat ≤ 0x7E then c else 0x2E : Byte) =
      (if 0x21 ≤ (if 0x21 ≤ c.toNat ∧ c.toNat ≤ 0x7E then c else 0x2E : Byte).toNat ∧ (if 0x21 ≤ c.toNat ∧ c.toNat ≤ 0x7E then c else 0x2E : Byte).toNat ≤ 0x7E
        then (if 0x21 ≤ c.toNat ∧ c.toNat ≤ 0x7E then c else 0x2E) else 0x2E) := by decide +kernel
  refine ⟨?_, ?_, ?_, ?_, ?_⟩
  · induction s with | nil => rfl | cons c s ih => simp [toUppercase, ih, a]
  · induction s with | nil => rfl | cons c s ih => simp [toLowercase, ih, a]
  · induction s with | nil => rfl | cons c s ih => simp [toUppercase, toLowercase, ih, a]
  · induction s with | nil => rfl | cons c s ih => simp [toUppercase, toLowercase, ih, a]
  · rw [C22_printable, ok_bind, C22_printable, List.map_map]
    congr 1
    apply List.map_congr_left
    intro c _
    exact (p c).symm

example : toUppercase [97, 49, 255] = [65, 49, 255] := by decide
example : toPrintable [10, 65, 200] = ok [0x2E, 65, 0x2E] := by decide +kernel

/-! ## C23 -/

/-- The pair of bytes written for one pair of input bytes: bit `2i` comes from the first, bit `2i+1` from the second string. -/
def InterleavePair (a b lo hi : Byte) : Prop :=
  ∀ i < 8, (hi ++ lo : BitVec 16).getLsbD (2 * i) = a.getLsbD i ∧ (hi ++ lo : BitVec 16).getLsbD (2 * i + 1) = b.getLsbD i

/-- The output: one such pair per position. -/
inductive Interleaved : List Byte → List Byte → List Byte → Prop
  | nil : Interleaved [] [] []
  | cons {a b lo hi s1 s2 out} : InterleavePair a b lo hi → Interleaved s1 s2 out → Interleaved (a :: s1) (b :: s2) (lo :: hi :: out)

theorem put16_bytes (v : BitVec 16) : (v.extractLsb' 8 8 ++ v.extractLsb' 0 8 : BitVec 16) = v := by
  apply BitVec.eq_of_getLsbD_eq
  intro i hi
  rw [BitVec.getLsbD_append]
  by_cases h : i < 8
  · simp [h]
  · simp only [h, decide_false, cond_false, BitVec.getLsbD_extractLsb']
    rw [show 8 + (i - 8) = i by omega]
    simp; omega

theorem interleaveLoop_spec (s1 : List Byte) : ∀ (s2 pre room : List Byte), s1.length = s2.length → 2 * s1.length ≤ room.length →
    ∃ out, Interleaved s1 s2 out ∧ out.length = 2 * s1.length ∧
      interleaveLoop s1 s2 (pre ++ room) pre.length = ok (pre ++ out ++ room.drop (2 * s1.length)) := by
  induction s1 with
  | nil => intro s2 pre room h _; have : s2 = [] := List.length_eq_zero_iff.mp h.symm; subst this; exact ⟨[], .nil, rfl, by simp [interleaveLoop]⟩
  | cons a s1 ih =>
    intro s2 pre room h hr
    cases s2 with
    | nil => simp at h
    | cons b s2 =>
      obtain ⟨x, hx, hx1, hx2⟩ := interleaveTable_at a
      obtain ⟨y, hy, hy1, hy2⟩ := interleaveTable_at b
      unfold interleaveLoop
      rw [hy, ok_bind, hx, ok_bind, put16]
      generalize hv : y <<< 1 ||| x = v
      rw [puts_append _ pre room (by simp at hr ⊢; omega), ok_bind]
      obtain ⟨out, o1, o2, o3⟩ := ih s2 (pre ++ [v.extractLsb' 0 8, v.extractLsb' 8 8]) (room.drop 2) (by simpa using h)
        (by simp at hr ⊢; omega)
      refine ⟨v.extractLsb' 0 8 :: v.extractLsb' 8 8 :: out, .cons ?_ o1, by simp [o2]; omega, ?_⟩
      · intro i hi
        rw [put16_bytes, ← hv]
        simp only [BitVec.getLsbD_or, BitVec.getLsbD_shiftLeft]
        constructor
        · rw [hx1 i hi]
          by_cases h0 : i = 0
          · subst h0; simp
          · have : 2 * i - 1 = 2 * (i - 1) + 1 := by omega
            rw [this, hy2 (i - 1) (by omega)]; simp
        · rw [hx2 i hi, show 2 * i + 1 - 1 = 2 * i by omega, hy1 i hi]
          simp; omega
      · simp only [List.length_append, List.length_cons, List.length_nil, Nat.zero_add, Nat.reduceAdd] at o3 ⊢
        rw [o3, List.drop_drop]
        simp
        congr 1
        omega

/-- The iterator version, with an output buffer of twice the input size, interleaves the bits of the two strings. -/
theorem C23_interleave (s1 s2 buf : List Byte) (h : s1.length = s2.length) (hb : 2 * s1.length ≤ buf.length) :
    ∃ out, Interleaved s1 s2 out ∧ interleaveRaw s1 s2 buf = ok (true, out ++ buf.drop (2 * s1.length)) := by
  obtain ⟨out, h1, _, h3⟩ := interleaveLoop_spec s1 s2 [] buf h hb
  simp only [List.nil_append, List.length_nil] at h3
  exact ⟨out, h1, by rw [interleaveRaw, if_neg (by simp [h]), h3, ok_bind]⟩

/-- Texts of different lengths are refused, and nothing is written. -/
theorem C23_lengths_differ (s1 s2 buf out0 : List Byte) (h : s1.length ≠ s2.length) :
    interleaveRaw s1 s2 buf = ok (false, buf) ∧ interleaveStr s1 s2 out0 = ok (false, out0) := by
  rw [interleaveRaw, interleaveStr, if_pos h, if_pos h]
  exact ⟨rfl, rfl⟩

example : interleaveRaw [1, 2] [3] [9, 9] = ok (false, [9, 9]) := (C23_lengths_differ [1, 2] [3] [9, 9] [] (by decide)).1

/-- The relation determines both inputs: interleaving loses nothing. -/
theorem C23_interleave_injective (s1 s2 t1 t2 out : List Byte) (h : Interleaved s1 s2 out) (h' : Interleaved t1 t2 out) :
    s1 = t1 ∧ s2 = t2 := by
  induction h generalizing t1 t2 with
  | nil => cases h'; exact ⟨rfl, rfl⟩
  | @cons a b lo hi s1 s2 out hp _ ih =>
    cases h' with
    | @cons a' b' _ _ s1' s2' _ hp' hr =>
      obtain ⟨e1, e2⟩ := ih _ _ hr
      have ea : a = a' := BitVec.eq_of_getLsbD_eq fun i hi => by rw [← (hp i hi).1, ← (hp' i hi).1]
      have eb : b = b' := BitVec.eq_of_getLsbD_eq fun i hi => by rw [← (hp i hi).2, ← (hp' i hi).2]
      rw [ea, eb, e1, e2]; exact ⟨rfl, rfl⟩

/-- The string overload sizes its output to the input size and therefore writes out of bounds for all texts of two or more characters. (For one character the second
byte is written over the terminating zero.) -/
theorem C23_string_overload_overflows (s1 s2 out0 : List Byte) (h : s1.length = s2.length) (h2 : 2 ≤ s1.length) :
    interleaveStr s1 s2 out0 = ub := by
  have hne : s1 ≠ [] := by rintro rfl; simp at h2
  have hloop : ∀ (s1 s2 buf : List Byte) (o : Nat), s1.length = s2.length → s1 ≠ [] → o ≤ buf.length → buf.length < o + 2 * s1.length →
      interleaveLoop s1 s2 buf o = ub := by
    intro s1
    induction s1 with
    | nil => intro s2 buf o _ hne; exact absurd rfl hne
    | cons a s1 ih =>
      intro s2 buf o h _ ho hb
      cases s2 with
      | nil => simp at h
      | cons b s2 =>
        unfold interleaveLoop
        obtain ⟨x, hx, _⟩ := interleaveTable_at a
        obtain ⟨y, hy, _⟩ := interleaveTable_at b
        rw [hy, ok_bind, hx, ok_bind, put16]
        generalize hvs : [BitVec.extractLsb' 0 8 _, BitVec.extractLsb' 8 8 _] = vs
        have hvl : vs.length = 2 := by rw [← hvs]; rfl
        by_cases hfit : o + 2 ≤ buf.length
        · obtain ⟨buf', p1, p2⟩ := puts_length buf o vs (by omega)
          rw [p1, ok_bind]
          have : s1 ≠ [] := by rintro rfl; simp at hb; omega
          exact ih s2 buf' (o + 2) (by simpa using h) this (by omega) (by simp at hb; omega)
        · rw [puts_ub vs buf o (by omega) ho]; rfl
  have hl : 0 < s1.length := List.length_pos_iff.mpr hne
  rw [interleaveStr, if_neg (by simp [h]), interleaveRaw, if_neg (by simp [h]), hloop s1 s2 _ 0 h hne (by omega) (by simp; omega)]
  rfl

example : interleaveStr [1, 2] [3, 4] [] = ub := C23_string_overload_overflows [1, 2] [3, 4] [] rfl (by decide)

/-- `create_nway_interleave_table<n>`: entry `i` has bit `j * n` equal to bit `j` of `i` and no other bits, for n = 2, 4, 8 and all bytes. -/
theorem C23_nway_table (n : Nat) (hn : n = 2 ∨ n = 4 ∨ n = 8) (i : Byte) :
    ∃ v, (nwayTable n)[i.toNat]? = some v ∧ ∀ k < 8 * n, v.getLsbD k = (decide (k % n = 0) && i.getLsbD (k / n)) := by
  have hi := i.isLt
  have hget : (nwayTable n)[i.toNat]? = some (nwayEntry n (BitVec.ofNat _ i.toNat)) := by
    rw [nwayTable, List.getElem?_map, List.getElem?_range (by omega)]; rfl
  refine ⟨_, hget, ?_⟩
  rcases hn with rfl | rfl | rfl
  · have : ∀ i : Byte, ∀ k : Fin 16, (nwayEntry 2 (BitVec.ofNat _ i.toNat)).getLsbD k.val = (decide (k.val % 2 = 0) && i.getLsbD (k.val / 2)) := by
      decide +kernel
    intro k hk; exact this i ⟨k, by omega⟩
  · have : ∀ i : Byte, ∀ k : Fin 32, (nwayEntry 4 (BitVec.ofNat _ i.toNat)).getLsbD k.val = (decide (k.val % 4 = 0) && i.getLsbD (k.val / 4)) := by
      decide +kernel
    intro k hk; exact this i ⟨k, by omega⟩
  · have : ∀ i : Byte, ∀ k : Fin 64, (nwayEntry 8 (BitVec.ofNat _ i.toNat)).getLsbD k.val = (decide (k.val % 8 = 0) && i.getLsbD (k.val / 8)) := by
      decide +kernel
    intro k hk; exact this i ⟨k, by omega⟩

example : interleaveRaw [0xFF] [0x00] [9, 9] = ok (true, [0x55, 0x55]) := by decide +kernel
example : interleaveStr [1] [2] [] = ub := by decide +kernel

/-! ## C24 -/

/-- The 8-, 16-, 32- and 64-bit overloads return the number of one bits. -/
theorem C24_high_bit_count (c : BitVec 8) (s : BitVec 16) (i : BitVec 32) (l : BitVec 64) :
    highBitCount8 c = ok (popcount c) ∧ highBitCount16 s = ok (popcount s) ∧ highBitCount32 i = ok (popcount i) ∧
      highBitCount64 l = ok (popcount l) := by
  refine ⟨highBits_at c, ?_, ?_, ?_⟩
  · rw [highBitCount16, highBitCountBytes_spec]
    congr 1
    have e0 := popcount_extract s 0; have e1 := popcount_extract s 1
    simp only [Nat.mul_zero, Nat.mul_one] at e0 e1
    simp only [List.map_cons, List.map_nil, List.sum_cons, List.sum_nil, e0, e1]
    rw [popcount, show List.range 16 = (List.range 8).map (· + 0) ++ (List.range 8).map (· + 8) by decide, List.countP_append]
    omega
  · rw [highBitCount32, highBitCountBytes_spec]
    congr 1
    have e0 := popcount_extract i 0; have e1 := popcount_extract i 1; have e2 := popcount_extract i 2; have e3 := popcount_extract i 3
    simp only [Nat.mul_zero, Nat.mul_one, Nat.reduceMul] at e0 e1 e2 e3
    simp only [List.map_cons, List.map_nil, List.sum_cons, List.sum_nil, e0, e1, e2, e3]
    rw [popcount, show List.range 32 = (List.range 8).map (· + 0) ++ ((List.range 8).map (· + 8) ++ ((List.range 8).map (· + 16) ++
      (List.range 8).map (· + 24))) by decide]
    simp only [List.countP_append]
    omega
  · rw [highBitCount64, highBitCountBytes_spec]
    congr 1
    have e0 := popcount_extract l 0; have e1 := popcount_extract l 1; have e2 := popcount_extract l 2; have e3 := popcount_extract l 3
    have e4 := popcount_extract l 4; have e5 := popcount_extract l 5; have e6 := popcount_extract l 6; have e7 := popcount_extract l 7
    simp only [Nat.mul_zero, Nat.mul_one, Nat.reduceMul] at e0 e1 e2 e3 e4 e5 e6 e7
    simp only [List.map_cons, List.map_nil, List.sum_cons, List.sum_nil, e0, e1, e2, e3, e4, e5, e6, e7]
    rw [popcount, show List.range 64 = (List.range 8).map (· + 0) ++ ((List.range 8).map (· + 8) ++ ((List.range 8).map (· + 16) ++
      ((List.range 8).map (· + 24) ++ ((List.range 8).map (· + 32) ++ ((List.range 8).map (· + 40) ++ ((List.range 8).map (· + 48) ++
      (List.range 8).map (· + 56))))))) by decide]
    simp only [List.countP_append]
    omega

/-- Over a byte range it is the sum of the counts. -/
theorem C24_high_bit_count_range (s : List Byte) : highBitCountRange s = ok ((s.map popcount).sum) := by
  rw [highBitCountRange, highBitCountLoop_spec]; simp

/-- `hamming_distance` counts differing bits of equally long strings, and reports the maximal value for unequal lengths. -/
theorem C24_hamming_distance (s1 s2 : List Byte) :
    hamming s1 s2 = if s1.length = s2.length then ok (bitDiff s1 s2) else ok (2 ^ 64 - 1) := by
  unfold hamming
  by_cases h : s1.length = s2.length
  · rw [if_neg (by simp [h]), if_pos h, hammingLoop_spec s1 s2 0 h]; simp
  · rw [if_pos h, if_neg h]

/-- Metric laws on equally long strings. -/
theorem C24_hamming_metric (s1 s2 s3 : List Byte) (h12 : s1.length = s2.length) (h23 : s2.length = s3.length) :
    hamming s1 s2 = hamming s2 s1 ∧ (hamming s1 s2 = ok 0 ↔ s1 = s2) ∧
      ∃ d12 d23 d13, hamming s1 s2 = ok d12 ∧ hamming s2 s3 = ok d23 ∧ hamming s1 s3 = ok d13 ∧ d13 ≤ d12 + d23 := by
  rw [C24_hamming_distance s1 s2, C24_hamming_distance s2 s1, C24_hamming_distance s2 s3, C24_hamming_distance s1 s3,
    if_pos h12, if_pos h12.symm, if_pos h23, if_pos (h12.trans h23)]
  refine ⟨?_, ?_, _, _, _, rfl, rfl, rfl, ?_⟩
  · congr 1
    clear h23 s3
    induction s1 generalizing s2 with
    | nil => simp [bitDiff]
    | cons a s1 ih =>
      cases s2 with
      | nil => simp at h12
      | cons b s2 =>
        have := ih s2 (by simpa using h12)
        simp only [bitDiff] at this ⊢
        simp [this, popcount_xor_comm a b]
  · simp only [ok.injEq]
    clear h23 s3
    induction s1 generalizing s2 with
    | nil => have : s2 = [] := List.length_eq_zero_iff.mp h12.symm; subst this; simp [bitDiff]
    | cons a s1 ih =>
      cases s2 with
      | nil => simp at h12
      | cons b s2 =>
        have := ih s2 (by simpa using h12)
        have hx : a ^^^ b = 0#8 ↔ a = b := BitVec.xor_eq_zero_iff
        simp only [bitDiff] at this ⊢
        simp only [List.zip_cons_cons, List.map_cons, List.sum_cons, List.cons.injEq]
        rw [Nat.add_eq_zero_iff, this, popcount_eq_zero, hx]
  · induction s1 generalizing s2 s3 with
    | nil => simp [bitDiff]
    | cons a s1 ih =>
      cases s2 with
      | nil => simp at h12
      | cons b s2 =>
        cases s3 with
        | nil => simp at h23
        | cons c s3 =>
          have := ih s2 s3 (by simpa using h12) (by simpa using h23)
          have ht := popcount_triangle a b c
          simp only [bitDiff] at this ⊢
          simp
          omega

example : hamming [0xFF, 0x00] [0x0F, 0x01] = ok 5 := by decide +kernel
example : highBitCount64 0xF000000000000001 = ok 5 := by decide +kernel

/-! ## C25 -/

/-- `hamming_distance_elementwise` never returns on equally long non-empty ranges: the iterators are not advanced. The stated property
(the count of differing positions) is therefore false; it returns 0 for two empty ranges and the maximal value for unequal lengths. -/
theorem C25_hamming_elementwise_diverges {α : Type} [DecidableEq α] (s1 s2 : List α) (h : s1.length = s2.length) (hne : s1 ≠ []) :
    ∀ fuel, hammingElem s1 s2 fuel = diverge := by
  have hl : 0 < s1.length := List.length_pos_iff.mpr hne
  intro fuel
  rw [hammingElem, if_neg (by simp [h])]
  generalize 0 + 0 = z
  suffices ∀ fuel d, hammingElemLoop s1 s2 fuel 0 0 d = diverge from this fuel 0
  intro fuel
  induction fuel with
  | zero => intro d; rfl
  | succ fuel ih =>
    intro d
    unfold hammingElemLoop
    rw [if_pos (by omega), deref_eq_ok hl, deref_eq_ok (by omega)]
    simp only [ok_bind]
    exact ih _

/-- What is left of the property: the remaining cases. -/
theorem C25_hamming_elementwise_partial {α : Type} [DecidableEq α] (s1 s2 : List α) (fuel : Nat) :
    (s1.length ≠ s2.length → hammingElem s1 s2 fuel = ok (2 ^ 64 - 1)) ∧ (s1 = [] → s2 = [] → hammingElem s1 s2 (fuel + 1) = ok 0) := by
  constructor
  · intro h; rw [hammingElem, if_pos h]
  · rintro rfl rfl; rfl

example (fuel : Nat) : hammingElem [(1 : Nat), 2] [1, 3] fuel = diverge := C25_hamming_elementwise_diverges [1, 2] [1, 3] rfl (by simp) fuel

/-! ## C26 -/

theorem shift3 (i : Nat) : i >>> 3 = i / 8 := by rw [Nat.shiftRight_eq_div_pow]

/-- `bit_state` reads the bit, for every index inside the bitmap. -/
theorem C26_bit_state (s : List Byte) (i : Nat) (h : i < 8 * s.length) : ∃ b, bitAt s i = some b ∧ bitState i s = ok b := by
  have hi : i / 8 < s.length := by omega
  refine ⟨s[i / 8].getLsbD (i % 8), by simp [bitAt, hi], ?_⟩
  unfold bitState
  obtain ⟨m, hm, hmb⟩ := maskHigh_at i
  rw [shift3, deref_eq_ok hi, ok_bind, hm, ok_bind]
  congr 1
  rw [Bool.eq_iff_iff, decide_eq_true_iff]
  constructor
  · intro hne
    cases hb : s[i / 8].getLsbD (i % 8) with
    | true => rfl
    | false =>
      exfalso; apply hne
      symm
      apply BitVec.eq_of_getLsbD_eq
      intro j hj
      rw [BitVec.getLsbD_and, hmb]
      by_cases hji : j = i % 8
      · subst hji; simp [hb]
      · simp [hji]
  · intro hb he
    have := congrArg (fun v : Byte => v.getLsbD (i % 8)) he
    rw [BitVec.getLsbD_and, hmb, hb] at this
    simp at this

/-- `set_bit_high(i)` sets bit `i` and changes no other bit; `set_bit_low(i)` clears it and changes no other bit. -/
theorem C26_set_bit (s : List Byte) (i : Nat) (h : i < 8 * s.length) :
    (∃ t, setBitHigh i s = ok t ∧ t.length = s.length ∧ bitAt t i = some true ∧ ∀ j, j ≠ i → bitAt t j = bitAt s j) ∧
    (∃ t, setBitLow i s = ok t ∧ t.length = s.length ∧ bitAt t i = some false ∧ ∀ j, j ≠ i → bitAt t j = bitAt s j) := by
  have hi : i / 8 < s.length := by omega
  obtain ⟨m, hm, hmb⟩ := maskHigh_at i
  obtain ⟨l, hl, hlb⟩ := maskLow_at i
  have frame : ∀ (v : Byte) (j : Nat), j ≠ i → (∀ k < 8, k ≠ i % 8 → v.getLsbD k = s[i / 8].getLsbD k) →
      bitAt (s.set (i / 8) v) j = bitAt s j := by
    intro v j hj hv
    unfold bitAt
    by_cases hb : j / 8 = i / 8
    · rw [hb, List.getElem?_set_self hi, List.getElem?_eq_getElem hi]
      simp only [Option.map_some, Option.some.injEq]
      exact hv (j % 8) (by omega) (by omega)
    · rw [List.getElem?_set_ne (fun e => hb e.symm)]
  constructor
  · refine ⟨s.set (i / 8) (s[i / 8] ||| m), ?_, by simp, ?_, ?_⟩
    · rw [setBitHigh, shift3, deref_eq_ok hi, ok_bind, hm, ok_bind, store_eq_ok _ hi]
    · simp [bitAt, hi, hmb]
    · intro j hj
      apply frame _ j hj
      intro k hk hki
      rw [BitVec.getLsbD_or, hmb]; simp [hki]
  · refine ⟨s.set (i / 8) (s[i / 8] &&& l), ?_, by simp, ?_, ?_⟩
    · rw [setBitLow, shift3, deref_eq_ok hi, ok_bind, hl, ok_bind, store_eq_ok _ hi]
    · have := hlb (i % 8) (by omega)
      simp [bitAt, hi, this]
    · intro j hj
      apply frame _ j hj
      intro k hk hki
      rw [BitVec.getLsbD_and, hlb k hk]; simp [hki]

/-- Outside the bitmap all three access memory out of bounds. -/
theorem C26_out_of_range (s : List Byte) (i : Nat) (h : 8 * s.length ≤ i) :
    bitState i s = ub ∧ setBitHigh i s = ub ∧ setBitLow i s = ub := by
  have : s.length ≤ i / 8 := by omega
  refine ⟨?_, ?_, ?_⟩ <;> simp only [bitState, setBitHigh, setBitLow, shift3] <;> rw [deref_ub this] <;> rfl

example : setBitHigh 9 [0, 0] = ok [0, 2] := by decide +kernel

/-! ## C27 -/

theorem bitwiseLoop_spec (op : BitOp) (s1 : List Byte) : ∀ (s2 pre room : List Byte), s1.length = s2.length → s1.length ≤ room.length →
    bitwiseLoop op s1 s2 (pre ++ room) pre.length = ok (pre ++ List.zipWith op.apply s1 s2 ++ room.drop s1.length) := by
  induction s1 with
  | nil => intro s2 pre room h _; simp [bitwiseLoop]
  | cons a s1 ih =>
    intro s2 pre room h hr
    cases s2 with
    | nil => simp at h
    | cons b s2 =>
      unfold bitwiseLoop
      rw [puts_append _ pre room (by simp at hr ⊢; omega), ok_bind]
      have := ih s2 (pre ++ [op.apply a b]) (room.drop 1) (by simpa using h) (by simp at hr ⊢; omega)
      simp only [List.length_append, List.length_cons, List.length_nil, Nat.zero_add] at this ⊢
      rw [this, List.drop_drop]
      simp
      congr 1
      omega

/-- The strings are combined position by position; with unequal lengths the output is left alone. -/
theorem C27_bitwise_transform (op : BitOp) (s1 s2 out0 : List Byte) :
    bitwiseTransform op s1 s2 out0 = if s1.length = s2.length then ok (List.zipWith op.apply s1 s2) else ok out0 := by
  unfold bitwiseTransform
  by_cases h : s1.length = s2.length
  · rw [if_neg (by simp [h]), if_pos h]
    have := bitwiseLoop_spec op s1 s2 [] (resize 0 out0 s1.length) h (by simp)
    simp only [List.nil_append, List.length_nil] at this
    rw [this, List.drop_eq_nil_of_le (by simp), List.append_nil]
  · rw [if_pos h, if_neg h]

/-- Applying xor twice with the same key restores the data. -/
theorem C27_xor_involution (s key out0 out1 : List Byte) (h : s.length = key.length) :
    (do let t ← bitwiseTransform .eXOR s key out0; bitwiseTransform .eXOR t key out1) = ok s := by
  rw [C27_bitwise_transform, if_pos h, ok_bind, C27_bitwise_transform, if_pos (by simp [h])]
  congr 1
  clear out0 out1
  induction s generalizing key with
  | nil => simp
  | cons a s ih =>
    cases key with
    | nil => simp at h
    | cons b key =>
      simp only [List.zipWith_cons_cons, BitOp.apply]
      rw [ih key (by simpa using h)]
      congr 1
      rw [BitVec.xor_assoc, BitVec.xor_self, BitVec.xor_zero]

example : bitwiseTransform .eAND [0x0F, 0xF0] [0xFF, 0x3C] [1, 2, 3] = ok [0x0F, 0x30] := by decide +kernel

example : ∃ b, b64DecStr [77, 61] [] = ok b ∧ b.length ≤ 2 := C21_base64_decoder_safe_partial [77, 61] [] (by decide)

end Strtk.Codec
