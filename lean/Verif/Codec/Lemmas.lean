import Verif.Codec.Model
import Verif.Codec.Spec

/-! Helper lemmas for the codecs. -/

namespace Strtk.Codec
open Outcome Mem

/-! ### Writing -/

theorem puts_eq {α : Type} (buf : List α) (o : Nat) (vs : List α) (h : o + vs.length ≤ buf.length) :
    puts buf o vs = ok (buf.take o ++ vs ++ buf.drop (o + vs.length)) := by
  have := puts_append vs (buf.take o) (buf.drop o) (by simp; omega)
  rw [List.take_append_drop, List.length_take, Nat.min_eq_left (by omega)] at this
  rw [this, List.drop_drop]

theorem puts_length {α : Type} (buf : List α) (o : Nat) (vs : List α) (h : o + vs.length ≤ buf.length) :
    ∃ buf', puts buf o vs = ok buf' ∧ buf'.length = buf.length := by
  refine ⟨_, puts_eq buf o vs h, ?_⟩
  simp; omega

/-! ### Hexadecimal -/

theorem hexLut_at (c : Byte) : ∃ v, deref hexLut c.toNat = ok v ∧
    [v.extractLsb' 0 8, v.extractLsb' 8 8] = [hexDigit (c.toNat / 16), hexDigit (c.toNat % 16)] := by
  have h : ∀ c : Byte, (match deref hexLut c.toNat with
    | ok v => decide ([v.extractLsb' 0 8, v.extractLsb' 8 8] = [hexDigit (c.toNat / 16), hexDigit (c.toNat % 16)])
    | _ => false) = true := by decide +kernel
  have := h c
  split at this
  · rename_i v hv; exact ⟨v, hv, by simpa using this⟩
  · simp at this

theorem hexToBin_digit (c : Byte) (n : Nat) (h : hexValue c = some n) : deref hexToBin c.toNat = ok (BitVec.ofNat 8 n) ∧ n < 16 := by
  have : ∀ c : Byte, (match hexValue c with
    | some n => decide (deref hexToBin c.toNat = ok (BitVec.ofNat 8 n)) && decide (n < 16)
    | none => true) = true := by decide +kernel
  have := this c
  rw [h] at this
  simpa using this

theorem hexToBin_total (c : Byte) : ∃ v, deref hexToBin c.toNat = ok v :=
  ⟨_, deref_eq_ok (by have := c.isLt; have h : hexToBin.length = 256 := by decide +kernel
                      omega)⟩

theorem hexValue_digit (n : Nat) (h : n < 16) : hexValue (hexDigit n) = some n := by
  have : ∀ n : Fin 16, hexValue (hexDigit n) = some n.val := by decide +kernel
  exact this ⟨n, h⟩

theorem binToHexLoop_spec (s : List Byte) : ∀ (pre room : List Byte), s.length * 2 ≤ room.length →
    binToHexLoop s (pre ++ room) pre.length = ok (pre ++ hexText s ++ room.drop (s.length * 2)) := by
  induction s with
  | nil => intro pre room _; simp [binToHexLoop, hexText]
  | cons c s ih =>
    intro pre room h
    unfold binToHexLoop
    obtain ⟨v, hv, hd⟩ := hexLut_at c
    rw [hv, ok_bind, put16, hd, puts_append _ pre room (by simp at h ⊢; omega), ok_bind]
    have := ih (pre ++ [hexDigit (c.toNat / 16), hexDigit (c.toNat % 16)]) (room.drop 2) (by simp at h ⊢; omega)
    simp only [List.length_append, List.length_cons, List.length_nil, Nat.zero_add, Nat.reduceAdd] at this ⊢
    rw [this, List.drop_drop]
    simp [hexText]
    congr 1
    omega

theorem hexText_length (s : List Byte) : (hexText s).length = s.length * 2 := by
  induction s with
  | nil => rfl
  | cons c s ih => simp [hexText, ih]; omega

/-- A pair of digits decodes to the byte. -/
theorem hex_pair (x y : Nat) (hx : x < 16) (hy : y < 16) :
    BitVec.ofNat 8 x <<< 4 ||| BitVec.ofNat 8 y = BitVec.ofNat 8 (x * 16 + y) := by
  have : ∀ x y : Fin 16, BitVec.ofNat 8 x.val <<< 4 ||| BitVec.ofNat 8 y.val = BitVec.ofNat 8 (x.val * 16 + y.val) := by decide +kernel
  exact this ⟨x, hx⟩ ⟨y, hy⟩

/-- Text made of digit pairs, with the value of each. -/
inductive HexPairs : List Byte → List Byte → Prop
  | nil : HexPairs [] []
  | cons {c d : Byte} {x y : Nat} {h b : List Byte} : hexValue c = some x → hexValue d = some y → HexPairs h b →
      HexPairs (c :: d :: h) (BitVec.ofNat 8 (x * 16 + y) :: b)

theorem hexToBinLoop_spec {h b : List Byte} (hp : HexPairs h b) : ∀ (pre room : List Byte), b.length ≤ room.length →
    hexToBinLoop h (pre ++ room) pre.length = ok (pre ++ b ++ room.drop b.length) := by
  induction hp with
  | nil => intro pre room _; simp [hexToBinLoop]
  | @cons c d x y h b h1 h2 _ ih =>
    intro pre room hl
    unfold hexToBinLoop
    obtain ⟨e1, l1⟩ := hexToBin_digit c x h1
    obtain ⟨e2, l2⟩ := hexToBin_digit d y h2
    rw [e1, ok_bind, e2, ok_bind, hex_pair x y l1 l2, puts_append _ pre room (by simp at hl ⊢; omega), ok_bind]
    have := ih (pre ++ [BitVec.ofNat 8 (x * 16 + y)]) (room.drop 1) (by simp at hl ⊢; omega)
    simp only [List.length_append, List.length_cons, List.length_nil, Nat.zero_add] at this ⊢
    rw [this, List.drop_drop]
    simp
    congr 1
    omega

theorem HexPairs.length {h b : List Byte} (hp : HexPairs h b) : h.length = 2 * b.length := by
  induction hp with
  | nil => rfl
  | cons _ _ _ ih => simp [ih]; omega

theorem hexText_pairs (s : List Byte) : HexPairs (hexText s) s := by
  induction s with
  | nil => exact .nil
  | cons c s ih =>
    have hc := c.isLt
    have e := HexPairs.cons (hexValue_digit (c.toNat / 16) (by omega)) (hexValue_digit (c.toNat % 16) (by omega)) ih
    have : BitVec.ofNat 8 (c.toNat / 16 * 16 + c.toNat % 16) = c := by
      rw [Nat.div_add_mod']; simp
    rw [this] at e
    exact e

theorem hexToBinLoop_total : ∀ (n : Nat) (h buf : List Byte) (o : Nat), h.length = 2 * n → o + n ≤ buf.length →
    ∃ buf', hexToBinLoop h buf o = ok buf' ∧ buf'.length = buf.length := by
  intro n
  induction n with
  | zero =>
    intro h buf o hl _
    have : h = [] := List.length_eq_zero_iff.mp (by omega)
    subst this
    exact ⟨buf, rfl, rfl⟩
  | succ n ih =>
    intro h buf o hl hb
    match h, hl with
    | a :: b :: t, hl =>
      unfold hexToBinLoop
      obtain ⟨x, hx⟩ := hexToBin_total a
      obtain ⟨y, hy⟩ := hexToBin_total b
      obtain ⟨buf', h1, h2⟩ := puts_length buf o [x <<< 4 ||| y] (by simp; omega)
      rw [hx, ok_bind, hy, ok_bind, h1, ok_bind]
      obtain ⟨buf'', g1, g2⟩ := ih t buf' (o + 1) (by simp at hl; omega) (by omega)
      exact ⟨buf'', g1, by omega⟩

/-! ### Base64 -/

theorem or_shift (hi lo k : Nat) (h : lo < 2 ^ k) : hi <<< k ||| lo = hi * 2 ^ k + lo := by
  rw [← Nat.shiftLeft_add_eq_or_of_lt h, Nat.shiftLeft_eq]

theorem and63 (x : Nat) : x &&& 0x3F = x % 64 := Nat.and_two_pow_sub_one_eq_mod x 6
theorem and255 (x : Nat) : x &&& 0xFF = x % 256 := Nat.and_two_pow_sub_one_eq_mod x 8

theorem block3 (a b c : Byte) : a.toNat <<< 16 ||| b.toNat <<< 8 ||| c.toNat = a.toNat * 65536 + b.toNat * 256 + c.toNat := by
  have ha := a.isLt; have hb := b.isLt; have hc := c.isLt
  rw [Nat.or_assoc, or_shift b.toNat c.toNat 8 (by omega), or_shift a.toNat _ 16 (by omega)]
  omega

theorem block2 (a b : Byte) : a.toNat <<< 16 ||| b.toNat <<< 8 = a.toNat * 65536 + b.toNat * 256 := by
  have ha := a.isLt; have hb := b.isLt
  rw [or_shift a.toNat _ 16 (by rw [Nat.shiftLeft_eq]; omega), Nat.shiftLeft_eq]

theorem dblock4 (a b c d : Nat) (hb : b < 64) (hc : c < 64) (hd : d < 64) :
    a <<< 18 ||| b <<< 12 ||| c <<< 6 ||| d = a * 262144 + b * 4096 + c * 64 + d := by
  rw [Nat.or_assoc, Nat.or_assoc, or_shift c d 6 (by omega), or_shift b _ 12 (by omega), or_shift a _ 18 (by omega)]
  omega

theorem dblock3 (a b c : Nat) (hb : b < 64) (hc : c < 64) :
    a <<< 18 ||| b <<< 12 ||| c <<< 6 = a * 262144 + b * 4096 + c * 64 := by
  have h6 : c <<< 6 = c * 64 := Nat.shiftLeft_eq c 6
  rw [Nat.or_assoc, h6, or_shift b (c * 64) 12 (by omega), or_shift a _ 18 (by omega)]
  omega

theorem dblock2 (a b : Nat) (hb : b < 64) : a <<< 18 ||| b <<< 12 = a * 262144 + b * 4096 := by
  rw [or_shift a (b <<< 12) 18 (by rw [Nat.shiftLeft_eq]; omega), Nat.shiftLeft_eq]

theorem binToBase64_at (n : Nat) (h : n < 64) : deref binToBase64 n = ok (base64Char n) := by
  have : ∀ n : Fin 64, deref binToBase64 n.val = ok (base64Char n.val) := by decide +kernel
  exact this ⟨n, h⟩

theorem base64ToBin_at (n : Nat) (h : n < 64) : deref base64ToBin (base64Char n).toNat = ok (BitVec.ofNat 8 n) := by
  have : ∀ n : Fin 64, deref base64ToBin (base64Char n.val).toNat = ok (BitVec.ofNat 8 n.val) := by decide +kernel
  exact this ⟨n, h⟩

theorem toNat8 (n : Nat) (h : n < 256) : (BitVec.ofNat 8 n).toNat = n := by
  rw [BitVec.toNat_ofNat]; omega

theorem base64ToBin_total (c : Byte) : ∃ v, deref base64ToBin c.toNat = ok v :=
  ⟨_, deref_eq_ok (by have := c.isLt; have h : base64ToBin.length = 256 := by decide +kernel
                      omega)⟩

theorem base64Char_ne_pad (n : Nat) (h : n < 64) : base64Char n ≠ 61 := by
  have : ∀ n : Fin 64, base64Char n.val ≠ 61 := by decide +kernel
  exact this ⟨n, h⟩

/-- A group of three bytes. -/
abbrev Tri := Byte × Byte × Byte

/-- The bytes of a list of groups. -/
def flat3 : List Tri → List Byte
  | [] => []
  | (a, b, c) :: t => a :: b :: c :: flat3 t

/-- The four characters of a group. -/
def enc3 : Tri → List Byte
  | (a, b, c) => [base64Char (a.toNat / 4), base64Char (a.toNat % 4 * 16 + b.toNat / 16),
      base64Char (b.toNat % 16 * 4 + c.toNat / 64), base64Char (c.toNat % 64)]

theorem flat3_length (ts : List Tri) : (flat3 ts).length = 3 * ts.length := by
  induction ts with
  | nil => rfl
  | cons t ts ih => obtain ⟨a, b, c⟩ := t; simp [flat3, ih]; omega

theorem encs_length (ts : List Tri) : ((ts.map enc3).flatten).length = 4 * ts.length := by
  induction ts with
  | nil => rfl
  | cons t ts ih => obtain ⟨a, b, c⟩ := t; simp [enc3] at ih ⊢; omega

theorem group3 : ∀ (n : Nat) (s : List Byte), s.length = n → ∃ ts rest, s = flat3 ts ++ rest ∧ rest.length < 3 := by
  intro n
  induction n using Nat.strongRecOn with
  | ind n ih =>
    intro s hs
    match s with
    | [] => exact ⟨[], [], rfl, by simp⟩
    | [a] => exact ⟨[], [a], rfl, by simp⟩
    | [a, b] => exact ⟨[], [a, b], rfl, by simp⟩
    | a :: b :: c :: t =>
      obtain ⟨ts, rest, h1, h2⟩ := ih t.length (by simp at hs; omega) t rfl
      exact ⟨(a, b, c) :: ts, rest, by simp [flat3, h1], h2⟩

theorem base64Text_append (ts : List Tri) (rest : List Byte) :
    base64Text (flat3 ts ++ rest) = (ts.map enc3).flatten ++ base64Text rest := by
  induction ts with
  | nil => simp [flat3]
  | cons t ts ih => obtain ⟨a, b, c⟩ := t; simp [flat3, enc3, base64Text, ih]

theorem b64EncRounds_spec (src : List Byte) : ∀ (ts : List Tri) (pre post done room : List Byte), src = pre ++ flat3 ts ++ post →
    4 * ts.length ≤ room.length →
    b64EncRounds src ts.length pre.length (done ++ room) done.length =
      ok (pre.length + 3 * ts.length, done ++ (ts.map enc3).flatten ++ room.drop (4 * ts.length), done.length + 4 * ts.length) := by
  intro ts
  induction ts with
  | nil => intro pre post done room _ _; simp [b64EncRounds]
  | cons t ts ih =>
    obtain ⟨a, b, c⟩ := t
    intro pre post done room hs hr
    have ha := a.isLt; have hb := b.isLt; have hc := c.isLt
    simp only [List.length_cons, b64EncRounds]
    have d0 : deref src pre.length = ok a := by
      have := deref_append_cons pre a (b :: c :: flat3 ts ++ post); rw [hs]; simpa [flat3] using this
    have d1 : deref src (pre.length + 1) = ok b := by
      have := deref_append_cons (pre ++ [a]) b (c :: flat3 ts ++ post); rw [hs]; simpa [flat3] using this
    have d2 : deref src (pre.length + 2) = ok c := by
      have := deref_append_cons (pre ++ [a, b]) c (flat3 ts ++ post); rw [hs]; simpa [flat3] using this
    simp only [d0, d1, d2, ok_bind, block3, and63, Nat.shiftRight_eq_div_pow]
    rw [binToBase64_at _ (Nat.mod_lt _ (by omega)), binToBase64_at _ (Nat.mod_lt _ (by omega)),
      binToBase64_at _ (Nat.mod_lt _ (by omega)), binToBase64_at _ (Nat.mod_lt _ (by omega))]
    simp only [ok_bind]
    have hg : [base64Char ((a.toNat * 65536 + b.toNat * 256 + c.toNat) / 2 ^ 18 % 64),
        base64Char ((a.toNat * 65536 + b.toNat * 256 + c.toNat) / 2 ^ 12 % 64),
        base64Char ((a.toNat * 65536 + b.toNat * 256 + c.toNat) / 2 ^ 6 % 64),
        base64Char ((a.toNat * 65536 + b.toNat * 256 + c.toNat) % 64)] = enc3 (a, b, c) := by
      simp only [enc3, List.cons.injEq, and_true]
      refine ⟨?_, ?_, ?_, ?_⟩ <;> congr 1 <;> omega
    rw [hg, puts_append _ done room (by simp [enc3] at hr ⊢; omega), ok_bind]
    have hrec := ih (pre ++ [a, b, c]) post (done ++ enc3 (a, b, c)) (room.drop 4) (by simp [hs, flat3]) (by simp at hr ⊢; omega)
    have hl4 : (enc3 (a, b, c)).length = 4 := rfl
    simp only [List.length_append, List.length_cons, List.length_nil, Nat.zero_add, Nat.reduceAdd, hl4] at hrec ⊢
    rw [hrec, List.drop_drop]
    simp only [List.map_cons, List.flatten_cons, List.append_assoc, Outcome.ok.injEq, Prod.mk.injEq]
    refine ⟨by omega, ?_, by omega⟩
    congr 4
    omega

theorem b64DecRounds_spec (src : List Byte) : ∀ (ts : List Tri) (pre post done room : List Byte),
    src = pre ++ (ts.map enc3).flatten ++ post → 3 * ts.length ≤ room.length →
    b64DecRounds src ts.length pre.length (done ++ room) done.length =
      ok (pre.length + 4 * ts.length, done ++ flat3 ts ++ room.drop (3 * ts.length), done.length + 3 * ts.length) := by
  intro ts
  induction ts with
  | nil => intro pre post done room _ _; simp [b64DecRounds, flat3]
  | cons t ts ih =>
    obtain ⟨a, b, c⟩ := t
    intro pre post done room hs hr
    have ha := a.isLt; have hb := b.isLt; have hc := c.isLt
    simp only [List.length_cons, b64DecRounds]
    have hs' : src = pre ++ (enc3 (a, b, c) ++ ((ts.map enc3).flatten ++ post)) := by rw [hs]; simp
    simp only [enc3] at hs'
    have d0 : deref src pre.length = ok (base64Char (a.toNat / 4)) := by
      rw [hs']; exact deref_append_cons pre _ _
    have d1 : deref src (pre.length + 1) = ok (base64Char (a.toNat % 4 * 16 + b.toNat / 16)) := by
      have := deref_append_cons (pre ++ [base64Char (a.toNat / 4)]) (base64Char (a.toNat % 4 * 16 + b.toNat / 16))
        ([base64Char (b.toNat % 16 * 4 + c.toNat / 64), base64Char (c.toNat % 64)] ++ ((ts.map enc3).flatten ++ post))
      rw [hs']; simpa using this
    have d2 : deref src (pre.length + 2) = ok (base64Char (b.toNat % 16 * 4 + c.toNat / 64)) := by
      have := deref_append_cons (pre ++ [base64Char (a.toNat / 4), base64Char (a.toNat % 4 * 16 + b.toNat / 16)])
        (base64Char (b.toNat % 16 * 4 + c.toNat / 64)) ([base64Char (c.toNat % 64)] ++ ((ts.map enc3).flatten ++ post))
      rw [hs']; simpa using this
    have d3 : deref src (pre.length + 3) = ok (base64Char (c.toNat % 64)) := by
      have := deref_append_cons (pre ++ [base64Char (a.toNat / 4), base64Char (a.toNat % 4 * 16 + b.toNat / 16),
        base64Char (b.toNat % 16 * 4 + c.toNat / 64)]) (base64Char (c.toNat % 64)) ((ts.map enc3).flatten ++ post)
      rw [hs']; simpa using this
    simp only [d0, d1, d2, d3, ok_bind]
    rw [base64ToBin_at _ (by omega), base64ToBin_at _ (by omega), base64ToBin_at _ (by omega), base64ToBin_at _ (by omega)]
    simp only [ok_bind]
    rw [toNat8 (a.toNat / 4) (by omega), toNat8 (a.toNat % 4 * 16 + b.toNat / 16) (by omega),
      toNat8 (b.toNat % 16 * 4 + c.toNat / 64) (by omega), toNat8 (c.toNat % 64) (by omega)]
    rw [dblock4 _ _ _ _ (by omega) (by omega) (by omega)]
    have hg : [BitVec.ofNat 8 (((a.toNat / 4 * 262144 + (a.toNat % 4 * 16 + b.toNat / 16) * 4096 + (b.toNat % 16 * 4 + c.toNat / 64) * 64 +
          c.toNat % 64) >>> 16) &&& 0xFF),
        BitVec.ofNat 8 (((a.toNat / 4 * 262144 + (a.toNat % 4 * 16 + b.toNat / 16) * 4096 + (b.toNat % 16 * 4 + c.toNat / 64) * 64 +
          c.toNat % 64) >>> 8) &&& 0xFF),
        BitVec.ofNat 8 ((a.toNat / 4 * 262144 + (a.toNat % 4 * 16 + b.toNat / 16) * 4096 + (b.toNat % 16 * 4 + c.toNat / 64) * 64 +
          c.toNat % 64) &&& 0xFF)] = [a, b, c] := by
      simp only [and255, Nat.shiftRight_eq_div_pow, List.cons.injEq, and_true]
      refine ⟨?_, ?_, ?_⟩ <;> apply BitVec.eq_of_toNat_eq <;> simp only [BitVec.toNat_ofNat] <;> omega
    rw [hg, puts_append _ done room (by simp at hr ⊢; omega), ok_bind]
    have hrec := ih (pre ++ enc3 (a, b, c)) post (done ++ [a, b, c]) (room.drop 3) (by rw [hs]; simp) (by simp at hr ⊢; omega)
    have hl4 : (enc3 (a, b, c)).length = 4 := rfl
    simp only [List.length_append, List.length_cons, List.length_nil, Nat.zero_add, Nat.reduceAdd, hl4] at hrec ⊢
    rw [hrec, List.drop_drop]
    simp only [flat3, List.append_assoc, Outcome.ok.injEq, Prod.mk.injEq, List.cons_append, List.nil_append]
    refine ⟨by omega, ?_, by omega⟩
    congr 6
    omega

theorem b64DecRounds_total (src : List Byte) : ∀ (n itr : Nat) (buf : List Byte) (o : Nat), itr + 4 * n ≤ src.length → o + 3 * n ≤ buf.length →
    ∃ buf', b64DecRounds src n itr buf o = ok (itr + 4 * n, buf', o + 3 * n) ∧ buf'.length = buf.length := by
  intro n
  induction n with
  | zero => intro itr buf o _ _; exact ⟨buf, rfl, rfl⟩
  | succ n ih =>
    intro itr buf o hi ho
    unfold b64DecRounds
    rw [deref_eq_ok (by omega), deref_eq_ok (by omega), deref_eq_ok (by omega), deref_eq_ok (by omega)]
    simp only [ok_bind]
    obtain ⟨d0, e0⟩ := base64ToBin_total (src[itr]'(by omega))
    obtain ⟨d1, e1⟩ := base64ToBin_total (src[itr + 1]'(by omega))
    obtain ⟨d2, e2⟩ := base64ToBin_total (src[itr + 2]'(by omega))
    obtain ⟨d3, e3⟩ := base64ToBin_total (src[itr + 3]'(by omega))
    simp only [e0, e1, e2, e3, ok_bind]
    generalize hvs : [BitVec.ofNat 8 _, BitVec.ofNat 8 _, BitVec.ofNat 8 _] = vs
    have hvl : vs.length = 3 := by rw [← hvs]; rfl
    obtain ⟨buf', h1, h2⟩ := puts_length buf o vs (by omega)
    rw [h1, ok_bind]
    obtain ⟨buf'', g1, g2⟩ := ih (itr + 4) buf' (o + 3) (by omega) (by omega)
    refine ⟨buf'', ?_, by omega⟩
    rw [g1]
    congr 2
    · omega
    · congr 1; omega

/-! ### Interleaving and bits -/

theorem interleaveTable_at (c : Byte) : ∃ v, deref interleaveTable c.toNat = ok v ∧
    (∀ i < 8, v.getLsbD (2 * i) = c.getLsbD i) ∧ (∀ i < 8, v.getLsbD (2 * i + 1) = false) := by
  have h : ∀ c : Byte, (match deref interleaveTable c.toNat with
    | ok v => (List.range 8).all fun i => (v.getLsbD (2 * i) == c.getLsbD i) && !v.getLsbD (2 * i + 1)
    | _ => false) = true := by decide +kernel
  have := h c
  split at this
  · rename_i v hv
    rw [List.all_eq_true] at this
    refine ⟨v, hv, ?_, ?_⟩
    · intro i hi
      have := this i (by simpa using hi)
      simp at this
      exact this.1
    · intro i hi
      have := this i (by simpa using hi)
      simp at this
      exact this.2
  · simp at this

theorem highBits_at (c : Byte) : highBitCount8 c = ok (popcount c) := by
  revert c; decide +kernel

theorem highBitCountBytes_spec (s : List Byte) : highBitCountBytes s = ok ((s.map popcount).sum) := by
  induction s with
  | nil => rfl
  | cons c s ih => simp [highBitCountBytes, highBits_at, ih]

theorem highBitCountLoop_spec (s : List Byte) : ∀ n, highBitCountLoop s n = ok (n + (s.map popcount).sum) := by
  induction s with
  | nil => intro n; simp [highBitCountLoop]
  | cons c s ih => intro n; simp [highBitCountLoop, highBits_at, ih]; omega

theorem popcount_extract {w : Nat} (x : BitVec w) (k : Nat) :
    popcount (x.extractLsb' (8 * k) 8) = ((List.range 8).map (· + 8 * k)).countP fun i => x.getLsbD i := by
  rw [popcount, List.countP_map]
  apply List.countP_congr
  intro i hi
  simp at hi
  simp [hi, Nat.add_comm]

theorem hammingLoop_spec (s1 : List Byte) : ∀ (s2 : List Byte) (d : Nat), s1.length = s2.length → hammingLoop s1 s2 d = ok (d + bitDiff s1 s2) := by
  induction s1 with
  | nil => intro s2 d h; have : s2 = [] := List.length_eq_zero_iff.mp h.symm; subst this; simp [hammingLoop, bitDiff]
  | cons a s1 ih =>
    intro s2 d h
    cases s2 with
    | nil => simp at h
    | cons b s2 =>
      unfold hammingLoop
      have : (a ^^^ b) &&& 0xFF = a ^^^ b := by
        rw [show (0xFF : Byte) = BitVec.allOnes 8 by decide, BitVec.and_allOnes]
      rw [this, highBits_at, ok_bind, ih s2 _ (by simpa using h)]
      simp [bitDiff]; omega

theorem popcount_xor_comm {w : Nat} (a b : BitVec w) : popcount (a ^^^ b) = popcount (b ^^^ a) := by rw [BitVec.xor_comm]

theorem popcount_eq_zero {w : Nat} (a : BitVec w) : popcount a = 0 ↔ a = 0#w := by
  rw [popcount, List.countP_eq_zero]
  constructor
  · intro h
    apply BitVec.eq_of_getLsbD_eq
    intro i hi
    have := h i (by simpa using hi)
    simpa using this
  · rintro rfl i _
    simp

theorem popcount_triangle {w : Nat} (a b c : BitVec w) : popcount (a ^^^ c) ≤ popcount (a ^^^ b) + popcount (b ^^^ c) := by
  unfold popcount
  generalize List.range w = l
  induction l with
  | nil => simp
  | cons i l ih =>
    simp only [List.countP_cons, BitVec.getLsbD_xor]
    simp only [BitVec.getLsbD_xor] at ih
    cases a.getLsbD i <;> cases b.getLsbD i <;> cases c.getLsbD i <;> simp <;> omega

/-- Reading a mask table entry. -/
theorem maskHigh_at (i : Nat) : ∃ m, deref bitMaskHigh (i &&& 7) = ok m ∧ ∀ j, m.getLsbD j = decide (j = i % 8) := by
  have h7 : i &&& 7 = i % 8 := Nat.and_two_pow_sub_one_eq_mod i 3
  have : ∀ k : Fin 8, deref bitMaskHigh k.val = ok (BitVec.twoPow 8 k.val) := by decide +kernel
  refine ⟨BitVec.twoPow 8 (i % 8), by rw [h7]; exact this ⟨i % 8, by omega⟩, ?_⟩
  intro j
  rw [BitVec.getLsbD_twoPow]
  have : i % 8 < 8 := by omega
  simp [this, eq_comm]

theorem maskLow_at (i : Nat) : ∃ m, deref bitMaskLow (i &&& 7) = ok m ∧ ∀ j < 8, m.getLsbD j = decide (j ≠ i % 8) := by
  have h7 : i &&& 7 = i % 8 := Nat.and_two_pow_sub_one_eq_mod i 3
  have : ∀ k : Fin 8, deref bitMaskLow k.val = ok (~~~ BitVec.twoPow 8 k.val) := by decide +kernel
  refine ⟨~~~ BitVec.twoPow 8 (i % 8), by rw [h7]; exact this ⟨i % 8, by omega⟩, ?_⟩
  intro j hj
  rw [BitVec.getLsbD_not, BitVec.getLsbD_twoPow]
  have : i % 8 < 8 := by omega
  simp [this, hj, eq_comm]

end Strtk.Codec
