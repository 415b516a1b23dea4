import Verif.Sinks.Model
import Verif.Sinks.Spec
import Verif.Codec.Lemmas
import Verif.Codec.Raw
import Verif.Number.Props
import Mathlib.Tactic.Ring

/-! # Theorems about the sinks (C32, C76-C78) -/

namespace Strtk.Sinks
open Outcome Mem Strtk.Codec

theorem hexValueCheck_iff (c : Byte) : hexValueCheck c = (hexValue c).isSome := by
  have : ∀ c : Byte, hexValueCheck c = (hexValue c).isSome := by decide +kernel
  exact this c

theorem all_hex (s : List Byte) : s.all hexValueCheck = true ↔ IsHex s := by
  simp [IsHex, List.all_eq_true, hexValueCheck_iff]

theorem hexValue_lt (c : Byte) (n : Nat) (h : hexValue c = some n) : n < 16 := (hexToBin_digit c n h).2

theorem hexVal_foldl (s : List Byte) : ∀ a, s.foldl (fun acc c => acc * 16 + (hexValue c).getD 0) a = a * 16 ^ s.length + hexVal s := by
  induction s with
  | nil => intro a; simp [hexVal]
  | cons c s ih =>
    intro a
    simp only [hexVal, List.foldl_cons, List.length_cons]
    rw [ih, ih (0 * 16 + (hexValue c).getD 0)]
    ring

theorem hexVal_cons (c : Byte) (s : List Byte) : hexVal (c :: s) = (hexValue c).getD 0 * 16 ^ s.length + hexVal s := by
  have := hexVal_foldl s ((hexValue c).getD 0)
  simpa [hexVal] using this

/-- Even-length hexadecimal text is made of pairs whose big-endian value is the value of the text. -/
theorem hexPairs_exists : ∀ (n : Nat) (h : List Byte), h.length = 2 * n → IsHex h → ∃ b, HexPairs h b ∧ leVal b.reverse = hexVal h := by
  have leApp : ∀ (a : List Byte) (x : Byte), leVal (a ++ [x]) = leVal a + 256 ^ a.length * x.toNat := by
    intro a x
    induction a with
    | nil => simp [leVal]
    | cons y a ih => simp only [List.cons_append, leVal, ih, List.length_cons]; ring
  intro n
  induction n with
  | zero =>
    intro h hl _
    have : h = [] := List.length_eq_zero_iff.mp (by omega)
    subst this
    exact ⟨[], .nil, rfl⟩
  | succ n ih =>
    intro h hl hh
    match h, hl with
    | c :: d :: t, hl =>
      obtain ⟨x, hx⟩ := Option.isSome_iff_exists.mp (hh c (by simp))
      obtain ⟨y, hy⟩ := Option.isSome_iff_exists.mp (hh d (by simp))
      obtain ⟨b, hb, hv⟩ := ih t (by simp at hl; omega) (fun e he => hh e (by simp [he]))
      refine ⟨_, .cons hx hy hb, ?_⟩
      have hx' := hexValue_lt c x hx
      have hy' := hexValue_lt d y hy
      rw [List.reverse_cons, leApp, hv, hexVal_cons, hexVal_cons, hx, hy, toNat8 _ (by omega)]
      have hl' := hb.length
      simp only [List.length_cons, List.length_reverse, Option.getD_some, hl']
      have : (16 : Nat) ^ (2 * b.length) = 256 ^ b.length := by rw [Nat.pow_mul]
      rw [Nat.pow_succ, this]
      ring

theorem hexOffset_none (s : List Byte) (h : IsHex s) : hexOffset s = ok 0 := by
  unfold hexOffset
  match s with
  | [] => rfl
  | [_] => rfl
  | c :: d :: t =>
    by_cases hl : (c :: d :: t).length > 2
    · rw [if_pos hl]
      simp only [deref, List.getElem?_cons_zero, List.getElem?_cons_succ, ok_bind]
      rw [if_neg]
      rintro ⟨_, e | e⟩
      · subst e; exact absurd (h 120 (by simp)) (by decide)
      · subst e; exact absurd (h 88 (by simp)) (by decide)
    · rw [if_neg hl]

theorem hexOffset_prefix (x : Byte) (t : List Byte) (hx : x = 120 ∨ x = 88) (ht : t ≠ []) : hexOffset (48 :: x :: t) = ok 2 := by
  unfold hexOffset
  have : (48 :: x :: t : List Byte).length > 2 := by
    have := List.length_pos_iff.mpr ht
    simp; omega
  rw [if_pos this]
  simp only [deref, List.getElem?_cons_zero, List.getElem?_cons_succ, ok_bind]
  rw [if_pos ⟨trivial, hx⟩]

/-- The offset of a numeral: what follows is the digits. -/
theorem numeral_offset (s ds : List Byte) (h : HexNumeral s ds) : ∃ o, hexOffset s = ok o ∧ s.drop o = ds ∧ s.length - o = ds.length := by
  obtain ⟨hh, rfl | ⟨hne, rfl | rfl⟩⟩ := h
  · exact ⟨0, hexOffset_none s hh, by simp, by simp⟩
  · exact ⟨2, hexOffset_prefix _ _ (Or.inl rfl) hne, by simp, by simp⟩
  · exact ⟨2, hexOffset_prefix _ _ (Or.inr rfl) hne, by simp, by simp⟩

theorem reverseBytes_eq (m : List Byte) : reverseBytes m = ok m.reverse := reverseLoop_all m

theorem leVal_zeros (k : Nat) (m : List Byte) : leVal (List.replicate k 0 ++ m) = 256 ^ k * leVal m := by
  induction k with
  | zero => simp
  | succ k ih => simp only [List.replicate_succ, List.cons_append, leVal, ih]; simp; ring

/-- The general behaviour on a numeral of 1 to 2*sizeof(T) digits: valid, but the digits land in the most significant bytes, i.e. the value
is multiplied by 256 for every byte not covered. -/
theorem C32_hex_sink_behaviour (w : Nat) (sink : Sink) (s ds : List Byte) (h : HexNumeral s ds) (h1 : ds ≠ []) (h2 : ds.length ≤ 2 * w) :
    ∃ m, hexToNumber w sink s = ok ⟨true, m⟩ ∧ m.length = w ∧ leVal m = hexVal ds * 256 ^ (w - (ds.length + 1) / 2) := by
  obtain ⟨o, ho, hd, hl⟩ := numeral_offset s ds h
  have hpos := List.length_pos_iff.mpr h1
  unfold hexToNumber
  rw [ho, ok_bind]
  simp only [hl, hd]
  rw [if_neg (by omega)]
  have hall : ds.all hexValueCheck = true := (all_hex ds).mpr h.1
  rw [if_neg (by simp [hall])]
  -- the text handed to the decoder
  obtain ⟨text, buf, hb, ht, hv, hhex, hlen⟩ : ∃ text buf, copyTo (48 :: List.replicate (2 * w - 1) 0) (ds.length % 2) ds = ok buf ∧
      slice buf 0 (ds.length + ds.length % 2) = ok text ∧ hexVal text = hexVal ds ∧ IsHex text ∧ text.length = ds.length + ds.length % 2 := by
    rcases Nat.mod_two_eq_zero_or_one ds.length with e | e
    · refine ⟨ds, _, by rw [e, copyTo, if_pos (by simp; omega)], ?_, rfl, h.1, by omega⟩
      simp [slice, e]
    · refine ⟨48 :: ds, _, by rw [e, copyTo, if_pos (by simp; omega)], ?_, ?_, ?_, by simp; omega⟩
      · rw [e, slice, if_pos (by simp)]
        simp
      · rw [hexVal_cons]; simp [hexValue]
      · intro c hc
        rcases List.mem_cons.mp hc with rfl | hc
        · decide
        · exact h.1 c hc
  rw [hb, ok_bind, ht, ok_bind]
  obtain ⟨b, hp, hbv⟩ := hexPairs_exists ((ds.length + ds.length % 2) / 2) text (by omega) hhex
  have hbl := hp.length
  unfold hexToBinRaw
  rw [if_neg (by omega), if_neg (by omega)]
  have := hexToBinLoop_spec hp [] (List.replicate w 0) (by simp; omega)
  simp only [List.nil_append, List.length_nil] at this
  rw [this, ok_bind, ok_bind, reverseBytes_eq, ok_bind]
  refine ⟨_, rfl, by simp; omega, ?_⟩
  rw [List.reverse_append, List.drop_replicate, List.reverse_replicate, leVal_zeros, hbv, hv, Nat.mul_comm]
  congr 2
  omega

/-- A numeral that fills the type (2*sizeof(T) digits, or one less): the numeric value is stored and the sink is valid.  Missing for the
full property: shorter numerals, for which the claim is false. -/
theorem C32_hex_sink_partial (w : Nat) (sink : Sink) (s ds : List Byte) (h : HexNumeral s ds) (h1 : ds ≠ [])
    (h2 : ds.length = 2 * w ∨ ds.length + 1 = 2 * w) : ∃ m, hexToNumber w sink s = ok ⟨true, m⟩ ∧ m.length = w ∧ leVal m = hexVal ds := by
  obtain ⟨m, h3, h4, h5⟩ := C32_hex_sink_behaviour w sink s ds h h1 (by omega)
  refine ⟨m, h3, h4, ?_⟩
  rw [h5, show w - (ds.length + 1) / 2 = 0 by omega, Nat.pow_zero, Nat.mul_one]

/-- "0x1" assigned to a 4-byte integer stores 16777216 and reports valid. -/
theorem C32_short_numeral_wrong : ∃ m, hexToNumber 4 ⟨false, [0, 0, 0, 0]⟩ [48, 120, 49] = ok ⟨true, m⟩ ∧ leVal m = 16777216 ∧ hexVal [49] = 1 := by
  refine ⟨[0, 0, 0, 1], by decide +kernel, by decide, by decide⟩

/-- A text that is not a hexadecimal numeral reports invalid (and leaves the target alone) if it has at most 2*sizeof(T) characters. -/
theorem C32_not_hex_invalid (w : Nat) (sink : Sink) (s : List Byte) (h : ∀ ds, ¬ HexNumeral s ds) (hl : s.length ≤ 2 * w) :
    hexToNumber w sink s = ok ⟨false, sink.mem⟩ := by
  have ho : ∃ o, hexOffset s = ok o ∧ ¬ IsHex (s.drop o) := by
    unfold hexOffset
    match s with
    | [] => exact ⟨0, rfl, fun hh => h _ ⟨hh, Or.inl rfl⟩⟩
    | [c] => exact ⟨0, rfl, fun hh => h _ ⟨hh, Or.inl rfl⟩⟩
    | c :: d :: t =>
      by_cases h2 : (c :: d :: t).length > 2
      · rw [if_pos h2]
        simp only [deref, List.getElem?_cons_zero, List.getElem?_cons_succ, ok_bind]
        by_cases hc : c = 48 ∧ (d = 120 ∨ d = 88)
        · rw [if_pos hc]
          refine ⟨2, rfl, fun hh => ?_⟩
          have hne : t ≠ [] := by rintro rfl; simp at h2
          obtain ⟨rfl, rfl | rfl⟩ := hc
          · exact h t ⟨hh, Or.inr ⟨hne, Or.inl rfl⟩⟩
          · exact h t ⟨hh, Or.inr ⟨hne, Or.inr rfl⟩⟩
        · rw [if_neg hc]
          exact ⟨0, rfl, fun hh => h _ ⟨hh, Or.inl rfl⟩⟩
      · rw [if_neg h2]
        exact ⟨0, rfl, fun hh => h _ ⟨hh, Or.inl rfl⟩⟩
  obtain ⟨o, h1, h2⟩ := ho
  unfold hexToNumber
  rw [h1, ok_bind]
  simp only
  rw [if_neg (by omega), if_pos]
  have : ¬ ((s.drop o).all hexValueCheck = true) := fun hh => h2 ((all_hex _).mp hh)
  simpa using this

/-- A numeral with too many digits changes nothing at all: a sink that was valid still reports valid, with the old value. -/
theorem C32_too_long_keeps_state (w : Nat) (sink : Sink) (s ds : List Byte) (h : HexNumeral s ds) (hl : 2 * w < ds.length) :
    hexToNumber w sink s = ok sink := by
  obtain ⟨o, h1, _, h3⟩ := numeral_offset s ds h
  unfold hexToNumber
  rw [h1, ok_bind]
  simp only [h3]
  rw [if_pos hl]

/-- The empty text is invalid, and zeroes the target. -/
theorem C32_empty (w : Nat) (sink : Sink) : hexToNumber w sink [] = ok ⟨false, List.replicate w 0⟩ := by
  unfold hexToNumber
  have h0 : hexOffset [] = ok 0 := rfl
  rw [h0, ok_bind]
  simp [copyTo, slice, hexToBinRaw, reverseBytes_eq]

example : HexNumeral [48, 88, 70, 102, 49, 48] [70, 102, 49, 48] := ⟨by unfold IsHex; decide, Or.inr ⟨by simp, Or.inr rfl⟩⟩
example : hexToNumber 2 ⟨false, [9, 9]⟩ [48, 88, 70, 102, 49, 48] = ok ⟨true, [0x10, 0xFF]⟩ := by decide +kernel
example : leVal [0x10, 0xFF] = 0xFF10 := by decide
example : hexToNumber 2 ⟨true, [9, 9]⟩ [49, 50, 51, 52, 53] = ok ⟨true, [9, 9]⟩ := by decide +kernel
example : hexToNumber 2 ⟨true, [9, 9]⟩ [49, 103] = ok ⟨false, [9, 9]⟩ := by decide +kernel

/-! ## C76 hex_to_string_sink -/

/-- An even number (at least two) of hexadecimal digits, with or without prefix, stores the decoded bytes. -/
theorem C76_hex_to_string (s0 s ds b : List Byte) (h : HexNumeral s ds) (hne : ds ≠ []) (hp : HexPairs ds b) :
    hexToString s0 s = ok (true, b) := by
  obtain ⟨o, ho, hd, hl⟩ := numeral_offset s ds h
  have hpos := List.length_pos_iff.mpr hne
  have hbl := hp.length
  unfold hexToString
  rw [ho, ok_bind, hl, hd, if_neg (by omega)]
  unfold hexToBinRaw
  rw [if_neg (by omega), if_neg (by omega)]
  have := hexToBinLoop_spec hp [] (resize 0 s0 (ds.length / 2)) (by simp; omega)
  simp only [List.nil_append, List.length_nil] at this
  rw [this, ok_bind, List.drop_eq_nil_of_le (by simp; omega), List.append_nil]

/-- It undoes `convert_bin_to_hex`. -/
theorem C76_hex_string_round_trip (s0 b : List Byte) (hb : b ≠ []) : hexToString s0 (hexText b) = ok (true, b) := by
  have hne : hexText b ≠ [] := by cases b with
    | nil => exact absurd rfl hb
    | cons c b => simp [hexText]
  refine C76_hex_to_string s0 _ _ b ⟨?_, Or.inl rfl⟩ hne (hexText_pairs b)
  have : ∀ (h b : List Byte), HexPairs h b → IsHex h := by
    intro h b hp
    induction hp with
    | nil => intro c hc; simp at hc
    | cons h1 h2 _ ih =>
      intro c hc
      rcases List.mem_cons.mp hc with rfl | hc
      · simp [h1]
      · rcases List.mem_cons.mp hc with rfl | hc
        · simp [h2]
        · exact ih c hc
  exact this _ _ (hexText_pairs b)

/-- An odd number of digits is invalid, but the target string has already been resized. -/
theorem C76_odd_invalid (s0 s ds : List Byte) (h : HexNumeral s ds) (ho : ds.length % 2 = 1) :
    ∃ t, hexToString s0 s = ok (false, t) ∧ (ds.length = 1 → t = s0) ∧ (ds.length ≠ 1 → t.length = ds.length / 2) := by
  obtain ⟨o, h1, hd, hl⟩ := numeral_offset s ds h
  unfold hexToString
  rw [h1, ok_bind, hl, hd]
  by_cases h2 : ds.length < 2
  · rw [if_pos h2]
    exact ⟨s0, rfl, fun _ => rfl, fun h => by omega⟩
  · rw [if_neg h2, hexToBinRaw, if_neg (by omega), if_pos ho]
    exact ⟨_, rfl, fun h => by omega, fun _ => by simp⟩

example : hexToString [] [48, 120, 52, 49, 54, 50] = ok (true, [0x41, 0x62]) := by decide +kernel
example : HexPairs [52, 49] [0x41] := .cons (c := 52) (d := 49) (x := 4) (y := 1) (by decide) (by decide) .nil

/-! ## C77 base64_to_number_sink -/

/-- A freshly constructed sink (or any invalid one) never becomes valid, whatever is assigned. -/
theorem C77_base64_sink_never_valid (w : Nat) (sink sink' : Sink) (s : List Byte) (h0 : sink.valid = false)
    (h : base64ToNumber w sink s = ok sink') : sink'.valid = false := by
  unfold base64ToNumber at h
  split at h
  · simp at h; subst h; rfl
  · rw [bind_eq_ok] at h
    obtain ⟨⟨n, m⟩, _, h⟩ := h
    simp only [reverseBytes_eq, ok_bind, ok.injEq] at h
    subst h
    exact h0

/-- A text that decodes to more bytes than the target has is written past the target: twelve characters into four bytes. -/
theorem C77_base64_sink_overflows : base64ToNumber 4 ⟨false, [0, 0, 0, 0]⟩ [65, 65, 65, 65, 65, 65, 65, 65, 65, 65, 65, 65] = ub := by decide +kernel

/-- Texts shorter than two characters make it read before the beginning of the text. -/
theorem C77_base64_sink_short_ub (w : Nat) (sink : Sink) : base64ToNumber w sink [] = ub := rfl

/-- The characters it takes are the alphabet of base64 and the padding. -/
theorem C77_base64_sink_alphabet (c : Byte) : base64ValueCheck c = true ↔ c = 61 ∨ ∃ n < 64, c = base64Char n := by
  have : ∀ c : Byte, base64ValueCheck c = true ↔ c = 61 ∨ ∃ n : Fin 64, c = base64Char n.val := by decide +kernel
  rw [this]
  constructor
  · rintro (h | ⟨n, h⟩)
    · exact Or.inl h
    · exact Or.inr ⟨n.val, n.isLt, h⟩
  · rintro (h | ⟨n, hn, h⟩)
    · exact Or.inl h
    · exact Or.inr ⟨⟨n, hn⟩, h⟩

/-- What an assignment does, exactly: a text with any other character marks the sink invalid and leaves the number alone; otherwise the bytes the text stands for become the
high end of the number, if they fit; if not, it writes outside the number. -/
theorem C77_base64_sink_partial (w : Nat) (sink : Sink) (s : List Byte) :
    ((∃ c ∈ s, c ≠ 61 ∧ ∀ n < 64, c ≠ base64Char n) → base64ToNumber w sink s = ok ⟨false, sink.mem⟩) ∧
    ((∀ c ∈ s, c = 61 ∨ ∃ n < 64, c = base64Char n) → 2 ≤ s.length →
      base64ToNumber w sink s = if (base64Bytes (unpad s)).length ≤ w
        then ok ⟨sink.valid, List.replicate (w - (base64Bytes (unpad s)).length) 0 ++ (base64Bytes (unpad s)).reverse⟩ else ub) := by
  have hall : s.all base64ValueCheck = true ↔ ∀ c ∈ s, c = 61 ∨ ∃ n < 64, c = base64Char n := by
    rw [List.all_eq_true]
    exact ⟨fun h c hc => (C77_base64_sink_alphabet c).mp (h c hc), fun h c hc => (C77_base64_sink_alphabet c).mpr (h c hc)⟩
  constructor
  · rintro ⟨c, hc, h1, h2⟩
    have : ¬ (s.all base64ValueCheck = true) := fun h => by
      rcases hall.mp h c hc with h | ⟨n, hn, h⟩
      · exact h1 h
      · exact h2 n hn h
    unfold base64ToNumber
    rw [if_pos (by simpa using this)]
  · intro h hl
    unfold base64ToNumber
    rw [if_neg (by simp [hall.mpr h]), C148_base64_to_bin _ _ hl, List.length_replicate]
    by_cases hw : (base64Bytes (unpad s)).length ≤ w
    · rw [if_pos hw, if_pos hw, ok_bind]
      simp only [reverseBytes_eq, ok_bind]
      rw [List.reverse_append, List.drop_replicate, List.reverse_replicate]
    · rw [if_neg hw, if_neg hw]; rfl

/-- In particular the base64 text of at most `w` bytes: they are stored in reverse order, at the high end. -/
theorem C77_base64_sink_stores (w : Nat) (sink : Sink) (b : List Byte) (hb : b ≠ []) (hw : b.length ≤ w) :
    base64ToNumber w sink (base64Text b) = ok ⟨sink.valid, List.replicate (w - b.length) 0 ++ b.reverse⟩ := by
  have hl := base64Text_length b
  have hpos : 0 < b.length := List.length_pos_iff.mpr hb
  have hd := C20_base64_decode b [] hb
  rw [C21_base64_exact _ _ (by omega)] at hd
  have hd := Outcome.ok.inj hd
  have h := (C77_base64_sink_partial w sink (base64Text b)).2 ?_ (by omega)
  · rw [h, hd, if_pos hw]
  · exact (C20_base64_alphabet b [] _ (C20_base64_encode b [])).2

example : base64ToNumber 3 ⟨false, [0, 0, 0]⟩ [65, 81, 73, 68] = ok ⟨false, [3, 2, 1]⟩ := by decide +kernel

/-! ## C78 truncated_int -/

/-- Without a fixed fraction size: the text before the first full stop is converted. -/
theorem C78_truncated {β : Type} (conv : List Byte → Outcome (Bool × β)) (t0 : β) (ip fp : List Byte) (h : 46 ∉ ip) :
    truncatedInt conv t0 none (ip ++ 46 :: fp) = conv ip ∧ truncatedInt conv t0 none ip = conv ip := by
  have h' : ∀ c ∈ ip, (!(c == 46)) = true := by
    intro c hc
    simp only [Bool.not_eq_true', beq_eq_false_iff_ne, ne_eq]
    rintro rfl
    exact h hc
  constructor
  · simp only [truncatedInt]
    rw [List.takeWhile_append_of_pos h']
    simp
  · simp only [truncatedInt]
    congr 1
    have := List.takeWhile_append_of_pos (l₂ := []) h'
    simpa using this

/-- With a fixed fraction size: the last `f + 1` characters, whatever they are, are dropped; a shorter text is rejected. -/
theorem C78_truncated_fixed {β : Type} (conv : List Byte → Outcome (Bool × β)) (t0 : β) (ip fp : List Byte) (c : Byte) :
    truncatedInt conv t0 (some fp.length) (ip ++ c :: fp) = conv ip := by
  simp only [truncatedInt]
  rw [if_neg (by simp)]
  congr 1
  have : (ip ++ c :: fp).length - (fp.length + 1) = ip.length := by simp
  rw [this, List.take_left']
  rfl

theorem C78_truncated_short {β : Type} (conv : List Byte → Outcome (Bool × β)) (t0 : β) (f : Nat) (s : List Byte) (h : s.length ≤ f) :
    truncatedInt conv t0 (some f) s = ok (false, t0) := by
  simp only [truncatedInt]
  rw [if_pos (by omega)]

/-- For `int`: sign and digits, a full stop and anything yields the integer. -/
theorem C78_truncated_int (ip fp : List Byte) (v t0 : Int) (h : Number.SNumeral ip v) (h1 : -2 ^ 31 < v) (h2 : v < 2 ^ 31) :
    truncatedInt (fun s => Number.parseSigned Number.int s t0) t0 none (ip ++ 46 :: fp) = ok (true, v) := by
  rw [(C78_truncated _ t0 ip fp _).1]
  · exact (Number.C29_signed_partial Number.int (Or.inl rfl) ip t0).1 v h (by simpa [Number.int] using h1) (by simpa [Number.int] using h2)
  · obtain ⟨ds, ⟨_, hd⟩, ⟨rfl | rfl, _⟩ | ⟨rfl, _⟩⟩ := h <;> intro hm
    · exact absurd (hd _ hm) (by decide)
    · rcases List.mem_cons.mp hm with e | hm
      · exact absurd e (by decide)
      · exact absurd (hd _ hm) (by decide)
    · rcases List.mem_cons.mp hm with e | hm
      · exact absurd e (by decide)
      · exact absurd (hd _ hm) (by decide)

example : truncatedInt (fun s => Number.parseSigned Number.int s 7) 7 none [45, 52, 50, 46, 57, 57] = ok (true, -42) := by decide +kernel
example : truncatedInt (fun s => Number.parseSigned Number.int s 7) 7 (some 2) [45, 52, 50, 46, 57, 57] = ok (true, -42) := by decide +kernel

end Strtk.Sinks
