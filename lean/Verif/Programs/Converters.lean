import Verif.Codec.Raw

/-!
# strtk_converters_example.cpp

The text of the first example, the sizes of the buffers and the number of rounds are arguments; times and rates are not modelled.  What an uninitialised buffer
holds is an argument.
-/

namespace Strtk.Programs.Conv
open Outcome Mem Strtk.Codec

/-- `example01` (30-50): what it prints. -/
def example01 (text : List Byte) : Outcome (List Byte) := do
  let hex ← binToHex text []
  let (_, hexbin) ← hexToBinStr hex []
  let base64 ← b64EncStr text []
  let base64bin ← b64DecStr base64 []
  ok (text ++ [10] ++ hex ++ [10] ++ hexbin ++ [10] ++ base64 ++ [10] ++ base64bin ++ [10] ++ [10])

/-- `for (i = 0; i < k; ++i) buffer[i] = static_cast<unsigned char>(i)` (58, 72), with `n` rounds to go. -/
def count : Nat → Nat → List Byte → Outcome (List Byte)
  | 0, _, buf => ok buf
  | n + 1, i, buf => do
    let buf ← store buf i (BitVec.ofNat 8 i)
    count n (i + 1) buf

/-- `example02` (52-61): the buffers at the end. -/
def example02 (size : Nat) (buffer hex b64 : List Byte) : Outcome (List Byte × List Byte) := do
  let buffer ← count size 0 buffer
  let src ← slice buffer 0 size
  let hex ← binToHexLoop src hex 0
  let (_, b64) ← b64Enc src b64
  ok (hex, b64)

/-- The comparison (78-85): the position that is reported, if any. -/
def compare (buffer1 buffer2 : List Byte) : Nat → Nat → Outcome (Option Nat)
  | 0, _ => ok none
  | n + 1, i => do
    let x ← deref buffer1 i
    let y ← deref buffer2 i
    if x ≠ y then ok (some i) else compare buffer1 buffer2 n (i + 1)

/-- The loop over `k` (70-86), with `n` rounds to go: the position reported by the first failing round. -/
def sizes : Nat → Nat → List Byte → List Byte → List Byte → Outcome (Option Nat)
  | 0, _, _, _, _ => ok none
  | n + 1, k, buffer1, buffer2, b64 => do
    let buffer1 ← count k 0 buffer1
    let src ← slice buffer1 0 k
    let (b64size, b64) ← b64Enc src b64
    let buffer2 ← puts buffer2 0 (List.replicate k 0)
    let text ← slice b64 0 b64size
    let (_, buffer2) ← b64Dec text buffer2
    let r ← compare buffer1 buffer2 k 0
    match r with
    | some i => ok (some i)
    | none => sizes n (k + 1) buffer1 buffer2 b64

/-- `example03` (63-87). -/
def example03 (size : Nat) (buffer1 buffer2 b64 : List Byte) : Outcome (Option Nat) := sizes (size - 1) 1 buffer1 buffer2 b64

/-- `n` times the same statement. -/
def times {σ : Type} (f : σ → Outcome σ) : Nat → σ → Outcome σ
  | 0, s => ok s
  | n + 1, s => do
    let s ← f s
    times f n s

/-- `bin2hex_speed_test` (89-137): the buffers at the end; `iota` (97) counts from zero in `unsigned char`. -/
def hexSpeed (size rounds : Nat) (bin hex : List Byte) : Outcome (List Byte × List Byte) := do
  let bin ← count size 0 bin
  let hex ← times (fun hex => binToHexLoop bin hex 0) rounds hex
  let bin ← times (fun bin => do let (_, bin) ← hexToBinRaw hex bin 0; ok bin) rounds bin
  ok (bin, hex)

/-- `bin2b64_speed_test` (139-188). -/
def b64Speed (size rounds : Nat) (bin b64 : List Byte) : Outcome (List Byte × List Byte) := do
  let bin ← count size 0 bin
  let (length, b64) ← times (fun s => b64Enc bin s.2) rounds (0, b64)
  let text ← slice b64 0 length
  let bin ← times (fun bin => do let (_, bin) ← b64Dec text bin; ok bin) rounds bin
  ok (bin, b64)

/-! ## Specification -/

/-- The bytes 0, 1, 2, ..., again from 0 after 255. -/
def counted (k : Nat) : List Byte := (List.range k).map (BitVec.ofNat 8)

/-! ## Proofs -/

theorem slice_prefix (d t : List Byte) : slice (d ++ t) 0 d.length = ok d := by simp [slice]

theorem count_eq : ∀ (n i : Nat) (done room : List Byte), done.length = i → n ≤ room.length →
    count n i (done ++ room) = ok (done ++ (List.range' i n).map (BitVec.ofNat 8) ++ room.drop n)
  | 0, i, done, room, _, _ => by simp [count]
  | n + 1, i, done, room, hi, hr => by
    match room, hr with
    | x :: room, hr =>
      have hst : store (done ++ x :: room) i (BitVec.ofNat 8 i) = ok (done ++ BitVec.ofNat 8 i :: room) := by
        simp [store, ← hi]
      rw [count, hst, ok_bind]
      have := count_eq n (i + 1) (done ++ [BitVec.ofNat 8 i]) room (by simp [hi]) (by simp only [List.length_cons] at hr; omega)
      rw [List.append_assoc, List.singleton_append] at this
      rw [this, List.range'_succ]
      simp

theorem count_zero (k : Nat) (buf : List Byte) (h : k ≤ buf.length) : count k 0 buf = ok (counted k ++ buf.drop k) := by
  have := count_eq k 0 [] buf rfl h
  rw [List.nil_append] at this
  rw [this, counted, List.range_eq_range']
  rfl

@[simp] theorem counted_length (k : Nat) : (counted k).length = k := by simp [counted]

theorem slice_counted (k : Nat) (r : List Byte) : slice (counted k ++ r) 0 k = ok (counted k) := by
  have := slice_prefix (counted k) r
  rwa [counted_length] at this

/-- C149: the first example prints the text, its hexadecimal form, the text, its base64 form and the text. -/
theorem C149_example01 (text : List Byte) (h : text ≠ []) :
    example01 text = ok (text ++ [10] ++ hexText text ++ [10] ++ text ++ [10] ++ base64Text text ++ [10] ++ text ++ [10] ++ [10]) := by
  have hd := C19_hex_round_trip text [] [] h
  rw [C19_hex_encode, ok_bind] at hd
  unfold example01
  rw [C19_hex_encode, ok_bind, hd, ok_bind]
  simp only
  rw [C20_base64_encode, ok_bind, C20_base64_decode text [] h, ok_bind]

/-- C149: the second example stays inside its buffers, for every size but 1. -/
theorem C149_example02 (size : Nat) (buffer hex b64 : List Byte) (hs : size ≠ 1) (h1 : buffer.length = size) (h2 : hex.length = 2 * size)
    (h3 : b64.length = 2 * size) :
    example02 size buffer hex b64 = ok (hexText (counted size), base64Text (counted size) ++ b64.drop (4 * ((size + 2) / 3))) := by
  unfold example02
  rw [count_zero size buffer (by omega), ok_bind, slice_counted, ok_bind, C148_bin_to_hex, counted_length, if_pos (by omega), ok_bind,
    C148_bin_to_base64, counted_length, if_pos (by omega), ok_bind]
  rw [List.drop_of_length_le (by omega : hex.length ≤ 2 * size), List.append_nil]

theorem compare_same (x : List Byte) (a b : List Byte) : ∀ (n i : Nat), i + n ≤ x.length → compare (x ++ a) (x ++ b) n i = ok none
  | 0, _, _ => rfl
  | n + 1, i, h => by
    have e : ∀ r : List Byte, deref (x ++ r) i = ok x[i] := fun r => by
      rw [deref_eq_ok (by simp; omega), List.getElem_append_left (by omega)]
    rw [compare, e, ok_bind, e, ok_bind, if_neg (by simp)]
    exact compare_same x a b n (i + 1) (by omega)

theorem sizes_none : ∀ (n k size : Nat) (buffer1 buffer2 b64 : List Byte), 1 ≤ k → n + k = size → buffer1.length = size → buffer2.length = size →
    b64.length = 2 * size → sizes n k buffer1 buffer2 b64 = ok none
  | 0, _, _, _, _, _, _, _, _, _, _ => rfl
  | n + 1, k, size, buffer1, buffer2, b64, hk, hn, h1, h2, h3 => by
    have hne : counted k ≠ [] := fun e => by have := congrArg List.length e; simp at this; omega
    have htl := base64Text_length (counted k)
    rw [counted_length] at htl
    have hfill : puts buffer2 0 (List.replicate k 0) = ok (List.replicate k (0 : Byte) ++ buffer2.drop k) := by
      rw [puts_eq _ _ _ (by simp; omega)]; simp
    have hsl : slice (base64Text (counted k) ++ b64.drop (4 * ((k + 2) / 3))) 0 (4 * ((k + 2) / 3)) = ok (base64Text (counted k)) := by
      have := slice_prefix (base64Text (counted k)) (b64.drop (4 * ((k + 2) / 3)))
      rwa [htl] at this
    have hdec := C20_base64_decode (counted k) [] hne
    rw [C21_base64_exact _ _ (by omega)] at hdec
    unfold sizes
    rw [count_zero k buffer1 (by omega), ok_bind, slice_counted, ok_bind, C148_bin_to_base64, counted_length, if_pos (by omega), ok_bind]
    simp only
    rw [hfill, ok_bind, hsl, ok_bind, C148_base64_to_bin _ _ (by omega), Outcome.ok.inj hdec, counted_length, if_pos (by simp), ok_bind]
    simp only
    rw [compare_same (counted k) _ _ k 0 (by simp), ok_bind]
    exact sizes_none n (k + 1) size _ _ _ (by omega) (by omega) (by simp; omega) (by simp; omega) (by simp only [List.length_append, List.length_drop, htl]; omega)

/-- C149: the third example never reports a failure and stays inside its buffers, for every size of the buffers. -/
theorem C149_example03 (size : Nat) (buffer1 buffer2 b64 : List Byte) (h1 : buffer1.length = size) (h2 : buffer2.length = size) (h3 : b64.length = 2 * size) :
    example03 size buffer1 buffer2 b64 = ok none := by
  unfold example03
  rcases Nat.eq_zero_or_pos size with rfl | h
  · rfl
  · exact sizes_none (size - 1) 1 size _ _ _ (Nat.le_refl _) (by omega) h1 h2 h3

theorem times_fixed {σ : Type} (f : σ → Outcome σ) (s : σ) (h : f s = ok s) : ∀ n, times f n s = ok s
  | 0 => rfl
  | n + 1 => by rw [times, h, ok_bind, times_fixed f s h n]

/-- C149: the hexadecimal speed test stays inside its buffers and gets its bytes back, for every size and any number of rounds but none. -/
theorem C149_hex_speed (size rounds : Nat) (bin hex : List Byte) (hr : 0 < rounds) (hs : 0 < size) (h1 : bin.length = size) (h2 : hex.length = 2 * size) :
    hexSpeed size rounds bin hex = ok (counted size, hexText (counted size)) := by
  have hl : (hexText (counted size)).length = 2 * size := by rw [hexText_length, counted_length]; omega
  have hne : counted size ≠ [] := fun e => by have := congrArg List.length e; simp at this; omega
  have step : ∀ x : List Byte, x.length = 2 * size → binToHexLoop (counted size) x 0 = ok (hexText (counted size)) := fun x hx => by
    rw [C148_bin_to_hex, counted_length, if_pos (by omega), List.drop_of_length_le (by omega), List.append_nil]
  have hdec := C19_hex_round_trip (counted size) [] [] hne
  have hxne : hexText (counted size) ≠ [] := fun e => by have := congrArg List.length e; rw [hl] at this; simp at this; omega
  rw [C19_hex_encode, ok_bind, C21_hex_exact _ _ hxne (by omega)] at hdec
  have hdec := (Prod.mk.inj (Outcome.ok.inj hdec)).2
  have back : (do let (_, bin) ← hexToBinRaw (hexText (counted size)) (counted size) 0; ok bin) = ok (counted size) := by
    rw [C148_hex_to_bin, if_neg (by omega), if_pos (by rw [hl, counted_length]; omega), ok_bind, hdec, hl,
      List.drop_of_length_le (by rw [counted_length]; omega), List.append_nil]
  unfold hexSpeed
  rw [count_zero size bin (by omega), ok_bind, List.drop_of_length_le (by omega), List.append_nil]
  obtain ⟨n, rfl⟩ : ∃ n, rounds = n + 1 := ⟨rounds - 1, by omega⟩
  rw [times, step hex h2, ok_bind, times_fixed _ _ (step _ hl), ok_bind, times_fixed _ _ back, ok_bind]

/-- C149: the base64 speed test stays inside its buffers and gets its bytes back, for every size from 2 on and any number of rounds but none. -/
theorem C149_b64_speed (size rounds : Nat) (bin b64 : List Byte) (hr : 0 < rounds) (hs : 2 ≤ size) (h1 : bin.length = size) (h2 : b64.length = 2 * size) :
    b64Speed size rounds bin b64 = ok (counted size, base64Text (counted size) ++ b64.drop (4 * ((size + 2) / 3))) := by
  have hne : counted size ≠ [] := fun e => by have := congrArg List.length e; simp at this; omega
  have htl := base64Text_length (counted size)
  rw [counted_length] at htl
  have step : ∀ s : Nat × List Byte, s.2.length = 2 * size → b64Enc (counted size) s.2 =
      ok (4 * ((size + 2) / 3), base64Text (counted size) ++ s.2.drop (4 * ((size + 2) / 3))) := fun s hx => by
    rw [C148_bin_to_base64, counted_length, if_pos (by omega)]
  have hdec := C20_base64_decode (counted size) [] hne
  rw [C21_base64_exact _ _ (by omega)] at hdec
  have hdec := Outcome.ok.inj hdec
  have back : (do let (_, bin) ← b64Dec (base64Text (counted size)) (counted size); ok bin) = ok (counted size) := by
    rw [C148_base64_to_bin _ _ (by omega), hdec, if_pos (Nat.le_refl _), ok_bind, List.drop_length, List.append_nil]
  have hsl : slice (base64Text (counted size) ++ b64.drop (4 * ((size + 2) / 3))) 0 (4 * ((size + 2) / 3)) = ok (base64Text (counted size)) := by
    have := slice_prefix (base64Text (counted size)) (b64.drop (4 * ((size + 2) / 3)))
    rwa [htl] at this
  unfold b64Speed
  rw [count_zero size bin (by omega), ok_bind, List.drop_of_length_le (by omega), List.append_nil]
  obtain ⟨n, rfl⟩ : ∃ n, rounds = n + 1 := ⟨rounds - 1, by omega⟩
  have hfix : b64Enc (counted size) (base64Text (counted size) ++ b64.drop (4 * ((size + 2) / 3))) =
      ok (4 * ((size + 2) / 3), base64Text (counted size) ++ b64.drop (4 * ((size + 2) / 3))) := by
    have := step (0, base64Text (counted size) ++ b64.drop (4 * ((size + 2) / 3))) (by simp [htl]; omega)
    simp only at this
    rw [this, List.drop_left' htl]
  rw [times, step (0, b64) h2, ok_bind, times_fixed (fun s => b64Enc (counted size) s.2) _ hfix, ok_bind]
  simp only
  rw [hsl, ok_bind, times_fixed _ _ back, ok_bind]

/-- With buffers of one byte the second example would write four bytes into a buffer of two. -/
theorem C149_size_one (a b c d e : Byte) : example02 1 [a] [b, c] [d, e] = ub := by
  unfold example02
  have := count_zero 1 [a] (by simp)
  simp only [List.drop_one, List.tail_cons] at this
  rw [this, ok_bind, slice_counted, ok_bind, C148_bin_to_hex, counted_length, if_pos (by simp), ok_bind, C148_bin_to_base64, counted_length, if_neg (by simp)]
  rfl

/-- Non-vacuity: the sizes of the program. -/
example : ∀ junk : List Byte, junk.length = 1024 → example03 1024 junk junk (junk ++ junk) = ok none := fun junk h =>
  C149_example03 1024 _ _ _ h h (by simp [h])
example : example01 [72, 105] = ok [72, 105, 10, 52, 56, 54, 57, 10, 72, 105, 10, 83, 71, 107, 61, 10, 72, 105, 10, 10] := by decide +kernel
example : (2000 : Nat) > 0 ∧ 2 ≤ 1048576 := by decide

example := C149_example01 [72, 105] (by decide)

example := C149_example02 5 (List.replicate 5 0) (List.replicate 10 0) (List.replicate 10 0) (by decide) (by decide) (by decide) (by decide)

end Strtk.Programs.Conv
