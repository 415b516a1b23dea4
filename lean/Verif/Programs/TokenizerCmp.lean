import Verif.Programs.TokenizerTest

/-!
# strtk_tokenizer_cmp.cpp

The parts of the comparison that use the library, with the texts, counts and rounds as arguments.  The parts for other libraries, the times and rates are
not modelled; the sum of `double`s is in TokenizerCmpReal.lean.
-/

namespace Strtk.Programs.Cmp
open Outcome Strtk.Split Strtk.Number
open Strtk.Fast (signedNumericConvert)

/-! ## Model -/

/-- `strtk::replicate(n,base,s); s.resize(s.size() - 1);` (80-81, 151-152): for an empty string the size is that of no string, and `resize` throws. -/
def prepared (n : Nat) (base : List Byte) : Outcome (List Byte) :=
  let s := Join.replicate n base []
  if s.length = 0 then thrown else ok (s.take (s.length - 1))

/-- The loop of `strtk_tokenizer_timed_test` (92-97): `token_count` has 32 bits. -/
def tokenizerLoop (s : List Byte) : List (Nat × Nat) → Nat → List Byte → Nat × List Byte
  | [], count, so => (count, so)
  | r :: rs, count, so => tokenizerLoop s rs ((count + 1) % 2 ^ 32) (so ++ textOf s r)

/-- `strtk_tokenizer_timed_test` (73-106): the number printed and the string `so`. -/
def tokenizerTest (delimiters : List Byte) (n : Nat) (base : List Byte) : Outcome (Nat × List Byte) := do
  let s ← prepared n base
  let toks ← tokenizerTokens {} (Test.charPred delimiters) s
  ok (tokenizerLoop s toks 0 [])

/-- `strtk_split_timed_test` (145-167): the list of tokens, whose size is printed. -/
def splitTest (delimiters : List Byte) (n : Nat) (base : List Byte) : Outcome (List (List Byte)) := do
  let s ← prepared n base
  let (_, list) ← Parse.parseContainer { compress := true } delimiters (fun w => ok (true, w)) (fun l w => l ++ [w]) [] s
  ok list

/-- The loop of `strtk_lexical_cast_test_i2s` (297-301), `k` rounds from `i` on; the total is a `std::size_t`. -/
def i2sLoop : Nat → Int → Nat → Outcome Nat
  | 0, _, total => ok total
  | k + 1, i, total => do
    let s ← signedToString 32 i
    i2sLoop k (i + 1) ((total + s.length) % 2 ^ 64)

/-- `strtk_lexical_cast_test_i2s` (287-310) with `max_i2s` equal to `m`: the total printed. -/
def i2sTest (m : Nat) : Outcome Nat := i2sLoop (((m : Int) / 2) - (-(m : Int)).tdiv 2).toNat ((-(m : Int)).tdiv 2) 0

/-- The inner loop of `strtk_lexical_cast_test_s2i` and `strtkfast_lexical_cast_test_s2i` (525-529, 552-556): `n` and `total` are of type `int`. -/
def s2iRound (conv : List Byte → Int → Outcome (Bool × Int)) : List (List Byte) → Int → Int → Outcome (Int × Int)
  | [], n, total => ok (n, total)
  | s :: rest, n, total => do
    let (_, n) ← conv s n
    let total ← Fast.IntTy.arith ⟨true, 32⟩ (total + n)
    s2iRound conv rest n total

/-- The outer loop (523-530, 550-557). -/
def s2iLoop (conv : List Byte → Int → Outcome (Bool × Int)) (list : List (List Byte)) : Nat → Int → Int → Outcome Int
  | 0, _, total => ok total
  | k + 1, n, total => do
    let (n, total) ← s2iRound conv list n total
    s2iLoop conv list k n total

/-- `strtk_lexical_cast_test_s2i` (514-539): the total printed. -/
def s2iTest (rounds : Nat) (list : List (List Byte)) : Outcome Int := s2iLoop (parseSigned int) list rounds 0 0

/-- `strtkfast_lexical_cast_test_s2i` (541-566). -/
def s2iFast (rounds : Nat) (list : List (List Byte)) : Outcome Int := s2iLoop (fun s n => signedNumericConvert ⟨true, 32⟩ s n true) list rounds 0 0

/-! ## Specification -/

/-- The first `k` numbers of the list, repeated as often as there are rounds, add up to this. -/
def partialSum (vs : List Int) (rounds k : Nat) : Int := ((List.replicate rounds vs).flatten.take k).sum

/-- All partial sums are of type `int`. -/
def Fits (vs : List Int) (rounds : Nat) : Prop := ∀ k, -2 ^ 31 ≤ partialSum vs rounds k ∧ partialSum vs rounds k < 2 ^ 31

/-- The texts are numerals of the numbers, which are of type `int` but not the least. -/
def Numerals (list : List (List Byte)) (vs : List Int) : Prop := List.Forall₂ (fun s v => SNumeral s v ∧ -2 ^ 31 < v ∧ v < 2 ^ 31) list vs

/-! ## Texts -/

theorem charPred_eq (delimiters : List Byte) : Test.charPred delimiters = fun c => decide (c ∈ delimiters) := by
  funext c
  unfold Test.charPred
  rw [Parse.C79_multiple_char_predicate]

theorem flatten_splitOnP (d : Byte → Bool) : ∀ s : List Byte, (s.splitOnP d).flatten = s.filter fun c => !d c := by
  intro s
  induction s with
  | nil => simp
  | cons c s ih =>
    rw [List.splitOnP_cons]
    by_cases h : d c = true
    · rw [if_pos h, List.flatten_cons, ih, List.filter_cons_of_neg (by simp [h])]; rfl
    · rw [if_neg h, List.filter_cons_of_pos (by simp [h]), ← ih]
      cases hs : s.splitOnP d with
      | nil => exact absurd hs (List.splitOnP_ne_nil _ _)
      | cons a b => simp

theorem tokenizerLoop_eq (s : List Byte) : ∀ (rs : List (Nat × Nat)) (count : Nat) (so : List Byte), count < 2 ^ 32 →
    tokenizerLoop s rs count so = ((count + rs.length) % 2 ^ 32, so ++ (rs.map (textOf s)).flatten) := by
  intro rs
  induction rs with
  | nil => intro count so h; rw [List.length_nil, Nat.add_zero, Nat.mod_eq_of_lt h]; simp [tokenizerLoop]
  | cons r rs ih =>
    intro count so h
    rw [tokenizerLoop, ih _ _ (Nat.mod_lt _ (by decide))]
    simp only [List.length_cons, List.map_cons, List.flatten_cons, List.append_assoc, Prod.mk.injEq, and_true]
    omega

/-- The text all tests work on: copies of the base without the last character. -/
theorem prepared_eq (n : Nat) (base : List Byte) : prepared n base = if n = 0 ∨ base = [] then thrown else ok (List.replicate n base).flatten.dropLast := by
  unfold prepared
  rw [Join.C38_replicate]
  have hl : (List.replicate n base).flatten.length = n * base.length := by simp
  simp only [List.nil_append]
  by_cases h : n = 0 ∨ base = []
  · rw [if_pos h, if_pos (by rw [hl]; simpa using h)]
  · rw [if_neg h, if_neg (by rw [hl]; simpa using h), List.dropLast_eq_take]

/-- C188: the tokenizer prints the number of delimiters plus one (to 32 bits), and has joined the text without its delimiters. -/
theorem C188_tokenizer (delimiters : List Byte) (n : Nat) (base : List Byte) (hn : n ≠ 0) (hb : base ≠ []) (hl : n * base.length ≠ 1) :
    tokenizerTest delimiters n base = ok (((List.replicate n base).flatten.dropLast.countP (· ∈ delimiters) + 1) % 2 ^ 32,
      (List.replicate n base).flatten.dropLast.filter (· ∉ delimiters)) := by
  have hlen : (List.replicate n base).flatten.length = n * base.length := by simp
  have hpos : n * base.length ≠ 0 := by simp [hn, hb]
  have hne : (List.replicate n base).flatten.dropLast ≠ [] := by
    intro h
    have := congrArg List.length h
    rw [List.length_dropLast, hlen, List.length_nil] at this
    omega
  unfold tokenizerTest
  rw [prepared_eq, if_neg (by simp [hn, hb]), ok_bind, charPred_eq]
  generalize (List.replicate n base).flatten.dropLast = s at hne
  obtain ⟨r, h1, h2⟩ := C05_tokenizer_eq_split false (fun c => decide (c ∈ delimiters)) s
  obtain ⟨r', h3, h4⟩ := (C01_split_default (fun c => decide (c ∈ delimiters)) s).2 hne
  have e : r = r' := by
    have := h2.symm.trans h3
    cases this
    rfl
  subst e
  rw [h1, ok_bind, tokenizerLoop_eq _ _ _ _ (by decide), h4, flatten_splitOnP, ← List.length_map (textOf s), h4, Test.splitOnP_length]
  simp only [Nat.zero_add, List.nil_append, decide_not]

/-- C188: a text of one character becomes the empty text, of which there is no token; an empty text is no text. -/
theorem C188_tokenizer_short (delimiters base : List Byte) (n : Nat) :
    (n * base.length = 1 → tokenizerTest delimiters n base = ok (0, [])) ∧ (n * base.length = 0 → tokenizerTest delimiters n base = thrown) := by
  constructor
  · intro h
    have hb : base ≠ [] := by rintro rfl; simp at h
    have hn : n ≠ 0 := by rintro rfl; simp at h
    have hlen : (List.replicate n base).flatten.dropLast = [] := by
      apply List.length_eq_zero_iff.mp
      rw [List.length_dropLast]
      simp [h]
    unfold tokenizerTest
    rw [prepared_eq, if_neg (by simp [hn, hb]), ok_bind, hlen]
    obtain ⟨r, h1, h2⟩ := C05_tokenizer_eq_split false (Test.charPred delimiters) []
    rw [(C01_split_default _ []).1 rfl] at h2
    cases h2
    rw [h1, ok_bind]
    rfl
  · intro h
    unfold tokenizerTest
    rw [prepared_eq, if_pos (by simpa using h)]
    rfl

/-- C188: copies of a base that ends in a delimiter: each copy counts as many tokens as it has delimiters. -/
theorem C188_copies (delimiters : List Byte) (n : Nat) (base : List Byte) (last : Byte) (hn : n ≠ 0) (hb : base ≠ []) (hd : last ∈ delimiters) :
    tokenizerTest delimiters n (base ++ [last]) = ok ((n * ((base ++ [last]).countP (· ∈ delimiters))) % 2 ^ 32,
      (List.replicate n (base.filter (· ∉ delimiters))).flatten) := by
  have hl : n * (base ++ [last]).length ≠ 1 := by
    have := List.length_pos_iff.mpr hb
    have h2 : 2 ≤ (base ++ [last]).length := by simp; omega
    intro h
    have := Nat.eq_one_of_mul_eq_one_left h
    omega
  rw [C188_tokenizer delimiters n _ hn (by simp) hl]
  obtain ⟨k, rfl⟩ := Nat.exists_eq_succ_of_ne_zero hn
  have e : (List.replicate (k + 1) (base ++ [last])).flatten.dropLast = (List.replicate k (base ++ [last])).flatten ++ base := by
    rw [List.replicate_succ', List.flatten_append, List.flatten_singleton, ← List.append_assoc, List.dropLast_concat]
  have hc : ∀ j : Nat, ((List.replicate j (base ++ [last])).flatten).countP (· ∈ delimiters) = j * ((base ++ [last]).countP (· ∈ delimiters)) := by
    intro j
    induction j with
    | zero => simp
    | succ j ih => rw [List.replicate_succ, List.flatten_cons, List.countP_append, ih]; ring
  have hf : ∀ j : Nat, ((List.replicate j (base ++ [last])).flatten).filter (· ∉ delimiters) = (List.replicate j (base.filter (· ∉ delimiters))).flatten := by
    intro j
    induction j with
    | zero => simp
    | succ j ih => rw [List.replicate_succ, List.flatten_cons, List.filter_append, ih, List.replicate_succ, List.flatten_cons]; simp [hd]
  rw [e, List.countP_append, List.filter_append, hc, hf, List.replicate_succ', List.flatten_append, List.flatten_singleton]
  have h1 : (base ++ [last]).countP (· ∈ delimiters) = base.countP (· ∈ delimiters) + 1 := by
    rw [List.countP_append]
    simp [hd]
  rw [h1]
  have h2 : k * (base.countP (· ∈ delimiters) + 1) + base.countP (· ∈ delimiters) + 1 = (k + 1) * (base.countP (· ∈ delimiters) + 1) := by ring
  rw [h2]

theorem insertAll_all : ∀ (ws acc : List (List Byte)), Parse.insertAll (fun w => ok (true, w)) (fun l w => l ++ [w]) acc ws = ok (acc ++ ws) := by
  intro ws
  induction ws with
  | nil => intro acc; simp [Parse.insertAll]
  | cons w ws ih => intro acc; rw [Parse.insertAll, ok_bind]; simp only [if_true]; rw [ih]; simp

/-- C188: the split test has the tokens of the text in which every run of delimiters is one delimiter. -/
theorem C188_split (delimiters : List Byte) (n : Nat) (base : List Byte) (hn : n ≠ 0) (hb : base ≠ []) (hl : n * base.length ≠ 1) :
    splitTest delimiters n base = ok ((collapseRuns (fun c => decide (c ∈ delimiters)) (List.replicate n base).flatten.dropLast).splitOnP fun c => decide (c ∈ delimiters)) := by
  have hlen : (List.replicate n base).flatten.length = n * base.length := by simp
  have hpos : n * base.length ≠ 0 := by simp [hn, hb]
  have hne : (List.replicate n base).flatten.dropLast ≠ [] := by
    intro h
    have := congrArg List.length h
    rw [List.length_dropLast, hlen, List.length_nil] at this
    omega
  unfold splitTest Parse.parseContainer
  rw [prepared_eq, if_neg (by simp [hn, hb]), ok_bind, Parse.C79_delimiter_string]
  obtain ⟨r, h1, h2⟩ := C02_split_compress (fun c => decide (c ∈ delimiters)) _ hne
  simp only [h1, ok_bind, h2, insertAll_all, List.nil_append]

/-! ## Numbers -/

theorem i2sLoop_eq : ∀ (k : Nat) (i : Int) (total : Nat), -2 ^ 31 ≤ i → i + k ≤ 2 ^ 31 → total < 2 ^ 64 →
    i2sLoop k i total = ok ((total + ((List.range k).map fun j : Nat => (intText (i + (j : Int))).length).sum) % 2 ^ 64) := by
  intro k
  induction k with
  | zero => intro i total _ _ h; rw [List.range_zero, List.map_nil, List.sum_nil, Nat.add_zero, Nat.mod_eq_of_lt h]; rfl
  | succ k ih =>
    intro i total h1 h2 _
    rw [i2sLoop, C28_signed_text 32 (by simp) i (by simpa using h1) (by simp; omega), ok_bind, ih (i + 1) _ (by omega) (by omega) (Nat.mod_lt _ (by decide))]
    rw [List.range_succ_eq_map, List.map_cons, List.sum_cons, List.map_map]
    have : ((List.range k).map ((fun j : Nat => (intText (i + (j : Int))).length) ∘ Nat.succ)) = (List.range k).map fun j : Nat => (intText (i + 1 + (j : Int))).length := by
      apply List.map_congr_left
      intro j _
      simp only [Function.comp, Nat.succ_eq_add_one, Nat.cast_add, Nat.cast_one]
      congr 2
      ring
    rw [this]
    simp only [Nat.cast_zero, add_zero]
    congr 1
    omega

/-- C188: the total of the integer to string test is that of the lengths of the numerals of all numbers from `-(m/2)` up to `m/2`, the latter excluded, to 64 bits. -/
theorem C188_lengths (m : Nat) (hm : m < 2 ^ 31) : i2sTest m = ok (((List.range (2 * (m / 2))).map fun j : Nat => (intText ((j : Int) - (m / 2 : Nat))).length).sum % 2 ^ 64) := by
  unfold i2sTest
  have e : (-(m : Int)).tdiv 2 = -((m / 2 : Nat) : Int) := by rw [Int.neg_tdiv]; rfl
  rw [e]
  have e2 : (((m : Int) / 2) - -((m / 2 : Nat) : Int)).toNat = 2 * (m / 2) := by omega
  rw [e2, i2sLoop_eq _ _ _ (by omega) (by omega) (by decide)]
  simp only [Nat.zero_add]
  congr 3
  apply List.map_congr_left
  intro j _
  congr 2
  ring

theorem arith_eq (v : Int) : Fast.IntTy.arith ⟨true, 32⟩ v = if -2 ^ 31 ≤ v ∧ v < 2 ^ 31 then ok v else ub := by
  unfold Fast.IntTy.arith Fast.IntTy.conv
  have hf : fits 32 v ↔ -2 ^ 31 ≤ v ∧ v < 2 ^ 31 := by simp [fits]
  by_cases h : -2 ^ 31 ≤ v ∧ v < 2 ^ 31
  · rw [if_pos h, if_neg (fun g => g.2.2 (hf.mpr h))]
    simp only [if_true]
    rw [Int.bmod_eq_of_le (by omega) (by omega)]
  · rw [if_neg h, if_pos ⟨rfl, by decide, fun g => h (hf.mp g)⟩]

/-- The sums from `total` on. -/
theorem s2iRound_eq (conv : List Byte → Int → Outcome (Bool × Int)) (hconv : ∀ s v n, SNumeral s v → -2 ^ 31 < v → v < 2 ^ 31 → conv s n = ok (true, v)) :
    ∀ (list : List (List Byte)) (vs : List Int), Numerals list vs → ∀ (n total : Int),
    ((∀ k, k ≠ 0 → k ≤ vs.length → -2 ^ 31 ≤ total + (vs.take k).sum ∧ total + (vs.take k).sum < 2 ^ 31) ∧ ∃ n', s2iRound conv list n total = ok (n', total + vs.sum)) ∨
    ((∃ k, k ≠ 0 ∧ k ≤ vs.length ∧ ¬ (-2 ^ 31 ≤ total + (vs.take k).sum ∧ total + (vs.take k).sum < 2 ^ 31)) ∧ s2iRound conv list n total = ub) := by
  intro list vs h
  induction h with
  | nil => intro n total; left; exact ⟨by intro k h1 h2; simp at h2; omega, n, by simp [s2iRound]⟩
  | cons hv _ ih =>
    intro n total
    rw [s2iRound, hconv _ _ n hv.1 hv.2.1 hv.2.2, ok_bind]
    simp only
    rw [arith_eq]
    rename_i v _ vs _
    by_cases hfit : -2 ^ 31 ≤ total + v ∧ total + v < 2 ^ 31
    · rw [if_pos hfit, ok_bind]
      rcases ih v (total + v) with ⟨h1, n', h2⟩ | ⟨⟨k, hk0, hk, h1⟩, h2⟩
      · left
        refine ⟨?_, n', by rw [h2, List.sum_cons, add_assoc]⟩
        intro k hk0 hk
        obtain ⟨k, rfl⟩ := Nat.exists_eq_succ_of_ne_zero hk0
        rw [Nat.succ_eq_add_one, List.take_succ_cons, List.sum_cons, ← add_assoc]
        by_cases h0 : k = 0
        · subst h0; simpa using hfit
        · exact h1 k h0 (by simpa using hk)
      · right
        refine ⟨⟨k + 1, by omega, by simpa using hk, ?_⟩, h2⟩
        rw [List.take_succ_cons, List.sum_cons, ← add_assoc]
        exact h1
    · rw [if_neg hfit]
      right
      exact ⟨⟨1, by omega, by simp, by simpa using hfit⟩, rfl⟩

theorem s2iLoop_eq (conv : List Byte → Int → Outcome (Bool × Int)) (hconv : ∀ s v n, SNumeral s v → -2 ^ 31 < v → v < 2 ^ 31 → conv s n = ok (true, v))
    (list : List (List Byte)) (vs : List Int) (h : Numerals list vs) : ∀ (rounds : Nat) (n total : Int),
    ((∀ k, k ≠ 0 → k ≤ rounds * vs.length → -2 ^ 31 ≤ total + partialSum vs rounds k ∧ total + partialSum vs rounds k < 2 ^ 31) ∧
      s2iLoop conv list rounds n total = ok (total + rounds * vs.sum)) ∨
    ((∃ k, k ≠ 0 ∧ k ≤ rounds * vs.length ∧ ¬ (-2 ^ 31 ≤ total + partialSum vs rounds k ∧ total + partialSum vs rounds k < 2 ^ 31)) ∧ s2iLoop conv list rounds n total = ub) := by
  intro rounds
  induction rounds with
  | zero => intro n total; left; exact ⟨by intro k h1 h2; omega, by simp [s2iLoop]⟩
  | succ rounds ih =>
    intro n total
    have hps : ∀ k, k ≤ vs.length → partialSum vs (rounds + 1) k = (vs.take k).sum := by
      intro k hk
      unfold partialSum
      rw [List.replicate_succ, List.flatten_cons, List.take_append_of_le_length hk]
    have hps' : ∀ k, partialSum vs (rounds + 1) (vs.length + k) = vs.sum + partialSum vs rounds k := by
      intro k
      unfold partialSum
      rw [List.replicate_succ, List.flatten_cons, List.take_length_add_append, List.sum_append]
    have hmul : (rounds + 1) * vs.length = vs.length + rounds * vs.length := by ring
    rw [s2iLoop]
    rcases s2iRound_eq conv hconv list vs h n total with ⟨h1, n', h2⟩ | ⟨⟨k, hk0, hk, h1⟩, h2⟩
    · rw [h2, ok_bind]
      rcases ih n' (total + vs.sum) with ⟨h3, h4⟩ | ⟨⟨k, hk0, hk, h3⟩, h4⟩
      · left
        refine ⟨?_, ?_⟩
        · intro k hk0 hk
          by_cases hkl : k ≤ vs.length
          · rw [hps k hkl]; exact h1 k hk0 hkl
          · obtain ⟨j, rfl⟩ := Nat.exists_eq_add_of_le (show vs.length ≤ k by omega)
            rw [hps', ← add_assoc]
            exact h3 j (by omega) (by omega)
        · simp only [h4]
          congr 1
          push_cast
          ring
      · right
        refine ⟨⟨vs.length + k, by omega, by omega, ?_⟩, h4⟩
        rw [hps', ← add_assoc]
        exact h3
    · right
      rw [h2]
      refine ⟨⟨k, hk0, by omega, ?_⟩, rfl⟩
      rw [hps k hk]
      exact h1

theorem test_conv (s : List Byte) (v n : Int) (hs : SNumeral s v) (h1 : -2 ^ 31 < v) (h2 : v < 2 ^ 31) :
    parseSigned int s n = ok (true, v) ∧ signedNumericConvert ⟨true, 32⟩ s n true = ok (true, v) :=
  ⟨(C29_signed_partial int (Or.inl rfl) s n).1 v hs (by simpa [int] using h1) (by simpa [int] using h2),
    Fast.C31_signed_numeric_convert ⟨true, 32⟩ (by simp [Fast.IntTy.Std]) rfl s n v hs (by simp [Fast.IntTy.maxVal]; omega)⟩

theorem sums (rounds : Nat) (list : List (List Byte)) (vs : List Int) (h : Numerals list vs) :
    (Fits vs rounds → s2iTest rounds list = ok (rounds * vs.sum) ∧ s2iFast rounds list = ok (rounds * vs.sum)) ∧
    (¬ Fits vs rounds → s2iTest rounds list = ub ∧ s2iFast rounds list = ub) := by
  have h1 := s2iLoop_eq (parseSigned int) (fun s v n a b c => (test_conv s v n a b c).1) list vs h rounds 0 0
  have h2 := s2iLoop_eq (fun s n => signedNumericConvert ⟨true, 32⟩ s n true) (fun s v n a b c => (test_conv s v n a b c).2) list vs h rounds 0 0
  simp only [zero_add] at h1 h2
  have hall : (∀ k, k ≠ 0 → k ≤ rounds * vs.length → -2 ^ 31 ≤ partialSum vs rounds k ∧ partialSum vs rounds k < 2 ^ 31) → Fits vs rounds := by
    intro g k
    by_cases h0 : k = 0
    · subst h0; simp [partialSum]
    by_cases hk : k ≤ rounds * vs.length
    · exact g k h0 hk
    · have e : partialSum vs rounds k = partialSum vs rounds (rounds * vs.length) := by
        unfold partialSum
        rw [List.take_of_length_le (by simp; omega), List.take_of_length_le (by simp)]
      rw [e]
      by_cases hz : rounds * vs.length = 0
      · rw [hz]; simp [partialSum]
      · exact g _ hz (Nat.le_refl _)
  constructor
  · intro hf
    refine ⟨?_, ?_⟩
    · rcases h1 with ⟨_, g⟩ | ⟨⟨k, _, _, g⟩, _⟩
      · exact g
      · exact absurd (hf k) g
    · rcases h2 with ⟨_, g⟩ | ⟨⟨k, _, _, g⟩, _⟩
      · exact g
      · exact absurd (hf k) g
  · intro hf
    refine ⟨?_, ?_⟩
    · rcases h1 with ⟨g, _⟩ | ⟨_, g⟩
      · exact absurd (hall g) hf
      · exact g
    · rcases h2 with ⟨g, _⟩ | ⟨_, g⟩
      · exact absurd (hall g) hf
      · exact g

/-- C188: the string to integer tests print the sum of the numbers times the rounds, if no partial sum leaves the range of `int`. -/
theorem C188_sums_partial (rounds : Nat) (list : List (List Byte)) (vs : List Int) (h : Numerals list vs) (hf : Fits vs rounds) :
    s2iTest rounds list = ok (rounds * vs.sum) ∧ s2iFast rounds list = ok (rounds * vs.sum) := (sums rounds list vs h).1 hf

/-- C188 is false otherwise: the addition overflows.  In particular it does if the sum times the rounds is out of range. -/
theorem C188_sum_overflows (rounds : Nat) (list : List (List Byte)) (vs : List Int) (h : Numerals list vs)
    (hf : ¬ Fits vs rounds ∨ (rounds : Int) * vs.sum < -2 ^ 31 ∨ 2 ^ 31 ≤ (rounds : Int) * vs.sum) : s2iTest rounds list = ub ∧ s2iFast rounds list = ub := by
  refine (sums rounds list vs h).2 ?_
  rcases hf with hf | hf
  · exact hf
  · intro g
    have := g (rounds * vs.length)
    unfold partialSum at this
    rw [List.take_of_length_le (by simp), List.sum_flatten, List.map_replicate, List.sum_replicate, nsmul_eq_mul] at this
    omega

/-- The bytes of a text. -/
def text (s : String) : List Byte := s.toList.map fun c => BitVec.ofNat 8 c.toNat

/-- The bytes of a number with base 256, the first byte at the top. -/
def bytesOf (len x : Nat) : List Byte := (List.range len).map fun i => BitVec.ofNat 8 (x / 256 ^ (len - 1 - i))

/-- The first 381 of the 920 texts of `strint_list` (312-351), parted by spaces, in hexadecimal (the kernel takes long for string literals).  The beginning is
`0 1 2 3 4 5 6 7 8 9 917049 4931205 6768064 6884243 5647132`. -/
def shippedText : List Byte :=
  bytesOf 146 0x302031203220332034203520362037203820392039313730343920343933313230352036373638303634203638383432343320353634373133322037333731323033202d38363239383738203439343138343020343534333236382031303735363030202b32393020383233202b31313120373135202d383636202b33363720363636202d37303620383530202d31363120 ++
  bytesOf 147 0x39393232353437203639363032303720313838333135322032333030373539202d32373932393420343138373239322033363939383431202b38333836333935202d31343431313239202d383837383932202d36333534323220393734323537332032333236313836202d35393033383531203536343834383620333035373634372032393830303739203239353734363820 ++
  bytesOf 149 0x37393239313538203139323536313520383739202b31333020323932202b3730352038313720343436203537362037353020353233202d35323720343336353034312035363234393538203839393032303520323635323137372033393933353838202d323938333136202b323930313539392033383837333837202d353230323937392031313936323638203539363835303120 ++
  bytesOf 150 0x3736313939323820333536353634332031383835323732202d37343934383520323936313338312032393832353739203233383734353420343235303038312035393538323035203030303030203030303031203030303032202b3030303033203030303034203030303035203030303036203030303037203030303038202b30303030392034393037303334203235393238383220 ++
  bytesOf 149 0x333236393233342035343938313520363235363239322039373231303339202d353935323235202b353538373439312034353936323937202d3338383530303920363733202d3839392031373420333534203837302031343720383938202d35313020333639202b383539203635313834323320353134393736322038383334313634202d38303835353836203332333331323020 ++
  bytesOf 149 0x3831363639343820343137323334352036373335353439202d3933343239352039343831393335202d3433303430362036393332373137203430383732393220343034373236332033323336343030202d333836333035302034333132303739203639353632363120353638393434362033383731333332202b35333520363931202b333236202d34303920373034202d35363820 ++
  bytesOf 146 0x2b333031203935312031323120333834203439363934313420393337383539392037393731373831203533383036333020353030313336332031373135383237203630343436313520393131383932352039393536313638202d38383635343936203539363234363420373430383938302036363436353133202d3633343536342034313838333330203938303539343820 ++
  bytesOf 144 0x35363235363931202b37363431313133202d343231323932392037383032343437202b30202b31202b32202b33202b34202b35202b36202b37202b38202b39203231373432343820373434393336312039383936363539202d323539363120313730363539382032343132333638202d3436313730333520363331343535342032323235393537203735323134333420 ++
  bytesOf 146 0x2d3935333035363620333931343136342032333934373539203731353737343420393931393339322036343036393439202d37343430303420393839393738392038333830333235202d313431363238342033343032383333203231353030343320353139313030392038393739353338203935363537373820333735303231312037333034383233203238323933353920 ++
  bytesOf 148 0x36353434323336202d36313537343020333633202d36323720313239202b363536203133352031313320333831202b363436203139382033382038303630353634202d3137363735322031313834373137202d363636333433202d31323733323932202d3438353832372036323431303636203635373934313120383039333131392037343831333036202d3439323434383520 ++
  bytesOf 146 0x3734363738383920393831333137382037393237313030202b333631343835392037323933333534203932333239373320343332333131352031313333393131202b393531313633382034343433313838203232383934343820353633393732362039303733383938203835343033393420353338393939322031333937373236202d353839323330203130313730383620 ++
  bytesOf 151 0x31383532333330202d383430203236372032303120353333202d363735203439342033313520373036202d3932302037383420393039373335332036303032323531202d333038373830202d3338333031363920343334303436372032323335323834203333313434343420313038353936372034313532313037202b35343331313137202d30303030202d30303031202d3030303220 ++
  bytesOf 148 0x2d30303033202d30303034202d30303035202d30303036202d30303037202d30303038202d30303039202d34343439393920323133363430302036393235393037203639393036313420333538383237312038343232303238202d343033343737322035383034303339202d363734303534352039333831383733202d3932343932332031363532333637203233303236313620 ++
  bytesOf 147 0x363737363636332032353637383231202d32343839333520323538373638382037303736373432202d363436313436372031353632383936202d373638313136203233333837363820393838373330372039393932313834203230343531383220323739373538392039373834353937203936393635353420353131333332392031303637323136202d373632343737363320 ++
  bytesOf 144 0x3538313639303037203239343038303632203835333432353131203432303932323031202d3935383137373033202d31393132353137202d3236323735313335203534363536363036202d3538313838383738202b34373320373420333734202d363420323636202b37313520393337202d32343920323439203738302033393037333630202d323330363334323320 ++
  bytesOf 150 0x3539303632373534203833373131303437202d3935323231303434203334383934383430202d3338353632313339202d3832303138333330203134323236323233202d31303739393731372038353239373232203838393631393033203235363038363138202d3339393838323437203333323238323431202b3338353938353333203231313631343830202d333337323337383420 ++
  bytesOf 146 0x38383733393438203936353035353537202d3437333835303438202d3739343133323732202d383539303434303420383737393131353820343931393431393520313330353132323220353737373333303220333139303434323320333134323936362032373834363135362037343230303131202d3732333736393232202d363838373339373120323337363533363120 ++
  bytesOf 150 0x34303430373235202d3232333539383036203835373737323139203130303939323233202d3930333634323536202d3430313538313732202d37393438363936202d3634333434383231203334343034323338203834303337343438202d3835303834373838202d3432303738343039202d3536353530333130203936383938333839202d353935383239202d373331363637303320 ++
  bytesOf 40 0x2d30202d31202d32202d33202d34202d35202d36202d37202d38202d392032313437343833363437

/-- The texts. -/
def shipped : List (List Byte) := shippedText.splitOnP (· == 32)

theorem shipped_test : s2iRound (parseSigned int) shipped 0 0 = ub := by decide +kernel

theorem shipped_fast : s2iRound (fun s n => signedNumericConvert ⟨true, 32⟩ s n true) shipped 0 0 = ub := by decide +kernel

/-- C188 is false of the program as it is: `total` overflows in the first round, and so would that of any list that begins with these texts. -/
theorem C188_shipped_overflows (rounds : Nat) (rest : List (List Byte)) : s2iTest (rounds + 1) (shipped ++ rest) = ub ∧ s2iFast (rounds + 1) (shipped ++ rest) = ub := by
  have key : ∀ (conv : List Byte → Int → Outcome (Bool × Int)) (l : List (List Byte)) (n total : Int), s2iRound conv l n total = ub → s2iRound conv (l ++ rest) n total = ub := by
    intro conv l
    induction l with
    | nil => intro n total h; cases h
    | cons s l ih =>
      intro n total h
      rw [s2iRound] at h
      rw [List.cons_append, s2iRound]
      cases hc : conv s n with
      | ok r =>
        rw [hc, ok_bind] at h
        rw [ok_bind]
        cases ha : Fast.IntTy.arith ⟨true, 32⟩ (total + r.2) with
        | ok t =>
          simp only [ha, ok_bind] at h ⊢
          exact ih _ _ h
        | _ => simp only [ha] at h ⊢; exact h
      | _ => rw [hc] at h; exact h
  have h1 := shipped_test
  have h2 := shipped_fast
  generalize shipped = l at h1 h2 ⊢
  unfold s2iTest s2iFast
  rw [s2iLoop, s2iLoop, key _ _ _ _ h1, key _ _ _ _ h2]
  exact ⟨rfl, rfl⟩

/-- C188: a list with the text of the least number cannot be summed with the library's conversion at all: converting it overflows. -/
theorem C188_least (rounds : Nat) (list rest : List (List Byte)) (vs : List Int) (h : Numerals list vs) (s : List Byte) (hs : SNumeral s (-2 ^ 31)) :
    s2iTest (rounds + 1) (list ++ s :: rest) = ub := by
  have key : ∀ (l : List (List Byte)) (vs : List Int), Numerals l vs → ∀ (n total : Int), s2iRound (parseSigned int) (l ++ s :: rest) n total = ub := by
    intro l vs hl
    induction hl with
    | nil =>
      intro n total
      rw [List.nil_append, s2iRound, C29_least_value_overflows int (Or.inl rfl) s n (by simpa [int] using hs)]
      rfl
    | cons hv _ ih =>
      intro n total
      rw [List.cons_append, s2iRound, (test_conv _ _ n hv.1 hv.2.1 hv.2.2).1, ok_bind]
      simp only [arith_eq]
      split
      · rw [ok_bind]; exact ih _ _
      · rfl
  unfold s2iTest
  rw [s2iLoop, key list vs h]
  rfl

/-! ### Concrete cases -/

example : tokenizerTest (text "-+ !") 2 (text "a+bc=def ghij-k!") = ok (8, text "abc=defghijkabc=defghijk") := by decide +kernel

example : tokenizerTest (text "-+ !") 3 (text "a+bc d") = ok (7, text "abcdabcdabc") :=
  (C188_tokenizer (text "-+ !") 3 (text "a+bc d") (by decide) (by decide) (by decide)).trans (by decide +kernel)

example : tokenizerTest (text "-+ !") 2000000 (text "a+bc" ++ [33]) = ok (4000000, (List.replicate 2000000 (text "abc")).flatten) := by
  rw [C188_copies (text "-+ !") 2000000 (text "a+bc") 33 (by decide) (by decide) (by decide)]
  have h1 : (text "a+bc" ++ [33]).countP (· ∈ text "-+ !") = 2 := by decide +kernel
  have h2 : (text "a+bc").filter (· ∉ text "-+ !") = text "abc" := by decide +kernel
  rw [h1, h2, show 2000000 * 2 % 2 ^ 32 = 4000000 from by decide]

example : splitTest (text "+ ") 2 (text "a++b ") = ok [text "a", text "b", text "a", text "b"] :=
  (C188_split (text "+ ") 2 (text "a++b ") (by decide) (by decide) (by decide)).trans (by decide +kernel)

example : splitTest (text "+ ") 2 (text "a++b ") = ok [text "a", text "b", text "a", text "b"] := by decide +kernel

example : i2sTest 20 = ok 31 := by decide +kernel

example : i2sTest 4 = ok 6 := (C188_lengths 4 (by decide)).trans (by decide +kernel)

example : shipped.take 24 = [text "0", text "1", text "2", text "3", text "4", text "5", text "6", text "7", text "8", text "9", text "917049", text "4931205", text "6768064",
    text "6884243", text "5647132", text "7371203", text "-8629878", text "4941840", text "4543268", text "1075600", text "+290", text "823", text "+111", text "715"] ∧
    shipped.length = 381 ∧ shipped.getLast? = some (text "2147483647") := by decide +kernel

example : s2iTest 3 [text "12", text "-5", text "+007"] = ok 42 := by decide +kernel

private theorem sample : Numerals [text "12", text "-5"] [12, -5] := by
  refine .cons ⟨⟨text "12", ⟨by decide, by decide⟩, Or.inl ⟨Or.inl rfl, by decide⟩⟩, by decide, by decide⟩ (.cons ⟨⟨text "5", ⟨by decide, by decide⟩, Or.inr ⟨by decide, by decide⟩⟩,
    by decide, by decide⟩ .nil)

example : s2iTest 1 [text "12", text "-5"] = ok 7 := by
  refine (C188_sums_partial 1 _ _ sample ?_).1.trans (by decide)
  intro k
  match k with
  | 0 => decide
  | 1 => decide
  | k + 2 => simp [partialSum]

example : s2iTest 400000000 [text "12", text "-5"] = ub := (C188_sum_overflows 400000000 _ _ sample (Or.inr (Or.inr (by decide)))).1

example : s2iTest 1 ([text "12", text "-5"] ++ text "-2147483648" :: []) = ub :=
  C188_least 0 _ [] _ sample _ ⟨text "2147483648", ⟨by decide, by decide⟩, Or.inr ⟨by decide, by decide +kernel⟩⟩

end Strtk.Programs.Cmp
