import Verif.Split.Objects
import Verif.Split.Props
import Verif.Parse.Props
import Verif.Join.Props
import Verif.Fast.Props
import Verif.Guards.Props
import Verif.Lines.Props
import Verif.Real.Float
import Mathlib.Tactic.Ring
import Mathlib.Tactic.Choose

/-!
# strtk_tokenizer_test.cpp

The test functions with their texts and counts as arguments.  Messages are not modelled beyond their number.
-/

namespace Strtk.Programs.Test
open Outcome Strtk.Split Strtk.Number
open Strtk.Fast (numericConvert signedNumericConvert)

/-! ## Model -/

/-- A token in a result text: "<>" if it is empty (67-70, 97-100). -/
def shown (s : List Byte) (r : Nat × Nat) : List Byte := if r.1 = r.2 then [60, 62] else textOf s r

/-- The loop of `test_tokenizer_split` (65-75) from token `i` on; `n` is `tok_list.size()`. -/
def splitLoop (s : List Byte) (n : Nat) : Nat → List (Nat × Nat) → List Byte → List Byte
  | _, [], result => result
  | i, r :: rs, result =>
    let result := result ++ shown s r
    splitLoop s n (i + 1) rs (if i ≠ n - 1 then result ++ [44] else result)

/-- `test_tokenizer_split` (53-83). -/
def testTokenizerSplit (d : Byte → Bool) (s expected : List Byte) (compressed : Bool) : Outcome Bool := do
  let (toks, _) ← split { compress := compressed } d s
  ok (decide (splitLoop s toks.length 0 toks [] = expected))

/-- The loop of `test_tokenizer_itr` (95-104). -/
def itrLoop (opt : Opt) (d : Byte → Bool) (s : List Byte) (e : Tok) : Nat → Tok → List Byte → Outcome (List Byte)
  | 0, _, _ => diverge
  | fuel + 1, t, result =>
    if t.range ≠ e.range then do
      let result := result ++ shown s t.current
      let t ← Tok.next opt d s t
      itrLoop opt d s e fuel t (if t.range ≠ e.range then result ++ [44] else result)
    else ok result

/-- `test_tokenizer_itr` (86-113). -/
def testTokenizerItr (d : Byte → Bool) (s expected : List Byte) (compressed : Bool) : Outcome Bool := do
  let opt : Opt := { compress := compressed }
  let b ← Tok.make opt d s 0
  let e ← Tok.make opt d s s.length
  let result ← itrLoop opt d s e (s.length + 2) b []
  ok (decide (result = expected))

/-- The loop of `test_split_n` (557-564) with `k` rounds to go, from `i` on. -/
def splitNTest (d : Byte → Bool) (data2 : List Byte) : Nat → Nat → Outcome Bool
  | 0, _ => ok true
  | k + 1, i => do
    let (_, n) ← splitN {} d data2 i
    if i ≠ n then ok false else splitNTest d data2 k (i + 1)

/-- `multiple_char_delimiter_predicate` made from the delimiters (554); an evaluation never goes wrong (C79). -/
def charPred (delimiters : List Byte) (c : Byte) : Bool :=
  match Parse.multipleCharPred delimiters c with
  | ok b => b
  | _ => false

/-- `test_split_n` (548-568) for any delimiters and data. -/
def testSplitN (delimiters data1 : List Byte) : Outcome Bool :=
  splitNTest (charPred delimiters) (Join.join (fun c => [c]) delimiters [] data1) data1.length 0

/-- `test_empty_filter_itr` (570-585) for any text: the number returned by `for_each_token` and the tokens collected. -/
def emptyFilter (d : Byte → Bool) (s : List Byte) : Outcome (Nat × List (List Byte)) := do
  let toks ← tokenizerTokens { compress := true } d s
  ok (Lines.forEachToken (fun out r => out ++ Guards.filterNonEmpty (textOf s r)) toks [] 0)

/-- The first loop of `test_fast_convert` (651-667), `k` rounds from `i` on: the number of messages "Failed Fast convert 1" and the answer. -/
def fastSigned : Nat → Int → Int → Nat → Outcome (Nat × Bool)
  | 0, _, _, bad => ok (bad, true)
  | k + 1, i, v, bad => do
    let s ← signedToString 32 i
    let (good, v) ← signedNumericConvert ⟨true, 32⟩ s v true
    let bad := if good then bad else bad + 1
    if i ≠ v then ok (bad, false) else fastSigned k (i + 1) v bad

/-- The second loop (671-687). -/
def fastUnsigned : Nat → Nat → Int → Nat → Outcome (Nat × Bool)
  | 0, _, _, bad => ok (bad, true)
  | k + 1, i, v, bad => do
    let s ← unsignedToString i
    let (good, v) ← numericConvert ⟨false, 32⟩ s.length s v true
    let bad := if good then bad else bad + 1
    if (i : Int) ≠ v then ok (bad, false) else fastUnsigned k (i + 1) v bad

/-- The third loop (710-723): texts and the numbers expected. -/
def fastTable : List (List Byte × Nat) → Outcome Bool
  | [] => ok true
  | (s, v) :: rest => do
    let (_, t) ← numericConvert ⟨false, 64⟩ s.length s 0 false
    if t ≠ (v : Int) then ok false else fastTable rest

/-- The members of `data_block` (587-598) and of that in strtk_parse_test.cpp 75-89, which has a `long` and an `unsigned long` too. -/
inductive Field where
  | str (s : List Byte) | chr (c : Byte) | int (v : Int) | uint (v : Nat) | dbl (v : Real.Val) | flt (v : Real.Val)
  | short (v : Int) | ushort (v : Nat) | bool (b : Bool) | long (v : Int) | ulong (v : Nat)
  deriving DecidableEq

/-- `type_to_string` of a member. -/
def Field.text : Field → Outcome (List Byte)
  | .str s => ok s
  | .chr c => ok (byteToString c)
  | .int v => signedToString 32 v
  | .uint v => unsignedToString v
  | .dbl v => Real.realToString v
  | .flt v => Real.realToString v
  | .short v => signedToString 16 v
  | .ushort v => unsignedToString v
  | .bool b => ok (boolToString b)
  | .long v => signedToString 64 v
  | .ulong v => unsignedToString v

/-- `string_to_type_converter` of a member. -/
def Field.conv (s : List Byte) : Field → Outcome (Bool × Field)
  | .str _ => ok (true, .str s)
  | .chr c => do let (g, c) ← parseByte s c; ok (g, .chr c)
  | .int v => do let (g, v) ← parseSigned Number.int s v; ok (g, .int v)
  | .uint v => do let (g, v) ← parseUnsigned Number.uint s v; ok (g, .uint v)
  | .dbl v => do let r ← Real.realParse Real.ieee Real.doubleMin s; ok (r.isSome, .dbl (r.getD v))
  | .flt v => do let r ← Real.floatParse s; ok (r.isSome, .flt (r.getD v))
  | .short v => do let (g, v) ← parseSigned Number.short s v; ok (g, .short v)
  | .ushort v => do let (g, v) ← parseUnsigned Number.ushort s v; ok (g, .ushort v)
  | .bool b => do let (g, b) ← parseBool s b; ok (g, .bool b)
  | .long v => do let (g, v) ← parseSigned Number.long s v; ok (g, .long v)
  | .ulong v => do let (g, v) ← parseUnsigned Number.ulong s v; ok (g, .ulong v)

/-- A cleared member (604-613); which value it is given does not matter. -/
def Field.cleared : Field → Field
  | .str _ => .str []
  | .chr _ => .chr 0
  | .int _ => .int 0
  | .uint _ => .uint 0
  | .dbl _ => .dbl (.num 0)
  | .flt _ => .flt (.num 0)
  | .short _ => .short 7
  | .ushort _ => .ushort 0
  | .bool _ => .bool false
  | .long _ => .long 0
  | .ulong _ => .ulong 0

/-- Comparison of members (616-628); `eq64` and `eq32` stand for `!not_equal(...)` (43-51). -/
def Field.same (eq64 eq32 : Real.Val → Real.Val → Bool) : Field → Field → Bool
  | .dbl a, .dbl b => eq64 a b
  | .flt a, .flt b => eq32 a b
  | a, b => decide (a = b)

/-- `construct(output,"|",...)` of all members (1341). -/
def texts : List Field → Outcome (List (List Byte))
  | [] => ok []
  | f :: fs => do
    let w ← f.text
    let ws ← texts fs
    ok (w :: ws)

/-- One step of `test_construct_and_parse` (1346-1353 and so on): the first `k` members are cleared and parsed, then all are compared. -/
def stage (eq64 eq32 : Real.Val → Real.Val → Bool) (i : List Field) (output : List Byte) (k : Nat) (o : List Field) :
    Outcome (Bool × List Field) := do
  let cleared := (o.take k).map Field.cleared ++ o.drop k
  let (result, vs) ← Parse.parse [124] ((cleared.take k).map fun _ => fun s t => t.conv s) (cleared.take k) output
  let o := vs ++ cleared.drop k
  ok (result && (List.zipWith (Field.same eq64 eq32) o i).all id, o)

/-- The steps (1346-1435), `r` of them to go, from `k` targets on. -/
def stages (eq64 eq32 : Real.Val → Real.Val → Bool) (i : List Field) (output : List Byte) : Nat → Nat → List Field → Outcome Bool
  | 0, _, _ => ok true
  | r + 1, k, o => do
    let (good, o) ← stage eq64 eq32 i output k o
    if good then stages eq64 eq32 i output r (k + 1) o else ok false

/-- `test_construct_and_parse` (1327-1438) for any members. -/
def testConstructAndParse (eq64 eq32 : Real.Val → Real.Val → Bool) (i : List Field) : Outcome Bool := do
  let ws ← texts i
  stages eq64 eq32 i (Parse.construct [] [124] ws) i.length 1 i

/-! ## Specification -/

/-- The pieces of a text between delimiters, or between runs of delimiters; an empty text has none. -/
def pieces (compressed : Bool) (d : Byte → Bool) (s : List Byte) : List (List Byte) :=
  if s = [] then [] else (if compressed then collapseRuns d s else s).splitOnP d

/-- The notation of the test tables: pieces separated by commas, "<>" for an empty one. -/
def notation' (ps : List (List Byte)) : List Byte := List.intercalate [44] (ps.map fun p => if p = [] then [60, 62] else p)

/-- A member that can be written between bars and is not altered by that. -/
def Field.Plain (eq64 eq32 : Real.Val → Real.Val → Bool) : Field → Prop
  | .str s => s ≠ [] ∧ 124 ∉ s
  | .chr c => c ≠ 124
  | .int v => -2 ^ 31 < v ∧ v < 2 ^ 31
  | .uint v => v < 2 ^ 32
  | .dbl v => ∃ r, Real.roundTrip Real.ieee Real.doubleMin v = ok (some r) ∧ eq64 r v = true ∧ eq64 v v = true
  | .flt v => ∃ r, Real.floatTrip v = ok (some r) ∧ eq32 r v = true ∧ eq32 v v = true
  | .short v => -2 ^ 15 ≤ v ∧ v < 2 ^ 15
  | .ushort v => v < 2 ^ 16
  | .bool _ => True
  | .long v => -2 ^ 31 ≤ v ∧ v < 2 ^ 31
  | .ulong v => v < 2 ^ 32

/-! ## Proofs -/

theorem splitLoop_spec (s : List Byte) (n : Nat) : ∀ (rs : List (Nat × Nat)) (i : Nat) (result : List Byte), i + rs.length = n →
    splitLoop s n i rs result = result ++ List.intercalate [44] (rs.map (shown s)) := by
  intro rs
  induction rs with
  | nil => intro i result _; simp [splitLoop]
  | cons r rs ih =>
    intro i result hi
    rw [List.length_cons] at hi
    rw [splitLoop, ih _ _ (by omega)]
    cases rs with
    | nil => rw [if_neg (by simp at hi; omega)]; simp
    | cons r' rs =>
      rw [if_pos (by simp at hi; omega)]
      simp [List.intercalate]

theorem itrLoop_spec (opt : Opt) (d : Byte → Bool) (s : List Byte) (e : Tok) : ∀ (fuel : Nat) (t : Tok) (out r : List (Nat × Nat)) (result : List Byte),
    Tok.walk opt d s e fuel t out = ok (out ++ r) → itrLoop opt d s e fuel t result = ok (result ++ List.intercalate [44] (r.map (shown s))) := by
  intro fuel
  induction fuel with
  | zero => intro t out r result h; simp [Tok.walk] at h
  | succ fuel ih =>
    intro t out r result h
    unfold Tok.walk at h
    unfold itrLoop
    by_cases hne : t.range ≠ e.range
    · rw [if_pos hne] at h ⊢
      obtain ⟨nx, hn, h2⟩ := bind_eq_ok.mp h
      rw [hn]
      obtain ⟨r', hr'⟩ := Tok.walk_prefix opt d s e _ _ _ _ h2
      have hr : r = t.current :: r' := by
        rw [List.append_assoc] at hr'
        simpa using (List.append_cancel_left hr').symm
      subst hr
      rw [ok_bind, ih nx (out ++ [t.current]) r' _ (by rw [h2]; simp)]
      cases fuel with
      | zero => simp [Tok.walk] at h2
      | succ fuel =>
        unfold Tok.walk at h2
        by_cases hx : nx.range ≠ e.range
        · rw [if_pos hx] at h2 ⊢
          obtain ⟨ny, hy, h3⟩ := bind_eq_ok.mp h2
          obtain ⟨r2, hr2⟩ := Tok.walk_prefix opt d s e _ _ _ _ h3
          have : r' = nx.current :: r2 := by
            have h4 : out ++ [t.current] ++ ([nx.current] ++ r2) = out ++ [t.current] ++ r' := by rw [← List.append_assoc, hr2]; simp
            simpa using (List.append_cancel_left h4).symm
          subst this
          simp [List.intercalate]
        · rw [if_neg hx] at h2 ⊢
          have h3 := Outcome.ok.inj h2
          have : r' = [] := (List.cons.inj (List.append_cancel_left h3)).2.symm
          subst this
          simp
    · rw [if_neg hne] at h ⊢
      have h3 := Outcome.ok.inj h
      have : r = [] := by simpa using h3
      subst this
      simp

theorem split_pieces (compressed : Bool) (d : Byte → Bool) (s : List Byte) :
    ∃ r, split { compress := compressed } d s = ok (r, r.length) ∧ r.map (textOf s) = pieces compressed d s := by
  unfold pieces
  by_cases hs : s = []
  · subst hs; exact ⟨[], by cases compressed <;> rfl, rfl⟩
  · rw [if_neg hs]
    cases compressed
    · exact (C01_split_default d s).2 hs
    · exact C02_split_compress d s hs

theorem shown_pieces (compressed : Bool) (d : Byte → Bool) (s : List Byte) (r : List (Nat × Nat))
    (h : split { compress := compressed } d s = ok (r, r.length)) : List.intercalate [44] (r.map (shown s)) = notation' (pieces compressed d s) := by
  obtain ⟨r1, h1, h2⟩ := split_pieces compressed d s
  obtain ⟨r2, h3, h4, -⟩ := C03_split_in_bounds { compress := compressed } d s
  rw [h] at h1 h3
  have e1 : r = r1 := congrArg Prod.fst (Outcome.ok.inj h1)
  have e2 : r = r2 := congrArg Prod.fst (Outcome.ok.inj h3)
  subst e1 e2
  unfold notation'
  rw [← h2, List.map_map]
  congr 1
  apply List.map_congr_left
  intro p hp
  have hb := h4 p hp
  unfold shown
  simp only [Function.comp_apply]
  have : p.1 = p.2 ↔ textOf s p = [] := by
    rw [← List.length_eq_zero_iff]
    unfold textOf
    rw [List.length_take, List.length_drop]
    omega
  by_cases hq : p.1 = p.2
  · rw [if_pos hq, if_pos (this.mp hq)]
  · rw [if_neg hq, if_neg (fun h => hq (this.mpr h))]

/-- **C155**: the two helpers of the test accept an expected result exactly when it is the notation of the pieces of the text, so they always agree. -/
theorem C155_helpers (d : Byte → Bool) (s expected : List Byte) (compressed : Bool) :
    testTokenizerSplit d s expected compressed = ok (decide (notation' (pieces compressed d s) = expected)) ∧
    testTokenizerItr d s expected compressed = ok (decide (notation' (pieces compressed d s) = expected)) := by
  obtain ⟨r, h1, h2⟩ := C05_tokenizer_eq_split compressed d s
  constructor
  · unfold testTokenizerSplit
    rw [h2, ok_bind]
    simp only
    rw [splitLoop_spec s _ r 0 [] (by simp), List.nil_append, shown_pieces compressed d s r h2]
  · unfold testTokenizerItr
    unfold tokenizerTokens at h1
    obtain ⟨b, hb, h3⟩ := bind_eq_ok.mp h1
    obtain ⟨e, he, h4⟩ := bind_eq_ok.mp h3
    simp only [hb, he, ok_bind]
    rw [itrLoop_spec _ d s e _ b [] r [] (by simpa using h4), ok_bind, List.nil_append, shown_pieces compressed d s r h2]

theorem splitOnP_length (d : Byte → Bool) : ∀ s : List Byte, (s.splitOnP d).length = s.countP d + 1 := by
  intro s
  induction s with
  | nil => simp
  | cons c s ih =>
    rw [List.splitOnP_cons]
    by_cases h : d c = true
    · rw [if_pos h, List.length_cons, ih, List.countP_cons_of_pos h]
    · rw [if_neg h, List.countP_cons_of_neg h, ← ih]
      cases hs : s.splitOnP d with
      | nil => exact absurd hs (List.splitOnP_ne_nil _ _)
      | cons a b => simp

theorem splitNTest_spec (d : Byte → Bool) (data2 : List Byte) (m : Nat) (hm : m ≤ (pieces false d data2).length) : ∀ (k i : Nat), i + k ≤ m →
    splitNTest d data2 k i = ok true := by
  intro k
  induction k with
  | zero => intros; rfl
  | succ k ih =>
    intro i hi
    obtain ⟨r, h1, h2⟩ := C06_split_n_prefix false d data2 i
    obtain ⟨r', h3, h4⟩ := split_pieces false d data2
    rw [h1] at h3
    have e : r = r' := congrArg Prod.fst (Outcome.ok.inj h3)
    subst e
    have hl : r.length = (pieces false d data2).length := by rw [← h4, List.length_map]
    rw [splitNTest, h2, ok_bind]
    simp only
    rw [if_neg (by omega), ih _ (by omega)]

/-- **C155**: `test_split_n` passes for all delimiters and all data, even if the data contain delimiters. -/
theorem C155_split_n (delimiters data1 : List Byte) (hd : delimiters ≠ []) : testSplitN delimiters data1 = ok true := by
  unfold testSplitN
  refine splitNTest_spec _ _ data1.length ?_ _ _ (by omega)
  rw [Join.C35_join, List.nil_append]
  have hp : ∀ c ∈ delimiters, charPred delimiters c = true := by
    intro c hc
    unfold charPred
    rw [Parse.C79_multiple_char_predicate]
    simpa using hc
  generalize charPred delimiters = d at hp ⊢
  cases data1 with
  | nil => simp
  | cons a l =>
    unfold pieces
    have hne : List.intercalate delimiters ((a :: l).map fun c => [c]) ≠ [] := by
      cases l <;> simp [List.intercalate]
    rw [if_neg hne]
    simp only [Bool.false_eq_true, if_false]
    rw [splitOnP_length, List.length_cons]
    have hpos : 1 ≤ delimiters.countP d := by
      obtain ⟨c, t, rfl⟩ := List.exists_cons_of_ne_nil hd
      rw [List.countP_cons_of_pos (hp c (by simp))]
      omega
    have : ∀ (l : List Byte) a, l.length ≤ (List.intercalate delimiters ((a :: l).map fun c => [c])).countP d := by
      intro l
      induction l with
      | nil => intro a; simp
      | cons b l ih =>
        intro a
        have e : List.intercalate delimiters ((a :: b :: l).map fun c => [c]) = a :: (delimiters ++ List.intercalate delimiters ((b :: l).map fun c => [c])) := by
          simp [List.intercalate]
        rw [e, List.countP_cons, List.countP_append, List.length_cons]
        have := ih b
        omega
    have := this l a
    omega

/-- **C155**: counting the tokens through the filter of empty ones gives the number of pieces, and collects those that are not empty. -/
theorem C155_empty_filter (d : Byte → Bool) (s : List Byte) :
    emptyFilter d s = ok ((pieces true d s).length, (pieces true d s).filter (fun p => decide (p ≠ []))) := by
  obtain ⟨r, h1, h2⟩ := C05_tokenizer_eq_split true d s
  obtain ⟨r', h3, h4⟩ := split_pieces true d s
  rw [h2] at h3
  have e : r = r' := congrArg Prod.fst (Outcome.ok.inj h3)
  subst e
  unfold emptyFilter
  rw [h1, ok_bind, Lines.C68_tokens, ← h4, List.length_map]
  congr 2
  have : ∀ (r : List (Nat × Nat)) (acc : List (List Byte)), r.foldl (fun out r => out ++ Guards.filterNonEmpty (textOf s r)) acc =
      acc ++ (r.map (textOf s)).filter (fun p => decide (p ≠ [])) := by
    intro r
    induction r with
    | nil => intro acc; simp
    | cons p r ih =>
      intro acc
      rw [List.foldl_cons, ih, Guards.C74_non_empty, List.map_cons, List.filter_cons]
      by_cases h : textOf s p = [] <;> simp [h]
  exact (this r []).trans (List.nil_append _)

/-- **C155**: the loops of `test_fast_convert` over any range of `int`, the least one excepted, and over any range of `unsigned int` pass without a message; and so
do the texts of up to twenty digits with their values. -/
theorem C155_fast :
    (∀ (k : Nat) (i v : Int) (bad : Nat), -2 ^ 31 < i → i + k ≤ 2 ^ 31 → fastSigned k i v bad = ok (bad, true)) ∧
    (∀ (k i : Nat) (v : Int) (bad : Nat), i + k ≤ 2 ^ 32 → fastUnsigned k i v bad = ok (bad, true)) ∧
    (∀ table : List (List Byte × Nat), (∀ e ∈ table, e.1.length ≤ 20 ∧ (∀ c ∈ e.1, isDigit c) ∧ decVal e.1 = e.2 ∧ e.2 < 2 ^ 64) → fastTable table = ok true) := by
  refine ⟨?_, ?_, ?_⟩
  · intro k
    induction k with
    | zero => intros; rfl
    | succ k ih =>
      intro i v bad h1 h2
      rw [fastSigned, C28_signed_text 32 (by omega) i (by omega) (by push_cast at h2; omega), ok_bind,
        Fast.C31_signed_numeric_convert ⟨true, 32⟩ (by simp [Fast.IntTy.Std]) rfl _ v i (intText_numeral i)
          (by simp only [Fast.IntTy.maxVal, if_true]; push_cast at h2; omega), ok_bind]
      simp only [if_true, ne_eq, not_true_eq_false, if_false]
      exact ih _ _ _ (by omega) (by push_cast at h2 ⊢; omega)
  · intro k
    induction k with
    | zero => intros; rfl
    | succ k ih =>
      intro i v bad h
      have hd := C28_canonical i
      have hl : (decText i).length ≤ 19 := decText_length_le 19 i (by omega) (by omega)
      rw [fastUnsigned, C28_unsigned_text i (by omega), ok_bind,
        Fast.C31_numeric_convert ⟨false, 32⟩ (by simp [Fast.IntTy.Std]) _ v hl hd.1.2
          (by rw [hd.2.1]; simp only [Fast.IntTy.maxVal, Bool.false_eq_true, if_false]; omega), ok_bind]
      simp only [if_true, ne_eq, hd.2.1, not_true_eq_false, if_false]
      exact ih _ _ _ (by omega)
  · intro table
    induction table with
    | nil => intros; rfl
    | cons e table ih =>
      intro h
      obtain ⟨h1, h2, h3, h4⟩ := h e (by simp)
      obtain ⟨s, v⟩ := e
      simp only at h1 h2 h3 h4
      rw [fastTable, Fast.C31_unchecked ⟨false, 64⟩ (by simp [Fast.IntTy.Std]) s 0 h1 h2
        (by rw [h3]; simp only [Fast.IntTy.maxVal, Bool.false_eq_true, if_false]; omega), ok_bind]
      simp only [h3, ne_eq, not_true_eq_false, if_false]
      exact ih (fun e he => h e (by simp [he]))

/-- **C155** (negative result): the loop must not begin at the least `int`, whose conversion overflows. -/
theorem C155_fast_least (k : Nat) (v : Int) (bad : Nat) : fastSigned (k + 1) (-2 ^ 31) v bad = ub := by
  have h : ∀ v, (do let s ← signedToString 32 (-2 ^ 31); signedNumericConvert ⟨true, 32⟩ s v true) = ub := by
    intro v
    have h1 : signedToString 32 (-2 ^ 31) = ok [45, 50, 49, 52, 55, 52, 56, 51, 54, 52, 56] := by decide +kernel
    rw [h1, ok_bind]
    rfl
  rw [fastSigned]
  have h1 : signedToString 32 (-2 ^ 31) = ok [45, 50, 49, 52, 55, 52, 56, 51, 54, 52, 56] := by decide +kernel
  have h2 := h v
  rw [h1, ok_bind] at h2 ⊢
  rw [h2]
  rfl

/-! ### Construct and parse -/

theorem digits_no_bar {ds : List Byte} (h : Digits ds) : 124 ∉ ds := by
  intro hm
  have := h.2 _ hm
  revert this
  decide

theorem intText_no_bar (v : Int) : intText v ≠ [] ∧ 124 ∉ intText v := by
  have h := (C28_canonical v.natAbs).1
  unfold intText
  by_cases hv : v < 0
  · rw [if_pos hv]
    refine ⟨by simp, ?_⟩
    rw [List.mem_cons]
    rintro (h1 | h1)
    · revert h1; decide
    · exact digits_no_bar h h1
  · rw [if_neg hv]
    exact ⟨h.1, digits_no_bar h⟩

theorem streamText_no_bar (P : Nat) (v : Real.Val) : Real.streamText P v ≠ [] ∧ 124 ∉ Real.streamText P v := by
  have hdec : ∀ n, decText n ≠ [] ∧ 124 ∉ decText n := fun n => ⟨(C28_canonical n).1.1, digits_no_bar (C28_canonical n).1⟩
  have hfrac : ∀ d n, 124 ∉ Real.fracText d n := by
    intro d n
    unfold Real.fracText
    have hs : 124 ∉ Real.stripZeros (Real.padText d n) := by
      intro hm
      obtain ⟨k, hk⟩ := Real.stripZeros_spec (Real.padText d n)
      have : 124 ∈ Real.padText d n := by rw [hk]; exact List.mem_append_left _ hm
      have := (Real.padText_spec d n).1 _ this
      revert this
      decide
    split
    · simp
    · rw [List.mem_cons]
      rintro (h | h)
      · revert h; decide
      · exact hs h
  have hexp : ∀ e, 124 ∉ Real.expText e := by
    intro e
    unfold Real.expText
    simp only [List.mem_cons, List.mem_append, List.not_mem_nil, or_false]
    rintro (h | h | h)
    · revert h; decide
    · split at h <;> (revert h; decide)
    · split at h
      · rw [List.mem_cons] at h
        rcases h with h | h
        · revert h; decide
        · exact (hdec _).2 h
      · exact (hdec _).2 h
  have hpos : ∀ q, Real.posText P q ≠ [] ∧ 124 ∉ Real.posText P q := by
    intro q
    unfold Real.posText
    generalize Real.sigDigits P q = ke
    obtain ⟨k, e⟩ := ke
    simp only
    split
    · exact ⟨by simp [(hdec _).1], by rw [List.mem_append, not_or]; exact ⟨(hdec _).2, hfrac _ _⟩⟩
    · exact ⟨by simp [(hdec _).1], by rw [List.mem_append, List.mem_append, not_or, not_or]; exact ⟨(hdec _).2, hfrac _ _, hexp _⟩⟩
  unfold Real.streamText
  split
  · split
    · decide
    · split
      · refine ⟨by simp, ?_⟩
        rw [List.mem_cons]
        rintro (h | h)
        · revert h; decide
        · exact (hpos _).2 h
      · exact hpos _
  · rename_i neg; cases neg <;> decide
  · decide

/-- What happens to a plain member. -/
theorem plain_spec (eq64 eq32 : Real.Val → Real.Val → Bool) (f : Field) (h : f.Plain eq64 eq32) :
    ∃ w g, f.text = ok w ∧ (w ≠ [] ∧ ∀ c ∈ w, c ∉ ([124] : List Byte)) ∧ (∀ t : Field, t.cleared = f.cleared → t.conv w = ok (true, g)) ∧
      g.same eq64 eq32 f = true ∧ f.same eq64 eq32 f = true ∧ g.cleared = f.cleared := by
  have hbar : ∀ w : List Byte, w ≠ [] ∧ 124 ∉ w → (w ≠ [] ∧ ∀ c ∈ w, c ∉ ([124] : List Byte)) := by
    intro w hw
    refine ⟨hw.1, fun c hc h => hw.2 ?_⟩
    rw [List.mem_singleton] at h
    exact h ▸ hc
  have hdec : ∀ n : Nat, decText n ≠ [] ∧ 124 ∉ decText n := fun n => ⟨(C28_canonical n).1.1, digits_no_bar (C28_canonical n).1⟩
  cases f with
  | str s =>
    refine ⟨s, .str s, rfl, hbar s h, fun t ht => ?_, by simp [Field.same], by simp [Field.same], rfl⟩
    cases t <;> simp [Field.cleared] at ht
    rfl
  | chr c =>
    refine ⟨[c], .chr c, rfl, hbar _ ⟨by simp, ?_⟩, fun t ht => ?_, by simp [Field.same], by simp [Field.same], rfl⟩
    · rw [List.mem_singleton]; exact fun e => h e.symm
    · cases t <;> simp [Field.cleared] at ht
      rename_i c0
      simp only [Field.conv]
      rw [show parseByte [c] c0 = ok (true, c) from (C28_bool_byte_round_trip false false c c0).2]; rfl
  | int v =>
    have ht := C28_signed_text 32 (by omega) v (by have := h.1; omega) (by have := h.2; omega)
    refine ⟨intText v, .int v, ht, hbar _ (intText_no_bar v), fun t hk => ?_, by simp [Field.same], by simp [Field.same], rfl⟩
    cases t <;> simp [Field.cleared] at hk
    rename_i v0
    have := C28_signed_round_trip_partial Number.int (Or.inl rfl) v v0 h.1 h.2
    rw [show Number.int.bits = 32 from rfl, ht, ok_bind] at this
    simp only [Field.conv]
    rw [this]; rfl
  | uint v =>
    have hv : v < 2 ^ 32 := h
    have ht := C28_unsigned_text v (by omega)
    refine ⟨decText v, .uint v, ht, hbar _ (hdec v), fun t hk => ?_, by simp [Field.same], by simp [Field.same], rfl⟩
    cases t <;> simp [Field.cleared] at hk
    rename_i v0
    have := C28_unsigned_round_trip Number.uint (Or.inr (Or.inl rfl)) v v0 hv
    rw [ht, ok_bind] at this
    simp only [Field.conv]
    rw [this]; rfl
  | dbl v =>
    obtain ⟨r, h1, h2, h3⟩ := h
    refine ⟨_, .dbl r, rfl, hbar _ (streamText_no_bar _ v), fun t hk => ?_, h2, h3, rfl⟩
    cases t <;> simp [Field.cleared] at hk
    unfold Real.roundTrip Real.realToString at h1
    rw [ok_bind] at h1
    simp only [Field.conv]
    rw [h1]; rfl
  | flt v =>
    obtain ⟨r, h1, h2, h3⟩ := h
    refine ⟨_, .flt r, rfl, hbar _ (streamText_no_bar _ v), fun t hk => ?_, h2, h3, rfl⟩
    cases t <;> simp [Field.cleared] at hk
    unfold Real.floatTrip Real.realToString at h1
    rw [ok_bind] at h1
    simp only [Field.conv]
    rw [h1]; rfl
  | short v =>
    have ht := C28_signed_text 16 (by omega) v h.1 h.2
    refine ⟨intText v, .short v, ht, hbar _ (intText_no_bar v), fun t hk => ?_, by simp [Field.same], by simp [Field.same], rfl⟩
    cases t <;> simp [Field.cleared] at hk
    rename_i v0
    have := C28_short_round_trip v v0 h.1 h.2
    rw [ht, ok_bind] at this
    simp only [Field.conv]
    rw [this]; rfl
  | ushort v =>
    have hv : v < 2 ^ 16 := h
    have ht := C28_unsigned_text v (by omega)
    refine ⟨decText v, .ushort v, ht, hbar _ (hdec v), fun t hk => ?_, by simp [Field.same], by simp [Field.same], rfl⟩
    cases t <;> simp [Field.cleared] at hk
    rename_i v0
    have := C28_unsigned_round_trip Number.ushort (Or.inl rfl) v v0 hv
    rw [ht, ok_bind] at this
    simp only [Field.conv]
    rw [this]; rfl
  | bool b =>
    refine ⟨boolToString b, .bool b, rfl, hbar _ (by cases b <;> decide), fun t hk => ?_, by simp [Field.same], by simp [Field.same], rfl⟩
    cases t <;> simp [Field.cleared] at hk
    rename_i b0
    simp only [Field.conv]
    rw [(C28_bool_byte_round_trip b b0 0 0).1]; rfl
  | long v =>
    have hv : -2 ^ 31 ≤ v ∧ v < 2 ^ 31 := h
    have ht := C28_signed_text 64 (by omega) v (by have := hv.1; omega) (by have := hv.2; omega)
    refine ⟨intText v, .long v, ht, hbar _ (intText_no_bar v), fun t hk => ?_, by simp [Field.same], by simp [Field.same], rfl⟩
    cases t <;> simp [Field.cleared] at hk
    rename_i v0
    have := (C29_long_partial (intText v) v0).1 v (intText_numeral v) hv.1 hv.2
    simp only [Field.conv]
    rw [this]; rfl
  | ulong v =>
    have hv : v < 2 ^ 32 := h
    have ht := C28_unsigned_text v (by omega)
    refine ⟨decText v, .ulong v, ht, hbar _ (hdec v), fun t hk => ?_, by simp [Field.same], by simp [Field.same], rfl⟩
    cases t <;> simp [Field.cleared] at hk
    rename_i v0
    have := (C29_unsigned_long_partial (decText v) v0).1 v ⟨_, (C28_canonical v).1, Or.inl rfl, (C28_canonical v).2.1.symm⟩ hv
    simp only [Field.conv]
    rw [this]; rfl

theorem cleared_cleared (f : Field) : f.cleared.cleared = f.cleared := by cases f <;> rfl

/-- **C155**: `test_construct_and_parse` passes for any members in any number and order that can be written between bars: texts without a bar, characters other than
the bar, every `int` but the least, all `unsigned int`, `short`, `unsigned short` and `bool`, and reals that come back within the tolerance of the comparison. -/
theorem C155_construct_and_parse (eq64 eq32 : Real.Val → Real.Val → Bool) (i : List Field)
    (h : ∀ f ∈ i, f.Plain eq64 eq32) : testConstructAndParse eq64 eq32 i = ok true := by
  have hx : ∀ f : Field, ∃ (w : List Byte) (g : Field), f.Plain eq64 eq32 → (f.text = ok w ∧ (w ≠ [] ∧ ∀ c ∈ w, c ∉ ([124] : List Byte)) ∧
      (∀ t : Field, t.cleared = f.cleared → t.conv w = ok (true, g)) ∧ g.same eq64 eq32 f = true ∧ f.same eq64 eq32 f = true ∧ g.cleared = f.cleared) := by
    intro f
    by_cases hf : f.Plain eq64 eq32
    · obtain ⟨w, g, hh⟩ := plain_spec eq64 eq32 f hf
      exact ⟨w, g, fun _ => hh⟩
    · exact ⟨[], f, fun h => absurd h hf⟩
  choose W G hWG using hx
  have htexts : ∀ l : List Field, (∀ f ∈ l, f.Plain eq64 eq32) → texts l = ok (l.map W) := by
    intro l
    induction l with
    | nil => intros; rfl
    | cons f l ih =>
      intro hl
      rw [texts, (hWG f (hl f (by simp))).1, ok_bind, ih (fun f hf => hl f (by simp [hf])), ok_bind]
      rfl
  unfold testConstructAndParse
  rw [htexts i h, ok_bind]
  have hstages : ∀ (r k : Nat), k + r = i.length →
      stages eq64 eq32 i (Parse.construct [] [124] (i.map W)) r (k + 1) ((i.take k).map G ++ i.drop k) = ok true := by
    intro r
    induction r with
    | zero => intros; rfl
    | succ r ih =>
      intro k hk
      have hne : i.map W ≠ [] := by
        intro e
        have := congrArg List.length e
        simp at this
        subst this
        simp at hk
      have hfields := Parse.C37_construct_fields [124] (i.map W) (by simp) hne (by
        intro w hw
        obtain ⟨f, hf, rfl⟩ := List.mem_map.mp hw
        exact (hWG f (h f hf)).2.1)
      obtain ⟨f, hf⟩ : ∃ f, i.drop k = f :: i.drop (k + 1) := ⟨i[k]'(by omega), List.drop_eq_getElem_cons (by omega)⟩
      have htake : i.take (k + 1) = i.take k ++ [f] := by
        have := List.take_append_drop k i
        rw [hf] at this
        have hl : (i.take k).length = k := by rw [List.length_take]; omega
        conv_lhs => rw [← this]
        rw [List.take_append, hl, List.take_of_length_le (by omega)]
        simp
      have hl : ((i.take k).map G).length = k := by rw [List.length_map, List.length_take]; omega
      have hkl : (i.take (k + 1)).length = k + 1 := by rw [List.length_take]; omega
      have hmem : ∀ g ∈ i.take (k + 1), g.Plain eq64 eq32 := fun g hg => h g (List.mem_of_mem_take hg)
      -- the cleared members
      have hcl : (((i.take k).map G ++ i.drop k).take (k + 1)).map Field.cleared = (i.take (k + 1)).map Field.cleared := by
        rw [hf, List.take_append, hl, List.take_of_length_le (by omega), htake]
        simp only [Nat.add_sub_cancel_left, List.take_succ_cons, List.take_zero, List.map_append, List.map_map, List.map_cons, List.map_nil]
        congr 1
        apply List.map_congr_left
        intro g hg
        exact (hWG g (h g (List.mem_of_mem_take hg))).2.2.2.2.2
      have hdr : ((i.take k).map G ++ i.drop k).drop (k + 1) = i.drop (k + 1) := by
        rw [List.drop_append, hl, List.drop_of_length_le (by omega), List.nil_append, List.drop_drop]
        congr 1
        omega
      have hcl2 : ((i.take (k + 1)).map Field.cleared ++ i.drop (k + 1)).take (k + 1) = (i.take (k + 1)).map Field.cleared := by
        rw [List.take_append_of_le_length (by rw [List.length_map]; omega), List.take_of_length_le (by rw [List.length_map]; omega)]
      have hdr2 : ((i.take (k + 1)).map Field.cleared ++ i.drop (k + 1)).drop (k + 1) = i.drop (k + 1) := by
        rw [List.drop_append_of_le_length (by rw [List.length_map]; omega), List.drop_of_length_le (by rw [List.length_map]; omega), List.nil_append]
      have hparse : Parse.parse [124] (((i.take (k + 1)).map Field.cleared).map fun _ => fun s t => t.conv s) ((i.take (k + 1)).map Field.cleared)
          (Parse.construct [] [124] (i.map W)) = ok (true, (i.take (k + 1)).map G) := by
        refine Parse.C33_parse_succeeds [124] _ _ _ _ (by simp) (by simp) (by rw [hfields]; simp) ?_
        intro j c t v w hc ht hv hw
        rw [hfields] at hw
        rw [List.getElem?_map] at hc ht hv hw
        rw [List.getElem?_map] at hc
        cases hj : (i.take (k + 1))[j]? with
        | none => rw [hj] at ht; simp at ht
        | some f =>
          have hij : i[j]? = some f := by
            rw [List.getElem?_take] at hj
            split at hj
            · exact hj
            · simp at hj
          rw [hj] at hc ht hv
          rw [hij] at hw
          simp only [Option.map_some, Option.some.injEq] at hc ht hv hw
          subst hc ht hv hw
          exact (hWG f (h f (List.mem_of_getElem? hij))).2.2.1 _ (cleared_cleared f)
      have hsame : (List.zipWith (Field.same eq64 eq32) ((i.take (k + 1)).map G ++ i.drop (k + 1)) i).all id = true := by
        conv_lhs => enter [1, 3]; rw [← List.take_append_drop (k + 1) i]
        rw [List.zipWith_append (by simp), List.all_append, Bool.and_eq_true]
        constructor
        · have : ∀ l : List Field, (∀ f ∈ l, f.Plain eq64 eq32) → (List.zipWith (Field.same eq64 eq32) (l.map G) l).all id = true := by
            intro l
            induction l with
            | nil => intros; rfl
            | cons g l ih =>
              intro hl
              simp only [List.map_cons, List.zipWith_cons_cons, List.all_cons, id, (hWG g (hl g (by simp))).2.2.2.1, Bool.true_and]
              exact ih (fun f hf => hl f (by simp [hf]))
          exact this _ hmem
        · have : ∀ l : List Field, (∀ f ∈ l, f.Plain eq64 eq32) → (List.zipWith (Field.same eq64 eq32) l l).all id = true := by
            intro l
            induction l with
            | nil => intros; rfl
            | cons g l ih =>
              intro hl
              simp only [List.zipWith_cons_cons, List.all_cons, id, (hWG g (hl g (by simp))).2.2.2.2.1, Bool.true_and]
              exact ih (fun f hf => hl f (by simp [hf]))
          exact this _ (fun f hf => h f (List.mem_of_mem_drop hf))
      have hstage : stage eq64 eq32 i (Parse.construct [] [124] (i.map W)) (k + 1) ((i.take k).map G ++ i.drop k) =
          ok (true, (i.take (k + 1)).map G ++ i.drop (k + 1)) := by
        unfold stage
        simp only
        rw [hcl, hdr, hcl2, hdr2, hparse, ok_bind]
        simp only
        rw [hsame]
        rfl
      rw [stages, hstage, ok_bind]
      simp only [if_true]
      exact ih (k + 1) (by omega)
  have := hstages i.length 0 (by omega)
  simpa using this

/-- Parsing a record written between bars into a record of the same kinds of members: strtk_parse_test.cpp 105-155 (`parse_test01`), where `strtk::parse` for
`data_block` (91-104) is made by `strtk_parse_begin`, `strtk_parse_type` and `strtk_parse_end` (strtk.hpp 10279-10294). -/
def parseRecord (i o : List Field) : Outcome (Bool × List Field) := do
  let ws ← texts i
  Parse.parse [124] (o.map fun _ => fun s t => t.conv s) o (Parse.construct [] [124] ws)

/-- **C155**: a record comes back member by member, whatever the target held before. -/
theorem C155_record (eq64 eq32 : Real.Val → Real.Val → Bool) (i o : List Field) (hi : i ≠ []) (h : ∀ f ∈ i, f.Plain eq64 eq32)
    (hk : o.map Field.cleared = i.map Field.cleared) :
    ∃ vs, parseRecord i o = ok (true, vs) ∧ List.Forall₂ (fun g f => g.same eq64 eq32 f = true) vs i := by
  have hx : ∀ f : Field, ∃ (w : List Byte) (g : Field), f.Plain eq64 eq32 → (f.text = ok w ∧ (w ≠ [] ∧ ∀ c ∈ w, c ∉ ([124] : List Byte)) ∧
      (∀ t : Field, t.cleared = f.cleared → t.conv w = ok (true, g)) ∧ g.same eq64 eq32 f = true) := by
    intro f
    by_cases hf : f.Plain eq64 eq32
    · obtain ⟨w, g, h1, h2, h3, h4, _⟩ := plain_spec eq64 eq32 f hf
      exact ⟨w, g, fun _ => ⟨h1, h2, h3, h4⟩⟩
    · exact ⟨[], f, fun h => absurd h hf⟩
  choose W G hWG using hx
  have htexts : ∀ l : List Field, (∀ f ∈ l, f.Plain eq64 eq32) → texts l = ok (l.map W) := by
    intro l
    induction l with
    | nil => intros; rfl
    | cons f l ih =>
      intro hl
      rw [texts, (hWG f (hl f (by simp))).1, ok_bind, ih (fun f hf => hl f (by simp [hf])), ok_bind]
      rfl
  have hlen : o.length = i.length := by simpa using congrArg List.length hk
  refine ⟨i.map G, ?_, ?_⟩
  · unfold parseRecord
    rw [htexts i h, ok_bind]
    apply Parse.C37_construct_then_parse [124] _ _ _ _ (by simp) (by simpa using hi) _ (by simp) (by simp [hlen]) (by simp [hlen])
    · intro j c t v w hc ht hv hw
      rw [List.getElem?_map] at hc hv hw
      cases hj : i[j]? with
      | none => rw [hj] at hv; simp at hv
      | some f =>
        rw [hj] at hv hw
        rw [ht] at hc
        simp only [Option.map_some, Option.some.injEq] at hc hv hw
        subst hc hv hw
        refine (hWG f (h f (List.mem_of_getElem? hj))).2.2.1 t ?_
        have := congrArg (·[j]?) hk
        simp only [List.getElem?_map, ht, hj, Option.map_some, Option.some.injEq] at this
        exact this
    · intro w hw
      obtain ⟨f, hf, rfl⟩ := List.mem_map.mp hw
      exact (hWG f (h f hf)).2.1
  · have : ∀ l : List Field, (∀ f ∈ l, f.Plain eq64 eq32) → List.Forall₂ (fun g f => g.same eq64 eq32 f = true) (l.map G) l := by
      intro l
      induction l with
      | nil => intros; exact .nil
      | cons g l ih => exact fun hl => .cons (hWG g (hl g (by simp))).2.2.2 (ih fun f hf => hl f (by simp [hf]))
    exact this i h

/-- **C155**: in particular for every finite `float` and for `double`s that are integers of at most ten digits, all compared for equality: the members of `data_block` in
strtk_parse_test.cpp. -/
theorem C155_construct_members (x : ℤ) (y : ℚ) (hx : |x| < 10 ^ 10) (hy : Real.IsFloat y) (s : List Byte) (hs : s ≠ [] ∧ 124 ∉ s) (c e : Byte) (hc : c ≠ 124) (he : e ≠ 124)
    (d3 : Int) (h3 : -2 ^ 31 < d3 ∧ d3 < 2 ^ 31) (d4 : Nat) (h4 : d4 < 2 ^ 32) (d7 : Int) (h7 : -2 ^ 15 ≤ d7 ∧ d7 < 2 ^ 15) (d8 : Nat) (h8 : d8 < 2 ^ 16) (d9 : Bool)
    (d11 : Int) (h11 : -2 ^ 31 ≤ d11 ∧ d11 < 2 ^ 31) (d12 : Nat) (h12 : d12 < 2 ^ 32) :
    let i : List Field := [.str s, .chr c, .int d3, .uint d4, .dbl (.num x), .flt (.num y), .short d7, .ushort d8, .bool d9, .chr e, .long d11, .ulong d12]
    testConstructAndParse (fun a b => decide (a = b)) (fun a b => decide (a = b)) i = ok true ∧
    ∀ o : List Field, o.map Field.cleared = i.map Field.cleared → parseRecord i o = ok (true, i) := by
  intro i
  have hp : ∀ f ∈ i, f.Plain (fun a b => decide (a = b)) (fun a b => decide (a = b)) := by
    intro f hf
    simp only [i, List.mem_cons, List.not_mem_nil, or_false] at hf
    rcases hf with rfl | rfl | rfl | rfl | rfl | rfl | rfl | rfl | rfl | rfl | rfl | rfl
    · exact hs
    · exact hc
    · exact h3
    · exact h4
    · exact ⟨.num x, Real.C143_integers x hx, by simp, by simp⟩
    · exact ⟨.num y, Real.C162_every_float y hy, by simp, by simp⟩
    · exact h7
    · exact h8
    · trivial
    · exact he
    · exact h11
    · exact h12
  refine ⟨C155_construct_and_parse _ _ i hp, fun o ho => ?_⟩
  obtain ⟨vs, h1, h2⟩ := C155_record _ _ i o (by simp [i]) hp ho
  rw [h1]
  congr 2
  have : ∀ a b : Field, a.same (fun a b => decide (a = b)) (fun a b => decide (a = b)) b = true → a = b := by
    intro a b
    unfold Field.same
    split <;> simp
  clear h1
  revert h2
  generalize i = l
  intro h2
  induction h2 with
  | nil => rfl
  | cons h _ ih => rw [this _ _ h, ih]

/-! ## Instances -/

/-- The fourth line of the first table (116-130), with both helpers. -/
example : testTokenizerSplit (· == 124) [124, 100, 124, 124, 120] [60, 62, 44, 100, 44, 60, 62, 44, 120] false = ok true ∧
    testTokenizerItr (· == 124) [124, 100, 124, 124, 120] [60, 62, 44, 100, 44, 60, 62, 44, 120] false = ok true ∧
    testTokenizerItr (· == 124) [124, 100, 124, 124, 120] [60, 62, 44, 100, 44, 60, 62, 44, 120] true = ok false := by decide +kernel

example : emptyFilter (· == 124) [97, 124, 124, 99] = ok (2, [[97], [99]]) ∧ emptyFilter (· == 124) [124, 97] = ok (2, [[97]]) := by decide +kernel

example : testSplitN [124, 59] [97, 124, 98, 59, 99] = ok true := C155_split_n _ _ (by decide)

end Strtk.Programs.Test
