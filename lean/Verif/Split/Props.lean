import Verif.Split.Lemmas4

/-!
# Theorems about tokenising (C01-C08)

`split`, `splitN`, `tokenizerTokens`, `offsetSplitter`, `splitPair` are the model (`Model.lean`); `Splits`, `textOf`, `pairOf`, `collapseRuns`,
`offsetAt`, `cutPoint` and core's `List.splitOnP` are the specification (`Spec.lean`).
-/

namespace Strtk.Split
open Outcome

variable {α : Type}

/-! ## C01 -/

/-- Default `split`: never misbehaves, reports the number of tokens, and the tokens are the input split at each delimiter. -/
theorem C01_split_default (d : α → Bool) (s : List α) :
    (s = [] → split {} d s = ok ([], 0)) ∧
    (s ≠ [] → ∃ r, split {} d s = ok (r, r.length) ∧ r.map (textOf s) = s.splitOnP d) := by
  refine ⟨fun h => by subst h; rfl, fun h => ?_⟩
  obtain ⟨toks, h1, h2⟩ := split_spec {} d s h
  refine ⟨toks.map pairOf, by simpa using h2, ?_⟩
  rw [← Splits.splitOnP h1, List.map_map]
  apply List.map_congr_left
  intro t ht
  have := h1.text [] rfl t ht
  simpa using this

theorem Splits.positions {d : α → Bool} {off : Nat} {s : List α} {a : List (Nat × List α)}
    (ha : Splits false .none d off s a) :
    (∀ t ∈ a.head?, t.1 = off) ∧ (∀ t ∈ a.getLast?, (pairOf t).2 = off + s.length) ∧
    (∀ t ∈ a, ∀ c ∈ t.2, d c = false) ∧
    (∀ i t t', a[i]? = some t → a[i + 1]? = some t' → t'.1 = (pairOf t).2 + 1 ∧ off ≤ (pairOf t).2 ∧
      ∃ c, s[(pairOf t).2 - off]? = some c ∧ d c = true) := by
  induction ha with
  | last off w hw => simp [pairOf]; exact hw
  | more off w block rest toks hw hne hblock hmax hrest ih =>
    simp at hmax
    match block, hmax with
    | [c], _ =>
      obtain ⟨i1, i2, i3, i4⟩ := ih
      refine ⟨by simp, ?_, ?_, ?_⟩
      · intro t ht
        rw [List.getLast?_cons_of_ne_nil hrest.ne_nil] at ht
        have := i2 t ht
        simp at this ⊢; omega
      · intro t ht
        simp only [List.mem_cons] at ht
        rcases ht with rfl | ht
        · simpa [Keep.part] using hw
        · exact i3 t ht
      · intro i t t' h1 h2
        cases i with
        | zero =>
          simp at h1
          subst h1
          rw [List.getElem?_cons_succ] at h2
          have := i1 t' (by simpa [List.head?_eq_getElem?] using h2)
          refine ⟨by simp [this, pairOf, Keep.part], by simp [pairOf], c, ?_, hblock c (by simp)⟩
          simp [pairOf, Keep.part]
        | succ i =>
          rw [List.getElem?_cons_succ] at h1 h2
          obtain ⟨e1, e2, x, e3, e4⟩ := i4 i t t' h1 h2
          refine ⟨e1, by omega, x, ?_, e4⟩
          rw [← e3, List.getElem?_append_right (by simp at e2 ⊢; omega)]
          congr 1; simp at e2 ⊢; omega

/-- The same fact without `splitOnP`: the first token starts at the beginning, the last ends at the end, no token contains a delimiter and
consecutive tokens are separated by exactly one character, which is a delimiter. -/
theorem C01_split_positions (d : α → Bool) (s : List α) (hs : s ≠ []) :
    ∃ r, split {} d s = ok (r, r.length) ∧ r ≠ [] ∧
      (∀ p ∈ r.head?, p.1 = 0) ∧ (∀ p ∈ r.getLast?, p.2 = s.length) ∧
      (∀ p ∈ r, ∀ c ∈ textOf s p, d c = false) ∧
      (∀ i p q, r[i]? = some p → r[i + 1]? = some q → q.1 = p.2 + 1 ∧ ∃ c, s[p.2]? = some c ∧ d c = true) := by
  obtain ⟨toks, h1, h2⟩ := split_spec {} d s hs
  obtain ⟨p1, p2, p3, p4⟩ := h1.positions
  refine ⟨toks.map pairOf, by simpa using h2, by simpa using h1.ne_nil, ?_, ?_, ?_, ?_⟩
  · intro p hp
    simp only [List.head?_map, Option.mem_def, Option.map_eq_some_iff] at hp
    obtain ⟨t, ht, rfl⟩ := hp
    exact p1 t ht
  · intro p hp
    simp only [List.getLast?_map, Option.mem_def, Option.map_eq_some_iff] at hp
    obtain ⟨t, ht, rfl⟩ := hp
    simpa using p2 t ht
  · intro p hp
    obtain ⟨t, ht, rfl⟩ := List.mem_map.mp hp
    have := h1.text [] rfl t ht
    simp only [List.nil_append] at this
    rw [this]; exact p3 t ht
  · intro i p q hp hq
    simp only [List.getElem?_map, Option.map_eq_some_iff] at hp hq
    obtain ⟨t, ht, rfl⟩ := hp
    obtain ⟨t', ht', rfl⟩ := hq
    obtain ⟨e1, _, c, e3, e4⟩ := p4 i t t' ht ht'
    exact ⟨e1, c, by simpa using e3, e4⟩

example : split {} (· == ',') ",ab,,c,".toList = ok ([(0, 0), (1, 3), (4, 4), (5, 6), (7, 7)], 5) := by decide

/-! ## C02 -/

/-- `compress_delimiters`: the tokens are those of the default split of the input with every run of delimiters collapsed. -/
theorem C02_split_compress (d : α → Bool) (s : List α) (hs : s ≠ []) :
    ∃ r, split { compress := true } d s = ok (r, r.length) ∧ r.map (textOf s) = (collapseRuns d s).splitOnP d := by
  obtain ⟨toks, h1, h2⟩ := split_spec { compress := true } d s hs
  refine ⟨toks.map pairOf, by simpa using h2, ?_⟩
  rw [← Splits.splitOnP_collapse h1, List.map_map]
  apply List.map_congr_left
  intro t ht
  have := h1.text [] rfl t ht
  simpa using this

theorem collapseRuns_ne_nil (d : α → Bool) (s : List α) (hs : s ≠ []) : collapseRuns d s ≠ [] := by
  induction s with
  | nil => exact absurd rfl hs
  | cons x t ih =>
    cases t with
    | nil => simp [collapseRuns]
    | cons y t =>
      simp only [collapseRuns]
      split
      · exact ih (by simp)
      · simp

/-- Stated with `split` on both sides: compressing is splitting the collapsed input. -/
theorem C02_split_compress_eq_split_collapsed (d : α → Bool) (s : List α) (hs : s ≠ []) :
    ∃ r r', split { compress := true } d s = ok (r, r.length) ∧ split {} d (collapseRuns d s) = ok (r', r'.length) ∧
      r.map (textOf s) = r'.map (textOf (collapseRuns d s)) := by
  obtain ⟨r, h1, h2⟩ := C02_split_compress d s hs
  obtain ⟨r', h3, h4⟩ := (C01_split_default d (collapseRuns d s)).2 (collapseRuns_ne_nil d s hs)
  exact ⟨r, r', h1, h3, by rw [h2, h4]⟩

/-- The collapsed input has no two adjacent delimiters, and consists of the same non-delimiters in the same order. -/
theorem C02_collapseRuns_sound (d : α → Bool) (s : List α) :
    (collapseRuns d s).filter (fun c => !d c) = s.filter (fun c => !d c) ∧
    (∀ i a b, (collapseRuns d s)[i]? = some a → (collapseRuns d s)[i + 1]? = some b → ¬ (d a = true ∧ d b = true)) := by
  fun_induction collapseRuns d s with
  | case1 => simp
  | case2 a => simp
  | case3 a b t h ih =>
    obtain ⟨i1, i2⟩ := ih
    simp only [Bool.and_eq_true] at h
    refine ⟨by rw [i1]; simp [h.1], i2⟩
  | case4 a b t h ih =>
    obtain ⟨i1, i2⟩ := ih
    refine ⟨by rw [List.filter_cons, i1, List.filter_cons (x := a)], ?_⟩
    intro i x y hx hy
    cases i with
    | zero =>
      simp at hx; subst hx
      intro ⟨ha, hy'⟩
      simp at hy
      -- the next kept element has the class of `b`
      have hb : ∀ (b : α) (t : List α), ∀ z, (collapseRuns d (b :: t))[0]? = some z → d z = true → d b = true := by
        intro b t
        induction t generalizing b with
        | nil => intro z hz; simp [collapseRuns] at hz; subst hz; exact id
        | cons e t ih =>
          intro z hz hdz
          simp only [collapseRuns] at hz
          split at hz
          · rename_i hbe; simp at hbe; exact hbe.1
          · simp at hz; subst hz; exact hdz
      have := hb b t y (by simpa using hy) hy'
      exact h (by simp [ha, this])
    | succ i => exact i2 i x y (by simpa using hx) (by simpa using hy)

example : split { compress := true } (· == ',') ",,ab,,,c,,".toList = ok ([(0, 0), (2, 4), (7, 8), (10, 10)], 4) := by decide
example : collapseRuns (· == ',') ",,ab,,,c,,".toList = ",ab,c,".toList := by decide

/-! ## C03 -/

/-- Whatever options are combined: no undefined behaviour, tokens inside the input, in order and disjoint. -/
theorem C03_split_in_bounds (opt : Opt) (d : α → Bool) (s : List α) :
    ∃ r, split opt d s = ok (r, r.length) ∧ (∀ p ∈ r, p.1 ≤ p.2 ∧ p.2 ≤ s.length) ∧ r.Pairwise (fun p q => p.2 ≤ q.1) := by
  by_cases hs : s = []
  · subst hs; exact ⟨[], by simp [split], by simp, by simp⟩
  · obtain ⟨toks, h1, h2⟩ := split_spec opt d s hs
    obtain ⟨b1, b2⟩ := h1.bounds
    refine ⟨toks.map pairOf, by simpa using h2, ?_, b2⟩
    intro p hp
    have := b1 p hp
    simp at this; omega

example : split { first := true, compress := true } (· == ',') "a,,b".toList = ok ([(0, 2), (3, 4)], 2) := by decide

/-! ## C04 -/

/-- Options combined with `|` are the three switches, and no other bit of the word matters. -/
theorem C04_option_bits (opt : Nat) :
    (Opt.ofBits opt).compress = opt.testBit 0 ∧ (Opt.ofBits opt).first = opt.testBit 1 ∧ (Opt.ofBits opt).all = opt.testBit 2 := by
  have h : ∀ k, (opt &&& 2 ^ k == 2 ^ k) = opt.testBit k := by
    intro k
    rw [Bool.eq_iff_iff, beq_iff_eq]
    constructor
    · intro h
      have := congrArg (·.testBit k) h
      simpa using this
    · intro h
      apply Nat.eq_of_testBit_eq
      intro i
      rw [Nat.testBit_and, Nat.testBit_two_pow]
      by_cases hi : k = i
      · subst hi; simp [h]
      · simp [hi]
  exact ⟨h 0, h 1, h 2⟩

/-- In particular the sum of chosen options is decoded to these. -/
theorem C04_options_combined (a b c : Bool) :
    Opt.ofBits ((if a then 1 else 0) ||| (if b then 2 else 0) ||| (if c then 4 else 0)) = { compress := a, first := b, all := c } := by
  cases a <;> cases b <;> cases c <;> rfl

/-- Full meaning of every option combination: `compress` (or `all` without `first`) makes a block a maximal run; `first` keeps the first
delimiter of the block in the token, `all` (without `first`) the whole block. -/
theorem C04_split_modes (opt : Opt) (d : α → Bool) (s : List α) (hs : s ≠ []) :
    ∃ toks, Splits (opt.compress || (!opt.first && opt.all)) (if opt.first then .firstOnly else if opt.all then .all else .none) d 0 s toks ∧
      split opt d s = ok (toks.map pairOf, toks.length) ∧
      (toks.map pairOf).map (textOf s) = toks.map Prod.snd := by
  obtain ⟨toks, h1, h2⟩ := split_spec opt d s hs
  refine ⟨toks, h1, h2, ?_⟩
  rw [List.map_map]
  apply List.map_congr_left
  intro t ht
  have := h1.text [] rfl t ht
  simpa using this

/-- The specification determines the tokens. -/
theorem C04_splits_unique (perRun : Bool) (keep : Keep) (d : α → Bool) (s : List α) (a b : List (Nat × List α))
    (ha : Splits perRun keep d 0 s a) (hb : Splits perRun keep d 0 s b) : a = b := ha.unique hb

/-- `include_all_delimiters`, and `include_1st_delimiter` without compression: the tokens, concatenated, are the input. -/
theorem C04_split_tiles (opt : Opt) (d : α → Bool) (s : List α) (hs : s ≠ [])
    (ho : (opt.first = false ∧ opt.all = true) ∨ (opt.first = true ∧ opt.compress = false)) :
    ∃ r, split opt d s = ok (r, r.length) ∧ (r.map (textOf s)).flatten = s := by
  obtain ⟨toks, h1, h2, h3⟩ := C04_split_modes opt d s hs
  refine ⟨toks.map pairOf, by simpa using h2, ?_⟩
  rw [h3]
  apply Splits.tile _ h1
  rcases ho with ⟨hf, ha⟩ | ⟨hf, hc⟩
  · left; simp [hf, ha]
  · right; simp [hf, hc]

example : split { all := true } (· == ',') ",a,,b,,".toList = ok ([(0, 1), (1, 4), (4, 7), (7, 7)], 4) := by decide
example : split { first := true } (· == ',') "a,,b".toList = ok ([(0, 2), (2, 3), (3, 4)], 3) := by decide

/-! ## C05 -/

/-- Walking the tokenizer gives exactly the tokens of `split`, for every option combination except all three bits together. -/
theorem C05_tokenizer_eq_split_partial (opt : Opt) (hopt : ¬ (opt.compress = true ∧ opt.first = true ∧ opt.all = true))
    (d : α → Bool) (s : List α) :
    ∃ r, tokenizerTokens opt d s = ok r ∧ split opt d s = ok (r, r.length) := by
  by_cases hs : s = []
  · subst hs; exact ⟨[], by simp [tokenizerTokens, Tok.make, Tok.walk], by simp [split]⟩
  · obtain ⟨toks, h1, h2⟩ := split_spec opt d s hs
    obtain ⟨toks', h3, h4⟩ := tokenizer_spec opt d s hs
    have hm : tokPerRun opt = perRunOf opt := by
      obtain ⟨c, f, a⟩ := opt
      cases c <;> cases f <;> cases a <;> simp_all [tokPerRun, perRunOf]
    rw [hm] at h3
    obtain rfl := h1.unique h3
    exact ⟨toks.map pairOf, h4, by simpa using h2⟩

/-- The documented pairs of options, default and compress, are covered in full. -/
theorem C05_tokenizer_eq_split (compress : Bool) (d : α → Bool) (s : List α) :
    ∃ r, tokenizerTokens { compress := compress } d s = ok r ∧ split { compress := compress } d s = ok (r, r.length) :=
  C05_tokenizer_eq_split_partial _ (by simp) d s

/-- With all three option bits set the two disagree. -/
theorem C05_all_bits_disagree :
    ∃ (d : Char → Bool) (s : List Char) (r r' : List (Nat × Nat)), tokenizerTokens { compress := true, first := true, all := true } d s = ok r ∧
      split { compress := true, first := true, all := true } d s = ok (r', r'.length) ∧ r ≠ r' :=
  ⟨(· == ','), "a,,b".toList, [(0, 2), (2, 3), (3, 4)], [(0, 2), (3, 4)], by decide, by decide, by decide⟩

example : tokenizerTokens { compress := true } (· == ',') ",,ab,,,c,,".toList = ok [(0, 0), (2, 4), (7, 8), (10, 10)] := by decide

/-! ## C06 -/

/-- `split_n` writes the first `n` tokens of `split`, for every option combination except `include_all_delimiters` without `include_1st_delimiter`. -/
theorem C06_split_n_prefix_partial (opt : Opt) (hopt : ¬ (opt.first = false ∧ opt.all = true)) (d : α → Bool) (s : List α) (n : Nat) :
    ∃ r, split opt d s = ok (r, r.length) ∧ splitN opt d s n = ok (r.take n, min r.length n) := by
  by_cases hs : s = []
  · subst hs; exact ⟨[], by simp [split], by simp [splitN]⟩
  · obtain ⟨toks, h1, h2⟩ := split_spec opt d s hs
    refine ⟨toks.map pairOf, by simpa using h2, ?_⟩
    by_cases hn : n = 0
    · subst hn; simp [splitN]
    · obtain ⟨toks', h3, h4⟩ := splitN_spec opt d s n hs hn
      have : toks = toks' := by
        apply h1.unique
        obtain ⟨c, f, a⟩ := opt
        cases c <;> cases f <;> cases a <;> simp_all [perRunOf, keepOf]
      subst this
      simpa using h4

/-- Default and compress options: no exception. -/
theorem C06_split_n_prefix (compress : Bool) (d : α → Bool) (s : List α) (n : Nat) :
    ∃ r, split { compress := compress } d s = ok (r, r.length) ∧ splitN { compress := compress } d s n = ok (r.take n, min r.length n) :=
  C06_split_n_prefix_partial _ (by simp) d s n

/-- With `include_all_delimiters` alone `split_n` keeps only one delimiter per token, `split` keeps the run. -/
theorem C06_include_all_disagrees :
    ∃ (d : Char → Bool) (s : List Char) (n : Nat) (r r' : List (Nat × Nat)), split { all := true } d s = ok (r, r.length) ∧
      splitN { all := true } d s n = ok (r', r'.length) ∧ r' ≠ r.take n :=
  ⟨(· == ','), "a,,b".toList, 2, [(0, 3), (3, 4)], [(0, 2), (2, 3)], by decide, by decide, by decide⟩

example : splitN {} (· == ',') "a,b,c".toList 2 = ok ([(0, 1), (2, 3)], 2) := by decide

/-! ## C07 -/

/-- `offset_splitter` cuts at the partial sums of the offsets until the input or the (non-rotating) list is exhausted or an offset is not positive.
`idx` is the predicate's current index, 0 for a new or reset predicate. -/
theorem C07_offset_splitter (s : List α) (offs : List Int) (rotate : Bool) (idx : Nat)
    (hidx : if rotate then idx < offs.length ∨ (offs = [] ∧ idx = 0) else idx ≤ offs.length) :
    let len := offsetAt offs rotate idx
    ∃ m idx', offsetSplitter s offs rotate idx =
        ok ((List.range m).map (fun i => (cutPoint len s.length i, cutPoint len s.length (i + 1))), m, idx') ∧
      (∀ i, i < m → 0 < len i ∧ cutPoint len s.length i < s.length) ∧
      (cutPoint len s.length m = s.length ∨ len m ≤ 0) := by
  intro len
  unfold offsetSplitter
  by_cases h : s.length = 0
  · rw [if_pos h]
    exact ⟨0, idx, by simp, by simp, Or.inl (by simp [cutPoint, h])⟩
  · rw [if_neg h]
    have h0 : cutPoint len s.length 0 = 0 := by simp [cutPoint]
    obtain ⟨m, idx', h1, h2, h3⟩ := offsetLoop_spec s offs rotate idx (s.length + 1) 0 idx [] 0 hidx (by intro k; simp) (by omega)
    change offsetLoop s offs rotate (s.length + 1) idx (cutPoint len s.length 0) (s.length - cutPoint len s.length 0) [] 0 = _ at h1
    rw [h0] at h1
    refine ⟨m, idx', ?_, fun i hi => h2 i (by omega) (by omega), by simpa using h3⟩
    rw [← List.range_eq_range'] at h1
    simpa using h1

/-- The pieces are a prefix of the input: consecutive cut points bound consecutive pieces starting at 0. -/
theorem C07_offset_splitter_prefix (s : List α) (len : Nat → Int) (m : Nat) :
    ((List.range m).map (fun i => textOf s (cutPoint len s.length i, cutPoint len s.length (i + 1)))).flatten = s.take (cutPoint len s.length m) := by
  induction m with
  | zero => simp [cutPoint]
  | succ m ih =>
    rw [List.range_succ, List.map_append, List.flatten_append, ih, cutPoint_succ]
    have := cutPoint_succ len s.length m
    simp [textOf, List.take_add]
    omega

/-- Reusing a non-rotating predicate without `reset()` after its list was used up reads outside its array. -/
theorem C07_reuse_without_reset_is_ub (s : List α) (hs : s ≠ []) (offs : List Int) :
    offsetSplitter s offs false (offs.length + 1) = ub := by
  have : s.length ≠ 0 := by simpa using hs
  unfold offsetSplitter offsetLoop
  rw [if_neg this, if_pos this]
  simp [offsetNext, deref]

example : offsetSplitter "abcdefg".toList [2, 3] false 0 = ok ([(0, 2), (2, 5)], 2, 3) := by decide
example : offsetSplitter "abcdefg".toList [2, 3] true 0 = ok ([(0, 2), (2, 5), (5, 7)], 3, 1) := by decide

/-! ## C08 -/

/-- Without a delimiter `split_pair` fails and assigns nothing. -/
theorem C08_split_pair_none (d : α → Bool) (s : List α) (h : ∀ c ∈ s, d c = false) : splitPair d s = ok (false, none, none) := by
  unfold splitPair
  split
  · rfl
  · exact splitPairLoop_none d s (s.length + 1) [] s (by simp) h (by omega)

/-- With a first delimiter after the word `u`: success exactly when something follows, and then the two parts are what precedes and follows it.
On failure the first range is assigned all the same. -/
theorem C08_split_pair_some (d : α → Bool) (u v : List α) (c : α) (hu : ∀ x ∈ u, d x = false) (hc : d c = true) :
    splitPair d (u ++ c :: v) = ok (decide (v ≠ []), some (0, u.length),
      if v = [] then none else some (u.length + 1, u.length + 1 + v.length)) := by
  unfold splitPair
  rw [if_neg (by simp), show (0 : Nat) = ([] : List α).length from rfl,
    splitPairLoop_some d (u ++ c :: v) c v hc _ [] u (by simp) hu (by simp)]
  by_cases hv : v = []
  · simp [hv]
  · simp [hv]; omega

/-- Both cases together: success is exactly "there is a delimiter, and the first one is not the last character". -/
theorem C08_split_pair_iff (d : α → Bool) (s : List α) :
    (∃ v1 v2, splitPair d s = ok (true, v1, v2)) ↔ ∃ u c v, s = u ++ c :: v ∧ (∀ x ∈ u, d x = false) ∧ d c = true ∧ v ≠ [] := by
  constructor
  · rintro ⟨v1, v2, h⟩
    rcases first_delim d s with hn | ⟨u, c, v, rfl, hu, hc⟩
    · rw [C08_split_pair_none d s hn] at h; simp at h
    · rw [C08_split_pair_some d u v c hu hc] at h
      refine ⟨u, c, v, rfl, hu, hc, ?_⟩
      simp at h; exact h.1
  · rintro ⟨u, c, v, rfl, hu, hc, hv⟩
    exact ⟨some (0, u.length), some (u.length + 1, u.length + 1 + v.length), by rw [C08_split_pair_some d u v c hu hc]; simp [hv]⟩

example : splitPair (· == '=') "k=v=w".toList = ok (true, some (0, 1), some (2, 5)) := by decide
example : splitPair (· == '=') "k=".toList = ok (false, some (0, 1), none) := by decide

end Strtk.Split
