import Verif.Consec.Props
import Mathlib.Data.List.TakeWhile
import Mathlib.Tactic.ByContra

/-!
# The strings put out by `split_on_consecutive` (C52)

The maximal runs are the pieces between the elements that fail the predicate, as `List.splitOnP` gives them.
-/

namespace Strtk.Consec
open Outcome

variable {α : Type}

/-! ## Specification -/

/-- What is put out for a maximal run: the run itself, if it is long enough; or as many groups of `n` elements as there are in it, one behind the other. -/
def pieces (mode : Mode) (n : Nat) (run : List α) : List (List α) :=
  match mode with
  | .exactly => (List.range (run.length / n)).map fun j => (run.drop (j * n)).take n
  | .atleast => if n ≤ run.length then [run] else []

/-- What is put out for all the maximal runs. -/
noncomputable def allPieces (p : α → Bool) (mode : Mode) (n : Nat) (s : List α) : List (List α) := (s.splitOnP fun c => !p c).flatMap (pieces mode n)

/-- The part of the range that an offset and a length denote. -/
def text (s : List α) (r : Nat × Nat) : List α := (s.drop r.1).take r.2

/-! ## Lemmas -/

theorem pieces_short {mode : Mode} {n : Nat} {r : List α} (h : r.length < n) : pieces mode n r = [] := by
  cases mode with
  | exactly => simp [pieces, Nat.div_eq_of_lt h]
  | atleast => simp [pieces]; omega

theorem pieces_nil {mode : Mode} {n : Nat} (hn : 1 ≤ n) : pieces mode n ([] : List α) = [] := pieces_short (by simp only [List.length_nil]; omega)

theorem pieces_exactly {n : Nat} (hn : 1 ≤ n) {r : List α} (h : n ≤ r.length) : pieces .exactly n r = r.take n :: pieces .exactly n (r.drop n) := by
  have e : r.length / n = (r.length - n) / n + 1 := by
    rw [Nat.div_eq_sub_div (by omega) h]
  simp only [pieces, List.length_drop]
  rw [e, List.range_succ_eq_map]
  simp only [List.map_cons, List.map_map, Nat.zero_mul, List.drop_zero]
  congr 1
  apply List.map_congr_left
  intro j _
  simp only [Function.comp, List.drop_drop]
  congr 2
  rw [Nat.succ_mul, Nat.add_comm]

theorem allPieces_append {p : α → Bool} {mode : Mode} {n : Nat} (hn : 1 ≤ n) {r rest : List α} (hr : ∀ c ∈ r, p c = true)
    (hrest : ∀ c, rest[0]? = some c → p c = false) : allPieces p mode n (r ++ rest) = pieces mode n r ++ allPieces p mode n rest := by
  have e : pieces mode n ([] : List α) = [] := pieces_nil hn
  cases rest with
  | nil =>
    unfold allPieces
    rw [List.append_nil, List.splitOnP_eq_singleton (by intro x hx; simp [hr x hx])]
    simp [List.splitOnP_nil, e]
  | cons c rest =>
    have hc : p c = false := hrest c rfl
    unfold allPieces
    rw [List.splitOnP_append_cons_of_forall_mem (by intro x hx; simp [hr x hx]) c (by simp [hc])]
    have := List.splitOnP_append_cons_of_forall_mem (p := fun c => !p c) (xs := ([] : List α)) (by simp) c (by simp [hc]) rest
    rw [List.nil_append] at this
    rw [this]
    simp [e]

theorem holds_drop {p : α → Bool} {s : List α} {a j : Nat} : Holds p (s.drop a) j ↔ Holds p s (a + j) := by simp [Holds, List.getElem?_drop]

theorem window_drop {p : α → Bool} {s : List α} {a n i : Nat} : Window p n (s.drop a) i ↔ Window p n s (a + i) := by
  unfold Window
  constructor
  · intro h j h1 h2
    have := holds_drop.mp (h (j - a) (by omega) (by omega))
    rwa [show a + (j - a) = j by omega] at this
  · intro h j h1 h2
    exact holds_drop.mpr (h (a + j) (by omega) (by omega))

theorem run_drop {p : α → Bool} {s : List α} {a i k : Nat} (h : Run p s a (a + i) k) : Run p (s.drop a) 0 i k := by
  obtain ⟨h1, h2, h3⟩ := h
  refine ⟨window_drop.mpr h1, fun h => h2 (by rw [Nat.add_assoc]; exact holds_drop.mp h), ?_⟩
  rcases Nat.eq_zero_or_pos i with h | h
  · exact Or.inl h
  · refine Or.inr fun h' => ?_
    rcases h3 with h3 | h3
    · omega
    · exact h3 (by rw [Nat.add_sub_assoc h]; exact holds_drop.mp h')

theorem firstFound_drop {p : α → Bool} {n : Nat} {mode : Mode} {s : List α} {a i k : Nat} (h : FirstFound p n mode s a i k) :
    a ≤ i ∧ FirstFound p n mode (s.drop a) 0 (i - a) k := by
  have key : a ≤ i → (∀ j, a ≤ j → j < i → ¬ Window p n s j) → ∀ j, 0 ≤ j → j < i - a → ¬ Window p n (s.drop a) j := by
    intro ha h j _ hj hw
    exact h (a + j) (by omega) (by omega) (window_drop.mp hw)
  cases mode with
  | exactly =>
    obtain ⟨⟨h1, h2, h3⟩, h4⟩ := h
    exact ⟨h1, ⟨Nat.zero_le _, window_drop.mpr (by rwa [show a + (i - a) = i by omega]), key h1 h3⟩, h4⟩
  | atleast =>
    obtain ⟨h1, h2, h3, h4⟩ := h
    exact ⟨h1, Nat.zero_le _, h2, run_drop (by rwa [show a + (i - a) = i by omega]), key h1 h4⟩

theorem noWindow_drop {p : α → Bool} {n : Nat} {s : List α} {a : Nat} (h : NoWindow p n s a) : NoWindow p n (s.drop a) 0 :=
  fun j _ hw => h (a + j) (by omega) (window_drop.mp hw)

/-- A range is a run, then the end or an element that fails the predicate. -/
theorem run_rest (p : α → Bool) (t : List α) : ∃ r rest, t = r ++ rest ∧ (∀ c ∈ r, p c = true) ∧ ∀ c, rest[0]? = some c → p c = false := by
  refine ⟨t.takeWhile p, t.dropWhile p, (List.takeWhile_append_dropWhile).symm, fun c hc => List.mem_takeWhile_imp hc, fun c hc => ?_⟩
  have := List.head?_dropWhile_not p t
  rw [← List.head?_eq_getElem?] at hc
  rw [hc] at this
  simpa using this

theorem holds_run {p : α → Bool} {r rest : List α} (hr : ∀ c ∈ r, p c = true) {j : Nat} (hj : j < r.length) : Holds p (r ++ rest) j :=
  ⟨r[j], by rw [List.getElem?_append_left hj]; simp, hr _ (List.getElem_mem hj)⟩

theorem not_holds_rest {p : α → Bool} {r rest : List α} (hrest : ∀ c, rest[0]? = some c → p c = false) : ¬ Holds p (r ++ rest) r.length := by
  rintro ⟨c, hc, hp⟩
  rw [List.getElem?_append_right (Nat.le_refl _), Nat.sub_self] at hc
  rw [hrest c hc] at hp
  cases hp

theorem window_run {p : α → Bool} {r rest : List α} (hr : ∀ c ∈ r, p c = true) {n : Nat} (hn : n ≤ r.length) : Window p n (r ++ rest) 0 :=
  fun j _ h => holds_run hr (by omega)

/-- A window does not cross the end of a run that is too short for it. -/
theorem window_behind {p : α → Bool} {r rest : List α} (hrest : ∀ c, rest[0]? = some c → p c = false) {n i : Nat} (hn : r.length < n)
    (h : Window p n (r ++ rest) i) : r.length < i := by
  by_contra hi
  exact not_holds_rest hrest (h r.length (by omega) (by omega))

theorem allPieces_none {p : α → Bool} {mode : Mode} {n : Nat} (hn : 1 ≤ n) : ∀ (m : Nat) (t : List α), t.length ≤ m → NoWindow p n t 0 → allPieces p mode n t = [] := by
  intro m
  induction m with
  | zero =>
    intro t ht _
    have : t = [] := List.length_eq_zero_iff.mp (by omega)
    subst this
    simp [allPieces, List.splitOnP_nil, pieces_nil hn]
  | succ m ih =>
    intro t ht hw
    obtain ⟨r, rest, rfl, hr, hrest⟩ := run_rest p t
    have hs : r.length < n := by
      by_contra h
      exact hw 0 (Nat.le_refl _) (window_run hr (by omega))
    rw [allPieces_append hn hr hrest, pieces_short hs, List.nil_append]
    cases rest with
    | nil => simp [allPieces, List.splitOnP_nil, pieces_nil hn]
    | cons c rest =>
      have h1 := allPieces_append (p := p) (mode := mode) hn (r := []) (rest := c :: rest) (by simp) hrest
      have hc : p c = false := hrest c rfl
      have : allPieces p mode n (c :: rest) = allPieces p mode n rest := by
        have := List.splitOnP_append_cons_of_forall_mem (p := fun c => !p c) (xs := ([] : List α)) (by simp) c (by simp [hc]) rest
        rw [List.nil_append] at this
        simp [allPieces, this, pieces_nil hn]
      rw [this]
      apply ih
      · simp at ht; omega
      · have := noWindow_drop (a := r.length + 1) (s := r ++ c :: rest) (n := n) (p := p) (fun j hj => hw j (by omega))
        simpa using this

theorem allPieces_skip {p : α → Bool} {mode : Mode} {n : Nat} (hn : 1 ≤ n) {c : α} (hc : p c = false) (t : List α) :
    allPieces p mode n (c :: t) = allPieces p mode n t := by
  have := List.splitOnP_append_cons_of_forall_mem (p := fun c => !p c) (xs := ([] : List α)) (by simp) c (by simp [hc]) t
  rw [List.nil_append] at this
  simp [allPieces, this, pieces_nil hn]

theorem allPieces_first {p : α → Bool} {mode : Mode} {n : Nat} (hn : 1 ≤ n) : ∀ (m : Nat) (t : List α) (i k : Nat), t.length ≤ m → FirstFound p n mode t 0 i k →
    allPieces p mode n t = text t (i, k) :: allPieces p mode n (t.drop (i + k)) := by
  intro m
  induction m with
  | zero =>
    intro t i k ht hf
    have : t = [] := List.length_eq_zero_iff.mp (by omega)
    subst this
    exfalso
    cases mode with
    | exactly => have := hf.1.2.1.le hn; simp at this; omega
    | atleast => have := hf.2.2.1.1.le (by have := hf.2.1; omega); have := hf.2.1; simp at *; omega
  | succ m ih =>
    intro t i k ht hf
    obtain ⟨r, rest, rfl, hr, hrest⟩ := run_rest p t
    by_cases hs : r.length < n
    · -- the first run is too short
      have hi : r.length < i := by
        cases mode with
        | exactly => exact window_behind hrest hs hf.1.2.1
        | atleast =>
          exact window_behind hrest hs (n := n) (fun j h1 h2 => hf.2.2.1.1 j h1 (by have := hf.2.1; omega))
      rw [allPieces_append hn hr hrest, pieces_short hs, List.nil_append]
      cases rest with
      | nil =>
        exfalso
        cases mode with
        | exactly => have := hf.1.2.1.le hn; simp at this; omega
        | atleast => have := hf.2.2.1.1.le (by have := hf.2.1; omega); have := hf.2.1; simp at *; omega
      | cons c rest =>
        rw [allPieces_skip hn (hrest c rfl)]
        have hf' : FirstFound p n mode (r ++ c :: rest) (r.length + 1) i k := by
          cases mode with
          | exactly => exact ⟨⟨by omega, hf.1.2.1, fun j h1 h2 => hf.1.2.2 j (by omega) h2⟩, hf.2⟩
          | atleast =>
            obtain ⟨_, h2, ⟨h3, h4, h5⟩, h6⟩ := hf
            exact ⟨by omega, h2, ⟨h3, h4, Or.inr (h5.resolve_left (by omega))⟩, fun j h7 h8 => h6 j (by omega) h8⟩
        have e : (r ++ c :: rest).drop (r.length + 1) = rest := by simp
        have hg := (firstFound_drop hf').2
        rw [e] at hg
        rw [ih rest (i - (r.length + 1)) k (by simp at ht; omega) hg]
        have e2 : ∀ x, (r ++ c :: rest).drop (r.length + 1 + x) = rest.drop x := by
          intro x; rw [← List.drop_drop, e]
        have e3 := e2 (i - (r.length + 1))
        have e4 := e2 (i - (r.length + 1) + k)
        rw [show r.length + 1 + (i - (r.length + 1)) = i by omega] at e3
        rw [show r.length + 1 + (i - (r.length + 1) + k) = i + k by omega] at e4
        simp only [text, e3, e4]
    · have hs : n ≤ r.length := by omega
      have hw : Window p n (r ++ rest) 0 := window_run hr hs
      cases mode with
      | exactly =>
        obtain ⟨⟨_, h1, h2⟩, rfl⟩ := hf
        have hi : i = 0 := by
          by_contra h
          exact h2 0 (Nat.le_refl _) (by omega) hw
        subst hi
        rw [allPieces_append hn hr hrest, pieces_exactly hn hs, Nat.zero_add, List.drop_append_of_le_length hs,
          allPieces_append hn (fun c hc => hr c (List.mem_of_mem_drop hc)) hrest]
        simp [text, List.take_append_of_le_length hs]
      | atleast =>
        obtain ⟨_, h1, ⟨h2, h3, _⟩, h4⟩ := hf
        have hi : i = 0 := by
          by_contra h
          exact h4 0 (Nat.le_refl _) (by omega) hw
        subst hi
        have hk : k = r.length := by
          rcases Nat.lt_trichotomy k r.length with h | h | h
          · exact absurd (holds_run hr (by omega)) h3
          · exact h
          · exact absurd (h2 r.length (Nat.zero_le _) (by omega)) (not_holds_rest hrest)
        subst hk
        rw [allPieces_append hn hr hrest]
        simp [text, pieces, hs]

theorem cuts_pieces {p : α → Bool} {mode : Mode} {n : Nat} (hn : 1 ≤ n) (s : List α) {a : Nat} {full : List (Nat × Nat)}
    (h : Cuts (FirstFound p n mode s) (NoWindow p n s) a full) : full.map (text s) = allPieces p mode n (s.drop a) := by
  induction h with
  | stop h => rw [allPieces_none hn _ _ (Nat.le_refl _) (noWindow_drop h), List.map_nil]
  | @cut a i k rest h _ ih =>
    obtain ⟨h1, h2⟩ := firstFound_drop h
    rw [allPieces_first hn _ _ _ _ (Nat.le_refl _) h2, List.map_cons, ih, List.drop_drop, show a + (i - a + k) = i + k by omega]
    simp [text, List.drop_drop, show a + (i - a) = i by omega]

/-! ## Theorems -/

/-- The strings put out by `split_on_consecutive` are, run by run, the groups of `n` elements in the maximal runs; or the maximal runs of at least `n` elements. -/
theorem C52_split_strings (type : FindType) (mode : Mode) (n : Nat) (hn : 1 ≤ n) (s : List UInt8) (hl : s.length < 2 ^ 31) :
    ∃ full, splitType (s.length + 1) n type mode s = ok full ∧ full.map (text s) = (s.splitOnP fun c => !type.pred c).flatMap (pieces mode n) := by
  obtain ⟨full, h1, h2⟩ := C52_split type mode n hn s hl
  exact ⟨full, h2, by simpa [allPieces] using cuts_pieces hn s h1⟩

/-- The same with a predicate, over any type of elements. -/
theorem C52_split_predicate_strings (p : α → Bool) (n : Nat) (hn : 1 ≤ n) (s : List α) (hl : s.length < 2 ^ 31) :
    ∃ full, splitPred (s.length + 1) p n s = ok full ∧ full.map (text s) = (s.splitOnP fun c => !p c).flatMap (pieces .exactly n) := by
  obtain ⟨full, h1, h2⟩ := C52_split_predicate p n hn s hl
  exact ⟨full, h2, by simpa [allPieces] using cuts_pieces hn s h1⟩

/-- With a limit of `m` matches the first `m + 1` of these strings are put out. -/
theorem C52_split_n_strings_partial (type : FindType) (mode : Mode) (m n : Nat) (hm : 1 ≤ m) (hn : 1 ≤ n) (s : List UInt8) (hl : s.length < 2 ^ 31) :
    ∃ full, splitTypeN (s.length + 1) m n type mode s = ok full ∧ full.map (text s) = ((s.splitOnP fun c => !type.pred c).flatMap (pieces mode n)).take (m + 1) := by
  obtain ⟨full, h1, h2, _⟩ := C52_split_n_partial type mode m n hm hn s hl
  exact ⟨_, h2, by rw [List.map_take]; exact congrArg _ (by simpa [allPieces] using cuts_pieces hn s h1)⟩

/-- How many there are: the sum of the quotients of the lengths of the maximal runs by `n`. -/
theorem C52_split_number (type : FindType) (n : Nat) (hn : 1 ≤ n) (s : List UInt8) (hl : s.length < 2 ^ 31) :
    ∃ full, splitType (s.length + 1) n type .exactly s = ok full ∧ full.length = ((s.splitOnP fun c => !type.pred c).map (·.length / n)).sum := by
  obtain ⟨full, h1, h2⟩ := C52_split_strings type .exactly n hn s hl
  refine ⟨full, h1, ?_⟩
  have := congrArg List.length h2
  rw [List.length_map] at this
  rw [this, List.length_flatMap]
  simp [pieces]

/-- A text of words, each of one kind of character, with one blank behind each word: with `n = 1` in the mode `atleast` the words of the kind asked for are put out, and no other. -/
theorem C52_words (type : FindType) (words : List (List UInt8)) (hw : ∀ w ∈ words, w ≠ [] ∧ ((∀ c ∈ w, type.pred c = true) ∨ ∀ c ∈ w, type.pred c = false))
    (hl : (words.flatMap (· ++ [32])).length < 2 ^ 31) :
    ∃ full, splitType ((words.flatMap (· ++ [32])).length + 1) 1 type .atleast (words.flatMap (· ++ [32])) = ok full ∧
      full.map (text (words.flatMap (· ++ [32]))) = words.filter fun w => w.all type.pred := by
  obtain ⟨full, h1, h2⟩ := C52_split_strings type .atleast 1 (Nat.le_refl _) _ hl
  refine ⟨full, h1, h2.trans ?_⟩
  have hb : type.pred 32 = false := by cases type <;> decide
  show allPieces type.pred .atleast 1 _ = _
  clear h1 h2 hl
  induction words with
  | nil => simp [allPieces, List.splitOnP_nil, pieces]
  | cons w words ih =>
    have ih := ih fun w h => hw w (List.mem_cons_of_mem _ h)
    obtain ⟨hne, hk⟩ := hw w List.mem_cons_self
    rw [List.flatMap_cons, List.append_assoc, List.singleton_append]
    rcases hk with hk | hk
    · rw [allPieces_append (Nat.le_refl _) hk (by intro c hc; simp at hc; subst hc; exact hb), allPieces_skip (Nat.le_refl _) hb, ih]
      have : w.all type.pred = true := List.all_eq_true.mpr hk
      have hlen : 1 ≤ w.length := List.length_pos_iff.mpr hne
      simp [this, pieces, hlen]
    · have skip : ∀ (u t : List UInt8), (∀ c ∈ u, type.pred c = false) → allPieces type.pred .atleast 1 (u ++ t) = allPieces type.pred .atleast 1 t := by
        intro u t
        induction u with
        | nil => intro _; rfl
        | cons c u ihu =>
          intro h
          rw [List.cons_append, allPieces_skip (Nat.le_refl _) (h c List.mem_cons_self)]
          exact ihu fun c hc => h c (List.mem_cons_of_mem _ hc)
      rw [skip w _ hk, allPieces_skip (Nat.le_refl _) hb, ih]
      have : w.all type.pred = false := by
        cases w with
        | nil => exact absurd rfl hne
        | cons c w => simp [hk c List.mem_cons_self]
      simp [this]

/-- "1 A 22 BB 333 ": the numbers; and the pairs of digits. -/
example : splitType 20 1 .digits .atleast [49, 32, 65, 32, 50, 50, 32, 66, 66, 32, 51, 51, 51, 32] = ok [(0, 1), (4, 2), (10, 3)] ∧
    splitType 20 2 .digits .exactly [49, 32, 65, 32, 50, 50, 32, 66, 66, 32, 51, 51, 51, 32] = ok [(4, 2), (10, 2)] := by decide

example : ∀ w ∈ ([[49], [65], [50, 50], [66, 66]] : List (List UInt8)), w ≠ [] ∧ ((∀ c ∈ w, FindType.digits.pred c = true) ∨ ∀ c ∈ w, FindType.digits.pred c = false) := by decide

end Strtk.Consec
