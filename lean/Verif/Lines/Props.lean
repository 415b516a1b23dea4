import Mathlib.Data.List.SplitOn
import Verif.Lines.Model

/-!
# Line-based helpers: theorems (C68, C91)

The lines of a text are its newline-separated pieces, not counting an empty piece after the last newline.
-/

namespace Strtk.Lines
open Outcome

variable {σ T : Type}

/-- The lines of a text. -/
def linesOf (text : List UInt8) : List (List UInt8) :=
  let pieces := text.splitOn 10
  if pieces.getLast? = some [] then pieces.dropLast else pieces

example : linesOf [97, 10, 98, 99, 10, 10, 100] = [[97], [98, 99], [], [100]] ∧ linesOf [97, 10] = [[97]] ∧ linesOf [] = [] ∧ linesOf [10] = [[]] ∧
    linesOf [97] = [[97]] := by decide

theorem splitOn_ne_nil (t : List UInt8) : t.splitOn 10 ≠ [] := by
  unfold List.splitOn; exact List.splitOnP_ne_nil _ _

/-- A line that ends with a newline. -/
theorem linesOf_line (l rest : List UInt8) (h : 10 ∉ l) : linesOf (l ++ 10 :: rest) = l :: linesOf rest := by
  have hs : (l ++ 10 :: rest).splitOn 10 = l :: rest.splitOn 10 := by
    unfold List.splitOn
    rw [List.splitOnP_append_cons_of_forall_mem]
    · intro x hx
      rw [Bool.eq_false_iff]
      intro h10
      rw [beq_iff_eq] at h10
      subst h10; exact h hx
    · simp
  unfold linesOf
  simp only [hs]
  have hne := splitOn_ne_nil rest
  obtain ⟨p, ps, hp⟩ := List.exists_cons_of_ne_nil hne
  rw [hp, List.getLast?_cons_cons, List.dropLast_cons₂]
  split <;> rfl

/-- A last line without newline. -/
theorem linesOf_last (l : List UInt8) (h : 10 ∉ l) (hne : l ≠ []) : linesOf l = [l] := by
  have hs : l.splitOn 10 = [l] := by
    unfold List.splitOn
    apply List.splitOnP_eq_singleton
    intro x hx
    simp only [beq_eq_false_iff_ne, beq_iff_eq]
    intro h10; subst h10; exact h hx
  unfold linesOf
  simp [hs, hne]

theorem linesOf_nil : linesOf [] = [] := by decide

/-- What `getline` does: fails on the empty text, otherwise takes the next line off. -/
theorem getline_spec (text : List UInt8) : (text = [] ∧ getline text = none) ∨
    ∃ line rest, getline text = some (line, rest) ∧ linesOf text = line :: linesOf rest ∧ rest.length < text.length ∧ 10 ∉ line ∧
      (text = line ++ 10 :: rest ∨ (text = line ∧ rest = [] ∧ line ≠ [])) := by
  have key : ∀ text : List UInt8, (text = [] ∧ getline text = none) ∨ ∃ line rest, getline text = some (line, rest) ∧ 10 ∉ line ∧
      (text = line ++ 10 :: rest ∨ (text = line ∧ rest = [] ∧ line ≠ [])) := by
    intro text
    induction text with
    | nil => exact Or.inl ⟨rfl, rfl⟩
    | cons c t ih =>
      right
      unfold getline
      by_cases hc : c = newline
      · rw [if_pos hc]
        exact ⟨[], t, rfl, by simp, Or.inl (by rw [hc]; rfl)⟩
      · rw [if_neg hc]
        have hc' : (10 : UInt8) ≠ c := fun h => hc h.symm
        rcases ih with ⟨rfl, h2⟩ | ⟨line, rest, h1, h2, h3⟩
        · rw [h2]
          exact ⟨[c], [], rfl, by simp [hc'], Or.inr ⟨rfl, rfl, by simp⟩⟩
        · rw [h1]
          refine ⟨c :: line, rest, rfl, by simp [hc', h2], ?_⟩
          rcases h3 with h3 | ⟨h3, h4, _⟩
          · exact Or.inl (by rw [h3]; rfl)
          · exact Or.inr ⟨by rw [h3], h4, by simp⟩
  rcases key text with h | ⟨line, rest, h1, h2, h3⟩
  · exact Or.inl h
  · right
    refine ⟨line, rest, h1, ?_, ?_, h2, h3⟩
    · rcases h3 with h3 | ⟨h3, h4, h5⟩
      · rw [h3, linesOf_line line rest h2]
      · rw [h3, h4, linesOf_last line h2 h5, linesOf_nil]
    · rcases h3 with h3 | ⟨h3, h4, h5⟩
      · rw [h3]; simp; omega
      · rw [h3, h4]; exact List.length_pos_iff.mpr h5

theorem forEachLineLoop_eq (f : σ → List UInt8 → σ) (fuel : Nat) : ∀ (text : List UInt8) (s : σ) (count : Nat), text.length < fuel →
    forEachLineLoop f fuel text s count = ok (count + (linesOf text).length, (linesOf text).foldl f s, []) := by
  induction fuel with
  | zero => intro text _ _ h; omega
  | succ fuel ih =>
    intro text s count hf
    unfold forEachLineLoop
    rcases getline_spec text with ⟨rfl, h⟩ | ⟨line, rest, h1, h2, h3, _⟩
    · rw [h]; simp [linesOf_nil]
    · rw [h1, h2]
      simp only
      rw [ih rest _ _ (by omega), List.length_cons, List.foldl_cons]
      congr 2
      omega

/-- **C68**: `for_each_line` calls the callback with all the lines of the stream, in order, and returns their number. -/
theorem C68_all_lines (f : σ → List UInt8 → σ) (text : List UInt8) (s : σ) :
    forEachLine f text s = ok ((linesOf text).length, (linesOf text).foldl f s, []) := by
  unfold forEachLine
  rw [forEachLineLoop_eq f _ text s 0 (by omega), Nat.zero_add]

example : forEachLine (fun (s : List (List UInt8)) l => s ++ [l]) [97, 10, 10, 98] [] = ok (3, [[97], [], [98]], []) := by decide

theorem forEachLineNLoop_eq (n : Nat) (f : σ → List UInt8 → σ) (fuel : Nat) : ∀ (text : List UInt8) (s : σ) (count : Nat), text.length < fuel →
    count < n → ∃ rest, forEachLineNLoop n f fuel text s count =
      ok (min n (count + (linesOf text).length), ((linesOf text).take (n - count)).foldl f s, rest) ∧
        linesOf rest = (linesOf text).drop (n - count) := by
  induction fuel with
  | zero => intro text _ _ h; omega
  | succ fuel ih =>
    intro text s count hf hc
    unfold forEachLineNLoop
    rcases getline_spec text with ⟨rfl, h⟩ | ⟨line, rest, h1, h2, h3, _⟩
    · rw [h]
      refine ⟨[], ?_, by simp [linesOf_nil]⟩
      simp only [linesOf_nil, List.take_nil, List.foldl_nil, List.length_nil, Nat.add_zero]
      rw [Nat.min_eq_right (by omega)]
    · rw [h1, h2]
      simp only
      have hsub : n - count = (n - (count + 1)) + 1 := by omega
      by_cases hn : n = count + 1
      · rw [if_pos hn]
        refine ⟨rest, ?_, ?_⟩
        · rw [hsub, List.take_succ_cons, List.foldl_cons, List.length_cons]
          have : n - (count + 1) = 0 := by omega
          rw [this, List.take_zero, List.foldl_nil, Nat.min_eq_left (by omega), hn]
        · rw [hsub, List.drop_succ_cons]
          have : n - (count + 1) = 0 := by omega
          rw [this, List.drop_zero]
      · rw [if_neg hn]
        obtain ⟨r, h4, h5⟩ := ih rest (f s line) (count + 1) (by omega) (by omega)
        refine ⟨r, ?_, ?_⟩
        · rw [h4, hsub, List.take_succ_cons, List.foldl_cons, List.length_cons]
          congr 2
          omega
        · rw [h5, hsub, List.drop_succ_cons]

/-- **C68** (partial: `n ≥ 1`): `for_each_line_n` calls the callback with the first `n` lines (all of them if there are fewer), returns
how many that were, and leaves the stream at the line after. -/
theorem C68_first_n_partial (n : Nat) (hn : 1 ≤ n) (f : σ → List UInt8 → σ) (text : List UInt8) (s : σ) :
    ∃ rest, forEachLineN n f text s = ok (min n (linesOf text).length, ((linesOf text).take n).foldl f s, rest) ∧
      linesOf rest = (linesOf text).drop n := by
  obtain ⟨rest, h1, h2⟩ := forEachLineNLoop_eq n f (text.length + 1) text s 0 (by omega) hn
  rw [Nat.zero_add, Nat.sub_zero] at h1
  exact ⟨rest, h1, h2⟩

/-- **C68** (negative result): `for_each_line_n` with `n = 0` processes every line. -/
theorem C68_zero_is_all (f : σ → List UInt8 → σ) (text : List UInt8) (s : σ) :
    forEachLineN 0 f text s = ok ((linesOf text).length, (linesOf text).foldl f s, []) := by
  have : ∀ fuel text s count, forEachLineNLoop 0 f fuel text s count = forEachLineLoop f fuel text s count := by
    intro fuel
    induction fuel with
    | zero => intro _ _ _; rfl
    | succ fuel ih =>
      intro text s count
      unfold forEachLineNLoop forEachLineLoop
      cases getline text with
      | none => rfl
      | some p =>
        simp only
        rw [if_neg (by omega), ih]
  unfold forEachLineN
  rw [this, forEachLineLoop_eq f _ text s 0 (by omega), Nat.zero_add]

example : ∃ rest, forEachLineN 2 (fun (s : List (List UInt8)) l => s ++ [l]) [97, 10, 10, 98] [] = ok (2, [[97], []], rest) := ⟨[98], by decide⟩

/-- **C68**: processing the first `n` lines and then the rest of the stream is the same as processing the stream. -/
theorem C68_resume (n : Nat) (hn : 1 ≤ n) (f : σ → List UInt8 → σ) (text : List UInt8) (s : σ) :
    ∃ k m s1 rest, forEachLineN n f text s = ok (k, s1, rest) ∧ forEachLine f rest s1 = ok (m, (linesOf text).foldl f s, []) ∧
      k + m = (linesOf text).length := by
  obtain ⟨rest, h1, h2⟩ := C68_first_n_partial n hn f text s
  refine ⟨_, (linesOf text).length - min n (linesOf text).length, _, rest, h1, ?_, ?_⟩
  · rw [C68_all_lines, h2, List.length_drop, ← List.foldl_append, List.take_append_drop]
    congr 2
    omega
  · omega

/-- The state of the callback after the first `j` lines. -/
def stateAfter (f : σ → List UInt8 → Bool × σ) (lines : List (List UInt8)) (s : σ) (j : Nat) : σ :=
  (lines.take j).foldl (fun s l => (f s l).2) s

/-- What a conditional traversal of `lines` that stops after at most `limit` lines should do: `k` lines are accepted; then either
the next line is refused, or the limit is reached, or there is none. -/
structure StopsAt (f : σ → List UInt8 → Bool × σ) (lines : List (List UInt8)) (limit : Nat) (s : σ) (k : Nat) (s' : σ) (left : List (List UInt8)) :
    Prop where
  inRange : k ≤ lines.length ∧ k ≤ limit
  accepted : ∀ j line, j < k → lines[j]? = some line → (f (stateAfter f lines s j) line).1 = true
  stop : (k = min limit lines.length ∧ s' = stateAfter f lines s k ∧ left = lines.drop k) ∨
    ∃ line, k < limit ∧ lines[k]? = some line ∧ (f (stateAfter f lines s k) line).1 = false ∧ s' = stateAfter f lines s (k + 1) ∧
      left = lines.drop (k + 1)

theorem StopsAt.cons {f : σ → List UInt8 → Bool × σ} {line : List UInt8} {lines : List (List UInt8)} {limit : Nat} {s : σ} {k : Nat} {s' : σ}
    {left : List (List UInt8)} (hgo : (f s line).1 = true) (h : StopsAt f lines limit (f s line).2 k s' left) :
    StopsAt f (line :: lines) (limit + 1) s (k + 1) s' left := by
  obtain ⟨h1, h2, h3⟩ := h
  refine ⟨⟨by simp; omega, by omega⟩, ?_, ?_⟩
  · intro j l hj hl
    cases j with
    | zero => simp at hl; subst hl; simpa [stateAfter] using hgo
    | succ j =>
      have := h2 j l (by omega) (by simpa using hl)
      simpa [stateAfter] using this
  · rcases h3 with ⟨h3, h4, h5⟩ | ⟨l, h3, h4, h5, h6, h7⟩
    · left
      refine ⟨by rw [h3, List.length_cons]; omega, by simpa [stateAfter] using h4, by simpa using h5⟩
    · right
      exact ⟨l, by omega, by simpa using h4, by simpa [stateAfter] using h5, by simpa [stateAfter] using h6, by simpa using h7⟩

theorem forEachLineCondLoop_eq (f : σ → List UInt8 → Bool × σ) (fuel : Nat) : ∀ (text : List UInt8) (s : σ) (count : Nat), text.length < fuel →
    ∃ k s' rest, forEachLineCondLoop f fuel text s count = ok (count + k, s', rest) ∧
      StopsAt f (linesOf text) (linesOf text).length s k s' (linesOf rest) := by
  induction fuel with
  | zero => intro text _ _ h; omega
  | succ fuel ih =>
    intro text s count hf
    unfold forEachLineCondLoop
    rcases getline_spec text with ⟨rfl, h⟩ | ⟨line, rest, h1, h2, h3, _⟩
    · rw [h]
      refine ⟨0, s, [], rfl, ⟨by simp, by intro j l hj; omega, Or.inl ⟨by simp [linesOf_nil], rfl, by simp [linesOf_nil]⟩⟩⟩
    · rw [h1, h2]
      simp only
      by_cases hgo : (f s line).1 = true
      · rw [if_pos hgo]
        obtain ⟨k, s', r, h4, h5⟩ := ih rest (f s line).2 (count + 1) (by omega)
        refine ⟨k + 1, s', r, ?_, h5.cons hgo⟩
        rw [h4]; congr 2; omega
      · rw [if_neg hgo]
        refine ⟨0, _, rest, rfl, ⟨by simp, by intro j l hj; omega, Or.inr ⟨line, by simp, by simp, by simpa [stateAfter] using hgo, ?_, by simp⟩⟩⟩
        simp [stateAfter]

/-- **C68**: the conditional form goes through the lines in order, stops at the first line for which the callback returns false (that
line is consumed), and returns the number of lines for which it returned true. -/
theorem C68_conditional (f : σ → List UInt8 → Bool × σ) (text : List UInt8) (s : σ) :
    ∃ k s' rest, forEachLineCond f text s = ok (k, s', rest) ∧ StopsAt f (linesOf text) (linesOf text).length s k s' (linesOf rest) := by
  obtain ⟨k, s', rest, h1, h2⟩ := forEachLineCondLoop_eq f (text.length + 1) text s 0 (by omega)
  rw [Nat.zero_add] at h1
  exact ⟨k, s', rest, h1, h2⟩

theorem forEachLineNCondLoop_eq (n : Nat) (f : σ → List UInt8 → Bool × σ) (fuel : Nat) : ∀ (text : List UInt8) (s : σ) (count : Nat),
    text.length < fuel → count < n → ∃ k s' rest, forEachLineNCondLoop n f fuel text s count = ok (count + k, s', rest) ∧
      StopsAt f (linesOf text) (n - count) s k s' (linesOf rest) := by
  induction fuel with
  | zero => intro text _ _ h; omega
  | succ fuel ih =>
    intro text s count hf hc
    unfold forEachLineNCondLoop
    have hsub : n - count = (n - (count + 1)) + 1 := by omega
    rcases getline_spec text with ⟨rfl, h⟩ | ⟨line, rest, h1, h2, h3, _⟩
    · rw [h]
      refine ⟨0, s, [], rfl, ⟨by simp, by intro j l hj; omega, Or.inl ⟨by simp [linesOf_nil], rfl, by simp [linesOf_nil]⟩⟩⟩
    · rw [h1, h2]
      simp only
      by_cases hgo : (f s line).1 = true
      · rw [if_pos hgo]
        by_cases hn : n = count + 1
        · rw [if_pos hn]
          refine ⟨1, _, rest, rfl, ?_⟩
          rw [hsub]
          have h0 : n - (count + 1) = 0 := by omega
          rw [h0]
          refine StopsAt.cons hgo ⟨by simp, by intro j l hj; omega, Or.inl ⟨by simp, by simp [stateAfter], by simp⟩⟩
        · rw [if_neg hn]
          obtain ⟨k, s', r, h4, h5⟩ := ih rest (f s line).2 (count + 1) (by omega) (by omega)
          refine ⟨k + 1, s', r, ?_, ?_⟩
          · rw [h4]; congr 2; omega
          · rw [hsub]; exact h5.cons hgo
      · rw [if_neg hgo]
        refine ⟨0, _, rest, rfl, ⟨by simp, by intro j l hj; omega, Or.inr ⟨line, by omega, by simp, by simpa [stateAfter] using hgo, ?_, by simp⟩⟩⟩
        simp [stateAfter]

/-- **C68** (partial: `n ≥ 1`): the conditional form with a limit also stops after `n` lines. -/
theorem C68_conditional_n_partial (n : Nat) (hn : 1 ≤ n) (f : σ → List UInt8 → Bool × σ) (text : List UInt8) (s : σ) :
    ∃ k s' rest, forEachLineNCond n f text s = ok (k, s', rest) ∧ StopsAt f (linesOf text) n s k s' (linesOf rest) := by
  obtain ⟨k, s', rest, h1, h2⟩ := forEachLineNCondLoop_eq n f (text.length + 1) text s 0 (by omega) hn
  rw [Nat.zero_add] at h1
  exact ⟨k, s', rest, h1, h2⟩

/-- Non-vacuity: lines 1, 2, 3, 4 with a callback that refuses "3": two lines are accepted, the third is consumed. -/
example : forEachLineCond (fun (s : List (List UInt8)) l => (l ≠ [51], s ++ [l])) [49, 10, 50, 10, 51, 10, 52] [] =
    ok (2, [[49], [50], [51]], [52]) ∧
    forEachLineNCond 1 (fun (s : List (List UInt8)) l => (l ≠ [51], s ++ [l])) [49, 10, 50, 10, 51, 10, 52] [] =
      ok (1, [[49]], [50, 10, 51, 10, 52]) := by decide

/-- **C68**: the overloads for file names do the same on the contents of the file, and nothing (returning 0) if it cannot be opened. -/
theorem C68_file (f : σ → List UInt8 → σ) (s : σ) :
    onFile none s (forEachLine f) = ok (0, s) ∧
    ∀ text, onFile (some text) s (forEachLine f) = ok ((linesOf text).length, (linesOf text).foldl f s) := by
  refine ⟨rfl, ?_⟩
  intro text
  unfold onFile
  simp only
  rw [C68_all_lines]; rfl

/-- **C68**: `for_each_token` calls the callback with every token, in order, and returns their number. -/
theorem C68_tokens {τ : Type} (f : σ → τ → σ) (tokens : List τ) (s : σ) : forEachToken f tokens s 0 = (tokens.length, tokens.foldl f s) := by
  have : ∀ (tokens : List τ) s count, forEachToken f tokens s count = (count + tokens.length, tokens.foldl f s) := by
    intro tokens
    induction tokens with
    | nil => intro s count; rfl
    | cons t ts ih => intro s count; unfold forEachToken; rw [ih, List.length_cons, List.foldl_cons]; congr 1; omega
  rw [this, Nat.zero_add]

/-- **C68**: `read_line_as_value` fails at the end of the stream without touching the value, and otherwise consumes one line and
converts it. -/
theorem C68_read_line_as_value (conv : List UInt8 → T → Bool × T) (t : T) (text : List UInt8) :
    (linesOf text = [] → readLineAsValue conv text t = (false, t, text)) ∧
    ∀ line more, linesOf text = line :: more → ∃ rest, linesOf rest = more ∧
      readLineAsValue conv text t = ((conv line t).1, (conv line t).2, rest) := by
  unfold readLineAsValue
  rcases getline_spec text with ⟨rfl, h⟩ | ⟨line, rest, h1, h2, h3, _⟩
  · rw [h]; exact ⟨fun _ => rfl, by intro l m hl; simp [linesOf_nil] at hl⟩
  · rw [h1, h2]
    refine ⟨by simp, ?_⟩
    intro l m hl
    simp only [List.cons.injEq] at hl
    obtain ⟨rfl, rfl⟩ := hl
    exact ⟨rest, rfl, rfl⟩

/-! ## Text files of values (C91) -/

theorem loadLoop_eq (conv : List UInt8 → Option T) (fuel : Nat) : ∀ (text : List UInt8) (seq : List T) (count : Nat), text.length < fuel →
    loadLoop conv fuel text seq count = match (linesOf text).mapM conv with
      | some vs => ok (count + vs.length, seq ++ vs)
      | none => thrown := by
  induction fuel with
  | zero => intro text _ _ h; omega
  | succ fuel ih =>
    intro text seq count hf
    unfold loadLoop
    rcases getline_spec text with ⟨rfl, h⟩ | ⟨line, rest, h1, h2, h3, _⟩
    · rw [h]; simp [linesOf_nil]
    · rw [h1, h2]
      simp only [List.mapM_cons]
      cases hc : conv line with
      | none => simp
      | some v =>
        simp only
        rw [ih rest _ _ (by omega)]
        cases (linesOf rest).mapM conv with
        | none => simp
        | some vs => simp; omega

/-- **C91**: `load_from_text_file` appends the values of all the lines, in order, and returns their number; if some line does not
convert it throws. -/
theorem C91_load (conv : List UInt8 → Option T) (text : List UInt8) (seq : List T) :
    (∀ vs, (linesOf text).mapM conv = some vs → loadFromText conv text seq = ok (vs.length, seq ++ vs)) ∧
    ((∃ line ∈ linesOf text, conv line = none) → loadFromText conv text seq = thrown) := by
  have h := loadLoop_eq conv (text.length + 1) text seq 0 (by omega)
  unfold loadFromText
  constructor
  · intro vs hv
    rw [h, hv]; simp
  · rintro ⟨line, hl, hc⟩
    have : (linesOf text).mapM conv = none := by
      clear h
      generalize linesOf text = ls at *
      induction ls with
      | nil => cases hl
      | cons l ls ih =>
        rw [List.mapM_cons]
        rcases List.mem_cons.mp hl with rfl | hl
        · rw [hc]; rfl
        · rw [ih hl]; cases conv l <;> rfl
    rw [h, this]

theorem writeToText_eq (show' : T → List UInt8) (delimiter : List UInt8) (ts : List T) : ∀ (out : List UInt8) (count : Nat),
    writeToText show' delimiter ts out count = (count + ts.length, out ++ (ts.map (fun t => show' t ++ delimiter)).flatten) := by
  induction ts with
  | nil => intro out count; simp [writeToText]
  | cons t ts ih =>
    intro out count
    unfold writeToText
    by_cases h : delimiter = []
    · subst h
      rw [if_neg (by simp), ih]
      simp; omega
    · rw [if_pos h, ih]
      simp; omega

/-- **C91**: `write_to_text_file` writes every element followed by the delimiter and returns the number of elements. -/
theorem C91_write (show' : T → List UInt8) (delimiter : List UInt8) (ts : List T) :
    writeToText show' delimiter ts [] 0 = (ts.length, (ts.map (fun t => show' t ++ delimiter)).flatten) := by
  rw [writeToText_eq]; simp

/-- **C91**: values written one per line are loaded back unchanged, provided their texts contain no newline and convert back. -/
theorem C91_round_trip (show' : T → List UInt8) (conv : List UInt8 → Option T) (ts seq : List T) (hn : ∀ t ∈ ts, 10 ∉ show' t)
    (hc : ∀ t ∈ ts, conv (show' t) = some t) :
    loadFromText conv (writeToText show' [10] ts [] 0).2 seq = ok (ts.length, seq ++ ts) := by
  have hl : linesOf (ts.map (fun t => show' t ++ [10])).flatten = ts.map show' := by
    clear hc
    induction ts with
    | nil => exact linesOf_nil
    | cons t ts ih =>
      rw [List.map_cons, List.flatten_cons, List.append_assoc, List.singleton_append, linesOf_line _ _ (hn t (by simp)),
        ih (fun x hx => hn x (by simp [hx]))]
      rfl
  have hm : (linesOf (ts.map (fun t => show' t ++ [10])).flatten).mapM conv = some ts := by
    rw [hl]
    clear hl hn
    induction ts with
    | nil => rfl
    | cons t ts ih =>
      rw [List.map_cons, List.mapM_cons, hc t (by simp), ih (fun x hx => hc x (by simp [hx]))]
      rfl
  rw [C91_write]
  exact (C91_load conv _ seq).1 ts hm

/-- Non-vacuity: strings without newlines, with the string conversion. -/
example : loadFromText some (writeToText id [10] [[97], [], [98, 99]] [] 0).2 [[120]] = ok (3, [[120], [97], [], [98, 99]]) := by decide

/-! ### Concrete cases of C68 -/

example : ∃ k m s1 rest, forEachLineN 2 (fun (s : List (List UInt8)) l => s ++ [l]) [97, 10, 10, 98] [] = ok (k, s1, rest) ∧
    forEachLine (fun (s : List (List UInt8)) l => s ++ [l]) rest s1 = ok (m, [[97], [], [98]], []) ∧ k + m = 3 :=
  C68_resume 2 (by decide) (fun (s : List (List UInt8)) l => s ++ [l]) [97, 10, 10, 98] []

example : forEachToken (fun (s : List Nat) t => s ++ [t * 2]) [1, 2, 3] [9] 0 = (3, [9, 2, 4, 6]) := C68_tokens _ [1, 2, 3] [9]

end Strtk.Lines
