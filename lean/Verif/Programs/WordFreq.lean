import Verif.Grid.Load
import Verif.Parse.Props
import Verif.Lines.Props
import Verif.ExtString.Props
import Verif.Codec.Props

/-!
# The word frequency program strtk_wordfreq.cpp

Line numbers refer to strtk_wordfreq.cpp.  The text read is a list of bytes.  The printing of the result (122-134) is left out: the model gives the word count
and the entries of the map in the order in which they are printed.
-/

namespace Strtk.Programs
open Outcome Strtk.Codec Strtk.Split Strtk.Lines

/-- `++map_[w]` (73) on a `std::map<std::string,unsigned int>` (44): its entries in the order of the keys. -/
def bump (w : List Byte) : List (List Byte × Nat) → List (List Byte × Nat)
  | [] => [(w, 1)]
  | (k, n) :: t => if w < k then (w, 1) :: (k, n) :: t else if k < w then (k, n) :: bump w t else (k, (n + 1) % 2 ^ 32) :: t

/-- `word_count_` and `map_` (84-85). -/
structure Freq where
  count : Nat
  map : List (List Byte × Nat)
deriving DecidableEq

/-- `line_parser::operator=(range)` (67-74). -/
def takeWord (st : Freq) (w : List Byte) : Freq := if w = [] then st else ⟨(st.count + 1) % 2 ^ 64, bump (toLowercase w) st.map⟩

/-- `line_parser::operator()(line)` (61-65); the tokens go through the output iterator one after another. -/
def takeLine (delims : List Byte) (st : Freq) (line : List Byte) : Outcome Freq :=
  if line = [] then ok st else do
    let (r, _) ← split { compress := true } (Parse.delimPred delims) line
    ok ((r.map (textOf line)).foldl takeWord st)

/-- The delimiters (95-97). -/
def wordDelims : Outcome (List Byte) := do
  let s ← ExtString.sub ExtString.allChars ((List.range 26).map fun i => BitVec.ofNat 8 (97 + i))
  ExtString.sub s ((List.range 26).map fun i => BitVec.ofNat 8 (65 + i))

/-- `main` up to the printing (90-120): the lines of the text are passed on one by one. -/
def wordFreq (text : List UInt8) : Outcome Freq := do
  let delims ← wordDelims
  let (_, st, _) ← forEachLine (fun st line => do
    let st ← st
    takeLine delims st (line.map UInt8.toBitVec)) text (ok ⟨0, []⟩)
  st

/-! ## Specification -/

/-- A letter. -/
def Letter (c : Byte) : Prop := (65 ≤ c.toNat ∧ c.toNat ≤ 90) ∨ (97 ≤ c.toNat ∧ c.toNat ≤ 122)

instance (c : Byte) : Decidable (Letter c) := by unfold Letter; infer_instance

/-- A letter in lower case. -/
def lower (c : Byte) : Byte := if 65 ≤ c.toNat ∧ c.toNat ≤ 90 then BitVec.ofNat 8 (c.toNat + 32) else c

/-- The words of a text: what lies between characters that are no letters, in lower case. -/
def words (text : List Byte) : List (List Byte) := ((text.splitOnP fun c => !decide (Letter c)).filter fun w => !w.isEmpty).map fun w => w.map lower

theorem toLowercase_eq (s : List Byte) : toLowercase s = s.map lower := by
  induction s with
  | nil => rfl
  | cons c s ih => simp [toLowercase, ih, tolowerC, lower]

theorem wordDelims_spec : ∃ delims, wordDelims = ok delims ∧ ∀ c : Byte, decide (c ∈ delims) = !decide (Letter c) := by
  have h : wordDelims = ok (ExtString.allChars.filter fun c => !decide (Letter c)) := by decide +kernel
  refine ⟨_, h, ?_⟩
  have hm : ∀ c : Byte, c ∈ ExtString.allChars := by decide +kernel
  intro c
  simp [List.mem_filter, hm]

/-- Taking words one after another. -/
def addWord (st : Freq) (w : List Byte) : Freq := ⟨(st.count + 1) % 2 ^ 64, bump w st.map⟩

theorem takeWords (ws : List (List Byte)) : ∀ st, ws.foldl takeWord st = ((ws.filter fun w => !w.isEmpty).map fun w => w.map lower).foldl addWord st := by
  induction ws with
  | nil => intro st; rfl
  | cons w ws ih =>
    intro st
    rw [List.foldl_cons, ih]
    by_cases hw : w = []
    · subst hw; simp [takeWord]
    · have : (!w.isEmpty) = true := by simp [hw]
      simp [takeWord, hw, addWord, toLowercase_eq]

theorem takeLine_spec (delims : List Byte) (hd : ∀ c : Byte, decide (c ∈ delims) = !decide (Letter c)) (st : Freq) (line : List Byte) :
    takeLine delims st line = ok ((words line).foldl addWord st) := by
  unfold takeLine
  by_cases hl : line = []
  · subst hl; simp [words]
  · rw [if_neg hl, Parse.C79_delimiter_string]
    have hf : (fun c : Byte => decide (c ∈ delims)) = fun c => !decide (Letter c) := funext hd
    rw [hf]
    obtain ⟨r, h1, h2⟩ := C02_split_compress (fun c : Byte => !decide (Letter c)) line hl
    rw [h1, ok_bind]
    simp only
    rw [takeWords, h2, Grid.lines_collapse]
    rfl

theorem words_line (l r : List Byte) : words (l ++ 10 :: r) = words l ++ words r := by
  unfold words
  rw [List.splitOnP_append_cons _ _ (by decide), List.filter_append, List.map_append]

theorem words_linesOf (n : Nat) : ∀ text : List UInt8, text.length ≤ n →
    ((linesOf text).map fun l => words (l.map UInt8.toBitVec)).flatten = words (text.map UInt8.toBitVec) := by
  induction n with
  | zero =>
    intro text h
    have : text = [] := List.length_eq_zero_iff.mp (by omega)
    subst this
    rw [linesOf_nil]; simp [words]
  | succ n ih =>
    intro text h
    rcases getline_spec text with ⟨rfl, _⟩ | ⟨line, rest, _, h2, h3, _, h5⟩
    · rw [linesOf_nil]; simp [words]
    · rw [h2, List.map_cons, List.flatten_cons, ih rest (by omega)]
      rcases h5 with rfl | ⟨rfl, rfl, _⟩
      · rw [List.map_append, List.map_cons]
        exact (words_line _ _).symm
      · simp [words]

theorem wordFreq_eq (text : List UInt8) : wordFreq text = ok ((words (text.map UInt8.toBitVec)).foldl addWord ⟨0, []⟩) := by
  obtain ⟨delims, h1, h2⟩ := wordDelims_spec
  unfold wordFreq
  rw [h1, ok_bind, C68_all_lines, ok_bind]
  simp only
  have : ∀ (ls : List (List UInt8)) (st : Freq), ls.foldl (fun (st : Outcome Freq) line => do
      let st ← st
      takeLine delims st (line.map UInt8.toBitVec)) (ok st) = ok ((ls.map fun l => words (l.map UInt8.toBitVec)).flatten.foldl addWord st) := by
    intro ls
    induction ls with
    | nil => intro st; rfl
    | cons l ls ih =>
      intro st
      rw [List.foldl_cons, ok_bind, takeLine_spec delims h2, ih, List.map_cons, List.flatten_cons, List.foldl_append]
  rw [this, words_linesOf text.length text (by omega)]

/-! ### The map -/

instance : Trans (α := Byte) (· < ·) (· < ·) (· < ·) := ⟨fun h1 h2 => BitVec.lt_trans h1 h2⟩

theorem word_lt_trans {a b c : List Byte} (h1 : a < b) (h2 : b < c) : a < c := List.lt_trans h1 h2
theorem word_eq {a b : List Byte} (h1 : ¬ a < b) (h2 : ¬ b < a) : a = b := List.le_antisymm (List.not_lt.mp h2) (List.not_lt.mp h1)

/-- The entries are in strictly increasing order. -/
def Sorted (m : List (List Byte × Nat)) : Prop := m.Pairwise fun a b => a.1 < b.1

/-- The number stored for a word, 0 if there is no entry. -/
def stored (m : List (List Byte × Nat)) (w : List Byte) : Nat := ((m.find? fun e => e.1 == w).map Prod.snd).getD 0

theorem bump_keys (w : List Byte) (m : List (List Byte × Nat)) : ∀ e ∈ bump w m, e.1 = w ∨ e.1 ∈ m.map Prod.fst := by
  induction m with
  | nil => simp [bump]
  | cons e m ih =>
    obtain ⟨k, n⟩ := e
    simp only [bump]
    intro x hx
    split at hx
    · simp only [List.mem_cons] at hx
      rcases hx with rfl | rfl | hx
      · exact .inl rfl
      · exact .inr (by simp)
      · exact .inr (by simp only [List.map_cons, List.mem_cons]; exact .inr (List.mem_map_of_mem hx))
    · split at hx
      · simp only [List.mem_cons] at hx
        rcases hx with rfl | hx
        · exact .inr (by simp)
        · rcases ih x hx with h | h
          · exact .inl h
          · exact .inr (by simp only [List.map_cons, List.mem_cons]; exact .inr h)
      · simp only [List.mem_cons] at hx
        rcases hx with rfl | hx
        · exact .inr (by simp)
        · exact .inr (by simp only [List.map_cons, List.mem_cons]; exact .inr (List.mem_map_of_mem hx))

theorem bump_sorted (w : List Byte) (m : List (List Byte × Nat)) (h : Sorted m) : Sorted (bump w m) := by
  induction m with
  | nil => simp [bump, Sorted]
  | cons e m ih =>
    obtain ⟨k, n⟩ := e
    have h' := List.pairwise_cons.mp h
    simp only [bump]
    split
    · rename_i hwk
      refine List.pairwise_cons.mpr ⟨fun x hx => ?_, h⟩
      rcases List.mem_cons.mp hx with rfl | hx
      · exact hwk
      · exact word_lt_trans hwk (h'.1 x hx)
    · split
      · rename_i hkw
        refine List.pairwise_cons.mpr ⟨fun x hx => ?_, ih h'.2⟩
        rcases bump_keys w m x hx with e | e
        · rw [e]; exact hkw
        · obtain ⟨y, hy, e⟩ := List.mem_map.mp e
          rw [← e]; exact h'.1 y hy
      · exact List.pairwise_cons.mpr ⟨h'.1, h'.2⟩

theorem stored_lt (k : List Byte) (m : List (List Byte × Nat)) (h : ∀ e ∈ m, k < e.1) : stored m k = 0 := by
  have : m.find? (fun e => e.1 == k) = none := by
    rw [List.find?_eq_none]
    intro e he
    simp only [beq_iff_eq]
    intro hk
    exact List.lt_irrefl _ (hk ▸ h e he)
  simp [stored, this]

theorem bump_stored (w v : List Byte) (m : List (List Byte × Nat)) (h : Sorted m) : stored (bump w m) v = if v = w then (stored m v + 1) % 2 ^ 32 else stored m v := by
  induction m with
  | nil =>
    simp only [bump, stored, List.find?_cons, List.find?_nil]
    by_cases hv : v = w
    · subst hv; simp
    · have : (w == v) = false := by simpa using Ne.symm hv
      simp [this, hv]
  | cons e m ih =>
    obtain ⟨k, n⟩ := e
    have h' := List.pairwise_cons.mp h
    simp only [bump]
    split
    · rename_i hwk
      by_cases hv : v = w
      · subst hv
        rw [if_pos rfl, stored_lt v ((k, n) :: m)]
        · simp [stored]
        · intro x hx
          rcases List.mem_cons.mp hx with rfl | hx
          · exact hwk
          · exact word_lt_trans hwk (h'.1 x hx)
      · rw [if_neg hv]
        have : (w == v) = false := by simpa using Ne.symm hv
        simp [stored, List.find?_cons, this]
    · rename_i hwk
      have hcons : ∀ t, stored ((k, n) :: t) v = if k = v then n else stored t v := by
        intro t
        by_cases hk : k = v
        · simp [stored, List.find?_cons, hk]
        · have : (k == v) = false := by simpa using hk
          simp [stored, List.find?_cons, this, hk]
      split
      · rename_i hkw
        rw [hcons, hcons, ih h'.2]
        by_cases hk : k = v
        · subst hk
          have : k ≠ w := fun e => List.lt_irrefl _ (e ▸ hkw)
          simp [this]
        · simp [hk]
      · rename_i hkw
        have e := word_eq hwk hkw
        subst e
        have hcons' : ∀ t n', stored ((w, n') :: t) v = if w = v then n' else stored t v := by
          intro t n'
          by_cases hk : w = v
          · simp [stored, List.find?_cons, hk]
          · have : (w == v) = false := by simpa using hk
            simp [stored, List.find?_cons, this, hk]
        rw [hcons', hcons']
        by_cases hv : v = w
        · subst hv; simp
        · simp [hv, Ne.symm hv]

theorem addWords (ws : List (List Byte)) : ∀ st : Freq, Sorted st.map → (∀ e ∈ st.map, e.2 < 2 ^ 32) → st.count < 2 ^ 64 →
    Sorted (ws.foldl addWord st).map ∧ (ws.foldl addWord st).count = (st.count + ws.length) % 2 ^ 64 ∧
    (∀ w, stored (ws.foldl addWord st).map w = (stored st.map w + ws.count w) % 2 ^ 32) ∧
    (∀ e ∈ (ws.foldl addWord st).map, e.1 ∈ ws ∨ e.1 ∈ st.map.map Prod.fst) ∧
    (∀ k, k ∈ ws ∨ k ∈ st.map.map Prod.fst → k ∈ (ws.foldl addWord st).map.map Prod.fst) := by
  have hkeep : ∀ (w : List Byte) (m : List (List Byte × Nat)) (k : List Byte), k = w ∨ k ∈ m.map Prod.fst → k ∈ (bump w m).map Prod.fst := by
    intro w m
    induction m with
    | nil => intro k hk; simpa [bump] using hk
    | cons e m ih =>
      obtain ⟨k', n⟩ := e
      intro k hk
      simp only [bump]
      split
      · simpa using hk
      · split
        · simp only [List.map_cons, List.mem_cons] at hk ⊢
          rcases hk with hk | hk | hk
          · exact .inr (ih k (.inl hk))
          · exact .inl hk
          · exact .inr (ih k (.inr hk))
        · rename_i h1 h2
          have := word_eq h1 h2
          subst this
          simp only [List.map_cons, List.mem_cons] at hk ⊢
          rcases hk with hk | hk | hk
          · exact .inl hk
          · exact .inl hk
          · exact .inr hk
  have hsmall : ∀ (w : List Byte) (m : List (List Byte × Nat)), (∀ e ∈ m, e.2 < 2 ^ 32) → ∀ e ∈ bump w m, e.2 < 2 ^ 32 := by
    intro w m
    induction m with
    | nil => intro _ e he; simp [bump] at he; subst he; exact (by decide : 1 < 2 ^ 32)
    | cons e m ih =>
      obtain ⟨k', n⟩ := e
      intro hm x hx
      simp only [bump] at hx
      have hm' := fun y hy => hm y (List.mem_cons_of_mem _ hy)
      split at hx
      · rcases List.mem_cons.mp hx with rfl | hx
        · exact (by decide : 1 < 2 ^ 32)
        · exact hm x hx
      · split at hx
        · rcases List.mem_cons.mp hx with rfl | hx
          · exact hm _ (by simp)
          · exact ih hm' x hx
        · rcases List.mem_cons.mp hx with rfl | hx
          · exact Nat.mod_lt _ (by decide)
          · exact hm' x hx
  induction ws with
  | nil =>
    intro st h hs hc
    refine ⟨h, by rw [List.foldl_nil, List.length_nil, Nat.add_zero, Nat.mod_eq_of_lt hc], fun w => ?_, fun e he => .inr (List.mem_map_of_mem he), fun k hk => by simpa using hk⟩
    have : stored st.map w < 2 ^ 32 := by
      unfold stored
      cases hf : st.map.find? fun e => e.1 == w with
      | none => simp
      | some e => simpa using hs e (List.mem_of_find?_eq_some hf)
    rw [List.foldl_nil, List.count_nil, Nat.add_zero, Nat.mod_eq_of_lt this]
  | cons w ws ih =>
    intro st h hs hc
    obtain ⟨i1, i2, i3, i4, i5⟩ := ih (addWord st w) (bump_sorted w st.map h) (hsmall w st.map hs) (Nat.mod_lt _ (by decide))
    rw [List.foldl_cons]
    refine ⟨i1, ?_, fun v => ?_, fun e he => ?_, fun k hk => ?_⟩
    · rw [i2, List.length_cons]; simp only [addWord]; omega
    · rw [i3, List.count_cons]
      simp only [addWord]
      rw [bump_stored w v st.map h]
      by_cases hv : v = w
      · subst hv; simp; omega
      · have : (w == v) = false := by simpa using Ne.symm hv
        simp [hv, this]
    · rcases i4 e he with h | h
      · exact .inl (List.mem_cons_of_mem _ h)
      · obtain ⟨y, hy, e'⟩ := List.mem_map.mp h
        rcases bump_keys w st.map y hy with h | h
        · exact .inl (by rw [← e', h]; simp)
        · exact .inr (by rw [← e']; exact h)
    · apply i5
      rcases hk with hk | hk
      · rcases List.mem_cons.mp hk with hk | hk
        · exact .inr (hkeep w st.map k (.inl hk))
        · exact .inl hk
      · exact .inr (hkeep w st.map k (.inr hk))

/-- C128: for a text of any length and any bytes, the word count is the number of words of the whole text (modulo 2^64), the entries are listed in the order
of the words without repetition, the words listed are those that occur in the text, and the number of each is the number of its occurrences, in upper or lower
case (modulo 2^32). -/
theorem C128_wordfreq (text : List UInt8) : ∃ r, wordFreq text = ok r ∧
    r.count = (words (text.map UInt8.toBitVec)).length % 2 ^ 64 ∧
    r.map.Pairwise (fun a b => a.1 < b.1) ∧
    (∀ w, (∃ n, (w, n) ∈ r.map) ↔ w ∈ words (text.map UInt8.toBitVec)) ∧
    ∀ w n, (w, n) ∈ r.map → n = (words (text.map UInt8.toBitVec)).count w % 2 ^ 32 := by
  refine ⟨_, wordFreq_eq text, ?_⟩
  obtain ⟨h1, h2, h3, h4, h5⟩ := addWords (words (text.map UInt8.toBitVec)) ⟨0, []⟩ (by simp [Sorted]) (by simp) (by decide)
  refine ⟨by simpa using h2, h1, fun w => ⟨?_, ?_⟩, ?_⟩
  · rintro ⟨n, hn⟩
    simpa using h4 _ hn
  · intro hw
    obtain ⟨e, he, hk⟩ := List.mem_map.mp (h5 w (.inl hw))
    exact ⟨e.2, by rw [← hk]; exact he⟩
  · intro w n hn
    have := h3 w
    simp only [stored, List.find?_nil, Option.map_none, Option.getD_none, Nat.zero_add] at this
    rw [← this]
    have hf : ∀ m : List (List Byte × Nat), m.Pairwise (fun a b => a.1 < b.1) → (w, n) ∈ m → m.find? (fun e => e.1 == w) = some (w, n) := by
      intro m hm
      induction m with
      | nil => intro h; simp at h
      | cons e m ih =>
        intro he
        have hm' := List.pairwise_cons.mp hm
        rcases List.mem_cons.mp he with rfl | he
        · simp
        · have : e.1 ≠ w := fun e' => by
            have := hm'.1 _ he
            rw [e'] at this
            exact List.lt_irrefl _ this
          have : (e.1 == w) = false := by simpa using this
          rw [List.find?_cons, this]
          exact ih hm'.2 he
    rw [hf _ h1 hn]
    rfl

/-- C128: the numbers add up to the word count, for texts of less than 2^32 words. -/
theorem C128_sum (text : List UInt8) (hn : (words (text.map UInt8.toBitVec)).length < 2 ^ 32) : ∃ r, wordFreq text = ok r ∧
    (r.map.map Prod.snd).sum = r.count := by
  refine ⟨_, wordFreq_eq text, ?_⟩
  have : ∀ (ws : List (List Byte)) (st : Freq), (st.map.map Prod.snd).sum = st.count → st.count + ws.length < 2 ^ 32 →
      ((ws.foldl addWord st).map.map Prod.snd).sum = (ws.foldl addWord st).count := by
    intro ws
    induction ws with
    | nil => intro st h _; exact h
    | cons w ws ih =>
      intro st h hl
      rw [List.length_cons] at hl
      rw [List.foldl_cons]
      apply ih
      · have hb : ∀ m : List (List Byte × Nat), (m.map Prod.snd).sum + 1 < 2 ^ 32 → ((bump w m).map Prod.snd).sum = (m.map Prod.snd).sum + 1 := by
          intro m
          induction m with
          | nil => intro _; simp [bump]
          | cons e m ih =>
            obtain ⟨k, n⟩ := e
            intro hs
            simp only [List.map_cons, List.sum_cons] at hs
            simp only [bump]
            split
            · simp; omega
            · split
              · simp only [List.map_cons, List.sum_cons]
                rw [ih (by omega)]; omega
              · simp only [List.map_cons, List.sum_cons]
                rw [Nat.mod_eq_of_lt (by omega)]; omega
        simp only [addWord]
        rw [hb _ (by omega), h, Nat.mod_eq_of_lt (by omega)]
      · simp only [addWord]
        rw [Nat.mod_eq_of_lt (by omega)]; omega
  exact this _ _ (by simp) (by simpa using hn)

-- "Ab c\nab!" : ab twice, c once
example : wordFreq [65, 98, 32, 99, 10, 97, 98, 33] = ok ⟨3, [([97, 98], 2), ([99], 1)]⟩ := by decide +kernel
example : (words ([65, 98, 32, 99, 10, 97, 98, 33].map UInt8.toBitVec)) = [[97, 98], [99], [97, 98]] := by decide +kernel

end Strtk.Programs
