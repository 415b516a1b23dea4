import Verif.Combi.Steps
import Verif.Text.Props

/-!
# strtk_combinator_example.cpp and strtk_nth_combination_example.cpp

The constants `n` and `k` of the programs (6 and 4) are parameters here.  Elements are kept as the natural numbers they stand for.
-/

namespace Strtk.Programs
open Outcome Strtk.Codec Strtk.Combi

/-- `type_to_string` of each of some unsigned numbers (17877-17915 of strtk.hpp), as `join` uses it. -/
def numTexts : List Nat → Outcome (List (List Byte))
  | [] => ok []
  | v :: l => do
    let t ← Number.unsignedToString v
    let ts ← numTexts l
    ok (t :: ts)

/-- `strtk::text::right_align(4, '0', i)` (15454-15461 of strtk.hpp). -/
def numbered (i : Nat) : Outcome (List Byte) := do
  let t ← Number.unsignedToString i
  ok (Text.rightAlign 4 48 t)

/-- The loop of strtk_combinator_example.cpp 50-58: `n` is the length of the list, the iterator is the first one of `w`. -/
def combinatorLoop (n : Nat) : Nat → ItWorld Nat → Nat → List Byte → Outcome (List Byte)
  | 0, _, _, _ => diverge
  | fuel + 1, w, count, out =>
    match w.its[0]? with
    | none => ub
    | some it =>
      if !(itEq (itEnd n) it) then do
        let c ← numbered count
        let ts ← numTexts (itShow w it)
        let w ← itInc w 0
        combinatorLoop n fuel w (count + 1) (out ++ (c ++ [9] ++ Join.join id [32] [] ts ++ [10]))
      else ok out

/-- `main` of strtk_combinator_example.cpp (36-61). -/
def combinatorMain (fuel n k : Nat) : Outcome (List Byte) := do
  let l := (Join.iota n (0 : BitVec 32)).map BitVec.toNat
  let w ← itMake k l true
  combinatorLoop l.length fuel w 0 []

/-- The list of letters (strtk_nth_combination_example.cpp 65, 92, 126). -/
def letterList (n : Nat) : List Nat := (Join.iota n (65 : BitVec 8)).map BitVec.toNat

/-- `join("", list)` of characters: `type_to_string` of `unsigned char` is the character (17988-17993 of strtk.hpp). -/
def joinChars (l : List Nat) : List Byte := Join.join Number.byteToString [] [] (l.map (BitVec.ofNat 8))

/-- `" | "` -/
def bar : List Byte := [32, 124, 32]

/-- The loop of `nth_combination_example01` (69-84); `rounds` are left, `st` is the table of `n_choose_k`. -/
def example01Loop (n k : Nat) : Nat → Nat → List U64 → List Byte → Outcome (List Byte × List U64)
  | 0, _, st, out => ok (out, st)
  | rounds + 1, i, st, out => do
    let (idx, st) ← nthCombinationOut false true st i n k
    let (comb, st) ← nthCombinationRange true st i k (letterList n)
    let c ← numbered i
    let ts ← numTexts idx
    example01Loop n k rounds (i + 1) st (out ++ (c ++ bar ++ Join.join id [] [] ts ++ bar ++ joinChars comb ++ [10]))

/-- `nth_combination_example01` (60-87). -/
def example01 (n k : Nat) (st : List U64) : Outcome (List Byte × List U64) := do
  let (count, st) ← nChooseK st n k
  let (out, st) ← example01Loop n k count.toNat 0 st []
  ok (out ++ [10, 10], st)

/-- The loop of `nth_combination_example02` (98-118); `next` is `next_comb_list`. -/
def example02Loop (n k : Nat) : Nat → Nat → List Nat → List U64 → List Byte → Outcome (List Byte × List U64)
  | 0, _, _, st, out => ok (out, st)
  | rounds + 1, i, next, st, out => do
    let (idx, st) ← nthCombinationOut false true st i n k
    let (comb, st) ← nthCombinationRange true st i k (letterList n)
    let c ← numbered i
    let ts ← numTexts idx
    let (_, next') ← nextCombination (fun a b => decide (a < b)) k next
    example02Loop n k rounds (i + 1) next' st
      (out ++ (c ++ bar ++ Join.join id [] [] ts ++ bar ++ joinChars comb ++ bar ++ joinChars next ++ [10]))

/-- `nth_combination_example02` (89-121). -/
def example02 (n k : Nat) (st : List U64) : Outcome (List Byte × List U64) := do
  let (count, st) ← nChooseK st n k
  let (out, st) ← example02Loop n k count.toNat 0 (letterList n) st []
  ok (out ++ [10, 10], st)

/-- The loop of `nth_combination_example03` (137-145). -/
def example03Loop (k : Nat) : Nat → Nat → List Nat → List Byte → Outcome (List Byte)
  | 0, _, _, _ => diverge
  | fuel + 1, i, s, out => do
    let c ← numbered i
    let (more, s') ← nextCombination (fun a b => decide (a < b)) k s
    let out := out ++ (c ++ bar ++ joinChars s ++ [10])
    if more then example03Loop k fuel (i + 1) s' out else ok out

/-- `nth_combination_example03` (123-146). -/
def example03 (fuel n k : Nat) (st : List U64) : Outcome (List Byte) := do
  let (s, _) ← nthCombinationRange true st 4 k (letterList n)
  example03Loop k fuel 4 s []

/-- `main` of strtk_nth_combination_example.cpp (148-154). -/
def nthExampleMain (fuel n k : Nat) : Outcome (List Byte) := do
  let (a, st) ← example01 n k freshTable
  let (b, st) ← example02 n k st
  let c ← example03 fuel n k st
  ok (a ++ b ++ c)

/-! ## Specification -/

/-- A number with at least four digits. -/
def pad4 (i : Nat) : List Byte := List.replicate (4 - (Number.decText i).length) 48 ++ Number.decText i

/-- All choices of `k` of the numbers below `n`, each in increasing order, in lexicographic order. -/
def Choices (n k : Nat) (V : List (List Nat)) : Prop := V.Pairwise (· < ·) ∧ V.Perm ((List.range n).sublistsLen k)

/-- A choice, followed by the numbers not chosen. -/
def completed (n : Nat) (c : List Nat) : List Nat := c ++ (List.range n).filter fun i => decide (i ∉ c)

/-- The letters from A on. -/
def letters (c : List Nat) : List Byte := c.map fun i => BitVec.ofNat 8 (65 + i)

/-! ## Texts -/

theorem numTexts_eq : ∀ l : List Nat, (∀ v ∈ l, v < 2 ^ 64) → numTexts l = ok (l.map Number.decText)
  | [], _ => rfl
  | v :: l, h => by
    rw [numTexts, Number.C28_unsigned_text v (h v (by simp)), ok_bind, numTexts_eq l fun x hx => h x (by simp [hx])]
    rfl

theorem numbered_eq (i : Nat) (h : i < 2 ^ 64) : numbered i = ok (pad4 i) := by
  rw [numbered, Number.C28_unsigned_text i h, ok_bind, Text.rightAlign, pad4]
  split
  · rename_i hc
    rw [Nat.sub_eq_zero_of_le hc]
    rfl
  · rfl

theorem iota_toNat {w : Nat} : ∀ (n : Nat) (v : BitVec w), v.toNat + n ≤ 2 ^ w → (Join.iota n v).map BitVec.toNat = (List.range n).map (v.toNat + ·)
  | 0, _, _ => rfl
  | n + 1, v, h => by
    rw [Join.iota, List.map_cons, List.range_succ_eq_map, List.map_cons, List.map_map]
    congr 1
    by_cases h0 : n = 0
    · subst h0; rfl
    · have e : (v + 1).toNat = v.toNat + 1 := by
        rw [BitVec.toNat_add]
        have hw : 1 < 2 ^ w := by omega
        have : (1 : BitVec w).toNat = 1 := by
          show (BitVec.ofNat w 1).toNat = 1
          rw [BitVec.toNat_ofNat, Nat.mod_eq_of_lt hw]
        rw [this, Nat.mod_eq_of_lt (by omega)]
      rw [iota_toNat n (v + 1) (by omega), e]
      apply List.map_congr_left
      intro x _
      simp [Nat.add_assoc, Nat.add_comm 1 x]

/-! ## strtk_combinator_example.cpp -/

theorem itMoves_snoc (m : Move) : ∀ (ms : List Move) (w : ItWorld Nat), itMoves w (ms ++ [m]) = do let w ← itMoves w ms; itMove w m
  | [], w => by
    show (do let w ← itMove w m; itMoves w []) = _
    simp only [itMoves, ok_bind]
    cases itMove w m <;> rfl
  | a :: ms, w => by
    rw [List.cons_append, itMoves, itMoves]
    cases h : itMove w a with
    | ok w' => rw [ok_bind, ok_bind, itMoves_snoc m ms w']
    | ub => rfl
    | diverge => rfl
    | thrown => rfl

theorem itEq_comm (a b : It) : itEq a b = itEq b a := by
  unfold itEq
  rw [Bool.eq_iff_iff]
  simp only [Bool.and_eq_true, beq_iff_eq]
  constructor <;> rintro ⟨⟨h1, h2⟩, h3⟩ <;> exact ⟨⟨h1.symm, h2.symm⟩, h3.symm⟩

/-- **C144.** For a list of `n` numbers, `1 ≤ n ≤ 2^32`, and `k ≤ n` the combination iterator program ends and prints one line for each choice of `k` of the numbers
below `n`, every one exactly once and in lexicographic order: its number with at least four digits, a tab, and the chosen numbers separated by blanks. -/
theorem C144_combinator (n k : Nat) (hn : 1 ≤ n) (hn32 : n ≤ 2 ^ 32) (hk : k ≤ n) (hfit : n.choose k ≤ 2 ^ 64) :
    ∃ fuel V, Choices n k V ∧
      combinatorMain fuel n k = ok (V.mapIdx fun i c => pad4 i ++ [9] ++ List.intercalate [32] (c.map Number.decText) ++ [10]).flatten := by
  have hl : (Join.iota n (0 : BitVec 32)).map BitVec.toNat = List.range n := by
    rw [iota_toNat n 0 (by simpa using hn32)]
    simp
  have hE : (List.range n).Pairwise (· < ·) := List.pairwise_lt_range
  obtain ⟨V, v1, v2, w0, e0, hm⟩ := C119_combination_iterator_partial k (List.range n) hE (by simpa using hk) (by simp; omega) (List.range n) true (Or.inl rfl)
  have hlen : V.length = n.choose k := by rw [v2.length_eq, List.length_sublistsLen, List.length_range]
  refine ⟨V.length + 1, V, ⟨v1, v2⟩, ?_⟩
  have hsum : ∀ N, ((List.replicate N Move.pre).map Move.steps).sum = N := by intro N; simp [Move.steps]
  have key : ∀ r N w out, N + r = V.length → itMoves w0 (List.replicate N .pre) = ok w → combinatorLoop n (r + 1) w N out =
      ok (out ++ ((V.drop N).mapIdx fun i c => pad4 (N + i) ++ [9] ++ List.intercalate [32] (c.map Number.decText) ++ [10]).flatten) := by
    intro r
    induction r with
    | zero =>
      intro N w out hN hw
      obtain ⟨w', it, e1, e2, -, h4⟩ := hm (List.replicate N .pre)
      rw [hw] at e1
      cases e1
      rw [hsum] at h4
      have := (h4 (by omega)).1
      rw [List.length_range] at this
      rw [combinatorLoop, e2]
      simp only
      rw [itEq_comm, this, List.drop_of_length_le (by omega)]
      simp
    | succ r ih =>
      intro N w out hN hw
      obtain ⟨w', it, e1, e2, h3, -⟩ := hm (List.replicate N .pre)
      obtain ⟨w'', it'', e1', -, -, -⟩ := hm (List.replicate (N + 1) .pre)
      rw [hw] at e1
      cases e1
      rw [hsum] at h3
      obtain ⟨hs, hne⟩ := h3 (by omega)
      rw [List.length_range] at hne
      have hinc : itInc w 0 = ok w'' := by
        have := itMoves_snoc .pre (List.replicate N .pre) w0
        rw [← List.replicate_succ', e1', hw, ok_bind] at this
        exact this.symm
      have hmem : V[N]'(by omega) ∈ (List.range n).sublistsLen k := v2.subset (List.getElem_mem _)
      have hsmall : ∀ v ∈ V[N]'(by omega), v < 2 ^ 64 := by
        intro v hv
        have := List.mem_range.mp ((List.mem_sublistsLen.mp hmem).1.subset hv)
        omega
      rw [combinatorLoop, e2]
      simp only
      rw [itEq_comm, hne, hs]
      simp only [Bool.not_false, if_true]
      rw [numbered_eq N (by omega), ok_bind, numTexts_eq _ hsmall, ok_bind, hinc, ok_bind, ih (N + 1) w'' _ (by omega) e1', Join.C35_join,
        List.drop_eq_getElem_cons (show N < V.length by omega), List.mapIdx_cons, List.flatten_cons]
      simp only [List.map_id, List.nil_append, List.append_assoc, Nat.add_zero]
      congr 8
      funext i c
      rw [show N + 1 + i = N + (i + 1) by omega]
  unfold combinatorMain
  simp only [hl]
  rw [e0, ok_bind, List.length_range, key V.length 0 w0 [] (by omega) rfl]
  simp

/-! ## strtk_nth_combination_example.cpp -/

theorem letterList_eq (n : Nat) (hn : n ≤ 191) : letterList n = (List.range n).map (65 + ·) := by
  rw [letterList, iota_toNat n 65 (by simp; omega)]
  rfl

theorem intercalate_nil {α : Type} (l : List (List α)) : List.intercalate [] l = l.flatten := by
  induction l with
  | nil => rfl
  | cons a l ih =>
    cases l with
    | nil => simp [List.intercalate]
    | cons b l => rw [List.intercalate_cons_cons, ih]; simp

theorem joinChars_eq (l : List Nat) : joinChars (l.map (65 + ·)) = letters l := by
  rw [joinChars, Join.C35_join, intercalate_nil, letters]
  induction l with
  | nil => rfl
  | cons a l ih => simpa [Number.byteToString] using ih

theorem joinTexts_eq (l : List Nat) : Join.join id [] [] (l.map Number.decText) = l.flatMap Number.decText := by
  rw [Join.C35_join, intercalate_nil]
  simp [List.flatMap]

theorem nextCalls_snoc (k : Nat) : ∀ (n : Nat) (s s' s'' : List Nat), nextCalls k n s = ok (true, s') → nextCalls k (n + 1) s = ok (true, s'') →
    nextCombination (fun a b => decide (a < b)) k s' = ok (true, s'')
  | 0, s, s', s'', h1, h2 => by
    cases h1
    rw [nextCalls] at h2
    obtain ⟨⟨b, t⟩, e1, h2⟩ := bind_eq_ok.mp h2
    simp only [nextCalls, ok_bind, Bool.and_true] at h2
    cases h2
    exact e1
  | n + 1, s, s', s'', h1, h2 => by
    rw [nextCalls] at h1 h2
    obtain ⟨⟨b, t⟩, e1, h1⟩ := bind_eq_ok.mp h1
    rw [e1, ok_bind] at h2
    obtain ⟨⟨b1, t1⟩, f1, h1⟩ := bind_eq_ok.mp h1
    obtain ⟨⟨b2, t2⟩, f2, h2⟩ := bind_eq_ok.mp h2
    simp only [Outcome.ok.injEq, Prod.mk.injEq, Bool.and_eq_true] at h1 h2
    obtain ⟨⟨-, rfl⟩, rfl⟩ := h1
    obtain ⟨⟨-, rfl⟩, rfl⟩ := h2
    exact nextCalls_snoc k n t t1 t2 f1 f2

/-- The data of one round. -/
structure Rounds (n k : Nat) (V : List (List Nat)) : Prop where
  idx : ∀ st, StaticOk st → ∀ i (h : i < V.length), ∃ st', nthCombinationOut false true st i n k = ok (completed n V[i], st') ∧ StaticOk st'
  range : ∀ st, StaticOk st → ∀ i (h : i < V.length), ∃ st', nthCombinationRange true st i k (letterList n) = ok ((completed n V[i]).map (65 + ·), st') ∧ StaticOk st'
  next : ∀ i (h : i < V.length), nextCalls k i (letterList n) = ok (true, (completed n V[i]).map (65 + ·))
  last : ∀ i (h : i < V.length), i + 1 = V.length →
    ∃ s, nextCombination (fun a b => decide (a < b)) k ((completed n V[i]).map (65 + ·)) = ok (false, s)
  small : ∀ i (h : i < V.length), ∀ v ∈ completed n V[i], v < n

theorem rounds (n k : Nat) (hn : n ≤ 191) (hk : 2 ≤ k) (hkn : k ≤ n) (hfit : n.choose k < 2 ^ 64) :
    Rounds n k (parts k (List.range n)) := by
  have hV : (parts k (List.range n)).length = n.choose k := by rw [parts_length, List.length_range]
  have hLl : (letterList n).length = n := by rw [letterList_eq n hn]; simp
  have hLs : (letterList n).Pairwise (· < ·) := by
    rw [letterList_eq n hn, List.pairwise_map]
    exact List.pairwise_lt_range.imp fun h => by omega
  have small : ∀ i (h : i < (parts k (List.range n)).length), ∀ v ∈ completed n (parts k (List.range n))[i], v < n := by
    intro i h v hv
    have hmem := (parts_perm k (List.range n)).subset (List.getElem_mem h)
    rcases List.mem_append.mp hv with hv | hv
    · exact List.mem_range.mp ((List.mem_sublistsLen.mp hmem).1.subset hv)
    · exact List.mem_range.mp (List.mem_of_mem_filter hv)
  have idx : ∀ st, StaticOk st → ∀ i (h : i < (parts k (List.range n)).length),
      ∃ st', nthCombinationOut false true st i n k = ok (completed n (parts k (List.range n))[i], st') ∧ StaticOk st' := by
    intro st hst i h
    obtain ⟨c, st', e, h1, h2⟩ := C43_complete_partial st hst true i n k hk (by omega) hfit (by omega)
    have := nth_eq_parts h2
    rw [List.getElem?_eq_getElem h] at this
    cases this
    exact ⟨st', e, h1⟩
  have range : ∀ st, StaticOk st → ∀ i (h : i < (parts k (List.range n)).length),
      ∃ st', nthCombinationRange true st i k (letterList n) = ok ((completed n (parts k (List.range n))[i]).map (65 + ·), st') ∧ StaticOk st' := by
    intro st hst i h
    obtain ⟨st', e, h1⟩ := idx st hst i h
    obtain ⟨xs, e1, e2⟩ := pick_eq (letterList n) (completed n (parts k (List.range n))[i]) (by rw [hLl]; exact small i h)
    refine ⟨st', ?_, h1⟩
    rw [nthCombinationRange, hLl, e, ok_bind]
    simp only
    rw [e1, ok_bind]
    congr 2
    apply List.map_injective_iff.mpr (Option.some_injective Nat)
    rw [e2, List.map_map]
    apply List.map_congr_left
    intro v hv
    have := small i h v hv
    rw [letterList_eq n hn, List.getElem?_map, List.getElem?_range this]
    rfl
  have next : ∀ i (h : i < (parts k (List.range n)).length),
      nextCalls k i (letterList n) = ok (true, (completed n (parts k (List.range n))[i]).map (65 + ·)) := by
    intro i h
    obtain ⟨s, st', _, e1, e2, -⟩ := C138_nth_is_n_steps freshTable staticOk_fresh i k (letterList n) hLs hk (by omega) (by rw [hLl]; exact hfit) (by rw [hLl]; omega)
    obtain ⟨st'', e3, -⟩ := range freshTable staticOk_fresh i h
    rw [e2] at e3
    cases e3
    exact e1
  refine ⟨idx, range, next, ?_, small⟩
  intro i h hi
  obtain ⟨s, st', fuel, W, e1, e2, e3, e4⟩ := C138_resume freshTable staticOk_fresh i k (letterList n) hLs hk (by omega) (by rw [hLl]; exact hfit) (by rw [hLl]; omega)
  obtain ⟨st'', e5, -⟩ := range freshTable staticOk_fresh i h
  rw [e1] at e5
  cases e5
  have hW : (W.drop i).length = 1 := by
    rw [List.length_drop, e4.length_eq, List.length_sublistsLen, hLl]
    omega
  cases fuel with
  | zero => cases e2
  | succ f =>
    rw [visitCombinations] at e2
    obtain ⟨⟨b, s'⟩, g1, g2⟩ := bind_eq_ok.mp e2
    cases b with
    | false => exact ⟨s', g1⟩
    | true =>
      simp only [if_true] at g2
      obtain ⟨r, g3, g4⟩ := bind_eq_ok.mp g2
      have g5 := Outcome.ok.inj g4
      rw [← g5] at hW
      have := visit_ne_nil g3
      cases r with
      | nil => exact absurd rfl this
      | cons a r => simp at hW

/-- A line of the first table. -/
def line01 (n i : Nat) (c : List Nat) : List Byte := pad4 i ++ bar ++ (completed n c).flatMap Number.decText ++ bar ++ letters (completed n c) ++ [10]

/-- A line of the second table. -/
def line02 (n i : Nat) (c : List Nat) : List Byte :=
  pad4 i ++ bar ++ (completed n c).flatMap Number.decText ++ bar ++ letters (completed n c) ++ bar ++ letters (completed n c) ++ [10]

/-- A line of the third table. -/
def line03 (n i : Nat) (c : List Nat) : List Byte := pad4 i ++ bar ++ letters (completed n c) ++ [10]

/-- A line as the description of the program shows it (strtk_nth_combination_example.cpp 24-39). -/
def lineDoc (i : Nat) (c : List Nat) : List Byte := pad4 i ++ bar ++ c.flatMap Number.decText ++ bar ++ letters c ++ [10]

theorem drop_mapIdx {α β : Type} (f : Nat → α → β) : ∀ (N : Nat) (V : List α), (V.mapIdx f).drop N = (V.drop N).mapIdx fun i => f (N + i)
  | 0, V => by simp
  | N + 1, [] => by simp
  | N + 1, a :: V => by
    rw [List.mapIdx_cons, List.drop_succ_cons, List.drop_succ_cons, drop_mapIdx _ N V]
    simp [Nat.add_assoc, Nat.add_comm 1]

theorem flatten_drop_cons {α β : Type} (f : Nat → α → List β) (V : List α) (N : Nat) (h : N < V.length) :
    ((V.mapIdx f).drop N).flatten = f N V[N] ++ ((V.mapIdx f).drop (N + 1)).flatten := by
  rw [List.drop_eq_getElem_cons (by simpa using h)]
  simp

theorem example01_eq {n k : Nat} {V : List (List Nat)} (R : Rounds n k V) (hn : n ≤ 191) (hV : V.length < 2 ^ 64) :
    ∀ (r i : Nat) (st : List U64) (out : List Byte), StaticOk st → i + r = V.length →
      ∃ st', example01Loop n k r i st out = ok (out ++ ((V.mapIdx (line01 n)).drop i).flatten, st') ∧ StaticOk st' := by
  intro r
  induction r with
  | zero => intro i st out hst hi; exact ⟨st, by rw [List.drop_of_length_le (by simp; omega)]; simp [example01Loop], hst⟩
  | succ r ih =>
    intro i st out hst hi
    obtain ⟨st1, e1, h1⟩ := R.idx st hst i (by omega)
    obtain ⟨st2, e2, h2⟩ := R.range st1 h1 i (by omega)
    obtain ⟨st3, e3, h3⟩ := ih (i + 1) st2 (out ++ line01 n i (V[i]'(by omega))) h2 (by omega)
    refine ⟨st3, ?_, h3⟩
    rw [example01Loop, e1, ok_bind]
    simp only
    rw [e2, ok_bind]
    simp only
    rw [numbered_eq i (by omega), ok_bind, numTexts_eq _ (fun v hv => by have := R.small i (by omega) v hv; omega), ok_bind, joinTexts_eq, joinChars_eq]
    rw [flatten_drop_cons _ V i (by omega), ← List.append_assoc out (line01 n i _)]
    exact e3

theorem example02_eq {n k : Nat} {V : List (List Nat)} (R : Rounds n k V) (hn : n ≤ 191) (hV : V.length < 2 ^ 64) :
    ∀ (r i : Nat) (st : List U64) (out : List Byte) (next : List Nat), StaticOk st → i + r = V.length → (∀ h : i < V.length, next = (completed n V[i]).map (65 + ·)) →
      ∃ st', example02Loop n k r i next st out = ok (out ++ ((V.mapIdx (line02 n)).drop i).flatten, st') ∧ StaticOk st' := by
  intro r
  induction r with
  | zero => intro i st out next hst hi _; exact ⟨st, by rw [List.drop_of_length_le (by simp; omega)]; simp [example02Loop], hst⟩
  | succ r ih =>
    intro i st out next hst hi hnext
    obtain ⟨st1, e1, h1⟩ := R.idx st hst i (by omega)
    obtain ⟨st2, e2, h2⟩ := R.range st1 h1 i (by omega)
    have hnx := hnext (by omega)
    have hstep : ∃ b next', nextCombination (fun a b => decide (a < b)) k next = ok (b, next') ∧ ∀ h : i + 1 < V.length, next' = (completed n V[i + 1]).map (65 + ·) := by
      by_cases hl : i + 1 < V.length
      · refine ⟨true, (completed n V[i + 1]).map (65 + ·), ?_, fun _ => rfl⟩
        rw [hnx]
        exact nextCalls_snoc k i _ _ _ (R.next i (by omega)) (R.next (i + 1) hl)
      · obtain ⟨s, hs⟩ := R.last i (by omega) (by omega)
        exact ⟨false, s, by rw [hnx]; exact hs, fun h => absurd h hl⟩
    obtain ⟨b, next', f1, f2⟩ := hstep
    obtain ⟨st3, e3, h3⟩ := ih (i + 1) st2 (out ++ line02 n i (V[i]'(by omega))) next' h2 (by omega) f2
    refine ⟨st3, ?_, h3⟩
    rw [example02Loop, e1, ok_bind]
    simp only
    rw [e2, ok_bind]
    simp only
    rw [numbered_eq i (by omega), ok_bind, numTexts_eq _ (fun v hv => by have := R.small i (by omega) v hv; omega), ok_bind, joinTexts_eq, joinChars_eq, f1, ok_bind, hnx,
      joinChars_eq]
    simp only
    rw [flatten_drop_cons _ V i (by omega), ← List.append_assoc out (line02 n i _)]
    exact e3

theorem example03_eq {n k : Nat} {V : List (List Nat)} (R : Rounds n k V) (hV : V.length < 2 ^ 64) :
    ∀ (r i : Nat) (out : List Byte) (h : i < V.length), i + r + 1 = V.length →
      example03Loop k (r + 1) i ((completed n V[i]).map (65 + ·)) out = ok (out ++ ((V.mapIdx (line03 n)).drop i).flatten) := by
  intro r
  induction r with
  | zero =>
    intro i out h hi
    obtain ⟨s, hs⟩ := R.last i h (by omega)
    rw [example03Loop, numbered_eq i (by omega), ok_bind, hs, ok_bind, flatten_drop_cons _ V i h, List.drop_of_length_le (show (V.mapIdx (line03 n)).length ≤ i + 1 by simp; omega),
      joinChars_eq]
    simp [line03]
  | succ r ih =>
    intro i out h hi
    have hs := nextCalls_snoc k i _ _ _ (R.next i h) (R.next (i + 1) (by omega))
    rw [example03Loop, numbered_eq i (by omega), ok_bind, hs, ok_bind, flatten_drop_cons _ V i h, joinChars_eq]
    simp only [if_true]
    rw [ih (i + 1) _ (by omega) (by omega)]
    simp [line03]

theorem choices_parts (n k : Nat) : Choices n k (parts k (List.range n)) :=
  ⟨parts_lt k _ List.pairwise_lt_range, parts_perm k _⟩

theorem choices_unique {n k : Nat} {V : List (List Nat)} (h : Choices n k V) : V = parts k (List.range n) :=
  List.Perm.eq_of_pairwise (le := (· < ·)) (fun _ _ _ _ h1 h2 => absurd h2 (lt_asymm h1)) h.1 (choices_parts n k).1
    (h.2.trans (choices_parts n k).2.symm)

/-- **C145.** What `main` prints, for `n` letters and `k ≥ 2` of them, with at least five choices: three tables over all choices in lexicographic order, the
third one from the fifth choice on.  Every line shows the chosen elements followed by the elements which are not chosen. -/
theorem C145_output_partial (n k : Nat) (hn : n ≤ 191) (hk : 2 ≤ k) (h4 : 4 < n.choose k) (hfit : n.choose k < 2 ^ 64) (V : List (List Nat)) (hV : Choices n k V) :
    ∃ fuel, nthExampleMain fuel n k =
      ok ((V.mapIdx (line01 n)).flatten ++ [10, 10] ++ ((V.mapIdx (line02 n)).flatten ++ [10, 10]) ++ ((V.mapIdx (line03 n)).drop 4).flatten) := by
  have hkn : k ≤ n := by
    by_contra hc
    rw [Nat.choose_eq_zero_of_lt (by omega)] at h4
    omega
  have hVl : V.length = n.choose k := by rw [hV.2.length_eq, List.length_sublistsLen, List.length_range]
  have R : Rounds n k V := by rw [choices_unique hV]; exact rounds n k hn hk hkn hfit
  have hb : (binom n k).toNat = V.length := by rw [binom, BitVec.toNat_ofNat, Nat.mod_eq_of_lt hfit, hVl]
  obtain ⟨s1, c1, k1⟩ := nChooseK_spec freshTable staticOk_fresh n k (by omega) (by omega)
  obtain ⟨s2, c2, k2⟩ := example01_eq R hn (by omega) V.length 0 s1 [] k1 (by omega)
  obtain ⟨s3, c3, k3⟩ := nChooseK_spec s2 k2 n k (by omega) (by omega)
  obtain ⟨s4, c4, k4⟩ := example02_eq R hn (by omega) V.length 0 s3 [] (letterList n) k3 (by omega) (fun h => by
    have := R.next 0 h
    rw [nextCalls] at this
    exact (Prod.mk.inj (Outcome.ok.inj this)).2)
  obtain ⟨s5, c5, k5⟩ := R.range s4 k4 4 (by omega)
  refine ⟨V.length - 4 - 1 + 1, ?_⟩
  have c6 := example03_eq R (by omega) (V.length - 4 - 1) 4 [] (by omega) (by omega)
  unfold nthExampleMain example01 example02 example03
  simp only [c1, c2, c3, c4, c5, c6, hb, ok_bind, List.nil_append, List.drop_zero]

theorem mapIdx_length_lt {α β : Type} : ∀ (V : List α) (f g : Nat → α → List β), (∀ i, ∀ c ∈ V, (f i c).length < (g i c).length) →
    (V.mapIdx f).flatten.length + V.length ≤ (V.mapIdx g).flatten.length
  | [], _, _, _ => by simp
  | a :: V, f, g, h => by
    have := mapIdx_length_lt V (fun i => f (i + 1)) (fun i => g (i + 1)) fun i c hc => h (i + 1) c (by simp [hc])
    have h0 := h 0 a (by simp)
    rw [List.mapIdx_cons, List.mapIdx_cons, List.flatten_cons, List.flatten_cons, List.length_append, List.length_append, List.length_cons]
    omega

/-- The table of the description, with the chosen elements only, is not what is printed, unless all the elements are chosen. -/
theorem C145_not_as_described (n k : Nat) (hn : n ≤ 191) (hk : 2 ≤ k) (hkn : k < n) (hfit : n.choose k < 2 ^ 64) (V : List (List Nat)) (hV : Choices n k V) :
    ∃ out st, example01 n k freshTable = ok (out, st) ∧ out ≠ (V.mapIdx lineDoc).flatten ++ [10, 10] := by
  have hVl : V.length = n.choose k := by rw [hV.2.length_eq, List.length_sublistsLen, List.length_range]
  have hpos : 0 < n.choose k := Nat.choose_pos hkn.le
  have R : Rounds n k V := by rw [choices_unique hV]; exact rounds n k hn hk hkn.le hfit
  have hb : (binom n k).toNat = V.length := by rw [binom, BitVec.toNat_ofNat, Nat.mod_eq_of_lt hfit, hVl]
  obtain ⟨s1, c1, k1⟩ := nChooseK_spec freshTable staticOk_fresh n k (by omega) (by omega)
  obtain ⟨s2, c2, k2⟩ := example01_eq R hn (by omega) V.length 0 s1 [] k1 (by omega)
  refine ⟨(V.mapIdx (line01 n)).flatten ++ [10, 10], s2, ?_, ?_⟩
  · unfold example01
    simp only [c1, c2, hb, ok_bind, List.nil_append, List.drop_zero]
  · intro e
    have h := mapIdx_length_lt V lineDoc (line01 n) (by
      intro i c hc
      obtain ⟨g1, g2⟩ := List.mem_sublistsLen.mp (hV.2.subset hc)
      have : 0 < ((List.range n).filter fun j => decide (j ∉ c)).length := by
        rw [List.length_pos_iff]
        intro h0
        have hsub : List.range n ⊆ c := by
          intro x hx
          by_contra hxc
          have := List.filter_eq_nil_iff.mp h0 x hx
          simp [hxc] at this
        have := (List.nodup_range (n := n)).subperm hsub |>.length_le
        rw [List.length_range] at this
        omega
      simp only [lineDoc, line01, completed, letters, List.flatMap_append, List.map_append, List.length_append, List.length_map]
      omega)
    have e' := congrArg List.length e
    simp only [List.length_append] at e'
    omega

/-- The two programs of the repository: six elements, four of them. -/
example : (1 ≤ 6 ∧ 4 ≤ 6 ∧ Nat.choose 6 4 ≤ 2 ^ 64) ∧ (6 ≤ 191 ∧ 2 ≤ 4 ∧ 4 < Nat.choose 6 4 ∧ Nat.choose 6 4 < 2 ^ 64) ∧ Choices 6 4 (parts 4 (List.range 6)) :=
  ⟨by decide, by decide, choices_parts 6 4⟩
example : combinatorMain 20 3 2 = ok ([48, 48, 48, 48, 9, 48, 32, 49, 10] ++ [48, 48, 48, 49, 9, 48, 32, 50, 10] ++ [48, 48, 48, 50, 9, 49, 32, 50, 10]) := by decide +kernel
/-- "0000 | 012 | ABC" for three letters and two of them, where the description has "0000 | 01 | AB". -/
example : line01 3 0 [0, 1] = [48, 48, 48, 48, 32, 124, 32, 48, 49, 50, 32, 124, 32, 65, 66, 67, 10] := by decide +kernel
example : lineDoc 0 [0, 1] = [48, 48, 48, 48, 32, 124, 32, 48, 49, 32, 124, 32, 65, 66, 10] := by decide +kernel

example := C144_combinator 6 4 (by decide) (by decide) (by decide) (by decide)

end Strtk.Programs
