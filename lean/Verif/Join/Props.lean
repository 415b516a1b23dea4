import Verif.Join.Model
import Verif.Split.Props
import Verif.Parse.Props

/-! # Theorems about join and friends (C35, C36, C38, C39, C40, C80) -/

namespace Strtk.Join
open Outcome Strtk.Codec Strtk.Split

variable {α : Type}

theorem intercalate_cons_cons (d a b : List α) (t : List (List α)) : List.intercalate d (a :: b :: t) = a ++ d ++ List.intercalate d (b :: t) := by
  simp [List.intercalate, List.intersperse]

theorem intercalate_one (d a : List α) : List.intercalate d [a] = a := by simp [List.intercalate]

theorem join_append {β : Type} (txt : β → List α) (delim : List α) (l : List β) : ∀ out, join txt delim out l = out ++ List.intercalate delim (l.map txt) := by
  induction l with
  | nil => intro out; simp [join, List.intercalate]
  | cons a t ih =>
    intro out
    cases t with
    | nil => simp [join, List.intercalate]
    | cons b t =>
      rw [join]
      rw [ih]
      simp [intercalate_cons_cons]

/-- `join` appends the texts separated by the delimiter, and nothing for an empty range. -/
theorem C35_join {β : Type} (txt : β → List α) (delim out : List α) (l : List β) : join txt delim out l = out ++ List.intercalate delim (l.map txt) :=
  join_append txt delim l out

/-- The argc/argv version does the same. -/
theorem C35_join_argv (delim out : List α) (l : List (List α)) : joinArgv delim l.length 0 out l = out ++ List.intercalate delim l := by
  have : ∀ (l : List (List α)) (i : Nat) (out : List α), joinArgv delim (i + l.length) i out l = out ++ List.intercalate delim l := by
    intro l
    induction l with
    | nil => intro i out; simp [joinArgv, List.intercalate]
    | cons a t ih =>
      intro i out
      unfold joinArgv
      have := ih (i + 1)
      have e : i + (a :: t).length = i + 1 + t.length := by simp; omega
      simp only [e]
      rw [this]
      cases t with
      | nil => simp [List.intercalate]
      | cons b t => rw [if_pos (by simp)]; simp [intercalate_cons_cons]
  have := this l 0 out
  simpa using this

theorem splits_join (d : α) [DecidableEq α] : ∀ (ws : List (List α)) (off : Nat), ws ≠ [] → (∀ w ∈ ws, d ∉ w) →
    ∃ toks, Splits false .none (fun c => c == d) off (List.intercalate [d] ws) toks ∧ toks.map Prod.snd = ws := by
  intro ws
  induction ws with
  | nil => intro _ h; exact absurd rfl h
  | cons w ws ih =>
    intro off _ hw
    have hwd : ∀ c ∈ w, (fun c => c == d) c = false := by
      intro c hc
      simp only [beq_eq_false_iff_ne, ne_eq]
      rintro rfl
      exact hw w (by simp) hc
    cases ws with
    | nil => exact ⟨[(off, w)], by rw [intercalate_one]; exact .last off w hwd, rfl⟩
    | cons w' ws =>
      obtain ⟨toks, h1, h2⟩ := ih (off + w.length + 1) (by simp) (fun x hx => hw x (List.mem_cons_of_mem _ hx))
      refine ⟨(off, w ++ Keep.none.part [d]) :: toks, ?_, by simp [h2, Keep.part]⟩
      rw [intercalate_cons_cons]
      exact .more off w [d] _ toks hwd (by simp) (by simp) (by simp) h1

/-- Splitting a join gives back the list: for a non-empty list of strings that do not contain the delimiter (and whose join is not empty,
i.e. the list is not `[""]`). -/
theorem C35_split_of_join [DecidableEq α] (d : α) (ws : List (List α)) (hne : ws ≠ []) (h : ∀ w ∈ ws, d ∉ w) (h1 : ws ≠ [[]]) :
    ∃ r, split {} (fun c => c == d) (join id [d] [] ws) = ok (r, r.length) ∧ r.map (textOf (join id [d] [] ws)) = ws := by
  rw [C35_join, List.nil_append, List.map_id]
  have hs : List.intercalate [d] ws ≠ [] := by
    match ws, hne, h1 with
    | [a], _, h1 => rw [intercalate_one]; intro e; exact h1 (by rw [e])
    | a :: b :: t, _, _ => rw [intercalate_cons_cons]; simp
  obtain ⟨toks, e1, e2⟩ := splits_join d ws 0 hne h
  obtain ⟨r, h2, h3⟩ := (C01_split_default (fun c => c == d) _).2 hs
  exact ⟨r, h2, by rw [h3, ← Splits.splitOnP e1, e2]⟩

/-- The single empty string is the exception: its join is empty, and splitting that gives no token at all. -/
theorem C35_singleton_empty [DecidableEq α] (d : α) : split {} (fun c => c == d) (join id [d] [] [[]]) = ok ([], 0) := by
  simp [join, split]

theorem intercalate_splits [DecidableEq α] (d : α) {off : Nat} {s : List α} {toks : List (Nat × List α)}
    (h : Splits false .none (fun c => c == d) off s toks) : List.intercalate [d] (toks.map Prod.snd) = s := by
  induction h with
  | last off w hw => simp [List.intercalate]
  | more off w block rest toks hw hne hblock hmax hrest ih =>
    simp only [Bool.false_eq_true, if_false] at hmax
    match block, hmax with
    | [b], _ =>
      have hb : b = d := by simpa using hblock b (by simp)
      subst hb
      have hn := hrest.ne_nil
      obtain ⟨t, ts, rfl⟩ := List.exists_cons_of_ne_nil hn
      simp only [List.map_cons, Keep.part, List.append_nil] at ih ⊢
      rw [intercalate_cons_cons, ih]

/-- Joining the tokens of a split gives back the input, whatever it contains. -/
theorem C35_join_of_split [DecidableEq α] (d : α) (s : List α) :
    ∃ r, split {} (fun c => c == d) s = ok (r, r.length) ∧ join id [d] [] (r.map (textOf s)) = s := by
  by_cases hs : s = []
  · subst hs
    exact ⟨[], rfl, rfl⟩
  · obtain ⟨toks, h1, h2⟩ := split_spec {} (fun c => c == d) s hs
    have h1' : Splits false .none (fun c => c == d) 0 s toks := h1
    obtain ⟨r, h3, h4⟩ := (C01_split_default (fun c => c == d) s).2 hs
    refine ⟨r, h3, ?_⟩
    rw [C35_join, List.nil_append, List.map_id, h4, ← Splits.splitOnP h1', intercalate_splits d h1']

example : join id [44] [] [[97], [], [98, 99]] = ([97, 44, 44, 98, 99] : List Byte) := by decide
example : ∀ w ∈ ([[97], [], [98, 99]] : List (List Byte)), (44 : Byte) ∉ w := by decide

/-! ## C36 -/

theorem joinIf_spec {β : Type} (txt : β → List α) (p : β → Bool) (delim : List α) (l : List β) : ∀ (out : List α) (first : Bool),
    joinIf txt p delim out first l =
      if (l.filter p) = [] then out
      else out ++ (if first then [] else delim) ++ List.intercalate delim ((l.filter p).map txt) := by
  induction l with
  | nil => intro out first; simp [joinIf]
  | cons a t ih =>
    intro out first
    unfold joinIf
    by_cases ha : p a
    · rw [if_pos ha, List.filter_cons_of_pos ha, if_neg (List.cons_ne_nil _ _)]
      cases t with
      | nil => cases first <;> simp [List.intercalate]
      | cons b t =>
        simp only
        rw [ih]
        by_cases hf : (b :: t).filter p = []
        · rw [if_pos hf, hf]
          cases first <;> simp [List.intercalate]
        · rw [if_neg hf]
          obtain ⟨x, xs, hx⟩ := List.exists_cons_of_ne_nil hf
          rw [hx]
          simp only [List.map_cons]
          rw [intercalate_cons_cons]
          cases first <;> simp
    · rw [if_neg ha, List.filter_cons_of_neg ha]
      cases t with
      | nil => simp
      | cons b t => simp only; rw [ih]

/-- `join_if` is `join` of the selected elements. -/
theorem C36_join_if {β : Type} (txt : β → List α) (p : β → Bool) (delim out : List α) (l : List β) :
    joinIf txt p delim out true l = join txt delim out (l.filter p) := by
  rw [joinIf_spec, C35_join]
  by_cases h : l.filter p = []
  · rw [if_pos h, h]; simp [List.intercalate]
  · rw [if_neg h]; simp

example : joinIf id (fun w => w.length != 1) [44] [33] true [[97], [], [98, 99], [1]] = ([33, 44, 98, 99] : List Byte) := by decide

/-! ## C38 -/

theorem appendLoop_spec (s : List α) : ∀ (n : Nat) (out : List α), appendLoop s n out = out ++ (List.replicate n s).flatten := by
  intro n
  induction n with
  | zero => intro out; simp [appendLoop]
  | succ n ih => intro out; rw [appendLoop, ih, List.replicate_succ]; simp

/-- `replicate(n,s,out)` appends `n` copies. -/
theorem C38_replicate (n : Nat) (s out : List α) : replicate n s out = out ++ (List.replicate n s).flatten := by
  unfold replicate
  split
  · subst_vars; simp
  · exact appendLoop_spec s n out

/-- `replicate_inplace(n,s)` leaves `n + 1` copies. -/
theorem C38_replicate_inplace (n : Nat) (s : List α) : replicateInplace n s = (List.replicate (n + 1) s).flatten := by
  rw [replicateInplace, appendLoop_spec, List.replicate_succ]; simp

/-- `bracketize` surrounds every element. -/
theorem C38_bracketize {β : Type} (txt : β → List α) (pre post out : List α) (l : List β) :
    bracketize txt pre post out l = out ++ (l.map fun a => pre ++ txt a ++ post).flatten := by
  induction l generalizing out with
  | nil => simp [bracketize]
  | cons a t ih => rw [bracketize, ih]; simp

/-- What inserting `x` after every `k`-th element gives, the first one after `first` elements. -/
def everyKth (k : Nat) (x : α) : Nat → List α → List α
  | _, [] => []
  | first, a :: t => if first = 1 then a :: x :: everyKth k x k t else a :: everyKth k x (first - 1) t

theorem inserter_spec (k : Nat) (x : α) (hk : 0 < k) (hk64 : k < 2 ^ 64) (l : List α) : ∀ (c size : Nat) (out : List α), c < k →
    inserter (BitVec.ofNat 64 k) x (BitVec.ofNat 64 c) out size l =
      (out ++ everyKth k x (k - c) l, size + (everyKth k x (k - c) l).length) := by
  induction l with
  | nil => intro c size out _; simp [inserter, everyKth]
  | cons a t ih =>
    intro c size out hc
    unfold inserter everyKth intervalStep
    have e : BitVec.ofNat 64 c + 1 = BitVec.ofNat 64 (c + 1) := by
      apply BitVec.eq_of_toNat_eq
      simp
    rw [e]
    have hiff : BitVec.ofNat 64 (c + 1) = BitVec.ofNat 64 k ↔ c + 1 = k := by
      constructor
      · intro h
        have := congrArg BitVec.toNat h
        simp only [BitVec.toNat_ofNat] at this
        rw [Nat.mod_eq_of_lt (by omega), Nat.mod_eq_of_lt hk64] at this
        exact this
      · intro h; rw [h]
    by_cases h : c + 1 = k
    · rw [if_pos (hiff.mpr h)]
      simp only [if_true]
      have h0 : (0 : BitVec 64) = BitVec.ofNat 64 0 := rfl
      rw [h0, ih 0 _ _ hk, if_pos (by omega)]
      simp
      omega
    · rw [if_neg (fun hh => h (hiff.mp hh))]
      simp only [Bool.false_eq_true, if_false]
      rw [ih (c + 1) _ _ (by omega), if_neg (by omega), show k - (c + 1) = k - c - 1 by omega]
      simp
      omega

/-- Inserting with interval `k >= 1`: after every `k`-th element comes `x`; the number of elements written is returned. -/
theorem C38_inserter (k : Nat) (x : α) (hk : 0 < k) (hk64 : k < 2 ^ 64) (l : List α) :
    inserter (BitVec.ofNat 64 k) x 0 [] 0 l = (everyKth k x k l, (everyKth k x k l).length) := by
  have := inserter_spec k x hk hk64 l 0 0 [] hk
  simpa using this

/-- The specification function does what it says: position `j` of the input is preceded by `j / k` insertions. -/
theorem C38_everyKth_blocks (k : Nat) (x : α) (hk : 0 < k) (pre : List α) : ∀ (block rest : List α) (first : Nat), block.length = first → 0 < first →
    everyKth k x first (block ++ rest) = block ++ x :: everyKth k x k rest := by
  intro block
  induction block with
  | nil => intro rest first h1 h2; simp at h1; omega
  | cons a t ih =>
    intro rest first h1 h2
    simp only [List.cons_append, everyKth]
    by_cases h : first = 1
    · have : t = [] := List.length_eq_zero_iff.mp (by simp at h1; omega)
      subst this
      rw [if_pos h]; rfl
    · rw [if_neg h, ih rest (first - 1) (by simp at h1; omega) (by simp at h1; omega)]

/-- Interval 0 never inserts anything (for ranges shorter than 2^64). -/
theorem C38_inserter_zero (x : α) (l : List α) (hl : l.length < 2 ^ 64) : inserter 0 x 0 [] 0 l = (l, l.length) := by
  have key : ∀ (l : List α) (c size : Nat) (out : List α), c + l.length < 2 ^ 64 →
      inserter 0 x (BitVec.ofNat 64 c) out size l = (out ++ l, size + l.length) := by
    intro l
    induction l with
    | nil => intro c size out _; simp [inserter]
    | cons a t ih =>
      intro c size out hc
      simp only [List.length_cons] at hc
      unfold inserter intervalStep
      have e : BitVec.ofNat 64 c + 1 = BitVec.ofNat 64 (c + 1) := by
        apply BitVec.eq_of_toNat_eq
        simp
      rw [e, if_neg]
      · simp only [Bool.false_eq_true, if_false]
        rw [ih (c + 1) _ _ (by omega)]
        simp
        omega
      · intro h
        have := congrArg BitVec.toNat h
        simp only [BitVec.toNat_ofNat] at this
        rw [Nat.mod_eq_of_lt (by omega)] at this
        simp at this
  have := key l 0 0 [] (by omega)
  simpa using this

example : inserter 2 9 0 [] 0 [1, 2, 3, 4, 5] = ([1, 2, 9, 3, 4, 9, 5], 7) := by decide
example : replicateInplace 2 [1, 2] = [1, 2, 1, 2, 1, 2] := by decide

/-! ## C80 iota -/

/-- `iota` writes consecutive values, wrapping at the width of the type. -/
theorem C80_iota {w : Nat} (n : Nat) (v : BitVec w) : (iota n v).length = n ∧ ∀ i < n, (iota n v)[i]? = some (v + BitVec.ofNat w i) := by
  induction n generalizing v with
  | zero => simp [iota]
  | succ n ih =>
    refine ⟨by rw [iota, List.length_cons, (ih (v + 1)).1], fun i hi => ?_⟩
    cases i with
    | zero => simp [iota]
    | succ i =>
      simp only [iota, List.getElem?_cons_succ]
      rw [(ih (v + 1)).2 i (by omega)]
      congr 1
      rw [BitVec.add_assoc, BitVec.add_comm 1, BitVec.ofNat_add]
      rfl

example : iota 3 (254 : BitVec 8) = [254, 255, 0] := by decide

/-! ## C39 -/

theorem cutLen_le (r0 r1 size : Nat) (h0 : r0 ≤ min r1 size) (hs : size < 2 ^ 64) : cutLen r0 r1 size = min r1 size - r0 := by
  unfold cutLen
  have : min r1 size + (2 ^ 64 - r0) = (min r1 size - r0) + 2 ^ 64 := by omega
  rw [this, Nat.add_mod_right, Nat.mod_eq_of_lt (by omega)]

/-- For `r0 <= r1`: every string of at least `r0` characters contributes its characters `r0 .. r1-1`, the others nothing. -/
theorem C39_cut_partial (r0 r1 : Nat) (h : r0 ≤ r1) (l : List (List α)) (hl : ∀ s ∈ l, s.length < 2 ^ 64) :
    cut r0 r1 l = ok ((l.filter fun s => decide (r0 ≤ s.length)).map fun s => (s.take r1).drop r0) := by
  induction l with
  | nil => rfl
  | cons s t ih =>
    unfold cut
    rw [ih (fun x hx => hl x (List.mem_cons_of_mem _ hx))]
    by_cases hs : s.length < r0
    · rw [if_pos hs, List.filter_cons_of_neg (by simp; omega)]
    · rw [if_neg hs, List.filter_cons_of_pos (by simp; omega), substr, if_pos (by omega), cutLen_le _ _ _ (by omega) (hl s (by simp))]
      simp only [ok_bind, List.map_cons]
      rw [List.drop_take]
      congr 2
      rw [List.take_eq_take_iff]
      simp
      omega

/-- In place: the shorter strings stay as they are. -/
theorem C39_cut_inplace_partial (r0 r1 : Nat) (h : r0 ≤ r1) (l : List (List α)) (hl : ∀ s ∈ l, s.length < 2 ^ 64) :
    cutInplace r0 r1 l = ok (l.map fun s => if r0 ≤ s.length then (s.take r1).drop r0 else s) := by
  induction l with
  | nil => rfl
  | cons s t ih =>
    unfold cutInplace
    rw [ih (fun x hx => hl x (List.mem_cons_of_mem _ hx))]
    by_cases hs : s.length ≥ r0
    · rw [if_pos hs, substr, if_pos (by omega), cutLen_le _ _ _ (by omega) (hl s (by simp))]
      simp only [ok_bind, List.map_cons]
      rw [if_pos hs, List.drop_take]
      congr 2
      rw [List.take_eq_take_iff]
      simp
      omega
    · rw [if_neg hs]
      simp only [ok_bind, List.map_cons]
      rw [if_neg hs]

/-- For `r1 < r0` the length wraps around: instead of nothing, everything from `r0` on is delivered. -/
theorem C39_reversed_range (r0 r1 : Nat) (s : List α) (h : r1 < r0) (hs : r0 ≤ s.length) (hl : s.length < 2 ^ 63) : cut r0 r1 [s] = ok [s.drop r0] := by
  unfold cut
  rw [if_neg (by omega), substr, if_pos hs]
  simp only [ok_bind, cut]
  rw [List.take_of_length_le]
  unfold cutLen
  rw [Nat.mod_eq_of_lt (by omega)]
  simp
  omega

theorem C39_reversed_range_witness : cut 2 1 [[10, 11, 12, 13]] = ok [[12, 13]] ∧ (([10, 11, 12, 13] : List Nat).take 1).drop 2 = [] := by
  decide +kernel

example : cut 1 3 [[10, 11, 12, 13], [], [20], [20, 21]] = ok [[11, 12], [], [21]] := by decide +kernel

/-! ## C40 -/

theorem charIndex_ascii (c : Byte) (h : c.toNat < 128) : charIndex c = c.toNat := by
  have : ∀ c : Byte, c.toNat < 128 → charIndex c = c.toNat := by decide +kernel
  exact this c h

theorem charIndex_high (c : Byte) (h : 128 ≤ c.toNat) : 256 ≤ charIndex c := by
  have : ∀ c : Byte, 128 ≤ c.toNat → 256 ≤ charIndex c := by decide +kernel
  exact this c h

/-- What a character is translated to: the output character at its last occurrence in the input table, itself if there is none. -/
def lastMap (is os : List Byte) (c : Byte) : Byte := ((is.zip os).reverse.lookup c).getD c

theorem tableLoop_spec : ∀ (is os table : List Byte), is.length = os.length → (∀ c ∈ is, c.toNat < 128) → table.length = 256 →
    ∃ t, tableLoop is os table = ok t ∧ t.length = 256 ∧
      ∀ c : Byte, t[c.toNat]? = (table[c.toNat]?).map fun b => ((is.zip os).reverse.lookup c).getD b := by
  intro is
  induction is with
  | nil => intro os table _ _ ht; exact ⟨table, rfl, ht, fun c => by simp⟩
  | cons i is ih =>
    intro os table hl ha ht
    match os, hl with
    | o :: os, hl =>
      unfold tableLoop
      have hi := ha i (by simp)
      rw [charIndex_ascii i hi, store_eq_ok _ (by omega), ok_bind]
      obtain ⟨t, h1, h2, h3⟩ := ih os (table.set i.toNat o) (by simpa using hl) (fun c hc => ha c (List.mem_cons_of_mem _ hc)) (by simpa using ht)
      refine ⟨t, h1, h2, fun c => ?_⟩
      rw [h3 c, List.getElem?_set]
      have hc := c.isLt
      simp only [List.zip_cons_cons, List.reverse_cons, List.lookup_append]
      by_cases e : i.toNat = c.toNat
      · have e' : i = c := BitVec.eq_of_toNat_eq e
        subst e'
        rw [if_pos rfl, if_pos (by omega)]
        have : table[i.toNat]? = some table[i.toNat] := List.getElem?_eq_getElem (by omega)
        rw [this]
        simp [List.lookup]
      · rw [if_neg e]
        have e' : ¬ c = i := fun hh => e (by rw [hh])
        have : (c == i) = false := by simpa using e'
        simp [List.lookup, this]

/-- For ASCII characters and equally long tables: every character is replaced by the output character of its last occurrence in the input
table, other characters stay.  Missing for the full property: bytes from 0x80 on, for which it is false. -/
theorem C40_translate_partial (is os s : List Byte) (hl : is.length = os.length) (hi : ∀ c ∈ is, c.toNat < 128) (hs : ∀ c ∈ s, c.toNat < 128) :
    (do let t ← translationTable is os; translate t s) = ok (s.map (lastMap is os)) := by
  unfold translationTable
  rw [if_neg (by omega)]
  have hio := C80_iota 256 (0 : BitVec 8)
  obtain ⟨t, h1, h2, h3⟩ := tableLoop_spec is os (iota 256 0) hl hi hio.1
  rw [h1, ok_bind]
  induction s with
  | nil => rfl
  | cons c s ih =>
    unfold translate
    have hc := c.isLt
    have hd : deref t (charIndex c) = ok (lastMap is os c) := by
      rw [charIndex_ascii c (hs c (by simp)), deref, h3 c, hio.2 c.toNat (by omega)]
      simp [lastMap]
    rw [hd, ok_bind, ih (fun x hx => hs x (List.mem_cons_of_mem _ hx)), ok_bind]
    rfl

/-- A table entry, or a translated character, from 0x80 on indexes outside the table. -/
theorem C40_high_bytes_ub (is os s : List Byte) (c : Byte) (hc : 128 ≤ c.toNat) (hl : is.length = os.length) (hi : ∀ c ∈ is, c.toNat < 128) :
    (do let t ← translationTable is os; translate t (c :: s)) = ub ∧ (∀ o, translationTable [c] [o] = ub) := by
  have hidx := charIndex_high c hc
  constructor
  · unfold translationTable
    rw [if_neg (by omega)]
    obtain ⟨t, h1, h2, h3⟩ := tableLoop_spec is os (iota 256 0) hl hi (C80_iota 256 (0 : BitVec 8)).1
    rw [h1, ok_bind, translate, deref_ub (by omega)]
    try rfl
  · intro o
    unfold translationTable tableLoop
    rw [if_neg (by simp), store, if_neg]
    · rfl
    · rw [(C80_iota 256 (0 : BitVec 8)).1]; omega

/-- Tables of different sizes are refused with an exception. -/
theorem C40_size_mismatch (is os : List Byte) (h : is.length ≠ os.length) : translationTable is os = thrown := by
  rw [translationTable, if_pos h]

example : (do let t ← translationTable [97, 98, 97] [49, 50, 51]; translate t [97, 98, 99]) = ok [51, 50, 99] := by decide +kernel

end Strtk.Join
