import Verif.Misc.Canonical

/-!
# C72, C75, C95: first non-repeated character, arrays, minimum and maximum
-/

namespace Strtk.Misc
open Outcome

/-! ## C72 -/

/-- The entry of the table for the character `c` after the text `s`. -/
def Entry (s : List Byte) (c : Byte) (e : Nat) : Prop :=
  (s.count c = 0 ∧ e = notYet) ∨ (s.count c = 1 ∧ s[e]? = some c) ∨ (2 ≤ s.count c ∧ e = repeated)

theorem lutIndex_ascii {c : Byte} (h : c.toNat < 128) : lutIndex c = c.toNat := by unfold lutIndex; rw [if_pos h]

theorem lutLoop_spec : ∀ (t pre : List Byte) (lut : List Nat), (∀ c ∈ t, c.toNat < 128) → (pre ++ t).length < repeated →
    lut.length = 256 → (∀ c : Byte, ∃ e, lut[c.toNat]? = some e ∧ Entry pre c e) →
    ∃ lut', lutLoop t pre.length lut = ok lut' ∧ lut'.length = 256 ∧ ∀ c : Byte, ∃ e, lut'[c.toNat]? = some e ∧ Entry (pre ++ t) c e := by
  intro t
  induction t with
  | nil => intro pre lut _ _ hl h; exact ⟨lut, rfl, hl, by simpa using h⟩
  | cons a t ih =>
    intro pre lut ht hlen hl h
    have ha := ht a (by simp)
    obtain ⟨e, he, hent⟩ := h a
    rw [List.length_append, List.length_cons] at hlen
    have hrep : repeated = 2 ^ 64 - 2 := rfl
    have hny : notYet = 2 ^ 64 - 1 := rfl
    have hcount : ∀ c, (pre ++ [a]).count c = pre.count c + if a = c then 1 else 0 := by
      intro c; rw [List.count_append, List.count_singleton]; congr 1; simp [beq_iff_eq]
    have hother : ∀ c e, c ≠ a → Entry pre c e → Entry (pre ++ [a]) c e := by
      intro c e hc hE
      unfold Entry at *
      rw [hcount, if_neg (Ne.symm hc), Nat.add_zero]
      rcases hE with h | ⟨h1, h2⟩ | h
      · exact Or.inl h
      · right; left
        refine ⟨h1, ?_⟩
        rw [List.getElem?_append_left (List.getElem?_eq_some_iff.mp h2).1]; exact h2
      · exact Or.inr (Or.inr h)
    have hstep : ∃ lut1, lutStep lut a.toNat pre.length e = ok lut1 ∧
        lut1.length = 256 ∧ ∀ c : Byte, ∃ e, lut1[c.toNat]? = some e ∧ Entry (pre ++ [a]) c e := by
      have hset : ∀ v, Entry (pre ++ [a]) a v → ∀ c : Byte, ∃ e, (lut.set a.toNat v)[c.toNat]? = some e ∧ Entry (pre ++ [a]) c e := by
        intro v hv c
        by_cases hc : c = a
        · subst hc
          exact ⟨v, List.getElem?_set_self (by omega), hv⟩
        · obtain ⟨e', h1, h2⟩ := h c
          refine ⟨e', ?_, hother c e' hc h2⟩
          rw [List.getElem?_set_ne (fun hh => hc (BitVec.eq_of_toNat_eq hh.symm))]; exact h1
      have hstore : ∀ v, store lut a.toNat v = ok (lut.set a.toNat v) := by intro v; unfold store; rw [if_pos (by omega)]
      unfold lutStep
      rcases hent with ⟨h1, rfl⟩ | ⟨h1, h2⟩ | ⟨h1, rfl⟩
      · rw [if_pos rfl, hstore]
        refine ⟨_, rfl, by simp [hl], hset _ ?_⟩
        right; left
        rw [hcount, if_pos rfl]
        exact ⟨by omega, by simp⟩
      · have hlt := (List.getElem?_eq_some_iff.mp h2).1
        rw [if_neg (by omega), if_pos (by omega), hstore]
        refine ⟨_, rfl, by simp [hl], hset _ ?_⟩
        right; right
        rw [hcount, if_pos rfl]
        exact ⟨by omega, rfl⟩
      · rw [if_neg (by omega), if_neg (by omega)]
        refine ⟨lut, rfl, hl, ?_⟩
        intro c
        by_cases hc : c = a
        · subst hc
          refine ⟨repeated, he, Or.inr (Or.inr ⟨?_, rfl⟩)⟩
          rw [hcount, if_pos rfl]; omega
        · obtain ⟨e', h3, h4⟩ := h c
          exact ⟨e', h3, hother c e' hc h4⟩
    obtain ⟨lut1, hs1, hs2, hs3⟩ := hstep
    unfold lutLoop
    have hd : deref lut (lutIndex a) = ok e := by rw [lutIndex_ascii ha]; unfold deref; rw [he]
    rw [hd, ok_bind, lutIndex_ascii ha, hs1, ok_bind]
    have hmod : (pre.length + 1) % 2 ^ 64 = (pre ++ [a]).length := by rw [Nat.mod_eq_of_lt (by omega)]; simp
    rw [hmod]
    have := ih (pre ++ [a]) lut1 (fun c hc => ht c (by simp [hc])) (by simp only [List.length_append, List.length_cons, List.length_nil]; omega) hs2 hs3
    simpa using this

theorem lutMin_spec : ∀ (lut : List Nat) (p : Nat), lutMin lut p ≤ p ∧ (∀ e ∈ lut, lutMin lut p ≤ e) ∧ (lutMin lut p = p ∨ lutMin lut p ∈ lut) := by
  intro lut
  induction lut with
  | nil => intro p; simp [lutMin]
  | cons e t ih =>
    intro p
    unfold lutMin
    by_cases h : e < p
    · rw [if_pos h]
      obtain ⟨h1, h2, h3⟩ := ih e
      refine ⟨by omega, ?_, ?_⟩
      · intro x hx
        rcases List.mem_cons.mp hx with rfl | hx
        · exact h1
        · exact h2 x hx
      · right
        rcases h3 with h3 | h3
        · rw [h3]; simp
        · simp [h3]
    · rw [if_neg h]
      obtain ⟨h1, h2, h3⟩ := ih p
      refine ⟨h1, ?_, ?_⟩
      · intro x hx
        rcases List.mem_cons.mp hx with rfl | hx
        · omega
        · exact h2 x hx
      · rcases h3 with h3 | h3
        · exact Or.inl h3
        · exact Or.inr (by simp [h3])

/-- Position `i` holds a character that occurs exactly once, and no earlier position does. -/
def FirstUnique (s : List Byte) (i : Nat) : Prop :=
  (∃ c, s[i]? = some c ∧ s.count c = 1) ∧ ∀ j d, j < i → s[j]? = some d → s.count d ≠ 1

theorem firstNonRepeated_spec (s : List Byte) (hs : ∀ c ∈ s, c.toNat < 128) (hn : s.length < 2 ^ 64 - 2) :
    (∃ i, FirstUnique s i ∧ firstNonRepeated s = ok i) ∨ ((∀ c ∈ s, s.count c ≠ 1) ∧ firstNonRepeated s = ok s.length) := by
  obtain ⟨lut, h1, h2, h3⟩ := lutLoop_spec s [] (List.replicate 256 notYet) hs (by rw [List.nil_append]; exact hn) (List.length_replicate ..) (by
    intro c
    refine ⟨notYet, ?_, Or.inl ⟨by simp, rfl⟩⟩
    rw [List.getElem?_replicate, if_pos c.isLt])
  simp only [List.nil_append, List.length_nil] at h1 h3
  obtain ⟨m1, m2, m3⟩ := lutMin_spec lut repeated
  have hval : firstNonRepeated s = ok (if repeated ≠ lutMin lut repeated then lutMin lut repeated else s.length) := by
    unfold firstNonRepeated; rw [h1, ok_bind]
  have huniq : ∀ j d, s[j]? = some d → s.count d = 1 → lutMin lut repeated ≤ j := by
    intro j d hj hc
    obtain ⟨e, he, hE⟩ := h3 d
    rcases hE with ⟨h, _⟩ | ⟨_, h⟩ | ⟨h, _⟩
    · omega
    · have : e = j := by
        rcases Nat.lt_trichotomy e j with hlt | rfl | hlt
        · exfalso
          have : 2 ≤ s.count d := by
            have e1 := List.take_append_drop j s
            have hjl := (List.getElem?_eq_some_iff.mp hj).1
            rw [← e1, List.count_append]
            have a1 : 0 < (s.take j).count d := List.count_pos_iff.mpr (List.mem_of_getElem? (i := e) (by rw [List.getElem?_take, if_pos hlt]; exact h))
            have a2 : 0 < (s.drop j).count d := List.count_pos_iff.mpr (List.mem_of_getElem? (i := 0) (by rw [List.getElem?_drop]; simpa using hj))
            omega
          omega
        · rfl
        · exfalso
          have : 2 ≤ s.count d := by
            have e1 := List.take_append_drop e s
            rw [← e1, List.count_append]
            have a1 : 0 < (s.take e).count d := List.count_pos_iff.mpr (List.mem_of_getElem? (i := j) (by rw [List.getElem?_take, if_pos hlt]; exact hj))
            have a2 : 0 < (s.drop e).count d := List.count_pos_iff.mpr (List.mem_of_getElem? (i := 0) (by rw [List.getElem?_drop]; simpa using h))
            omega
          omega
      rw [← this]
      exact m2 e (List.mem_of_getElem? he)
    · omega
  rw [hval]
  by_cases hr : repeated = lutMin lut repeated
  · right
    refine ⟨?_, by rw [if_neg (by simpa using hr)]⟩
    intro c hc h
    obtain ⟨j, hj⟩ := List.mem_iff_getElem?.mp hc
    have := huniq j c hj h
    have hjl := (List.getElem?_eq_some_iff.mp hj).1
    have hrep : repeated = 2 ^ 64 - 2 := rfl
    omega
  · left
    refine ⟨lutMin lut repeated, ⟨?_, ?_⟩, by rw [if_pos hr]⟩
    · rcases m3 with h | h
      · exact absurd h.symm hr
      · obtain ⟨k, hk⟩ := List.mem_iff_getElem?.mp h
        have hkl : k < 256 := by have := (List.getElem?_eq_some_iff.mp hk).1; omega
        obtain ⟨e, he, hE⟩ := h3 (BitVec.ofNat 8 k)
        have hkk : (BitVec.ofNat 8 k).toNat = k := by simp; omega
        rw [hkk, hk] at he
        cases he
        have hrep : repeated = 2 ^ 64 - 2 := rfl
        have hny : notYet = 2 ^ 64 - 1 := rfl
        rcases hE with ⟨_, h'⟩ | ⟨h1', h2'⟩ | ⟨_, h'⟩
        · omega
        · exact ⟨_, h2', h1'⟩
        · exact absurd h'.symm hr
    · intro j d hj hd hc
      have := huniq j d hd hc
      omega

/-- **C72**: on 7-bit text the result is the position of the first character occurring exactly once, `npos` (`none`) if there is none.
Missing: texts with bytes above 0x7F, next theorem. -/
theorem C72_first_non_repeated_partial (s : List Byte) (hs : ∀ c ∈ s, c.toNat < 128) (hn : s.length < 2 ^ 64 - 2) :
    (∀ i, FirstUnique s i → firstNonRepeatedStr s = ok (some i)) ∧ ((∀ c ∈ s, s.count c ≠ 1) → firstNonRepeatedStr s = ok none) := by
  unfold firstNonRepeatedStr
  by_cases he : s = []
  · subst he
    refine ⟨?_, by simp⟩
    rintro i ⟨⟨c, h, _⟩, _⟩; simp at h
  · rw [if_neg he]
    rcases firstNonRepeated_spec s hs hn with ⟨i, h1, h2⟩ | ⟨h1, h2⟩
    · rw [h2, ok_bind]
      have hil : i < s.length := by obtain ⟨c, hc, _⟩ := h1.1; exact (List.getElem?_eq_some_iff.mp hc).1
      rw [if_pos (by omega)]
      constructor
      · intro k hk
        have : i = k := by
          rcases Nat.lt_trichotomy i k with hlt | rfl | hlt
          · obtain ⟨c, hc, h⟩ := h1.1; exact absurd h (hk.2 i c hlt hc)
          · rfl
          · obtain ⟨c, hc, h⟩ := hk.1; exact absurd h (h1.2 k c hlt hc)
        rw [this]
      · intro h
        obtain ⟨c, hc, h'⟩ := h1.1
        exact absurd h' (h c (List.mem_of_getElem? hc))
    · rw [h2, ok_bind, if_neg (by simp)]
      constructor
      · intro i hi
        obtain ⟨c, hc, h'⟩ := hi.1
        exact absurd h' (h1 c (List.mem_of_getElem? hc))
      · intro _; rfl

/-- **C72**: the pointer versions, which return the end when there is no such character. -/
theorem C72_pointer_partial (s : List Byte) (hs : ∀ c ∈ s, c.toNat < 128) (hn : s.length < 2 ^ 64 - 2) :
    (∃ i, FirstUnique s i ∧ firstNonRepeated s = ok i) ∨ ((∀ c ∈ s, s.count c ≠ 1) ∧ firstNonRepeated s = ok s.length) :=
  firstNonRepeated_spec s hs hn

/-- **C72** (negative result): the first byte above 0x7F makes the table be accessed far outside of it. -/
theorem C72_high_bytes (pre t : List Byte) (c : Byte) (hp : ∀ x ∈ pre, x.toNat < 128) (hc : 128 ≤ c.toNat) (hn : pre.length < 2 ^ 64 - 2) :
    firstNonRepeatedStr (pre ++ c :: t) = ub := by
  have key : ∀ (u pre : List Byte) (lut : List Nat), (∀ c ∈ u, c.toNat < 128) → (pre ++ u).length < repeated →
    lut.length = 256 → (∀ c : Byte, ∃ e, lut[c.toNat]? = some e ∧ Entry pre c e) → lutLoop (u ++ c :: t) pre.length lut = ub := by
    intro u
    induction u with
    | nil =>
      intro pre lut _ _ hl _
      simp only [List.nil_append]
      unfold lutLoop
      have : deref lut (lutIndex c) = ub := by
        unfold deref lutIndex
        rw [if_neg (by omega), List.getElem?_eq_none (by have := c.isLt; omega)]
      rw [this]; rfl
    | cons a u ih =>
      intro pre lut hu hlen hl hE
      rw [List.length_append, List.length_cons] at hlen
      obtain ⟨lut', h1, h2, h3⟩ := lutLoop_spec [a] pre lut (by intro x hx; simp at hx; subst hx; exact hu _ (by simp))
        (by rw [List.length_append, List.length_singleton]; omega) hl hE
      have hrep : repeated = 2 ^ 64 - 2 := rfl
      have hmod : (pre.length + 1) % 2 ^ 64 = (pre ++ [a]).length := by rw [Nat.mod_eq_of_lt (by omega)]; simp
      unfold lutLoop at h1
      rw [bind_eq_ok] at h1
      obtain ⟨e, e1, h1⟩ := h1
      rw [bind_eq_ok] at h1
      obtain ⟨lut1, e2, h1⟩ := h1
      unfold lutLoop at h1
      cases h1
      rw [List.cons_append]
      unfold lutLoop
      rw [e1, ok_bind, e2, ok_bind, hmod]
      exact ih (pre ++ [a]) lut' (fun x hx => hu x (by simp [hx])) (by simp only [List.length_append, List.length_cons, List.length_nil]; omega) h2 h3
  have := key pre [] (List.replicate 256 notYet) hp (by rw [List.nil_append]; exact hn) (List.length_replicate ..) (by
    intro c
    refine ⟨notYet, ?_, Or.inl ⟨by simp, rfl⟩⟩
    rw [List.getElem?_replicate, if_pos c.isLt])
  unfold firstNonRepeatedStr
  rw [if_neg (by simp)]
  unfold firstNonRepeated
  rw [show (0 : Nat) = ([] : List Byte).length from rfl, this]
  rfl

example : firstNonRepeatedStr [97, 98, 97, 99] = ok (some 1) ∧ firstNonRepeatedStr [97, 97] = ok none := by decide +kernel

/-! ## C75 -/

/-- **C75**: `make_string(a, n)` is the text of the first `n` bytes, the empty text if the array is shorter. -/
theorem C75_make_string (a : List Byte) (n : Nat) : makeString a n = ok (if n ≤ a.length then a.take n else []) := by
  unfold makeString Mem.slice
  by_cases h : a.length < n
  · rw [if_pos h, if_neg (by omega)]
  · rw [if_neg h, if_pos (by omega), if_pos (by omega)]; rfl

/-- **C75**: `clear_array(a, v, n)` sets the first `n` elements, or refuses and changes nothing. -/
theorem C75_clear_array {α : Type} (a : List α) (v : α) (n : Nat) :
    clearArray a v n = ok (if n ≤ a.length then (true, List.replicate n v ++ a.drop n) else (false, a)) := by
  unfold clearArray fillN Mem.copyTo
  by_cases h : a.length < n
  · rw [if_pos h, if_neg (by omega)]
  · rw [if_neg h, if_pos (by simp; omega), if_pos (by omega)]; simp

/-- **C75**: `set_array(a, s, pad, c)` with a string copies it to the front and, if asked to, fills the rest with the padding; it refuses
and changes nothing if the string is too long. -/
theorem C75_set_array (a s : List Byte) (pad : Bool) (c : Byte) :
    setArrayStr a s pad c = ok (if s.length ≤ a.length then
      (true, s ++ if pad then List.replicate (a.length - s.length) c else a.drop s.length) else (false, a)) := by
  unfold setArrayStr
  by_cases h : a.length < s.length
  · rw [if_pos h, if_neg (by omega)]
  · rw [if_neg h, if_pos (by omega)]
    have e1 : Mem.copyTo a 0 s = ok (s ++ a.drop s.length) := by unfold Mem.copyTo; rw [if_pos (by omega)]; simp
    rw [e1, ok_bind]
    have hl : (s ++ a.drop s.length).length = a.length := by simp; omega
    rw [hl]
    by_cases hc : s.length < a.length ∧ pad = true
    · rw [if_pos hc]
      have e2 : fillN (s ++ a.drop s.length) s.length (a.length - s.length) c = ok (s ++ List.replicate (a.length - s.length) c) := by
        unfold fillN Mem.copyTo
        rw [if_pos (by simp)]
        simp; omega
      rw [e2, ok_bind, if_pos hc.2]
    · rw [if_neg hc]
      cases pad with
      | false => simp
      | true =>
        have : s.length = a.length := by simp at hc; omega
        simp [this]

/-- **C75**: the overload for two arrays is right when they have the same size. Missing: a shorter source, next theorem. -/
theorem C75_set_array_arrays_partial (dest src : List Byte) (pad : Bool) (c : Byte) (h : dest.length ≤ src.length) :
    setArrayArr dest src pad c = ok (if src.length = dest.length then (true, src) else (false, dest)) := by
  unfold setArrayArr
  by_cases he : src.length = dest.length
  · rw [if_neg (by omega), if_pos he]
    unfold Mem.slice Mem.copyTo
    rw [if_pos (by omega), ok_bind]
    simp [he]
  · rw [if_pos (by omega), if_neg he]

/-- **C75** (negative result): a source array shorter than the destination is read beyond its end. -/
theorem C75_set_array_arrays_over_read (dest src : List Byte) (pad : Bool) (c : Byte) (h : src.length < dest.length) :
    setArrayArr dest src pad c = ub := by
  unfold setArrayArr Mem.slice
  rw [if_neg (by omega), if_neg (by omega)]; rfl

example : setArrayStr [1, 2, 3, 4] [9, 8] true 0 = ok (true, [9, 8, 0, 0]) ∧ setArrayStr [1, 2, 3, 4] [9, 8] false 0 = ok (true, [9, 8, 3, 4]) ∧
    clearArray [1, 2, 3] 0 2 = ok (true, [0, 0, 3]) ∧ makeString [97, 98, 99] 2 = ok [97, 98] := by decide

/-! ## C95 -/

theorem minMaxLoop_spec {α : Type} [LinearOrder α] : ∀ (t : List α) (mn mx : α), mn ≤ mx →
    (minMaxLoop t mn mx).1 ∈ mn :: t ∧ (minMaxLoop t mn mx).2 ∈ mx :: t ∧ (minMaxLoop t mn mx).1 ≤ mn ∧ mx ≤ (minMaxLoop t mn mx).2 ∧
    ∀ x ∈ t, (minMaxLoop t mn mx).1 ≤ x ∧ x ≤ (minMaxLoop t mn mx).2 := by
  intro t
  induction t with
  | nil => intro mn mx _; simp [minMaxLoop]
  | cons a t ih =>
    intro mn mx hle
    unfold minMaxLoop
    by_cases h1 : a < mn
    · rw [if_pos h1]
      obtain ⟨i1, i2, i3, i4, i5⟩ := ih a mx (le_trans (le_of_lt h1) hle)
      refine ⟨List.mem_cons_of_mem _ i1, ?_, le_trans i3 (le_of_lt h1), i4, ?_⟩
      · rcases List.mem_cons.mp i2 with h | h
        · rw [h]; simp
        · simp [h]
      · intro x hx
        rcases List.mem_cons.mp hx with rfl | hx
        · exact ⟨i3, le_trans (le_trans (le_of_lt h1) hle) i4⟩
        · exact i5 x hx
    · rw [if_neg h1]
      by_cases h2 : mx < a
      · rw [if_pos h2]
        obtain ⟨i1, i2, i3, i4, i5⟩ := ih mn a (le_trans hle (le_of_lt h2))
        refine ⟨?_, List.mem_cons_of_mem _ i2, i3, le_trans (le_of_lt h2) i4, ?_⟩
        · rcases List.mem_cons.mp i1 with h | h
          · rw [h]; simp
          · simp [h]
        · intro x hx
          rcases List.mem_cons.mp hx with rfl | hx
          · exact ⟨le_trans i3 (not_lt.mp h1), i4⟩
          · exact i5 x hx
      · rw [if_neg h2]
        obtain ⟨i1, i2, i3, i4, i5⟩ := ih mn mx hle
        refine ⟨?_, ?_, i3, i4, ?_⟩
        · rcases List.mem_cons.mp i1 with h | h
          · rw [h]; simp
          · simp [h]
        · rcases List.mem_cons.mp i2 with h | h
          · rw [h]; simp
          · simp [h]
        · intro x hx
          rcases List.mem_cons.mp hx with rfl | hx
          · exact ⟨le_trans i3 (not_lt.mp h1), le_trans (not_lt.mp h2) i4⟩
          · exact i5 x hx

/-- **C95**: on a non-empty range `min_max_of_range` delivers a smallest and a greatest element; an empty range is not supported. -/
theorem C95_min_max {α : Type} [LinearOrder α] (s : List α) :
    (s ≠ [] → ∃ mn mx, minMax s = ok (mn, mx) ∧ mn ∈ s ∧ mx ∈ s ∧ ∀ x ∈ s, mn ≤ x ∧ x ≤ mx) ∧ (s = [] → minMax s = ub) := by
  constructor
  · intro hs
    cases s with
    | nil => simp at hs
    | cons a t =>
      obtain ⟨h1, h2, h3, h4, h5⟩ := minMaxLoop_spec t a a (le_refl _)
      refine ⟨_, _, rfl, h1, h2, ?_⟩
      intro x hx
      rcases List.mem_cons.mp hx with rfl | hx
      · exact ⟨h3, h4⟩
      · exact h5 x hx
  · rintro rfl; rfl

example : minMax [3, 1, 2, 5, 4] = ok (1, 5) := by decide

end Strtk.Misc
