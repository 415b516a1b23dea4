import Verif.Consec.Model

/-! # Runs of consecutive values (C52) -/

namespace Strtk.Consec
open Outcome

variable {α : Type}

/-! ## What is looked for -/

/-- Position `j` of the range holds an element that satisfies the predicate. -/
def Holds (p : α → Bool) (s : List α) (j : Nat) : Prop := ∃ c, s[j]? = some c ∧ p c = true

/-- `n` consecutive elements from position `i` satisfy the predicate. -/
def Window (p : α → Bool) (n : Nat) (s : List α) (i : Nat) : Prop := ∀ j, i ≤ j → j < i + n → Holds p s j

/-- The first window from position `from_` on. -/
def FirstWindow (p : α → Bool) (n : Nat) (s : List α) (from_ i : Nat) : Prop :=
  from_ ≤ i ∧ Window p n s i ∧ ∀ j, from_ ≤ j → j < i → ¬ Window p n s j

/-- A maximal run of `k` elements from position `i`, seen from position `from_` on. -/
def Run (p : α → Bool) (s : List α) (from_ i k : Nat) : Prop :=
  Window p k s i ∧ ¬ Holds p s (i + k) ∧ (i = from_ ∨ ¬ Holds p s (i - 1))

theorem Holds.lt {p : α → Bool} {s : List α} {j : Nat} (h : Holds p s j) : j < s.length := by
  obtain ⟨c, h, _⟩ := h
  exact (List.getElem?_eq_some_iff.mp h).1

theorem Window.le {p : α → Bool} {n : Nat} {s : List α} {i : Nat} (h : Window p n s i) (hn : 1 ≤ n) : i + n ≤ s.length := by
  have := (h (i + n - 1) (by omega) (by omega)).lt
  omega

theorem holds_iff {p : α → Bool} {s : List α} {j : Nat} (h : j < s.length) : Holds p s j ↔ p s[j] = true := by
  unfold Holds
  rw [List.getElem?_eq_getElem h]
  simp

/-! ## Lemmas -/

theorem skip_spec (p : α → Bool) (s : List α) : ∀ (fuel itr : Nat), itr ≤ s.length → s.length - itr < fuel →
    ∃ itr', skip (stateless p) s fuel () itr = ok ((), itr') ∧ itr ≤ itr' ∧ itr' ≤ s.length ∧ (∀ j, itr ≤ j → j < itr' → ¬ Holds p s j) ∧
      (itr' < s.length → Holds p s itr') := by
  intro fuel
  induction fuel with
  | zero => intro itr _ h; omega
  | succ fuel ih =>
    intro itr hi hf
    unfold skip
    split
    · rename_i h
      exact ⟨itr, rfl, Nat.le_refl _, hi, fun j h1 h2 => by omega, fun h' => by omega⟩
    · rename_i h
      have hlt : itr < s.length := by omega
      rw [deref_eq_ok hlt, ok_bind]
      simp only [stateless]
      by_cases hp : p s[itr] = true
      · rw [if_pos hp]
        exact ⟨itr, rfl, Nat.le_refl _, hi, fun j h1 h2 => by omega, fun _ => (holds_iff hlt).mpr hp⟩
      · rw [if_neg hp]
        obtain ⟨itr', h1, h2, h3, h4, h5⟩ := ih (itr + 1) (by omega) (by omega)
        refine ⟨itr', h1, by omega, h3, ?_, h5⟩
        intro j hj1 hj2
        by_cases hj : j = itr
        · subst hj; rw [holds_iff hlt]; exact hp
        · exact h4 j (by omega) hj2

theorem dec_pos {c : Nat} (h : 1 ≤ c) (h2 : c < 2 ^ 64) : dec c = c - 1 := by unfold dec; omega

theorem exactlyLoop_spec (p : α → Bool) (n : Nat) (hn : 1 ≤ n) (hn2 : n < 2 ^ 64) (s : List α) (from_ : Nat) :
    ∀ (fuel itr k : Nat), itr ≤ s.length → s.length - itr < fuel → k < n → from_ + k ≤ itr → Window p k s (itr - k) →
      (∀ j, from_ ≤ j → j < itr - k → ¬ Window p n s j) →
      ∃ r, exactlyLoop (stateless p) n false s fuel () itr (n - k) = ok r ∧ (∀ i, r = some i → FirstWindow p n s from_ i) ∧
        (r = none → ∀ j, from_ ≤ j → ¬ Window p n s j) := by
  intro fuel
  induction fuel with
  | zero => intro itr k _ h; omega
  | succ fuel ih =>
    intro itr k hi hf hk hfr hw hno
    unfold exactlyLoop
    split
    · rename_i he
      refine ⟨none, rfl, fun i h => (by cases h), fun _ j hj hwin => ?_⟩
      by_cases hj2 : j < itr - k
      · exact hno j hj hj2 hwin
      · have := hwin.le hn; omega
    · have hlt : itr < s.length := by omega
      rw [deref_eq_ok hlt, ok_bind]
      simp only [stateless]
      have hd : dec (n - k) = n - k - 1 := dec_pos (by omega) (by omega)
      by_cases hp : p s[itr] = true
      · rw [if_pos hp]
        have hw' : Window p (k + 1) s (itr - k) := by
          intro j h1 h2
          by_cases hj : j = itr
          · subst hj; exact (holds_iff hlt).mpr hp
          · exact hw j h1 (by omega)
        rw [hd]
        split
        · rename_i hne
          have := ih (itr + 1) (k + 1) (by omega) (by omega) (by omega) (by omega) (by rw [Nat.add_sub_add_right]; exact hw')
            (by rw [Nat.add_sub_add_right]; exact hno)
          rw [show n - (k + 1) = n - k - 1 by omega] at this
          exact this
        · rename_i hne
          rw [if_pos (by omega)]
          refine ⟨some (itr + 1 - n), rfl, ?_, fun h => (by cases h)⟩
          intro i hi'
          cases hi'
          have e : itr + 1 - n = itr - k := by omega
          rw [e]
          refine ⟨by omega, ?_, hno⟩
          have e2 : k + 1 = n := by omega
          rw [e2] at hw'
          exact hw'
      · rw [if_neg hp]
        obtain ⟨itr', h1, h2, h3, h4, h5⟩ := skip_spec p s (s.length + 1) (itr + 1) (by omega) (by omega)
        change ∃ r, (do let (u, itr) ← skip (stateless p) s (s.length + 1) () (itr + 1); _) = ok r ∧ _
        rw [h1, ok_bind]
        simp only [Bool.not_false, if_true]
        refine ih itr' 0 h3 (by omega) (by omega) (by omega) (fun j _ _ => by omega) ?_
        intro j hj1 hj2 hwin
        have hbad : ¬ Holds p s itr := by rw [holds_iff hlt]; exact hp
        by_cases hj3 : j < itr - k
        · exact hno j hj1 hj3 hwin
        · by_cases hj4 : j ≤ itr
          · exact hbad (hwin itr hj4 (by omega))
          · exact h4 j (by omega) (by omega) (hwin j (Nat.le_refl _) (by omega))

theorem findExactly_spec (p : α → Bool) (n : Nat) (hn : 1 ≤ n) (s : List α) (hl : s.length < 2 ^ 32) (from_ : Nat) (hf : from_ ≤ s.length) :
    ∃ r, findExactly (stateless p) () n false s from_ = ok r ∧ (∀ i, r = some i → FirstWindow p n s from_ i) ∧
        (r = none → ∀ j, from_ ≤ j → ¬ Window p n s j) := by
  unfold findExactly
  rw [Nat.mod_eq_of_lt (by omega)]
  split
  · rename_i h
    exact ⟨none, rfl, fun i h => (by cases h), fun _ j hj hw => by have := hw.le hn; omega⟩
  · exact exactlyLoop_spec p n hn (by omega) s from_ (s.length + 1) from_ 0 hf (by omega) (by omega) (by omega) (fun j _ _ => by omega)
      (fun j h1 h2 => by omega)

theorem atleastLoop_spec (p : α → Bool) (n : Nat) (s : List α) (hl : s.length < 2 ^ 31) (from_ : Nat) :
    ∀ (fuel itr k : Nat), itr ≤ s.length → 2 * (s.length - itr) + (if k = 0 then 1 else 0) < fuel → from_ + k ≤ itr → Window p k s (itr - k) →
      (itr - k = from_ ∨ ¬ Holds p s (itr - k - 1)) →
      (k = 0 → itr < s.length → itr ≠ from_ → Holds p s itr) →
      (∀ j, from_ ≤ j → j < itr - k → ¬ Window p n s j) →
      ∃ r, atleastLoop p n s fuel itr k = ok r ∧
        (∀ i m, r = some (i, m) → from_ ≤ i ∧ n ≤ m ∧ Run p s from_ i m ∧ (∀ j, from_ ≤ j → j < i → ¬ Window p n s j)) ∧
        (r = none → ∀ j, from_ ≤ j → ¬ Window p n s j) := by
  intro fuel
  induction fuel with
  | zero => intro itr k _ h; omega
  | succ fuel ih =>
    intro itr k hi hf hfr hw hst hk0 hno
    unfold atleastLoop
    have hnone : ¬ (itr < s.length ∧ Holds p s itr) → n ≤ k →
        ∃ r, (if k < 2 ^ 31 ∧ k ≤ itr then ok (some (itr - k, k)) else ub) = ok r ∧
        (∀ i m, r = some (i, m) → from_ ≤ i ∧ n ≤ m ∧ Run p s from_ i m ∧ (∀ j, from_ ≤ j → j < i → ¬ Window p n s j)) ∧
        (r = none → ∀ j, from_ ≤ j → ¬ Window p n s j) := by
      intro hbad hnk
      rw [if_pos (by omega)]
      refine ⟨_, rfl, ?_, fun h => (by cases h)⟩
      intro i m h
      simp only [Option.some.injEq, Prod.mk.injEq] at h
      obtain ⟨rfl, rfl⟩ := h
      refine ⟨by omega, hnk, ⟨hw, ?_, hst⟩, hno⟩
      rw [show itr - k + k = itr by omega]
      intro hh
      exact hbad ⟨hh.lt, hh⟩
    simp only
    split
    · rename_i he
      split
      · rename_i hge; exact hnone (by omega) hge
      · rename_i hge
        refine ⟨none, rfl, fun i m h => (by cases h), fun _ j hj hwin => ?_⟩
        by_cases hj2 : j < itr - k
        · exact hno j hj hj2 hwin
        · have := hwin.le (by omega); omega
    · have hlt : itr < s.length := by omega
      rw [deref_eq_ok hlt, ok_bind]
      by_cases hp : p s[itr] = true
      · rw [if_pos hp]
        refine ih (itr + 1) (k + 1) (by omega) (by simp; split at hf <;> omega) (by omega) ?_ (by rw [Nat.add_sub_add_right]; exact hst)
          (fun h => by omega) (by rw [Nat.add_sub_add_right]; exact hno)
        rw [Nat.add_sub_add_right]
        intro j h1 h2
        by_cases hj : j = itr
        · subst hj; exact (holds_iff hlt).mpr hp
        · exact hw j h1 (by omega)
      · rw [if_neg hp]
        have hbad : ¬ Holds p s itr := by rw [holds_iff hlt]; exact hp
        split
        · rename_i hge; exact hnone (fun h => hbad h.2) hge
        · rename_i hge
          obtain ⟨itr', h1, h2, h3, h4, h5⟩ := skip_spec p s (s.length + 1) itr (by omega) (by omega)
          rw [h1, ok_bind]
          have hgt : itr < itr' := by
            rcases Nat.lt_or_ge itr itr' with h | h
            · exact h
            · exfalso; have : itr' = itr := by omega
              subst this; exact hbad (h5 hlt)
          refine ih itr' 0 h3 ?_ (by omega) (fun j _ _ => by omega) (Or.inr ?_) (fun _ h _ => h5 h) ?_
          · simp; split at hf <;> omega
          · exact h4 _ (by omega) (by omega)
          · intro j hj1 hj2 hwin
            by_cases hj3 : j < itr - k
            · exact hno j hj1 hj3 hwin
            · by_cases hj4 : j ≤ itr
              · exact hbad (hwin itr hj4 (by omega))
              · exact h4 j (by omega) (by omega) (hwin j (Nat.le_refl _) (by omega))

theorem findAtleast_spec (p : α → Bool) (n : Nat) (s : List α) (hl : s.length < 2 ^ 31) (from_ : Nat) (hf : from_ ≤ s.length) :
    ∃ r, findAtleast p n s from_ = ok r ∧
      (∀ i m, r = some (i, m) → from_ ≤ i ∧ n ≤ m ∧ Run p s from_ i m ∧ (∀ j, from_ ≤ j → j < i → ¬ Window p n s j)) ∧
      (r = none → ∀ j, from_ ≤ j → ¬ Window p n s j) := by
  unfold findAtleast
  rw [Nat.mod_eq_of_lt (by omega)]
  split
  · rename_i h
    exact ⟨none, rfl, fun i m h => (by cases h), fun _ j hj hw => by have := hw.le (by omega); omega⟩
  · exact atleastLoop_spec p n s hl from_ _ from_ 0 hf (by simp; omega) (by omega) (fun j _ _ => by omega) (Or.inl rfl)
      (fun _ _ h => absurd rfl h) (fun j h1 h2 => by omega)

/-! ## Finding -/

/-- `find_exactly_n_consecutive_values`: the first window of `n` elements, or the empty range at the end if there is none. -/
theorem C52_find_exactly (p : α → Bool) (n : Nat) (hn : 1 ≤ n) (s : List α) (hl : s.length < 2 ^ 32) :
    (∃ i, findExactly (stateless p) () n false s 0 = ok (some i) ∧ Window p n s i ∧ ∀ j < i, ¬ Window p n s j) ∨
    (findExactly (stateless p) () n false s 0 = ok none ∧ ∀ i, ¬ Window p n s i) := by
  obtain ⟨r, h1, h2, h3⟩ := findExactly_spec p n hn s hl 0 (Nat.zero_le _)
  cases r with
  | some i =>
    obtain ⟨_, hw, hf⟩ := h2 i rfl
    exact Or.inl ⟨i, h1, hw, fun j hj => hf j (Nat.zero_le _) hj⟩
  | none => exact Or.inr ⟨h1, fun i => h3 rfl i (Nat.zero_le _)⟩

/-- `find_atleast_n_consecutive_values`: the first maximal run of at least `n` elements, or the empty range at the end. -/
theorem C52_find_atleast (p : α → Bool) (n : Nat) (s : List α) (hl : s.length < 2 ^ 31) :
    (∃ i k, findAtleast p n s 0 = ok (some (i, k)) ∧ n ≤ k ∧ Window p k s i ∧ ¬ Holds p s (i + k) ∧ (i = 0 ∨ ¬ Holds p s (i - 1)) ∧
      ∀ j < i, ¬ Window p n s j) ∨
    (findAtleast p n s 0 = ok none ∧ ∀ i, ¬ Window p n s i) := by
  obtain ⟨r, h1, h2, h3⟩ := findAtleast_spec p n s hl 0 (Nat.zero_le _)
  cases r with
  | some x =>
    obtain ⟨_, hk, ⟨hw, hb, hs⟩, hf⟩ := h2 x.1 x.2 rfl
    exact Or.inl ⟨x.1, x.2, h1, hk, hw, hb, hs, fun j hj => hf j (Nat.zero_le _) hj⟩
  | none => exact Or.inr ⟨h1, fun i => h3 rfl i (Nat.zero_le _)⟩

/-- Both outcomes occur: digits in "a12b345". -/
example : findExactly (stateless Text.isDigit) () 3 false [97, 49, 50, 98, 51, 52, 53] 0 = ok (some 4) ∧
    findExactly (stateless Text.isDigit) () 4 false [97, 49, 50, 98, 51, 52, 53] 0 = ok none ∧
    findAtleast Text.isDigit 2 [97, 49, 50, 98, 51, 52, 53] 0 = ok (some (1, 2)) := by decide

/-- With `n = 0` the search for exactly `n` wraps its counter and finds nothing. -/
theorem C52_find_exactly_zero (p : α → Bool) (s : List α) (hl : s.length < 2 ^ 32) : findExactly (stateless p) () 0 false s 0 = ok none := by
  have key : ∀ (fuel itr c : Nat), itr ≤ s.length → s.length - itr < fuel → (c = 0 ∨ (s.length - itr < c ∧ c < 2 ^ 64)) →
      exactlyLoop (stateless p) 0 false s fuel () itr c = ok none := by
    intro fuel
    induction fuel with
    | zero => intro itr c _ h; omega
    | succ fuel ih =>
      intro itr c hi hf hc
      unfold exactlyLoop
      split
      · rfl
      · have hlt : itr < s.length := by omega
        rw [deref_eq_ok hlt, ok_bind]
        simp only [stateless]
        by_cases hp : p s[itr] = true
        · rw [if_pos hp]
          have hd : dec c ≠ 0 ∧ s.length - (itr + 1) < dec c ∧ dec c < 2 ^ 64 := by unfold dec; omega
          rw [if_pos hd.1]
          exact ih _ _ (by omega) (by omega) (Or.inr hd.2)
        · rw [if_neg hp]
          obtain ⟨itr', h1, h2, h3, h4, h5⟩ := skip_spec p s (s.length + 1) (itr + 1) (by omega) (by omega)
          change (do let (u, itr) ← skip (stateless p) s (s.length + 1) () (itr + 1); _) = _
          rw [h1, ok_bind]
          simp only [Bool.not_false, if_true]
          exact ih _ _ h3 (by omega) (Or.inl rfl)
  unfold findExactly
  rw [if_neg (by omega)]
  exact key _ _ _ (Nat.zero_le _) (by omega) (Or.inl rfl)

/-- The length of the range is cut to 32 bits: in a range of 4 GB (or a multiple) nothing is ever found or matched. -/
theorem C52_four_gigabytes (p : α → Bool) (n : Nat) (hn : 1 ≤ n) (s : List α) (hl : 2 ^ 32 ∣ s.length) :
    findExactly (stateless p) () n false s 0 = ok none ∧ findAtleast p n s 0 = ok none ∧ matchExactly p n s = false ∧ matchAtleast p n s = false := by
  have h : s.length % 2 ^ 32 = 0 := Nat.mod_eq_zero_of_dvd hl
  unfold findExactly findAtleast matchExactly matchAtleast
  rw [Nat.sub_zero, h, if_pos (by omega), if_pos (by omega), if_pos (by omega), if_pos (by omega)]
  exact ⟨rfl, rfl, rfl, rfl⟩

/-- Non-vacuity: 2 ^ 32 elements that all satisfy the predicate. -/
example : 2 ^ 32 ∣ (List.replicate (2 ^ 32) (49 : UInt8)).length ∧ Window Text.isDigit 3 (List.replicate (2 ^ 32) (49 : UInt8)) 0 :=
  ⟨by rw [List.length_replicate]; exact Nat.dvd_refl _, fun j _ hj => ⟨49, List.getElem?_replicate_of_lt (by omega), by decide⟩⟩

/-- With a stateful predicate the iterator is moved past the end when the range ends without a match. -/
theorem C52_stateful_past_end : findExactly (stateless Text.isDigit) () 1 true [97, 98] 0 = ub := by decide

/-! ## Matching -/

/-- The range starts with a run of at least `n` elements. -/
def StartsWith (p : α → Bool) (n : Nat) (s : List α) : Prop := n ≤ s.length ∧ Window p n s 0

theorem window_cons (p : α → Bool) (n : Nat) (c : α) (s : List α) : Window p (n + 1) (c :: s) 0 ↔ p c = true ∧ Window p n s 0 := by
  constructor
  · intro h
    refine ⟨?_, fun j _ hj => ?_⟩
    · obtain ⟨d, h1, h2⟩ := h 0 (Nat.le_refl _) (by omega)
      simp at h1; subst h1; exact h2
    · obtain ⟨d, h1, h2⟩ := h (j + 1) (by omega) (by omega)
      exact ⟨d, by simpa using h1, h2⟩
  · rintro ⟨h1, h2⟩ j _ hj
    cases j with
    | zero => exact ⟨c, rfl, h1⟩
    | succ j => obtain ⟨d, h3, h4⟩ := h2 j (Nat.zero_le _) (by omega); exact ⟨d, by simpa using h3, h4⟩

theorem startsWith_cons (p : α → Bool) (n : Nat) (c : α) (s : List α) : StartsWith p (n + 1) (c :: s) ↔ p c = true ∧ StartsWith p n s := by
  unfold StartsWith
  rw [window_cons]
  simp only [List.length_cons, Nat.add_le_add_iff_right]
  exact ⟨fun ⟨a, b, c⟩ => ⟨b, a, c⟩, fun ⟨a, b, c⟩ => ⟨b, a, c⟩⟩

theorem matchExactlyLoop_spec (p : α → Bool) : ∀ (s : List α) (n : Nat), 1 ≤ n → n < 2 ^ 64 →
    (matchExactlyLoop p s n = true ↔ StartsWith p n s) := by
  intro s
  induction s with
  | nil => intro n hn _; simp [matchExactlyLoop, StartsWith]; omega
  | cons c s ih =>
    intro n hn hn2
    obtain ⟨m, rfl⟩ : ∃ m, n = m + 1 := ⟨n - 1, by omega⟩
    rw [startsWith_cons]
    unfold matchExactlyLoop
    rw [dec_pos hn hn2]
    simp only [Nat.add_sub_cancel]
    cases hp : p c
    · simp
    · simp only [if_true, true_and]
      split
      · rename_i h; subst h
        simp only [true_iff]
        exact ⟨Nat.zero_le _, fun j _ h => by omega⟩
      · exact ih m (by omega) (by omega)

/-- `match_exactly_n_consecutive_values`: whether the range starts with `n` elements that satisfy the predicate. -/
theorem C52_match_exactly (p : α → Bool) (n : Nat) (hn : 1 ≤ n) (s : List α) (hl : s.length < 2 ^ 32) :
    matchExactly p n s = true ↔ StartsWith p n s := by
  unfold matchExactly
  rw [Nat.mod_eq_of_lt hl]
  split
  · simp [StartsWith]; omega
  · exact matchExactlyLoop_spec p s n hn (by omega)

theorem matchAtleastLoop_spec (p : α → Bool) (n : Nat) : ∀ (s : List α) (k : Nat),
    (matchAtleastLoop p n s k = true ↔ StartsWith p (n - k) s ∧ ∃ c ∈ s, p c = false) := by
  intro s
  induction s with
  | nil => intro k; simp [matchAtleastLoop]
  | cons c s ih =>
    intro k
    unfold matchAtleastLoop
    cases hp : p c
    · simp only [Bool.false_eq_true, if_false]
      split
      · rename_i h
        have : n - k = 0 := by omega
        rw [this]
        simp only [true_iff]
        exact ⟨⟨Nat.zero_le _, fun j _ h => by omega⟩, c, by simp, hp⟩
      · rename_i h
        obtain ⟨m, hm⟩ : ∃ m, n - k = m + 1 := ⟨n - k - 1, by omega⟩
        rw [hm, startsWith_cons, hp]
        simp
    · simp only [if_true]
      rw [ih (k + 1)]
      by_cases h : n ≤ k
      · have e1 : n - (k + 1) = 0 := by omega
        have e2 : n - k = 0 := by omega
        rw [e1, e2]
        have : ∀ l : List α, StartsWith p 0 l := fun l => ⟨Nat.zero_le _, fun j _ h => by omega⟩
        simp [this, hp]
      · have e : n - k = (n - (k + 1)) + 1 := by omega
        rw [e, startsWith_cons]
        simp [hp]

/-- `match_atleast_n_consecutive_values` decides whether the range starts with a run of at least `n`, for ranges with an element that does not satisfy
the predicate. -/
theorem C52_match_atleast_partial (p : α → Bool) (n : Nat) (s : List α) (hl : s.length < 2 ^ 32) (hb : ∃ c ∈ s, p c = false) :
    matchAtleast p n s = true ↔ StartsWith p n s := by
  unfold matchAtleast
  rw [Nat.mod_eq_of_lt hl]
  split
  · simp [StartsWith]; omega
  · rw [matchAtleastLoop_spec]; simp [hb]

/-- What is missing: a range that satisfies the predicate throughout does not match, however long it is. -/
theorem C52_match_atleast_wrong (p : α → Bool) (n : Nat) (s : List α) (h : ∀ c ∈ s, p c = true) : matchAtleast p n s = false := by
  unfold matchAtleast
  split
  · rfl
  · rw [Bool.eq_false_iff]
    intro ht
    obtain ⟨_, c, hc, hp⟩ := (matchAtleastLoop_spec p n s 0).mp ht
    rw [h c hc] at hp
    cases hp

example : matchExactly Text.isDigit 2 [49, 50, 51] = true ∧ matchAtleast Text.isDigit 2 [49, 50, 51] = false ∧
    matchAtleast Text.isDigit 2 [49, 50, 51, 97] = true ∧ StartsWith Text.isDigit 2 [49, 50, 51] := by
  refine ⟨by decide, by decide, by decide, by decide, ?_⟩
  rw [window_cons, window_cons]
  exact ⟨by decide, by decide, fun j _ h => by omega⟩

/-! ## Splitting -/

/-- The successive finds: each range is the first one (`First from_ i k`) behind the one before, and behind the last there is none (`None from_`). -/
inductive Cuts (First : Nat → Nat → Nat → Prop) (None : Nat → Prop) : Nat → List (Nat × Nat) → Prop
  | stop {from_ : Nat} : None from_ → Cuts First None from_ []
  | cut {from_ i k : Nat} {rest : List (Nat × Nat)} : First from_ i k → Cuts First None (i + k) rest → Cuts First None from_ ((i, k) :: rest)

theorem splitLoop_spec (find : Nat → Outcome (Option (Nat × Nat))) (len : Nat) (limit : Option Nat) (First : Nat → Nat → Nat → Prop) (None : Nat → Prop)
    (hend : None len)
    (hfind : ∀ itr < len, ∃ r, find itr = ok r ∧ (r = none → None itr) ∧ (∀ i k, r = some (i, k) → First itr i k ∧ itr ≤ i ∧ 1 ≤ k ∧ i + k ≤ len)) :
    ∀ (fuel itr count : Nat), itr ≤ len → len - itr < fuel →
      ∃ full, Cuts First None itr full ∧
        splitLoop find len limit fuel itr count = ok (match limit with | none => full | some n => full.take (n + 1 - count)) := by
  have hfull : ∀ (m itr : Nat), itr ≤ len → len - itr ≤ m → ∃ full, Cuts First None itr full := by
    intro m
    induction m with
    | zero => intro itr h1 h2; have : itr = len := by omega
              subst this; exact ⟨[], .stop hend⟩
    | succ m ih =>
      intro itr h1 h2
      by_cases h : itr = len
      · subst h; exact ⟨[], .stop hend⟩
      · obtain ⟨r, _, hn, hs⟩ := hfind itr (by omega)
        cases r with
        | none => exact ⟨[], .stop (hn rfl)⟩
        | some x =>
          obtain ⟨g1, g2, g3, g4⟩ := hs x.1 x.2 rfl
          obtain ⟨full, hc⟩ := ih (x.1 + x.2) g4 (by omega)
          exact ⟨_, .cut g1 hc⟩
  intro fuel
  induction fuel with
  | zero => intro itr count _ h; omega
  | succ fuel ih =>
    intro itr count hi hf
    unfold splitLoop
    split
    · rename_i hcond
      obtain ⟨hne, hlim⟩ := hcond
      obtain ⟨r, h1, hn, hs⟩ := hfind itr (by omega)
      rw [h1, ok_bind]
      cases r with
      | none => exact ⟨[], .stop (hn rfl), by cases limit <;> simp⟩
      | some x =>
        obtain ⟨i, k⟩ := x
        obtain ⟨g1, g2, g3, g4⟩ := hs i k rfl
        simp only
        rw [if_neg (by omega)]
        obtain ⟨full, hc, he⟩ := ih (i + k) (count + 1) g4 (by omega)
        refine ⟨(i, k) :: full, .cut g1 hc, ?_⟩
        rw [he, ok_bind]
        cases limit with
        | none => rfl
        | some n =>
          simp only [Option.all_some, decide_eq_true_eq] at hlim
          have e : n + 1 - count = (n + 1 - (count + 1)) + 1 := by omega
          simp only
          rw [e, List.take_succ_cons]
    · rename_i hcond
      by_cases h : itr = len
      · subst h; exact ⟨[], .stop hend, by cases limit <;> simp⟩
      · obtain ⟨full, hc⟩ := hfull (len - itr) itr hi (Nat.le_refl _)
        refine ⟨full, hc, ?_⟩
        cases limit with
        | none => exact absurd ⟨h, rfl⟩ hcond
        | some n =>
          have hgt : ¬ count ≤ n := fun hle => hcond ⟨h, by simpa using hle⟩
          have e : n + 1 - count = 0 := by omega
          simp [e]

/-- What `mode` finds first from a position on. -/
def FirstFound (p : α → Bool) (n : Nat) (mode : Mode) (s : List α) (from_ i k : Nat) : Prop :=
  match mode with
  | .exactly => FirstWindow p n s from_ i ∧ k = n
  | .atleast => from_ ≤ i ∧ n ≤ k ∧ Run p s from_ i k ∧ ∀ j, from_ ≤ j → j < i → ¬ Window p n s j

/-- No `n` consecutive elements from a position on. -/
def NoWindow (p : α → Bool) (n : Nat) (s : List α) (from_ : Nat) : Prop := ∀ j, from_ ≤ j → ¬ Window p n s j

theorem findMode_spec (p : α → Bool) (n : Nat) (hn : 1 ≤ n) (mode : Mode) (s : List α) (hl : s.length < 2 ^ 31) (itr : Nat) (hi : itr < s.length) :
    ∃ r, findMode p n mode s itr = ok r ∧ (r = none → NoWindow p n s itr) ∧
      (∀ i k, r = some (i, k) → FirstFound p n mode s itr i k ∧ itr ≤ i ∧ 1 ≤ k ∧ i + k ≤ s.length) := by
  cases mode with
  | exactly =>
    obtain ⟨r, h1, h2, h3⟩ := findExactly_spec p n hn s (by omega) itr (by omega)
    refine ⟨r.map fun i => (i, n), by simp [findMode, h1], ?_, ?_⟩
    · intro h; exact h3 (by cases r <;> simp_all)
    · intro i k h
      cases r with
      | none => cases h
      | some i' =>
        simp only [Option.map_some, Option.some.injEq, Prod.mk.injEq] at h
        obtain ⟨rfl, rfl⟩ := h
        have hf := h2 i' rfl
        exact ⟨⟨hf, rfl⟩, hf.1, hn, hf.2.1.le hn⟩
  | atleast =>
    obtain ⟨r, h1, h2, h3⟩ := findAtleast_spec p n s hl itr (by omega)
    refine ⟨r, h1, h3, ?_⟩
    intro i k h
    have hf := h2 i k h
    exact ⟨hf, hf.1, by omega, hf.2.2.1.1.le (by omega)⟩

theorem split_mode (p : α → Bool) (n : Nat) (hn : 1 ≤ n) (mode : Mode) (s : List α) (hl : s.length < 2 ^ 31) (limit : Option Nat) :
    ∃ full, Cuts (FirstFound p n mode s) (NoWindow p n s) 0 full ∧
      splitLoop (findMode p n mode s) s.length limit (s.length + 1) 0 0 = ok (match limit with | none => full | some m => full.take (m + 1)) := by
  have := splitLoop_spec (findMode p n mode s) s.length limit (FirstFound p n mode s) (NoWindow p n s)
    (fun j hj hw => by have := hw.le hn; omega) (fun itr hi => findMode_spec p n hn mode s hl itr hi) (s.length + 1) 0 0 (Nat.zero_le _) (by omega)
  simpa using this

/-- The characters a `find_type` names. -/
def named : FindType → List Char
  | .digits => "0123456789".toList
  | .letters => "ABCDEFGHIJKLMNOPQRSTUVWXYZabcdefghijklmnopqrstuvwxyz".toList
  | .lowercase => "abcdefghijklmnopqrstuvwxyz".toList
  | .uppercase => "ABCDEFGHIJKLMNOPQRSTUVWXYZ".toList
  | .lettersDigits => "ABCDEFGHIJKLMNOPQRSTUVWXYZabcdefghijklmnopqrstuvwxyz0123456789".toList

/-- The predicate behind a `find_type` holds for exactly the characters named. -/
theorem C52_types (type : FindType) (c : UInt8) : type.pred c = true ↔ ∃ ch ∈ named type, ch.toNat = c.toNat := by
  have : ∀ b : BitVec 8, ∀ t ∈ [FindType.digits, .letters, .lowercase, .uppercase, .lettersDigits],
      t.pred ⟨b⟩ = (named t).any fun ch => ch.toNat == b.toNat := by decide +kernel
  have h := this c.toBitVec type (by cases type <;> simp)
  rw [h, List.any_eq_true]
  simp

/-- `split_on_consecutive`: the ranges put out are the first window (or run), then the first one behind it, and so on to the last. -/
theorem C52_split (type : FindType) (mode : Mode) (n : Nat) (hn : 1 ≤ n) (s : List UInt8) (hl : s.length < 2 ^ 31) :
    ∃ full, Cuts (FirstFound type.pred n mode s) (NoWindow type.pred n s) 0 full ∧ splitType (s.length + 1) n type mode s = ok full := by
  obtain ⟨full, h1, h2⟩ := split_mode type.pred n hn mode s hl none
  exact ⟨full, h1, by unfold splitType; rw [if_neg (by omega)]; exact h2⟩

/-- The same with a predicate. -/
theorem C52_split_predicate (p : α → Bool) (n : Nat) (hn : 1 ≤ n) (s : List α) (hl : s.length < 2 ^ 31) :
    ∃ full, Cuts (FirstFound p n .exactly s) (NoWindow p n s) 0 full ∧ splitPred (s.length + 1) p n s = ok full := by
  obtain ⟨full, h1, h2⟩ := split_mode p n hn .exactly s hl none
  exact ⟨full, h1, by unfold splitPred; rw [if_neg (by omega)]; exact h2⟩

/-- `split_on_consecutive_n` and the overload of `split_on_consecutive` with a limit put out the first `n + 1` of these ranges: "at most `n`" is only
reached with one too many. -/
theorem C52_split_n_partial (type : FindType) (mode : Mode) (n m : Nat) (hn : 1 ≤ n) (hm : 1 ≤ m) (s : List UInt8) (hl : s.length < 2 ^ 31) :
    ∃ full, Cuts (FirstFound type.pred m mode s) (NoWindow type.pred m s) 0 full ∧ splitTypeN (s.length + 1) n m type mode s = ok (full.take (n + 1)) ∧
      (mode = .exactly → splitPredN (s.length + 1) type.pred n m s = ok (full.take (n + 1))) := by
  obtain ⟨full, h1, h2⟩ := split_mode type.pred m hm mode s hl (some n)
  refine ⟨full, h1, by unfold splitTypeN; rw [if_neg (by omega)]; exact h2, ?_⟩
  rintro rfl
  unfold splitPredN; rw [if_neg (by omega)]; exact h2

/-- Two matches although one is asked for. -/
theorem C52_split_n_one_too_many : splitTypeN 10 1 1 .digits .exactly [49, 97, 50] = ok [(0, 1), (2, 1)] := by decide

/-- "12ab345" in pairs of digits, and in runs of at least two letters or digits. -/
example : splitType 10 2 .digits .exactly [49, 50, 97, 98, 51, 52, 53] = ok [(0, 2), (4, 2)] ∧
    splitType 10 2 .letters .atleast [49, 50, 97, 98, 51, 52, 53] = ok [(2, 2)] := by decide

/-- Runs of at least 0 elements: the search finds the empty run again and again, `split_on_consecutive_n` repeats it. -/
theorem C52_empty_runs : splitTypeN 10 2 0 .letters .atleast [49, 50] = ok [(0, 0), (0, 0), (0, 0)] := by decide

end Strtk.Consec
