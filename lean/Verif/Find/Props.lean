import Verif.Find.Lemmas

/-! # Theorems about matching and searching (C15 - C18) -/

namespace Strtk.Find
open Outcome Mem

variable {α : Type}

/-! ## C15 -/

/-- Acceptance is right for every pattern except those with a `star`, later an ordinary character, and later a `star` after which only
wildcards follow.  Missing: that class (next theorem) and the converse (see below). -/
theorem C15_match_sound_partial [DecidableEq α] (cmp : α → α → Bool) (star quest : α) (pat data : List α)
    (hclass : ∀ a b c e f, pat = a ++ star :: (b ++ c :: (e ++ star :: f)) → c ≠ star → c ≠ quest → ∃ x ∈ f, x ≠ star ∧ x ≠ quest)
    (h : matchImpl cmp star quest pat data = ok true) : Glob cmp star quest pat data :=
  matchLoop_sound cmp star quest pat data _ [] pat [] data rfl rfl (fun a b c e f he hl => hclass a b c e f he hl.1 hl.2) h

example : matchImpl (fun a b => a == b) '*' '?' "ab*c?".toList "abxxcd".toList = ok true := by decide

/-- The excluded class is really wrong: `match("*a*", "b")` is true although "b" contains no 'a'. -/
theorem C15_match_unsound :
    matchImpl (fun a b => a == b) '*' '?' "*a*".toList "b".toList = ok true ∧ ¬ Glob (fun a b : Char => a == b) '*' '?' "*a*".toList "b".toList := by
  refine ⟨by decide, ?_⟩
  intro h
  have lit : ∀ d, Glob (fun a b : Char => a == b) '*' '?' ['a', '*'] d → ∃ d', d = 'a' :: d' := by
    intro d h
    obtain ⟨x, d', h1, h2, _⟩ := (glob_lit_cons (fun a b => a == b) '*' '?' 'a' ⟨by decide, by decide⟩ ['*'] d).mp h
    exact ⟨d', by simp at h2; rw [h1, h2]⟩
  cases h with
  | starSkip h => obtain ⟨d', hd⟩ := lit _ h; simp at hd
  | starTake x h =>
    cases h with
    | starSkip h => obtain ⟨d', hd⟩ := lit _ h; simp at hd
  | lit c x h1 _ _ _ => exact h1 rfl

/-- Rejection can be wrong: the search after `star` does not backtrack, and `quest` matches no character only at the very end. -/
theorem C15_match_incomplete :
    (matchImpl (fun a b => a == b) '*' '?' "*a".toList "aa".toList = ok false ∧ Glob (fun a b : Char => a == b) '*' '?' "*a".toList "aa".toList) ∧
    (matchImpl (fun a b => a == b) '*' '?' "a?b".toList "ab".toList = ok false ∧ Glob (fun a b : Char => a == b) '*' '?' "a?b".toList "ab".toList) ∧
    (matchImpl (fun a b => a == b) '*' '?' "a**".toList "a".toList = ok false ∧ Glob (fun a b : Char => a == b) '*' '?' "a**".toList "a".toList) := by
  refine ⟨⟨by decide, ?_⟩, ⟨by decide, ?_⟩, by decide, ?_⟩
  · exact .starTake _ (.starSkip (.lit _ _ (by decide) (by decide) (by decide) .nil))
  · exact .lit _ _ (by decide) (by decide) (by decide) (.questSkip (.lit _ _ (by decide) (by decide) (by decide) .nil))
  · exact .lit _ _ (by decide) (by decide) (by decide) (.starSkip (.starSkip .nil))

/-- After `star`, when the next character does not occur, the code reads past the end of the data. -/
theorem C15_match_out_of_bounds : matchImpl (fun a b => a == b) '*' '?' "*ab".toList "x".toList = ub := by decide

/-- Exact decision for patterns of ordinary characters, optionally followed by one wildcard at the end.  Missing: every other use of
wildcards, by the counterexamples above. -/
theorem C15_match_exact_partial [DecidableEq α] (cmp : α → α → Bool) (star quest : α) (hne : star ≠ quest) (l tail data : List α)
    (hl : ∀ c ∈ l, c ≠ star ∧ c ≠ quest) (ht : tail = [] ∨ tail = [star] ∨ tail = [quest]) :
    ∃ b, matchImpl cmp star quest (l ++ tail) data = ok b ∧ (b = true ↔ Glob cmp star quest (l ++ tail) data) := by
  have htail : tail = [] ∨ tail = [star] ∨ (tail = [quest] ∧ star ≠ quest) := by
    rcases ht with h | h | h
    · exact Or.inl h
    · exact Or.inr (Or.inl h)
    · exact Or.inr (Or.inr ⟨h, hne⟩)
  by_cases hz : tail = []
  · subst hz
    -- one extra unit of fuel does not matter: the loop ends after `l`
    have key : ∀ (pat data : List α) (l pp dd dt : List α) (fuel : Nat), pat = pp ++ l → data = dd ++ dt → (∀ c ∈ l, IsLit star quest c) →
        l.length < fuel →
        ∃ b, matchLoop cmp star quest pat data fuel pp.length dd.length = ok b ∧ (b = true ↔ Glob cmp star quest l dt) := by
      intro pat data l
      induction l with
      | nil =>
        intro pp dd dt fuel hp hd _ hf
        obtain ⟨fuel, rfl⟩ : ∃ n, fuel = n + 1 := ⟨fuel - 1, by simp at hf; omega⟩
        unfold matchLoop
        rw [if_neg (by simp [hp])]
        cases dt with
        | nil => rw [if_neg (by simp [hd]), if_pos (by simp [hp])]; exact ⟨true, rfl, by simp [glob_nil_left]⟩
        | cons x dt => rw [if_pos (by simp [hd])]; exact ⟨false, rfl, by simp [glob_nil_left]⟩
      | cons c l ih =>
        intro pp dd dt fuel hp hd hl hf
        have hc := hl c (by simp)
        obtain ⟨fuel, rfl⟩ : ∃ n, fuel = n + 1 := ⟨fuel - 1, by simp at hf; omega⟩
        have hdp : deref pat pp.length = ok c := by rw [hp]; exact deref_append_cons _ _ _
        unfold matchLoop
        rw [glob_lit_cons cmp star quest c hc l dt]
        cases dt with
        | nil =>
          rw [if_neg (by simp [hd]), if_neg (by simp [hd]), if_neg (by simp [hp]), hdp, ok_bind]
          refine ⟨false, ?_, by simp⟩
          rw [if_neg (by rintro (h | h); exact hc.1 h.symm; exact hc.2 h.symm)]
          simp [hp]
        | cons x dt =>
          have hdd : deref data dd.length = ok x := by rw [hd]; exact deref_append_cons _ _ _
          rw [if_pos ⟨by simp [hp], by simp [hd]⟩, hdp, ok_bind, if_neg (fun h => hc.1 h.symm), if_neg hc.2, hdd, ok_bind]
          by_cases hx : cmp c x
          · obtain ⟨b, hb1, hb2⟩ := ih (pp ++ [c]) (dd ++ [x]) dt fuel (by simp [hp]) (by simp [hd]) (fun y hy => hl y (by simp [hy]))
              (by simp at hf; omega)
            simp only [List.length_append, List.length_cons, List.length_nil, Nat.zero_add] at hb1
            rw [if_pos hx]
            refine ⟨b, hb1, ?_⟩
            rw [hb2]
            constructor
            · intro h; exact ⟨x, dt, rfl, hx, h⟩
            · rintro ⟨y, d', h1, _, h3⟩; simp at h1; obtain ⟨rfl, rfl⟩ := h1; exact h3
          · rw [if_neg hx]
            exact ⟨false, rfl, by simp [hx]⟩
    simpa [matchImpl] using key l data l [] [] data (l.length + 1) rfl rfl (fun c hc => hl c hc) (by omega)
  · have : tail.length = 1 := by rcases ht with h | h | h <;> simp_all
    exact matchLoop_exact cmp star quest (l ++ tail) data tail htail l [] [] data _ rfl rfl (fun c hc => hl c hc) (by simp [this])

example : matchImpl (fun a b => a == b) '*' '?' "ab*".toList "abxyz".toList = ok true := by decide
example : matchImpl (fun a b => a == b) '*' '?' "ab?".toList "abxy".toList = ok false := by decide

/-- A pattern without `star` never makes the code read out of bounds, and it terminates. -/
theorem C15_no_star_in_bounds [DecidableEq α] (cmp : α → α → Bool) (star quest : α) (pat data : List α) (h : star ∉ pat) :
    ∃ b, matchImpl cmp star quest pat data = ok b :=
  matchLoop_noStar cmp star quest pat data _ [] pat [] data rfl rfl h (by omega)

/-! ## C16 -/

/-- `find_all` reports the leftmost non-overlapping occurrences, in order, as ranges of the pattern's length. -/
theorem C16_find_all (eq : α → α → Bool) (p s : List α) (hp : p ≠ []) :
    ∃ L, Leftmost eq p s 0 L ∧ findAll eq p s (s.length + 1) = ok (L.map fun i => (i, i + p.length)) := by
  obtain ⟨L, h1, h2⟩ := findAllLoop_spec eq p s hp (s.length + 1) 0 [] (by omega) (by omega)
  exact ⟨L, h1, by simpa [findAll] using h2⟩

/-- Consequences, spelled out: every reported range is an occurrence, the ranges are disjoint and in order, and every occurrence that
exists touches a reported one. -/
theorem C16_find_all_sound_complete (eq : α → α → Bool) (p s : List α) (hp : p ≠ []) (R : List (Nat × Nat))
    (h : findAll eq p s (s.length + 1) = ok R) :
    (∀ r ∈ R, OccursAt eq p s r.1 ∧ r.2 = r.1 + p.length) ∧ R.Pairwise (fun a b => a.2 ≤ b.1) ∧
      ∀ i, OccursAt eq p s i → ∃ r ∈ R, r.1 ≤ i ∧ i < r.2 := by
  obtain ⟨L, h1, h2⟩ := C16_find_all eq p s hp
  rw [h2] at h
  simp at h
  subst h
  have hpl : 0 < p.length := List.length_pos_iff.mpr hp
  have key : ∀ start L, Leftmost eq p s start L →
      (∀ i ∈ L, OccursAt eq p s i ∧ start ≤ i) ∧ L.Pairwise (fun a b => a + p.length ≤ b) ∧
        ∀ i, start ≤ i → OccursAt eq p s i → ∃ r ∈ L, r ≤ i ∧ i < r + p.length := by
    intro start L hL
    induction hL with
    | done h => exact ⟨by simp, by simp, fun i hi ho => absurd ho (h i hi)⟩
    | @step start i L hi ho hno hL ih =>
      obtain ⟨i1, i2, i3⟩ := ih
      refine ⟨?_, List.pairwise_cons.mpr ⟨fun b hb => (i1 b hb).2, i2⟩, ?_⟩
      · intro j hj
        simp at hj
        rcases hj with rfl | hj
        · exact ⟨ho, hi⟩
        · exact ⟨(i1 j hj).1, by have := (i1 j hj).2; omega⟩
      · intro j hj hoj
        by_cases h1 : j < i
        · exact absurd hoj (hno j hj h1)
        · by_cases h2 : j < i + p.length
          · exact ⟨i, by simp, by omega, h2⟩
          · obtain ⟨r, hr, hr2⟩ := i3 j (by omega) hoj
            exact ⟨r, by simp [hr], hr2⟩
  obtain ⟨k1, k2, k3⟩ := key 0 L h1
  refine ⟨?_, ?_, ?_⟩
  · intro r hr
    simp at hr
    obtain ⟨i, hi, rfl⟩ := hr
    exact ⟨(k1 i hi).1, rfl⟩
  · rw [List.pairwise_map]
    exact k2
  · intro i ho
    obtain ⟨r, hr, h1, h2⟩ := k3 i (by omega) ho
    exact ⟨(r, r + p.length), by simp [hr], h1, h2⟩

/-- With an empty pattern the loop never advances: on non-empty data it does not terminate. -/
theorem C16_empty_pattern_diverges (eq : α → α → Bool) (s : List α) (hs : s ≠ []) : ∀ fuel, findAll eq [] s fuel = diverge := by
  have hl : 0 < s.length := List.length_pos_iff.mpr hs
  have hsr : search eq s [] 0 = 0 := by
    obtain ⟨n, hn⟩ : ∃ n, s.length + 1 = n + 1 := ⟨s.length, rfl⟩
    unfold search
    simp only [List.length_nil, Nat.sub_zero]
    rw [hn, List.range'_succ]
    simp [equalAt]
  intro fuel
  unfold findAll
  generalize ([] : List (Nat × Nat)) = out
  induction fuel generalizing out with
  | zero => rfl
  | succ fuel ih =>
    unfold findAllLoop
    simp only [hsr]
    rw [if_pos (by omega)]
    exact ih _

example : findAll (fun a b => a == b) "aa".toList "aaaaabaa".toList 9 = ok [(0, 2), (2, 4), (6, 8)] := by decide

/-! ## C17 -/

/-- `index_of` returns the least offset at which a non-empty pattern occurs, and `npos` if there is none. -/
theorem C17_index_of (eq : α → α → Bool) (p s : List α) (hp : p ≠ []) :
    (∀ i, indexOf eq p s = some i ↔ OccursAt eq p s i ∧ ∀ j < i, ¬ OccursAt eq p s j) ∧
      (indexOf eq p s = none ↔ ∀ i, ¬ OccursAt eq p s i) := by
  have hpl : 0 < p.length := List.length_pos_iff.mpr hp
  have main : (indexOf eq p s = none ∧ ∀ i, ¬ OccursAt eq p s i) ∨
      ∃ i, indexOf eq p s = some i ∧ OccursAt eq p s i ∧ ∀ j < i, ¬ OccursAt eq p s j := by
    by_cases h1 : s = [] ∨ p.length > s.length
    · left
      refine ⟨?_, ?_⟩
      · unfold indexOf; rw [if_neg hp]; rcases h1 with h | h
        · rw [if_pos h]
        · split <;> simp [h]
      · intro i ho
        have := ho.le
        rcases h1 with rfl | h
        · simp at this; exact hp this.2
        · omega
    · have hs : s ≠ [] := fun h => h1 (Or.inl h)
      have hle : ¬ p.length > s.length := fun h => h1 (Or.inr h)
      unfold indexOf
      rw [if_neg hp, if_neg hs, if_neg hle]
      simp only
      rcases search_spec eq p s 0 with ⟨e1, e2⟩ | ⟨e1, e2, e3⟩
      · left; exact ⟨by simp [e1], fun i => e2 i (by omega)⟩
      · right
        have := e2.le
        exact ⟨search eq s p 0, by rw [if_neg (by omega)], e2, fun j hj => e3 j (by omega) hj⟩
  rcases main with ⟨m1, m2⟩ | ⟨i, m1, m2, m3⟩
  · exact ⟨fun i => by simp [m1, m2], by simp [m1, m2]⟩
  · refine ⟨?_, ?_⟩
    · intro j
      rw [m1]
      simp only [Option.some.injEq]
      constructor
      · rintro rfl; exact ⟨m2, m3⟩
      · rintro ⟨h1, h2⟩
        rcases Nat.lt_trichotomy i j with h | h | h
        · exact absurd m2 (h2 i h)
        · exact h
        · exact absurd h1 (m3 j h)
    · rw [m1]
      constructor
      · simp
      · intro h; exact absurd m2 (h i)

/-- `ifind` returns the least offset inside the text at which the pattern occurs, and `npos` if there is none; unlike `index_of` it finds the empty
pattern (at offset 0 of a text that is not empty). -/
theorem C17_ifind (eq : α → α → Bool) (p s : List α) :
    (∀ i, ifind eq p s = some i ↔ OccursAt eq p s i ∧ i < s.length ∧ ∀ j < i, ¬ OccursAt eq p s j) ∧
      (ifind eq p s = none ↔ ∀ i < s.length, ¬ OccursAt eq p s i) := by
  have main : (ifind eq p s = none ∧ ∀ i < s.length, ¬ OccursAt eq p s i) ∨
      ∃ i, ifind eq p s = some i ∧ OccursAt eq p s i ∧ i < s.length ∧ ∀ j < i, ¬ OccursAt eq p s j := by
    unfold ifind
    by_cases h : p.length > s.length
    · left; exact ⟨if_pos h, fun i _ ho => by have := ho.le; omega⟩
    · rw [if_neg h]
      simp only
      rcases search_spec eq p s 0 with ⟨e1, e2⟩ | ⟨e1, e2, e3⟩
      · left; exact ⟨by simp [e1], fun i _ => e2 i (by omega)⟩
      · by_cases hs : s.length = search eq s p 0
        · left
          exact ⟨by rw [if_pos hs], fun i hi => e3 i (by omega) (by omega)⟩
        · right
          have := e2.le
          exact ⟨search eq s p 0, by rw [if_neg hs], e2, by omega, fun j hj => e3 j (by omega) hj⟩
  rcases main with ⟨m1, m2⟩ | ⟨i, m1, m2, m3, m4⟩
  · exact ⟨fun i => by rw [m1]; exact ⟨fun h => (by cases h), fun h => absurd h.1 (m2 i h.2.1)⟩, by simp only [m1, true_iff]; exact m2⟩
  · refine ⟨fun j => ?_, ?_⟩
    · rw [m1, Option.some.injEq]
      constructor
      · rintro rfl; exact ⟨m2, m3, m4⟩
      · rintro ⟨h1, _, h3⟩
        rcases Nat.lt_trichotomy i j with h | h | h
        · exact absurd m2 (h3 i h)
        · exact h
        · exact absurd h1 (m4 j h)
    · rw [m1]
      exact ⟨fun h => (by cases h), fun h => absurd m2 (h i m3)⟩

example : ifind (fun a b : Char => a.toUpper == b.toUpper) ['B'] ['a', 'b', 'b'] = some 1 ∧ ifind (fun a b : Char => a == b) [] ['a'] = some 0 := by decide

/-- The empty pattern is reported as absent. -/
theorem C17_index_of_empty (eq : α → α → Bool) (s : List α) : indexOf eq [] s = none := by simp [indexOf]

theorem occursAt_zero_iff [DecidableEq α] (p s : List α) : OccursAt (fun a b => a == b) p s 0 ↔ p <+: s := by
  constructor
  · rintro ⟨u, m, v, rfl, hu, hm, hz⟩
    have hu' : u = [] := List.length_eq_zero_iff.mp hu
    subst hu'
    have : m = p := by
      apply List.ext_getElem hm
      intro i h1 h2
      have := hz (m[i], p[i]) (List.mem_iff_getElem.mpr ⟨i, by simp; omega, by simp⟩)
      simpa using this
    subst this
    exact ⟨v, by simp⟩
  · rintro ⟨v, rfl⟩
    refine ⟨[], p, v, by simp, rfl, rfl, ?_⟩
    intro x hx
    have : ∀ (l : List α), ∀ x ∈ l.zip l, x.1 = x.2 := by
      intro l
      induction l with
      | nil => simp
      | cons a l ih => intro x hx; simp at hx; rcases hx with rfl | hx; rfl; exact ih x hx
    simpa using this p x hx

/-- `begins_with` decides the prefix relation under the comparison used, without reading past either range. -/
theorem C17_begins_with (eq : α → α → Bool) (hsym : ∀ a b, eq a b = eq b a) (p s : List α) :
    ∃ b, beginsWith eq p s = ok b ∧ (b = true ↔ OccursAt eq p s 0) := by
  unfold beginsWith
  by_cases h : p.length ≤ s.length
  · rw [if_pos h]
    have := stdEqual_spec eq p [] (s.take p.length) (s.drop p.length) (by simp; omega)
    simp only [List.nil_append, List.take_append_drop, List.length_nil] at this
    refine ⟨_, this, ?_⟩
    rw [decide_eq_true_iff]
    constructor
    · intro hz
      exact ⟨[], s.take p.length, s.drop p.length, by simp, rfl, by simp; omega, fun x hx => by rw [hsym]; exact hz x hx⟩
    · rintro ⟨u, m, v, hs, hu, hm, hz⟩
      have hu' : u = [] := List.length_eq_zero_iff.mp hu
      subst hu'
      have : s.take p.length = m := by rw [hs, List.nil_append, List.take_left' hm]
      rw [this]
      intro x hx; rw [hsym]; exact hz x hx
  · rw [if_neg h]
    refine ⟨false, rfl, ?_⟩
    constructor
    · simp
    · intro ho; have := ho.le; omega

/-- `ends_with` decides the suffix relation under the comparison used, without reading past either range. -/
theorem C17_ends_with (eq : α → α → Bool) (hsym : ∀ a b, eq a b = eq b a) (p s : List α) :
    ∃ b, endsWith eq p s = ok b ∧ (b = true ↔ p.length ≤ s.length ∧ OccursAt eq p s (s.length - p.length)) := by
  unfold endsWith
  by_cases h : p.length ≤ s.length
  · rw [if_pos h]
    have hl : (s.take (s.length - p.length)).length = s.length - p.length := by simp
    have := stdEqual_spec eq p (s.take (s.length - p.length)) (s.drop (s.length - p.length)) [] (by simp; omega)
    rw [List.append_nil, List.take_append_drop, hl] at this
    refine ⟨_, this, ?_⟩
    rw [decide_eq_true_iff]
    constructor
    · intro hz
      exact ⟨h, s.take (s.length - p.length), s.drop (s.length - p.length), [], by simp, hl, by simp; omega,
        fun x hx => by rw [hsym]; exact hz x hx⟩
    · rintro ⟨_, u, m, v, hs, hu, hm, hz⟩
      have hlen := congrArg List.length hs
      simp at hlen
      have hv : v = [] := List.length_eq_zero_iff.mp (by omega)
      subst hv
      have : s.drop (s.length - p.length) = m := by
        rw [← hu]; conv => lhs; rw [hs]
        simp
      rw [this]
      intro x hx; rw [hsym]; exact hz x hx
  · rw [if_neg h]
    exact ⟨false, rfl, by simp [h]⟩

/-- With plain equality these are the prefix and suffix relations of lists. -/
theorem C17_begins_ends_plain [DecidableEq α] (p s : List α) :
    beginsWith (fun a b => a == b) p s = ok (decide (p <+: s)) ∧ endsWith (fun a b => a == b) p s = ok (decide (p <:+ s)) := by
  have hsym : ∀ a b : α, (a == b) = (b == a) := fun a b => by rw [Bool.eq_iff_iff]; simpa using eq_comm
  constructor
  · obtain ⟨b, h1, h2⟩ := C17_begins_with (fun a b : α => a == b) hsym p s
    rw [h1]
    rw [occursAt_zero_iff] at h2
    congr 1
    cases b <;> simp_all
  · obtain ⟨b, h1, h2⟩ := C17_ends_with (fun a b : α => a == b) hsym p s
    rw [h1]
    congr 1
    have : (p.length ≤ s.length ∧ OccursAt (fun a b : α => a == b) p s (s.length - p.length)) ↔ p <:+ s := by
      constructor
      · rintro ⟨hle, u, m, v, hs, hu, hm, hz⟩
        have hlen := congrArg List.length hs
        simp at hlen
        have hv : v = [] := List.length_eq_zero_iff.mp (by omega)
        subst hv
        have : OccursAt (fun a b : α => a == b) p m 0 := ⟨[], m, [], by simp, rfl, hm, hz⟩
        rw [occursAt_zero_iff] at this
        have : p = m := this.eq_of_length hm.symm
        exact ⟨u, by rw [this, hs]; simp⟩
      · rintro ⟨u, rfl⟩
        refine ⟨by simp, u, p, [], by simp, by simp, rfl, ?_⟩
        have h0 : OccursAt (fun a b : α => a == b) p p 0 := (occursAt_zero_iff p p).mpr (List.prefix_refl p)
        obtain ⟨u', m, v, hs, hu', hm, hz⟩ := h0
        have hu'' : u' = [] := List.length_eq_zero_iff.mp hu'
        subst hu''
        have hlen := congrArg List.length hs
        simp at hlen
        have hv : v = [] := List.length_eq_zero_iff.mp (by omega)
        subst hv
        simp at hs
        subst hs
        exact hz
    rw [this] at h2
    cases b <;> simp_all

example : beginsWith (fun a b => a == b) "ab".toList "abc".toList = ok true := by decide
example : endsWith (fun a b => a == b) "bc".toList "abc".toList = ok true := by decide
example : endsWith (fun a b => a == b) "xabc".toList "abc".toList = ok false := by decide
example : indexOf (fun a b => a == b) "na".toList "banana".toList = some 2 := by decide

/-! ## C18 -/

/-- On 7-bit text `imatch` is equality after upper-casing. Missing: bytes with the top bit set, next theorem. -/
theorem C18_imatch_partial (s1 s2 : List (BitVec 8)) (h1 : ∀ c ∈ s1, c.toNat < 128) (h2 : ∀ c ∈ s2, c.toNat < 128) :
    imatch s1 s2 = ok (decide (s1.map asciiUpper = s2.map asciiUpper)) := by
  unfold imatch
  by_cases hl : s1.length = s2.length
  · rw [if_neg (by simp [hl])]
    have := imatchLoop_spec (s1.length + 1) [] [] s1 s2 h1 h2 hl (by omega)
    simpa using this
  · rw [if_pos hl]
    have : s1.map asciiUpper ≠ s2.map asciiUpper := fun h => hl (by simpa using congrArg List.length h)
    simp [this]

/-- It is an equivalence there, coarser than equality. -/
theorem C18_imatch_equivalence (s1 s2 s3 : List (BitVec 8)) (h1 : ∀ c ∈ s1, c.toNat < 128) (h2 : ∀ c ∈ s2, c.toNat < 128)
    (h3 : ∀ c ∈ s3, c.toNat < 128) :
    imatch s1 s1 = ok true ∧ imatch s1 s2 = imatch s2 s1 ∧ (imatch s1 s2 = ok true → imatch s2 s3 = ok true → imatch s1 s3 = ok true) := by
  rw [C18_imatch_partial s1 s1 h1 h1, C18_imatch_partial s1 s2 h1 h2, C18_imatch_partial s2 s1 h2 h1, C18_imatch_partial s2 s3 h2 h3,
    C18_imatch_partial s1 s3 h1 h3]
  refine ⟨by rw [decide_eq_true rfl], ?_, ?_⟩
  · congr 1; rw [decide_eq_decide]; exact eq_comm
  · simp only [ok.injEq, decide_eq_true_eq]
    exact fun a b => a.trans b

/-- A plain `char` outside 0..127 (other than 0xFF) passed to `std::toupper` is undefined behaviour. -/
theorem C18_high_char_is_ub : imatch [0xE9] [0xE9] = ub := by decide

example : imatch [0x41, 0x62] [0x61, 0x42] = ok true := by decide
example : imatch [0x41] [0x42] = ok false := by decide

end Strtk.Find
