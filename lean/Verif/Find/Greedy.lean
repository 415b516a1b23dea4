import Verif.Find.Props

/-!
# What `match` does with every pattern (strtk.hpp 1903-1975), C15

`Verif/Find/Props.lean` says for which patterns the answer of `match` is the right one.  Here its answer is described for all patterns, by recursion
over the pattern, and from that the patterns with one star are decided.
-/

namespace Strtk.Find
open Outcome Mem

variable {α : Type} [DecidableEq α] (cmp : α → α → Bool) (star quest : α)

/-- **Specification.** The answer once the position is behind the end of the data; `after` says that wildcards have just been skipped after a star. -/
def pastEnd : Bool → List α → Outcome Bool
  | true, [] => ok true
  | true, c :: p => if c = star ∨ c = quest then pastEnd true p else ub
  | false, [] => ok false
  | false, c :: p => if c = star then pastEnd true p else if c = quest then pastEnd false p else ub

/-- **Specification.** The answer for the rest of a pattern and the rest of the data: a star takes everything up to the first character that the next
ordinary character of the pattern accepts, and is never given a second try. -/
def greedy : Bool → List α → List α → Outcome Bool
  | true, [], _ => ok true
  | true, c :: p, d =>
    if c = star ∨ c = quest then greedy true p d
    else match d.dropWhile (fun x => !cmp c x) with
      | [] => pastEnd star quest false p
      | _ :: d => greedy false p d
  | false, [], d => ok d.isEmpty
  | false, c :: p, [] => ok (p.isEmpty && (decide (c = star) || decide (c = quest)))
  | false, c :: p, x :: d =>
    if c = star then greedy true p (x :: d)
    else if c = quest then greedy false p d
    else if cmp c x then greedy false p d else ok false

/-- The wildcards at the beginning, and what follows. -/
theorem pastEnd_wild (l : List α) : pastEnd star quest true l =
    if l.dropWhile (fun x => decide (x = star) || decide (x = quest)) = [] then ok true else ub := by
  induction l with
  | nil => rfl
  | cons c l ih =>
    unfold pastEnd
    by_cases hc : c = star ∨ c = quest
    · rw [if_pos hc, ih, List.dropWhile_cons_of_pos (by simpa using hc)]
    · rw [if_neg hc, List.dropWhile_cons_of_neg (by simpa using hc), if_neg (by simp)]

theorem greedy_wild (l d : List α) : greedy cmp star quest true l d =
    match l.dropWhile (fun x => decide (x = star) || decide (x = quest)) with
    | [] => ok true
    | c :: p => match d.dropWhile (fun x => !cmp c x) with
      | [] => pastEnd star quest false p
      | _ :: d => greedy cmp star quest false p d := by
  induction l with
  | nil => rfl
  | cons c l ih =>
    by_cases hc : c = star ∨ c = quest
    · rw [List.dropWhile_cons_of_pos (by simpa using hc), ← ih]
      conv => lhs; unfold greedy
      rw [if_pos hc]
    · rw [List.dropWhile_cons_of_neg (by simpa using hc)]
      conv => lhs; unfold greedy
      rw [if_neg hc]

theorem take_drop_while (w : α → Bool) (l : List α) : l = l.takeWhile w ++ l.dropWhile w := (List.takeWhile_append_dropWhile).symm

theorem matchLoop_pastEnd (pat data : List α) : ∀ (fuel : Nat) (pp pt : List α) (d : Nat), pat = pp ++ pt → data.length < d → pt.length < fuel →
    matchLoop cmp star quest pat data fuel pp.length d = pastEnd star quest false pt := by
  intro fuel
  induction fuel with
  | zero => intro pp pt d _ _ h; omega
  | succ fuel ih =>
    intro pp pt d hpat hd hf
    unfold matchLoop
    cases pt with
    | nil =>
      have : pp.length = pat.length := by simp [hpat]
      rw [if_neg (by simp [this]), if_pos (by omega)]
      rfl
    | cons pc pt =>
      rw [if_pos ⟨by rw [hpat]; simp, by omega⟩, hpat, deref_append_cons, ok_bind, ← hpat]
      conv => rhs; unfold pastEnd
      by_cases hs : star = pc
      · rw [if_pos hs, if_pos hs.symm]
        have hsk := skipWild_spec (fun x => decide (x = star) || decide (x = quest)) (pat.length + 1) pp (pc :: pt)
          (by rw [hpat]; simp; omega)
        rw [← hpat] at hsk
        rw [hsk, ok_bind, pastEnd_wild]
        have hpc : (decide (pc = star) || decide (pc = quest)) = true := by simp [hs]
        have hcut := take_drop_while (fun x => decide (x = star) || decide (x = quest)) (pc :: pt)
        have hdw : (pc :: pt).dropWhile (fun x => decide (x = star) || decide (x = quest)) =
            pt.dropWhile (fun x => decide (x = star) || decide (x = quest)) := List.dropWhile_cons_of_pos hpc
        rw [hdw] at hcut
        have hlen := congrArg List.length hcut
        rw [List.length_append] at hlen
        have hpl : pat.length = pp.length + (pc :: pt).length := by rw [hpat, List.length_append]
        by_cases he : pt.dropWhile (fun x => decide (x = star) || decide (x = quest)) = []
        · rw [he, List.length_nil] at hlen
          rw [if_pos he, if_pos (by omega)]
        · have : 0 < (pt.dropWhile (fun x => decide (x = star) || decide (x = quest))).length := List.length_pos_iff.mpr he
          rw [if_neg he, if_neg (by omega)]
          obtain ⟨c, hc⟩ : ∃ c, deref pat (pp.length + ((pc :: pt).takeWhile fun x => decide (x = star) || decide (x = quest)).length) = ok c := by
            rw [deref]
            exact ⟨pat[pp.length + ((pc :: pt).takeWhile fun x => decide (x = star) || decide (x = quest)).length]'(by omega), by
              rw [List.getElem?_eq_getElem (by omega)]⟩
          rw [hc, ok_bind, skipData_past cmp c data (data.length + 1) d hd (by omega)]
          rfl
      · have hs' : ¬ pc = star := fun e => hs e.symm
        rw [if_neg hs, if_neg hs']
        have hrec := ih (pp ++ [pc]) pt (d + 1) (by simp [hpat]) (by omega) (by simpa using hf)
        simp only [List.length_append, List.length_cons, List.length_nil, Nat.zero_add] at hrec
        by_cases hq : pc = quest
        · rw [if_pos hq, if_pos hq]; exact hrec
        · rw [if_neg hq, if_neg hq, deref_ub (by omega)]; rfl

theorem matchLoop_greedy (pat data : List α) : ∀ (fuel : Nat) (pp pt dd dt : List α), pat = pp ++ pt → data = dd ++ dt → pt.length < fuel →
    matchLoop cmp star quest pat data fuel pp.length dd.length = greedy cmp star quest false pt dt := by
  intro fuel
  induction fuel with
  | zero => intro pp pt dd dt _ _ h; omega
  | succ fuel ih =>
    intro pp pt dd dt hpat hdata hf
    unfold matchLoop
    cases pt with
    | nil =>
      have hpl : pp.length = pat.length := by simp [hpat]
      rw [if_neg (by simp [hpl])]
      cases dt with
      | nil => rw [if_neg (by simp [hdata]), if_pos hpl]; rfl
      | cons x dt => rw [if_pos (by simp [hdata])]; rfl
    | cons pc pt =>
      have hdp : deref pat pp.length = ok pc := by rw [hpat]; exact deref_append_cons _ _ _
      cases dt with
      | nil =>
        rw [if_neg (by simp [hdata]), if_neg (by simp [hdata]), if_neg (by simp [hpat]), hdp, ok_bind]
        unfold greedy
        congr 1
        by_cases hw : star = pc ∨ quest = pc
        · rw [if_pos hw]
          have : pc = star ∨ pc = quest := hw.imp Eq.symm Eq.symm
          have hb : (decide (pc = star) || decide (pc = quest)) = true := by simpa using this
          rw [hb, hpat, Bool.and_true]
          cases pt <;> simp
        · rw [if_neg hw]
          have : ¬ (pc = star ∨ pc = quest) := fun h => hw (h.imp Eq.symm Eq.symm)
          have hb : (decide (pc = star) || decide (pc = quest)) = false := by simpa using this
          rw [hb, hpat, Bool.and_false]
          simp
      | cons x dt =>
        rw [if_pos ⟨by simp [hpat], by simp [hdata]⟩, hdp, ok_bind]
        conv => rhs; unfold greedy
        have hrec := ih (pp ++ [pc]) pt (dd ++ [x]) dt (by simp [hpat]) (by simp [hdata]) (by simpa using hf)
        simp only [List.length_append, List.length_cons, List.length_nil, Nat.zero_add] at hrec
        by_cases hs : star = pc
        · rw [if_pos hs, if_pos hs.symm, greedy_wild]
          have hsk := skipWild_spec (fun x => decide (x = star) || decide (x = quest)) (pat.length + 1) pp (pc :: pt)
            (by rw [hpat]; simp; omega)
          rw [← hpat] at hsk
          rw [hsk, ok_bind]
          have hpc : (decide (pc = star) || decide (pc = quest)) = true := by simp [hs]
          have hcut := take_drop_while (fun x => decide (x = star) || decide (x = quest)) (pc :: pt)
          have hdw : (pc :: pt).dropWhile (fun x => decide (x = star) || decide (x = quest)) =
              pt.dropWhile (fun x => decide (x = star) || decide (x = quest)) := List.dropWhile_cons_of_pos hpc
          rw [hdw] at hcut
          have htl : ((pc :: pt).takeWhile fun x => decide (x = star) || decide (x = quest)).length =
              (pt.takeWhile fun x => decide (x = star) || decide (x = quest)).length + 1 := by
            rw [List.takeWhile_cons, hpc]; rfl
          generalize hws : ((pc :: pt).takeWhile fun x => decide (x = star) || decide (x = quest)) = ws at hcut htl ⊢
          have hlen := congrArg List.length hcut
          rw [List.length_append] at hlen
          have hpl : pat.length = pp.length + (pc :: pt).length := by rw [hpat, List.length_append]
          cases hr : pt.dropWhile (fun x => decide (x = star) || decide (x = quest)) with
          | nil =>
            rw [hr, List.length_nil] at hlen
            rw [if_pos (by omega)]
          | cons c p =>
            rw [hr, List.length_cons (a := c)] at hlen
            rw [if_neg (by omega)]
            have hpat' : pat = (pp ++ ws) ++ c :: p := by rw [hpat, hcut, hr]; simp
            have hdc : deref pat (pp.length + ws.length) = ok c := by
              have := deref_append_cons (pp ++ ws) c p
              rwa [← hpat', List.length_append] at this
            rw [hdc, ok_bind]
            have hsd := skipData_spec cmp c (data.length + 1) dd (x :: dt) (by rw [hdata]; simp; omega)
            rw [← hdata] at hsd
            rw [hsd, ok_bind]
            simp only
            have hdcut := take_drop_while (fun y => !cmp c y) (x :: dt)
            generalize hds : ((x :: dt).takeWhile fun y => !cmp c y) = ds at hdcut ⊢
            have hpp : pp.length + ws.length + 1 = ((pp ++ ws) ++ [c]).length := by simp; omega
            have hpl' : p.length < fuel := by simp only [List.length_cons] at hlen hf; omega
            cases hd : (x :: dt).dropWhile (fun y => !cmp c y) with
            | nil =>
              rw [hd, List.append_nil] at hdcut
              rw [hpp]
              refine matchLoop_pastEnd cmp star quest pat data fuel _ p _ (by rw [hpat']; simp) ?_ hpl'
              rw [hdata, List.length_append, hdcut]
              omega
            | cons y d' =>
              rw [hd] at hdcut
              have hdd : dd.length + ds.length + 1 = ((dd ++ ds) ++ [y]).length := by simp; omega
              rw [hpp, hdd]
              exact ih _ p _ d' (by rw [hpat']; simp) (by rw [hdata, hdcut]; simp) hpl'
        · have hs' : ¬ pc = star := fun e => hs e.symm
          rw [if_neg hs, if_neg hs']
          by_cases hq : pc = quest
          · rw [if_pos hq, if_pos hq]; exact hrec
          · rw [if_neg hq, if_neg hq]
            have hdx : deref data dd.length = ok x := by rw [hdata]; exact deref_append_cons _ _ _
            rw [hdx, ok_bind, hrec]

/-- C15: the answer of `match` for every pattern and every data. -/
theorem C15_match_greedy (pat data : List α) : matchImpl cmp star quest pat data = greedy cmp star quest false pat data :=
  matchLoop_greedy cmp star quest pat data (pat.length + 1) [] pat [] data rfl rfl (by omega)

theorem greedy_lits (l p d : List α) (hl : ∀ c ∈ l, c ≠ star ∧ c ≠ quest) (hr : ∀ c ∈ l, cmp c c = true) :
    greedy cmp star quest false (l ++ p) (l ++ d) = greedy cmp star quest false p d := by
  induction l with
  | nil => rfl
  | cons c l ih =>
    have hc := hl c (by simp)
    rw [List.cons_append, List.cons_append]
    conv => lhs; unfold greedy
    rw [if_neg hc.1, if_neg hc.2, if_pos (hr c (by simp))]
    exact ih (fun c h => hl c (by simp [h])) fun c h => hr c (by simp [h])

theorem greedy_all_lits (r : List α) (hl : ∀ c ∈ r, c ≠ star ∧ c ≠ quest) : ∀ b : List α,
    greedy (fun x y => decide (x = y)) star quest false r b = ok (decide (b = r)) := by
  induction r with
  | nil => intro b; cases b <;> simp [greedy]
  | cons c r ih =>
    intro b
    have hc := hl c (by simp)
    cases b with
    | nil => simp [greedy, hc.1, hc.2]
    | cons x b =>
      unfold greedy
      rw [if_neg hc.1, if_neg hc.2, ih fun c h => hl c (by simp [h])]
      by_cases h : c = x
      · subst h; simp
      · have : ¬ x = c := fun e => h e.symm
        simp [h, this]

theorem greedy_star_lit (c : α) (r d : List α) (hc : c ≠ star ∧ c ≠ quest) (hd : d ≠ []) : greedy cmp star quest false (star :: c :: r) d =
    match d.dropWhile (fun x => !cmp c x) with
    | [] => pastEnd star quest false r
    | _ :: d => greedy cmp star quest false r d := by
  match d, hd with
  | x :: d, _ =>
    conv => lhs; unfold greedy
    rw [if_pos rfl]
    conv => lhs; unfold greedy
    rw [if_neg (by simp [hc.1, hc.2])]

theorem pastEnd_lits (r : List α) (hl : ∀ c ∈ r, c ≠ star ∧ c ≠ quest) : pastEnd star quest false r = if r = [] then ok false else ub := by
  cases r with
  | nil => rfl
  | cons c r =>
    have hc := hl c (by simp)
    unfold pastEnd
    rw [if_neg hc.1, if_neg hc.2, if_neg (by simp)]

/-- C15, patterns with one star: `l*cr`, ordinary characters `l`, `c` and `r`.  If what follows `l` in the data is `a ++ c :: b` with no `c` in `a`, the
answer is whether `b = r`; if it has no `c`, then the answer is "no" for an empty `r` and otherwise the data are read behind their end. -/
theorem C15_one_star (l : List α) (c : α) (r : List α) (hl : ∀ x ∈ l ++ c :: r, x ≠ star ∧ x ≠ quest) :
    (∀ a b, c ∉ a → matchImpl (fun x y => decide (x = y)) star quest (l ++ star :: c :: r) (l ++ (a ++ c :: b)) = ok (decide (b = r))) ∧
    (∀ a, c ∉ a → a ≠ [] → matchImpl (fun x y => decide (x = y)) star quest (l ++ star :: c :: r) (l ++ a) = if r = [] then ok false else ub) := by
  have h1 : ∀ x ∈ l, x ≠ star ∧ x ≠ quest := fun x h => hl x (by simp [h])
  have h2 := hl c (by simp)
  have h3 : ∀ x ∈ r, x ≠ star ∧ x ≠ quest := fun x h => hl x (by simp [h])
  constructor
  · intro a b ha
    rw [C15_match_greedy, greedy_lits _ _ _ _ _ _ h1 (by simp), greedy_star_lit _ _ _ _ _ _ h2 (by simp)]
    have : (a ++ c :: b).dropWhile (fun x => !decide (c = x)) = c :: b := by
      rw [List.dropWhile_append_of_pos]
      · simp
      · intro x hx
        have : ¬ c = x := fun e => ha (e ▸ hx)
        simp [this]
    rw [this]
    exact greedy_all_lits star quest r h3 b
  · intro a ha hne
    rw [C15_match_greedy, greedy_lits _ _ _ _ _ _ h1 (by simp), greedy_star_lit _ _ _ _ _ _ h2 hne]
    have : a.dropWhile (fun x => !decide (c = x)) = [] := by
      have h := List.dropWhile_append_of_pos (p := fun x => !decide (c = x)) (l₁ := a) (l₂ := []) fun x hx => by
        have : ¬ c = x := fun e => ha (e ▸ hx)
        simp [this]
      simpa using h
    rw [this]
    exact pastEnd_lits star quest r h3

theorem glob_star (p d : List α) (hne : star ≠ quest) : Glob cmp star quest (star :: p) d ↔ ∃ a b, d = a ++ b ∧ Glob cmp star quest p b := by
  constructor
  · intro h
    induction d with
    | nil =>
      cases h with
      | starSkip h => exact ⟨[], [], rfl, h⟩
      | questSkip h => exact absurd rfl hne
    | cons x d ih =>
      cases h with
      | starSkip h => exact ⟨[], x :: d, rfl, h⟩
      | starTake _ h =>
        obtain ⟨a, b, e, hg⟩ := ih h
        exact ⟨x :: a, b, by rw [e]; rfl, hg⟩
      | questSkip h => exact absurd rfl hne
      | questTake _ h => exact absurd rfl hne
      | lit _ _ h1 _ _ _ => exact absurd rfl h1
  · rintro ⟨a, b, rfl, hg⟩
    exact glob_star_any cmp star quest p a b hg

theorem glob_lits (l p d : List α) (hl : ∀ c ∈ l, c ≠ star ∧ c ≠ quest) :
    Glob (fun x y => decide (x = y)) star quest (l ++ p) d ↔ ∃ e, d = l ++ e ∧ Glob (fun x y => decide (x = y)) star quest p e := by
  induction l generalizing d with
  | nil => simp
  | cons c l ih =>
    rw [List.cons_append, glob_lit_cons _ star quest c (hl c (by simp))]
    constructor
    · rintro ⟨x, d', rfl, h1, h2⟩
      obtain ⟨e, rfl, h3⟩ := (ih d' fun c h => hl c (by simp [h])).mp h2
      exact ⟨e, by simp at h1; rw [h1]; rfl, h3⟩
    · rintro ⟨e, rfl, h3⟩
      exact ⟨c, l ++ e, rfl, by simp, (ih _ fun c h => hl c (by simp [h])).mpr ⟨e, rfl, h3⟩⟩

/-- C15: a pattern `l*cr` (a file name pattern such as `*.cpp`) is decided rightly if the data do not begin with `l`, or are just `l`, or have behind `l`
exactly one `c`.  Missing: data with several `c` behind `l` (`C15_star_first_only`) or none (`C15_one_star`). -/
theorem C15_one_star_partial (hne : star ≠ quest) (l : List α) (c : α) (r data : List α) (hl : ∀ x ∈ l ++ c :: r, x ≠ star ∧ x ≠ quest)
    (hone : ∀ e, data = l ++ e → e ≠ [] → e.count c = 1) :
    ∃ b, matchImpl (fun x y => decide (x = y)) star quest (l ++ star :: c :: r) data = ok b ∧
      (b = true ↔ Glob (fun x y => decide (x = y)) star quest (l ++ star :: c :: r) data) := by
  have h1 : ∀ x ∈ l, x ≠ star ∧ x ≠ quest := fun x h => hl x (by simp [h])
  have h2 := hl c (by simp)
  have h3 : ∀ x ∈ c :: r, x ≠ star ∧ x ≠ quest := fun x h => hl x (List.mem_append_right l h)
  have hg : Glob (fun x y => decide (x = y)) star quest (l ++ star :: c :: r) data ↔ ∃ a, data = l ++ (a ++ c :: r) := by
    rw [glob_lits _ _ _ _ _ h1]
    constructor
    · rintro ⟨e, rfl, h⟩
      obtain ⟨a, b, rfl, hb⟩ := (glob_star _ star quest _ _ hne).mp h
      obtain ⟨e, rfl, he⟩ := (glob_lits star quest (c :: r) [] b h3).mp (by simpa using hb)
      cases he
      exact ⟨a, by simp⟩
    · rintro ⟨a, rfl⟩
      refine ⟨_, rfl, (glob_star _ star quest _ _ hne).mpr ⟨a, c :: r, rfl, ?_⟩⟩
      have := (glob_lits star quest (c :: r) [] (c :: r) h3).mpr ⟨[], by simp, .nil⟩
      simpa using this
  rw [hg]
  by_cases hp : ∃ e, data = l ++ e
  · obtain ⟨e, rfl⟩ := hp
    by_cases he : e = []
    · subst he
      refine ⟨false, ?_, ?_⟩
      · rw [C15_match_greedy, greedy_lits _ _ _ _ _ _ h1 (by simp)]
        simp [greedy]
      · simp
    · have hcount := hone e rfl he
      obtain ⟨a, b, rfl, ha⟩ : ∃ a b, e = a ++ c :: b ∧ c ∉ a := by
        have hm : c ∈ e := List.count_pos_iff.mp (by omega)
        obtain ⟨a, b, h, hn⟩ := List.eq_append_cons_of_mem hm
        exact ⟨a, b, h, hn⟩
      refine ⟨decide (b = r), (C15_one_star star quest l c r hl).1 a b ha, ?_⟩
      rw [decide_eq_true_iff]
      constructor
      · rintro rfl; exact ⟨a, rfl⟩
      · rintro ⟨a', h⟩
        have h := List.append_cancel_left h
        rw [List.count_append, List.count_cons_self, List.count_eq_zero.mpr ha] at hcount
        have hb : c ∉ b := List.count_eq_zero.mp (by omega)
        rcases List.append_eq_append_iff.mp h with ⟨x, hx, hy⟩ | ⟨x, hx, hy⟩
        · cases x with
          | nil => simp at hy; exact hy
          | cons y x =>
            simp only [List.cons_append, List.cons.injEq] at hy
            exact absurd (by rw [hy.2]; simp) hb
        · cases x with
          | nil => simp at hy; exact hy.symm
          | cons y x =>
            simp only [List.cons_append, List.cons.injEq] at hy
            exact absurd (by rw [hx, hy.1]; simp) ha
  · refine ⟨false, ?_, ?_⟩
    · rw [C15_match_greedy]
      have key : ∀ (l p d : List α), (∀ x ∈ l, x ≠ star ∧ x ≠ quest) → (¬ ∃ e, d = l ++ e) → (p ≠ []) →
          greedy (fun x y => decide (x = y)) star quest false (l ++ p) d = ok false := by
        intro l
        induction l with
        | nil => intro p d _ h; exact absurd ⟨d, rfl⟩ h
        | cons x l ih =>
          intro p d hl h hpne
          have hx := hl x (by simp)
          cases d with
          | nil => simp [greedy, hx.1, hx.2]
          | cons y d =>
            rw [List.cons_append]
            unfold greedy
            rw [if_neg hx.1, if_neg hx.2]
            by_cases hxy : x = y
            · subst hxy
              rw [if_pos (by simp)]
              exact ih p d (fun c h => hl c (by simp [h])) (fun ⟨e, he⟩ => h ⟨e, by rw [he]; rfl⟩) hpne
            · rw [if_neg (by simp [hxy])]
      exact key l _ data h1 hp (by simp)
    · simp only [Bool.false_eq_true, false_iff]
      rintro ⟨a, ha⟩
      exact hp ⟨_, ha⟩

/-- C15 (negative result): if behind the first `c` there is more than `r` the answer is "no", even if the data end in `cr`: `*.gz` does not match
`a.tar.gz`. -/
theorem C15_star_first_only (hne : star ≠ quest) (l : List α) (c : α) (r a b : List α) (hl : ∀ x ∈ l ++ c :: r, x ≠ star ∧ x ≠ quest) (ha : c ∉ a) :
    matchImpl (fun x y => decide (x = y)) star quest (l ++ star :: c :: r) (l ++ (a ++ c :: (b ++ c :: r))) = ok false ∧
    Glob (fun x y => decide (x = y)) star quest (l ++ star :: c :: r) (l ++ (a ++ c :: (b ++ c :: r))) := by
  have h1 : ∀ x ∈ l, x ≠ star ∧ x ≠ quest := fun x h => hl x (by simp [h])
  have h3 : ∀ x ∈ c :: r, x ≠ star ∧ x ≠ quest := fun x h => hl x (List.mem_append_right l h)
  constructor
  · rw [(C15_one_star star quest l c r hl).1 a _ ha]
    have : b ++ c :: r ≠ r := by
      intro h
      have := congrArg List.length h
      simp at this
      omega
    simp [this]
  · refine (glob_lits star quest l _ _ h1).mpr ⟨_, rfl, (glob_star _ star quest _ _ hne).mpr ⟨a ++ c :: b, c :: r, by simp, ?_⟩⟩
    have := (glob_lits star quest (c :: r) [] (c :: r) h3).mpr ⟨[], by simp, .nil⟩
    simpa using this

/-- `*.hpp` with "strtk.hpp" and with "Makefile", `*.gz` with "a.tar.gz". -/
example : matchImpl (fun x y : Char => decide (x = y)) '*' '?' "*.hpp".toList "strtk.hpp".toList = ok true ∧
    matchImpl (fun x y : Char => decide (x = y)) '*' '?' "*.hpp".toList "Makefile".toList = ub ∧
    matchImpl (fun x y : Char => decide (x = y)) '*' '?' "*.gz".toList "a.tar.gz".toList = ok false := by decide
example : ∀ e, "strtk.hpp".toList = [] ++ e → e ≠ [] → e.count '.' = 1 := by
  intro e h _; simp at h; subst h; decide

end Strtk.Find
