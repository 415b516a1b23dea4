import Verif.Find.Model
import Verif.Find.Spec
import Verif.ListX

/-! Helper lemmas for matching and searching. -/

namespace Strtk.Find
open Outcome Mem

variable {α : Type}

theorem skipWild_spec (w : α → Bool) :
    ∀ (fuel : Nat) (pre t : List α), t.length < fuel →
      skipWild (pre ++ t) w fuel pre.length = ok (pre.length + (t.takeWhile w).length) := by
  intro fuel
  induction fuel with
  | zero => intros; omega
  | succ fuel ih =>
    intro pre t hf
    unfold skipWild
    cases t with
    | nil => simp
    | cons c t =>
      rw [if_pos (by simp), deref_append_cons, ok_bind]
      by_cases hc : w c
      · rw [if_pos hc]
        have := ih (pre ++ [c]) t (by simp at hf; omega)
        simp at this
        rw [this]; simp [hc]; omega
      · rw [if_neg hc]; simp [hc]

theorem skipData_spec (cmp : α → α → Bool) (c : α) :
    ∀ (fuel : Nat) (pre t : List α), t.length < fuel →
      skipData cmp c (pre ++ t) fuel pre.length = ok (pre.length + (t.takeWhile (fun x => !cmp c x)).length) := by
  intro fuel
  induction fuel with
  | zero => intros; omega
  | succ fuel ih =>
    intro pre t hf
    unfold skipData
    cases t with
    | nil => simp
    | cons x t =>
      rw [if_pos (by simp), deref_append_cons, ok_bind]
      by_cases hc : cmp c x
      · rw [if_neg (by simp [hc])]; simp [hc]
      · rw [if_pos (by simp [hc])]
        have := ih (pre ++ [x]) t (by simp at hf; omega)
        simp at this
        rw [this]; simp [hc]; omega

/-- Past the end of the data the search for a character reads out of bounds. -/
theorem skipData_past (cmp : α → α → Bool) (c : α) (data : List α) (fuel d : Nat) (hd : data.length < d) (hf : 0 < fuel) :
    skipData cmp c data fuel d = ub := by
  cases fuel with
  | zero => omega
  | succ fuel =>
    unfold skipData
    rw [if_pos (by omega), deref_ub (by omega)]
    rfl

section
variable [DecidableEq α] (cmp : α → α → Bool) (star quest : α)

/-- Not a wildcard. -/
def IsLit (c : α) : Prop := c ≠ star ∧ c ≠ quest

/-- Once past the end of the data the loop returns `true` only if some suffix of the pattern consists of wildcards and starts with `star`. -/
theorem matchLoop_past (pat data : List α) :
    ∀ (fuel : Nat) (pp pt : List α) (d : Nat), pat = pp ++ pt → data.length < d →
      (∀ a b, pt = a ++ star :: b → ∃ c ∈ b, IsLit star quest c) →
      matchLoop cmp star quest pat data fuel pp.length d ≠ ok true := by
  intro fuel
  induction fuel with
  | zero => intro pp pt d _ _ _; simp [matchLoop]
  | succ fuel ih =>
    intro pp pt d hpat hd hna
    unfold matchLoop
    cases pt with
    | nil =>
      have : pp.length = pat.length := by simp [hpat]
      rw [if_neg (by simp [this]), if_pos (by omega)]
      simp
    | cons pc pt =>
      rw [if_pos ⟨by rw [hpat]; simp, by omega⟩, hpat, deref_append_cons, ok_bind, ← hpat]
      by_cases hs : star = pc
      · rw [if_pos hs]
        have hsk := skipWild_spec (fun x => decide (x = star) || decide (x = quest)) (pat.length + 1) pp (pc :: pt)
          (by rw [hpat]; simp; omega)
        rw [← hpat] at hsk
        rw [hsk, ok_bind]
        obtain ⟨c, hc, hl⟩ := hna [] pt (by simp [hs])
        rw [if_neg]
        · have := fun c => skipData_past cmp c data (data.length + 1) d hd (by omega)
          simp only [this]
          cases deref pat _ <;> simp
        · intro he
          have hlen : ((pc :: pt).takeWhile fun x => decide (x = star) || decide (x = quest)).length = (pc :: pt).length := by
            rw [hpat, List.length_append] at he; omega
          have heq : (pc :: pt).takeWhile (fun x => decide (x = star) || decide (x = quest)) = pc :: pt :=
            (List.takeWhile_prefix _).eq_of_length hlen
          have : c ∈ (pc :: pt).takeWhile (fun x => decide (x = star) || decide (x = quest)) := by rw [heq]; simp [hc]
          have := ListX.mem_takeWhile this
          simp [hl.1, hl.2] at this
      · rw [if_neg hs]
        have hrec := ih (pp ++ [pc]) pt (d + 1) (by simp [hpat]) (by omega)
          (by intro a b hab; exact hna (pc :: a) b (by simp [hab]))
        simp at hrec
        by_cases hq : pc = quest
        · rw [if_pos hq]; exact hrec
        · rw [if_neg hq, deref_ub (by omega)]; simp

/-- Inserting any wildcards in front of a pattern is sound. -/
theorem glob_wild (ws p d : List α) (h : ∀ w ∈ ws, w = star ∨ w = quest) (hg : Glob cmp star quest p d) :
    Glob cmp star quest (ws ++ p) d := by
  induction ws with
  | nil => simpa using hg
  | cons w ws ih =>
    have := ih (fun x hx => h x (by simp [hx]))
    rcases h w (by simp) with rfl | rfl
    · exact .starSkip this
    · exact .questSkip this

theorem glob_star_any (p u d : List α) (hg : Glob cmp star quest p d) : Glob cmp star quest (star :: p) (u ++ d) := by
  induction u with
  | nil => exact .starSkip hg
  | cons x u ih => exact .starTake x ih

theorem glob_all_wild (ws d : List α) (h : ∀ w ∈ ws, w = star ∨ w = quest) : Glob cmp star quest (star :: ws) d := by
  have := glob_star_any cmp star quest ws d [] (by simpa using glob_wild cmp star quest ws [] [] h .nil)
  simpa using this

theorem matchLoop_sound (pat data : List α) :
    ∀ (fuel : Nat) (pp pt dd dt : List α), pat = pp ++ pt → data = dd ++ dt →
      (∀ a b c e f, pt = a ++ star :: (b ++ c :: (e ++ star :: f)) → IsLit star quest c → ∃ x ∈ f, IsLit star quest x) →
      matchLoop cmp star quest pat data fuel pp.length dd.length = ok true → Glob cmp star quest pt dt := by
  intro fuel
  induction fuel with
  | zero => intro pp pt dd dt _ _ _ h; simp [matchLoop] at h
  | succ fuel ih =>
    intro pp pt dd dt hpat hdata hok h
    unfold matchLoop at h
    cases pt with
    | nil =>
      have : pp.length = pat.length := by simp [hpat]
      rw [if_neg (by simp [this])] at h
      by_cases hd : dd.length = data.length
      · have : dt = [] := by rw [hdata, List.length_append] at hd; exact List.length_eq_zero_iff.mp (by omega)
        subst this; exact .nil
      · rw [if_pos hd] at h; simp at h
    | cons pc pt =>
      cases dt with
      | nil =>
        have hdl : dd.length = data.length := by simp [hdata]
        rw [if_neg (by simp [hdl]), if_neg (by simp [hdl]), if_neg (by rw [hpat]; simp), hpat, deref_append_cons, ok_bind] at h
        simp only [List.length_append, List.length_cons, ok.injEq, decide_eq_true_eq] at h
        by_cases hw : star = pc ∨ quest = pc
        · rw [if_pos hw] at h
          have : pt = [] := List.length_eq_zero_iff.mp (by omega)
          subst this
          rcases hw with rfl | rfl
          · exact .starSkip .nil
          · exact .questSkip .nil
        · rw [if_neg hw] at h; omega
      | cons x dt =>
        rw [if_pos ⟨by rw [hpat]; simp, by rw [hdata]; simp⟩] at h
        have hdp : deref pat pp.length = ok pc := by rw [hpat]; exact deref_append_cons _ _ _
        have hdd : deref data dd.length = ok x := by rw [hdata]; exact deref_append_cons _ _ _
        rw [hdp, ok_bind] at h
        by_cases hs : star = pc
        · subst hs
          rw [if_pos rfl] at h
          have hsk := skipWild_spec (fun x => decide (x = star) || decide (x = quest)) (pat.length + 1) pp (star :: pt)
            (by rw [hpat]; simp; omega)
          rw [← hpat] at hsk
          rw [hsk, ok_bind] at h
          simp only [List.takeWhile_cons, decide_true, Bool.true_or, if_true] at h
          have hws := List.takeWhile_append_dropWhile (p := fun x => decide (x = star) || decide (x = quest)) (l := pt)
          have hwild : ∀ w ∈ pt.takeWhile (fun x => decide (x = star) || decide (x = quest)), w = star ∨ w = quest := by
            intro w hw
            have := ListX.mem_takeWhile hw
            simpa using this
          have hhd := List.head?_dropWhile_not (fun x => decide (x = star) || decide (x = quest)) pt
          revert h hws hwild hhd
          generalize pt.takeWhile (fun x => decide (x = star) || decide (x = quest)) = ws
          generalize pt.dropWhile (fun x => decide (x = star) || decide (x = quest)) = rest
          intro h hws hwild hhd
          subst hws
          cases rest with
          | nil => simpa using glob_all_wild cmp star quest ws (x :: dt) hwild
          | cons c rest =>
            simp at hhd
            rw [if_neg (by rw [hpat]; simp), hpat] at h
            have hdc : deref (pp ++ star :: (ws ++ c :: rest)) (pp.length + (star :: ws).length) = ok c := by
              have := deref_append_cons (pp ++ star :: ws) c rest
              simpa using this
            rw [hdc, ok_bind, ← hpat] at h
            have hsd := skipData_spec cmp c (data.length + 1) dd (x :: dt) (by rw [hdata]; simp; omega)
            rw [← hdata] at hsd
            rw [hsd, ok_bind] at h
            have hsplit := List.takeWhile_append_dropWhile (p := fun y => !cmp c y) (l := x :: dt)
            have hhd2 := List.head?_dropWhile_not (fun y => !cmp c y) (x :: dt)
            revert h hsplit hhd2
            generalize (x :: dt).takeWhile (fun y => !cmp c y) = u
            generalize (x :: dt).dropWhile (fun y => !cmp c y) = v
            intro h hsplit hhd2
            have hpl : pp.length + (star :: ws).length + 1 = (pp ++ star :: ws ++ [c]).length := by simp only [List.length_append, List.length_cons, List.length_nil]
            rw [hpl] at h
            cases v with
            | nil =>
              exfalso
              refine matchLoop_past cmp star quest pat data fuel (pp ++ star :: ws ++ [c]) rest _ (by simp [hpat]) ?_ ?_ h
              · rw [hdata, ← hsplit]; simp
              · intro a b hab
                exact hok [] ws c a b (by simp [hab]) ⟨by simpa using hhd.1, by simpa using hhd.2⟩
            | cons y v =>
              have hdl : dd.length + u.length + 1 = (dd ++ u ++ [y]).length := by simp only [List.length_append, List.length_cons, List.length_nil]
              rw [hdl] at h
              have := ih (pp ++ star :: ws ++ [c]) rest (dd ++ u ++ [y]) v (by simp [hpat]) (by simp [hdata, hsplit])
                (by intro a b c' e f hab; exact hok (star :: ws ++ c :: a) b c' e f (by simp [hab])) h
              rw [← hsplit]
              have hlit := Glob.lit (cmp := cmp) (star := star) (quest := quest) c y (by simpa using hhd.1) (by simpa using hhd.2)
                (by simpa using hhd2) this
              exact glob_star_any cmp star quest _ u _ (glob_wild cmp star quest ws _ _ hwild hlit)
        · rw [if_neg hs] at h
          have hrec := ih (pp ++ [pc]) pt (dd ++ [x]) dt (by simp [hpat]) (by simp [hdata])
            (by intro a b c e f hab; exact hok (pc :: a) b c e f (by simp [hab]))
          simp only [List.length_append, List.length_cons, List.length_nil, Nat.zero_add] at hrec
          by_cases hq : pc = quest
          · rw [if_pos hq] at h
            subst hq
            exact .questTake x (hrec h)
          · rw [if_neg hq, hdd, ok_bind] at h
            by_cases hc : cmp pc x
            · rw [if_pos hc] at h
              exact .lit pc x (fun e => hs e.symm) hq hc (hrec h)
            · rw [if_neg hc] at h; simp at h

theorem glob_nil_left (d : List α) : Glob cmp star quest [] d ↔ d = [] := by
  constructor
  · intro h; cases h; rfl
  · rintro rfl; exact .nil

theorem glob_lit_cons (c : α) (hc : IsLit star quest c) (p d : List α) :
    Glob cmp star quest (c :: p) d ↔ ∃ x d', d = x :: d' ∧ cmp c x = true ∧ Glob cmp star quest p d' := by
  constructor
  · intro h
    cases h with
    | starSkip h => exact absurd rfl hc.1
    | starTake x h => exact absurd rfl hc.1
    | questSkip h => exact absurd rfl hc.2
    | questTake x h => exact absurd rfl hc.2
    | lit c x h1 h2 h3 h4 => exact ⟨x, _, rfl, h3, h4⟩
  · rintro ⟨x, d', rfl, h1, h2⟩
    exact .lit c x hc.1 hc.2 h1 h2

theorem glob_quest (hne : star ≠ quest) (d : List α) : Glob cmp star quest [quest] d ↔ d.length ≤ 1 := by
  constructor
  · intro h
    cases h with
    | starSkip h => exact absurd rfl hne
    | starTake x h => exact absurd rfl hne
    | questSkip h => cases h; simp
    | questTake x h => cases h; simp
    | lit c x h1 h2 h3 h4 => exact absurd rfl h2
  · intro h
    match d, h with
    | [], _ => exact .questSkip .nil
    | [x], _ => exact .questTake x .nil

theorem matchLoop_exact (pat data tail : List α) (htail : tail = [] ∨ tail = [star] ∨ (tail = [quest] ∧ star ≠ quest)) :
    ∀ (l pp dd dt : List α) (fuel : Nat), pat = pp ++ (l ++ tail) → data = dd ++ dt → (∀ c ∈ l, IsLit star quest c) →
      l.length + 1 < fuel →
      ∃ b, matchLoop cmp star quest pat data fuel pp.length dd.length = ok b ∧ (b = true ↔ Glob cmp star quest (l ++ tail) dt) := by
  intro l
  induction l with
  | nil =>
    intro pp dd dt fuel hpat hdata _ hf
    obtain ⟨fuel, rfl⟩ : ∃ n, fuel = n + 2 := ⟨fuel - 2, by simp at hf; omega⟩
    unfold matchLoop
    rcases htail with rfl | rfl | ⟨rfl, hne⟩
    · have hpl : pp.length = pat.length := by simp [hpat]
      rw [if_neg (by simp [hpl])]
      cases dt with
      | nil =>
        rw [if_neg (by simp [hdata]), if_pos hpl]
        exact ⟨true, rfl, by simp [glob_nil_left]⟩
      | cons x dt =>
        rw [if_pos (by simp [hdata])]
        exact ⟨false, rfl, by simp [glob_nil_left]⟩
    · have hg : Glob cmp star quest ([] ++ [star]) dt := by
        simpa using glob_all_wild cmp star quest [] dt (by simp)
      have hdp : deref pat pp.length = ok star := by rw [hpat]; exact deref_append_cons _ _ _
      cases dt with
      | nil =>
        rw [if_neg (by simp [hdata]), if_neg (by simp [hdata]), if_neg (by simp [hpat]), hdp]
        exact ⟨true, by simp [hpat], by simpa using hg⟩
      | cons x dt =>
        rw [if_pos ⟨by simp [hpat], by simp [hdata]⟩, hdp, ok_bind, if_pos rfl]
        have hsk := skipWild_spec (fun x => decide (x = star) || decide (x = quest)) (pat.length + 1) pp [star]
            (by rw [hpat]; simp)
        rw [show pp ++ [star] = pat by simp [hpat]] at hsk
        rw [hsk, ok_bind, if_pos (by simp [hpat])]
        exact ⟨true, rfl, by simpa using hg⟩
    · have hdp : deref pat pp.length = ok quest := by rw [hpat]; exact deref_append_cons _ _ _
      simp only [List.nil_append, glob_quest cmp star quest hne]
      cases dt with
      | nil =>
        rw [if_neg (by simp [hdata]), if_neg (by simp [hdata]), if_neg (by simp [hpat]), hdp]
        exact ⟨true, by simp [hpat], by simp⟩
      | cons x dt =>
        rw [if_pos ⟨by simp [hpat], by simp [hdata]⟩, hdp, ok_bind, if_neg hne, if_pos rfl]
        unfold matchLoop
        rw [if_neg (by simp [hpat])]
        cases dt with
        | nil =>
          rw [if_neg (by simp [hdata]), if_pos (by simp [hpat])]
          exact ⟨true, rfl, by simp⟩
        | cons y dt =>
          rw [if_pos (by simp [hdata])]
          exact ⟨false, rfl, by simp⟩
  | cons c l ih =>
    intro pp dd dt fuel hpat hdata hl hf
    have hc := hl c (by simp)
    have hgl : Glob cmp star quest (c :: l ++ tail) dt ↔ _ := glob_lit_cons cmp star quest c hc (l ++ tail) dt
    obtain ⟨fuel, rfl⟩ : ∃ n, fuel = n + 1 := ⟨fuel - 1, by simp at hf; omega⟩
    have hdp : deref pat pp.length = ok c := by rw [hpat]; exact deref_append_cons _ _ _
    cases dt with
    | nil =>
      unfold matchLoop
      rw [if_neg (by simp [hdata]), if_neg (by simp [hdata]), if_neg (by simp [hpat]), hdp, ok_bind]
      refine ⟨false, ?_, by rw [hgl]; simp⟩
      rw [if_neg (by rintro (h | h); exact hc.1 h.symm; exact hc.2 h.symm)]
      simp [hpat]
    | cons x dt =>
      unfold matchLoop
      have hdd : deref data dd.length = ok x := by rw [hdata]; exact deref_append_cons _ _ _
      rw [if_pos ⟨by simp [hpat], by simp [hdata]⟩, hdp, ok_bind, if_neg (fun h => hc.1 h.symm), if_neg hc.2, hdd, ok_bind]
      by_cases hx : cmp c x
      · rw [if_pos hx]
        obtain ⟨b, hb1, hb2⟩ := ih (pp ++ [c]) (dd ++ [x]) dt fuel (by simp [hpat]) (by simp [hdata]) (fun y hy => hl y (by simp [hy]))
          (by simp at hf; omega)
        simp only [List.length_append, List.length_cons, List.length_nil, Nat.zero_add] at hb1
        refine ⟨b, hb1, ?_⟩
        rw [hb2, hgl]
        constructor
        · intro h; exact ⟨x, dt, rfl, hx, h⟩
        · rintro ⟨y, d', h1, _, h3⟩; simp at h1; obtain ⟨rfl, rfl⟩ := h1; exact h3
      · rw [if_neg hx]
        refine ⟨false, rfl, ?_⟩
        rw [hgl]
        constructor
        · simp
        · rintro ⟨y, d', h1, h2, _⟩; simp at h1; obtain ⟨rfl, rfl⟩ := h1; exact absurd h2 hx

/-- Without `star` the loop stays inside both ranges. -/
theorem matchLoop_noStar (pat data : List α) :
    ∀ (fuel : Nat) (pp pt dd dt : List α), pat = pp ++ pt → data = dd ++ dt → star ∉ pt → pt.length < fuel →
      ∃ b, matchLoop cmp star quest pat data fuel pp.length dd.length = ok b := by
  intro fuel
  induction fuel with
  | zero => intros; omega
  | succ fuel ih =>
    intro pp pt dd dt hpat hdata hs hf
    unfold matchLoop
    cases pt with
    | nil =>
      rw [if_neg (by simp [hpat])]
      split
      · exact ⟨_, rfl⟩
      · rw [if_pos (by simp [hpat])]; exact ⟨_, rfl⟩
    | cons pc pt =>
      have hdp : deref pat pp.length = ok pc := by rw [hpat]; exact deref_append_cons _ _ _
      cases dt with
      | nil =>
        rw [if_neg (by simp [hdata]), if_neg (by simp [hdata]), if_neg (by simp [hpat]), hdp, ok_bind]
        exact ⟨_, rfl⟩
      | cons x dt =>
        have hdd : deref data dd.length = ok x := by rw [hdata]; exact deref_append_cons _ _ _
        obtain ⟨b, hb⟩ := ih (pp ++ [pc]) pt (dd ++ [x]) dt (by simp [hpat]) (by simp [hdata]) (fun h => hs (by simp [h]))
          (by simp at hf; omega)
        simp only [List.length_append, List.length_cons, List.length_nil, Nat.zero_add] at hb
        rw [if_pos ⟨by simp [hpat], by simp [hdata]⟩, hdp, ok_bind, if_neg (by rintro rfl; exact hs (by simp)), hdd, ok_bind]
        repeat' split
        · exact ⟨b, hb⟩
        · exact ⟨b, hb⟩
        · exact ⟨false, rfl⟩

end

/-! ### imatch -/

theorem toUpper_ascii (c : BitVec 8) (h : c.toNat < 128) : toUpper c = ok ((asciiUpper c).toNat : Int) := by
  revert h; revert c; decide +kernel

theorem imatchLoop_spec :
    ∀ (fuel : Nat) (a1 a2 b1 b2 : List (BitVec 8)), (∀ c ∈ b1, c.toNat < 128) → (∀ c ∈ b2, c.toNat < 128) → b1.length = b2.length →
      b1.length < fuel →
      imatchLoop (a1 ++ b1) (a2 ++ b2) fuel a1.length a2.length = ok (decide (b1.map asciiUpper = b2.map asciiUpper)) := by
  intro fuel
  induction fuel with
  | zero => intros; omega
  | succ fuel ih =>
    intro a1 a2 b1 b2 h1 h2 hl hf
    unfold imatchLoop
    cases b1 with
    | nil =>
      have : b2 = [] := List.length_eq_zero_iff.mp (by simpa using hl.symm)
      subst this
      simp
    | cons c b1 =>
      cases b2 with
      | nil => simp at hl
      | cons d b2 =>
        rw [if_pos (by simp), deref_append_cons, deref_append_cons, ok_bind, ok_bind, imatchChar, toUpper_ascii c (h1 c (by simp)),
          toUpper_ascii d (h2 d (by simp))]
        simp only [ok_bind]
        have hrec := ih (a1 ++ [c]) (a2 ++ [d]) b1 b2 (fun x hx => h1 x (by simp [hx])) (fun x hx => h2 x (by simp [hx]))
          (by simpa using hl) (by simp at hf; omega)
        simp at hrec
        by_cases he : asciiUpper c = asciiUpper d
        · simp [he, hrec]
        · have : ¬ (((asciiUpper c).toNat : Int) = ((asciiUpper d).toNat : Int)) := by
            intro h; apply he; apply BitVec.eq_of_toNat_eq; omega
          simp only [decide_eq_false this, Bool.not_false, if_true]
          simp [he]

/-! ### Searching -/

theorem equalAt_iff (eq : α → α → Bool) (p s : List α) (i : Nat) (h : i + p.length ≤ s.length) :
    equalAt eq p s i = true ↔ OccursAt eq p s i := by
  constructor
  · intro he
    refine ⟨s.take i, (s.drop i).take p.length, (s.drop i).drop p.length, ListX.split3 s i p.length, by simp; omega, by simp; omega, ?_⟩
    intro x hx
    obtain ⟨j, hj, rfl⟩ := List.mem_iff_getElem.mp hx
    rw [equalAt, List.all_eq_true] at he
    simp only [List.length_zip, List.length_take, List.length_drop] at hj
    have hjp : j < p.length := by omega
    have := he j (by simp [hjp])
    rw [List.getElem?_eq_getElem (by omega), List.getElem?_eq_getElem hjp] at this
    simpa using this
  · rintro ⟨u, m, v, rfl, rfl, hm, hz⟩
    rw [equalAt, List.all_eq_true]
    intro j hj
    have hjp : j < p.length := by simpa using hj
    rw [List.getElem?_eq_getElem (by simp; omega), List.getElem?_eq_getElem hjp]
    have := hz (m[j], p[j]) (List.mem_iff_getElem.mpr ⟨j, by simp; omega, by simp⟩)
    simp only
    rw [← this]
    congr 1
    rw [List.getElem_append_left (by simp; omega), List.getElem_append_right (by omega)]
    simp

theorem OccursAt.le {eq : α → α → Bool} {p s : List α} {i : Nat} (h : OccursAt eq p s i) : i + p.length ≤ s.length := by
  obtain ⟨u, m, v, rfl, rfl, hm, _⟩ := h
  simp; omega

/-- The contract of `std::search`, from the model. -/
theorem search_spec (eq : α → α → Bool) (p s : List α) (start : Nat) :
    (search eq s p start = s.length ∧ (∀ i, start ≤ i → ¬ OccursAt eq p s i)) ∨
      (start ≤ search eq s p start ∧ OccursAt eq p s (search eq s p start) ∧
        ∀ j, start ≤ j → j < search eq s p start → ¬ OccursAt eq p s j) := by
  unfold search
  cases hf : (List.range' start (s.length + 1 - p.length - start)).find? (equalAt eq p s) with
  | none =>
    left
    refine ⟨rfl, ?_⟩
    intro i hi ho
    have hle := ho.le
    rw [List.find?_eq_none] at hf
    exact hf i (by simp [List.mem_range'_1]; omega) ((equalAt_iff eq p s i hle).mpr ho)
  | some k =>
    right
    rw [List.find?_eq_some_iff_append] at hf
    obtain ⟨hk, as, bs, hab, hno⟩ := hf
    have hmem : k ∈ List.range' start (s.length + 1 - p.length - start) := by rw [hab]; simp
    rw [List.mem_range'_1] at hmem
    refine ⟨hmem.1, (equalAt_iff eq p s k (by omega)).mp hk, ?_⟩
    intro j hj hjk ho
    have hjm : j ∈ List.range' start (s.length + 1 - p.length - start) := by rw [List.mem_range'_1]; simp at hjk; omega
    have hsorted : (List.range' start (s.length + 1 - p.length - start)).Pairwise (· < ·) := List.pairwise_lt_range'
    have hj_as : j ∈ as := by
      rw [hab] at hjm hsorted
      simp only [List.mem_append, List.mem_cons] at hjm
      simp only [Option.getD_some] at hjk
      rcases hjm with h | rfl | h
      · exact h
      · omega
      · have := (List.pairwise_append.mp hsorted).2.1
        have := (List.pairwise_cons.mp this).1 j h
        omega
    have := hno j hj_as
    simp [(equalAt_iff eq p s j (by have := ho.le; omega)).mpr ho] at this

theorem findAllLoop_spec (eq : α → α → Bool) (p s : List α) (hp : p ≠ []) :
    ∀ (fuel start : Nat) (out : List (Nat × Nat)), start ≤ s.length → s.length - start < fuel →
      ∃ L, Leftmost eq p s start L ∧ findAllLoop eq p s fuel start out = ok (out ++ L.map fun i => (i, i + p.length)) := by
  intro fuel
  induction fuel with
  | zero => intros; omega
  | succ fuel ih =>
    intro start out hs hf
    have hpl : 0 < p.length := List.length_pos_iff.mpr hp
    unfold findAllLoop
    rcases search_spec eq p s start with ⟨h1, h2⟩ | ⟨h1, h2, h3⟩
    · exact ⟨[], .done h2, by simp [h1]⟩
    · have hle := h2.le
      obtain ⟨L, hL, he⟩ := ih (search eq s p start + p.length) (out ++ [(search eq s p start, search eq s p start + p.length)])
        (by omega) (by omega)
      refine ⟨search eq s p start :: L, .step h1 h2 h3 hL, ?_⟩
      simp only
      rw [if_pos (by omega), he]
      simp

theorem stdEqual_spec (eq : α → α → Bool) : ∀ (p pre m v : List α), m.length = p.length →
    stdEqual eq (pre ++ m ++ v) p pre.length = ok (decide (∀ x ∈ m.zip p, eq x.2 x.1 = true)) := by
  intro p
  induction p with
  | nil => intro pre m v h; have : m = [] := List.length_eq_zero_iff.mp (by simpa using h); subst this; simp [stdEqual]
  | cons b p ih =>
    intro pre m v h
    cases m with
    | nil => simp at h
    | cons a m =>
      unfold stdEqual
      have hd : deref (pre ++ a :: m ++ v) pre.length = ok a := by
        have := deref_append_cons pre a (m ++ v)
        simpa using this
      rw [hd, ok_bind]
      have := ih (pre ++ [a]) m v (by simpa using h)
      simp only [List.length_append, List.length_cons, List.length_nil, Nat.zero_add, List.append_assoc, List.singleton_append, List.cons_append, List.nil_append] at this
      by_cases he : eq b a = true
      · rw [if_pos he, List.append_assoc, List.cons_append, this]
        congr 1
        rw [decide_eq_decide, List.zip_cons_cons, List.forall_mem_cons]
        simp [he]
      · rw [if_neg he]
        congr 1
        symm
        rw [decide_eq_false_iff_not, List.zip_cons_cons, List.forall_mem_cons]
        simp [he]

end Strtk.Find
