import Verif.Shared.Codec
import Verif.Strings.Props
import Verif.Join.Props

/-!
# Calls whose output is one of their inputs: replace_pattern, remove_pattern, replicate, join, bracketize (strtk.hpp 1695-1760, 1869-1875, 11102-11116, 11430-11440, 11463-11482)

`std::copy` onto an overlapping range (1744, 1758) copies as `memmove` does, as the usual libraries do for characters; the standard leaves it undefined when the
destination lies inside the source.
-/

namespace Strtk.Strings
open Outcome Mem

variable {α : Type}

/-- Copy loop (1742-1754), with `s` and `r` read through the object written. -/
def patCopySh (s r : Src α) (pSize rSize : Nat) : List Nat → Nat → Nat → Nat → List α → Outcome (Nat × Nat × List α)
  | [], sItr, nItr, _, n => ok (sItr, nItr, n)
  | q :: qs, sItr, nItr, prev, n => do
    let delta := q - prev
    let piece ← slice (s.now n) sItr delta
    let n ← copyTo n nItr piece
    let sItr := sItr + (pSize + delta)
    let nItr := nItr + delta
    let rep ← slice (r.now n) 0 rSize
    let n ← copyTo n nItr rep
    let nItr := nItr + rSize
    patCopySh s r pSize rSize qs sItr nItr (q + pSize) n

/-- `replace_pattern(s, p, r, n)` (1695-1760), any of `s`, `p` and `r` being `n` or not.  `s_end` is computed after the resize (1732); a `s_itr` behind it gives `std::copy` a
reversed range. -/
def replacePatternSh [DecidableEq α] [Inhabited α] (s p r : Src α) (n : List α) : Outcome (List α) :=
  if p.now n = [] ∨ p.now n = r.now n then ok (s.now n)
  else do
    let pSize := (p.now n).length
    let rSize := (r.now n).length
    let inc := toInt32 rSize - toInt32 pSize
    let deltas ← deltaLoop (s.now n) (p.now n) ((s.now n).length + 2) 0 []
    if deltas = [] then ok (s.now n)
    else do
      let size := (deltas.length * (inc % 2 ^ 64).toNat + (s.now n).length) % 2 ^ 64
      let n := resize default n size
      let sEnd := (s.now n).length
      let (sItr, nItr, n) ← patCopySh s r pSize rSize deltas 0 0 0 n
      if sEnd ≠ sItr then do
        let piece ← (if sEnd < sItr then ub else slice (s.now n) sItr (sEnd - sItr))
        copyTo n nItr piece
      else ok n

/-- `remove_pattern(s, p, n)` (1869-1875). -/
def removePatternSh [DecidableEq α] [Inhabited α] (s p : Src α) (n : List α) : Outcome (List α) := replacePatternSh s p (.other []) n

/-! ## Specification -/

section
variable [DecidableEq α]

/-- The text between the leftmost non-overlapping occurrences of `p`, as `split` of other languages gives it: the last one is what follows the last occurrence. -/
def pieces (p : List α) (hp : p ≠ []) (s : List α) : List (List α) :=
  match s with
  | [] => [[]]
  | a :: t =>
    if p <+: a :: t then [] :: pieces p hp ((a :: t).drop p.length)
    else match pieces p hp t with
      | [] => [[a]]
      | w :: ws => (a :: w) :: ws
termination_by s.length
decreasing_by
  · have : 0 < p.length := List.length_pos_iff.mpr hp
    simp; omega
  · simp

/-- What follows the last occurrence of `p` in `s`. -/
def afterLast (p : List α) (hp : p ≠ []) (s : List α) : List α := (pieces p hp s).getLast?.getD []

/-! ## Proofs -/

theorem findGo_none_pieces (p : List α) (hp : p ≠ []) (t : List α) : ∀ i, findGo p t i = none → pieces p hp t = [t] := by
  induction t with
  | nil => intro i _; simp [pieces]
  | cons a t ih =>
    intro i h
    unfold findGo at h
    split at h
    · simp at h
    · rename_i hpre
      rw [List.isPrefixOf_iff_prefix] at hpre
      rw [pieces, if_neg hpre, ih (i + 1) h]

theorem findGo_some_pieces (p : List α) (hp : p ≠ []) (t : List α) : ∀ i q, findGo p t i = some q →
    ∃ u v, t = u ++ p ++ v ∧ q = i + u.length ∧ (∀ r, replaceAll p r hp t = u ++ r ++ replaceAll p r hp v) ∧ pieces p hp t = u :: pieces p hp v := by
  induction t with
  | nil => intro i q h; simp [findGo, hp] at h
  | cons a t ih =>
    intro i q h
    unfold findGo at h
    split at h
    · rename_i hpre
      rw [List.isPrefixOf_iff_prefix] at hpre
      have h2 := hpre
      obtain ⟨v, hv⟩ := hpre
      refine ⟨[], v, by simp [hv], by simp at h; simp [h], ?_, ?_⟩
      · intro r
        rw [replaceAll, if_pos h2]
        simp [← hv]
      · rw [pieces, if_pos h2]
        simp [← hv]
    · rename_i hpre
      rw [List.isPrefixOf_iff_prefix] at hpre
      obtain ⟨u, v, h1, h2, h3, h4⟩ := ih (i + 1) q h
      refine ⟨a :: u, v, by simp [h1], by simp [h2]; omega, ?_, ?_⟩
      · intro r
        rw [replaceAll, if_neg hpre, h3]
        simp
      · rw [pieces, if_neg hpre, h4]

theorem deltaLoop_pieces (p : List α) (hp : p ≠ []) :
    ∀ (fuel : Nat) (pre t : List α) (ds : List Nat), t.length < fuel →
      ∃ us w, t = (us.map (· ++ p)).flatten ++ w ∧ (∀ r, replaceAll p r hp t = (us.map (· ++ r)).flatten ++ w) ∧ pieces p hp t = us ++ [w] ∧
        deltaLoop (pre ++ t) p fuel pre.length ds = ok (ds ++ posOf p pre.length us) := by
  intro fuel
  induction fuel with
  | zero => intros; omega
  | succ fuel ih =>
    intro pre t ds hf
    unfold deltaLoop
    have hfind : find (pre ++ t) p pre.length = findGo p t pre.length := by simp [find]
    rw [hfind]
    cases hq : findGo p t pre.length with
    | none => exact ⟨[], t, by simp, by simpa using findGo_none p hp t _ hq, by simpa using findGo_none_pieces p hp t _ hq, by simp [posOf]⟩
    | some q =>
      obtain ⟨u, v, h1, h2, h3, h4⟩ := findGo_some_pieces p hp t _ _ hq
      have hl : 0 < p.length := List.length_pos_iff.mpr hp
      obtain ⟨us, w, e1, e2, e4, e3⟩ := ih (pre ++ u ++ p) v (ds ++ [q]) (by rw [h1] at hf; simp at hf; omega)
      refine ⟨u :: us, w, by simp [h1, e1], by intro r; simp [h3, e2], by simp [h4, e4], ?_⟩
      simp only
      rw [h1, ← List.append_assoc, ← List.append_assoc, h2, show pre.length + u.length + p.length = (pre ++ u ++ p).length by simp only [List.length_append]]
      rw [h2] at e3
      rw [e3]
      simp [posOf, Nat.add_assoc]

end

theorem flat_size (q : List α) (l : List (List α)) : ((l.map (· ++ q)).flatten).length = (l.flatten).length + l.length * q.length := by
  induction l with
  | nil => simp
  | cons a l ih =>
    rw [List.map_cons, List.flatten_cons, List.length_append, ih, List.flatten_cons, List.length_append, List.length_append, List.length_cons, Nat.add_mul]
    omega

theorem copyTo_length (b : List α) (k : Nat) (w b' : List α) (h : copyTo b k w = ok b') : b'.length = b.length := by
  unfold copyTo at h
  split at h
  · rw [← Outcome.ok.inj h]; simp; omega
  · cases h

theorem slice_length (s : List α) (i n : Nat) (w : List α) (h : slice s i n = ok w) : w.length = n := by
  unfold slice at h
  split at h
  · rw [← Outcome.ok.inj h]; simp; omega
  · cases h

/-- Whatever the texts, the loop ends behind the last occurrence with the output position moved by the replacements, or has left the object. -/
theorem patCopySh_positions (p r : List α) : ∀ (us : List (List α)) (sItr nItr : Nat) (n : List α),
    patCopySh .same (.other r) p.length r.length (posOf p sItr us) sItr nItr sItr n = ub ∨
    ∃ n', n'.length = n.length ∧ patCopySh .same (.other r) p.length r.length (posOf p sItr us) sItr nItr sItr n =
      ok (sItr + ((us.map (· ++ p)).flatten).length, nItr + ((us.map (· ++ r)).flatten).length, n') := by
  intro us
  induction us with
  | nil => intro sItr nItr n; exact .inr ⟨n, rfl, by simp [patCopySh, posOf]⟩
  | cons u us ih =>
    intro sItr nItr n
    rw [posOf, patCopySh]
    simp only [Src.now_same, Src.now_other]
    rw [show sItr + u.length - sItr = u.length by omega]
    cases h1 : slice n sItr u.length with
    | ok piece =>
      rw [ok_bind]
      cases h2 : copyTo n nItr piece with
      | ok n1 =>
        rw [ok_bind, show slice r 0 r.length = ok r by simp [slice], ok_bind]
        cases h3 : copyTo n1 (nItr + u.length) r with
        | ok n2 =>
          rw [ok_bind]
          have := ih (sItr + u.length + p.length) (nItr + u.length + r.length) n2
          rw [show sItr + (p.length + u.length) = sItr + u.length + p.length by omega]
          rcases this with h | ⟨n', hl, h⟩
          · exact .inl h
          · refine .inr ⟨n', by rw [hl, copyTo_length _ _ _ _ h3, copyTo_length _ _ _ _ h2], ?_⟩
            rw [h]
            simp only [List.map_cons, List.flatten_cons, List.length_append, Outcome.ok.injEq, Prod.mk.injEq, and_true]
            constructor <;> omega
        | ub => exact .inl rfl
        | diverge => unfold copyTo at h3; split at h3 <;> cases h3
        | thrown => unfold copyTo at h3; split at h3 <;> cases h3
      | ub => exact .inl rfl
      | diverge => unfold copyTo at h2; split at h2 <;> cases h2
      | thrown => unfold copyTo at h2; split at h2 <;> cases h2
    | ub => exact .inl rfl
    | diverge => unfold slice at h1; split at h1 <;> cases h1
    | thrown => unfold slice at h1; split at h1 <;> cases h1

/-- A replacement no longer than the pattern: what is read has not been written yet. -/
theorem patCopySh_shrink (p r m : List α) (hr : r.length ≤ p.length) : ∀ (us : List (List α)) (sItr : Nat) (N w : List α), N.length ≤ sItr →
    m.drop sItr = (us.map (· ++ p)).flatten ++ w → sItr + ((us.map (· ++ p)).flatten).length ≤ m.length →
    patCopySh .same (.other r) p.length r.length (posOf p sItr us) sItr N.length sItr (N ++ m.drop N.length) =
      ok (sItr + ((us.map (· ++ p)).flatten).length, N.length + ((us.map (· ++ r)).flatten).length,
        N ++ (us.map (· ++ r)).flatten ++ m.drop (N.length + ((us.map (· ++ r)).flatten).length)) := by
  intro us
  induction us with
  | nil => intro sItr N w _ _ _; simp [patCopySh, posOf]
  | cons u us ih =>
    intro sItr N w hN hm hlen
    rw [posOf, patCopySh]
    simp only [Src.now_same, Src.now_other]
    simp only [List.map_cons, List.flatten_cons, List.length_append] at hm hlen ⊢
    rw [show sItr + u.length - sItr = u.length by omega]
    have hsl : slice (N ++ m.drop N.length) sItr u.length = ok u := by
      have hd : (N ++ m.drop N.length).drop sItr = m.drop sItr := by
        rw [List.drop_append, List.drop_eq_nil_of_le hN, List.nil_append, List.drop_drop]
        congr 1; omega
      rw [slice, if_pos (by simp; omega), hd, hm]
      simp
    have hroom : (m.drop N.length).length = m.length - N.length := List.length_drop
    rw [hsl, ok_bind, copyTo_append N _ (m.drop N.length) u (by omega) rfl, ok_bind, show slice r 0 r.length = ok r by simp [slice], ok_bind]
    have hc2 := copyTo_append (N ++ u) (N ++ u ++ (m.drop N.length).drop u.length) ((m.drop N.length).drop u.length) r
      (by rw [List.length_drop]; omega) rfl
    simp only [List.length_append] at hc2
    rw [hc2, ok_bind, List.drop_drop, List.drop_drop]
    have hd2 : m.drop (sItr + u.length + p.length) = (us.map (· ++ p)).flatten ++ w := by
      rw [show sItr + u.length + p.length = sItr + (u.length + p.length) by omega, ← List.drop_drop, hm]
      rw [show u ++ p ++ (List.map (fun x => x ++ p) us).flatten ++ w = (u ++ p) ++ ((List.map (fun x => x ++ p) us).flatten ++ w) by simp]
      rw [show u.length + p.length = (u ++ p).length by simp, List.drop_left]
    have := ih (sItr + u.length + p.length) (N ++ u ++ r) w (by simp only [List.length_append]; omega) hd2 (by omega)
    simp only [List.length_append] at this
    rw [show sItr + (p.length + u.length) = sItr + u.length + p.length by omega,
      show N.length + (u.length + r.length) = N.length + u.length + r.length by omega, this]
    simp only [List.append_assoc, Outcome.ok.injEq, Prod.mk.injEq]
    refine ⟨by omega, by omega, ?_⟩
    simp only [Nat.add_assoc]

theorem patCopySh_other (s r : List α) (k : Nat) : ∀ (qs : List Nat) (a b c : Nat) (n : List α),
    patCopySh (.other s) (.other r) k r.length qs a b c n = patCopy s k r qs a b c n := by
  intro qs
  induction qs with
  | nil => intro a b c n; rfl
  | cons q qs ih =>
    intro a b c n
    rw [patCopySh, patCopy]
    simp only [Src.now_other]
    congr 1; funext piece; congr 1; funext n1
    rw [show slice r 0 r.length = ok r by simp [slice], ok_bind]
    congr 1; funext n2
    exact ih _ _ _ _

/-! ## Theorems -/

section
variable [DecidableEq α] [Inhabited α]

/-- C164: with a text and a replacement of their own, `replace_pattern` does what C13 says; the pattern may be the output object, as it is read only before the
output changes. -/
theorem C164_replace_separate (s r n : List α) (p : Src α) :
    replacePatternSh (.other s) p (.other r) n = replacePattern s (p.now n) r n ∧ removePatternSh (.other s) p n = removePattern s (p.now n) n := by
  have key : ∀ r, replacePatternSh (.other s) p (.other r) n = replacePattern s (p.now n) r n := by
    intro r
    unfold replacePatternSh replacePattern
    generalize p.now n = P
    simp only [Src.now_other, patCopySh_other]
    split
    · rfl
    · refine Codec.bind_congr_ok fun ds _ => ?_
      split
      · rfl
      · refine Codec.bind_congr_ok fun x _ => ?_
        obtain ⟨a, b, c⟩ := x
        simp only
        split
        · by_cases h : s.length < a
          · rw [if_pos h, show slice s a (s.length - a) = ub by rw [slice, if_neg (by omega)]]
          · rw [if_neg h]
        · rfl
  exact ⟨key r, key []⟩

/-- C164: a text without an occurrence of the pattern may be its own output, and so may any text when the pattern is empty or the replacement is the pattern. -/
theorem C164_replace_same_no_occurrence (p r s : List α) (h : p = [] ∨ p = r ∨ ¬ p <:+: s) : replacePatternSh .same (.other p) (.other r) s = ok s := by
  unfold replacePatternSh
  simp only [Src.now_same, Src.now_other]
  by_cases h1 : p = [] ∨ p = r
  · rw [if_pos h1]
  · rw [if_neg h1]
    have h2 : ¬ p <:+: s := by
      rcases h with h | h | h
      · exact absurd (.inl h) h1
      · exact absurd (.inr h) h1
      · exact h
    obtain ⟨us, w, e1, _, _, e3⟩ := deltaLoop_pieces p (fun e => h1 (.inl e)) (s.length + 2) [] s [] (by omega)
    simp only [List.nil_append, List.length_nil] at e3
    rw [e3, ok_bind]
    cases us with
    | nil => rw [posOf, if_pos rfl]
    | cons u us => exact absurd ⟨u, (us.map (· ++ p)).flatten ++ w, by rw [e1]; simp⟩ h2

theorem afterLast_eq (p s w : List α) (hp : p ≠ []) (us : List (List α)) (h : pieces p hp s = us ++ [w]) : afterLast p hp s = w := by
  rw [afterLast, h]; simp

theorem same_size (p r s w : List α) (hp : p ≠ []) (us : List (List α)) (hp31 : p.length < 2 ^ 31) (hr31 : r.length < 2 ^ 31)
    (h1 : s = (us.map (· ++ p)).flatten ++ w) (h2 : replaceAll p r hp s = (us.map (· ++ r)).flatten ++ w) (hres : (replaceAll p r hp s).length < 2 ^ 64) :
    ((posOf p 0 us).length * ((toInt32 r.length - toInt32 p.length) % 2 ^ 64).toNat + s.length) % 2 ^ 64 = (replaceAll p r hp s).length := by
  have hsl : s.length = (us.flatten).length + us.length * p.length + w.length := by
    conv => lhs; rw [h1]
    rw [List.length_append, flat_size]
  have hrl : (replaceAll p r hp s).length = (us.flatten).length + us.length * r.length + w.length := by
    rw [h2, List.length_append, flat_size]
  rw [posOf_length]
  refine size_calc us.length s.length (toInt32 r.length - toInt32 p.length) (replaceAll p r hp s).length ?_ hres
  rw [toInt32_small _ hp31, toInt32_small _ hr31, hrl, hsl, Int.mul_sub]
  simp only [Int.natCast_add, Int.natCast_mul]
  omega

/-- C164: what `replace_pattern(s, p, r, s)` does when the replacement is no longer than the pattern.  With `N` the length of the right result and `D` the number of characters
saved, the last `D` characters of the string are left as they were at their places, instead of being those of the right result; and when less than `D` characters follow the last
occurrence, the call leaves the string. -/
theorem C164_replace_same_shorter (p r s : List α) (hp : p ≠ []) (hr : r.length ≤ p.length) (hp31 : p.length < 2 ^ 31) (hs : s.length < 2 ^ 64)
    (N D : Nat) (hN : N = (replaceAll p r hp s).length) (hD : D = s.length - N) :
    replacePatternSh .same (.other p) (.other r) s =
      if (afterLast p hp s).length < D then ub else ok ((replaceAll p r hp s).take (N - D) ++ (s.take N).drop (N - D)) := by
  obtain ⟨us, w, h1, h2, h4, h3⟩ := deltaLoop_pieces p hp (s.length + 2) [] s [] (by omega)
  simp only [List.nil_append, List.length_nil] at h3
  rw [afterLast_eq p s w hp us h4]
  have hsl : s.length = (us.flatten).length + us.length * p.length + w.length := by
    conv => lhs; rw [h1]
    rw [List.length_append, flat_size]
  have hrl : N = (us.flatten).length + us.length * r.length + w.length := by
    rw [hN, h2 r, List.length_append, flat_size]
  have hmul : us.length * r.length ≤ us.length * p.length := Nat.mul_le_mul_left _ hr
  unfold replacePatternSh
  simp only [Src.now_same, Src.now_other]
  by_cases hpr : p = r
  · rw [if_pos (Or.inr hpr)]
    have hrep : replaceAll p r hp s = s := by rw [h2 r, ← hpr, ← h1]
    have hNs : N = s.length := by rw [hN, hrep]
    rw [if_neg (by omega), hrep, show N - D = s.length by omega, List.take_length, List.drop_eq_nil_of_le (by rw [List.length_take]; omega), List.append_nil]
  rw [if_neg (by simp [hp, hpr]), h3, ok_bind]
  by_cases hus : us = []
  · subst hus
    have hrep : replaceAll p r hp s = s := by rw [h2 r]; simpa using h1.symm
    have hNs : N = s.length := by rw [hN, hrep]
    rw [posOf, if_pos rfl, if_neg (by omega), hrep, show N - D = s.length by omega, List.take_length, List.drop_eq_nil_of_le (by rw [List.length_take]; omega),
      List.append_nil]
  have hne : posOf p 0 us ≠ [] := by intro e; have := congrArg List.length e; simp at this; exact hus this
  rw [if_neg hne, same_size p r s w hp us hp31 (by omega) h1 (h2 r) (by omega), ← hN, resize_le _ _ _ (by omega)]
  have hml : (s.take N).length = N := by rw [List.length_take]; omega
  have hflat : ((us.map (· ++ p)).flatten).length = (us.flatten).length + us.length * p.length := flat_size p us
  have hflatr : ((us.map (· ++ r)).flatten).length = (us.flatten).length + us.length * r.length := flat_size r us
  simp only [hml]
  split
  · rename_i hlt
    rcases patCopySh_positions p r us 0 0 (s.take N) with h | ⟨n', hl, h⟩
    · rw [h]; rfl
    · rw [h, ok_bind]
      simp only
      rw [if_pos (by omega), if_pos (by omega)]
      rfl
  · rename_i hlt
    have hm : s.take N = (us.map (· ++ p)).flatten ++ w.take (w.length - D) := by
      conv => lhs; rw [h1]
      rw [List.take_append, List.take_of_length_le (by omega)]
      congr 2; omega
    have hw' : (w.take (w.length - D)).length = w.length - D := by rw [List.length_take]; omega
    have := patCopySh_shrink p r (s.take N) hr us 0 [] (w.take (w.length - D)) (Nat.le_refl 0) (by simpa using hm) (by rw [hml]; omega)
    simp only [List.nil_append, List.length_nil, Nat.zero_add, List.drop_zero] at this
    rw [this, ok_bind]
    simp only
    have hND : N - D = ((us.map (· ++ r)).flatten).length + (w.length - D) := by omega
    have htake : (replaceAll p r hp s).take (N - D) = (us.map (· ++ r)).flatten ++ w.take (w.length - D) := by
      rw [h2 r, hND, List.take_length_add_append]
    by_cases hD0 : w.length = D
    · rw [if_neg (by omega), htake, hND]
      rw [show w.length - D = 0 by omega]
      simp
    · rw [if_pos (by omega), if_neg (by omega)]
      have hsl2 : slice ((us.map (· ++ r)).flatten ++ (s.take N).drop ((us.map (· ++ r)).flatten).length) ((us.map (· ++ p)).flatten).length
          (N - ((us.map (· ++ p)).flatten).length) = ok (w.take (w.length - D)) := by
        have hd : ((us.map (· ++ r)).flatten ++ (s.take N).drop ((us.map (· ++ r)).flatten).length).drop ((us.map (· ++ p)).flatten).length =
            w.take (w.length - D) := by
          rw [List.drop_append, List.drop_eq_nil_of_le (by omega), List.nil_append, List.drop_drop,
            show ((us.map (· ++ r)).flatten).length + (((us.map (· ++ p)).flatten).length - ((us.map (· ++ r)).flatten).length) =
              ((us.map (· ++ p)).flatten).length by omega, hm, List.drop_left]
        rw [slice, if_pos (by rw [List.length_append, List.length_drop, hml]; omega), hd, List.take_of_length_le (by omega)]
      rw [hsl2, ok_bind, copyTo_append _ _ ((s.take N).drop ((us.map (· ++ r)).flatten).length) _ (by rw [List.length_drop, hml]; omega) rfl, htake, hND,
        List.drop_drop, hw']

/-- C164: a replacement of the pattern's length may be written over the text. -/
theorem C164_replace_same_equal (p r s : List α) (hp : p ≠ []) (hr : r.length = p.length) (hp31 : p.length < 2 ^ 31) (hs : s.length < 2 ^ 64) :
    replacePatternSh .same (.other p) (.other r) s = ok (replaceAll p r hp s) := by
  obtain ⟨us, w, h1, h2, _, _⟩ := deltaLoop_pieces p hp (s.length + 2) [] s [] (by omega)
  have hl : (replaceAll p r hp s).length = s.length := by
    conv => rhs; rw [h1]
    rw [h2 r, List.length_append, List.length_append, flat_size, flat_size, hr]
  rw [C164_replace_same_shorter p r s hp (by omega) hp31 hs _ _ rfl rfl, if_neg (by omega), hl, Nat.sub_self, Nat.sub_zero,
    List.take_of_length_le (by omega), List.drop_eq_nil_of_le (by rw [List.length_take]; omega), List.append_nil]

/-- C164 is false for `replace_pattern(s, p, r, s)` with a longer replacement: the call writes behind the string as soon as there is an occurrence. -/
theorem C164_replace_same_longer (p r s : List α) (hp : p ≠ []) (hr : p.length < r.length) (hr31 : r.length < 2 ^ 31) (hocc : p <:+: s)
    (hres : (replaceAll p r hp s).length < 2 ^ 64) : replacePatternSh .same (.other p) (.other r) s = ub := by
  obtain ⟨us, w, h1, h2, h4, h3⟩ := deltaLoop_pieces p hp (s.length + 2) [] s [] (by omega)
  simp only [List.nil_append, List.length_nil] at h3
  have hus : us ≠ [] := by
    rintro rfl
    have e : deltaLoop s p (s.length + 2) 0 [] = ok [] := by simpa [posOf] using h3
    have hf : findGo p s 0 = none := by
      unfold deltaLoop at e
      have hfind : find s p 0 = findGo p s 0 := by simp [find]
      rw [hfind] at e
      cases hq : findGo p s 0 with
      | none => rfl
      | some q =>
        obtain ⟨u, v, e1, _, _, e4⟩ := findGo_some_pieces p hp s 0 q hq
        rw [e4] at h4
        obtain ⟨us', w', _, _, g, _⟩ := deltaLoop_pieces p hp (v.length + 1) [] v [] (by omega)
        rw [g] at h4
        simp at h4
    have hno : ∀ (t : List α) (i : Nat), findGo p t i = none → ¬ p <:+: t := by
      intro t
      induction t with
      | nil => intro i _ hh; exact hp (List.infix_nil.mp hh)
      | cons a t ih =>
        intro i hh
        unfold findGo at hh
        split at hh
        · cases hh
        · rename_i hpre
          rw [List.isPrefixOf_iff_prefix] at hpre
          rw [List.infix_cons_iff]
          rintro (hx | hx)
          · exact hpre hx
          · exact ih _ hh hx
    exact hno s 0 hf hocc
  have hne : posOf p 0 us ≠ [] := by intro e; have := congrArg List.length e; simp at this; exact hus this
  have hpos : 0 < us.length := List.length_pos_iff.mpr hus
  have hsl : s.length = (us.flatten).length + us.length * p.length + w.length := by
    conv => lhs; rw [h1]
    rw [List.length_append, flat_size]
  have hrl : (replaceAll p r hp s).length = (us.flatten).length + us.length * r.length + w.length := by
    rw [h2 r, List.length_append, flat_size]
  have hmul : us.length * p.length < us.length * r.length := Nat.mul_lt_mul_of_pos_left hr hpos
  unfold replacePatternSh
  simp only [Src.now_same, Src.now_other]
  rw [if_neg (by rintro (h | h); exact hp h; rw [h] at hr; omega), h3, ok_bind, if_neg hne,
    same_size p r s w hp us (by omega) hr31 h1 (h2 r) hres]
  have hml : (resize default s (replaceAll p r hp s).length).length = (replaceAll p r hp s).length := resize_length _ _ _
  have hflat : ((us.map (· ++ p)).flatten).length = (us.flatten).length + us.length * p.length := flat_size p us
  have hflatr : ((us.map (· ++ r)).flatten).length = (us.flatten).length + us.length * r.length := flat_size r us
  simp only [hml]
  rcases patCopySh_positions p r us 0 0 (resize default s (replaceAll p r hp s).length) with h | ⟨n', hl, h⟩
  · rw [h]; rfl
  · rw [h, ok_bind]
    simp only [Nat.zero_add]
    rw [if_pos (by omega), if_neg (by omega), slice, if_pos (by omega), ok_bind, copyTo, if_neg]
    rw [List.length_take, List.length_drop]
    omega

/-- C164 is false for the replacement: written over itself it is changed before its last use. -/
theorem C164_replacement_same : replacePatternSh (.other "ax".toList) (.other "x".toList) .same "bb".toList = ok "aab".toList ∧
    replacePattern "ax".toList "x".toList "bb".toList "bb".toList = ok "abb".toList := by decide

end

-- "a-b-cdef" loses its dashes in place: the last two characters stay; "a-b-" leaves the string
example : removePatternSh .same (.other "-".toList) "a-b-cdef".toList = ok "abcdcd".toList := by decide
example : removePatternSh .same (.other "-".toList) "a-b-".toList = ub := by decide
example : replacePatternSh .same (.other "-".toList) (.other "+".toList) "a-b-".toList = ok "a+b+".toList := by decide
example : replacePatternSh .same (.other "-".toList) (.other "::".toList) "a-b".toList = ub := by decide
example : pieces "-".toList (by decide) "a-b-cd".toList = ["a".toList, "b".toList, "cd".toList] := by
  simp [pieces]

end Strtk.Strings

namespace Strtk.Join
open Mem

variable {α β : Type}

/-! ## Appending to the string that is read -/

/-- Loop 11436-11439, with `str` read at each turn. -/
def appendLoopSh (s : Src α) : Nat → List α → List α
  | 0, out => out
  | n + 1, out => appendLoopSh s n (out ++ s.now out)

/-- `replicate(n, str, output)` (11430-11440), `str` being `output` or not. -/
def replicateSh (n : Nat) (s : Src α) (out : List α) : List α := if n = 0 then out else appendLoopSh s n out

/-- `join(output, delimiter, begin, end)` (11102-11116), the delimiter being `output` or not. -/
def joinSh (txt : β → List α) (delim : Src α) : List α → List β → List α
  | out, [] => out
  | out, a :: t =>
    let out := out ++ txt a
    match t with
    | [] => out
    | b :: t => joinSh txt delim (out ++ delim.now out) (b :: t)

/-- `bracketize(output, pre, post, begin, end)` (11463-11482), the brackets being `output` or not; each element is put together in a string of its own first. -/
def bracketizeSh (txt : β → List α) (pre post : Src α) : List α → List β → List α
  | out, [] => out
  | out, a :: t => bracketizeSh txt pre post (out ++ (pre.now out ++ txt a ++ post.now out)) t

/-- C164: with inputs of their own the calls do what C61 says. -/
theorem C164_append_separate (n : Nat) (s d pre post out : List α) (txt : β → List α) (xs : List β) :
    replicateSh n (.other s) out = replicate n s out ∧ joinSh txt (.other d) out xs = join txt d out xs ∧
      bracketizeSh txt (.other pre) (.other post) out xs = bracketize txt pre post out xs := by
  refine ⟨?_, ?_, ?_⟩
  · unfold replicateSh replicate
    have : ∀ n out, appendLoopSh (.other s) n out = appendLoop s n out := by
      intro n
      induction n with
      | zero => intro out; rfl
      | succ n ih => intro out; rw [appendLoopSh, appendLoop, Src.now_other, ih]
    rw [this]
  · induction xs generalizing out with
    | nil => rw [joinSh, join]
    | cons a t ih =>
      cases t with
      | nil => rw [joinSh, join]
      | cons b t => rw [joinSh, join]; simp only [Src.now_other]; exact ih _
  · induction xs generalizing out with
    | nil => rw [bracketizeSh, bracketize]
    | cons a t ih => rw [bracketizeSh, bracketize, Src.now_other, Src.now_other]; exact ih _

/-- C164 is false for `replicate(n, s, s)`: the string grows to `2 ^ n` copies, where `n` further ones were asked for. -/
theorem C164_replicate_same (n : Nat) (s : List α) : replicateSh n .same s = (List.replicate (2 ^ n) s).flatten := by
  have key : ∀ n (s : List α), appendLoopSh .same n s = (List.replicate (2 ^ n) s).flatten := by
    intro n
    induction n with
    | zero => intro s; simp [appendLoopSh]
    | succ n ih =>
      intro s
      have hd : ∀ k, (List.replicate k (s ++ s)).flatten = (List.replicate (2 * k) s).flatten := by
        intro k
        induction k with
        | zero => rfl
        | succ k ihk => rw [List.replicate_succ, show 2 * (k + 1) = 2 * k + 1 + 1 by omega, List.replicate_succ, List.replicate_succ]; simp [ihk]
      rw [appendLoopSh, Src.now_same, ih, hd, Nat.pow_succ, Nat.mul_comm]
  unfold replicateSh
  split
  · rename_i h; subst h; simp
  · exact key n s

/-- C164: `replicate(n, s, s)` gives the `n + 1` copies that `replicate_inplace` gives exactly when `n ≤ 1` or `s` is empty. -/
theorem C164_replicate_same_right (n : Nat) (s : List α) :
    replicateSh n .same s = replicateInplace n s ↔ n ≤ 1 ∨ s = [] := by
  have hin : replicateInplace n s = (List.replicate (n + 1) s).flatten := by
    have : ∀ n (out : List α), appendLoop s n out = out ++ (List.replicate n s).flatten := by
      intro n
      induction n with
      | zero => intro out; simp [appendLoop]
      | succ n ih => intro out; rw [appendLoop, ih, List.replicate_succ]; simp
    rw [replicateInplace, this, List.replicate_succ, List.flatten_cons]
  rw [C164_replicate_same, hin]
  constructor
  · intro h
    by_cases hn : n ≤ 1
    · exact .inl hn
    right
    have hl := congrArg List.length h
    simp only [List.length_flatten, List.map_replicate, List.sum_replicate_nat] at hl
    have h2 : n + 1 < 2 ^ n := by
      have : ∀ m, m + 3 < 2 ^ (m + 2) := by
        intro m
        induction m with
        | zero => decide
        | succ m ih => rw [show m + 1 + 2 = (m + 2) + 1 by omega, Nat.pow_succ]; omega
      have := this (n - 2)
      rw [show n - 2 + 2 = n by omega] at this
      omega
    cases s with
    | nil => rfl
    | cons a s =>
      exfalso
      have := Nat.mul_lt_mul_of_pos_right h2 (show 0 < (a :: s).length by simp)
      omega
  · rintro (h | rfl)
    · have : n = 0 ∨ n = 1 := by omega
      rcases this with rfl | rfl <;> rfl
    · simp

/-- C164 is false for a delimiter that is the output of `join`: each delimiter is everything written so far. -/
theorem C164_join_same (txt : β → List α) (out : List α) (x : β) (xs : List β) :
    joinSh txt .same out (x :: xs) = xs.foldl (fun r y => r ++ r ++ txt y) (out ++ txt x) := by
  induction xs generalizing out x with
  | nil => rw [joinSh]; rfl
  | cons y ys ih => rw [joinSh]; simp only [Src.now_same]; rw [ih]; rfl

/-- C164: with two elements the delimiter read is the output with the first element, so the result is right only for an empty first element. -/
theorem C164_join_same_two (txt : β → List α) (out : List α) (x y : β) :
    joinSh txt .same out [x, y] = join txt out out [x, y] ↔ txt x = [] := by
  rw [C164_join_same]
  simp only [List.foldl_cons, List.foldl_nil, join]
  constructor
  · intro h
    have := congrArg List.length h
    simp only [List.length_append] at this
    exact List.length_eq_zero_iff.mp (by omega)
  · intro h; simp [h]

/-- C164 is false for brackets that are the output of `bracketize`: they are everything written so far. -/
theorem C164_bracketize_same (txt : β → List α) (post out : List α) (xs : List β) :
    bracketizeSh txt .same (.other post) out xs = xs.foldl (fun r y => r ++ (r ++ txt y ++ post)) out ∧
      bracketizeSh txt (.other post) .same out xs = xs.foldl (fun r y => r ++ (post ++ txt y ++ r)) out ∧
      bracketizeSh txt .same .same out xs = xs.foldl (fun r y => r ++ (r ++ txt y ++ r)) out := by
  refine ⟨?_, ?_, ?_⟩ <;>
  · induction xs generalizing out with
    | nil => rw [bracketizeSh]; rfl
    | cons a t ih => rw [bracketizeSh]; simp only [Src.now_same, Src.now_other]; rw [ih]; rfl

example : replicateSh 3 .same "ab".toList = "abababababababab".toList := by decide
example : joinSh id .same "-".toList ["a".toList, "b".toList, "c".toList] = "-a-ab-a-abc".toList := by decide
example : join id "-".toList "-".toList ["a".toList, "b".toList, "c".toList] = "-a-b-c".toList := by decide
example : bracketizeSh id .same (.other ")".toList) "(".toList ["a".toList, "b".toList] = "((a)((a)b)".toList := by decide

example : Strings.replacePatternSh .same (.other "x".toList) (.other "yy".toList) "a-b".toList = .ok "a-b".toList := Strings.C164_replace_same_no_occurrence _ _ _ (by decide)

end Strtk.Join
