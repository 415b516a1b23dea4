import Verif.Strings.Props

/-! # replace_pattern on iterators (strtk.hpp 1762-1867) -/

namespace Strtk.Strings
open Outcome Mem

variable {α : Type} [DecidableEq α]

/-- The comparison loops (1806-1813, 1839-1848): `found`, `temp_s_itr` (before it is set back on 1844) and `p_itr` afterwards. -/
def matchLoop (s p : List α) : Nat → Nat → Nat → Outcome (Bool × Nat × Nat)
  | 0, _, _ => diverge
  | fuel + 1, ti, pi =>
    if pi ≠ p.length ∧ ti ≠ s.length then do
      let a ← deref s ti
      let b ← deref p pi
      if a ≠ b then ok (false, ti + 1, pi + 1) else matchLoop s p fuel (ti + 1) (pi + 1)
    else ok (true, ti, pi)

/-- The counting loop (1795-1823). -/
def countLoop (s p : List α) : Nat → Nat → Nat → Outcome Nat
  | 0, _, _ => diverge
  | fuel + 1, si, count =>
    if si ≠ s.length then do
      let (found, ti, pi) ← matchLoop s p (p.length + 1) si 0
      if found ∧ pi = p.length then countLoop s p fuel ti (count + 1) else countLoop s p fuel (si + 1) count
    else ok count

/-- The copying loop (1833-1862): `out` collects the pieces handed to `std::copy` (1855, 1857). `diff` is an `int`; a negative one gives `std::copy` a reversed range. Result:
`s_itr` and the pieces. -/
def copyLoop (s p r : List α) : Nat → Nat → Nat → Nat → Nat → List (List α) → Outcome (Nat × List (List α))
  | 0, _, _, _, _, _ => diverge
  | fuel + 1, ti, si, prev, count, out =>
    if 0 < count then do
      let (found, ti', pi) ← matchLoop s p (p.length + 1) ti 0
      if found = false then copyLoop s p r fuel (ti + 1) si prev count out
      else if pi ≠ p.length then copyLoop s p r fuel ti' si prev count out
      else do
        let diff := toInt32 (ti' - p.length - prev)
        if diff < 0 then ub
        else do
          let piece ← slice s si diff.toNat
          copyLoop s p r fuel ti' ti' ti' (count - 1) (out ++ [piece, r])
    else ok (si, out)

/-- `replace_pattern(s_begin, s_end, p_begin, p_end, r_begin, r_end, out)` (1762-1867): the pieces copied to `out`, in order (1783, 1855, 1857, 1864), and the
size returned. -/
def replacePieces (s p r : List α) : Outcome (List (List α) × Nat) :=
  if p.length = 0 ∨ (p.length = r.length ∧ p = r) then ok ([s], s.length)
  else do
    let count ← countLoop s p (s.length + 1) 0 0
    let inc := toInt32 ((r.length + (2 ^ 64 - p.length)) % 2 ^ 64)
    let (si, out) ← copyLoop s p r (s.length + 2) 0 0 0 count []
    let piece ← slice s si (s.length - si)
    ok (out ++ [piece], ((s.length : Int) + count * inc).toNat % 2 ^ 64)

/-- With an appending output iterator (`std::back_inserter`) `std::copy` appends each piece. -/
def replacePatternIter (s p r : List α) : Outcome (List α × Nat) := do
  let (pieces, n) ← replacePieces s p r
  ok (pieces.flatten, n)

/-- With a plain iterator or pointer `out` keeps its place, because the iterator `std::copy` returns is dropped (1783, 1855, 1857, 1864): each piece is written over
the one before. The buffer afterwards. -/
def replacePatternPtr (s p r buf : List α) : Outcome (List α × Nat) := do
  let (pieces, n) ← replacePieces s p r
  ok (pieces.foldl (fun buf w => w ++ buf.drop w.length) buf, n)

/-! ## Proofs -/

theorem matchLoop_spec (ppre q pre w : List α) : ∀ fuel, q.length < fuel →
    (q <+: w → matchLoop (pre ++ w) (ppre ++ q) fuel pre.length ppre.length = ok (true, pre.length + q.length, ppre.length + q.length)) ∧
    (¬ q <+: w → (∃ t i, matchLoop (pre ++ w) (ppre ++ q) fuel pre.length ppre.length = ok (false, t, i)) ∨
      (w.length < q.length ∧ ∃ t i, matchLoop (pre ++ w) (ppre ++ q) fuel pre.length ppre.length = ok (true, t, i) ∧ i ≠ (ppre ++ q).length)) := by
  induction q generalizing ppre pre w with
  | nil =>
    intro fuel hf
    obtain ⟨fuel, rfl⟩ : ∃ f, fuel = f + 1 := ⟨fuel - 1, by omega⟩
    refine ⟨fun _ => ?_, fun h => absurd List.nil_prefix h⟩
    unfold matchLoop
    rw [if_neg (by simp)]
    simp
  | cons b q ih =>
    intro fuel hf
    obtain ⟨fuel, rfl⟩ : ∃ f, fuel = f + 1 := ⟨fuel - 1, by omega⟩
    unfold matchLoop
    cases w with
    | nil =>
      rw [if_neg (by simp)]
      refine ⟨fun h => by simp at h, fun _ => Or.inr ⟨by simp, _, _, rfl, by simp⟩⟩
    | cons a w =>
      rw [if_pos (by simp), deref_append_cons, ok_bind, deref_append_cons, ok_bind]
      by_cases hab : a = b
      · subst hab
        rw [if_neg (by simp)]
        have h := ih (ppre ++ [a]) (pre ++ [a]) w fuel (by simp at hf; omega)
        simp only [List.append_assoc, List.singleton_append, List.length_append, List.length_cons, List.length_nil, Nat.zero_add] at h ⊢
        simp only [List.cons_prefix_cons, true_and]
        constructor
        · intro hq
          rw [h.1 hq]
          simp only [ok.injEq, Prod.mk.injEq, true_and]
          omega
        · intro hq
          rcases h.2 hq with h | ⟨h1, h2⟩
          · exact Or.inl h
          · exact Or.inr ⟨by omega, h2⟩
      · rw [if_pos hab]
        refine ⟨fun h => ?_, fun _ => Or.inl ⟨_, _, rfl⟩⟩
        rw [List.cons_prefix_cons] at h
        exact absurd h.1.symm hab

/-- The number of replacements `replaceAll` makes. -/
def occs (p : List α) (hp : p ≠ []) (s : List α) : Nat :=
  match s with
  | [] => 0
  | a :: t => if p <+: a :: t then occs p hp ((a :: t).drop p.length) + 1 else occs p hp t
termination_by s.length
decreasing_by
  · have : 0 < p.length := List.length_pos_iff.mpr hp
    simp; omega
  · simp

theorem occs_zero (p : List α) (hp : p ≠ []) (r : List α) : ∀ (n : Nat) (s : List α), s.length ≤ n → occs p hp s = 0 → replaceAll p r hp s = s := by
  intro n
  induction n with
  | zero => intro s h _; rw [List.length_eq_zero_iff.mp (by omega : s.length = 0), replaceAll]
  | succ n ih =>
    intro s h h0
    cases s with
    | nil => rw [replaceAll]
    | cons a t =>
      rw [occs] at h0
      rw [replaceAll]
      by_cases hpf : p <+: a :: t
      · rw [if_pos hpf] at h0; omega
      · rw [if_neg hpf] at h0 ⊢
        rw [ih t (by simp at h; omega) h0]

theorem occs_length (p : List α) (hp : p ≠ []) : ∀ (n : Nat) (s : List α), s.length ≤ n → 0 < occs p hp s → p.length ≤ s.length := by
  intro n
  induction n with
  | zero => intro s h h0; rw [List.length_eq_zero_iff.mp (by omega : s.length = 0), occs] at h0; omega
  | succ n ih =>
    intro s h h0
    cases s with
    | nil => rw [occs] at h0; omega
    | cons a t =>
      rw [occs] at h0
      by_cases hpf : p <+: a :: t
      · exact hpf.length_le
      · rw [if_neg hpf] at h0
        have := ih t (by simp at h; omega) h0
        simp only [List.length_cons]; omega

theorem replaceAll_length (p : List α) (hp : p ≠ []) (r : List α) : ∀ (n : Nat) (s : List α), s.length ≤ n →
    (replaceAll p r hp s).length + occs p hp s * p.length = s.length + occs p hp s * r.length := by
  intro n
  induction n with
  | zero => intro s h; rw [List.length_eq_zero_iff.mp (by omega : s.length = 0), replaceAll, occs]; simp
  | succ n ih =>
    intro s h
    cases s with
    | nil => rw [replaceAll, occs]; simp
    | cons a t =>
      rw [occs, replaceAll]
      have hp0 : 0 < p.length := List.length_pos_iff.mpr hp
      by_cases hpf : p <+: a :: t
      · rw [if_pos hpf, if_pos hpf]
        have hle := hpf.length_le
        have hd : ((a :: t).drop p.length).length = (a :: t).length - p.length := List.length_drop
        have := ih ((a :: t).drop p.length) (by rw [hd]; simp at h ⊢; omega)
        rw [hd] at this
        rw [List.length_append, Nat.add_mul, Nat.add_mul]
        omega
      · rw [if_neg hpf, if_neg hpf]
        have := ih t (by simp at h; omega)
        simp only [List.length_cons]
        omega

theorem matchLoop_at (p pre w : List α) (hp : p ≠ []) :
    (p <+: w → matchLoop (pre ++ w) p (p.length + 1) pre.length 0 = ok (true, pre.length + p.length, p.length)) ∧
    (¬ p <+: w → (∃ t i, matchLoop (pre ++ w) p (p.length + 1) pre.length 0 = ok (false, t, i)) ∨
      (w.length < p.length ∧ ∃ t i, matchLoop (pre ++ w) p (p.length + 1) pre.length 0 = ok (true, t, i) ∧ i ≠ p.length)) := by
  have := matchLoop_spec [] p pre w (p.length + 1) (by omega)
  simpa using this

theorem countLoop_spec (p : List α) (hp : p ≠ []) : ∀ (fuel : Nat) (pre w : List α) (count : Nat), w.length < fuel →
    countLoop (pre ++ w) p fuel pre.length count = ok (count + occs p hp w) := by
  intro fuel
  induction fuel with
  | zero => intro pre w count h; omega
  | succ fuel ih =>
    intro pre w count h
    unfold countLoop
    cases w with
    | nil => rw [if_neg (by simp), occs]; simp
    | cons a t =>
      rw [if_pos (by simp)]
      obtain ⟨h1, h2⟩ := matchLoop_at p pre (a :: t) hp
      have hp0 : 0 < p.length := List.length_pos_iff.mpr hp
      rw [occs]
      by_cases hpf : p <+: a :: t
      · rw [h1 hpf, ok_bind]
        simp only [and_self, if_true]
        obtain ⟨u, hu⟩ := hpf
        have hd : (a :: t).drop p.length = u := by rw [← hu]; simp
        rw [if_pos ⟨u, hu⟩, hd, ← hu, ← List.append_assoc, ← List.length_append, ih]
        · congr 1; omega
        · have := congrArg List.length hu
          simp only [List.length_append, List.length_cons] at this h
          omega
      · rw [if_neg hpf]
        have hstep : countLoop (pre ++ a :: t) p fuel (pre.length + 1) count = ok (count + occs p hp t) := by
          have := ih (pre ++ [a]) t count (by simp at h; omega)
          simpa using this
        rcases h2 hpf with ⟨x, i, h2⟩ | ⟨_, x, i, h2, h3⟩
        · rw [h2, ok_bind]; simp only [Bool.false_eq_true, false_and, if_false]; exact hstep
        · rw [h2, ok_bind]
          show (if true = true ∧ i = p.length then _ else _) = _
          rw [if_neg (by simp [h3])]; exact hstep

theorem copyLoop_spec (p r : List α) (hp : p ≠ []) : ∀ (fuel : Nat) (a b w : List α) (out : List (List α)), (a ++ b ++ w).length < 2 ^ 31 → w.length + 1 < fuel →
    ∃ a' b', a ++ b ++ w = a' ++ b' ∧
      ∃ o, copyLoop (a ++ b ++ w) p r fuel (a ++ b).length a.length a.length (occs p hp w) out = ok (a'.length, o) ∧
        o.flatten ++ b' = out.flatten ++ b ++ replaceAll p r hp w := by
  intro fuel
  induction fuel with
  | zero => intro a b w out _ h; omega
  | succ fuel ih =>
    intro a b w out hlen h
    unfold copyLoop
    by_cases h0 : 0 < occs p hp w
    · rw [if_pos h0]
      have hlp := occs_length p hp _ w (Nat.le_refl _) h0
      have hp0 : 0 < p.length := List.length_pos_iff.mpr hp
      cases w with
      | nil => simp at hlp; exact absurd hlp hp
      | cons c t =>
        obtain ⟨h1, h2⟩ := matchLoop_at p (a ++ b) (c :: t) hp
        by_cases hpf : p <+: c :: t
        · obtain ⟨u, hu⟩ := id hpf
          have hd : (c :: t).drop p.length = u := by rw [← hu]; simp
          have hocc : occs p hp (c :: t) = occs p hp u + 1 := by rw [occs, if_pos hpf, hd]
          have hrep : replaceAll p r hp (c :: t) = r ++ replaceAll p r hp u := by rw [replaceAll, if_pos hpf, hd]
          have hul : p.length + u.length = t.length + 1 := by
            have := congrArg List.length hu
            simpa using this
          rw [h1 hpf, ok_bind]
          simp only [Bool.true_eq_false, if_false, ne_eq, not_true_eq_false]
          have hb31 : b.length < 2 ^ 31 := by simp only [List.length_append] at hlen; omega
          have hdiff : toInt32 ((a ++ b).length + p.length - p.length - a.length) = (b.length : Int) := by
            have : (a ++ b).length + p.length - p.length - a.length = b.length := by simp
            rw [this, toInt32_small _ hb31]
          rw [hdiff, if_neg (by omega), Int.toNat_natCast, Mem.slice_append, ok_bind, hocc, Nat.add_sub_cancel]
          have e1 : a ++ b ++ c :: t = (a ++ b ++ p) ++ [] ++ u := by rw [← hu]; simp
          obtain ⟨a', b', g1, o, g2, g3⟩ := ih (a ++ b ++ p) [] u (out ++ [b, r]) (by rw [← e1]; exact hlen) (by simp at h; omega)
          rw [← e1] at g1 g2
          refine ⟨a', b', g1, o, ?_, ?_⟩
          · rw [List.append_nil] at g2
            have : (a ++ b).length + p.length = (a ++ b ++ p).length := by rw [List.length_append (as := a ++ b)]
            rw [this]
            exact g2
          · rw [g3, hrep]; simp
        · rcases h2 hpf with ⟨x, i, h2⟩ | ⟨h3, _⟩
          · have hocc : occs p hp (c :: t) = occs p hp t := by rw [occs, if_neg hpf]
            have hrep : replaceAll p r hp (c :: t) = c :: replaceAll p r hp t := by rw [replaceAll, if_neg hpf]
            rw [h2, ok_bind]
            simp only [if_true]
            have e1 : a ++ b ++ c :: t = a ++ (b ++ [c]) ++ t := by simp
            obtain ⟨a', b', g1, o, g2, g3⟩ := ih a (b ++ [c]) t out (by rw [← e1]; exact hlen) (by simp at h; omega)
            rw [← e1] at g1 g2
            refine ⟨a', b', g1, o, ?_, ?_⟩
            · have : (a ++ (b ++ [c])).length = (a ++ b).length + 1 := by simp; omega
              rw [this] at g2
              rw [hocc]
              exact g2
            · rw [g3, hrep]; simp
          · omega
    · rw [if_neg h0]
      refine ⟨a, b ++ w, by simp, out, rfl, ?_⟩
      rw [occs_zero p hp r _ w (Nat.le_refl _) (by omega)]
      simp

/-- `replace_pattern` on iterators: the leftmost non-overlapping occurrences are replaced, the length of what was written is returned, for texts
below 2 GB and an appending output iterator. -/
theorem C13_iterators (s p r : List α) (hp : p ≠ []) (hs : s.length < 2 ^ 31) (hp31 : p.length < 2 ^ 31) (hr31 : r.length < 2 ^ 31)
    (hres : (replaceAll p r hp s).length < 2 ^ 64) :
    replacePatternIter s p r = ok (replaceAll p r hp s, (replaceAll p r hp s).length) := by
  unfold replacePatternIter replacePieces
  have hp0 : 0 < p.length := List.length_pos_iff.mpr hp
  have hsame : ∀ (n : Nat) (s : List α), s.length ≤ n → replaceAll p p hp s = s := by
    intro n
    induction n with
    | zero => intro s h; rw [List.length_eq_zero_iff.mp (by omega : s.length = 0), replaceAll]
    | succ n ih =>
      intro s h
      cases s with
      | nil => rw [replaceAll]
      | cons a t =>
        rw [replaceAll]
        by_cases hpf : p <+: a :: t
        · rw [if_pos hpf, ih _ (by rw [List.length_drop]; simp at h ⊢; omega)]
          obtain ⟨u, hu⟩ := hpf
          rw [← hu]; simp
        · rw [if_neg hpf, ih t (by simp at h; omega)]
  by_cases hpr : p = r
  · subst hpr
    rw [if_pos (Or.inr ⟨rfl, rfl⟩), hsame _ s (Nat.le_refl _)]
    simp
  · rw [if_neg (fun h => h.elim (by omega) (fun h => hpr h.2))]
    have hc := countLoop_spec p hp (s.length + 1) [] s 0 (by omega)
    rw [List.nil_append, List.length_nil, Nat.zero_add] at hc
    obtain ⟨a', b', g1, o, g2, g3⟩ := copyLoop_spec p r hp (s.length + 2) [] [] s [] (by simpa using hs) (by omega)
    simp only [List.nil_append, List.length_nil, List.flatten_nil] at g1 g2 g3
    rw [hc, ok_bind, g2, ok_bind]
    simp only
    have hsl : slice s a'.length (s.length - a'.length) = ok b' := by
      have := Mem.slice_append a' b' []
      rw [List.append_nil, ← g1] at this
      have e : s.length - a'.length = b'.length := by rw [g1]; simp
      rw [e]; exact this
    rw [hsl, ok_bind, ok_bind]
    simp only [List.flatten_append, List.flatten_cons, List.flatten_nil, List.append_nil]
    rw [g3]
    have hl := replaceAll_length p hp r _ s (Nat.le_refl _)
    have hinc : toInt32 ((r.length + (2 ^ 64 - p.length)) % 2 ^ 64) = (r.length : Int) - p.length := by
      unfold toInt32
      have : (BitVec.ofNat 32 ((r.length + (2 ^ 64 - p.length)) % 2 ^ 64)).toInt = (((r.length : Int) - p.length)).bmod (2 ^ 32) := by
        rw [BitVec.toInt_ofNat']
        have e : (((r.length + (2 ^ 64 - p.length)) % 2 ^ 64 : Nat) : Int) = ((r.length : Int) - p.length) % 2 ^ 64 := by omega
        rw [e]
        rw [Int.bmod_def, Int.bmod_def]
        have : ((r.length : Int) - p.length) % 2 ^ 64 % ((2 ^ 32 : Nat) : Int) = ((r.length : Int) - p.length) % ((2 ^ 32 : Nat) : Int) := by omega
        rw [this]
      rw [this, Int.bmod_eq_of_le] <;> omega
    rw [hinc]
    have : ((s.length : Int) + (occs p hp s : Nat) * ((r.length : Int) - p.length)).toNat = (replaceAll p r hp s).length := by
      rw [Int.mul_sub]
      have e1 : ((occs p hp s * p.length : Nat) : Int) = (occs p hp s : Int) * p.length := by push_cast; rfl
      have e2 : ((occs p hp s * r.length : Nat) : Int) = (occs p hp s : Int) * r.length := by push_cast; rfl
      omega
    rw [this, Nat.mod_eq_of_lt hres]

/-- The empty pattern changes nothing. -/
theorem C13_iterators_empty (s r : List α) : replacePatternIter s [] r = ok (s, s.length) := by
  simp [replacePatternIter, replacePieces]

/-- Through a plain output iterator the pieces overwrite each other: replacing "b" by "X" in "abc" into a buffer of five dots. -/
theorem C13_plain_iterator : replacePatternIter "abc".toList "b".toList "X".toList = ok ("aXc".toList, 3) ∧
    replacePatternPtr "abc".toList "b".toList "X".toList ".....".toList = ok ("c....".toList, 3) := by decide

example : replacePatternIter "aXXbXXX".toList "XX".toList "-+-".toList = ok ("a-+-b-+-X".toList, 9) := by decide

end Strtk.Strings
