import Verif.Real.Decimal

/-!
# `decimal_sink` on a token inside a larger text (C102)

`Decimal.lean` treats an iterator pair as a list, so that leaving the token is `ub`.  Tokens usually lie inside a larger text.  Here the iterators are
positions in that text, and only leaving the text is `ub`: this shows what the sink does with the characters behind its token.
-/

namespace Strtk.Real
open Outcome Mem Number

/-- `while ((end != itr) && ('0' == (*itr))) ++itr;` (15184); the number counts `end - itr`. -/
def skipZerosAt (mem : List Byte) : Nat → Nat → Outcome Nat
  | 0, i => ok i
  | n + 1, i => do
    let c ← deref mem i
    if c = 48 then skipZerosAt mem n (i + 1) else ok i

/-- 15192-15203; the number counts `end_n - itr`. -/
def decIntAt {R : Type} (o : Ops R) (mem : List Byte) : Nat → Nat → R → Outcome (Option (R × Nat))
  | 0, i, d => ok (some (d, i))
  | n + 1, i, d => do
    let c ← deref mem i
    if digitOf c < 10 then decIntAt o mem n (i + 1) (o.step d (digitOf c))
    else if c = 46 then ok (some (d, i))
    else ok none

/-- 15212-15221. -/
def decFracAt {R : Type} (o : Ops R) (mem : List Byte) : Nat → Nat → R → Outcome (Option R)
  | 0, _, f => ok (some f)
  | n + 1, i, f => do
    let c ← deref mem i
    if digitOf c < 10 then decFracAt o mem n (i + 1) (o.step f (digitOf c)) else ok none

/-- `std::distance(itr, end)` converted to `size_t` (15207): behind the end it is a huge number. -/
def distU (i e : Nat) : Nat := if i ≤ e then e - i else 2 ^ 64 - (i - e)

/-- 15205-15230, `i` at the `++itr`.  Iterators may be moved up to the end of the text. -/
def decFracTail {R : Type} (o : Ops R) (minExp : Int) (fracSize : Nat) (negative : Bool) (mem : List Byte) (d : R) (i e : Nat) : Outcome (Option R) :=
  if mem.length < i + 1 + min fracSize (distU (i + 1) e) then ub else do
    match ← decFracAt o mem (min fracSize (distU (i + 1) e)) (i + 1) o.zero with
    | none => ok none
    | some f =>
      if min fracSize (distU (i + 1) e) ≠ 0 then do
        let f ← pow10 o minExp f (negDistance (min fracSize (distU (i + 1) e)))
        ok (some (if negative then o.neg (o.add d f) else o.add d f))
      else ok (some (if negative then o.neg d else d))

/-- 15184-15230. -/
def decBodyAt {R : Type} (o : Ops R) (minExp : Int) (intSize fracSize : Nat) (negative : Bool) (mem : List Byte) (b e : Nat) : Outcome (Option R) := do
  let i ← skipZerosAt mem (e - b) b
  match ← decIntAt o mem (min (e - i) intSize) i o.zero with
  | none => ok none
  | some (d, i) => decFracTail o minExp fracSize negative mem d i e

/-- `decimal_sink::operator()(itr, end)` (15168-15231) for the token `mem[b..e)`. -/
def decimalSinkAt {R : Type} (o : Ops R) (minExp : Int) (intSize fracSize : Nat) (mem : List Byte) (b e : Nat) : Outcome (Option R) := do
  let c ← deref mem b
  if c = 45 ∨ c = 43 then
    if e = b + 1 then ok none else decBodyAt o minExp intSize fracSize (c = 45) mem (b + 1) e
  else decBodyAt o minExp intSize fracSize false mem b e

/-! ## Both models agree inside the token -/

theorem skipZerosAt_spec (s : List Byte) : ∀ (pre post : List Byte),
    ∃ zs, s = zs ++ skipZeros s ∧ skipZerosAt (pre ++ s ++ post) s.length pre.length = ok (pre.length + zs.length) := by
  induction s with
  | nil => intro pre post; exact ⟨[], rfl, rfl⟩
  | cons c s ih =>
    intro pre post
    have hd : deref (pre ++ c :: s ++ post) pre.length = ok c := by
      rw [List.append_assoc, List.cons_append, deref_append_cons]
    simp only [List.length_cons, skipZerosAt, skipZeros]
    rw [hd, ok_bind]
    by_cases h : c = 48
    · obtain ⟨zs, h1, h2⟩ := ih (pre ++ [c]) post
      refine ⟨c :: zs, ?_, ?_⟩
      · rw [if_pos h, List.cons_append, ← h1]
      · rw [if_pos h]
        simp only [List.append_assoc, List.singleton_append, List.nil_append, List.length_append, List.length_singleton, List.cons_append] at h2 ⊢
        rw [h2, List.length_cons]; congr 1; omega
    · exact ⟨[], by rw [if_neg h]; rfl, by rw [if_neg h]; rfl⟩

theorem decIntAt_spec {R : Type} (o : Ops R) : ∀ (n : Nat) (s pre post : List Byte) (d : R), n ≤ s.length →
    (decIntLoop o n s d = ok none ∧ decIntAt o (pre ++ s ++ post) n pre.length d = ok none) ∨
    ∃ d' u v, s = u ++ v ∧ decIntLoop o n s d = ok (some (d', v)) ∧ decIntAt o (pre ++ s ++ post) n pre.length d = ok (some (d', pre.length + u.length)) := by
  intro n
  induction n with
  | zero => intro s pre post d _; exact Or.inr ⟨d, [], s, rfl, rfl, rfl⟩
  | succ n ih =>
    intro s pre post d h
    cases s with
    | nil => simp at h
    | cons c s =>
      have hd : deref (pre ++ c :: s ++ post) pre.length = ok c := by
        rw [List.append_assoc, List.cons_append, deref_append_cons]
      simp only [decIntAt, decIntLoop]
      rw [hd, ok_bind]
      by_cases h1 : digitOf c < 10
      · rw [if_pos h1, if_pos h1]
        have := ih s (pre ++ [c]) post (o.step d (digitOf c)) (by simpa using h)
        simp only [List.append_assoc, List.singleton_append, List.nil_append, List.length_append, List.length_singleton, List.cons_append] at this ⊢
        rcases this with ⟨h2, h3⟩ | ⟨d', u, v, h2, h3, h4⟩
        · exact Or.inl ⟨h2, h3⟩
        · refine Or.inr ⟨d', c :: u, v, by rw [h2]; rfl, h3, ?_⟩
          rw [h4, List.length_cons]; congr 3; omega
      · rw [if_neg h1, if_neg h1]
        by_cases h2 : c = 46
        · exact Or.inr ⟨d, [], c :: s, rfl, by rw [if_pos h2], by rw [if_pos h2]; rfl⟩
        · exact Or.inl ⟨by rw [if_neg h2], by rw [if_neg h2]⟩

theorem decFracAt_spec {R : Type} (o : Ops R) : ∀ (n : Nat) (s pre post : List Byte) (f : R), n ≤ s.length →
    decFracAt o (pre ++ s ++ post) n pre.length f = decFracLoop o n s f := by
  intro n
  induction n with
  | zero => intro s pre post f _; rfl
  | succ n ih =>
    intro s pre post f h
    cases s with
    | nil => simp at h
    | cons c s =>
      have hd : deref (pre ++ c :: s ++ post) pre.length = ok c := by
        rw [List.append_assoc, List.cons_append, deref_append_cons]
      simp only [decFracAt, decFracLoop]
      rw [hd, ok_bind]
      by_cases h1 : digitOf c < 10
      · rw [if_pos h1, if_pos h1]
        have := ih s (pre ++ [c]) post (o.step f (digitOf c)) (by simpa using h)
        simpa only [List.append_assoc, List.singleton_append, List.nil_append, List.length_append, List.length_singleton, List.cons_append] using this
      · rw [if_neg h1, if_neg h1]

/-- The part behind the loop: it depends on the `fs` characters behind the next one only. -/
theorem decFracTail_in {R : Type} (o : Ops R) (m : Int) (fs : Nat) (neg : Bool) (pre : List Byte) (c : Byte) (s post : List Byte) (d : R) :
    decFracTail o m fs neg (pre ++ (c :: s) ++ post) d pre.length (pre.length + (c :: s).length) = decFrac o m fs neg d s := by
  have hdist : distU (pre.length + 1) (pre.length + (c :: s).length) = s.length := by
    unfold distU; rw [if_pos (by simp), List.length_cons]; omega
  unfold decFracTail decFrac
  rw [hdist, if_neg (by simp; omega)]
  have := decFracAt_spec o (min fs s.length) s (pre ++ [c]) post o.zero (by omega)
  simp only [List.append_assoc, List.singleton_append, List.nil_append, List.length_append, List.length_singleton, List.cons_append] at this ⊢
  rw [this]
  rfl

theorem decFracTail_out {R : Type} (o : Ops R) (m : Int) (fs : Nat) (neg : Bool) (pre : List Byte) (c : Byte) (fd post : List Byte) (d : R)
    (hf : fd.length = fs) (hb : fs < 2 ^ 64) :
    decFracTail o m fs neg (pre ++ (c :: fd) ++ post) d pre.length pre.length = decFrac o m fs neg d fd := by
  have hdist : distU (pre.length + 1) pre.length = 2 ^ 64 - 1 := by
    unfold distU; rw [if_neg (by omega)]; omega
  have hm : min fs (2 ^ 64 - 1) = fs := by omega
  unfold decFracTail decFrac
  rw [hdist, hm, if_neg (by simp; omega), show min fs fd.length = fs by omega]
  have := decFracAt_spec o fs fd (pre ++ [c]) post o.zero (by omega)
  simp only [List.append_assoc, List.singleton_append, List.nil_append, List.length_append, List.length_singleton, List.cons_append] at this ⊢
  rw [this]
  rfl

theorem decBodyAt_in {R : Type} (o : Ops R) (m : Int) (is fs : Nat) (neg : Bool) (pre s post : List Byte) (r : Option R)
    (h : decBody o m is fs neg s = ok r) : decBodyAt o m is fs neg (pre ++ s ++ post) pre.length (pre.length + s.length) = ok r := by
  obtain ⟨zs, h1, h2⟩ := skipZerosAt_spec s pre post
  unfold decBodyAt
  unfold decBody at h
  rw [Nat.add_sub_cancel_left, h2, ok_bind]
  generalize hw : skipZeros s = w at *
  have he : pre.length + s.length - (pre.length + zs.length) = w.length := by rw [h1]; simp; omega
  have hl : pre ++ s ++ post = (pre ++ zs) ++ w ++ post := by rw [h1]; simp
  have hp : pre.length + zs.length = (pre ++ zs).length := by simp
  have hs : pre.length + s.length = (pre ++ zs).length + w.length := by rw [h1]; simp; omega
  rw [he, hl, hp, hs, Nat.min_comm] at *
  rcases decIntAt_spec o (min is w.length) w (pre ++ zs) post o.zero (by omega) with ⟨h3, h4⟩ | ⟨d', u, v, h3, h4, h5⟩
  · rw [h3, ok_bind] at h
    rw [h4, ok_bind]; exact h
  · rw [h4, ok_bind] at h
    rw [h5, ok_bind]
    cases v with
    | nil => cases h
    | cons c v =>
      simp only at h ⊢
      have := decFracTail_in o m fs neg (pre ++ zs ++ u) c v post d'
      rw [h] at this
      rw [← this, h3]
      simp only [List.append_assoc, List.length_append, List.length_cons]
      congr 1 <;> omega

/-- **C102**: whatever text surrounds the token, where the sink succeeds or refuses on the token alone it does the same inside the text. -/
theorem C102_in_text {R : Type} (o : Ops R) (m : Int) (is fs : Nat) (pre s post : List Byte) (r : Option R) (h : decimalSink o m is fs s = ok r) :
    decimalSinkAt o m is fs (pre ++ s ++ post) pre.length (pre.length + s.length) = ok r := by
  unfold decimalSink at h
  unfold decimalSinkAt
  cases s with
  | nil => cases h
  | cons c t =>
    have hd : deref (pre ++ c :: t ++ post) pre.length = ok c := by
      rw [List.append_assoc, List.cons_append, deref_append_cons]
    rw [hd, ok_bind]
    simp only at h
    by_cases hc : c = 45 ∨ c = 43
    · rw [if_pos hc] at h ⊢
      by_cases ht : t = []
      · subst ht; rw [if_pos rfl] at h; rw [if_pos (by simp)]; exact h
      · have := List.length_pos_iff.mpr ht
        rw [if_neg ht] at h
        rw [if_neg (by simp; omega)]
        have := decBodyAt_in o m is fs (decide (c = 45)) (pre ++ [c]) t post r h
        simp only [List.append_assoc, List.singleton_append, List.nil_append, List.length_append, List.length_singleton, List.cons_append, List.length_cons, List.length_nil] at this ⊢
        rw [← this]; congr 1; omega
    · rw [if_neg hc] at h ⊢
      exact decBodyAt_in o m is fs false pre (c :: t) post r h

/-! ## Behind the token -/

theorem decBodyAt_out {R : Type} (o : Ops R) (m : Int) (is fs : Nat) (neg : Bool) (pre ip : List Byte) (c : Byte) (fd post : List Byte)
    (hip : ∀ x ∈ ip, isDigit x) (hlen : (skipZeros ip).length ≤ is) (hf : fd.length = fs) (hb : fs < 2 ^ 64) :
    decBodyAt o m is fs neg (pre ++ ip ++ (c :: fd ++ post)) pre.length (pre.length + ip.length) = decBody o m is fs neg (ip ++ 46 :: fd) := by
  have hz : ∀ c ∈ skipZeros ip, isDigit c := (digits_skipZeros ip).mpr hip
  unfold decBody
  rw [skipZeros_append ip _ (point_stop _) hip, decIntLoop_point o _ _ is _ hz hlen, ok_bind]
  obtain ⟨zs, h1, h2⟩ := skipZerosAt_spec ip pre (c :: fd ++ post)
  unfold decBodyAt
  rw [Nat.add_sub_cancel_left, h2, ok_bind]
  generalize hw : skipZeros ip = w at *
  have he : pre.length + ip.length - (pre.length + zs.length) = w.length := by rw [h1]; simp; omega
  have hl : pre ++ ip ++ (c :: fd ++ post) = (pre ++ zs) ++ w ++ (c :: fd ++ post) := by rw [h1]; simp
  have hp : pre.length + zs.length = (pre ++ zs).length := by simp
  have hs : pre.length + ip.length = (pre ++ zs ++ w).length := by rw [h1]; simp
  rw [he, hl, hp, hs, Nat.min_eq_left hlen]
  have hloop := decIntLoop_digits o w 0 [] o.zero hz
  rw [Nat.add_zero, List.append_nil, decIntLoop] at hloop
  rcases decIntAt_spec o w.length w (pre ++ zs) (c :: fd ++ post) o.zero (Nat.le_refl _) with ⟨h3, _⟩ | ⟨d', u, v, h3, h4, h5⟩
  · rw [hloop] at h3; cases h3
  · rw [hloop] at h4
    injection h4 with h4; injection h4 with h4; injection h4 with h6 h7
    subst h6 h7
    rw [List.append_nil] at h3
    subst h3
    rw [h5, ok_bind]
    simp only
    rw [← List.length_append]
    have := decFracTail_out o m fs neg (pre ++ zs ++ w) c fd post (horner o w o.zero) hf hb
    rw [List.append_assoc _ (c :: fd) post] at this
    exact this

/-- **C102** (negative result, general): for a number written without a point, whose digits fit, the sink reads on behind its token: the next
character, whatever it is, is taken for the point and the `frac_size` characters after it for the fraction. -/
theorem C102_reads_on {R : Type} (o : Ops R) (m : Int) (is fs : Nat) (pre sg : List Byte) (neg : Bool) (ip : List Byte) (c : Byte) (fd post : List Byte)
    (hs : Sign sg neg) (hne : ip ≠ []) (hip : ∀ x ∈ ip, isDigit x) (hlen : (skipZeros ip).length ≤ is) (hf : fd.length = fs) (hb : fs < 2 ^ 64) :
    decimalSinkAt o m is fs (pre ++ (sg ++ ip) ++ (c :: fd ++ post)) pre.length (pre.length + (sg ++ ip).length) =
      decimalSink o m is fs (sg ++ (ip ++ 46 :: fd)) := by
  obtain ⟨a, t, rfl⟩ := List.exists_cons_of_ne_nil hne
  have ha := digit_props (hip a (by simp))
  rw [decimalSink_sign o m is fs sg neg _ hs (by simp) (by intro c t h; cases h; exact ⟨ha.1, ha.2.1⟩)]
  unfold decimalSinkAt
  have key := decBodyAt_out o m is fs neg (pre ++ sg) (a :: t) c fd post hip hlen hf hb
  rw [← key]
  rcases hs with ⟨rfl, rfl⟩ | ⟨rfl, rfl⟩ | ⟨rfl, rfl⟩
  · have hd : deref (pre ++ ([] ++ a :: t) ++ (c :: fd ++ post)) pre.length = ok a := by
      rw [List.nil_append, List.append_assoc, List.cons_append, deref_append_cons]
    rw [hd, ok_bind, if_neg (by rintro (h | h); exacts [ha.1 h, ha.2.1 h])]
    simp
  · have hd : deref (pre ++ ([43] ++ a :: t) ++ (c :: fd ++ post)) pre.length = ok 43 := by
      rw [List.append_assoc, List.append_assoc, List.singleton_append, deref_append_cons]
    rw [hd, ok_bind, if_pos (Or.inr rfl), if_neg (by simp)]
    simp [Nat.add_assoc, Nat.add_comm, Nat.add_left_comm]
  · have hd : deref (pre ++ ([45] ++ a :: t) ++ (c :: fd ++ post)) pre.length = ok 45 := by
      rw [List.append_assoc, List.append_assoc, List.singleton_append, deref_append_cons]
    rw [hd, ok_bind, if_pos (Or.inl rfl), if_neg (by simp)]
    simp [Nat.add_assoc, Nat.add_comm, Nat.add_left_comm]

/-- The token "12" of "12,34" with two digits each is stored as 12.34. -/
example : decimalSinkAt exact doubleMin 2 2 [49, 50, 44, 51, 52] 0 2 = ok (some (.num (12 + 34 / 100))) := by
  have h1 := C102_reads_on exact doubleMin 2 2 [] [] false [49, 50] 44 [51, 52] [] (Or.inl ⟨rfl, rfl⟩) (by decide) (by decide) (by decide) rfl (by decide)
  have h2 := C102_decimal_partial doubleMin 2 2 [] false [49, 50] [51, 52] [] (Or.inl ⟨rfl, rfl⟩) (by decide) (by decide) (by decide) (Or.inl rfl)
    (Or.inl ⟨rfl, by decide, by decide⟩)
  refine (h1.trans h2).trans ?_
  have e1 : decVal [49, 50] = 12 := by decide
  have e2 : decVal [51, 52] = 34 := by decide
  rw [e1, e2]
  norm_num

end Strtk.Real
