import Verif.Text.Model

/-! # Properties of `strtk::text` (C50, C51, C84) -/

namespace Strtk.Text
open Outcome Mem

/-! ## Alignment (C50) -/

/-- `center`: the text with `l` pads in front and `r` behind, together up to the width, the right side getting the odd one; a text that is long enough
is returned as it is. -/
theorem C50_center (width : Nat) (pad : UInt8) (str : List UInt8) :
    ∃ l r, center width pad str = List.replicate l pad ++ str ++ List.replicate r pad ∧ l + str.length + r = max width str.length ∧ l ≤ r ∧ r ≤ l + 1 := by
  unfold center
  split
  · exact ⟨0, 0, by simp, by omega, by omega, by omega⟩
  · refine ⟨_, _, rfl, ?_, ?_, ?_⟩ <;> simp only [Nat.shiftRight_eq_div_pow, Nat.and_one_is_mod] <;> omega

theorem C50_right_align (width : Nat) (pad : UInt8) (str : List UInt8) :
    rightAlign width pad str = List.replicate (width - str.length) pad ++ str ∧ (rightAlign width pad str).length = max width str.length := by
  unfold rightAlign
  split
  · have h : width - str.length = 0 := by omega
    exact ⟨by simp [h], by omega⟩
  · exact ⟨rfl, by simp; omega⟩

theorem C50_left_align (width : Nat) (pad : UInt8) (str : List UInt8) :
    leftAlign width pad str = str ++ List.replicate (width - str.length) pad ∧ (leftAlign width pad str).length = max width str.length := by
  unfold leftAlign
  split
  · have h : width - str.length = 0 := by omega
    exact ⟨by simp [h], by omega⟩
  · exact ⟨rfl, by simp; omega⟩

/-- `remaining_string`: the suffix from the index; outside the string the whole string or, if asked for, the empty string. -/
theorem C50_remaining_string (index : Nat) (str : List UInt8) (returnEmpty : Bool) :
    (index < str.length → ∃ front, front ++ remainingString index str returnEmpty = str ∧ front.length = index) ∧
    (str.length ≤ index → remainingString index str returnEmpty = if returnEmpty then [] else str) := by
  unfold remainingString
  constructor
  · intro h
    rw [if_pos h]
    refine ⟨str.take index, ?_, by simp; omega⟩
    have e : (str.drop index).take (str.length - index) = str.drop index := List.take_of_length_le (by simp)
    rw [e, List.take_append_drop]
  · intro h
    rw [if_neg (by omega)]
    cases returnEmpty <;> rfl

/-- "abc" in a field of eight characters. -/
example : center 8 46 [97, 98, 99] = [46, 46, 97, 98, 99, 46, 46, 46] ∧ rightAlign 5 46 [97, 98, 99] = [46, 46, 97, 98, 99] ∧
    leftAlign 5 46 [97, 98, 99] = [97, 98, 99, 46, 46] ∧ remainingString 1 [97, 98, 99] false = [98, 99] := by decide

/-! ## Editing one character (C51) -/

theorem C51_swap (s : List UInt8) (i j : Nat) :
    ∃ r, swap s i j = ok r ∧ r.length = s.length ∧
      ((i < s.length ∧ j < s.length) → r[i]? = s[j]? ∧ r[j]? = s[i]? ∧ ∀ k, k ≠ i → k ≠ j → r[k]? = s[k]?) ∧
      ((s.length ≤ i ∨ s.length ≤ j) → r = s) := by
  unfold swap
  split
  · exact ⟨s, rfl, rfl, fun h => by omega, fun _ => rfl⟩
  · split
    · exact ⟨s, rfl, rfl, fun h => by omega, fun _ => rfl⟩
    · rename_i h1 h2
      have hi : i < s.length := by omega
      have hj : j < s.length := by omega
      rw [deref_eq_ok hi, ok_bind, deref_eq_ok hj, ok_bind, store_eq_ok _ hi, ok_bind, store_eq_ok _ (by simpa using hj)]
      refine ⟨_, rfl, by simp, fun _ => ⟨?_, ?_, ?_⟩, fun h => by omega⟩
      · rw [List.getElem?_set]
        split
        · rename_i h; subst h; simp [hi]
        · simp [hi, hj]
      · simp [hi, hj]
      · intro k h1 h2
        rw [List.getElem?_set_ne (Ne.symm h2), List.getElem?_set_ne (Ne.symm h1)]

theorem slice_mid (a b c : List UInt8) (i n : Nat) (hi : i = a.length) (hn : n = b.length) : slice (a ++ b ++ c) i n = ok b := by
  subst hi hn; exact slice_append a b c

/-- `remove` on `pre ++ c :: post`. -/
theorem remove_eq (overlap : Outcome Unit) (pre : List UInt8) (c : UInt8) (post : List UInt8) :
    remove overlap (pre ++ c :: post) pre.length = (do (if post ≠ [] then overlap else ok ()); ok (pre ++ post)) := by
  unfold remove
  rw [if_neg (by simp)]
  unfold memcpy
  have e1 : pre ++ c :: post ++ [0] = (pre ++ [c]) ++ (post ++ [0]) ++ [] := by simp
  have hn : (pre ++ c :: post).length - pre.length = post.length + 1 := by simp
  rw [hn, e1, slice_mid (pre ++ [c]) (post ++ [0]) [] _ _ (by simp) (by simp), ok_bind]
  have hcond : (post.length + 1 ≠ 0 ∧ pre.length < pre.length + 1 + (post.length + 1) ∧ pre.length + 1 < pre.length + (post.length + 1)) ↔ post ≠ [] := by
    rw [← List.length_pos_iff]; omega
  simp only [hcond]
  have hcopy : copyTo (pre ++ [c] ++ (post ++ [0]) ++ []) pre.length (post ++ [0]) = ok (pre ++ (post ++ [0]) ++ [0]) := by
    rw [copyTo_append pre _ (c :: (post ++ [0])) (post ++ [0]) (by simp) (by simp)]
    have : List.drop (post ++ [(0 : UInt8)]).length (c :: (post ++ [0])) = [0] := by
      rw [show c :: (post ++ [0]) = (c :: post) ++ [0] by simp, List.drop_append_of_le_length (by simp)]
      simp
    rw [this]
  cases hov : (if post ≠ [] then overlap else ok ()) with
  | ok u =>
    simp only [ok_bind]
    rw [hcopy, ok_bind]
    have hm : ofMem (pre ++ c :: post).length (pre ++ (post ++ [0]) ++ [0]) = ok (pre ++ (post ++ [0])) := by
      unfold ofMem
      have hl : (pre ++ c :: post).length = (pre ++ (post ++ [0])).length := by simp
      rw [hl, if_pos ⟨by simp; omega, by rw [List.getElem?_append_right (Nat.le_refl _)]; simp⟩, List.take_left']
      rfl
    rw [hm, ok_bind, resize_le _ _ _ (by simp)]
    have : (pre ++ (post ++ [(0 : UInt8)])).take ((pre ++ (post ++ [(0 : UInt8)])).length - 1) = pre ++ post := by
      rw [← List.append_assoc]
      apply List.take_left'
      simp
    rw [this]
  | ub => rfl
  | diverge => rfl
  | thrown => rfl

/-- `insert` into `pre ++ post` between the two. -/
theorem insert_eq (overlap : Outcome Unit) (pre post : List UInt8) (c : UInt8) (hl : (pre ++ post).length + 1 < 2 ^ 64) :
    insert overlap (pre ++ post) pre.length c = (do (if post ≠ [] then overlap else ok ()); ok (pre ++ c :: post)) := by
  unfold insert
  have hr : resize 0 (pre ++ post) ((pre ++ post).length + 1) = pre ++ (post ++ [0]) := by
    unfold resize
    rw [List.take_of_length_le (by simp)]
    have : (pre ++ post).length + 1 - (pre ++ post).length = 1 := by omega
    rw [this]; simp
  simp only [hr]
  have hn : ((pre ++ (post ++ [(0 : UInt8)])).length + 2 ^ 64 - pre.length) % 2 ^ 64 = post.length + 1 := by
    simp at hl ⊢; omega
  rw [hn]
  unfold memcpy
  rw [slice_mid pre (post ++ [0]) [0] _ _ rfl (by simp), ok_bind]
  have hcond : (post.length + 1 ≠ 0 ∧ pre.length + 1 < pre.length + (post.length + 1) ∧ pre.length < pre.length + 1 + (post.length + 1)) ↔ post ≠ [] := by
    rw [← List.length_pos_iff]; omega
  simp only [hcond]
  obtain ⟨x, rest, hx⟩ : ∃ x rest, post ++ [(0 : UInt8)] = x :: rest := List.exists_cons_of_ne_nil (by simp)
  have hrest : rest.length = post.length := by have := congrArg List.length hx; simp at this; omega
  have hcopy : copyTo (pre ++ (post ++ [0]) ++ [0]) (pre.length + 1) (post ++ [0]) = ok (pre ++ x :: (post ++ [0])) := by
    have := copyTo_append (pre ++ [x]) (pre ++ (post ++ [0]) ++ [0]) (rest ++ [0]) (post ++ [0]) (by simp; omega) (by rw [hx]; simp)
    rw [show (pre ++ [x]).length = pre.length + 1 by simp] at this
    rw [this, List.drop_of_length_le (by simp; omega)]
    simp
  cases hov : (if post ≠ [] then overlap else ok ()) with
  | ok u =>
    simp only [ok_bind]
    rw [hcopy, ok_bind, store_eq_ok _ (by simp), ok_bind]
    have hset : (pre ++ x :: (post ++ [0])).set pre.length c = (pre ++ c :: post) ++ [0] := by simp
    rw [hset]
    unfold ofMem
    have hl : (pre ++ (post ++ [(0 : UInt8)])).length = (pre ++ c :: post).length := by simp
    rw [hl, if_pos ⟨by simp; omega, by rw [List.getElem?_append_right (Nat.le_refl _)]; simp⟩, List.take_left']
    rfl
  | ub => rfl
  | diverge => rfl
  | thrown => rfl

/-- With a `memcpy` that tolerates overlap, `remove` deletes the character at the index and does nothing outside the string. -/
theorem C51_remove_partial (s : List UInt8) (i : Nat) : remove (ok ()) s i = ok (s.eraseIdx i) := by
  by_cases h : i < s.length
  · have e : s = s.take i ++ s[i] :: s.drop (i + 1) := by simp
    have hl : (s.take i).length = i := by simp; omega
    have := remove_eq (ok ()) (s.take i) s[i] (s.drop (i + 1))
    rw [hl, ← e] at this
    rw [this]
    have hif : (if s.drop (i + 1) ≠ [] then ok () else ok ()) = ok () := by split <;> rfl
    rw [hif, ok_bind, List.eraseIdx_eq_take_drop_succ]
  · unfold remove
    rw [if_pos (by omega), List.eraseIdx_of_length_le (by omega)]

/-- With a `memcpy` that tolerates overlap, `insert` puts the character in front of the index, which may be the end. -/
theorem C51_insert_partial (s : List UInt8) (i : Nat) (c : UInt8) (hi : i ≤ s.length) (hl : s.length + 1 < 2 ^ 64) :
    insert (ok ()) s i c = ok (s.take i ++ c :: s.drop i) := by
  have hl' : (s.take i).length = i := by simp; omega
  have := insert_eq (ok ()) (s.take i) (s.drop i) c (by simpa using hl)
  rw [hl', List.take_append_drop] at this
  rw [this]
  have hif : (if s.drop i ≠ [] then ok () else ok ()) = ok () := by split <;> rfl
  rw [hif, ok_bind]

/-- What is missing: by the standard overlapping `memcpy` is undefined, so removing any character but the last is undefined ... -/
theorem C51_remove_overlap (s : List UInt8) (i : Nat) : remove ub s i = ub ↔ i + 1 < s.length := by
  by_cases h : i < s.length
  · have e : s = s.take i ++ s[i] :: s.drop (i + 1) := by simp
    have hl : (s.take i).length = i := by simp; omega
    have := remove_eq ub (s.take i) s[i] (s.drop (i + 1))
    rw [hl, ← e] at this
    rw [this]
    by_cases h2 : i + 1 < s.length
    · rw [if_pos (by rw [← List.length_pos_iff]; simp; omega)]
      simp [h2]
    · rw [if_neg (by simp; omega)]
      simp only [ok_bind]
      exact ⟨fun h => (by cases h), fun h => absurd h h2⟩
  · unfold remove
    rw [if_pos (by omega)]
    exact ⟨fun h => (by cases h), fun h => by omega⟩

/-- ... and so is inserting anywhere but at the end ... -/
theorem C51_insert_overlap (s : List UInt8) (i : Nat) (c : UInt8) (hi : i ≤ s.length) (hl : s.length + 1 < 2 ^ 64) : insert ub s i c = ub ↔ i < s.length := by
  have hl' : (s.take i).length = i := by simp; omega
  have := insert_eq ub (s.take i) (s.drop i) c (by simpa using hl)
  rw [hl', List.take_append_drop] at this
  rw [this]
  by_cases h2 : i < s.length
  · rw [if_pos (by rw [← List.length_pos_iff]; simp; omega)]
    simp [h2]
  · rw [if_neg (by simp; omega)]
    simp only [ok_bind]
    exact ⟨fun h => (by cases h), fun h => absurd h h2⟩

/-- ... and inserting a character behind the end, which the code does not check, is undefined whatever `memcpy` does. -/
theorem C51_insert_behind_end (overlap : Outcome Unit) (s : List UInt8) (i : Nat) (c : UInt8) (hc : c ≠ 0)
    (hi : s.length < i) (hi2 : i < 2 ^ 64) (hl : s.length + 2 < 2 ^ 63) : insert overlap s i c = ub := by
  unfold insert
  have hr : resize 0 s (s.length + 1) = s ++ [0] := by
    unfold resize
    rw [List.take_of_length_le (by simp)]
    have : s.length + 1 - s.length = 1 := by omega
    rw [this]; simp
  simp only [hr]
  unfold memcpy
  by_cases h1 : i = s.length + 1
  · subst h1
    have hn : ((s ++ [(0 : UInt8)]).length + 2 ^ 64 - (s.length + 1)) % 2 ^ 64 = 0 := by simp
    rw [hn]
    have hsl : slice (s ++ [0] ++ [0]) (s.length + 1) 0 = ok [] := by simp [slice]
    have hcp : copyTo (s ++ [0] ++ [0]) (s.length + 1 + 1) [] = ok (s ++ [0] ++ [(0 : UInt8)]) := by
      simp [copyTo]; exact List.take_of_length_le (by simp)
    rw [hsl, ok_bind, if_neg (by simp), ok_bind, hcp, ok_bind, store_eq_ok _ (by simp), ok_bind]
    unfold ofMem
    rw [if_neg]
    rintro ⟨_, h⟩
    have : ((s ++ [0] ++ [0]).set (s.length + 1) c)[(s ++ [(0 : UInt8)]).length]? = some c := by simp
    rw [this] at h
    exact hc (Option.some.inj h)
  · have hn : ((s ++ [(0 : UInt8)]).length + 2 ^ 64 - i) % 2 ^ 64 = s.length + 1 + 2 ^ 64 - i := by
      simp; omega
    rw [hn]
    have hsl : slice (s ++ [0] ++ [0]) i (s.length + 1 + 2 ^ 64 - i) = ub := by
      unfold slice; rw [if_neg (by simp; omega)]
    rw [hsl]; rfl

/-- "abcd": removing 'b', inserting 'x' behind 'b', swapping 'a' and 'c'. -/
example : remove (ok ()) [97, 98, 99, 100] 1 = ok [97, 99, 100] ∧ insert (ok ()) [97, 98, 99, 100] 2 120 = ok [97, 98, 120, 99, 100] ∧
    swap [97, 98, 99, 100] 0 2 = ok [99, 98, 97, 100] ∧ remove ub [97, 98, 99, 100] 1 = ub ∧ insert ub [97, 98] 3 120 = ub := by decide

/-! ## Character classes (C84) -/

/-- The ASCII letters and digits, written out. -/
def uppercase : List UInt8 := "ABCDEFGHIJKLMNOPQRSTUVWXYZ".toList.map fun c => UInt8.ofNat c.toNat
def lowercase : List UInt8 := "abcdefghijklmnopqrstuvwxyz".toList.map fun c => UInt8.ofNat c.toNat
def digits : List UInt8 := "0123456789".toList.map fun c => UInt8.ofNat c.toNat
def hexDigits : List UInt8 := "0123456789ABCDEFabcdef".toList.map fun c => UInt8.ofNat c.toNat

/-- A statement about all bytes follows from the table of 256. -/
theorem forall_byte {P : UInt8 → Bool} (h : (List.range 256).all (fun n => P (UInt8.ofNat n)) = true) (c : UInt8) : P c = true := by
  have h1 := List.all_eq_true.mp h c.toNat (List.mem_range.mpr c.toNat_lt)
  simpa using h1

theorem C84_classes (c : UInt8) :
    (isUpper c = true ↔ c ∈ uppercase) ∧ (isLower c = true ↔ c ∈ lowercase) ∧ (isLetter c = true ↔ c ∈ uppercase ++ lowercase) ∧
    (isDigit c = true ↔ c ∈ digits) ∧ (isHexDigit c = true ↔ c ∈ hexDigits) ∧ (isLetterOrDigit c = true ↔ c ∈ uppercase ++ lowercase ++ digits) := by
  have key : ∀ (p : UInt8 → Bool) (l : List UInt8), (List.range 256).all (fun n => p (UInt8.ofNat n) == l.contains (UInt8.ofNat n)) = true →
      (p c = true ↔ c ∈ l) := by
    intro p l h
    have h1 := forall_byte (P := fun c => p c == l.contains c) h c
    simp only [beq_iff_eq] at h1
    rw [h1, List.contains_iff_mem]
  exact ⟨key _ _ (by decide +kernel), key _ _ (by decide +kernel), key _ _ (by decide +kernel), key _ _ (by decide +kernel), key _ _ (by decide +kernel),
    key _ _ (by decide +kernel)⟩

theorem isAll_iff (p : UInt8 → Bool) (s : List UInt8) : isAll p s = true ↔ ∀ c ∈ s, p c = true := by
  induction s with
  | nil => simp [isAll]
  | cons c s ih =>
    unfold isAll
    cases h : p c <;> simp [h, ih]

/-- `is_all_letters` and `is_all_digits`. -/
theorem C84_is_all (s : List UInt8) :
    (isAll isLetter s = true ↔ ∀ c ∈ s, c ∈ uppercase ++ lowercase) ∧ (isAll isDigit s = true ↔ ∀ c ∈ s, c ∈ digits) := by
  rw [isAll_iff, isAll_iff]
  exact ⟨forall₂_congr fun c _ => (C84_classes c).2.2.1, forall₂_congr fun c _ => (C84_classes c).2.2.2.1⟩

example : isAll isLetter [65, 122] = true ∧ isAll isDigit [48, 57, 65] = false ∧ isLetter 0xE4 = false := by decide

end Strtk.Text
