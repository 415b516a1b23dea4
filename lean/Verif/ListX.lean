/-! Small list lemmas used in several areas. -/

namespace ListX

variable {α : Type}

theorem mem_takeWhile {p : α → Bool} {l : List α} {x : α} (h : x ∈ l.takeWhile p) : p x = true := by
  induction l with
  | nil => simp at h
  | cons a l ih =>
    rw [List.takeWhile_cons] at h
    split at h
    · simp at h
      rcases h with rfl | h
      · assumption
      · exact ih h
    · simp at h

theorem split3 (s : List α) (i n : Nat) : s = s.take i ++ (s.drop i).take n ++ (s.drop i).drop n := by
  rw [List.append_assoc, List.take_append_drop, List.take_append_drop]

end ListX
