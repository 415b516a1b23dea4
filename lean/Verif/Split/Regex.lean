import Verif.Outcome

/-! # split_regex and split_regex_n (strtk.hpp 3733-3867, with strtk_enable_regex), C121

The regular expression engine belongs to another library: `matches` is the list of the matches its iterator visits, in order; a match is what it
answers for a group number (`(*itr)[mode]`, a range of the text). -/

namespace Strtk.Split.Regex

/-- A range of the text. -/
abbrev Range := Nat × Nat

/-- A match: the range of every group, group 0 being the whole match. -/
abbrev Match := Nat → Range

/-- The loop of `split_regex` (3746-3754): the ranges written through the output iterator and the count. -/
def splitLoop (mode : Nat) : List Match → List Range → Nat → List Range × Nat
  | [], out, count => (out, count)
  | m :: ms, out, count => splitLoop mode ms (out ++ [m mode]) (count + 1)

/-- `split_regex` (3735-3795). -/
def splitRegex (mode : Nat) (matches_ : List Match) : List Range × Nat := splitLoop mode matches_ [] 0

/-- The loop of `split_regex_n` (3810-3820). -/
def splitLoopN (mode n : Nat) : List Match → List Range → Nat → List Range × Nat
  | [], out, count => (out, count)
  | m :: ms, out, count =>
    if count + 1 ≥ n then (out ++ [m mode], count + 1) else splitLoopN mode n ms (out ++ [m mode]) (count + 1)

/-- `split_regex_n` (3798-3867). -/
def splitRegexN (mode n : Nat) (matches_ : List Match) : List Range × Nat := splitLoopN mode n matches_ [] 0

theorem splitLoop_spec (mode : Nat) (ms : List Match) : ∀ out count, splitLoop mode ms out count = (out ++ ms.map (· mode), count + ms.length) := by
  induction ms with
  | nil => intro out count; simp [splitLoop]
  | cons m ms ih =>
    intro out count
    rw [splitLoop, ih]
    simp; omega

theorem splitLoopN_spec (mode n : Nat) (ms : List Match) : ∀ out count, count < n →
    splitLoopN mode n ms out count = (out ++ (ms.take (n - count)).map (· mode), count + min (n - count) ms.length) := by
  induction ms with
  | nil => intro out count _; simp [splitLoopN]
  | cons m ms ih =>
    intro out count h
    rw [splitLoopN]
    split
    · rw [show n - count = 0 + 1 by omega, List.take_succ_cons]
      simp
    · rw [ih _ _ (by omega), show n - count = (n - (count + 1)) + 1 by omega, List.take_succ_cons]
      simp; omega

/-- `split_regex` delivers the chosen group of every match, in order, and returns their number. -/
theorem C121_split_regex (mode : Nat) (ms : List Match) : splitRegex mode ms = (ms.map fun m => m mode, ms.length) := by
  simp [splitRegex, splitLoop_spec]

/-- `split_regex_n` with a positive count delivers those of the first `n` matches. -/
theorem C121_split_regex_n_partial (mode n : Nat) (hn : 0 < n) (ms : List Match) :
    splitRegexN mode n ms = ((ms.take n).map fun m => m mode, (ms.take n).length) := by
  rw [splitRegexN, splitLoopN_spec mode n ms [] 0 hn]
  simp

/-- With a count of zero it delivers one token nevertheless, whenever there is a match. -/
theorem C121_zero_delivers_one (mode : Nat) (m : Match) (ms : List Match) : splitRegexN mode 0 (m :: ms) = ([m mode], 1) := by
  simp [splitRegexN, splitLoopN]

example : splitRegexN 0 2 [fun _ => (0, 1), fun _ => (2, 3), fun _ => (4, 6)] = ([(0, 1), (2, 3)], 2) := rfl
example : splitRegex 1 [fun g => (g, 1), fun g => (g, 3)] = ([(1, 1), (1, 3)], 2) := rfl

end Strtk.Split.Regex
