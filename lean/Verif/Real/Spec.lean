import Verif.Number.Spec

/-! # Specification of texts for real numbers -/

namespace Strtk.Real
open Number

/-- An optional sign; `neg` says whether it is a minus. -/
def Sign (sg : List (BitVec 8)) (neg : Bool) : Prop :=
  (sg = [] ∧ neg = false) ∨ (sg = [43] ∧ neg = false) ∨ (sg = [45] ∧ neg = true)

/-- A suffix letter: `f`, `F`, `l` or `L`. -/
def Letter (c : BitVec 8) : Prop := c = 102 ∨ c = 70 ∨ c = 108 ∨ c = 76

instance (c : BitVec 8) : Decidable (Letter c) := by unfold Letter; infer_instance

/-- `inf`, `INF`, `infinity` or `INFINITY`. -/
def InfWord (w : List (BitVec 8)) : Prop :=
  w = [105, 110, 102] ∨ w = [73, 78, 70] ∨ w = [105, 110, 102, 105, 110, 105, 116, 121] ∨ w = [73, 78, 70, 73, 78, 73, 84, 89]

instance (w : List (BitVec 8)) : Decidable (InfWord w) := by unfold InfWord; infer_instance

/-- `nan` or `NAN`. -/
def NanWord (w : List (BitVec 8)) : Prop := w = [110, 97, 110] ∨ w = [78, 65, 78]

instance (w : List (BitVec 8)) : Decidable (NanWord w) := by unfold NanWord; infer_instance

/-- An optional fraction with digits `fd`. -/
def Fraction (fp fd : List (BitVec 8)) : Prop := (fp = [] ∧ fd = []) ∨ (fp = 46 :: fd ∧ ∀ c ∈ fd, isDigit c)

/-- An optional exponent of value `x`; its digits are `ed`. -/
def Exponent (ex ed : List (BitVec 8)) (x : Int) : Prop :=
  (ex = [] ∧ ed = [] ∧ x = 0) ∨
    ∃ e sg neg, (e = 101 ∨ e = 69) ∧ Sign sg neg ∧ (∀ c ∈ ed, isDigit c) ∧ ex = e :: (sg ++ ed) ∧ x = if neg then -(decVal ed : Int) else decVal ed

/-- An optional suffix letter. -/
def Suffix (en : List (BitVec 8)) : Prop := en = [] ∨ ∃ c, Letter c ∧ en = [c]

/-- An `inf` or `nan` word, possibly after `#`. -/
def SpecialEnd (en : List (BitVec 8)) : Prop := ∃ w, (InfWord w ∨ NanWord w) ∧ (en = w ∨ en = 35 :: w)

end Strtk.Real
