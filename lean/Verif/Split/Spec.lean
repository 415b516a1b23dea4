/-!
# What tokenising means

Independent of the model: an input either contains no delimiter (one token), or it is a delimiter-free word, a block of one or more
delimiters and a rest.  A block is a single delimiter, or (per run) a maximal run of delimiters.  The first token is the word followed by the
part of the block that is kept.
-/

namespace Strtk.Split

variable {α : Type}

/-- Which delimiters of the block that ends a token are kept in the token. -/
inductive Keep where
  | none | firstOnly | all
  deriving DecidableEq

/-- The kept part of a block of delimiters. -/
def Keep.part : Keep → List α → List α
  | .none, _ => []
  | .firstOnly, block => block.take 1
  | .all, block => block

/-- `Splits perRun keep d off s toks`: tokenising `s`, which starts at offset `off`, gives `toks`, each with the offset where it starts. -/
inductive Splits (perRun : Bool) (keep : Keep) (d : α → Bool) : Nat → List α → List (Nat × List α) → Prop
  | last (off : Nat) (w : List α) (hw : ∀ c ∈ w, d c = false) : Splits perRun keep d off w [(off, w)]
  | more (off : Nat) (w block rest : List α) (toks : List (Nat × List α))
      (hw : ∀ c ∈ w, d c = false)
      (hne : block ≠ [])
      (hblock : ∀ c ∈ block, d c = true)
      (hmax : if perRun then ∀ c ∈ rest.head?, d c = false else block.length = 1)
      (hrest : Splits perRun keep d (off + w.length + block.length) rest toks) :
      Splits perRun keep d off (w ++ block ++ rest) ((off, w ++ keep.part block) :: toks)

/-- The iterator pair of a token that starts at `off` and reads `w`. -/
def pairOf (t : Nat × List α) : Nat × Nat := (t.1, t.1 + t.2.length)

/-- The text an iterator pair refers to. -/
def textOf (s : List α) (r : Nat × Nat) : List α := (s.drop r.1).take (r.2 - r.1)

/-- The input with every maximal run of delimiters shortened to a single delimiter. -/
def collapseRuns (d : α → Bool) : List α → List α
  | [] => []
  | [a] => [a]
  | a :: b :: t => if d a && d b then collapseRuns d (b :: t) else a :: collapseRuns d (b :: t)

end Strtk.Split

namespace Strtk.Split

/-- The offset used for the `i`-th piece: the listed offsets from index `idx` on, cyclically when rotating, and 0 after the end of the list otherwise. -/
def offsetAt (offs : List Int) (rotate : Bool) (idx i : Nat) : Int :=
  if rotate then (offs[(idx + i) % offs.length]?).getD 0 else (offs[idx + i]?).getD 0

/-- The position of the `i`-th cut: the sum of the first `i` offsets, clipped to the input length. -/
def cutPoint (len : Nat → Int) (n i : Nat) : Nat := min n (((List.range i).map fun j => (len j).toNat).sum)

end Strtk.Split
