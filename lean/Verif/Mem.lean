import Verif.Outcome

/-!
# Sequence-level library operations used by strtk

Models of the C++ standard library operations on sequences that strtk relies on (not strtk code): range reads, `std::copy` into a range,
`resize`, and `std::string::find`.  Accesses outside the sequence are `ub`.
-/

namespace Mem
open Outcome

variable {α : Type}

/-- Reading the `n` elements from offset `i`. -/
def slice (s : List α) (i n : Nat) : Outcome (List α) :=
  if i + n ≤ s.length then ok ((s.drop i).take n) else ub

/-- `std::copy(src..., buf + pos)` with a source that does not overlap the destination. -/
def copyTo (buf : List α) (pos : Nat) (src : List α) : Outcome (List α) :=
  if pos + src.length ≤ buf.length then ok (buf.take pos ++ src ++ buf.drop (pos + src.length)) else ub

/-- `std::string::resize(n, z)` / `Sequence::resize(n)`. -/
def resize (z : α) (s : List α) (n : Nat) : List α := s.take n ++ List.replicate (n - s.length) z

/-- Position of the first occurrence of `p` in `s`, counted from offset `i`. -/
def findGo [DecidableEq α] (p : List α) : List α → Nat → Option Nat
  | [], i => if p = [] then some i else none
  | a :: t, i => if p.isPrefixOf (a :: t) then some i else findGo p t (i + 1)

/-- `s.find(p, pos)`; `none` is `npos`. -/
def find [DecidableEq α] (s p : List α) (pos : Nat) : Option Nat :=
  if pos ≤ s.length then findGo p (s.drop pos) pos else none

@[simp] theorem resize_length (z : α) (s : List α) (n : Nat) : (resize z s n).length = n := by
  simp [resize]; omega

theorem resize_le (z : α) (s : List α) (n : Nat) (h : n ≤ s.length) : resize z s n = s.take n := by
  simp [resize, h]

/-- Copying just behind an already written prefix. -/
theorem copyTo_append (a b rest : List α) (src : List α) (h : src.length ≤ rest.length) (hb : b = a ++ rest) :
    copyTo b a.length src = ok (a ++ src ++ rest.drop src.length) := by
  subst hb
  have : a.length + src.length ≤ (a ++ rest).length := by simp; omega
  rw [copyTo, if_pos this]
  simp [List.take_append, List.drop_append]

theorem slice_append (a b c : List α) : slice (a ++ b ++ c) a.length b.length = ok b := by
  simp [slice]

/-- A sequence of writes `*(out++) = v`. -/
def puts : List α → Nat → List α → Outcome (List α)
  | buf, _, [] => ok buf
  | buf, o, v :: vs => do
    let buf ← store buf o v
    puts buf (o + 1) vs

theorem puts_append (vs : List α) : ∀ (pre room : List α), vs.length ≤ room.length →
    puts (pre ++ room) pre.length vs = ok (pre ++ vs ++ room.drop vs.length) := by
  induction vs with
  | nil => intro pre room _; simp [puts]
  | cons v vs ih =>
    intro pre room h
    cases room with
    | nil => simp at h
    | cons x room =>
      unfold puts
      have : store (pre ++ x :: room) pre.length v = ok (pre ++ v :: room) := by simp [store]
      rw [this, ok_bind]
      have := ih (pre ++ [v]) room (by simpa using h)
      simp at this
      rw [this]
      simp

/-- Writes that do not fit are out of bounds. -/
theorem puts_ub (vs : List α) : ∀ (buf : List α) (o : Nat), buf.length < o + vs.length → o ≤ buf.length → puts buf o vs = ub := by
  induction vs with
  | nil => intro buf o h1 h2; simp at h1; omega
  | cons v vs ih =>
    intro buf o h1 h2
    unfold puts
    by_cases h : o < buf.length
    · rw [store_eq_ok _ h, ok_bind]
      exact ih _ _ (by simp at h1 ⊢; omega) (by simp; omega)
    · have : store buf o v = ub := by simp [store, h]
      rw [this]; rfl

end Mem

namespace Mem
open Outcome
variable {α : Type}

/-- `std::swap(*i, *j)` (as `*i` and `*j` of the sequence). -/
def swapAt (s : List α) (i j : Nat) : Outcome (List α) := do
  let a ← deref s i
  let b ← deref s j
  let s ← store s i b
  store s j a

/-- `while (itr1 < itr2) { std::swap(*itr1,*itr2); ++itr1; --itr2; }`, the reversal loop used all over strtk; `itr2` is represented by
its offset plus one, so that a pointer to just before the sequence can be represented. -/
def reverseLoop : Nat → List α → Nat → Nat → Outcome (List α)
  | 0, _, _, _ => diverge
  | fuel + 1, s, i, j1 =>
    if i + 1 < j1 then do
      let s ← swapAt s i (j1 - 1)
      reverseLoop fuel s (i + 1) (j1 - 1)
    else ok s

theorem swapAt_ends (pre mid post : List α) (a b : α) :
    swapAt (pre ++ a :: (mid ++ b :: post)) pre.length (pre.length + mid.length + 1) = ok (pre ++ b :: (mid ++ a :: post)) := by
  have h2 : deref (pre ++ a :: (mid ++ b :: post)) (pre.length + mid.length + 1) = ok b := by
    have := deref_append_cons (pre ++ a :: mid) b post
    simp only [List.length_append, List.length_cons, ← Nat.add_assoc] at this
    simpa using this
  have h3 : store (pre ++ a :: (mid ++ b :: post)) pre.length b = ok (pre ++ b :: (mid ++ b :: post)) := by simp [store]
  have h4 : store (pre ++ b :: (mid ++ b :: post)) (pre.length + mid.length + 1) a = ok (pre ++ b :: (mid ++ a :: post)) := by
    have e : ((pre ++ b :: mid) ++ b :: post).set (pre ++ b :: mid).length a = (pre ++ b :: mid) ++ a :: post := by simp
    simp only [List.length_append, List.length_cons, ← Nat.add_assoc] at e
    rw [store, if_pos (by simp; omega)]
    simp only [List.append_assoc, List.cons_append] at e
    rw [e]
  rw [swapAt, deref_append_cons, ok_bind, h2, ok_bind, h3, ok_bind, h4]

theorem reverseLoop_spec : ∀ (fuel : Nat) (pre mid post : List α), mid.length < fuel →
    reverseLoop fuel (pre ++ (mid ++ post)) pre.length (pre.length + mid.length) = ok (pre ++ (mid.reverse ++ post)) := by
  intro fuel
  induction fuel with
  | zero => intro _ _ _ h; omega
  | succ fuel ih =>
    intro pre mid post hf
    unfold reverseLoop
    match mid with
    | [] => rw [if_neg (by simp)]; simp
    | [a] => rw [if_neg (by simp)]; simp
    | a :: b :: t =>
      obtain ⟨m, z, e⟩ : ∃ m z, b :: t = m ++ [z] := ⟨(b :: t).dropLast, (b :: t).getLast (by simp), (List.dropLast_concat_getLast _).symm⟩
      rw [e] at hf ⊢
      simp only [List.length_cons, List.length_append, List.length_nil] at hf
      rw [if_pos (by simp)]
      have hs := swapAt_ends pre m post a z
      have e1 : pre ++ (a :: (m ++ [z]) ++ post) = pre ++ a :: (m ++ z :: post) := by simp
      have e2 : pre.length + (a :: (m ++ [z])).length - 1 = pre.length + m.length + 1 := by simp; omega
      rw [e1, e2, hs, ok_bind]
      have := ih (pre ++ [z]) m (a :: post) (by omega)
      simp only [List.length_append, List.length_cons, List.length_nil, Nat.zero_add, List.append_assoc, List.singleton_append] at this
      have e3 : pre.length + m.length + 1 = pre.length + 1 + m.length := by omega
      rw [e3, this]
      simp

/-- The reversal loop over a whole sequence. -/
theorem reverseLoop_all (s : List α) : reverseLoop (s.length + 1) s 0 s.length = ok s.reverse := by
  have := reverseLoop_spec (s.length + 1) [] s [] (by omega)
  simpa using this

end Mem
