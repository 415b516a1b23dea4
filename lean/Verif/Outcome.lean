/-!
# Outcomes of C++ code

Result type of every modelled function that could misbehave.  `ub` stands for undefined behaviour (a read or write outside a sequence,
overlapping `memcpy`, signed overflow, ...), `diverge` for running out of the fuel that bounds a modelled loop, `thrown` for a C++
exception.  Not a model of a particular strtk function.
-/

/-- What executing a piece of C++ can lead to. -/
inductive Outcome (α : Type) where
  | ok (a : α)
  | ub
  | diverge
  | thrown
  deriving DecidableEq, Repr

namespace Outcome

/-- Sequencing: misbehaviour is absorbing. -/
def bind {α β : Type} (x : Outcome α) (f : α → Outcome β) : Outcome β :=
  match x with
  | ok a => f a
  | ub => ub
  | diverge => diverge
  | thrown => thrown

instance : Monad Outcome where
  pure := ok
  bind := bind

@[simp] theorem pure_eq {α : Type} (a : α) : (pure a : Outcome α) = ok a := rfl
@[simp] theorem ok_bind {α β : Type} (a : α) (f : α → Outcome β) : (ok a >>= f) = f a := rfl
@[simp] theorem ub_bind {α β : Type} (f : α → Outcome β) : ((ub : Outcome α) >>= f) = ub := rfl
@[simp] theorem diverge_bind {α β : Type} (f : α → Outcome β) : ((diverge : Outcome α) >>= f) = diverge := rfl
@[simp] theorem thrown_bind {α β : Type} (f : α → Outcome β) : ((thrown : Outcome α) >>= f) = thrown := rfl

@[simp] theorem map_ok {α β : Type} (f : α → β) (a : α) : (f <$> (ok a : Outcome α)) = ok (f a) := rfl
@[simp] theorem map_ub {α β : Type} (f : α → β) : (f <$> (ub : Outcome α)) = ub := rfl
@[simp] theorem map_diverge {α β : Type} (f : α → β) : (f <$> (diverge : Outcome α)) = diverge := rfl
@[simp] theorem map_thrown {α β : Type} (f : α → β) : (f <$> (thrown : Outcome α)) = thrown := rfl

instance : LawfulMonad Outcome := LawfulMonad.mk'
  (id_map := by intro α x; cases x <;> rfl)
  (pure_bind := by intros; rfl)
  (bind_assoc := by intro α β γ x f g; cases x <;> rfl)
  (bind_pure_comp := by intro α β f x; cases x <;> rfl)

theorem bind_eq_ok {α β : Type} {x : Outcome α} {f : α → Outcome β} {b : β} :
    (x >>= f) = ok b ↔ ∃ a, x = ok a ∧ f a = ok b := by
  cases x <;> simp

/-- Dereferencing an iterator at offset `i` of the sequence `s`: undefined outside the sequence. -/
def deref {α : Type} (s : List α) (i : Nat) : Outcome α :=
  match s[i]? with
  | some a => ok a
  | none => ub

/-- Assigning through an iterator at offset `i` of the sequence `s`: undefined outside the sequence. -/
def store {α : Type} (s : List α) (i : Nat) (a : α) : Outcome (List α) :=
  if i < s.length then ok (s.set i a) else ub

theorem deref_eq_ok {α : Type} {s : List α} {i : Nat} (h : i < s.length) : deref s i = ok s[i] := by
  simp [deref, h]

theorem deref_ub {α : Type} {s : List α} {i : Nat} (h : s.length ≤ i) : deref s i = ub := by
  simp [deref, h]

theorem deref_append_cons {α : Type} (p : List α) (c : α) (t : List α) : deref (p ++ c :: t) p.length = ok c := by
  simp [deref]

theorem store_eq_ok {α : Type} {s : List α} {i : Nat} (a : α) (h : i < s.length) : store s i a = ok (s.set i a) := by
  simp [store, h]

end Outcome
