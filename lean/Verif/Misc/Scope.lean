import Verif.Outcome

/-! # `util::scoped_restore` (strtk.hpp 20803-20837) -/

namespace Strtk.Scope

/-- What happens to one variable and to the guards declared for it. -/
inductive Event (V : Type)
  | enter (restore : Bool)
  | set (v : V)
  | flag (b : Bool)
  | leave

/-- A live guard: `copy_` and `restore_` (20834-20836; `reference_` is the one variable). -/
structure Guard (V : Type) where
  copy : V
  restore : Bool

/-- The variable and the live guards, innermost first. -/
structure State (V : Type) where
  value : V
  guards : List (Guard V)

/-- Constructor (20810-20814), an assignment of the program to the variable, an assignment through `restore()` of the innermost guard (20824-20827), and the
destructor (20816-20822), which also runs when the scope is left by an exception.  Using a guard where none is live is not a C++ program: `ub`. -/
def step {V : Type} (s : State V) : Event V → Outcome (State V)
  | .enter r => .ok { s with guards := ⟨s.value, r⟩ :: s.guards }
  | .set v => .ok { s with value := v }
  | .flag b => match s.guards with
    | [] => .ub
    | g :: gs => .ok { s with guards := { g with restore := b } :: gs }
  | .leave => match s.guards with
    | [] => .ub
    | g :: gs => .ok ⟨if g.restore then g.copy else s.value, gs⟩

def run {V : Type} (s : State V) : List (Event V) → Outcome (State V)
  | [] => .ok s
  | e :: es => do run (← step s e) es

/-! ## Specification -/

/-- What a block of a program does, statement by statement; `scope r body rest` runs `body` under a guard constructed with `r`, then goes on with `rest`.  A block
left early by an exception or a jump is the block of the statements it did run. -/
inductive Block (V : Type)
  | done
  | set (v : V) (rest : Block V)
  | flag (b : Bool) (rest : Block V)
  | scope (r : Bool) (body rest : Block V)

variable {V : Type}

/-- The events of a block, in order. -/
def Block.events : Block V → List (Event V)
  | .done => []
  | .set v k => .set v :: k.events
  | .flag b k => .flag b :: k.events
  | .scope r body k => .enter r :: body.events ++ .leave :: k.events

/-- The flag of the guard of a block at its end: the one it was last given. -/
def Block.flagAtEnd : Block V → Bool → Bool
  | .done, r => r
  | .set _ k, r => k.flagAtEnd r
  | .flag b k, _ => k.flagAtEnd b
  | .scope _ _ k, r => k.flagAtEnd r

/-- The assignments that are in no restoring scope. -/
def Block.lasting : Block V → List V
  | .done => []
  | .set v k => v :: k.lasting
  | .flag _ k => k.lasting
  | .scope r body k => (if body.flagAtEnd r then [] else body.lasting) ++ k.lasting

/-! ## C112 -/

theorem run_append (es es' : List (Event V)) : ∀ s : State V, run s (es ++ es') = (do run (← run s es) es') := by
  induction es with
  | nil => intro s; rfl
  | cons e es ih =>
    intro s
    show (do run (← step s e) (es ++ es')) = _
    simp only [run]
    cases step s e with
    | ok s' => simp [ih]
    | _ => rfl

theorem run_block : ∀ (b : Block V) (x : V) (g : Guard V) (gs : List (Guard V)),
    run ⟨x, g :: gs⟩ b.events = .ok ⟨b.lasting.getLastD x, { g with restore := b.flagAtEnd g.restore } :: gs⟩ := by
  intro b
  induction b with
  | done => intro x g gs; rfl
  | set v k ih =>
    intro x g gs
    show run ⟨v, g :: gs⟩ k.events = _
    rw [ih]
    simp only [Block.lasting, Block.flagAtEnd, List.getLastD_cons]
  | flag b k ih =>
    intro x g gs
    show run ⟨x, { g with restore := b } :: gs⟩ k.events = _
    rw [ih]
    simp only [Block.lasting, Block.flagAtEnd]
  | scope r body k ihb ihk =>
    intro x g gs
    show run ⟨x, ⟨x, r⟩ :: g :: gs⟩ (body.events ++ .leave :: k.events) = _
    rw [run_append, ihb, Outcome.ok_bind]
    show run ⟨if body.flagAtEnd r then x else body.lasting.getLastD x, g :: gs⟩ k.events = _
    rw [ihk]
    simp only [Block.lasting, Block.flagAtEnd]
    cases body.flagAtEnd r
    · simp only [Bool.false_eq_true, if_false]
      congr 2
      cases hk : k.lasting with
      | nil => simp
      | cons a l => simp [List.getLastD_eq_getLast?, List.getLast?_append]
    · simp

/-- **C112**: whatever happens inside a scope with a guard (assignments, changes of the flag, further scopes), after it the variable has the value it had before,
if the flag was true at the end; otherwise the last value assigned in no restoring inner scope.  Enclosing guards are not affected. -/
theorem C112_scoped_restore (x : V) (gs : List (Guard V)) (r : Bool) (body : Block V) :
    run ⟨x, gs⟩ (.enter r :: body.events ++ [.leave]) = .ok ⟨if body.flagAtEnd r then x else body.lasting.getLastD x, gs⟩ := by
  show run ⟨x, ⟨x, r⟩ :: gs⟩ (body.events ++ [.leave]) = _
  rw [run_append, run_block, Outcome.ok_bind]
  rfl

/-- Enter a scope that sets 3, give up restoring, and inside it a restoring scope that sets 4: 3 remains; without giving up, the value before. -/
example : run ⟨1, []⟩ (Block.scope true (.set 3 (.flag false (.scope true (.set 4 .done) .done))) .done).events = .ok ⟨3, []⟩ ∧
    run ⟨1, []⟩ (Block.scope true (.set 3 (.scope true (.set 4 .done) .done)) .done).events = .ok ⟨1, []⟩ := ⟨rfl, rfl⟩

end Strtk.Scope
