import Verif.Lines.Props
import Verif.Random.Fair
import Verif.Random.Rounded

/-!
# strtk_randomizer.cpp

Line numbers refer to strtk_randomizer.cpp.  The arguments are those behind the name of the program; `files` gives the contents of the files that can be
opened.  The result is what `main` returns and what it writes; the usage message is left out.
-/

namespace Strtk.Programs
open Outcome Strtk.Lines Strtk.Random

/-- The text of a file. -/
abbrev Files := List UInt8 → Option (List UInt8)

/-- `load_from_text_file(argv[1], str_lst)` (48; strtk.hpp 579-591): nothing is loaded from a file that cannot be opened. -/
def loadNamed (files : Files) (name : List UInt8) : Outcome (List (List UInt8)) :=
  match files name with
  | none => ok []
  | some text => do
    let (_, l) ← loadFromText (fun line => some line) text []
    ok l

/-- Writing through an `ostream_iterator` with "\n" (62-68). -/
def writeLines (l : List (List UInt8)) : List UInt8 := (writeToText id [10] l [] 0).2

/-- `main` (37-72); `random`: compiled with `strtk_enable_random`.  The generator announces the range [0,1), which fits. -/
def randomizerMain {D : Type} (random : Bool) (A : Arith D) (rng : Nat → D) (files : Files) (input : List UInt8) (args : List (List UInt8)) :
    Outcome (Nat × List UInt8) :=
  let run := fun (l : List (List UInt8)) =>
    if l = [] then ok (0, [])
    else if random then do
      let out ← randomPermutation A true rng l
      ok (0, writeLines out)
    else ok (0, writeLines l)
  match args with
  | [] => do
    let (_, l) ← loadFromText (fun line => some line) input []
    run l
  | [name] => do
    let l ← loadNamed files name
    run l
  | _ :: _ :: _ => ok (1, [])

/-! ## Specification -/

/-- The lines, each followed by a newline. -/
def asText (l : List (List UInt8)) : List UInt8 := (l.map fun line => line ++ [10]).flatten

/-- What the program reads: its input without arguments, otherwise the named file, of which a missing one counts as empty. -/
def source (files : Files) (input : List UInt8) : List (List UInt8) → List UInt8
  | [] => input
  | name :: _ => (files name).getD []

/-! ## Theorems -/

theorem load_lines (text : List UInt8) : loadFromText (fun line => some line) text [] = ok ((linesOf text).length, linesOf text) := by
  have h : (linesOf text).mapM (fun line => some line) = some (linesOf text) := by
    generalize linesOf text = l
    induction l with
    | nil => rfl
    | cons a l ih => rw [List.mapM_cons, ih]; rfl
  exact (C91_load (fun line => some line) text []).1 _ h

theorem randomizerMain_eq {D : Type} (random : Bool) (A : Arith D) (rng : Nat → D) (files : Files) (input : List UInt8) (args : List (List UInt8)) (h : args.length ≤ 1) :
    randomizerMain random A rng files input args =
      if random then randomPermutation A true rng (linesOf (source files input args)) >>= fun out => ok (0, asText out)
      else ok (0, asText (linesOf (source files input args))) := by
  have hw : ∀ l, writeLines l = asText l := fun l => by unfold writeLines asText; rw [C91_write]; rfl
  have hrun : ∀ l : List (List UInt8), (if l = [] then ok (0, []) else if random then randomPermutation A true rng l >>= fun out => ok (0, writeLines out)
      else ok (0, writeLines l)) = if random then randomPermutation A true rng l >>= fun out => ok (0, asText out) else ok (0, asText l) := by
    intro l
    by_cases hl : l = []
    · subst hl
      rw [if_pos rfl]
      cases random
      · rfl
      · rfl
    · rw [if_neg hl]
      simp only [hw]
  match args, h with
  | [], _ =>
    show (loadFromText (fun line => some line) input [] >>= _) = _
    rw [load_lines, ok_bind]
    exact hrun _
  | [name], _ =>
    show (loadNamed files name >>= _) = _
    have : loadNamed files name = ok (linesOf ((files name).getD [])) := by
      unfold loadNamed
      cases files name with
      | none => simp [linesOf_nil]
      | some text => simp only [load_lines, ok_bind, Option.getD_some]
    rw [this, ok_bind]
    exact hrun _

/-- C137: the lines are written in some order, none lost, none added, with numbers of `p` bits drawn; without random numbers they are written as they are. -/
theorem C137_same_lines (p : Nat) (hp : 1 ≤ p) (rng : Nat → Draw) (hr : ∀ i, (rng i).Float p) (files : Files) (input : List UInt8) (args : List (List UInt8))
    (h : args.length ≤ 1) (hs : (linesOf (source files input args)).length ≤ 2 ^ p) :
    (∃ out : List (List UInt8), out.Perm (linesOf (source files input args)) ∧ randomizerMain true (Random.rounded p) rng files input args = ok (0, asText out)) ∧
    randomizerMain false (Random.rounded p) rng files input args = ok (0, asText (linesOf (source files input args))) := by
  constructor
  · obtain ⟨out, h1, h2⟩ := C81_random_permutation p hp rng hr (linesOf (source files input args)) hs
    exact ⟨out, h2, by rw [randomizerMain_eq _ _ _ _ _ _ h, if_pos rfl, h1, ok_bind]⟩
  · rw [randomizerMain_eq _ _ _ _ _ _ h]; rfl

theorem asText_lines (l : List (List UInt8)) (h : ∀ line ∈ l, 10 ∉ line) : linesOf (asText l) = l := by
  unfold asText
  induction l with
  | nil => exact linesOf_nil
  | cons a l ih =>
    rw [List.map_cons, List.flatten_cons, List.append_assoc, List.singleton_append, linesOf_line _ _ (h a (by simp)), ih fun x hx => h x (by simp [hx])]

theorem linesOf_no_newline : ∀ (n : Nat) (text : List UInt8), text.length ≤ n → ∀ line ∈ linesOf text, 10 ∉ line := by
  intro n
  induction n with
  | zero =>
    intro text h
    have : text = [] := List.length_eq_zero_iff.mp (by omega)
    subst this
    rw [linesOf_nil]
    simp
  | succ n ih =>
    intro text h line hl
    rcases getline_spec text with ⟨rfl, _⟩ | ⟨l, rest, _, h2, h3, h4, _⟩
    · rw [linesOf_nil] at hl; simp at hl
    · rw [h2] at hl
      rcases List.mem_cons.mp hl with rfl | hl
      · exact h4
      · exact ih rest (by omega) line hl

theorem drawLoop_subset {α D : Type} (A : Arith D) (rng : Nat → D) (s : List α) : ∀ (count i : Nat) (index : List Nat) (out : List α),
    drawLoop A rng s count i index = ok out → ∀ x ∈ out, x ∈ s := by
  intro count
  induction count with
  | zero => intro i index out h x hx; simp only [drawLoop] at h; injection h with h; subst h; simp at hx
  | succ count ih =>
    intro i index out h x hx
    simp only [drawLoop] at h
    obtain ⟨p, _, h⟩ := bind_eq_ok.mp h
    obtain ⟨y, h1, h⟩ := bind_eq_ok.mp h
    obtain ⟨rest, h2, h⟩ := bind_eq_ok.mp h
    injection h with h
    subst h
    rcases List.mem_cons.mp hx with rfl | hx
    · unfold deref at h1
      cases he : s[p]? with
      | none => simp [he] at h1
      | some b => simp [he] at h1; exact h1 ▸ List.mem_of_getElem? he
    · exact ih _ _ _ h2 x hx

theorem randomPermutation_subset {α D : Type} (A : Arith D) (rng : Nat → D) (s out : List α) (h : randomPermutation A true rng s = ok out) : ∀ x ∈ out, x ∈ s :=
  drawLoop_subset A rng s _ _ _ out h

/-- C137: with independent, evenly distributed random numbers, every order of different lines is equally likely. -/
theorem C137_fair (files : Files) (input : List UInt8) (args : List (List UInt8)) (h : args.length ≤ 1) (hd : (linesOf (source files input args)).Nodup)
    (out : List (List UInt8)) (ho : out.Perm (linesOf (source files input args))) (N : Nat) (hN : (linesOf (source files input args)).length ≤ N) :
    Random.prob N (fun r => randomizerMain true reals r files input args = ok (0, asText out)) =
      ENNReal.ofReal (1 / ((linesOf (source files input args)).length.factorial : ℝ)) := by
  rw [← C135_permutation _ out hd ho N hN]
  refine prob_congr _ _ _ fun r hr => ?_
  rw [randomizerMain_eq _ _ _ _ _ _ h, if_pos rfl]
  have hnl := linesOf_no_newline _ (source files input args) (le_refl _)
  constructor
  · intro hb
    obtain ⟨o, h1, h2⟩ := bind_eq_ok.mp hb
    injection h2 with h2
    have h3 : asText o = asText out := (Prod.mk.inj h2).2
    have hsub : ∀ line ∈ o, line ∈ linesOf (source files input args) := randomPermutation_subset _ _ _ _ h1
    have : o = out := by
      rw [← asText_lines o fun l hl => hnl l (hsub l hl), h3, asText_lines out fun l hl => hnl l (ho.subset hl)]
    rw [h1, this]
  · intro e; rw [e, ok_bind]

/-- C137: more than one argument: nothing is read or written. -/
theorem C137_usage {D : Type} (random : Bool) (A : Arith D) (rng : Nat → D) (files : Files) (input : List UInt8) (a b : List UInt8) (t : List (List UInt8)) :
    randomizerMain random A rng files input (a :: b :: t) = ok (1, []) := rfl

-- two lines, the last one without a newline
example : linesOf (source (fun _ => none) [97, 10, 98] []) = [[97], [98]] ∧ asText [[98], [97]] = [98, 10, 97, 10] ∧
    (linesOf (source (fun _ => none) [97, 10, 98] [])).Nodup := by decide

example := C137_same_lines 53 (by omega) (fun _ => ⟨1, 2⟩) (fun _ => ⟨by show 1 < 2; decide, 1, -1, by decide, by simp [Random.Draw.val]⟩) (fun _ => none) [97, 10, 98] [] (by decide) (by decide)

end Strtk.Programs
