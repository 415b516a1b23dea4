import Verif.Trie.Model
import Verif.Outcome

/-!
# C118: trie objects and the nodes they own (strtk.hpp 19766-19768, 19782, 19849-19857)

Objects of the class `trie::prefix` are variables that hold the address of their first node.  The nodes under a first node are reached only through it, so one
cell of the heap holds a whole tree.  The class has no copy constructor and no assignment operator of its own: the compiler's copy the address.
-/

namespace Strtk.Trie
open Outcome

variable {κ ν : Type} [DecidableEq κ]

/-! ## Model -/

/-- The variables (`none`: not alive; `some head_`) and the heap (`none`: not allocated or freed).  Addresses from `brk` on were never used. -/
structure World (κ ν : Type) where
  var : Nat → Option (Option Nat)
  heap : Nat → Option (Node κ ν)
  brk : Nat

/-- Nothing exists. -/
def World.empty : World κ ν := ⟨fun _ => none, fun _ => none, 0⟩

/-- What a program does with tries. -/
inductive Op (κ ν : Type) where
  /-- `prefix t_i;` -/
  | create (i : Nat)
  /-- `t_i.insert(key, v)` -/
  | insert (i : Nat) (key : List κ) (v : ν)
  /-- `prefix t_i(t_j);` -/
  | copy (i j : Nat)
  /-- `t_i = t_j;` -/
  | assign (i j : Nat)
  /-- the end of the life of `t_i` -/
  | destroy (i : Nat)

/-- Change one entry. -/
def upd {β : Type} (f : Nat → β) (i : Nat) (b : β) : Nat → β := fun k => if k = i then b else f k

/-- The value of a variable; using one that is not alive is undefined. -/
def World.get (w : World κ ν) (i : Nat) : Outcome (Option Nat) :=
  match w.var i with
  | some h => ok h
  | none => ub

/-- The node at an address; reading a freed one is undefined. -/
def World.at (w : World κ ν) (a : Nat) : Outcome (Node κ ν) :=
  match w.heap a with
  | some n => ok n
  | none => ub

/-- `insert` on an object (19771-19799): a missing first node is allocated (19782), and the tree changes in place. -/
def World.ins (w : World κ ν) (i : Nat) (key : List κ) (v : ν) : Outcome (World κ ν) := do
  let head ← w.get i
  match key, head with
  | [], _ => ok w
  | _ :: _, some a => do
    let n ← w.at a
    ok { w with heap := upd w.heap a (Trie.insert (some n) key v) }
  | _ :: _, none => ok ⟨upd w.var i (some (some w.brk)), upd w.heap w.brk (Trie.insert none key v), w.brk + 1⟩

/-- The destructor (19849-19852): `delete head_` frees the first node and, through its destructor (19686-19699), all nodes under it; a null pointer is ignored,
a freed one is undefined. -/
def World.del (w : World κ ν) (i : Nat) : Outcome (World κ ν) := do
  let head ← w.get i
  match head with
  | none => ok { w with var := upd w.var i none }
  | some a => do
    let _ ← w.at a
    ok { w with var := upd w.var i none, heap := upd w.heap a none }

/-- One step of a program.  The constructor (19766-19768); the implicit copy constructor and assignment of the class (19654-19857) copy `head_`. -/
def World.step (w : World κ ν) : Op κ ν → Outcome (World κ ν)
  | .create i => ok { w with var := upd w.var i (some none) }
  | .insert i key v => w.ins i key v
  | .copy i j => do
    let h ← w.get j
    ok { w with var := upd w.var i (some h) }
  | .assign i j => do
    let _ ← w.get i
    let h ← w.get j
    ok { w with var := upd w.var i (some h) }
  | .destroy i => w.del i

/-- A program. -/
def World.run (w : World κ ν) : List (Op κ ν) → Outcome (World κ ν)
  | [] => ok w
  | op :: ops => do
    let w ← w.step op
    w.run ops

/-- `find` on an object (19802-19828). -/
def World.find (w : World κ ν) (i : Nat) (key : List κ) : Outcome (Option ν) := do
  let head ← w.get i
  match head with
  | none => ok (Trie.find none key)
  | some a => do
    let n ← w.at a
    ok (Trie.find (some n) key)

/-- `find_prefix` on an object (19831-19847). -/
def World.findPrefix (w : World κ ν) (i : Nat) (key : List κ) : Outcome Bool := do
  let head ← w.get i
  match head with
  | none => ok (Trie.findPrefix (none : Option (Node κ ν)) key)
  | some a => do
    let n ← w.at a
    ok (Trie.findPrefix (some n) key)

/-! ## Specification -/

/-- What a user expects: every living variable is a trie of its own, given by what was inserted into it; a copy starts with what the original holds. -/
abbrev Tries (κ ν : Type) := Nat → Option (List (List κ × ν))

/-- Something was inserted (the empty key is ignored, 19775-19776). -/
def Filled (history : List (List κ × ν)) : Prop := ∃ kv ∈ history, kv.1 ≠ []

/-- A step of a program that creates only variables that are not alive, uses only living ones, and copies only tries into which nothing was inserted yet. -/
inductive Step : Tries κ ν → Op κ ν → Tries κ ν → Prop
  | create (t : Tries κ ν) (i : Nat) : t i = none → Step t (.create i) (upd t i (some []))
  | insert (t : Tries κ ν) (i : Nat) (h : List (List κ × ν)) (key : List κ) (v : ν) : t i = some h → Step t (.insert i key v) (upd t i (some (h ++ [(key, v)])))
  | copy (t : Tries κ ν) (i j : Nat) (h : List (List κ × ν)) : t i = none → t j = some h → ¬ Filled h → Step t (.copy i j) (upd t i (some h))
  | assign (t : Tries κ ν) (i j : Nat) (h h' : List (List κ × ν)) : t i = some h' → t j = some h → ¬ Filled h → ¬ Filled h' → Step t (.assign i j) (upd t i (some h))
  | destroy (t : Tries κ ν) (i : Nat) (h : List (List κ × ν)) : t i = some h → Step t (.destroy i) (upd t i none)

/-- Such a program. -/
inductive Steps : Tries κ ν → List (Op κ ν) → Tries κ ν → Prop
  | nil (t : Tries κ ν) : Steps t [] t
  | cons (t t' t'' : Tries κ ν) (op : Op κ ν) (ops : List (Op κ ν)) : Step t op t' → Steps t' ops t'' → Steps t (op :: ops) t''

/-! ## C118 -/

theorem build_snoc (h : List (List κ × ν)) (key : List κ) (v : ν) : build (h ++ [(key, v)]) = Trie.insert (build h) key v := by
  simp [build, List.foldl_append]

theorem insert_isSome (head : Option (Node κ ν)) (key : List κ) (v : ν) (hk : key ≠ []) : ∃ n, Trie.insert head key v = some n := by
  cases key with
  | nil => exact absurd rfl hk
  | cons k ks => exact ⟨_, rfl⟩

theorem insert_nil (head : Option (Node κ ν)) (v : ν) : Trie.insert head [] v = head := rfl

theorem build_none (h : List (List κ × ν)) (hf : ¬ Filled h) : build h = none := by
  rcases List.eq_nil_or_concat h with rfl | ⟨pre, ⟨key, v⟩, rfl⟩
  · rfl
  · rw [List.concat_eq_append] at *
    rw [build_snoc]
    have hk : key = [] := by
      apply Classical.byContradiction
      intro hk
      exact hf ⟨(key, v), by simp, hk⟩
    rw [hk, insert_nil]
    exact build_none pre (fun ⟨kv, h1, h2⟩ => hf ⟨kv, by simp [h1], h2⟩)
termination_by h.length

theorem build_some (h : List (List κ × ν)) (hf : Filled h) : ∃ n, build h = some n := by
  rcases List.eq_nil_or_concat h with rfl | ⟨pre, ⟨key, v⟩, rfl⟩
  · obtain ⟨_, h1, _⟩ := hf; cases h1
  · rw [List.concat_eq_append] at *
    rw [build_snoc]
    by_cases hk : key = []
    · rw [hk, insert_nil]
      obtain ⟨kv, h1, h2⟩ := hf
      rcases List.mem_append.mp h1 with h1 | h1
      · exact build_some pre ⟨kv, h1, h2⟩
      · rw [List.mem_singleton] at h1; subst h1; exact absurd hk h2
    · exact insert_isSome _ _ _ hk
termination_by h.length

/-- The world agrees with what the user expects: every variable owns a tree of its own, and every allocated tree has an owner. -/
structure Agrees (w : World κ ν) (t : Tries κ ν) : Prop where
  dead : ∀ i, t i = none → w.var i = none
  live : ∀ i h, t i = some h → (w.var i = some none ∧ build h = none) ∨ ∃ a n, w.var i = some (some a) ∧ w.heap a = some n ∧ build h = some n
  own : ∀ i j a, w.var i = some (some a) → w.var j = some (some a) → i = j
  owned : ∀ a n, w.heap a = some n → ∃ i, w.var i = some (some a)
  brk : ∀ a, w.brk ≤ a → w.heap a = none
  low : ∀ i a, w.var i = some (some a) → a < w.brk

theorem upd_same {β : Type} (f : Nat → β) (i : Nat) (b : β) : upd f i b i = b := by simp [upd]
theorem upd_other {β : Type} (f : Nat → β) (i k : Nat) (b : β) (h : k ≠ i) : upd f i b k = f k := by simp [upd, h]

theorem empty_agrees : Agrees (World.empty : World κ ν) (fun _ => none) :=
  ⟨fun _ _ => rfl, by simp, by simp [World.empty], by simp [World.empty], by simp [World.empty], by simp [World.empty]⟩

/-- A variable becomes an empty trie. -/
theorem agrees_fresh (w : World κ ν) (t : Tries κ ν) (hw : Agrees w t) (i : Nat) (h : List (List κ × ν)) (hb : build h = none)
    (hi : t i = none ∨ ∃ h', t i = some h' ∧ build h' = none) : Agrees { w with var := upd w.var i (some none) } (upd t i (some h)) := by
  have hvi : ∀ a, w.var i ≠ some (some a) := by
    intro a ha
    rcases hi with hi | ⟨h', hi, hb'⟩
    · rw [hw.dead i hi] at ha; cases ha
    · rcases hw.live i h' hi with ⟨e, _⟩ | ⟨a', n, e1, e2, e3⟩
      · rw [e] at ha; cases ha
      · rw [hb'] at e3; cases e3
  have hv : ∀ k a, upd w.var i (some none) k = some (some a) → w.var k = some (some a) := by
    intro k a h1
    by_cases hk : k = i
    · subst hk; rw [upd_same] at h1; cases h1
    · rwa [upd_other _ _ _ _ hk] at h1
  refine ⟨?_, ?_, ?_, ?_, hw.brk, ?_⟩
  · intro k hk
    by_cases hki : k = i
    · subst hki; rw [upd_same] at hk; cases hk
    · rw [upd_other _ _ _ _ hki] at hk
      show upd w.var i (some none) k = none
      rw [upd_other _ _ _ _ hki]
      exact hw.dead k hk
  · intro k h' hk
    by_cases hki : k = i
    · subst hki
      rw [upd_same] at hk
      injection hk with hk
      subst hk
      exact Or.inl ⟨upd_same _ _ _, hb⟩
    · rw [upd_other _ _ _ _ hki] at hk
      show (upd w.var i (some none) k = _ ∧ _) ∨ ∃ a n, upd w.var i (some none) k = _ ∧ _
      rw [upd_other _ _ _ _ hki]
      exact hw.live k h' hk
  · intro k j a h1 h2
    exact hw.own k j a (hv k a h1) (hv j a h2)
  · intro a n ha
    obtain ⟨k, hk⟩ := hw.owned a n ha
    refine ⟨k, ?_⟩
    have hki : k ≠ i := fun e => hvi a (e ▸ hk)
    show upd w.var i (some none) k = _
    rw [upd_other _ _ _ _ hki, hk]
  · intro k a h1
    exact hw.low k a (hv k a h1)

theorem step_agrees (w : World κ ν) (t t' : Tries κ ν) (op : Op κ ν) (hw : Agrees w t) (hs : Step t op t') : ∃ w', w.step op = ok w' ∧ Agrees w' t' := by
  cases hs with
  | create i hi => exact ⟨_, rfl, agrees_fresh w t hw i [] rfl (Or.inl hi)⟩
  | copy i j h hi hj hf =>
    have hb := build_none h hf
    have hv : w.var j = some none := by
      rcases hw.live j h hj with ⟨e, _⟩ | ⟨a, n, _, _, e⟩
      · exact e
      · rw [hb] at e; cases e
    refine ⟨{ w with var := upd w.var i (some none) }, ?_, agrees_fresh w t hw i h hb (Or.inl hi)⟩
    simp only [World.step, World.get, hv, ok_bind]
  | assign i j h h' hi hj hf hf' =>
    have hb := build_none h hf
    have hb' := build_none h' hf'
    have hv : w.var j = some none := by
      rcases hw.live j h hj with ⟨e, _⟩ | ⟨a, n, _, _, e⟩
      · exact e
      · rw [hb] at e; cases e
    have hv' : w.var i = some none := by
      rcases hw.live i h' hi with ⟨e, _⟩ | ⟨a, n, _, _, e⟩
      · exact e
      · rw [hb'] at e; cases e
    refine ⟨{ w with var := upd w.var i (some none) }, ?_, agrees_fresh w t hw i h hb (Or.inr ⟨h', hi, hb'⟩)⟩
    simp only [World.step, World.get, hv, hv', ok_bind]
  | destroy i h hi =>
    rcases hw.live i h hi with ⟨e, _⟩ | ⟨a, n, e1, e2, e3⟩
    · refine ⟨{ w with var := upd w.var i none }, by simp only [World.step, World.del, World.get, e, ok_bind], ?_⟩
      have hv : ∀ k a, upd w.var i none k = some (some a) → w.var k = some (some a) := by
        intro k a h1
        by_cases hk : k = i
        · subst hk; rw [upd_same] at h1; cases h1
        · rwa [upd_other _ _ _ _ hk] at h1
      refine ⟨?_, ?_, ?_, ?_, hw.brk, fun k a h1 => hw.low k a (hv k a h1)⟩
      · intro k hk
        by_cases hki : k = i
        · subst hki; exact upd_same _ _ _
        · rw [upd_other _ _ _ _ hki] at hk
          show upd w.var i none k = none
          rw [upd_other _ _ _ _ hki]
          exact hw.dead k hk
      · intro k h' hk
        by_cases hki : k = i
        · subst hki; rw [upd_same] at hk; cases hk
        · rw [upd_other _ _ _ _ hki] at hk
          show (upd w.var i none k = _ ∧ _) ∨ ∃ a n, upd w.var i none k = _ ∧ _
          rw [upd_other _ _ _ _ hki]
          exact hw.live k h' hk
      · intro k j a h1 h2
        exact hw.own k j a (hv k a h1) (hv j a h2)
      · intro a n ha
        obtain ⟨k, hk⟩ := hw.owned a n ha
        refine ⟨k, ?_⟩
        have hki : k ≠ i := fun e' => by rw [e', e] at hk; cases hk
        show upd w.var i none k = _
        rw [upd_other _ _ _ _ hki, hk]
    · refine ⟨{ w with var := upd w.var i none, heap := upd w.heap a none }, ?_, ?_⟩
      · simp only [World.step, World.del, World.get, e1, ok_bind, World.at, e2]
      · have hv : ∀ k b, upd w.var i none k = some (some b) → w.var k = some (some b) ∧ k ≠ i := by
          intro k b h1
          by_cases hk : k = i
          · subst hk; rw [upd_same] at h1; cases h1
          · exact ⟨by rwa [upd_other _ _ _ _ hk] at h1, hk⟩
        refine ⟨?_, ?_, ?_, ?_, ?_, fun k b h1 => hw.low k b (hv k b h1).1⟩
        · intro k hk
          by_cases hki : k = i
          · subst hki; exact upd_same _ _ _
          · rw [upd_other _ _ _ _ hki] at hk
            show upd w.var i none k = none
            rw [upd_other _ _ _ _ hki]
            exact hw.dead k hk
        · intro k h' hk
          by_cases hki : k = i
          · subst hki; rw [upd_same] at hk; cases hk
          · rw [upd_other _ _ _ _ hki] at hk
            show (upd w.var i none k = _ ∧ _) ∨ ∃ b n, upd w.var i none k = _ ∧ upd w.heap a none b = _ ∧ _
            rw [upd_other _ _ _ _ hki]
            rcases hw.live k h' hk with hl | ⟨b, m, f1, f2, f3⟩
            · exact Or.inl hl
            · refine Or.inr ⟨b, m, f1, ?_, f3⟩
              have : b ≠ a := fun e => hki (hw.own k i a (e ▸ f1) e1)
              rw [upd_other _ _ _ _ this, f2]
        · intro k j b h1 h2
          exact hw.own k j b (hv k b h1).1 (hv j b h2).1
        · intro b m hb
          have hba : b ≠ a := by
            rintro rfl
            have : upd w.heap b none b = some m := hb
            rw [upd_same] at this
            cases this
          have hb' : w.heap b = some m := by
            have : upd w.heap a none b = some m := hb
            rwa [upd_other _ _ _ _ hba] at this
          obtain ⟨k, hk⟩ := hw.owned b m hb'
          refine ⟨k, ?_⟩
          have hki : k ≠ i := fun e' => by
            rw [e', e1] at hk
            injection hk with hk
            injection hk with hk
            exact hba hk.symm
          show upd w.var i none k = _
          rw [upd_other _ _ _ _ hki, hk]
        · intro b hb
          show upd w.heap a none b = none
          by_cases hba : b = a
          · subst hba; exact upd_same _ _ _
          · rw [upd_other _ _ _ _ hba]; exact hw.brk b hb
  | insert i h key v hi =>
    by_cases hk : key = []
    · subst hk
      have hb : build (h ++ [([], v)]) = build h := by rw [build_snoc, insert_nil]
      have hvi : ∃ hd, w.var i = some hd := by
        rcases hw.live i h hi with ⟨e, _⟩ | ⟨a, n, e, _⟩
        · exact ⟨_, e⟩
        · exact ⟨_, e⟩
      obtain ⟨hd, hvi⟩ := hvi
      refine ⟨w, ?_, ?_⟩
      · simp only [World.step, World.ins, World.get, hvi, ok_bind]
      · refine ⟨?_, ?_, hw.own, hw.owned, hw.brk, hw.low⟩
        · intro k hk
          by_cases hki : k = i
          · subst hki; rw [upd_same] at hk; cases hk
          · rw [upd_other _ _ _ _ hki] at hk
            exact hw.dead k hk
        · intro k h' hk
          by_cases hki : k = i
          · subst hki
            rw [upd_same] at hk
            injection hk with hk
            subst hk
            rw [hb]
            exact hw.live k h hi
          · rw [upd_other _ _ _ _ hki] at hk
            exact hw.live k h' hk
    · obtain ⟨c, cs, rfl⟩ : ∃ c cs, key = c :: cs := by
        cases key with
        | nil => exact absurd rfl hk
        | cons c cs => exact ⟨c, cs, rfl⟩
      rcases hw.live i h hi with ⟨e, hb⟩ | ⟨a, n, e1, e2, e3⟩
      · obtain ⟨m, hm⟩ := insert_isSome (none : Option (Node κ ν)) (c :: cs) v hk
        refine ⟨⟨upd w.var i (some (some w.brk)), upd w.heap w.brk (Trie.insert none (c :: cs) v), w.brk + 1⟩, ?_, ?_⟩
        · simp only [World.step, World.ins, World.get, e, ok_bind]
        · have hv : ∀ k a, k ≠ i → upd w.var i (some (some w.brk)) k = some (some a) → w.var k = some (some a) ∧ a < w.brk := by
            intro k a hk h1
            rw [upd_other _ _ _ _ hk] at h1
            exact ⟨h1, hw.low k a h1⟩
          have hvi : ∀ a, upd w.var i (some (some w.brk)) i = some (some a) → a = w.brk := by
            intro a h1
            rw [upd_same] at h1
            injection h1 with h1
            injection h1 with h1
            exact h1.symm
          refine ⟨?_, ?_, ?_, ?_, ?_, ?_⟩
          · intro k hk
            by_cases hki : k = i
            · subst hki; rw [upd_same] at hk; cases hk
            · rw [upd_other _ _ _ _ hki] at hk
              show upd w.var i _ k = none
              rw [upd_other _ _ _ _ hki]
              exact hw.dead k hk
          · intro k h' hk
            by_cases hki : k = i
            · subst hki
              rw [upd_same] at hk
              injection hk with hk
              subst hk
              refine Or.inr ⟨w.brk, m, upd_same _ _ _, ?_, ?_⟩
              · show upd w.heap w.brk _ w.brk = some m
                rw [upd_same, hm]
              · rw [build_snoc, hb, hm]
            · rw [upd_other _ _ _ _ hki] at hk
              show (upd w.var i _ k = _ ∧ _) ∨ ∃ b n, upd w.var i _ k = _ ∧ upd w.heap w.brk _ b = _ ∧ _
              rw [upd_other _ _ _ _ hki]
              rcases hw.live k h' hk with hl | ⟨b, n, f1, f2, f3⟩
              · exact Or.inl hl
              · refine Or.inr ⟨b, n, f1, ?_, f3⟩
                have := hw.low k b f1
                rw [upd_other _ _ _ _ (by omega), f2]
          · intro k j a h1 h2
            by_cases hki : k = i <;> by_cases hji : j = i
            · rw [hki, hji]
            · subst hki
              have := hvi a h1
              have := (hv j a hji h2).2
              omega
            · subst hji
              have := hvi a h2
              have := (hv k a hki h1).2
              omega
            · exact hw.own k j a (hv k a hki h1).1 (hv j a hji h2).1
          · intro a n ha
            by_cases hab : a = w.brk
            · exact ⟨i, by rw [hab]; exact upd_same _ _ _⟩
            · have ha' : w.heap a = some n := by
                have : upd w.heap w.brk _ a = some n := ha
                rwa [upd_other _ _ _ _ hab] at this
              obtain ⟨k, hk⟩ := hw.owned a n ha'
              have hki : k ≠ i := fun e' => by rw [e', e] at hk; cases hk
              refine ⟨k, ?_⟩
              show upd w.var i _ k = _
              rw [upd_other _ _ _ _ hki, hk]
          · intro a ha
            have ha : w.brk + 1 ≤ a := ha
            show upd w.heap w.brk _ a = none
            rw [upd_other _ _ _ _ (by omega)]
            exact hw.brk a (by omega)
          · intro k a h1
            show a < w.brk + 1
            by_cases hki : k = i
            · subst hki; have := hvi a h1; omega
            · have := (hv k a hki h1).2; omega
      · obtain ⟨m, hm⟩ := insert_isSome (some n) (c :: cs) v hk
        refine ⟨{ w with heap := upd w.heap a (Trie.insert (some n) (c :: cs) v) }, ?_, ?_⟩
        · simp only [World.step, World.ins, World.get, e1, ok_bind, World.at, e2]
        · refine ⟨?_, ?_, hw.own, ?_, ?_, hw.low⟩
          · intro k hk
            by_cases hki : k = i
            · subst hki; rw [upd_same] at hk; cases hk
            · rw [upd_other _ _ _ _ hki] at hk
              exact hw.dead k hk
          · intro k h' hk
            by_cases hki : k = i
            · subst hki
              rw [upd_same] at hk
              injection hk with hk
              subst hk
              refine Or.inr ⟨a, m, e1, ?_, ?_⟩
              · show upd w.heap a _ a = some m
                rw [upd_same, hm]
              · rw [build_snoc, e3, hm]
            · rw [upd_other _ _ _ _ hki] at hk
              rcases hw.live k h' hk with hl | ⟨b, n', f1, f2, f3⟩
              · exact Or.inl hl
              · refine Or.inr ⟨b, n', f1, ?_, f3⟩
                have hba : b ≠ a := fun e => hki (hw.own k i a (e ▸ f1) e1)
                show upd w.heap a _ b = some n'
                rw [upd_other _ _ _ _ hba, f2]
          · intro b n' hb
            by_cases hba : b = a
            · exact ⟨i, by rw [hba]; exact e1⟩
            · have hb' : w.heap b = some n' := by
                have : upd w.heap a _ b = some n' := hb
                rwa [upd_other _ _ _ _ hba] at this
              exact hw.owned b n' hb'
          · intro b hb
            have hba : b ≠ a := by
              have := hw.low i a e1
              have hb : w.brk ≤ b := hb
              omega
            show upd w.heap a _ b = none
            rw [upd_other _ _ _ _ hba]
            exact hw.brk b hb

theorem run_agrees (ops : List (Op κ ν)) : ∀ (w : World κ ν) (t t' : Tries κ ν), Agrees w t → Steps t ops t' → ∃ w', w.run ops = ok w' ∧ Agrees w' t' := by
  induction ops with
  | nil => intro w t t' hw hs; cases hs; exact ⟨w, rfl, hw⟩
  | cons op ops ih =>
    intro w t t' hw hs
    cases hs with
    | cons _ t1 _ _ _ h1 h2 =>
      obtain ⟨w1, e1, a1⟩ := step_agrees w t t1 op hw h1
      obtain ⟨w', e2, a2⟩ := ih w1 t1 t' a1 h2
      exact ⟨w', by rw [World.run, e1, ok_bind, e2], a2⟩

/-- **C118**: in every program that copies only tries into which nothing was inserted yet, nothing goes wrong, every trie answers as one built from exactly the
insertions made into it, and when no trie is left no node is left either. -/
theorem C118_tries_partial (ops : List (Op κ ν)) (t : Tries κ ν) (hs : Steps (fun _ => none) ops t) :
    ∃ w, World.empty.run ops = ok w ∧
      (∀ i h, t i = some h → ∀ key, w.find i key = ok (Trie.find (build h) key) ∧ w.findPrefix i key = ok (Trie.findPrefix (build h) key)) ∧
      ((∀ i, t i = none) → ∀ a, w.heap a = none) := by
  obtain ⟨w, e, hw⟩ := run_agrees ops World.empty (fun _ => none) t empty_agrees hs
  refine ⟨w, e, ?_, ?_⟩
  · intro i h hi key
    rcases hw.live i h hi with ⟨e1, e2⟩ | ⟨a, n, e1, e2, e3⟩
    · simp only [World.find, World.findPrefix, World.get, e1, ok_bind, e2, and_self]
    · simp only [World.find, World.findPrefix, World.get, e1, ok_bind, World.at, e2, e3, and_self]
  · intro hd a
    cases ha : w.heap a with
    | none => rfl
    | some n =>
      obtain ⟨i, hi⟩ := hw.owned a n ha
      rw [hw.dead i (hd i)] at hi
      cases hi

/-- Why only partial, 1: a copy of a filled trie and its original delete the same nodes.  Whatever else was done before, destroying both is undefined. -/
theorem C118_copy_deleted_twice (ops : List (Op κ ν)) (t : Tries κ ν) (hs : Steps (fun _ => none) ops t) (i j : Nat) (hij : i ≠ j) (h : List (List κ × ν))
    (hi : t i = none) (hj : t j = some h) (hf : Filled h) :
    World.empty.run (ops ++ [.copy i j, .destroy i, .destroy j]) = ub ∧ World.empty.run (ops ++ [.copy i j, .destroy j, .destroy i]) = ub ∧
      ∀ key, (World.empty.run (ops ++ [.copy i j, .destroy j]) >>= fun w => w.find i key) = ub := by
  obtain ⟨w, e, hw⟩ := run_agrees ops World.empty (fun _ => none) t empty_agrees hs
  have happ : ∀ (ops' : List (Op κ ν)) (w0 : World κ ν), w0.run (ops ++ ops') = w0.run ops >>= fun w => w.run ops' := by
    clear e hw hs
    induction ops with
    | nil => intro ops' w0; rfl
    | cons op ops ih =>
      intro ops' w0
      show (w0.step op >>= fun w1 => w1.run (ops ++ ops')) = (w0.step op >>= fun w1 => w1.run ops) >>= fun w => w.run ops'
      rw [bind_assoc]
      congr 1
      funext w1
      exact ih ops' w1
  obtain ⟨n, hn⟩ := build_some h hf
  obtain ⟨a, e1, e2⟩ : ∃ a, w.var j = some (some a) ∧ w.heap a = some n := by
    rcases hw.live j h hj with ⟨_, e2⟩ | ⟨a, m, e1, e2, e3⟩
    · rw [hn] at e2; cases e2
    · rw [hn] at e3
      injection e3 with e3
      exact ⟨a, e1, e3 ▸ e2⟩
  rw [happ, happ, happ, e]
  simp only [ok_bind, World.run, World.step, World.get, e1, World.del, upd, if_true, World.at, e2, hij, Ne.symm hij, if_false, ub_bind, World.find, true_and]
  intro key
  trivial

/-- Why only partial, 2: until then both show the insertions made into either of them. -/
theorem C118_copy_shares (ops : List (Op κ ν)) (t : Tries κ ν) (hs : Steps (fun _ => none) ops t) (i j : Nat) (hij : i ≠ j) (h : List (List κ × ν))
    (hi : t i = none) (hj : t j = some h) (hf : Filled h) (key : List κ) (v : ν) (q : List κ) :
    ∃ w, World.empty.run (ops ++ [.copy i j, .insert i key v]) = ok w ∧ w.find j q = ok (Trie.find (build (h ++ [(key, v)])) q) := by
  obtain ⟨w, e, hw⟩ := run_agrees ops World.empty (fun _ => none) t empty_agrees hs
  have happ : ∀ (ops' : List (Op κ ν)) (w0 : World κ ν), w0.run (ops ++ ops') = w0.run ops >>= fun w => w.run ops' := by
    clear e hw hs
    induction ops with
    | nil => intro ops' w0; rfl
    | cons op ops ih =>
      intro ops' w0
      show (w0.step op >>= fun w1 => w1.run (ops ++ ops')) = (w0.step op >>= fun w1 => w1.run ops) >>= fun w => w.run ops'
      rw [bind_assoc]
      congr 1
      funext w1
      exact ih ops' w1
  obtain ⟨n, hn⟩ := build_some h hf
  obtain ⟨a, e1, e2⟩ : ∃ a, w.var j = some (some a) ∧ w.heap a = some n := by
    rcases hw.live j h hj with ⟨_, e2⟩ | ⟨a, m, e1, e2, e3⟩
    · rw [hn] at e2; cases e2
    · rw [hn] at e3
      injection e3 with e3
      exact ⟨a, e1, e3 ▸ e2⟩
  rw [happ, e, build_snoc, hn]
  cases key with
  | nil =>
    refine ⟨{ w with var := upd w.var i (some (some a)) }, ?_, ?_⟩
    · simp only [ok_bind, World.run, World.step, World.get, e1, World.ins, upd, if_true]
    · simp only [World.find, World.get, upd, if_neg (Ne.symm hij), e1, ok_bind, World.at, e2, insert_nil]
  | cons c cs =>
    obtain ⟨m, hm⟩ := insert_isSome (some n) (c :: cs) v (by simp)
    refine ⟨{ w with var := upd w.var i (some (some a)), heap := upd w.heap a (Trie.insert (some n) (c :: cs) v) }, ?_, ?_⟩
    · simp only [ok_bind, World.run, World.step, World.get, e1, World.ins, upd, if_true, World.at, e2]
    · simp only [World.find, World.get, upd, if_neg (Ne.symm hij), e1, ok_bind, World.at, if_true, hm]

/-- Why only partial, 3: the nodes of a filled trie that is assigned to are lost; they are there when no trie is left. -/
theorem C118_assign_leaks (ops : List (Op κ ν)) (t : Tries κ ν) (hs : Steps (fun _ => none) ops t) (i j : Nat) (hij : i ≠ j) (h h' : List (List κ × ν))
    (hi : t i = some h) (hj : t j = some h') (hf : Filled h) (hf' : ¬ Filled h') (hothers : ∀ k, k ≠ i → k ≠ j → t k = none) :
    ∃ w, World.empty.run (ops ++ [.assign i j, .destroy i, .destroy j]) = ok w ∧ (∀ k, w.var k = none) ∧ ∃ a n, w.heap a = some n := by
  obtain ⟨w, e, hw⟩ := run_agrees ops World.empty (fun _ => none) t empty_agrees hs
  have happ : ∀ (ops' : List (Op κ ν)) (w0 : World κ ν), w0.run (ops ++ ops') = w0.run ops >>= fun w => w.run ops' := by
    clear e hw hs
    induction ops with
    | nil => intro ops' w0; rfl
    | cons op ops ih =>
      intro ops' w0
      show (w0.step op >>= fun w1 => w1.run (ops ++ ops')) = (w0.step op >>= fun w1 => w1.run ops) >>= fun w => w.run ops'
      rw [bind_assoc]
      congr 1
      funext w1
      exact ih ops' w1
  obtain ⟨n, hn⟩ := build_some h hf
  obtain ⟨a, e1, e2⟩ : ∃ a, w.var i = some (some a) ∧ w.heap a = some n := by
    rcases hw.live i h hi with ⟨_, e2⟩ | ⟨a, m, e1, e2, e3⟩
    · rw [hn] at e2; cases e2
    · rw [hn] at e3
      injection e3 with e3
      exact ⟨a, e1, e3 ▸ e2⟩
  have hv : w.var j = some none := by
    rcases hw.live j h' hj with ⟨e, _⟩ | ⟨a, n, _, _, e⟩
    · exact e
    · rw [build_none h' hf'] at e; cases e
  refine ⟨{ w with var := upd (upd (upd w.var i (some none)) i none) j none }, ?_, ?_, a, n, e2⟩
  · rw [happ, e]
    simp only [ok_bind, World.run, World.step, World.get, e1, hv, World.del, upd, if_true, Ne.symm hij, if_false]
  · intro k
    show upd (upd (upd w.var i (some none)) i none) j none k = none
    by_cases hkj : k = j
    · subst hkj; exact upd_same _ _ _
    · rw [upd_other _ _ _ _ hkj]
      by_cases hki : k = i
      · subst hki; exact upd_same _ _ _
      · rw [upd_other _ _ _ _ hki, upd_other _ _ _ _ hki]
        exact hw.dead k (hothers k hki hkj)

/-- Two tries with insertions in turn, and a copy of an empty one. -/
example : Steps (fun _ => none) [.create 0, .copy 1 0, .insert 0 [1, 2] 7, .insert 1 [1, 3] 8, .destroy 0]
    (upd (upd (upd (upd (upd (fun _ => none) 0 (some [])) 1 (some [])) 0 (some [([1, 2], 7)])) 1 (some [([1, 3], 8)])) 0 (none : Option (List (List Nat × Nat)))) :=
  .cons _ _ _ _ _ (.create _ _ rfl) (.cons _ _ _ _ _ (.copy _ _ _ [] rfl rfl (by simp [Filled])) (.cons _ _ _ _ _ (.insert _ _ [] _ _ rfl)
    (.cons _ _ _ _ _ (.insert _ _ [] _ _ rfl) (.cons _ _ _ _ _ (.destroy _ _ _ rfl) (.nil _)))))

example : (World.empty.run [.create 0, .copy 1 0, .insert 0 [1, 2] 7, .insert 1 [1, 3] 8, .destroy 0] >>= fun (w : World Nat Nat) => w.find 1 [1, 3]) = ok (some 8) := by
  decide +kernel

end Strtk.Trie
