import Verif.Boxes.Model

/-!
# C98-C101: keys and values of maps, deleting through containers of pointers, unique elements
-/

namespace Strtk.Boxes
open Outcome

variable {K T V : Type}

/-! ## C98 -/

theorem keyLoop_eq (map : List (K × T)) : ∀ out, keyLoop map out = out ++ map.map Prod.fst := by
  induction map with
  | nil => intro out; simp [keyLoop]
  | cons e rest ih => intro out; simp [keyLoop, ih]

/-- **C98**: the keys are appended in the map's order. -/
theorem C98_key_list (map : List (K × T)) (seq : List K) : makeKeyList map seq = seq ++ map.map Prod.fst := by
  unfold makeKeyList
  split
  · rename_i h; simp [h]
  · exact keyLoop_eq map seq

theorem setInsert_mem [LinearOrder K] (x : K) (l : List K) : ∀ y, y ∈ setInsert x l ↔ y = x ∨ y ∈ l := by
  induction l with
  | nil => intro y; simp [setInsert]
  | cons a l ih =>
    intro y
    simp only [setInsert]
    split
    · simp
    · split
      · simp only [List.mem_cons, ih]; tauto
      · rename_i h1 h2
        have : x = a := le_antisymm (not_lt.mp h2) (not_lt.mp h1)
        subst this
        simp

theorem setInsert_sorted [LinearOrder K] (x : K) (l : List K) (h : l.Pairwise (· < ·)) : (setInsert x l).Pairwise (· < ·) := by
  induction l with
  | nil => simp [setInsert]
  | cons a l ih =>
    have hp := List.pairwise_cons.mp h
    simp only [setInsert]
    split
    · rename_i h1
      refine List.pairwise_cons.mpr ⟨?_, h⟩
      intro b hb
      rcases List.mem_cons.mp hb with rfl | hb
      · exact h1
      · exact lt_trans h1 (hp.1 b hb)
    · split
      · rename_i h1 h2
        refine List.pairwise_cons.mpr ⟨?_, ih hp.2⟩
        intro b hb
        rcases (setInsert_mem x l b).mp hb with rfl | hb
        · exact h2
        · exact hp.1 b hb
      · exact h

/-- **C98**: into a set: the result is a set again and contains the old elements and the keys, nothing else. -/
theorem C98_key_set [LinearOrder K] (map : List (K × T)) (set : List K) (h : set.Pairwise (· < ·)) :
    (keySetLoop map set).Pairwise (· < ·) ∧ ∀ k, k ∈ keySetLoop map set ↔ k ∈ set ∨ ∃ e ∈ map, e.1 = k := by
  induction map generalizing set with
  | nil => exact ⟨h, fun k => by simp [keySetLoop]⟩
  | cons e rest ih =>
    obtain ⟨h1, h2⟩ := ih (setInsert e.1 set) (setInsert_sorted _ _ h)
    refine ⟨h1, fun k => ?_⟩
    rw [keySetLoop, h2 k, setInsert_mem]
    constructor
    · rintro ((rfl | hk) | ⟨e', he', rfl⟩)
      · exact Or.inr ⟨e, List.mem_cons_self .., rfl⟩
      · exact Or.inl hk
      · exact Or.inr ⟨e', List.mem_cons_of_mem _ he', rfl⟩
    · rintro (hk | ⟨e', he', rfl⟩)
      · exact Or.inl (Or.inr hk)
      · rcases List.mem_cons.mp he' with rfl | he'
        · exact Or.inl (Or.inl rfl)
        · exact Or.inr ⟨e', he', rfl⟩

theorem multisetInsert_perm [LinearOrder K] (x : K) (l : List K) : (multisetInsert x l).Perm (x :: l) := by
  induction l with
  | nil => simp [multisetInsert]
  | cons a l ih =>
    simp only [multisetInsert]
    split
    · exact List.Perm.refl _
    · exact (ih.cons a).trans (List.Perm.swap x a l)

theorem multisetInsert_sorted [LinearOrder K] (x : K) (l : List K) (h : l.Pairwise (· ≤ ·)) : (multisetInsert x l).Pairwise (· ≤ ·) := by
  induction l with
  | nil => simp [multisetInsert]
  | cons a l ih =>
    have hp := List.pairwise_cons.mp h
    simp only [multisetInsert]
    split
    · rename_i h1
      refine List.pairwise_cons.mpr ⟨?_, h⟩
      intro b hb
      rcases List.mem_cons.mp hb with rfl | hb
      · exact h1.le
      · exact le_trans h1.le (hp.1 b hb)
    · rename_i h1
      refine List.pairwise_cons.mpr ⟨?_, ih hp.2⟩
      intro b hb
      rcases List.mem_cons.mp ((multisetInsert_perm x l).mem_iff.mp hb) with rfl | hb
      · exact not_lt.mp h1
      · exact hp.1 b hb

/-- **C98**: into a multiset: sorted, and the old elements together with the keys, with multiplicities. -/
theorem C98_key_multiset [LinearOrder K] (map : List (K × T)) (set : List K) (h : set.Pairwise (· ≤ ·)) :
    (keyMultisetLoop map set).Pairwise (· ≤ ·) ∧ (keyMultisetLoop map set).Perm (set ++ map.map Prod.fst) := by
  induction map generalizing set with
  | nil => exact ⟨h, by simp [keyMultisetLoop]⟩
  | cons e rest ih =>
    obtain ⟨h1, h2⟩ := ih (multisetInsert e.1 set) (multisetInsert_sorted _ _ h)
    refine ⟨h1, h2.trans ?_⟩
    rw [List.map_cons]
    exact ((multisetInsert_perm e.1 set).append_right _).trans List.perm_middle.symm

/-- Non-vacuity: keys 1 and 3 into the set {2}. -/
example : keySetLoop [(1, 'a'), (3, 'b')] [2] = [1, 2, 3] ∧ [2].Pairwise (· < ·) := by decide

/-! ## C99 -/

theorem valueLoop_eq [DecidableEq K] (key : K) (map : List (K × T)) : ∀ out,
    valueLoop key map out = out ++ (map.takeWhile fun e => key = e.1).map Prod.snd := by
  induction map with
  | nil => intro out; simp [valueLoop]
  | cons e rest ih =>
    intro out
    simp only [valueLoop]
    split
    · rename_i h
      rw [ih, List.takeWhile_cons_of_pos (by simpa using h)]
      simp
    · rename_i h; simp [h]

theorem takeWhile_eq_filter [LinearOrder K] (key : K) (l : List (K × T)) (h : l.Pairwise fun a b => a.1 ≤ b.1)
    (hk : ∀ e ∈ l, key ≤ e.1) : l.takeWhile (fun e => decide (key = e.1)) = l.filter fun e => decide (key = e.1) := by
  induction l with
  | nil => rfl
  | cons e l ih =>
    have hp := List.pairwise_cons.mp h
    by_cases he : key = e.1
    · simp only [List.takeWhile_cons, List.filter_cons, he, decide_true, if_true]
      have := ih hp.2 fun f hf => hk f (List.mem_cons_of_mem _ hf)
      rw [he] at this
      rw [this]
    · have hlt : key < e.1 := lt_of_le_of_ne (hk e (List.mem_cons_self ..)) he
      have : ∀ f ∈ l, ¬ (key = f.1) := fun f hf e' => absurd (hp.1 f hf) (not_le.mpr (e' ▸ hlt))
      rw [List.takeWhile_cons_of_neg (by simpa using he), List.filter_cons_of_neg (by simpa using he), eq_comm, List.filter_eq_nil_iff]
      intro f hf
      simpa using this f hf

/-- **Specification.** What the standard says about the result `found` of `multimap::find(key)`: an entry with that key, or the end when there
is none. -/
def FindResult (map : List (K × T)) (key : K) (found : Nat) : Prop :=
  (∃ e, map[found]? = some e ∧ e.1 = key) ∨ (found = map.length ∧ ∀ e ∈ map, e.1 ≠ key)

/-- **C99** (part): if `find` returns the first entry of its key, all values of the key are appended, in order, and no others. Missing: the
standard does not promise the first entry, see the next theorem. -/
theorem C99_value_list_partial [LinearOrder K] (map : List (K × T)) (hs : map.Pairwise fun a b => a.1 ≤ b.1) (key : K) (found : Nat)
    (hf : FindResult map key found) (hfirst : ∀ e ∈ map.take found, e.1 ≠ key) (out : List T) :
    makeValueList map key found out = out ++ (map.filter fun e => key = e.1).map Prod.snd := by
  have main : valueLoop key (map.drop found) out = out ++ (map.filter fun e => key = e.1).map Prod.snd := by
    rw [valueLoop_eq]
    congr 2
    have hsplit : map.filter (fun e => decide (key = e.1)) = (map.drop found).filter (fun e => decide (key = e.1)) := by
      conv_lhs => rw [← List.take_append_drop found map]
      rw [List.filter_append, List.filter_eq_nil_iff.mpr, List.nil_append]
      intro e he
      simpa using fun h : key = e.1 => hfirst e he h.symm
    rw [hsplit]
    apply takeWhile_eq_filter key _ (hs.sublist (List.drop_sublist _ _))
    intro e he
    rcases hf with ⟨f, hf, rfl⟩ | ⟨rfl, _⟩
    · obtain ⟨hlt, heq⟩ := List.getElem?_eq_some_iff.mp hf
      rw [List.drop_eq_getElem_cons hlt, heq] at he
      rcases List.mem_cons.mp he with rfl | he
      · exact le_refl _
      · have hp := hs.sublist (List.drop_sublist found map)
        rw [List.drop_eq_getElem_cons hlt, heq] at hp
        exact (List.pairwise_cons.mp hp).1 e he
    · simp at he
  unfold makeValueList
  split
  · rename_i h; subst h; simp
  · exact main

/-- Non-vacuity: three entries, two values of the key 2. -/
example : FindResult [(1, 'a'), (2, 'b'), (2, 'c')] 2 1 ∧ (∀ e ∈ [(1, 'a'), (2, 'b'), (2, 'c')].take 1, e.1 ≠ 2) ∧
    makeValueList [(1, 'a'), (2, 'b'), (2, 'c')] 2 1 [] = ['b', 'c'] := ⟨Or.inl ⟨(2, 'b'), rfl, rfl⟩, by decide, by decide⟩

/-- **C99** (part): whatever entry of the key `find` returns, what is appended is an end piece of the values of that key, and no value of
another key. -/
theorem C99_value_suffix [LinearOrder K] (map : List (K × T)) (hs : map.Pairwise fun a b => a.1 ≤ b.1) (key : K) (found : Nat)
    (hf : FindResult map key found) (out : List T) :
    ∃ vs, makeValueList map key found out = out ++ vs ∧ vs <:+ (map.filter fun e => key = e.1).map Prod.snd := by
  refine ⟨((map.drop found).filter fun e => key = e.1).map Prod.snd, ?_, ?_⟩
  · unfold makeValueList
    split
    · rename_i h; subst h; simp
    · rw [valueLoop_eq]
      congr 2
      apply takeWhile_eq_filter key _ (hs.sublist (List.drop_sublist _ _))
      intro e he
      rcases hf with ⟨f, hf, rfl⟩ | ⟨rfl, _⟩
      · obtain ⟨hlt, heq⟩ := List.getElem?_eq_some_iff.mp hf
        rw [List.drop_eq_getElem_cons hlt, heq] at he
        rcases List.mem_cons.mp he with rfl | he
        · exact le_refl _
        · have hp := hs.sublist (List.drop_sublist found map)
          rw [List.drop_eq_getElem_cons hlt, heq] at hp
          exact (List.pairwise_cons.mp hp).1 e he
      · simp at he
  · conv_rhs => rw [← List.take_append_drop found map, List.filter_append, List.map_append]
    exact List.suffix_append _ _

/-- **C99** (negative result): a `find` allowed by the standard makes the list incomplete. -/
theorem C99_incomplete : ∃ found, FindResult [(2, 'b'), (2, 'c')] 2 found ∧
    makeValueList [(2, 'b'), (2, 'c')] 2 found [] ≠ ([(2, 'b'), (2, 'c')].filter fun e => 2 = e.1).map Prod.snd :=
  ⟨1, Or.inl ⟨(2, 'c'), rfl, rfl⟩, by decide⟩

/-! ## C100 -/

/-- **Specification.** The non-null pointers of the container lead to living objects and each occurs once. -/
def Owning (seq : List Nat) (h : Heap V) : Prop := (seq.filter (· ≠ 0)).Nodup ∧ ∀ p ∈ seq, p ≠ 0 → (h p).isSome

theorem owning_cons {p : Nat} {ps : List Nat} {h : Heap V} (hp : p ≠ 0) (ho : Owning (p :: ps) h) :
    (h p).isSome ∧ p ∉ ps ∧ Owning ps (fun q => if q = p then none else h q) := by
  obtain ⟨h1, h2⟩ := ho
  rw [List.filter_cons_of_pos (by simpa using hp), List.nodup_cons] at h1
  have hnot : p ∉ ps := fun hin => h1.1 (List.mem_filter.mpr ⟨hin, by simpa using hp⟩)
  refine ⟨h2 p (List.mem_cons_self ..) hp, hnot, h1.2, ?_⟩
  intro q hq hq0
  have hne : q ≠ p := fun e => hnot (e ▸ hq)
  simp only [if_neg hne]
  exact h2 q (List.mem_cons_of_mem _ hq) hq0

theorem deleteLoop_ok (seq : List Nat) : ∀ h : Heap V, Owning seq h →
    deleteLoop seq h = ok fun q => if q ∈ seq ∧ q ≠ 0 then none else h q := by
  induction seq with
  | nil => intro h _; simp [deleteLoop]
  | cons p ps ih =>
    intro h ho
    simp only [deleteLoop, delete]
    by_cases hp : p = 0
    · subst hp
      rw [if_pos rfl, ok_bind, ih h]
      · congr 1; funext q
        by_cases hq : q = 0
        · simp [hq]
        · simp [hq]
      · refine ⟨?_, fun q hq => ho.2 q (List.mem_cons_of_mem _ hq)⟩
        have := ho.1
        rwa [List.filter_cons_of_neg (by simp)] at this
    · obtain ⟨h1, h2, h3⟩ := owning_cons hp ho
      obtain ⟨v, hv⟩ := Option.isSome_iff_exists.mp h1
      rw [if_neg hp, hv]
      simp only [ok_bind]
      rw [ih _ h3]
      congr 1; funext q
      by_cases hq : q = p
      · subst hq; simp [hp]
      · simp [hq]

/-- **C100**: `delete_all` on a container of pointers that each lead to a living object and occur once (null pointers are allowed) destroys exactly
these objects, once each, and empties the container. -/
theorem C100_delete_all (seq : List Nat) (h : Heap V) (ho : Owning seq h) :
    ∃ h', deleteAll seq h = ok (h', []) ∧ ∀ q, h' q = if q ∈ seq ∧ q ≠ 0 then none else h q := by
  refine ⟨_, ?_, fun q => rfl⟩
  unfold deleteAll
  rw [deleteLoop_ok seq h ho]
  rfl

/-- Non-vacuity: two objects and a null pointer. -/
example : Owning [5, 0, 7] (fun p => if p = 5 ∨ p = 7 ∨ p = 9 then some 'x' else none) := by
  refine ⟨by decide, ?_⟩
  intro p hp h0
  simp only [List.mem_cons, List.not_mem_nil, or_false] at hp
  rcases hp with rfl | rfl | rfl
  · rfl
  · exact absurd rfl h0
  · rfl

/-- **C100**: the condition is necessary: with a dead or a repeated pointer `delete_all` is undefined. -/
theorem C100_needs_owning (seq : List Nat) : ∀ h : Heap V, ¬ Owning seq h → deleteAll seq h = ub := by
  have key : ∀ h : Heap V, ¬ Owning seq h → deleteLoop seq h = ub := by
    induction seq with
    | nil => intro h hn; exact absurd ⟨by simp, by simp⟩ hn
    | cons p ps ih =>
      intro h hn
      simp only [deleteLoop, delete]
      by_cases hp : p = 0
      · subst hp
        rw [if_pos rfl, ok_bind]
        apply ih
        rintro ⟨h1, h2⟩
        apply hn
        refine ⟨by rwa [List.filter_cons_of_neg (by simp)], ?_⟩
        intro q hq h0
        rcases List.mem_cons.mp hq with rfl | hq
        · exact absurd rfl h0
        · exact h2 q hq h0
      · rw [if_neg hp]
        cases hv : h p with
        | none => rfl
        | some v =>
          simp only [ok_bind]
          apply ih
          rintro ⟨h1, h2⟩
          have hnot : p ∉ ps := by
            intro hin
            have := h2 p hin hp
            simp at this
          apply hn
          refine ⟨?_, ?_⟩
          · rw [List.filter_cons_of_pos (by simpa using hp), List.nodup_cons]
            exact ⟨fun hin => hnot (List.mem_filter.mp hin).1, h1⟩
          · intro q hq h0
            rcases List.mem_cons.mp hq with rfl | hq
            · simp [hv]
            · have := h2 q hq h0
              beta_reduce at this
              rwa [if_neg (fun e : q = p => hnot (e ▸ hq))] at this
  intro h hn
  unfold deleteAll
  rw [key h hn]
  rfl

theorem deleteIfLoop_spec (p : V → Bool) (f : Nat → V) : ∀ (fuel : Nat) (kept rest : List Nat) (h : Heap V), rest.length < fuel → rest.Nodup →
    (∀ q ∈ rest, q ≠ 0 ∧ h q = some (f q)) →
    deleteIfLoop p fuel (kept ++ rest) kept.length h =
      ok ((fun q => if q ∈ rest ∧ p (f q) then none else h q), kept ++ rest.filter fun q => !p (f q)) := by
  intro fuel
  induction fuel with
  | zero => intro kept rest h hl; omega
  | succ fuel ih =>
    intro kept rest h hl hn hlive
    cases rest with
    | nil => simp [deleteIfLoop]
    | cons q rest =>
      have hn' := List.nodup_cons.mp hn
      obtain ⟨hq0, hq⟩ := hlive q (List.mem_cons_self ..)
      simp only [List.length_cons] at hl
      rw [deleteIfLoop, if_pos (by simp), deref_append_cons, ok_bind]
      simp only [follow, hq, ok_bind]
      by_cases hp : p (f q) = true
      · rw [if_pos hp]
        simp only [delete, if_neg hq0, hq, ok_bind]
        rw [List.eraseIdx_append_of_length_le (Nat.le_refl _), Nat.sub_self, List.eraseIdx_cons_zero,
          ih kept rest _ (by omega) hn'.2]
        · congr 2
          · funext x
            by_cases hx : x = q
            · subst hx; simp [hp]
            · simp [hx]
          · rw [List.filter_cons_of_neg (by simp [hp])]
        · intro x hx
          have hne : x ≠ q := fun e => hn'.1 (e ▸ hx)
          simp only [if_neg hne]
          exact hlive x (List.mem_cons_of_mem _ hx)
      · rw [if_neg hp]
        have e : kept ++ q :: rest = (kept ++ [q]) ++ rest := by simp
        have e2 : kept.length + 1 = (kept ++ [q]).length := by simp
        rw [e, e2, ih (kept ++ [q]) rest h (by omega) hn'.2 fun x hx => hlive x (List.mem_cons_of_mem _ hx)]
        congr 2
        · funext x
          by_cases hx : x = q
          · subst hx; simp [hp, hn'.1]
          · simp [hx]
        · rw [List.filter_cons_of_pos (by simp [hp])]
          simp

/-- **C100**: `delete_if` on distinct pointers to living objects destroys exactly the objects satisfying the predicate, leaves all others, and
keeps the other pointers in their order. -/
theorem C100_delete_if (p : V → Bool) (seq : List Nat) (h : Heap V) (f : Nat → V) (hn : seq.Nodup)
    (hlive : ∀ q ∈ seq, q ≠ 0 ∧ h q = some (f q)) :
    ∃ h', deleteIf p seq h = ok (h', seq.filter fun q => !p (f q)) ∧ ∀ q, h' q = if q ∈ seq ∧ p (f q) = true then none else h q :=
  ⟨_, by simpa [deleteIf] using deleteIfLoop_spec p f (seq.length + 1) [] seq h (by omega) hn hlive, fun q => rfl⟩

/-- Non-vacuity. -/
example : [5, 7].Nodup ∧ ∀ q ∈ [5, 7], q ≠ 0 ∧ (fun p => if p = 5 ∨ p = 7 then some (p + 1) else none) q = some (q + 1) := by decide

/-! ## C101 -/

theorem uniqueCopy_spec [LinearOrder K] (l : List K) : ∀ last, (last :: l).Pairwise (· ≤ ·) →
    (last :: uniqueCopy last l).Pairwise (· < ·) ∧ ∀ x, x ∈ last :: uniqueCopy last l ↔ x ∈ last :: l := by
  induction l with
  | nil => intro last _; simp [uniqueCopy]
  | cons a l ih =>
    intro last h
    have hp := List.pairwise_cons.mp h
    simp only [uniqueCopy]
    split
    · rename_i he
      subst he
      obtain ⟨h1, h2⟩ := ih last hp.2
      refine ⟨h1, fun x => ?_⟩
      rw [h2 x]; simp
    · rename_i he
      obtain ⟨h1, h2⟩ := ih a hp.2
      refine ⟨List.pairwise_cons.mpr ⟨?_, h1⟩, fun x => ?_⟩
      · intro b hb
        have hla : last < a := lt_of_le_of_ne (hp.1 a (List.mem_cons_self ..)) he
        rcases List.mem_cons.mp hb with rfl | hb
        · exact hla
        · exact lt_trans hla ((List.pairwise_cons.mp h1).1 b hb)
      · rw [List.mem_cons, h2 x, ← List.mem_cons]

/-- **C101**: `extract_unique` puts out every element of the range exactly once, in strictly increasing order, and nothing else. -/
theorem C101_extract_unique [LinearOrder K] (s : List K) :
    (extractUnique s).Pairwise (· < ·) ∧ ∀ x, x ∈ extractUnique s ↔ x ∈ s := by
  have hperm : (s.insertionSort (· ≤ ·)).Perm s := List.perm_insertionSort _ s
  have hsorted : (s.insertionSort (· ≤ ·)).Pairwise (· ≤ ·) := List.pairwise_insertionSort _ s
  unfold extractUnique
  split
  · rename_i h
    rw [h] at hperm
    have : s = [] := hperm.nil_eq.symm
    subst this
    simp
  · rename_i a l h
    rw [h] at hperm hsorted
    obtain ⟨h1, h2⟩ := uniqueCopy_spec l a hsorted
    exact ⟨h1, fun x => (h2 x).trans hperm.mem_iff⟩

/-- Non-vacuity. -/
example : extractUnique [3, 1, 3, 2, 1] = [1, 2, 3] := by decide +kernel

end Strtk.Boxes
