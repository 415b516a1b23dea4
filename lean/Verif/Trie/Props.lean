import Verif.Trie.Model
import Mathlib.Data.List.Induction

/-! # The prefix trie (C53) -/

namespace Strtk.Trie

variable {κ ν : Type} [DecidableEq κ]

/-- The node at the end of a path. -/
def nodeAt : List κ → Node κ ν → Option (Node κ ν)
  | [], n => some n
  | k :: ks, n => (getNode k n.children).bind (nodeAt ks)

theorem getNode_onChild (k k' : κ) (f : Node κ ν → Node κ ν) (hf : ∀ n, (f n).key = n.key) (l : List (Node κ ν)) :
    getNode k' (onChild k f l) = if k' = k then some (f ((getNode k l).getD (.new k))) else getNode k' l := by
  induction l with
  | nil =>
    simp only [onChild, getNode, hf, Option.getD_none]
    rfl
  | cons n l ih =>
    unfold onChild
    by_cases h : k = n.key
    · rw [if_pos h]
      simp only [getNode, hf, ← h, if_true, Option.getD_some]
      by_cases h2 : k' = k <;> simp [h2]
    · rw [if_neg h]
      simp only [getNode, if_neg h, ih]
      by_cases h2 : k' = n.key
      · have : k' ≠ k := fun e => h (e ▸ h2)
        simp [h2, Ne.symm h]
      · simp [h2]

theorem key_insertFrom : ∀ (ks : List κ) (v : ν) (n : Node κ ν), (insertFrom ks v n).key = n.key
  | [], _, _ => rfl
  | [_], _, .mk _ _ _ => rfl
  | _ :: _ :: _, _, .mk _ _ _ => rfl

/-- What is at the end of path `q`: a value if there is a node (`some`), and the value it holds (`some (some v)`). -/
def lookup (q : List κ) (n : Node κ ν) : Option (Option ν) := (nodeAt q n).map Node.value

theorem lookup_new (k : κ) (q : List κ) : lookup q (.new k : Node κ ν) = if q = [] then some none else none := by
  cases q with
  | nil => rfl
  | cons a q => simp [lookup, nodeAt, Node.new, Node.children, getNode]

theorem insertFrom_cons (k : κ) (ks : List κ) (v : ν) (n : Node κ ν) :
    insertFrom (k :: ks) v n = .mk n.key (if ks = [] then some v else n.value) (onChild k (insertFrom ks v) n.children) := by
  cases n with
  | mk key val c =>
    cases ks with
    | nil =>
      have h : (insertFrom [] v : Node κ ν → Node κ ν) = id := rfl
      simp only [insertFrom, assign, h, if_true]
      rfl
    | cons a ks => simp [insertFrom, Node.key, Node.value, Node.children]

/-- Inserting `ks` with value `v`: the nodes on the path of `ks` are there afterwards, the one in front of the last holds `v`, nothing else changes. -/
theorem lookup_insertFrom (v : ν) : ∀ (ks q : List κ) (n : Node κ ν),
    lookup q (insertFrom ks v n) =
      if ks ≠ [] ∧ q = ks.dropLast then some (some v) else if q <+: ks then some ((lookup q n).getD none) else lookup q n := by
  intro ks
  induction ks with
  | nil =>
    intro q n
    cases q with
    | nil => simp [insertFrom, lookup, nodeAt]
    | cons a q => simp [insertFrom]
  | cons k ks ih =>
    intro q n
    rw [insertFrom_cons]
    cases q with
    | nil =>
      cases ks with
      | nil => simp [lookup, nodeAt, Node.value]
      | cons b ks => simp [lookup, nodeAt, Node.value]
    | cons a q =>
      have h1 : lookup (a :: q) (.mk n.key (if ks = [] then some v else n.value) (onChild k (insertFrom ks v) n.children)) =
          if a = k then lookup q (insertFrom ks v ((getNode k n.children).getD (.new k))) else lookup (a :: q) n := by
        unfold lookup
        simp only [nodeAt, Node.children]
        rw [getNode_onChild k a _ (key_insertFrom ks v)]
        by_cases h : a = k <;> simp [h, Node.children]
      rw [h1]
      by_cases hak : a = k
      · subst hak
        rw [if_pos rfl, ih]
        have hl : ks ≠ [] → ((a :: ks).dropLast = a :: ks.dropLast) := fun h => List.dropLast_cons_of_ne_nil h
        have hlk : lookup q ((getNode a n.children).getD (.new a)) =
            match getNode a n.children with | some m => lookup q m | none => if q = [] then some none else none := by
          cases hg : getNode a n.children with
          | none => simp [lookup_new]
          | some m => simp
        have hlk2 : lookup (a :: q) n = match getNode a n.children with | some m => lookup q m | none => none := by
          unfold lookup
          simp only [nodeAt]
          cases getNode a n.children <;> simp
        by_cases hks : ks = []
        · subst hks
          have hq : (q <+: ([] : List κ)) ↔ q = [] := List.prefix_nil
          simp only [ne_eq, not_true_eq_false, false_and, if_false, List.dropLast_singleton, reduceCtorEq, and_false, List.cons_prefix_cons, true_and, hq, hlk,
            hlk2]
          by_cases hqe : q = []
          · subst hqe
            simp only [if_true]
            cases getNode a n.children <;> simp
          · simp only [hqe, if_false]
        · simp only [ne_eq, hks, not_false_eq_true, true_and, hl hks, List.cons.injEq, List.cons_prefix_cons, reduceCtorEq, hlk, hlk2]
          by_cases hd : q = ks.dropLast
          · simp [hd]
          · simp only [hd, if_false]
            by_cases hp : q <+: ks
            · simp only [hp, if_true]
              cases getNode a n.children with
              | none => by_cases hqe : q = [] <;> simp [hqe]
              | some m => rfl
            · simp only [hp, if_false]
              cases getNode a n.children with
              | none =>
                have : q ≠ [] := fun h => hp (h ▸ List.nil_prefix)
                simp [this]
              | some m => rfl
      · rw [if_neg hak]
        have hnp : ¬ (a :: q <+: k :: ks) := fun h => hak (List.cons_prefix_cons.mp h).1
        have hnd : ¬ (a :: q = (k :: ks).dropLast) := by
          intro h
          exact hnp (h ▸ List.dropLast_prefix _)
        simp [hnp, hnd]

theorem walk_eq : ∀ (ks : List κ) (p n : Node κ ν), ks ≠ [] →
    walk ks p n = (nodeAt ks n).bind fun m => (nodeAt ks.dropLast n).map fun q => (q, m) := by
  intro ks
  induction ks with
  | nil => intro p n h; exact absurd rfl h
  | cons k ks ih =>
    intro p n _
    unfold walk
    cases hg : getNode k n.children with
    | none => simp [nodeAt, hg]
    | some m =>
      simp only
      cases ks with
      | nil => simp [walk, nodeAt, hg]
      | cons b ks => rw [ih n m (by simp)]; simp [nodeAt, hg]

theorem prefixFrom_eq : ∀ (ks : List κ) (n : Node κ ν), prefixFrom ks n = (lookup ks n).isSome := by
  intro ks
  induction ks with
  | nil => intro n; rfl
  | cons k ks ih =>
    intro n
    unfold prefixFrom lookup
    cases hg : getNode k n.children with
    | none => simp [nodeAt, hg]
    | some m => simp [nodeAt, hg, ih, lookup]

/-! ## The specification -/

/-- The value of the last pair in the history whose key satisfies `P`. -/
def lastValue (P : List κ → Bool) (history : List (List κ × ν)) : Option ν := ((history.filter fun kv => P kv.1).getLast?).map (·.2)

/-- What a history leaves at the end of a path: a node if the path is the start of an inserted key. -/
theorem lookup_build (history : List (List κ × ν)) :
    (build history = none ∧ ∀ kv ∈ history, kv.1 = []) ∨
    ∃ h, build history = some h ∧ (∃ kv ∈ history, kv.1 ≠ []) ∧
      ∀ q, ((lookup q h).isSome ↔ q = [] ∨ ∃ kv ∈ history, q <+: kv.1) ∧
        ((lookup q h).getD none = lastValue (fun k => !k.isEmpty && k.dropLast == q) history) := by
  induction history using List.reverseRecOn with
  | nil => left; exact ⟨rfl, by simp⟩
  | append_singleton hs kv ih =>
    obtain ⟨key, v⟩ := kv
    have hb : build (hs ++ [(key, v)]) = insert (build hs) key v := by simp [build, List.foldl_append]
    have hlast : ∀ P : List κ → Bool, lastValue P (hs ++ [(key, v)]) = if P key then some v else lastValue P hs := by
      intro P
      unfold lastValue
      rw [List.filter_append]
      by_cases h : P key = true <;> simp [h]
    rw [hb]
    cases key with
    | nil =>
      simp only [insert]
      rcases ih with ⟨h1, h2⟩ | ⟨h, h1, ⟨kv, hkv, hne⟩, h2⟩
      · left
        refine ⟨h1, ?_⟩
        intro kv hkv
        rcases List.mem_append.mp hkv with hkv | hkv
        · exact h2 kv hkv
        · simp at hkv; rw [hkv]
      · right
        refine ⟨h, h1, ⟨kv, by simp [hkv], hne⟩, fun q => ?_⟩
        rw [(h2 q).1, (h2 q).2, hlast]
        constructor
        · constructor
          · rintro (h | ⟨kv, a, b⟩)
            · exact Or.inl h
            · exact Or.inr ⟨kv, by simp [a], b⟩
          · rintro (h | ⟨kv, a, b⟩)
            · exact Or.inl h
            · rcases List.mem_append.mp a with a | a
              · exact Or.inr ⟨kv, a, b⟩
              · simp at a; rw [a] at b; exact Or.inl (List.prefix_nil.mp b)
        · simp
    | cons k ks =>
      right
      simp only [insert]
      refine ⟨_, rfl, ⟨(k :: ks, v), by simp, by simp⟩, fun q => ?_⟩
      have hold : ((lookup q ((build hs).getD (.new k))).isSome ↔ q = [] ∨ ∃ kv ∈ hs, q <+: kv.1) ∧
          (lookup q ((build hs).getD (.new k))).getD none = lastValue (fun k => !k.isEmpty && k.dropLast == q) hs := by
        rcases ih with ⟨h1, h2⟩ | ⟨h, h1, _, h2⟩
        · rw [h1]
          simp only [Option.getD_none, lookup_new]
          constructor
          · constructor
            · intro h
              left
              by_cases hq : q = []
              · exact hq
              · simp [hq] at h
            · rintro (rfl | ⟨kv, a, b⟩)
              · simp
              · rw [h2 kv a] at b
                simp [List.prefix_nil.mp b]
          · have : hs.filter (fun kv => !kv.1.isEmpty && kv.1.dropLast == q) = [] := by
              rw [List.filter_eq_nil_iff]
              intro kv hkv
              simp [h2 kv hkv]
            simp only [lastValue, this]
            split <;> simp
        · rw [h1]; exact h2 q
      rw [lookup_insertFrom, hlast]
      generalize lookup q ((build hs).getD (.new k)) = L at hold
      have hmem : (∃ kv ∈ hs ++ [(k :: ks, v)], q <+: kv.1) ↔ (∃ kv ∈ hs, q <+: kv.1) ∨ q <+: k :: ks := by
        constructor
        · rintro ⟨kv, a, b⟩
          rcases List.mem_append.mp a with a | a
          · exact Or.inl ⟨kv, a, b⟩
          · simp at a; rw [a] at b; exact Or.inr b
        · rintro (⟨kv, a, b⟩ | h)
          · exact ⟨kv, by simp [a], b⟩
          · exact ⟨(k :: ks, v), by simp, h⟩
      rw [hmem]
      by_cases hd : q = (k :: ks).dropLast
      · have hp : q <+: k :: ks := hd ▸ List.dropLast_prefix _
        rw [if_pos ⟨by simp, hd⟩]
        constructor
        · simp [hp]
        · have : ((k :: ks).dropLast == q) = true := by simp [hd]
          simp [this]
      · have hne : ((k :: ks).dropLast == q) = false := by simp [Ne.symm hd]
        rw [if_neg (by simp [hd])]
        simp only [hne, Bool.and_false, Bool.false_eq_true, if_false]
        by_cases hp : q <+: k :: ks
        · rw [if_pos hp]
          exact ⟨by simp [hp], by simpa using hold.2⟩
        · rw [if_neg hp]
          exact ⟨by rw [hold.1]; simp [hp], hold.2⟩

/-! ## The property -/

/-- `find_prefix(k)` holds exactly when some inserted key starts with `k`, for every history and every non-empty `k`. -/
theorem C53_find_prefix_partial (history : List (List κ × ν)) (key : List κ) (hk : key ≠ []) :
    findPrefix (build history) key = true ↔ ∃ kv ∈ history, key <+: kv.1 := by
  obtain ⟨k, ks, rfl⟩ := List.exists_cons_of_ne_nil hk
  rcases lookup_build history with ⟨h1, h2⟩ | ⟨h, h1, _, h2⟩
  · rw [h1]
    simp only [findPrefix, Bool.false_eq_true, false_iff]
    rintro ⟨kv, a, b⟩
    rw [h2 kv a] at b
    exact absurd (List.prefix_nil.mp b) (by simp)
  · rw [h1]
    simp only [findPrefix]
    rw [prefixFrom_eq, (h2 _).1]
    simp

/-- The empty key is a prefix of every key, but is not found. -/
theorem C53_empty_prefix (history : List (List κ × ν)) : findPrefix (build history) ([] : List κ) = false := by
  cases h : build history <;> rfl

/-- What `find` returns, for every history and key: if some inserted key starts with `key`, the last value inserted for any key that equals `key` up to
the last character; otherwise it fails. -/
theorem C53_find_exact (history : List (List κ × ν)) (key : List κ) :
    find (build history) key =
      if key ≠ [] ∧ ∃ kv ∈ history, key <+: kv.1 then lastValue (fun k => !k.isEmpty && k.dropLast == key.dropLast) history else none := by
  cases key with
  | nil => cases h : build history <;> simp [find]
  | cons k ks =>
    rcases lookup_build history with ⟨h1, h2⟩ | ⟨h, h1, _, h2⟩
    · rw [h1, if_neg]
      · rfl
      · rintro ⟨_, kv, a, b⟩
        rw [h2 kv a] at b
        exact absurd (List.prefix_nil.mp b) (by simp)
    · rw [h1]
      simp only [find]
      rw [walk_eq _ _ _ (by simp)]
      have hl := (h2 (k :: ks)).1
      have hd := h2 (k :: ks).dropLast
      unfold lookup at hl hd
      by_cases hex : ∃ kv ∈ history, k :: ks <+: kv.1
      · rw [if_pos ⟨by simp, hex⟩]
        have hs := hl.mpr (Or.inr hex)
        have hs' : ((nodeAt (k :: ks).dropLast h).map Node.value).isSome = true := by
          rw [hd.1]
          obtain ⟨kv, a, b⟩ := hex
          exact Or.inr ⟨kv, a, (List.dropLast_prefix _).trans b⟩
        rw [← hd.2]
        cases e1 : nodeAt (k :: ks) h with
        | none => simp [e1] at hs
        | some m =>
          cases e2 : nodeAt (k :: ks).dropLast h with
          | none => simp [e2] at hs'
          | some q => simp
      · rw [if_neg (by simp [hex])]
        cases e1 : nodeAt (k :: ks) h with
        | none => rfl
        | some m =>
          exfalso
          rcases hl.mp (by simp [e1]) with h | h
          · cases h
          · exact hex h

/-- The trie is a map as far as no two inserted keys differ in the last character only: then `find(k)` returns the value inserted last for `k`, and fails
if `k` was never inserted. -/
theorem C53_find_partial (history : List (List κ × ν)) (key : List κ) (hk : key ≠ [])
    (hsib : ∀ kv ∈ history, kv.1 ≠ [] → kv.1.dropLast = key.dropLast → kv.1 = key) :
    find (build history) key = lastValue (fun k => k == key) history := by
  rw [C53_find_exact]
  have hf : history.filter (fun kv => !kv.1.isEmpty && kv.1.dropLast == key.dropLast) = history.filter (fun kv => kv.1 == key) := by
    apply List.filter_congr
    intro kv hkv
    by_cases h : kv.1 = key
    · simp [h, hk]
    · have : ¬ (kv.1 ≠ [] ∧ kv.1.dropLast = key.dropLast) := fun ⟨a, b⟩ => h (hsib kv hkv a b)
      rw [show (kv.1 == key) = false by simp [h]]
      rw [Bool.eq_false_iff]
      intro hb
      simp at hb
      exact this hb
  split
  · simp only [lastValue, hf]
  · rename_i hno
    have : history.filter (fun kv => kv.1 == key) = [] := by
      rw [List.filter_eq_nil_iff]
      intro kv hkv h
      simp at h
      exact hno ⟨hk, kv, hkv, h ▸ List.prefix_refl _⟩
    simp [lastValue, this]

/-- A history for which the hypothesis holds, with an overwritten value. -/
example : find (build [("ab".toList, 1), ("cde".toList, 2), ("ab".toList, 3), ("abx".toList, 4)]) "ab".toList = some 3 ∧
    find (build [("ab".toList, 1), ("cde".toList, 2), ("ab".toList, 3), ("abx".toList, 4)]) "cd".toList = none := by
  rw [C53_find_exact, C53_find_exact]; decide

/-- Missing: two keys that differ in the last character share one value ... -/
theorem C53_shared_value : find (build [("ab".toList, 1), ("ac".toList, 2)]) "ab".toList = some 2 := by
  rw [C53_find_exact]; decide

/-- ... and a key that was never inserted is found. -/
theorem C53_phantom_key : find (build [("ac".toList, 1), ("abd".toList, 2)]) "ab".toList = some 1 := by
  rw [C53_find_exact]; decide

end Strtk.Trie
