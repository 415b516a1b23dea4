import Verif.Trie.Props
import Mathlib.Data.List.Rotate
import Mathlib.Tactic.Ring
import Mathlib.Algebra.BigOperators.Group.List.Basic

/-!
# strtk_search_trie_example.cpp

Times are not modelled; the alphabet and the number of rounds are arguments.  Characters are of an arbitrary type.
-/

namespace Strtk.Programs.SearchTrie
open Strtk.Trie

variable {κ ν : Type} [DecidableEq κ]

/-- `trie_example00` and `trie_example01` (38-91): every key is inserted with its value; then the lines "Found Prefix: key", and the lines "Found: (key,value)". -/
def lookups (entries : List (List κ × ν)) : List (List κ) × List (List κ × ν) :=
  let trie := entries.foldl (fun t e => Trie.insert t e.1 e.2) none
  ((entries.map (·.1)).filter (fun k => findPrefix trie k), (entries.map (·.1)).filterMap fun k => (find trie k).map fun v => (k, v))

/-- The two inner loops of `create_string_list` (101-107): what is pushed for one rotation of the text. -/
def pieces (s : List κ) : List (List κ) :=
  (List.range' 1 s.length).flatMap fun i => (List.range (s.length - i)).map fun k => (s.drop k).take i

/-- The outer loop of `create_string_list` (99-110), with `n` rounds to go. -/
def createFrom : Nat → List κ → List (List κ) → List (List κ)
  | 0, _, out => out
  | n + 1, s, out => createFrom n (s.drop 1 ++ s.take 1) (out ++ pieces s)

/-- `create_string_list` (93-111). -/
def createList (s : List κ) : List (List κ) := createFrom s.length s []

/-- One pass over the list (132-141, 164-173, 197-206): `Except.error x` is the message "Failed to find: x" and the result `false`. -/
def pass (found : List κ → Bool) : List (List κ) → Nat → Except (List κ) Nat
  | [], count => .ok count
  | x :: l, count => if !found x then .error x else pass found l (count + 1)

/-- The passes (130-142, 162-174, 195-207). -/
def passes (found : List κ → Bool) (l : List (List κ)) : Nat → Nat → Except (List κ) Nat
  | 0, count => .ok count
  | r + 1, count => do
    let count ← pass found l count
    passes found l r count

/-- `std::map::insert` and `std::set::insert` as far as `find` can tell: the keys present. -/
def insertKey (m : List (List κ)) (x : List κ) : List (List κ) := if x ∈ m then m else m ++ [x]

/-- `trie_example02` (113-215): the three counts that are printed. -/
def example02 (rounds : Nat) (s : List κ) : Except (List κ) (Nat × Nat × Nat) := do
  let strList := createList s
  let trie := (strList.zipIdx).foldl (fun t e => Trie.insert t e.1 e.2) (none : Option (Node κ Nat))
  let c1 ← passes (fun x => findPrefix trie x) strList rounds 0
  let m := strList.foldl insertKey []
  let c2 ← passes (fun x => decide (x ∈ m)) strList rounds 0
  let t := strList.foldl insertKey []
  let c3 ← passes (fun x => decide (x ∈ t)) strList rounds 0
  .ok (c1, c2, c3)

/-! ## Proofs -/

/-- C150: for keys that are not empty and of which no two differ in just their last character or are equal, every key is found as a prefix, and every key is found with its
own value; both in the order of insertion. -/
theorem C150_examples (entries : List (List κ × ν)) (hne : ∀ e ∈ entries, e.1 ≠ [])
    (hsib : entries.Pairwise fun a b => a.1.dropLast ≠ b.1.dropLast) : lookups entries = (entries.map (·.1), entries) := by
  unfold lookups
  have hb : entries.foldl (fun t e => Trie.insert t e.1 e.2) none = build entries := rfl
  simp only [hb]
  refine Prod.ext ?_ ?_
  · simp only
    rw [List.filter_eq_self]
    intro k hk
    obtain ⟨e, he, rfl⟩ := List.mem_map.mp hk
    exact (C53_find_prefix_partial entries e.1 (hne e he)).mpr ⟨e, he, List.prefix_refl _⟩
  · simp only
    rw [List.filterMap_map]
    have hfind : ∀ e ∈ entries, find (build entries) e.1 = some e.2 := by
      intro e he
      have hsame : ∀ kv ∈ entries, kv.1.dropLast = e.1.dropLast → kv = e := by
        intro kv hkv h
        by_contra hc
        obtain ⟨i, hi, rfl⟩ := List.getElem_of_mem he
        obtain ⟨j, hj, rfl⟩ := List.getElem_of_mem hkv
        have hp := List.pairwise_iff_getElem.mp hsib
        rcases Nat.lt_trichotomy i j with h' | h' | h'
        · exact hp i j hi hj h' h.symm
        · subst h'; exact hc rfl
        · exact hp j i hj hi h' h
      rw [C53_find_partial entries e.1 (hne e he) (fun kv hkv _ h => by rw [hsame kv hkv h])]
      have hf : entries.filter (fun kv => kv.1 == e.1) = [e] := by
        have hnd : entries.Nodup := hsib.imp fun h h' => h (by rw [h'])
        obtain ⟨l1, l2, rfl⟩ := List.append_of_mem he
        have ha : ∀ x ∈ l1 ++ l2, x.1 ≠ e.1 := by
          intro x hx h
          have hxe := hsame x (by simp only [List.mem_append, List.mem_cons] at hx ⊢; tauto) (by rw [h])
          subst hxe
          rw [List.nodup_append] at hnd
          simp only [List.mem_append] at hx
          rcases hx with hx | hx
          · exact hnd.2.2 x hx x (by simp) rfl
          · exact (List.nodup_cons.mp hnd.2.1).1 hx
        rw [List.filter_append, List.filter_cons_of_pos (by simp), List.filter_eq_nil_iff.mpr (fun x hx => by simpa using ha x (by simp [hx])),
          List.filter_eq_nil_iff.mpr (fun x hx => by simpa using ha x (by simp [hx]))]
        rfl
      unfold lastValue
      rw [hf]
      rfl
    have : entries.filterMap ((fun k => (find (build entries) k).map fun v => (k, v)) ∘ fun e : List κ × ν => e.1) = entries.filterMap some :=
      List.filterMap_congr fun e he => by simp [hfind e he]
    rw [this, List.filterMap_some]

theorem createFrom_eq : ∀ (n : Nat) (s : List κ) (out : List (List κ)),
    createFrom n s out = out ++ (List.range n).flatMap fun j => pieces (s.rotate j)
  | 0, s, out => by simp [createFrom]
  | n + 1, s, out => by
    have hrot : s.drop 1 ++ s.take 1 = s.rotate 1 := by cases s <;> simp
    rw [createFrom, createFrom_eq n, hrot, List.range_succ_eq_map, List.flatMap_cons, List.append_assoc, List.rotate_zero, List.flatMap_map]
    congr 3
    funext j
    rw [List.rotate_rotate, Nat.add_comm]

/-- C150: the list of strings: all pieces of all rotations of the alphabet that stop before the end. -/
theorem C150_list (s x : List κ) : x ∈ createList s ↔ ∃ j < s.length, ∃ k i, 1 ≤ i ∧ k + i < s.length ∧ x = ((s.rotate j).drop k).take i := by
  unfold createList
  rw [createFrom_eq]
  simp only [List.nil_append, List.mem_flatMap, List.mem_range, pieces, List.mem_range'_1, List.mem_map, List.length_rotate]
  constructor
  · rintro ⟨j, hj, i, hi, k, hk, rfl⟩
    exact ⟨j, hj, k, i, hi.1, by omega, rfl⟩
  · rintro ⟨j, hj, k, i, hi, hk, rfl⟩
    exact ⟨j, hj, i, ⟨hi, by omega⟩, k, by omega, rfl⟩

theorem sum_sub (n : Nat) : ∀ m, m ≤ n → 2 * ((List.range' 1 m).map fun i => n - i).sum = m * (2 * n - m - 1) := by
  intro m
  induction m with
  | zero => intro _; simp
  | succ m ih =>
    intro h
    rw [List.range'_concat, List.map_append, List.sum_append, Nat.mul_add, ih (by omega)]
    simp only [List.map_cons, List.map_nil, List.sum_cons, List.sum_nil, Nat.add_zero, Nat.one_mul]
    obtain ⟨d, rfl⟩ := Nat.exists_eq_add_of_le h
    rw [show 2 * (m + 1 + d) - m - 1 = m + 1 + 2 * d by omega, show m + 1 + d - (1 + m) = d by omega, show 2 * (m + 1 + d) - (m + 1) - 1 = m + 2 * d by omega]
    ring

theorem pieces_length (s : List κ) : (pieces s).length = s.length * (s.length - 1) / 2 := by
  have h := sum_sub s.length s.length (Nat.le_refl _)
  unfold pieces
  rw [List.length_flatMap]
  simp only [List.length_map, List.length_range]
  rw [show 2 * s.length - s.length - 1 = s.length - 1 by omega] at h
  omega

/-- C150: how many strings there are. -/
theorem C150_list_length (s : List κ) : (createList s).length = s.length * (s.length * (s.length - 1) / 2) := by
  unfold createList
  rw [createFrom_eq, List.nil_append, List.length_flatMap]
  have : (List.range s.length).map (fun j => (pieces (s.rotate j)).length) = List.replicate s.length (s.length * (s.length - 1) / 2) := by
    rw [List.eq_replicate_iff]
    refine ⟨by simp, ?_⟩
    intro b hb
    obtain ⟨j, _, rfl⟩ := List.mem_map.mp hb
    rw [pieces_length, List.length_rotate]
  rw [this, List.sum_replicate]
  rfl

theorem pass_eq (found : List κ → Bool) : ∀ (l : List (List κ)) (count : Nat), (∀ x ∈ l, found x = true) → pass found l count = .ok (count + l.length)
  | [], _, _ => rfl
  | x :: l, count, h => by
    rw [pass, h x (by simp)]
    simp only [Bool.not_true, Bool.false_eq_true, if_false]
    rw [pass_eq found l (count + 1) (fun y hy => h y (by simp [hy])), List.length_cons]
    congr 1
    omega

theorem passes_eq (found : List κ → Bool) (l : List (List κ)) (h : ∀ x ∈ l, found x = true) : ∀ (r count : Nat),
    passes found l r count = .ok (count + r * l.length)
  | 0, count => by simp [passes]
  | r + 1, count => by
    rw [passes, pass_eq found l count h]
    show passes found l r (count + l.length) = _
    rw [passes_eq found l h r, Nat.succ_mul]
    congr 1
    omega

theorem mem_insertKeys (l : List (List κ)) : ∀ (m : List (List κ)) (x : List κ), x ∈ l.foldl insertKey m ↔ x ∈ m ∨ x ∈ l := by
  induction l with
  | nil => intro m x; simp
  | cons y l ih =>
    intro m x
    rw [List.foldl_cons, ih]
    unfold insertKey
    split
    · rename_i h
      constructor
      · rintro (h' | h')
        · exact .inl h'
        · exact .inr (List.mem_cons_of_mem _ h')
      · rintro (h' | h')
        · exact .inl h'
        · rcases List.mem_cons.mp h' with rfl | h'
          · exact .inl h
          · exact .inr h'
    · simp only [List.mem_append, List.mem_cons, List.not_mem_nil, or_assoc, false_or]

/-- C150: the search never fails, and each of the three counts is the number of rounds times the number of strings. -/
theorem C150_search (rounds : Nat) (s : List κ) :
    example02 rounds s = .ok (rounds * (createList s).length, rounds * (createList s).length, rounds * (createList s).length) := by
  have hne : ∀ x ∈ createList s, x ≠ [] := by
    intro x hx h
    obtain ⟨j, hj, k, i, hi, hk, rfl⟩ := (C150_list s x).mp hx
    have := congrArg List.length h
    rw [List.length_take, List.length_drop, List.length_rotate] at this
    simp at this
    omega
  have h1 : ∀ x ∈ createList s, findPrefix ((createList s).zipIdx.foldl (fun t e => Trie.insert t e.1 e.2) (none : Option (Node κ Nat))) x = true := by
    intro x hx
    have hb : (createList s).zipIdx.foldl (fun t e => Trie.insert t e.1 e.2) (none : Option (Node κ Nat)) = build (createList s).zipIdx := rfl
    rw [hb]
    refine (C53_find_prefix_partial _ x (hne x hx)).mpr ?_
    obtain ⟨i, hi, rfl⟩ := List.getElem_of_mem hx
    exact ⟨((createList s)[i], i), by rw [List.mem_zipIdx_iff_getElem?]; simp [hi], List.prefix_refl _⟩
  have h2 : ∀ x ∈ createList s, decide (x ∈ (createList s).foldl insertKey []) = true := by
    intro x hx
    rw [decide_eq_true_eq, mem_insertKeys]
    exact .inr hx
  unfold example02
  simp only
  rw [passes_eq _ _ h1, passes_eq _ _ h2, Nat.zero_add]
  rfl

/-- The first example of the program: the keys "a", "ab", "abc". -/
example : lookups [("a".toList, 0), ("ab".toList, 1), ("abc".toList, 2)] =
    (["a".toList, "ab".toList, "abc".toList], [("a".toList, 0), ("ab".toList, 1), ("abc".toList, 2)]) :=
  C150_examples _ (by decide) (by decide)
/-- The second. -/
example : (lookups [([1, 2, 3, 4], "x"), ([5, 6, 7, 8], "y"), ([9, 10, 11, 12], "z"), ([13, 14, 15, 16], "w")]).2.map (·.2) = ["x", "y", "z", "w"] := by
  rw [C150_examples _ (by decide) (by decide)]; rfl
/-- The counts of the program: 62 characters and 100 rounds. -/
example (s : List κ) (h : s.length = 62) : example02 100 s = .ok (11724200, 11724200, 11724200) := by
  rw [C150_search, C150_list_length, h]

end Strtk.Programs.SearchTrie
