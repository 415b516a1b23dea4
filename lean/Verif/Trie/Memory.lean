import Verif.Trie.Props

/-!
# Inserting into a prefix trie when requests for memory fail (C161; strtk.hpp 19675-19729, 19771-19799, 19849-19852)

`insert` asks for memory in two places: `new node_t`, and `node_list_.push_back` of the new node.  Either may throw `std::bad_alloc`.
-/

namespace Strtk.Trie

variable {κ ν : Type} [DecidableEq κ]

/-! ## Model -/

/-- After (a part of) an insertion: the node, the number of requests for memory so far, the nodes allocated, the nodes allocated that nothing points at, and
whether an exception was thrown. -/
structure Res (κ ν : Type) where
  node : Node κ ν
  requests : Nat
  made : Nat
  lost : Nat
  threw : Bool

/-- The rest of the loop done with the child for `k`, and after the last character `parent->assign_value(v)` (19798). -/
def finish (k : κ) (last : Bool) (v : ν) (n : Node κ ν) (x : Res κ ν) : Res κ ν :=
  { x with node := .mk n.key (if last && !x.threw then some v else n.value) (onChild k (fun _ => x.node) n.children) }

/-- The loop of `insert` from node `n` on (19784-19798); `fails r` says whether the `r`-th request throws.  `n->add_node(next_node = new node_t(key))` (19790): first
the request for the node, then the one of `push_back`; a `push_back` that needs no memory is a request that does not fail. -/
def insertMem (fails : Nat → Bool) (v : ν) : List κ → Node κ ν → Nat → Res κ ν
  | [], n, r => ⟨n, r, 0, 0, false⟩
  | k :: ks, n, r =>
    match getNode k n.children with
    | some c => finish k ks.isEmpty v n (insertMem fails v ks c r)
    | none =>
      if fails r then ⟨n, r + 1, 0, 0, true⟩
      else if fails (r + 1) then ⟨n, r + 2, 1, 1, true⟩
      else
        let x := insertMem fails v ks (.new k) (r + 2)
        finish k ks.isEmpty v n { x with made := x.made + 1 }

/-- A trie and what it has asked for: `head_`, the number of requests, the nodes allocated, the nodes nothing points at, the calls that threw. -/
structure Mem (κ ν : Type) where
  head : Option (Node κ ν)
  requests : Nat
  made : Nat
  lost : Nat
  throws : Nat

/-- `insert` (19771-19799): true if it returned. -/
def Mem.insert (fails : Nat → Bool) (m : Mem κ ν) (key : List κ) (v : ν) : Bool × Mem κ ν :=
  match key, m.head with
  | [], _ => (true, m)
  | k :: ks, some h =>
    let x := insertMem fails v (k :: ks) h m.requests
    (!x.threw, ⟨some x.node, x.requests, m.made + x.made, m.lost + x.lost, m.throws + x.threw.toNat⟩)
  | k :: ks, none =>
    if fails m.requests then (false, ⟨none, m.requests + 1, m.made, m.lost, m.throws + 1⟩)
    else
      let x := insertMem fails v (k :: ks) (.new k) (m.requests + 1)
      (!x.threw, ⟨some x.node, x.requests, m.made + 1 + x.made, m.lost + x.lost, m.throws + x.threw.toNat⟩)

/-- A trie that nothing was inserted into (19766-19768). -/
def Mem.start : Mem κ ν := ⟨none, 0, 0, 0, 0⟩

/-- A program that inserts, catching the exceptions. -/
def Mem.run (fails : Nat → Bool) : List (List κ × ν) → Mem κ ν → Mem κ ν
  | [], m => m
  | (key, v) :: rest, m => Mem.run fails rest (m.insert fails key v).2

mutual
/-- `delete` of a node (19686-19699): how many nodes are freed. -/
def freed : Node κ ν → Nat
  | .mk _ _ c => freedAll c + 1
/-- The loop of the destructor (19693-19697). -/
def freedAll : List (Node κ ν) → Nat
  | [] => 0
  | n :: l => freed n + freedAll l
end

/-- The destructor of the trie (19849-19852): how many nodes it frees. -/
def destroyed : Option (Node κ ν) → Nat
  | none => 0
  | some h => freed h

/-! ## One call -/

theorem getNode_replace (k k' : κ) (m : Node κ ν) (hm : m.key = k) (l : List (Node κ ν)) :
    getNode k' (onChild k (fun _ => m) l) = if k' = k then some m else getNode k' l := by
  induction l with
  | nil => simp [onChild, getNode, hm]
  | cons n l ih =>
    unfold onChild
    by_cases h : k = n.key
    · rw [if_pos h]
      simp only [getNode, hm, ← h]
      by_cases h2 : k' = k <;> simp [h2]
    · rw [if_neg h]
      simp only [getNode, ih]
      by_cases h2 : k' = n.key
      · have : n.key ≠ k := fun e => h e.symm
        simp [h2, this]
      · simp [h2]

theorem onChild_some (k : κ) (f : Node κ ν → Node κ ν) (c : Node κ ν) : ∀ l : List (Node κ ν), getNode k l = some c →
    onChild k (fun _ => f c) l = onChild k f l
  | [], h => by simp [getNode] at h
  | n :: l, h => by
    unfold onChild
    unfold getNode at h
    by_cases hk : k = n.key
    · rw [if_pos hk] at h ⊢
      rw [if_pos hk, Option.some.inj h]
    · rw [if_neg hk] at h ⊢
      rw [if_neg hk, onChild_some k f c l h]

theorem onChild_none (k : κ) (f : Node κ ν → Node κ ν) : ∀ l : List (Node κ ν), getNode k l = none →
    onChild k (fun _ => f (.new k)) l = onChild k f l
  | [], _ => rfl
  | n :: l, h => by
    unfold onChild
    unfold getNode at h
    by_cases hk : k = n.key
    · rw [if_pos hk] at h; cases h
    · rw [if_neg hk] at h ⊢
      rw [if_neg hk, onChild_none k f l h]

theorem getNode_key (k : κ) (c : Node κ ν) : ∀ l : List (Node κ ν), getNode k l = some c → c.key = k
  | [], h => by simp [getNode] at h
  | n :: l, h => by
    unfold getNode at h
    by_cases hk : k = n.key
    · rw [if_pos hk] at h; rw [← Option.some.inj h, hk]
    · rw [if_neg hk] at h; exact getNode_key k c l h

theorem key_insertMem (fails : Nat → Bool) (v : ν) : ∀ (ks : List κ) (n : Node κ ν) (r : Nat), (insertMem fails v ks n r).node.key = n.key
  | [], _, _ => rfl
  | k :: ks, n, r => by
    unfold insertMem
    split
    · rfl
    · split
      · rfl
      · split <;> rfl

/-- Without an exception it is the insertion of C53, and every node allocated is in the tree. -/
theorem insertMem_ok (fails : Nat → Bool) (v : ν) : ∀ (ks : List κ) (n : Node κ ν) (r : Nat), (insertMem fails v ks n r).threw = false →
    (insertMem fails v ks n r).node = insertFrom ks v n ∧ (insertMem fails v ks n r).lost = 0
  | [], _, _, _ => ⟨rfl, rfl⟩
  | k :: ks, n, r, h => by
    rw [insertFrom_cons]
    unfold insertMem at h ⊢
    cases hg : getNode k n.children with
    | some c =>
      simp only [hg, finish] at h ⊢
      obtain ⟨h1, h2⟩ := insertMem_ok fails v ks c r h
      refine ⟨?_, h2⟩
      rw [h, h1, onChild_some k (insertFrom ks v) c _ hg]
      cases ks <;> rfl
    | none =>
      simp only [hg] at h ⊢
      by_cases f1 : fails r
      · rw [if_pos f1] at h; cases h
      · rw [if_neg f1] at h ⊢
        by_cases f2 : fails (r + 1)
        · rw [if_pos f2] at h; cases h
        · rw [if_neg f2] at h ⊢
          simp only [finish] at h ⊢
          obtain ⟨h1, h2⟩ := insertMem_ok fails v ks (.new k) (r + 2) h
          refine ⟨?_, h2⟩
          rw [h, h1, onChild_none k (insertFrom ks v) _ hg]
          cases ks <;> rfl

theorem lookup_cons (a : κ) (q : List κ) (n : Node κ ν) : lookup (a :: q) n = (getNode a n.children).bind (lookup q) := by
  unfold lookup
  simp only [nodeAt]
  cases getNode a n.children <;> rfl

theorem lookup_nil (n : Node κ ν) : lookup [] n = some n.value := rfl


/-- The lookups behind an insertion that threw. -/
theorem lookup_threw (fails : Nat → Bool) (v : ν) : ∀ (ks : List κ) (n : Node κ ν) (r : Nat), (insertMem fails v ks n r).threw = true →
    ∃ p, p <+: ks ∧ p ≠ ks ∧ ∀ q, lookup q (insertMem fails v ks n r).node = if q <+: p then some ((lookup q n).getD none) else lookup q n
  | [], _, _, h => by simp [insertMem] at h
  | k :: ks, n, r, h => by
    unfold insertMem at h ⊢
    have hstay : ∃ p, p <+: k :: ks ∧ p ≠ k :: ks ∧ ∀ q, lookup q n = if q <+: p then some ((lookup q n).getD none) else lookup q n := by
      refine ⟨[], List.nil_prefix, by simp, fun q => ?_⟩
      by_cases hq : q = []
      · subst hq; simp [lookup_nil]
      · rw [if_neg (fun h => hq (List.prefix_nil.mp h))]
    have hgo : ∀ (c : Node κ ν) (x : Res κ ν), x.threw = true → x.node.key = k → (∀ q, lookup q c = match getNode k n.children with | some m => lookup q m | none => if q = [] then some none else none) →
        (∃ p, p <+: ks ∧ p ≠ ks ∧ ∀ q, lookup q x.node = if q <+: p then some ((lookup q c).getD none) else lookup q c) →
        ∃ p, p <+: k :: ks ∧ p ≠ k :: ks ∧ ∀ q, lookup q (finish k ks.isEmpty v n x).node = if q <+: p then some ((lookup q n).getD none) else lookup q n := by
      rintro c x hx hkey hc ⟨p, hp, hne, hq⟩
      refine ⟨k :: p, List.cons_prefix_cons.mpr ⟨rfl, hp⟩, by simpa using hne, fun q => ?_⟩
      cases q with
      | nil => simp [lookup_nil, finish, hx, Node.value]
      | cons a q =>
        rw [lookup_cons, lookup_cons]
        have hch : (finish k ks.isEmpty v n x).node.children = onChild k (fun _ => x.node) n.children := rfl
        rw [hch, getNode_replace k a x.node hkey]
        by_cases ha : a = k
        · subst ha
          rw [if_pos rfl, Option.bind_some, hq, hc]
          simp only [List.cons_prefix_cons, true_and]
          cases hg : getNode a n.children with
          | some m => simp
          | none =>
            by_cases hqp : q <+: p
            · simp only [hqp, if_true, Option.bind_none, Option.getD_none]
              split <;> rfl
            · have : q ≠ [] := fun h => hqp (h ▸ List.nil_prefix)
              simp [hqp, this]
        · rw [if_neg ha, if_neg (fun h => ha (List.cons_prefix_cons.mp h).1)]
    cases hg : getNode k n.children with
    | some c =>
      simp only [hg] at h ⊢
      have hx : (insertMem fails v ks c r).threw = true := h
      refine hgo c _ hx (by rw [key_insertMem]; exact getNode_key k c _ hg) (by simp [hg]) (lookup_threw fails v ks c r hx)
    | none =>
      simp only [hg] at h ⊢
      by_cases f1 : fails r
      · rw [if_pos f1]; exact hstay
      · rw [if_neg f1] at h ⊢
        by_cases f2 : fails (r + 1)
        · rw [if_pos f2]; exact hstay
        · rw [if_neg f2] at h ⊢
          have hx : (insertMem fails v ks (.new k) (r + 2)).threw = true := h
          refine hgo (.new k) { insertMem fails v ks (.new k) (r + 2) with made := (insertMem fails v ks (.new k) (r + 2)).made + 1 } hx
            (by simp only; rw [key_insertMem]; rfl) (fun q => by simp [hg, lookup_new]) ?_
          exact lookup_threw fails v ks (.new k) (r + 2) hx

theorem find_eq (h : Node κ ν) (q : List κ) : find (some h) q = if q ≠ [] ∧ (lookup q h).isSome then (lookup q.dropLast h).getD none else none := by
  cases q with
  | nil => simp [find]
  | cons k ks =>
    simp only [find]
    rw [walk_eq _ _ _ (by simp)]
    unfold lookup
    cases e1 : nodeAt (k :: ks) h with
    | none => simp
    | some m =>
      cases e2 : nodeAt (k :: ks).dropLast h with
      | none => simp
      | some q => simp

theorem findPrefix_eq (h : Node κ ν) (q : List κ) : findPrefix (some h) q = (!q.isEmpty && (lookup q h).isSome) := by
  cases q with
  | nil => rfl
  | cons k ks => simp [findPrefix, prefixFrom_eq]

/-- What a failed insertion may do to a trie: the nodes of a proper start of the key may have been added. -/
def Grown (p : List κ) (a b : Option (Node κ ν)) : Prop :=
  ∀ q, findPrefix b q = (findPrefix a q || (!q.isEmpty && decide (q <+: p))) ∧ (findPrefix a q = true ∨ ¬ q <+: p → find b q = find a q)

theorem grown_of {p : List κ} {n n' : Node κ ν} (h : ∀ q, lookup q n' = if q <+: p then some ((lookup q n).getD none) else lookup q n) :
    Grown p (some n) (some n') := by
  have hval : ∀ q, (lookup q n').getD none = (lookup q n).getD none := by
    intro q
    rw [h]
    split <;> rfl
  intro q
  rw [findPrefix_eq, findPrefix_eq, find_eq, find_eq, hval]
  constructor
  · rw [h]
    by_cases hq : q = []
    · subst hq; rfl
    · have : q.isEmpty = false := by cases q <;> simp_all
      by_cases hp : q <+: p <;> simp [hp, this]
  · rintro (hs | hs)
    · have h1 : q ≠ [] ∧ (lookup q n).isSome = true := by simpa using hs
      have h2 : (lookup q n').isSome = true := by
        rw [h]
        split
        · rfl
        · exact h1.2
      rw [if_pos ⟨h1.1, h2⟩, if_pos h1]
    · rw [h q, if_neg hs]

/-- A call that threw. -/
theorem insert_threw (fails : Nat → Bool) (m m' : Mem κ ν) (key : List κ) (v : ν) (h : m.insert fails key v = (false, m')) :
    (m' = { m' with head := m.head } ∨ ∃ k ks p n n', key = k :: ks ∧ p <+: key ∧ p ≠ key ∧ n = m.head.getD (.new k) ∧ m'.head = some n' ∧
      ∀ q, lookup q n' = if q <+: p then some ((lookup q n).getD none) else lookup q n) ∧ key ≠ [] := by
  cases key with
  | nil => simp [Mem.insert] at h
  | cons k ks =>
    refine ⟨?_, by simp⟩
    cases hh : m.head with
    | some n =>
      simp only [Mem.insert, hh, Prod.mk.injEq, Bool.not_eq_false'] at h
      obtain ⟨p, h1, h2, h3⟩ := lookup_threw fails v (k :: ks) n m.requests h.1
      right
      exact ⟨k, ks, p, n, _, rfl, h1, h2, rfl, by rw [← h.2], h3⟩
    | none =>
      simp only [Mem.insert, hh] at h
      by_cases hf : fails m.requests
      · rw [if_pos hf] at h
        left
        cases h
        rfl
      · rw [if_neg hf] at h
        simp only [Prod.mk.injEq, Bool.not_eq_false'] at h
        obtain ⟨p, h1, h2, h3⟩ := lookup_threw fails v (k :: ks) (.new k) (m.requests + 1) h.1
        right
        exact ⟨k, ks, p, _, _, rfl, h1, h2, rfl, by rw [← h.2], h3⟩

/-! ## C161 -/

/-- **C161.** A call of `insert` that returns has done what it does with unlimited memory (C53 says what that is), whichever requests failed before. -/
theorem C161_returned (fails : Nat → Bool) (m m' : Mem κ ν) (key : List κ) (v : ν) (h : m.insert fails key v = (true, m')) :
    m'.head = Trie.insert m.head key v ∧ m'.lost = m.lost ∧ m'.throws = m.throws := by
  cases key with
  | nil =>
    simp only [Mem.insert, Prod.mk.injEq, true_and] at h
    rw [← h]
    exact ⟨rfl, rfl, rfl⟩
  | cons k ks =>
    cases hh : m.head with
    | some n =>
      simp only [Mem.insert, hh, Prod.mk.injEq, Bool.not_eq_true'] at h
      obtain ⟨h1, h2⟩ := insertMem_ok fails v (k :: ks) n m.requests h.1
      rw [← h.2]
      exact ⟨by simp [Trie.insert, h1], by simp [h2], by simp [h.1]⟩
    | none =>
      simp only [Mem.insert, hh] at h
      by_cases hf : fails m.requests
      · rw [if_pos hf] at h; cases h
      · rw [if_neg hf] at h
        simp only [Prod.mk.injEq, Bool.not_eq_true'] at h
        obtain ⟨h1, h2⟩ := insertMem_ok fails v (k :: ks) (.new k) (m.requests + 1) h.1
        rw [← h.2]
        exact ⟨by simp [Trie.insert, h1], by simp [h2], by simp [h.1]⟩

/-- A call that throws has inserted no value: some start of the key, not all of it, may count as a prefix now, and every other question is answered as before.
Missing: prefixes that were not there before can be found with a value of another key (`C161_phantom`). -/
theorem C161_threw_partial (fails : Nat → Bool) (m m' : Mem κ ν) (key : List κ) (v : ν) (h : m.insert fails key v = (false, m')) :
    ∃ p, p <+: key ∧ p ≠ key ∧ ∀ q, findPrefix m'.head q = (findPrefix m.head q || (!q.isEmpty && decide (q <+: p))) ∧
      (findPrefix m.head q = true ∨ ¬ q <+: p → find m'.head q = find m.head q) := by
  obtain ⟨h | ⟨k, ks, p, n, n', hkey, h1, h2, hn, hn', hl⟩, hne⟩ := insert_threw fails m m' key v h
  · refine ⟨[], List.nil_prefix, Ne.symm hne, fun q => ?_⟩
    rw [h]
    refine ⟨?_, fun _ => rfl⟩
    cases q <;> simp
  · refine ⟨p, h1, h2, ?_⟩
    have hg := grown_of hl
    rw [hn']
    cases hm : m.head with
    | some x =>
      rw [hm] at hn
      rw [hn] at hg
      exact hg
    | none =>
      rw [hm] at hn
      rw [hn] at hg hl
      intro q
      have hnew : ∀ q, findPrefix (some (.new k : Node κ ν)) q = false := by
        intro q
        rw [findPrefix_eq, lookup_new]
        cases q <;> simp
      have hfnew : find (some (.new k : Node κ ν)) q = none := by
        rw [find_eq, lookup_new]
        cases q <;> simp
      have := hg q
      simp only [Option.getD_none, hnew, hfnew] at this
      have hnp : findPrefix (none : Option (Node κ ν)) q = false := by cases q <;> rfl
      have hnf : find (none : Option (Node κ ν)) q = none := by cases q <;> rfl
      rw [hnp, hnf]
      exact this

/-- Trying again until it works makes good: every question is then answered as if the failed call had never been made. -/
theorem C161_retry (fails fails' : Nat → Bool) (m m' m'' : Mem κ ν) (key : List κ) (v w : ν) (h : m.insert fails key v = (false, m'))
    (h2 : m'.insert fails' key w = (true, m'')) (q : List κ) :
    find m''.head q = find (Trie.insert m.head key w) q ∧ findPrefix m''.head q = findPrefix (Trie.insert m.head key w) q := by
  rw [(C161_returned fails' m' m'' key w h2).1]
  obtain ⟨h | ⟨k, ks, p, n, n', hkey, h1, hpk, hn, hn', hl⟩, hne⟩ := insert_threw fails m m' key v h
  · rw [h]
    exact ⟨rfl, rfl⟩
  · rw [hkey, hn']
    simp only [Trie.insert, Option.getD_some]
    rw [← hn, ← hkey]
    have : ∀ q, lookup q (insertFrom key w n') = lookup q (insertFrom key w n) := by
      intro q
      rw [lookup_insertFrom, lookup_insertFrom, hl]
      by_cases hp : q <+: p
      · have : q <+: key := hp.trans h1
        simp [hp, this]
      · simp [hp]
    rw [find_eq, find_eq, findPrefix_eq, findPrefix_eq, this, this]
    exact ⟨rfl, rfl⟩

theorem freedAll_some (k : κ) (m c : Node κ ν) : ∀ l : List (Node κ ν), getNode k l = some c →
    freedAll (onChild k (fun _ => m) l) + freed c = freedAll l + freed m
  | [], h => by simp [getNode] at h
  | n :: l, h => by
    unfold onChild
    unfold getNode at h
    by_cases hk : k = n.key
    · rw [if_pos hk] at h ⊢
      rw [freedAll, freedAll, Option.some.inj h]
      omega
    · rw [if_neg hk] at h ⊢
      have := freedAll_some k m c l h
      rw [freedAll, freedAll]
      omega

theorem freedAll_none (k : κ) (m : Node κ ν) : ∀ l : List (Node κ ν), getNode k l = none →
    freedAll (onChild k (fun _ => m) l) = freedAll l + freed m
  | [], _ => by simp [onChild, freedAll]
  | n :: l, h => by
    unfold onChild
    unfold getNode at h
    by_cases hk : k = n.key
    · rw [if_pos hk] at h; cases h
    · rw [if_neg hk] at h ⊢
      have := freedAll_none k m l h
      rw [freedAll, freedAll]
      omega

theorem freed_eq (n : Node κ ν) : freed n = freedAll n.children + 1 := by
  cases n with
  | mk k v c => rw [freed]; rfl

theorem freed_new (k : κ) : freed (.new k : Node κ ν) = 1 := by
  rw [freed_eq]; rfl

theorem insertMem_nodes (fails : Nat → Bool) (v : ν) : ∀ (ks : List κ) (n : Node κ ν) (r : Nat),
    freed (insertMem fails v ks n r).node + (insertMem fails v ks n r).lost = freed n + (insertMem fails v ks n r).made ∧
    (insertMem fails v ks n r).lost ≤ (insertMem fails v ks n r).threw.toNat
  | [], _, _ => ⟨rfl, Nat.le_refl _⟩
  | k :: ks, n, r => by
    have hfin : ∀ x : Res κ ν, freed (finish k ks.isEmpty v n x).node = freedAll (onChild k (fun _ => x.node) n.children) + 1 := fun x => by rw [freed_eq]; rfl
    unfold insertMem
    cases hg : getNode k n.children with
    | some c =>
      simp only
      obtain ⟨h1, h2⟩ := insertMem_nodes fails v ks c r
      refine ⟨?_, h2⟩
      rw [hfin, freed_eq n]
      have := freedAll_some k (insertMem fails v ks c r).node c _ hg
      simp only [finish]
      omega
    | none =>
      simp only
      by_cases f1 : fails r
      · rw [if_pos f1]; exact ⟨rfl, Nat.zero_le _⟩
      · rw [if_neg f1]
        by_cases f2 : fails (r + 1)
        · rw [if_pos f2]; exact ⟨rfl, Nat.le_refl _⟩
        · rw [if_neg f2]
          obtain ⟨h1, h2⟩ := insertMem_nodes fails v ks (.new k) (r + 2)
          refine ⟨?_, h2⟩
          rw [hfin, freed_eq n]
          have := freedAll_none k (insertMem fails v ks (.new k) (r + 2)).node _ hg
          rw [freed_new] at h1
          simp only [finish]
          omega

theorem insert_nodes (fails : Nat → Bool) (m : Mem κ ν) (key : List κ) (v : ν) (hm : destroyed m.head + m.lost = m.made ∧ m.lost ≤ m.throws) :
    destroyed (m.insert fails key v).2.head + (m.insert fails key v).2.lost = (m.insert fails key v).2.made ∧
      (m.insert fails key v).2.lost ≤ (m.insert fails key v).2.throws := by
  cases key with
  | nil => simpa [Mem.insert] using hm
  | cons k ks =>
    cases hh : m.head with
    | some n =>
      rw [hh] at hm
      obtain ⟨h1, h2⟩ := insertMem_nodes fails v (k :: ks) n m.requests
      simp only [Mem.insert, hh, destroyed] at hm ⊢
      omega
    | none =>
      rw [hh] at hm
      simp only [Mem.insert, hh]
      by_cases hf : fails m.requests
      · rw [if_pos hf]
        simp only [destroyed] at hm ⊢
        omega
      · rw [if_neg hf]
        obtain ⟨h1, h2⟩ := insertMem_nodes fails v (k :: ks) (.new k) (m.requests + 1)
        rw [freed_new] at h1
        simp only [destroyed] at hm ⊢
        omega

/-- Whatever is inserted and whichever requests fail: the destructor frees every node ever allocated except those lost, at most one for each call that threw; without
a failure it frees all of them. -/
theorem C161_nodes (fails : Nat → Bool) (history : List (List κ × ν)) :
    destroyed (Mem.run fails history .start).head + (Mem.run fails history .start).lost = (Mem.run fails history .start).made ∧
    (Mem.run fails history .start).lost ≤ (Mem.run fails history .start).throws := by
  have : ∀ (history : List (List κ × ν)) (m : Mem κ ν), destroyed m.head + m.lost = m.made ∧ m.lost ≤ m.throws →
      destroyed (Mem.run fails history m).head + (Mem.run fails history m).lost = (Mem.run fails history m).made ∧ (Mem.run fails history m).lost ≤ (Mem.run fails history m).throws := by
    intro history
    induction history with
    | nil => intro m hm; exact hm
    | cons kv rest ih => intro m hm; exact ih _ (insert_nodes fails m kv.1 kv.2 hm)
  exact this history .start ⟨rfl, Nat.le_refl _⟩

/-- While memory lasts nothing throws, nothing is lost, and the trie is the one of C53. -/
theorem C161_enough_memory (history : List (List κ × ν)) :
    (Mem.run (fun _ => false) history .start).head = build history ∧ (Mem.run (fun _ => false) history .start).lost = 0 ∧
      (Mem.run (fun _ => false) history .start).throws = 0 := by
  have hret : ∀ (m : Mem κ ν) (key : List κ) (v : ν), (m.insert (fun _ => false) key v).1 = true := by
    intro m key v
    have hno : ∀ (ks : List κ) (n : Node κ ν) (r : Nat), (insertMem (fun _ => false) v ks n r).threw = false := by
      intro ks
      induction ks with
      | nil => intro n r; rfl
      | cons k ks ih =>
        intro n r
        unfold insertMem
        split
        · exact ih _ _
        · exact ih _ _
    cases key with
    | nil => rfl
    | cons k ks =>
      cases hh : m.head with
      | some n => simp only [Mem.insert, hh, hno]; rfl
      | none => simp only [Mem.insert, hh, hno]; rfl
  have : ∀ (history : List (List κ × ν)) (m : Mem κ ν), m.lost = 0 → m.throws = 0 →
      (Mem.run (fun _ => false) history m).head = history.foldl (fun head kv => Trie.insert head kv.1 kv.2) m.head ∧ (Mem.run (fun _ => false) history m).lost = 0 ∧
        (Mem.run (fun _ => false) history m).throws = 0 := by
    intro history
    induction history with
    | nil => intro m h1 h2; exact ⟨rfl, h1, h2⟩
    | cons kv rest ih =>
      intro m h1 h2
      obtain ⟨a, b, c⟩ := C161_returned (fun _ => false) m (m.insert (fun _ => false) kv.1 kv.2).2 kv.1 kv.2 (Prod.ext (hret m kv.1 kv.2) rfl)
      rw [List.foldl_cons, ← a]
      exact ih _ (b.trans h1) (c.trans h2)
  exact this history .start rfl rfl

/-- A node whose `push_back` throws is lost: nothing points at it. -/
theorem C161_leak (fails : Nat → Bool) (m : Mem κ ν) (k : κ) (ks : List κ) (v : ν) (n : Node κ ν) (hm : m.head = some n) (hk : getNode k n.children = none)
    (h1 : fails m.requests = false) (h2 : fails (m.requests + 1) = true) :
    (m.insert fails (k :: ks) v).1 = false ∧ (m.insert fails (k :: ks) v).2.head = m.head ∧ (m.insert fails (k :: ks) v).2.lost = m.lost + 1 ∧
      (m.insert fails (k :: ks) v).2.made = m.made + 1 := by
  simp only [Mem.insert, hm, insertMem, hk, h1, h2]
  simp

/-- A failed insertion of "abd" makes "ab" appear, with the value inserted for "ac": requests 0-4 are those of "ac", 5 and 6 those of the node for 'b'. -/
theorem C161_phantom : (Mem.run (fun r => r == 7) [("ac".toList, 1), ("abd".toList, 2)] .start).throws = 1 ∧
    find (Mem.run (fun r => r == 7) [("ac".toList, 1), ("abd".toList, 2)] .start).head "ab".toList = some 1 ∧
    find (Mem.run (fun r => r == 7) [("ac".toList, 1)] .start).head "ab".toList = none := by decide +kernel

/-- Two keys, the second of which fails and is tried again; 6 nodes in all, of which one is lost. -/
example : (Mem.run (fun r => r == 6) [("ac".toList, 1), ("abd".toList, 2), ("abd".toList, 3)] .start).throws = 1 ∧
    (Mem.run (fun r => r == 6) [("ac".toList, 1), ("abd".toList, 2), ("abd".toList, 3)] .start).lost = 1 ∧
    (Mem.run (fun r => r == 6) [("ac".toList, 1), ("abd".toList, 2), ("abd".toList, 3)] .start).made = 6 ∧
    find (Mem.run (fun r => r == 6) [("ac".toList, 1), ("abd".toList, 2), ("abd".toList, 3)] .start).head "abd".toList = some 3 := by decide +kernel

/-! ## Concrete cases of C161: the third request fails; then nothing does -/

example := C161_returned (fun _ => false) (Mem.start : Mem Char Nat) _ "ab".toList 1 rfl

example := C161_threw_partial (fun r => r == 2) (Mem.start : Mem Char Nat) _ "abc".toList 1 rfl

example := C161_retry (fun r => r == 2) (fun _ => false) (Mem.start : Mem Char Nat) _ _ "abc".toList 1 7 rfl rfl "abc".toList

end Strtk.Trie
