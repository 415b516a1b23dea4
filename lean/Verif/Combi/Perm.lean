import Verif.Combi.Model
import Mathlib.Data.List.Permutation
import Mathlib.Data.Nat.Factorial.Basic
import Mathlib.Order.Lattice.Nat

/-! # nth_permutation_sequence (C42) -/

namespace Strtk.Combi
open Outcome

/-- `p` is the `n`-th (from 0) permutation of `0 .. k-1` in lexicographic order: it is a permutation, and exactly `n` permutations are smaller. -/
def IsNthPermutation (n k : Nat) (p : List Nat) : Prop :=
  p.Perm (List.range k) ∧ ((List.range k).permutations.filter fun q => decide (q < p)).length = n

/-- Renumbering after taking out `d`. -/
def skip (d v : Nat) : Nat := if d ≤ v then v + 1 else v

theorem skip_lt (d : Nat) {a b : Nat} : skip d a < skip d b ↔ a < b := by
  unfold skip; split <;> split <;> omega

theorem skip_inj (d : Nat) {a b : Nat} (h : skip d a = skip d b) : a = b := by
  unfold skip at h; split at h <;> split at h <;> omega

/-- All permutations of `0 .. k-1` in lexicographic order. -/
def lexPerms : Nat → List (List Nat)
  | 0 => [[]]
  | k + 1 => (List.range (k + 1)).flatMap fun d => (lexPerms k).map fun p => d :: p.map (skip d)

/-- From digits to the permutation. -/
def decode : List Nat → List Nat
  | [] => []
  | d :: ds => d :: (decode ds).map (skip d)

theorem liftDigit_eq (rev : List Nat) (v : Nat) : liftDigit rev v = rev.foldl (fun v d => skip d v) v := by
  induction rev generalizing v with
  | nil => rfl
  | cons d ds ih => simp [liftDigit, ih, skip]

theorem liftAll_eq (ds : List Nat) : ∀ rev, liftAll rev ds = (decode ds).map fun v => rev.foldl (fun v d => skip d v) v := by
  induction ds with
  | nil => intro rev; rfl
  | cons d ds ih =>
    intro rev
    simp only [liftAll, decode, List.map_cons, liftDigit_eq, ih, List.map_map, List.cons.injEq, true_and]
    apply List.map_congr_left
    intro v _
    simp

theorem liftAll_decode (ds : List Nat) : liftAll [] ds = decode ds := by
  rw [liftAll_eq]; simp

/-! ## The list of all permutations -/

theorem skip_range_perm (k d : Nat) (hd : d ≤ k) : (d :: (List.range k).map (skip d)).Perm (List.range (k + 1)) := by
  rw [List.perm_ext_iff_of_nodup]
  · intro a
    simp only [List.mem_cons, List.mem_map, List.mem_range]
    constructor
    · rintro (rfl | ⟨b, hb, rfl⟩)
      · omega
      · unfold skip; split <;> omega
    · intro ha
      by_cases h : a = d
      · exact Or.inl h
      · right
        by_cases h2 : a < d
        · exact ⟨a, by omega, by unfold skip; rw [if_neg (by omega)]⟩
        · exact ⟨a - 1, by omega, by unfold skip; rw [if_pos (by omega)]; omega⟩
  · rw [List.nodup_cons]
    refine ⟨?_, List.Nodup.map (fun a b h => skip_inj d h) List.nodup_range⟩
    simp only [List.mem_map, not_exists, not_and]
    intro x _ h
    unfold skip at h; split at h <;> omega
  · exact List.nodup_range

theorem lexPerms_perm (k : Nat) : ∀ p ∈ lexPerms k, p.Perm (List.range k) := by
  induction k with
  | zero => intro p hp; simp [lexPerms] at hp; simp [hp]
  | succ k ih =>
    intro p hp
    simp only [lexPerms, List.mem_flatMap, List.mem_range, List.mem_map] at hp
    obtain ⟨d, hd, q, hq, rfl⟩ := hp
    exact (((ih q hq).map (skip d)).cons d).trans (skip_range_perm k d (by omega))

theorem flatMap_const_length {α β : Type} (l : List α) (f : α → List β) (m : Nat) (h : ∀ a ∈ l, (f a).length = m) : (l.flatMap f).length = l.length * m := by
  induction l with
  | nil => simp
  | cons a t ih =>
    rw [List.flatMap_cons, List.length_append, h a (by simp), ih (fun b hb => h b (List.mem_cons_of_mem _ hb)), List.length_cons, Nat.add_mul,
      Nat.one_mul, Nat.add_comm]

theorem lexPerms_length (k : Nat) : (lexPerms k).length = k.factorial := by
  induction k with
  | zero => rfl
  | succ k ih =>
    rw [lexPerms, flatMap_const_length _ _ k.factorial (by intro a _; simp [ih]), List.length_range, Nat.factorial_succ]

theorem map_lt (d : Nat) : ∀ (p q : List Nat), p < q → p.map (skip d) < q.map (skip d) := by
  intro p
  induction p with
  | nil => intro q h; cases q with
    | nil => exact absurd h (List.lt_irrefl _)
    | cons b q => simp
  | cons a p ih =>
    intro q h
    cases q with
    | nil => exact absurd h (List.not_lt_nil _)
    | cons b q =>
      rw [List.cons_lt_cons_iff] at h
      simp only [List.map_cons]
      rw [List.cons_lt_cons_iff]
      rcases h with h | ⟨rfl, h⟩
      · exact Or.inl ((skip_lt d).mpr h)
      · exact Or.inr ⟨rfl, ih q h⟩

theorem lexPerms_sorted (k : Nat) : (lexPerms k).Pairwise (· < ·) := by
  induction k with
  | zero => simp [lexPerms]
  | succ k ih =>
    rw [lexPerms, List.pairwise_flatMap]
    constructor
    · intro d _
      rw [List.pairwise_map]
      apply ih.imp
      intro p q h
      rw [List.cons_lt_cons_iff]
      exact Or.inr ⟨rfl, map_lt d p q h⟩
    · apply List.pairwise_lt_range.imp
      intro a b hab x hx y hy
      simp only [List.mem_map] at hx hy
      obtain ⟨p, _, rfl⟩ := hx
      obtain ⟨q, _, rfl⟩ := hy
      rw [List.cons_lt_cons_iff]
      exact Or.inl hab

theorem lexPerms_all (k : Nat) : (lexPerms k).Perm (List.range k).permutations := by
  have hn : (lexPerms k).Nodup := (lexPerms_sorted k).imp (fun h e => by subst e; exact List.lt_irrefl _ h)
  have hs : (lexPerms k).Subperm (List.range k).permutations := by
    apply hn.subperm
    intro p hp
    exact List.mem_permutations.mpr (lexPerms_perm k p hp)
  apply hs.perm_of_length_le
  rw [lexPerms_length, List.length_permutations, List.length_range]

/-- In a strictly increasing list exactly `n` entries are below the `n`-th. -/
theorem filter_lt_sorted (l : List (List Nat)) (h : l.Pairwise (· < ·)) (n : Nat) (p : List Nat) (hp : l[n]? = some p) :
    (l.filter fun q => decide (q < p)).length = n := by
  have hlt : n < l.length := by
    by_contra hc
    rw [List.getElem?_eq_none (by omega)] at hp; simp at hp
  have e : l = l.take n ++ p :: l.drop (n + 1) := by
    rw [List.getElem?_eq_getElem hlt] at hp
    simp only [Option.some.injEq] at hp
    rw [← hp, List.getElem_cons_drop, List.take_append_drop]
  rw [e] at h ⊢
  rw [List.pairwise_append] at h
  obtain ⟨h1, h2, h3⟩ := h
  rw [List.filter_append, List.filter_cons_of_neg (by simp [List.lt_irrefl])]
  rw [List.filter_eq_self.mpr (by intro x hx; simpa using h3 x hx p (by simp)), List.filter_eq_nil_iff.mpr, List.append_nil, List.length_take]
  · omega
  · intro x hx
    simp only [decide_eq_true_eq]
    intro hlt
    rw [List.pairwise_cons] at h2
    exact List.lt_irrefl _ (List.lt_trans hlt (h2.1 x hx))

theorem lexPerms_nth (n k : Nat) (p : List Nat) (h : (lexPerms k)[n]? = some p) : IsNthPermutation n k p := by
  have hp : p ∈ lexPerms k := List.mem_of_getElem? h
  refine ⟨lexPerms_perm k p hp, ?_⟩
  rw [← ((lexPerms_all k).filter _).length_eq]
  exact filter_lt_sorted _ (lexPerms_sorted k) n p h

theorem flatMap_get {α β : Type} (f : α → List β) (m : Nat) (hm : 0 < m) : ∀ (l : List α) (n : Nat) (a : α), (∀ a ∈ l, (f a).length = m) →
    l[n / m]? = some a → (l.flatMap f)[n]? = (f a)[n % m]? := by
  intro l
  induction l with
  | nil => intro n a _ h; simp at h
  | cons b t ih =>
    intro n a hf h
    rw [List.flatMap_cons]
    have hb := hf b (by simp)
    by_cases hn : n < m
    · rw [Nat.div_eq_of_lt hn] at h
      simp only [List.getElem?_cons_zero, Option.some.injEq] at h
      subst h
      rw [List.getElem?_append_left (by omega), Nat.mod_eq_of_lt hn]
    · rw [List.getElem?_append_right (by omega), hb]
      have e : n / m = (n - m) / m + 1 := by rw [Nat.div_eq_sub_div hm (by omega)]
      rw [e, List.getElem?_cons_succ] at h
      rw [ih (n - m) a (fun c hc => hf c (List.mem_cons_of_mem _ hc)) h]
      congr 1
      rw [Nat.mod_eq_sub_mod (by omega : n ≥ m)]

/-- The factorial digits of `n`. -/
def factDigits : Nat → Nat → List Nat
  | 0, _ => []
  | k + 1, n => n / k.factorial :: factDigits k (n % k.factorial)

theorem decode_nth (k : Nat) : ∀ n, n < k.factorial → (lexPerms k)[n]? = some (decode (factDigits k n)) := by
  induction k with
  | zero => intro n hn; simp at hn; subst hn; rfl
  | succ k ih =>
    intro n hn
    have hk : 0 < k.factorial := Nat.factorial_pos k
    have hd : n / k.factorial < k + 1 := by
      rw [Nat.div_lt_iff_lt_mul hk]; rw [Nat.factorial_succ] at hn; exact hn
    rw [lexPerms, flatMap_get _ k.factorial hk _ n (n / k.factorial) (by intro a _; simp [lexPerms_length])
      (by rw [List.getElem?_range hd])]
    rw [List.getElem?_map, ih _ (Nat.mod_lt _ hk)]
    rfl

/-! ## The code -/

theorem factorids_get (k : Nat) (hk : k ≤ 21) : ∀ i < k, (factorids k 0 1)[i]? = some i.factorial := by
  have : ∀ k ≤ 21, ∀ i < k, (factorids k 0 1)[i]? = some i.factorial := by decide +kernel
  exact this k hk

theorem permDigits_spec (fs : List Nat) (k : Nat) (hfs : ∀ i < k, fs[i]? = some i.factorial) : ∀ rounds i n, rounds + i = k →
    permDigits fs k rounds i n = ok (factDigits rounds n) := by
  intro rounds
  induction rounds with
  | zero => intro i n _; rfl
  | succ r ih =>
    intro i n h
    unfold permDigits
    have e : k - i - 1 = r := by omega
    have hd : deref fs (k - i - 1) = ok r.factorial := by rw [e, deref, hfs r (by omega)]
    rw [hd, ok_bind, if_neg (Nat.factorial_ne_zero r), ih (i + 1) _ (by omega), ok_bind]
    rfl

/-- For 1 ≤ k ≤ 21 and every n < k!: the n-th permutation in lexicographic order. -/
theorem C42_nth_permutation_partial (n k : Nat) (h1 : 1 ≤ k) (h21 : k ≤ 21) (hn : n < k.factorial) :
    ∃ p, nthPermutation n k = ok p ∧ IsNthPermutation n k p := by
  refine ⟨decode (factDigits k n), ?_, lexPerms_nth n k _ (decode_nth k n hn)⟩
  rw [nthPermutation, if_neg (by omega), permDigits_spec _ k (factorids_get k h21) k 0 n (by omega), ok_bind, liftAll_decode]

/-- Different indexes give different permutations. -/
theorem C42_distinct (n m k : Nat) (h1 : 1 ≤ k) (h21 : k ≤ 21) (hn : n < k.factorial) (hm : m < k.factorial)
    (h : nthPermutation n k = nthPermutation m k) : n = m := by
  obtain ⟨p, a, b⟩ := C42_nth_permutation_partial n k h1 h21 hn
  obtain ⟨q, c, d⟩ := C42_nth_permutation_partial m k h1 h21 hm
  rw [a, c, ok.injEq] at h
  subst h
  exact b.2.symm.trans d.2

/-- For k = 22 the factorial 21! no longer fits into 64 bits: an index below 22! gives a wrong permutation (the right one starts with 0). -/
theorem C42_overflow_wrong : 14197454024290336768 < Nat.factorial 22 ∧ 14197454024290336768 < Nat.factorial 21 ∧
    nthPermutation 14197454024290336768 22 = ok (1 :: 0 :: (List.range' 2 20)) := by decide +kernel

theorem factorids_zero : ∀ (n i f : Nat), (∃ j < n, (factorids n i f)[j]? = some 0) → ∀ k ≥ n, ∃ j < k, (factorids k i f)[j]? = some 0 := by
  intro n
  induction n with
  | zero => intro i f h; obtain ⟨j, hj, _⟩ := h; omega
  | succ n ih =>
    intro i f ⟨j, hj, h⟩ k hk
    obtain ⟨k, rfl⟩ : ∃ k', k = k' + 1 := ⟨k - 1, by omega⟩
    cases j with
    | zero => exact ⟨0, by omega, by simpa [factorids] using h⟩
    | succ j =>
      simp only [factorids, List.getElem?_cons_succ] at h
      obtain ⟨j', h1, h2⟩ := ih _ _ ⟨j, by omega, h⟩ k (by omega)
      exact ⟨j' + 1, by omega, by simpa [factorids] using h2⟩

theorem factorids_length : ∀ (n i f : Nat), (factorids n i f).length = n := by
  intro n
  induction n with
  | zero => intros; rfl
  | succ n ih => intros; simp [factorids, ih]

/-- From k = 67 on some factorial is 0 modulo 2^64 and the function divides by zero, whatever n is. -/
theorem C42_division_by_zero (n k : Nat) (hk : 67 ≤ k) : nthPermutation n k = ub := by
  obtain ⟨j, hj, hz⟩ := factorids_zero 67 0 1 ⟨66, by omega, by decide +kernel⟩ k hk
  rw [nthPermutation, if_neg (by omega)]
  have key : ∀ rounds i n, rounds + i = k → j < rounds → permDigits (factorids k 0 1) k rounds i n = ub := by
    intro rounds
    induction rounds with
    | zero => intro i n _ h; omega
    | succ r ih =>
      intro i n h1 h2
      unfold permDigits
      have e : k - i - 1 = r := by omega
      have hlt : r < (factorids k 0 1).length := by rw [factorids_length]; omega
      rw [e, deref_eq_ok hlt, ok_bind]
      by_cases h0 : (factorids k 0 1)[r] = 0
      · rw [if_pos h0]
      · rw [if_neg h0, ih (i + 1) _ (by omega)]
        · rfl
        · by_contra hc
          have : j = r := by omega
          subst this
          rw [List.getElem?_eq_getElem hlt] at hz
          simp only [Option.some.injEq] at hz
          exact h0 hz
  rw [key k 0 n (by omega) hj]
  rfl

/-- `k = 0` writes `factorid[0]` of an empty vector. -/
theorem C42_k_zero (n : Nat) : nthPermutation n 0 = ub := rfl

example : nthPermutation 3 3 = ok [1, 2, 0] := by decide
example : IsNthPermutation 3 3 [1, 2, 0] := by
  obtain ⟨p, h1, h2⟩ := C42_nth_permutation_partial 3 3 (by omega) (by omega) (by decide)
  have : nthPermutation 3 3 = ok [1, 2, 0] := by decide
  rw [this] at h1
  rw [ok.injEq] at h1
  rw [h1]; exact h2

end Strtk.Combi
