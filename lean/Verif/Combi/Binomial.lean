import Verif.Combi.Model
import Mathlib.Data.Nat.Choose.Basic

/-! # n_choose_k (C41) -/

namespace Strtk.Combi
open Outcome

/-- The value the documentation promises: the binomial coefficient as a 64-bit value. -/
def binom (n k : Nat) : U64 := BitVec.ofNat 64 (n.choose k)

/-- Every entry of the table that belongs to some `(n,k)` with `n <= N` is still zero or holds the right value. -/
def MemoOk (dim N : Nat) (t : List U64) : Prop :=
  ∀ n k, k ≤ n → n ≤ N → ∃ v, t[memoIndex dim n k]? = some v ∧ (v = 0 ∨ v = binom n k)

/-- Different coefficients do not share an entry, except for the symmetric pair. -/
def MemoInj (dim N : Nat) : Prop :=
  ∀ n k n' k', k ≤ n → n ≤ N → k' ≤ n' → n' ≤ N → memoIndex dim n k = memoIndex dim n' k' → n = n' ∧ (k = k' ∨ k + k' = n)

theorem memoInj_of (dim N : Nat) (h : ∀ n ≤ N, n / 2 ≤ dim ∧ (n / 2 = dim → n = N)) : MemoInj dim N := by
  intro n k n' k' hk hn hk' hn' e
  unfold memoIndex at e
  have h1 := h n hn
  have h2 := h n' hn'
  have hm : min k (n - k) ≤ n / 2 := by omega
  have hm' : min k' (n' - k') ≤ n' / 2 := by omega
  have hnn : n = n' := by
    rcases Nat.lt_trichotomy n n' with hlt | heq | hgt
    · exfalso
      have : n / 2 < dim := by
        rcases Nat.lt_or_ge (n / 2) dim with h | h
        · exact h
        · have := h1.2 (by omega); omega
      have : dim * (n + 1) ≤ dim * n' := Nat.mul_le_mul_left _ hlt
      rw [Nat.mul_add, Nat.mul_one] at this
      omega
    · exact heq
    · exfalso
      have : n' / 2 < dim := by
        rcases Nat.lt_or_ge (n' / 2) dim with h | h
        · exact h
        · have := h2.2 (by omega); omega
      have : dim * (n' + 1) ≤ dim * n := Nat.mul_le_mul_left _ hgt
      rw [Nat.mul_add, Nat.mul_one] at this
      omega
  subst hnn
  refine ⟨rfl, ?_⟩
  have : min k (n - k) = min k' (n - k') := by omega
  omega

theorem binom_symm {n k k' : Nat} (h : k + k' = n) : binom n k = binom n k' := by
  unfold binom
  rw [← h, Nat.choose_symm_add]

theorem binom_pascal (n k : Nat) : binom n k + binom n (k + 1) = binom (n + 1) (k + 1) := by
  unfold binom
  rw [Nat.choose_succ_succ', BitVec.ofNat_add]

theorem MemoOk.store {dim N : Nat} {t : List U64} (h : MemoOk dim N t) (hinj : MemoInj dim N) {n k : Nat} (hk : k ≤ n) (hn : n ≤ N) :
    ∃ t', store t (memoIndex dim n k) (binom n k) = ok t' ∧ t'.length = t.length ∧ MemoOk dim N t' := by
  obtain ⟨v, hv, _⟩ := h n k hk hn
  have hlt : memoIndex dim n k < t.length := by
    by_contra hc
    rw [List.getElem?_eq_none (by omega)] at hv
    simp at hv
  refine ⟨_, store_eq_ok _ hlt, by simp, fun n' k' hk' hn' => ?_⟩
  obtain ⟨v', hv', hvv⟩ := h n' k' hk' hn'
  by_cases e : memoIndex dim n k = memoIndex dim n' k'
  · refine ⟨binom n k, ?_, Or.inr ?_⟩
    · rw [← e, List.getElem?_set_self hlt]
    · obtain ⟨rfl, h2⟩ := hinj n k n' k' hk hn hk' hn' e
      rcases h2 with rfl | h2
      · rfl
      · exact binom_symm h2
  · exact ⟨v', by rw [List.getElem?_set_ne e]; exact hv', hvv⟩

/-- The memoised recursion computes the coefficient and keeps the table right. -/
theorem compute_spec (dim N : Nat) (hinj : MemoInj dim N) : ∀ (n k : Nat) (t : List U64), k ≤ n → n ≤ N + 1 → MemoOk dim N t →
    ∃ t', compute dim n k t = ok (binom n k, t') ∧ t'.length = t.length ∧ MemoOk dim N t' := by
  intro n
  induction n with
  | zero =>
    intro k t hk _ ht
    have : k = 0 := by omega
    subst this
    exact ⟨t, by simp [compute, binom], rfl, ht⟩
  | succ n ih =>
    intro k t hk hn ht
    unfold compute
    by_cases hc : k = 0 ∨ k = n + 1
    · rw [if_pos hc]
      refine ⟨t, ?_, rfl, ht⟩
      rcases hc with rfl | rfl <;> simp [binom]
    · rw [if_neg hc]
      obtain ⟨k, rfl⟩ : ∃ k', k = k' + 1 := ⟨k - 1, by omega⟩
      have hk1 : k ≤ n := by omega
      have hk2 : k + 1 ≤ n := by omega
      have step : ∀ (j : Nat) (t : List U64), j ≤ n → MemoOk dim N t →
          ∃ t', (do
              let v ← deref t (memoIndex dim n j)
              (if v = 0 then do
                let (v, t) ← compute dim n j t
                let t ← store t (memoIndex dim n j) v
                ok (v, t)
              else ok (v, t))) = ok (binom n j, t') ∧ t'.length = t.length ∧ MemoOk dim N t' := by
        intro j t hj ht
        obtain ⟨v, hv, hvv⟩ := ht n j hj (by omega)
        have hd : deref t (memoIndex dim n j) = ok v := by simp [deref, hv]
        rw [hd, ok_bind]
        by_cases h0 : v = 0
        · rw [if_pos h0]
          obtain ⟨t1, h1, h2, h3⟩ := ih j t hj (by omega) ht
          obtain ⟨t2, h4, h5, h6⟩ := h3.store hinj hj (by omega)
          rw [h1, ok_bind]
          simp only [h4, ok_bind]
          exact ⟨t2, rfl, by omega, h6⟩
        · rw [if_neg h0]
          refine ⟨t, ?_, rfl, ht⟩
          rcases hvv with h | h
          · exact absurd h h0
          · rw [h]
      obtain ⟨t1, a1, a2, a3⟩ := step k t hk1 ht
      obtain ⟨t2, b1, b2, b3⟩ := step (k + 1) t1 hk2 a3
      refine ⟨t2, ?_, by omega, b3⟩
      simp only [Nat.add_sub_cancel]
      rw [← bind_assoc, a1, ok_bind]
      simp only
      rw [← bind_assoc, b1, ok_bind]
      simp only [binom_pascal]

/-- The static table as the program starts with it. -/
def freshTable : List U64 := List.replicate 5000 0

/-- The static table after some calls. -/
def StaticOk (t : List U64) : Prop := t.length = 5000 ∧ MemoOk 50 99 t

theorem memoOk_zero (dim N size : Nat) (h : ∀ n ≤ N, dim * n + n / 2 < size) : MemoOk dim N (List.replicate size 0) := by
  intro n k hk hn
  refine ⟨0, ?_, Or.inl rfl⟩
  rw [List.getElem?_replicate, if_pos]
  have := h n hn
  unfold memoIndex
  have : min k (n - k) ≤ n / 2 := by omega
  omega

theorem staticOk_fresh : StaticOk freshTable := ⟨by unfold freshTable; exact List.length_replicate, memoOk_zero 50 99 5000 (by omega)⟩

theorem inj_static : MemoInj 50 99 := memoInj_of 50 99 (by intro n hn; omega)

theorem nChooseK_spec (t : List U64) (ht : StaticOk t) (n k : Nat) (hn : n < 2 ^ 32) (h0 : 0 < n ∨ 0 < k) :
    ∃ t', nChooseK t n k = ok (binom n k, t') ∧ StaticOk t' := by
  unfold nChooseK
  by_cases h1 : n < k
  · rw [if_pos h1]; exact ⟨t, by simp [binom, Nat.choose_eq_zero_of_lt h1], ht⟩
  rw [if_neg h1, if_neg (by omega)]
  by_cases h2 : k = 0
  · rw [if_pos h2]; exact ⟨t, by simp [binom, h2], ht⟩
  rw [if_neg h2]
  by_cases h3 : n = k
  · rw [if_pos h3]; exact ⟨t, by simp [binom, h3], ht⟩
  rw [if_neg h3]
  by_cases h4 : k = 1
  · rw [if_pos h4]; exact ⟨t, by simp [binom, h4], ht⟩
  rw [if_neg h4]
  have hsize : (n * (n / 2) + (n &&& 1)) % 2 ^ 64 = n * (n / 2) + n % 2 := by
    rw [Nat.and_one_is_mod, Nat.mod_eq_of_lt]
    have h5 : n * (n / 2) ≤ 2 ^ 32 * 2 ^ 31 := Nat.mul_le_mul (by omega) (by omega)
    omega
  simp only [hsize]
  by_cases h5 : n * (n / 2) + n % 2 ≤ 5000
  · rw [if_pos h5]
    have hn100 : n ≤ 100 := by
      by_contra hc
      have h6 : 101 * 50 ≤ n * (n / 2) := Nat.mul_le_mul (by omega) (by omega)
      omega
    obtain ⟨t', a, b, c⟩ := compute_spec 50 99 inj_static n k t (by omega) (by omega) ht.2
    exact ⟨t', a, by rw [b]; exact ht.1, c⟩
  · rw [if_neg h5]
    have hm : MemoOk (n / 2) (n - 1) (List.replicate (n * (n / 2) + n % 2) 0) := by
      apply memoOk_zero
      intro m hm
      have h6 : n / 2 * m ≤ n / 2 * (n - 1) := Nat.mul_le_mul_left _ hm
      have h7 : n / 2 * (n - 1) + n / 2 = n * (n / 2) := by
        obtain ⟨p, rfl⟩ : ∃ p, n = p + 1 := ⟨n - 1, by omega⟩
        rw [Nat.add_sub_cancel, Nat.mul_comm (p + 1), Nat.mul_add, Nat.mul_one]
      by_cases hodd : n % 2 = 1
      · have : m / 2 ≤ n / 2 := by omega
        omega
      · have : m / 2 < n / 2 := by omega
        omega
    have hi : MemoInj (n / 2) (n - 1) := memoInj_of _ _ (by intro m hm; omega)
    obtain ⟨t', a, _, _⟩ := compute_spec (n / 2) (n - 1) hi n k _ (by omega) (by omega) hm
    rw [a, ok_bind]
    exact ⟨t, rfl, ht⟩

/-- A sequence of calls made one after the other, results collected. -/
def callAll (t : List U64) : List (Nat × Nat) → Outcome (List U64)
  | [] => ok []
  | (n, k) :: calls => do
    let (r, t) ← nChooseK t n k
    let rest ← callAll t calls
    ok (r :: rest)

/-- Whatever calls came before, `n_choose_k(n,k)` is the binomial coefficient modulo 2^64 and stays inside its table, for n < 2^32, with the
single exception of `n_choose_k(0,0)`, which is 0. -/
theorem C41_n_choose_k_partial (calls : List (Nat × Nat)) (h : ∀ c ∈ calls, c.1 < 2 ^ 32) :
    callAll freshTable calls = ok (calls.map fun c => if c = (0, 0) then 0 else BitVec.ofNat 64 (c.1.choose c.2)) := by
  have key : ∀ (calls : List (Nat × Nat)) (t : List U64), StaticOk t → (∀ c ∈ calls, c.1 < 2 ^ 32) →
      callAll t calls = ok (calls.map fun c => if c = (0, 0) then 0 else BitVec.ofNat 64 (c.1.choose c.2)) := by
    intro calls
    induction calls with
    | nil => intro t _ _; rfl
    | cons c calls ih =>
      intro t ht hc
      obtain ⟨n, k⟩ := c
      unfold callAll
      by_cases h0 : n = 0 ∧ k = 0
      · obtain ⟨rfl, rfl⟩ := h0
        have : nChooseK t 0 0 = ok (0, t) := by simp [nChooseK]
        rw [this, ok_bind]
        simp only
        rw [ih t ht (fun c h => hc c (List.mem_cons_of_mem _ h))]
        simp
      · obtain ⟨t', a, b⟩ := nChooseK_spec t ht n k (hc (n, k) (by simp)) (by omega)
        rw [a, ok_bind]
        simp only
        rw [ih t' b (fun c h => hc c (List.mem_cons_of_mem _ h))]
        simp only [ok_bind, List.map_cons, Prod.mk.injEq]
        rw [if_neg h0]
        rfl
  exact key calls freshTable staticOk_fresh h

/-- n_choose_k(0,0) returns 0 although there is one way to choose nothing. -/
theorem C41_zero_zero : nChooseK freshTable 0 0 = ok (0, freshTable) ∧ Nat.choose 0 0 = 1 := by
  simp [nChooseK]

/-- For very large n the table size wraps around and the static table is indexed out of bounds. -/
theorem C41_wrap_ub (t : List U64) (ht : t.length = 5000) : nChooseK t (2 ^ 33) 2 = ub := by
  unfold nChooseK
  rw [if_neg (by decide), if_neg (by decide), if_neg (by decide), if_neg (by decide), if_neg (by decide)]
  simp only
  rw [if_pos (by decide)]
  have : (2 : Nat) ^ 33 = (2 ^ 33 - 1) + 1 := by decide
  rw [this]
  unfold compute
  rw [if_neg (by decide), deref_ub (by rw [ht]; unfold memoIndex; omega)]
  rfl

example : callAll freshTable [(6, 3), (5, 2), (0, 0), (6, 3)] = ok [20, 10, 0, 20] := by
  rw [C41_n_choose_k_partial _ (by decide)]; decide +kernel

end Strtk.Combi
