import Verif.Combi.Binomial
import Mathlib.Data.Nat.Choose.Factorization

/-!
# n_choose_k from several threads (C156)

The function keeps a static table and a static flag (strtk.hpp 12512-12521), the only shared state that the library changes.  Here a call is a sequence of single
accesses to them, and the accesses of several threads are interleaved in any order.  Single accesses are atomic and sequentially consistent; in C++ this is granted to
programs without data races, and data races are defined here.
-/

namespace Strtk.Combi
open Outcome

/-! ## Model -/

/-- What a thread does next to the shared variables, and how it goes on. -/
inductive Act (ρ : Type) where
  /-- it has ended with a result -/
  | done (r : ρ)
  /-- it has left an array -/
  | bad
  /-- read `static_table_initialized` -/
  | getInit (k : Bool → Act ρ)
  /-- set it -/
  | setInit (k : Act ρ)
  /-- read an entry of `static_table` -/
  | get (i : Nat) (k : U64 → Act ρ)
  /-- write an entry -/
  | put (i : Nat) (v : U64) (k : Act ρ)

variable {ρ : Type}

/-- `value_type v = lookup(n,j); if (0 == v) v = lookup(n,j) = compute(n,j);` (12488-12491, 12493-12496): the value of the assignment is read from the table
again.  `recur` is `compute(n,j)`. -/
def lookC (i : Nat) (recur : (U64 → Act ρ) → Act ρ) (c : U64 → Act ρ) : Act ρ :=
  .get i fun v => if v = 0 then recur fun w => .put i w (.get i c) else c v

/-- `n_choose_k_impl::compute` (12482-12499) on the static table; `c` is what follows. -/
def computeC (dim : Nat) : Nat → Nat → (U64 → Act ρ) → Act ρ
  | 0, k, c => if k = 0 then c 1 else .bad
  | n + 1, k, c =>
    if k = 0 ∨ k = n + 1 then c 1
    else
      lookC (memoIndex dim n (k - 1)) (computeC dim n (k - 1)) fun v1 =>
      lookC (memoIndex dim n k) (computeC dim n k) fun v2 =>
      c (v1 + v2)

/-- `std::fill_n(static_table, n, 0)` (12519) from entry `i` on. -/
def fillC : Nat → Nat → Act ρ → Act ρ
  | 0, _, c => c
  | n + 1, i, c => .put i 0 (fillC n (i + 1) c)

/-- `n_choose_k(n, k)` (12457-12543).  A call with its own table (12530-12535) does not touch the static one. -/
def callC (n k : Nat) (c : U64 → Act ρ) : Act ρ :=
  if n < k then c 0
  else if n = 0 then c 0
  else if k = 0 then c 1
  else if n = k then c 1
  else if k = 1 then c (BitVec.ofNat 64 n)
  else .getInit fun init =>
    let tableSize := (n * (n / 2) + (n &&& 1)) % 2 ^ 64
    let body : Act ρ :=
      if tableSize ≤ 5000 then computeC (100 / 2) n k c
      else match compute (n / 2) n k (List.replicate tableSize 0) with
        | ok (r, _) => c r
        | _ => .bad
    if !init && decide (n ≤ 100) then fillC 5000 0 (.setInit body) else body

/-- A thread that makes some calls and collects their results. -/
def callsC : List (Nat × Nat) → List U64 → Act (List U64)
  | [], rs => .done rs
  | (n, k) :: cs, rs => callC n k fun r => callsC cs (rs ++ [r])

/-- A thread that makes these calls. -/
def thread (cs : List (Nat × Nat)) : Act (List U64) := callsC cs []

/-- The calls of `initialize_n_choose_k` (12545-12555). -/
def initializeCalls : List (Nat × Nat) := (List.range 100).flatMap fun n => (List.range 100).map fun k => (n, k)

/-- The shared variables. -/
structure Shared where
  init : Bool
  table : List U64

/-- As the program starts. -/
def programStart : Shared := ⟨false, freshTable⟩

/-- One access. -/
def Act.step (s : Shared) : Act ρ → Shared × Act ρ
  | .done r => (s, .done r)
  | .bad => (s, .bad)
  | .getInit k => (s, k s.init)
  | .setInit k => ({ s with init := true }, k)
  | .get i k => match s.table[i]? with
    | some v => (s, k v)
    | none => (s, .bad)
  | .put i v k => if i < s.table.length then ({ s with table := s.table.set i v }, k) else (s, .bad)

/-- Threads running by a schedule: the numbers of the threads that take the steps. -/
def runThreads : Shared → List (Act ρ) → List Nat → Shared × List (Act ρ)
  | s, ts, [] => (s, ts)
  | s, ts, i :: sched =>
    match ts[i]? with
    | none => runThreads s ts sched
    | some a => runThreads (a.step s).1 (ts.set i (a.step s).2) sched

/-- A thread running alone to its end. -/
def alone : Shared → Act ρ → Outcome (ρ × Shared)
  | s, .done r => ok (r, s)
  | _, .bad => ub
  | s, .getInit k => alone s (k s.init)
  | s, .setInit k => alone { s with init := true } k
  | s, .get i k => match s.table[i]? with
    | some v => alone s (k v)
    | none => ub
  | s, .put i v k => if i < s.table.length then alone { s with table := s.table.set i v } k else ub

/-! ## Specification -/

/-- The variable accessed next, and whether it is written: `none` stands for the flag. -/
def Act.access : Act ρ → Option (Option Nat × Bool)
  | .done _ => none
  | .bad => none
  | .getInit _ => some (none, false)
  | .setInit _ => some (none, true)
  | .get i _ => some (some i, false)
  | .put i _ _ => some (some i, true)

/-- Two threads are about to access the same variable, and at least one of them to write it. -/
def Race (ts : List (Act ρ)) : Prop :=
  ∃ (i j : Nat) (a b : Act ρ) (x : Option Nat) (u w : Bool), i ≠ j ∧ ts[i]? = some a ∧ ts[j]? = some b ∧ a.access = some (x, u) ∧ b.access = some (x, w) ∧ (u || w) = true

/-- What a call returns: the binomial coefficient in 64 bits, and 0 for `n_choose_k(0,0)` (C41). -/
def chosen (c : Nat × Nat) : U64 := if c = (0, 0) then 0 else BitVec.ofNat 64 (c.1.choose c.2)

/-! ## A thread alone -/

theorem alone_lookC (s : Shared) (i : Nat) (recur : (U64 → Act ρ) → Act ρ) (f : List U64 → Outcome (U64 × List U64))
    (hrec : ∀ (s : Shared) c, alone s (recur c) = f s.table >>= fun r => alone { s with table := r.2 } (c r.1)) (c : U64 → Act ρ) :
    alone s (lookC i recur c) = (do
      let v ← deref s.table i
      let (v, t) ← (if v = 0 then do
          let (v, t) ← f s.table
          let t ← store t i v
          ok (v, t)
        else ok (v, s.table))
      alone { s with table := t } (c v)) := by
  unfold lookC
  rw [alone]
  cases h : s.table[i]? with
  | none => simp [deref, h]
  | some v =>
    simp only [deref, h, ok_bind]
    split
    · rw [hrec]
      cases hf : f s.table with
      | ok r =>
        obtain ⟨w, t⟩ := r
        simp only [ok_bind]
        rw [alone]
        by_cases hlt : i < t.length
        · rw [if_pos hlt, store_eq_ok _ hlt]
          simp only [ok_bind]
          rw [alone]
          simp [List.getElem?_set_self hlt]
        · rw [if_neg hlt]
          simp [store, hlt]
      | _ => rfl
    · rfl

theorem alone_computeC (dim : Nat) : ∀ (n k : Nat) (s : Shared) (c : U64 → Act ρ),
    alone s (computeC dim n k c) = compute dim n k s.table >>= fun r => alone { s with table := r.2 } (c r.1) := by
  intro n
  induction n with
  | zero =>
    intro k s c
    unfold computeC compute
    split
    · rfl
    · rw [alone]; rfl
  | succ n ih =>
    intro k s c
    unfold computeC compute
    split
    · rfl
    · rw [alone_lookC s _ _ (compute dim n (k - 1)) (fun s c => ih (k - 1) s c)]
      simp only [bind_assoc]
      congr 1
      funext v1
      congr 1
      funext r
      obtain ⟨w1, t1⟩ := r
      simp only
      rw [alone_lookC _ _ _ (compute dim n k) (fun s c => ih k s c)]
      simp only [bind_assoc]
      congr 1

theorem small_iff (n : Nat) (hn : n < 2 ^ 32) : (n * (n / 2) + (n &&& 1)) % 2 ^ 64 ≤ 5000 ↔ n ≤ 100 := by
  have hsize : (n * (n / 2) + (n &&& 1)) % 2 ^ 64 = n * (n / 2) + n % 2 := by
    rw [Nat.and_one_is_mod, Nat.mod_eq_of_lt]
    have h5 : n * (n / 2) ≤ 2 ^ 32 * 2 ^ 31 := Nat.mul_le_mul (by omega) (by omega)
    omega
  rw [hsize]
  constructor
  · intro h
    by_contra hc
    have h6 : 101 * 50 ≤ n * (n / 2) := Nat.mul_le_mul (by omega) (by omega)
    omega
  · intro h
    rcases Nat.lt_or_ge n 100 with h1 | h1
    · have h6 : n * (n / 2) ≤ 99 * 49 := Nat.mul_le_mul (by omega) (by omega)
      omega
    · have : n = 100 := by omega
      subst this; decide

/-- The three kinds of calls: those that need no table, those with the static table, and those with a table of their own. -/
theorem callC_cases (n k : Nat) (hn : n < 2 ^ 32) (c : U64 → Act ρ) :
    callC n k c = c (chosen (n, k)) ∨
    (2 ≤ k ∧ k < n ∧ n ≤ 100 ∧ callC n k c = .getInit fun b => if b then computeC 50 n k c else fillC 5000 0 (.setInit (computeC 50 n k c))) ∨
    callC n k c = .getInit fun _ => c (chosen (n, k)) := by
  by_cases h1 : n < k
  · left
    unfold callC chosen
    rw [if_pos h1, if_neg (by intro h; have := congrArg Prod.snd h; simp at this; omega)]
    simp [Nat.choose_eq_zero_of_lt h1]
  by_cases h2 : n = 0
  · left
    have : k = 0 := by omega
    subst this; subst h2
    simp [callC, chosen]
  have hne : (n, k) ≠ (0, 0) := by intro h; exact h2 (congrArg Prod.fst h)
  by_cases h3 : k = 0
  · left; subst h3
    unfold callC chosen
    rw [if_neg h1, if_neg h2, if_pos rfl, if_neg hne]; simp
  by_cases h4 : n = k
  · left; subst h4
    unfold callC chosen
    rw [if_neg h1, if_neg h2, if_neg h3, if_pos rfl, if_neg hne]; simp
  by_cases h5 : k = 1
  · left; subst h5
    unfold callC chosen
    rw [if_neg h1, if_neg h2, if_neg h3, if_neg h4, if_pos rfl, if_neg hne]; simp
  right
  by_cases h6 : n ≤ 100
  · left
    refine ⟨by omega, by omega, h6, ?_⟩
    unfold callC
    rw [if_neg h1, if_neg h2, if_neg h3, if_neg h4, if_neg h5]
    simp only [if_pos ((small_iff n hn).2 h6), h6, decide_true, Bool.and_true]
    congr 1
    funext b
    cases b <;> rfl
  · right
    obtain ⟨t', h, _⟩ := nChooseK_spec freshTable staticOk_fresh n k hn (by omega)
    have hs : ¬ ((n * (n / 2) + (n &&& 1)) % 2 ^ 64 ≤ 5000) := fun h => h6 ((small_iff n hn).1 h)
    unfold nChooseK at h
    rw [if_neg h1, if_neg h2, if_neg h3, if_neg h4, if_neg h5] at h
    simp only [if_neg hs] at h
    unfold callC
    rw [if_neg h1, if_neg h2, if_neg h3, if_neg h4, if_neg h5]
    simp only [if_neg hs, h6, decide_false, Bool.and_false, Bool.false_eq_true, if_false]
    congr 1
    funext _
    cases hc : compute (n / 2) n k (List.replicate ((n * (n / 2) + (n &&& 1)) % 2 ^ 64) 0) with
    | ok r =>
      rw [hc, ok_bind] at h
      have := congrArg Prod.fst (Outcome.ok.inj h)
      simp only at this
      simp only [this, chosen, if_neg hne, binom]
    | ub => rw [hc] at h; cases h
    | diverge => rw [hc] at h; cases h
    | thrown => rw [hc] at h; cases h

theorem alone_fillC : ∀ (n i : Nat) (s : Shared) (c : Act ρ), s.table = freshTable → i + n ≤ 5000 → alone s (fillC n i c) = alone s c := by
  intro n
  induction n with
  | zero => intro i s c _ _; rfl
  | succ n ih =>
    intro i s c hs hi
    have hlen : s.table.length = 5000 := by rw [hs]; exact staticOk_fresh.1
    have hset : s.table.set i 0 = s.table := by
      rw [hs]; unfold freshTable
      rw [List.set_replicate_self]
    unfold fillC
    rw [alone, if_pos (by omega), hset]
    exact ih (i + 1) _ c hs (by omega)

/-- A thread alone, from the start of the program: as if the table were initialised already, except that the flag may still be down. -/
theorem alone_start : ∀ (cs : List (Nat × Nat)) (rs : List U64), (∀ c ∈ cs, c.1 < 2 ^ 32) →
    alone programStart (callsC cs rs) = alone ⟨true, freshTable⟩ (callsC cs rs) ∨
    ∃ r, alone programStart (callsC cs rs) = ok (r, programStart) ∧ alone ⟨true, freshTable⟩ (callsC cs rs) = ok (r, ⟨true, freshTable⟩) := by
  intro cs
  induction cs with
  | nil => intro rs _; exact Or.inr ⟨rs, rfl, rfl⟩
  | cons c cs ih =>
    intro rs h
    obtain ⟨n, k⟩ := c
    have ih := fun rs => ih rs (fun c hc => h c (List.mem_cons_of_mem _ hc))
    unfold callsC
    rcases callC_cases n k (h (n, k) (by simp)) fun r => callsC cs (rs ++ [r]) with e | ⟨_, _, _, e⟩ | e
    · rw [e]; exact ih _
    · left
      rw [e, alone, alone]
      simp only [programStart, Bool.false_eq_true, if_false, if_true]
      rw [alone_fillC 5000 0 _ _ rfl (by omega), alone]
    · rw [e, alone, alone]; exact ih _

/-- C156: a call alone does what the model of C41 says. -/
theorem C156_alone (t : List U64) (n k : Nat) (hn : n < 2 ^ 32) :
    alone ⟨true, t⟩ (callC n k .done) = nChooseK t n k >>= fun r => ok (r.1, ⟨true, r.2⟩) := by
  unfold callC nChooseK
  by_cases h1 : n < k
  · rw [if_pos h1, if_pos h1]; rfl
  rw [if_neg h1, if_neg h1]
  by_cases h2 : n = 0
  · rw [if_pos h2, if_pos h2]; rfl
  rw [if_neg h2, if_neg h2]
  by_cases h3 : k = 0
  · rw [if_pos h3, if_pos h3]; rfl
  rw [if_neg h3, if_neg h3]
  by_cases h4 : n = k
  · rw [if_pos h4, if_pos h4]; rfl
  rw [if_neg h4, if_neg h4]
  by_cases h5 : k = 1
  · rw [if_pos h5, if_pos h5]; rfl
  rw [if_neg h5, if_neg h5, alone]
  simp only [Bool.not_true, Bool.false_and, Bool.false_eq_true, if_false]
  by_cases h6 : (n * (n / 2) + (n &&& 1)) % 2 ^ 64 ≤ 5000
  · rw [if_pos h6, if_pos h6, alone_computeC]; rfl
  · obtain ⟨t', h, _⟩ := nChooseK_spec freshTable staticOk_fresh n k hn (by omega)
    unfold nChooseK at h
    rw [if_neg h1, if_neg h2, if_neg h3, if_neg h4, if_neg h5] at h
    simp only [if_neg h6] at h
    rw [if_neg h6, if_neg h6]
    cases hc : compute (n / 2) n k (List.replicate ((n * (n / 2) + (n &&& 1)) % 2 ^ 64) 0) with
    | ok r => rfl
    | ub => rw [hc] at h; cases h
    | diverge => rw [hc] at h; cases h
    | thrown => rw [hc] at h; cases h

/-! ## Threads that keep the table right -/

/-- `v` is what entry `i` of the table is for. -/
def Correct (i : Nat) (v : U64) : Prop := ∀ n k, k ≤ n → n ≤ 99 → memoIndex 50 n k = i → v = binom n k

/-- The table while threads are running; the entries in `K` are known to be filled. -/
structure TableOk (K : Nat → Prop) (t : List U64) : Prop where
  len : t.length = 5000
  entry : ∀ i v, t[i]? = some v → v = 0 ∨ Correct i v
  known : ∀ i v, K i → t[i]? = some v → Correct i v

theorem correct_binom {n k : Nat} (hk : k ≤ n) (hn : n ≤ 99) : Correct (memoIndex 50 n k) (binom n k) := by
  intro n' k' hk' hn' e
  obtain ⟨rfl, h | h⟩ := inj_static n' k' n k hk' hn' hk hn e
  · rw [h]
  · exact binom_symm (by omega)

theorem tableOk_of_static {t : List U64} (h : StaticOk t) : TableOk (fun _ => False) t where
  len := h.1
  entry := by
    intro i v hv
    by_cases h0 : v = 0
    · exact Or.inl h0
    · right
      intro n k hk hn e
      obtain ⟨w, hw, hww⟩ := h.2 n k hk hn
      rw [e, hv] at hw
      cases hw
      rcases hww with h | h
      · exact absurd h h0
      · exact h
  known := by intro i v hK; exact hK.elim

theorem memoIndex_lt {n k : Nat} (hk : k ≤ n) (hn : n ≤ 99) : memoIndex 50 n k < 5000 := by unfold memoIndex; omega

theorem memoIndex_lt' {n k : Nat} (hk : k ≤ n) (hn : n ≤ 98) : memoIndex 50 n k < 4950 := by unfold memoIndex; omega

theorem tableOk_write {K K' : Nat → Prop} {t : List U64} (h : TableOk K t) {i : Nat} {v : U64} (hv : Correct i v) (hK : ∀ j, K' j → j = i ∨ K j) :
    TableOk K' (t.set i v) where
  len := by rw [List.length_set]; exact h.len
  entry := by
    intro j w hw
    rw [List.getElem?_set] at hw
    split at hw
    · rename_i e
      split at hw
      · cases hw; subst e; exact Or.inr hv
      · cases hw
    · exact h.entry j w hw
  known := by
    intro j w hj hw
    rw [List.getElem?_set] at hw
    split at hw
    · rename_i e
      split at hw
      · cases hw; subst e; exact hv
      · cases hw
    · rename_i e
      rcases hK j hj with rfl | hj
      · exact absurd rfl e
      · exact h.known j w hj hw

/-- A thread that writes right values, below entry `B` only, and ends after at most `d` steps with `P`, knowing that the entries in `K` are filled. -/
inductive Good (B : Nat) (P : (Nat → Prop) → ρ → Prop) : (Nat → Prop) → Nat → Act ρ → Prop
  | done {K d r} (h : P K r) : Good B P K d (.done r)
  | getInit {K d k} (h : Good B P K d (k true)) : Good B P K (d + 1) (.getInit k)
  | get {K d i k} (hi : i < 5000) (h0 : ¬ K i → Good B P K d (k 0)) (h1 : ∀ v, Correct i v → Good B P (fun j => j = i ∨ K j) d (k v)) :
      Good B P K (d + 1) (.get i k)
  | put {K d i v a} (hi : i < B) (hv : Correct i v) (h : Good B P (fun j => j = i ∨ K j) d a) : Good B P K (d + 1) (.put i v a)

theorem Good.mono {B : Nat} {P : (Nat → Prop) → ρ → Prop} {K : Nat → Prop} {d : Nat} {a : Act ρ} (h : Good B P K d a) : ∀ e, d ≤ e → Good B P K e a := by
  induction h with
  | done h => intro e _; exact .done h
  | getInit h ih =>
    intro e he
    obtain ⟨e, rfl⟩ : ∃ f, e = f + 1 := ⟨e - 1, by omega⟩
    exact .getInit (ih e (by omega))
  | get hi h0 h1 ih0 ih1 =>
    intro e he
    obtain ⟨e, rfl⟩ : ∃ f, e = f + 1 := ⟨e - 1, by omega⟩
    exact .get hi (fun hk => ih0 hk e (by omega)) (fun v hv => ih1 v hv e (by omega))
  | put hi hv h ih =>
    intro e he
    obtain ⟨e, rfl⟩ : ∃ f, e = f + 1 := ⟨e - 1, by omega⟩
    exact .put hi hv (ih e (by omega))

theorem Good.imp {B : Nat} {P Q : (Nat → Prop) → ρ → Prop} {K : Nat → Prop} {d : Nat} {a : Act ρ} (h : Good B P K d a) (hPQ : ∀ K r, P K r → Q K r) : Good B Q K d a := by
  induction h with
  | done h => exact .done (hPQ _ _ h)
  | getInit h ih => exact .getInit ih
  | get hi h0 h1 ih0 ih1 => exact .get hi ih0 ih1
  | put hi hv h ih => exact .put hi hv ih

/-- The number of accesses of a computation. -/
def steps : Nat → Nat
  | 0 => 0
  | n + 1 => 2 * (steps n + 3)

theorem steps_mono {m n : Nat} (h : m ≤ n) : steps m ≤ steps n := by
  induction n with
  | zero => have : m = 0 := by omega
            rw [this]
  | succ n ih =>
    rcases Nat.lt_or_ge n m with h1 | h1
    · have : m = n + 1 := by omega
      rw [this]
    · have := ih h1
      have e : steps (n + 1) = 2 * (steps n + 3) := rfl
      omega

theorem callC_static {n k : Nat} (hn : n < 2 ^ 32) (h : 2 ≤ k ∧ k < n ∧ n ≤ 100) (c : U64 → Act ρ) :
    callC n k c = .getInit fun b => if b then computeC 50 n k c else fillC 5000 0 (.setInit (computeC 50 n k c)) := by
  unfold callC
  rw [if_neg (by omega), if_neg (by omega), if_neg (by omega), if_neg (by omega), if_neg (by omega)]
  simp only [if_pos ((small_iff n hn).2 h.2.2), h.2.2, decide_true, Bool.and_true]
  congr 1
  funext b
  cases b <;> rfl

theorem good_lookC {B : Nat} {P : (Nat → Prop) → ρ → Prop} {n j : Nat} (hj : j ≤ n) (hn : n ≤ 99) (hB : memoIndex 50 n j < B)
    (recur : (U64 → Act ρ) → Act ρ) (m : Nat)
    (hrec : ∀ (K : Nat → Prop) (d : Nat) (c : U64 → Act ρ), (∀ K' : Nat → Prop, (∀ i, K i → K' i) → Good B P K' d (c (binom n j))) → Good B P K (d + m) (recur c))
    (K : Nat → Prop) (d : Nat) (c : U64 → Act ρ)
    (hc : ∀ K' : Nat → Prop, (∀ i, K i → K' i) → K' (memoIndex 50 n j) → Good B P K' d (c (binom n j))) :
    Good B P K (d + (m + 3)) (lookC (memoIndex 50 n j) recur c) := by
  have hrest : ∀ K0 : Nat → Prop, (∀ i, K i → K0 i) → Good B P K0 (d + 2 + m) (recur fun w => .put (memoIndex 50 n j) w (.get (memoIndex 50 n j) c)) := by
    intro K0 hK0
    refine hrec K0 (d + 2) _ fun K1 hK1 => .put hB (correct_binom hj hn) (.get (memoIndex_lt hj hn) ?_ ?_)
    · intro h; exact absurd (Or.inl rfl) h
    · intro v hv
      rw [hv n j hj hn rfl]
      exact hc _ (fun i hi => Or.inr (Or.inr (hK1 i (hK0 i hi)))) (Or.inl rfl)
  have e : d + (m + 3) = (d + 2 + m) + 1 := by omega
  unfold lookC
  rw [e]
  refine .get (memoIndex_lt hj hn) ?_ ?_
  · intro _
    rw [if_pos rfl]
    exact (hrest K fun _ h => h).mono _ (by omega)
  · intro v hv
    split
    · exact (hrest _ fun _ h => Or.inr h).mono _ (by omega)
    · rw [hv n j hj hn rfl]
      exact (hc (fun i => i = memoIndex 50 n j ∨ K i) (fun i hi => Or.inr hi) (Or.inl rfl)).mono (d + 2 + m) (by omega)

theorem good_computeC {B : Nat} {P : (Nat → Prop) → ρ → Prop} : ∀ (n k : Nat), k ≤ n → n ≤ 100 → (∀ m j, j ≤ m → m + 1 ≤ n → memoIndex 50 m j < B) →
    ∀ (K : Nat → Prop) (d : Nat) (c : U64 → Act ρ),
    (∀ K' : Nat → Prop, (∀ i, K i → K' i) → (0 < k → k < n → K' (memoIndex 50 (n - 1) (k - 1)) ∧ K' (memoIndex 50 (n - 1) k)) →
      Good B P K' d (c (binom n k))) →
    Good B P K (d + steps n) (computeC 50 n k c) := by
  intro n
  induction n with
  | zero =>
    intro k hk _ _ K d c hc
    have : k = 0 := by omega
    subst this
    have := hc K (fun _ h => h) (by omega)
    simpa [computeC, binom, steps] using this
  | succ n ih =>
    intro k hk hn hB K d c hc
    unfold computeC
    split
    · rename_i h
      have := (hc K (fun _ h => h) (by omega)).mono (d + steps (n + 1)) (by omega)
      rcases h with rfl | rfl <;> simpa [binom] using this
    · rename_i h
      obtain ⟨k, rfl⟩ : ∃ j, k = j + 1 := ⟨k - 1, by omega⟩
      have h1 : k ≤ n := by omega
      have h2 : k + 1 ≤ n := by omega
      have hB' : ∀ m j, j ≤ m → m + 1 ≤ n → memoIndex 50 m j < B := fun m j hj hm => hB m j hj (by omega)
      simp only [Nat.add_sub_cancel]
      have e : d + steps (n + 1) = (d + (steps n + 3)) + (steps n + 3) := by have : steps (n + 1) = 2 * (steps n + 3) := rfl; omega
      rw [e]
      refine good_lookC h1 (by omega) (hB n k h1 (by omega)) _ _ (fun K d c hc => ih k h1 (by omega) hB' K d c fun K' hK' _ => hc K' hK') K _ _ fun K1 hK1 hk1 => ?_
      refine good_lookC h2 (by omega) (hB n (k + 1) h2 (by omega)) _ _ (fun K d c hc => ih (k + 1) h2 (by omega) hB' K d c fun K' hK' _ => hc K' hK') K1 _ _ fun K2 hK2 hk2 => ?_
      rw [binom_pascal]
      exact hc K2 (fun i hi => hK2 i (hK1 i hi)) fun _ _ => ⟨hK2 _ hk1, hk2⟩

/-- The entries read by a call. -/
def Uses (c : Nat × Nat) (i : Nat) : Prop := 2 ≤ c.2 ∧ c.2 < c.1 ∧ c.1 ≤ 100 ∧ (i = memoIndex 50 (c.1 - 1) (c.2 - 1) ∨ i = memoIndex 50 (c.1 - 1) c.2)

theorem good_callsC {B : Nat} : ∀ (cs : List (Nat × Nat)) (rs : List U64) (K : Nat → Prop), (∀ c ∈ cs, c.1 < 2 ^ 32 ∧ (c.1 ≤ 100 → 50 * c.1 ≤ B)) →
    Good B (fun K' r => r = rs ++ cs.map chosen ∧ (∀ i, K i → K' i) ∧ ∀ c ∈ cs, ∀ i, Uses c i → K' i) K (cs.length * (steps 100 + 1)) (callsC cs rs) := by
  intro cs
  induction cs with
  | nil => intro rs K _; exact .done ⟨by simp, fun _ h => h, by simp⟩
  | cons c cs ih =>
    intro rs K h
    obtain ⟨n, k⟩ := c
    have hn := h (n, k) (by simp)
    have hrest : ∀ K1 : Nat → Prop, (∀ i, K i → K1 i) → (∀ i, Uses (n, k) i → K1 i) →
        Good B (fun K' r => r = rs ++ ((n, k) :: cs).map chosen ∧ (∀ i, K i → K' i) ∧ ∀ c ∈ (n, k) :: cs, ∀ i, Uses c i → K' i) K1
          (cs.length * (steps 100 + 1)) (callsC cs (rs ++ [chosen (n, k)])) := by
      intro K1 hK1 hu
      refine (ih (rs ++ [chosen (n, k)]) K1 fun c hc => h c (List.mem_cons_of_mem _ hc)).imp ?_
      rintro K' r ⟨h1, h2, h3⟩
      refine ⟨by rw [h1]; simp, fun i hi => h2 i (hK1 i hi), ?_⟩
      intro c hc i hi
      rcases List.mem_cons.mp hc with rfl | hc
      · exact h2 i (hu i hi)
      · exact h3 c hc i hi
    have e : ((n, k) :: cs).length * (steps 100 + 1) = (cs.length * (steps 100 + 1) + steps 100) + 1 := by
      rw [List.length_cons, Nat.add_mul]; omega
    have hno : ∀ c : U64 → Act (List U64), ¬ (2 ≤ k ∧ k < n ∧ n ≤ 100) → ∀ i, Uses (n, k) i → K i := fun _ h i hu => absurd ⟨hu.1, hu.2.1, hu.2.2.1⟩ h
    unfold callsC
    rw [e]
    by_cases hk : 2 ≤ k ∧ k < n ∧ n ≤ 100
    · have he : callC n k (fun r => callsC cs (rs ++ [r])) = .getInit fun b => if b then computeC 50 n k (fun r => callsC cs (rs ++ [r]))
          else fillC 5000 0 (.setInit (computeC 50 n k fun r => callsC cs (rs ++ [r]))) := callC_static hn.1 hk _
      rw [he]
      refine .getInit ?_
      rw [if_pos rfl]
      have hsteps : steps n ≤ steps 100 := steps_mono hk.2.2
      refine (good_computeC n k (by omega) hk.2.2 ?_ K (cs.length * (steps 100 + 1)) _ ?_).mono _ (by omega)
      · intro m j hj hm
        have := hn.2 hk.2.2
        have h5 : 50 * (m + 1) ≤ 50 * n := Nat.mul_le_mul_left _ hm
        unfold memoIndex
        omega
      · intro K1 hK1 hu
        have hch : binom n k = chosen (n, k) := by
          unfold chosen
          rw [if_neg (by intro h; have := congrArg Prod.fst h; simp at this; omega)]
          rfl
        rw [hch]
        refine hrest K1 hK1 ?_
        rintro i ⟨_, _, _, rfl | rfl⟩
        · exact (hu (by omega) hk.2.1).1
        · exact (hu (by omega) hk.2.1).2
    · rcases callC_cases n k hn.1 fun r => callsC cs (rs ++ [r]) with e | ⟨a, b, c, _⟩ | e
      · rw [e]; exact (hrest K (fun _ h => h) (hno (fun _ => .bad) hk)).mono _ (by omega)
      · exact absurd ⟨a, b, c⟩ hk
      · rw [e]; exact .getInit ((hrest K (fun _ h => h) (hno (fun _ => .bad) hk)).mono _ (by omega))

/-- One step of a good thread. -/
theorem Good.step {B : Nat} {P : (Nat → Prop) → ρ → Prop} {K : Nat → Prop} {d : Nat} {a : Act ρ} (h : Good B P K d a) (hB : B ≤ 5000) (s : Shared)
    (hi : s.init = true) (ht : TableOk K s.table) :
    ∃ K', (∀ i, K i → K' i) ∧ Good B P K' (d - 1) (a.step s).2 ∧ (a.step s).1.init = true ∧ TableOk K' (a.step s).1.table ∧
      (∀ K2, TableOk K2 s.table → TableOk K2 (a.step s).1.table) ∧ ∀ i, B ≤ i → (a.step s).1.table[i]? = s.table[i]? := by
  cases h with
  | done h => exact ⟨K, fun _ h => h, .done h, hi, ht, fun _ h => h, fun _ _ => rfl⟩
  | getInit h =>
    refine ⟨K, fun _ h => h, ?_, hi, ht, fun _ h => h, fun _ _ => rfl⟩
    simp only [Act.step, hi]
    exact h
  | @get _ d i k hlt h0 h1 =>
    have hv : s.table[i]? = some (s.table[i]'(by rw [ht.len]; exact hlt)) := List.getElem?_eq_getElem _
    simp only [Act.step, hv]
    by_cases hc : Correct i (s.table[i]'(by rw [ht.len]; exact hlt))
    · refine ⟨_, fun _ h => Or.inr h, h1 _ hc, hi, ⟨ht.len, ht.entry, ?_⟩, fun _ h => h, by intros; trivial⟩
      intro j w hj hw
      rcases hj with rfl | hj
      · rw [hv] at hw; cases hw; exact hc
      · exact ht.known j w hj hw
    · refine ⟨K, fun _ h => h, ?_, hi, ht, fun _ h => h, by intros; trivial⟩
      rcases ht.entry i _ hv with hz | hz
      · rw [hz]; exact h0 fun hK => hc (ht.known i _ hK hv)
      · exact absurd hz hc
  | @put _ d i v a hlt hv h =>
    have hl : i < s.table.length := by rw [ht.len]; omega
    simp only [Act.step, if_pos hl]
    refine ⟨_, fun _ h => Or.inr h, h, hi, tableOk_write ht hv fun _ h => h, fun K2 h2 => tableOk_write h2 hv fun _ h => Or.inr h, ?_⟩
    intro j hj
    rw [List.getElem?_set_ne (by omega)]

theorem Good.ended {B : Nat} {P : (Nat → Prop) → ρ → Prop} {K : Nat → Prop} {d : Nat} {a : Act ρ} (h : Good B P K d a) :
    a ≠ .bad ∧ (∀ r, a = .done r → P K r) ∧ (d = 0 → ∃ r, a = .done r) := by
  cases h with
  | done h => exact ⟨by simp, by rintro _ ⟨⟩; exact h, fun _ => ⟨_, rfl⟩⟩
  | getInit h => exact ⟨by simp, by simp, by omega⟩
  | get => exact ⟨by simp, by simp, by omega⟩
  | put => exact ⟨by simp, by simp, by omega⟩

theorem good_run {B : Nat} (hB : B ≤ 5000) (P : Nat → (Nat → Prop) → ρ → Prop) : ∀ (sched : List Nat) (s : Shared) (ts : List (Act ρ)) (d : Nat → Nat), s.init = true →
    (∀ i a, ts[i]? = some a → ∃ K, TableOk K s.table ∧ Good B (P i) K (d i) a) →
    (runThreads s ts sched).2.length = ts.length ∧
    ∀ i a, (runThreads s ts sched).2[i]? = some a → ∃ K, Good B (P i) K (d i - sched.count i) a := by
  intro sched
  induction sched with
  | nil => intro s ts d _ h; exact ⟨rfl, fun i a ha => let ⟨K, _, hK⟩ := h i a ha; ⟨K, hK⟩⟩
  | cons j sched ih =>
    intro s ts d hi h
    unfold runThreads
    cases hj : ts[j]? with
    | none =>
      obtain ⟨h1, h2⟩ := ih s ts d hi h
      refine ⟨h1, fun i a ha => ?_⟩
      obtain ⟨K, hK⟩ := h2 i a ha
      have hne : j ≠ i := by
        rintro rfl
        rw [List.getElem?_eq_none_iff] at hj
        have := (List.getElem?_eq_some_iff.mp ha).1
        simp only at this
        omega
      exact ⟨K, by rw [List.count_cons_of_ne hne]; exact hK⟩
    | some b =>
      obtain ⟨K, hK, hg⟩ := h j b hj
      obtain ⟨K', _, hg', hi', ht', hoth, _⟩ := hg.step hB s hi hK
      obtain ⟨h1, h2⟩ := ih (b.step s).1 (ts.set j (b.step s).2) (fun i => if i = j then d i - 1 else d i) hi' (by
        intro i a ha
        rw [List.getElem?_set] at ha
        by_cases e : j = i
        · rw [if_pos e] at ha
          split at ha
          · cases ha
            rw [if_pos e.symm, ← e]
            exact ⟨K', ht', hg'⟩
          · cases ha
        · rw [if_neg e] at ha
          rw [if_neg (Ne.symm e)]
          obtain ⟨K1, a1, a2⟩ := h i a ha
          exact ⟨K1, hoth K1 a1, a2⟩)
      refine ⟨by rw [h1, List.length_set], fun i a ha => ?_⟩
      obtain ⟨K, hK⟩ := h2 i a ha
      refine ⟨K, ?_⟩
      by_cases e : j = i
      · subst e
        rw [if_pos rfl] at hK
        rw [List.count_cons_self]
        exact hK.mono _ (by omega)
      · rw [if_neg (Ne.symm e)] at hK
        rw [List.count_cons_of_ne e]
        exact hK

/-- How many accesses a thread may need at most. -/
def enough (cs : List (Nat × Nat)) : Nat := cs.length * (steps 100 + 1)

/-- C156: once the table is initialised (some thread has made a call with the static table, and nothing else is going on), any number of threads make any calls: in every
schedule every call returns the binomial coefficient, no thread leaves the table, and a thread ends after a bounded number of its steps whatever the others do. -/
theorem C156_initialized_partial (s : Shared) (hi : s.init = true) (ht : StaticOk s.table) (calls : List (List (Nat × Nat))) (h : ∀ cs ∈ calls, ∀ c ∈ cs, c.1 < 2 ^ 32)
    (sched : List Nat) (i : Nat) (cs : List (Nat × Nat)) (hcs : calls[i]? = some cs) :
    ∃ a, (runThreads s (calls.map thread) sched).2[i]? = some a ∧ a ≠ .bad ∧ (∀ r, a = .done r → r = cs.map chosen) ∧
      (enough cs ≤ sched.count i → a = .done (cs.map chosen)) := by
  have hstart : ∀ (i : Nat) a, (calls.map thread)[i]? = some a → ∃ K, TableOk K s.table ∧
      Good 5000 (fun _ r => r = ((calls[i]?).getD []).map chosen) K (enough ((calls[i]?).getD [])) a := by
    intro i a ha
    rw [List.getElem?_map] at ha
    cases hc : calls[i]? with
    | none => rw [hc] at ha; cases ha
    | some cs =>
      rw [hc] at ha
      cases ha
      refine ⟨_, tableOk_of_static ht, ?_⟩
      refine (good_callsC cs [] _ fun c hc' => ⟨h cs (List.mem_of_getElem? hc) c hc', by omega⟩).imp ?_
      rintro K r ⟨h1, _⟩
      simpa using h1
  obtain ⟨h1, h2⟩ := good_run (le_refl 5000) (fun i _ r => r = ((calls[i]?).getD []).map chosen) sched s (calls.map thread) (fun i => enough ((calls[i]?).getD [])) hi hstart
  have hlt : i < calls.length := (List.getElem?_eq_some_iff.mp hcs).1
  have hlt' : i < (runThreads s (calls.map thread) sched).2.length := by rw [h1, List.length_map]; exact hlt
  obtain ⟨K, hK⟩ := h2 i _ (List.getElem?_eq_getElem hlt')
  refine ⟨_, List.getElem?_eq_getElem hlt', hK.ended.1, fun r hr => ?_, fun hn => ?_⟩
  · have := hK.ended.2.1 r hr
    rw [hcs] at this
    exact this
  · rw [hcs] at hK
    obtain ⟨r, hr⟩ := hK.ended.2.2 (by simp only [Option.getD_some]; omega)
    have := hK.ended.2.1 r hr
    rw [hr, this]
    rfl

theorem good_alone {B : Nat} (hB : B ≤ 5000) {P : (Nat → Prop) → ρ → Prop} {K : Nat → Prop} {d : Nat} {a : Act ρ} (h : Good B P K d a) : ∀ s : Shared, s.init = true →
    TableOk K s.table → ∃ K' r s', alone s a = ok (r, s') ∧ P K' r ∧ s'.init = true ∧ TableOk K' s'.table ∧ ∀ i, B ≤ i → s'.table[i]? = s.table[i]? := by
  induction h with
  | done h => intro s hi ht; exact ⟨_, _, s, rfl, h, hi, ht, fun _ _ => rfl⟩
  | getInit h ih =>
    intro s hi ht
    rw [alone, hi]
    exact ih s hi ht
  | @get K d i k hlt h0 h1 ih0 ih1 =>
    intro s hi ht
    have hv : s.table[i]? = some (s.table[i]'(by rw [ht.len]; exact hlt)) := List.getElem?_eq_getElem _
    rw [alone, hv]
    by_cases hc : Correct i (s.table[i]'(by rw [ht.len]; exact hlt))
    · refine ih1 _ hc s hi ⟨ht.len, ht.entry, ?_⟩
      intro j w hj hw
      rcases hj with rfl | hj
      · rw [hv] at hw; cases hw; exact hc
      · exact ht.known j w hj hw
    · rcases ht.entry i _ hv with hz | hz
      · simp only [hz]; exact ih0 (fun hK => hc (ht.known i _ hK hv)) s hi ht
      · exact absurd hz hc
  | @put K d i v a hlt hv h ih =>
    intro s hi ht
    have hl : i < s.table.length := by rw [ht.len]; omega
    rw [alone, if_pos hl]
    obtain ⟨K', r, s', h1, h2, h3, h4, h5⟩ := ih { s with table := s.table.set i v } hi (tableOk_write ht hv fun _ h => h)
    refine ⟨K', r, s', h1, h2, h3, h4, fun j hj => ?_⟩
    rw [h5 j hj, List.getElem?_set_ne (by omega)]

/-- No binomial coefficient of the table is zero modulo 2^64: its factor 2 occurs at most six times. -/
theorem binom_ne_zero {n k : Nat} (hk : k ≤ n) (hn : n ≤ 99) : binom n k ≠ 0 := by
  intro h
  have h1 : n.choose k % 2 ^ 64 = 0 := by
    have := congrArg BitVec.toNat h
    simpa [binom] using this
  have hd : 2 ^ 64 ∣ n.choose k := Nat.dvd_of_mod_eq_zero h1
  have h0 : n.choose k ≠ 0 := (Nat.choose_pos hk).ne'
  have h2 : 64 ≤ (n.choose k).factorization 2 := (Nat.Prime.pow_dvd_iff_le_factorization Nat.prime_two h0).1 hd
  have h3 : (n.choose k).factorization 2 ≤ Nat.log 2 n := Nat.factorization_choose_le_log
  have h4 : Nat.log 2 n ≤ Nat.log 2 99 := Nat.log_mono_right hn
  have h5 : Nat.log 2 99 < 64 := Nat.log_lt_of_lt_pow (by decide) (by decide)
  omega

/-- The shared variables after `initialize_n_choose_k`: the entries for rows up to 98 are filled, row 99 is empty. -/
structure Initialized (s : Shared) : Prop where
  init : s.init = true
  static : StaticOk s.table
  filled : ∀ n k, 1 ≤ k → k ≤ n → 2 ≤ n → n ≤ 98 → s.table[memoIndex 50 n k]? = some (binom n k)
  row99 : ∀ k ≤ 99, s.table[memoIndex 50 99 k]? = some 0

theorem mem_initializeCalls (n k : Nat) : (n, k) ∈ initializeCalls ↔ n < 100 ∧ k < 100 := by
  simp [initializeCalls]

/-- C156: `initialize_n_choose_k` at the start of the program ends and leaves the table initialised. -/
theorem C156_initialize : ∃ s, alone programStart (thread initializeCalls) = ok (initializeCalls.map chosen, s) ∧ Initialized s := by
  have hb : ∀ c ∈ initializeCalls, c.1 < 100 := fun c hc => ((mem_initializeCalls c.1 c.2).1 hc).1
  have hg := good_callsC (B := 4950) initializeCalls [] (fun _ => False) fun c hc => ⟨by have := hb c hc; omega, fun _ => by have := hb c hc; omega⟩
  obtain ⟨K, r, s, h1, ⟨h2, _, h3⟩, h4, h5, h6⟩ := good_alone (by omega) hg ⟨true, freshTable⟩ rfl (tableOk_of_static staticOk_fresh)
  simp only [List.nil_append] at h2
  subst h2
  have hfill : ∀ n k, 1 ≤ k → k ≤ n → 2 ≤ n → n ≤ 98 → s.table[memoIndex 50 n k]? = some (binom n k) := by
    intro n k hk hkn h2n hn
    have hlt : memoIndex 50 n k < s.table.length := by rw [h5.len]; exact memoIndex_lt hkn (by omega)
    have hK : K (memoIndex 50 n k) := by
      by_cases hk1 : k + 1 ≤ n
      · exact h3 (n + 1, k + 1) ((mem_initializeCalls _ _).2 (by omega)) _ ⟨by simp; omega, by simp; omega, by simp; omega, Or.inl (by simp)⟩
      · exact h3 (n + 1, k) ((mem_initializeCalls _ _).2 (by omega)) _ ⟨by simp; omega, by simp; omega, by simp; omega, Or.inr (by simp)⟩
    rw [List.getElem?_eq_getElem hlt]
    rw [h5.known _ _ hK (List.getElem?_eq_getElem hlt) n k hkn (by omega) rfl]
  have hinit : Initialized s := by
    refine ⟨h4, ⟨h5.len, ?_⟩, hfill, ?_⟩
    · intro n k hk hn
      have hlt : memoIndex 50 n k < s.table.length := by rw [h5.len]; exact memoIndex_lt hk hn
      refine ⟨_, List.getElem?_eq_getElem hlt, ?_⟩
      rcases h5.entry _ _ (List.getElem?_eq_getElem hlt) with h | h
      · exact Or.inl h
      · exact Or.inr (h n k hk hn rfl)
    · intro k hk
      rw [h6 _ (by unfold memoIndex; omega)]
      unfold freshTable
      rw [List.getElem?_replicate, if_pos (memoIndex_lt hk (by omega))]
  refine ⟨s, ?_, hinit⟩
  rcases alone_start initializeCalls [] (fun c hc => by have := hb c hc; omega) with h | ⟨r, _, h⟩
  · show alone programStart (callsC initializeCalls []) = _
    rw [h, h1]
  · rw [h1] at h
    have e : s = ⟨true, freshTable⟩ := congrArg Prod.snd (Outcome.ok.inj h)
    have := hfill 3 1 (by omega) (by omega) (by omega) (by omega)
    rw [e] at this
    unfold freshTable at this
    rw [List.getElem?_replicate, if_pos (by unfold memoIndex; omega)] at this
    exact absurd (Option.some.inj this).symm (binom_ne_zero (by omega) (by omega))

/-! ## Threads that only read -/

/-- A thread that takes exactly `d` steps, all of them reading, and ends with `P`. -/
inductive Reads (s : Shared) (P : ρ → Prop) : Nat → Act ρ → Prop
  | done {r} (h : P r) : Reads s P 0 (.done r)
  | getInit {d k} (h : Reads s P d (k s.init)) : Reads s P (d + 1) (.getInit k)
  | get {d i v k} (hv : s.table[i]? = some v) (h : Reads s P d (k v)) : Reads s P (d + 1) (.get i k)

theorem Reads.step {s : Shared} {P : ρ → Prop} {d : Nat} {a : Act ρ} (h : Reads s P d a) : (a.step s).1 = s ∧ Reads s P (d - 1) (a.step s).2 := by
  cases h with
  | done h => exact ⟨rfl, .done h⟩
  | getInit h => exact ⟨rfl, h⟩
  | get hv h => simp only [Act.step, hv]; exact ⟨trivial, h⟩

theorem Reads.access {s : Shared} {P : ρ → Prop} {d : Nat} {a : Act ρ} (h : Reads s P d a) (x : Option Nat) (w : Bool) (ha : a.access = some (x, w)) : w = false := by
  cases h <;> simp_all [Act.access]

theorem Reads.ended {s : Shared} {P : ρ → Prop} {d : Nat} {a : Act ρ} (h : Reads s P d a) : a ≠ .bad ∧ (∀ r, a = .done r → P r) ∧ (d = 0 → ∃ r, a = .done r) := by
  cases h with
  | done h => exact ⟨by simp, by rintro _ ⟨⟩; exact h, fun _ => ⟨_, rfl⟩⟩
  | getInit h => exact ⟨by simp, by simp, by omega⟩
  | get => exact ⟨by simp, by simp, by omega⟩

theorem reads_callsC {s : Shared} (hs : Initialized s) : ∀ (cs : List (Nat × Nat)) (rs : List U64), (∀ c ∈ cs, c.1 ≠ 100 ∧ c.1 < 2 ^ 32) →
    ∃ d ≤ 3 * cs.length, Reads s (fun r => r = rs ++ cs.map chosen) d (callsC cs rs) := by
  intro cs
  induction cs with
  | nil => intro rs _; exact ⟨0, by simp, .done (by simp)⟩
  | cons c cs ih =>
    intro rs h
    obtain ⟨n, k⟩ := c
    obtain ⟨hn, hn32⟩ := h (n, k) (by simp)
    simp only at hn hn32
    obtain ⟨d, hd, hr⟩ := ih (rs ++ [chosen (n, k)]) fun c hc => h c (List.mem_cons_of_mem _ hc)
    have e : (fun r => r = rs ++ [chosen (n, k)] ++ cs.map chosen) = fun r => r = rs ++ ((n, k) :: cs).map chosen := by
      funext r; simp
    rw [e] at hr
    unfold callsC
    rcases callC_cases n k hn32 fun r => callsC cs (rs ++ [r]) with e | ⟨h2, hkn, hn100, e⟩ | e
    · rw [e]; exact ⟨d, by simp; omega, hr⟩
    · rw [e]
      refine ⟨d + 1 + 1 + 1, by simp; omega, .getInit ?_⟩
      rw [hs.init, if_pos rfl]
      obtain ⟨m, rfl⟩ : ∃ m, n = m + 1 := ⟨n - 1, by omega⟩
      obtain ⟨j, rfl⟩ : ∃ j, k = j + 1 := ⟨k - 1, by omega⟩
      unfold computeC
      rw [if_neg (by omega)]
      simp only [Nat.add_sub_cancel]
      unfold lookC
      refine .get (hs.filled m j (by omega) (by omega) (by omega) (by omega)) ?_
      rw [if_neg (binom_ne_zero (by omega) (by omega))]
      refine .get (hs.filled m (j + 1) (by omega) (by omega) (by omega) (by omega)) ?_
      rw [if_neg (binom_ne_zero (by omega) (by omega))]
      show Reads s _ d (callsC cs (rs ++ [binom m j + binom m (j + 1)]))
      rw [binom_pascal]
      have : binom (m + 1) (j + 1) = chosen (m + 1, j + 1) := by
        unfold chosen; rw [if_neg (by simp)]; rfl
      rw [this]
      exact hr
    · rw [e]; exact ⟨d + 1, by simp; omega, .getInit hr⟩

theorem reads_run {s : Shared} (P : Nat → ρ → Prop) : ∀ (sched : List Nat) (ts : List (Act ρ)) (d : Nat → Nat),
    (∀ i a, ts[i]? = some a → ∃ e ≤ d i, Reads s (P i) e a) →
    (runThreads s ts sched).1 = s ∧ (runThreads s ts sched).2.length = ts.length ∧
    ∀ i a, (runThreads s ts sched).2[i]? = some a → ∃ e ≤ d i - sched.count i, Reads s (P i) e a := by
  intro sched
  induction sched with
  | nil => intro ts d h; exact ⟨rfl, rfl, h⟩
  | cons j sched ih =>
    intro ts d h
    unfold runThreads
    cases hj : ts[j]? with
    | none =>
      obtain ⟨h0, h1, h2⟩ := ih ts d h
      refine ⟨h0, h1, fun i a ha => ?_⟩
      obtain ⟨e, he, hr⟩ := h2 i a ha
      have hne : j ≠ i := by
        rintro rfl
        rw [List.getElem?_eq_none_iff] at hj
        have := (List.getElem?_eq_some_iff.mp ha).1
        simp only at this
        omega
      exact ⟨e, by rw [List.count_cons_of_ne hne]; exact he, hr⟩
    | some b =>
      obtain ⟨e, he, hr⟩ := h j b hj
      obtain ⟨hs, hr'⟩ := hr.step
      simp only [hs]
      obtain ⟨h0, h1, h2⟩ := ih (ts.set j (b.step s).2) (fun i => if i = j then d i - 1 else d i) (by
        intro i a ha
        rw [List.getElem?_set] at ha
        by_cases e' : j = i
        · rw [if_pos e'] at ha
          split at ha
          · cases ha
            rw [if_pos e'.symm, ← e']
            exact ⟨e - 1, by omega, hr'⟩
          · cases ha
        · rw [if_neg e'] at ha
          rw [if_neg (Ne.symm e')]
          exact h i a ha)
      refine ⟨h0, by rw [h1, List.length_set], fun i a ha => ?_⟩
      obtain ⟨e2, he2, hr2⟩ := h2 i a ha
      refine ⟨e2, ?_, hr2⟩
      by_cases e' : j = i
      · subst e'
        rw [if_pos rfl] at he2
        rw [List.count_cons_self]
        omega
      · rw [if_neg (Ne.symm e')] at he2
        rw [List.count_cons_of_ne e']
        exact he2

/-- C156: after `initialize_n_choose_k` any number of threads may make any calls with `n` other than 100 (below 2^32): in every schedule nothing shared is changed, there is
no data race, every call returns the binomial coefficient, and a thread needs no more than three steps for each of its calls. -/
theorem C156_after_initialize_partial (calls : List (List (Nat × Nat))) (h : ∀ cs ∈ calls, ∀ c ∈ cs, c.1 ≠ 100 ∧ c.1 < 2 ^ 32) (sched : List Nat) :
    ∃ s, alone programStart (thread initializeCalls) = ok (initializeCalls.map chosen, s) ∧
      (runThreads s (calls.map thread) sched).1 = s ∧ ¬ Race (runThreads s (calls.map thread) sched).2 ∧
      ∀ i cs, calls[i]? = some cs → ∃ a, (runThreads s (calls.map thread) sched).2[i]? = some a ∧ a ≠ .bad ∧ (∀ r, a = .done r → r = cs.map chosen) ∧
        (3 * cs.length ≤ sched.count i → a = .done (cs.map chosen)) := by
  obtain ⟨s, hal, hs⟩ := C156_initialize
  obtain ⟨h0, h1, h2⟩ := reads_run (s := s) (fun i r => r = ((calls[i]?).getD []).map chosen) sched (calls.map thread) (fun i => 3 * ((calls[i]?).getD []).length) (by
    intro i a ha
    rw [List.getElem?_map] at ha
    cases hc : calls[i]? with
    | none => rw [hc] at ha; cases ha
    | some cs =>
      rw [hc] at ha
      cases ha
      exact reads_callsC hs cs [] (h cs (List.mem_of_getElem? hc)))
  refine ⟨s, hal, h0, ?_, ?_⟩
  · rintro ⟨i, j, a, b, x, u, w, _, ha, hb, hau, hbw, huw⟩
    obtain ⟨_, _, ra⟩ := h2 i a ha
    obtain ⟨_, _, rb⟩ := h2 j b hb
    rw [ra.access x u hau, rb.access x w hbw] at huw
    cases huw
  · intro i cs hcs
    have hlt : i < calls.length := (List.getElem?_eq_some_iff.mp hcs).1
    have hlt' : i < (runThreads s (calls.map thread) sched).2.length := by rw [h1, List.length_map]; exact hlt
    obtain ⟨e, he, hr⟩ := h2 i _ (List.getElem?_eq_getElem hlt')
    rw [hcs] at he hr
    simp only [Option.getD_some] at he hr
    refine ⟨_, List.getElem?_eq_getElem hlt', hr.ended.1, hr.ended.2.1, fun hn => ?_⟩
    obtain ⟨r, hr'⟩ := hr.ended.2.2 (by omega)
    rw [hr', hr.ended.2.1 r hr']

/-! ## Races -/

/-- C156 (negative result): `n = 100` is not covered by `initialize_n_choose_k`, which stops at 99: two threads that call `n_choose_k(100, 50)` afterwards race for an
entry of the table. -/
theorem C156_hundred_races : ∃ s, alone programStart (thread initializeCalls) = ok (initializeCalls.map chosen, s) ∧
    Race (runThreads s [thread [(100, 50)], thread [(100, 50)]] [0, 0, 0, 0, 1, 1, 1, 1]).2 := by
  obtain ⟨s, hal, hs⟩ := C156_initialize
  refine ⟨s, hal, ?_⟩
  have h1 : (thread [(100, 50)]).step s = (s, computeC 50 100 50 fun r => .done [r]) := by
    unfold thread callsC
    rw [callC_static (by decide) (by decide)]
    simp only [Act.step, hs.init, if_true]
    rfl
  obtain ⟨a2, h2⟩ : ∃ a2 : Act (List U64), a2 = computeC 50 99 49 fun w => .put (memoIndex 50 99 49) w (.get (memoIndex 50 99 49) fun v1 =>
    lookC (memoIndex 50 99 50) (computeC 50 99 50) fun v2 => .done [v1 + v2]) := ⟨_, rfl⟩
  have h3 : (computeC 50 100 50 fun r => Act.done [r]).step s = (s, a2) := by
    rw [computeC, if_neg (by decide)]
    simp only [lookC, Act.step, Nat.reduceSub, hs.row99 49 (by omega), if_true, h2]
  obtain ⟨a3, h4⟩ : ∃ a3, a2.step s = (s, a3) ∧ ∃ v a, a3.step s = (s, .put (memoIndex 50 99 49) v a) := by
    rw [h2, computeC, if_neg (by decide)]
    simp only [lookC, Act.step, Nat.reduceSub, hs.filled 98 48 (by omega) (by omega) (by omega) (by omega), if_neg (binom_ne_zero (show 48 ≤ 98 by omega) (by omega))]
    refine ⟨_, rfl, ?_⟩
    simp only [Act.step, hs.filled 98 49 (by omega) (by omega) (by omega) (by omega), if_neg (binom_ne_zero (show 49 ≤ 98 by omega) (by omega))]
    exact ⟨_, _, rfl⟩
  obtain ⟨h4, v, a, h5⟩ := h4
  refine ⟨0, 1, .put (memoIndex 50 99 49) v a, .put (memoIndex 50 99 49) v a, some (memoIndex 50 99 49), true, true, by decide, ?_, ?_, rfl, rfl, rfl⟩ <;>
    simp [runThreads, h1, h3, h4, h5]

/-- C156 (negative result): without `initialize_n_choose_k` any two first calls that use the table race, as both clear it. -/
theorem C156_first_calls_race (n k m j : Nat) (h1 : 2 ≤ k ∧ k < n ∧ n ≤ 100) (h2 : 2 ≤ j ∧ j < m ∧ m ≤ 100) :
    Race (runThreads programStart [thread [(n, k)], thread [(m, j)]] [0, 1]).2 := by
  have e : ∀ n k, 2 ≤ k ∧ k < n ∧ n ≤ 100 → ∃ a, (thread [(n, k)]).step programStart = (programStart, .put 0 0 a) := by
    intro n k h
    unfold thread callsC
    rw [callC_static (by omega) h]
    exact ⟨_, rfl⟩
  obtain ⟨a, ha⟩ := e n k h1
  obtain ⟨b, hb⟩ := e m j h2
  refine ⟨0, 1, .put 0 0 a, .put 0 0 b, some 0, true, true, by decide, ?_, ?_, rfl, rfl, rfl⟩ <;> simp [runThreads, ha, hb]

/-- Steps of one thread. -/
def stepsN : Nat → Shared → Act ρ → Shared × Act ρ
  | 0, s, a => (s, a)
  | n + 1, s, a => stepsN n (a.step s).1 (a.step s).2

theorem run_replicate (i : Nat) : ∀ (n : Nat) (s : Shared) (ts : List (Act ρ)) (a : Act ρ) (sched : List Nat), ts[i]? = some a →
    runThreads s ts (List.replicate n i ++ sched) = runThreads (stepsN n s a).1 (ts.set i (stepsN n s a).2) sched := by
  intro n
  induction n with
  | zero =>
    intro s ts a sched h
    have : ts.set i a = ts := by
      apply List.ext_getElem?
      intro j
      rw [List.getElem?_set]
      split
      · rename_i e
        subst e
        split
        · exact h.symm
        · rename_i h'; exact absurd (List.getElem?_eq_some_iff.mp h).1 h'
      · rfl
    simp [stepsN, this]
  | succ n ih =>
    intro s ts a sched h
    have hlt := (List.getElem?_eq_some_iff.mp h).1
    rw [List.replicate_succ, List.cons_append, runThreads, h]
    simp only
    rw [ih _ _ (a.step s).2 sched (List.getElem?_set_self hlt), List.set_set]
    rfl

theorem stepsN_fill : ∀ (n i : Nat) (s : Shared) (c : Act ρ), i + n = s.table.length →
    stepsN n s (fillC n i c) = ({ s with table := s.table.take i ++ List.replicate n 0 }, c) := by
  intro n
  induction n with
  | zero =>
    intro i s c h
    have : s.table.take i = s.table := List.take_of_length_le (by omega)
    simp [stepsN, fillC, this]
  | succ n ih =>
    intro i s c h
    rw [fillC, stepsN]
    have hlt : i < s.table.length := by omega
    simp only [Act.step, if_pos hlt]
    rw [ih (i + 1) _ c (by simp; omega)]
    have : (s.table.set i 0).take (i + 1) = s.table.take i ++ [0] := by
      rw [List.take_succ_eq_append_getElem (by simpa using hlt), List.take_set_of_le (le_refl i)]
      simp
    simp only [this, List.append_assoc, List.replicate_succ, List.singleton_append]

/-- The result of a thread that has ended. -/
def Act.result : Act ρ → Option ρ
  | .done r => some r
  | _ => none

/-- C156 (negative result): without `initialize_n_choose_k` a result can be wrong: two threads call `n_choose_k(4, 2)`, the second clears the table while the first is using
it, and the first returns 3. -/
theorem C156_first_calls_wrong : ∃ sched,
    ((runThreads programStart [thread [(4, 2)], thread [(4, 2)]] sched).2[0]?.bind Act.result) = some [3] ∧ chosen (4, 2) = 6 := by
  refine ⟨List.replicate 1 1 ++ (List.replicate 1 0 ++ (List.replicate 5000 0 ++ (List.replicate 13 0 ++ (List.replicate 5000 1 ++ (List.replicate 20 0 ++ []))))), ?_, by decide⟩
  have e : thread [(4, 2)] = .getInit fun b => if b then computeC 50 4 2 (fun r => .done [r]) else fillC 5000 0 (.setInit (computeC 50 4 2 fun r => .done [r])) := by
    unfold thread callsC
    rw [callC_static (by decide) (by decide)]
    rfl
  have hf : ∀ (b : Bool) (t : List U64) (c : Act (List U64)), t.length = 5000 → stepsN 5000 ⟨b, t⟩ (fillC 5000 0 c) = (⟨b, freshTable⟩, c) := by
    intro b t c h
    rw [stepsN_fill 5000 0 _ c (by rw [Nat.zero_add]; exact h.symm), List.take_zero, List.nil_append]
    rfl
  obtain ⟨c, hc⟩ : ∃ c : Act (List U64), c = computeC 50 4 2 fun r => .done [r] := ⟨_, rfl⟩
  have h1 : stepsN 1 programStart (thread [(4, 2)]) = (programStart, fillC 5000 0 (.setInit c)) := by
    rw [e, stepsN, stepsN, hc]
    rfl
  have hlen : ∀ n (s : Shared) (a : Act (List U64)), (stepsN n s a).1.table.length = s.table.length := by
    intro n
    induction n with
    | zero => intro s a; rfl
    | succ n ih =>
      intro s a
      rw [stepsN, ih]
      cases a <;> simp only [Act.step]
      · split <;> rfl
      · split
        · rw [List.length_set]
        · rfl
  rw [run_replicate 1 1 _ _ (thread [(4, 2)]) _ rfl, h1, run_replicate 0 1 _ _ (thread [(4, 2)]) _ rfl, h1,
    run_replicate 0 5000 _ _ (fillC 5000 0 (.setInit c)) _ rfl, programStart, hf _ _ _ staticOk_fresh.1,
    run_replicate 0 13 _ _ (.setInit c) _ rfl, run_replicate 1 5000 _ _ (fillC 5000 0 (.setInit c)) _ rfl,
    hf _ _ _ (by rw [hlen]; exact staticOk_fresh.1), run_replicate 0 20 _ _ (stepsN 13 ⟨false, freshTable⟩ (.setInit c)).2 _ rfl, hc]
  rw [runThreads]
  have hset : ∀ (ts : List (Act (List U64))) (x : Act (List U64)), 0 < ts.length → ((ts.set 0 x)[0]?.bind Act.result) = x.result := by
    intro ts x h
    rw [List.getElem?_set_self h]
    rfl
  rw [hset _ _ (by simp only [List.length_set]; exact Nat.succ_pos _)]
  decide +kernel

/-- Non-vacuity: three threads with calls of every kind; after fifteen rounds all have ended with the right results. -/
example : ∃ s, alone programStart (thread initializeCalls) = ok (initializeCalls.map chosen, s) ∧
    (runThreads s ([[(6, 3), (5, 2)], [(0, 0), (200, 2)], [(99, 50)]].map thread) ((List.range 15).flatMap fun _ => [2, 1, 0])).2[1]? = some (.done [0, 19900]) := by
  obtain ⟨s, h1, _, _, h2⟩ := C156_after_initialize_partial [[(6, 3), (5, 2)], [(0, 0), (200, 2)], [(99, 50)]] (by decide) ((List.range 15).flatMap fun _ => [2, 1, 0])
  obtain ⟨a, h3, _, _, h4⟩ := h2 1 _ rfl
  refine ⟨s, h1, ?_⟩
  rw [h3, h4 (by decide)]
  have e : Nat.choose 200 2 = 19900 := by rw [Nat.choose_two_right]
  simp [chosen, e]

example : alone ⟨true, freshTable⟩ (callC 6 3 .done) = nChooseK freshTable 6 3 >>= fun r => ok (r.1, ⟨true, r.2⟩) := C156_alone freshTable 6 3 (by decide)

example : ∃ a, (runThreads ⟨true, freshTable⟩ ([[(6, 3)], [(5, 2), (7, 1)]].map thread) [0, 1, 1, 0, 1]).2[1]? = some a ∧ a ≠ .bad := by
  obtain ⟨a, h1, h2, _⟩ := C156_initialized_partial ⟨true, freshTable⟩ rfl staticOk_fresh [[(6, 3)], [(5, 2), (7, 1)]] (by decide) [0, 1, 1, 0, 1] 1 _ rfl
  exact ⟨a, h1, h2⟩

end Strtk.Combi
