import Verif.Random.Rounded

/-!
# C178: seeds and skipped numbers (strtk.hpp 11897-11985, 12004-12030, 12053-12081)

The engine is any state machine that is seeded by 32 bits and gives numbers; a distribution takes as many of them as it likes for one value.  Which engine and
which distributions (Boost's `mt19937`, `uniform_int`, `uniform_real`) is a parameter.
-/

namespace Strtk.Random
open Outcome

/-! ## Model -/

/-- `boost::mt19937`: seeding with 32 bits, and `operator()`. -/
structure Engine (σ : Type) where
  seeded : BitVec 32 → σ
  step : σ → Nat × σ

/-- `boost::uniform_int<T>(min,max)` or `boost::uniform_real<T>(min,max)` applied to an engine: one value and the engine afterwards. -/
abbrev Dist (σ T : Type) := σ → T × σ

/-- `boost::mt19937 rng(static_cast<boost::mt19937::result_type>(seed))` (11963, 11979, 12011, 12061, 11937). -/
def seedEngine {σ : Type} (E : Engine σ) (seed : BitVec 64) : σ := E.seeded (seed.setWidth 32)

/-- `for (i = 0; i++ < pregen; rng())` (11964, 11980, 12012, 12062): what is left of the engine; also `while (pregen--) rng_()` (11940). -/
def skipNumbers {σ : Type} (E : Engine σ) : Nat → σ → σ
  | 0, e => e
  | n + 1, e => skipNumbers E n (E.step e).2

/-- `for (i = 0; i < count; ++i, *out++ = rnd())` (11907, 11921): the values written. -/
def takeValues {σ T : Type} (d : Dist σ T) : Nat → σ → List T
  | 0, _ => []
  | n + 1, e => (d e).1 :: takeValues d n (d e).2

/-- `generate_random_values(count, min, max, out, seed, pregen)` (11954-11966) and, with a container, 11968-11982: `before` is what it held. -/
def generateRandomValues {σ T : Type} (E : Engine σ) (d : Dist σ T) (count : Nat) (before : List T) (seed : BitVec 64) (pregen : Nat) : List T :=
  before ++ takeValues d count (skipNumbers E pregen (seedEngine E seed))

/-- The numbers `rnd()` gives, one after the other, when `rnd` refers to an engine in state `e`. -/
def values {σ T : Type} (d : Dist σ T) (e : σ) : Nat → T
  | 0 => (d e).1
  | n + 1 => values d (d e).2 n

/-- `random_permutation(begin, end, out, seed, pregen)` (12004-12016): the range of `uniform_real(0.0,1.0)` passes the test. -/
def randomPermutationSeeded {σ α D : Type} (E : Engine σ) (d : Dist σ D) (A : Arith D) (s : List α) (seed : BitVec 64) (pregen : Nat) : Outcome (List α) :=
  randomPermutation A true (values d (skipNumbers E pregen (seedEngine E seed))) s

/-- `random_combination(begin, end, set_size, out, seed, pregen)` (12053-12066): the result is dropped, so that a set size that is too large shows in nothing
being written. -/
def randomCombinationSeeded {σ α D : Type} (E : Engine σ) (d : Dist σ D) (A : Arith D) (s : List α) (setSize : Nat) (seed : BitVec 64) (pregen : Nat) :
    Outcome (List α) := do
  let r ← randomCombination A true (values d (skipNumbers E pregen (seedEngine E seed))) s setSize
  ok (r.getD [])

/-- `uniform_real_rng` (11926-11952): the engine `rng_`, and `rnd_`, a `variate_generator<rng_type, ...>`, which has an engine of its own, copied when it is
made (11938). -/
structure UniformRealRng (σ : Type) where
  rng : σ
  rnd : σ

/-- The constructor (11935-11941): the numbers are skipped in `rng_`. -/
def UniformRealRng.new {σ : Type} (E : Engine σ) (seed : BitVec 64) (pregen : Nat) : UniformRealRng σ :=
  let rng := seedEngine E seed
  let rnd := rng
  ⟨skipNumbers E pregen rng, rnd⟩

/-- `operator()` (11943-11946). -/
def UniformRealRng.call {σ D : Type} (d : Dist σ D) (g : UniformRealRng σ) : D × UniformRealRng σ := ((d g.rnd).1, { g with rnd := (d g.rnd).2 })

/-- `n` calls, one after the other. -/
def UniformRealRng.calls {σ D : Type} (d : Dist σ D) : Nat → UniformRealRng σ → List D
  | 0, _ => []
  | n + 1, g => (g.call d).1 :: calls d n (g.call d).2

/-! ## Specification -/

/-- A distribution that takes one number of the engine for each value. -/
def OneEach {σ T : Type} (E : Engine σ) (d : Dist σ T) : Prop := ∀ e, (d e).2 = (E.step e).2

/-! ## C178 -/

theorem takeValues_length {σ T : Type} (d : Dist σ T) (n : Nat) : ∀ e, (takeValues d n e).length = n := by
  induction n with
  | zero => intro e; rfl
  | succ n ih => intro e; rw [takeValues, List.length_cons, ih]

theorem takeValues_take {σ T : Type} (d : Dist σ T) (n m : Nat) : ∀ e, takeValues d n e <+: takeValues d (n + m) e := by
  induction n with
  | zero => intro e; exact List.nil_prefix
  | succ n ih =>
    intro e
    rw [show n + 1 + m = (n + m) + 1 by omega, takeValues, takeValues]
    exact List.cons_prefix_cons.mpr ⟨rfl, ih _⟩

theorem takeValues_drop {σ T : Type} (E : Engine σ) (d : Dist σ T) (h : OneEach E d) (n k : Nat) : ∀ e,
    takeValues d n (skipNumbers E k e) = (takeValues d (k + n) e).drop k := by
  induction k with
  | zero => intro e; rw [skipNumbers, Nat.zero_add]; rfl
  | succ k ih =>
    intro e
    rw [show k + 1 + n = (k + n) + 1 by omega, skipNumbers, takeValues, List.drop_succ_cons, ih, h e]

/-- **C178**: `generate_random_values` appends exactly `count` values, each in the range of the distribution, and asking for more of them continues the same
values. -/
theorem C178_values {σ T : Type} (E : Engine σ) (d : Dist σ T) (P : T → Prop) (hd : ∀ e, P (d e).1) (count : Nat) (before : List T) (seed : BitVec 64)
    (pregen : Nat) :
    ∃ new, generateRandomValues E d count before seed pregen = before ++ new ∧ new.length = count ∧ (∀ x ∈ new, P x) ∧
      ∀ more, ∃ rest, generateRandomValues E d (count + more) before seed pregen = before ++ (new ++ rest) := by
  refine ⟨_, rfl, takeValues_length d count _, ?_, ?_⟩
  · generalize skipNumbers E pregen (seedEngine E seed) = e
    induction count generalizing e with
    | zero => simp [takeValues]
    | succ n ih =>
      intro x hx
      rw [takeValues, List.mem_cons] at hx
      rcases hx with rfl | hx
      · exact hd e
      · exact ih _ x hx
  · intro more
    obtain ⟨rest, h⟩ := takeValues_take d count more (skipNumbers E pregen (seedEngine E seed))
    exact ⟨rest, by rw [generateRandomValues, ← h]⟩

/-- **C178**: with a distribution that takes one number for each value, `pregen` values are skipped.  Missing: `uniform_real_rng`, see
`C178_pregen_ignored`. -/
theorem C178_skips_partial {σ T : Type} (E : Engine σ) (d : Dist σ T) (h : OneEach E d) (count : Nat) (seed : BitVec 64) (pregen : Nat) :
    generateRandomValues E d count [] seed pregen = (generateRandomValues E d (pregen + count) [] seed 0).drop pregen := by
  simp only [generateRandomValues, List.nil_append, skipNumbers]
  exact takeValues_drop E d h count pregen _

/-- **C178**: the same seed gives the same results, and of a seed only the low 32 bits count. -/
theorem C178_seed {σ T α D : Type} (E : Engine σ) (d : Dist σ T) (u : Dist σ D) (A : Arith D) (seed seed' : BitVec 64)
    (h : seed.toNat % 2 ^ 32 = seed'.toNat % 2 ^ 32) (count pregen k : Nat) (before : List T) (s : List α) :
    generateRandomValues E d count before seed pregen = generateRandomValues E d count before seed' pregen ∧
    randomPermutationSeeded E u A s seed pregen = randomPermutationSeeded E u A s seed' pregen ∧
    randomCombinationSeeded E u A s k seed pregen = randomCombinationSeeded E u A s k seed' pregen ∧
    UniformRealRng.new E seed pregen = UniformRealRng.new E seed' pregen := by
  have e : seedEngine E seed = seedEngine E seed' := by
    unfold seedEngine
    congr 1
    apply BitVec.eq_of_toNat_eq
    simpa using h
  unfold generateRandomValues randomPermutationSeeded randomCombinationSeeded UniformRealRng.new
  rw [e]
  exact ⟨rfl, rfl, rfl, rfl⟩

theorem values_all {σ D : Type} (d : Dist σ D) (P : D → Prop) (hd : ∀ e, P (d e).1) (i : Nat) : ∀ e, P (values d e i) := by
  induction i with
  | zero => exact fun e => hd e
  | succ i ih => exact fun e => ih _

/-- **C178**: for every seed and every number of skipped numbers the elements are rearranged, or `set_size` of them chosen (none when there are fewer), provided
the distribution gives `p`-bit floating-point numbers from [0,1). -/
theorem C178_selection {σ α : Type} (E : Engine σ) (d : Dist σ Draw) (p : Nat) (hp : 1 ≤ p) (hd : ∀ e, (d e).1.Float p) (s : List α) (hs : s.length ≤ 2 ^ p)
    (seed : BitVec 64) (pregen k : Nat) :
    (∃ out, randomPermutationSeeded E d (rounded p) s seed pregen = ok out ∧ out.Perm s) ∧
    (∃ out, randomCombinationSeeded E d (rounded p) s k seed pregen = ok out ∧ out.Subperm s ∧ out.length = if k ≤ s.length then k else 0) := by
  have hv := fun i => values_all d (fun x => x.Float p) hd i (skipNumbers E pregen (seedEngine E seed))
  refine ⟨C81_random_permutation p hp _ hv s hs, ?_⟩
  obtain ⟨h1, h2⟩ := C81_random_combination p hp _ hv s hs k
  unfold randomCombinationSeeded
  by_cases hk : k ≤ s.length
  · obtain ⟨out, e, hl, hsub⟩ := h2 hk
    exact ⟨out, by rw [e]; rfl, hsub, by rw [if_pos hk, hl]⟩
  · exact ⟨[], by rw [h1 (by omega)]; rfl, List.nil_subperm, by rw [if_neg hk]; rfl⟩

theorem calls_rnd {σ D : Type} (d : Dist σ D) (n : Nat) : ∀ g : UniformRealRng σ, g.calls d n = takeValues d n g.rnd := by
  induction n with
  | zero => intro g; rfl
  | succ n ih => intro g; rw [UniformRealRng.calls, takeValues, ih]; rfl

/-- **C178** (negative result): `uniform_real_rng` gives the same numbers whatever `pregen` is: the numbers are skipped in one engine and drawn from a copy made
before.  They are the numbers `generate_random_values` gives with the same seed and nothing skipped. -/
theorem C178_pregen_ignored {σ D : Type} (E : Engine σ) (d : Dist σ D) (seed : BitVec 64) (pregen n : Nat) :
    (UniformRealRng.new E seed pregen).calls d n = generateRandomValues E d n [] seed 0 := by
  rw [calls_rnd]
  rfl

/-- An engine that counts, and its numbers as fractions of 2^32: skipping does make a difference to `generate_random_values`, and not to `uniform_real_rng`. -/
def counting : Engine (BitVec 32) := ⟨id, fun e => (e.toNat, e + 1)⟩
def fraction32 : Dist (BitVec 32) Draw := fun e => (⟨e.toNat, 2 ^ 32⟩, e + 1)

example : (generateRandomValues counting fraction32 2 [] 7 3).map Draw.num = [10, 11] ∧
    ((UniformRealRng.new counting 7 3).calls fraction32 2).map Draw.num = [7, 8] := by decide

example : OneEach counting fraction32 := fun _ => rfl

example := C178_values counting fraction32 Draw.Below (fun e => e.isLt) 5 [⟨1, 2⟩] 7 3
example := C178_skips_partial counting fraction32 (fun _ => rfl) 5 7 3
example := C178_seed (α := Nat) counting fraction32 fraction32 exact 7 (7 + 2 ^ 40) (by decide) 5 3 2 [] [1, 2, 3]
example := C178_pregen_ignored counting fraction32 7 3 5

/-- Thirty-two bits fit a `double`. -/
example := C178_selection counting fraction32 53 (by omega) (fun e => ⟨e.isLt, (e.toNat : ℤ), -32, by
    rw [Nat.abs_cast]
    exact_mod_cast (le_trans e.isLt.le (by norm_num : 2 ^ 32 ≤ 2 ^ 53)), by
    simp [Draw.val, fraction32, zpow_neg, div_eq_mul_inv]; norm_num⟩) [1, 2, 3, 4] (by decide) 7 3 2

/-- **C178**: seeds that differ in their low 32 bits make a difference: with an engine that counts from its seed on, they give different values. -/
theorem C178_seed_matters (seed seed' : BitVec 64) (h : seed.toNat % 2 ^ 32 ≠ seed'.toNat % 2 ^ 32) (count pregen : Nat) (hc : 0 < count) :
    generateRandomValues counting fraction32 count [] seed pregen ≠ generateRandomValues counting fraction32 count [] seed' pregen := by
  have hs : ∀ (n : Nat) (e : BitVec 32), skipNumbers counting n e = e + BitVec.ofNat 32 n := by
    intro n
    induction n with
    | zero => intro e; simp [skipNumbers]
    | succ n ih =>
      intro e
      rw [skipNumbers, ih]
      show e + 1 + _ = _
      apply BitVec.eq_of_toNat_eq
      have e1 : (1 : BitVec 32).toNat = 1 := rfl
      simp only [BitVec.toNat_add, BitVec.toNat_ofNat, e1]
      omega
  obtain ⟨c, rfl⟩ : ∃ c, count = c + 1 := ⟨count - 1, by omega⟩
  intro e
  simp only [generateRandomValues, List.nil_append, takeValues, List.cons.injEq, hs] at e
  have e1 := congrArg Draw.num e.1
  simp only [fraction32, seedEngine, counting, id, BitVec.toNat_add, BitVec.toNat_setWidth, BitVec.toNat_ofNat] at e1
  omega

example := C178_seed_matters 7 8 (by decide) 2 3 (by decide)

theorem takeValues_get {σ T : Type} (d : Dist σ T) (i : Nat) : ∀ e, (takeValues d (i + 1) e)[i]? = some (values d e i) := by
  induction i with
  | zero => intro e; rfl
  | succ i ih => intro e; rw [takeValues, List.getElem?_cons_succ, ih]; rfl

/-- **C178**: the selections by seed use the numbers `generate_random_values` gives with the same distribution, seed and number of skipped numbers, one after the
other. -/
theorem C178_by_seed {σ α D : Type} (E : Engine σ) (d : Dist σ D) (A : Arith D) (s : List α) (seed : BitVec 64) (pregen k : Nat) :
    ∃ rng : Nat → D, (∀ i, (generateRandomValues E d (i + 1) [] seed pregen)[i]? = some (rng i)) ∧
      randomPermutationSeeded E d A s seed pregen = randomPermutation A true rng s ∧
      randomCombinationSeeded E d A s k seed pregen = (do
        match ← randomCombination A true rng s k with
        | some out => ok out
        | none => ok []) := by
  refine ⟨values d (skipNumbers E pregen (seedEngine E seed)), ?_, rfl, ?_⟩
  · intro i
    rw [generateRandomValues, List.nil_append]
    exact takeValues_get d i _
  · unfold randomCombinationSeeded
    cases randomCombination A true (values d (skipNumbers E pregen (seedEngine E seed))) s k with
    | ok r => cases r <;> rfl
    | _ => rfl

example := C178_by_seed counting fraction32 exact [1, 2, 3] 7 3 2

end Strtk.Random
