import Verif.KeyValue.Props

/-! # A text of key/value pairs is read back, in whatever order its pairs are (strtk.hpp 24056-24131, strtk_keyvalue_example.cpp) -/

namespace Strtk.KeyValue
open Outcome Strtk.Number

variable {V : Type}

/-- The text `k1=v1|k2=v2|...`; `b` separates the pairs, `e` the key from the value. -/
def kvText (b e : Byte) (P : List (List Byte × List Byte)) : List Byte := List.intercalate [b] (P.map fun p => p.1 ++ e :: p.2)

/-- No separator of pairs occurs in a key or a value, none of the two separators in a key, and no value is empty. -/
def Writable (b e : Byte) (P : List (List Byte × List Byte)) : Prop := ∀ p ∈ P, b ∉ p.1 ∧ e ∉ p.1 ∧ b ∉ p.2 ∧ p.2 ≠ []

theorem tokens_kvText {b e : Byte} (hbe : b ≠ e) {P : List (List Byte × List Byte)} (hP : Writable b e P) :
    tokens (fun c => decide (c = b)) (kvText b e P) = P.map fun p => p.1 ++ e :: p.2 := by
  by_cases h0 : P = []
  · subst h0; simp [tokens, kvText, List.intercalate]
  · have := List.splitOn_intercalate (ls := P.map fun p => p.1 ++ e :: p.2) b (by
      intro l hl
      obtain ⟨p, hp, rfl⟩ := List.mem_map.mp hl
      obtain ⟨h1, -, h3, -⟩ := hP p hp
      simp [h1, h3, hbe]) (by simpa using h0)
    rw [tokens, kvText]
    have e1 : (fun c => decide (c = b)) = (fun c : Byte => c == b) := by funext c; rfl
    rw [e1]
    rw [List.splitOn] at this
    rw [this, List.filter_eq_self]
    intro l hl
    obtain ⟨p, hp, rfl⟩ := List.mem_map.mp hl
    simp

theorem isPair_pair {b e : Byte} {P : List (List Byte × List Byte)} (hP : Writable b e P) {p : List Byte × List Byte} (hp : p ∈ P) :
    pairOf (fun c => decide (c = e)) (p.1 ++ e :: p.2) = some p := by
  obtain ⟨-, h2, -, h4⟩ := hP p hp
  exact (pairOf_iff _ _ p.1 p.2).mpr ⟨h4, fun c hc => by simp only [decide_eq_false_iff_not]; rintro rfl; exact h2 hc, e, by simp, rfl⟩

theorem known_pair {b e : Byte} {P : List (List Byte × List Byte)} (hP : Writable b e P) (look : List Byte → Option Nat) {p : List Byte × List Byte} (hp : p ∈ P) :
    Known (fun c => decide (c = e)) look (p.1 ++ e :: p.2) ↔ ∃ x, look p.1 = some x := by
  unfold Known
  simp only [← pairOf_iff, isPair_pair hP hp]
  constructor
  · rintro ⟨k, v, x, h, hx⟩
    cases h
    exact ⟨x, hx⟩
  · rintro ⟨x, hx⟩
    exact ⟨p.1, p.2, x, rfl, hx⟩

theorem valuesFor_pairs {b e : Byte} (look : List Byte → Option Nat) (x : Nat) : ∀ (P : List (List Byte × List Byte)), Writable b e P →
    valuesFor (fun c => decide (c = e)) look x (P.map fun p => p.1 ++ e :: p.2) = (P.filter fun p => look p.1 = some x).map Prod.snd
  | [], _ => rfl
  | p :: P, h => by
    rw [List.map_cons, valuesFor_cons, valuesFor_pairs look x P fun q hq => h q (by simp [hq])]
    have := isPair_pair h (List.mem_cons_self (a := p) (l := P))
    simp only [valuesFor, List.filterMap_cons, List.filterMap_nil, this]
    by_cases hx : look p.1 = some x <;> simp [hx]

theorem kvText_ne_nil {b e : Byte} : ∀ {P : List (List Byte × List Byte)}, kvText b e P ≠ [] ↔ P ≠ []
  | [] => by simp [kvText, List.intercalate]
  | [p] => by simp [kvText, List.intercalate]
  | p :: q :: P => by
    rw [kvText, List.map_cons, List.map_cons, List.intercalate_cons_cons]
    simp

/-- **C146.** A text written from pairs, each key registered for a variable of its own (`look`): parsing succeeds exactly when there is a pair, every key is known and
every value converts; then each variable holds what its converter makes of its value, and the others are unchanged. -/
theorem C146_round_trip (b e : Byte) (hbe : b ≠ e) (find : List Byte → Outcome (Option Nat)) (look : List Byte → Option Nat) (hf : ∀ k, find k = ok (look k))
    (conv : Nat → V → List Byte → Bool × V) (mem mem' : Nat → V) (P : List (List Byte × List Byte)) (hP : Writable b e P)
    (hd : P.Pairwise fun p q => ∀ x, look p.1 = some x → look q.1 ≠ some x) :
    parseStrict (fun c => decide (c = b)) (fun c => decide (c = e)) find conv mem (kvText b e P) = ok (true, mem') ↔
      P ≠ [] ∧ (∀ p ∈ P, ∃ x, look p.1 = some x ∧ conv x (mem x) p.2 = (true, mem' x)) ∧ ∀ x, (∀ p ∈ P, look p.1 ≠ some x) → mem' x = mem x := by
  rw [C59_strict _ _ find look hf, tokens_kvText hbe hP, kvText_ne_nil]
  have hone : ∀ p ∈ P, ∀ x, look p.1 = some x → (P.filter fun p => look p.1 = some x) = [p] := by
    intro p hp x hx
    obtain ⟨l1, l2, rfl⟩ := List.append_of_mem hp
    obtain ⟨-, h2, h3⟩ := List.pairwise_append.mp hd
    rw [List.filter_append, List.filter_cons_of_pos (by simpa using hx),
      List.filter_eq_nil_iff.mpr (fun q hq => by simpa using fun h => h3 q hq p (by simp) x h hx),
      List.filter_eq_nil_iff.mpr (fun q hq => by simpa using (List.pairwise_cons.mp h2).1 q hq x hx)]
    rfl
  have hsingle : ∀ x a v (m : V), convAll (conv x) a [v] = (true, m) ↔ conv x a v = (true, m) := by
    intro x a v m
    simp only [convAll]
    cases h : conv x a v with
    | mk f r => cases f <;> simp
  constructor
  · rintro ⟨h1, h2, h3⟩
    refine ⟨h1, ?_, ?_⟩
    · intro p hp
      obtain ⟨x, hx⟩ := (known_pair hP look hp).mp (h2 _ (List.mem_map.mpr ⟨p, hp, rfl⟩))
      refine ⟨x, hx, ?_⟩
      have := h3 x
      rw [valuesFor_pairs look x P hP, hone p hp x hx] at this
      exact (hsingle x _ _ _).mp this
    · intro x hx
      have := h3 x
      rw [valuesFor_pairs look x P hP, List.filter_eq_nil_iff.mpr (fun q hq => by simpa using hx q hq)] at this
      exact (congrArg Prod.snd this).symm
  · rintro ⟨h1, h2, h3⟩
    refine ⟨h1, ?_, ?_⟩
    · intro t ht
      obtain ⟨p, hp, rfl⟩ := List.mem_map.mp ht
      obtain ⟨x, hx, -⟩ := h2 p hp
      exact (known_pair hP look hp).mpr ⟨x, hx⟩
    · intro x
      rw [valuesFor_pairs look x P hP]
      by_cases hx : ∃ p ∈ P, look p.1 = some x
      · obtain ⟨p, hp, hx⟩ := hx
        obtain ⟨y, hy, hc⟩ := h2 p hp
        rw [hx] at hy
        cases hy
        rw [hone p hp x hx]
        exact (hsingle x _ _ _).mpr hc
      · have hx' : ∀ p ∈ P, look p.1 ≠ some x := fun p hp h => hx ⟨p, hp, h⟩
        rw [List.filter_eq_nil_iff.mpr (fun q hq => by simpa using hx' q hq), h3 x hx']
        rfl

/-- The order of the pairs does not matter, except for the order of the values given for one variable: two texts with the same pairs, in which the pairs of each
variable come in the same order, are both accepted, with the same results, or both rejected. -/
theorem C146_order (b e : Byte) (hbe : b ≠ e) (find : List Byte → Outcome (Option Nat)) (look : List Byte → Option Nat) (hf : ∀ k, find k = ok (look k))
    (conv : Nat → V → List Byte → Bool × V) (mem mem' : Nat → V) (P Q : List (List Byte × List Byte)) (hP : Writable b e P) (hPQ : P.Perm Q)
    (hs : ∀ x, (P.filter fun p => look p.1 = some x) = Q.filter fun p => look p.1 = some x) :
    parseStrict (fun c => decide (c = b)) (fun c => decide (c = e)) find conv mem (kvText b e P) = ok (true, mem') ↔
      parseStrict (fun c => decide (c = b)) (fun c => decide (c = e)) find conv mem (kvText b e Q) = ok (true, mem') := by
  have hQ : Writable b e Q := fun p hp => hP p (hPQ.mem_iff.mpr hp)
  rw [C59_strict _ _ find look hf, C59_strict _ _ find look hf, tokens_kvText hbe hP, tokens_kvText hbe hQ, kvText_ne_nil, kvText_ne_nil]
  simp only [valuesFor_pairs look _ P hP, valuesFor_pairs look _ Q hQ, hs, List.mem_map, hPQ.mem_iff]
  rw [show P ≠ [] ↔ Q ≠ [] by rw [not_iff_not]; exact ⟨fun h => by subst h; exact hPQ.nil_eq.symm, fun h => by subst h; exact hPQ.eq_nil⟩]

/-- The same for the mode that ignores errors: the number of pairs not delivered and all the variables agree. -/
theorem C146_order_lenient (b e : Byte) (hbe : b ≠ e) (find : List Byte → Outcome (Option Nat)) (look : List Byte → Option Nat) (hf : ∀ k, find k = ok (look k))
    (conv : Nat → V → List Byte → Bool × V) (good : Nat → List Byte → Bool) (hg : ∀ x a v, (conv x a v).1 = good x v) (mem : Nat → V)
    (P Q : List (List Byte × List Byte)) (hP : Writable b e P) (hPQ : P.Perm Q)
    (hs : ∀ x, (P.filter fun p => look p.1 = some x) = Q.filter fun p => look p.1 = some x) :
    ∃ n mem', n = P.countP (fun p => !((look p.1).any fun x => good x p.2)) ∧
      parseLenient (fun c => decide (c = b)) (fun c => decide (c = e)) find conv mem (kvText b e P) = ok (n, mem') ∧
      parseLenient (fun c => decide (c = b)) (fun c => decide (c = e)) find conv mem (kvText b e Q) = ok (n, mem') := by
  have hQ : Writable b e Q := fun p hp => hP p (hPQ.mem_iff.mpr hp)
  obtain ⟨m1, h1, g1⟩ := C59_lenient (fun c => decide (c = b)) (fun c => decide (c = e)) find look hf conv good hg mem (kvText b e P)
  obtain ⟨m2, h2, g2⟩ := C59_lenient (fun c => decide (c = b)) (fun c => decide (c = e)) find look hf conv good hg mem (kvText b e Q)
  rw [tokens_kvText hbe hP] at h1 g1
  rw [tokens_kvText hbe hQ] at h2 g2
  have em : m1 = m2 := by
    funext x
    rw [g1, g2, valuesFor_pairs look x P hP, valuesFor_pairs look x Q hQ, hs]
  have hc : ∀ R, Writable b e R → (R.map fun p => p.1 ++ e :: p.2).countP (fun t => ¬ Delivers (fun c => decide (c = e)) look good t) =
      R.countP (fun p => !((look p.1).any fun x => good x p.2)) := by
    intro R hR
    rw [List.countP_map]
    apply List.countP_congr
    intro p hp
    have : Delivers (fun c => decide (c = e)) look good (p.1 ++ e :: p.2) ↔ (look p.1).any (fun x => good x p.2) = true := by
      unfold Delivers
      simp only [← pairOf_iff, isPair_pair hR hp, Option.any_eq_true]
      constructor
      · rintro ⟨k, v, x, h, hx, hg⟩
        cases h
        exact ⟨x, hx, hg⟩
      · rintro ⟨x, hx, hg⟩
        exact ⟨p.1, p.2, x, rfl, hx, hg⟩
    simp [this]
  rw [hc P hP] at h1
  rw [hc Q hQ, ← hPQ.countP_eq] at h2
  exact ⟨_, m1, rfl, h1, by rw [em]; exact h2⟩

/-- After a failure the variables do depend on the order: `a=1|?=2` has delivered its first value, `?=2|a=1` nothing. -/
theorem C146_failure_order (conv : Nat → List Byte → List Byte → Bool × List Byte) (h : ∀ x a v, conv x a v = (true, v)) (mem : Nat → List Byte) (hm : mem 7 = []) :
    ∃ m1 m2, parseStrict (fun c => decide (c = 124)) (fun c => decide (c = 61)) (stringFind (mapRegister [] [97] 7)) conv mem (kvText 124 61 [([97], [49]), ([63], [50])]) = ok (false, m1) ∧
      parseStrict (fun c => decide (c = 124)) (fun c => decide (c = 61)) (stringFind (mapRegister [] [97] 7)) conv mem (kvText 124 61 [([63], [50]), ([97], [49])]) = ok (false, m2) ∧
      m1 7 = [49] ∧ m2 7 = [] := by
  have hc : conv = fun _ _ v => (true, v) := by funext x a v; exact h x a v
  subst hc
  exact ⟨_, _, rfl, rfl, rfl, hm⟩

/-- The first two sequences of the example program, shortened: the same pairs in another order, distinct variables. -/
example : ∃ m, parseStrict (fun c => decide (c = (124 : Byte))) (fun c => decide (c = 61)) (uintFind [some 5, some 6]) (fun _ _ v => (true, v)) (fun _ => [])
      (kvText 124 61 [([49], [65, 61]), ([48], [66])]) = ok (true, m) ∧ m 5 = [66] ∧ m 6 = [65, 61] :=
  ⟨_, rfl, rfl, rfl⟩

end Strtk.KeyValue
