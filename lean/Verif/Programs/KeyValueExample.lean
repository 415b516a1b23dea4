import Verif.KeyValue.Pairs
import Verif.Parse.SinkType
import Verif.Number.Length
import Mathlib.Tactic.Ring
import Mathlib.Algebra.BigOperators.Group.List.Basic

/-!
# strtk_keyvalue_example.cpp

The members of `data_store` and of `complex_data` are numbered in the order of their declaration.  The texts, the number of rounds and the converters of the members
other than those named below are arguments.  Times are not modelled.
-/

namespace Strtk.Programs.KeyValue
open Outcome Strtk.Number Strtk.KeyValue

variable {V : Type}

/-- The keys registered for the members of `data_store` (153-175, 218-240), in order. -/
def members : List Nat :=
  [121, 122, 123, 124, 125, 126, 127, 128, 129, 110, 111, 11321, 11322, 11323, 11324, 11325, 11326, 11327, 11328, 11329, 11310, 11311]

/-- The table of the `uintkey_map` after the registrations (145-175, 311-328): `count` entries, the key at position `i` of the list stands for variable `i`. -/
def uintTable (count : Nat) (keys : List Nat) : List (Option Nat) :=
  (keys.zipIdx).foldl (fun t e => (uintRegister t e.1 e.2).2) (List.replicate count none)

/-- The map of the `stringkey_map` after the registrations (218-240); the keys are the decimal texts. -/
def stringTable (keys : List Nat) : List (List Byte × Nat) := (keys.zipIdx).foldl (fun m e => mapRegister m (decText e.1) e.2) []

/-- The inner loop (184-193, 249-258): `Except.error t` is the message "Failed to parse data: t" and the return.  `read` gives the value of an `unsigned int` member;
member 5 is `ui1`. -/
def pass (find : List Byte → Outcome (Option Nat)) (conv : Nat → V → List Byte → Bool × V) (read : V → Nat) :
    List (List Byte) → (Nat → V) × Nat → Outcome (Except (List Byte) ((Nat → V) × Nat))
  | [], st => ok (.ok st)
  | t :: ts, (mem, total) => do
    let (good, mem) ← parseStrict (fun c => decide (c = 124)) (fun c => decide (c = 61)) find conv mem t
    if good then pass find conv read ts (mem, (total + read (mem 5)) % 2 ^ 32) else ok (.error t)

/-- The outer loop (182-194, 247-259), with `r` rounds to go. -/
def rounds (find : List Byte → Outcome (Option Nat)) (conv : Nat → V → List Byte → Bool × V) (read : V → Nat) (data : List (List Byte)) :
    Nat → (Nat → V) × Nat → Outcome (Except (List Byte) ((Nat → V) × Nat))
  | 0, st => ok (.ok st)
  | r + 1, st => do
    let x ← pass find conv read data st
    match x with
    | .error t => ok (.error t)
    | .ok st => rounds find conv read data r st

/-- `example01` (114-268): the two totals printed. -/
def example01 (conv : Nat → V → List Byte → Bool × V) (read : V → Nat) (data : List (List Byte)) (r : Nat) (ds1 ds2 : Nat → V) :
    Outcome (Except (List Byte) (Nat × Nat)) := do
  let x ← rounds (uintFind (uintTable 11330 members)) conv read data r (ds1, 0)
  match x with
  | .error t => ok (.error t)
  | .ok (_, total1) =>
    let y ← rounds (stringFind (stringTable members)) conv read data r (ds2, 0)
    match y with
    | .error t => ok (.error t)
    | .ok (_, total2) => ok (.ok (total1, total2))

variable {E : Type}

/-- A member bound to a sink with the delimiter ',' (317-319, 326-328); a converter of elements that does not return is outside the model. -/
def sinkConv (elt : List Byte → Outcome (Bool × E)) (a : List E) (s : List Byte) : Bool × List E :=
  match ((Parse.Sink.make [44]).bindTo a).parse elt (fun c v => c ++ [v]) List.length s with
  | ok (r, k) => (r, k.target.getD a)
  | _ => (false, a)

/-- What the members `v0` to `v5` of `complex_data` do with a text (323-328); a number or a text is a list of one element. -/
def conv02 (scalar : Nat → List E → List Byte → Bool × List E) (elt : Nat → List Byte → Outcome (Bool × E)) (x : Nat) (a : List E) (s : List Byte) : Bool × List E :=
  if x < 3 then scalar x a s else sinkConv (elt x) a s

/-- `complex_data::reset` (279-284). -/
def reset (mem : Nat → List E) : Nat → List E := fun x => if x < 3 then mem x else []

/-- The loop of `example02` (330-346): for each text the members shown, or the message "Failed to parse data". -/
def loop02 (find : List Byte → Outcome (Option Nat)) (conv : Nat → List E → List Byte → Bool × List E) :
    List (List Byte) → (Nat → List E) → Outcome (List (Except (List Byte) (Nat → List E)))
  | [], _ => ok []
  | t :: ts, mem => do
    let (good, mem) ← parseStrict (fun c => decide (c = 124)) (fun c => decide (c = 61)) find conv mem t
    if good then do
      let rest ← loop02 find conv ts (reset mem)
      ok (.ok mem :: rest)
    else do
      let rest ← loop02 find conv ts mem
      ok (.error t :: rest)

/-- `example02` (287-346). -/
def example02 (scalar : Nat → List E → List Byte → Bool × List E) (elt : Nat → List Byte → Outcome (Bool × E)) (data : List (List Byte)) (cd : Nat → List E) :
    Outcome (List (Except (List Byte) (Nat → List E))) :=
  loop02 (uintFind (uintTable 6 (List.range 6))) (conv02 scalar elt) data cd

/-! ## Specification -/

/-- The pairs of a text: each of the `n` variables once, in any order, `key x` and `val x` being the key and the value of variable `x`. -/
def AllOnce (n : Nat) (key val : Nat → List Byte) (P : List (List Byte × List Byte)) : Prop :=
  P.Perm ((List.range n).map fun x => (key x, val x)) ∧ Writable 124 61 P

/-- A text of the example: its pairs in the order written, the value given to each variable, and the number given to `ui1`. -/
structure Line where
  pairs : List (List Byte × List Byte)
  val : Nat → List Byte
  ui1 : Nat

/-- The text of a line. -/
def Line.text (l : Line) : List Byte := kvText 124 61 l.pairs

/-! ## Proofs -/

theorem one_text (find : List Byte → Outcome (Option Nat)) (look : List Byte → Option Nat) (hf : ∀ k, find k = ok (look k)) (conv : Nat → V → List Byte → Bool × V)
    (n : Nat) (hn : 0 < n) (key val : Nat → List Byte) (hlook : ∀ x < n, look (key x) = some x) (P : List (List Byte × List Byte)) (hP : AllOnce n key val P)
    (mem : Nat → V) (hc : ∀ x < n, (conv x (mem x) (val x)).1 = true) :
    parseStrict (fun c => decide (c = 124)) (fun c => decide (c = 61)) find conv mem (kvText 124 61 P) =
      ok (true, fun x => if x < n then (conv x (mem x) (val x)).2 else mem x) := by
  obtain ⟨hperm, hw⟩ := hP
  have hmem : ∀ p, p ∈ P ↔ ∃ x < n, p = (key x, val x) := by
    intro p
    rw [hperm.mem_iff]
    simp only [List.mem_map, List.mem_range]
    constructor
    · rintro ⟨x, hx, rfl⟩; exact ⟨x, hx, rfl⟩
    · rintro ⟨x, hx, rfl⟩; exact ⟨x, hx, rfl⟩
  rw [C146_round_trip 124 61 (by decide) find look hf conv mem _ P hw]
  · refine ⟨?_, ?_, ?_⟩
    · rintro rfl
      have := (hmem (key 0, val 0)).mpr ⟨0, hn, rfl⟩
      simp at this
    · intro p hp
      obtain ⟨x, hx, rfl⟩ := (hmem p).mp hp
      refine ⟨x, hlook x hx, ?_⟩
      simp only [hx, if_true]
      exact Prod.ext (hc x hx) rfl
    · intro x hx
      by_cases h : x < n
      · exact absurd (hlook x h) (hx _ ((hmem _).mpr ⟨x, h, rfl⟩))
      · simp [h]
  · have hsymm : Std.Symm (fun p q : List Byte × List Byte => ∀ x, look p.1 = some x → look q.1 ≠ some x) := ⟨fun p q h x hq hp => h x hp hq⟩
    refine (hperm.pairwise_iff (fun {a b} h => hsymm.symm a b h)).mpr ?_
    rw [List.pairwise_map]
    refine List.Pairwise.imp_of_mem ?_ (List.nodup_range (n := n))
    intro a b ha hb hab x h1 h2
    rw [hlook a (List.mem_range.mp ha)] at h1
    rw [hlook b (List.mem_range.mp hb)] at h2
    exact hab (Option.some.inj (h1.trans h2.symm))

theorem pass_eq (find : List Byte → Outcome (Option Nat)) (look : List Byte → Option Nat) (hf : ∀ k, find k = ok (look k)) (conv : Nat → V → List Byte → Bool × V)
    (read : V → Nat) (n : Nat) (hn : 5 < n) (key : Nat → List Byte) (hlook : ∀ x < n, look (key x) = some x)
    : ∀ (data : List Line), (∀ d ∈ data, AllOnce n key d.val d.pairs ∧ (∀ a, read (conv 5 a (d.val 5)).2 = d.ui1) ∧ ∀ x < n, ∀ a, (conv x a (d.val x)).1 = true) →
      ∀ mem total, total < 2 ^ 32 → ∃ mem', pass find conv read (data.map Line.text) (mem, total) =
        ok (.ok (mem', (total + (data.map Line.ui1).sum) % 2 ^ 32))
  | [], _, mem, total, ht => ⟨mem, by simp only [pass, List.map_nil, List.sum_nil, Nat.add_zero, Nat.mod_eq_of_lt ht]⟩
  | d :: data, h, mem, total, ht => by
    obtain ⟨h1, h5, h2⟩ := h d (by simp)
    obtain ⟨mem', ih⟩ := pass_eq find look hf conv read n hn key hlook data (fun d' hd => h d' (by simp [hd]))
      (fun x => if x < n then (conv x (mem x) (d.val x)).2 else mem x) ((total + d.ui1) % 2 ^ 32) (Nat.mod_lt _ (by omega))
    refine ⟨mem', ?_⟩
    rw [List.map_cons, pass, Line.text, one_text find look hf conv n (by omega) key d.val hlook d.pairs h1 mem fun x hx => h2 x hx _, ok_bind]
    simp only [if_true, hn, h5]
    rw [ih, List.map_cons, List.sum_cons, Nat.mod_add_mod, Nat.add_assoc]

theorem rounds_eq (find : List Byte → Outcome (Option Nat)) (look : List Byte → Option Nat) (hf : ∀ k, find k = ok (look k)) (conv : Nat → V → List Byte → Bool × V)
    (read : V → Nat) (n : Nat) (hn : 5 < n) (key : Nat → List Byte) (hlook : ∀ x < n, look (key x) = some x)
    (data : List Line) (h : ∀ d ∈ data, AllOnce n key d.val d.pairs ∧ (∀ a, read (conv 5 a (d.val 5)).2 = d.ui1) ∧ ∀ x < n, ∀ a, (conv x a (d.val x)).1 = true) :
    ∀ r mem total, total < 2 ^ 32 → ∃ mem', rounds find conv read (data.map Line.text) r (mem, total) =
        ok (.ok (mem', (total + r * (data.map Line.ui1).sum) % 2 ^ 32))
  | 0, mem, total, ht => ⟨mem, by simp only [rounds, Nat.zero_mul, Nat.add_zero, Nat.mod_eq_of_lt ht]⟩
  | r + 1, mem, total, ht => by
    obtain ⟨mem1, h1⟩ := pass_eq find look hf conv read n hn key hlook data h mem total ht
    obtain ⟨mem2, h2⟩ := rounds_eq find look hf conv read n hn key hlook data h r mem1
      ((total + (data.map Line.ui1).sum) % 2 ^ 32) (Nat.mod_lt _ (by omega))
    refine ⟨mem2, ?_⟩
    rw [rounds, h1, ok_bind]
    simp only
    rw [h2, Nat.mod_add_mod]
    congr 4
    ring

theorem foldl_register (keys : List Nat) : ∀ (i : Nat) (t : List (Option Nat)), keys.Nodup →
    (∀ k ∈ keys, k < t.length) → ∀ k, ((keys.zipIdx i).foldl (fun t e => (uintRegister t e.1 e.2).2) t).getD k none =
      (if k ∈ keys then some (i + keys.idxOf k) else t.getD k none) := by
  induction keys with
  | nil => simp
  | cons a keys ih =>
    intro i t hnd hlt k
    obtain ⟨ha, hnd⟩ := List.nodup_cons.mp hnd
    have hlen : a < t.length := hlt a (by simp)
    have e : (uintRegister t a i).2 = t.set a (some i) := by simp [uintRegister, hlen]
    rw [List.zipIdx_cons, List.foldl_cons]
    simp only [e]
    rw [ih (i + 1) (t.set a (some i)) hnd (by intro k hk; rw [List.length_set]; exact hlt k (by simp [hk])) k]
    by_cases hk : k = a
    · subst hk
      simp [ha, List.getD, hlen]
    · by_cases hm : k ∈ keys
      · rw [if_pos hm, if_pos (by simp [hm]), List.idxOf_cons_ne _ (Ne.symm hk)]
        congr 1; omega
      · rw [if_neg hm, if_neg (by simp [hm, hk])]
        simp [List.getD, Ne.symm hk]

theorem foldl_mapRegister (keys : List Nat) : ∀ (i : Nat) (m : List (List Byte × Nat)), keys.Nodup → ∀ k,
    mapFind ((keys.zipIdx i).foldl (fun m e => mapRegister m (decText e.1) e.2) m) (decText k) =
      (if k ∈ keys then some (i + keys.idxOf k) else mapFind m (decText k)) := by
  induction keys with
  | nil => simp
  | cons a keys ih =>
    intro i m hnd k
    obtain ⟨ha, hnd⟩ := List.nodup_cons.mp hnd
    rw [List.zipIdx_cons, List.foldl_cons, ih (i + 1) _ hnd k]
    have hinj : decText k = decText a ↔ k = a := by
      constructor
      · intro h
        have := (C28_canonical k).2.1
        rw [h, (C28_canonical a).2.1] at this
        exact this.symm
      · rintro rfl; rfl
    by_cases hk : k = a
    · subst hk
      simp [ha, mapFind_register]
    · by_cases hm : k ∈ keys
      · rw [if_pos hm, if_pos (by simp [hm]), List.idxOf_cons_ne _ (Ne.symm hk)]
        congr 1; omega
      · rw [if_neg hm, if_neg (by simp [hm, hk]), mapFind_register, if_neg (by rw [hinj]; exact hk)]

theorem uint_look (count : Nat) (keys : List Nat) (hnd : keys.Nodup) (hlt : ∀ k ∈ keys, k < count) (text : List Byte) (x : Nat) (hx : x < keys.length)
    (ht : NumeralOf text keys[x]) : uintLook (uintTable count keys) text = some x := by
  obtain ⟨-, h1, h2, h3⟩ := ht
  unfold uintLook
  rw [if_pos ⟨h1, h2⟩, h3, uintTable, foldl_register keys 0 _ hnd (by simpa using hlt)]
  simp [hnd.idxOf_getElem]

theorem numeralOf_decText (n : Nat) (h : n < 10 ^ 19) : NumeralOf (decText n) n := by
  obtain ⟨h1, h2, -⟩ := C28_canonical n
  exact ⟨h1.1, decText_length_le 19 n (by omega) h, h1.2, h2⟩

theorem string_look (keys : List Nat) (hnd : keys.Nodup) (x : Nat) (hx : x < keys.length) : mapFind (stringTable keys) (decText keys[x]) = some x := by
  rw [stringTable, foldl_mapRegister keys 0 [] hnd]
  simp [hnd.idxOf_getElem]

theorem members_nodup : members.Nodup := by decide
theorem members_lt : ∀ k ∈ members, k < 11330 := by decide

/-- The key of member `x` of `data_store` as it is written in the texts. -/
def memberKey (x : Nat) : List Byte := decText (members.getD x 0)

theorem uint_members (x : Nat) (hx : x < 22) : uintLook (uintTable 11330 members) (memberKey x) = some x := by
  have hx' : x < members.length := hx
  have e : memberKey x = decText members[x] := by simp [memberKey, List.getD, hx']
  have := members_lt members[x] (List.getElem_mem _)
  rw [e]
  exact uint_look 11330 members members_nodup members_lt _ x hx' (numeralOf_decText _ (by omega))

theorem string_members (x : Nat) (hx : x < 22) : mapFind (stringTable members) (memberKey x) = some x := by
  have hx' : x < members.length := hx
  have e : memberKey x = decText members[x] := by simp [memberKey, List.getD, hx']
  rw [e]
  exact string_look members members_nodup x hx'

/-- C151: if every text gives each of the 22 members one value, in any order, and the values convert, then both parsers accept every text, and each of the two totals is
the number of rounds times the sum of the values given to `ui1`, modulo 2^32. -/
theorem C151_example01 (conv : Nat → V → List Byte → Bool × V) (read : V → Nat)
    (huint : ∀ a s, parseUnsigned uint s (read a) = ok ((conv 5 a s).1, read (conv 5 a s).2))
    (data : List Line)
    (h : ∀ d ∈ data, AllOnce 22 memberKey d.val d.pairs ∧ (UNumeral (d.val 5) d.ui1 ∧ d.ui1 < 2 ^ 32) ∧ ∀ x < 22, x ≠ 5 → ∀ a, (conv x a (d.val x)).1 = true)
    (r : Nat) (ds1 ds2 : Nat → V) :
    example01 conv read (data.map Line.text) r ds1 ds2 =
      ok (.ok ((r * (data.map Line.ui1).sum) % 2 ^ 32, (r * (data.map Line.ui1).sum) % 2 ^ 32)) := by
  have h' : ∀ d ∈ data, AllOnce 22 memberKey d.val d.pairs ∧ (∀ a, read (conv 5 a (d.val 5)).2 = d.ui1) ∧ ∀ x < 22, ∀ a, (conv x a (d.val x)).1 = true := by
    intro d hd
    obtain ⟨h1, ⟨h2, h3⟩, h4⟩ := h d hd
    have h5 : ∀ a, (conv 5 a (d.val 5)).1 = true ∧ read (conv 5 a (d.val 5)).2 = d.ui1 := by
      intro a
      have e1 := huint a (d.val 5)
      rw [(C29_unsigned uint (by simp) (d.val 5) (read a)).1 _ h2 h3] at e1
      have e2 := Outcome.ok.inj e1
      rw [Prod.mk.injEq] at e2
      exact ⟨e2.1.symm, e2.2.symm⟩
    refine ⟨h1, fun a => (h5 a).2, fun x hx a => ?_⟩
    by_cases hx5 : x = 5
    · subst hx5; exact (h5 a).1
    · exact h4 x hx hx5 a
  obtain ⟨m1, e1⟩ := rounds_eq _ _ (C59_uint_find (uintTable 11330 members)) conv read 22 (by omega) memberKey uint_members data h' r ds1 0 (by omega)
  obtain ⟨m2, e2⟩ := rounds_eq _ _ (C59_string_find (stringTable members)) conv read 22 (by omega) memberKey string_members data h' r ds2 0 (by omega)
  rw [example01, e1, ok_bind]
  simp only
  rw [e2, ok_bind]
  simp only [Nat.zero_add]

-- the hypotheses are met: two texts with the 22 members in opposite orders, each given the value "789012345" (`unsigned int`) or kept as text
def sampleVal (_ : Nat) : List Byte := [55, 56, 57, 48, 49, 50, 51, 52, 53]
def samplePairs : List (List Byte × List Byte) := (List.range 22).map fun x => (memberKey x, sampleVal x)
def sampleConv (x : Nat) (a : Nat × List Byte) (s : List Byte) : Bool × (Nat × List Byte) :=
  if x = 5 then match parseUnsigned uint s a.1 with | ok (b, n) => (b, (n, a.2)) | _ => (false, a) else (true, (a.1, s))

theorem memberKey_writable : ∀ x < 22, 124 ∉ memberKey x ∧ 61 ∉ memberKey x := by decide +kernel

example : (∀ a s, parseUnsigned uint s a = ok ((sampleConv 5 (a, []) s).1, (sampleConv 5 (a, []) s).2.1)) ∧
    ∀ d ∈ [Line.mk samplePairs sampleVal 789012345, Line.mk samplePairs.reverse sampleVal 789012345],
      AllOnce 22 memberKey d.val d.pairs ∧ (UNumeral (d.val 5) d.ui1 ∧ d.ui1 < 2 ^ 32) ∧ ∀ x < 22, x ≠ 5 → ∀ a, (sampleConv x a (d.val x)).1 = true := by
  constructor
  · intro a s
    have h := C29_unsigned uint (by simp) s a
    have : ∃ b n, parseUnsigned uint s a = ok (b, n) := by
      by_cases hv : ∃ v, UNumeral s v ∧ v < 2 ^ uint.bits
      · obtain ⟨v, h1, h2⟩ := hv; exact ⟨_, _, h.1 v h1 h2⟩
      · exact ⟨_, _, h.2 fun v h1 => Nat.le_of_not_lt fun h2 => hv ⟨v, h1, h2⟩⟩
    obtain ⟨b, n, e⟩ := this
    simp [sampleConv, e]
  · have hw : Writable 124 61 samplePairs := by
      intro p hp
      obtain ⟨x, hx, rfl⟩ := List.mem_map.mp hp
      obtain ⟨h1, h2⟩ := memberKey_writable x (List.mem_range.mp hx)
      exact ⟨h1, h2, by simp [sampleVal], by simp [sampleVal]⟩
    have hn : UNumeral (sampleVal 5) 789012345 := ⟨sampleVal 5, ⟨by decide, by decide⟩, Or.inl rfl, by decide⟩
    intro d hd
    rcases List.mem_cons.mp hd with rfl | hd
    · exact ⟨⟨.refl _, hw⟩, ⟨hn, by decide⟩, fun x _ h a => by simp [sampleConv, h]⟩
    · rcases List.mem_cons.mp hd with rfl | hd
      · exact ⟨⟨List.reverse_perm _, fun p hp => hw p (by simpa using hp)⟩, ⟨hn, by decide⟩, fun x _ h a => by simp [sampleConv, h]⟩
      · simp at hd

/-- C151: a text that the first parser refuses, whatever the members hold, is named in the message of failure, if the texts before it are accepted and there is a round. -/
theorem C151_failure (conv : Nat → V → List Byte → Bool × V) (read : V → Nat) (good : List (List Byte)) (bad : List Byte) (rest : List (List Byte)) (r : Nat) (hr : 0 < r)
    (hg : ∀ t ∈ good, ∀ mem, ∃ mem', parseStrict (fun c => decide (c = 124)) (fun c => decide (c = 61)) (uintFind (uintTable 11330 members)) conv mem t = ok (true, mem'))
    (hb : ∀ mem, ∃ mem', parseStrict (fun c => decide (c = 124)) (fun c => decide (c = 61)) (uintFind (uintTable 11330 members)) conv mem bad = ok (false, mem'))
    (ds1 ds2 : Nat → V) : example01 conv read (good ++ bad :: rest) r ds1 ds2 = ok (.error bad) := by
  have hp : ∀ st, pass (uintFind (uintTable 11330 members)) conv read (good ++ bad :: rest) st = ok (.error bad) := by
    clear hr
    induction good with
    | nil =>
      rintro ⟨mem, total⟩
      obtain ⟨mem', e⟩ := hb mem
      rw [List.nil_append, pass, e, ok_bind]
      rfl
    | cons t good ih =>
      rintro ⟨mem, total⟩
      obtain ⟨mem', e⟩ := hg t (by simp) mem
      rw [List.cons_append, pass, e, ok_bind]
      simp only [if_true]
      exact ih (fun t ht => hg t (by simp [ht])) _
  obtain ⟨r, rfl⟩ : ∃ k, r = k + 1 := ⟨r - 1, by omega⟩
  rw [example01, rounds, hp, ok_bind]
  rfl

theorem sinkConv_eq (elt : List Byte → Outcome (Bool × E)) (spec : List Byte → Option E)
    (hspec : ∀ w, (∀ v, spec w = some v → elt w = ok (true, v)) ∧ (spec w = none → ∃ v, elt w = ok (false, v))) (a : List E) (s : List Byte) :
    sinkConv elt a s = (decide (s ≠ []), a ++ Parse.converted spec (Parse.fields [44] s)) := by
  unfold sinkConv
  rw [Parse.C103_all [44] s elt spec (fun c v => c ++ [v]) List.length a hspec]
  simp only [Parse.Sink.bindTo, Option.getD_some]
  congr 1
  generalize Parse.converted spec (Parse.fields [44] s) = l
  induction l generalizing a with
  | nil => simp
  | cons x l ih => rw [List.foldl_cons, ih]; simp

/-- A text of the second example: its pairs in the order written, and the key and the value given to each variable. -/
structure Line2 where
  pairs : List (List Byte × List Byte)
  key : Nat → List Byte
  val : Nat → List Byte

/-- What is shown for a line: the number or text converted, or the elements of the list. -/
def Shown (scalar : Nat → List Byte → Option E) (spec : Nat → List Byte → Option E) (d : Line2) (m : Nat → List E) : Prop :=
  (∀ x < 3, ∃ v, scalar x (d.val x) = some v ∧ m x = [v]) ∧ ∀ x, 3 ≤ x → x < 6 → m x = Parse.converted (spec x) (Parse.fields [44] (d.val x))

theorem uint_six (text : List Byte) (x : Nat) (hx : x < 6) (h : NumeralOf text x) : uintLook (uintTable 6 (List.range 6)) text = some x :=
  uint_look 6 (List.range 6) List.nodup_range (by intro k hk; exact List.mem_range.mp hk) text x (by simpa using hx) (by simpa using h)

/-- C151: if every text gives each of the six members one value, in any order and with any numerals (such as `00`) as keys, and the values of the first three convert,
then for each text, in order, exactly its own values are shown: nothing of the texts before. -/
theorem C151_example02 (conv : Nat → List E → List Byte → Bool × List E) (scalar : Nat → List Byte → Option E)
    (hscalar : ∀ x < 3, ∀ a s v, scalar x s = some v → conv x a s = (true, [v]))
    (elt : Nat → List Byte → Outcome (Bool × E)) (spec : Nat → List Byte → Option E)
    (hspec : ∀ x w, (∀ v, spec x w = some v → elt x w = ok (true, v)) ∧ (spec x w = none → ∃ v, elt x w = ok (false, v)))
    (data : List Line2)
    (h : ∀ d ∈ data, AllOnce 6 d.key d.val d.pairs ∧ (∀ x < 6, NumeralOf (d.key x) x) ∧ ∀ x < 3, (scalar x (d.val x)).isSome)
    (cd : Nat → List E) (hcd : ∀ x, 3 ≤ x → x < 6 → cd x = []) :
    ∃ shown, example02 conv elt (data.map fun d => kvText 124 61 d.pairs) cd = ok (shown.map .ok) ∧ List.Forall₂ (Shown scalar spec) data shown := by
  unfold example02
  induction data generalizing cd with
  | nil => exact ⟨[], rfl, .nil⟩
  | cons d data ih =>
    obtain ⟨h1, h2, h3⟩ := h d (by simp)
    have hv : ∀ x < 6, d.val x ≠ [] := by
      intro x hx
      exact (h1.2 (d.key x, d.val x) (h1.1.mem_iff.mpr (List.mem_map.mpr ⟨x, List.mem_range.mpr hx, rfl⟩))).2.2.2
    have hc : ∀ x < 6, ∀ a, (conv02 conv elt x a (d.val x)).1 = true := by
      intro x hx a
      unfold conv02
      by_cases h3' : x < 3
      · obtain ⟨v, hv⟩ := Option.isSome_iff_exists.mp (h3 x h3')
        rw [if_pos h3', hscalar x h3' a _ v hv]
      · rw [if_neg h3', sinkConv_eq _ _ (hspec x)]
        simpa using hv x hx
    obtain ⟨shown, e, hF⟩ := ih (fun d' hd => h d' (by simp [hd])) (reset fun x => if x < 6 then (conv02 conv elt x (cd x) (d.val x)).2 else cd x)
      (fun x h3 _ => by simp [reset, Nat.not_lt.mpr h3])
    refine ⟨(fun x => if x < 6 then (conv02 conv elt x (cd x) (d.val x)).2 else cd x) :: shown, ?_, .cons ⟨?_, ?_⟩ hF⟩
    · rw [List.map_cons, loop02, one_text _ _ (C59_uint_find _) (conv02 conv elt) 6 (by omega) d.key d.val (fun x hx => uint_six _ x hx (h2 x hx)) d.pairs h1 cd
        (fun x hx => hc x hx _), ok_bind]
      simp only [if_true]
      rw [e, ok_bind]
      rfl
    · intro x hx
      obtain ⟨v, hv⟩ := Option.isSome_iff_exists.mp (h3 x hx)
      refine ⟨v, hv, ?_⟩
      show (if x < 6 then (conv02 conv elt x (cd x) (d.val x)).2 else cd x) = [v]
      rw [if_pos (by omega), conv02, if_pos hx, hscalar x hx _ _ v hv]
    · intro x hx hx6
      show (if x < 6 then (conv02 conv elt x (cd x) (d.val x)).2 else cd x) = _
      rw [if_pos hx6, conv02, if_neg (by omega), sinkConv_eq _ _ (hspec x), hcd x hx hx6]
      rfl

-- the hypotheses are met: the keys `00` to `05`, with the lists "1,2"
example : AllOnce 6 (fun x => [48, BitVec.ofNat 8 (48 + x)]) (fun _ => [49, 44, 50]) ((List.range 6).reverse.map fun x => ([48, BitVec.ofNat 8 (48 + x)], [49, 44, 50])) ∧
    (∀ x < 6, NumeralOf [48, BitVec.ofNat 8 (48 + x)] x) ∧ Parse.converted (V := List Byte) some (Parse.fields [44] [49, 44, 50]) = [[49], [50]] := by
  refine ⟨⟨?_, by unfold Writable; decide +kernel⟩, by unfold NumeralOf; decide +kernel, by decide +kernel⟩
  rw [List.map_reverse]
  exact List.reverse_perm _

/-- The members of a refused text are not reset: what it put into a list is shown with the next text ("3=1|9=2", then "3=5"). -/
theorem C151_leftover (conv : Nat → List (List Byte) → List Byte → Bool × List (List Byte)) :
    ∃ m, example02 conv (fun _ w => ok (true, w)) [[51, 61, 49, 124, 57, 61, 50], [51, 61, 53]] (fun _ => []) =
      ok [.error [51, 61, 49, 124, 57, 61, 50], .ok m] ∧ m 3 = [[49], [53]] := by
  exact ⟨_, rfl, by decide⟩

end Strtk.Programs.KeyValue
