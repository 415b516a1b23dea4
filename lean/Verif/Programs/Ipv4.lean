import Verif.Split.Props
import Verif.Fast.Wrap
import Verif.Number.Props
import Verif.Number.Length

/-!
# The IPv4 parser of strtk_ipv4_parser.cpp

Line numbers refer to strtk_ipv4_parser.cpp.  `unsigned int` has 32 bits.
-/

namespace Strtk.Programs
open Outcome Strtk.Number Strtk.Fast Strtk.Split

/-- `process_token` (68-77): the octet, `none` for a refused token. -/
def ipv4Token (tok : List Byte) : Outcome (Option Byte) := do
  let (good, v) ← numericConvert ⟨false, 32⟩ tok.length tok 0 true
  if good then
    if v > 255 then ok none else ok (some (BitVec.ofInt 8 v))
  else ok none

/-- The four calls (52-55): an octet is assigned as soon as its token is converted. -/
def ipv4Fill (s : List Byte) : List (Nat × Nat) → Nat → List Byte → Outcome (Bool × List Byte)
  | [], _, octet => ok (true, octet)
  | r :: rs, i, octet => do
    let v ← ipv4Token (textOf s r)
    match v with
    | none => ok (false, octet)
    | some b => do
      let octet ← store octet i b
      ipv4Fill s rs (i + 1) octet

/-- `operator()(data,octet)` (44-58). -/
def ipv4Parse (data : List Byte) (octet : List Byte) : Outcome (Bool × List Byte) := do
  let (token, n) ← splitN {} (· == (46 : Byte)) data 4
  if n ≠ 4 then ok (false, octet) else ipv4Fill data token 0 octet

/-- `operator()(data,ip)` (60-64) on a little-endian machine: the octets are the bytes of the integer. -/
def ipv4ParseInt (data : List Byte) : Outcome (Bool × Nat) := do
  let (good, octet) ← ipv4Parse data [0, 0, 0, 0]
  ok (good, octet.foldr (fun b n => b.toNat + 256 * n) 0)

/-- The text `print_octet` (82-90) builds, before it is aligned. -/
def ipv4Print (octet : List Byte) : Outcome (List Byte) := do
  let a ← deref octet 0
  let a ← unsignedToString a.toNat
  let b ← deref octet 1
  let b ← unsignedToString b.toNat
  let c ← deref octet 2
  let c ← unsignedToString c.toNat
  let d ← deref octet 3
  let d ← unsignedToString d.toNat
  ok (a ++ [46] ++ b ++ [46] ++ c ++ [46] ++ d)

/-! ## Specification -/

/-- A piece between the dots that the parser takes: up to 19 digits, none at all being allowed, whose value has at most eight low bits set in a 32-bit word. -/
def Taken (p : List Byte) : Prop := p.length ≤ 19 ∧ (∀ c ∈ p, isDigit c) ∧ decVal p % 2 ^ 32 ≤ 255

instance (p : List Byte) : Decidable (Taken p) := by unfold Taken; infer_instance

/-- The octet it stands for. -/
def octetOf (p : List Byte) : Byte := BitVec.ofNat 8 (decVal p % 2 ^ 32)

theorem ipv4Token_spec (tok : List Byte) : ipv4Token tok = ok (if Taken tok then some (octetOf tok) else none) := by
  unfold ipv4Token
  by_cases h : tok.length ≤ 19 ∧ ∀ c ∈ tok, isDigit c
  · rw [C31_unsigned_wraps 32 (by omega) tok 0 h.1 h.2, ok_bind]
    simp only [if_true]
    by_cases hv : decVal tok % 2 ^ 32 ≤ 255
    · rw [if_neg (by omega), if_pos ⟨h.1, h.2, hv⟩]
      unfold octetOf
      rw [BitVec.ofInt_natCast]
    · rw [if_pos (by omega), if_neg fun ht => hv ht.2.2]
  · rw [C31_numeric_convert_rejects _ tok 0, ok_bind]
    · simp only [Bool.false_eq_true, if_false]
      rw [if_neg fun ht => h ⟨ht.1, ht.2.1⟩]
    · by_cases hl : tok.length ≤ 19
      · exact .inl fun hd => h ⟨hl, hd⟩
      · exact .inr (by omega)

theorem ipv4Fill_spec (s : List Byte) : ∀ (rs : List (Nat × Nat)) (done octet : List Byte), rs.length ≤ octet.length →
    ipv4Fill s rs done.length (done ++ octet) =
      ok (decide (∀ p ∈ rs.map (textOf s), Taken p),
        done ++ ((rs.map (textOf s)).takeWhile (fun p => decide (Taken p))).map octetOf ++ octet.drop ((rs.map (textOf s)).takeWhile fun p => decide (Taken p)).length) := by
  intro rs
  induction rs with
  | nil => intro done octet _; simp [ipv4Fill]
  | cons r rs ih =>
    intro done octet hl
    simp only [ipv4Fill, ipv4Token_spec, ok_bind]
    by_cases ht : Taken (textOf s r)
    · simp only [if_pos ht]
      obtain ⟨o, octet', rfl⟩ : ∃ o t, octet = o :: t := by cases octet with
        | nil => simp at hl
        | cons o t => exact ⟨o, t, rfl⟩
      rw [store_eq_ok _ (by simp), ok_bind]
      have e : (done ++ o :: octet').set done.length (octetOf (textOf s r)) = (done ++ [octetOf (textOf s r)]) ++ octet' := by simp
      have := ih (done ++ [octetOf (textOf s r)]) octet' (by simpa using hl)
      rw [List.length_append, List.length_singleton] at this
      rw [e, this]
      simp [ht]
    · simp only [if_neg ht]
      simp [ht]

theorem split4 (s : List Byte) : ∃ r, splitN {} (· == (46 : Byte)) s 4 = ok (r, r.length) ∧ r.length ≤ 4 ∧
    (4 ≤ (s.splitOnP (· == (46 : Byte))).length ↔ r.length = 4) ∧ (r.length = 4 → r.map (textOf s) = (s.splitOnP (· == (46 : Byte))).take 4) := by
  obtain ⟨r, h1, h2⟩ := C06_split_n_prefix false (· == (46 : Byte)) s 4
  by_cases hs : s = []
  · subst hs
    have : r = [] := by
      have := (C01_split_default (· == (46 : Byte)) ([] : List Byte)).1 rfl
      rw [this] at h1
      exact (by simpa using h1 : r = [] ∧ _).1
    subst this
    exact ⟨[], by simpa using h2, by simp, by simp, by simp⟩
  · obtain ⟨r', h3, h4⟩ := (C01_split_default (· == (46 : Byte)) s).2 hs
    have : r = r' := by rw [h3] at h1; simp at h1; exact h1.1.symm
    subst this
    refine ⟨r.take 4, by rw [h2]; simp [Nat.min_comm], by simp, ?_, fun _ => ?_⟩
    · rw [← h4]; simp
    · rw [← h4, List.map_take]

/-- C126, the parser decided: four pieces or more have to be there, each of the first four has to be a text of up to 19 digits whose value is at most 255
modulo 2^32; what follows the fourth piece is not looked at.  Octets before the first bad piece are assigned even if the text is refused. -/
theorem C126_ipv4_exact (data octet : List Byte) (ho : octet.length = 4) :
    ipv4Parse data octet =
      if (data.splitOnP (· == (46 : Byte))).length < 4 then ok (false, octet)
      else
        let good := ((data.splitOnP (· == (46 : Byte))).take 4).takeWhile fun p => decide (Taken p)
        ok (decide (∀ p ∈ (data.splitOnP (· == (46 : Byte))).take 4, Taken p), good.map octetOf ++ octet.drop good.length) := by
  obtain ⟨r, h1, h2, h3, h4⟩ := split4 data
  unfold ipv4Parse
  rw [h1, ok_bind]
  simp only
  by_cases hl : r.length = 4
  · rw [if_neg (by omega), if_neg (by have := h3.mpr hl; omega)]
    have := ipv4Fill_spec data r [] octet (by omega)
    simp only [List.nil_append, List.length_nil] at this
    rw [this, h4 hl]
  · rw [if_pos hl, if_pos (by by_contra hc; exact hl (h3.mp (by omega)))]

/-- The text of an octet. -/
theorem octet_text (a : Byte) : Taken (decText a.toNat) ∧ octetOf (decText a.toNat) = a ∧ ∀ c ∈ decText a.toNat, (c == (46 : Byte)) = false := by
  obtain ⟨h1, h2⟩ := decText_digits a.toNat
  have ha : a.toNat < 256 := a.isLt
  have hm : a.toNat % 2 ^ 32 = a.toNat := Nat.mod_eq_of_lt (by omega)
  refine ⟨⟨?_, h1.2, ?_⟩, ?_, ?_⟩
  · have := decText_length_le 3 a.toNat (by omega) (by omega); omega
  · rw [h2, hm]; omega
  · unfold octetOf; rw [h2, hm]; simp
  · intro c hc
    have := (h1.2 c hc).1
    by_contra hne
    have he : c = 46 := by simpa using hne
    subst he
    simp at this

theorem ipv4Print_eq (a b c d : Byte) :
    ipv4Print [a, b, c, d] = ok (decText a.toNat ++ [46] ++ decText b.toNat ++ [46] ++ decText c.toNat ++ [46] ++ decText d.toNat) := by
  have h : ∀ x : Byte, unsignedToString x.toNat = ok (decText x.toNat) := fun x => C28_unsigned_text _ (by have := x.isLt; omega)
  simp [ipv4Print, deref, h]

/-- C126: every address printed is parsed back to its octets, whatever the octets were before, with nothing or with anything after a further dot behind it. -/
theorem C126_ipv4_printed (a b c d : Byte) (octet : List Byte) (ho : octet.length = 4) :
    ∃ text, ipv4Print [a, b, c, d] = ok text ∧ ipv4Parse text octet = ok (true, [a, b, c, d]) ∧
      ∀ junk, ipv4Parse (text ++ [46] ++ junk) octet = ok (true, [a, b, c, d]) := by
  refine ⟨_, ipv4Print_eq a b c d, ?_, fun junk => ?_⟩
  all_goals
    obtain ⟨ta, oa, na⟩ := octet_text a
    obtain ⟨tb, ob, nb⟩ := octet_text b
    obtain ⟨tc, oc, nc⟩ := octet_text c
    obtain ⟨td, od, nd⟩ := octet_text d
    rw [C126_ipv4_exact _ _ ho]
  · have e : (decText a.toNat ++ [46] ++ decText b.toNat ++ [46] ++ decText c.toNat ++ [46] ++ decText d.toNat).splitOnP (· == (46 : Byte)) =
        [decText a.toNat, decText b.toNat, decText c.toNat, decText d.toNat] := by
      simp only [List.append_assoc, List.singleton_append, List.cons_append, List.nil_append]
      rw [List.splitOnP_append_cons_of_forall_mem na 46 (by decide), List.splitOnP_append_cons_of_forall_mem nb 46 (by decide),
        List.splitOnP_append_cons_of_forall_mem nc 46 (by decide), List.splitOnP_eq_singleton nd]
    rw [e]
    simp [ta, tb, tc, td, oa, ob, oc, od, ho]
  · have e : ∃ rest, (decText a.toNat ++ [46] ++ decText b.toNat ++ [46] ++ decText c.toNat ++ [46] ++ decText d.toNat ++ [46] ++ junk).splitOnP (· == (46 : Byte)) =
        decText a.toNat :: decText b.toNat :: decText c.toNat :: decText d.toNat :: rest := by
      simp only [List.append_assoc, List.singleton_append, List.cons_append, List.nil_append]
      rw [List.splitOnP_append_cons_of_forall_mem na 46 (by decide), List.splitOnP_append_cons_of_forall_mem nb 46 (by decide),
        List.splitOnP_append_cons_of_forall_mem nc 46 (by decide), List.splitOnP_append_cons_of_forall_mem nd 46 (by decide)]
      exact ⟨_, rfl⟩
    obtain ⟨rest, e⟩ := e
    rw [e, if_neg (by simp)]
    simp [ta, tb, tc, td, oa, ob, oc, od, ho]

/-- C126: text without surplus pieces and without surplus digits is accepted exactly if it is four numbers from 0 to 255, none of them empty.  Missing for the
whole property: more than four pieces (`C126_ipv4_printed`), empty pieces (`C126_ipv4_empty`) and pieces of ten digits and more (`C126_ipv4_wraps`). -/
theorem C126_ipv4_partial (p q r t octet : List Byte) (ho : octet.length = 4) (hd : ∀ x ∈ [p, q, r, t], ∀ c ∈ x, (c == (46 : Byte)) = false)
    (hn : ∀ x ∈ [p, q, r, t], x ≠ [] ∧ x.length ≤ 9) :
    ((∃ o, ipv4Parse (p ++ [46] ++ q ++ [46] ++ r ++ [46] ++ t) octet = ok (true, o)) ↔ ∀ x ∈ [p, q, r, t], Digits x ∧ decVal x ≤ 255) ∧
    ∀ o, ipv4Parse (p ++ [46] ++ q ++ [46] ++ r ++ [46] ++ t) octet = ok (true, o) → o.map BitVec.toNat = [decVal p, decVal q, decVal r, decVal t] := by
  have e : (p ++ [46] ++ q ++ [46] ++ r ++ [46] ++ t).splitOnP (· == (46 : Byte)) = [p, q, r, t] := by
    simp only [List.append_assoc, List.singleton_append, List.cons_append, List.nil_append]
    rw [List.splitOnP_append_cons_of_forall_mem (hd p (by simp)) 46 (by decide), List.splitOnP_append_cons_of_forall_mem (hd q (by simp)) 46 (by decide),
      List.splitOnP_append_cons_of_forall_mem (hd r (by simp)) 46 (by decide), List.splitOnP_eq_singleton (hd t (by simp))]
  have hT : ∀ x ∈ [p, q, r, t], (Taken x ↔ Digits x ∧ decVal x ≤ 255) ∧ (Taken x → (octetOf x).toNat = decVal x) := by
    intro x hx
    obtain ⟨h1, h2⟩ := hn x hx
    have hm : (∀ c ∈ x, isDigit c) → decVal x % 2 ^ 32 = decVal x := fun hd' => Nat.mod_eq_of_lt (by
      have := decVal_lt x hd'
      have : 10 ^ x.length ≤ 10 ^ 9 := Nat.pow_le_pow_right (by omega) h2
      omega)
    refine ⟨⟨fun ht => ⟨⟨h1, ht.2.1⟩, by have := ht.2.2; rwa [hm ht.2.1] at this⟩, fun ⟨hg, hv⟩ => ⟨by omega, hg.2, by rw [hm hg.2]; exact hv⟩⟩, fun ht => ?_⟩
    have := ht.2.2
    rw [hm ht.2.1] at this
    unfold octetOf
    rw [hm ht.2.1, BitVec.toNat_ofNat, Nat.mod_eq_of_lt (by omega)]
  have hx := C126_ipv4_exact (p ++ [46] ++ q ++ [46] ++ r ++ [46] ++ t) octet ho
  rw [e, if_neg (by simp)] at hx
  rw [show [p, q, r, t].take 4 = [p, q, r, t] from rfl] at hx
  simp only at hx
  constructor
  · rw [hx]
    constructor
    · rintro ⟨o, h⟩ x hxm
      simp only [Outcome.ok.injEq, Prod.mk.injEq, decide_eq_true_eq] at h
      exact (hT x hxm).1.mp (h.1 x hxm)
    · intro h
      exact ⟨_, by rw [decide_eq_true fun x hxm => (hT x hxm).1.mpr (h x hxm)]⟩
  · intro o h
    rw [hx] at h
    simp only [Outcome.ok.injEq, Prod.mk.injEq, decide_eq_true_eq] at h
    obtain ⟨ht, rfl⟩ := h
    have t1 := ht p (by simp)
    have t2 := ht q (by simp)
    have t3 := ht r (by simp)
    have t4 := ht t (by simp)
    simp [t1, t2, t3, t4, ho, (hT p (by simp)).2 t1, (hT q (by simp)).2 t2, (hT r (by simp)).2 t3, (hT t (by simp)).2 t4]

/-- C126, as an integer: the first octet is the least significant byte. -/
theorem C126_ipv4_int (a b c d : Byte) : ∃ text, ipv4Print [a, b, c, d] = ok text ∧
    ipv4ParseInt text = ok (true, a.toNat + 2 ^ 8 * b.toNat + 2 ^ 16 * c.toNat + 2 ^ 24 * d.toNat) := by
  obtain ⟨text, h1, h2, _⟩ := C126_ipv4_printed a b c d [0, 0, 0, 0] rfl
  refine ⟨text, h1, ?_⟩
  unfold ipv4ParseInt
  rw [h2, ok_bind]
  simp only [List.foldr_cons, List.foldr_nil]
  congr 2
  omega

/-- Three dots are taken for 0.0.0.0. -/
theorem C126_ipv4_empty (octet : List Byte) (ho : octet.length = 4) : ipv4Parse [46, 46, 46] octet = ok (true, [0, 0, 0, 0]) := by
  rw [C126_ipv4_exact _ _ ho]
  have e : ([46, 46, 46] : List Byte).splitOnP (· == (46 : Byte)) = [[], [], [], []] := by decide
  rw [e]
  have : Taken [] := by decide
  simp [this, octetOf, decVal, ho]

/-- Any number of the form 2^32 k + v is taken for the octet v. -/
theorem C126_ipv4_wraps (k : Nat) (v : Byte) (hk : (decText (2 ^ 32 * k + v.toNat)).length ≤ 19) :
    ipv4Token (decText (2 ^ 32 * k + v.toNat)) = ok (some v) := by
  obtain ⟨h1, h2⟩ := decText_digits (2 ^ 32 * k + v.toNat)
  have hv : v.toNat < 256 := v.isLt
  have hm : decVal (decText (2 ^ 32 * k + v.toNat)) % 2 ^ 32 = v.toNat := by rw [h2]; omega
  rw [ipv4Token_spec, if_pos ⟨hk, h1.2, by omega⟩]
  unfold octetOf
  rw [hm, BitVec.ofNat_toNat, BitVec.setWidth_eq]

-- "1.22.255.0", "1.2.3", "1.2.3.x" (the first three octets are assigned), "256.1.1.1", "4294967297.0.0.1"
example : ipv4Parse [49, 46, 50, 50, 46, 50, 53, 53, 46, 48] [9, 9, 9, 9] = ok (true, [1, 22, 255, 0]) := by decide +kernel
example : ipv4Parse [49, 46, 50, 46, 51] [9, 9, 9, 9] = ok (false, [9, 9, 9, 9]) := by decide +kernel
example : ipv4Parse [49, 46, 50, 46, 51, 46, 120] [9, 9, 9, 9] = ok (false, [1, 2, 3, 9]) := by decide +kernel
example : ipv4Parse [50, 53, 54, 46, 49, 46, 49, 46, 49] [9, 9, 9, 9] = ok (false, [9, 9, 9, 9]) := by decide +kernel
example : ipv4Parse [52, 50, 57, 52, 57, 54, 55, 50, 57, 55, 46, 48, 46, 48, 46, 49] [9, 9, 9, 9] = ok (true, [1, 0, 0, 1]) := by decide +kernel
example : (decText (2 ^ 32 * 1 + (7 : Byte).toNat)).length ≤ 19 := by decide +kernel
example : ∀ x ∈ ([[49], [50], [51], [52]] : List (List Byte)), (∀ c ∈ x, (c == (46 : Byte)) = false) ∧ x ≠ [] ∧ x.length ≤ 9 := by decide

example := C126_ipv4_exact [49, 46, 50, 50, 46, 50, 53, 53, 46, 48] [9, 9, 9, 9] rfl

end Strtk.Programs
