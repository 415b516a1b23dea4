import Verif.Number.Props

/-! # `type_length` (strtk.hpp 16867-16952, 18074-18084, 18147-18157) -/

namespace Strtk.Number
open Outcome

/-- The integer types with a `numeric` entry. -/
inductive IntType
  | short | ushort | int | uint | long | ulong | longlong | ulonglong
  deriving DecidableEq

/-- `type_length<T>()`: `numeric<T>::length` (16873, 16884, 16894, 16905, 16915, 16926, 16936, 16947). -/
def typeLength : IntType → Nat
  | .short => 5
  | .ushort => 5
  | .int => 10
  | .uint => 10
  | .long => 10
  | .ulong => 10
  | .longlong => 19
  | .ulonglong => 20

/-! ## Specification -/

/-- The values of each type on the platform (64-bit `long`). -/
def IntType.Value : IntType → Int → Prop
  | .short, v => -2 ^ 15 ≤ v ∧ v < 2 ^ 15
  | .ushort, v => 0 ≤ v ∧ v < 2 ^ 16
  | .int, v => -2 ^ 31 ≤ v ∧ v < 2 ^ 31
  | .uint, v => 0 ≤ v ∧ v < 2 ^ 32
  | .long, v => -2 ^ 63 ≤ v ∧ v < 2 ^ 63
  | .ulong, v => 0 ≤ v ∧ v < 2 ^ 64
  | .longlong, v => -2 ^ 63 ≤ v ∧ v < 2 ^ 63
  | .ulonglong, v => 0 ≤ v ∧ v < 2 ^ 64

/-- The text `type_to_string` gives for a value of the type (`C28_unsigned_text`, `C28_signed_text`). -/
def textOfValue : IntType → Int → Outcome (List Byte)
  | .short, v => signedToString 16 v
  | .int, v => signedToString 32 v
  | .long, v => signedToString 64 v
  | .longlong, v => signedToString 64 v
  | _, v => unsignedToString v.toNat

/-! ## C113 -/

theorem decText_length_le : ∀ (k n : Nat), 0 < k → n < 10 ^ k → (decText n).length ≤ k := by
  intro k
  induction k with
  | zero => intro n h; omega
  | succ k ih =>
    intro n _ hn
    rw [decText]
    by_cases h : n < 10
    · simp [h]
    · rw [dif_neg h, List.length_append, List.length_singleton]
      have hk : 0 < k := by
        rcases Nat.eq_zero_or_pos k with rfl | hk
        · simp at hn; omega
        · exact hk
      have := ih (n / 10) hk (by rw [Nat.pow_succ] at hn; omega)
      omega

theorem decText_length_ge : ∀ (k n : Nat), 10 ^ k ≤ n → k + 1 ≤ (decText n).length := by
  intro k
  induction k with
  | zero => intro n _; rw [decText]; split <;> simp
  | succ k ih =>
    intro n hn
    have h10 : 10 ≤ n := le_trans (by rw [Nat.pow_succ]; have := Nat.one_le_pow k 10 (by omega); omega) hn
    rw [decText, dif_neg (by omega), List.length_append, List.length_singleton]
    have := ih (n / 10) (by rw [Nat.pow_succ] at hn; omega)
    omega

theorem textOfValue_eq (t : IntType) (v : Int) (h : t.Value v) : textOfValue t v = ok (intText v) := by
  cases t <;> simp only [IntType.Value] at h <;> simp only [textOfValue]
  case short => exact C28_signed_text 16 (by simp) v (by simpa using h.1) (by simpa using h.2)
  case int => exact C28_signed_text 32 (by simp) v (by simpa using h.1) (by simpa using h.2)
  case long => exact C28_signed_text 64 (by simp) v (by simpa using h.1) (by simpa using h.2)
  case longlong => exact C28_signed_text 64 (by simp) v (by simpa using h.1) (by simpa using h.2)
  all_goals
    rw [C28_unsigned_text _ (by omega), intText, if_neg (by omega)]
    congr 2
    omega

/-- For every type except `long` and `unsigned long`: the text of a value has at most `type_length` characters besides a sign, and the greatest value has exactly
that many.  Missing for C113: `long` and `unsigned long` (`C113_long_too_short`). -/
theorem C113_type_length_partial (t : IntType) (h1 : t ≠ .long) (h2 : t ≠ .ulong) :
    (∀ v, t.Value v → ∃ text, textOfValue t v = ok text ∧ text.length ≤ typeLength t + if v < 0 then 1 else 0) ∧
    (∃ v, t.Value v ∧ (∀ w, t.Value w → w ≤ v) ∧ ∃ text, textOfValue t v = ok text ∧ text.length = typeLength t) := by
  constructor
  · intro v hv
    refine ⟨_, textOfValue_eq t v hv, ?_⟩
    have hb : v.natAbs < 10 ^ typeLength t := by
      cases t <;> simp only [IntType.Value] at hv <;> simp only [typeLength] <;> first | omega | (exfalso; simp_all)
    have := decText_length_le (typeLength t) v.natAbs (by cases t <;> decide) hb
    unfold intText
    split <;> simp <;> omega
  · have hv : ∃ m : Nat, t.Value m ∧ (∀ w, t.Value w → w ≤ m) ∧ m < 10 ^ typeLength t ∧ 10 ^ (typeLength t - 1) ≤ m := by
      cases t
      case short => exact ⟨2 ^ 15 - 1, by simp only [IntType.Value, typeLength]; refine ⟨by omega, fun w hw => by omega, by omega, by omega⟩⟩
      case ushort => exact ⟨2 ^ 16 - 1, by simp only [IntType.Value, typeLength]; refine ⟨by omega, fun w hw => by omega, by omega, by omega⟩⟩
      case int => exact ⟨2 ^ 31 - 1, by simp only [IntType.Value, typeLength]; refine ⟨by omega, fun w hw => by omega, by omega, by omega⟩⟩
      case uint => exact ⟨2 ^ 32 - 1, by simp only [IntType.Value, typeLength]; refine ⟨by omega, fun w hw => by omega, by omega, by omega⟩⟩
      case long => exact absurd rfl h1
      case ulong => exact absurd rfl h2
      case longlong => exact ⟨2 ^ 63 - 1, by simp only [IntType.Value, typeLength]; refine ⟨by omega, fun w hw => by omega, by omega, by omega⟩⟩
      case ulonglong => exact ⟨2 ^ 64 - 1, by simp only [IntType.Value, typeLength]; refine ⟨by omega, fun w hw => by omega, by omega, by omega⟩⟩
    obtain ⟨m, hm, hmax, hlt, hge⟩ := hv
    have hpos : 0 < typeLength t := by cases t <;> decide
    refine ⟨m, hm, hmax, _, textOfValue_eq t m hm, ?_⟩
    have a := decText_length_le (typeLength t) m hpos hlt
    have b := decText_length_ge (typeLength t - 1) m hge
    rw [intText, if_neg (by omega), Int.natAbs_natCast]
    omega

/-- The text of a `long` or `unsigned long` from 10^10 on is longer than `type_length` says. -/
theorem C113_long_too_short (t : IntType) (ht : t = .long ∨ t = .ulong) (v : Int) (hv : t.Value v) (hbig : 10 ^ 10 ≤ v) :
    ∃ text, textOfValue t v = ok text ∧ typeLength t < text.length := by
  refine ⟨_, textOfValue_eq t v hv, ?_⟩
  have hl : typeLength t = 10 := by rcases ht with rfl | rfl <;> rfl
  have := decText_length_ge 10 v.natAbs (by omega)
  rw [intText, if_neg (by omega), hl]
  omega

example : IntType.int.Value (-2147483648) ∧ intText (-2147483648) = [45, 50, 49, 52, 55, 52, 56, 51, 54, 52, 56] := by
  refine ⟨by simp [IntType.Value], ?_⟩
  simp [intText, decText]

example : IntType.ulong.Value 12345678901 ∧ (10 : Int) ^ 10 ≤ 12345678901 := by simp [IntType.Value]

end Strtk.Number
