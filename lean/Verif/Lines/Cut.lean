import Verif.Lines.Props

/-! # Text files cut short (C158) -/

namespace Strtk.Lines
open Outcome

variable {T : Type}

/-- The text of some values, one per line. -/
def textOf (show' : T → List UInt8) (ts : List T) : List UInt8 := ts.flatMap fun t => show' t ++ [10]

theorem textOf_cons (show' : T → List UInt8) (t : T) (ts : List T) : textOf show' (t :: ts) = show' t ++ 10 :: textOf show' ts := by
  simp [textOf]

theorem lines_cut (show' : T → List UInt8) (ts : List T) (hn : ∀ t ∈ ts, 10 ∉ show' t) : ∀ k, ∃ j a, j ≤ ts.length ∧
    (a = [] ∨ ∃ t, ts[j]? = some t ∧ a <+: show' t) ∧ (textOf show' ts).take k = textOf show' (ts.take j) ++ a ∧
    linesOf ((textOf show' ts).take k) = (ts.take j).map show' ++ if a = [] then [] else [a] := by
  induction ts with
  | nil => intro k; exact ⟨0, [], by simp, Or.inl rfl, by simp [textOf], by simp [textOf, linesOf_nil]⟩
  | cons t ts ih =>
    intro k
    rw [textOf_cons]
    by_cases hk : k ≤ (show' t).length
    · rw [List.take_append_of_le_length hk]
      refine ⟨0, (show' t).take k, by simp, Or.inr ⟨t, rfl, List.take_prefix _ _⟩, by simp [textOf], ?_⟩
      by_cases ha : (show' t).take k = []
      · rw [ha]; simp [linesOf_nil]
      · rw [linesOf_last _ (fun h => hn t (by simp) (List.mem_of_mem_take h)) ha, if_neg ha]; simp
    · obtain ⟨j, a, h1, h2, h3, h4⟩ := ih (fun x hx => hn x (by simp [hx])) (k - (show' t).length - 1)
      have e : (show' t ++ 10 :: textOf show' ts).take k = show' t ++ 10 :: (textOf show' ts).take (k - (show' t).length - 1) := by
        rw [List.take_append, List.take_of_length_le (by omega)]
        congr 1
        rw [show k - (show' t).length = (k - (show' t).length - 1) + 1 by omega, List.take_succ_cons]
        simp
      refine ⟨j + 1, a, by simp; omega, ?_, ?_, ?_⟩
      · simpa using h2
      · rw [e, h3, List.take_succ_cons, textOf_cons]; simp
      · rw [e, linesOf_line _ _ (hn t (by simp)), h4]; simp

/-- **C158** (what is left of a text file): values written one per line, cut off after any number of bytes, load as the values of the
complete lines followed by whatever the remaining piece of a line converts to; only a piece that does not convert is reported. -/
theorem C158_text_cut_short (show' : T → List UInt8) (conv : List UInt8 → Option T) (ts seq : List T) (hn : ∀ t ∈ ts, 10 ∉ show' t)
    (hc : ∀ t ∈ ts, conv (show' t) = some t) (k : Nat) :
    ∃ j a, j ≤ ts.length ∧ (a = [] ∨ ∃ t, ts[j]? = some t ∧ a <+: show' t) ∧
      ((writeToText show' [10] ts [] 0).2).take k = (writeToText show' [10] (ts.take j) [] 0).2 ++ a ∧
      loadFromText conv (((writeToText show' [10] ts [] 0).2).take k) seq =
        if a = [] then ok (j, seq ++ ts.take j) else match conv a with
          | some t => ok (j + 1, seq ++ ts.take j ++ [t])
          | none => thrown := by
  have hw : ∀ l : List T, (writeToText show' [10] l [] 0).2 = textOf show' l := by
    intro l; rw [C91_write]; simp [textOf, List.flatMap_def]
  obtain ⟨j, a, h1, h2, h3, h4⟩ := lines_cut show' ts hn k
  refine ⟨j, a, h1, h2, by rw [hw, hw]; exact h3, ?_⟩
  rw [hw]
  have hm : ∀ (l : List T) (r : List (List UInt8)), (∀ t ∈ l, conv (show' t) = some t) →
      (l.map show' ++ r).mapM conv = (r.mapM conv).map (l ++ ·) := by
    intro l r
    induction l with
    | nil => intro _; simp
    | cons t l ih =>
      intro h
      rw [List.map_cons, List.cons_append, List.mapM_cons, h t (by simp), ih (fun x hx => h x (by simp [hx]))]
      cases r.mapM conv <;> simp
  have hm' := hm (ts.take j) (if a = [] then [] else [a]) (fun t ht => hc t (List.mem_of_mem_take ht))
  rw [← h4] at hm'
  by_cases ha : a = []
  · rw [if_pos ha] at hm' ⊢
    have := (C91_load conv ((textOf show' ts).take k) seq).1 (ts.take j) (by rw [hm']; simp)
    rw [this, List.length_take, Nat.min_eq_left h1]
  · rw [if_neg ha] at hm' ⊢
    cases hca : conv a with
    | none =>
      refine (C91_load conv ((textOf show' ts).take k) seq).2 ⟨a, ?_, hca⟩
      rw [h4, if_neg ha]; simp
    | some t =>
      have := (C91_load conv ((textOf show' ts).take k) seq).1 (ts.take j ++ [t]) (by rw [hm']; simp [hca])
      rw [this, List.length_append, List.length_take, Nat.min_eq_left h1]
      simp

/-- **C158** (negative result): a text file of lines that is cut short is never noticed, and unless only the last newline is missing the
lines loaded are not those written. -/
theorem C158_text_unnoticed (ts : List (List UInt8)) (hn : ∀ t ∈ ts, 10 ∉ t) (k : Nat) (hk : k + 1 < (writeToText id [10] ts [] 0).2.length) :
    ∃ vs, loadFromText some (((writeToText id [10] ts [] 0).2).take k) [] = ok (vs.length, vs) ∧ vs ≠ ts := by
  obtain ⟨j, a, h1, h2, h3, h4⟩ := C158_text_cut_short id some ts [] hn (fun _ _ => rfl) k
  have hw : ∀ l : List (List UInt8), (writeToText id [10] l [] 0).2 = textOf id l := by
    intro l; rw [C91_write]; simp [textOf, List.flatMap_def]
  have hl := congrArg List.length h3
  rw [List.length_take, List.length_append] at hl
  by_cases ha : a = []
  · rw [if_pos ha] at h4
    refine ⟨ts.take j, by rw [h4, List.length_take, Nat.min_eq_left h1]; simp, ?_⟩
    intro he
    rw [he, ha] at hl
    simp only [List.length_nil] at hl
    omega
  · rw [if_neg ha] at h4
    refine ⟨ts.take j ++ [a], by rw [h4]; simp [Nat.min_eq_left h1], ?_⟩
    intro he
    have hh : (writeToText id [10] ts [] 0).2.length = (writeToText id [10] (ts.take j) [] 0).2.length + a.length + 1 := by
      conv => lhs; rw [← he]
      rw [hw, hw]
      simp [textOf, List.flatMap_append]
      omega
    omega

/-- The numbers 12 and 345 as text, cut after "12\n34": loaded as 12 and 34 with no complaint. -/
example : loadFromText (fun l : List UInt8 => if l.all fun c => 48 ≤ c ∧ c ≤ 57 then some (l.foldl (fun n c => 10 * n + (c.toNat - 48)) 0) else none)
    ((([49, 50, 10, 51, 52, 53, 10] : List UInt8)).take 5) [] = ok (2, [12, 34]) := by decide

end Strtk.Lines
