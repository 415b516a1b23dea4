import Verif.Grid.Quote

/-!
# split with predicates that remember and callers that throw (strtk.hpp 3304-3399, 3557-3620)

The predicate has a state and may throw; so may the assignment through the output iterator.  Everything is as in `Verif/Split/Model.lean` otherwise.
-/

namespace Strtk.Split
open Outcome Grid

variable {α σ : Type}

/-- A delimiter predicate: from its state and a character to the answer and the new state; `none` if it throws. -/
abbrev Ask (σ α : Type) := σ → α → Option (Bool × σ)

/-- Whether the output accepts a token after those it already has; `false` if it throws. -/
abbrev Put := List (Nat × Nat) → Nat × Nat → Bool

/-- The tokens the output has, and unless something was thrown the returned count and the last state of the predicate. -/
abbrev Res (σ : Type) := List (Nat × Nat) × Option (Nat × σ)

/-- `(*out) = range; ++out;` -/
def emit (put : Put) (out : List (Nat × Nat)) (t : Nat × Nat) (k : List (Nat × Nat) → Outcome (Res σ)) : Outcome (Res σ) := if put out t then k (out ++ [t]) else ok (out, none)

/-- `delimiter(c)`. -/
def asked {β : Type} (ask : Ask σ α) (q : σ) (c : α) (threw : β) (k : Bool → σ → Outcome β) : Outcome β :=
  match ask q c with
  | none => ok threw
  | some (b, q) => k b q

/-- `while ((end != range.second) && delimiter(*range.second)) ++range.second;` (3318, 3372, 3376, 3590, 3601); `none` if the predicate throws. -/
def skipRunE (ask : Ask σ α) (s : List α) : Nat → σ → Nat → Outcome (Option (Nat × σ))
  | 0, _, _ => diverge
  | fuel + 1, q, i =>
    if i ≠ s.length then do
      let c ← deref s i
      asked ask q c none fun b q => if b then skipRunE ask s fuel q (i + 1) else ok (some (i, q))
    else ok (some (i, q))

/-- A run skipped, if `skip`. -/
def skipIf (skip : Bool) (ask : Ask σ α) (s : List α) (q : σ) (i : Nat) : Outcome (Option (Nat × σ)) := if skip then skipRunE ask s (s.length + 1) q i else ok (some (i, q))

/-- What comes behind a run, unless the predicate threw. -/
def andThen (out : List (Nat × Nat)) (r : Option (Nat × σ)) (k : Nat → σ → Outcome (Res σ)) : Outcome (Res σ) :=
  match r with
  | none => ok (out, none)
  | some (i, q) => k i q

/-- The final test and token (3328-3333, 3391-3396, 3612-3617). -/
def finishE (ask : Ask σ α) (put : Put) (s : List α) (q : σ) (first second : Nat) (out : List (Nat × Nat)) (count : Nat) : Outcome (Res σ) :=
  if first ≠ second then emit put out (first, second) fun out => ok (out, some (count + 1, q))
  else if second = 0 then ub
  else do
    let c ← deref s (second - 1)
    asked ask q c (out, none) fun b q => if b then emit put out (first, second) fun out => ok (out, some (count + 1, q)) else ok (out, some (count, q))

/-- Loop of `split_compress_delimiters` (3312-3326). -/
def compressLoopE (ask : Ask σ α) (put : Put) (s : List α) : Nat → σ → Nat → Nat → List (Nat × Nat) → Nat → Outcome (Res σ)
  | 0, _, _, _, _, _ => diverge
  | fuel + 1, q, first, second, out, count =>
    if second ≠ s.length then do
      let c ← deref s second
      asked ask q c (out, none) fun b q =>
        if b then emit put out (first, second) fun out => do
          let r ← skipRunE ask s (s.length + 1) q (second + 1)
          andThen out r fun j q => compressLoopE ask put s fuel q j (if j ≠ s.length then j + 1 else j) out (count + 1)
        else compressLoopE ask put s fuel q first (second + 1) out count
    else finishE ask put s q first second out count

/-- Loop of `split` (3363-3389). -/
def splitLoopE (compress incl1 inclAll : Bool) (ask : Ask σ α) (put : Put) (s : List α) : Nat → σ → Nat → Nat → List (Nat × Nat) → Nat → Outcome (Res σ)
  | 0, _, _, _, _, _ => diverge
  | fuel + 1, q, first, second, out, count =>
    if second ≠ s.length then do
      let c ← deref s second
      asked ask q c (out, none) fun b q =>
        if b then
          if incl1 || inclAll then do
            let r ← (if incl1 then ok (some (second + 1, q)) else skipIf inclAll ask s q second)
            andThen out r fun i q => emit put out (first, i) fun out => do
              let r ← skipIf (!inclAll && compress) ask s q i
              andThen out r fun j q => splitLoopE compress incl1 inclAll ask put s fuel q j j out (count + 1)
          else emit put out (first, second) fun out => splitLoopE compress incl1 inclAll ask put s fuel q (second + 1) (second + 1) out (count + 1)
        else splitLoopE compress incl1 inclAll ask put s fuel q first (second + 1) out count
    else finishE ask put s q first second out count

/-- `split` (3342-3399), with a bound on the number of turns of its main loop. -/
def splitE (fuel : Nat) (opt : Opt) (ask : Ask σ α) (put : Put) (q : σ) (s : List α) : Outcome (Res σ) :=
  if s.length = 0 then ok ([], some (0, q))
  else
    let incl1 := opt.first
    let inclAll := !incl1 && opt.all
    if opt.compress && !(incl1 || inclAll) then compressLoopE ask put s fuel q 0 0 [] 0
    else splitLoopE opt.compress incl1 inclAll ask put s fuel q 0 0 [] 0

/-- Loop of `split_n` (3576-3610). -/
def splitNLoopE (compress incl : Bool) (ask : Ask σ α) (put : Put) (s : List α) (n : Nat) : Nat → σ → Nat → Nat → List (Nat × Nat) → Nat → Outcome (Res σ)
  | 0, _, _, _, _, _ => diverge
  | fuel + 1, q, first, second, out, count =>
    if second ≠ s.length then do
      let c ← deref s second
      asked ask q c (out, none) fun b q =>
        if b then emit put out (first, if incl then second + 1 else second) fun out =>
          if count + 1 ≥ n then ok (out, some (count + 1, q))
          else do
            let r ← skipIf compress ask s q (second + 1)
            andThen out r fun j q => splitNLoopE compress incl ask put s n fuel q j j out (count + 1)
        else splitNLoopE compress incl ask put s n fuel q first (second + 1) out count
    else finishE ask put s q first second out count

/-- `split_n` (3557-3620). -/
def splitNE (opt : Opt) (ask : Ask σ α) (put : Put) (q : σ) (s : List α) (n : Nat) : Outcome (Res σ) :=
  if n = 0 then ok ([], some (0, q))
  else if s.length = 0 then ok ([], some (0, q))
  else splitNLoopE opt.compress (opt.first || !opt.first && opt.all) ask put s n (s.length + 1) q 0 0 [] 0

/-! ## Specification -/

/-- A predicate that never throws. -/
def never (step : σ → α → Bool × σ) : Ask σ α := fun q c => some (step q c)

/-- A predicate without state. -/
def plain (d : α → Bool) : Ask σ α := fun q c => some (d c, q)

/-- The plain predicate that throws at its question number `m`, counted from 0. -/
def throwsAt (m : Nat) (d : α → Bool) : Ask Nat α := fun i c => if i = m then none else some (d c, i + 1)

/-- The predicate with a record of its questions. -/
def recorded (step : σ → α → Bool × σ) : σ × List α → α → Bool × (σ × List α) := fun p c => ((step p.1 c).1, ((step p.1 c).2, p.2 ++ [c]))

/-- An output that takes everything. -/
def always : Put := fun _ _ => true

/-- The first caller throws whenever the second does, and perhaps earlier; otherwise they do the same. -/
structure Earlier (ask ask' : Ask σ α) (put put' : Put) : Prop where
  ask : ∀ q c r, ask q c = some r → ask' q c = some r
  put : ∀ out t, put out t = true → put' out t = true

/-! ## A caller that throws earlier -/

/-- Results under a caller that throws earlier. -/
def Before (r r' : Outcome (Res σ)) : Prop :=
  ∀ o x, r = ok (o, x) → (∀ y, x = some y → r' = ok (o, some y)) ∧ ∀ o' x', r' = ok (o', x') → o <+: o'

theorem Before.refl (r : Outcome (Res σ)) : Before r r := by
  intro o x h
  refine ⟨fun y hy => by rw [h, hy], fun o' x' h' => ?_⟩
  rw [h] at h'
  cases h'
  exact List.prefix_rfl

/-- Calls that only add to the output. -/
def Adds (out : List (Nat × Nat)) (r : Outcome (Res σ)) : Prop := ∀ o x, r = ok (o, x) → out <+: o

theorem Before.threw {out : List (Nat × Nat)} {r' : Outcome (Res σ)} (h : Adds out r') : Before (ok (out, none)) r' := by
  intro o x hx
  cases hx
  exact ⟨by simp, fun o' x' h' => h o' x' h'⟩

theorem Adds.ok (out : List (Nat × Nat)) (x : Option (Nat × σ)) : Adds out (ok (out, x)) := by
  intro o y h; cases h; exact List.prefix_rfl

theorem Adds.emit {put : Put} {out : List (Nat × Nat)} {t : Nat × Nat} {k : List (Nat × Nat) → Outcome (Res σ)} (h : Adds (out ++ [t]) (k (out ++ [t]))) :
    Adds out (emit put out t k) := by
  unfold Split.emit
  split
  · intro o x hx; exact (List.prefix_append out [t]).trans (h o x hx)
  · exact Adds.ok _ _

theorem Adds.asked {ask : Ask σ α} {q : σ} {c : α} {out : List (Nat × Nat)} {k : Bool → σ → Outcome (Res σ)} (h : ∀ b q, Adds out (k b q)) :
    Adds out (asked ask q c (out, none) k) := by
  unfold Split.asked
  split
  · exact Adds.ok _ _
  · exact h _ _

theorem Adds.bind {β : Type} {out : List (Nat × Nat)} {x : Outcome β} {k : β → Outcome (Res σ)} (h : ∀ b, Adds out (k b)) : Adds out (x >>= k) := by
  intro o y hy
  obtain ⟨b, _, h2⟩ := bind_eq_ok.mp hy
  exact h b o y h2

theorem Adds.andThen {out : List (Nat × Nat)} {r : Option (Nat × σ)} {k : Nat → σ → Outcome (Res σ)} (h : ∀ i q, Adds out (k i q)) : Adds out (andThen out r k) := by
  unfold Split.andThen
  split
  · exact Adds.ok _ _
  · exact h _ _

theorem Adds.diverge {out : List (Nat × Nat)} : Adds out (diverge : Outcome (Res σ)) := by intro o x h; cases h

theorem Adds.ite {out : List (Nat × Nat)} {p : Prop} [Decidable p] {a b : Outcome (Res σ)} (ha : Adds out a) (hb : Adds out b) : Adds out (if p then a else b) := by
  split <;> assumption

theorem finishE_adds (ask : Ask σ α) (put : Put) (s : List α) (q : σ) (first second : Nat) (out : List (Nat × Nat)) (count : Nat) :
    Adds out (finishE ask put s q first second out count) := by
  unfold finishE
  refine Adds.ite (Adds.emit (Adds.ok _ _)) (Adds.ite (by intro o x h; cases h) (Adds.bind fun c => Adds.asked fun b q => Adds.ite (Adds.emit (Adds.ok _ _)) (Adds.ok _ _)))

theorem compressLoopE_adds (ask : Ask σ α) (put : Put) (s : List α) : ∀ (fuel : Nat) (q : σ) (first second : Nat) (out : List (Nat × Nat)) (count : Nat),
    Adds out (compressLoopE ask put s fuel q first second out count) := by
  intro fuel
  induction fuel with
  | zero => intro _ _ _ _ _; exact Adds.diverge
  | succ fuel ih =>
    intro q first second out count
    unfold compressLoopE
    exact Adds.ite (Adds.bind fun c => Adds.asked fun b q => Adds.ite (Adds.emit (Adds.bind fun r => Adds.andThen fun j q => ih _ _ _ _ _)) (ih _ _ _ _ _)) (finishE_adds _ _ _ _ _ _ _ _)

theorem splitLoopE_adds (compress incl1 inclAll : Bool) (ask : Ask σ α) (put : Put) (s : List α) : ∀ (fuel : Nat) (q : σ) (first second : Nat) (out : List (Nat × Nat)) (count : Nat),
    Adds out (splitLoopE compress incl1 inclAll ask put s fuel q first second out count) := by
  intro fuel
  induction fuel with
  | zero => intro _ _ _ _ _; exact Adds.diverge
  | succ fuel ih =>
    intro q first second out count
    unfold splitLoopE
    refine Adds.ite (Adds.bind fun c => Adds.asked fun b q => Adds.ite (Adds.ite (Adds.bind fun r => Adds.andThen fun i q => Adds.emit (Adds.bind fun r => Adds.andThen fun j q => ih _ _ _ _ _))
      (Adds.emit (ih _ _ _ _ _))) (ih _ _ _ _ _)) (finishE_adds _ _ _ _ _ _ _ _)

theorem splitNLoopE_adds (compress incl : Bool) (ask : Ask σ α) (put : Put) (s : List α) (n : Nat) : ∀ (fuel : Nat) (q : σ) (first second : Nat) (out : List (Nat × Nat)) (count : Nat),
    Adds out (splitNLoopE compress incl ask put s n fuel q first second out count) := by
  intro fuel
  induction fuel with
  | zero => intro _ _ _ _ _; exact Adds.diverge
  | succ fuel ih =>
    intro q first second out count
    unfold splitNLoopE
    exact Adds.ite (Adds.bind fun c => Adds.asked fun b q => Adds.ite (Adds.emit (Adds.ite (Adds.ok _ _) (Adds.bind fun r => Adds.andThen fun j q => ih _ _ _ _ _))) (ih _ _ _ _ _))
      (finishE_adds _ _ _ _ _ _ _ _)

section Earlier

variable {ask ask' : Ask σ α} {put put' : Put} (he : Earlier ask ask' put put')
include he

theorem Before.emit {out : List (Nat × Nat)} {t : Nat × Nat} {k k' : List (Nat × Nat) → Outcome (Res σ)} (h : Before (k (out ++ [t])) (k' (out ++ [t])))
    (ha : Adds (out ++ [t]) (k' (out ++ [t]))) : Before (emit put out t k) (emit put' out t k') := by
  by_cases hp : put out t = true
  · unfold Split.emit
    rw [if_pos hp, if_pos (he.put _ _ hp)]
    exact h
  · have : Split.emit put out t k = ok (out, none) := by unfold Split.emit; rw [if_neg hp]
    rw [this]
    exact Before.threw (Adds.emit ha)

theorem Before.asked {q : σ} {c : α} {out : List (Nat × Nat)} {k k' : Bool → σ → Outcome (Res σ)} (h : ∀ b q, Before (k b q) (k' b q)) (ha : ∀ b q, Adds out (k' b q)) :
    Before (asked ask q c (out, none) k) (asked ask' q c (out, none) k') := by
  cases hq : ask q c with
  | none =>
    have : Split.asked ask q c (out, none) k = ok (out, none) := by unfold Split.asked; rw [hq]
    rw [this]
    exact Before.threw (Adds.asked ha)
  | some r =>
    unfold Split.asked
    rw [hq, he.ask _ _ _ hq]
    exact h _ _

omit he in
theorem Before.bind {β : Type} {x : Outcome β} {k k' : β → Outcome (Res σ)} (h : ∀ b, Before (k b) (k' b)) : Before (x >>= k) (x >>= k') := by
  cases x with
  | ok b => exact h b
  | _ => intro o y hy; cases hy

/-- A skipped run. -/
theorem skipRunE_before (s : List α) : ∀ (fuel : Nat) (q : σ) (i : Nat) x, skipRunE ask s fuel q i = ok (some x) → skipRunE ask' s fuel q i = ok (some x) := by
  intro fuel
  induction fuel with
  | zero => intro _ _ _ h; cases h
  | succ fuel ih =>
    intro q i x h
    unfold skipRunE at h ⊢
    split at h
    · rename_i hi
      rw [if_pos hi]
      obtain ⟨c, h1, h2⟩ := bind_eq_ok.mp h
      rw [h1, ok_bind]
      unfold Split.asked at h2 ⊢
      cases hq : ask q c with
      | none => rw [hq] at h2; cases h2
      | some r =>
        rw [hq] at h2
        rw [he.ask _ _ _ hq]
        simp only at h2 ⊢
        split at h2
        · rename_i hb; rw [if_pos hb]; exact ih _ _ _ h2
        · rename_i hb; rw [if_neg hb]; exact h2
    · rename_i hi
      rw [if_neg hi]; exact h

theorem skipIf_before (skip : Bool) (s : List α) (q : σ) (i : Nat) (x : Nat × σ) (h : skipIf skip ask s q i = ok (some x)) : skipIf skip ask' s q i = ok (some x) := by
  cases skip with
  | true => exact skipRunE_before he s _ q i x h
  | false => exact h

omit he in
theorem Before.run {r r' : Outcome (Option (Nat × σ))} {out : List (Nat × Nat)} {k k' : Nat → σ → Outcome (Res σ)} (hr : ∀ x, r = ok (some x) → r' = ok (some x))
    (h : ∀ i q, Before (k i q) (k' i q)) (ha : ∀ i q, Adds out (k' i q)) : Before (r >>= fun r => andThen out r k) (r' >>= fun r => andThen out r k') := by
  cases hx : r with
  | ok x =>
    cases x with
    | none => exact Before.threw (Adds.bind fun r => Adds.andThen ha)
    | some x => rw [hr x hx]; exact h _ _
  | _ => intro o y hy; cases hy

omit he in
theorem Before.ite {p : Prop} [Decidable p] {a b a' b' : Outcome (Res σ)} (ha : Before a a') (hb : Before b b') : Before (if p then a else b) (if p then a' else b') := by
  split <;> assumption

theorem finishE_before (s : List α) (q : σ) (first second : Nat) (out : List (Nat × Nat)) (count : Nat) :
    Before (finishE ask put s q first second out count) (finishE ask' put' s q first second out count) := by
  unfold finishE
  refine Before.ite (Before.emit he (Before.refl _) (Adds.ok _ _)) (Before.ite (Before.refl _) (Before.bind fun c => Before.asked he (fun b q => ?_) fun b q => ?_))
  · exact Before.ite (Before.emit he (Before.refl _) (Adds.ok _ _)) (Before.refl _)
  · exact Adds.ite (Adds.emit (Adds.ok _ _)) (Adds.ok _ _)

theorem compressLoopE_before (s : List α) : ∀ (fuel : Nat) (q : σ) (first second : Nat) (out : List (Nat × Nat)) (count : Nat),
    Before (compressLoopE ask put s fuel q first second out count) (compressLoopE ask' put' s fuel q first second out count) := by
  intro fuel
  induction fuel with
  | zero => intro _ _ _ _ _; exact Before.refl _
  | succ fuel ih =>
    intro q first second out count
    unfold compressLoopE
    refine Before.ite (Before.bind fun c => Before.asked he (fun b q => Before.ite (Before.emit he (Before.run (skipRunE_before he s _ _ _) (fun j q => ih _ _ _ _ _) ?_) ?_) (ih _ _ _ _ _))
      fun b q => ?_) (finishE_before he _ _ _ _ _ _)
    · intro _ _; exact compressLoopE_adds _ _ _ _ _ _ _ _ _
    · exact Adds.bind fun r => Adds.andThen fun j q => compressLoopE_adds _ _ _ _ _ _ _ _ _
    · exact Adds.ite (Adds.emit (Adds.bind fun r => Adds.andThen fun j q => compressLoopE_adds _ _ _ _ _ _ _ _ _)) (compressLoopE_adds _ _ _ _ _ _ _ _ _)

theorem splitLoopE_before (compress incl1 inclAll : Bool) (s : List α) : ∀ (fuel : Nat) (q : σ) (first second : Nat) (out : List (Nat × Nat)) (count : Nat),
    Before (splitLoopE compress incl1 inclAll ask put s fuel q first second out count) (splitLoopE compress incl1 inclAll ask' put' s fuel q first second out count) := by
  intro fuel
  induction fuel with
  | zero => intro _ _ _ _ _; exact Before.refl _
  | succ fuel ih =>
    intro q first second out count
    unfold splitLoopE
    refine Before.ite (Before.bind fun c => Before.asked he (fun b q => Before.ite (Before.ite (Before.run ?_ (fun i q => Before.emit he (Before.run (skipIf_before he _ s _ _)
      (fun j q => ih _ _ _ _ _) ?_) ?_) ?_) (Before.emit he (ih _ _ _ _ _) ?_)) (ih _ _ _ _ _)) fun b q => ?_) (finishE_before he _ _ _ _ _ _)
    · intro x hx
      split at hx
      · rename_i h1; rw [if_pos h1]; exact hx
      · rename_i h1; rw [if_neg h1]; exact skipIf_before he _ s _ _ _ hx
    · intro _ _; exact splitLoopE_adds _ _ _ _ _ _ _ _ _ _ _ _
    · exact Adds.bind fun r => Adds.andThen fun j q => splitLoopE_adds _ _ _ _ _ _ _ _ _ _ _ _
    · intro _ _; exact Adds.emit (Adds.bind fun r => Adds.andThen fun j q => splitLoopE_adds _ _ _ _ _ _ _ _ _ _ _ _)
    · exact splitLoopE_adds _ _ _ _ _ _ _ _ _ _ _ _
    · exact Adds.ite (Adds.ite (Adds.bind fun r => Adds.andThen fun i q => Adds.emit (Adds.bind fun r => Adds.andThen fun j q => splitLoopE_adds _ _ _ _ _ _ _ _ _ _ _ _)) (Adds.emit (splitLoopE_adds _ _ _ _ _ _ _ _ _ _ _ _)))
        (splitLoopE_adds _ _ _ _ _ _ _ _ _ _ _ _)

theorem splitNLoopE_before (compress incl : Bool) (s : List α) (n : Nat) : ∀ (fuel : Nat) (q : σ) (first second : Nat) (out : List (Nat × Nat)) (count : Nat),
    Before (splitNLoopE compress incl ask put s n fuel q first second out count) (splitNLoopE compress incl ask' put' s n fuel q first second out count) := by
  intro fuel
  induction fuel with
  | zero => intro _ _ _ _ _; exact Before.refl _
  | succ fuel ih =>
    intro q first second out count
    unfold splitNLoopE
    refine Before.ite (Before.bind fun c => Before.asked he (fun b q => Before.ite (Before.emit he (Before.ite (Before.refl _) (Before.run (skipIf_before he _ s _ _)
      (fun j q => ih _ _ _ _ _) ?_)) ?_) (ih _ _ _ _ _)) fun b q => ?_) (finishE_before he _ _ _ _ _ _)
    · intro _ _; exact splitNLoopE_adds _ _ _ _ _ _ _ _ _ _ _ _
    · exact Adds.ite (Adds.ok _ _) (Adds.bind fun r => Adds.andThen fun j q => splitNLoopE_adds _ _ _ _ _ _ _ _ _ _ _ _)
    · exact Adds.ite (Adds.emit (Adds.ite (Adds.ok _ _) (Adds.bind fun r => Adds.andThen fun j q => splitNLoopE_adds _ _ _ _ _ _ _ _ _ _ _ _))) (splitNLoopE_adds _ _ _ _ _ _ _ _ _ _ _ _)

end Earlier

/-! ## Outputs that throw -/

/-- Tokens offered one after the other. -/
def offer (put : Put) (n : Nat) (q : σ) : List (Nat × Nat) → List (Nat × Nat) → Res σ
  | out, [] => (out, some (n, q))
  | out, t :: ts => if put out t then offer put n q (out ++ [t]) ts else (out, none)

theorem emit_offer {put : Put} {n : Nat} {q : σ} {out ts : List (Nat × Nat)} {t : Nat × Nat} {k : List (Nat × Nat) → Outcome (Res σ)}
    (h : k (out ++ [t]) = ok (offer put n q (out ++ [t]) ts)) : emit put out t k = ok (offer put n q out (t :: ts)) := by
  unfold emit
  rw [offer]
  split
  · exact h
  · rfl

theorem skipRunE_plain (d : α → Bool) (s : List α) (q : σ) : ∀ fuel i j, skipRun d s fuel i = ok j → skipRunE (plain d) s fuel q i = ok (some (j, q)) := by
  intro fuel
  induction fuel with
  | zero => intro _ _ h; cases h
  | succ fuel ih =>
    intro i j h
    unfold skipRun at h
    unfold skipRunE
    split at h
    · rename_i hi
      rw [if_pos hi]
      obtain ⟨c, h1, h2⟩ := bind_eq_ok.mp h
      rw [h1, ok_bind]
      simp only [asked, plain]
      split at h2
      · rename_i hb; rw [if_pos hb]; exact ih _ _ h2
      · rename_i hb; rw [if_neg hb]; cases h2; rfl
    · rename_i hi
      rw [if_neg hi]; cases h; rfl

/-- A result of the plain loop, and the same with an output that may throw. -/
def Offered (put : Put) (q : σ) (out : List (Nat × Nat)) (r : Outcome (List (Nat × Nat) × Nat)) (r' : Outcome (Res σ)) : Prop :=
  ∀ o n, r = ok (o, n) → ∃ ts, o = out ++ ts ∧ r' = ok (offer put n q out ts)

theorem Offered.emit {put : Put} {q : σ} {out : List (Nat × Nat)} {t : Nat × Nat} {r : Outcome (List (Nat × Nat) × Nat)} {k : List (Nat × Nat) → Outcome (Res σ)}
    (h : Offered put q (out ++ [t]) r (k (out ++ [t]))) : Offered put q out r (Split.emit put out t k) := by
  intro o n hr
  obtain ⟨ts, h1, h2⟩ := h o n hr
  exact ⟨t :: ts, by rw [h1]; simp, emit_offer h2⟩

theorem Offered.ok (put : Put) (q : σ) (out : List (Nat × Nat)) (n : Nat) : Offered put q out (ok (out, n)) (ok (out, some (n, q))) := by
  intro o m h; cases h; exact ⟨[], by simp, rfl⟩

theorem finishE_plain (d : α → Bool) (put : Put) (s : List α) (q : σ) (first second : Nat) (out : List (Nat × Nat)) (count : Nat) :
    Offered put q out (finish d s first second out count) (finishE (plain d) put s q first second out count) := by
  unfold finish finishE
  split
  · exact Offered.emit (Offered.ok _ _ _ _)
  · split
    · intro o n h; cases h
    · intro o n h
      obtain ⟨c, h1, h2⟩ := bind_eq_ok.mp h
      rw [h1, ok_bind]
      simp only [asked, plain]
      split at h2
      · rename_i hb
        rw [if_pos hb]
        exact Offered.emit (Offered.ok _ _ _ _) o n h2
      · rename_i hb
        rw [if_neg hb]
        exact Offered.ok _ _ _ _ o n h2

theorem compressLoopE_plain (d : α → Bool) (put : Put) (s : List α) (q : σ) : ∀ (fuel first second : Nat) (out : List (Nat × Nat)) (count : Nat),
    Offered put q out (compressLoop d s fuel first second out count) (compressLoopE (plain d) put s fuel q first second out count) := by
  intro fuel
  induction fuel with
  | zero => intro _ _ _ _ o n h; cases h
  | succ fuel ih =>
    intro first second out count
    unfold compressLoop compressLoopE
    split
    · intro o n h
      obtain ⟨c, h1, h2⟩ := bind_eq_ok.mp h
      rw [h1, ok_bind]
      simp only [asked, plain]
      split at h2
      · rename_i hb
        rw [if_pos hb]
        obtain ⟨j, h3, h4⟩ := bind_eq_ok.mp h2
        refine Offered.emit ?_ o n h4
        have := skipRunE_plain d s q _ _ _ h3
        rw [this, ok_bind]
        exact ih _ _ _ _
      · rename_i hb
        rw [if_neg hb]
        exact ih _ _ _ _ o n h2
    · exact finishE_plain _ _ _ _ _ _ _ _

theorem splitLoopE_plain (compress incl1 inclAll : Bool) (d : α → Bool) (put : Put) (s : List α) (q : σ) : ∀ (fuel first second : Nat) (out : List (Nat × Nat)) (count : Nat),
    Offered put q out (splitLoop compress incl1 inclAll d s fuel first second out count) (splitLoopE compress incl1 inclAll (plain d) put s fuel q first second out count) := by
  have hskip : ∀ b i j, (if b = true then skipRun d s (s.length + 1) i else ok i) = ok j → skipIf b (plain d) s q i = ok (some (j, q)) := by
    intro b i j h
    cases b with
    | true => exact skipRunE_plain d s q _ _ _ h
    | false => cases h; rfl
  intro fuel
  induction fuel with
  | zero => intro _ _ _ _ o n h; cases h
  | succ fuel ih =>
    intro first second out count
    unfold splitLoop splitLoopE
    split
    · intro o n h
      obtain ⟨c, h1, h2⟩ := bind_eq_ok.mp h
      rw [h1, ok_bind]
      simp only [asked, plain]
      split at h2
      · rename_i hb
        rw [if_pos hb]
        split at h2
        · rename_i hi
          rw [if_pos hi]
          obtain ⟨j, h3, h4⟩ := bind_eq_ok.mp h2
          obtain ⟨k, h5, h6⟩ := bind_eq_ok.mp h4
          have e1 : (if incl1 = true then ok (some (second + 1, q)) else skipIf inclAll (plain d) s q second) = ok (some (j, q)) := by
            split at h3
            · rename_i h1; rw [if_pos h1]; cases h3; rfl
            · rename_i h1; rw [if_neg h1]; exact hskip _ _ _ h3
          rw [e1, ok_bind]
          simp only [andThen]
          refine Offered.emit ?_ o n h6
          have e2 := hskip _ _ _ h5
          rw [e2, ok_bind]
          exact ih _ _ _ _
        · rename_i hi
          rw [if_neg hi]
          exact Offered.emit (ih _ _ _ _) o n h2
      · rename_i hb
        rw [if_neg hb]
        exact ih _ _ _ _ o n h2
    · exact finishE_plain _ _ _ _ _ _ _ _

theorem splitNLoopE_plain (compress incl : Bool) (d : α → Bool) (put : Put) (s : List α) (n : Nat) (q : σ) : ∀ (fuel first second : Nat) (out : List (Nat × Nat)) (count : Nat),
    Offered put q out (splitNLoop compress incl d s n fuel first second out count) (splitNLoopE compress incl (plain d) put s n fuel q first second out count) := by
  have hskip : ∀ b i j, (if b = true then skipRun d s (s.length + 1) i else ok i) = ok j → skipIf b (plain d) s q i = ok (some (j, q)) := by
    intro b i j h
    cases b with
    | true => exact skipRunE_plain d s q _ _ _ h
    | false => cases h; rfl
  intro fuel
  induction fuel with
  | zero => intro _ _ _ _ o n h; cases h
  | succ fuel ih =>
    intro first second out count
    unfold splitNLoop splitNLoopE
    split
    · intro o m h
      obtain ⟨c, h1, h2⟩ := bind_eq_ok.mp h
      rw [h1, ok_bind]
      simp only [asked, plain]
      split at h2
      · rename_i hb
        rw [if_pos hb]
        cases incl with
        | true =>
          simp only [if_true] at h2 ⊢
          refine Offered.emit (r := _) ?_ o m h2
          split
          · exact Offered.ok _ _ _ _
          · intro o m h
            obtain ⟨j, h3, h4⟩ := bind_eq_ok.mp h
            have e2 := hskip _ _ _ h3
            rw [e2, ok_bind]
            exact ih _ _ _ _ o m h4
        | false =>
          simp only [Bool.false_eq_true, if_false] at h2 ⊢
          refine Offered.emit (r := _) ?_ o m h2
          split
          · exact Offered.ok _ _ _ _
          · intro o m h
            obtain ⟨j, h3, h4⟩ := bind_eq_ok.mp h
            have e2 := hskip _ _ _ h3
            rw [e2, ok_bind]
            exact ih _ _ _ _ o m h4
      · rename_i hb
        rw [if_neg hb]
        exact ih _ _ _ _ o m h2
    · exact finishE_plain _ _ _ _ _ _ _ _

theorem splitE_plain (opt : Opt) (d : α → Bool) (put : Put) (q : σ) (s : List α) (ts : List (Nat × Nat)) (n : Nat) (h : split opt d s = ok (ts, n)) :
    splitE (s.length + 1) opt (plain d) put q s = ok (offer put n q [] ts) := by
  unfold split at h
  unfold splitE
  split at h
  · rename_i h0
    rw [if_pos h0]; cases h; rfl
  · rename_i h0
    rw [if_neg h0]
    simp only at h ⊢
    split at h
    · rename_i hc
      rw [if_pos hc]
      obtain ⟨ts', h1, h2⟩ := compressLoopE_plain d put s q _ _ _ _ _ _ _ h
      rw [List.nil_append] at h1
      rw [h1]; exact h2
    · rename_i hc
      rw [if_neg hc]
      obtain ⟨ts', h1, h2⟩ := splitLoopE_plain _ _ _ d put s q _ _ _ _ _ _ _ h
      rw [List.nil_append] at h1
      rw [h1]; exact h2

theorem splitNE_plain (opt : Opt) (d : α → Bool) (put : Put) (q : σ) (s : List α) (m : Nat) (ts : List (Nat × Nat)) (n : Nat) (h : splitN opt d s m = ok (ts, n)) :
    splitNE opt (plain d) put q s m = ok (offer put n q [] ts) := by
  unfold splitN at h
  unfold splitNE
  split at h
  · rename_i h0
    rw [if_pos h0]; cases h; rfl
  · rename_i h0
    rw [if_neg h0]
    split at h
    · rename_i h1
      rw [if_pos h1]; cases h; rfl
    · rename_i h1
      rw [if_neg h1]
      obtain ⟨ts', h1, h2⟩ := splitNLoopE_plain _ _ d put s m q _ _ _ _ _ _ _ h
      rw [List.nil_append] at h1
      rw [h1]; exact h2

theorem offer_spec (put : Put) (n : Nat) (q : σ) : ∀ (ts out : List (Nat × Nat)),
    ((∀ j t, ts[j]? = some t → put (out ++ ts.take j) t = true) ∧ offer put n q out ts = (out ++ ts, some (n, q))) ∨
    ∃ k t, ts[k]? = some t ∧ put (out ++ ts.take k) t = false ∧ (∀ j u, j < k → ts[j]? = some u → put (out ++ ts.take j) u = true) ∧ offer put n q out ts = (out ++ ts.take k, none) := by
  intro ts
  induction ts with
  | nil => intro out; left; exact ⟨by simp, by simp [offer]⟩
  | cons t ts ih =>
    intro out
    rw [offer]
    by_cases hp : put out t = true
    · rw [if_pos hp]
      rcases ih (out ++ [t]) with ⟨h1, h2⟩ | ⟨k, u, h1, h2, h3, h4⟩
      · left
        refine ⟨?_, by rw [h2]; simp⟩
        intro j u hj
        cases j with
        | zero => simp at hj; subst hj; simpa using hp
        | succ j => have := h1 j u (by simpa using hj); simpa using this
      · right
        refine ⟨k + 1, u, by simpa using h1, by simpa using h2, ?_, by rw [h4]; simp⟩
        intro j v hj hv
        cases j with
        | zero => simp at hv; subst hv; simpa using hp
        | succ j => have := h3 j v (by omega) (by simpa using hv); simpa using this
    · right
      exact ⟨0, t, by simp, by simpa using hp, fun j _ hj => by omega, by rw [if_neg hp]; simp⟩

/-! ## Predicates that remember -/

theorem skipRunE_never (step : σ → α → Bool × σ) (q : σ) (s : List α) : ∀ (fuel fuel' i : Nat), i ≤ s.length → s.length < fuel + i → s.length < fuel' + i →
    ∃ j, i ≤ j ∧ j ≤ s.length ∧ skipRun Prod.snd (ann step q s) fuel i = ok j ∧
      skipRunE (never step) s fuel' (after step q (s.take i)) i = ok (some (j, after step q (s.take (if j ≠ s.length then j + 1 else j)))) ∧
      (i < j → ∃ c, deref (ann step q s) (j - 1) = ok (c, true)) ∧ (j ≠ s.length → ∃ c, deref (ann step q s) j = ok (c, false)) := by
  intro fuel
  induction fuel with
  | zero => intro _ i h1 h2; omega
  | succ fuel ih =>
    intro fuel' i h1 h2 h3
    obtain ⟨f, rfl⟩ : ∃ f, fuel' = f + 1 := ⟨fuel' - 1, by omega⟩
    unfold skipRun skipRunE
    rw [ann_length]
    by_cases hi : i = s.length
    · refine ⟨i, Nat.le_refl _, h1, ?_, ?_, by omega, fun h => absurd hi h⟩
      · rw [if_neg (by simp [hi])]
      · rw [if_neg (by simp [hi]), if_neg (by simp [hi])]
    · have hlt : i < s.length := by omega
      rw [if_pos hi, if_pos hi, ann_getElem step q s i hlt, deref_eq_ok hlt]
      simp only [ok_bind, asked, never]
      by_cases hb : (step (after step q (s.take i)) s[i]).1 = true
      · obtain ⟨j, g1, g2, g3, g4, g5, g6⟩ := ih f (i + 1) (by omega) (by omega) (by omega)
        rw [if_pos hb, if_pos hb, ← after_succ step q s i hlt]
        refine ⟨j, by omega, g2, g3, g4, fun _ => ?_, g6⟩
        by_cases e : i + 1 = j
        · refine ⟨s[i], ?_⟩
          rw [show j - 1 = i by omega, ann_getElem step q s i hlt, hb]
        · exact g5 (by omega)
      · rw [if_neg hb, if_neg hb]
        refine ⟨i, Nat.le_refl _, h1, rfl, ?_, by omega, fun _ => ⟨s[i], ?_⟩⟩
        · rw [if_pos hi, after_succ step q s i hlt]
        · rw [ann_getElem step q s i hlt]
          simp [Bool.not_eq_true] at hb
          rw [hb]

/-- Where the two cursors of the loop stand: together behind a character answered yes, or at the beginning, and apart behind one answered no. -/
def Stand (a : List (α × Bool)) (first second : Nat) : Prop :=
  (first = second ∧ (second = 0 ∨ ∃ c, deref a (second - 1) = ok (c, true))) ∨ (first < second ∧ ∃ c, deref a (second - 1) = ok (c, false))

/-- Both loops come to the final test in the same way. -/
def Same (step : σ → α → Bool × σ) (q : σ) (s : List α) (r : Outcome (Res σ)) (r' : Outcome (List (Nat × Nat) × Nat)) : Prop :=
  ∃ first out, Stand (ann step q s) first s.length ∧ r = finishE (never step) always s (after step q s) first s.length out out.length ∧
    r' = finish Prod.snd (ann step q s) first s.length out out.length

theorem compressLoopE_never (step : σ → α → Bool × σ) (q : σ) (s : List α) : ∀ (fuel fuel' first second : Nat) (out : List (Nat × Nat)),
    second ≤ s.length → s.length < fuel + second → s.length < fuel' + second → Stand (ann step q s) first second →
    Same step q s (compressLoopE (never step) always s fuel' (after step q (s.take second)) first second out out.length)
      (compressLoop Prod.snd (ann step q s) fuel first second out out.length) := by
  intro fuel
  induction fuel with
  | zero => intro _ _ _ _ h1 h2; omega
  | succ fuel ih =>
    intro fuel' first second out h1 h2 h3 hst
    obtain ⟨f, rfl⟩ : ∃ f, fuel' = f + 1 := ⟨fuel' - 1, by omega⟩
    unfold compressLoop compressLoopE
    rw [ann_length]
    by_cases hi : second = s.length
    · rw [if_neg (by simp [hi]), if_neg (by simp [hi])]
      subst hi
      exact ⟨first, out, hst, by simp, rfl⟩
    · have hlt : second < s.length := by omega
      rw [if_pos hi, if_pos hi, ann_getElem step q s second hlt, deref_eq_ok hlt]
      simp only [ok_bind, asked, never]
      by_cases hb : (step (after step q (s.take second)) s[second]).1 = true
      · rw [if_pos hb, if_pos hb, ← after_succ step q s second hlt]
        obtain ⟨j, g1, g2, g3, g4, g5, g6⟩ := skipRunE_never step q s (s.length + 1) (s.length + 1) (second + 1) (by omega) (by omega) (by omega)
        simp only [emit, always, if_true]
        rw [g4, g3]
        simp only [ok_bind, andThen]
        rw [show out.length + 1 = (out ++ [(first, second)]).length by simp]
        apply ih
        · split <;> omega
        · split <;> omega
        · split <;> omega
        · by_cases e : j = s.length
          · rw [if_neg (by simp [e])]
            refine Or.inl ⟨rfl, Or.inr ?_⟩
            by_cases e2 : second + 1 = j
            · refine ⟨s[second], ?_⟩
              rw [show j - 1 = second by omega, ann_getElem step q s second hlt, hb]
            · exact g5 (by omega)
          · rw [if_pos e]
            exact Or.inr ⟨by omega, g6 e⟩
      · rw [if_neg hb, if_neg hb, ← after_succ step q s second hlt]
        refine ih _ _ _ _ (by omega) (by omega) (by omega) (Or.inr ⟨?_, s[second], ?_⟩)
        · rcases hst with ⟨h, _⟩ | ⟨h, _⟩ <;> omega
        · simp only [Bool.not_eq_true] at hb
          rw [Nat.add_sub_cancel, ann_getElem step q s second hlt, hb]

theorem splitLoopE_never (incl1 : Bool) (step : σ → α → Bool × σ) (q : σ) (s : List α) : ∀ (fuel fuel' first second : Nat) (out : List (Nat × Nat)),
    second ≤ s.length → s.length < fuel + second → s.length < fuel' + second → Stand (ann step q s) first second →
    Same step q s (splitLoopE false incl1 false (never step) always s fuel' (after step q (s.take second)) first second out out.length)
      (splitLoop false incl1 false Prod.snd (ann step q s) fuel first second out out.length) := by
  intro fuel
  induction fuel with
  | zero => intro _ _ _ _ h1 h2; omega
  | succ fuel ih =>
    intro fuel' first second out h1 h2 h3 hst
    obtain ⟨f, rfl⟩ : ∃ f, fuel' = f + 1 := ⟨fuel' - 1, by omega⟩
    unfold splitLoop splitLoopE
    rw [ann_length]
    by_cases hi : second = s.length
    · rw [if_neg (by simp [hi]), if_neg (by simp [hi])]
      subst hi
      exact ⟨first, out, hst, by simp, rfl⟩
    · have hlt : second < s.length := by omega
      rw [if_pos hi, if_pos hi, ann_getElem step q s second hlt, deref_eq_ok hlt]
      simp only [ok_bind, asked, never]
      by_cases hb : (step (after step q (s.take second)) s[second]).1 = true
      · rw [if_pos hb, if_pos hb, ← after_succ step q s second hlt]
        have hst' : Stand (ann step q s) (second + 1) (second + 1) :=
          Or.inl ⟨rfl, Or.inr ⟨s[second], by rw [Nat.add_sub_cancel, ann_getElem step q s second hlt, hb]⟩⟩
        cases incl1 with
        | true =>
          simp only [Bool.or_false, if_true, Bool.not_false, Bool.and_false, Bool.false_eq_true, if_false, ok_bind, andThen, emit, always, skipIf]
          rw [show out.length + 1 = (out ++ [(first, second + 1)]).length by simp]
          exact ih _ _ _ _ (by omega) (by omega) (by omega) hst'
        | false =>
          simp only [Bool.or_false, if_true, Bool.false_eq_true, if_false, emit, always]
          rw [show out.length + 1 = (out ++ [(first, second)]).length by simp]
          exact ih _ _ _ _ (by omega) (by omega) (by omega) hst'
      · rw [if_neg hb, if_neg hb, ← after_succ step q s second hlt]
        refine ih _ _ _ _ (by omega) (by omega) (by omega) (Or.inr ⟨?_, s[second], ?_⟩)
        · rcases hst with ⟨h, _⟩ | ⟨h, _⟩ <;> omega
        · simp only [Bool.not_eq_true] at hb
          rw [Nat.add_sub_cancel, ann_getElem step q s second hlt, hb]

/-- The options under which every character is asked about once: none, compressed delimiters, or the first delimiter kept. -/
def Opt.Once (opt : Opt) : Prop := (opt.first = true ∧ opt.compress = false) ∨ (opt.first = false ∧ opt.all = false)

/-- What the last character, answered yes and asked about once more, makes of the tokens of the annotated text. -/
def askAgain (step : σ → α → Bool × σ) (q : σ) (ts : List (Nat × Nat)) : Option (α × Bool) → Res σ
  | some (c, true) => if (step q c).1 then (ts, some (ts.length, (step q c).2)) else (ts.dropLast, some (ts.length - 1, (step q c).2))
  | _ => (ts, some (ts.length, q))

theorem Same.tokens {step : σ → α → Bool × σ} {q : σ} {s : List α} {r : Outcome (Res σ)} {r' : Outcome (List (Nat × Nat) × Nat)} (hs : s ≠ []) (h : Same step q s r r') :
    ∃ ts, r' = ok (ts, ts.length) ∧ r = ok (askAgain step (after step q s) ts (ann step q s).getLast?) := by
  obtain ⟨first, out, hst, rfl, rfl⟩ := h
  have hl : 0 < s.length := List.length_pos_iff.mpr hs
  have hg : ∀ x, deref (ann step q s) (s.length - 1) = ok x → (ann step q s).getLast? = some x := by
    intro x hx
    rw [List.getLast?_eq_getElem?, ann_length]
    unfold deref at hx
    split at hx
    · rename_i h; cases hx; exact h
    · cases hx
  refine ⟨out ++ [(first, s.length)], ?_⟩
  rcases hst with ⟨rfl, h0 | ⟨c, hc⟩⟩ | ⟨hlt, c, hc⟩
  · omega
  · have hc' : deref s (s.length - 1) = ok c := by
      have h2 : s.length - 1 < s.length := by omega
      rw [ann_getElem step q s _ h2] at hc
      rw [deref_eq_ok h2, ← (Prod.mk.inj (Outcome.ok.inj hc)).1]
    rw [hg _ hc]
    unfold finish finishE
    simp only [ne_eq, not_true_eq_false, if_false]
    rw [if_neg (by omega), if_neg (by omega), hc, hc']
    simp only [ok_bind, asked, never, emit, always, if_true, askAgain]
    refine ⟨by simp, ?_⟩
    split <;> simp
  · rw [hg _ hc]
    unfold finish finishE
    rw [if_pos (by omega), if_pos (by omega)]
    simp [emit, always, askAgain]

theorem splitE_never (opt : Opt) (ho : opt.Once) (step : σ → α → Bool × σ) (q : σ) (s : List α) (fuel : Nat) (hf : s.length < fuel) :
    ∃ ts, split opt Prod.snd (ann step q s) = ok (ts, ts.length) ∧ splitE fuel opt (never step) always q s = ok (askAgain step (after step q s) ts (ann step q s).getLast?) := by
  unfold split splitE
  rw [ann_length]
  by_cases h0 : s.length = 0
  · rw [if_pos h0, if_pos h0]
    have : s = [] := List.length_eq_zero_iff.mp h0
    subst this
    exact ⟨[], rfl, rfl⟩
  · rw [if_neg h0, if_neg h0]
    have hs : s ≠ [] := by intro h; apply h0; simp [h]
    rcases ho with ⟨h1, h2⟩ | ⟨h1, h2⟩
    · simp only [h1, h2, Bool.false_and, Bool.not_true, Bool.false_eq_true, if_false]
      have := splitLoopE_never true step q s (s.length + 1) fuel 0 0 [] (by omega) (by omega) (by omega) (Or.inl ⟨rfl, Or.inl rfl⟩)
      exact this.tokens hs
    · simp only [h1, h2, Bool.not_false, Bool.and_false, Bool.or_false, Bool.and_true]
      cases hc : opt.compress with
      | true =>
        simp only [if_true, splitCompress, ann_length]
        have := compressLoopE_never step q s (s.length + 1) fuel 0 0 [] (by omega) (by omega) (by omega) (Or.inl ⟨rfl, Or.inl rfl⟩)
        exact this.tokens hs
      | false =>
        have := splitLoopE_never false step q s (s.length + 1) fuel 0 0 [] (by omega) (by omega) (by omega) (Or.inl ⟨rfl, Or.inl rfl⟩)
        exact this.tokens hs

theorem after_recorded (step : σ → α → Bool × σ) : ∀ (s : List α) (q : σ) (l : List α), after (recorded step) (q, l) s = (after step q s, l ++ s) := by
  intro s
  induction s with
  | nil => intro q l; simp [after]
  | cons c s ih => intro q l; simp only [after, recorded]; rw [ih]; simp

/-! ## Safety -/

/-- Tokens that lie in order, one behind the other, and end no later than `lim`. -/
def InOrder (out : List (Nat × Nat)) (lim : Nat) : Prop := out.Pairwise (fun t u => t.2 ≤ u.1) ∧ ∀ t ∈ out, t.1 ≤ t.2 ∧ t.2 ≤ lim

theorem InOrder.nil (lim : Nat) : InOrder [] lim := ⟨List.Pairwise.nil, by simp⟩

theorem InOrder.mono {out : List (Nat × Nat)} {a b : Nat} (h : InOrder out a) (hab : a ≤ b) : InOrder out b := ⟨h.1, fun t ht => ⟨(h.2 t ht).1, Nat.le_trans (h.2 t ht).2 hab⟩⟩

theorem InOrder.snoc {out : List (Nat × Nat)} {a b : Nat} (h : InOrder out a) (hab : a ≤ b) : InOrder (out ++ [(a, b)]) b := by
  refine ⟨List.pairwise_append.mpr ⟨h.1, by simp, ?_⟩, ?_⟩
  · intro t ht u hu
    simp at hu
    subst hu
    exact (h.2 t ht).2
  · intro t ht
    rcases List.mem_append.mp ht with h1 | h1
    · exact ⟨(h.2 t h1).1, Nat.le_trans (h.2 t h1).2 hab⟩
    · simp at h1; subst h1; exact ⟨hab, Nat.le_refl _⟩

/-- A run that touches nothing outside the text, ends under `t`, and has its tokens in order. -/
def Fine (len : Nat) (t : Prop) (r : Outcome (Res σ)) : Prop := r ≠ ub ∧ (t → r ≠ diverge) ∧ r ≠ thrown ∧ ∀ o x, r = ok (o, x) → InOrder o len

theorem Fine.ok {len : Nat} {t : Prop} {out : List (Nat × Nat)} {x : Option (Nat × σ)} (h : InOrder out len) : Fine len t (ok (out, x)) :=
  ⟨by simp, by simp, by simp, fun o y hy => by cases hy; exact h⟩

theorem Fine.emit {len : Nat} {t : Prop} {put : Put} {out : List (Nat × Nat)} {u : Nat × Nat} {k : List (Nat × Nat) → Outcome (Res σ)} (h : InOrder out len)
    (hk : Fine len t (k (out ++ [u]))) : Fine len t (emit put out u k) := by
  unfold Split.emit
  split
  · exact hk
  · exact Fine.ok h

theorem Fine.asked {len : Nat} {t : Prop} {ask : Ask σ α} {q : σ} {c : α} {out : List (Nat × Nat)} {k : Bool → σ → Outcome (Res σ)} (h : InOrder out len)
    (hk : ∀ b q, Fine len t (k b q)) : Fine len t (asked ask q c (out, none) k) := by
  unfold Split.asked
  split
  · exact Fine.ok h
  · exact hk _ _

theorem Fine.imp {len : Nat} {t t' : Prop} {r : Outcome (Res σ)} (h : Fine len t' r) (ht : t → t') : Fine len t r := ⟨h.1, fun x => h.2.1 (ht x), h.2.2⟩

theorem skipRunE_safe (ask : Ask σ α) (s : List α) : ∀ (fuel : Nat) (q : σ) (i : Nat), i ≤ s.length → s.length < fuel + i →
    ∃ r, skipRunE ask s fuel q i = ok r ∧ ∀ j q', r = some (j, q') → i ≤ j ∧ j ≤ s.length := by
  intro fuel
  induction fuel with
  | zero => intro _ i h1 h2; omega
  | succ fuel ih =>
    intro q i h1 h2
    unfold skipRunE
    by_cases hi : i = s.length
    · rw [if_neg (by simp [hi])]
      exact ⟨_, rfl, fun j q' h => by cases h; omega⟩
    · have hlt : i < s.length := by omega
      rw [if_pos hi, deref_eq_ok hlt, ok_bind]
      unfold asked
      split
      · exact ⟨_, rfl, fun j q' h => by cases h⟩
      · simp only
        split
        · obtain ⟨r, g1, g2⟩ := ih _ (i + 1) (by omega) (by omega)
          exact ⟨r, g1, fun j q' h => by have := g2 j q' h; omega⟩
        · exact ⟨_, rfl, fun j q' h => by cases h; omega⟩

theorem skipIf_safe (skip : Bool) (ask : Ask σ α) (s : List α) (q : σ) (i : Nat) (hi : i ≤ s.length) :
    ∃ r, skipIf skip ask s q i = ok r ∧ ∀ j q', r = some (j, q') → i ≤ j ∧ j ≤ s.length := by
  unfold skipIf
  split
  · exact skipRunE_safe ask s _ q i hi (by omega)
  · exact ⟨_, rfl, fun j q' h => by cases h; omega⟩

theorem Fine.run {len : Nat} {t : Prop} {out : List (Nat × Nat)} {i : Nat} {r : Outcome (Option (Nat × σ))} {k : Nat → σ → Outcome (Res σ)} (ho : InOrder out len)
    (hr : ∃ x, r = Outcome.ok x ∧ ∀ j q, x = some (j, q) → i ≤ j ∧ j ≤ len) (hk : ∀ j q, i ≤ j → j ≤ len → Fine len t (k j q)) :
    Fine len t (r >>= fun x => andThen out x k) := by
  obtain ⟨x, rfl, hx⟩ := hr
  rw [ok_bind]
  cases x with
  | none => exact Fine.ok ho
  | some p => exact hk p.1 p.2 (hx p.1 p.2 rfl).1 (hx p.1 p.2 rfl).2

theorem finishE_fine {t : Prop} (ask : Ask σ α) (put : Put) (s : List α) (hs : s ≠ []) (q : σ) (first : Nat) (out : List (Nat × Nat)) (count : Nat)
    (h1 : first ≤ s.length) (ho : InOrder out first) : Fine s.length t (finishE ask put s q first s.length out count) := by
  have hl : 0 < s.length := List.length_pos_iff.mpr hs
  unfold finishE
  split
  · exact Fine.emit (ho.mono h1) (Fine.ok (ho.snoc h1))
  · rw [if_neg (by omega), deref_eq_ok (show s.length - 1 < s.length by omega), ok_bind]
    apply Fine.asked (ho.mono h1)
    intro b q
    split
    · exact Fine.emit (ho.mono h1) (Fine.ok (ho.snoc h1))
    · exact Fine.ok (ho.mono h1)

theorem compressLoopE_fine (ask : Ask σ α) (put : Put) (s : List α) (hs : s ≠ []) : ∀ (fuel : Nat) (q : σ) (first second : Nat) (out : List (Nat × Nat)) (count : Nat),
    first ≤ second → second ≤ s.length → InOrder out first → Fine s.length (s.length < fuel + second) (compressLoopE ask put s fuel q first second out count) := by
  intro fuel
  induction fuel with
  | zero => intro q first second out count h1 h2 ho; exact ⟨by simp [compressLoopE], by intro h; omega, by simp [compressLoopE], by simp [compressLoopE]⟩
  | succ fuel ih =>
    intro q first second out count h1 h2 ho
    unfold compressLoopE
    by_cases hi : second = s.length
    · rw [if_neg (by simp [hi])]
      subst hi
      exact finishE_fine ask put s hs q first out count h1 ho
    · have hlt : second < s.length := by omega
      rw [if_pos hi, deref_eq_ok hlt, ok_bind]
      apply Fine.asked (ho.mono (by omega))
      intro b q
      split
      · apply Fine.emit (ho.mono (by omega))
        have ho' := ho.snoc h1
        apply Fine.run (ho'.mono h2) (skipRunE_safe ask s _ q (second + 1) (by omega) (by omega))
        intro j q h3 h4
        refine (ih q j _ _ _ ?_ ?_ (ho'.mono (by omega))).imp ?_
        · split <;> omega
        · split <;> omega
        · intro _; split <;> omega
      · exact (ih q first (second + 1) out count (by omega) (by omega) ho).imp (by omega)

theorem splitLoopE_fine (compress incl1 inclAll : Bool) (ask : Ask σ α) (put : Put) (s : List α) (hs : s ≠ []) :
    ∀ (fuel : Nat) (q : σ) (first second : Nat) (out : List (Nat × Nat)) (count : Nat), first ≤ second → second ≤ s.length → InOrder out first →
    Fine s.length ((incl1 = true ∨ inclAll = false) ∧ s.length < fuel + second) (splitLoopE compress incl1 inclAll ask put s fuel q first second out count) := by
  intro fuel
  induction fuel with
  | zero => intro q first second out count h1 h2 ho; exact ⟨by simp [splitLoopE], by intro h; omega, by simp [splitLoopE], by simp [splitLoopE]⟩
  | succ fuel ih =>
    intro q first second out count h1 h2 ho
    unfold splitLoopE
    by_cases hi : second = s.length
    · rw [if_neg (by simp [hi])]
      subst hi
      exact finishE_fine ask put s hs q first out count h1 ho
    · have hlt : second < s.length := by omega
      rw [if_pos hi, deref_eq_ok hlt, ok_bind]
      apply Fine.asked (ho.mono (by omega))
      intro b q
      split
      · split
        · rename_i hinc
          apply Fine.run (i := if incl1 then second + 1 else second) (ho.mono (by omega))
          · split
            · exact ⟨_, rfl, fun j q h => by cases h; omega⟩
            · exact skipIf_safe _ _ _ _ _ h2
          · intro j q h3 h4
            have h5 : second ≤ j := by split at h3 <;> omega
            have h6 : incl1 = true → second + 1 ≤ j := by intro h; rw [if_pos h] at h3; exact h3
            apply Fine.emit (ho.mono (by omega))
            have ho' := ho.snoc (show first ≤ j by omega)
            apply Fine.run (ho'.mono h4) (skipIf_safe _ _ _ _ _ h4)
            intro k q h7 h8
            refine (ih q k k _ _ (Nat.le_refl _) h8 (ho'.mono h7)).imp ?_
            rintro ⟨h9, h10⟩
            refine ⟨h9, ?_⟩
            have : incl1 = true := by
              rcases h9 with h | h
              · exact h
              · simpa [h] using hinc
            have := h6 this
            omega
        · apply Fine.emit (ho.mono (by omega))
          refine (ih q _ _ _ _ (Nat.le_refl _) (by omega) ((ho.snoc h1).mono (by omega))).imp ?_
          rintro ⟨h9, h10⟩
          exact ⟨h9, by omega⟩
      · refine (ih q first (second + 1) out count (by omega) (by omega) ho).imp ?_
        rintro ⟨h9, h10⟩
        exact ⟨h9, by omega⟩

theorem splitNLoopE_fine (compress incl : Bool) (ask : Ask σ α) (put : Put) (s : List α) (hs : s ≠ []) (n : Nat) :
    ∀ (fuel : Nat) (q : σ) (first second : Nat) (out : List (Nat × Nat)) (count : Nat), first ≤ second → second ≤ s.length → InOrder out first →
    Fine s.length (s.length < fuel + second) (splitNLoopE compress incl ask put s n fuel q first second out count) := by
  intro fuel
  induction fuel with
  | zero => intro q first second out count h1 h2 ho; exact ⟨by simp [splitNLoopE], by intro h; omega, by simp [splitNLoopE], by simp [splitNLoopE]⟩
  | succ fuel ih =>
    intro q first second out count h1 h2 ho
    unfold splitNLoopE
    by_cases hi : second = s.length
    · rw [if_neg (by simp [hi])]
      subst hi
      exact finishE_fine ask put s hs q first out count h1 ho
    · have hlt : second < s.length := by omega
      rw [if_pos hi, deref_eq_ok hlt, ok_bind]
      apply Fine.asked (ho.mono (by omega))
      intro b q
      split
      · apply Fine.emit (ho.mono (by omega))
        have ho' : InOrder (out ++ [(first, if incl = true then second + 1 else second)]) (second + 1) :=
          (ho.snoc (show first ≤ (if incl = true then second + 1 else second) by split <;> omega)).mono (by split <;> omega)
        split
        · exact Fine.ok (ho'.mono (by omega))
        · apply Fine.run (ho'.mono (by omega)) (skipIf_safe _ _ _ _ (second + 1) (by omega))
          intro j q h3 h4
          exact (ih q j j _ _ (Nat.le_refl _) h4 (ho'.mono h3)).imp (by omega)
      · exact (ih q first (second + 1) out count (by omega) (by omega) ho).imp (by omega)

/-! ## A predicate that throws at one question -/

theorem skipRun_some (d : α → Bool) (s : List α) : ∀ fuel i, s.length < fuel + i → i ≤ s.length → ∃ j, i ≤ j ∧ j ≤ s.length ∧ skipRun d s fuel i = ok j := by
  intro fuel
  induction fuel with
  | zero => intro i h1 h2; omega
  | succ fuel ih =>
    intro i h1 h2
    unfold skipRun
    by_cases hi : i = s.length
    · exact ⟨i, Nat.le_refl _, h2, by rw [if_neg (by simp [hi])]⟩
    · rw [if_pos hi, deref_eq_ok (show i < s.length by omega), ok_bind]
      split
      · obtain ⟨j, a, b, c⟩ := ih (i + 1) (by omega) (by omega)
        exact ⟨j, by omega, b, c⟩
      · exact ⟨i, Nat.le_refl _, h2, rfl⟩

theorem skipRunE_throws (m : Nat) (d : α → Bool) (s : List α) (hm : m < s.length) : ∀ (fuel fuel' i : Nat), i ≤ m → s.length < fuel + i → s.length < fuel' + i →
    ∃ j, i ≤ j ∧ j ≤ s.length ∧ skipRun d s fuel i = ok j ∧ skipRunE (throwsAt m d) s fuel' i i = if j < m then ok (some (j, j + 1)) else ok none := by
  intro fuel
  induction fuel with
  | zero => intro _ i h1 h2; omega
  | succ fuel ih =>
    intro fuel' i h1 h2 h3
    obtain ⟨f, rfl⟩ : ∃ f, fuel' = f + 1 := ⟨fuel' - 1, by omega⟩
    have hlt : i < s.length := by omega
    by_cases him : i = m
    · obtain ⟨j, g1, g2, g3⟩ : ∃ j, i ≤ j ∧ j ≤ s.length ∧ skipRun d s (fuel + 1) i = ok j := by
        exact skipRun_some d s _ _ h2 (by omega)
      refine ⟨j, g1, g2, g3, ?_⟩
      rw [if_neg (by omega)]
      unfold skipRunE
      rw [if_pos (by omega), deref_eq_ok hlt, ok_bind]
      simp [asked, throwsAt, him]
    · unfold skipRun skipRunE
      rw [if_pos (by omega), if_pos (by omega), deref_eq_ok hlt, ok_bind, ok_bind]
      simp only [asked, throwsAt, if_neg him]
      split
      · obtain ⟨j, a, b, c, e⟩ := ih f (i + 1) (by omega) (by omega) (by omega)
        exact ⟨j, by omega, b, c, e⟩
      · exact ⟨i, Nat.le_refl _, by omega, rfl, by rw [if_pos (by omega)]⟩

/-- What the plain loop adds lies behind its cursor. -/
theorem splitLoop_tail (incl1 : Bool) (d : α → Bool) (s : List α) (hs : s ≠ []) : ∀ (fuel first second : Nat) (out : List (Nat × Nat)) (count : Nat),
    first ≤ second → second ≤ s.length → s.length < fuel + second →
    ∃ ts, splitLoop false incl1 false d s fuel first second out count = ok (out ++ ts, count + ts.length) ∧
      ∀ t ∈ ts, second + (if incl1 then 1 else 0) ≤ t.2 ∨ t.2 = s.length := by
  have hl : 0 < s.length := List.length_pos_iff.mpr hs
  intro fuel
  induction fuel with
  | zero => intro _ _ _ _ h1 h2 h3; omega
  | succ fuel ih =>
    intro first second out count h1 h2 h3
    unfold splitLoop
    by_cases hi : second = s.length
    · rw [if_neg (by simp [hi])]
      subst hi
      unfold finish
      split
      · exact ⟨[(first, s.length)], by simp, by simp⟩
      · rw [if_neg (by omega), deref_eq_ok (show s.length - 1 < s.length by omega), ok_bind]
        split
        · exact ⟨[(first, s.length)], by simp, by simp⟩
        · exact ⟨[], by simp, by simp⟩
    · have hlt : second < s.length := by omega
      rw [if_pos hi, deref_eq_ok hlt, ok_bind]
      split
      · cases incl1 with
        | true =>
          simp only [Bool.or_false, if_true, Bool.not_false, Bool.and_false, Bool.false_eq_true, if_false, ok_bind]
          obtain ⟨ts, g1, g2⟩ := ih (second + 1) (second + 1) (out ++ [(first, second + 1)]) (count + 1) (Nat.le_refl _) (by omega) (by omega)
          refine ⟨(first, second + 1) :: ts, by rw [g1]; simp; omega, ?_⟩
          intro t ht
          rcases List.mem_cons.mp ht with rfl | ht
          · left; simp
          · have := g2 t ht; simp only [if_true] at this; omega
        | false =>
          simp only [Bool.or_false, Bool.false_eq_true, if_false]
          obtain ⟨ts, g1, g2⟩ := ih (second + 1) (second + 1) (out ++ [(first, second)]) (count + 1) (Nat.le_refl _) (by omega) (by omega)
          refine ⟨(first, second) :: ts, by rw [g1]; simp; omega, ?_⟩
          intro t ht
          rcases List.mem_cons.mp ht with rfl | ht
          · left; simp
          · have := g2 t ht; simp only [Bool.false_eq_true, if_false] at this; omega
      · obtain ⟨ts, g1, g2⟩ := ih first (second + 1) out count (by omega) (by omega) (by omega)
        refine ⟨ts, g1, fun t ht => ?_⟩
        have := g2 t ht
        omega

theorem compressLoop_tail (d : α → Bool) (s : List α) (hs : s ≠ []) : ∀ (fuel first second : Nat) (out : List (Nat × Nat)) (count : Nat),
    first ≤ second → second ≤ s.length → s.length < fuel + second →
    ∃ ts, compressLoop d s fuel first second out count = ok (out ++ ts, count + ts.length) ∧ ∀ t ∈ ts, second ≤ t.2 := by
  have hl : 0 < s.length := List.length_pos_iff.mpr hs
  intro fuel
  induction fuel with
  | zero => intro _ _ _ _ h1 h2 h3; omega
  | succ fuel ih =>
    intro first second out count h1 h2 h3
    unfold compressLoop
    by_cases hi : second = s.length
    · rw [if_neg (by simp [hi])]
      subst hi
      unfold finish
      split
      · exact ⟨[(first, s.length)], by simp, by simp⟩
      · rw [if_neg (by omega), deref_eq_ok (show s.length - 1 < s.length by omega), ok_bind]
        split
        · exact ⟨[(first, s.length)], by simp, by simp⟩
        · exact ⟨[], by simp, by simp⟩
    · have hlt : second < s.length := by omega
      rw [if_pos hi, deref_eq_ok hlt, ok_bind]
      split
      · obtain ⟨j, a, b, c⟩ := skipRun_some d s (s.length + 1) (second + 1) (by omega) (by omega)
        simp only [c, ok_bind]
        obtain ⟨ts, g1, g2⟩ := ih j (if j ≠ s.length then j + 1 else j) (out ++ [(first, second)]) (count + 1) (by split <;> omega) (by split <;> omega) (by split <;> omega)
        refine ⟨(first, second) :: ts, by rw [g1]; simp; omega, ?_⟩
        intro t ht
        rcases List.mem_cons.mp ht with rfl | ht
        · exact Nat.le_refl _
        · have := g2 t ht
          split at this <;> omega
      · obtain ⟨ts, g1, g2⟩ := ih first (second + 1) out count (by omega) (by omega) (by omega)
        refine ⟨ts, g1, fun t ht => ?_⟩
        have := g2 t ht
        omega

theorem filter_none {l : List (Nat × Nat)} {m : Nat} (h : ∀ t ∈ l, m ≤ t.2) : l.filter (fun t => t.2 < m) = [] := by
  rw [List.filter_eq_nil_iff]
  intro t ht
  have := h t ht
  simp only [decide_eq_true_eq]
  omega

theorem splitLoopE_throws (incl1 : Bool) (m : Nat) (d : α → Bool) (s : List α) (hm : m < s.length) : ∀ (fuel fuel' first second : Nat) (out : List (Nat × Nat)) (count : Nat),
    first ≤ second → second ≤ m → s.length < fuel + second → s.length < fuel' + second →
    ∃ ts, splitLoop false incl1 false d s fuel first second out count = ok (out ++ ts, count + ts.length) ∧
      splitLoopE false incl1 false (throwsAt m d) always s fuel' second first second out count = ok (out ++ ts.filter (fun t => t.2 < m + (if incl1 then 1 else 0)), none) := by
  have hs : s ≠ [] := by intro h; simp [h] at hm
  intro fuel
  induction fuel with
  | zero => intro _ _ _ _ _ h1 h2 h3; omega
  | succ fuel ih =>
    intro fuel' first second out count h1 h2 h3 h4
    obtain ⟨f, rfl⟩ : ∃ f, fuel' = f + 1 := ⟨fuel' - 1, by omega⟩
    have hlt : second < s.length := by omega
    by_cases him : second = m
    · obtain ⟨ts, g1, g2⟩ := splitLoop_tail incl1 d s hs (fuel + 1) first second out count h1 (by omega) h3
      refine ⟨ts, g1, ?_⟩
      rw [filter_none (fun t ht => by have := g2 t ht; split at this <;> split <;> first | contradiction | omega)]
      unfold splitLoopE
      rw [if_pos (by omega), deref_eq_ok hlt, ok_bind]
      simp [asked, throwsAt, him]
    · unfold splitLoop splitLoopE
      rw [if_pos (show second ≠ s.length by omega), if_pos (show second ≠ s.length by omega), deref_eq_ok hlt, ok_bind, ok_bind]
      simp only [asked, throwsAt, if_neg him]
      split
      · cases incl1 with
        | true =>
          simp only [Bool.or_false, if_true, Bool.not_false, Bool.and_false, Bool.false_eq_true, if_false, ok_bind, andThen, emit, always, skipIf]
          obtain ⟨ts, g1, g2⟩ := ih f (second + 1) (second + 1) (out ++ [(first, second + 1)]) (count + 1) (Nat.le_refl _) (by omega) (by omega) (by omega)
          refine ⟨(first, second + 1) :: ts, by rw [g1]; simp; omega, ?_⟩
          refine g2.trans ?_
          rw [List.filter_cons_of_pos (by simp; omega)]
          simp
        | false =>
          simp only [Bool.or_false, Bool.false_eq_true, if_false, emit, always, if_true]
          obtain ⟨ts, g1, g2⟩ := ih f (second + 1) (second + 1) (out ++ [(first, second)]) (count + 1) (Nat.le_refl _) (by omega) (by omega) (by omega)
          refine ⟨(first, second) :: ts, by rw [g1]; simp; omega, ?_⟩
          refine g2.trans ?_
          rw [List.filter_cons_of_pos (by simp; omega)]
          simp
      · exact ih f first (second + 1) out count (by omega) (by omega) (by omega) (by omega)

theorem compressLoopE_throws (m : Nat) (d : α → Bool) (s : List α) (hm : m < s.length) : ∀ (fuel fuel' first second : Nat) (out : List (Nat × Nat)) (count : Nat),
    first ≤ second → second ≤ m → s.length < fuel + second → s.length < fuel' + second →
    ∃ ts, compressLoop d s fuel first second out count = ok (out ++ ts, count + ts.length) ∧
      compressLoopE (throwsAt m d) always s fuel' second first second out count = ok (out ++ ts.filter (fun t => t.2 < m), none) := by
  have hs : s ≠ [] := by intro h; simp [h] at hm
  intro fuel
  induction fuel with
  | zero => intro _ _ _ _ _ h1 h2 h3; omega
  | succ fuel ih =>
    intro fuel' first second out count h1 h2 h3 h4
    obtain ⟨f, rfl⟩ : ∃ f, fuel' = f + 1 := ⟨fuel' - 1, by omega⟩
    have hlt : second < s.length := by omega
    by_cases him : second = m
    · obtain ⟨ts, g1, g2⟩ := compressLoop_tail d s hs (fuel + 1) first second out count h1 (by omega) h3
      refine ⟨ts, g1, ?_⟩
      rw [filter_none (fun t ht => by have := g2 t ht; omega)]
      unfold compressLoopE
      rw [if_pos (by omega), deref_eq_ok hlt, ok_bind]
      simp [asked, throwsAt, him]
    · unfold compressLoop compressLoopE
      rw [if_pos (show second ≠ s.length by omega), if_pos (show second ≠ s.length by omega), deref_eq_ok hlt, ok_bind, ok_bind]
      simp only [asked, throwsAt, if_neg him]
      split
      · obtain ⟨j, a, b, c, e⟩ := skipRunE_throws m d s hm (s.length + 1) (s.length + 1) (second + 1) (by omega) (by omega) (by omega)
        simp only [emit, always, if_true]
        rw [c, e]
        simp only [ok_bind]
        by_cases hj : j < m
        · rw [if_pos hj]
          simp only [ok_bind, andThen]
          rw [if_pos (by omega)]
          obtain ⟨ts, g1, g2⟩ := ih f j (j + 1) (out ++ [(first, second)]) (count + 1) (by omega) (by omega) (by omega) (by omega)
          refine ⟨(first, second) :: ts, by rw [g1]; simp; omega, ?_⟩
          refine g2.trans ?_
          rw [List.filter_cons_of_pos (by simp; omega)]
          simp
        · rw [if_neg hj]
          simp only [ok_bind, andThen]
          obtain ⟨ts, g1, g2⟩ := compressLoop_tail d s hs fuel j (if j ≠ s.length then j + 1 else j) (out ++ [(first, second)]) (count + 1)
            (by split <;> omega) (by split <;> omega) (by split <;> omega)
          refine ⟨(first, second) :: ts, by rw [g1]; simp; omega, ?_⟩
          rw [List.filter_cons_of_pos (by simp; omega), filter_none (fun t ht => by have := g2 t ht; split at this <;> omega)]
      · exact ih f first (second + 1) out count (by omega) (by omega) (by omega) (by omega)

/-! ## C172 -/

/-- C172: a predicate without state, and an output that may throw.  Either every token is accepted, and all is as with an ordinary output, or the output has exactly the tokens
before the first that it refused. -/
theorem C172_output_throws (opt : Opt) (d : α → Bool) (put : Put) (q : σ) (s : List α) (ts : List (Nat × Nat)) (n : Nat) (h : split opt d s = ok (ts, n)) :
    ((∀ j t, ts[j]? = some t → put (ts.take j) t = true) ∧ splitE (s.length + 1) opt (plain d) put q s = ok (ts, some (n, q))) ∨
    ∃ k t, ts[k]? = some t ∧ put (ts.take k) t = false ∧ (∀ j u, j < k → ts[j]? = some u → put (ts.take j) u = true) ∧
      splitE (s.length + 1) opt (plain d) put q s = ok (ts.take k, none) := by
  rw [splitE_plain opt d put q s ts n h]
  rcases offer_spec put n q ts [] with ⟨h1, h2⟩ | ⟨k, t, h1, h2, h3, h4⟩
  · left; exact ⟨by simpa using h1, by rw [h2]; simp⟩
  · right; exact ⟨k, t, h1, by simpa using h2, by simpa using h3, by rw [h4]; simp⟩

/-- The same for `split_n`. -/
theorem C172_output_throws_n (opt : Opt) (d : α → Bool) (put : Put) (q : σ) (s : List α) (m : Nat) (ts : List (Nat × Nat)) (n : Nat) (h : splitN opt d s m = ok (ts, n)) :
    ((∀ j t, ts[j]? = some t → put (ts.take j) t = true) ∧ splitNE opt (plain d) put q s m = ok (ts, some (n, q))) ∨
    ∃ k t, ts[k]? = some t ∧ put (ts.take k) t = false ∧ (∀ j u, j < k → ts[j]? = some u → put (ts.take j) u = true) ∧
      splitNE opt (plain d) put q s m = ok (ts.take k, none) := by
  rw [splitNE_plain opt d put q s m ts n h]
  rcases offer_spec put n q ts [] with ⟨h1, h2⟩ | ⟨k, t, h1, h2, h3, h4⟩
  · left; exact ⟨by simpa using h1, by rw [h2]; simp⟩
  · right; exact ⟨k, t, h1, by simpa using h2, by simpa using h3, by rw [h4]; simp⟩

example : split {} (· == ',') "a,bc,d".toList = ok ([(0, 1), (2, 4), (5, 6)], 3) ∧
    splitE 7 {} (plain (· == ',')) (fun out _ => decide (out.length < 2)) () "a,bc,d".toList = ok ([(0, 1), (2, 4)], none) := ⟨by rfl, by rfl⟩

example : splitN {} (· == ',') "a,bc,d".toList 2 = ok ([(0, 1), (2, 4)], 2) ∧
    splitNE {} (plain (· == ',')) (fun out _ => decide (out.length < 1)) () "a,bc,d".toList 2 = ok ([(0, 1)], none) := ⟨by rfl, by rfl⟩

/-- C172: whatever the predicate and the output do, a caller that throws earlier changes nothing else: if nothing is thrown the call is the same, and otherwise the output has
a prefix of what it would have. -/
theorem C172_prefix {ask ask' : Ask σ α} {put put' : Put} (he : Earlier ask ask' put put') (fuel : Nat) (opt : Opt) (q : σ) (s : List α) (o : List (Nat × Nat))
    (x : Option (Nat × σ)) (h : splitE fuel opt ask put q s = ok (o, x)) :
    (∀ y, x = some y → splitE fuel opt ask' put' q s = ok (o, some y)) ∧ ∀ o' x', splitE fuel opt ask' put' q s = ok (o', x') → o <+: o' := by
  revert o x
  show Before (splitE fuel opt ask put q s) (splitE fuel opt ask' put' q s)
  unfold splitE
  refine Before.ite (Before.refl _) ?_
  refine Before.ite ?_ ?_
  · exact compressLoopE_before he s _ _ _ _ _ _
  · exact splitLoopE_before he _ _ _ s _ _ _ _ _ _

/-- The same for `split_n`. -/
theorem C172_prefix_n {ask ask' : Ask σ α} {put put' : Put} (he : Earlier ask ask' put put') (opt : Opt) (q : σ) (s : List α) (n : Nat) (o : List (Nat × Nat))
    (x : Option (Nat × σ)) (h : splitNE opt ask put q s n = ok (o, x)) :
    (∀ y, x = some y → splitNE opt ask' put' q s n = ok (o, some y)) ∧ ∀ o' x', splitNE opt ask' put' q s n = ok (o', x') → o <+: o' := by
  revert o x
  show Before (splitNE opt ask put q s n) (splitNE opt ask' put' q s n)
  unfold splitNE
  exact Before.ite (Before.refl _) (Before.ite (Before.refl _) (splitNLoopE_before he _ _ s _ _ _ _ _ _ _))

example : Earlier (throwsAt 3 (· == ',')) (never fun i c => (c == ',', i + 1)) always always ∧
    splitE 7 {} (throwsAt 3 (· == ',')) always 0 "a,bc,d".toList = ok ([(0, 1)], none) := by
  refine ⟨⟨?_, fun _ _ h => h⟩, by rfl⟩
  intro q c r h
  unfold throwsAt at h
  split at h
  · cases h
  · exact h

/-- C172: a predicate that throws at its question number `m`, with the options under which every character is asked about once: the output has the tokens that end before
position `m` of the text (a token that holds its delimiter, before `m + 1`). -/
theorem C172_throws_at (opt : Opt) (ho : opt.Once) (d : α → Bool) (s : List α) (m : Nat) (hm : m < s.length) (fuel : Nat) (hf : s.length < fuel) :
    ∃ ts, split opt d s = ok (ts, ts.length) ∧
      splitE fuel opt (throwsAt m d) always 0 s = ok (ts.filter (fun t => t.2 < m + if opt.first then 1 else 0), none) := by
  have h0 : s.length ≠ 0 := by omega
  unfold split splitE
  rw [if_neg h0, if_neg h0]
  rcases ho with ⟨h1, h2⟩ | ⟨h1, h2⟩
  · simp only [h1, h2, Bool.false_and, Bool.not_true, Bool.false_eq_true, if_false]
    obtain ⟨ts, g1, g2⟩ := splitLoopE_throws true m d s hm (s.length + 1) fuel 0 0 [] 0 (by omega) (by omega) (by omega) (by omega)
    exact ⟨ts, by simpa using g1, by simpa using g2⟩
  · simp only [h1, h2, Bool.not_false, Bool.and_false, Bool.or_false, Bool.and_true]
    cases hc : opt.compress with
    | true =>
      obtain ⟨ts, g1, g2⟩ := compressLoopE_throws m d s hm (s.length + 1) fuel 0 0 [] 0 (by omega) (by omega) (by omega) (by omega)
      exact ⟨ts, by simpa [splitCompress] using g1, by simpa using g2⟩
    | false =>
      obtain ⟨ts, g1, g2⟩ := splitLoopE_throws false m d s hm (s.length + 1) fuel 0 0 [] 0 (by omega) (by omega) (by omega) (by omega)
      exact ⟨ts, by simpa using g1, by simpa using g2⟩

example : ({} : Opt).Once ∧ splitE 7 {} (throwsAt 5 (· == ',')) always 0 "a,bc,d".toList = ok ([(0, 1), (2, 4)], none) ∧
    splitE 7 {} (throwsAt 4 (· == ',')) always 0 "a,bc,d".toList = ok ([(0, 1)], none) ∧
    splitE 7 { first := true } (throwsAt 2 (· == ',')) always 0 "a,bc,d".toList = ok ([(0, 2)], none) := ⟨Or.inr ⟨rfl, rfl⟩, by rfl, by rfl, by rfl⟩

/-- C172: a predicate that remembers, with the options under which every character is asked about once: the tokens are those of the text with the answers written beside the
characters, except that a last character answered yes is asked about once more, and its empty token dropped if the answer is now no. -/
theorem C172_remembers (opt : Opt) (ho : opt.Once) (step : σ → α → Bool × σ) (q : σ) (s : List α) (fuel : Nat) (hf : s.length < fuel) :
    ∃ ts, split opt Prod.snd (ann step q s) = ok (ts, ts.length) ∧
      ((∀ c, (ann step q s).getLast? ≠ some (c, true)) → splitE fuel opt (never step) always q s = ok (ts, some (ts.length, after step q s))) ∧
      ∀ c, (ann step q s).getLast? = some (c, true) → ∀ b q', step (after step q s) c = (b, q') →
        splitE fuel opt (never step) always q s = if b then ok (ts, some (ts.length, q')) else ok (ts.dropLast, some (ts.length - 1, q')) := by
  obtain ⟨ts, h1, h2⟩ := splitE_never opt ho step q s fuel hf
  refine ⟨ts, h1, ?_, ?_⟩
  · intro h
    rw [h2]
    unfold askAgain
    split
    · rename_i c hc; exact absurd hc (h c)
    · rfl
  · intro c hc b q' hq
    rw [h2, hc]
    simp only [askAgain, hq]
    cases b <;> rfl

/-- A predicate that takes a comma for a delimiter only the first `q` times. -/
def firstCommas : Nat → Char → Bool × Nat := fun q c => if c == ',' && q != 0 then (true, q - 1) else (false, q)

example : splitE 7 {} (never firstCommas) always 1 "a,bc,d".toList = ok ([(0, 1), (2, 6)], some (2, 0)) ∧
    splitE 5 {} (never firstCommas) always 2 "a,b,".toList = ok ([(0, 1), (2, 3)], some (2, 0)) ∧
    splitE 5 {} (never firstCommas) always 3 "a,b,".toList = ok ([(0, 1), (2, 3), (4, 4)], some (3, 0)) := ⟨by rfl, by rfl, by rfl⟩

/-- C172: under those options the predicate is asked about the characters of the text, each once and in order, and then perhaps about the last again. -/
theorem C172_questions (opt : Opt) (ho : opt.Once) (step : σ → α → Bool × σ) (q : σ) (s : List α) (fuel : Nat) (hf : s.length < fuel) :
    ∃ ts n q' l, splitE fuel opt (never (recorded step)) always (q, []) s = ok (ts, some (n, q', l)) ∧
      (l = s ∨ ∃ c, s.getLast? = some c ∧ l = s ++ [c]) := by
  obtain ⟨ts, h1, h2, h3⟩ := C172_remembers opt ho (recorded step) (q, []) s fuel hf
  have hafter := after_recorded step s q []
  rw [List.nil_append] at hafter
  rw [hafter] at h2 h3
  by_cases hc : ∃ c, (ann (recorded step) (q, []) s).getLast? = some (c, true)
  · obtain ⟨c, hc⟩ := hc
    have hl : s.getLast? = some c := by
      have := congrArg (Option.map Prod.fst) hc
      rw [← List.getLast?_map, ann_fst] at this
      simpa using this
    have := h3 c hc _ _ rfl
    simp only at this
    split at this
    · exact ⟨_, _, _, _, this, Or.inr ⟨c, hl, rfl⟩⟩
    · exact ⟨_, _, _, _, this, Or.inr ⟨c, hl, rfl⟩⟩
  · exact ⟨_, _, _, _, h2 (fun c hc' => hc ⟨c, hc'⟩), Or.inl rfl⟩

example : splitE 7 { compress := true } (never (recorded firstCommas)) always (5, []) "a,,bc,".toList = ok ([(0, 1), (3, 5), (6, 6)], some (3, 1, "a,,bc,,".toList)) := by rfl

/-- C172 fails: with compressed delimiters and the first kept, or with all kept, characters in the middle of the text are asked about twice. -/
theorem C172_asks_twice : splitE 4 { compress := true, first := true } (never (recorded fun (_ : Unit) c => (c == ',', ()))) always ((), []) "a,b".toList =
      ok ([(0, 2), (2, 3)], some (2, (), ['a', ',', 'b', 'b'])) ∧
    splitE 4 { all := true } (never (recorded fun (_ : Unit) c => (c == ',', ()))) always ((), []) "a,b".toList =
      ok ([(0, 2), (2, 3)], some (2, (), ['a', ',', ',', 'b', 'b'])) := ⟨by rfl, by rfl⟩

/-- C172: for every predicate and output, `split` reads nothing outside the text, and its tokens lie in the text in order; unless all delimiters are kept, it returns or throws
what the caller threw. -/
theorem C172_safe (opt : Opt) (ask : Ask σ α) (put : Put) (q : σ) (s : List α) (fuel : Nat) :
    splitE fuel opt ask put q s ≠ ub ∧ (∀ o x, splitE fuel opt ask put q s = ok (o, x) → InOrder o s.length) ∧
    (opt.first = true ∨ opt.all = false → s.length < fuel → ∃ r, splitE fuel opt ask put q s = ok r) := by
  have key : Fine s.length ((opt.first = true ∨ opt.all = false) ∧ s.length < fuel) (splitE fuel opt ask put q s) := by
    unfold splitE
    split
    · exact Fine.ok (InOrder.nil _)
    · rename_i h0
      have hs : s ≠ [] := by intro h; apply h0; simp [h]
      simp only
      split
      · exact (compressLoopE_fine ask put s hs fuel q 0 0 [] 0 (Nat.le_refl _) (by omega) (InOrder.nil _)).imp (fun h => h.2)
      · refine (splitLoopE_fine _ _ _ ask put s hs fuel q 0 0 [] 0 (Nat.le_refl _) (by omega) (InOrder.nil _)).imp (fun h => ⟨?_, h.2⟩)
        rcases h.1 with h | h
        · exact Or.inl h
        · right; simp [h]
  refine ⟨key.1, key.2.2.2, fun h1 h2 => ?_⟩
  have h3 := key.2.1 ⟨h1, h2⟩
  have h4 := key.1
  have h5 := key.2.2.1
  cases h : splitE fuel opt ask put q s with
  | ok r => exact ⟨r, rfl⟩
  | ub => exact absurd h h4
  | diverge => exact absurd h h3
  | thrown => exact absurd h h5

/-- `split_n` always returns or throws what the caller threw. -/
theorem C172_safe_n (opt : Opt) (ask : Ask σ α) (put : Put) (q : σ) (s : List α) (n : Nat) :
    ∃ o x, splitNE opt ask put q s n = ok (o, x) ∧ InOrder o s.length := by
  have key : Fine s.length True (splitNE opt ask put q s n) := by
    unfold splitNE
    split
    · exact Fine.ok (InOrder.nil _)
    · split
      · exact Fine.ok (InOrder.nil _)
      · rename_i h0
        have hs : s ≠ [] := by intro h; apply h0; simp [h]
        exact (splitNLoopE_fine _ _ ask put s hs n _ q 0 0 [] 0 (Nat.le_refl _) (by omega) (InOrder.nil _)).imp (by omega)
  have h3 := key.2.1 trivial
  have h4 := key.1
  have h5 := key.2.2.1
  cases h : splitNE opt ask put q s n with
  | ok r => exact ⟨r.1, r.2, rfl, key.2.2.2 _ _ h⟩
  | ub => exact absurd h h4
  | diverge => exact absurd h h3
  | thrown => exact absurd h h5

example : splitE 4 { first := true } (never fun (q : Bool) (_ : Char) => (q, !q)) always true "abc".toList = ok ([(0, 1), (1, 3)], some (2, true)) ∧
    splitNE {} (throwsAt 2 (· == ',')) always 0 "a,b".toList 5 = ok ([(0, 1)], none) := ⟨by rfl, by rfl⟩

/-- C172 fails: with all delimiters kept, a predicate whose answers alternate keeps `split` at the first character of any text for ever, and the tokens it sends out are without
end. -/
theorem C172_all_delimiters_forever (s : List α) (hs : s ≠ []) (fuel : Nat) : splitE fuel { all := true } (never fun (q : Bool) (_ : α) => (q, !q)) always true s = diverge := by
  have hl : 0 < s.length := List.length_pos_iff.mpr hs
  have key : ∀ fuel out count, splitLoopE false false true (never fun (q : Bool) (_ : α) => (q, !q)) always s fuel true 0 0 out count = diverge := by
    intro fuel
    induction fuel with
    | zero => intro out count; rfl
    | succ fuel ih =>
      intro out count
      unfold splitLoopE
      rw [if_pos (by omega), deref_eq_ok hl, ok_bind]
      have hskip : skipRunE (never fun (q : Bool) (_ : α) => (q, !q)) s (s.length + 1) false 0 = ok (some (0, true)) := by
        unfold skipRunE
        rw [if_pos (by omega), deref_eq_ok hl, ok_bind]
        rfl
      simp only [asked, never, if_true, Bool.false_or, Bool.false_eq_true, if_false, skipIf, Bool.not_true, Bool.and_false] at hskip ⊢
      have hskip' : skipRunE (never fun (q : Bool) (_ : α) => (q, !q)) s (s.length + 1) false 0 = ok (some (0, true)) := hskip
      rw [hskip']
      simp only [ok_bind, andThen, emit, always, if_true]
      exact ih _ _
  unfold splitE
  rw [if_neg (by omega)]
  exact key fuel [] 0

example : splitE 1000 { all := true } (never fun (q : Bool) (_ : Char) => (q, !q)) always true "a".toList = diverge := C172_all_delimiters_forever _ (by simp) _

end Strtk.Split
