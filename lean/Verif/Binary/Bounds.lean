import Verif.Binary.Trip

/-! # Reader and writer stay inside the buffer (C48) -/

namespace Strtk.Binary
open Outcome Mem

/-- A state of a reader or writer over a buffer of `L` bytes whose position is inside the buffer, agrees with the pointer, and so for each mark. -/
def Inside (L : Nat) (st : St) : Prop :=
  st.buf.length = L ∧ st.ptr = st.amount ∧ st.amount ≤ L ∧ ∀ m ∈ st.marks, m.2 = m.1 ∧ m.1 ≤ L

/-- A value can exist: a POD of `n` bytes has `n` bytes. -/
def Exists : (t : Ty) → t.Val → Prop
  | .pod n => fun v : List UInt8 => v.length = n
  | .str => fun _ => True
  | .pstr _ => fun _ => True
  | .pair a b => fun v : a.Val × b.Val => Exists a v.1 ∧ Exists b v.2
  | .seq t => fun v : List t.Val => ∀ x ∈ v, Exists t x
  | .podVec n => fun v : List (List UInt8) => ∀ x ∈ v, x.length = n
  | .objVec t => fun v : List t.Val => ∀ x ∈ v, Exists t x
  | .set n _ => fun v : List (List UInt8) => ∀ x ∈ v, x.length = n

/-- The calls on a reader.  The arrays and pointers (`array`, `ptr`) are given by the sizes. -/
inductive ROp where
  | get (t : Ty) (prior : t.Val)
  | array (raw : Nat)
  | ptr (elem : Nat)
  | field (size : Nat)
  | seek (n : Int)
  | rewind (n : Nat)
  | reset
  | clear
  | mark
  | resetToMark

/-- Arguments a call on a reader may have. -/
def ROp.Allowed (sz : Ty → Nat) : ROp → Prop
  | get t _ => Small sz t
  | array raw => raw < 2 ^ 63
  | ptr elem => elem < 2 ^ 31
  | field size => size < 2 ^ 63
  | seek n => -2 ^ 31 < n ∧ n < 2 ^ 31
  | _ => True

/-- One call on a reader: its result (`true` for the calls without one) and the new state. -/
def ROp.run (sz : Ty → Nat) (ev : Outcome Unit) (st : St) : ROp → Outcome (Bool × St)
  | get t prior => do let (good, _, st) ← read sz ev t prior st; ok (good, st)
  | array raw => do let (r, st) ← readArray raw st; ok (r.isSome, st)
  | ptr elem => do let (r, st) ← readPtr elem st; ok (r.isSome, st)
  | field size => do let (r, st) ← readField size st; ok (r.isSome, st)
  | seek n => Binary.seek n st
  | rewind n => Binary.rewind n st
  | reset => ok (true, Binary.reset false st)
  | clear => ok (true, Binary.reset true st)
  | mark => ok (true, Binary.mark st)
  | resetToMark => ok (Binary.resetToMark st)

/-- The calls on a writer. -/
inductive WOp where
  | put (t : Ty) (v : t.Val)
  | ptr (data : List UInt8) (length elem : Nat) (withLength : Bool)
  | field (text : Option (List UInt8)) (size : Nat) (pmode : Padding) (padding : UInt8)
  | reset
  | clear
  | mark
  | resetToMark

/-- Arguments a call on a writer may have. -/
def WOp.Allowed (sz : Ty → Nat) : WOp → Prop
  | put t v => Small sz t ∧ Exists t v
  | ptr data length elem _ => length < 2 ^ 32 ∧ elem < 2 ^ 31 ∧ length * elem ≤ data.length
  | field text size pmode _ => size < 2 ^ 63 ∧ (pmode = .left ∨ ∀ s, text = some s → s.length = 0 ∨ size ≤ s.length)
  | _ => True

/-- One call on a writer. -/
def WOp.run (sz : Ty → Nat) (ev : Outcome Unit) (st : St) : WOp → Outcome (Bool × St)
  | put t v => write sz ev t v st
  | ptr data length elem withLength => writePtr data length elem withLength st
  | field text size pmode padding => writeField text size pmode padding st
  | reset => ok (true, Binary.reset false st)
  | clear => ok (true, Binary.reset true st)
  | mark => ok (true, Binary.mark st)
  | resetToMark => ok (Binary.resetToMark st)

/-- The results of a history and the state after it; the caller may go on after a failed call. -/
def history {Op : Type} (run : St → Op → Outcome (Bool × St)) : List Op → St → Outcome (List Bool × St)
  | [], st => ok ([], st)
  | o :: os, st => do
    let (good, st) ← run st o
    let (rs, st) ← history run os st
    ok (good :: rs, st)

theorem history_inside {Op : Type} {L : Nat} (run : St → Op → Outcome (Bool × St)) (A : Op → Prop)
    (h : ∀ st o, Inside L st → A o → ∃ b st', run st o = ok (b, st') ∧ Inside L st') :
    ∀ (os : List Op) (st : St), (∀ o ∈ os, A o) → Inside L st → ∃ rs st', history run os st = ok (rs, st') ∧ rs.length = os.length ∧ Inside L st' := by
  intro os
  induction os with
  | nil => intro st _ hi; exact ⟨[], st, rfl, rfl, hi⟩
  | cons o os ih =>
    intro st ha hi
    obtain ⟨b, st1, h1, hi1⟩ := h st o hi (ha o (by simp))
    obtain ⟨rs, st2, h2, hl, hi2⟩ := ih st1 (fun o ho => ha o (by simp [ho])) hi1
    exact ⟨b :: rs, st2, by simp [history, h1, h2], by simp [hl], hi2⟩

/-! ## Reading -/

/-- A read: it ends, inside the same buffer, with the same marks and not before the old position. -/
def RSafe {V : Type} (L : Nat) (st : St) (r : Outcome (Bool × V × St)) : Prop :=
  ∃ b v st', r = ok (b, v, st') ∧ Inside L st' ∧ st'.buf = st.buf ∧ st'.marks = st.marks ∧ st.amount ≤ st'.amount

theorem RSafe.trans {V : Type} {L : Nat} {st st1 : St} {r : Outcome (Bool × V × St)} (h : RSafe L st1 r) (hb : st1.buf = st.buf) (hm : st1.marks = st.marks)
    (ha : st.amount ≤ st1.amount) : RSafe L st r := by
  obtain ⟨b, v, st', h1, h2, h3, h4, h5⟩ := h
  exact ⟨b, v, st', h1, h2, h3.trans hb, h4.trans hm, by omega⟩

theorem RSafe.ret {V : Type} {L : Nat} {st : St} (b : Bool) (v : V) (h : Inside L st) : RSafe L st (ok (b, v, st)) :=
  ⟨b, v, st, rfl, h, rfl, rfl, Nat.le_refl _⟩

theorem slice_ok {α : Type} (b : List α) (o n : Nat) (h : o + n ≤ b.length) : ∃ bs, slice b o n = ok bs ∧ bs.length = n := by
  refine ⟨(b.drop o).take n, by simp [slice, h], ?_⟩
  simp; omega

theorem take_inside {L : Nat} {st : St} (n : Nat) (hi : Inside L st) (h : st.amount + n ≤ L) :
    ∃ bs, takeBytes st n = ok (bs, { st with ptr := st.ptr + n, amount := st.amount + n }) ∧ bs.length = n ∧
      Inside L { st with ptr := st.ptr + n, amount := st.amount + n } := by
  obtain ⟨h1, h2, h3, h4⟩ := hi
  obtain ⟨bs, hb, hl⟩ := slice_ok st.buf st.ptr n (by omega)
  exact ⟨bs, by simp [takeBytes, hb], hl, h1, by simp [h2], h, h4⟩

theorem capacity_iff {L : Nat} {st : St} (n : Nat) (hi : Inside L st) (hL : L < 2 ^ 63) (hn : n < 2 ^ 63) :
    capacityOk st n = true ↔ st.amount + n ≤ L := by
  obtain ⟨h1, h2, h3, h4⟩ := hi
  simp only [capacityOk, decide_eq_true_eq]
  omega

theorem readPod_inside {L : Nat} (hL : L < 2 ^ 63) {st : St} (n : Nat) (hi : Inside L st) (hn : n < 2 ^ 63) :
    (st.amount + n ≤ L ∧ ∃ bs, readPod n st = ok (some bs, { st with ptr := st.ptr + n, amount := st.amount + n }) ∧ bs.length = n ∧
      Inside L { st with ptr := st.ptr + n, amount := st.amount + n }) ∨
    (L < st.amount + n ∧ readPod n st = ok (none, st)) := by
  unfold readPod
  by_cases h : st.amount + n ≤ L
  · left
    obtain ⟨bs, h1, h2, h3⟩ := take_inside n hi h
    exact ⟨h, bs, by rw [if_pos ((capacity_iff n hi hL hn).mpr h), h1, ok_bind], h2, h3⟩
  · right
    exact ⟨by omega, if_neg (fun hc => h ((capacity_iff n hi hL hn).mp hc))⟩

theorem leNat_lt : ∀ (bs : List UInt8), leNat bs < 256 ^ bs.length := by
  intro bs
  induction bs with
  | nil => simp [leNat]
  | cons b bs ih =>
    have := b.toNat_lt
    rw [leNat, List.length_cons, Nat.pow_succ]
    omega

/-- The common shape: a prefix of `k` bytes, then a body that depends on the length. -/
theorem prefixed_inside {L : Nat} (hL : L < 2 ^ 63) {V : Type} (k : Nat) (hk : k ≤ 4) (prior : V) (body : Nat → St → Outcome (Bool × V × St)) {st : St}
    (hi : Inside L st)
    (h : ∀ n < 2 ^ 32, ∀ st', Inside L st' → st'.buf = st.buf → RSafe L st' (body n st')) :
    RSafe L st (do
      let (r, st) ← readPod k st
      match r with
      | none => ok (false, prior, st)
      | some l => body (leNat l) st) := by
  rcases readPod_inside hL k hi (by omega) with ⟨_, bs, h1, h2, h3⟩ | ⟨_, h1⟩
  · rw [h1, ok_bind]
    have hlt : leNat bs < 2 ^ 32 := by
      have := leNat_lt bs
      rw [h2] at this
      exact Nat.lt_of_lt_of_le this (Nat.pow_le_pow_right (n := 256) (by omega) hk)
    exact (h _ hlt _ h3 rfl).trans rfl rfl (Nat.le_add_right _ _)
  · rw [h1, ok_bind]
    exact RSafe.ret _ _ hi

theorem taken_inside {L : Nat} {V : Type} {st : St} (n : Nat) (hi : Inside L st) (h : st.amount + n ≤ L) (f : List UInt8 → V) :
    RSafe L st (do let (bs, st) ← takeBytes st n; ok (true, f bs, st)) := by
  obtain ⟨bs, h1, h2, h3⟩ := take_inside n hi h
  rw [h1, ok_bind]
  exact ⟨true, f bs, _, rfl, h3, rfl, rfl, Nat.le_add_right _ _⟩

theorem readStr_inside {L : Nat} (hL : L < 2 ^ 63) (prior : List UInt8) {st : St} (hi : Inside L st) : RSafe L st (readStr prior st) := by
  apply prefixed_inside hL 4 (by omega) prior (fun n st => if capacityOk st n then do let (bs, st) ← takeBytes st n; ok (true, bs, st) else ok (false, prior, st)) hi
  intro n hn st' hi' _
  split
  · rename_i hc; exact taken_inside n hi' ((capacity_iff n hi' hL (by omega)).mp hc) id
  · exact RSafe.ret _ _ hi'

theorem readPstr_inside {L : Nat} (hL : L < 2 ^ 63) (k : Nat) (hk : k ≤ 4) (prior : List UInt8) {st : St} (hi : Inside L st) : RSafe L st (readPstr k prior st) := by
  apply prefixed_inside hL k hk prior
    (fun n st => if capacityOk st n then do let (bs, st) ← takeBytes st n; ok (true, bs, st) else ok (false, resize 0 prior n, st)) hi
  intro n hn st' hi' _
  split
  · rename_i hc; exact taken_inside n hi' ((capacity_iff n hi' hL (by omega)).mp hc) id
  · exact RSafe.ret _ _ hi'

theorem readPodVal_inside {L : Nat} (hL : L < 2 ^ 63) (n : Nat) (hn : n < 2 ^ 63) (prior : List UInt8) {st : St} (hi : Inside L st) :
    RSafe L st (readPodVal n prior st) := by
  unfold readPodVal
  rcases readPod_inside hL n hi hn with ⟨_, bs, h1, h2, h3⟩ | ⟨_, h1⟩
  · rw [h1, ok_bind]; exact ⟨true, bs, _, rfl, h3, rfl, rfl, Nat.le_add_right _ _⟩
  · rw [h1, ok_bind]; exact RSafe.ret _ _ hi

theorem readLoop_inside {L : Nat} {V : Type} (rd : V → St → Outcome (Bool × V × St)) (h : ∀ v st, Inside L st → RSafe L st (rd v st)) :
    ∀ (n : Nat) (v : V) (st : St), Inside L st → RSafe L st (readLoop rd n v st) := by
  intro n
  induction n with
  | zero => intro v st hi; exact RSafe.ret _ _ hi
  | succ n ih =>
    intro v st hi
    unfold readLoop
    obtain ⟨b, v1, st1, h1, h2, h3, h4, h5⟩ := h v st hi
    rw [h1, ok_bind]
    cases b
    · simp only [Bool.false_eq_true, if_false]; exact (RSafe.ret _ _ h2).trans h3 h4 h5
    · simp only [if_true]
      obtain ⟨b', vs, st2, g1, g2, g3, g4, g5⟩ := ih v1 st1 h2
      rw [g1, ok_bind]
      exact ⟨b', v1 :: vs, st2, rfl, g2, g3.trans h3, g4.trans h4, by omega⟩

theorem looped_inside {L : Nat} {V W : Type} (rd : V → St → Outcome (Bool × V × St)) (h : ∀ v st, Inside L st → RSafe L st (rd v st)) (n : Nat) (v : V)
    (f : List V → W) {st : St} (hi : Inside L st) : RSafe L st (do let (good, xs, st) ← readLoop rd n v st; ok (good, f xs, st)) := by
  obtain ⟨b, vs, st1, h1, h2, h3, h4, h5⟩ := readLoop_inside rd h n v st hi
  rw [h1, ok_bind]
  exact ⟨b, f vs, st1, rfl, h2, h3, h4, h5⟩

theorem readSeq_inside {L : Nat} (hL : L < 2 ^ 63) {V : Type} (rd : V → St → Outcome (Bool × V × St)) (h : ∀ v st, Inside L st → RSafe L st (rd v st))
    (size : Nat) (fresh : V) (prior : List V) {st : St} (hi : Inside L st) : RSafe L st (readSeq rd size fresh prior st) := by
  apply prefixed_inside hL 4 (by omega) prior (fun n st => if capacityOk st (n * size) then do
      let (good, xs, st) ← readLoop rd n fresh st
      ok (good, prior ++ xs, st) else ok (false, prior, st)) hi
  intro n hn st' hi' _
  split
  · exact looped_inside rd h n fresh (fun xs => prior ++ xs) hi'
  · exact RSafe.ret _ _ hi'

theorem readObjVec_inside {L : Nat} (hL : L < 2 ^ 63) {V : Type} (rd : V → St → Outcome (Bool × V × St)) (h : ∀ v st, Inside L st → RSafe L st (rd v st))
    (size : Nat) (fresh : V) (prior : List V) {st : St} (hi : Inside L st) : RSafe L st (readObjVec rd size fresh prior st) := by
  apply prefixed_inside hL 4 (by omega) prior (fun n st => if capacityOk st (n * size) then do
      let (good, xs, st) ← readLoop rd n fresh st
      ok (good, xs ++ (resize fresh prior n).drop xs.length, st) else ok (false, prior, st)) hi
  intro n hn st' hi' _
  split
  · exact looped_inside rd h n fresh (fun xs => xs ++ (resize fresh prior n).drop xs.length) hi'
  · exact RSafe.ret _ _ hi'

theorem readSet_inside {L : Nat} (hL : L < 2 ^ 63) (k : Nat) (hk : k < 2 ^ 31) (lt : List UInt8 → List UInt8 → Bool) (prior : List (List UInt8)) {st : St}
    (hi : Inside L st) : RSafe L st (readSet k lt prior st) := by
  apply prefixed_inside hL 4 (by omega) prior (fun n st => if capacityOk st (n * k) then do
      let (good, xs, st) ← readLoop (readPodVal k) n (List.replicate k 0) st
      ok (good, xs.foldl (fun s x => setInsert lt x s) prior, st) else ok (false, prior, st)) hi
  intro n hn st' hi' _
  split
  · exact looped_inside _ (fun v st hi => readPodVal_inside hL k (by omega) v hi) n _ (fun xs => xs.foldl (fun s x => setInsert lt x s) prior) hi'
  · exact RSafe.ret _ _ hi'

theorem readPodVec_inside {L : Nat} (hL : L < 2 ^ 63) (k : Nat) (hk : k < 2 ^ 31) (prior : List (List UInt8)) {st : St}
    (hi : Inside L st) : RSafe L st (readPodVec (ok ()) k prior st) := by
  apply prefixed_inside hL 4 (by omega) prior (fun n st => if capacityOk st (n * k) then do
      (if n = 0 then ok () else ok ())
      let (bs, st) ← takeBytes st (k * n)
      ok (true, chunks k n bs, st) else ok (false, prior, st)) hi
  intro n hn st' hi' _
  have hm := mul_bound hn hk
  split
  · rename_i hc
    have := (capacity_iff (n * k) hi' hL (by omega)).mp hc
    have hif : (if n = 0 then ok () else ok ()) = ok () := by split <;> rfl
    rw [hif, ok_bind]
    exact taken_inside (k * n) hi' (by rw [Nat.mul_comm]; exact this) (fun bs => chunks k n bs)
  · exact RSafe.ret _ _ hi'

theorem readPair_inside {L : Nat} {A B : Type} (ra : A → St → Outcome (Bool × A × St)) (rb : B → St → Outcome (Bool × B × St))
    (ha : ∀ v st, Inside L st → RSafe L st (ra v st)) (hb : ∀ v st, Inside L st → RSafe L st (rb v st)) (prior : A × B) {st : St} (hi : Inside L st) :
    RSafe L st (readPair ra rb prior st) := by
  unfold readPair
  obtain ⟨b, v1, st1, h1, h2, h3, h4, h5⟩ := ha prior.1 st hi
  rw [h1, ok_bind]
  cases b
  · simp only [Bool.false_eq_true, if_false]; exact (RSafe.ret _ _ h2).trans h3 h4 h5
  · simp only [if_true]
    obtain ⟨b', v2, st2, g1, g2, g3, g4, g5⟩ := hb prior.2 st1 h2
    rw [g1, ok_bind]
    exact ⟨b', (v1, v2), st2, rfl, g2, g3.trans h3, g4.trans h4, by omega⟩

theorem read_inside {L : Nat} (hL : L < 2 ^ 63) (sz : Ty → Nat) : ∀ (t : Ty), Small sz t → ∀ (prior : t.Val) (st : St), Inside L st →
    RSafe L st (read sz (ok ()) t prior st) := by
  intro t
  induction t with
  | pod n => intro hs prior st hi; exact readPodVal_inside hL n (by have : n < 2 ^ 31 := hs; omega) prior hi
  | str => intro hs prior st hi; exact readStr_inside hL prior hi
  | pstr k => intro hs prior st hi; exact readPstr_inside hL k hs prior hi
  | pair a b iha ihb => intro hs prior st hi; exact readPair_inside _ _ (iha hs.1) (ihb hs.2) prior hi
  | seq t ih => intro hs prior st hi; exact readSeq_inside hL _ (ih hs.2) _ _ prior hi
  | podVec n => intro hs prior st hi; exact readPodVec_inside hL n hs prior hi
  | objVec t ih => intro hs prior st hi; exact readObjVec_inside hL _ (ih hs.2) _ _ prior hi
  | set n lt => intro hs prior st hi; exact readSet_inside hL n hs lt prior hi

theorem rewind_inside {L : Nat} (n : Nat) {st : St} (hi : Inside L st) : ∃ b st', rewind n st = ok (b, st') ∧ Inside L st' := by
  have hi' := hi
  obtain ⟨h1, h2, h3, h4⟩ := hi
  unfold rewind
  split
  · rw [if_pos (by omega)]
    exact ⟨true, _, rfl, h1, by show st.ptr - n = st.amount - n; omega, by show st.amount - n ≤ L; omega, h4⟩
  · exact ⟨false, st, rfl, hi'⟩

theorem reset_inside {L : Nat} (c : Bool) {st : St} (hi : Inside L st) : Inside L (reset c st) := by
  obtain ⟨h1, h2, h3, h4⟩ := hi
  refine ⟨?_, rfl, Nat.zero_le _, h4⟩
  cases c <;> simp [reset, h1]

theorem mark_inside {L : Nat} {st : St} (hi : Inside L st) : Inside L (mark st) := by
  obtain ⟨h1, h2, h3, h4⟩ := hi
  refine ⟨h1, h2, h3, ?_⟩
  intro m hm
  rcases List.mem_cons.mp hm with rfl | hm
  · exact ⟨h2, h3⟩
  · exact h4 m hm

theorem resetToMark_inside {L : Nat} {st : St} (hi : Inside L st) : Inside L (resetToMark st).2 := by
  have hi' := hi
  obtain ⟨h1, h2, h3, h4⟩ := hi
  unfold resetToMark
  split
  · exact hi'
  · rename_i a p ms e
    have h5 := h4 (a, p) (by rw [e]; simp)
    exact ⟨h1, h5.1, h5.2, fun m hm => h4 m (by rw [e]; simp [hm])⟩

theorem rop_inside {L : Nat} (hL : L < 2 ^ 63) (sz : Ty → Nat) (st : St) (o : ROp) (hi : Inside L st) (ha : o.Allowed sz) :
    ∃ b st', o.run sz (ok ()) st = ok (b, st') ∧ Inside L st' := by
  have hpod : ∀ (n : Nat), n < 2 ^ 63 → ∀ st, Inside L st → ∃ b st', (do let (r, st) ← readPod n st; ok (r.isSome, st)) = ok (b, st') ∧ Inside L st' := by
    intro n hn st hi
    rcases readPod_inside hL n hi hn with ⟨_, bs, h1, h2, h3⟩ | ⟨_, h1⟩
    · exact ⟨true, _, by rw [h1, ok_bind]; rfl, h3⟩
    · exact ⟨false, _, by rw [h1, ok_bind]; rfl, hi⟩
  cases o with
  | get t prior =>
    obtain ⟨b, v, st', h1, h2, _⟩ := read_inside hL sz t ha prior st hi
    exact ⟨b, st', by simp [ROp.run, h1], h2⟩
  | array raw => exact hpod raw ha st hi
  | ptr elem =>
    rcases readPod_inside hL 4 hi (by omega) with ⟨_, bs, h1, h2, h3⟩ | ⟨_, h1⟩
    · have hlt := leNat_lt bs
      rw [h2] at hlt
      have hm := mul_bound (a := leNat bs) hlt ha
      obtain ⟨b, st', h4, h5⟩ := hpod (leNat bs * elem) (by omega) _ h3
      exact ⟨b, st', by simp only [ROp.run, readPtr, h1, ok_bind]; exact h4, h5⟩
    · exact ⟨false, st, by simp [ROp.run, readPtr, h1], hi⟩
  | field size => exact hpod size ha st hi
  | seek n =>
    show ∃ b st', Binary.seek n st = ok (b, st') ∧ _
    have ha' : -2 ^ 31 < n ∧ n < 2 ^ 31 := ha
    unfold Binary.seek
    split
    · rw [if_neg (by omega)]; exact rewind_inside _ hi
    · split
      · split
        · obtain ⟨h1, h2, h3, h4⟩ := hi
          exact ⟨true, _, rfl, h1, by show st.ptr + n.toNat = st.amount + n.toNat; omega, by show st.amount + n.toNat ≤ L; omega, h4⟩
        · exact ⟨false, st, rfl, hi⟩
      · exact ⟨true, st, rfl, hi⟩
  | rewind n => exact rewind_inside n hi
  | reset => exact ⟨true, _, rfl, reset_inside false hi⟩
  | clear => exact ⟨true, _, rfl, reset_inside true hi⟩
  | mark => exact ⟨true, _, rfl, mark_inside hi⟩
  | resetToMark => exact ⟨_, _, rfl, resetToMark_inside hi⟩

/-! ## Writing -/

/-- A write: it ends, inside a buffer of the same length, with the same marks, and leaves the bytes before the old position alone. -/
def WSafe (L : Nat) (st : St) (r : Outcome (Bool × St)) : Prop :=
  ∃ b st', r = ok (b, st') ∧ Inside L st' ∧ st'.marks = st.marks ∧ st.amount ≤ st'.amount ∧ st'.buf.take st.amount = st.buf.take st.amount

theorem WSafe.ret {L : Nat} {st : St} (b : Bool) (h : Inside L st) : WSafe L st (ok (b, st)) := ⟨b, st, rfl, h, rfl, Nat.le_refl _, rfl⟩

theorem WSafe.bind {L : Nat} {st : St} {r : Outcome (Bool × St)} {f : St → Outcome (Bool × St)} (h : WSafe L st r)
    (hf : ∀ st', Inside L st' → WSafe L st' (f st')) : WSafe L st (do let (good, st) ← r; if good then f st else ok (false, st)) := by
  obtain ⟨b, st1, h1, h2, h3, h4, h5⟩ := h
  rw [h1, ok_bind]
  cases b
  · simp only [Bool.false_eq_true, if_false]; exact ⟨false, st1, rfl, h2, h3, h4, h5⟩
  · simp only [if_true]
    obtain ⟨b', st2, g1, g2, g3, g4, g5⟩ := hf st1 h2
    refine ⟨b', st2, g1, g2, g3.trans h3, by omega, ?_⟩
    have : ∀ l : List UInt8, l.take st.amount = (l.take st1.amount).take st.amount := by intro l; rw [List.take_take, Nat.min_eq_left h4]
    rw [this, g5, ← this, h5]

theorem putBytes_inside {L : Nat} {st : St} (bs : List UInt8) (hi : Inside L st) (h : st.amount + bs.length ≤ L) :
    WSafe L st (do let st ← putBytes st bs; ok (true, st)) := by
  obtain ⟨h1, h2, h3, h4⟩ := hi
  have hc := copyTo_append (st.buf.take st.ptr) st.buf (st.buf.drop st.ptr) bs (by simp; omega) (by simp)
  have hpl : (st.buf.take st.ptr).length = st.ptr := by simp; omega
  rw [hpl] at hc
  unfold putBytes
  rw [hc]
  simp only [ok_bind]
  refine ⟨true, _, rfl, ⟨?_, ?_, h, h4⟩, rfl, Nat.le_add_right _ _, ?_⟩
  · simp; omega
  · show st.ptr + _ = st.amount + _; omega
  · show List.take st.amount (List.take st.ptr st.buf ++ bs ++ List.drop bs.length (List.drop st.ptr st.buf)) = _
    rw [List.append_assoc, List.take_append_of_le_length (by omega), List.take_take, h2, Nat.min_self]

theorem writePod_inside {L : Nat} (hL : L < 2 ^ 63) (bs : List UInt8) (hb : bs.length < 2 ^ 63) {st : St} (hi : Inside L st) : WSafe L st (writePod bs st) := by
  unfold writePod
  split
  · rename_i hc; exact putBytes_inside bs hi ((capacity_iff _ hi hL hb).mp hc)
  · exact WSafe.ret _ hi

theorem writeLen_inside {L : Nat} (hL : L < 2 ^ 63) (k n : Nat) (hk : k ≤ 4) {st : St} (hi : Inside L st) : WSafe L st (writePod (leBytes k n) st) :=
  writePod_inside hL _ (by rw [leBytes_length]; omega) hi

theorem writeRaw_inside {L : Nat} (hL : L < 2 ^ 63) (data : List UInt8) (raw : Nat) (hr : raw ≤ data.length) (hr' : raw < 2 ^ 63) {st : St} (hi : Inside L st) :
    WSafe L st (writeRaw data raw st) := by
  unfold writeRaw
  split
  · rename_i hc
    obtain ⟨bs, hb, hl⟩ := slice_ok data 0 raw (by omega)
    rw [hb, ok_bind]
    exact putBytes_inside bs hi (by rw [hl]; exact (capacity_iff _ hi hL hr').mp hc)
  · exact WSafe.ret _ hi

theorem size32_lt (n : Nat) : size32 n < 2 ^ 32 := Nat.mod_lt _ (by decide)
theorem size32_le (n : Nat) : size32 n ≤ n := Nat.mod_le _ _

theorem writeLoop_inside {L : Nat} {V : Type} (wr : V → St → Outcome (Bool × St)) (P : V → Prop) (h : ∀ v st, P v → Inside L st → WSafe L st (wr v st)) :
    ∀ (vs : List V) (st : St), (∀ v ∈ vs, P v) → Inside L st → WSafe L st (writeLoop wr vs st) := by
  intro vs
  induction vs with
  | nil => intro st _ hi; exact WSafe.ret _ hi
  | cons v vs ih =>
    intro st hp hi
    exact WSafe.bind (h v st (hp v (by simp)) hi) fun st' hi' => ih st' (fun x hx => hp x (by simp [hx])) hi'

theorem writeSeq_inside {L : Nat} (hL : L < 2 ^ 63) {V : Type} (wr : V → St → Outcome (Bool × St)) (P : V → Prop)
    (h : ∀ v st, P v → Inside L st → WSafe L st (wr v st)) (vs : List V) (st : St) (hp : ∀ v ∈ vs, P v) (hi : Inside L st) :
    WSafe L st (writeSeq wr vs st) :=
  WSafe.bind (writeLen_inside hL 4 _ (by omega) hi) fun _ hi' => writeLoop_inside wr P h vs _ hp hi'

theorem writePodVec_inside {L : Nat} (hL : L < 2 ^ 63) (k : Nat) (hk : k < 2 ^ 31) (v : List (List UInt8)) (hv : ∀ x ∈ v, x.length = k) {st : St}
    (hi : Inside L st) : WSafe L st (writePodVec (ok ()) k v st) := by
  have hm := mul_bound (size32_lt v.length) hk
  unfold writePodVec
  split
  · rename_i hc
    have hc' := (capacity_iff _ hi hL (by omega)).mp hc
    have hlen : (leBytes 4 (size32 v.length)).length = 4 := leBytes_length _ _
    obtain ⟨_, st1, h1, h2, h3, h4, h5⟩ := putBytes_inside (leBytes 4 (size32 v.length)) hi (by rw [hlen]; omega)
    have hw : writePod (leBytes 4 (size32 v.length)) st = (do let st ← putBytes st (leBytes 4 (size32 v.length)); ok (true, st)) := by
      unfold writePod
      rw [hlen, if_pos ((capacity_iff _ hi hL (by omega)).mpr (by omega))]
    have ham : st1.amount = st.amount + 4 := by
      unfold putBytes at h1
      cases hq : copyTo st.buf st.ptr (leBytes 4 (size32 v.length)) with
      | ok q =>
        rw [hq] at h1
        simp only [ok_bind, ok.injEq, Prod.mk.injEq] at h1
        rw [← h1.2, hlen]
      | ub => rw [hq] at h1; cases h1
      | diverge => rw [hq] at h1; cases h1
      | thrown => rw [hq] at h1; cases h1
    have hbind : WSafe L st1 (writeBatch (ok ()) (size32 v.length * k) v st1) := by
      unfold writeBatch
      have hif : (if v.length = 0 then ok () else ok ()) = ok () := by split <;> rfl
      have hfl := flatten_length_const k v hv
      obtain ⟨bs, hb, hl⟩ := slice_ok v.flatten 0 (size32 v.length * k) (by
        rw [hfl, Nat.zero_add]; exact Nat.mul_le_mul_right k (size32_le _))
      rw [hif, ok_bind, hb, ok_bind]
      exact putBytes_inside bs h2 (by rw [hl, ham]; omega)
    have hb : WSafe L st (ok (true, st1)) := ⟨true, st1, rfl, h2, h3, h4, h5⟩
    rw [hw]
    have hbool : (do let st ← putBytes st (leBytes 4 (size32 v.length)); ok (true, st)) = ok (true, st1) := by
      cases hq : copyTo st.buf st.ptr (leBytes 4 (size32 v.length)) with
      | ok q =>
        simp only [putBytes, hq, ok_bind, ok.injEq, Prod.mk.injEq] at h1 ⊢
        exact ⟨trivial, h1.2⟩
      | ub => simp only [putBytes, hq] at h1; cases h1
      | diverge => simp only [putBytes, hq] at h1; cases h1
      | thrown => simp only [putBytes, hq] at h1; cases h1
    rw [hbool]
    simp only [ok_bind, if_true]
    obtain ⟨b', st2, g1, g2, g3, g4, g5⟩ := hbind
    refine ⟨b', st2, g1, g2, g3.trans h3, by omega, ?_⟩
    have : ∀ l : List UInt8, l.take st.amount = (l.take st1.amount).take st.amount := by intro l; rw [List.take_take, Nat.min_eq_left h4]
    rw [this, g5, ← this, h5]
  · exact WSafe.ret _ hi

theorem write_inside {L : Nat} (hL : L < 2 ^ 63) (sz : Ty → Nat) : ∀ (t : Ty), Small sz t → ∀ (v : t.Val) (st : St), Exists t v → Inside L st →
    WSafe L st (write sz (ok ()) t v st) := by
  intro t
  induction t with
  | pod n =>
    intro hs v st hv hi
    exact writePod_inside hL v (by have : List.length (α := UInt8) v = n := hv; have : n < 2 ^ 31 := hs; omega) hi
  | str =>
    intro hs v st hv hi
    refine WSafe.bind (writeLen_inside hL 4 _ (by omega) hi) fun _ hi' => writeRaw_inside hL v _ (size32_le _) ?_ hi'
    have := size32_lt (List.length (α := UInt8) v); omega
  | pstr k =>
    intro hs v st hv hi
    show WSafe L st (writePstr k v st)
    unfold writePstr
    have hk : k ≤ 4 := hs
    have hp : 2 ^ (8 * k) ≤ 2 ^ 32 := Nat.pow_le_pow_right (by omega) (by omega)
    split
    · exact WSafe.ret _ hi
    · exact WSafe.bind (writeLen_inside hL k _ hk hi) fun _ hi' => writeRaw_inside hL v _ (Nat.le_refl _) (by omega) hi'
  | pair a b iha ihb => intro hs v st hv hi; exact WSafe.bind (iha hs.1 v.1 st hv.1 hi) fun st' hi' => ihb hs.2 v.2 st' hv.2 hi'
  | seq t ih => intro hs v st hv hi; exact writeSeq_inside hL _ (Exists t) (ih hs.2) v st hv hi
  | podVec n => intro hs v st hv hi; exact writePodVec_inside hL n hs v hv hi
  | objVec t ih =>
    intro hs v st hv hi
    show WSafe L st (writeObjVec _ _ _ _)
    unfold writeObjVec
    split
    · exact writeSeq_inside hL _ (Exists t) (ih hs.2) v st hv hi
    · exact WSafe.ret _ hi
  | set n lt =>
    intro hs v st hv hi
    refine WSafe.bind (writeLen_inside hL 4 _ (by omega) hi) fun st' hi' => ?_
    unfold writeSetBody
    split
    · exact writeLoop_inside writePod (fun x => x.length = n) (fun x st hx hi => writePod_inside hL x (by have : n < 2 ^ 31 := hs; omega) hi) v st' hv hi'
    · exact WSafe.ret _ hi'

theorem WSafe.out {L : Nat} {st : St} {r : Outcome (Bool × St)} (h : WSafe L st r) : ∃ b st', r = ok (b, st') ∧ Inside L st' := by
  obtain ⟨b, st', h1, h2, _⟩ := h
  exact ⟨b, st', h1, h2⟩

theorem wop_inside {L : Nat} (hL : L < 2 ^ 63) (sz : Ty → Nat) (st : St) (o : WOp) (hi : Inside L st) (ha : o.Allowed sz) :
    ∃ b st', o.run sz (ok ()) st = ok (b, st') ∧ Inside L st' := by
  cases o with
  | put t v => exact (write_inside hL sz t ha.1 v st ha.2 hi).out
  | ptr data length elem withLength =>
    obtain ⟨h1, h2, h3⟩ : length < 2 ^ 32 ∧ elem < 2 ^ 31 ∧ length * elem ≤ data.length := ha
    have hm := mul_bound h1 h2
    apply WSafe.out
    show WSafe L st (writePtr data length elem withLength st)
    unfold writePtr
    apply WSafe.bind
    · cases withLength
      · exact WSafe.ret _ hi
      · exact writeLen_inside hL 4 _ (by omega) hi
    · intro st' hi'; exact writeRaw_inside hL data _ h3 (by omega) hi'
  | field text size pmode padding =>
    obtain ⟨h1, h2⟩ : size < 2 ^ 63 ∧ (pmode = .left ∨ ∀ s, text = some s → s.length = 0 ∨ size ≤ s.length) := ha
    show ∃ b st', writeField text size pmode padding st = ok (b, st') ∧ _
    unfold writeField
    split
    · rw [if_neg (by omega)]
      cases text with
      | none => exact ⟨false, st, rfl, hi⟩
      | some s =>
        simp only
        split
        · exact ⟨false, st, rfl, hi⟩
        · rename_i hs
          have key : ∀ d : List UInt8, size ≤ d.length → ∃ b st', writePtr d (size32 size) 1 false st = ok (b, st') ∧ Inside L st' := by
            intro d hd
            apply WSafe.out
            unfold writePtr
            apply WSafe.bind (WSafe.ret _ hi)
            intro st' hi'
            have := size32_lt size
            have := size32_le size
            exact writeRaw_inside hL d _ (by omega) (by omega) hi'
          apply key
          split
          · rename_i hlt
            rcases h2 with rfl | h2
            · simp; omega
            · rcases h2 s rfl with h0 | h0
              · cases pmode <;> simp [h0]
              · omega
          · omega
    · exact ⟨false, st, rfl, hi⟩
  | reset => exact ⟨true, _, rfl, reset_inside false hi⟩
  | clear => exact ⟨true, _, rfl, reset_inside true hi⟩
  | mark => exact ⟨true, _, rfl, mark_inside hi⟩
  | resetToMark => exact ⟨_, _, rfl, resetToMark_inside hi⟩

/-! ## The property -/

theorem fresh_inside (buf : List UInt8) : Inside buf.length (St.fresh buf) := ⟨rfl, rfl, Nat.zero_le _, fun _ h => absurd h List.not_mem_nil⟩

/-- Any history of calls on a reader over any bytes, with allowed arguments, ends, every call returning `true` or `false`; no byte outside the buffer is
accessed (that would be `ub`); and afterwards the position is inside the buffer and the pointer is at the position. -/
theorem C48_reader_history_partial (sz : Ty → Nat) (buf : List UInt8) (hL : buf.length < 2 ^ 63) (ops : List ROp) (ha : ∀ o ∈ ops, o.Allowed sz) :
    ∃ results st, history (fun st o => o.run sz (ok ()) st) ops (St.fresh buf) = ok (results, st) ∧ results.length = ops.length ∧
      st.buf.length = buf.length ∧ st.amount ≤ buf.length ∧ st.ptr = st.amount := by
  obtain ⟨rs, st, h1, h2, h3⟩ := history_inside (fun st o => ROp.run sz (ok ()) st o) (ROp.Allowed sz)
    (fun st o hi ha => rop_inside hL sz st o hi ha) ops (St.fresh buf) ha (fresh_inside buf)
  exact ⟨rs, st, h1, h2, h3.1, h3.2.2.1, h3.2.1⟩

/-- The same for a writer, for any values. -/
theorem C48_writer_history_partial (sz : Ty → Nat) (buf : List UInt8) (hL : buf.length < 2 ^ 63) (ops : List WOp) (ha : ∀ o ∈ ops, o.Allowed sz) :
    ∃ results st, history (fun st o => o.run sz (ok ()) st) ops (St.fresh buf) = ok (results, st) ∧ results.length = ops.length ∧
      st.buf.length = buf.length ∧ st.amount ≤ buf.length ∧ st.ptr = st.amount := by
  obtain ⟨rs, st, h1, h2, h3⟩ := history_inside (fun st o => WOp.run sz (ok ()) st o) (WOp.Allowed sz)
    (fun st o hi ha => wop_inside hL sz st o hi ha) ops (St.fresh buf) ha (fresh_inside buf)
  exact ⟨rs, st, h1, h2, h3.1, h3.2.2.1, h3.2.1⟩

/-- After any allowed history, reading a POD succeeds exactly when its bytes are there; then they are the bytes at the position, and the position moves
by its size.  Otherwise the result is `false` and nothing changes. -/
theorem C48_reader_pod (sz : Ty → Nat) (buf : List UInt8) (hL : buf.length < 2 ^ 63) (ops : List ROp) (ha : ∀ o ∈ ops, o.Allowed sz)
    (results : List Bool) (st : St) (h : history (fun st o => o.run sz (ok ()) st) ops (St.fresh buf) = ok (results, st))
    (n : Nat) (hn : n < 2 ^ 31) (prior : List UInt8) :
    read sz (ok ()) (.pod n) prior st =
      if st.amount + n ≤ buf.length then ok (true, (st.buf.drop st.amount).take n, { st with ptr := st.amount + n, amount := st.amount + n })
      else ok (false, prior, st) := by
  obtain ⟨rs, st', h1, h2, h3⟩ := history_inside (fun st o => ROp.run sz (ok ()) st o) (ROp.Allowed sz)
    (fun st o hi ha => rop_inside hL sz st o hi ha) ops (St.fresh buf) ha (fresh_inside buf)
  rw [h1] at h
  simp only [ok.injEq, Prod.mk.injEq] at h
  obtain ⟨_, rfl⟩ := h
  show readPodVal n prior st' = _
  unfold readPodVal
  rcases readPod_inside hL n h3 (by omega) with ⟨hle, bs, h1, h2, h4⟩ | ⟨hle, h1⟩
  · rw [if_pos hle, h1, ok_bind]
    unfold readPod takeBytes slice at h1
    rw [if_pos ((capacity_iff n h3 hL (by omega)).mpr hle), if_pos (by rw [h3.2.1, h3.1]; omega)] at h1
    simp only [ok_bind, ok.injEq, Prod.mk.injEq, Option.some.injEq] at h1
    rw [← h1.1]
    simp only [h3.2.1]
  · rw [if_neg (by omega), h1, ok_bind]

/-- After any allowed history, writing a value, whether that succeeds or not, leaves the bytes before the position as they were. -/
theorem C48_writer_keeps_prefix (sz : Ty → Nat) (buf : List UInt8) (hL : buf.length < 2 ^ 63) (ops : List WOp) (ha : ∀ o ∈ ops, o.Allowed sz)
    (results : List Bool) (st : St) (h : history (fun st o => o.run sz (ok ()) st) ops (St.fresh buf) = ok (results, st))
    (t : Ty) (v : t.Val) (hs : Small sz t) (hv : Exists t v) :
    ∃ good st', write sz (ok ()) t v st = ok (good, st') ∧ st.amount ≤ st'.amount ∧ st'.buf.take st.amount = st.buf.take st.amount := by
  obtain ⟨rs, st', h1, h2, h3⟩ := history_inside (fun st o => WOp.run sz (ok ()) st o) (WOp.Allowed sz)
    (fun st o hi ha => wop_inside hL sz st o hi ha) ops (St.fresh buf) ha (fresh_inside buf)
  rw [h1] at h
  simp only [ok.injEq, Prod.mk.injEq] at h
  obtain ⟨_, rfl⟩ := h
  obtain ⟨b, st2, g1, g2, g3, g4, g5⟩ := write_inside hL sz t hs v st' hv h3
  exact ⟨b, st2, g1, g4, g5⟩

/-- The calls that set no mark and return to none. -/
def ROp.Plain : ROp → Prop
  | mark => False
  | resetToMark => False
  | _ => True

theorem rop_marks {L : Nat} (hL : L < 2 ^ 63) (sz : Ty → Nat) (st : St) (o : ROp) (hi : Inside L st) (ha : o.Allowed sz) (hp : o.Plain) :
    ∃ b st', o.run sz (ok ()) st = ok (b, st') ∧ Inside L st' ∧ st'.marks = st.marks := by
  obtain ⟨b, st', h, hi'⟩ := rop_inside hL sz st o hi ha
  refine ⟨b, st', h, hi', ?_⟩
  have hpod : ∀ (n : Nat) (st st' : St) (b : Bool), (do let (r, st) ← readPod n st; ok (r.isSome, st)) = ok (b, st') → st'.marks = st.marks := by
    intro n st st' b h
    unfold readPod takeBytes slice at h
    split at h
    · split at h
      · simp only [ok_bind, ok.injEq, Prod.mk.injEq] at h; rw [← h.2]
      · cases h
    · simp only [ok_bind, ok.injEq, Prod.mk.injEq] at h; rw [← h.2]
  have hrew : ∀ (n : Nat) (st st' : St) (b : Bool), Binary.rewind n st = ok (b, st') → st'.marks = st.marks := by
    intro n st st' b h
    unfold Binary.rewind at h
    split at h
    · split at h
      · simp only [ok.injEq, Prod.mk.injEq] at h; rw [← h.2]
      · cases h
    · simp only [ok.injEq, Prod.mk.injEq] at h; rw [← h.2]
  cases o with
  | get t prior =>
    obtain ⟨b1, v1, st1, h1, _, _, h2, _⟩ := read_inside hL sz t ha prior st hi
    simp only [ROp.run, h1, ok_bind, ok.injEq, Prod.mk.injEq] at h
    rw [← h.2, h2]
  | array raw => exact hpod raw st st' b h
  | ptr elem =>
    rcases readPod_inside hL 4 hi (by omega) with ⟨_, bs, h1, h2, h3⟩ | ⟨_, h1⟩
    · simp only [ROp.run, readPtr, h1, ok_bind] at h
      exact hpod (leNat bs * elem) { st with ptr := st.ptr + 4, amount := st.amount + 4 } st' b h
    · simp only [ROp.run, readPtr, h1, ok_bind, ok.injEq, Prod.mk.injEq] at h
      rw [← h.2]
  | field size => exact hpod size st st' b h
  | seek n =>
    simp only [ROp.run, Binary.seek] at h
    split at h
    · split at h
      · cases h
      · exact hrew _ _ _ _ h
    · split at h
      · split at h
        · simp only [ok.injEq, Prod.mk.injEq] at h; rw [← h.2]
        · simp only [ok.injEq, Prod.mk.injEq] at h; rw [← h.2]
      · simp only [ok.injEq, Prod.mk.injEq] at h; rw [← h.2]
  | rewind n => exact hrew n st st' b h
  | reset => simp only [ROp.run, ok.injEq, Prod.mk.injEq] at h; rw [← h.2]; rfl
  | clear => simp only [ROp.run, ok.injEq, Prod.mk.injEq] at h; rw [← h.2]; rfl
  | mark => exact absurd hp id
  | resetToMark => exact absurd hp id

theorem history_append {Op : Type} (run : St → Op → Outcome (Bool × St)) : ∀ (os os' : List Op) (st st1 : St) (rs : List Bool),
    history run os st = ok (rs, st1) → history run (os ++ os') st = (do let (rs', st2) ← history run os' st1; ok (rs ++ rs', st2)) := by
  intro os
  induction os with
  | nil =>
    intro os' st st1 rs h
    simp only [history, ok.injEq, Prod.mk.injEq] at h
    obtain ⟨rfl, rfl⟩ := h
    simp only [List.nil_append]
    cases history run os' st <;> rfl
  | cons o os ih =>
    intro os' st st1 rs h
    simp only [history, List.cons_append] at h ⊢
    cases hr : run st o with
    | ok x =>
      rw [hr] at h
      simp only [ok_bind] at h ⊢
      cases hh : history run os x.2 with
      | ok y =>
        rw [hh] at h
        simp only [ok_bind, ok.injEq, Prod.mk.injEq] at h
        rw [ih os' x.2 y.2 y.1 hh, ← h.1, ← h.2]
        cases history run os' y.2 <;> rfl
      | ub => rw [hh] at h; cases h
      | diverge => rw [hh] at h; cases h
      | thrown => rw [hh] at h; cases h
    | ub => rw [hr] at h; cases h
    | diverge => rw [hr] at h; cases h
    | thrown => rw [hr] at h; cases h

/-- After any allowed history: `mark`, then any calls other than `mark` and `reset_to_mark`, then `reset_to_mark`: the reader is where it was at the
mark. -/
theorem C48_mark_reset (sz : Ty → Nat) (buf : List UInt8) (hL : buf.length < 2 ^ 63) (before between : List ROp)
    (hb : ∀ o ∈ before, o.Allowed sz) (hw : ∀ o ∈ between, o.Allowed sz ∧ o.Plain) (rs : List Bool) (st : St)
    (h : history (fun st o => o.run sz (ok ()) st) before (St.fresh buf) = ok (rs, st)) :
    ∃ rs' st', history (fun st o => o.run sz (ok ()) st) (before ++ (.mark :: between ++ [.resetToMark])) (St.fresh buf) = ok (rs', st') ∧
      st'.amount = st.amount ∧ st'.ptr = st.ptr ∧ st'.marks = st.marks := by
  obtain ⟨rs0, st0, h1, h2, h3⟩ := history_inside (fun st o => ROp.run sz (ok ()) st o) (ROp.Allowed sz)
    (fun st o hi ha => rop_inside hL sz st o hi ha) before (St.fresh buf) hb (fresh_inside buf)
  rw [h1] at h
  simp only [ok.injEq, Prod.mk.injEq] at h
  obtain ⟨rfl, rfl⟩ := h
  have hmid : ∀ (os : List ROp) (s : St), (∀ o ∈ os, o.Allowed sz ∧ o.Plain) → Inside buf.length s →
      ∃ r s', history (fun st o => ROp.run sz (ok ()) st o) os s = ok (r, s') ∧ s'.marks = s.marks := by
    intro os
    induction os with
    | nil => intro s _ _; exact ⟨[], s, rfl, rfl⟩
    | cons o os ih =>
      intro s ho hi
      obtain ⟨b1, s1, g1, g2, g3⟩ := rop_marks hL sz s o hi (ho o (by simp)).1 (ho o (by simp)).2
      obtain ⟨r2, s2, k1, k2⟩ := ih s1 (fun o h => ho o (by simp [h])) g2
      exact ⟨b1 :: r2, s2, by simp [history, g1, k1], k2.trans g3⟩
  obtain ⟨r, s', g1, g2⟩ := hmid between (mark st0) hw (mark_inside h3)
  have g3 : history (fun st o => ROp.run sz (ok ()) st o) (.mark :: between) st0 = ok (true :: r, s') := by
    show (do let (rs, st) ← history (fun st o => ROp.run sz (ok ()) st o) between (mark st0); ok (true :: rs, st)) = _
    rw [g1, ok_bind]
  rw [history_append _ _ _ _ _ _ h1, history_append _ _ _ _ _ _ g3]
  have g4 : resetToMark s' = (true, { s' with amount := st0.amount, ptr := st0.ptr, marks := st0.marks }) := by
    simp [resetToMark, g2, mark]
  simp only [history, ROp.run, g4, ok_bind]
  exact ⟨_, _, rfl, rfl, rfl, rfl⟩

/-- How many marks a history leaves behind: each `mark` adds one, each `reset_to_mark` takes one away if there is one. -/
def openMarks : List ROp → Nat
  | [] => 0
  | ops => ops.foldl (fun n o => match o with | .mark => n + 1 | .resetToMark => n - 1 | _ => n) 0

/-- **C48**: after any allowed history `reset_to_mark` succeeds exactly if a mark is left; otherwise it changes nothing. -/
theorem C48_reset_to_mark (sz : Ty → Nat) (buf : List UInt8) (hL : buf.length < 2 ^ 63) (ops : List ROp) (ha : ∀ o ∈ ops, o.Allowed sz)
    (rs : List Bool) (st : St) (h : history (fun st o => o.run sz (ok ()) st) ops (St.fresh buf) = ok (rs, st)) :
    (0 < openMarks ops → (resetToMark st).1 = true) ∧ (openMarks ops = 0 → resetToMark st = (false, st)) := by
  have hlen : ∀ (os : List ROp) (s : St) (r : List Bool) (s' : St), (∀ o ∈ os, o.Allowed sz) → Inside buf.length s →
      history (fun st o => ROp.run sz (ok ()) st o) os s = ok (r, s') →
      s'.marks.length = os.foldl (fun n o => match o with | .mark => n + 1 | .resetToMark => n - 1 | _ => n) s.marks.length := by
    intro os
    induction os with
    | nil =>
      intro s r s' _ _ h
      simp only [history, ok.injEq, Prod.mk.injEq] at h
      rw [← h.2]
      rfl
    | cons o os ih =>
      intro s r s' ho hi h
      obtain ⟨b1, s1, g1, g2⟩ := rop_inside hL sz s o hi (ho o (by simp))
      have h0 := h
      simp only [history, g1, ok_bind] at h
      obtain ⟨⟨r2, s2⟩, k1, k2⟩ := bind_eq_ok.mp h
      simp only [ok.injEq, Prod.mk.injEq] at k2
      have := ih s1 r2 s2 (fun o h => ho o (by simp [h])) g2 k1
      rw [← k2.2, this, List.foldl_cons]
      congr 1
      by_cases hp : o.Plain
      · obtain ⟨b, st', e1, _, e3⟩ := rop_marks hL sz s o hi (ho o (by simp)) hp
        rw [g1] at e1
        simp only [ok.injEq, Prod.mk.injEq] at e1
        rw [e1.2, e3]
        cases o <;> first | rfl | exact absurd hp id
      · cases o <;> first | exact absurd trivial hp | skip
        · simp only [ROp.run, ok.injEq, Prod.mk.injEq] at g1
          rw [← g1.2]
          rfl
        · simp only [ROp.run, ok.injEq] at g1
          rw [show s1 = (resetToMark s).2 by rw [g1]]
          unfold resetToMark
          split
          · rename_i hm; simp [hm]
          · rename_i hm; simp [hm]
  have hl := hlen ops (St.fresh buf) rs st ha (fresh_inside buf) h
  have ho : openMarks ops = st.marks.length := by
    rw [hl]
    cases ops <;> rfl
  rw [ho]
  unfold resetToMark
  cases st.marks with
  | nil => simp
  | cons x xs => simp

example : openMarks [.mark, .mark, .resetToMark, .reset, .resetToMark, .resetToMark] = 0 ∧ openMarks [.resetToMark, .mark] = 1 := by decide

/-- A history that is allowed: a read of a string over hostile bytes, a failed one, seeks in both directions, a mark and a return to it. -/
example :
    let ops : List ROp := [.mark, .get .str ([] : List UInt8), .seek 3, .seek (-2), .get (.seq (.pod 4)) ([] : List (List UInt8)), .resetToMark, .rewind 5]
    (∀ o ∈ ops, o.Allowed (fun _ => 4)) ∧
    ∃ st, history (fun st o => o.run (fun _ => 4) (ok ()) st) ops (St.fresh [255, 255, 255, 255, 1, 0, 0, 0, 7]) =
      ok ([true, false, true, true, false, true, false], st) := by
  refine ⟨?_, ⟨[255, 255, 255, 255, 1, 0, 0, 0, 7], 0, 0, []⟩, by decide +kernel⟩
  intro o ho
  simp only [List.mem_cons, List.not_mem_nil, or_false] at ho
  rcases ho with rfl | rfl | rfl | rfl | rfl | rfl | rfl
  · trivial
  · trivial
  · show -2 ^ 31 < (3 : Int) ∧ (3 : Int) < 2 ^ 31; decide
  · show -2 ^ 31 < (-2 : Int) ∧ (-2 : Int) < 2 ^ 31; decide
  · show 4 < 2 ^ 31 ∧ 4 < 2 ^ 31; decide
  · trivial
  · trivial

/-- Why only partial, 1: the sum of size and position wraps, so a field size near 2^64 passes the check and the access is outside the buffer. -/
theorem C48_field_size_wraps :
    history (fun st o => ROp.run (fun _ => 1) (ok ()) st o) [.get (.pod 2) ([] : List UInt8), .field (2 ^ 64 - 1)] (St.fresh [1, 2, 3]) = ub := by
  decide +kernel

/-- Why only partial, 2: `seek(INT_MIN)` negates the argument, which overflows. -/
theorem C48_seek_int_min (st : St) : seek (-2 ^ 31) st = ub := by
  simp [seek]

/-- Why only partial, 3: reading an empty vector of a POD type evaluates `&v[0]`. -/
theorem C48_empty_vector_undefined : ROp.run (fun _ => 4) ub (St.fresh [0, 0, 0, 0]) (.get (.podVec 4) ([] : List (List UInt8))) = ub := rfl

/-! ## Padded fields (C49) -/

/-- The field the property asks for. -/
def padded (s : List UInt8) (size : Nat) (pmode : Padding) (padding : UInt8) : List UInt8 :=
  match pmode with
  | .right => s ++ List.replicate (size - s.length) padding
  | .left => List.replicate (size - s.length) padding ++ s

/-- Left padding, or a text that is empty or of just the right length: exactly `size` bytes are written, the text with its padding. -/
theorem C49_padded_field_partial (pre room s : List UInt8) (marks : List (Nat × Nat)) (size : Nat) (pmode : Padding) (padding : UInt8)
    (hL : (pre ++ room).length < 2 ^ 63) (hsz : size < 2 ^ 32) (hs : s.length ≤ size) (hroom : size ≤ room.length)
    (hmode : pmode = .left ∨ s = [] ∨ s.length = size) :
    writeField (some s) size pmode padding (at' pre room marks) = ok (true, at' (pre ++ padded s size pmode padding) (room.drop size) marks) := by
  unfold writeField
  rw [if_pos (by simp at hL ⊢; omega), if_neg (by omega)]
  simp only
  rw [if_neg (by omega)]
  have hlen : (padded s size pmode padding).length = size := by cases pmode <;> simp [padded] <;> omega
  have key : writePtr (padded s size pmode padding) (size32 size) 1 false (at' pre room marks) =
      ok (true, at' (pre ++ padded s size pmode padding) (room.drop size) marks) := by
    unfold writePtr
    rw [if_neg (by simp), ok_bind]
    simp only [if_true]
    rw [size32_of_lt hsz, Nat.mul_one]
    have h1 := writeRaw_at pre room (padded s size pmode padding) marks hL (by omega)
    have h2 := (writePod_at pre room (padded s size pmode padding) marks hL (by omega)).1 (by omega)
    rw [hlen] at h1 h2
    rw [h1, h2]
  by_cases hlt : s.length < size
  · rw [if_pos hlt]
    rcases hmode with rfl | rfl | h
    · exact key
    · cases pmode
      · have e : resize padding [] (size - ([] : List UInt8).length) = padded [] size .right padding := by simp [padded, resize]
        simp only
        rw [e]; exact key
      · exact key
    · omega
  · rw [if_neg hlt]
    have h0 : size - s.length = 0 := by omega
    have e : padded s size pmode padding = s := by cases pmode <;> simp [padded, h0]
    rw [e] at key ⊢
    exact key

/-- A text that is too long, a value without text, or a field that does not fit: `false`, and nothing changes. -/
theorem C49_fails_unchanged (pre room : List UInt8) (text : Option (List UInt8)) (marks : List (Nat × Nat)) (size : Nat) (pmode : Padding) (padding : UInt8)
    (hL : (pre ++ room).length < 2 ^ 63) (hsz : size < 2 ^ 63) (h : room.length < size ∨ text = none ∨ ∃ s, text = some s ∧ size < s.length) :
    writeField text size pmode padding (at' pre room marks) = ok (false, at' pre room marks) := by
  unfold writeField
  split
  · rename_i hc
    simp only [List.length_append] at hc hL
    rw [if_neg (by omega)]
    rcases h with h | rfl | ⟨s, rfl, h⟩
    · omega
    · rfl
    · simp only
      rw [if_pos h]
  · rfl

/-- Missing: right padding of a non-empty text shorter than the field.  The text is resized to `size - length` characters and `size` bytes are read from
it: outside the string, for every such text. -/
theorem C49_right_padding_broken (pre room s : List UInt8) (marks : List (Nat × Nat)) (size : Nat) (padding : UInt8)
    (hL : (pre ++ room).length < 2 ^ 63) (hsz : size < 2 ^ 32) (h0 : s ≠ []) (hs : s.length < size) (hroom : size ≤ room.length) :
    writeField (some s) size .right padding (at' pre room marks) = ub := by
  have hpos := List.length_pos_iff.mpr h0
  unfold writeField
  rw [if_pos (by simp at hL ⊢; omega), if_neg (by omega)]
  simp only
  rw [if_neg (by omega), if_pos hs]
  unfold writePtr
  rw [if_neg (by simp), ok_bind]
  simp only [if_true]
  rw [size32_of_lt hsz, Nat.mul_one]
  unfold writeRaw
  rw [if_pos (by simp [capacityOk] at hL ⊢; omega)]
  have : slice (resize padding s (size - s.length)) 0 size = ub := by simp [slice]; omega
  rw [this]
  rfl

/-- "42" left-padded to five bytes. -/
example : writeField (some [52, 50]) 5 .left 32 (at' [1] [0, 0, 0, 0, 0, 9] []) = ok (true, at' [1, 32, 32, 32, 52, 50] [9] []) := by decide +kernel

/-- "42" right-padded to five bytes. -/
example : writeField (some [52, 50]) 5 .right 32 (at' [1] [0, 0, 0, 0, 0, 9] []) = ub :=
  C49_right_padding_broken _ _ _ _ _ _ (by decide) (by decide) (by decide) (by decide) (by decide)

/-! ## Concrete cases of C48 -/

theorem some_reads (o : ROp) (ho : o ∈ [ROp.mark, .seek 3, .resetToMark]) : o.Allowed (fun _ => 4) := by
  simp only [List.mem_cons, List.not_mem_nil, or_false] at ho
  rcases ho with rfl | rfl | rfl
  · trivial
  · simp [ROp.Allowed]
  · trivial

theorem some_writes (o : WOp) (ho : o ∈ [WOp.mark, .put (.pod 2) [1, 2], .put .str [104, 105]]) : o.Allowed (fun _ => 4) := by
  simp only [List.mem_cons, List.not_mem_nil, or_false] at ho
  rcases ho with rfl | rfl | rfl
  · trivial
  · exact ⟨by show 2 < 2 ^ 31; decide, rfl⟩
  · exact ⟨trivial, trivial⟩

example := C48_reader_history_partial (fun _ => 4) [255, 255, 255, 255, 1, 0, 0, 0, 7] (by decide) _ some_reads

example := C48_reader_pod (fun _ => 4) [255, 255, 255, 255, 1, 0, 0, 0, 7] (by decide) _ some_reads [true, true, true] _ rfl 4 (by decide) [0, 0, 0, 0]

example := C48_writer_history_partial (fun _ => 4) (List.replicate 20 0) (by decide) _ some_writes

example := C48_writer_keeps_prefix (fun _ => 4) (List.replicate 20 0) (by decide) _ some_writes [true, true, true] _ rfl (.pod 3) [7, 8, 9] (by show 3 < 2 ^ 31; decide) rfl

end Strtk.Binary
