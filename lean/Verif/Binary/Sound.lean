import Verif.Binary.Moves

/-!
# A successful read is justified by the bytes (C48)

`Decodes t prior bs v`: the bytes `bs` stand for a value of type `t`, and putting it into a target that held `prior` gives `v`.
-/

namespace Strtk.Binary
open Outcome Mem

/-- The elements `xs` stand one after the other in `bss`; each is read into the object that holds the element before (the first into `prior`). -/
def InTurn {V : Type} (R : V → List UInt8 → V → Prop) : V → List (List UInt8) → List V → Prop
  | _, [], [] => True
  | prior, bs :: bss, x :: xs => R prior bs x ∧ InTurn R x bss xs
  | _, _, _ => False

/-- The meaning of bytes, by type: objects are their bytes; texts and containers are preceded by their number of elements, little endian. -/
def Decodes : (t : Ty) → t.Val → List UInt8 → t.Val → Prop
  | .pod n => fun (_ : List UInt8) bs (v : List UInt8) => bs.length = n ∧ v = bs
  | .str => fun (_ : List UInt8) bs (v : List UInt8) => ∃ l, l.length = 4 ∧ leNat l = v.length ∧ bs = l ++ v
  | .pstr k => fun (_ : List UInt8) bs (v : List UInt8) => ∃ l, l.length = k ∧ leNat l = v.length ∧ bs = l ++ v
  | .pair a b => fun (p : a.Val × b.Val) bs (v : a.Val × b.Val) => ∃ b1 b2, bs = b1 ++ b2 ∧ Decodes a p.1 b1 v.1 ∧ Decodes b p.2 b2 v.2
  | .seq t => fun (p : List t.Val) bs (v : List t.Val) => ∃ (l : List UInt8) (bss : List (List UInt8)) (xs : List t.Val), l.length = 4 ∧ leNat l = xs.length ∧ InTurn (Decodes t) t.dflt bss xs ∧
      bs = l ++ bss.flatten ∧ v = p ++ xs
  | .podVec n => fun (_ : List (List UInt8)) bs (v : List (List UInt8)) => ∃ l, l.length = 4 ∧ leNat l = v.length ∧ (∀ x ∈ v, x.length = n) ∧
      bs = l ++ v.flatten
  | .objVec t => fun (_ : List t.Val) bs (v : List t.Val) => ∃ (l : List UInt8) (bss : List (List UInt8)), l.length = 4 ∧ leNat l = v.length ∧ InTurn (Decodes t) t.dflt bss v ∧
      bs = l ++ bss.flatten
  | .set n lt => fun (p : List (List UInt8)) bs (v : List (List UInt8)) => ∃ (l : List UInt8) (xs : List (List UInt8)), l.length = 4 ∧ leNat l = xs.length ∧ (∀ x ∈ xs, x.length = n) ∧
      bs = l ++ xs.flatten ∧ v = xs.foldl (fun s x => setInsert lt x s) p

/-- From `st` to `st'` exactly the bytes `bs`, which stand at the position, were consumed. -/
def Consumed (st : St) (bs : List UInt8) (st' : St) : Prop :=
  st' = { st with ptr := st.ptr + bs.length, amount := st.amount + bs.length } ∧ bs <+: st.buf.drop st.ptr

theorem Consumed.nil (st : St) : Consumed st [] st := ⟨rfl, List.nil_prefix⟩

theorem Consumed.trans {st st1 st2 : St} {a b : List UInt8} (h1 : Consumed st a st1) (h2 : Consumed st1 b st2) : Consumed st (a ++ b) st2 := by
  obtain ⟨rfl, r, h1⟩ := h1
  obtain ⟨rfl, h2⟩ := h2
  refine ⟨by simp [Nat.add_assoc], ?_⟩
  simp only at h2
  rw [← List.drop_drop, ← h1, List.drop_left] at h2
  rw [← h1]
  exact (List.prefix_append_right_inj a).mpr h2

theorem takeBytes_consumed {st st' : St} {n : Nat} {bs : List UInt8} (h : takeBytes st n = ok (bs, st')) : Consumed st bs st' ∧ bs.length = n := by
  unfold takeBytes slice at h
  split at h
  · rename_i hle
    simp only [ok_bind, ok.injEq, Prod.mk.injEq] at h
    obtain ⟨rfl, rfl⟩ := h
    have hl : ((st.buf.drop st.ptr).take n).length = n := by simp; omega
    exact ⟨⟨by rw [hl], List.take_prefix _ _⟩, hl⟩
  · simp at h

theorem readPod_consumed {st st' : St} {n : Nat} {bs : List UInt8} (h : readPod n st = ok (some bs, st')) : Consumed st bs st' ∧ bs.length = n := by
  unfold readPod at h
  split at h
  · obtain ⟨⟨b, s⟩, h1, h2⟩ := bind_eq_ok.mp h
    simp only [ok.injEq, Prod.mk.injEq, Option.some.injEq] at h2
    obtain ⟨rfl, rfl⟩ := h2
    exact takeBytes_consumed h1
  · simp at h

/-- The common shape: a length, then a body. -/
theorem prefixed_consumed {V : Type} {k : Nat} {prior v : V} {body : Nat → St → Outcome (Bool × V × St)} {st st' : St}
    (h : (do
      let (r, st) ← readPod k st
      match r with
      | none => ok (false, prior, st)
      | some l => body (leNat l) st) = ok (true, v, st')) :
    ∃ l st1, Consumed st l st1 ∧ l.length = k ∧ body (leNat l) st1 = ok (true, v, st') := by
  obtain ⟨⟨r, st1⟩, h1, h2⟩ := bind_eq_ok.mp h
  cases r with
  | none => simp at h2
  | some l => exact ⟨l, st1, (readPod_consumed h1).1, (readPod_consumed h1).2, h2⟩

theorem readLoop_consumed {V : Type} (rd : V → St → Outcome (Bool × V × St)) (R : V → List UInt8 → V → Prop)
    (h : ∀ p st v st', rd p st = ok (true, v, st') → ∃ bs, R p bs v ∧ Consumed st bs st') (n : Nat) :
    ∀ (p : V) (st : St) (xs : List V) (st' : St), readLoop rd n p st = ok (true, xs, st') →
      ∃ bss, xs.length = n ∧ InTurn R p bss xs ∧ Consumed st bss.flatten st' := by
  induction n with
  | zero =>
    intro p st xs st' hr
    simp only [readLoop, ok.injEq, Prod.mk.injEq, true_and] at hr
    obtain ⟨rfl, rfl⟩ := hr
    exact ⟨[], rfl, trivial, Consumed.nil _⟩
  | succ n ih =>
    intro p st xs st' hr
    unfold readLoop at hr
    obtain ⟨⟨good, x, st1⟩, h1, h2⟩ := bind_eq_ok.mp hr
    cases good with
    | false => simp at h2
    | true =>
      simp only [if_true] at h2
      obtain ⟨⟨good, rest, st2⟩, h3, h4⟩ := bind_eq_ok.mp h2
      simp only [ok.injEq, Prod.mk.injEq] at h4
      obtain ⟨rfl, rfl, rfl⟩ := h4
      obtain ⟨bs, hR, hc⟩ := h p st x st1 h1
      obtain ⟨bss, i1, i2, i3⟩ := ih x st1 rest st2 h3
      exact ⟨bs :: bss, by simp [i1], ⟨hR, i2⟩, hc.trans i3⟩

theorem readPodVal_consumed {n : Nat} (p : List UInt8) (st : St) (v : List UInt8) (st' : St) (h : readPodVal n p st = ok (true, v, st')) :
    ∃ bs, (bs.length = n ∧ v = bs) ∧ Consumed st bs st' := by
  unfold readPodVal at h
  obtain ⟨⟨r, st1⟩, h1, h2⟩ := bind_eq_ok.mp h
  cases r with
  | none => simp at h2
  | some bs =>
    simp only [ok.injEq, Prod.mk.injEq, true_and] at h2
    obtain ⟨rfl, rfl⟩ := h2
    exact ⟨bs, ⟨(readPod_consumed h1).2, rfl⟩, (readPod_consumed h1).1⟩

theorem inTurn_pods {n : Nat} : ∀ (bss xs : List (List UInt8)) (p : List UInt8), InTurn (fun _ bs v => bs.length = n ∧ v = bs) p bss xs →
    bss = xs ∧ ∀ x ∈ xs, x.length = n := by
  intro bss
  induction bss with
  | nil => intro xs p h; cases xs with
    | nil => simp
    | cons => exact h.elim
  | cons b bss ih =>
    intro xs p h
    cases xs with
    | nil => exact h.elim
    | cons x xs =>
      obtain ⟨⟨h1, rfl⟩, h2⟩ := h
      obtain ⟨rfl, h3⟩ := ih xs x h2
      exact ⟨rfl, by simpa using ⟨h1, h3⟩⟩

theorem chunks_pieces (n : Nat) : ∀ (k : Nat) (bs : List UInt8), bs.length = n * k → (chunks n k bs).flatten = bs ∧ (chunks n k bs).length = k ∧
    ∀ x ∈ chunks n k bs, x.length = n := by
  intro k
  induction k with
  | zero => intro bs h; simp at h; subst h; simp [chunks]
  | succ k ih =>
    intro bs h
    rw [Nat.mul_succ] at h
    obtain ⟨h1, h2, h3⟩ := ih (bs.drop n) (by rw [List.length_drop]; omega)
    refine ⟨by simp [chunks, h1], by simp [chunks, h2], ?_⟩
    intro x hx
    rcases List.mem_cons.mp hx with rfl | hx
    · rw [List.length_take]; omega
    · exact h3 x hx

theorem readStr_consumed (prior : List UInt8) (st : St) (v : List UInt8) (st' : St) (h : readStr prior st = ok (true, v, st')) :
    ∃ bs, Decodes .str prior bs v ∧ Consumed st bs st' := by
  obtain ⟨l, st1, h1, h2, h3⟩ := prefixed_consumed (k := 4) (prior := prior)
    (body := fun n st => if capacityOk st n then do let (bs, st) ← takeBytes st n; ok (true, bs, st) else ok (false, prior, st)) h
  simp only at h3
  split at h3
  · obtain ⟨⟨bs, st2⟩, h4, h5⟩ := bind_eq_ok.mp h3
    simp only [ok.injEq, Prod.mk.injEq, true_and] at h5
    obtain ⟨rfl, rfl⟩ := h5
    obtain ⟨h6, h7⟩ := takeBytes_consumed h4
    exact ⟨l ++ bs, ⟨l, h2, h7.symm, rfl⟩, h1.trans h6⟩
  · simp at h3

theorem readPstr_consumed (k : Nat) (prior : List UInt8) (st : St) (v : List UInt8) (st' : St) (h : readPstr k prior st = ok (true, v, st')) :
    ∃ bs, Decodes (.pstr k) prior bs v ∧ Consumed st bs st' := by
  obtain ⟨l, st1, h1, h2, h3⟩ := prefixed_consumed (k := k) (prior := prior)
    (body := fun n st => if capacityOk st n then do let (bs, st) ← takeBytes st n; ok (true, bs, st) else ok (false, resize 0 prior n, st)) h
  simp only at h3
  split at h3
  · obtain ⟨⟨bs, st2⟩, h4, h5⟩ := bind_eq_ok.mp h3
    simp only [ok.injEq, Prod.mk.injEq, true_and] at h5
    obtain ⟨rfl, rfl⟩ := h5
    obtain ⟨h6, h7⟩ := takeBytes_consumed h4
    exact ⟨l ++ bs, ⟨l, h2, h7.symm, rfl⟩, h1.trans h6⟩
  · simp at h3

theorem readPair_consumed {A B : Type} (ra : A → St → Outcome (Bool × A × St)) (rb : B → St → Outcome (Bool × B × St)) (RA : A → List UInt8 → A → Prop)
    (RB : B → List UInt8 → B → Prop) (ha : ∀ p st v st', ra p st = ok (true, v, st') → ∃ bs, RA p bs v ∧ Consumed st bs st')
    (hb : ∀ p st v st', rb p st = ok (true, v, st') → ∃ bs, RB p bs v ∧ Consumed st bs st') (prior : A × B) (st : St) (v : A × B) (st' : St)
    (h : readPair ra rb prior st = ok (true, v, st')) :
    ∃ bs, (∃ b1 b2, bs = b1 ++ b2 ∧ RA prior.1 b1 v.1 ∧ RB prior.2 b2 v.2) ∧ Consumed st bs st' := by
  obtain ⟨⟨good, x, st1⟩, h1, h2⟩ := bind_eq_ok.mp h
  cases good with
  | false => simp at h2
  | true =>
    simp only [if_true] at h2
    obtain ⟨⟨good, y, st2⟩, h3, h4⟩ := bind_eq_ok.mp h2
    simp only [ok.injEq, Prod.mk.injEq] at h4
    obtain ⟨rfl, rfl, rfl⟩ := h4
    obtain ⟨b1, d1, c1⟩ := ha _ _ _ _ h1
    obtain ⟨b2, d2, c2⟩ := hb _ _ _ _ h3
    exact ⟨b1 ++ b2, ⟨b1, b2, rfl, d1, d2⟩, c1.trans c2⟩

theorem readSeq_consumed {V : Type} (rd : V → St → Outcome (Bool × V × St)) (R : V → List UInt8 → V → Prop)
    (ih : ∀ p st v st', rd p st = ok (true, v, st') → ∃ bs, R p bs v ∧ Consumed st bs st') (size : Nat) (fresh : V) (prior : List V) (st : St) (v : List V)
    (st' : St) (h : readSeq rd size fresh prior st = ok (true, v, st')) :
    ∃ bs, (∃ (l : List UInt8) (bss : List (List UInt8)) (xs : List V), l.length = 4 ∧ leNat l = xs.length ∧ InTurn R fresh bss xs ∧
      bs = l ++ bss.flatten ∧ v = prior ++ xs) ∧ Consumed st bs st' := by
  obtain ⟨l, st1, h1, h2, h3⟩ := prefixed_consumed (k := 4) (prior := prior) (body := fun n st => if capacityOk st (n * size) then do
    let (good, xs, st) ← readLoop rd n fresh st
    ok (good, prior ++ xs, st) else ok (false, prior, st)) h
  simp only at h3
  split at h3
  · obtain ⟨⟨good, xs, st2⟩, h4, h5⟩ := bind_eq_ok.mp h3
    simp only [ok.injEq, Prod.mk.injEq] at h5
    obtain ⟨rfl, rfl, rfl⟩ := h5
    obtain ⟨bss, g1, g2, g3⟩ := readLoop_consumed rd R ih (leNat l) _ _ _ _ h4
    exact ⟨l ++ bss.flatten, ⟨l, bss, xs, h2, g1.symm, g2, rfl, rfl⟩, h1.trans g3⟩
  · simp at h3

theorem readObjVec_consumed {V : Type} (rd : V → St → Outcome (Bool × V × St)) (R : V → List UInt8 → V → Prop)
    (ih : ∀ p st v st', rd p st = ok (true, v, st') → ∃ bs, R p bs v ∧ Consumed st bs st') (size : Nat) (fresh : V) (prior : List V) (st : St) (v : List V)
    (st' : St) (h : readObjVec rd size fresh prior st = ok (true, v, st')) :
    ∃ bs, (∃ (l : List UInt8) (bss : List (List UInt8)), l.length = 4 ∧ leNat l = v.length ∧ InTurn R fresh bss v ∧ bs = l ++ bss.flatten) ∧
      Consumed st bs st' := by
  obtain ⟨l, st1, h1, h2, h3⟩ := prefixed_consumed (k := 4) (prior := prior) (body := fun n st => if capacityOk st (n * size) then do
    let (good, xs, st) ← readLoop rd n fresh st
    ok (good, xs ++ (resize fresh prior n).drop xs.length, st) else ok (false, prior, st)) h
  simp only at h3
  split at h3
  · obtain ⟨⟨good, xs, st2⟩, h4, h5⟩ := bind_eq_ok.mp h3
    simp only [ok.injEq, Prod.mk.injEq] at h5
    obtain ⟨rfl, h5, rfl⟩ := h5
    obtain ⟨bss, g1, g2, g3⟩ := readLoop_consumed rd R ih (leNat l) _ _ _ _ h4
    have hd : (resize fresh prior (leNat l)).drop xs.length = [] := by
      apply List.drop_of_length_le
      rw [g1]
      simp [resize]; omega
    rw [hd, List.append_nil] at h5
    subst h5
    exact ⟨l ++ bss.flatten, ⟨l, bss, h2, g1.symm, g2, rfl⟩, h1.trans g3⟩
  · simp at h3

theorem readPodVec_consumed (ev : Outcome Unit) (n : Nat) (prior : List (List UInt8)) (st : St) (v : List (List UInt8)) (st' : St)
    (h : readPodVec ev n prior st = ok (true, v, st')) : ∃ bs, Decodes (.podVec n) prior bs v ∧ Consumed st bs st' := by
  obtain ⟨l, st1, h1, h2, h3⟩ := prefixed_consumed (k := 4) (prior := prior) (body := fun m st => if capacityOk st (m * n) then do
    (if m = 0 then ev else ok ())
    let (bs, st) ← takeBytes st (n * m)
    ok (true, chunks n m bs, st) else ok (false, prior, st)) h
  simp only at h3
  split at h3
  · obtain ⟨_, _, h3⟩ := bind_eq_ok.mp h3
    obtain ⟨⟨bs, st2⟩, h4, h5⟩ := bind_eq_ok.mp h3
    simp only [ok.injEq, Prod.mk.injEq, true_and] at h5
    obtain ⟨rfl, rfl⟩ := h5
    obtain ⟨h6, h7⟩ := takeBytes_consumed h4
    obtain ⟨c1, c2, c3⟩ := chunks_pieces n (leNat l) bs h7
    exact ⟨l ++ bs, ⟨l, h2, c2.symm, c3, by rw [c1]⟩, h1.trans h6⟩
  · simp at h3

theorem readSet_consumed (n : Nat) (lt : List UInt8 → List UInt8 → Bool) (prior : List (List UInt8)) (st : St) (v : List (List UInt8)) (st' : St)
    (h : readSet n lt prior st = ok (true, v, st')) : ∃ bs, Decodes (.set n lt) prior bs v ∧ Consumed st bs st' := by
  obtain ⟨l, st1, h1, h2, h3⟩ := prefixed_consumed (k := 4) (prior := prior) (body := fun m st => if capacityOk st (m * n) then do
    let (good, xs, st) ← readLoop (readPodVal n) m (List.replicate n 0) st
    ok (good, xs.foldl (fun s x => setInsert lt x s) prior, st) else ok (false, prior, st)) h
  simp only at h3
  split at h3
  · obtain ⟨⟨good, xs, st2⟩, h4, h5⟩ := bind_eq_ok.mp h3
    simp only [ok.injEq, Prod.mk.injEq] at h5
    obtain ⟨rfl, rfl, rfl⟩ := h5
    obtain ⟨bss, g1, g2, g3⟩ := readLoop_consumed (readPodVal n) (fun _ bs v => bs.length = n ∧ v = bs) readPodVal_consumed (leNat l) _ _ _ _ h4
    obtain ⟨rfl, g4⟩ := inTurn_pods bss xs _ g2
    exact ⟨l ++ bss.flatten, ⟨l, bss, h2, g1.symm, g4, rfl, rfl⟩, h1.trans g3⟩
  · simp at h3

/-- **C48**: whenever a read returns `true`, the value is what the bytes at the position stand for, and exactly these bytes were consumed. So data that
ends too early, or inside an element, makes the read return `false`. -/
theorem C48_read_justified (sz : Ty → Nat) (ev : Outcome Unit) (t : Ty) : ∀ (prior : t.Val) (st : St) (v : t.Val) (st' : St),
    read sz ev t prior st = ok (true, v, st') → ∃ bs, Decodes t prior bs v ∧ Consumed st bs st' := by
  induction t with
  | pod n => exact readPodVal_consumed
  | str => exact readStr_consumed
  | pstr k => exact readPstr_consumed k
  | pair a b iha ihb => exact readPair_consumed _ _ _ _ iha ihb
  | seq t ih => exact readSeq_consumed _ _ ih _ _
  | podVec n => exact readPodVec_consumed ev n
  | objVec t ih => exact readObjVec_consumed _ _ ih _ _
  | set n lt => exact readSet_consumed n lt

/-- A deque of two texts; and the same bytes cut off inside the second text. -/
example : (read (fun _ => 1) (ok ()) (.seq .str) [] (St.fresh [2, 0, 0, 0, 1, 0, 0, 0, 65, 2, 0, 0, 0, 66, 67]) >>=
      fun (r : Bool × List (List UInt8) × St) => ok (r.1, r.2.1)) = ok (true, [[65], [66, 67]]) ∧
    (read (fun _ => 1) (ok ()) (.seq .str) [] (St.fresh [2, 0, 0, 0, 1, 0, 0, 0, 65, 2, 0, 0, 0, 66]) >>=
      fun (r : Bool × List (List UInt8) × St) => ok (r.1, r.2.1)) = ok (false, [[65]]) := by decide +kernel

/-! ## Writes that are refused as a whole -/

theorem capacity_short (st : St) (n : Nat) (hw : n + st.amount < 2 ^ 64) (h : st.buf.length < st.amount + n) : capacityOk st n = false := by
  unfold capacityOk
  rw [Nat.mod_eq_of_lt hw]
  exact decide_eq_false (by omega)

/-- **C48**: a vector for whose length and elements (at their size in memory) there is no room is refused before anything is written. -/
theorem C48_vector_refused (sz : Ty → Nat) (ev : Outcome Unit) (t : Ty) (v : List t.Val) (st : St) (hv : v.length < 2 ^ 32)
    (hw : v.length * sz t + 4 + st.amount < 2 ^ 64) (h : st.buf.length < st.amount + (v.length * sz t + 4)) :
    write sz ev (.objVec t) v st = ok (false, st) := by
  show writeObjVec (write sz ev t) (sz t) v st = _
  unfold writeObjVec
  have e : size32 v.length = v.length := Nat.mod_eq_of_lt hv
  rw [e, capacity_short st _ hw h]
  rfl

/-- **C48**: likewise for vectors of plain values. -/
theorem C48_pod_vector_refused (sz : Ty → Nat) (ev : Outcome Unit) (k : Nat) (v : List (List UInt8)) (st : St) (hv : v.length < 2 ^ 32)
    (hw : v.length * k + 4 + st.amount < 2 ^ 64) (h : st.buf.length < st.amount + (v.length * k + 4)) :
    write sz ev (.podVec k) v st = ok (false, st) := by
  show writePodVec ev k v st = _
  unfold writePodVec
  have e : size32 v.length = v.length := Nat.mod_eq_of_lt hv
  rw [e, capacity_short st _ hw h]
  rfl

/-- A vector of two texts (32 bytes each in memory) does not go into 67 bytes, although its written form has only 14. -/
example : write (fun _ => 32) (ok ()) (.objVec .str) ([[65], [66]] : List (List UInt8)) (St.fresh (List.replicate 67 0)) =
    ok (false, St.fresh (List.replicate 67 0)) ∧
    (write (fun _ => 32) (ok ()) (.objVec .str) ([[65], [66]] : List (List UInt8)) (St.fresh (List.replicate 68 0)) >>= fun r => ok (r.1, r.2.amount)) = ok (true, 14) := by
  decide +kernel

end Strtk.Binary
