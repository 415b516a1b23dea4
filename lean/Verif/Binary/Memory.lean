import Verif.Binary.Room
import Verif.Binary.Sound
import Verif.Binary.Moves
import Mathlib.Tactic.Ring

/-!
# How much memory a reader takes for the bytes it is given (strtk.hpp 13957-14112, 14235-14285)

The bytes may come from anywhere.  What a value holds outside itself is counted as the bytes of its texts and, for every element of a
container, the size of the element; what a container needs beside its elements is not counted.
-/

namespace Strtk.Binary
open Outcome Mem

/-! ## Specification -/

/-- The memory a value holds outside itself; `sz` is `sizeof`. -/
def heap (sz : Ty → Nat) : (t : Ty) → t.Val → Nat
  | .pod _ => fun _ => 0
  | .str => fun v : List UInt8 => v.length
  | .pstr _ => fun v : List UInt8 => v.length
  | .pair a b => fun v : a.Val × b.Val => heap sz a v.1 + heap sz b v.2
  | .seq t => fun v : List t.Val => (v.map fun x => sz t + heap sz t x).sum
  | .podVec n => fun v : List (List UInt8) => v.length * n
  | .objVec t => fun v : List t.Val => (v.map fun x => sz t + heap sz t x).sum
  | .set n _ => fun v : List (List UInt8) => v.length * n

/-- Bytes of memory for one byte of the buffer; it depends on the type only. -/
def factor (sz : Ty → Nat) : Ty → Nat
  | .pod _ => 0
  | .pair a b => factor sz a + factor sz b
  | .seq t => sz t + factor sz t
  | .objVec t => sz t + factor sz t + 1
  | _ => 1

/-- No element of a container is written as nothing at all. -/
def Solid : Ty → Prop
  | .pair a b => Solid a ∧ Solid b
  | .seq t => Solid t ∧ 1 ≤ minLen t
  | .objVec t => Solid t ∧ 1 ≤ minLen t
  | _ => True

/-- What short and pascal strings take in addition when their bytes are missing: they are given their length first. -/
def slack : Ty → Nat
  | .pstr k => 256 ^ k
  | .pair a b => slack a + slack b
  | _ => 0

/-! ## Successful reads -/

theorem length_of {bs l r : List UInt8} (h : bs = l ++ r) : bs.length = l.length + r.length := by rw [h, List.length_append]

theorem decodes_minLen : ∀ (t : Ty) (p : t.Val) (bs : List UInt8) (v : t.Val), Decodes t p bs v → minLen t ≤ bs.length
  | .pod n, p, bs, v, h => by
    obtain ⟨h, _⟩ : bs.length = n ∧ (v : List UInt8) = bs := h
    simp only [minLen]; omega
  | .str, p, bs, v, ⟨l, h1, _, h2⟩ => by have := length_of h2; simp only [minLen]; omega
  | .pstr k, p, bs, v, ⟨l, h1, _, h2⟩ => by have := length_of h2; simp only [minLen]; omega
  | .pair a b, p, bs, v, ⟨b1, b2, h1, h2, h3⟩ => by
    have := decodes_minLen a _ _ _ h2
    have := decodes_minLen b _ _ _ h3
    have := length_of h1
    simp only [minLen]; omega
  | .seq t, p, bs, v, ⟨l, _, _, h1, _, _, h2, _⟩ => by have := length_of h2; simp only [minLen]; omega
  | .podVec n, p, bs, v, ⟨l, h1, _, _, h2⟩ => by have := length_of h2; simp only [minLen]; omega
  | .objVec t, p, bs, v, ⟨l, _, h1, _, _, h2⟩ => by have := length_of h2; simp only [minLen]; omega
  | .set n lt, p, bs, v, ⟨l, _, h1, _, _, h2, _⟩ => by have := length_of h2; simp only [minLen]; omega

/-- What a list of elements holds. -/
def elems (sz : Ty → Nat) (t : Ty) (l : List t.Val) : Nat := (l.map fun x => sz t + heap sz t x).sum

theorem elems_append (sz : Ty → Nat) (t : Ty) (a b : List t.Val) : elems sz t (a ++ b) = elems sz t a + elems sz t b := by
  simp [elems]

theorem inTurn_sum {V : Type} (R : V → List UInt8 → V → Prop) (f : V → Nat) (F : Nat) (h : ∀ p bs x, R p bs x → f x ≤ F * bs.length) :
    ∀ (bss : List (List UInt8)) (xs : List V) (p : V), InTurn R p bss xs → (xs.map f).sum ≤ F * bss.flatten.length
  | [], [], _, _ => by simp
  | [], _ :: _, _, h => h.elim
  | _ :: _, [], _, h => h.elim
  | bs :: bss, x :: xs, p, ⟨h1, h2⟩ => by
    have := inTurn_sum R f F h bss xs x h2
    have := h p bs x h1
    rw [List.map_cons, List.sum_cons, List.flatten_cons, List.length_append, Nat.mul_add]
    omega

theorem setInsert_length (lt : List UInt8 → List UInt8 → Bool) (x : List UInt8) : ∀ l : List (List UInt8), (setInsert lt x l).length ≤ l.length + 1
  | [] => by simp [setInsert]
  | a :: l => by
    have := setInsert_length lt x l
    unfold setInsert
    split
    · simp
    · split <;> simp <;> omega

theorem setFold_length (lt : List UInt8 → List UInt8 → Bool) : ∀ (xs p : List (List UInt8)),
    (xs.foldl (fun s x => setInsert lt x s) p).length ≤ p.length + xs.length
  | [], p => by simp
  | x :: xs, p => by
    have := setFold_length lt xs (setInsert lt x p)
    have := setInsert_length lt x p
    rw [List.foldl_cons, List.length_cons]
    omega

theorem element_bound (s f n : Nat) (hn : 1 ≤ n) (g : Nat) (h : g ≤ f * n) : s + g ≤ (s + f) * n := by
  rw [Nat.add_mul]
  have := Nat.le_mul_of_pos_right s hn
  omega

theorem inTurn_elems (sz : Ty → Nat) (t : Ty) (hs : 1 ≤ minLen t)
    (h : ∀ p bs v, Decodes t p bs v → heap sz t v ≤ factor sz t * bs.length) (bss : List (List UInt8)) (xs : List t.Val) (p : t.Val)
    (hx : InTurn (Decodes t) p bss xs) : elems sz t xs ≤ (sz t + factor sz t) * bss.flatten.length :=
  inTurn_sum (Decodes t) (fun x => sz t + heap sz t x) (sz t + factor sz t) (fun q b x hx =>
    element_bound _ _ _ (Nat.le_trans hs (decodes_minLen t q b x hx)) _ (h q b x hx)) bss xs p hx

theorem decodes_heap (sz : Ty → Nat) : ∀ (t : Ty), Elems t → Solid t → ∀ (p : t.Val) (bs : List UInt8) (v : t.Val), Decodes t p bs v →
    heap sz t v ≤ heap sz t p + factor sz t * bs.length ∧ (Replaces t → heap sz t v ≤ factor sz t * bs.length)
  | .pod n, _, _, p, bs, v, _ => by simp [heap]
  | .str, _, _, p, bs, v, ⟨l, _, _, h2⟩ => by
    have := length_of h2
    simp only [heap, factor]
    omega
  | .pstr k, _, _, p, bs, v, ⟨l, _, _, h2⟩ => by
    have := length_of h2
    simp only [heap, factor]
    omega
  | .pair a b, he, hs, p, bs, v, ⟨b1, b2, h1, h2, h3⟩ => by
    obtain ⟨a1, a2⟩ := decodes_heap sz a he.1 hs.1 _ _ _ h2
    obtain ⟨c1, c2⟩ := decodes_heap sz b he.2 hs.2 _ _ _ h3
    have e : factor sz a * b1.length + factor sz b * b2.length ≤ factor sz (.pair a b) * bs.length := by
      rw [h1, List.length_append, factor, Nat.add_mul, Nat.mul_add, Nat.mul_add]
      omega
    constructor
    · simp only [heap]; omega
    · intro hr
      have := a2 hr.1
      have := c2 hr.2
      simp only [heap]; omega
  | .seq t, he, hs, p, bs, v, ⟨l, bss, xs, _, _, h3, h4, h5⟩ => by
    have key := inTurn_elems sz t hs.2 (fun q b x hx => (decodes_heap sz t he.1 hs.1 q b x hx).2 he.2) bss xs _ h3
    refine ⟨?_, fun hr => hr.elim⟩
    have e : (sz t + factor sz t) * bss.flatten.length ≤ (sz t + factor sz t) * bs.length :=
      Nat.mul_le_mul_left _ (by have := length_of h4; omega)
    show elems sz t v ≤ elems sz t p + (sz t + factor sz t) * bs.length
    rw [show v = (show List t.Val from p) ++ xs from h5, elems_append]
    show elems sz t p + elems sz t xs ≤ _
    omega
  | .podVec n, _, _, p, bs, v, ⟨l, _, _, h3, h4⟩ => by
    have := flatten_length_const n v h3
    have := length_of h4
    simp only [heap, factor]
    omega
  | .objVec t, he, hs, p, bs, v, ⟨l, bss, _, _, h3, h4⟩ => by
    have key := inTurn_elems sz t hs.2 (fun q b x hx => (decodes_heap sz t he.1 hs.1 q b x hx).2 he.2) bss v _ h3
    have e : (sz t + factor sz t) * bss.flatten.length ≤ (sz t + factor sz t + 1) * bs.length :=
      Nat.mul_le_mul (by omega) (by have := length_of h4; omega)
    have : heap sz (.objVec t) v ≤ factor sz (.objVec t) * bs.length := by
      show elems sz t v ≤ (sz t + factor sz t + 1) * bs.length
      omega
    exact ⟨by omega, fun _ => this⟩
  | .set n lt, _, _, p, bs, v, ⟨l, xs, _, _, h3, h4, h5⟩ => by
    refine ⟨?_, fun hr => hr.elim⟩
    have h6 := flatten_length_const n xs h3
    have h7 := setFold_length lt xs p
    have h8 := Nat.mul_le_mul_right n h7
    rw [Nat.add_mul] at h8
    have h9 := length_of h4
    have h5 : (v : List (List UInt8)) = xs.foldl (fun s x => setInsert lt x s) p := h5
    rw [← h5] at h8
    simp only [heap, factor]
    omega

/-- **C180**: a value that was read successfully holds at most a fixed number of bytes for each byte that was consumed, beside what the target held
before; a type whose old value is replaced does not even hold that. -/
theorem C180_success_partial (sz : Ty → Nat) (ev : Outcome Unit) (t : Ty) (he : Elems t) (hs : Solid t) (prior : t.Val) (st : St) (v : t.Val) (st' : St)
    (h : read sz ev t prior st = ok (true, v, st')) :
    st.ptr ≤ st'.ptr ∧ heap sz t v ≤ heap sz t prior + factor sz t * (st'.ptr - st.ptr) ∧
    (Replaces t → heap sz t v ≤ factor sz t * (st'.ptr - st.ptr)) := by
  obtain ⟨bs, h1, h2⟩ := C48_read_justified sz ev t prior st v st' h
  have hp : st'.ptr = st.ptr + bs.length := by rw [h2.1]
  obtain ⟨h3, h4⟩ := decodes_heap sz t he hs prior bs v h1
  rw [hp, Nat.add_sub_cancel_left]
  exact ⟨by omega, h3, h4⟩

/-! ## Whatever the answer -/

theorem readLoop_any {V : Type} (rd : V → St → Outcome (Bool × V × St)) (R : V → List UInt8 → V → Prop)
    (h : ∀ p st v st', rd p st = ok (true, v, st') → ∃ bs, R p bs v ∧ Consumed st bs st') (n : Nat) :
    ∀ (p : V) (st : St) (b : Bool) (xs : List V) (st' : St), readLoop rd n p st = ok (b, xs, st') →
      ∃ bss st1, xs.length ≤ n ∧ InTurn R p bss xs ∧ Consumed st bss.flatten st1 := by
  induction n with
  | zero =>
    intro p st b xs st' hr
    simp only [readLoop, ok.injEq, Prod.mk.injEq] at hr
    obtain ⟨_, rfl, rfl⟩ := hr
    exact ⟨[], st, by simp, trivial, Consumed.nil _⟩
  | succ n ih =>
    intro p st b xs st' hr
    unfold readLoop at hr
    obtain ⟨⟨good, x, st1⟩, h1, h2⟩ := bind_eq_ok.mp hr
    cases good with
    | false =>
      simp only [Bool.false_eq_true, if_false, ok.injEq, Prod.mk.injEq] at h2
      obtain ⟨_, rfl, _⟩ := h2
      exact ⟨[], st, by simp, trivial, Consumed.nil _⟩
    | true =>
      simp only [if_true] at h2
      obtain ⟨⟨good, rest, st2⟩, h3, h4⟩ := bind_eq_ok.mp h2
      simp only [ok.injEq, Prod.mk.injEq] at h4
      obtain ⟨rfl, rfl, rfl⟩ := h4
      obtain ⟨bs, hR, hc⟩ := h p st x st1 h1
      obtain ⟨bss, st3, i1, i2, i3⟩ := ih x st1 good rest st2 h3
      exact ⟨bs :: bss, st3, by simpa using i1, ⟨hR, i2⟩, hc.trans i3⟩

theorem Consumed.short {st st' : St} {bs : List UInt8} (h : Consumed st bs st') : bs.length ≤ st.buf.length := by
  have := h.2.length_le
  rw [List.length_drop] at this
  omega

theorem capacityOk_le {L : Nat} (hL : L < 2 ^ 63) {st : St} {n : Nat} (hi : Inside L st) (hn : n < 2 ^ 63) (h : capacityOk st n = true) : n ≤ L := by
  unfold capacityOk at h
  rw [Nat.mod_eq_of_lt (by have := hi.2.2.1; omega)] at h
  have := of_decide_eq_true h
  have := hi.1
  omega

theorem sum_drop_le {V : Type} (f : V → Nat) (l : List V) (k : Nat) : ((l.drop k).map f).sum ≤ (l.map f).sum := by
  have : (l.map f).sum = ((l.take k).map f).sum + ((l.drop k).map f).sum := by
    rw [← List.sum_append, ← List.map_append, List.take_append_drop]
  omega

theorem sum_take_le {V : Type} (f : V → Nat) (l : List V) (k : Nat) : ((l.take k).map f).sum ≤ (l.map f).sum := by
  have : (l.map f).sum = ((l.take k).map f).sum + ((l.drop k).map f).sum := by
    rw [← List.sum_append, ← List.map_append, List.take_append_drop]
  omega

theorem resize_sum {V : Type} (f : V → Nat) (z : V) (prior : List V) (n k : Nat) :
    (((resize z prior n).drop k).map f).sum ≤ (prior.map f).sum + n * f z := by
  have h1 := sum_drop_le f (resize z prior n) k
  have h2 := sum_take_le f prior n
  have h3 : (n - prior.length) * f z ≤ n * f z := Nat.mul_le_mul_right _ (by omega)
  have e : ((resize z prior n).map f).sum = ((prior.take n).map f).sum + (n - prior.length) * f z := by
    simp [resize]
  omega

theorem heap_dflt (sz : Ty → Nat) : ∀ t : Ty, heap sz t t.dflt = 0
  | .pod _ => rfl
  | .str => rfl
  | .pstr _ => rfl
  | .pair a b => by simp only [heap, Ty.dflt, heap_dflt sz a, heap_dflt sz b]
  | .seq _ => rfl
  | .podVec n => by simp [heap, Ty.dflt]
  | .objVec _ => rfl
  | .set n _ => by simp [heap, Ty.dflt]

theorem resize_length {V : Type} (z : V) (p : List V) (n : Nat) : (resize z p n).length = n := by
  rw [resize, List.length_append, List.length_take, List.length_replicate]
  omega

theorem readPod_len {k : Nat} {st st' : St} {l : List UInt8} (hk : k ≤ 4) (h : readPod k st = ok (some l, st')) : leNat l < 2 ^ 32 ∧ leNat l < 256 ^ k := by
  have h1 := leNat_lt l
  rw [(readPod_consumed h).2] at h1
  have h2 : 256 ^ k ≤ 256 ^ 4 := Nat.pow_le_pow_right (by omega) hk
  exact ⟨by omega, h1⟩

/-- The length and the body, whatever the answer. -/
theorem prefixed_any {V : Type} {L k : Nat} (hL : L < 2 ^ 63) (hk : k ≤ 4) {prior v : V} {b : Bool} {body : Nat → St → Outcome (Bool × V × St)} {st st' : St}
    (hi : Inside L st) (h : (do
      let (r, st) ← readPod k st
      match r with
      | none => ok (false, prior, st)
      | some l => body (leNat l) st) = ok (b, v, st')) :
    v = prior ∨ ∃ n st1, n < 2 ^ 32 ∧ n < 256 ^ k ∧ Inside L st1 ∧ body n st1 = ok (b, v, st') := by
  obtain ⟨⟨r, st1⟩, h1, h2⟩ := bind_eq_ok.mp h
  cases r with
  | none =>
    simp only [ok.injEq, Prod.mk.injEq] at h2
    exact .inl h2.2.1.symm
  | some l =>
    have hc := (readPod_consumed h1).1
    refine .inr ⟨leNat l, st1, (readPod_len hk h1).1, (readPod_len hk h1).2, ?_, h2⟩
    have hp := hc.2.length_le
    rw [List.length_drop] at hp
    obtain ⟨i1, i2, i3, i4⟩ := hi
    rw [hc.1]
    exact ⟨i1, by simp only; omega, by simp only; omega, i4⟩

/-- Elements that were read from the buffer, whatever the answer. -/
theorem loop_any (sz : Ty → Nat) (t : Ty) (he : Elems t ∧ Replaces t) (hs : Solid t ∧ 1 ≤ minLen t) {L n : Nat} {st st' : St} {b : Bool} {xs : List t.Val}
    (hi : Inside L st) (h : readLoop (read sz (ok ()) t) n t.dflt st = ok (b, xs, st')) : elems sz t xs ≤ (sz t + factor sz t) * L ∧ xs.length ≤ n := by
  obtain ⟨bss, st1, h1, h2, h3⟩ := readLoop_any _ (Decodes t) (C48_read_justified sz (ok ()) t) n _ _ _ _ _ h
  refine ⟨Nat.le_trans (inTurn_elems sz t hs.2 (fun q b x hx => (decodes_heap sz t he.1 hs.1 q b x hx).2 he.2) bss xs _ h2) ?_, h1⟩
  have := h3.short
  rw [hi.1] at this
  exact Nat.mul_le_mul_left _ this

theorem mul_small {a b : Nat} (ha : a < 2 ^ 32) (hb : b < 2 ^ 31) : a * b < 2 ^ 63 := by
  have := mul_bound ha hb
  omega

theorem read_any {L : Nat} (hL : L < 2 ^ 63) (sz : Ty → Nat) : ∀ (t : Ty), Small sz t → Elems t → Solid t → ∀ (prior : t.Val) (st : St), Inside L st →
    ∀ (b : Bool) (v : t.Val) (st' : St), read sz (ok ()) t prior st = ok (b, v, st') → heap sz t v ≤ heap sz t prior + factor sz t * L + slack t
  | .pod n, _, _, _, p, st, hi, b, v, st', h => by simp [heap]
  | .str, _, _, _, p, st, hi, b, v, st', h => by
    rcases prefixed_any (k := 4) (prior := (p : List UInt8))
      (body := fun n st => if capacityOk st n then do let (bs, st) ← takeBytes st n; ok (true, bs, st) else ok (false, p, st)) hL (by omega) hi h with h1 | ⟨n, st1, h1, _, h2, h3⟩
    · rw [h1]; omega
    · simp only at h3
      split at h3
      · rename_i hc
        obtain ⟨⟨bs, s⟩, h4, h5⟩ := bind_eq_ok.mp h3
        simp only [ok.injEq, Prod.mk.injEq] at h5
        obtain ⟨_, rfl, _⟩ := h5
        have := (takeBytes_consumed h4).2
        have := capacityOk_le hL h2 (by omega) hc
        simp only [heap, factor, slack]; omega
      · simp only [ok.injEq, Prod.mk.injEq] at h3
        rw [← h3.2.1]; omega
  | .pstr k, hk, _, _, p, st, hi, b, v, st', h => by
    rcases prefixed_any (k := k) (prior := (p : List UInt8))
      (body := fun n st => if capacityOk st n then do let (bs, st) ← takeBytes st n; ok (true, bs, st) else ok (false, resize 0 p n, st)) hL hk hi h with h1 | ⟨n, st1, h1, h1', h2, h3⟩
    · rw [h1]; omega
    · simp only at h3
      split at h3
      · rename_i hc
        obtain ⟨⟨bs, s⟩, h4, h5⟩ := bind_eq_ok.mp h3
        simp only [ok.injEq, Prod.mk.injEq] at h5
        obtain ⟨_, rfl, _⟩ := h5
        have := (takeBytes_consumed h4).2
        have := capacityOk_le hL h2 (by omega) hc
        simp only [heap, factor, slack]; omega
      · simp only [ok.injEq, Prod.mk.injEq] at h3
        obtain ⟨_, rfl, _⟩ := h3
        have := resize_length (0 : UInt8) (p : List UInt8) n
        show List.length (resize 0 (p : List UInt8) n) ≤ List.length (α := UInt8) p + 1 * L + 256 ^ k
        omega
  | .pair a c, hs, he, ho, p, st, hi, b, v, st', h => by
    obtain ⟨⟨good, x, st1⟩, h1, h2⟩ := bind_eq_ok.mp (show (do
      let (good, x, st) ← read sz (ok ()) a p.1 st
      if good then do
        let (good, y, st) ← read sz (ok ()) c p.2 st
        ok (good, (x, y), st)
      else ok (false, (x, p.2), st)) = ok (b, v, st') from h)
    have b1 := read_any hL sz a hs.1 he.1 ho.1 _ _ hi _ _ _ h1
    obtain ⟨_, _, _, r1, r2, _⟩ := read_inside hL sz a hs.1 p.1 st hi
    rw [h1] at r1
    simp only [ok.injEq, Prod.mk.injEq] at r1
    obtain ⟨rfl, rfl, rfl⟩ := r1
    have e : factor sz (.pair a c) * L = factor sz a * L + factor sz c * L := by rw [factor, Nat.add_mul]
    cases good with
    | false =>
      simp only [Bool.false_eq_true, if_false, ok.injEq, Prod.mk.injEq] at h2
      obtain ⟨_, rfl, _⟩ := h2
      rw [e]
      simp only [heap, slack]
      omega
    | true =>
      simp only [if_true] at h2
      obtain ⟨⟨good, y, st2⟩, h3, h4⟩ := bind_eq_ok.mp h2
      simp only [ok.injEq, Prod.mk.injEq] at h4
      obtain ⟨_, rfl, _⟩ := h4
      have b2 := read_any hL sz c hs.2 he.2 ho.2 _ _ r2 _ _ _ h3
      rw [e]
      simp only [heap, slack]
      omega
  | .seq t, hs, he, ho, p, st, hi, b, v, st', h => by
    rcases prefixed_any (k := 4) (prior := (p : List t.Val))
      (body := fun n st => if capacityOk st (n * sz t) then do
        let (good, xs, st) ← readLoop (read sz (ok ()) t) n t.dflt st
        ok (good, List.append (α := t.Val) p xs, st) else ok (false, p, st)) hL (by omega) hi h with h1 | ⟨n, st1, h1, _, h2, h3⟩
    · rw [h1]; omega
    · simp only at h3
      split at h3
      · obtain ⟨⟨g, xs, s⟩, h4, h5⟩ := bind_eq_ok.mp h3
        simp only [ok.injEq, Prod.mk.injEq] at h5
        obtain ⟨_, rfl, _⟩ := h5
        have := (loop_any sz t he ho h2 h4).1
        have := elems_append sz t p xs
        have e : elems sz t p + elems sz t xs ≤ elems sz t p + (sz t + factor sz t) * L + 0 := by omega
        exact Nat.le_trans (Nat.le_of_eq this) e
      · simp only [ok.injEq, Prod.mk.injEq] at h3
        rw [← h3.2.1]; omega
  | .podVec n, hs, _, _, p, st, hi, b, v, st', h => by
    rcases prefixed_any (k := 4) (prior := (p : List (List UInt8)))
      (body := fun l st => if capacityOk st (l * n) then do
        (if l = 0 then ok () else ok ())
        let (bs, st) ← takeBytes st (n * l)
        ok (true, chunks n l bs, st) else ok (false, p, st)) hL (by omega) hi h with h1 | ⟨l, st1, h1, _, h2, h3⟩
    · rw [h1]; omega
    · simp only at h3
      split at h3
      · rename_i hc
        simp only [ite_self, ok_bind] at h3
        obtain ⟨⟨bs, s⟩, h4, h5⟩ := bind_eq_ok.mp h3
        simp only [ok.injEq, Prod.mk.injEq] at h5
        obtain ⟨_, rfl, _⟩ := h5
        have := (takeBytes_consumed h4).2
        have := (chunks_pieces n l bs this).2.1
        have := capacityOk_le hL h2 (mul_small h1 hs) hc
        show (chunks n l bs).length * n ≤ _
        simp only [factor, slack]
        rw [‹(chunks n l bs).length = l›]
        omega
      · simp only [ok.injEq, Prod.mk.injEq] at h3
        rw [← h3.2.1]; omega
  | .objVec t, hs, he, ho, p, st, hi, b, v, st', h => by
    rcases prefixed_any (k := 4) (prior := (p : List t.Val))
      (body := fun n st => if capacityOk st (n * sz t) then do
        let (good, xs, st) ← readLoop (read sz (ok ()) t) n t.dflt st
        ok (good, xs ++ (resize t.dflt (p : List t.Val) n).drop xs.length, st) else ok (false, p, st)) hL (by omega) hi h with h1 | ⟨n, st1, h1, _, h2, h3⟩
    · rw [h1]; omega
    · simp only at h3
      split at h3
      · rename_i hc
        obtain ⟨⟨g, xs, s⟩, h4, h5⟩ := bind_eq_ok.mp h3
        simp only [ok.injEq, Prod.mk.injEq] at h5
        obtain ⟨_, rfl, _⟩ := h5
        have b1 := (loop_any sz t he ho h2 h4).1
        have b2 := resize_sum (fun x => sz t + heap sz t x) t.dflt (p : List t.Val) n xs.length
        simp only [heap_dflt, Nat.add_zero] at b2
        have b3 := capacityOk_le hL h2 (mul_small h1 hs.1) hc
        have b2 : elems sz t ((resize t.dflt (p : List t.Val) n).drop xs.length) ≤ elems sz t p + n * sz t := b2
        show elems sz t _ ≤ elems sz t p + (sz t + factor sz t + 1) * L + 0
        rw [elems_append, Nat.add_mul _ 1]
        omega
      · simp only [ok.injEq, Prod.mk.injEq] at h3
        rw [← h3.2.1]; omega
  | .set n lt, hs, _, _, p, st, hi, b, v, st', h => by
    rcases prefixed_any (k := 4) (prior := (p : List (List UInt8)))
      (body := fun l st => if capacityOk st (l * n) then do
        let (good, xs, st) ← readLoop (readPodVal n) l (List.replicate n 0) st
        ok (good, xs.foldl (fun s x => setInsert lt x s) p, st) else ok (false, p, st)) hL (by omega) hi h with h1 | ⟨l, st1, h1, _, h2, h3⟩
    · rw [h1]; omega
    · simp only at h3
      split at h3
      · rename_i hc
        obtain ⟨⟨g, xs, s⟩, h4, h5⟩ := bind_eq_ok.mp h3
        simp only [ok.injEq, Prod.mk.injEq] at h5
        obtain ⟨_, rfl, _⟩ := h5
        obtain ⟨bss, _, c1, _, _⟩ := readLoop_any _ _ (fun p st v st' => readPodVal_consumed (n := n) p st v st') l _ _ _ _ _ h4
        have c2 := capacityOk_le hL h2 (mul_small h1 hs) hc
        have c3 := Nat.mul_le_mul_right n (setFold_length lt xs p)
        rw [Nat.add_mul] at c3
        have c4 := Nat.mul_le_mul_right n c1
        show (xs.foldl (fun s x => setInsert lt x s) p).length * n ≤ List.length (α := List UInt8) p * n + 1 * L + 0
        omega
      · simp only [ok.injEq, Prod.mk.injEq] at h3
        rw [← h3.2.1]; omega

/-- **C180**: whatever the bytes are and whatever the answer is, what the target holds afterwards is limited by what it held before, the length of the
buffer and, for short and pascal strings, the largest length that can be announced. -/
theorem C180_any_answer_partial (sz : Ty → Nat) (buf : List UInt8) (hL : buf.length < 2 ^ 63) (st : St) (hst : ReaderState sz buf st) (t : Ty)
    (hs : Small sz t) (he : Elems t) (ho : Solid t) (prior : t.Val) :
    ∃ b v st', read sz (ok ()) t prior st = ok (b, v, st') ∧ heap sz t v ≤ heap sz t prior + factor sz t * buf.length + slack t := by
  have hi := hst.inside hL
  obtain ⟨b, v, st', h, _⟩ := read_inside hL sz t hs prior st hi
  exact ⟨b, v, st', h, read_any hL sz t hs he ho prior st hi b v st' h⟩

/-- **C180**: a block that is allocated for its announced number of elements (`T*&` with its length) is as long as the bytes that follow the length, which are in
the buffer. -/
theorem C180_block (elem : Nat) (st : St) (bs : List UInt8) (st' : St) (h : readPtr elem st = ok (some bs, st')) :
    st'.ptr = st.ptr + 4 + bs.length ∧ bs.length + 4 ≤ st.buf.length ∧ ∃ l, l.length = 4 ∧ bs.length = leNat l * elem ∧ (l ++ bs) <+: st.buf.drop st.ptr := by
  unfold readPtr at h
  obtain ⟨⟨r, st1⟩, h1, h2⟩ := bind_eq_ok.mp h
  cases r with
  | none => simp at h2
  | some l =>
    obtain ⟨c1, c2⟩ := readPod_consumed h1
    obtain ⟨d1, d2⟩ := readPod_consumed h2
    have ct := c1.trans d1
    have hs := ct.short
    rw [List.length_append] at hs
    refine ⟨?_, by omega, l, c2, d2, ct.2⟩
    rw [ct.1]
    simp only [List.length_append]
    omega

/-! ## Deques in deques -/

/-- What reading the same elements again and again into one deque leaves in it, each time. -/
def piled {V : Type} (x : List V) : Nat → List V → List (List V)
  | 0, _ => []
  | k + 1, p => (p ++ x) :: piled x k (p ++ x)

theorem readLoop_piled {V : Type} (rd : List V → St → Outcome (Bool × List V × St)) (e : List UInt8) (x : List V) (marks : List (Nat × Nat))
    (h : ∀ p pre post, (pre ++ (e ++ post)).length < 2 ^ 63 → rd p (at' pre (e ++ post) marks) = ok (true, p ++ x, at' (pre ++ e) post marks)) :
    ∀ (k : Nat) (p : List V) (pre : List UInt8), (pre ++ (List.replicate k e).flatten).length < 2 ^ 63 →
      readLoop rd k p (at' pre (List.replicate k e).flatten marks) = ok (true, piled x k p, at' (pre ++ (List.replicate k e).flatten) [] marks) := by
  intro k
  induction k with
  | zero => intro p pre hl; simp [readLoop, piled]
  | succ k ih =>
    intro p pre hl
    rw [List.replicate_succ, List.flatten_cons] at hl ⊢
    unfold readLoop
    rw [h p pre _ hl, ok_bind]
    simp only [if_true]
    rw [ih (p ++ x) (pre ++ e) (by simpa using hl), ok_bind, piled, List.append_assoc]

theorem piled_heap (sz : Ty → Nat) (hz : sz (.pod 1) = 1) (x : List (Ty.pod 1).Val) : ∀ (k : Nat) (p : List (Ty.pod 1).Val),
    k * (2 * p.length) + x.length * (k * (k + 1)) ≤ 2 * elems sz (.seq (.pod 1)) (piled x k p) := by
  intro k
  induction k with
  | zero => intro p; simp [piled]
  | succ k ih =>
    intro p
    have h1 := ih (p ++ x)
    have h2 : heap sz (.seq (.pod 1)) (p ++ x) = p.length + x.length := by
      simp only [heap, hz, Nat.add_zero, List.map_const', List.sum_replicate_nat, Nat.mul_one, List.length_append]
    have h3 : elems sz (.seq (.pod 1)) (piled x (k + 1) p) = sz (.seq (.pod 1)) + heap sz (.seq (.pod 1)) (p ++ x) + elems sz (.seq (.pod 1)) (piled x k (p ++ x)) := by
      have : elems sz (.seq (.pod 1)) (piled x (k + 1) p) = (List.map (fun y => sz (.seq (.pod 1)) + heap sz (.seq (.pod 1)) y) ((p ++ x) :: piled x k (p ++ x))).sum := rfl
      rw [this]
      exact List.sum_cons
    rw [h3, h2]
    rw [List.length_append] at h1
    have e1 : (k + 1) * (2 * p.length) + x.length * ((k + 1) * (k + 1 + 1)) =
        k * (2 * (p.length + x.length)) + x.length * (k * (k + 1)) + 2 * (p.length + x.length) := by ring
    omega

/-- **C180** (negative result): `k` deques of the same `m` bytes take `4 + k * (4 + m)` bytes in the buffer; after reading them into a deque of deques, which answers
`true`, the bytes are held about `k * (k + 1) / 2` times: each deque is read into the object that still holds those before. -/
theorem C180_quadratic (sz : Ty → Nat) (hz : sz (.pod 1) = 1) (x : List (List UInt8)) (hx : ∀ b ∈ x, b.length = 1) (k : Nat)
    (hs : sz (.seq (.pod 1)) ≤ 4 + x.length) (hk : k < 2 ^ 32) (hm : x.length < 2 ^ 32) (hl : 4 + k * (4 + x.length) < 2 ^ 63) :
    ∃ (buf : List UInt8) (v : List (List (List UInt8))) (st' : St), buf.length = 4 + k * (4 + x.length) ∧
      read sz (ok ()) (.seq (.seq (.pod 1))) ([] : List (List (List UInt8))) (St.fresh buf) = ok (true, v, st') ∧
      v.length = k ∧ x.length * (k * (k + 1)) ≤ 2 * heap sz (.seq (.seq (.pod 1))) v := by
  let e : List UInt8 := enc (.seq (.pod 1)) x
  have he : e.length = 4 + x.length := by
    have := flatten_length_const 1 x hx
    show (withLen 4 x.length (x.flatMap (enc (.pod 1)))).length = _
    rw [withLen, List.length_append, leBytes_length]
    have e2 : x.flatMap (enc (.pod 1)) = x.flatten := by
      show x.flatMap (fun v => v) = _
      simp [List.flatMap]
    rw [e2]
    omega
  have hf : (List.replicate k e).flatten.length = k * (4 + x.length) := by
    rw [flatten_length_const (4 + x.length) _ (fun y hy => by rw [List.eq_of_mem_replicate hy, he]), List.length_replicate]
  have hrd : ∀ (p : List (List UInt8)) pre post, (pre ++ (e ++ post)).length < 2 ^ 63 →
      read sz (ok ()) (.seq (.pod 1)) p (at' pre (e ++ post) []) = ok (true, p ++ x, at' (pre ++ e) post []) := fun p pre post h =>
    read_spec sz [] (.seq (.pod 1)) ⟨trivial, trivial, Nat.le_of_eq hz⟩ x ⟨hm, hx⟩ p pre post h
  have hlen : (withLen 4 k (List.replicate k e).flatten).length = 4 + k * (4 + x.length) := by
    rw [withLen, List.length_append, leBytes_length, hf]
  obtain ⟨h1, h2, h3, h4⟩ := readPrefix 4 k hk [] (List.replicate k e).flatten [] [] (by simpa [hlen] using hl)
  refine ⟨withLen 4 k (List.replicate k e).flatten, piled x k [], at' (leBytes 4 k ++ (List.replicate k e).flatten) [] [], hlen, ?_, ?_, ?_⟩
  · show readSeq (read sz (ok ()) (.seq (.pod 1))) (sz (.seq (.pod 1))) [] [] (at' [] (withLen 4 k (List.replicate k e).flatten) []) = _
    unfold readSeq
    rw [List.append_nil, List.append_nil] at h2
    rw [h2, ok_bind]
    simp only [h1]
    rw [if_pos (capacity_at _ _ _ _ (by rw [hf]; exact Nat.mul_le_mul_left _ hs) (by simpa using h3))]
    exact bind_eq_ok.mpr ⟨_, readLoop_piled (V := List UInt8) (read sz (ok ()) (.seq (.pod 1))) e x [] hrd k [] ([] ++ leBytes 4 k) (by simpa using h3), rfl⟩
  · have : ∀ (k : Nat) (p : List (List UInt8)), (piled x k p).length = k := by
      intro k
      induction k with
      | zero => intro p; rfl
      | succ k ih => intro p; simp [piled, ih]
    exact this k []
  · have := piled_heap sz hz x k []
    simp only [List.length_nil, Nat.mul_zero, Nat.zero_add] at this
    exact this

/-! ## Cases -/

/-- Sizes of an implementation with 64-bit pointers. -/
def gcc64 : Ty → Nat
  | .pod n => n
  | .str => 32
  | .pstr _ => 32
  | .pair a b => gcc64 a + gcc64 b
  | .seq _ => 80
  | .podVec _ => 24
  | .objVec _ => 24
  | .set _ _ => 48

/-- A vector of strings: 34 bytes of memory at most for a byte of the buffer. -/
example : factor gcc64 (.objVec .str) = 34 ∧ factor gcc64 .str = 1 ∧ Elems (.objVec .str) ∧ Solid (.objVec .str) := by
  refine ⟨rfl, rfl, ⟨trivial, trivial⟩, trivial, ?_⟩
  decide

example := C180_any_answer_partial gcc64 [1, 0, 0, 0, 1, 0, 0, 0, 65] (by decide) (St.fresh _) ⟨[], [], by simp, rfl⟩ (.objVec .str)
  ⟨by decide, trivial⟩ ⟨trivial, trivial⟩ ⟨trivial, by decide⟩ ([] : List (List UInt8))

/-- A short string that announces 255 bytes and has one: the target has 255 characters afterwards, and the answer is `false`. -/
example : (read gcc64 (ok ()) (.pstr 1) ([] : List UInt8) (St.fresh [255, 65])) = ok (false, List.replicate 255 (0 : UInt8), ⟨[255, 65], 1, 1, []⟩) :=
  rfl

example : ∃ v st', read gcc64 (ok ()) (.seq .str) ([] : List (List UInt8)) (St.fresh ([1, 0, 0, 0] ++ [28, 0, 0, 0] ++ List.replicate 28 65)) = ok (true, v, st') ∧
    heap gcc64 (.seq .str) v = 60 ∧ st'.ptr = 36 :=
  ⟨_, _, rfl, by decide +kernel, by decide +kernel⟩

example := C180_success_partial gcc64 (ok ()) (.seq .str) ⟨trivial, trivial⟩ ⟨trivial, by decide⟩ ([] : List (List UInt8))
  (St.fresh ([1, 0, 0, 0] ++ [28, 0, 0, 0] ++ List.replicate 28 65)) _ _ rfl

example := C180_block 2 (St.fresh [2, 0, 0, 0, 1, 2, 3, 4]) _ _ rfl

example := C180_quadratic gcc64 rfl (List.replicate 100 [7]) (by simp) 50 (by decide) (by decide) (by decide) (by decide)

end Strtk.Binary
