import Verif.Refused.Model
import Verif.Strings.Props
import Verif.Join.Props

/-! # What a string holds when a request for memory was refused -/

namespace Strtk.Refused
open Outcome Mem Strtk.Codec

/-! ## Specification -/

/-- The last request was refused. -/
def Refusal (M : Machine) (before after : State) : Prop := before.asked < after.asked ∧ M.grants (after.asked - 1) = false

/-- A run ends either well, or by the exception of a request that was refused. -/
def Ends {β : Type} (M : Machine) (before : State) (run : Run β) (good : β → State → Prop) (bad : State → Prop) : Prop :=
  (∃ b after, run = ok (some b, after) ∧ before.asked ≤ after.asked ∧ good b after) ∨
  ∃ after, run = ok (none, after) ∧ Refusal M before after ∧ bad after

/-- The whole result, or the text as it was. -/
def AllOrNothing {β : Type} (M : Machine) (before : State) (run : Run β) (answer : β) (result : List Byte) : Prop :=
  Ends M before run (fun b after => b = answer ∧ after.text = result) (fun after => after.text = before.text)

/-- All the pieces behind the text, or only the first ones, each of them whole. -/
def WholePieces (M : Machine) (before : State) (run : Run Unit) (pieces : List (List Byte)) : Prop :=
  Ends M before run (fun _ after => after.text = before.text ++ pieces.flatten)
    (fun after => ∃ k, k < pieces.length ∧ after.text = before.text ++ (pieces.take k).flatten)

/-! ## Rules -/

theorem bind_apply {β γ : Type} (p : Prog β) (f : β → Prog γ) (st : State) : (p >>= f) st = Prog.andThen p f st := rfl

theorem bind_ok {β γ : Type} {p : Prog β} {f : β → Prog γ} {st after : State} {b : β} (h : p st = ok (some b, after)) : (p >>= f) st = f b after := by
  rw [bind_apply, Prog.andThen, h]

theorem bind_none {β γ : Type} {p : Prog β} {f : β → Prog γ} {st after : State} (h : p st = ok (none, after)) : (p >>= f) st = ok (none, after) := by
  rw [bind_apply, Prog.andThen, h]

theorem pure_apply {β : Type} (b : β) (st : State) : (pure b : Prog β) st = ok (some b, st) := rfl

theorem Ends.bind {β γ : Type} {M : Machine} {st : State} {p : Prog β} {f : β → Prog γ} {good : β → State → Prop} {good' : γ → State → Prop}
    {bad bad' : State → Prop} (h : Ends M st (p st) good bad) (hb : ∀ a, bad a → bad' a)
    (hf : ∀ b a, good b a → Ends M a (f b a) good' bad') : Ends M st ((p >>= f) st) good' bad' := by
  rcases h with ⟨b, a, e, l, g⟩ | ⟨a, e, r, g⟩
  · rw [bind_ok e]
    rcases hf b a g with ⟨c, a', e', l', g'⟩ | ⟨a', e', r', g'⟩
    · exact Or.inl ⟨c, a', e', by omega, g'⟩
    · exact Or.inr ⟨a', e', ⟨by have := r'.1; omega, r'.2⟩, g'⟩
  · exact Or.inr ⟨a, bind_none e, r, hb a g⟩

theorem Ends.mono {β : Type} {M : Machine} {st : State} {run : Run β} {good good' : β → State → Prop} {bad bad' : State → Prop}
    (h : Ends M st run good bad) (hg : ∀ b a, good b a → good' b a) (hb : ∀ a, bad a → bad' a) : Ends M st run good' bad' := by
  rcases h with ⟨b, a, e, l, g⟩ | ⟨a, e, r, g⟩
  · exact Or.inl ⟨b, a, e, l, hg b a g⟩
  · exact Or.inr ⟨a, e, r, hb a g⟩

theorem Ends.pure {β : Type} {M : Machine} {st : State} {good : β → State → Prop} {bad : State → Prop} (b : β) (h : good b st) :
    Ends M st ((Pure.pure b : Prog β) st) good bad := Or.inl ⟨b, st, rfl, le_refl _, h⟩

/-- The text and the capacity are as they were. -/
def Same (st : State) : State → Prop := fun a => a.text = st.text ∧ a.cap = st.cap

theorem request_ends (M : Machine) (st : State) : Ends M st (request M st) (fun _ => Same st) (Same st) := by
  unfold request
  cases h : M.grants st.asked
  · exact Or.inr ⟨{ st with asked := st.asked + 1 }, by simp, ⟨by simp, by simpa using h⟩, rfl, rfl⟩
  · exact Or.inl ⟨(), { st with asked := st.asked + 1 }, by simp, by simp, rfl, rfl⟩

theorem requests_ends (M : Machine) : ∀ (k : Nat) (st : State), Ends M st (requests M k st) (fun _ => Same st) (Same st)
  | 0, st => Ends.pure () ⟨rfl, rfl⟩
  | k + 1, st => by
    unfold requests
    refine (request_ends M st).bind (fun _ h => h) ?_
    intro _ a ha
    exact (requests_ends M k a).mono (fun _ c hc => ⟨hc.1.trans ha.1, hc.2.trans ha.2⟩) (fun c hc => ⟨hc.1.trans ha.1, hc.2.trans ha.2⟩)

theorem room_ends (M : Machine) (hM : M.Sound) (n : Nat) (st : State) :
    Ends M st (room M n st) (fun _ a => a.text = st.text ∧ n ≤ a.cap ∧ st.cap ≤ a.cap) (Same st) := by
  unfold room
  split
  · next h => exact Or.inl ⟨(), st, rfl, le_refl _, rfl, h, le_refl _⟩
  · next h =>
    refine (request_ends M st).bind (fun _ h => h) ?_
    intro _ a ha
    have := hM a.cap n
    exact Or.inl ⟨(), { a with cap := M.grow a.cap n }, rfl, le_refl _, ha.1, this, by have := ha.2; simp only; omega⟩

theorem room_enough (M : Machine) (n : Nat) (st : State) (h : n ≤ st.cap) : room M n st = ok (some (), st) := by
  rw [room, if_pos h]

theorem inPlace_ok {β : Type} {f : List Byte → Outcome (β × List Byte)} {st : State} {b : β} {t : List Byte} (h : f st.text = ok (b, t)) :
    inPlace f st = ok (some b, { st with text := t }) := by
  rw [inPlace, h]; rfl

theorem inPlace_ends {β : Type} {M : Machine} {f : List Byte → Outcome (β × List Byte)} {st : State} {b : β} {t : List Byte} {bad : State → Prop}
    (h : f st.text = ok (b, t)) : Ends M st (inPlace f st) (fun c a => c = b ∧ a.text = t ∧ a.cap = st.cap) bad :=
  Or.inl ⟨b, { st with text := t }, inPlace_ok h, le_refl _, rfl, rfl, rfl⟩

theorem resizeTo_ends (M : Machine) (hM : M.Sound) (n : Nat) (st : State) :
    Ends M st (resizeTo M n st) (fun _ a => a.text = resize 0 st.text n ∧ n ≤ a.cap) (fun a => a.text = st.text) := by
  unfold resizeTo
  refine (room_ends M hM n st).bind (fun _ h => h.1) ?_
  intro _ a ha
  refine (inPlace_ends (M := M) (b := ()) (t := resize 0 st.text n) (by rw [ha.1])).mono ?_ (fun _ h => h)
  intro _ c hc
  exact ⟨hc.2.1, by rw [hc.2.2]; exact ha.2.1⟩

theorem resizeTo_enough (M : Machine) (n : Nat) (st : State) (h : n ≤ st.cap) :
    resizeTo M n st = ok (some (), { st with text := resize 0 st.text n }) := by
  rw [resizeTo, bind_ok (room_enough M n st h)]
  exact inPlace_ok rfl

theorem append_ends (M : Machine) (hM : M.Sound) (x : List Byte) (st : State) :
    Ends M st (append M x st) (fun _ a => a.text = st.text ++ x ∧ st.cap ≤ a.cap) (fun a => a.text = st.text) := by
  unfold append
  rw [bind_ok (b := st.text.length) (after := st) rfl]
  refine (room_ends M hM _ st).bind (fun _ h => h.1) ?_
  intro _ a ha
  refine (inPlace_ends (M := M) (b := ()) (t := st.text ++ x) (by rw [ha.1])).mono ?_ (fun _ h => h)
  intro _ c hc
  exact ⟨hc.2.1, by rw [hc.2.2]; exact ha.2.2⟩

theorem append_enough (M : Machine) (x : List Byte) (st : State) (h : st.text.length + x.length ≤ st.cap) :
    append M x st = ok (some (), { st with text := st.text ++ x }) := by
  unfold append
  rw [bind_ok (b := st.text.length) (after := st) rfl, bind_ok (room_enough M _ st h)]
  exact inPlace_ok rfl

theorem assign_ends (M : Machine) (hM : M.Sound) (x : List Byte) (st : State) : AllOrNothing M st (assign M x st) () x := by
  unfold assign AllOrNothing
  refine (room_ends M hM _ st).bind (fun _ h => h.1) ?_
  intro _ a ha
  exact (inPlace_ends (M := M) (b := ()) (t := x) rfl).mono (fun _ c hc => ⟨rfl, hc.2.1⟩) (fun _ h => h)

/-- **C179**: where no request is refused there is no exception, and the run ends well. -/
theorem C179_granted {β : Type} {M : Machine} {st : State} {run : Run β} {good : β → State → Prop} {bad : State → Prop}
    (h : Ends M st run good bad) (hg : ∀ i, st.asked ≤ i → M.grants i = true) : ∃ b after, run = ok (some b, after) ∧ good b after := by
  rcases h with ⟨b, a, e, _, g⟩ | ⟨a, _, r, _⟩
  · exact ⟨b, a, e, g⟩
  · have := hg (a.asked - 1) (by have := r.1; omega)
    rw [r.2] at this
    cases this

/-! ## Codecs -/

private theorem bind_pair {β : Type} {x : Outcome (List Byte)} {t : List Byte} (h : x = ok t) (b : β) :
    (do let buf ← x; ok (b, buf) : Outcome (β × List Byte)) = ok (b, t) := by rw [h]; rfl

/-- **C179**: hexadecimal and back, bitwise operations. -/
theorem C179_codecs (M : Machine) (hM : M.Sound) (st : State) (b s1 s2 : List Byte) (op : BitOp) :
    (∀ t, binToHex b st.text = ok t → AllOrNothing M st (binToHexM M b st) () t) ∧
    (∀ r t, hexToBinStr b st.text = ok (r, t) → AllOrNothing M st (hexToBinM M b st) r t) ∧
    (∀ r t, interleaveStr s1 s2 st.text = ok (r, t) → AllOrNothing M st (interleaveM M s1 s2 st) r t) ∧
    (∀ t, bitwiseTransform op s1 s2 st.text = ok t → AllOrNothing M st (bitwiseTransformM M op s1 s2 st) () t) := by
  refine ⟨?_, ?_, ?_, ?_⟩
  · intro t h
    unfold binToHexM AllOrNothing
    refine (resizeTo_ends M hM _ st).bind (fun _ h => h) ?_
    intro _ a ha
    refine (inPlace_ends (M := M) (b := ()) (t := t) ?_).mono (fun _ c hc => ⟨rfl, hc.2.1⟩) (fun _ h => h)
    rw [ha.1]; exact bind_pair h ()
  · intro r t h
    unfold hexToBinM AllOrNothing
    unfold hexToBinStr at h
    split
    · next hc =>
      rw [if_pos hc] at h
      cases h
      exact Ends.pure _ ⟨rfl, rfl⟩
    · next hc =>
      rw [if_neg hc] at h
      refine (resizeTo_ends M hM _ st).bind (fun _ h => h) ?_
      intro _ a ha
      refine (inPlace_ends (M := M) (b := r) (t := t) ?_).mono (fun _ c hc => ⟨hc.1, hc.2.1⟩) (fun _ h => h)
      rw [ha.1]; exact h
  · intro r t h
    unfold interleaveM AllOrNothing
    unfold interleaveStr at h
    split
    · next hc =>
      rw [if_pos hc] at h
      cases h
      exact Ends.pure _ ⟨rfl, rfl⟩
    · next hc =>
      rw [if_neg hc] at h
      refine (resizeTo_ends M hM _ st).bind (fun _ h => h) ?_
      intro _ a ha
      refine (inPlace_ends (M := M) (b := r) (t := t) ?_).mono (fun _ c hc => ⟨hc.1, hc.2.1⟩) (fun _ h => h)
      rw [ha.1]; exact h
  · intro t h
    unfold bitwiseTransformM AllOrNothing
    unfold bitwiseTransform at h
    split
    · next hc =>
      rw [if_pos hc] at h
      cases h
      exact Ends.pure _ ⟨rfl, rfl⟩
    · next hc =>
      rw [if_neg hc] at h
      refine (resizeTo_ends M hM _ st).bind (fun _ h => h) ?_
      intro _ a ha
      refine (inPlace_ends (M := M) (b := ()) (t := t) ?_).mono (fun _ c hc => ⟨rfl, hc.2.1⟩) (fun _ h => h)
      rw [ha.1]; exact bind_pair h ()

private theorem size_of {x : Outcome (List Byte)} {k n : Nat} {t : List Byte} (h : (do let buf ← x; ok (k, buf)) = ok (n, t)) : n = k := by
  obtain ⟨b, _, h⟩ := bind_eq_ok.mp h
  exact (congrArg Prod.fst (Outcome.ok.inj h)).symm

theorem b64Enc_size (src buf buf' : List Byte) (n : Nat) (h : b64Enc src buf = ok (n, buf')) : n ≤ max 4 (src.length <<< 1) := by
  have hn : n = src.length / 3 * 4 + (if src.length % 3 > 0 then 4 else 0) := by
    unfold b64Enc at h
    obtain ⟨⟨i, b, o⟩, h1, h⟩ := bind_eq_ok.mp h
    simp only at h
    split at h
    · obtain ⟨_, _, h⟩ := bind_eq_ok.mp h
      obtain ⟨_, _, h⟩ := bind_eq_ok.mp h
      obtain ⟨_, _, h⟩ := bind_eq_ok.mp h
      exact size_of h
    · obtain ⟨_, _, h⟩ := bind_eq_ok.mp h
      obtain ⟨_, _, h⟩ := bind_eq_ok.mp h
      obtain ⟨_, _, h⟩ := bind_eq_ok.mp h
      obtain ⟨_, _, h⟩ := bind_eq_ok.mp h
      obtain ⟨_, _, h⟩ := bind_eq_ok.mp h
      exact size_of h
    · exact (congrArg Prod.fst (Outcome.ok.inj h)).symm
  rw [Nat.shiftLeft_eq, hn]
  split <;> omega

theorem b64Dec_size (src buf buf' : List Byte) (n : Nat) (h : b64Dec src buf = ok (n, buf')) : n ≤ src.length := by
  have key : ∃ l, l ≤ src.length ∧ n = 3 * l / 4 := by
    unfold b64Dec at h
    obtain ⟨c2, _, h⟩ := bind_eq_ok.mp h
    have fin : ∀ l, (do
        let (itr, buf, o) ← b64DecRounds src (l / 4) 0 buf 0
        let buf ← match l % 4 with
          | 2 => do
            let c0 ← deref src itr
            let c1 ← deref src (itr + 1)
            let d0 ← deref base64ToBin c0.toNat
            let d1 ← deref base64ToBin c1.toNat
            let block := d0.toNat <<< 18 ||| d1.toNat <<< 12
            puts buf o [BitVec.ofNat 8 ((block >>> 16) &&& 0xFF)]
          | 3 => do
            let c0 ← deref src itr
            let c1 ← deref src (itr + 1)
            let c2 ← deref src (itr + 2)
            let d0 ← deref base64ToBin c0.toNat
            let d1 ← deref base64ToBin c1.toNat
            let d2 ← deref base64ToBin c2.toNat
            let block := d0.toNat <<< 18 ||| d1.toNat <<< 12 ||| d2.toNat <<< 6
            puts buf o [BitVec.ofNat 8 ((block >>> 16) &&& 0xFF), BitVec.ofNat 8 ((block >>> 8) &&& 0xFF)]
          | _ => ok buf
        ok (3 * l / 4, buf)) = ok (n, buf') → n = 3 * l / 4 := by
      intro l h
      obtain ⟨⟨i, b, o⟩, _, h⟩ := bind_eq_ok.mp h
      simp only at h
      split at h
      · obtain ⟨_, _, h⟩ := bind_eq_ok.mp h
        obtain ⟨_, _, h⟩ := bind_eq_ok.mp h
        obtain ⟨_, _, h⟩ := bind_eq_ok.mp h
        obtain ⟨_, _, h⟩ := bind_eq_ok.mp h
        exact size_of h
      · obtain ⟨_, _, h⟩ := bind_eq_ok.mp h
        obtain ⟨_, _, h⟩ := bind_eq_ok.mp h
        obtain ⟨_, _, h⟩ := bind_eq_ok.mp h
        obtain ⟨_, _, h⟩ := bind_eq_ok.mp h
        obtain ⟨_, _, h⟩ := bind_eq_ok.mp h
        obtain ⟨_, _, h⟩ := bind_eq_ok.mp h
        exact size_of h
      · exact (congrArg Prod.fst (Outcome.ok.inj h)).symm
    split at h
    · obtain ⟨l, hl, h⟩ := bind_eq_ok.mp h
      cases hl
      exact ⟨src.length - 2, by omega, fin _ h⟩
    · obtain ⟨l, hl, h⟩ := bind_eq_ok.mp h
      obtain ⟨c1, _, hl⟩ := bind_eq_ok.mp hl
      split at hl
      · cases hl; exact ⟨src.length - 1, by omega, fin _ h⟩
      · cases hl; exact ⟨src.length, le_refl _, fin _ h⟩
  obtain ⟨l, hl, rfl⟩ := key
  omega

/-- **C179**: base64 and back; the second change of size makes the text shorter and asks for nothing. -/
theorem C179_base64 (M : Machine) (hM : M.Sound) (st : State) (src t : List Byte) :
    (b64EncStr src st.text = ok t → AllOrNothing M st (b64EncM M src st) () t) ∧
    (b64DecStr src st.text = ok t → AllOrNothing M st (b64DecM M src st) () t) := by
  constructor
  · intro h
    unfold b64EncStr at h
    obtain ⟨⟨n, buf⟩, h1, h⟩ := bind_eq_ok.mp h
    cases h
    unfold b64EncM AllOrNothing
    refine (resizeTo_ends M hM _ st).bind (fun _ h => h) ?_
    intro _ a ha
    refine (inPlace_ends (M := M) (b := n) (t := buf) (bad := fun _ => False) (by rw [ha.1]; exact h1)).bind (fun _ h => h.elim) ?_
    rintro m c ⟨rfl, hc⟩
    have := b64Enc_size _ _ _ _ h1
    refine Or.inl ⟨(), { c with text := resize 0 buf m }, ?_, le_refl _, rfl, rfl⟩
    rw [resizeTo_enough M m c (by rw [hc.2]; omega), hc.1]
  · intro h
    unfold b64DecStr at h
    obtain ⟨⟨n, buf⟩, h1, h⟩ := bind_eq_ok.mp h
    cases h
    unfold b64DecM AllOrNothing
    refine (resizeTo_ends M hM _ st).bind (fun _ h => h) ?_
    intro _ a ha
    refine (inPlace_ends (M := M) (b := n) (t := buf) (bad := fun _ => False) (by rw [ha.1]; exact h1)).bind (fun _ h => h.elim) ?_
    rintro m c ⟨rfl, hc⟩
    have := b64Dec_size _ _ _ _ h1
    refine Or.inl ⟨(), { c with text := resize 0 buf m }, ?_, le_refl _, rfl, rfl⟩
    rw [resizeTo_enough M m c (by rw [hc.2]; omega), hc.1]

/-- **C179**: with room enough there is no request at all, whatever the machine. -/
theorem C179_room (M : Machine) (st : State) (b s1 s2 : List Byte) (op : BitOp) (p : Byte → Bool) (t : List Byte) :
    (b.length * 2 ≤ st.cap → binToHex b st.text = ok t → binToHexM M b st = ok (some (), { st with text := t })) ∧
    (∀ r, b.length / 2 ≤ st.cap → hexToBinStr b st.text = ok (r, t) → hexToBinM M b st = ok (some r, { st with text := t })) ∧
    (4 ≤ st.cap → b.length * 2 ≤ st.cap → b64EncStr b st.text = ok t → b64EncM M b st = ok (some (), { st with text := t })) ∧
    (b.length ≤ st.cap → b64DecStr b st.text = ok t → b64DecM M b st = ok (some (), { st with text := t })) ∧
    (s1.length ≤ st.cap → bitwiseTransform op s1 s2 st.text = ok t → bitwiseTransformM M op s1 s2 st = ok (some (), { st with text := t })) ∧
    (st.Fits → removeInplaceM M p st = ok (some (), { st with text := st.text.filter fun c => !p c })) := by
  refine ⟨?_, ?_, ?_, ?_, ?_, ?_⟩
  · intro hc h
    unfold binToHexM
    rw [bind_ok (resizeTo_enough M _ st hc)]
    exact inPlace_ok (bind_pair h ())
  · intro r hc h
    unfold hexToBinM
    unfold hexToBinStr at h
    split
    · next hx => rw [if_pos hx] at h; cases h; rfl
    · next hx =>
      rw [if_neg hx] at h
      rw [bind_ok (resizeTo_enough M _ st (by rw [Nat.shiftRight_eq_div_pow]; simpa using hc))]
      exact inPlace_ok h
  · intro h4 hc h
    unfold b64EncStr at h
    obtain ⟨⟨n, buf⟩, h1, h⟩ := bind_eq_ok.mp h
    cases h
    have := b64Enc_size _ _ _ _ h1
    have hm : max 4 (b.length <<< 1) ≤ st.cap := by rw [Nat.shiftLeft_eq]; omega
    unfold b64EncM
    rw [bind_ok (resizeTo_enough M _ st hm), bind_ok (inPlace_ok h1)]
    exact resizeTo_enough M n _ (by simp only; omega)
  · intro hc h
    unfold b64DecStr at h
    obtain ⟨⟨n, buf⟩, h1, h⟩ := bind_eq_ok.mp h
    cases h
    have := b64Dec_size _ _ _ _ h1
    unfold b64DecM
    rw [bind_ok (resizeTo_enough M _ st hc), bind_ok (inPlace_ok h1)]
    exact resizeTo_enough M n _ (by simp only; omega)
  · intro hc h
    unfold bitwiseTransformM
    unfold bitwiseTransform at h
    split
    · next hx => rw [if_pos hx] at h; cases h; rfl
    · next hx =>
      rw [if_neg hx] at h
      rw [bind_ok (resizeTo_enough M _ st hc)]
      exact inPlace_ok (bind_pair h ())
  · intro hf
    obtain ⟨junk, h1, h2⟩ := Strings.C09_remove_inplace_range p st.text
    have hl : st.text.length = (st.text.filter fun c => !p c).length + st.text.countP p := by
      rw [← List.countP_eq_length_filter, List.length_eq_countP_add_countP p, Nat.add_comm]
      simp
    unfold removeInplaceM
    rw [bind_ok (inPlace_ok (b := st.text.countP p) (t := st.text.filter (fun c => !p c) ++ junk) (by rw [h1]; rfl))]
    split
    · rw [bind_ok (b := (st.text.filter (fun c => !p c) ++ junk).length) rfl]
      rw [resizeTo_enough M _ _ (by unfold State.Fits at hf; simp only [List.length_append]; omega)]
      simp [resize, h2]
    · next hz =>
      have : junk = [] := List.length_eq_zero_iff.mp (by omega)
      rw [this, List.append_nil]
      rfl

/-! ## Patterns -/

theorem pushRequests_ends (M : Machine) : ∀ (k n c : Nat) (st : State), Ends M st (pushRequests M k n c st) (fun _ => Same st) (Same st)
  | 0, _, _, st => Ends.pure () ⟨rfl, rfl⟩
  | k + 1, n, c, st => by
    unfold pushRequests
    split
    · refine (request_ends M st).bind (fun _ h => h) ?_
      intro _ a ha
      exact (pushRequests_ends M k _ _ a).mono (fun _ c hc => ⟨hc.1.trans ha.1, hc.2.trans ha.2⟩) (fun c hc => ⟨hc.1.trans ha.1, hc.2.trans ha.2⟩)
    · exact pushRequests_ends M k _ _ st

/-- **C179**: patterns. -/
theorem C179_patterns (M : Machine) (hM : M.Sound) (st : State) (s p r t : List Byte) :
    (Strings.replacePattern s p r st.text = ok t → AllOrNothing M st (replacePatternM M s p r st) () t) ∧
    (Strings.removePattern s p st.text = ok t → AllOrNothing M st (removePatternM M s p st) () t) := by
  have key : ∀ r, Strings.replacePattern s p r st.text = ok t → AllOrNothing M st (replacePatternM M s p r st) () t := by
    intro r h
    unfold Strings.replacePattern at h
    unfold replacePatternM
    split
    · next hc =>
      rw [if_pos hc] at h
      cases h
      exact assign_ends M hM _ st
    · next hc =>
      rw [if_neg hc] at h
      simp only at h
      obtain ⟨deltas, hd, h⟩ := bind_eq_ok.mp h
      unfold AllOrNothing
      refine (request_ends M st).bind (fun _ h => h.1) ?_
      intro _ a ha
      rw [bind_ok (b := deltas) (after := a) (by rw [value, hd]; rfl)]
      refine (pushRequests_ends M _ _ _ a).bind (fun _ h => h.1.trans ha.1) ?_
      intro _ c hc
      have hct : c.text = st.text := hc.1.trans ha.1
      split
      · next hz =>
        rw [if_pos hz] at h
        cases h
        exact (assign_ends M hM _ c).mono (fun _ _ h => h) (fun _ h => h.trans hct)
      · next hz =>
        rw [if_neg hz] at h
        refine (resizeTo_ends M hM _ c).bind (fun _ h => h.trans hct) ?_
        intro _ d hd
        refine (inPlace_ends (M := M) (b := ()) (t := t) ?_).mono (fun _ c hc => ⟨rfl, hc.2.1⟩) (fun _ h => h)
        rw [hd.1, hct]
        obtain ⟨⟨i, j, n⟩, h1, h⟩ := bind_eq_ok.mp h
        rw [show (default : Byte) = 0 from rfl] at h1
        rw [h1, ok_bind]
        simp only at h ⊢
        split
        · next hs =>
          rw [if_pos hs] at h
          obtain ⟨piece, h2, h⟩ := bind_eq_ok.mp h
          rw [h2, ok_bind, h, ok_bind]
        · next hs =>
          rw [if_neg hs] at h
          rw [Outcome.ok.inj h]
  exact ⟨key r, key []⟩

/-! ## Appending -/

theorem WholePieces.cons {M : Machine} {st : State} {p q : Prog Unit} {x : List Byte} {xs : List (List Byte)}
    (h : Ends M st (p st) (fun _ a => a.text = st.text ++ x) (fun a => a.text = st.text))
    (hq : ∀ a, a.text = st.text ++ x → WholePieces M a (q a) xs) : WholePieces M st ((do p; q) st) (x :: xs) := by
  unfold WholePieces
  refine Ends.bind h (fun a ha => ⟨0, by simp, by simpa using ha⟩) ?_
  intro _ a ha
  refine (hq a ha).mono ?_ ?_
  · intro _ c hc; rw [hc, ha]; simp
  · rintro c ⟨k, hk, hc⟩
    exact ⟨k + 1, by simpa using hk, by rw [hc, ha]; simp⟩

theorem WholePieces.silent {β : Type} {M : Machine} {st : State} {p : Prog β} {q : β → Prog Unit} {xs : List (List Byte)} (hx : xs ≠ [])
    (h : Ends M st (p st) (fun _ => Same st) (Same st)) (hq : ∀ b a, a.text = st.text → WholePieces M a (q b a) xs) :
    WholePieces M st ((p >>= q) st) xs := by
  unfold WholePieces
  refine Ends.bind h (fun a ha => ⟨0, List.length_pos_iff.mpr hx, by simpa using ha.1⟩) ?_
  intro b a ha
  have := hq b a ha.1
  unfold WholePieces at this
  rw [ha.1] at this
  exact this

theorem append_piece (M : Machine) (hM : M.Sound) (x : List Byte) (st : State) :
    Ends M st (append M x st) (fun _ a => a.text = st.text ++ x) (fun a => a.text = st.text) :=
  (append_ends M hM x st).mono (fun _ _ h => h.1) (fun _ h => h)

theorem append_last (M : Machine) (hM : M.Sound) (x : List Byte) (st : State) : WholePieces M st (append M x st) [x] :=
  (append_piece M hM x st).mono (fun _ a h => by simpa using h) (fun a h => ⟨0, by simp, by simpa using h⟩)

theorem pieces_nil (M : Machine) (st : State) : WholePieces M st ((pure () : Prog Unit) st) [] := Ends.pure () (by simp)

/-- **C179**: `join` leaves whole texts and delimiters behind the old text, and only leaves out later ones. -/
theorem C179_join {β : Type} (M : Machine) (hM : M.Sound) (txt : β → List Byte) (cost : β → Nat) (delim : List Byte) :
    ∀ (l : List β) (st : State), WholePieces M st (joinM M txt cost delim l st) ((l.map txt).intersperse delim)
  | [], st => pieces_nil M st
  | [a], st => by
    unfold joinM
    exact WholePieces.silent (by simp) (requests_ends M _ st) (fun _ c _ => append_last M hM _ c)
  | a :: b :: t, st => by
    unfold joinM
    have e : ((a :: b :: t).map txt).intersperse delim = txt a :: delim :: ((b :: t).map txt).intersperse delim := by simp
    rw [e]
    refine WholePieces.silent (by simp) (requests_ends M _ st) (fun _ c _ => ?_)
    refine WholePieces.cons (append_piece M hM _ c) (fun d _ => ?_)
    exact WholePieces.cons (append_piece M hM _ d) (fun e _ => C179_join M hM txt cost delim (b :: t) e)

theorem intersperse_cons' (d a : List Byte) : ∀ l : List (List Byte), (a :: l).intersperse d = a :: l.flatMap fun x => [d, x]
  | [] => rfl
  | b :: t => by
    rw [List.intersperse_cons₂, intersperse_cons' d b t]
    simp

theorem joinIf_rest {β : Type} (M : Machine) (hM : M.Sound) (txt : β → List Byte) (cost : β → Nat) (p : β → Bool) (delim : List Byte) :
    ∀ (l : List β) (st : State), WholePieces M st (joinIfM M txt cost p delim false l st) (((l.filter p).map txt).flatMap fun x => [delim, x])
  | [], st => pieces_nil M st
  | a :: t, st => by
    unfold joinIfM
    cases h : p a
    · simpa [h] using joinIf_rest M hM txt cost p delim t st
    · have e : (((a :: t).filter p).map txt).flatMap (fun x => [delim, x]) = delim :: txt a :: ((t.filter p).map txt).flatMap fun x => [delim, x] := by
        simp [h]
      rw [e, if_pos rfl]
      refine WholePieces.cons (append_piece M hM _ st) (fun b _ => ?_)
      refine WholePieces.silent (by simp) (requests_ends M _ b) (fun _ c _ => ?_)
      exact WholePieces.cons (append_piece M hM _ c) (fun d _ => joinIf_rest M hM txt cost p delim t d)

/-- **C179**: the same of `join_if`. -/
theorem C179_join_if {β : Type} (M : Machine) (hM : M.Sound) (txt : β → List Byte) (cost : β → Nat) (p : β → Bool) (delim : List Byte) :
    ∀ (l : List β) (st : State), WholePieces M st (joinIfM M txt cost p delim true l st) (((l.filter p).map txt).intersperse delim)
  | [], st => pieces_nil M st
  | a :: t, st => by
    unfold joinIfM
    cases h : p a
    · simpa [h] using C179_join_if M hM txt cost p delim t st
    · have e : (((a :: t).filter p).map txt).intersperse delim = txt a :: ((t.filter p).map txt).flatMap fun x => [delim, x] := by
        rw [List.filter_cons_of_pos h, List.map_cons, intersperse_cons']
      rw [e, if_pos rfl]
      rw [bind_ok (b := ()) (after := st) rfl]
      refine WholePieces.silent (by simp) (requests_ends M _ st) (fun _ c _ => ?_)
      exact WholePieces.cons (append_piece M hM _ c) (fun d _ => joinIf_rest M hM txt cost p delim t d)

theorem localRoom_ends (M : Machine) (c n : Nat) (st : State) : Ends M st (localRoom M c n st) (fun _ => Same st) (Same st) := by
  unfold localRoom
  split
  · exact Ends.pure _ ⟨rfl, rfl⟩
  · refine (request_ends M st).bind (fun _ h => h) ?_
    intro _ a ha
    exact Ends.pure _ ha

theorem bracketizeLoop_pieces {β : Type} (M : Machine) (hM : M.Sound) (txt : β → List Byte) (cost : β → Nat) (pre post : List Byte) :
    ∀ (l : List β) (c : Nat) (st : State), WholePieces M st (bracketizeLoop M txt cost pre post c l st) (l.map fun a => pre ++ txt a ++ post)
  | [], _, st => pieces_nil M st
  | a :: t, c, st => by
    unfold bracketizeLoop
    rw [List.map_cons]
    refine WholePieces.silent (by simp) (localRoom_ends M _ _ st) (fun c1 s1 _ => ?_)
    refine WholePieces.silent (by simp) (requests_ends M _ s1) (fun _ s2 _ => ?_)
    refine WholePieces.silent (by simp) (localRoom_ends M _ _ s2) (fun c2 s3 _ => ?_)
    refine WholePieces.silent (by simp) (localRoom_ends M _ _ s3) (fun c3 s4 _ => ?_)
    exact WholePieces.cons (append_piece M hM _ s4) (fun s5 _ => bracketizeLoop_pieces M hM txt cost pre post t c3 s5)

/-- **C179**: `bracketize` never leaves a bracket open. -/
theorem C179_bracketize {β : Type} (M : Machine) (hM : M.Sound) (txt : β → List Byte) (cost : β → Nat) (pre post : List Byte) (l : List β) (st : State)
    (hl : l ≠ []) : WholePieces M st (bracketizeM M txt cost pre post l st) (l.map fun a => pre ++ txt a ++ post) := by
  unfold bracketizeM
  exact WholePieces.silent (by simpa using hl) (localRoom_ends M _ _ st) (fun c s _ => bracketizeLoop_pieces M hM txt cost pre post l c s)

/-! ## Repeating -/

theorem appendTimes_enough (M : Machine) (s : List Byte) : ∀ (n : Nat) (st : State), st.text.length + s.length * n ≤ st.cap →
    appendTimes M s n st = ok (some (), { st with text := Join.appendLoop s n st.text })
  | 0, _, _ => rfl
  | n + 1, st, h => by
    rw [Nat.mul_succ] at h
    unfold appendTimes
    rw [bind_ok (append_enough M s st (by omega)), appendTimes_enough M s n _ (by simp only [List.length_append]; omega)]
    rfl

theorem reserve_ends (M : Machine) (hM : M.Sound) (n : Nat) (st : State) :
    Ends M st (reserve M n st) (fun _ a => a.text = st.text ∧ n ≤ a.cap) (fun a => a.text = st.text) := by
  unfold reserve
  split
  · refine (request_ends M st).bind (fun _ h => h.1) ?_
    intro _ a ha
    exact Or.inl ⟨(), { a with cap := max n a.text.length }, rfl, le_refl _, ha.1, by simp⟩
  · exact (room_ends M hM n st).mono (fun _ _ h => ⟨h.1, h.2.1⟩) (fun _ h => h.1)

/-- **C179**: `replicate` and `replicate_inplace` ask for all the memory first: they add every copy or none. -/
theorem C179_replicate (M : Machine) (hM : M.Sound) (n : Nat) (s : List Byte) (st : State) :
    (st.text.length + s.length * n < 2 ^ 64 → AllOrNothing M st (replicateM M n s st) () (st.text ++ (List.replicate n s).flatten)) ∧
    (st.text.length + st.text.length * n < 2 ^ 64 →
      AllOrNothing M st (replicateInplaceM M n st) () (List.replicate (n + 1) st.text).flatten) := by
  constructor
  · intro hb
    unfold replicateM AllOrNothing
    rw [← Join.C38_replicate n s st.text]
    split
    · next hz => exact Ends.pure () ⟨rfl, by rw [hz]; rfl⟩
    · next hz =>
      rw [bind_ok (b := st.text.length) (after := st) rfl, Nat.mod_eq_of_lt hb]
      refine (reserve_ends M hM _ st).bind (fun _ h => h) ?_
      intro _ a ha
      refine Or.inl ⟨(), { a with text := Join.appendLoop s n a.text }, appendTimes_enough M s n a (by rw [ha.1]; exact ha.2), le_refl _, rfl, ?_⟩
      rw [Join.replicate, if_neg hz, ha.1]
  · intro hb
    unfold replicateInplaceM AllOrNothing
    rw [← Join.C38_replicate_inplace n st.text]
    rw [bind_ok (b := st.text) (after := st) rfl]
    have hreq : Ends M st (tempCopy M st.text.length st) (fun _ => Same st) (Same st) := by
      unfold tempCopy
      split
      · exact Ends.pure () ⟨rfl, rfl⟩
      · exact request_ends M st
    refine hreq.bind (fun _ h => h.1) ?_
    intro _ a ha
    rw [bind_ok (b := a.text.length) (after := a) rfl, ha.1, Nat.mod_eq_of_lt hb]
    refine (reserve_ends M hM _ a).bind (fun _ h => h.trans ha.1) ?_
    intro _ c hc
    have hct : c.text = st.text := hc.1.trans ha.1
    refine Or.inl ⟨(), { c with text := Join.appendLoop st.text n c.text }, appendTimes_enough M st.text n c (by rw [hct]; exact hc.2), le_refl _, rfl, ?_⟩
    rw [Join.replicateInplace, hct]

theorem appendTimes_stuck (M : Machine) (s : List Byte) : ∀ (k n : Nat) (st : State), k < n → st.text.length + s.length * k ≤ st.cap →
    st.cap < st.text.length + s.length * (k + 1) → M.grants st.asked = false →
    appendTimes M s n st = ok (none, { st with text := st.text ++ (List.replicate k s).flatten, asked := st.asked + 1 })
  | _, 0, _, h, _, _, _ => absurd h (by omega)
  | 0, n + 1, st, _, _, h2, hg => by
    unfold appendTimes
    refine bind_none ?_
    unfold append
    rw [bind_ok (b := st.text.length) (after := st) rfl]
    refine bind_none ?_
    rw [room, if_neg (by omega)]
    refine bind_none ?_
    simp [request, hg]
  | k + 1, n + 1, st, h, h1, h2, hg => by
    rw [Nat.mul_succ] at h1 h2
    rw [Nat.mul_succ] at h2
    unfold appendTimes
    rw [bind_ok (append_enough M s st (by omega))]
    rw [appendTimes_stuck M s k n { st with text := st.text ++ s } (by omega) (by simp only [List.length_append]; omega)
      (by simp only [List.length_append]; rw [Nat.mul_succ]; omega) hg]
    simp [List.replicate_succ]

/-- **C179**: unless the size does not fit in 64 bits; the request is then for too little, and some copies stay when a later one is refused. -/
theorem C179_replicate_overflow (M : Machine) (hs : M.shrinks = false) (n : Nat) (s : List Byte) (st : State) (hn : n ≠ 0) (hpos : s ≠ []) (hf : st.Fits)
    (hsmall : (st.text.length + s.length * n) % 2 ^ 64 ≤ st.cap) (hlong : st.cap < st.text.length + s.length * n) (hg : M.grants st.asked = false) :
    replicateM M n s st =
      ok (none, ⟨st.text ++ (List.replicate ((st.cap - st.text.length) / s.length) s).flatten, st.cap, st.asked + 1⟩) := by
  have hl : 0 < s.length := List.length_pos_iff.mpr hpos
  unfold State.Fits at hf
  unfold replicateM
  rw [if_neg hn, bind_ok (b := st.text.length) (after := st) rfl]
  rw [bind_ok (b := ()) (after := st) (by rw [reserve, if_neg (by simp [hs]), room_enough M _ st hsmall])]
  have h1 := Nat.div_mul_le_self (st.cap - st.text.length) s.length
  have h2 := Nat.lt_div_mul_add (a := st.cap - st.text.length) hl
  rw [Nat.mul_comm] at h1 h2
  refine appendTimes_stuck M s _ n st ?_ (by omega) (by rw [Nat.mul_succ]; omega) hg
  by_contra hc
  have := Nat.mul_le_mul_left s.length (Nat.not_lt.mp hc)
  omega

/-! ## Concrete cases -/

/-- A machine that grants the first `k` requests and gives exactly what is needed. -/
def firstOnly (k : Nat) (shrinks : Bool) : Machine := ⟨fun i => i < k, fun _ n => n, shrinks, 15⟩

theorem firstOnly_sound (k : Nat) (b : Bool) : (firstOnly k b).Sound := fun _ n => le_refl n

private def old : State := ⟨[120, 121, 122], 15, 0⟩
private def two : List Byte := [65, 66]

example : AllOrNothing (firstOnly 0 false) old (binToHexM (firstOnly 0 false) two old) () [52, 49, 52, 50] :=
  (C179_codecs _ (firstOnly_sound 0 false) old two [] [] .eAND).1 _ (by decide)
example : binToHexM (firstOnly 0 false) (List.replicate 8 65) old = ok (none, ⟨[120, 121, 122], 15, 1⟩) := by decide
example : binToHexM (firstOnly 1 false) (List.replicate 8 65) old = ok (some (), ⟨(List.replicate 8 [52, 49]).flatten, 16, 1⟩) := by decide
example : AllOrNothing (firstOnly 0 false) old (b64EncM (firstOnly 0 false) two old) () [81, 85, 73, 61] :=
  (C179_base64 _ (firstOnly_sound 0 false) old two _).1 (by decide)
example : b64EncM (firstOnly 0 false) (List.replicate 8 65) old = ok (none, ⟨[120, 121, 122], 15, 1⟩) := by decide
example : binToHexM (firstOnly 0 false) two old = ok (some (), ⟨[52, 49, 52, 50], 15, 0⟩) :=
  (C179_room _ old two [] [] .eAND (fun _ => false) _).1 (by decide) (by decide)
example : removeInplaceM (firstOnly 0 false) (· == 121) old = ok (some (), ⟨[120, 122], 15, 0⟩) := by
  have := (C179_room (firstOnly 0 false) old [] [] [] .eAND (· == 121) []).2.2.2.2.2 (by unfold State.Fits; decide)
  exact this
example : AllOrNothing (firstOnly 1 false) old (replacePatternM (firstOnly 1 false) two [66] [67, 67] old) () [65, 67, 67] :=
  (C179_patterns _ (firstOnly_sound 1 false) old two [66] [67, 67] _).1 (by decide)
example : replacePatternM (firstOnly 1 false) two [66] (List.replicate 15 67) old = ok (none, ⟨[120, 121, 122], 15, 2⟩) := by decide
example : WholePieces (firstOnly 0 false) old (joinM (firstOnly 0 false) id (fun _ => 0) [44] [two, two, List.replicate 9 67] old)
    [two, [44], two, [44], List.replicate 9 67] := C179_join _ (firstOnly_sound 0 false) id _ [44] _ old
example : joinM (firstOnly 0 false) id (fun _ => 0) [44] [two, two, List.replicate 9 67] old =
    ok (none, ⟨[120, 121, 122, 65, 66, 44, 65, 66, 44], 15, 1⟩) := by decide
example : WholePieces (firstOnly 0 false) old (joinIfM (firstOnly 0 false) id (fun _ => 0) (fun w => w.length == 2) [44] true [two, [7], two] old)
    [two, [44], two] := C179_join_if _ (firstOnly_sound 0 false) id _ _ [44] _ old
example : WholePieces (firstOnly 1 false) old (bracketizeM (firstOnly 1 false) id (fun _ => 0) [40] [41] [two, List.replicate 9 67] old)
    [[40, 65, 66, 41], [40] ++ List.replicate 9 67 ++ [41]] :=
  C179_bracketize _ (firstOnly_sound 1 false) id _ [40] [41] _ old (by decide)
example : bracketizeM (firstOnly 1 false) id (fun _ => 0) [40] [41] [two, List.replicate 9 67] old =
    ok (none, ⟨[120, 121, 122, 40, 65, 66, 41], 15, 2⟩) := by decide
example : AllOrNothing (firstOnly 0 true) old (replicateM (firstOnly 0 true) 3 two old) () [120, 121, 122, 65, 66, 65, 66, 65, 66] :=
  (C179_replicate _ (firstOnly_sound 0 true) 3 two old).1 (by decide)
example : replicateM (firstOnly 0 false) 9 two old = ok (none, ⟨[120, 121, 122], 15, 1⟩) := by decide
example : replicateInplaceM (firstOnly 0 false) 6 old = ok (none, ⟨[120, 121, 122], 15, 1⟩) := by decide
example : replicateM (firstOnly 0 false) (2 ^ 63) two ⟨[], 5, 0⟩ = ok (none, ⟨[65, 66, 65, 66], 5, 1⟩) :=
  C179_replicate_overflow (firstOnly 0 false) rfl (2 ^ 63) two ⟨[], 5, 0⟩ (by decide) (by decide) (by unfold State.Fits; decide) (by decide) (by decide) rfl
example : ∃ b after, joinM (firstOnly 9 false) id (fun _ => 1) [44] [two, two] old = ok (some b, after) ∧
    after.text = [120, 121, 122] ++ [two, [44], two].flatten := by
  have h : ∀ i, old.asked ≤ i → (⟨fun _ => true, fun _ n => n, false, 15⟩ : Machine).grants i = true := fun _ _ => rfl
  have := C179_granted (C179_join ⟨fun _ => true, fun _ n => n, false, 15⟩ (fun _ n => le_refl n) id (fun _ => 1) [44] [two, two] old) h
  exact ⟨(), ⟨[120, 121, 122, 65, 66, 44, 65, 66], 15, 2⟩, by decide, by decide⟩

end Strtk.Refused
