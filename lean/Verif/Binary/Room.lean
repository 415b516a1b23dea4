import Verif.Binary.Stream

/-!
# How much room writing and reading need (C47)

The writer of a `std::vector` of objects and the reader of any container first ask whether the buffer offers `sizeof(T)` bytes for every element, whatever
the elements are serialised to.  Here the number of bytes that must be left in the buffer is stated exactly, for every type, with no assumption about
`sizeof`; the round trip theorems of `Trip.lean` assume it away.
-/

namespace Strtk.Binary
open Outcome Mem

/-- The room a loop over elements needs: for each element what it needs itself, behind the serialised forms of the ones before it. -/
def loopRoom {V : Type} (e : V → List UInt8) (r : V → Nat) : List V → Nat
  | [] => 0
  | x :: xs => max (r x) ((e x).length + loopRoom e r xs)

/-- The room the writer needs: the serialised form, and for a vector of objects `sizeof` bytes for each element behind the length. -/
def writeRoom (sz : Ty → Nat) : (t : Ty) → t.Val → Nat
  | .pod _ => fun v : List UInt8 => v.length
  | .str => fun v : List UInt8 => 4 + v.length
  | .pstr k => fun v : List UInt8 => k + v.length
  | .pair a b => fun v : a.Val × b.Val => max (writeRoom sz a v.1) ((enc a v.1).length + writeRoom sz b v.2)
  | .seq t => fun v : List t.Val => 4 + loopRoom (enc t) (writeRoom sz t) v
  | .podVec _ => fun v : List (List UInt8) => 4 + v.flatten.length
  | .objVec t => fun v : List t.Val => max (4 + v.length * sz t) (4 + loopRoom (enc t) (writeRoom sz t) v)
  | .set _ _ => fun v : List (List UInt8) => 4 + v.flatten.length

/-- The room the reader needs: the serialised form, and for a sequence or vector of objects `sizeof` bytes for each element behind the length. -/
def readRoom (sz : Ty → Nat) : (t : Ty) → t.Val → Nat
  | .pod _ => fun v : List UInt8 => v.length
  | .str => fun v : List UInt8 => 4 + v.length
  | .pstr k => fun v : List UInt8 => k + v.length
  | .pair a b => fun v : a.Val × b.Val => max (readRoom sz a v.1) ((enc a v.1).length + readRoom sz b v.2)
  | .seq t => fun v : List t.Val => max (4 + v.length * sz t) (4 + loopRoom (enc t) (readRoom sz t) v)
  | .podVec _ => fun v : List (List UInt8) => 4 + v.flatten.length
  | .objVec t => fun v : List t.Val => max (4 + v.length * sz t) (4 + loopRoom (enc t) (readRoom sz t) v)
  | .set _ _ => fun v : List (List UInt8) => 4 + v.flatten.length

/-- The elements of containers are of types whose reading replaces the old value. -/
def Elems : Ty → Prop
  | .pair a b => Elems a ∧ Elems b
  | .seq t => Elems t ∧ Replaces t
  | .objVec t => Elems t ∧ Replaces t
  | _ => True

/-- No deque, list or queue is in it. -/
def NoSeq : Ty → Prop
  | .pair a b => NoSeq a ∧ NoSeq b
  | .seq _ => False
  | .objVec t => NoSeq t
  | _ => True

theorem loopRoom_ge {V : Type} (e : V → List UInt8) (r : V → Nat) (h : ∀ x, (e x).length ≤ r x) : ∀ xs : List V, (xs.flatMap e).length ≤ loopRoom e r xs := by
  intro xs
  induction xs with
  | nil => simp [loopRoom]
  | cons x xs ih =>
    rw [List.flatMap_cons, List.length_append, loopRoom]
    have := h x
    omega

theorem loopRoom_mono {V : Type} (e : V → List UInt8) (r s : V → Nat) (h : ∀ x, r x ≤ s x) : ∀ xs : List V, loopRoom e r xs ≤ loopRoom e s xs := by
  intro xs
  induction xs with
  | nil => simp [loopRoom]
  | cons x xs ih =>
    simp only [loopRoom]
    have := h x
    omega

theorem enc_le_writeRoom (sz : Ty → Nat) : ∀ (t : Ty) (v : t.Val), (enc t v).length ≤ writeRoom sz t v := by
  intro t
  induction t with
  | pod n => intro v; exact Nat.le_refl _
  | str => intro v; exact Nat.le_of_eq (withLen_length 4 _ _)
  | pstr k => intro v; exact Nat.le_of_eq (withLen_length k _ _)
  | pair a b iha ihb =>
    intro v
    show (enc a v.1 ++ enc b v.2).length ≤ max (writeRoom sz a v.1) ((enc a v.1).length + writeRoom sz b v.2)
    have := ihb v.2
    rw [List.length_append]; omega
  | seq t ih =>
    intro v
    show (withLen 4 _ (List.flatMap (enc t) v)).length ≤ 4 + loopRoom (enc t) (writeRoom sz t) v
    have := loopRoom_ge (enc t) (writeRoom sz t) ih v
    rw [withLen_length]; omega
  | podVec n => intro v; exact Nat.le_of_eq (withLen_length 4 _ _)
  | objVec t ih =>
    intro v
    show (withLen 4 _ (List.flatMap (enc t) v)).length ≤ max _ (4 + loopRoom (enc t) (writeRoom sz t) v)
    have := loopRoom_ge (enc t) (writeRoom sz t) ih v
    rw [withLen_length]; omega
  | set n lt => intro v; exact Nat.le_of_eq (withLen_length 4 _ _)

theorem writeRoom_le_readRoom (sz : Ty → Nat) : ∀ (t : Ty) (v : t.Val), writeRoom sz t v ≤ readRoom sz t v := by
  intro t
  induction t with
  | pair a b iha ihb =>
    intro v
    show max (writeRoom sz a v.1) ((enc a v.1).length + writeRoom sz b v.2) ≤ max (readRoom sz a v.1) ((enc a v.1).length + readRoom sz b v.2)
    have := iha v.1
    have := ihb v.2
    omega
  | seq t ih =>
    intro v
    show 4 + loopRoom (enc t) (writeRoom sz t) v ≤ max _ (4 + loopRoom (enc t) (readRoom sz t) v)
    have := loopRoom_mono (enc t) _ _ ih v
    omega
  | objVec t ih =>
    intro v
    show max (4 + List.length (α := t.Val) v * sz t) (4 + loopRoom (enc t) (writeRoom sz t) v) ≤
      max (4 + List.length (α := t.Val) v * sz t) (4 + loopRoom (enc t) (readRoom sz t) v)
    have := loopRoom_mono (enc t) _ _ ih v
    omega
  | _ => intro v; exact Nat.le_refl _

theorem loopRoom_congr {V : Type} (e : V → List UInt8) (r s : V → Nat) (h : ∀ x, r x = s x) (xs : List V) : loopRoom e r xs = loopRoom e s xs := by
  rw [show r = s from funext h]

theorem writeRoom_eq_readRoom (sz : Ty → Nat) : ∀ (t : Ty), NoSeq t → ∀ (v : t.Val), writeRoom sz t v = readRoom sz t v := by
  intro t
  induction t with
  | pair a b iha ihb =>
    intro h v
    show max (writeRoom sz a v.1) ((enc a v.1).length + writeRoom sz b v.2) = max (readRoom sz a v.1) ((enc a v.1).length + readRoom sz b v.2)
    rw [iha h.1, ihb h.2]
  | seq t ih => intro h; exact h.elim
  | objVec t ih =>
    intro h v
    show max (4 + List.length (α := t.Val) v * sz t) (4 + loopRoom (enc t) (writeRoom sz t) v) =
      max (4 + List.length (α := t.Val) v * sz t) (4 + loopRoom (enc t) (readRoom sz t) v)
    rw [loopRoom_congr (enc t) _ _ (ih h) v]
  | _ => intro _ v; rfl

/-! ## Writing -/

/-- All bytes are written if the room suffices, and otherwise the write fails. -/
def WroteRoom (out : Outcome (Bool × St)) (pre room bytes : List UInt8) (need : Nat) (marks : List (Nat × Nat)) : Prop :=
  (need ≤ room.length ∧ out = ok (true, at' (pre ++ bytes) (room.drop bytes.length) marks)) ∨
  (room.length < need ∧ ∃ done room', out = ok (false, at' (pre ++ done) room' marks) ∧ (pre ++ done ++ room').length = (pre ++ room).length)

theorem WroteSpec.room {out : Outcome (Bool × St)} {pre room bytes : List UInt8} {marks : List (Nat × Nat)} (h : WroteSpec out pre room bytes marks) :
    WroteRoom out pre room bytes bytes.length marks := by
  rcases h with h | ⟨done, room', h1, h2, h3⟩
  · exact Or.inl h
  · exact Or.inr ⟨h3, done, room', h1, h2⟩

theorem room_seq {f : St → Outcome (Bool × St)} {out : Outcome (Bool × St)} {pre room b1 b2 : List UInt8} {n1 n2 : Nat} {marks : List (Nat × Nat)}
    (hb : b1.length ≤ n1) (h1 : WroteRoom out pre room b1 n1 marks)
    (h2 : b1.length ≤ room.length → WroteRoom (f (at' (pre ++ b1) (room.drop b1.length) marks)) (pre ++ b1) (room.drop b1.length) b2 n2 marks) :
    WroteRoom (do let (good, st) ← out; if good then f st else ok (false, st)) pre room (b1 ++ b2) (max n1 (b1.length + n2)) marks := by
  rcases h1 with ⟨hl, h1⟩ | ⟨hlt, done, room', h1, hlen⟩
  · rw [h1, ok_bind]
    simp only [if_true]
    rcases h2 (by omega) with ⟨hl2, h2⟩ | ⟨hlt, done, room', h2, hlen⟩
    · left
      rw [List.length_drop] at hl2
      refine ⟨by omega, ?_⟩
      rw [h2]
      simp [List.drop_drop]
    · right
      rw [List.length_drop] at hlt
      refine ⟨by omega, b1 ++ done, room', ?_, ?_⟩
      · rw [h2, List.append_assoc]
      · rw [← List.append_assoc, hlen]
        simp; omega
  · rw [h1, ok_bind]
    exact Or.inr ⟨by omega, done, room', rfl, hlen⟩

theorem room_loop {V : Type} (wr : V → St → Outcome (Bool × St)) (e : V → List UInt8) (r : V → Nat) (her : ∀ x, (e x).length ≤ r x)
    (marks : List (Nat × Nat)) (P : V → Prop)
    (h : ∀ x, P x → ∀ pre room, (pre ++ room).length < 2 ^ 63 → WroteRoom (wr x (at' pre room marks)) pre room (e x) (r x) marks) :
    ∀ (xs : List V) (pre room : List UInt8), (∀ x ∈ xs, P x) → (pre ++ room).length < 2 ^ 63 →
      WroteRoom (writeLoop wr xs (at' pre room marks)) pre room (xs.flatMap e) (loopRoom e r xs) marks := by
  intro xs
  induction xs with
  | nil => intro pre room _ _; left; exact ⟨by simp [loopRoom], by simp [writeLoop]⟩
  | cons x xs ih =>
    intro pre room hp hl
    unfold writeLoop
    rw [List.flatMap_cons, loopRoom]
    apply room_seq (her x) (h x (hp x (by simp)) pre room hl)
    intro hle
    exact ih _ _ (fun y hy => hp y (by simp [hy])) (by simp at hl ⊢; omega)

theorem room_seqc {V : Type} (wr : V → St → Outcome (Bool × St)) (e : V → List UInt8) (r : V → Nat) (her : ∀ x, (e x).length ≤ r x) (P : V → Prop)
    (v : List V) (pre room : List UInt8) (marks : List (Nat × Nat)) (hv : v.length < 2 ^ 32) (hp : ∀ x ∈ v, P x) (hl : (pre ++ room).length < 2 ^ 63)
    (h : ∀ x, P x → ∀ pre room, (pre ++ room).length < 2 ^ 63 → WroteRoom (wr x (at' pre room marks)) pre room (e x) (r x) marks) :
    WroteRoom (writeSeq wr v (at' pre room marks)) pre room (withLen 4 v.length (v.flatMap e)) (4 + loopRoom e r v) marks := by
  unfold writeSeq
  rw [size32_of_lt hv]
  have h4 : (leBytes 4 v.length).length = 4 := leBytes_length 4 _
  have := room_seq (f := writeLoop wr v) (b2 := v.flatMap e) (n2 := loopRoom e r v) (Nat.le_refl _)
    (wrote_pod pre room (leBytes 4 v.length) marks hl (by omega)).room fun hle => by
      rw [h4] at hle ⊢
      exact room_loop wr e r her marks P h v _ _ hp (by simp [h4] at hl ⊢; omega)
  rw [h4, Nat.max_eq_right (by omega)] at this
  exact this

theorem wroteRoom (sz : Ty → Nat) (marks : List (Nat × Nat)) : ∀ (t : Ty), Small sz t → ∀ (v : t.Val), Valid t v → ∀ (pre room : List UInt8),
    (pre ++ room).length < 2 ^ 63 → WroteRoom (write sz (ok ()) t v (at' pre room marks)) pre room (enc t v) (writeRoom sz t v) marks := by
  intro t
  induction t with
  | pod n =>
    intro hs v hv pre room hl
    exact (wrote_pod pre room v marks hl (by have : List.length (α := UInt8) v = n := hv; have : n < 2 ^ 31 := hs; omega)).room
  | str =>
    intro hs v hv pre room hl
    have := (wrote_str v pre room marks hv hl).room
    have e := withLen_length 4 (List.length (α := UInt8) v) v
    rw [e] at this
    exact this
  | pstr k =>
    intro hs v hv pre room hl
    have := (wrote_pstr k hs v pre room marks hv hl).room
    have e := withLen_length k (List.length (α := UInt8) v) v
    rw [e] at this
    exact this
  | pair a b iha ihb =>
    intro hs v hv pre room hl
    exact room_seq (enc_le_writeRoom sz a v.1) (iha hs.1 v.1 hv.1 pre room hl) fun hle => ihb hs.2 v.2 hv.2 _ _ (by simp at hl ⊢; omega)
  | seq t ih =>
    intro hs v hv pre room hl
    exact room_seqc _ (enc t) (writeRoom sz t) (enc_le_writeRoom sz t) (Valid t) v pre room marks hv.1 hv.2 hl
      (fun x hx pre room hl => ih hs.2 x hx pre room hl)
  | podVec k =>
    intro hs v hv pre room hl
    have := (wrote_podVec k hs v pre room marks hv.1 hv.2 hl).room
    rw [withLen_length] at this
    exact this
  | objVec t ih =>
    intro hs v hv pre room hl
    show WroteRoom (writeObjVec _ _ (v : List t.Val) _) _ _ _ (max (4 + List.length (α := t.Val) v * sz t) (4 + loopRoom (enc t) (writeRoom sz t) v)) _
    have h := room_seqc _ (enc t) (writeRoom sz t) (enc_le_writeRoom sz t) (Valid t) v pre room marks hv.1 hv.2 hl
      (fun x hx pre room hl => ih hs.2 x hx pre room hl)
    unfold writeObjVec
    have hb := mul_bound hv.1 hs.1
    have e := size32_of_lt hv.1
    split
    · rename_i hcap
      rw [e] at hcap
      simp only [capacityOk, List.length_append, decide_eq_true_eq] at hcap
      simp only [List.length_append] at hl
      have hroom : List.length (α := t.Val) v * sz t + 4 ≤ room.length := by omega
      rcases h with ⟨h1, h2⟩ | ⟨h1, h2⟩
      · exact Or.inl ⟨by omega, h2⟩
      · exact Or.inr ⟨by omega, h2⟩
    · rename_i hcap
      have h1 := no_capacity hcap
      rw [e] at h1
      exact Or.inr ⟨by omega, [], room, by simp, by simp⟩
  | set k lt =>
    intro hs v hv pre room hl
    have := (wrote_set k hs v pre room marks hv.1 hv.2.1 hl).room
    rw [withLen_length] at this
    exact this

/-! ## Reading -/

/-- The value is read if the room suffices, and otherwise the read fails. -/
def ReadRoom {V : Type} (out : Outcome (Bool × V × St)) (pre bytes post : List UInt8) (need : Nat) (v : V) (marks : List (Nat × Nat)) : Prop :=
  (need ≤ (bytes ++ post).length ∧ out = ok (true, v, at' (pre ++ bytes) post marks)) ∨
  ((bytes ++ post).length < need ∧ ∃ v' st', out = ok (false, v', st'))

theorem readLoop_room {V : Type} (rd : V → St → Outcome (Bool × V × St)) (e : V → List UInt8) (r : V → Nat) (her : ∀ x, (e x).length ≤ r x)
    (marks : List (Nat × Nat)) (P : V → Prop)
    (h : ∀ x, P x → ∀ prior pre post, (pre ++ (e x ++ post)).length < 2 ^ 63 → ReadRoom (rd prior (at' pre (e x ++ post) marks)) pre (e x) post (r x) x marks) :
    ∀ (xs : List V) (t : V) (pre post : List UInt8), (∀ x ∈ xs, P x) → (pre ++ (xs.flatMap e ++ post)).length < 2 ^ 63 →
      ReadRoom (readLoop rd xs.length t (at' pre (xs.flatMap e ++ post) marks)) pre (xs.flatMap e) post (loopRoom e r xs) xs marks := by
  intro xs
  induction xs with
  | nil => intro t pre post _ _; left; exact ⟨by simp [loopRoom], by simp [readLoop]⟩
  | cons x xs ih =>
    intro t pre post hp hl
    rw [List.flatMap_cons, List.append_assoc] at hl
    unfold ReadRoom
    rw [List.length_cons, List.flatMap_cons, List.append_assoc, loopRoom]
    unfold readLoop
    rcases h x (hp x (by simp)) t pre (xs.flatMap e ++ post) hl with ⟨h1, h2⟩ | ⟨h1, v', st', h2⟩
    · rw [h2, ok_bind]
      simp only [if_true]
      rcases ih x (pre ++ e x) post (fun y hy => hp y (by simp [hy])) (by simp at hl ⊢; omega) with ⟨h3, h4⟩ | ⟨h3, v', st', h4⟩
      · rw [h4, ok_bind]
        rw [List.length_append] at h1
        refine Or.inl ⟨by rw [List.length_append]; omega, by simp⟩
      · rw [h4, ok_bind]
        exact Or.inr ⟨by rw [List.length_append]; omega, _, _, rfl⟩
    · rw [h2, ok_bind]
      exact Or.inr ⟨by omega, _, _, rfl⟩

theorem readSeqc_room {V : Type} (rd : V → St → Outcome (Bool × V × St)) (e : V → List UInt8) (r : V → Nat) (her : ∀ x, (e x).length ≤ r x) (size : Nat)
    (hs : size < 2 ^ 31) (P : V → Prop) (fresh : V) (prior v : List V) (pre post : List UInt8) (marks : List (Nat × Nat)) (hv : v.length < 2 ^ 32)
    (hp : ∀ x ∈ v, P x) (hl : (pre ++ (withLen 4 v.length (v.flatMap e) ++ post)).length < 2 ^ 63)
    (h : ∀ x, P x → ∀ prior pre post, (pre ++ (e x ++ post)).length < 2 ^ 63 → ReadRoom (rd prior (at' pre (e x ++ post) marks)) pre (e x) post (r x) x marks) :
    ReadRoom (readSeq rd size fresh prior (at' pre (withLen 4 v.length (v.flatMap e) ++ post) marks)) pre (withLen 4 v.length (v.flatMap e)) post
      (max (4 + v.length * size) (4 + loopRoom e r v)) (prior ++ v) marks ∧
    ReadRoom (readObjVec rd size fresh prior (at' pre (withLen 4 v.length (v.flatMap e) ++ post) marks)) pre (withLen 4 v.length (v.flatMap e)) post
      (max (4 + v.length * size) (4 + loopRoom e r v)) v marks := by
  obtain ⟨h1, h2, h3, h4⟩ := readPrefix 4 v.length hv pre (v.flatMap e) post marks hl
  have hloop := readLoop_room rd e r her marks P h v fresh (pre ++ leBytes 4 v.length) post hp h3
  have hlen : (withLen 4 v.length (v.flatMap e) ++ post).length = 4 + (v.flatMap e ++ post).length := by
    simp only [List.length_append, withLen_length]; omega
  have hb := mul_bound hv hs
  unfold ReadRoom
  rw [hlen]
  by_cases hcap : v.length * size ≤ (v.flatMap e ++ post).length
  · have hc := capacity_at _ _ marks _ hcap h3
    constructor
    · unfold readSeq
      rw [h2, ok_bind, h4]
      simp only [h1]
      rw [if_pos hc]
      rcases hloop with ⟨h5, h6⟩ | ⟨h5, v', st', h6⟩
      · rw [h6, ok_bind]; exact Or.inl ⟨by omega, rfl⟩
      · rw [h6, ok_bind]; exact Or.inr ⟨by omega, _, _, rfl⟩
    · unfold readObjVec
      rw [h2, ok_bind, h4]
      simp only [h1]
      rw [if_pos hc]
      rcases hloop with ⟨h5, h6⟩ | ⟨h5, v', st', h6⟩
      · rw [h6, ok_bind]; exact Or.inl ⟨by omega, by simp⟩
      · rw [h6, ok_bind]; exact Or.inr ⟨by omega, _, _, rfl⟩
  · have hc : capacityOk (at' (pre ++ leBytes 4 v.length) (v.flatMap e ++ post) marks) (v.length * size) = false := by
      simp only [List.length_append] at h3 hcap
      simp only [capacityOk, List.length_append, decide_eq_false_iff_not]
      omega
    constructor
    · unfold readSeq
      rw [h2, ok_bind]
      simp only [h1]
      rw [if_neg (by rw [hc]; decide)]
      exact Or.inr ⟨by omega, _, _, rfl⟩
    · unfold readObjVec
      rw [h2, ok_bind]
      simp only [h1]
      rw [if_neg (by rw [hc]; decide)]
      exact Or.inr ⟨by omega, _, _, rfl⟩

theorem enc_le_readRoom (sz : Ty → Nat) (t : Ty) (v : t.Val) : (enc t v).length ≤ readRoom sz t v :=
  Nat.le_trans (enc_le_writeRoom sz t v) (writeRoom_le_readRoom sz t v)

theorem readRoom_spec (sz : Ty → Nat) (marks : List (Nat × Nat)) : ∀ (t : Ty), Elems t → Small sz t → ∀ (v : t.Val), Valid t v →
    ∀ (prior : t.Val) (pre post : List UInt8), (pre ++ (enc t v ++ post)).length < 2 ^ 63 →
    ReadRoom (read sz (ok ()) t prior (at' pre (enc t v ++ post) marks)) pre (enc t v) post (readRoom sz t v) (merge t prior v) marks := by
  intro t
  induction t with
  | pod n => intro _ _ v hv prior pre post hl; exact Or.inl ⟨by rw [List.length_append]; exact Nat.le_add_right _ _, read_podVal n prior v pre post marks hv hl⟩
  | str => intro _ _ v hv prior pre post hl; exact Or.inl ⟨by rw [List.length_append]; exact Nat.le_trans (Nat.le_of_eq (withLen_length 4 _ _).symm) (Nat.le_add_right _ _), read_str prior v pre post marks hv hl⟩
  | pstr k => intro _ _ v hv prior pre post hl; exact Or.inl ⟨by rw [List.length_append]; exact Nat.le_trans (Nat.le_of_eq (withLen_length k _ _).symm) (Nat.le_add_right _ _), read_pstr k prior v pre post marks hv hl⟩
  | pair a b iha ihb =>
    intro hg hs v hv prior pre post hl
    have e1 : enc (.pair a b) v = enc a v.1 ++ enc b v.2 := rfl
    have e2 : readRoom sz (.pair a b) v = max (readRoom sz a v.1) ((enc a v.1).length + readRoom sz b v.2) := rfl
    rw [e1, List.append_assoc] at hl
    rw [e1, e2]
    unfold ReadRoom
    rw [List.append_assoc]
    show _ ∧ readPair _ _ _ _ = _ ∨ _ ∧ ∃ v' st', readPair _ _ _ _ = ok (false, v', st')
    unfold readPair
    rcases iha hg.1 hs.1 v.1 hv.1 prior.1 pre (enc b v.2 ++ post) hl with ⟨h1, h2⟩ | ⟨h1, v', st', h2⟩
    · rw [h2, ok_bind]
      simp only [if_true]
      rw [List.length_append] at h1
      rcases ihb hg.2 hs.2 v.2 hv.2 prior.2 (pre ++ enc a v.1) post (by simpa using hl) with ⟨h3, h4⟩ | ⟨h3, v', st', h4⟩
      · rw [h4, ok_bind]
        refine Or.inl ⟨by rw [List.length_append]; omega, ?_⟩
        rw [List.append_assoc]
        rfl
      · rw [h4, ok_bind]
        exact Or.inr ⟨by rw [List.length_append]; omega, _, _, rfl⟩
    · rw [h2, ok_bind]
      exact Or.inr ⟨by omega, _, _, rfl⟩
  | seq t ih =>
    intro hg hs v hv prior pre post hl
    exact (readSeqc_room (read sz (ok ()) t) (enc t) (readRoom sz t) (enc_le_readRoom sz t) (sz t) hs.1 (Valid t) t.dflt prior v pre post marks hv.1 hv.2 hl
      (fun x hx prior pre post hl => by have := ih hg.1 hs.2 x hx prior pre post hl; rwa [merge_replaces t hg.2] at this)).1
  | podVec n =>
    intro _ _ v hv prior pre post hl
    exact Or.inl ⟨by rw [List.length_append]; exact Nat.le_trans (Nat.le_of_eq (withLen_length 4 _ _).symm) (Nat.le_add_right _ _), read_podVec n prior v pre post marks hv.1 hv.2 hl⟩
  | objVec t ih =>
    intro hg hs v hv prior pre post hl
    exact (readSeqc_room (read sz (ok ()) t) (enc t) (readRoom sz t) (enc_le_readRoom sz t) (sz t) hs.1 (Valid t) t.dflt prior v pre post marks hv.1 hv.2 hl
      (fun x hx prior pre post hl => by have := ih hg.1 hs.2 x hx prior pre post hl; rwa [merge_replaces t hg.2] at this)).2
  | set n lt =>
    intro _ _ v hv prior pre post hl
    exact Or.inl ⟨by rw [List.length_append]; exact Nat.le_trans (Nat.le_of_eq (withLen_length 4 _ _).symm) (Nat.le_add_right _ _), read_set n lt prior v pre post marks hv.1 hv.2.1 hl⟩

/-! ## Programs -/

/-- The serialised form of a program. -/
abbrev encAll (items : List Item) : List UInt8 := items.flatMap fun i => enc i.1 i.2

/-- The room for a program of writes or reads. -/
abbrev roomAll (need : (t : Ty) → t.Val → Nat) (items : List Item) : Nat := loopRoom (fun i => enc i.1 i.2) (fun i => need i.1 i.2) items

theorem encAll_cons (i : Item) (is : List Item) : encAll (i :: is) = enc i.1 i.2 ++ encAll is := rfl

theorem roomAll_cons (need : (t : Ty) → t.Val → Nat) (i : Item) (is : List Item) :
    roomAll need (i :: is) = max (need i.1 i.2) ((enc i.1 i.2).length + roomAll need is) := rfl

theorem writeAll_room (sz : Ty → Nat) (marks : List (Nat × Nat)) : ∀ (items : List Item) (pre room : List UInt8),
    (∀ i ∈ items, Small sz i.1 ∧ Valid i.1 i.2) → (pre ++ room).length < 2 ^ 63 →
    WroteRoom (writeAll sz (ok ()) items (at' pre room marks)) pre room (encAll items) (roomAll (writeRoom sz) items) marks := by
  intro items
  induction items with
  | nil => intro pre room _ _; left; exact ⟨by simp [loopRoom], by simp [writeAll]⟩
  | cons i is ih =>
    intro pre room hi hl
    rw [encAll_cons, roomAll_cons]
    have h1 := hi i (by simp)
    exact room_seq (enc_le_writeRoom sz i.1 i.2) (wroteRoom sz marks i.1 h1.1 i.2 h1.2 pre room hl) fun hle =>
      ih _ _ (fun j hj => hi j (by simp [hj])) (by simp at hl ⊢; omega)

theorem readAll_room (sz : Ty → Nat) (marks : List (Nat × Nat)) : ∀ (items : List Item) (pre post : List UInt8),
    (∀ i ∈ items, Elems i.1 ∧ Small sz i.1 ∧ Valid i.1 i.2) → (pre ++ (encAll items ++ post)).length < 2 ^ 63 →
    ReadRoom (readAll sz (ok ()) (items.map (·.1)) (at' pre (encAll items ++ post) marks)) pre (encAll items) post (roomAll (readRoom sz) items) items marks := by
  intro items
  induction items with
  | nil => intro pre post _ _; left; exact ⟨by simp [loopRoom], by simp [readAll]⟩
  | cons i is ih =>
    intro pre post hi hl
    rw [encAll_cons, List.append_assoc] at hl
    unfold ReadRoom
    rw [encAll_cons, List.append_assoc, List.map_cons, roomAll_cons]
    have h1 := hi i (by simp)
    unfold readAll
    rcases readRoom_spec sz marks i.1 h1.1 h1.2.1 i.2 h1.2.2 i.1.dflt pre (encAll is ++ post) hl with ⟨h2, h3⟩ | ⟨h2, v', st', h3⟩
    · rw [h3, ok_bind]
      simp only [if_true]
      rw [List.length_append] at h2
      rcases ih (pre ++ enc i.1 i.2) post (fun j hj => hi j (by simp [hj])) (by simpa using hl) with ⟨h4, h5⟩ | ⟨h4, v', st', h5⟩
      · rw [h5, ok_bind, merge_dflt _ _ h1.2.2]
        exact Or.inl ⟨by rw [List.length_append]; omega, by simp⟩
      · rw [h5, ok_bind]
        exact Or.inr ⟨by rw [List.length_append]; omega, _, _, rfl⟩
    · rw [h3, ok_bind]
      exact Or.inr ⟨by omega, _, _, rfl⟩

/-- **C47**, writing without assumptions about `sizeof`: a program of writes succeeds exactly when the buffer offers the room it needs; then the buffer
begins with the serialised forms, the rest of it is unchanged, and the amount written is their length. -/
theorem C47_write_room (sz : Ty → Nat) (buf : List UInt8) (hbuf : buf.length < 2 ^ 63) (items : List Item)
    (hi : ∀ i ∈ items, Small sz i.1 ∧ Valid i.1 i.2) :
    ∃ good st, writeAll sz (ok ()) items (St.fresh buf) = ok (good, st) ∧ (good = true ↔ roomAll (writeRoom sz) items ≤ buf.length) ∧
      (good = true → st.buf = encAll items ++ buf.drop (encAll items).length ∧ st.amount = (encAll items).length) := by
  rcases writeAll_room sz [] items [] buf hi (by simpa using hbuf) with ⟨h1, h2⟩ | ⟨h1, done, room', h2, h3⟩
  · exact ⟨true, _, h2, by simp [h1], fun _ => ⟨rfl, rfl⟩⟩
  · exact ⟨false, _, h2, by simp only [Bool.false_eq_true, false_iff]; omega, fun h => nomatch h⟩

/-- **C47**, reading back without assumptions about `sizeof`: what a program of writes has put into the buffer is read back by a program of reads of the
same types exactly when the buffer offers the room the reads need; then the values are the same and the position is where the writer ended. -/
theorem C47_read_room (sz : Ty → Nat) (buf : List UInt8) (hbuf : buf.length < 2 ^ 63) (items : List Item)
    (hi : ∀ i ∈ items, Elems i.1 ∧ Small sz i.1 ∧ Valid i.1 i.2) (st : St) (hw : writeAll sz (ok ()) items (St.fresh buf) = ok (true, st)) :
    (roomAll (readRoom sz) items ≤ buf.length ∧
      ∃ st', readAll sz (ok ()) (items.map (·.1)) (St.fresh st.buf) = ok (true, items, st') ∧ st'.amount = st.amount ∧ st'.buf = st.buf) ∨
    (buf.length < roomAll (readRoom sz) items ∧ ∃ vs st', readAll sz (ok ()) (items.map (·.1)) (St.fresh st.buf) = ok (false, vs, st')) := by
  rcases writeAll_room sz [] items [] buf (fun i h => (hi i h).2) (by simpa using hbuf) with ⟨h1, h2⟩ | ⟨h1, done, room', h2, h3⟩
  · have e : at' [] buf [] = St.fresh buf := rfl
    rw [e] at h2
    rw [h2] at hw
    simp only [ok.injEq, Prod.mk.injEq, true_and] at hw
    subst hw
    have hge : (encAll items).length ≤ buf.length :=
      Nat.le_trans (loopRoom_ge _ (fun i : Item => writeRoom sz i.1 i.2) (fun i => enc_le_writeRoom sz i.1 i.2) items) h1
    have hl : (encAll items ++ buf.drop (encAll items).length).length = buf.length := by
      rw [List.length_append, List.length_drop]; omega
    rcases readAll_room sz [] items [] (buf.drop (encAll items).length) hi (by rw [List.nil_append, hl]; exact hbuf) with ⟨h4, h5⟩ | ⟨h4, vs, st', h5⟩
    · rw [hl] at h4
      exact Or.inl ⟨h4, _, h5, rfl, rfl⟩
    · rw [hl] at h4
      exact Or.inr ⟨h4, _, _, h5⟩
  · have e : at' [] buf [] = St.fresh buf := rfl
    rw [e] at h2
    rw [h2] at hw
    simp at hw

/-- **C47**: a program without deques, lists and queues that is written is always read back, whatever `sizeof` is. -/
theorem C47_vectors_read_back (sz : Ty → Nat) (buf : List UInt8) (hbuf : buf.length < 2 ^ 63) (items : List Item)
    (hi : ∀ i ∈ items, NoSeq i.1 ∧ Elems i.1 ∧ Small sz i.1 ∧ Valid i.1 i.2) (st : St)
    (hw : writeAll sz (ok ()) items (St.fresh buf) = ok (true, st)) :
    ∃ st', readAll sz (ok ()) (items.map (·.1)) (St.fresh st.buf) = ok (true, items, st') ∧ st'.amount = st.amount ∧ st'.buf = st.buf := by
  obtain ⟨good, st1, h1, h2, h3⟩ := C47_write_room sz buf hbuf items (fun i h => (hi i h).2.2)
  rw [h1] at hw
  simp only [ok.injEq, Prod.mk.injEq] at hw
  obtain ⟨rfl, rfl⟩ := hw
  have hr : roomAll (readRoom sz) items = roomAll (writeRoom sz) items := by
    clear h1 h2 h3
    unfold roomAll
    induction items with
    | nil => rfl
    | cons i is ih =>
      rw [loopRoom, loopRoom, ih (fun j hj => hi j (by simp [hj])), writeRoom_eq_readRoom sz i.1 (hi i (by simp)).1]
  rcases C47_read_room sz buf hbuf items (fun i h => (hi i h).2) st1 h1 with ⟨_, h⟩ | ⟨h, _⟩
  · exact h
  · have := h2.mp rfl
    omega

/-- **C47**: a vector that was written can be read back as a deque, list or queue, in the same buffer. -/
theorem C47_vector_read_as_deque (sz : Ty → Nat) (buf : List UInt8) (hbuf : buf.length < 2 ^ 63) (t : Ty) (ht : NoSeq t) (he : Elems t) (hr : Replaces t)
    (hs : Small sz (.objVec t)) (v : List t.Val) (hv : Valid (.objVec t) v) (st : St) (hw : write sz (ok ()) (.objVec t) v (St.fresh buf) = ok (true, st)) :
    ∃ st', read sz (ok ()) (.seq t) ([] : List t.Val) (St.fresh st.buf) = ok (true, v, st') ∧ st'.amount = st.amount ∧ st'.buf = st.buf := by
  rcases wroteRoom sz [] (.objVec t) hs v hv [] buf (by simpa using hbuf) with ⟨h1, h2⟩ | ⟨h1, done, room', h2, h3⟩
  · rw [show at' [] buf [] = St.fresh buf from rfl, hw] at h2
    simp only [ok.injEq, Prod.mk.injEq, true_and] at h2
    subst h2
    have hle : (enc (.objVec t) v).length ≤ buf.length := Nat.le_trans (enc_le_writeRoom sz (.objVec t) v) h1
    have hl : (enc (.objVec t) v ++ buf.drop (enc (.objVec t) v).length).length = buf.length := by
      rw [List.length_append, List.length_drop]; omega
    have h1 : readRoom sz (.objVec t) v ≤ buf.length := Nat.le_trans (Nat.le_of_eq (writeRoom_eq_readRoom sz (.objVec t) ht v).symm) h1
    have h := readRoom_spec sz [] (.seq t) ⟨he, hr⟩ hs v hv ([] : List t.Val) [] (buf.drop (enc (.objVec t) v).length)
      (by rw [List.nil_append]; exact Nat.lt_of_le_of_lt (Nat.le_of_eq hl) hbuf)
    rcases h with ⟨_, h5⟩ | ⟨h4, _⟩
    · exact ⟨_, h5, rfl, rfl⟩
    · have e : readRoom sz (.seq t) v = readRoom sz (.objVec t) v := rfl
      have e2 : enc (.seq t) v = enc (.objVec t) v := rfl
      rw [e, e2, hl] at h4
      omega
  · rw [show at' [] buf [] = St.fresh buf from rfl, hw] at h2
    simp at h2

/-- **C125** without assumptions about `sizeof`: values sent through a file into a reader are read back exactly when the reader's buffer offers the room
the reads need. -/
theorem C125_through_file_room (sz : Ty → Nat) (buf rbuf file rest : List UInt8) (hbuf : buf.length < 2 ^ 63) (hr : rbuf.length < 2 ^ 63)
    (items : List Item) (hi : ∀ i ∈ items, Elems i.1 ∧ Small sz i.1 ∧ Valid i.1 i.2) (st : St)
    (hw : writeAll sz (ok ()) items (St.fresh buf) = ok (true, st)) (hlen : st.amount ≤ rbuf.length) :
    ∃ out st1, writerToStream st file = ok (st.amount, file ++ out) ∧ out.length = st.amount ∧
      readerFromStream st.amount (St.fresh rbuf) (out ++ rest) = ok (true, st1, rest) ∧
      ((roomAll (readRoom sz) items ≤ rbuf.length ∧ ∃ st2, readAll sz (ok ()) (items.map (·.1)) st1 = ok (true, items, st2) ∧ st2.amount = st.amount) ∨
        (rbuf.length < roomAll (readRoom sz) items ∧ ∃ vs st2, readAll sz (ok ()) (items.map (·.1)) st1 = ok (false, vs, st2))) := by
  obtain ⟨good, st', h1, h2, h3⟩ := C47_write_room sz buf hbuf items (fun i h => (hi i h).2)
  rw [h1] at hw
  simp only [ok.injEq, Prod.mk.injEq] at hw
  obtain ⟨rfl, rfl⟩ := hw
  obtain ⟨h4, h5⟩ := h3 rfl
  rw [h5] at hlen
  have hl : (encAll items ++ rbuf.drop (encAll items).length).length = rbuf.length := by
    rw [List.length_append, List.length_drop]; omega
  have hread := readAll_room sz [] items [] (rbuf.drop (encAll items).length) hi (by rw [List.nil_append, hl]; exact hr)
  unfold ReadRoom at hread
  rw [hl] at hread
  refine ⟨encAll items, ⟨encAll items ++ rbuf.drop (encAll items).length, 0, 0, []⟩, ?_, h5.symm, ?_, ?_⟩
  · have hle : (encAll items).length ≤ buf.length :=
      Nat.le_trans (loopRoom_ge _ (fun i : Item => writeRoom sz i.1 i.2) (fun i => enc_le_writeRoom sz i.1 i.2) items) (h2.mp rfl)
    unfold writerToStream
    rw [if_pos (by rw [h4, h5, List.length_append]; omega), h4, h5, List.take_left]
  · unfold readerFromStream streamRead
    have hle2 : (encAll items).length ≤ (St.fresh rbuf).buf.length := hlen
    rw [h5, if_neg (by omega), if_pos hle2, ok_bind, List.take_left, List.drop_left]
    rfl
  · rcases hread with ⟨h6, h7⟩ | ⟨h6, vs, st', h7⟩
    · exact Or.inl ⟨h6, _, h7, by rw [h5]; rfl⟩
    · exact Or.inr ⟨h6, _, _, h7⟩

/-- The hypotheses are met by a vector of two short strings in an environment where a string takes 32 bytes; serialised they take 14 bytes, the writer
wants 68. -/
example :
    let items : List Item := [⟨.objVec .str, [[97], [98]]⟩]
    (∀ i ∈ items, NoSeq i.1 ∧ Elems i.1 ∧ Small (fun _ => 32) i.1 ∧ Valid i.1 i.2) ∧ roomAll (writeRoom fun _ => 32) items = 68 ∧
    (encAll items).length = 14 ∧ ∃ st, writeAll (fun _ => 32) (ok ()) items (St.fresh (List.replicate 68 0)) = ok (true, st) := by
  refine ⟨?_, rfl, rfl, ⟨[2, 0, 0, 0, 1, 0, 0, 0, 97, 1, 0, 0, 0, 98] ++ List.replicate 54 0, 14, 14, []⟩, by decide +kernel⟩
  intro i hi
  simp only [List.mem_cons, List.not_mem_nil, or_false] at hi
  subst hi
  refine ⟨trivial, ⟨trivial, trivial⟩, ⟨by show 32 < 2 ^ 31; decide, trivial⟩, by show 2 < 2 ^ 32; decide, ?_⟩
  intro x hx
  rcases List.mem_cons.mp hx with rfl | hx
  · show 1 < 2 ^ 32; decide
  · rcases List.mem_cons.mp hx with rfl | hx
    · show 1 < 2 ^ 32; decide
    · exact absurd hx List.not_mem_nil

end Strtk.Binary
