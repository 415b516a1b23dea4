import Verif.Binary.Endian
import Mathlib.Tactic.ByContra

/-! # Writing, then reading (C47) -/

namespace Strtk.Binary
open Outcome Mem

/-- A length prefix of `k` bytes and the contents. -/
def withLen (k n : Nat) (bs : List UInt8) : List UInt8 := leBytes k n ++ bs

/-- The serialised form: lengths as four bytes, then the contents. -/
def enc : (t : Ty) → t.Val → List UInt8
  | .pod _ => fun v : List UInt8 => v
  | .str => fun v : List UInt8 => withLen 4 v.length v
  | .pstr k => fun v : List UInt8 => withLen k v.length v
  | .pair a b => fun v : a.Val × b.Val => enc a v.1 ++ enc b v.2
  | .seq t => fun v : List t.Val => withLen 4 v.length (v.flatMap (enc t))
  | .podVec _ => fun v : List (List UInt8) => withLen 4 v.length v.flatten
  | .objVec t => fun v : List t.Val => withLen 4 v.length (v.flatMap (enc t))
  | .set _ _ => fun v : List (List UInt8) => withLen 4 v.length v.flatten

/-- What a value of the type looks like: a POD of `n` bytes has `n` bytes, texts and containers have fewer than 2^32 elements (their size does not fit
into the prefix otherwise), a short or pascal string fits its prefix, a set is in the order of its comparator. -/
def Valid : (t : Ty) → t.Val → Prop
  | .pod n => fun v : List UInt8 => v.length = n
  | .str => fun v : List UInt8 => v.length < 2 ^ 32
  | .pstr k => fun v : List UInt8 => v.length < 256 ^ k
  | .pair a b => fun v : a.Val × b.Val => Valid a v.1 ∧ Valid b v.2
  | .seq t => fun v : List t.Val => v.length < 2 ^ 32 ∧ ∀ x ∈ v, Valid t x
  | .podVec n => fun v : List (List UInt8) => v.length < 2 ^ 32 ∧ ∀ x ∈ v, x.length = n
  | .objVec t => fun v : List t.Val => v.length < 2 ^ 32 ∧ ∀ x ∈ v, Valid t x
  | .set n lt => fun v : List (List UInt8) => v.length < 2 ^ 32 ∧ (∀ x ∈ v, x.length = n) ∧ v.Pairwise (fun a b => lt a b = true ∧ lt b a = false)

/-- The least number of bytes a value of the type is serialised to. -/
def minLen : Ty → Nat
  | .pod n => n
  | .str => 4
  | .pstr k => k
  | .pair a b => minLen a + minLen b
  | _ => 4

/-- Reading replaces the old value (deques, lists and sets are added to instead). -/
def Replaces : Ty → Prop
  | .pair a b => Replaces a ∧ Replaces b
  | .seq _ => False
  | .set _ _ => False
  | _ => True

/-- Sizes are sizes of C++ types: below 2^31. -/
def Small (sz : Ty → Nat) : Ty → Prop
  | .pod n => n < 2 ^ 31
  | .str => True
  | .pstr k => k ≤ 4
  | .pair a b => Small sz a ∧ Small sz b
  | .seq t => sz t < 2 ^ 31 ∧ Small sz t
  | .podVec n => n < 2 ^ 31
  | .objVec t => sz t < 2 ^ 31 ∧ Small sz t
  | .set n _ => n < 2 ^ 31

/-- The types for which reading back works: the elements of a container are read into one object that is not cleared in between, so reading must
replace it; and the reader asks for `sizeof` bytes per element, so an element must not be serialised to fewer bytes than that. -/
def Good (sz : Ty → Nat) : Ty → Prop
  | .pair a b => Good sz a ∧ Good sz b
  | .seq t => Good sz t ∧ Replaces t ∧ sz t ≤ minLen t
  | .objVec t => Good sz t ∧ Replaces t ∧ sz t ≤ minLen t
  | _ => True

/-! ## Writing -/

/-- The state at offset `pre.length` of a buffer. -/
abbrev at' (pre room : List UInt8) (marks : List (Nat × Nat)) : St := ⟨pre ++ room, pre.length, pre.length, marks⟩

theorem writePod_at (pre room bs : List UInt8) (marks : List (Nat × Nat)) (hl : (pre ++ room).length < 2 ^ 63) (hb : bs.length < 2 ^ 63) :
    (bs.length ≤ room.length → writePod bs (at' pre room marks) = ok (true, at' (pre ++ bs) (room.drop bs.length) marks)) ∧
    (room.length < bs.length → writePod bs (at' pre room marks) = ok (false, at' pre room marks)) := by
  constructor
  · intro h
    have := writePod_ok pre (room.take bs.length) (room.drop bs.length) bs marks (by simp; omega) (by simpa using hl)
    rw [List.take_append_drop] at this
    rw [this]
    simp
  · intro h
    simp only [List.length_append] at hl
    unfold writePod capacityOk
    rw [if_neg]
    simp only [List.length_append, decide_eq_true_eq]
    omega

theorem writeRaw_at (pre room data : List UInt8) (marks : List (Nat × Nat)) (hl : (pre ++ room).length < 2 ^ 63) (hb : data.length < 2 ^ 63) :
    writeRaw data data.length (at' pre room marks) = writePod data (at' pre room marks) := by
  unfold writeRaw writePod
  have : slice data 0 data.length = ok data := by simp [slice]
  rw [this, ok_bind]

/-- What a write does: all bytes of the serialised form if there is room for them, failure if not. -/
def WroteSpec (out : Outcome (Bool × St)) (pre room bytes : List UInt8) (marks : List (Nat × Nat)) : Prop :=
  (bytes.length ≤ room.length ∧ out = ok (true, at' (pre ++ bytes) (room.drop bytes.length) marks)) ∨
  ∃ done room', out = ok (false, at' (pre ++ done) room' marks) ∧ (pre ++ done ++ room').length = (pre ++ room).length ∧ room.length < bytes.length

theorem wrote_pod (pre room bs : List UInt8) (marks : List (Nat × Nat)) (hl : (pre ++ room).length < 2 ^ 63) (hb : bs.length < 2 ^ 63) :
    WroteSpec (writePod bs (at' pre room marks)) pre room bs marks := by
  by_cases h : bs.length ≤ room.length
  · exact Or.inl ⟨h, (writePod_at pre room bs marks hl hb).1 h⟩
  · exact Or.inr ⟨[], room, by simpa using (writePod_at pre room bs marks hl hb).2 (by omega), by simp, by omega⟩

theorem wrote_raw (pre room data : List UInt8) (marks : List (Nat × Nat)) (hl : (pre ++ room).length < 2 ^ 63) (hb : data.length < 2 ^ 63) :
    WroteSpec (writeRaw data data.length (at' pre room marks)) pre room data marks := by
  rw [writeRaw_at _ _ _ _ hl hb]
  exact wrote_pod _ _ _ _ hl hb

theorem wrote_seq {f : St → Outcome (Bool × St)} {out : Outcome (Bool × St)} {pre room b1 b2 : List UInt8} {marks : List (Nat × Nat)}
    (h1 : WroteSpec out pre room b1 marks)
    (h2 : b1.length ≤ room.length → WroteSpec (f (at' (pre ++ b1) (room.drop b1.length) marks)) (pre ++ b1) (room.drop b1.length) b2 marks) :
    WroteSpec (do let (good, st) ← out; if good then f st else ok (false, st)) pre room (b1 ++ b2) marks := by
  rcases h1 with ⟨hl, h1⟩ | ⟨done, room', h1, hlen, hlt⟩
  · rw [h1, ok_bind]
    simp only [if_true]
    rcases h2 hl with ⟨hl2, h2⟩ | ⟨done, room', h2, hlen, hlt⟩
    · left
      rw [List.length_drop] at hl2
      refine ⟨by simp; omega, ?_⟩
      rw [h2]
      simp [List.drop_drop]
    · right
      rw [List.length_drop] at hlt
      refine ⟨b1 ++ done, room', ?_, ?_, by rw [List.length_append]; omega⟩
      · rw [h2, List.append_assoc]
      · rw [← List.append_assoc, hlen]
        simp; omega
  · rw [h1, ok_bind]
    exact Or.inr ⟨done, room', rfl, hlen, by rw [List.length_append]; omega⟩

theorem wrote_loop {V : Type} (wr : V → St → Outcome (Bool × St)) (e : V → List UInt8) (marks : List (Nat × Nat)) (P : V → Prop)
    (h : ∀ x, P x → ∀ pre room, (pre ++ room).length < 2 ^ 63 → WroteSpec (wr x (at' pre room marks)) pre room (e x) marks) :
    ∀ (xs : List V) (pre room : List UInt8), (∀ x ∈ xs, P x) → (pre ++ room).length < 2 ^ 63 →
      WroteSpec (writeLoop wr xs (at' pre room marks)) pre room (xs.flatMap e) marks := by
  intro xs
  induction xs with
  | nil => intro pre room _ _; left; exact ⟨by simp, by simp [writeLoop]⟩
  | cons x xs ih =>
    intro pre room hp hl
    unfold writeLoop
    rw [List.flatMap_cons]
    apply wrote_seq (h x (hp x (by simp)) pre room hl)
    intro hle
    exact ih _ _ (fun y hy => hp y (by simp [hy])) (by simp at hl ⊢; omega)

theorem size32_of_lt {n : Nat} (h : n < 2 ^ 32) : size32 n = n := Nat.mod_eq_of_lt h

theorem flatten_length_const (n : Nat) (l : List (List UInt8)) (h : ∀ x ∈ l, x.length = n) : l.flatten.length = l.length * n := by
  induction l with
  | nil => simp
  | cons a t ih =>
    rw [List.flatten_cons, List.length_append, ih (fun x hx => h x (by simp [hx])), h a (by simp), List.length_cons, Nat.succ_mul]
    omega

theorem mul_bound {a b : Nat} (ha : a < 2 ^ 32) (hb : b < 2 ^ 31) : a * b + 8 < 2 ^ 63 := by
  have : a * b ≤ (2 ^ 32 - 1) * (2 ^ 31 - 1) := Nat.mul_le_mul (by omega) (by omega)
  have h2 : (2 ^ 32 - 1) * (2 ^ 31 - 1) + 8 < 2 ^ 63 := by decide
  omega

theorem wrote_prefix {f : St → Outcome (Bool × St)} (k n : Nat) (body pre room : List UInt8) (marks : List (Nat × Nat)) (hk : k ≤ 4)
    (hl : (pre ++ room).length < 2 ^ 63)
    (h : ∀ pre' room', pre' = pre ++ leBytes k n → room' = room.drop k → k ≤ room.length → (pre' ++ room').length < 2 ^ 63 →
      WroteSpec (f (at' pre' room' marks)) pre' room' body marks) :
    WroteSpec (do let (good, st) ← writePod (leBytes k n) (at' pre room marks); if good then f st else ok (false, st)) pre room (withLen k n body) marks := by
  apply wrote_seq (wrote_pod _ _ _ _ hl (by rw [leBytes_length]; omega))
  intro hle
  rw [leBytes_length] at hle ⊢
  refine h _ _ rfl rfl hle ?_
  simp [leBytes_length] at hl ⊢
  omega

theorem wrote_fail (pre room body : List UInt8) (marks : List (Nat × Nat)) (h : room.length < body.length) :
    WroteSpec (ok (false, at' pre room marks)) pre room body marks :=
  Or.inr ⟨[], room, by simp, by simp, h⟩

theorem withLen_length (k n : Nat) (bs : List UInt8) : (withLen k n bs).length = k + bs.length := by simp [withLen, leBytes_length]

theorem no_capacity {pre room : List UInt8} {marks : List (Nat × Nat)} {n : Nat} (h : ¬ capacityOk (at' pre room marks) n = true) :
    room.length < n := by
  by_contra hn
  apply h
  simp only [capacityOk, List.length_append, decide_eq_true_eq]
  exact Nat.le_trans (Nat.mod_le _ _) (by omega)

theorem wrote_str (v pre room : List UInt8) (marks : List (Nat × Nat)) (hv : v.length < 2 ^ 32) (hl : (pre ++ room).length < 2 ^ 63) :
    WroteSpec (writeStr v (at' pre room marks)) pre room (withLen 4 v.length v) marks := by
  unfold writeStr
  rw [size32_of_lt hv]
  exact wrote_prefix _ _ _ _ _ _ (by omega) hl fun pre' room' _ _ _ hl' => wrote_raw _ _ _ _ hl' (by omega)

theorem wrote_pstr (k : Nat) (hk : k ≤ 4) (v pre room : List UInt8) (marks : List (Nat × Nat)) (hv : v.length < 256 ^ k) (hl : (pre ++ room).length < 2 ^ 63) :
    WroteSpec (writePstr k v (at' pre room marks)) pre room (withLen k v.length v) marks := by
  unfold writePstr
  have hp : (256 : Nat) ^ k ≤ 256 ^ 4 := Nat.pow_le_pow_right (by omega) hk
  split
  · have : (2 : Nat) ^ (8 * k) = 256 ^ k := by rw [Nat.pow_mul]
    omega
  · exact wrote_prefix _ _ _ _ _ _ hk hl fun pre' room' _ _ _ hl' => wrote_raw _ _ _ _ hl' (by omega)

theorem wrote_seqc {V : Type} (wr : V → St → Outcome (Bool × St)) (e : V → List UInt8) (P : V → Prop) (v : List V) (pre room : List UInt8)
    (marks : List (Nat × Nat)) (hv : v.length < 2 ^ 32) (hp : ∀ x ∈ v, P x) (hl : (pre ++ room).length < 2 ^ 63)
    (h : ∀ x, P x → ∀ pre room, (pre ++ room).length < 2 ^ 63 → WroteSpec (wr x (at' pre room marks)) pre room (e x) marks) :
    WroteSpec (writeSeq wr v (at' pre room marks)) pre room (withLen 4 v.length (v.flatMap e)) marks := by
  unfold writeSeq
  rw [size32_of_lt hv]
  exact wrote_prefix _ _ _ _ _ _ (by omega) hl fun pre' room' _ _ _ hl' => wrote_loop wr e marks P h v _ _ hp hl'

theorem wrote_podVec (k : Nat) (hk : k < 2 ^ 31) (v : List (List UInt8)) (pre room : List UInt8) (marks : List (Nat × Nat)) (hv : v.length < 2 ^ 32)
    (hp : ∀ x ∈ v, x.length = k) (hl : (pre ++ room).length < 2 ^ 63) :
    WroteSpec (writePodVec (ok ()) k v (at' pre room marks)) pre room (withLen 4 v.length v.flatten) marks := by
  unfold writePodVec
  rw [size32_of_lt hv]
  have hfl := flatten_length_const k v hp
  have hraw := mul_bound hv hk
  split
  · rename_i hcap
    simp only [capacityOk, List.length_append, decide_eq_true_eq] at hcap
    refine wrote_prefix _ _ _ _ _ _ (by omega) hl fun pre' room' hp' hr' hle hl' => ?_
    simp only [List.length_append] at hl
    have hroom : v.length * k + 4 ≤ room.length := by omega
    unfold writeBatch
    have hif : (if v.length = 0 then ok () else ok ()) = ok () := by split <;> rfl
    have hsl : slice v.flatten 0 (v.length * k) = ok v.flatten := by rw [← hfl]; have := slice_append [] v.flatten []; simpa using this
    rw [hif, ok_bind, hsl, ok_bind]
    left
    have hr : v.flatten.length ≤ room'.length := by rw [hr', hfl, List.length_drop]; omega
    refine ⟨hr, ?_⟩
    unfold putBytes
    rw [copyTo_append pre' _ room' v.flatten hr rfl]
    simp
  · rename_i hcap
    have := no_capacity hcap
    exact wrote_fail _ _ _ _ (by rw [withLen_length]; omega)

theorem wrote_set (k : Nat) (hk : k < 2 ^ 31) (v : List (List UInt8)) (pre room : List UInt8) (marks : List (Nat × Nat)) (hv : v.length < 2 ^ 32)
    (hp : ∀ x ∈ v, x.length = k) (hl : (pre ++ room).length < 2 ^ 63) :
    WroteSpec (writeSet k v (at' pre room marks)) pre room (withLen 4 v.length v.flatten) marks := by
  unfold writeSet
  rw [size32_of_lt hv]
  refine wrote_prefix _ _ _ _ _ _ (by omega) hl fun pre' room' _ _ _ hl' => ?_
  unfold writeSetBody
  split
  · have := wrote_loop writePod (fun x => x) marks (fun x => x.length = k) (fun x hx pre room hl => wrote_pod pre room x marks hl (by omega)) v pre' room'
      hp hl'
    rwa [List.flatMap_id'] at this
  · rename_i hcap
    have := no_capacity hcap
    rw [size32_of_lt hv] at this
    have hfl := flatten_length_const k v hp
    exact wrote_fail _ _ _ _ (by omega)

theorem enc_minLen : ∀ (t : Ty) (v : t.Val), Valid t v → minLen t ≤ (enc t v).length := by
  have hw : ∀ k n bs, k ≤ (withLen k n bs).length := fun k n bs => by rw [withLen_length]; omega
  intro t
  induction t with
  | pod n => intro v hv; exact Nat.le_of_eq (Eq.symm hv)
  | pair a b iha ihb =>
    intro v hv
    have h1 := iha v.1 hv.1
    have h2 := ihb v.2 hv.2
    show minLen a + minLen b ≤ (enc a v.1 ++ enc b v.2).length
    rw [List.length_append]; omega
  | _ => intro v _; exact hw _ _ _

theorem flatMap_length_ge {V : Type} (e : V → List UInt8) (m : Nat) : ∀ xs : List V, (∀ x ∈ xs, m ≤ (e x).length) → xs.length * m ≤ (xs.flatMap e).length := by
  intro xs
  induction xs with
  | nil => intro _; simp
  | cons x xs ih =>
    intro h
    have h1 := h x (by simp)
    have h2 := ih (fun y hy => h y (by simp [hy]))
    rw [List.length_cons, List.flatMap_cons, List.length_append, Nat.succ_mul]
    omega

theorem wrote (sz : Ty → Nat) (marks : List (Nat × Nat)) : ∀ (t : Ty), Small sz t → Good sz t → ∀ (v : t.Val), Valid t v → ∀ (pre room : List UInt8),
    (pre ++ room).length < 2 ^ 63 → WroteSpec (write sz (ok ()) t v (at' pre room marks)) pre room (enc t v) marks := by
  intro t
  induction t with
  | pod n =>
    intro hs hg v hv pre room hl
    exact wrote_pod pre room v marks hl (by have : List.length (α := UInt8) v = n := hv; have : n < 2 ^ 31 := hs; omega)
  | str => intro hs hg v hv pre room hl; exact wrote_str v pre room marks hv hl
  | pstr k => intro hs hg v hv pre room hl; exact wrote_pstr k hs v pre room marks hv hl
  | pair a b iha ihb =>
    intro hs hg v hv pre room hl
    exact wrote_seq (iha hs.1 hg.1 v.1 hv.1 pre room hl) fun hle => ihb hs.2 hg.2 v.2 hv.2 _ _ (by simp at hl ⊢; omega)
  | seq t ih =>
    intro hs hg v hv pre room hl
    exact wrote_seqc _ (enc t) (Valid t) v pre room marks hv.1 hv.2 hl (fun x hx pre room hl => ih hs.2 hg.1 x hx pre room hl)
  | podVec k => intro hs hg v hv pre room hl; exact wrote_podVec k hs v pre room marks hv.1 hv.2 hl
  | objVec t ih =>
    intro hs hg v hv pre room hl
    show WroteSpec (writeObjVec _ _ _ _) _ _ _ _
    unfold writeObjVec
    split
    · exact wrote_seqc _ (enc t) (Valid t) v pre room marks hv.1 hv.2 hl (fun x hx pre room hl => ih hs.2 hg.1 x hx pre room hl)
    · rename_i hcap
      have h1 := no_capacity hcap
      rw [size32_of_lt hv.1] at h1
      have h2 := flatMap_length_ge (enc t) (minLen t) v fun x hx => enc_minLen t x (hv.2 x hx)
      have h3 := Nat.mul_le_mul_left (List.length (α := t.Val) v) hg.2.2
      exact wrote_fail _ _ _ _ (by
        show room.length < (withLen 4 (List.length (α := t.Val) v) (List.flatMap (enc t) v)).length
        rw [withLen_length]; omega)
  | set k lt => intro hs hg v hv pre room hl; exact wrote_set k hs v pre room marks hv.1 hv.2.1 hl

/-! ## Reading -/

/-- What the target holds after a successful read: the value read, appended to a sequence, inserted into a set. -/
def merge : (t : Ty) → t.Val → t.Val → t.Val
  | .pair a b, p, v => (merge a p.1 v.1, merge b p.2 v.2)
  | .seq t, p, v => List.append (α := t.Val) p v
  | .set _ lt, p, v => List.foldl (fun s x => setInsert lt x s) (show List (List UInt8) from p) (show List (List UInt8) from v)
  | .pod _, _, v => v
  | .str, _, v => v
  | .pstr _, _, v => v
  | .podVec _, _, v => v
  | .objVec _, _, v => v

theorem merge_replaces : ∀ (t : Ty), Replaces t → ∀ p v, merge t p v = v := by
  intro t
  induction t with
  | pair a b iha ihb =>
    intro h p v
    simp only [merge, iha h.1, ihb h.2]
    rfl
  | seq t _ => intro h; exact h.elim
  | set n lt => intro h; exact h.elim
  | _ => intros; rfl

theorem setInsert_last (lt : List UInt8 → List UInt8 → Bool) (x : List UInt8) : ∀ l : List (List UInt8), (∀ a ∈ l, lt a x = true ∧ lt x a = false) →
    setInsert lt x l = l ++ [x] := by
  intro l
  induction l with
  | nil => intro _; rfl
  | cons a l ih =>
    intro h
    have := h a (by simp)
    simp only [setInsert, this.1, this.2, if_true, Bool.false_eq_true, if_false, List.cons_append]
    rw [ih (fun b hb => h b (by simp [hb]))]

theorem foldl_setInsert (lt : List UInt8 → List UInt8 → Bool) : ∀ (v pre : List (List UInt8)),
    (pre ++ v).Pairwise (fun a b => lt a b = true ∧ lt b a = false) → v.foldl (fun s x => setInsert lt x s) pre = pre ++ v := by
  intro v
  induction v with
  | nil => intro pre _; simp
  | cons x v ih =>
    intro pre h
    rw [List.foldl_cons, setInsert_last lt x pre]
    · rw [ih (pre ++ [x]) (by simpa using h)]; simp
    · intro a ha
      rw [List.pairwise_append] at h
      exact h.2.2 a ha x (by simp)

theorem merge_dflt : ∀ (t : Ty) (v : t.Val), Valid t v → merge t t.dflt v = v := by
  intro t
  induction t with
  | pair a b iha ihb =>
    intro v hv
    show (merge a a.dflt v.1, merge b b.dflt v.2) = v
    rw [iha _ hv.1, ihb _ hv.2]
    rfl
  | seq t _ => intro v _; rfl
  | set n lt => intro v hv; exact foldl_setInsert lt v [] hv.2.2
  | _ => intros; rfl

theorem readPod_at (pre bs post : List UInt8) (marks : List (Nat × Nat)) (hl : (pre ++ (bs ++ post)).length < 2 ^ 63) :
    readPod bs.length (at' pre (bs ++ post) marks) = ok (some bs, at' (pre ++ bs) post marks) := by
  rw [readPod_ok pre bs post marks hl]
  simp

theorem takeBytes_at (pre bs post : List UInt8) (marks : List (Nat × Nat)) :
    takeBytes (at' pre (bs ++ post) marks) bs.length = ok (bs, at' (pre ++ bs) post marks) := by
  unfold takeBytes
  simp only
  rw [← List.append_assoc, slice_append, ok_bind]
  simp

theorem capacity_at (pre room : List UInt8) (marks : List (Nat × Nat)) (n : Nat) (hn : n ≤ room.length) (hl : (pre ++ room).length < 2 ^ 63) :
    capacityOk (at' pre room marks) n = true := by
  simp only [List.length_append] at hl
  simp only [capacityOk, List.length_append, decide_eq_true_eq]
  omega

theorem readLoop_spec {V : Type} (rd : V → St → Outcome (Bool × V × St)) (e : V → List UInt8) (marks : List (Nat × Nat)) (P : V → Prop)
    (h : ∀ x, P x → ∀ prior pre post, (pre ++ (e x ++ post)).length < 2 ^ 63 →
      rd prior (at' pre (e x ++ post) marks) = ok (true, x, at' (pre ++ e x) post marks)) :
    ∀ (xs : List V) (t : V) (pre post : List UInt8), (∀ x ∈ xs, P x) → (pre ++ (xs.flatMap e ++ post)).length < 2 ^ 63 →
      readLoop rd xs.length t (at' pre (xs.flatMap e ++ post) marks) = ok (true, xs, at' (pre ++ xs.flatMap e) post marks) := by
  intro xs
  induction xs with
  | nil => intro t pre post _ _; simp [readLoop]
  | cons x xs ih =>
    intro t pre post hp hl
    rw [List.length_cons, List.flatMap_cons, List.append_assoc]
    rw [List.flatMap_cons, List.append_assoc] at hl
    unfold readLoop
    rw [h x (hp x (by simp)) t pre _ hl, ok_bind]
    simp only [if_true]
    rw [ih x (pre ++ e x) post (fun y hy => hp y (by simp [hy])) (by simp at hl ⊢; omega), ok_bind]
    simp

theorem chunks_flatten (n : Nat) : ∀ l : List (List UInt8), (∀ x ∈ l, x.length = n) → chunks n l.length l.flatten = l := by
  intro l
  induction l with
  | nil => intro _; rfl
  | cons a t ih =>
    intro h
    have ha := h a (by simp)
    rw [List.length_cons, chunks, List.flatten_cons, ← ha, List.take_left, List.drop_left, ha, ih (fun x hx => h x (by simp [hx]))]

/-- A prefix of `k` bytes read at the current position. -/
theorem readPrefix (k n : Nat) (hn : n < 256 ^ k) (pre body post : List UInt8) (marks : List (Nat × Nat))
    (hl : (pre ++ (withLen k n body ++ post)).length < 2 ^ 63) :
    leNat (leBytes k n) = n ∧
    readPod k (at' pre (withLen k n body ++ post) marks) = ok (some (leBytes k n), at' (pre ++ leBytes k n) (body ++ post) marks) ∧
    ((pre ++ leBytes k n) ++ (body ++ post)).length < 2 ^ 63 ∧ pre ++ withLen k n body = (pre ++ leBytes k n) ++ body := by
  refine ⟨by rw [leNat_leBytes, Nat.mod_eq_of_lt hn], ?_, ?_, by simp [withLen]⟩
  · have := readPod_at pre (leBytes k n) (body ++ post) marks (by simpa [withLen] using hl)
    rw [leBytes_length] at this
    unfold withLen
    rw [List.append_assoc]
    exact this
  · simpa [withLen] using hl

theorem read_str (prior v pre post : List UInt8) (marks : List (Nat × Nat)) (hv : v.length < 2 ^ 32)
    (hl : (pre ++ (withLen 4 v.length v ++ post)).length < 2 ^ 63) :
    readStr prior (at' pre (withLen 4 v.length v ++ post) marks) = ok (true, v, at' (pre ++ withLen 4 v.length v) post marks) := by
  obtain ⟨h1, h2, h3, h4⟩ := readPrefix 4 v.length hv pre v post marks hl
  unfold readStr
  rw [h2, ok_bind, h4]
  simp only [h1]
  rw [if_pos (capacity_at _ _ _ _ (by simp) h3), takeBytes_at, ok_bind]

theorem read_pstr (k : Nat) (prior v pre post : List UInt8) (marks : List (Nat × Nat)) (hv : v.length < 256 ^ k)
    (hl : (pre ++ (withLen k v.length v ++ post)).length < 2 ^ 63) :
    readPstr k prior (at' pre (withLen k v.length v ++ post) marks) = ok (true, v, at' (pre ++ withLen k v.length v) post marks) := by
  obtain ⟨h1, h2, h3, h4⟩ := readPrefix k v.length hv pre v post marks hl
  unfold readPstr
  rw [h2, ok_bind, h4]
  simp only [h1]
  rw [if_pos (capacity_at _ _ _ _ (by simp) h3), takeBytes_at, ok_bind]

theorem read_seqc {V : Type} (rd : V → St → Outcome (Bool × V × St)) (e : V → List UInt8) (size m : Nat) (P : V → Prop) (fresh : V)
    (prior v : List V) (pre post : List UInt8) (marks : List (Nat × Nat)) (hv : v.length < 2 ^ 32) (hp : ∀ x ∈ v, P x) (hm : size ≤ m)
    (he : ∀ x, P x → m ≤ (e x).length) (hl : (pre ++ (withLen 4 v.length (v.flatMap e) ++ post)).length < 2 ^ 63)
    (h : ∀ x, P x → ∀ prior pre post, (pre ++ (e x ++ post)).length < 2 ^ 63 →
      rd prior (at' pre (e x ++ post) marks) = ok (true, x, at' (pre ++ e x) post marks)) :
    readSeq rd size fresh prior (at' pre (withLen 4 v.length (v.flatMap e) ++ post) marks) =
      ok (true, prior ++ v, at' (pre ++ withLen 4 v.length (v.flatMap e)) post marks) ∧
    readObjVec rd size fresh prior (at' pre (withLen 4 v.length (v.flatMap e) ++ post) marks) =
      ok (true, v, at' (pre ++ withLen 4 v.length (v.flatMap e)) post marks) := by
  obtain ⟨h1, h2, h3, h4⟩ := readPrefix 4 v.length hv pre (v.flatMap e) post marks hl
  have hge := flatMap_length_ge e m v (fun x hx => he x (hp x hx))
  have hcap : v.length * size ≤ (v.flatMap e ++ post).length := by
    have := Nat.mul_le_mul_left v.length hm
    rw [List.length_append]; omega
  have hloop := readLoop_spec rd e marks P h v fresh (pre ++ leBytes 4 v.length) post hp h3
  constructor
  · unfold readSeq
    rw [h2, ok_bind, h4]
    simp only [h1]
    rw [if_pos (capacity_at _ _ _ _ hcap h3), hloop, ok_bind]
  · unfold readObjVec
    rw [h2, ok_bind, h4]
    simp only [h1]
    rw [if_pos (capacity_at _ _ _ _ hcap h3), hloop, ok_bind]
    simp

theorem read_podVec (n : Nat) (prior v : List (List UInt8)) (pre post : List UInt8) (marks : List (Nat × Nat)) (hv : v.length < 2 ^ 32)
    (hp : ∀ x ∈ v, x.length = n) (hl : (pre ++ (withLen 4 v.length v.flatten ++ post)).length < 2 ^ 63) :
    readPodVec (ok ()) n prior (at' pre (withLen 4 v.length v.flatten ++ post) marks) =
      ok (true, v, at' (pre ++ withLen 4 v.length v.flatten) post marks) := by
  obtain ⟨h1, h2, h3, h4⟩ := readPrefix 4 v.length hv pre v.flatten post marks hl
  have hfl := flatten_length_const n v hp
  unfold readPodVec
  rw [h2, ok_bind, h4]
  simp only [h1]
  have hif : (if v.length = 0 then ok () else ok ()) = ok () := by split <;> rfl
  rw [if_pos (capacity_at _ _ _ _ (by rw [List.length_append]; omega) h3), hif, ok_bind, Nat.mul_comm n, ← hfl, takeBytes_at, ok_bind, chunks_flatten n v hp]

theorem read_podVal (n : Nat) (prior v pre post : List UInt8) (marks : List (Nat × Nat)) (hv : v.length = n) (hl : (pre ++ (v ++ post)).length < 2 ^ 63) :
    readPodVal n prior (at' pre (v ++ post) marks) = ok (true, v, at' (pre ++ v) post marks) := by
  unfold readPodVal
  rw [← hv, readPod_at _ _ _ _ hl, ok_bind]

theorem read_set (n : Nat) (lt : List UInt8 → List UInt8 → Bool) (prior v : List (List UInt8)) (pre post : List UInt8) (marks : List (Nat × Nat))
    (hv : v.length < 2 ^ 32) (hp : ∀ x ∈ v, x.length = n) (hl : (pre ++ (withLen 4 v.length v.flatten ++ post)).length < 2 ^ 63) :
    readSet n lt prior (at' pre (withLen 4 v.length v.flatten ++ post) marks) =
      ok (true, v.foldl (fun s x => setInsert lt x s) prior, at' (pre ++ withLen 4 v.length v.flatten) post marks) := by
  obtain ⟨h1, h2, h3, h4⟩ := readPrefix 4 v.length hv pre v.flatten post marks hl
  have hfl := flatten_length_const n v hp
  have hid : v.flatMap (fun x => x) = v.flatten := List.flatMap_id'
  have hloop := readLoop_spec (readPodVal n) (fun x => x) marks (fun x => x.length = n)
    (fun x hx prior pre post hl => read_podVal n prior x pre post marks hx hl) v (List.replicate n 0) (pre ++ leBytes 4 v.length) post hp
    (by rw [hid]; exact h3)
  rw [hid] at hloop
  unfold readSet
  rw [h2, ok_bind, h4]
  simp only [h1]
  rw [if_pos (capacity_at _ _ _ _ (by rw [List.length_append]; omega) h3), hloop, ok_bind]

theorem read_spec (sz : Ty → Nat) (marks : List (Nat × Nat)) : ∀ (t : Ty), Good sz t → ∀ (v : t.Val), Valid t v →
    ∀ (prior : t.Val) (pre post : List UInt8), (pre ++ (enc t v ++ post)).length < 2 ^ 63 →
    read sz (ok ()) t prior (at' pre (enc t v ++ post) marks) = ok (true, merge t prior v, at' (pre ++ enc t v) post marks) := by
  intro t
  induction t with
  | pod n => intro hg v hv prior pre post hl; exact read_podVal n prior v pre post marks hv hl
  | str => intro hg v hv prior pre post hl; exact read_str prior v pre post marks hv hl
  | pstr k => intro hg v hv prior pre post hl; exact read_pstr k prior v pre post marks hv hl
  | pair a b iha ihb =>
    intro hg v hv prior pre post hl
    have e1 : enc (.pair a b) v = enc a v.1 ++ enc b v.2 := rfl
    rw [e1, List.append_assoc] at hl
    rw [e1, List.append_assoc]
    show readPair _ _ _ _ = _
    unfold readPair
    rw [iha hg.1 v.1 hv.1 prior.1 pre _ hl, ok_bind]
    simp only [if_true]
    rw [ihb hg.2 v.2 hv.2 prior.2 (pre ++ enc a v.1) post (by simpa using hl), ok_bind, List.append_assoc]
    rfl
  | seq t ih =>
    intro hg v hv prior pre post hl
    exact (read_seqc (read sz (ok ()) t) (enc t) (sz t) (minLen t) (Valid t) t.dflt prior v pre post marks hv.1 hv.2 hg.2.2
      (fun x hx => enc_minLen t x hx) hl (fun x hx prior pre post hl => by rw [ih hg.1 x hx prior pre post hl, merge_replaces t hg.2.1])).1
  | podVec n => intro hg v hv prior pre post hl; exact read_podVec n prior v pre post marks hv.1 hv.2 hl
  | objVec t ih =>
    intro hg v hv prior pre post hl
    exact (read_seqc (read sz (ok ()) t) (enc t) (sz t) (minLen t) (Valid t) t.dflt prior v pre post marks hv.1 hv.2 hg.2.2
      (fun x hx => enc_minLen t x hx) hl (fun x hx prior pre post hl => by rw [ih hg.1 x hx prior pre post hl, merge_replaces t hg.2.1])).2
  | set n lt => intro hg v hv prior pre post hl; exact read_set n lt prior v pre post marks hv.1 hv.2.1 hl

/-! ## The property -/

/-- A typed value. -/
abbrev Item := (t : Ty) × t.Val

/-- A program of writes, stopping at the first that fails. -/
def writeAll (sz : Ty → Nat) (ev : Outcome Unit) : List Item → St → Outcome (Bool × St)
  | [], st => ok (true, st)
  | i :: is, st => do
    let (good, st) ← write sz ev i.1 i.2 st
    if good then writeAll sz ev is st else ok (false, st)

/-- A program of reads into fresh objects, stopping at the first that fails. -/
def readAll (sz : Ty → Nat) (ev : Outcome Unit) : List Ty → St → Outcome (Bool × List Item × St)
  | [], st => ok (true, [], st)
  | t :: ts, st => do
    let (good, v, st) ← read sz ev t t.dflt st
    if good then do
      let (good, vs, st) ← readAll sz ev ts st
      ok (good, ⟨t, v⟩ :: vs, st)
    else ok (false, [], st)

theorem writeAll_spec (sz : Ty → Nat) (marks : List (Nat × Nat)) : ∀ (items : List Item) (pre room : List UInt8),
    (∀ i ∈ items, Good sz i.1 ∧ Small sz i.1 ∧ Valid i.1 i.2) → (pre ++ room).length < 2 ^ 63 →
    WroteSpec (writeAll sz (ok ()) items (at' pre room marks)) pre room (items.flatMap fun i => enc i.1 i.2) marks := by
  intro items
  induction items with
  | nil => intro pre room _ _; left; exact ⟨by simp, by simp [writeAll]⟩
  | cons i is ih =>
    intro pre room hi hl
    rw [List.flatMap_cons]
    have h1 := hi i (by simp)
    exact wrote_seq (wrote sz marks i.1 h1.2.1 h1.1 i.2 h1.2.2 pre room hl) fun hle =>
      ih _ _ (fun j hj => hi j (by simp [hj])) (by simp at hl ⊢; omega)

theorem readAll_spec (sz : Ty → Nat) (marks : List (Nat × Nat)) : ∀ (items : List Item) (pre post : List UInt8),
    (∀ i ∈ items, Good sz i.1 ∧ Valid i.1 i.2) → (pre ++ ((items.flatMap fun i => enc i.1 i.2) ++ post)).length < 2 ^ 63 →
    readAll sz (ok ()) (items.map (·.1)) (at' pre ((items.flatMap fun i => enc i.1 i.2) ++ post) marks) =
      ok (true, items, at' (pre ++ items.flatMap fun i => enc i.1 i.2) post marks) := by
  intro items
  induction items with
  | nil => intro pre post _ _; simp [readAll]
  | cons i is ih =>
    intro pre post hi hl
    rw [List.flatMap_cons, List.append_assoc] at hl
    rw [List.flatMap_cons, List.append_assoc, List.map_cons]
    have h1 := hi i (by simp)
    unfold readAll
    rw [read_spec sz marks i.1 h1.1 i.2 h1.2 i.1.dflt pre _ hl, ok_bind]
    simp only [if_true]
    rw [ih (pre ++ enc i.1 i.2) post (fun j hj => hi j (by simp [hj])) (by simpa using hl), ok_bind, merge_dflt _ _ h1.2]
    simp

/-- If all writes of a program succeed, reading the buffer back with the same types into fresh objects succeeds, gives the same values in the same order
and ends at the position where the writer ended.  For every buffer and every program over the good types (see `Good`); `&v[0]` on an empty vector is
taken as harmless. -/
theorem C47_write_read_partial (sz : Ty → Nat) (buf : List UInt8) (hbuf : buf.length < 2 ^ 63) (items : List Item)
    (hi : ∀ i ∈ items, Good sz i.1 ∧ Small sz i.1 ∧ Valid i.1 i.2) (st : St)
    (hw : writeAll sz (ok ()) items (St.fresh buf) = ok (true, st)) :
    ∃ st', readAll sz (ok ()) (items.map (·.1)) (St.fresh st.buf) = ok (true, items, st') ∧ st'.amount = st.amount ∧ st'.buf = st.buf := by
  have h := writeAll_spec sz [] items [] buf hi (by simpa using hbuf)
  rcases h with ⟨hle, h⟩ | ⟨done, room', h, _⟩
  · have e : at' [] buf [] = St.fresh buf := rfl
    rw [e] at h
    rw [h] at hw
    simp only [ok.injEq, Prod.mk.injEq, true_and] at hw
    subst hw
    exact ⟨_, readAll_spec sz [] items [] (buf.drop _) (fun i h => ⟨(hi i h).1, (hi i h).2.2⟩)
      (by rw [List.nil_append, List.length_append, List.length_drop]; omega), rfl, rfl⟩
  · have e : at' [] buf [] = St.fresh buf := rfl
    rw [e] at h
    rw [h] at hw
    simp at hw

/-- Writing itself: a program over the good types succeeds exactly when the serialised forms fit into the buffer; then the buffer begins with them, the
rest of it is unchanged, and the amount written is their length. -/
theorem C47_write_succeeds (sz : Ty → Nat) (buf : List UInt8) (hbuf : buf.length < 2 ^ 63) (items : List Item)
    (hi : ∀ i ∈ items, Good sz i.1 ∧ Small sz i.1 ∧ Valid i.1 i.2) :
    ∃ good st, writeAll sz (ok ()) items (St.fresh buf) = ok (good, st) ∧
      (good = true ↔ (items.flatMap fun i => enc i.1 i.2).length ≤ buf.length) ∧
      (good = true → st.buf = (items.flatMap fun i => enc i.1 i.2) ++ buf.drop (items.flatMap fun i => enc i.1 i.2).length ∧
        st.amount = (items.flatMap fun i => enc i.1 i.2).length) := by
  have h := writeAll_spec sz [] items [] buf hi (by simpa using hbuf)
  rcases h with ⟨hle, h⟩ | ⟨done, room', h, _, hlt⟩
  · exact ⟨true, _, h, ⟨fun _ => hle, fun _ => rfl⟩, fun _ => ⟨rfl, rfl⟩⟩
  · exact ⟨false, _, h, by simp only [Bool.false_eq_true, false_iff]; omega, fun h => nomatch h⟩

/-- A short or pascal string that does not fit its prefix is rejected and nothing is written. -/
theorem C47_pstr_too_long (sz : Ty → Nat) (ev : Outcome Unit) (k : Nat) (v : List UInt8) (hv : 256 ^ k ≤ v.length) (st : St) :
    write sz ev (.pstr k) v st = ok (false, st) := by
  have : (2 : Nat) ^ (8 * k) = 256 ^ k := by rw [Nat.pow_mul]
  have h0 : 0 < (256 : Nat) ^ k := Nat.pow_pos (by decide)
  show writePstr k v st = _
  unfold writePstr
  rw [if_pos (by omega)]

theorem setInsert_spec (lt : List UInt8 → List UInt8 → Bool) (hirr : ∀ a, lt a a = false) (htr : ∀ a b c, lt a b = true → lt b c = true → lt a c = true)
    (htot : ∀ a b, lt a b = true ∨ a = b ∨ lt b a = true) (x : List UInt8) : ∀ s : List (List UInt8), s.Pairwise (fun a b => lt a b = true) →
    (setInsert lt x s).Pairwise (fun a b => lt a b = true) ∧ ∀ y, y ∈ setInsert lt x s ↔ y = x ∨ y ∈ s := by
  intro s
  induction s with
  | nil => intro _; simp [setInsert]
  | cons a s ih =>
    intro hs
    have hp := List.pairwise_cons.mp hs
    obtain ⟨h1, h2⟩ := ih hp.2
    unfold setInsert
    by_cases hxa : lt x a = true
    · rw [if_pos hxa]
      refine ⟨List.pairwise_cons.mpr ⟨?_, hs⟩, fun y => by simp⟩
      intro b hb
      rcases List.mem_cons.mp hb with rfl | hb
      · exact hxa
      · exact htr _ _ _ hxa (hp.1 b hb)
    · rw [if_neg hxa]
      by_cases hax : lt a x = true
      · rw [if_pos hax]
        refine ⟨List.pairwise_cons.mpr ⟨?_, h1⟩, fun y => ?_⟩
        · intro b hb
          rcases (h2 b).mp hb with rfl | hb
          · exact hax
          · exact hp.1 b hb
        · rw [List.mem_cons, h2, List.mem_cons]
          constructor
          · rintro (h | h | h)
            · exact Or.inr (Or.inl h)
            · exact Or.inl h
            · exact Or.inr (Or.inr h)
          · rintro (h | h | h)
            · exact Or.inr (Or.inl h)
            · exact Or.inl h
            · exact Or.inr (Or.inr h)
      · rw [if_neg hax]
        have : x = a := by
          rcases htot x a with h | h | h
          · exact absurd h hxa
          · exact h
          · exact absurd h hax
        subst this
        exact ⟨hs, fun y => by simp⟩

/-- Reading a serialised set into a set that is not empty: the result is the union, in the order of the comparator (a strict total order). -/
theorem C47_set_union (sz : Ty → Nat) (n : Nat) (lt : List UInt8 → List UInt8 → Bool) (hirr : ∀ a, lt a a = false)
    (htr : ∀ a b c, lt a b = true → lt b c = true → lt a c = true) (htot : ∀ a b, lt a b = true ∨ a = b ∨ lt b a = true)
    (prior v : List (List UInt8)) (hprior : prior.Pairwise (fun a b => lt a b = true)) (hv : Valid (.set n lt) v) (post : List UInt8)
    (hl : (enc (.set n lt) v ++ post).length < 2 ^ 63) :
    ∃ (s : List (List UInt8)) (st' : St), read sz (ok ()) (.set n lt) prior (St.fresh (enc (.set n lt) v ++ post)) = ok (true, s, st') ∧
      s.Pairwise (fun a b => lt a b = true) ∧ ∀ y, y ∈ s ↔ y ∈ prior ∨ y ∈ (show List (List UInt8) from v) := by
  have h := read_set n lt prior v [] post [] hv.1 hv.2.1 (by simpa [enc] using hl)
  refine ⟨_, _, h, ?_⟩
  clear h hl hv
  induction v generalizing prior with
  | nil => exact ⟨hprior, fun y => by simp⟩
  | cons x v ih =>
    obtain ⟨h1, h2⟩ := setInsert_spec lt hirr htr htot x prior hprior
    obtain ⟨h3, h4⟩ := ih (setInsert lt x prior) h1
    refine ⟨h3, fun y => ?_⟩
    rw [List.foldl_cons, h4 y, h2 y]
    simp only [List.mem_cons]
    constructor
    · rintro ((h | h) | h)
      · exact Or.inr (Or.inl h)
      · exact Or.inl h
      · exact Or.inr (Or.inr h)
    · rintro (h | h | h)
      · exact Or.inl (Or.inr h)
      · exact Or.inl (Or.inl h)
      · exact Or.inr h

theorem leNat_inj : ∀ a b : List UInt8, a.length = b.length → leNat a = leNat b → a = b := by
  intro a
  induction a with
  | nil => intro b hl _; exact (List.length_eq_zero_iff.mp hl.symm).symm
  | cons x a ih =>
    intro b hl h
    cases b with
    | nil => simp at hl
    | cons y b =>
      simp only [leNat] at h
      have hx := x.toNat_lt
      have hy := y.toNat_lt
      have h1 : x.toNat = y.toNat := by omega
      have h2 : leNat a = leNat b := by omega
      rw [ih b (by simpa using hl) h2, UInt8.toNat_inj.mp h1]

/-- The hypotheses of the last theorem hold of byte strings ordered by length, then by value, and the set {3, 9} of one-byte numbers. -/
example :
    let lt : List UInt8 → List UInt8 → Bool := fun a b => a.length < b.length ∨ a.length = b.length ∧ leNat a < leNat b
    (∀ a, lt a a = false) ∧ (∀ a b c, lt a b = true → lt b c = true → lt a c = true) ∧ (∀ a b, lt a b = true ∨ a = b ∨ lt b a = true) ∧
      Valid (.set 1 lt) ([[3], [9]] : List (List UInt8)) ∧ ([[5], [9]] : List (List UInt8)).Pairwise (fun a b => lt a b = true) := by
  refine ⟨fun a => by simp, fun a b c h1 h2 => ?_, fun a b => ?_, ⟨by decide, by decide, by decide⟩, by decide⟩
  · simp only [decide_eq_true_eq] at *; omega
  · simp only [decide_eq_true_eq]
    by_cases hl : a.length = b.length
    · by_cases hn : leNat a = leNat b
      · exact Or.inr (Or.inl (leNat_inj a b hl hn))
      · omega
    · omega

/-- The hypotheses are met by a program with a 4-byte POD, a string, a vector of pairs and a set, in a buffer of 40 bytes. -/
example :
    let sz : Ty → Nat := fun t => match t with | .pair _ _ => 6 | _ => 4
    let lt : List UInt8 → List UInt8 → Bool := fun a b => leNat a < leNat b
    let items : List Item := [⟨.pod 4, [1, 2, 3, 4]⟩, ⟨.str, [104, 105]⟩, ⟨.objVec (.pair (.pod 2) (.pstr 4)), [([7, 7], [1]), ([8, 8], [])]⟩,
      ⟨.set 1 lt, [[3], [9]]⟩]
    (∀ i ∈ items, Good sz i.1 ∧ Small sz i.1 ∧ Valid i.1 i.2) ∧
    ∃ st, writeAll sz (ok ()) items (St.fresh (List.replicate 40 0)) = ok (true, st) ∧ st.amount = 33 := by
  refine ⟨?_, ⟨[1, 2, 3, 4, 2, 0, 0, 0, 104, 105, 2, 0, 0, 0, 7, 7, 1, 0, 0, 0, 1, 8, 8, 0, 0, 0, 0, 2, 0, 0, 0, 3, 9] ++ List.replicate 7 0, 33, 33, []⟩,
    by decide +kernel, rfl⟩
  intro i hi
  simp only [List.mem_cons, List.not_mem_nil, or_false] at hi
  rcases hi with rfl | rfl | rfl | rfl
  · exact ⟨trivial, by show 4 < 2 ^ 31; decide, rfl⟩
  · exact ⟨trivial, trivial, by show 2 < 2 ^ 32; decide⟩
  · refine ⟨⟨⟨trivial, trivial⟩, ⟨trivial, trivial⟩, Nat.le_refl 6⟩, ⟨by show 6 < 2 ^ 31; decide, by show 2 < 2 ^ 31; decide, Nat.le_refl 4⟩,
      by show 2 < 2 ^ 32; decide, ?_⟩
    intro x hx
    rcases List.mem_cons.mp hx with rfl | hx
    · exact ⟨rfl, by show 1 < 256 ^ 4; decide⟩
    · rcases List.mem_cons.mp hx with rfl | hx
      · exact ⟨rfl, by show 0 < 256 ^ 4; decide⟩
      · exact absurd hx List.not_mem_nil
  · exact ⟨trivial, by show 1 < 2 ^ 31; decide, by show 2 < 2 ^ 32; decide, by decide, by decide⟩

/-- Missing from the full property, 1: the length of a string of 2^32 characters does not fit the prefix.  The write succeeds and the string comes back
empty. -/
theorem C47_long_string_lost (sz : Ty → Nat) (ev : Outcome Unit) (v buf : List UInt8) (hv : v.length = 2 ^ 32) (hb : 4 ≤ buf.length)
    (hl : buf.length < 2 ^ 63) :
    ∃ st st', write sz ev .str v (St.fresh buf) = ok (true, st) ∧ read sz ev .str ([] : List UInt8) (St.fresh st.buf) = ok (true, ([] : List UInt8), st') := by
  have hw : writeStr v (St.fresh buf) = ok (true, at' (leBytes 4 0) (buf.drop 4) []) := by
    unfold writeStr
    have h0 : size32 v.length = 0 := by rw [hv]; rfl
    rw [h0, show St.fresh buf = at' [] buf [] from rfl, (writePod_at [] buf (leBytes 4 0) [] (by simpa using hl) (by rw [leBytes_length]; omega)).1
      (by rw [leBytes_length]; exact hb), ok_bind, leBytes_length]
    unfold writeRaw
    simp only [if_true]
    rw [if_pos (by simp [capacityOk, leBytes_length])]
    have : slice v 0 0 = ok [] := by simp [slice]
    rw [this, ok_bind]
    unfold putBytes
    rw [copyTo_append _ _ (buf.drop 4) [] (by simp) rfl]
    simp
  have hr := read_str [] [] [] (buf.drop 4) [] (by decide) (by simp [withLen, leBytes_length]; omega)
  exact ⟨_, _, hw, hr⟩

/-- Missing, 2: the reader asks for `sizeof(T)` bytes for each element of a container, so a deque with one short string, written to a buffer of just the
right size, cannot be read. -/
theorem C47_tight_buffer_unreadable :
    ∃ st, write (fun _ => 32) (ok ()) (.seq .str) ([[97]] : List (List UInt8)) (St.fresh (List.replicate 9 0)) = ok (true, st) ∧ st.amount = 9 ∧
      ∃ st', read (fun _ => 32) (ok ()) (.seq .str) ([] : List (List UInt8)) (St.fresh st.buf) = ok (false, ([] : List (List UInt8)), st') :=
  ⟨⟨[1, 0, 0, 0, 1, 0, 0, 0, 97], 9, 9, []⟩, by decide +kernel, rfl, ⟨[1, 0, 0, 0, 1, 0, 0, 0, 97], 4, 4, []⟩,
    (by decide +kernel : readSeq readStr 32 ([] : List UInt8) [] (St.fresh [1, 0, 0, 0, 1, 0, 0, 0, 97]) = ok (false, [], _))⟩

/-- Missing, 3: the object the elements are read into is not cleared, so a deque of deques accumulates. -/
theorem C47_nested_accumulates :
    ∃ st, write (fun _ => 1) (ok ()) (.seq (.seq (.pod 1))) ([[[1]], [[2]]] : List (List (List UInt8))) (St.fresh (List.replicate 20 0)) = ok (true, st) ∧
      ∃ st', read (fun _ => 1) (ok ()) (.seq (.seq (.pod 1))) ([] : List (List (List UInt8))) (St.fresh st.buf) =
        ok (true, ([[[1]], [[1], [2]]] : List (List (List UInt8))), st') :=
  ⟨⟨[2, 0, 0, 0, 1, 0, 0, 0, 1, 1, 0, 0, 0, 2, 0, 0, 0, 0, 0, 0], 14, 14, []⟩, by decide +kernel,
    ⟨[2, 0, 0, 0, 1, 0, 0, 0, 1, 1, 0, 0, 0, 2, 0, 0, 0, 0, 0, 0], 14, 14, []⟩,
    (by decide +kernel : readSeq (readSeq (readPodVal 1) 1 [0]) 1 [] [] (St.fresh [2, 0, 0, 0, 1, 0, 0, 0, 1, 1, 0, 0, 0, 2, 0, 0, 0, 0, 0, 0]) =
      ok (true, [[[1]], [[1], [2]]], _))⟩

/-- Missing, 4: an empty vector of a POD type is written and read through `&v[0]`, which is undefined. -/
theorem C47_empty_vector_undefined (sz : Ty → Nat) :
    write sz ub (.podVec 4) ([] : List (List UInt8)) (St.fresh (List.replicate 8 0)) = ub ∧
    read sz ub (.podVec 4) ([] : List (List UInt8)) (St.fresh (List.replicate 8 0)) = ub := ⟨rfl, rfl⟩

example := C47_long_string_lost (fun _ => 4) (ok ()) (List.replicate (2 ^ 32) 7) [0, 0, 0, 0, 0] (List.length_replicate) (by decide) (by decide)

end Strtk.Binary
