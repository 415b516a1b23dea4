import Verif.Binary.Room
import Verif.Binary.Sound
import Verif.Bloom.File

/-!
# Files cut short (C158)

What a crash leaves of a file is a beginning of it (C157).  Here: reading it back.
-/

namespace Strtk.Binary
open Outcome Mem

/-- The same position in a buffer with more bytes behind. -/
def ext (st : St) (b : List UInt8) : St := { st with buf := st.buf ++ b }

/-- A read that succeeds goes the same way when there are more bytes behind. -/
def Mono {V : Type} (rd : V → St → Outcome (Bool × V × St)) : Prop :=
  ∀ p st v st' b, rd p st = ok (true, v, st') → rd p (ext st b) = ok (true, v, ext st' b)

theorem capacityOk_ext {st : St} {n : Nat} (b : List UInt8) (h : capacityOk st n = true) : capacityOk (ext st b) n = true := by
  simp only [capacityOk, ext, List.length_append, decide_eq_true_eq] at h ⊢
  omega

theorem takeBytes_ext {st st' : St} {n : Nat} {bs : List UInt8} (b : List UInt8) (h : takeBytes st n = ok (bs, st')) :
    takeBytes (ext st b) n = ok (bs, ext st' b) := by
  unfold takeBytes slice at h ⊢
  by_cases hl : st.ptr + n ≤ st.buf.length
  · rw [if_pos hl, ok_bind] at h
    simp only [ok.injEq, Prod.mk.injEq] at h
    obtain ⟨rfl, rfl⟩ := h
    have hl' : (ext st b).ptr + n ≤ (ext st b).buf.length := by simp only [ext, List.length_append]; omega
    rw [if_pos hl', ok_bind]
    simp only [ext]
    rw [List.drop_append_of_le_length (by omega), List.take_append_of_le_length (by rw [List.length_drop]; omega)]
  · rw [if_neg hl] at h; simp at h

theorem readPod_ext {st st' : St} {n : Nat} {bs : List UInt8} (b : List UInt8) (h : readPod n st = ok (some bs, st')) :
    readPod n (ext st b) = ok (some bs, ext st' b) := by
  unfold readPod at h ⊢
  split at h
  · rename_i hc
    rw [if_pos (capacityOk_ext b hc)]
    obtain ⟨⟨bs', st1⟩, h1, h2⟩ := bind_eq_ok.mp h
    simp only [ok.injEq, Prod.mk.injEq, Option.some.injEq] at h2
    obtain ⟨rfl, rfl⟩ := h2
    rw [takeBytes_ext b h1, ok_bind]
  · simp at h

theorem mono_podVal (n : Nat) : Mono (readPodVal n) := by
  intro p st v st' b h
  unfold readPodVal at h ⊢
  obtain ⟨⟨r, st1⟩, h1, h2⟩ := bind_eq_ok.mp h
  cases r with
  | none => simp at h2
  | some bs =>
    simp only [ok.injEq, Prod.mk.injEq, true_and] at h2
    obtain ⟨rfl, rfl⟩ := h2
    rw [readPod_ext b h1, ok_bind]

/-- The shape of all reads with a length in front. -/
theorem mono_prefixed {V : Type} (k : Nat) (body : V → Nat → St → Outcome (Bool × V × St))
    (hb : ∀ p m st v st' b, body p m st = ok (true, v, st') → body p m (ext st b) = ok (true, v, ext st' b)) :
    Mono (fun (p : V) st => do
      let (r, st) ← readPod k st
      match r with
      | none => ok (false, p, st)
      | some l => body p (leNat l) st) := by
  intro p st v st' b h
  obtain ⟨⟨r, st1⟩, h1, h2⟩ := bind_eq_ok.mp h
  cases r with
  | none => simp at h2
  | some l =>
    show (readPod k (ext st b) >>= _) = _
    rw [readPod_ext b h1, ok_bind]
    exact hb _ _ _ _ _ b h2

theorem mono_loop {V : Type} {rd : V → St → Outcome (Bool × V × St)} (hr : Mono rd) : ∀ (n : Nat) (t : V) (st : St) (xs : List V) (st' : St)
    (b : List UInt8), readLoop rd n t st = ok (true, xs, st') → readLoop rd n t (ext st b) = ok (true, xs, ext st' b) := by
  intro n
  induction n with
  | zero =>
    intro t st xs st' b h
    simp only [readLoop, ok.injEq, Prod.mk.injEq, true_and] at h ⊢
    obtain ⟨rfl, rfl⟩ := h
    exact ⟨rfl, rfl⟩
  | succ n ih =>
    intro t st xs st' b h
    unfold readLoop at h ⊢
    obtain ⟨⟨g, t1, st1⟩, h1, h2⟩ := bind_eq_ok.mp h
    cases g with
    | false => simp at h2
    | true =>
      rw [hr _ _ _ _ b h1, ok_bind]
      simp only [if_true] at h2 ⊢
      obtain ⟨⟨g2, rest, st2⟩, h3, h4⟩ := bind_eq_ok.mp h2
      simp only [ok.injEq, Prod.mk.injEq] at h4
      obtain ⟨rfl, rfl, rfl⟩ := h4
      rw [ih _ _ _ _ b h3, ok_bind]

theorem mono_str : Mono readStr := by
  apply mono_prefixed 4 (fun p m st => if capacityOk st m then do
    let (bs, st) ← takeBytes st m
    ok (true, bs, st) else ok (false, p, st))
  intro p m st v st' b h
  split at h
  · rename_i hc
    rw [if_pos (capacityOk_ext b hc)]
    obtain ⟨⟨bs, st1⟩, h1, h2⟩ := bind_eq_ok.mp h
    simp only [ok.injEq, Prod.mk.injEq, true_and] at h2
    obtain ⟨rfl, rfl⟩ := h2
    rw [takeBytes_ext b h1, ok_bind]
  · simp at h

theorem mono_pstr (k : Nat) : Mono (readPstr k) := by
  apply mono_prefixed k (fun p m st => if capacityOk st m then do
    let (bs, st) ← takeBytes st m
    ok (true, bs, st) else ok (false, resize 0 p m, st))
  intro p m st v st' b h
  split at h
  · rename_i hc
    rw [if_pos (capacityOk_ext b hc)]
    obtain ⟨⟨bs, st1⟩, h1, h2⟩ := bind_eq_ok.mp h
    simp only [ok.injEq, Prod.mk.injEq, true_and] at h2
    obtain ⟨rfl, rfl⟩ := h2
    rw [takeBytes_ext b h1, ok_bind]
  · simp at h

theorem mono_pair {A B : Type} {ra : A → St → Outcome (Bool × A × St)} {rb : B → St → Outcome (Bool × B × St)} (ha : Mono ra) (hb : Mono rb) :
    Mono (readPair ra rb) := by
  intro p st v st' b h
  unfold readPair at h ⊢
  obtain ⟨⟨g, x, st1⟩, h1, h2⟩ := bind_eq_ok.mp h
  cases g with
  | false => simp at h2
  | true =>
    rw [ha _ _ _ _ b h1, ok_bind]
    simp only [if_true] at h2 ⊢
    obtain ⟨⟨g2, y, st2⟩, h3, h4⟩ := bind_eq_ok.mp h2
    simp only [ok.injEq, Prod.mk.injEq] at h4
    obtain ⟨rfl, rfl, rfl⟩ := h4
    rw [hb _ _ _ _ b h3, ok_bind]

theorem mono_seq {V : Type} {rd : V → St → Outcome (Bool × V × St)} (hr : Mono rd) (size : Nat) (fresh : V) : Mono (readSeq rd size fresh) := by
  apply mono_prefixed 4 (fun p m st => if capacityOk st (m * size) then do
    let (good, xs, st) ← readLoop rd m fresh st
    ok (good, p ++ xs, st) else ok (false, p, st))
  intro p m st v st' b h
  split at h
  · rename_i hc
    rw [if_pos (capacityOk_ext b hc)]
    obtain ⟨⟨g, xs, st1⟩, h1, h2⟩ := bind_eq_ok.mp h
    simp only [ok.injEq, Prod.mk.injEq] at h2
    obtain ⟨rfl, rfl, rfl⟩ := h2
    rw [mono_loop hr _ _ _ _ _ b h1, ok_bind]
  · simp at h

theorem mono_objVec {V : Type} {rd : V → St → Outcome (Bool × V × St)} (hr : Mono rd) (size : Nat) (fresh : V) :
    Mono (readObjVec rd size fresh) := by
  apply mono_prefixed 4 (fun p m st => if capacityOk st (m * size) then do
    let (good, xs, st) ← readLoop rd m fresh st
    ok (good, xs ++ (resize fresh p m).drop xs.length, st) else ok (false, p, st))
  intro p m st v st' b h
  split at h
  · rename_i hc
    rw [if_pos (capacityOk_ext b hc)]
    obtain ⟨⟨g, xs, st1⟩, h1, h2⟩ := bind_eq_ok.mp h
    simp only [ok.injEq, Prod.mk.injEq] at h2
    obtain ⟨rfl, rfl, rfl⟩ := h2
    rw [mono_loop hr _ _ _ _ _ b h1, ok_bind]
  · simp at h

theorem mono_set (n : Nat) (lt : List UInt8 → List UInt8 → Bool) : Mono (readSet n lt) := by
  apply mono_prefixed 4 (fun p m st => if capacityOk st (m * n) then do
    let (good, xs, st) ← readLoop (readPodVal n) m (List.replicate n 0) st
    ok (good, xs.foldl (fun s x => setInsert lt x s) p, st) else ok (false, p, st))
  intro p m st v st' b h
  split at h
  · rename_i hc
    rw [if_pos (capacityOk_ext b hc)]
    obtain ⟨⟨g, xs, st1⟩, h1, h2⟩ := bind_eq_ok.mp h
    simp only [ok.injEq, Prod.mk.injEq] at h2
    obtain ⟨rfl, rfl, rfl⟩ := h2
    rw [mono_loop (mono_podVal n) _ _ _ _ _ b h1, ok_bind]
  · simp at h

theorem mono_podVec (n : Nat) : Mono (readPodVec (ok ()) n) := by
  apply mono_prefixed 4 (fun p m st => if capacityOk st (m * n) then do
    (if m = 0 then ok () else ok ())
    let (bs, st) ← takeBytes st (n * m)
    ok (true, chunks n m bs, st) else ok (false, p, st))
  intro p m st v st' b h
  have hif : (if m = 0 then (ok () : Outcome Unit) else ok ()) = ok () := by split <;> rfl
  rw [hif] at h ⊢
  split at h
  · rename_i hc
    rw [if_pos (capacityOk_ext b hc)]
    rw [ok_bind] at h ⊢
    obtain ⟨⟨bs, st1⟩, h1, h2⟩ := bind_eq_ok.mp h
    simp only [ok.injEq, Prod.mk.injEq, true_and] at h2
    obtain ⟨rfl, rfl⟩ := h2
    rw [takeBytes_ext b h1, ok_bind]
  · simp at h

theorem mono_read (sz : Ty → Nat) : ∀ t : Ty, Mono (read sz (ok ()) t) := by
  intro t
  induction t with
  | pod n => exact mono_podVal n
  | str => exact mono_str
  | pstr k => exact mono_pstr k
  | pair a b iha ihb => exact mono_pair iha ihb
  | seq t ih => exact mono_seq ih _ _
  | podVec n => exact mono_podVec n
  | objVec t ih => exact mono_objVec ih _ _
  | set n lt => exact mono_set n lt

theorem mono_all (sz : Ty → Nat) : ∀ (ts : List Ty) (st st' : St) (vs : List Item) (b : List UInt8),
    readAll sz (ok ()) ts st = ok (true, vs, st') → readAll sz (ok ()) ts (ext st b) = ok (true, vs, ext st' b) := by
  intro ts
  induction ts with
  | nil =>
    intro st st' vs b h
    simp only [readAll, ok.injEq, Prod.mk.injEq, true_and] at h ⊢
    obtain ⟨rfl, rfl⟩ := h
    exact ⟨rfl, rfl⟩
  | cons t ts ih =>
    intro st st' vs b h
    unfold readAll at h ⊢
    obtain ⟨⟨g, v, st1⟩, h1, h2⟩ := bind_eq_ok.mp h
    cases g with
    | false => simp at h2
    | true =>
      rw [mono_read sz t _ _ _ _ b h1, ok_bind]
      simp only [if_true] at h2 ⊢
      obtain ⟨⟨g2, rest, st2⟩, h3, h4⟩ := bind_eq_ok.mp h2
      simp only [ok.injEq, Prod.mk.injEq] at h4
      obtain ⟨rfl, rfl, rfl⟩ := h4
      rw [ih _ _ _ b h3, ok_bind]

theorem readAll_inside {L : Nat} (hL : L < 2 ^ 63) (sz : Ty → Nat) : ∀ (ts : List Ty) (st : St), (∀ t ∈ ts, Small sz t) → Inside L st →
    ∃ g vs st', readAll sz (ok ()) ts st = ok (g, vs, st') ∧ Inside L st' := by
  intro ts
  induction ts with
  | nil => intro st _ hi; exact ⟨true, [], st, rfl, hi⟩
  | cons t ts ih =>
    intro st hs hi
    obtain ⟨g, v, st1, h1, h2, _⟩ := read_inside hL sz t (hs t (by simp)) t.dflt st hi
    unfold readAll
    rw [h1, ok_bind]
    cases g with
    | false => exact ⟨false, [], st1, rfl, h2⟩
    | true =>
      obtain ⟨g2, vs, st2, h3, h4⟩ := ih st1 (fun t ht => hs t (by simp [ht])) h2
      simp only [if_true]
      rw [h3, ok_bind]
      exact ⟨_, _, _, rfl, h4⟩

/-- **C158**: values written by a `writer` and cut short anywhere: a `reader` on the remaining bytes says `false`.  (The buffer of the reader
is as long as the file, as in `read_from_file`.) -/
theorem C158_values_cut_short_partial (sz : Ty → Nat) (buf : List UInt8) (hbuf : buf.length < 2 ^ 62) (items : List Item)
    (hi : ∀ i ∈ items, Elems i.1 ∧ Small sz i.1 ∧ Valid i.1 i.2) (hroom : roomAll (readRoom sz) items < 2 ^ 62) (st : St)
    (hw : writeAll sz (ok ()) items (St.fresh buf) = ok (true, st)) (k : Nat) (hk : k < st.amount) :
    ∃ vs st', readAll sz (ok ()) (items.map (·.1)) (St.fresh (st.buf.take k)) = ok (false, vs, st') := by
  obtain ⟨good, st', h1, h2, h3⟩ := C47_write_room sz buf (by omega) items (fun i h => (hi i h).2)
  rw [h1] at hw
  simp only [ok.injEq, Prod.mk.injEq] at hw
  obtain ⟨rfl, rfl⟩ := hw
  have hle := h2.mp rfl
  obtain ⟨h4, h5⟩ := h3 rfl
  have hge : (encAll items).length ≤ buf.length :=
    Nat.le_trans (loopRoom_ge _ (fun i : Item => writeRoom sz i.1 i.2) (fun i => enc_le_writeRoom sz i.1 i.2) items) hle
  rw [h4, List.take_append_of_le_length (by omega)]
  have hlen : ((encAll items).take k).length = k := by rw [List.length_take]; omega
  obtain ⟨g, vs, st2, h6, h7⟩ := readAll_inside (L := ((encAll items).take k).length) (by omega) sz (items.map (·.1))
    (St.fresh ((encAll items).take k)) (by
      intro t ht
      obtain ⟨i, hi', rfl⟩ := List.mem_map.mp ht
      exact (hi i hi').2.1) (fresh_inside _)
  cases g with
  | false => exact ⟨vs, st2, h6⟩
  | true =>
    exfalso
    have h8 := mono_all sz _ _ _ _ ((encAll items).drop k ++ List.replicate (roomAll (readRoom sz) items) 0) h6
    have he : ext (St.fresh ((encAll items).take k)) ((encAll items).drop k ++ List.replicate (roomAll (readRoom sz) items) 0) =
        at' [] (encAll items ++ List.replicate (roomAll (readRoom sz) items) 0) [] := by
      simp only [ext, St.fresh, at', List.nil_append, List.length_nil]
      rw [← List.append_assoc, List.take_append_drop]
    rw [he] at h8
    obtain ⟨i1, i2, i3, i4⟩ := h7
    rcases readAll_room sz [] items [] (List.replicate (roomAll (readRoom sz) items) 0) hi (by
      simp only [List.nil_append, List.length_append, List.length_replicate]; omega) with ⟨_, h9⟩ | ⟨h9, _⟩
    · rw [h9] at h8
      simp only [ok.injEq, Prod.mk.injEq, true_and] at h8
      have h10 := congrArg St.amount h8.2
      simp only [ext, at', List.nil_append] at h10
      omega
    · simp only [List.length_append, List.length_replicate] at h9
      omega

/-- **C158** (negative result): when the number of bytes is known from elsewhere and the reader's buffer has room for them, loading the
shorter file with `reader(stream, length)` reports success, and a value is completed from what the buffer held before. -/
theorem C158_known_length_unnoticed (v rbuf : List UInt8) (k : Nat) (hk : k < v.length) (hr : v.length ≤ rbuf.length) (hl : rbuf.length < 2 ^ 63) :
    ∃ st st', readerFromStream v.length (St.fresh rbuf) (v.take k) = ok (true, st, []) ∧
      read (fun _ => v.length) (ok ()) (.pod v.length) ([] : List UInt8) st = ok (true, v.take k ++ (rbuf.drop k).take (v.length - k), st') := by
  have hlen : (v.take k).length = k := by rw [List.length_take]; omega
  suffices hread : ∃ st', read (fun _ => v.length) (ok ()) (.pod v.length) ([] : List UInt8)
      { St.fresh rbuf with buf := v.take k ++ (St.fresh rbuf).buf.drop (v.take k).length } =
        ok (true, v.take k ++ (rbuf.drop k).take (v.length - k), st') by
    obtain ⟨st', h⟩ := hread
    exact ⟨_, _, C125_short_file v.length (St.fresh rbuf) (v.take k) hr (by omega), h⟩
  have e1 : v.take k ++ rbuf.drop k = (v.take k ++ (rbuf.drop k).take (v.length - k)) ++ rbuf.drop v.length := by
    rw [List.append_assoc]
    congr 1
    conv => lhs; rw [← List.take_append_drop (v.length - k) (rbuf.drop k), List.drop_drop]
    rw [show k + (v.length - k) = v.length by omega]
  have e2 : (v.take k ++ (rbuf.drop k).take (v.length - k)).length = v.length := by
    rw [List.length_append, hlen, List.length_take, List.length_drop]; omega
  have h := readPod_at [] (v.take k ++ (rbuf.drop k).take (v.length - k)) (rbuf.drop v.length) [] (by
    rw [List.nil_append, List.length_append, e2, List.length_drop]; omega)
  rw [e2] at h
  show ∃ st', readPodVal v.length _ _ = _
  unfold readPodVal
  simp only [St.fresh, hlen]
  rw [e1]
  have e3 : (⟨v.take k ++ (rbuf.drop k).take (v.length - k) ++ rbuf.drop v.length, 0, 0, []⟩ : St) =
      at' [] (v.take k ++ (rbuf.drop k).take (v.length - k) ++ rbuf.drop v.length) [] := rfl
  rw [e3, h, ok_bind]
  exact ⟨_, rfl⟩

/-- Two values (`unsigned short` 513 and the string "hi"), whole and cut at each of the eight places. -/
example : (∃ st, writeAll (fun _ => 1) (ok ()) [⟨.pod 2, [1, 2]⟩, ⟨.str, [104, 105]⟩] (St.fresh (List.replicate 12 0)) = ok (true, st) ∧ st.amount = 8) ∧
    (∀ i ∈ ([⟨.pod 2, [1, 2]⟩, ⟨.str, [104, 105]⟩] : List Item), Elems i.1 ∧ Small (fun _ => 1) i.1 ∧ Valid i.1 i.2) ∧
    roomAll (readRoom fun _ => 1) ([⟨.pod 2, [1, 2]⟩, ⟨.str, [104, 105]⟩] : List Item) = 8 := by
  refine ⟨⟨_, rfl, rfl⟩, ?_, by decide⟩
  intro i hi
  simp only [List.mem_cons, List.not_mem_nil, or_false] at hi
  rcases hi with rfl | rfl
  · exact ⟨trivial, by show 2 < 2 ^ 31; omega, rfl⟩
  · exact ⟨trivial, trivial, by show ([104, 105] : List UInt8).length < 2 ^ 32; decide⟩

end Strtk.Binary

namespace Strtk.Bloom
open Outcome Mem Binary

theorem readPod_fits {n : Nat} {st st' : St} {bs : List UInt8} (h : readPod n st = ok (some bs, st')) :
    st'.ptr = st.ptr + n ∧ st'.buf = st.buf ∧ bs.length = n ∧ st.ptr + n ≤ st.buf.length := by
  obtain ⟨⟨h3, h4⟩, h5⟩ := readPod_consumed h
  subst h5
  refine ⟨by rw [h3], by rw [h3], rfl, ?_⟩
  unfold readPod at h
  split at h
  · obtain ⟨⟨bs', st1⟩, h1, _⟩ := bind_eq_ok.mp h
    unfold takeBytes slice at h1
    split at h1
    · assumption
    · simp at h1
  · simp at h

theorem thenPod_some {n : Nat} {st : St} {k : Nat → St → Outcome (Option Filter)} {f : Filter} (h : thenPod n st k = ok (some f)) :
    ∃ v st1, k v st1 = ok (some f) ∧ st1.ptr = st.ptr + n ∧ st1.buf = st.buf ∧ ∀ b k', thenPod n (ext st b) k' = k' v (ext st1 b) := by
  unfold thenPod at h
  obtain ⟨⟨r, st1⟩, h1, h2⟩ := bind_eq_ok.mp h
  cases r with
  | none => simp at h2
  | some bs =>
    obtain ⟨h3, h4, _, _⟩ := readPod_fits h1
    refine ⟨leNat bs, st1, h2, h3, h4, fun b k' => ?_⟩
    unfold thenPod
    rw [readPod_ext b h1, ok_bind]

/-- A file that is read with success is read with the same success when more bytes are added behind, and is long enough for what was read. -/
theorem readFile_some {p : List UInt8} {f : Filter} (h : readFile p = ok (some f)) :
    (∀ b, readFile (p ++ b) = ok (some f)) ∧ 56 + 4 * f.salts.length + f.table.length ≤ p.length := by
  unfold readFile at h
  obtain ⟨v1, st1, h, p1, b1, k1⟩ := thenPod_some h
  obtain ⟨v2, st2, h, p2, b2, k2⟩ := thenPod_some h
  obtain ⟨v3, st3, h, p3, b3, k3⟩ := thenPod_some h
  obtain ⟨v4, st4, h, p4, b4, k4⟩ := thenPod_some h
  obtain ⟨v5, st5, h, p5, b5, k5⟩ := thenPod_some h
  obtain ⟨v6, st6, h, p6, b6, k6⟩ := thenPod_some h
  obtain ⟨v7, st7, h, p7, b7, k7⟩ := thenPod_some h
  obtain ⟨⟨g, salts, st8⟩, h8, h⟩ := bind_eq_ok.mp h
  cases g with
  | false => simp at h
  | true =>
    simp only [if_true] at h
    obtain ⟨⟨r, st9⟩, h9, h⟩ := bind_eq_ok.mp h
    cases r with
    | none => simp at h
    | some table =>
      have hf := Option.some.inj (Outcome.ok.inj h)
      obtain ⟨bs, ⟨l, hl1, hl2, hl3, hl4⟩, hc1, hc2⟩ := readPodVec_consumed (ok ()) 4 [] st7 salts st8 h8
      have hbs : bs.length = 4 + 4 * salts.length := by
        rw [hl4, List.length_append, hl1, flatten_length_const 4 _ hl3]; omega
      unfold readPtr at h9
      obtain ⟨⟨r2, st10⟩, h10, h11⟩ := bind_eq_ok.mp h9
      cases r2 with
      | none => simp at h11
      | some l2 =>
        simp only at h11
        obtain ⟨q1, q2, q3, q4⟩ := readPod_fits h10
        obtain ⟨r1, r2, r3, r4⟩ := readPod_fits h11
        refine ⟨fun b => ?_, ?_⟩
        · unfold readFile
          have h0 : St.fresh (p ++ b) = ext (St.fresh p) b := rfl
          rw [h0, k1, k2, k3, k4, k5, k6, k7]
          have h8' := mono_podVec 4 [] st7 salts st8 b h8
          rw [h8', ok_bind]
          simp only [if_true]
          have h9' : readPtr 1 (ext st8 b) = ok (some table, ext st9 b) := by
            unfold readPtr
            rw [readPod_ext b h10, ok_bind]
            exact readPod_ext b h11
          rw [h9', ok_bind]
          exact h
        · rw [← hf]
          simp only [List.length_map]
          have e8 : st8.ptr = st7.ptr + bs.length ∧ st8.buf = st7.buf := by rw [hc1]; exact ⟨rfl, rfl⟩
          have e0 : (St.fresh p).ptr = 0 ∧ (St.fresh p).buf = p := ⟨rfl, rfl⟩
          rw [q2, e8.2, b7, b6, b5, b4, b3, b2, b1, e0.2] at r4
          omega

theorem thenPod_total {L n : Nat} (hL : L < 2 ^ 63) (hn : n < 2 ^ 63) {st : St} (hi : Inside L st) {k : Nat → St → Outcome (Option Filter)}
    (hk : ∀ v st', Inside L st' → ∃ r, k v st' = ok r) : ∃ r, thenPod n st k = ok r := by
  obtain ⟨b, v, st1, h1, h2, _⟩ := readPodVal_inside hL n hn [] hi
  unfold readPodVal at h1
  obtain ⟨⟨r, st2⟩, h3, h4⟩ := bind_eq_ok.mp h1
  unfold thenPod
  rw [h3, ok_bind]
  cases r with
  | none => exact ⟨_, rfl⟩
  | some bs =>
    simp only [ok.injEq, Prod.mk.injEq] at h4
    obtain ⟨_, _, rfl⟩ := h4
    exact hk _ _ h2

/-- `read_from_file` of any contents whatever stays inside the buffer. -/
theorem readFile_total (p : List UInt8) (hp : p.length < 2 ^ 63) : ∃ r, readFile p = ok r := by
  unfold readFile
  refine thenPod_total hp (by omega) (fresh_inside p) fun v1 st1 i1 => ?_
  refine thenPod_total hp (by omega) i1 fun v2 st2 i2 => ?_
  refine thenPod_total hp (by omega) i2 fun v3 st3 i3 => ?_
  refine thenPod_total hp (by omega) i3 fun v4 st4 i4 => ?_
  refine thenPod_total hp (by omega) i4 fun v5 st5 i5 => ?_
  refine thenPod_total hp (by omega) i5 fun v6 st6 i6 => ?_
  refine thenPod_total hp (by omega) i6 fun v7 st7 i7 => ?_
  obtain ⟨g, salts, st8, h8, i8, _⟩ := readPodVec_inside hp 4 (by omega) [] i7
  rw [h8, ok_bind]
  cases g with
  | false => exact ⟨_, rfl⟩
  | true =>
    simp only [if_true]
    have hr : ∃ r st, readPtr 1 st8 = ok (r, st) := by
      unfold readPtr
      obtain ⟨b, v, st9, h9, i9, _⟩ := readPodVal_inside hp 4 (by omega) [] i8
      unfold readPodVal at h9
      obtain ⟨⟨r, st10⟩, h10, h11⟩ := bind_eq_ok.mp h9
      rw [h10, ok_bind]
      cases r with
      | none => exact ⟨_, _, rfl⟩
      | some l =>
        simp only [ok.injEq, Prod.mk.injEq] at h11
        obtain ⟨_, _, rfl⟩ := h11
        have hl := leNat_lt l
        obtain ⟨_, _, hl4, _⟩ := readPod_fits h10
        obtain ⟨b, v, st11, h12, i11, _⟩ := readPodVal_inside hp (leNat l * 1) (by rw [hl4] at hl; omega) [] i9
        unfold readPodVal at h12
        obtain ⟨⟨r, st12⟩, h13, _⟩ := bind_eq_ok.mp h12
        exact ⟨_, _, h13⟩
    obtain ⟨r, st9, h9⟩ := hr
    rw [h9, ok_bind]
    cases r with
    | none => exact ⟨_, rfl⟩
    | some t => exact ⟨_, rfl⟩

/-- **C158**: of a filter's file, `read_from_file` accepts nothing but the whole: cut short anywhere it is refused. -/
theorem C158_filter_cut_short_partial (f : Filter) (hf : Fits f) (ht : 0 < f.tableSize) :
    ∃ bytes, f.writeFile = ok (some bytes) ∧ (∃ g, readFile bytes = ok (some g)) ∧ ∀ k < bytes.length, readFile (bytes.take k) = ok none := by
  obtain ⟨bytes, h1, h2⟩ := C56_read_back f hf ht
  refine ⟨bytes, h1, ⟨_, h2⟩, ?_⟩
  have hb : bytes = fileBytes f := by
    rw [writeFile_eq f hf ht] at h1
    exact (Option.some.inj (Outcome.ok.inj h1)).symm
  have b3 := hf.table
  have hmod' : f.rawSize % 2 ^ 32 ≤ f.rawSize := Nat.mod_le _ _
  have hfl : (f.salts.flatMap fun s => leBytes 4 s.toNat).length = 4 * f.salts.length := by
    induction f.salts with
    | nil => rfl
    | cons s ss ih => rw [List.flatMap_cons, List.length_append, ih, leBytes_length, List.length_cons]; omega
  have hlen : bytes.length = 56 + 4 * f.salts.length + (f.rawSize % 2 ^ 32) := by
    rw [hb]
    unfold fileBytes
    simp only [List.length_append, leBytes_length, withLen_length, hfl, List.length_take]
    omega
  intro k hk
  have hlt : (bytes.take k).length < bytes.length := by rw [List.length_take]; omega
  have b1 := hf.saltCount
  have b2 := hf.salts
  have hmod : f.rawSize % 2 ^ 32 < 2 ^ 32 := Nat.mod_lt _ (by decide)
  obtain ⟨r, hr⟩ := readFile_total (bytes.take k) (by omega)
  cases r with
  | none => exact hr
  | some g =>
    exfalso
    obtain ⟨h3, h4⟩ := readFile_some hr
    have h5 := h3 (bytes.drop k)
    rw [List.take_append_drop, h2] at h5
    have h6 := Option.some.inj (Outcome.ok.inj h5)
    rw [← h6] at h4
    simp only [List.length_take] at h4 hlt
    omega

/-- A filter of 64 bits with one key: its file of 76 bytes, and the file cut inside the table, inside the salts and to nothing. -/
example : ((Hist.insert .fresh [97]).run (fun _ _ => 0) 0 ⟨3, 64, 10, 0, 7⟩ >>= fun f => f.writeFile >>= fun r => match r with
      | none => ub
      | some bytes => do
        let r1 ← readFile bytes
        let r2 ← readFile (bytes.take 75)
        let r3 ← readFile (bytes.take 58)
        let r4 ← readFile (bytes.take 0)
        ok (r1.isSome, r2.isSome, r3.isSome, r4.isSome)) = ok (true, false, false, false) := by
  decide +kernel

/-- **C158**: whatever the file contains, reading it stays inside the buffer. -/
theorem C158_filter_any_file (contents : List UInt8) (h : contents.length < 2 ^ 63) : ∃ r, readFile contents = ok r := readFile_total contents h

example : ∃ r, readFile [1, 2, 3, 4, 5] = ok r := C158_filter_any_file _ (by decide)

end Strtk.Bloom
