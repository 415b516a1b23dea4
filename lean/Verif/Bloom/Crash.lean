import Verif.Bloom.Refused
import Verif.FileIO.Crash

/-!
# Saving a Bloom filter, or plain objects, to a file, with crashes and full disks (C167; strtk.hpp 18624-18956, 20349-20429)

The file system and its steps are those of `Verif/FileIO/Model.lean` and `Verif/FileIO/Crash.lean`.
-/

namespace Strtk.Saving
open Outcome Mem FileIO Bloom

variable {N : Type} [DecidableEq N]

/-- `write_to_file(file_name)` (20349-20386).  The result of `writer(ostream)` (14534-14538, 20381) is ignored. -/
def saveFilter (e : Env) (fs : FS N) (n : N) (f : Filter) : Outcome (Bool × FS N) :=
  if f.tableSize = 0 then ok (false, fs)
  else
    let (fs, o) := openOut fs n
    if o.good then do
      match ← f.writeFile with
      | none => ok (false, close e fs o)
      | some bytes =>
        let (fs, o) := write e fs o bytes
        ok (true, close e fs o)
    else ok (false, fs)

/-- The states of the file system during `write_to_file`. -/
def saveFilterStates (e : Env) (fs : FS N) (n : N) (f : Filter) : Outcome (List (FS N)) :=
  if f.tableSize = 0 then ok [fs]
  else
    let (fs1, o) := openOut fs n
    if o.good then do
      match ← f.writeFile with
      | none => ok (fs :: fs1 :: closeStates e fs1 o)
      | some bytes =>
        let (fs2, o2) := write e fs1 o bytes
        ok (fs :: fs1 :: (writeStates e fs1 o bytes ++ closeStates e fs2 o2))
    else ok [fs, fs1]

/-- `read_from_file(file_name)` (20388-20429) called on `g`; the buffer is cleared (20412) before the file is read into it (20413). -/
def loadFilter (fs : FS N) (n : N) (g : Filter) : Outcome (Bool × Filter) :=
  let i := openIn fs n
  if i.good then do
    let size := fileSize fs n
    let (buf, _) ← FileIO.read fs i (List.replicate size 0) size
    g.readInto buf
  else ok (false, g)

/-- `std::ofstream stream(name, std::ios::binary); write_pod(stream, t1, ..., tn); stream.close();` (18624-18956). -/
def savePods (e : Env) (fs : FS N) (n : N) (ts : List (List UInt8)) : Bool × FS N :=
  let (fs, o) := openOut fs n
  let (r, fs, o) := writePods e fs o ts
  (r, close e fs o)

/-- The states during `write_pod(stream, t1, ..., tn)`. -/
def podStates (e : Env) : FS N → OStream N → List (List UInt8) → List (FS N)
  | fs, _, [] => [fs]
  | fs, o, t :: ts =>
    let (r, fs1, o1) := FileIO.writePod e fs o t
    writeStates e fs o t ++ (if r then podStates e fs1 o1 ts else [fs1])

/-- The states during `savePods`. -/
def savePodsStates (e : Env) (fs : FS N) (n : N) (ts : List (List UInt8)) : List (FS N) :=
  let (fs1, o) := openOut fs n
  let (_, fs2, o2) := writePods e fs1 o ts
  fs :: fs1 :: (podStates e fs1 o ts ++ closeStates e fs2 o2)

/-- `std::ifstream stream(name, std::ios::binary); read_pod(stream, t1, ..., tn);` (18617-18760) into objects with the bytes `us`. -/
def loadPods (fs : FS N) (n : N) (us : List (List UInt8)) : Outcome (Bool × List (List UInt8)) := do
  let (r, vs, _) ← readPods fs (openIn fs n) us
  ok (r, vs)

/-! ## Lemmas -/

theorem load_put (fs : FS N) (n : N) (g : Filter) (p : List UInt8) :
    loadFilter (fs.put n p) n g = if fs.readable n then g.readInto p else ok (false, g) := by
  unfold loadFilter openIn fileSize openIn FS.canRead
  have hr : (fs.put n p).readable n = fs.readable n := rfl
  have hf : ((fs.put n p).files n).isSome = true := by simp [FS.put]
  simp only [hr, hf, Bool.true_and, get_put]
  by_cases hn : fs.readable n = true
  · simp only [hn, if_true]
    have h := read_full (fs.put n p) ⟨n, 0, true⟩ (List.replicate p.length 0) [] p [] rfl (by simp) rfl (by simp)
    rw [h, ok_bind]
    simp
  · simp [hn]

theorem saved_bytes (f : Filter) (hf : Fits f) (ht : 0 < f.tableSize) (hr : f.rawSize < 2 ^ 32) :
    ∃ bytes, f.writeFile = ok (some bytes) ∧ (∀ g : Filter, g.readInto bytes = ok (true, { f with sizes := g.sizes })) ∧
      ∀ g : Filter, ∀ k < bytes.length, ∃ g', g.readInto (bytes.take k) = ok (false, g') := by
  obtain ⟨bytes, h1, h2, _⟩ := C56_round_trip_partial f hf ht hr
  obtain ⟨bytes', h1', _, h3⟩ := C158_filter_cut_short_partial f hf ht
  rw [h1] at h1'
  have hb := Option.some.inj (Outcome.ok.inj h1')
  subst hb
  refine ⟨bytes, h1, fun g => readInto_some g h2, fun g k hk => ?_⟩
  obtain ⟨g', h, _⟩ := readInto_none g (h3 k hk)
  exact ⟨g', h⟩

theorem cut_or {p bytes : List UInt8} (h : p <+: bytes) : p = bytes ∨ p.length < bytes.length ∧ p = bytes.take p.length := by
  have hl := h.length_le
  rcases Nat.lt_or_ge p.length bytes.length with hlt | hge
  · exact Or.inr ⟨hlt, List.prefix_iff_eq_take.mp h⟩
  · exact Or.inl (h.eq_of_length (by omega))

/-! ## Filters -/

/-- **C167**: at whatever point the program stops while it saves the filter `f`, no other file has changed, and a later `read_from_file` gives what it would have given
before, or is refused, or gives `f`.  (`g` is the filter that reads, in any state.) -/
theorem C167_crash (e : Env) (fs : FS N) (n : N) (f : Filter) (hf : Fits f) (ht : 0 < f.tableSize) (hr : f.rawSize < 2 ^ 32) :
    ∃ states, saveFilterStates e fs n f = ok states ∧ ∀ s ∈ states, (∀ m, m ≠ n → s.files m = fs.files m) ∧
      ∀ g : Filter, loadFilter s n g = loadFilter fs n g ∨ (∃ g', loadFilter s n g = ok (false, g')) ∨ loadFilter s n g = ok (true, { f with sizes := g.sizes }) := by
  obtain ⟨bytes, h1, h2, h3⟩ := saved_bytes f hf ht hr
  have key : ∀ s, Cut fs n bytes s → (∀ m, m ≠ n → s.files m = fs.files m) ∧
      ∀ g : Filter, loadFilter s n g = loadFilter fs n g ∨ (∃ g', loadFilter s n g = ok (false, g')) ∨ loadFilter s n g = ok (true, { f with sizes := g.sizes }) := by
    rintro s ⟨p, hp, rfl⟩
    refine ⟨fun m hm => by simp [FS.put, hm], fun g => Or.inr ?_⟩
    rw [load_put]
    by_cases hn : fs.readable n = true
    · rw [if_pos hn]
      rcases cut_or hp with rfl | ⟨hlt, he⟩
      · exact Or.inr (h2 g)
      · rw [he]; exact Or.inl (h3 g _ hlt)
    · rw [if_neg hn]; exact Or.inl ⟨g, rfl⟩
  unfold saveFilterStates
  rw [if_neg (by omega)]
  simp only
  cases hw : fs.creatable n with
  | false =>
    rw [openOut_bad hw]
    refine ⟨_, rfl, fun s hs => ?_⟩
    simp only [List.mem_cons, List.not_mem_nil, or_false, or_self] at hs
    rw [hs]; exact ⟨fun _ _ => rfl, fun _ => Or.inl rfl⟩
  | true =>
    obtain ⟨hgiv, hog, hfs⟩ := given_open e fs n hw
    rw [if_pos hog, h1, ok_bind]
    refine ⟨_, rfl, fun s hs => ?_⟩
    rcases List.mem_cons.mp hs with rfl | hs
    · exact ⟨fun _ _ => rfl, fun _ => Or.inl rfl⟩
    rcases List.mem_cons.mp hs with rfl | hs
    · exact key _ ((given_cut hgiv).mono List.nil_prefix)
    rcases List.mem_append.mp hs with hs | hs
    · exact key _ (write_cut hgiv bytes s hs)
    · exact key _ (close_cut (given_write hgiv bytes) s hs)

/-- **C167**: without a crash `write_to_file` returns `true` and the filter can be read back, if the disk has room for its file. -/
theorem C167_saved (e : Env) (fs : FS N) (n : N) (f : Filter) (hf : Fits f) (ht : 0 < f.tableSize) (hr : f.rawSize < 2 ^ 32)
    (hw : fs.creatable n = true) (hrd : fs.readable n = true) (hroom : 56 + 4 * f.saltCount + f.rawSize ≤ e.room) :
    ∃ fs', saveFilter e fs n f = ok (true, fs') ∧ ∀ g : Filter, loadFilter fs' n g = ok (true, { f with sizes := g.sizes }) := by
  obtain ⟨bytes, h1, h2, h3⟩ := saved_bytes f hf ht hr
  obtain ⟨hgiv, hog, hfs⟩ := given_open e fs n hw
  have hlen : bytes.length = 56 + 4 * f.saltCount + f.rawSize := by
    rw [writeFile_eq f hf ht] at h1
    have hb := Option.some.inj (Outcome.ok.inj h1)
    rw [← hb, fileBytes_head, List.length_append, headBytes_length, Binary.withLen_length, Nat.mod_eq_of_lt hr, List.length_take, hf.table, hf.salts]
    omega
  unfold saveFilter
  rw [if_neg (by omega)]
  simp only
  rw [if_pos hog, h1, ok_bind]
  refine ⟨_, rfl, fun g => ?_⟩
  rw [given_close (given_write hgiv bytes), load_put, if_pos hrd, List.nil_append, List.take_of_length_le (by omega)]
  exact h2 g

/-- **C167** (negative result): on a disk without room for the file `write_to_file` returns `true` just the same; the file is refused when it is read. -/
theorem C167_full_disk (e : Env) (fs : FS N) (n : N) (f : Filter) (hf : Fits f) (ht : 0 < f.tableSize) (hr : f.rawSize < 2 ^ 32)
    (hw : fs.creatable n = true) (hroom : e.room < 56 + 4 * f.saltCount + f.rawSize) :
    ∃ fs', saveFilter e fs n f = ok (true, fs') ∧ ∀ g : Filter, ∃ g', loadFilter fs' n g = ok (false, g') := by
  obtain ⟨bytes, h1, h2, h3⟩ := saved_bytes f hf ht hr
  obtain ⟨hgiv, hog, hfs⟩ := given_open e fs n hw
  have hlen : bytes.length = 56 + 4 * f.saltCount + f.rawSize := by
    rw [writeFile_eq f hf ht] at h1
    have hb := Option.some.inj (Outcome.ok.inj h1)
    rw [← hb, fileBytes_head, List.length_append, headBytes_length, Binary.withLen_length, Nat.mod_eq_of_lt hr, List.length_take, hf.table, hf.salts]
    omega
  unfold saveFilter
  rw [if_neg (by omega)]
  simp only
  rw [if_pos hog, h1, ok_bind]
  refine ⟨_, rfl, fun g => ?_⟩
  rw [given_close (given_write hgiv bytes), load_put, List.nil_append]
  split
  · exact h3 g _ (by omega)
  · exact ⟨g, rfl⟩

/-- **C167**: `write_to_file` returns `true` only when the file could be created and a filter with a table was handed to the stream; an empty filter and a file that
cannot be created are answered with `false`, and no file changes. -/
theorem C167_answer (e : Env) (fs : FS N) (n : N) (f : Filter) :
    (∀ fs', saveFilter e fs n f = ok (true, fs') → 0 < f.tableSize ∧ fs.creatable n = true ∧ ∃ bytes, f.writeFile = ok (some bytes)) ∧
    (f.tableSize = 0 ∨ fs.creatable n = false → saveFilter e fs n f = ok (false, fs)) := by
  constructor
  · intro fs' h
    unfold saveFilter at h
    split at h
    · simp at h
    · refine ⟨by omega, ?_⟩
      simp only at h
      split at h
      · rename_i hg
        refine ⟨?_, ?_⟩
        · cases hw : fs.creatable n with
          | true => rfl
          | false => rw [openOut_bad hw] at hg; simp at hg
        · obtain ⟨r0, h1, h2⟩ := bind_eq_ok.mp h
          cases r0 with
          | none => simp at h2
          | some bytes => exact ⟨bytes, h1⟩
      · simp at h
  · intro h
    unfold saveFilter
    by_cases h0 : f.tableSize = 0
    · rw [if_pos h0]
    · rw [if_neg h0]
      have hw : fs.creatable n = false := h.resolve_left h0
      rw [openOut_bad hw]
      rfl

/-- **C167**: the states are those of the functions: they begin with the state at the call and end with the one the function leaves. -/
theorem C167_states_end (e : Env) (fs : FS N) (n : N) (f : Filter) (ts : List (List UInt8)) :
    (∀ r fs', saveFilter e fs n f = ok (r, fs') → ∃ l, saveFilterStates e fs n f = ok l ∧ l.head? = some fs ∧ l.getLast? = some fs') ∧
    ∃ l, savePodsStates e fs n ts = fs :: l ∧ l.getLast? = some (savePods e fs n ts).2 := by
  constructor
  · intro r fs' h
    unfold saveFilter at h
    unfold saveFilterStates
    split at h
    · rename_i h0
      rw [if_pos h0]
      simp only [ok.injEq, Prod.mk.injEq] at h
      exact ⟨_, rfl, rfl, by rw [← h.2]; rfl⟩
    · rename_i h0
      rw [if_neg h0]
      simp only at h ⊢
      split at h
      · rename_i hg
        rw [if_pos hg]
        obtain ⟨r0, h1, h2⟩ := bind_eq_ok.mp h
        rw [h1, ok_bind]
        cases r0 with
        | none =>
          simp only [ok.injEq, Prod.mk.injEq] at h2
          exact ⟨_, rfl, rfl, by rw [← h2.2]; exact last_cons (last_cons (close_last ..))⟩
        | some bytes =>
          simp only [ok.injEq, Prod.mk.injEq] at h2
          exact ⟨_, rfl, rfl, by rw [← h2.2]; exact last_cons (last_cons (last_append (close_last ..)))⟩
      · rename_i hg
        rw [if_neg hg]
        simp only [ok.injEq, Prod.mk.injEq] at h
        exact ⟨_, rfl, rfl, by rw [← h.2]; rfl⟩
  · exact ⟨_, rfl, by unfold savePods; exact last_cons (last_append (close_last ..))⟩

/-! ## Plain objects -/

theorem pods_cut (e : Env) (fs0 : FS N) (n : N) (ts : List (List UInt8)) : ∀ (fs : FS N) (o : OStream N) (data : List UInt8), Given e fs0 n data fs o →
    (∀ s ∈ podStates e fs o ts, Cut fs0 n (data ++ ts.flatten) s) ∧
    ∃ d, d <+: ts.flatten ∧ Given e fs0 n (data ++ d) (writePods e fs o ts).2.1 (writePods e fs o ts).2.2 := by
  induction ts with
  | nil =>
    intro fs o data h
    refine ⟨fun s hs => ?_, [], List.nil_prefix, by simpa [writePods] using h⟩
    rw [List.mem_singleton.mp hs]
    simpa using given_cut h
  | cons t ts ih =>
    intro fs o data h
    have hw := given_write h t
    have hc := write_cut h t
    unfold podStates writePods FileIO.writePod
    simp only [List.flatten_cons]
    by_cases hg : (write e fs o t).2.good = true
    · rw [if_pos hg, if_pos hg]
      obtain ⟨h1, d, h2, h3⟩ := ih _ _ _ hw
      refine ⟨fun s hs => ?_, t ++ d, (List.prefix_append_right_inj t).mpr h2, by rw [← List.append_assoc]; exact h3⟩
      rcases List.mem_append.mp hs with hs | hs
      · exact (hc s hs).mono (by rw [← List.append_assoc]; exact List.prefix_append _ _)
      · rw [← List.append_assoc]; exact h1 s hs
    · rw [if_neg hg, if_neg hg]
      refine ⟨fun s hs => ?_, t, List.prefix_append _ _, hw⟩
      rcases List.mem_append.mp hs with hs | hs
      · exact (hc s hs).mono (by rw [← List.append_assoc]; exact List.prefix_append _ _)
      · rw [List.mem_singleton.mp hs]
        exact (given_cut hw).mono (by rw [← List.append_assoc]; exact List.prefix_append _ _)

/-- What `read_pod` makes of a file that ends early: the objects before the end are right, the one at the end is spoilt, those behind keep their values. -/
theorem readPods_short (fs : FS N) : ∀ (ts us : List (List UInt8)) (s : IStream N) (pre p : List UInt8), s.good = true → s.pos = pre.length →
    fs.get s.name = pre ++ p → p <+: ts.flatten → p.length < ts.flatten.length → us.map List.length = ts.map List.length →
    ∃ vs s' j, readPods fs s us = ok (false, vs, s') ∧ j < ts.length ∧ vs.take j = ts.take j ∧ vs.drop (j + 1) = us.drop (j + 1) := by
  intro ts
  induction ts with
  | nil => intro us s pre p _ _ _ _ h; simp at h
  | cons t ts ih =>
    intro us s pre p hg hp hc hpre hlt hl
    cases us with
    | nil => simp at hl
    | cons u us =>
      simp only [List.map_cons, List.cons.injEq] at hl
      rw [List.flatten_cons] at hpre hlt
      rw [List.length_append] at hlt
      by_cases hpt : t.length ≤ p.length
      · obtain ⟨q, hq⟩ : t <+: p := List.prefix_of_prefix_length_le (List.prefix_append t ts.flatten) hpre hpt
        have hqp : q <+: ts.flatten := by
          rw [← hq] at hpre
          exact (List.prefix_append_right_inj t).mp hpre
        have hrd := read_full fs s u pre t q hg (by rw [hc, ← hq]; simp) hp (by omega)
        unfold readPods FileIO.readPod
        rw [hl.1, hrd]
        simp only [ok_bind]
        rw [if_pos hg, List.drop_of_length_le (by omega), List.append_nil]
        obtain ⟨vs, s', j, h1, h2, h3, h4⟩ := ih us { s with pos := (pre ++ t).length } (pre ++ t) q hg rfl (by rw [hc, ← hq]; simp) hqp
          (by rw [← hq, List.length_append] at hlt; omega) hl.2
        rw [h1, ok_bind]
        exact ⟨t :: vs, s', j + 1, rfl, by simp; omega, by simp [h3], by simpa using h4⟩
      · have hrd : FileIO.read fs s u u.length = ok (p ++ u.drop p.length, { s with pos := s.pos + p.length, good := false }) := by
          unfold FileIO.read
          have h1 : ((fs.get s.name).drop s.pos).take u.length = p := by
            rw [hc, hp, List.drop_left, List.take_of_length_le (by omega)]
          rw [if_pos hg, h1]
          have h2 : copyTo u 0 p = ok (p ++ u.drop p.length) := by
            unfold copyTo
            rw [if_pos (by omega)]
            simp
          simp only [h2, ok_bind]
          have h3 : decide (p.length = u.length) = false := by simp; omega
          rw [h3]
        unfold readPods FileIO.readPod
        rw [hrd]
        simp only [ok_bind, Bool.false_eq_true, if_false]
        exact ⟨_, _, 0, rfl, by simp, rfl, by simp⟩

theorem loadPods_put (fs : FS N) (n : N) (ts us : List (List UInt8)) (p : List UInt8) (hp : p <+: ts.flatten) (hn : fs.readable n = true)
    (hl : us.map List.length = ts.map List.length) :
    (p = ts.flatten ∧ loadPods (fs.put n p) n us = ok (true, ts)) ∨
    ∃ vs j, loadPods (fs.put n p) n us = ok (false, vs) ∧ j < ts.length ∧ vs.take j = ts.take j ∧ vs.drop (j + 1) = us.drop (j + 1) := by
  have hg : (openIn (fs.put n p) n).good = true := by simp [openIn, FS.canRead, FS.put, hn]
  have hget : (fs.put n p).get (openIn (fs.put n p) n).name = p := get_put ..
  unfold loadPods
  rcases cut_or hp with rfl | ⟨hlt, _⟩
  · obtain ⟨s', h, _⟩ := readPods_at (fs.put n ts.flatten) ts (openIn (fs.put n ts.flatten) n) [] [] us hg rfl (by rw [hget]; simp) hl
    rw [h]
    exact Or.inl ⟨rfl, rfl⟩
  · obtain ⟨vs, s', j, h1, h2⟩ := readPods_short (fs.put n p) ts us (openIn (fs.put n p) n) [] p hg rfl (by rw [hget]; simp) hp hlt hl
    rw [h1]
    exact Or.inr ⟨vs, j, rfl, h2⟩

/-- **C167**: at whatever point the program stops while it writes the objects `ts` with `write_pod`, no other file has changed, and a later `read_pod` into objects of the
same sizes gives what it would have given before, or all of `ts`, or returns `false` with some of the first objects right and the last ones untouched. -/
theorem C167_pods_crash (e : Env) (fs : FS N) (n : N) (ts us : List (List UInt8)) (hl : us.map List.length = ts.map List.length) (hn : fs.readable n = true) :
    ∀ s ∈ savePodsStates e fs n ts, (∀ m, m ≠ n → s.files m = fs.files m) ∧
      (loadPods s n us = loadPods fs n us ∨ loadPods s n us = ok (true, ts) ∨
        ∃ vs j, loadPods s n us = ok (false, vs) ∧ j < ts.length ∧ vs.take j = ts.take j ∧ vs.drop (j + 1) = us.drop (j + 1)) := by
  have key : ∀ s, Cut fs n ts.flatten s → (∀ m, m ≠ n → s.files m = fs.files m) ∧
      (loadPods s n us = loadPods fs n us ∨ loadPods s n us = ok (true, ts) ∨
        ∃ vs j, loadPods s n us = ok (false, vs) ∧ j < ts.length ∧ vs.take j = ts.take j ∧ vs.drop (j + 1) = us.drop (j + 1)) := by
    rintro s ⟨p, hp, rfl⟩
    refine ⟨fun m hm => by simp [FS.put, hm], Or.inr ?_⟩
    rcases loadPods_put fs n ts us p hp hn hl with ⟨_, h⟩ | h
    · exact Or.inl h
    · exact Or.inr h
  unfold savePodsStates
  simp only
  intro s hs
  rcases List.mem_cons.mp hs with rfl | hs
  · exact ⟨fun _ _ => rfl, Or.inl rfl⟩
  cases hw : fs.creatable n with
  | false =>
    rw [openOut_bad hw] at hs
    have hstay : ∀ (ts : List (List UInt8)) (s : FS N), s ∈ podStates e fs (⟨n, [], false, 0⟩ : OStream N) ts → s = fs := by
      intro ts
      cases ts with
      | nil => intro s hs; exact List.mem_singleton.mp hs
      | cons t ts => intro s hs; simpa [podStates, FileIO.writePod, write, writeStates] using hs
    have hend : (writePods e fs (⟨n, [], false, 0⟩ : OStream N) ts).2 = (fs, ⟨n, [], false, 0⟩) := by
      cases ts with
      | nil => rfl
      | cons t ts => simp [writePods, FileIO.writePod, write]
    simp only [hend] at hs
    have : s = fs := by
      rcases List.mem_cons.mp hs with rfl | hs
      · rfl
      rcases List.mem_append.mp hs with hs | hs
      · exact hstay ts s hs
      · simpa [closeStates] using hs
    rw [this]; exact ⟨fun _ _ => rfl, Or.inl rfl⟩
  | true =>
    obtain ⟨hgiv, hog, hfs⟩ := given_open e fs n hw
    obtain ⟨h1, d, h2, h3⟩ := pods_cut e fs n ts _ _ _ hgiv
    simp only [List.nil_append] at h1 h3
    rcases List.mem_cons.mp hs with rfl | hs
    · exact key _ ((given_cut hgiv).mono List.nil_prefix)
    rcases List.mem_append.mp hs with hs | hs
    · exact key _ (h1 s hs)
    · exact key _ ((close_cut h3 s hs).mono h2)

/-- Two objects of two and four bytes written over an old file, the crash after three bytes: the first is read back, the second half from the file and half from before. -/
example :
    let fs : FS Nat := ⟨fun n => if n = 1 then some [9, 9] else none, fun _ => true, fun _ => true⟩
    let states := savePodsStates ⟨100, fun _ => 0⟩ fs 1 [[1, 2], [3, 4, 5, 6]]
    states.map (fun s => s.files 1) = [some [9, 9], some [], some [], some [], some [], some [], some [1], some [1, 2], some [1, 2, 3], some [1, 2, 3, 4],
      some [1, 2, 3, 4, 5], some [1, 2, 3, 4, 5, 6]] ∧
    (states.map fun s => loadPods s 1 [[0, 0], [0, 0, 0, 0]])[8]? = some (ok (false, [[1, 2], [3, 0, 0, 0]])) := by
  decide +kernel

/-- A filter of 64 bits with one key saved on a disk with room for 70 bytes, and on one with room enough. -/
example : ([70, 76].map fun room => do
    let fs : FS Nat := ⟨fun _ => none, fun _ => true, fun _ => true⟩
    let f ← Filter.new (fun _ _ => 0) 0 ⟨3, 64, 10, 0, 7⟩
    let f ← f.insert [97]
    let (r, fs) ← saveFilter ⟨room, fun _ => 5⟩ fs 1 f
    let (r', g) ← loadFilter fs 1 f.reset
    ok (r, r', decide (g = f))) = [ok (true, false, false), ok (true, true, true)] := by
  decide +kernel

/-! ## Concrete cases of C167 -/

example := C167_crash (N := Nat) ⟨100, fun _ => 5⟩ ⟨fun _ => none, fun _ => true, fun _ => true⟩ 1 sampleFilter sampleFilter_fits (by decide) (by decide)

example := C167_full_disk (N := Nat) ⟨10, fun _ => 5⟩ ⟨fun _ => none, fun _ => true, fun _ => true⟩ 1 sampleFilter sampleFilter_fits (by decide) (by decide) rfl (by decide)

example := C167_saved (N := Nat) ⟨100, fun _ => 5⟩ ⟨fun _ => none, fun _ => true, fun _ => true⟩ 1 sampleFilter sampleFilter_fits (by decide) (by decide) rfl rfl (by decide)

example : 0 < sampleFilter.tableSize :=
  have ⟨fs', h, _⟩ := C167_saved (N := Nat) ⟨100, fun _ => 5⟩ ⟨fun _ => none, fun _ => true, fun _ => true⟩ 1 sampleFilter sampleFilter_fits (by decide) (by decide) rfl rfl (by decide)
  ((C167_answer ⟨100, fun _ => 5⟩ _ 1 sampleFilter).1 fs' h).1

example := (C167_answer (N := Nat) ⟨100, fun _ => 5⟩ ⟨fun _ => none, fun _ => false, fun _ => false⟩ 1 sampleFilter).2 (.inr rfl)

end Strtk.Saving
