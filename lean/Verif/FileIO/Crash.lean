import Verif.FileIO.Props
import Verif.Lines.Model

/-!
# Crash points of the functions that write files (C157)

A crash stops the program between two steps of the file system; what the file system holds then is what is left.  A step is the opening of
the output file (which empties it) or the arrival of one more byte in the file: `push` of `Verif/FileIO/Model.lean` passes on a run of
bytes, and here the run may be cut after any of them.  For each function below, its `...States` is the list of all the states of the file
system during a call, in order, the first being the state at the call and the last the state after it (theorem `C157_states_end`).
Simplification: bytes that have reached the file in the model stay there (no loss in the cache of the operating system), and are the
first to be there (no reordering of blocks by the disk).
-/

namespace Strtk.FileIO
open Outcome Mem

variable {N : Type} [DecidableEq N]

/-- The states during `push` (see `push` in `Verif/FileIO/Model.lean`): the bytes arrive one by one. -/
def pushStates (e : Env) (fs : FS N) (s : OStream N) (k : Nat) : List (FS N) :=
  let old := fs.get s.name
  let fit := (s.pending.take k).take (e.room - old.length)
  (List.range (fit.length + 1)).map fun j => fs.put s.name (old ++ fit.take j)

/-- The states during `stream.write(data, data_size)`. -/
def writeStates (e : Env) (fs : FS N) (s : OStream N) (d : List UInt8) : List (FS N) :=
  if s.good then pushStates e fs { s with pending := s.pending ++ d, writes := s.writes + 1 } (e.early s.writes) else [fs]

/-- The states during `stream.close()`. -/
def closeStates (e : Env) (fs : FS N) (s : OStream N) : List (FS N) :=
  if s.good then pushStates e fs s s.pending.length else [fs]

/-- The states during `fileio::write_file` (strtk.hpp 18491-18503). -/
def writeFileStates (e : Env) (fs : FS N) (n : N) (buf : List UInt8) : List (FS N) :=
  let (fs1, o) := openOut fs n
  if o.good then
    let (fs2, o2) := write e fs1 o buf
    fs :: fs1 :: (writeStates e fs1 o buf ++ closeStates e fs2 o2)
  else [fs, fs1]

/-- The states during the block loop (strtk.hpp 18515-18529, 18554-18568), with what the loop leaves (`pump`). -/
def pumpStates (e : Env) (block : Nat) : Nat → FS N → IStream N → OStream N → List UInt8 → Nat → Outcome (List (FS N) × FS N × OStream N × List UInt8)
  | 0, _, _, _, _, _ => diverge
  | fuel + 1, fs, i, o, buf, remaining =>
    if block ≤ remaining then do
      let (buf, i) ← read fs i buf block
      let d ← slice buf 0 block
      let (fs', o') := write e fs o d
      let (tr, r) ← pumpStates e block fuel fs' i o' buf (remaining - block)
      ok (writeStates e fs o d ++ tr, r)
    else if 0 < remaining then do
      let (buf, _) ← read fs i buf remaining
      let d ← slice buf 0 remaining
      let (fs', o') := write e fs o d
      ok (writeStates e fs o d, fs', o', buf)
    else ok ([fs], fs, o, buf)

/-- The states during `fileio::copy_file` (strtk.hpp 18505-18534). -/
def copyFileStates (e : Env) (fs : FS N) (src dest : N) (junk : List UInt8) : Outcome (List (FS N)) :=
  let i := openIn fs src
  let (fs1, o) := openOut fs dest
  if i.good then
    if o.good then do
      let remaining := fileSize fs1 src
      let (tr, fs2, o2, _) ← pumpStates e blockSize (remaining + 1) fs1 i o junk remaining
      ok (fs :: fs1 :: (tr ++ closeStates e fs2 o2))
    else ok [fs, fs1]
  else ok (fs :: fs1 :: closeStates e fs1 o)

/-- The states during `fileio::concatenate` (strtk.hpp 18536-18575). -/
def concatenateStates (e : Env) (fs : FS N) (f1 f2 out : N) (junk : List UInt8) : Outcome (List (FS N)) :=
  let i1 := openIn fs f1
  let i2 := openIn fs f2
  let (fs1, o) := openOut fs out
  if i1.good && i2.good && o.good then do
    let remaining := fileSize fs1 f1
    let (tr, fs2, o, buf) ← pumpStates e blockSize (remaining + 1) fs1 i1 o junk remaining
    let remaining := fileSize fs2 f2
    let (tr', fs3, o, _) ← pumpStates e blockSize (remaining + 1) fs2 i2 o buf remaining
    ok (fs :: fs1 :: (tr ++ tr' ++ closeStates e fs3 o))
  else ok (fs :: fs1 :: closeStates e fs1 o)

/-- `write_to_text_file(stream, sequence, delimiter)` (strtk.hpp 659-762) on a file stream: `stream << t << delimiter` for each element, or
`stream << t` when the delimiter is empty; `show'` is the element's `operator<<`, a formatted write of one run of bytes. -/
def textLoop {T : Type} (show' : T → List UInt8) (delimiter : List UInt8) (e : Env) : FS N → OStream N → List T → Nat → Nat × FS N × OStream N
  | fs, o, [], count => (count, fs, o)
  | fs, o, t :: ts, count =>
    let (fs, o) := write e fs o (show' t)
    let (fs, o) := if delimiter ≠ [] then write e fs o delimiter else (fs, o)
    textLoop show' delimiter e fs o ts (count + 1)

/-- `write_to_text_file(file_name, sequence, delimiter)` for sequences, sets and multisets (strtk.hpp 763-804). -/
def writeTextFile {T : Type} (show' : T → List UInt8) (delimiter : List UInt8) (e : Env) (fs : FS N) (n : N) (ts : List T) : Nat × FS N :=
  let (fs, o) := openOut fs n
  if !o.good then (0, fs)
  else
    let (count, fs, o) := textLoop show' delimiter e fs o ts 0
    (count, close e fs o)

/-- The states during the loop of `write_to_text_file`. -/
def textLoopStates {T : Type} (show' : T → List UInt8) (delimiter : List UInt8) (e : Env) : FS N → OStream N → List T → List (FS N)
  | fs, _, [] => [fs]
  | fs, o, t :: ts =>
    let (fs1, o1) := write e fs o (show' t)
    let (fs2, o2) := if delimiter ≠ [] then write e fs1 o1 delimiter else (fs1, o1)
    writeStates e fs o (show' t) ++ (if delimiter ≠ [] then writeStates e fs1 o1 delimiter else []) ++ textLoopStates show' delimiter e fs2 o2 ts

/-- The states during `write_to_text_file(file_name, sequence, delimiter)`. -/
def writeTextFileStates {T : Type} (show' : T → List UInt8) (delimiter : List UInt8) (e : Env) (fs : FS N) (n : N) (ts : List T) : List (FS N) :=
  let (fs1, o) := openOut fs n
  if !o.good then [fs, fs1]
  else
    let (_, fs2, o2) := textLoop show' delimiter e fs1 o ts 0
    fs :: fs1 :: (textLoopStates show' delimiter e fs1 o ts ++ closeStates e fs2 o2)

/-! ## Specification -/

/-- What a crash may leave when `data` is being written to file `n`: every other file as it was, and file `n` as it was or holding a
beginning of `data`. -/
def Survives (fs0 : FS N) (n : N) (data : List UInt8) (fs : FS N) : Prop :=
  (∀ m, m ≠ n → fs.files m = fs0.files m) ∧ (fs.files n = fs0.files n ∨ ∃ p, p <+: data ∧ fs.files n = some p)

/-! ## Lemmas -/

/-- `fs` is `fs0` with a beginning of `data` in file `n`. -/
def Cut (fs0 : FS N) (n : N) (data : List UInt8) (fs : FS N) : Prop := ∃ p, p <+: data ∧ fs = fs0.put n p

theorem Cut.survives {fs0 fs : FS N} {n : N} {data : List UInt8} (h : Cut fs0 n data fs) : Survives fs0 n data fs := by
  obtain ⟨p, hp, rfl⟩ := h
  exact ⟨fun m hm => by simp [FS.put, hm], Or.inr ⟨p, hp, by simp [FS.put]⟩⟩

theorem Cut.mono {fs0 fs : FS N} {n : N} {a b : List UInt8} (h : Cut fs0 n a fs) (hab : a <+: b) : Cut fs0 n b fs := by
  obtain ⟨p, hp, h⟩ := h
  exact ⟨p, hp.trans hab, h⟩

theorem survives_refl (fs : FS N) (n : N) (data : List UInt8) : Survives fs n data fs := ⟨fun _ _ => rfl, Or.inl rfl⟩

theorem given_cut {e : Env} {fs0 : FS N} {n : N} {data : List UInt8} {fs : FS N} {o : OStream N} (h : Given e fs0 n data fs o) :
    Cut fs0 n data fs := by
  obtain ⟨_, file, hfs, h⟩ := h
  refine ⟨file, ?_, hfs⟩
  rcases h with ⟨_, h, _⟩ | ⟨_, h, _⟩
  · exact ⟨_, h⟩
  · rw [h]; exact List.take_prefix _ _

theorem push_cut {e : Env} {fs0 : FS N} {n : N} {data : List UInt8} {fs : FS N} {o : OStream N} (h : Given e fs0 n data fs o)
    (hg : o.good = true) (k : Nat) : ∀ s ∈ pushStates e fs o k, Cut fs0 n data s := by
  obtain ⟨hn, file, hfs, h⟩ := h
  rcases h with ⟨_, hd, _⟩ | ⟨h, _⟩
  · intro s hs
    subst hn hfs
    obtain ⟨j, _, rfl⟩ := List.mem_map.mp hs
    simp only [get_put, put_put]
    refine ⟨_, ?_, rfl⟩
    rw [← hd]
    apply (List.prefix_append_right_inj file).mpr
    exact (List.take_prefix _ _).trans ((List.take_prefix _ _).trans (List.take_prefix _ _))
  · rw [hg] at h; cases h

theorem push_last (e : Env) (fs : FS N) (o : OStream N) (k : Nat) : (pushStates e fs o k).getLast? = some (push e fs o k).1 := by
  unfold pushStates push
  simp only [List.range_succ, List.map_append, List.map_cons, List.map_nil, List.getLast?_concat, List.take_length]

theorem write_cut {e : Env} {fs0 : FS N} {n : N} {data : List UInt8} {fs : FS N} {o : OStream N} (h : Given e fs0 n data fs o)
    (d : List UInt8) : ∀ s ∈ writeStates e fs o d, Cut fs0 n (data ++ d) s := by
  unfold writeStates
  by_cases hg : o.good = true
  · rw [if_pos hg]
    obtain ⟨hn, file, hfs, h⟩ := h
    rcases h with ⟨_, hd, hr⟩ | ⟨h, _⟩
    · have hG : Given e fs0 n (data ++ d) fs { o with pending := o.pending ++ d, writes := o.writes + 1 } :=
        ⟨hn, file, hfs, Or.inl ⟨hg, by rw [← hd]; exact (List.append_assoc ..).symm, hr⟩⟩
      exact push_cut hG hg _
    · rw [hg] at h; cases h
  · rw [if_neg hg]
    intro s hs
    rw [List.mem_singleton.mp hs]
    exact (given_cut h).mono (List.prefix_append _ _)

theorem write_last (e : Env) (fs : FS N) (o : OStream N) (d : List UInt8) : (writeStates e fs o d).getLast? = some (write e fs o d).1 := by
  unfold writeStates write
  split
  · exact push_last ..
  · rfl

theorem close_cut {e : Env} {fs0 : FS N} {n : N} {data : List UInt8} {fs : FS N} {o : OStream N} (h : Given e fs0 n data fs o) :
    ∀ s ∈ closeStates e fs o, Cut fs0 n data s := by
  unfold closeStates
  by_cases hg : o.good = true
  · rw [if_pos hg]; exact push_cut h hg _
  · rw [if_neg hg]
    intro s hs
    rw [List.mem_singleton.mp hs]
    exact given_cut h

theorem close_last (e : Env) (fs : FS N) (o : OStream N) : (closeStates e fs o).getLast? = some (close e fs o) := by
  unfold closeStates close
  split
  · exact push_last ..
  · rfl

theorem last_append {a b : List (FS N)} {x : FS N} (h : b.getLast? = some x) : (a ++ b).getLast? = some x := by
  rw [List.getLast?_append, h]; rfl

theorem last_cons {a : FS N} {b : List (FS N)} {x : FS N} (h : b.getLast? = some x) : (a :: b).getLast? = some x :=
  last_append (a := [a]) h

/-- The loop and its list of states run alike. -/
theorem pumpStates_eq (e : Env) (block : Nat) (fuel : Nat) : ∀ (fs : FS N) (i : IStream N) (o : OStream N) (buf : List UInt8) (remaining : Nat)
    (r : FS N × OStream N × List UInt8), pump e block fuel fs i o buf remaining = ok r →
      ∃ tr, pumpStates e block fuel fs i o buf remaining = ok (tr, r) ∧ tr.getLast? = some r.1 := by
  induction fuel with
  | zero => intro _ _ _ _ _ _ h; simp [pump] at h
  | succ fuel ih =>
    intro fs i o buf remaining r h
    unfold pump at h
    unfold pumpStates
    by_cases hle : block ≤ remaining
    · rw [if_pos hle] at h ⊢
      obtain ⟨⟨b1, i1⟩, h1, h⟩ := bind_eq_ok.mp h
      rw [h1, ok_bind]
      obtain ⟨d, h2, h⟩ := bind_eq_ok.mp h
      simp only
      rw [h2, ok_bind]
      obtain ⟨tr, h3, h4⟩ := ih (write e fs o d).1 i1 (write e fs o d).2 b1 (remaining - block) r h
      rw [h3, ok_bind]
      exact ⟨_, rfl, last_append h4⟩
    · rw [if_neg hle] at h ⊢
      by_cases h0 : 0 < remaining
      · rw [if_pos h0] at h ⊢
        obtain ⟨⟨b1, i1⟩, h1, h⟩ := bind_eq_ok.mp h
        rw [h1, ok_bind]
        obtain ⟨d, h2, h⟩ := bind_eq_ok.mp h
        simp only
        rw [h2, ok_bind]
        have := Outcome.ok.inj h
        subst this
        exact ⟨_, rfl, write_last ..⟩
      · rw [if_neg h0] at h ⊢
        have := Outcome.ok.inj h
        subst this
        exact ⟨_, rfl, rfl⟩

/-- During the loop the output file holds a beginning of what has been given to it. -/
theorem pump_cut (e : Env) (block : Nat) (hb : 0 < block) (fs0 : FS N) (n : N) (fuel : Nat) :
    ∀ (fs : FS N) (i : IStream N) (o : OStream N) (buf data pre rest : List UInt8), Given e fs0 n data fs o → i.name ≠ n →
      i.good = true → fs0.get i.name = pre ++ rest → i.pos = pre.length → buf.length = block →
      ∀ tr r, pumpStates e block fuel fs i o buf rest.length = ok (tr, r) → ∀ s ∈ tr, Cut fs0 n (data ++ rest) s := by
  induction fuel with
  | zero => intro _ _ _ _ _ _ _ _ _ _ _ _ _ _ _ h; simp [pumpStates] at h
  | succ fuel ih =>
    intro fs i o buf data pre rest hgiv hne hg hc hp hbl tr r h
    have hget : fs.get i.name = pre ++ rest := by
      obtain ⟨_, file, hfs, _⟩ := hgiv
      rw [hfs, get_put_ne _ _ hne, hc]
    unfold pumpStates at h
    by_cases hle : block ≤ rest.length
    · rw [if_pos hle] at h
      have hl : (rest.take block).length = block := by rw [List.length_take]; omega
      have hrd := read_full fs i buf pre (rest.take block) (rest.drop block) hg (by rw [List.append_assoc, List.take_append_drop]; exact hget) hp
        (by omega)
      rw [hl] at hrd
      rw [hrd, ok_bind] at h
      have hsl := slice_prefix (rest.take block) (buf.drop block)
      rw [hl] at hsl
      simp only at h
      rw [hsl, ok_bind] at h
      have hlen : rest.length - block = (rest.drop block).length := by rw [List.length_drop]
      rw [hlen] at h
      obtain ⟨⟨tr1, r1⟩, h1, h⟩ := bind_eq_ok.mp h
      simp only [ok.injEq, Prod.mk.injEq] at h
      obtain ⟨rfl, rfl⟩ := h
      have := ih (write e fs o (rest.take block)).1 { i with pos := (pre ++ rest.take block).length } (write e fs o (rest.take block)).2
        (rest.take block ++ buf.drop block) (data ++ rest.take block) (pre ++ rest.take block) (rest.drop block)
        (given_write hgiv _) hne hg (by rw [List.append_assoc, List.take_append_drop]; exact hc) rfl
        (by rw [List.length_append, List.length_drop]; omega) tr1 r1 h1
      rw [List.append_assoc, List.take_append_drop] at this
      intro s hs
      rcases List.mem_append.mp hs with hs | hs
      · exact (write_cut hgiv _ s hs).mono ((List.prefix_append_right_inj data).mpr (List.take_prefix _ _))
      · exact this s hs
    · rw [if_neg hle] at h
      by_cases h0 : 0 < rest.length
      · rw [if_pos h0] at h
        have hrd := read_full fs i buf pre rest [] hg (by simpa using hget) hp (by omega)
        rw [hrd, ok_bind] at h
        simp only at h
        rw [slice_prefix, ok_bind] at h
        simp only [ok.injEq, Prod.mk.injEq] at h
        obtain ⟨rfl, rfl⟩ := h
        exact write_cut hgiv _
      · rw [if_neg h0] at h
        simp only [ok.injEq, Prod.mk.injEq] at h
        obtain ⟨rfl, rfl⟩ := h
        intro s hs
        rw [List.mem_singleton.mp hs]
        exact (given_cut hgiv).mono (List.prefix_append _ _)

theorem textLoop_given {T : Type} (show' : T → List UInt8) (delimiter : List UInt8) (e : Env) (fs0 : FS N) (n : N) (ts : List T) :
    ∀ (fs : FS N) (o : OStream N) (data : List UInt8) (c : Nat), Given e fs0 n data fs o →
      (textLoop show' delimiter e fs o ts c).1 = c + ts.length ∧
      Given e fs0 n (data ++ ts.flatMap fun t => show' t ++ delimiter) (textLoop show' delimiter e fs o ts c).2.1
        (textLoop show' delimiter e fs o ts c).2.2 ∧
      (∀ s ∈ textLoopStates show' delimiter e fs o ts, Cut fs0 n (data ++ ts.flatMap fun t => show' t ++ delimiter) s) ∧
      (textLoopStates show' delimiter e fs o ts).getLast? = some (textLoop show' delimiter e fs o ts c).2.1 := by
  induction ts with
  | nil =>
    intro fs o data c h
    refine ⟨rfl, by simpa [textLoop] using h, ?_, rfl⟩
    intro s hs
    rw [List.mem_singleton.mp hs]
    exact (given_cut h).mono (List.prefix_append _ _)
  | cons t ts ih =>
    intro fs o data c h
    have h1 := given_write h (show' t)
    unfold textLoop textLoopStates
    by_cases hd : delimiter = []
    · subst hd
      obtain ⟨g1, g2, g3, g4⟩ := ih _ _ _ (c + 1) h1
      simp only [ne_eq, not_true, if_false, List.append_nil] at g1 g2 g3 g4 ⊢
      rw [List.flatMap_cons, ← List.append_assoc]
      refine ⟨by rw [g1, List.length_cons]; omega, g2, ?_, last_append g4⟩
      intro s hs
      rcases List.mem_append.mp hs with hs | hs
      · exact (write_cut h _ s hs).mono (List.prefix_append _ _)
      · exact g3 s hs
    · have h2 := given_write h1 delimiter
      obtain ⟨g1, g2, g3, g4⟩ := ih _ _ _ (c + 1) h2
      simp only [ne_eq, hd, not_false_iff, if_true] at g1 g2 g3 g4 ⊢
      rw [List.flatMap_cons, ← List.append_assoc, ← List.append_assoc]
      refine ⟨by rw [g1, List.length_cons]; omega, g2, ?_, last_append g4⟩
      intro s hs
      rcases List.mem_append.mp hs with hs | hs
      · rcases List.mem_append.mp hs with hs | hs
        · exact (write_cut h _ s hs).mono ((List.prefix_append _ _).trans (List.prefix_append _ _))
        · exact (write_cut h1 _ s hs).mono (List.prefix_append _ _)
      · exact g3 s hs

theorem openOut_bad {fs : FS N} {n : N} (h : fs.creatable n = false) : openOut fs n = (fs, ⟨n, [], false, 0⟩) := by
  unfold openOut; rw [if_neg (by simp [h])]

theorem fileSize_put_ne {fs : FS N} {n m : N} (d : List UInt8) (h : fs.canRead m = true) (hne : m ≠ n) :
    fileSize (fs.put n d) m = (fs.get m).length := by
  unfold fileSize openIn
  simp only
  rw [canRead_put_ne _ _ hne, if_pos h, get_put_ne _ _ hne]

theorem survives_opened {e : Env} {fs : FS N} {n : N} {data : List UInt8} {rest : List (FS N)} (hw : fs.creatable n = true)
    (h : ∀ s ∈ rest, Cut fs n data s) : ∀ s ∈ fs :: (openOut fs n).1 :: rest, Survives fs n data s := by
  intro s hs
  rcases List.mem_cons.mp hs with rfl | hs
  · exact survives_refl ..
  · rcases List.mem_cons.mp hs with rfl | hs
    · exact ((given_cut (given_open e fs n hw).1).mono List.nil_prefix).survives
    · exact (h s hs).survives

/-! ## Theorems -/

/-- **C157**: the lists of states are those of the functions: they end in the state that the function leaves. -/
theorem C157_states_end (e : Env) (fs : FS N) (a b c : N) (junk d : List UInt8) {T : Type} (show' : T → List UInt8) (ts : List T) :
    (∀ r fs', copyFile e fs a b junk = ok (r, fs') → ∃ l, copyFileStates e fs a b junk = ok (fs :: l) ∧ l.getLast? = some fs') ∧
    (∀ r fs', concatenate e fs a b c junk = ok (r, fs') → ∃ l, concatenateStates e fs a b c junk = ok (fs :: l) ∧ l.getLast? = some fs') ∧
    (∃ l fs', writeFileStates e fs a d = fs :: l ∧ l.getLast? = some fs' ∧ ∃ r, writeFile e fs a d = ok (r, fs')) ∧
    (∃ l, writeTextFileStates show' d e fs a ts = fs :: l ∧ l.getLast? = some (writeTextFile show' d e fs a ts).2) := by
  refine ⟨?_, ?_, ?_, ?_⟩
  · intro r fs' h
    unfold copyFile at h
    unfold copyFileStates
    simp only at h ⊢
    split at h
    · rename_i hi
      rw [if_pos hi]
      split at h
      · rename_i ho
        rw [if_pos ho]
        obtain ⟨⟨fs2, o2, b2⟩, h1, h⟩ := bind_eq_ok.mp h
        simp only [ok.injEq, Prod.mk.injEq] at h
        obtain ⟨rfl, rfl⟩ := h
        obtain ⟨tr, h2, h3⟩ := pumpStates_eq _ _ _ _ _ _ _ _ _ h1
        rw [h2, ok_bind]
        exact ⟨_, rfl, last_cons (last_append (close_last ..))⟩
      · rename_i ho
        rw [if_neg ho]
        simp only [ok.injEq, Prod.mk.injEq] at h
        obtain ⟨rfl, rfl⟩ := h
        exact ⟨_, rfl, rfl⟩
    · rename_i hi
      rw [if_neg hi]
      simp only [ok.injEq, Prod.mk.injEq] at h
      obtain ⟨rfl, rfl⟩ := h
      exact ⟨_, rfl, last_cons (close_last ..)⟩
  · intro r fs' h
    unfold concatenate at h
    unfold concatenateStates
    simp only at h ⊢
    split at h
    · rename_i hi
      rw [if_pos hi]
      obtain ⟨⟨fs2, o2, b2⟩, h1, h⟩ := bind_eq_ok.mp h
      obtain ⟨⟨fs3, o3, b3⟩, h1', h⟩ := bind_eq_ok.mp h
      simp only [ok.injEq, Prod.mk.injEq] at h
      obtain ⟨rfl, rfl⟩ := h
      obtain ⟨tr, h2, h3⟩ := pumpStates_eq _ _ _ _ _ _ _ _ _ h1
      obtain ⟨tr', h2', h3'⟩ := pumpStates_eq _ _ _ _ _ _ _ _ _ h1'
      rw [h2, ok_bind]
      simp only
      rw [h2', ok_bind]
      exact ⟨_, rfl, last_cons (last_append (close_last ..))⟩
    · rename_i hi
      rw [if_neg hi]
      simp only [ok.injEq, Prod.mk.injEq] at h
      obtain ⟨rfl, rfl⟩ := h
      exact ⟨_, rfl, last_cons (close_last ..)⟩
  · unfold writeFileStates writeFile writeFileBuf
    simp only
    split
    · have hs : slice d 0 d.length = ok d := by simp [slice]
      rw [hs, ok_bind]
      exact ⟨_, _, rfl, last_cons (last_append (close_last ..)), true, rfl⟩
    · exact ⟨_, _, rfl, rfl, false, rfl⟩
  · unfold writeTextFileStates writeTextFile
    simp only
    split
    · exact ⟨_, rfl, rfl⟩
    · exact ⟨_, rfl, last_cons (last_append (close_last ..))⟩

/-- **C157**: whenever `copy_file` is cut off, every file but the destination is as it was, and the destination is as it was or holds a
beginning of the source.  This includes a missing source, a destination that cannot be opened, a full disk, and copying onto itself. -/
theorem C157_copy (e : Env) (fs : FS N) (src dest : N) (junk : List UInt8) (hj : junk.length = 16384) :
    ∃ states, copyFileStates e fs src dest junk = ok states ∧ ∀ s ∈ states, Survives fs dest (fs.get src) s := by
  unfold copyFileStates
  simp only
  cases hw : fs.creatable dest with
  | false =>
    rw [openOut_bad hw]
    simp only [closeStates, Bool.false_eq_true, if_false]
    have hb : ∀ s ∈ [fs, fs], Survives fs dest (fs.get src) s := by
      intro s hs
      simp only [List.mem_cons, List.not_mem_nil, or_false, or_self] at hs
      rw [hs]; exact survives_refl ..
    split
    · exact ⟨_, rfl, hb⟩
    · refine ⟨_, rfl, fun s hs => hb s ?_⟩
      simpa using hs
  | true =>
    obtain ⟨hgiv, hog, hfs⟩ := given_open e fs dest hw
    by_cases hr : fs.canRead src = true
    · rw [if_pos (show (openIn fs src).good = true from hr), if_pos hog]
      by_cases hne : src = dest
      · subst hne
        have hsz : fileSize (openOut fs src).1 src = 0 := by
          unfold fileSize
          rw [hfs, get_put]
          split <;> rfl
        rw [hsz]
        have hp : pumpStates e blockSize 1 (openOut fs src).1 (openIn fs src) (openOut fs src).2 junk 0 =
            ok ([(openOut fs src).1], (openOut fs src).1, (openOut fs src).2, junk) := by
          unfold pumpStates
          rw [if_neg (by decide), if_neg (by omega)]
        rw [hp, ok_bind]
        refine ⟨_, rfl, survives_opened (e := e) hw ?_⟩
        intro s hs
        rcases List.mem_append.mp hs with hs | hs
        · rw [List.mem_singleton.mp hs]; exact (given_cut hgiv).mono List.nil_prefix
        · exact (close_cut hgiv s hs).mono List.nil_prefix
      · have hsz : fileSize (openOut fs dest).1 src = (fs.get src).length := by rw [hfs]; exact fileSize_put_ne _ hr hne
        rw [hsz]
        obtain ⟨fs', o', buf', h1, h2, _⟩ := pump_given e blockSize (by decide) fs dest ((fs.get src).length + 1) (openOut fs dest).1 (openIn fs src)
          (openOut fs dest).2 junk [] [] (fs.get src) hgiv hne hr rfl rfl hj (by omega)
        obtain ⟨tr, h3, _⟩ := pumpStates_eq _ _ _ _ _ _ _ _ _ h1
        have h4 := pump_cut e blockSize (by decide) fs dest ((fs.get src).length + 1) (openOut fs dest).1 (openIn fs src)
          (openOut fs dest).2 junk [] [] (fs.get src) hgiv hne hr rfl rfl hj _ _ h3
        rw [h3, ok_bind]
        refine ⟨_, rfl, survives_opened (e := e) hw ?_⟩
        intro s hs
        rw [List.nil_append] at h2 h4
        rcases List.mem_append.mp hs with hs | hs
        · exact h4 s hs
        · exact close_cut h2 s hs
    · rw [if_neg (by simpa [openIn] using hr)]
      refine ⟨_, rfl, survives_opened (e := e) hw ?_⟩
      intro s hs
      exact (close_cut hgiv s hs).mono List.nil_prefix

/-- **C157**: likewise for `concatenate`, if the output is neither input: at every crash point it is as it was or holds a beginning of the
first file followed by the second. -/
theorem C157_concatenate (e : Env) (fs : FS N) (f1 f2 out : N) (junk : List UInt8) (hj : junk.length = 16384) (hn1 : f1 ≠ out)
    (hn2 : f2 ≠ out) :
    ∃ states, concatenateStates e fs f1 f2 out junk = ok states ∧ ∀ s ∈ states, Survives fs out (fs.get f1 ++ fs.get f2) s := by
  unfold concatenateStates
  simp only
  cases hw : fs.creatable out with
  | false =>
    rw [openOut_bad hw]
    simp only [closeStates, Bool.and_false, Bool.false_eq_true, if_false]
    refine ⟨_, rfl, ?_⟩
    intro s hs
    simp only [List.mem_cons, List.not_mem_nil, or_false, or_self] at hs
    rw [hs]; exact survives_refl ..
  | true =>
    obtain ⟨hgiv, hog, hfs⟩ := given_open e fs out hw
    by_cases hr : ((openIn fs f1).good && (openIn fs f2).good && (openOut fs out).2.good) = true
    · rw [if_pos hr]
      simp only [Bool.and_eq_true, openIn] at hr
      obtain ⟨⟨hr1, hr2⟩, _⟩ := hr
      have hsz : fileSize (openOut fs out).1 f1 = (fs.get f1).length := by rw [hfs]; exact fileSize_put_ne _ hr1 hn1
      rw [hsz]
      obtain ⟨fs1, o1, buf1, h1, h2, hb1⟩ := pump_given e blockSize (by decide) fs out ((fs.get f1).length + 1) (openOut fs out).1 (openIn fs f1)
        (openOut fs out).2 junk [] [] (fs.get f1) hgiv hn1 hr1 rfl rfl hj (by omega)
      obtain ⟨tr, h3, _⟩ := pumpStates_eq _ _ _ _ _ _ _ _ _ h1
      have h4 := pump_cut e blockSize (by decide) fs out ((fs.get f1).length + 1) (openOut fs out).1 (openIn fs f1)
        (openOut fs out).2 junk [] [] (fs.get f1) hgiv hn1 hr1 rfl rfl hj _ _ h3
      rw [h3, ok_bind]
      simp only
      have hsz2 : fileSize fs1 f2 = (fs.get f2).length := by
        obtain ⟨_, file, hfs1, _⟩ := h2
        rw [hfs1]; exact fileSize_put_ne _ hr2 hn2
      rw [hsz2]
      obtain ⟨fs2, o2, buf2, k1, k2, _⟩ := pump_given e blockSize (by decide) fs out ((fs.get f2).length + 1) fs1 (openIn fs f2) o1 buf1
        ([] ++ fs.get f1) [] (fs.get f2) h2 hn2 hr2 rfl rfl hb1 (by omega)
      obtain ⟨tr', k3, _⟩ := pumpStates_eq _ _ _ _ _ _ _ _ _ k1
      have k4 := pump_cut e blockSize (by decide) fs out ((fs.get f2).length + 1) fs1 (openIn fs f2) o1 buf1
        ([] ++ fs.get f1) [] (fs.get f2) h2 hn2 hr2 rfl rfl hb1 _ _ k3
      rw [k3, ok_bind]
      refine ⟨_, rfl, survives_opened (e := e) hw ?_⟩
      intro s hs
      rw [List.nil_append] at h4 k2 k4
      rcases List.mem_append.mp hs with hs | hs
      · rcases List.mem_append.mp hs with hs | hs
        · exact (h4 s hs).mono (List.prefix_append _ _)
        · exact k4 s hs
      · exact close_cut k2 s hs
    · rw [if_neg hr]
      refine ⟨_, rfl, survives_opened (e := e) hw ?_⟩
      intro s hs
      exact (close_cut hgiv s hs).mono List.nil_prefix

/-- **C157**: likewise for `write_file`. -/
theorem C157_write (e : Env) (fs : FS N) (n : N) (d : List UInt8) : ∀ s ∈ writeFileStates e fs n d, Survives fs n d s := by
  unfold writeFileStates
  simp only
  cases hw : fs.creatable n with
  | false =>
    rw [openOut_bad hw]
    simp only [Bool.false_eq_true, if_false]
    intro s hs
    simp only [List.mem_cons, List.not_mem_nil, or_false, or_self] at hs
    rw [hs]; exact survives_refl ..
  | true =>
    obtain ⟨hgiv, hog, hfs⟩ := given_open e fs n hw
    rw [if_pos hog]
    apply survives_opened (e := e) hw
    intro s hs
    rcases List.mem_append.mp hs with hs | hs
    · exact write_cut hgiv d s hs
    · exact close_cut (given_write hgiv d) s hs

/-- **C157**: likewise for `write_to_text_file`, whose text is each element followed by the delimiter. -/
theorem C157_write_text {T : Type} (show' : T → List UInt8) (delimiter : List UInt8) (e : Env) (fs : FS N) (n : N) (ts : List T) :
    ∀ s ∈ writeTextFileStates show' delimiter e fs n ts, Survives fs n (ts.flatMap fun t => show' t ++ delimiter) s := by
  unfold writeTextFileStates
  simp only
  cases hw : fs.creatable n with
  | false =>
    rw [openOut_bad hw]
    simp only [Bool.not_false, if_true]
    intro s hs
    simp only [List.mem_cons, List.not_mem_nil, or_false, or_self] at hs
    rw [hs]; exact survives_refl ..
  | true =>
    obtain ⟨hgiv, hog, hfs⟩ := given_open e fs n hw
    rw [if_neg (by simp [hog])]
    apply survives_opened (e := e) hw
    obtain ⟨_, g2, g3, _⟩ := textLoop_given show' delimiter e fs n ts _ _ [] 0 hgiv
    intro s hs
    rw [List.nil_append] at g2 g3
    rcases List.mem_append.mp hs with hs | hs
    · exact g3 s hs
    · exact close_cut g2 s hs

/-- **C157**: without a crash, `write_to_text_file` returns the number of elements and leaves the whole text, as far as there is room. -/
theorem C157_write_text_done {T : Type} (show' : T → List UInt8) (delimiter : List UInt8) (e : Env) (fs : FS N) (n : N) (ts : List T)
    (hw : fs.creatable n = true) :
    writeTextFile show' delimiter e fs n ts = (ts.length, fs.put n ((ts.flatMap fun t => show' t ++ delimiter).take e.room)) := by
  obtain ⟨hgiv, hog, hfs⟩ := given_open e fs n hw
  obtain ⟨g1, g2, _, _⟩ := textLoop_given show' delimiter e fs n ts _ _ [] 0 hgiv
  unfold writeTextFile
  simp only
  rw [if_neg (by simp [hog])]
  rw [given_close g2, List.nil_append, g1, Nat.zero_add]

/-- If the file cannot be opened nothing is counted and nothing changes. -/
theorem C157_write_text_refused {T : Type} (show' : T → List UInt8) (delimiter : List UInt8) (e : Env) (fs : FS N) (n : N) (ts : List T)
    (hw : fs.creatable n = false) : writeTextFile show' delimiter e fs n ts = (0, fs) := by
  unfold writeTextFile
  simp only
  rw [openOut_bad hw]
  rfl

/-- **C157** (negative result): none of these functions replaces a file in one step.  Once the destination has been opened its old contents
are gone and nothing of the new is there, and this state is passed on every call. -/
theorem C157_old_contents_lost (e : Env) (fs : FS N) (src src2 n : N) (junk d : List UInt8) {T : Type} (show' : T → List UInt8)
    (ts : List T) (hw : fs.creatable n = true) :
    (∃ s ∈ writeFileStates e fs n d, s.files n = some []) ∧
    (∃ s ∈ writeTextFileStates show' d e fs n ts, s.files n = some []) ∧
    (∀ l, copyFileStates e fs src n junk = ok l → ∃ s ∈ l, s.files n = some []) ∧
    (∀ l, concatenateStates e fs src src2 n junk = ok l → ∃ s ∈ l, s.files n = some []) := by
  obtain ⟨_, hog, hfs⟩ := given_open e fs n hw
  have hemp : (openOut fs n).1.files n = some [] := by rw [hfs]; simp [FS.put]
  refine ⟨?_, ?_, ?_, ?_⟩
  · unfold writeFileStates
    simp only
    rw [if_pos hog]
    exact ⟨_, by simp, hemp⟩
  · unfold writeTextFileStates
    simp only
    rw [if_neg (by simp [hog])]
    exact ⟨_, by simp, hemp⟩
  · intro l h
    unfold copyFileStates at h
    simp only at h
    rw [if_pos hog] at h
    split at h
    · obtain ⟨⟨tr, fs2, o2, b2⟩, h1, h⟩ := bind_eq_ok.mp h
      have := Outcome.ok.inj h
      subst this
      exact ⟨_, by simp, hemp⟩
    · have := Outcome.ok.inj h
      subst this
      exact ⟨_, by simp, hemp⟩
  · intro l h
    unfold concatenateStates at h
    simp only at h
    split at h
    · obtain ⟨⟨tr, fs2, o2, b2⟩, h1, h⟩ := bind_eq_ok.mp h
      obtain ⟨⟨tr', fs3, o3, b3⟩, h2, h⟩ := bind_eq_ok.mp h
      have := Outcome.ok.inj h
      subst this
      exact ⟨_, by simp, hemp⟩
    · have := Outcome.ok.inj h
      subst this
      exact ⟨_, by simp, hemp⟩

/-- Every beginning of the data is what some crash leaves (on a disk with room for it). -/
theorem C157_every_beginning (e : Env) (fs : FS N) (n : N) (d p : List UInt8) (hw : fs.creatable n = true) (hp : p <+: d)
    (hroom : d.length ≤ e.room) : ∃ s ∈ writeFileStates e fs n d, s.files n = some p := by
  obtain ⟨hgiv, hog, hfs⟩ := given_open e fs n hw
  unfold writeFileStates
  simp only
  rw [if_pos hog]
  have hop : openOut fs n = (fs.put n [], ⟨n, [], true, 0⟩) := by unfold openOut; rw [if_pos hw]
  rw [hop]
  simp only [writeStates, write, closeStates, if_true, List.nil_append]
  have hk : (d.take (e.early 0)).length ≤ e.room := by rw [List.length_take]; omega
  by_cases hle : p.length ≤ (d.take (e.early 0)).length
  · refine ⟨(fs.put n []).put n ([] ++ (d.take (e.early 0)).take p.length), ?_, ?_⟩
    · refine List.mem_cons_of_mem _ (List.mem_cons_of_mem _ (List.mem_append_left _ ?_))
      unfold pushStates
      simp only [get_put, List.length_nil, Nat.sub_zero]
      rw [List.take_of_length_le hk]
      exact List.mem_map.mpr ⟨p.length, by rw [List.mem_range]; omega, rfl⟩
    · simp only [put_put, List.nil_append]
      rw [List.take_take, Nat.min_eq_left (by rw [List.length_take] at hle; omega), ← List.prefix_iff_eq_take.mp hp]
      simp [FS.put]
  · have hl := hp.length_le
    have hle' : e.early 0 < p.length := by rw [List.length_take] at hle; omega
    refine ⟨fs.put n p, ?_, by simp [FS.put]⟩
    refine List.mem_cons_of_mem _ (List.mem_cons_of_mem _ (List.mem_append_right _ ?_))
    have hpu : push e (fs.put n []) ⟨n, d, true, 1⟩ (e.early 0) = (fs.put n (d.take (e.early 0)), ⟨n, d.drop (e.early 0), true, 1⟩) := by
      unfold push
      simp only [get_put, List.length_nil, Nat.sub_zero, put_put, List.nil_append]
      rw [List.take_of_length_le hk]
      simp
    simp only [hpu]
    unfold pushStates
    simp only [get_put, put_put, List.take_length, if_true]
    refine List.mem_map.mpr ⟨p.length - e.early 0, ?_, ?_⟩
    · rw [List.mem_range]
      simp only [List.length_take, List.length_drop]
      omega
    · rw [List.take_take, Nat.min_eq_left (by rw [List.length_take]; omega)]
      congr 1
      rw [List.prefix_iff_eq_take.mp hp, List.length_take, Nat.min_eq_left hl]
      conv => rhs; rw [show p.length = e.early 0 + (p.length - e.early 0) by omega, List.take_add]

/-- A copy of three bytes over a file of two, the bytes reaching the file only on closing: the contents of the destination at the crash
points. -/
def crashFS : FS Nat where
  files := fun n => if n = 0 then some [1, 2, 3] else if n = 1 then some [8, 9] else none
  readable := fun _ => true
  creatable := fun n => n = 1

example : (match writeFileStates ⟨100, fun _ => 2⟩ crashFS 1 [1, 2, 3] with | l => l.map fun s => s.files 1) =
      [some [8, 9], some [], some [], some [1], some [1, 2], some [1, 2], some [1, 2, 3]] ∧
    crashFS.canRead 0 = true ∧ crashFS.creatable 1 = true ∧ crashFS.creatable 0 = false ∧
    (writeTextFileStates (fun b : UInt8 => [b]) [44] ⟨100, fun _ => 0⟩ crashFS 1 [49, 50]).map (fun s => s.files 1) =
      [some [8, 9], some [], some [], some [], some [], some [], some [], some [], some [49], some [49, 44], some [49, 44, 50], some [49, 44, 50, 44]] := by
  refine ⟨by decide +kernel, by decide +kernel, by decide +kernel, by decide +kernel, by decide +kernel⟩

example : ∃ states, copyFileStates ⟨100, fun _ => 2⟩ crashFS 0 1 (List.replicate 16384 0) = ok states ∧ ∀ s ∈ states, Survives crashFS 1 (crashFS.get 0) s :=
  C157_copy _ crashFS 0 1 _ List.length_replicate

example : ∃ states, concatenateStates ⟨100, fun _ => 2⟩ crashFS 0 0 1 (List.replicate 16384 0) = ok states ∧
    ∀ s ∈ states, Survives crashFS 1 (crashFS.get 0 ++ crashFS.get 0) s :=
  C157_concatenate _ crashFS 0 0 1 _ List.length_replicate (by decide) (by decide)

end Strtk.FileIO
