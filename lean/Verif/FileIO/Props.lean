import Verif.FileIO.Lemmas

/-!
# File helpers: theorems (C67, C88, C89, C90)

`fs.files n` is the contents of file `n` (if it exists); `fs.canRead n` says that `n` exists and may be read, `fs.creatable n` that it may be
created or overwritten.  `e.early` is the unknown schedule on which buffered bytes reach the file and `e.room` the number of bytes a
file can hold; both are arbitrary in every theorem.
-/

namespace Strtk.FileIO
open Outcome Mem

variable {N : Type} [DecidableEq N]

theorem get_of_canRead {fs : FS N} {n : N} (h : fs.canRead n = true) : fs.files n = some (fs.get n) := by
  unfold FS.canRead at h
  unfold FS.get
  cases hf : fs.files n with
  | none => simp [hf] at h
  | some d => rfl

/-- What `copy_file` does when both files can be opened and are different, for any disk. -/
theorem copyFile_eq (e : Env) (fs : FS N) (src dest : N) (junk : List UInt8) (hr : fs.canRead src = true) (hw : fs.creatable dest = true)
    (hne : src ≠ dest) (hj : junk.length = blockSize) : copyFile e fs src dest junk = ok (true, fs.put dest ((fs.get src).take e.room)) := by
  obtain ⟨hgiv, hog, hfs⟩ := given_open e fs dest hw
  unfold copyFile
  simp only
  rw [if_pos (show (openIn fs src).good = true from hr), if_pos hog]
  have hsz : fileSize (openOut fs dest).1 src = (fs.get src).length := by
    unfold fileSize openIn
    simp only
    rw [hfs, canRead_put_ne _ _ hne, if_pos hr, get_put_ne _ _ hne]
  rw [hsz]
  obtain ⟨fs', o', buf', h1, h2, _⟩ := pump_given e blockSize (by decide) fs dest ((fs.get src).length + 1) (openOut fs dest).1 (openIn fs src)
    (openOut fs dest).2 junk [] [] (fs.get src) hgiv hne hr rfl rfl hj (by omega)
  rw [h1, ok_bind]
  simp only
  rw [given_close h2, List.nil_append]

/-- **C67** (partial: the files must be different and the disk must not fill up): copying makes the destination's contents equal to the
source's and leaves every other file alone, for every size. -/
theorem C67_copy_partial (e : Env) (fs : FS N) (src dest : N) (junk : List UInt8) (hr : fs.canRead src = true)
    (hw : fs.creatable dest = true) (hne : src ≠ dest) (hj : junk.length = 16384) (hroom : (fs.get src).length ≤ e.room) :
    ∃ fs', copyFile e fs src dest junk = ok (true, fs') ∧ fs'.files dest = fs.files src ∧ ∀ m, m ≠ dest → fs'.files m = fs.files m := by
  refine ⟨_, copyFile_eq e fs src dest junk hr hw hne hj, ?_, ?_⟩
  · rw [List.take_of_length_le hroom, get_of_canRead hr]; simp [FS.put]
  · intro m hm; simp [FS.put, hm]

/-- **C67** (negative result): when the disk fills up, `copy_file` still reports success, with a truncated copy. -/
theorem C67_copy_full_disk (e : Env) (fs : FS N) (src dest : N) (junk : List UInt8) (hr : fs.canRead src = true)
    (hw : fs.creatable dest = true) (hne : src ≠ dest) (hj : junk.length = 16384) (hroom : e.room < (fs.get src).length) :
    ∃ fs', copyFile e fs src dest junk = ok (true, fs') ∧ fs'.files dest ≠ fs.files src ∧ fs'.get dest = (fs.get src).take e.room := by
  refine ⟨_, copyFile_eq e fs src dest junk hr hw hne hj, ?_, by rw [get_put]⟩
  rw [get_of_canRead hr]
  simp only [FS.put, if_true]
  intro h
  have := congrArg List.length (Option.some.inj h)
  rw [List.length_take] at this
  omega

/-- **C67** (negative result): copying a file onto itself empties it, and reports success. -/
theorem C67_copy_onto_itself (e : Env) (fs : FS N) (src : N) (junk : List UInt8) (hr : fs.canRead src = true)
    (hw : fs.creatable src = true) : ∃ fs', copyFile e fs src src junk = ok (true, fs') ∧ fs'.files src = some [] := by
  obtain ⟨hgiv, hog, hfs⟩ := given_open e fs src hw
  unfold copyFile
  simp only
  rw [if_pos (show (openIn fs src).good = true from hr), if_pos hog]
  have hsz : fileSize (openOut fs src).1 src = 0 := by
    unfold fileSize
    rw [hfs, get_put]
    split <;> rfl
  rw [hsz]
  have hp : pump e blockSize 1 (openOut fs src).1 (openIn fs src) (openOut fs src).2 junk 0 = ok ((openOut fs src).1, (openOut fs src).2, junk) := by
    unfold pump
    rw [if_neg (by decide), if_neg (by omega)]
  rw [hp, ok_bind]
  simp only
  rw [given_close hgiv]
  exact ⟨_, rfl, by simp [FS.put]⟩

/-- **C67** (negative result): a copy that fails because the source is missing has already emptied the destination. -/
theorem C67_copy_failing_empties (e : Env) (fs : FS N) (src dest : N) (junk : List UInt8) (hr : fs.canRead src = false)
    (hw : fs.creatable dest = true) : ∃ fs', copyFile e fs src dest junk = ok (false, fs') ∧ fs'.files dest = some [] := by
  obtain ⟨hgiv, hog, hfs⟩ := given_open e fs dest hw
  unfold copyFile
  simp only
  rw [if_neg (by simpa [openIn] using hr), given_close hgiv]
  exact ⟨_, rfl, by simp [FS.put]⟩

/-- **C67**: if the destination cannot be opened, `copy_file` fails and changes nothing. -/
theorem C67_copy_unwritable (e : Env) (fs : FS N) (src dest : N) (junk : List UInt8) (hw : fs.creatable dest = false) :
    copyFile e fs src dest junk = ok (false, fs) := by
  unfold copyFile openOut
  rw [if_neg (by simp [hw])]
  simp only
  split
  · rw [if_neg (by simp)]
  · rw [close, if_neg (by simp)]

theorem concatenate_eq (e : Env) (fs : FS N) (f1 f2 out : N) (junk : List UInt8) (h1 : fs.canRead f1 = true) (h2 : fs.canRead f2 = true)
    (hw : fs.creatable out = true) (hn1 : f1 ≠ out) (hn2 : f2 ≠ out) (hj : junk.length = blockSize) :
    concatenate e fs f1 f2 out junk = ok (true, fs.put out ((fs.get f1 ++ fs.get f2).take e.room)) := by
  obtain ⟨hgiv, hog, hfs⟩ := given_open e fs out hw
  unfold concatenate
  simp only
  rw [if_pos (by simp only [openIn, h1, h2, hog]; rfl)]
  have hsz : fileSize (openOut fs out).1 f1 = (fs.get f1).length := by
    unfold fileSize openIn
    simp only
    rw [hfs, canRead_put_ne _ _ hn1, if_pos h1, get_put_ne _ _ hn1]
  rw [hsz]
  obtain ⟨fs1, o1, buf1, hp1, hg1, hb1⟩ := pump_given e blockSize (by decide) fs out ((fs.get f1).length + 1) (openOut fs out).1 (openIn fs f1)
    (openOut fs out).2 junk [] [] (fs.get f1) hgiv hn1 h1 rfl rfl hj (by omega)
  rw [hp1, ok_bind]
  simp only
  have hsz2 : fileSize fs1 f2 = (fs.get f2).length := by
    obtain ⟨_, file, hfs1, _⟩ := hg1
    unfold fileSize openIn
    simp only
    rw [hfs1, canRead_put_ne _ _ hn2, if_pos h2, get_put_ne _ _ hn2]
  rw [hsz2]
  obtain ⟨fs2, o2, buf2, hp2, hg2, _⟩ := pump_given e blockSize (by decide) fs out ((fs.get f2).length + 1) fs1 (openIn fs f2) o1 buf1
    ([] ++ fs.get f1) [] (fs.get f2) hg1 hn2 h2 rfl rfl hb1 (by omega)
  rw [hp2, ok_bind]
  simp only
  rw [given_close hg2, List.nil_append]

/-- **C67** (partial: the output must be neither input and the disk must not fill up; the inputs may be the same file): `concatenate`
writes the first file's contents followed by the second's and leaves every other file alone. -/
theorem C67_concatenate_partial (e : Env) (fs : FS N) (f1 f2 out : N) (junk : List UInt8) (h1 : fs.canRead f1 = true)
    (h2 : fs.canRead f2 = true) (hw : fs.creatable out = true) (hn1 : f1 ≠ out) (hn2 : f2 ≠ out) (hj : junk.length = 16384)
    (hroom : (fs.get f1).length + (fs.get f2).length ≤ e.room) :
    ∃ fs', concatenate e fs f1 f2 out junk = ok (true, fs') ∧ fs'.files out = some (fs.get f1 ++ fs.get f2) ∧
      ∀ m, m ≠ out → fs'.files m = fs.files m := by
  refine ⟨_, concatenate_eq e fs f1 f2 out junk h1 h2 hw hn1 hn2 hj, ?_, ?_⟩
  · rw [List.take_of_length_le (by rw [List.length_append]; omega)]; simp [FS.put]
  · intro m hm; simp [FS.put, hm]

/-- **C67** (negative result): appending a file to another with `concatenate(a, b, a)` loses the contents of `a`. -/
theorem C67_concatenate_onto_first (e : Env) (fs : FS N) (a b : N) (junk : List UInt8) (h1 : fs.canRead a = true)
    (h2 : fs.canRead b = true) (hw : fs.creatable a = true) (hn : b ≠ a) (hj : junk.length = 16384) (hroom : (fs.get b).length ≤ e.room) :
    ∃ fs', concatenate e fs a b a junk = ok (true, fs') ∧ fs'.files a = some (fs.get b) := by
  obtain ⟨hgiv, hog, hfs⟩ := given_open e fs a hw
  unfold concatenate
  simp only
  rw [if_pos (by simp only [openIn, h1, h2, hog]; rfl)]
  have hsz : fileSize (openOut fs a).1 a = 0 := by
    unfold fileSize
    rw [hfs, get_put]
    split <;> rfl
  rw [hsz]
  have hp : pump e blockSize 1 (openOut fs a).1 (openIn fs a) (openOut fs a).2 junk 0 = ok ((openOut fs a).1, (openOut fs a).2, junk) := by
    unfold pump
    rw [if_neg (by decide), if_neg (by omega)]
  rw [hp, ok_bind]
  simp only
  have hsz2 : fileSize (openOut fs a).1 b = (fs.get b).length := by
    unfold fileSize openIn
    simp only
    rw [hfs, canRead_put_ne _ _ hn, if_pos h2, get_put_ne _ _ hn]
  rw [hsz2]
  obtain ⟨fs2, o2, buf2, hp2, hg2, _⟩ := pump_given e blockSize (by decide) fs a ((fs.get b).length + 1) (openOut fs a).1 (openIn fs b)
    (openOut fs a).2 junk [] [] (fs.get b) hgiv hn h2 rfl rfl hj (by omega)
  rw [hp2, ok_bind]
  simp only
  rw [given_close hg2, List.nil_append, List.take_of_length_le hroom]
  exact ⟨_, rfl, by simp [FS.put]⟩

/-- **C67**: `files_identical` holds exactly when both files can be read and have the same contents (whatever the uninitialised
buffers contain). -/
theorem C67_identical (fs : FS N) (n1 n2 : N) (j1 j2 : List UInt8) (h1 : j1.length = 16384) (h2 : j2.length = 16384) :
    ∃ r, filesIdentical fs n1 n2 j1 j2 = ok r ∧ (r = true ↔ fs.canRead n1 = true ∧ fs.canRead n2 = true ∧ fs.files n1 = fs.files n2) := by
  unfold filesIdentical
  simp only
  by_cases hr1 : fs.canRead n1 = true
  · rw [if_pos (show (openIn fs n1).good = true from hr1)]
    by_cases hr2 : fs.canRead n2 = true
    · rw [if_pos (show (openIn fs n2).good = true from hr2)]
      have hs1 : fileSize fs n1 = (fs.get n1).length := by unfold fileSize openIn; simp only; rw [if_pos hr1]
      have hs2 : fileSize fs n2 = (fs.get n2).length := by unfold fileSize openIn; simp only; rw [if_pos hr2]
      rw [hs1, hs2, get_of_canRead hr1, get_of_canRead hr2]
      by_cases hlen : (fs.get n1).length = (fs.get n2).length
      · rw [if_neg (by simp [hlen])]
        rw [sameLoop_eq blockSize (by decide) fs _ (openIn fs n1) (openIn fs n2) j1 j2 [] [] (fs.get n1) (fs.get n2) hr1 hr2 rfl rfl rfl rfl
          h1 h2 hlen (by omega)]
        exact ⟨_, rfl, by simp [hr1, hr2]⟩
      · rw [if_pos hlen]
        refine ⟨_, rfl, ?_⟩
        constructor
        · intro h; cases h
        · rintro ⟨_, _, h⟩
          exact absurd (congrArg List.length (Option.some.inj h)) hlen
    · rw [if_neg (by simpa [openIn] using hr2)]
      exact ⟨_, rfl, by simp [hr2]⟩
  · rw [if_neg (by simpa [openIn] using hr1)]
    exact ⟨_, rfl, by simp [hr1]⟩

theorem loadFile_eq (fs : FS N) (n : N) (buf : List UInt8) (h : fs.canRead n = true) : loadFile fs n buf = ok (true, fs.get n) := by
  unfold loadFile loadFileBuf
  have hs : fileSize fs n = (fs.get n).length := by unfold fileSize openIn; simp only; rw [if_pos h]
  simp only
  rw [if_pos (show (openIn fs n).good = true from h), hs, resize_length]
  rw [read_full fs (openIn fs n) _ [] (fs.get n) [] h (by simp [openIn]) rfl (by rw [resize_length]; omega), ok_bind]
  simp only
  rw [List.drop_of_length_le (by rw [resize_length]; omega), List.append_nil]

/-- **C67** (partial: the disk must not fill up): `load_file` after `write_file` returns the data, and other files are untouched. -/
theorem C67_write_load_partial (e : Env) (fs : FS N) (n : N) (d buf : List UInt8) (hw : fs.creatable n = true)
    (hr : fs.readable n = true) (hroom : d.length ≤ e.room) :
    ∃ fs', writeFile e fs n d = ok (true, fs') ∧ loadFile fs' n buf = ok (true, d) ∧ ∀ m, m ≠ n → fs'.files m = fs.files m := by
  obtain ⟨hgiv, hog, hfs⟩ := given_open e fs n hw
  have hwr : writeFile e fs n d = ok (true, fs.put n d) := by
    unfold writeFile writeFileBuf
    simp only
    have hs := slice_prefix d []
    rw [List.append_nil] at hs
    rw [if_pos hog, hs, ok_bind]
    have := given_close (given_write hgiv d)
    rw [List.nil_append, List.take_of_length_le hroom] at this
    rw [← this]
  refine ⟨_, hwr, ?_, ?_⟩
  · have := loadFile_eq (fs.put n d) n buf (by simp [FS.canRead, FS.put, hr])
    rw [get_put] at this
    exact this
  · intro m hm; simp [FS.put, hm]

/-- **C67**: loading any readable file into a string gives its contents, whatever the string held before. -/
theorem C67_load (fs : FS N) (n : N) (buf d : List UInt8) (h : fs.canRead n = true) (hd : fs.files n = some d) :
    loadFile fs n buf = ok (true, d) := by
  rw [loadFile_eq fs n buf h, FS.get, hd]; rfl

/-- **C67**: loading a file that cannot be read fails. -/
theorem C67_load_missing (fs : FS N) (n : N) (buf : List UInt8) (h : fs.canRead n = false) : loadFile fs n buf = ok (false, []) := by
  have hs : fileSize fs n = 0 := by unfold fileSize openIn; simp [h]
  unfold loadFile loadFileBuf
  simp only
  rw [hs, if_neg (by simpa [openIn] using h)]
  simp [resize]

/-- **C67**: loading into a caller's buffer of at least `size` bytes stores the first `size` bytes of the file (all of them if the file is
shorter), leaves the rest of the buffer alone and stays inside it. -/
theorem C67_load_buffer (fs : FS N) (n : N) (buf d : List UInt8) (size : Nat) (h : fs.canRead n = true) (hd : fs.files n = some d)
    (hs : size ≤ buf.length) : loadFileBuf fs n buf size = ok (true, d.take size ++ buf.drop (min size d.length)) := by
  unfold loadFileBuf read
  have hg : (openIn fs n).good = true := h
  simp only
  rw [if_pos hg, if_pos hg]
  have : ((fs.get (openIn fs n).name).drop (openIn fs n).pos).take size = d.take size := by simp [openIn, FS.get, hd]
  rw [this]
  have h2 : copyTo buf 0 (d.take size) = ok (d.take size ++ buf.drop (min size d.length)) := by
    rw [copyTo, if_pos (by rw [List.length_take]; omega)]
    simp [List.length_take]
  rw [h2]
  rfl

/-- **C67**: `file_exists` and `file_size` report what is there. -/
theorem C67_exists_size (fs : FS N) (n : N) : (fileExists fs n = true ↔ fs.canRead n = true) ∧
    (∀ d, fs.canRead n = true → fs.files n = some d → fileSize fs n = d.length) := by
  refine ⟨Iff.rfl, ?_⟩
  intro d h hd
  unfold fileSize openIn
  simp only
  rw [if_pos h, FS.get, hd]; rfl

/-- A file system with a 40000-byte file 0 and a small file 1; files 2 and above can be created. -/
def demoFS : FS Nat where
  files n := if n = 0 then some (List.replicate 40000 7) else if n = 1 then some [1, 2, 3] else none
  readable _ := true
  creatable n := n != 0

example : demoFS.canRead 0 = true ∧ demoFS.canRead 1 = true ∧ demoFS.creatable 2 = true ∧ demoFS.creatable 1 = true ∧ demoFS.creatable 0 = false ∧
    demoFS.canRead 3 = false := by decide
theorem demo_room : (demoFS.get 0).length ≤ 100000 := by
  show (List.replicate 40000 (7 : UInt8)).length ≤ 100000
  rw [List.length_replicate]; omega

example : (demoFS.get 0).length ≤ (⟨100000, fun n => n * 5000⟩ : Env).room := demo_room
example : ∃ fs', copyFile ⟨100000, fun n => n * 5000⟩ demoFS 0 2 (List.replicate 16384 255) = ok (true, fs') ∧
    fs'.files 2 = some (List.replicate 40000 7) ∧ fs'.files 1 = some [1, 2, 3] := by
  obtain ⟨fs', h1, h2, h3⟩ := C67_copy_partial ⟨100000, fun n => n * 5000⟩ demoFS 0 2 (List.replicate 16384 255) (by decide) (by decide) (by decide)
    List.length_replicate demo_room
  exact ⟨fs', h1, h2, h3 1 (by decide)⟩
example : ∃ fs', concatenate ⟨100000, fun _ => 1⟩ demoFS 1 1 2 (List.replicate 16384 255) = ok (true, fs') ∧ fs'.files 2 = some [1, 2, 3, 1, 2, 3] := by
  obtain ⟨fs', h1, h2, _⟩ := C67_concatenate_partial ⟨100000, fun _ => 1⟩ demoFS 1 1 2 (List.replicate 16384 255) (by decide) (by decide) (by decide)
    (by decide) (by decide) List.length_replicate (by decide)
  exact ⟨fs', h1, h2⟩

/-! ## Plain objects in files (C88) -/

/-- Writing the objects `ts` to a stream that has been given `data`, when everything fits. -/
theorem writePods_given (e : Env) (fs0 : FS N) (n : N) (ts : List (List UInt8)) :
    ∀ (fs : FS N) (o : OStream N) (data : List UInt8), Given e fs0 n data fs o → o.good = true → data.length + ts.flatten.length ≤ e.room →
      ∃ fs' o', writePods e fs o ts = (true, fs', o') ∧ Given e fs0 n (data ++ ts.flatten) fs' o' ∧ o'.good = true := by
  induction ts with
  | nil => intro fs o data h hg _; exact ⟨fs, o, rfl, by simpa using h, hg⟩
  | cons t ts ih =>
    intro fs o data h hg hroom
    rw [List.flatten_cons, List.length_append] at hroom
    have hw := given_write h t
    have hg' : (write e fs o t).2.good = true := by
      obtain ⟨_, file, _, hc⟩ := hw
      rcases hc with ⟨h, _⟩ | ⟨h1, h2, h3⟩
      · exact h
      · rw [List.length_append] at h3
        -- the disk is exactly full: the stream is still good in this case
        obtain ⟨hn, file0, hfs0, hc0⟩ := h
        rcases hc0 with ⟨_, hd0, hr0⟩ | ⟨hb, _⟩
        · subst hfs0 hd0 hn
          unfold write
          rw [if_pos hg]
          simp only [push, get_put, decide_eq_true_eq, List.length_take]
          rw [List.length_append] at hroom
          simp only [List.length_append] at *
          omega
        · rw [hg] at hb; cases hb
    obtain ⟨fs', o', h1, h2, h3⟩ := ih _ _ _ hw hg' (by rw [List.length_append]; omega)
    refine ⟨fs', o', ?_, by rw [List.flatten_cons, ← List.append_assoc]; exact h2, h3⟩
    unfold writePods writePod
    simp only
    rw [if_pos hg', h1]

/-- Reading objects of the lengths of `ts` from a file that holds their bytes at the position of the stream. -/
theorem readPods_at (fs : FS N) (ts : List (List UInt8)) :
    ∀ (s : IStream N) (pre post : List UInt8) (us : List (List UInt8)), s.good = true → s.pos = pre.length →
      fs.get s.name = pre ++ ts.flatten ++ post → us.map List.length = ts.map List.length →
      ∃ s', readPods fs s us = ok (true, ts, s') ∧ s'.good = true ∧ s'.name = s.name ∧ s'.pos = pre.length + ts.flatten.length := by
  induction ts with
  | nil =>
    intro s pre post us hg hp _ hl
    cases us with
    | nil => exact ⟨s, rfl, hg, rfl, by simpa using hp⟩
    | cons => simp at hl
  | cons t ts ih =>
    intro s pre post us hg hp hc hl
    cases us with
    | nil => simp at hl
    | cons u us =>
      simp only [List.map_cons, List.cons.injEq] at hl
      have hrd := read_full fs s u pre t (ts.flatten ++ post) hg (by rw [hc]; simp) hp (by omega)
      unfold readPods readPod
      rw [hl.1, hrd]
      simp only [ok_bind]
      rw [if_pos hg, List.drop_of_length_le (by omega), List.append_nil]
      obtain ⟨s', h1, h2, h3, h4⟩ := ih { s with pos := (pre ++ t).length } (pre ++ t) post us hg rfl (by rw [hc]; simp) hl.2
      rw [h1, ok_bind]
      refine ⟨s', rfl, h2, h3, ?_⟩
      rw [h4, List.flatten_cons, List.length_append, List.length_append]; omega

/-- **C88** (partial: scalar objects only): objects written with `write_pod(stream, t1, ..., tn)` to a new file are read back unchanged by
`read_pod(stream, t1, ..., tn)`, for every number and size of objects and every buffering schedule. -/
theorem C88_round_trip_partial (e : Env) (fs : FS N) (n : N) (ts us : List (List UInt8)) (hw : fs.creatable n = true)
    (hr : fs.readable n = true) (hroom : ts.flatten.length ≤ e.room) (hl : us.map List.length = ts.map List.length) :
    ∃ fs1 o1 s', writePods e (openOut fs n).1 (openOut fs n).2 ts = (true, fs1, o1) ∧
      (close e fs1 o1).files n = some ts.flatten ∧ readPods (close e fs1 o1) (openIn (close e fs1 o1) n) us = ok (true, ts, s') := by
  obtain ⟨hgiv, hog, hfs⟩ := given_open e fs n hw
  obtain ⟨fs1, o1, h1, h2, h3⟩ := writePods_given e fs n ts _ _ _ hgiv hog (by simpa using hroom)
  have hcl := given_close h2
  rw [List.nil_append, List.take_of_length_le hroom] at hcl
  obtain ⟨s', h4, _⟩ := readPods_at (close e fs1 o1) ts (openIn (close e fs1 o1) n) [] [] us
    (by rw [hcl]; simp [openIn, FS.canRead, FS.put, hr]) rfl (by rw [hcl]; simp [openIn]) hl
  exact ⟨fs1, o1, s', h1, by rw [hcl]; simp [FS.put], h4⟩

example : ∃ fs1 o1 s', writePods ⟨100, fun n => n⟩ (openOut demoFS 2).1 (openOut demoFS 2).2 [[1, 2], [3, 4, 5, 6], [7]] = (true, fs1, o1) ∧
    (close ⟨100, fun n => n⟩ fs1 o1).files 2 = some [1, 2, 3, 4, 5, 6, 7] ∧
    readPods (close ⟨100, fun n => n⟩ fs1 o1) (openIn (close ⟨100, fun n => n⟩ fs1 o1) 2) [[0, 0], [0, 0, 0, 0], [0]] =
      ok (true, [[1, 2], [3, 4, 5, 6], [7]], s') :=
  C88_round_trip_partial ⟨100, fun n => n⟩ demoFS 2 [[1, 2], [3, 4, 5, 6], [7]] _ (by decide) (by decide) (by decide) (by decide)

/-- **C88**: `read_pod` reports success only if the file holds the bytes of all the objects, and then returns exactly those bytes. -/
theorem C88_read_sound (fs : FS N) : ∀ (us : List (List UInt8)) (s s' : IStream N) (ts : List (List UInt8)), s.good = true →
    readPods fs s us = ok (true, ts, s') → ts.map List.length = us.map List.length ∧
      ((fs.get s.name).drop s.pos).take ts.flatten.length = ts.flatten := by
  intro us
  induction us with
  | nil =>
    intro s s' ts hg h
    simp only [readPods, ok.injEq, Prod.mk.injEq] at h
    obtain ⟨_, rfl, _⟩ := h
    simp
  | cons u us ih =>
    intro s s' ts hg h
    unfold readPods readPod read at h
    rw [if_pos hg] at h
    have hcp : copyTo u 0 (((fs.get s.name).drop s.pos).take u.length) =
        ok (((fs.get s.name).drop s.pos).take u.length ++ u.drop ((((fs.get s.name).drop s.pos).take u.length).length)) := by
      rw [copyTo, if_pos (by rw [List.length_take]; omega)]; simp
    simp only [hcp, ok_bind] at h
    split at h
    · rename_i hfull
      simp only [decide_eq_true_eq] at hfull
      obtain ⟨⟨r, vs, s1⟩, h1, h2⟩ := bind_eq_ok.mp h
      simp only [ok.injEq, Prod.mk.injEq] at h2
      obtain ⟨rfl, rfl, rfl⟩ := h2
      have hrec := ih _ _ _ (by simpa using hfull) h1
      have hdrop : u.drop ((((fs.get s.name).drop s.pos).take u.length).length) = [] := List.drop_of_length_le (by omega)
      rw [hdrop, List.append_nil]
      generalize hc : (fs.get s.name).drop s.pos = c at *
      refine ⟨by rw [List.map_cons, List.map_cons, hrec.1, hfull], ?_⟩
      have h3 := hrec.2
      simp only at h3
      have h4 : (fs.get s.name).drop (s.pos + (c.take u.length).length) = c.drop u.length := by
        rw [← List.drop_drop, hc, hfull]
      rw [h4] at h3
      rw [List.flatten_cons, List.length_append, hfull, List.take_add, h3]
    · simp at h

/-- **C88** (negative result): the array overloads of `write_pod` and `read_pod` report failure when they succeed and success when
they fail. -/
theorem C88_array_flag_inverted (fs : FS N) (s : IStream N) (pre d post t : List UInt8) (hg : s.good = true) (hp : s.pos = pre.length)
    (hc : fs.get s.name = pre ++ d ++ post) (ht : t.length = d.length) :
    (∃ s', readPodArr fs s t = ok (false, d, s')) ∧
      ∀ u s' v, readPodArr fs s u = ok (true, v, s') → (pre ++ d ++ post).length < pre.length + u.length := by
  constructor
  · unfold readPodArr
    rw [ht, read_full fs s t pre d post hg hc hp (by omega), ok_bind]
    simp only [hg, Bool.not_true]
    rw [List.drop_of_length_le (by omega), List.append_nil]
    exact ⟨_, rfl⟩
  · intro u s' v h
    unfold readPodArr read at h
    rw [if_pos hg, hc, hp] at h
    obtain ⟨⟨w, s1⟩, h1, h2⟩ := bind_eq_ok.mp h
    simp only at h1
    obtain ⟨b, _, h3⟩ := bind_eq_ok.mp h1
    simp only [ok.injEq, Prod.mk.injEq] at h2 h3
    have h4 := h2.1
    rw [← h3.2] at h4
    simp only [Bool.not_eq_true', decide_eq_false_iff_not] at h4
    rw [List.append_assoc, List.drop_left, List.length_take, List.length_append] at h4
    simp only [List.length_append]
    omega

/-- **C88** (negative result): `write_pod` of an array reports `false` when all of it reaches the file, and `true` when the stream has failed. -/
theorem C88_array_write_flag (e : Env) (fs0 : FS N) (n : N) (fs : FS N) (o : OStream N) (data t : List UInt8) (h : Given e fs0 n data fs o)
    (hg : o.good = true) :
    (data.length + t.length ≤ e.room → ∃ fs' o', writePodArr e fs o t = (false, fs', o') ∧ (close e fs' o').files n = some (data ++ t)) ∧
      (∀ fs' o', writePodArr e fs o t = (true, fs', o') → o'.good = false) := by
  constructor
  · intro hroom
    obtain ⟨fs', o', h1, h2, h3⟩ := writePods_given e fs0 n [t] fs o data h hg (by simpa using hroom)
    have hw : (write e fs o t) = (fs', o') := by
      unfold writePods writePod at h1
      cases hg' : (write e fs o t).2.good
      · simp [hg'] at h1
      · simp only [hg', if_true, writePods, Prod.mk.injEq, true_and] at h1
        exact Prod.ext h1.1 h1.2
    refine ⟨fs', o', by simp [writePodArr, hw, h3], ?_⟩
    have hcl := given_close h2
    rw [List.flatten_singleton, List.take_of_length_le (by rw [List.length_append]; exact hroom)] at hcl
    rw [hcl]
    simp [FS.put]
  · intro fs' o' hh
    unfold writePodArr at hh
    simp only [Prod.mk.injEq, Bool.not_eq_true'] at hh
    rw [← hh.2.2]; exact hh.1

/-- **C88** (negative result): `write_pod` of a container runs off the end of the function, without a return value, as soon as all of it
has been written. -/
theorem C88_container_no_return (e : Env) (fs0 : FS N) (n : N) (ts : List (List UInt8)) (fs : FS N) (o : OStream N) (data : List UInt8)
    (h : Given e fs0 n data fs o) (hg : o.good = true) (hroom : data.length + ts.flatten.length ≤ e.room) :
    writePodSeq e fs o ts = ub := by
  induction ts generalizing fs o data with
  | nil => rfl
  | cons t ts ih =>
    rw [List.flatten_cons, List.length_append] at hroom
    obtain ⟨fs', o', h1, h2, h3⟩ := writePods_given e fs0 n [t] fs o data h hg (by simp; omega)
    have hw : (write e fs o t).2.good = true := by
      unfold writePods writePod at h1
      simp only at h1
      split at h1
      · assumption
      · simp at h1
    have hw2 := given_write h t
    unfold writePodSeq writePod
    simp only
    rw [if_pos hw]
    exact ih _ _ _ hw2 hw (by rw [List.length_append]; omega)

/-- **C88**: `write_pod` of a container on a stream that is bad already, with something to write, fails and changes nothing. -/
theorem C88_container_bad_stream (e : Env) (fs : FS N) (o : OStream N) (t : List UInt8) (ts : List (List UInt8)) (h : o.good = false) :
    writePodSeq e fs o (t :: ts) = ok (false, fs, o) := by
  unfold writePodSeq writePod write
  simp only [h, Bool.false_eq_true, if_false]

/-- **C88**: reading `count` objects of one size appends exactly the objects stored in the file to the sequence. -/
theorem C88_read_sequence (fs : FS N) (ts : List (List UInt8)) (size : Nat) (hts : ∀ t ∈ ts, t.length = size) :
    ∀ (s : IStream N) (t : List UInt8) (pre post : List UInt8) (acc : List (List UInt8)), s.good = true → s.pos = pre.length →
      fs.get s.name = pre ++ ts.flatten ++ post → t.length = size →
      ∃ s', readPodSeq fs s t ts.length acc = ok (true, acc ++ ts, s') := by
  induction ts with
  | nil => intro s t pre post acc _ _ _ _; exact ⟨s, by simp [readPodSeq]⟩
  | cons u ts ih =>
    intro s t pre post acc hg hp hc ht
    have hu : u.length = size := hts u (by simp)
    have hrd := read_full fs s t pre u (ts.flatten ++ post) hg (by rw [hc]; simp) hp (by omega)
    rw [List.length_cons]
    unfold readPodSeq readPod
    rw [ht, ← hu, hrd]
    simp only [ok_bind]
    rw [if_pos hg, List.drop_of_length_le (by omega), List.append_nil]
    obtain ⟨s', h1⟩ := ih (fun x hx => hts x (by simp [hx])) { s with pos := (pre ++ u).length } u (pre ++ u) post (acc ++ [u]) hg rfl
      (by rw [hc]; simp) hu
    exact ⟨s', by rw [h1]; simp⟩

/-! ## Plain objects in memory (C89) -/

/-- **C89**: `write_pod(data, t1, ..., tn)` into a large enough block stores the bytes of the objects one after the other, changes
nothing else and returns the position just behind them; `read_pod` at the same position then returns the objects and the same position. -/
theorem C89_memory_round_trip (ts us : List (List UInt8)) (pre room : List UInt8) (hfit : ts.flatten.length ≤ room.length)
    (hl : us.map List.length = ts.map List.length) :
    ∃ mem, memWritePods (pre ++ room) pre.length ts = ok (pre.length + ts.flatten.length, mem) ∧
      mem = pre ++ ts.flatten ++ room.drop ts.flatten.length ∧
      memReadPods mem pre.length us = ok (pre.length + ts.flatten.length, ts) := by
  have hwr : ∀ (ts : List (List UInt8)) (pre room : List UInt8), ts.flatten.length ≤ room.length →
      memWritePods (pre ++ room) pre.length ts =
        ok (pre.length + ts.flatten.length, pre ++ ts.flatten ++ room.drop ts.flatten.length) := by
    intro ts
    induction ts with
    | nil => intro pre room _; simp [memWritePods]
    | cons t ts ih =>
      intro pre room h
      rw [List.flatten_cons, List.length_append] at h
      unfold memWritePods
      rw [copyTo_append pre _ room t (by omega) rfl, ok_bind]
      have := ih (pre ++ t) (room.drop t.length) (by rw [List.length_drop]; omega)
      rw [List.length_append] at this
      rw [this, List.flatten_cons, List.length_append, List.drop_drop]
      simp [List.append_assoc, Nat.add_assoc]
  have hrd : ∀ (ts us : List (List UInt8)) (pre post : List UInt8), us.map List.length = ts.map List.length →
      memReadPods (pre ++ ts.flatten ++ post) pre.length us = ok (pre.length + ts.flatten.length, ts) := by
    intro ts
    induction ts with
    | nil => intro us pre post h; cases us with
      | nil => simp [memReadPods]
      | cons => simp at h
    | cons t ts ih =>
      intro us pre post h
      cases us with
      | nil => simp at h
      | cons u us =>
        simp only [List.map_cons, List.cons.injEq] at h
        unfold memReadPods
        have hs := slice_append pre t (ts.flatten ++ post)
        have e : pre ++ (t :: ts).flatten ++ post = pre ++ t ++ (ts.flatten ++ post) := by simp
        rw [h.1, e, hs, ok_bind]
        have := ih us (pre ++ t) post h.2
        rw [List.length_append] at this
        rw [← List.append_assoc (pre ++ t), this, ok_bind]
        simp only [List.flatten_cons, List.length_append, Nat.add_assoc]
  refine ⟨_, hwr ts pre room hfit, rfl, ?_⟩
  exact hrd ts us pre _ hl

/-- **C89** (precondition): `write_pod(data, ...)` has no bound check: objects that do not fit are written outside the block. -/
theorem C89_overflow (ts : List (List UInt8)) : ∀ (mem : List UInt8) (data : Nat), data ≤ mem.length →
    mem.length < data + ts.flatten.length → memWritePods mem data ts = ub := by
  induction ts with
  | nil => intro mem data h1 h2; simp at h2; omega
  | cons t ts ih =>
    intro mem data h1 h2
    rw [List.flatten_cons, List.length_append] at h2
    unfold memWritePods
    by_cases h : data + t.length ≤ mem.length
    · rw [copyTo, if_pos h, ok_bind]
      have hlen : (mem.take data ++ t ++ mem.drop (data + t.length)).length = mem.length := by
        rw [List.length_append, List.length_append, List.length_take, List.length_drop]; omega
      exact ih _ _ (by omega) (by omega)
    · rw [copyTo, if_neg h]; rfl

example : memWritePods [9, 9, 9, 9, 9] 1 [[1, 2], [3]] = ok (4, [9, 1, 2, 3, 9]) ∧ memReadPods [9, 1, 2, 3, 9] 1 [[0, 0], [0]] = ok (4, [[1, 2], [3]]) ∧
    memWritePods [9, 9] 1 [[1, 2], [3]] = ub := by decide

/-- **C67**: if the output cannot be opened, or an input cannot be read, `concatenate` fails; in the first case nothing changes, in the second
the output is left empty (negative result: it has been truncated already). -/
theorem C67_concatenate_fails (e : Env) (fs : FS N) (f1 f2 out : N) (junk : List UInt8) :
    (fs.creatable out = false → concatenate e fs f1 f2 out junk = ok (false, fs)) ∧
    (fs.creatable out = true → fs.canRead f1 = false ∨ fs.canRead f2 = false →
      ∃ fs', concatenate e fs f1 f2 out junk = ok (false, fs') ∧ fs'.files out = some [] ∧ ∀ m, m ≠ out → fs'.files m = fs.files m) := by
  constructor
  · intro hw
    unfold concatenate openOut
    rw [if_neg (by simp [hw])]
    simp only
    rw [if_neg (by simp), close, if_neg (by simp)]
  · intro hw hr
    obtain ⟨hgiv, hog, hfs⟩ := given_open e fs out hw
    unfold concatenate
    simp only
    rw [if_neg (by simp only [openIn, Bool.and_eq_true, not_and]; rcases hr with h | h <;> simp [h]), given_close hgiv]
    exact ⟨_, rfl, by simp [FS.put], fun m hm => by simp [FS.put, hm]⟩

/-- **C67**: if the file cannot be opened, `write_file` fails and changes nothing. -/
theorem C67_write_unwritable (e : Env) (fs : FS N) (n : N) (d : List UInt8) (hw : fs.creatable n = false) : writeFile e fs n d = ok (false, fs) := by
  unfold writeFile writeFileBuf openOut
  rw [if_neg (by simp [hw])]
  simp only
  rw [if_neg (by simp)]

example : (∃ fs', concatenate ⟨100, fun _ => 1⟩ demoFS 1 5 2 [] = ok (false, fs') ∧ fs'.files 2 = some []) ∧ concatenate ⟨100, fun _ => 1⟩ demoFS 1 1 0 [] = ok (false, demoFS) ∧
    writeFile ⟨100, fun _ => 1⟩ demoFS 0 [1] = ok (false, demoFS) :=
  ⟨let ⟨fs', h, h', _⟩ := (C67_concatenate_fails ⟨100, fun _ => 1⟩ demoFS 1 5 2 []).2 rfl (.inr rfl); ⟨fs', h, h'⟩,
    (C67_concatenate_fails _ _ _ _ _ _).1 rfl, C67_write_unwritable _ _ _ _ rfl⟩

/-! ## Reading at an offset (C90) -/

/-- **C90**: `read_at_offset` into a buffer of at least `size` bytes succeeds exactly if the file can be read and holds `size` bytes at
`offset`, and then the buffer starts with those bytes; the rest of the buffer is unchanged. -/
theorem C90_read_at_offset (fs : FS N) (n : N) (offset size : Nat) (buf : List UInt8) (hs : size ≤ buf.length) :
    ∃ r buf', readAtBuf fs n offset buf size = ok (r, buf') ∧
      (r = true ↔ fs.canRead n = true ∧ (size = 0 ∨ offset + size ≤ (fs.get n).length)) ∧
      (r = true → buf' = ((fs.get n).drop offset).take size ++ buf.drop size) ∧ buf'.length = buf.length ∧ buf'.drop size = buf.drop size := by
  unfold readAtBuf
  by_cases h : fs.canRead n = true
  · have hg : (openIn fs n).good = true := h
    simp only
    rw [if_pos hg]
    unfold readAt read
    rw [if_pos hg, if_pos (show ({ openIn fs n with pos := offset } : IStream N).good = true from hg)]
    have hcp : copyTo buf 0 (((fs.get n).drop offset).take size) =
        ok (((fs.get n).drop offset).take size ++ buf.drop ((((fs.get n).drop offset).take size).length)) := by
      rw [copyTo, if_pos (by rw [List.length_take]; omega)]; simp
    have hname : (openIn fs n).name = n := rfl
    simp only [hname, hcp, ok_bind]
    refine ⟨_, _, rfl, ?_, ?_, ?_, ?_⟩
    · rw [decide_eq_true_eq, List.length_take, List.length_drop]
      simp only [h, true_and]
      omega
    · intro hr
      rw [decide_eq_true_eq] at hr
      rw [hr]
    · rw [List.length_append, List.length_drop, List.length_take]; omega
    · generalize hd : ((fs.get n).drop offset).take size = d
      have : d.length ≤ size := by rw [← hd, List.length_take]; omega
      rw [List.drop_append, List.drop_of_length_le this, List.nil_append, List.drop_drop]
      congr 1
      omega
  · simp only
    rw [if_neg (by simpa [openIn] using h)]
    exact ⟨_, _, rfl, by simp [h], by simp, rfl, rfl⟩

/-- **C90**: the overload for strings: on success the string is exactly the requested bytes. -/
theorem C90_read_at_offset_string (fs : FS N) (n : N) (offset size : Nat) (buf : List UInt8) :
    ∃ r buf', readAtStr fs n offset buf size = ok (r, buf') ∧
      (r = true ↔ fs.canRead n = true ∧ (size = 0 ∨ offset + size ≤ (fs.get n).length)) ∧
      (r = true → buf' = ((fs.get n).drop offset).take size) := by
  unfold readAtStr
  by_cases h : fs.canRead n = true
  · have hg : (openIn fs n).good = true := h
    simp only
    rw [if_pos hg]
    obtain ⟨r, buf', h1, h2, h3, _⟩ := C90_read_at_offset fs n offset size (resize 0 buf size) (by simp)
    unfold readAtBuf at h1
    simp only at h1
    rw [if_pos hg] at h1
    refine ⟨r, buf', h1, h2, ?_⟩
    intro hr
    have hz : (resize 0 buf size).drop size = [] := List.drop_of_length_le (by rw [resize_length]; omega)
    rw [h3 hr, hz, List.append_nil]
  · simp only
    rw [if_neg (by simpa [openIn] using h)]
    exact ⟨_, _, rfl, by simp [h], by simp⟩

example : readAtBuf demoFS 1 1 [0, 0, 0, 0] 2 = ok (true, [2, 3, 0, 0]) ∧ readAtBuf demoFS 1 2 [0, 0, 0, 0] 2 = ok (false, [3, 0, 0, 0]) := by decide

/-- **C90**: the overload for streams: on a stream that is bad already nothing is read and the call fails; on a good one it succeeds exactly if
the file holds `size` bytes at `offset`, wherever the stream was, and then delivers exactly these. -/
theorem C90_stream (fs : FS N) (s : IStream N) (offset size : Nat) (buf : List UInt8) (hs : size ≤ buf.length) :
    ∃ r buf', readAt fs s offset buf size = ok (r, buf') ∧
      (r = true ↔ s.good = true ∧ (size = 0 ∨ offset + size ≤ (fs.get s.name).length)) ∧
      (r = true → buf' = ((fs.get s.name).drop offset).take size ++ buf.drop size) ∧ (s.good = false → buf' = buf) := by
  unfold readAt
  by_cases hg : s.good = true
  · rw [if_pos hg]
    unfold read
    rw [if_pos (show ({ s with pos := offset } : IStream N).good = true from hg)]
    have hcp : copyTo buf 0 (((fs.get s.name).drop offset).take size) =
        ok (((fs.get s.name).drop offset).take size ++ buf.drop ((((fs.get s.name).drop offset).take size).length)) := by
      rw [copyTo, if_pos (by rw [List.length_take]; omega)]; simp
    simp only [hcp, ok_bind]
    refine ⟨_, _, rfl, ?_, ?_, fun h => by simp [hg] at h⟩
    · rw [decide_eq_true_eq, List.length_take, List.length_drop]
      simp only [hg, true_and]
      omega
    · intro hr
      rw [decide_eq_true_eq] at hr
      rw [hr]
  · rw [if_neg hg]
    exact ⟨_, _, rfl, by simp [hg], by simp, fun _ => rfl⟩

example : readAt demoFS ⟨1, 3, true⟩ 1 [0, 0, 0, 0] 2 = ok (true, [2, 3, 0, 0]) ∧ readAt demoFS ⟨1, 3, false⟩ 1 [0, 0, 0, 0] 2 = ok (false, [0, 0, 0, 0]) := by decide

/-! ## Concrete cases of C67 and C88 -/

example : ∃ fs', copyFile ⟨5, fun _ => 1⟩ demoFS 0 2 (List.replicate 16384 255) = ok (true, fs') ∧ fs'.files 2 ≠ demoFS.files 0 ∧ fs'.get 2 = (demoFS.get 0).take 5 :=
  C67_copy_full_disk ⟨5, fun _ => 1⟩ demoFS 0 2 _ (by decide) (by decide) (by decide) List.length_replicate
    (by show 5 < (List.replicate 40000 (7 : UInt8)).length; rw [List.length_replicate]; omega)

example : ∃ fs', copyFile ⟨100, fun _ => 1⟩ demoFS 1 1 [] = ok (true, fs') ∧ fs'.files 1 = some [] := C67_copy_onto_itself ⟨100, fun _ => 1⟩ demoFS 1 [] (by decide) (by decide)

example : ∃ fs', copyFile ⟨100, fun _ => 1⟩ demoFS 3 1 [] = ok (false, fs') ∧ fs'.files 1 = some [] :=
  C67_copy_failing_empties ⟨100, fun _ => 1⟩ demoFS 3 1 [] (by decide) (by decide)

example : copyFile ⟨100, fun _ => 1⟩ demoFS 1 0 [] = ok (false, demoFS) := C67_copy_unwritable ⟨100, fun _ => 1⟩ demoFS 1 0 [] (by decide)

example : ∃ fs', concatenate ⟨100000, fun _ => 1⟩ demoFS 1 0 1 (List.replicate 16384 255) = ok (true, fs') ∧ fs'.files 1 = some (demoFS.get 0) :=
  C67_concatenate_onto_first ⟨100000, fun _ => 1⟩ demoFS 1 0 _ (by decide) (by decide) (by decide) (by decide) List.length_replicate demo_room

example : ∃ r, filesIdentical demoFS 0 1 (List.replicate 16384 1) (List.replicate 16384 2) = ok r ∧
    (r = true ↔ demoFS.canRead 0 = true ∧ demoFS.canRead 1 = true ∧ demoFS.files 0 = demoFS.files 1) :=
  C67_identical demoFS 0 1 _ _ List.length_replicate List.length_replicate

example : ∃ s', readPodArr demoFS ⟨1, 1, true⟩ [0] = ok (false, [2], s') := (C88_array_flag_inverted demoFS ⟨1, 1, true⟩ [1] [2] [3] [0] rfl rfl rfl rfl).1

end Strtk.FileIO
