import Verif.Mem

/-!
# Model of strtk's file helpers

The file system maps names to contents (byte lists), with a permission to read and to create for each name.  Simplifications: names are
opaque values, two names never denote the same file (no links), directories and special files are absent, nobody else changes the
files, and sizes are unbounded naturals instead of `std::size_t`/`std::streamsize`.

`std::ofstream` keeps bytes in a buffer and passes them on whenever it likes: `Env.early` is an arbitrary schedule that says how many
buffered bytes reach the file after each `write`; `close` passes on the rest.  A file can hold at most `Env.room` bytes (a full disk):
what does not fit is lost and the stream goes bad.  An `std::ifstream` reads the current contents at its position.
-/

namespace Strtk.FileIO
open Outcome Mem

variable {N : Type} [DecidableEq N]

/-- The state of the file system. -/
structure FS (N : Type) where
  files : N → Option (List UInt8)
  readable : N → Bool
  creatable : N → Bool

/-- The behaviour of the platform that strtk has no control over. -/
structure Env where
  room : Nat
  early : Nat → Nat

/-- The contents of file `n` become `d`. -/
def FS.put (fs : FS N) (n : N) (d : List UInt8) : FS N :=
  { fs with files := fun m => if m = n then some d else fs.files m }

/-- The contents of file `n` (empty if there is none). -/
def FS.get (fs : FS N) (n : N) : List UInt8 := (fs.files n).getD []

/-- Whether file `n` can be opened for reading. -/
def FS.canRead (fs : FS N) (n : N) : Bool := (fs.files n).isSome && fs.readable n

/-- `std::ifstream`: the file, the read position, and whether the stream is good. -/
structure IStream (N : Type) where
  name : N
  pos : Nat
  good : Bool

/-- `std::ofstream`: the file, the bytes not passed on yet, whether the stream is good, and the number of writes so far. -/
structure OStream (N : Type) where
  name : N
  pending : List UInt8
  good : Bool
  writes : Nat

/-- `std::ifstream stream(name, std::ios::binary)`. -/
def openIn (fs : FS N) (n : N) : IStream N := ⟨n, 0, fs.canRead n⟩

/-- `std::ofstream stream(name, std::ios::binary)`: creates or truncates the file. -/
def openOut (fs : FS N) (n : N) : FS N × OStream N :=
  if fs.creatable n then (fs.put n [], ⟨n, [], true, 0⟩) else (fs, ⟨n, [], false, 0⟩)

/-- `stream.read(buffer, n)`: stores what is available, up to `n` bytes, at the start of `buf`; fewer than `n` set the fail bit. -/
def read (fs : FS N) (s : IStream N) (buf : List UInt8) (n : Nat) : Outcome (List UInt8 × IStream N) :=
  if s.good then do
    let got := ((fs.get s.name).drop s.pos).take n
    let buf ← copyTo buf 0 got
    ok (buf, { s with pos := s.pos + got.length, good := decide (got.length = n) })
  else ok (buf, s)

/-- The first `k` buffered bytes reach the file, as far as there is room. -/
def push (e : Env) (fs : FS N) (s : OStream N) (k : Nat) : FS N × OStream N :=
  let old := fs.get s.name
  let now := s.pending.take k
  let fit := now.take (e.room - old.length)
  (fs.put s.name (old ++ fit), { s with pending := s.pending.drop k, good := decide (fit.length = now.length) })

/-- `stream.write(data, data_size)`. -/
def write (e : Env) (fs : FS N) (s : OStream N) (d : List UInt8) : FS N × OStream N :=
  if s.good then push e fs { s with pending := s.pending ++ d, writes := s.writes + 1 } (e.early s.writes) else (fs, s)

/-- `stream.close()` (or the destructor) of an output stream. -/
def close (e : Env) (fs : FS N) (s : OStream N) : FS N :=
  if s.good then (push e fs s s.pending.length).1 else fs

/-- `fileio::file_exists` (strtk.hpp 18462-18466). -/
def fileExists (fs : FS N) (n : N) : Bool := (openIn fs n).good

/-- `fileio::file_size` (strtk.hpp 18468-18474). -/
def fileSize (fs : FS N) (n : N) : Nat := if (openIn fs n).good then (fs.get n).length else 0

/-- `fileio::load_file(file_name, buffer, buffer_size)` (strtk.hpp 18476-18483). -/
def loadFileBuf (fs : FS N) (n : N) (buf : List UInt8) (size : Nat) : Outcome (Bool × List UInt8) :=
  let s := openIn fs n
  if s.good then do
    let (buf, _) ← read fs s buf size
    ok (true, buf)
  else ok (false, buf)

/-- `fileio::load_file(file_name, std::string&)` (strtk.hpp 18485-18489). -/
def loadFile (fs : FS N) (n : N) (buf : List UInt8) : Outcome (Bool × List UInt8) :=
  let buf := resize 0 buf (fileSize fs n)
  loadFileBuf fs n buf buf.length

/-- `fileio::write_file(file_name, buffer, buffer_size)` (strtk.hpp 18491-18498). -/
def writeFileBuf (e : Env) (fs : FS N) (n : N) (buf : List UInt8) (size : Nat) : Outcome (Bool × FS N) :=
  let (fs, s) := openOut fs n
  if s.good then do
    let d ← slice buf 0 size
    let (fs, s) := write e fs s d
    ok (true, close e fs s)
  else ok (false, fs)

/-- `fileio::write_file(file_name, const std::string&)` (strtk.hpp 18500-18503). -/
def writeFile (e : Env) (fs : FS N) (n : N) (buf : List UInt8) : Outcome (Bool × FS N) := writeFileBuf e fs n buf buf.length

/-- `16 * one_kilobyte` (strtk.hpp 18512, 18546, 18585, and 86 for `one_kilobyte`). -/
def blockSize : Nat := 16 * 1024

/-- The block loop and the remainder of `copy_file` (strtk.hpp 18515-18529) and of one round of `concatenate` (strtk.hpp 18554-18568):
reads from `i`, writes to `o`.  Fuelled by a bound on the number of blocks. -/
def pump (e : Env) (block : Nat) : Nat → FS N → IStream N → OStream N → List UInt8 → Nat → Outcome (FS N × OStream N × List UInt8)
  | 0, _, _, _, _, _ => diverge
  | fuel + 1, fs, i, o, buf, remaining =>
    if block ≤ remaining then do
      let (buf, i) ← read fs i buf block
      let d ← slice buf 0 block
      let (fs, o) := write e fs o d
      pump e block fuel fs i o buf (remaining - block)
    else if 0 < remaining then do
      let (buf, _) ← read fs i buf remaining
      let d ← slice buf 0 remaining
      let (fs, o) := write e fs o d
      ok (fs, o, buf)
    else ok (fs, o, buf)

/-- `fileio::copy_file` (strtk.hpp 18505-18534); `junk` is the uninitialised `char buffer[block_size]`. -/
def copyFile (e : Env) (fs : FS N) (src dest : N) (junk : List UInt8) : Outcome (Bool × FS N) :=
  let i := openIn fs src
  let (fs, o) := openOut fs dest
  if i.good then
    if o.good then do
      let remaining := fileSize fs src
      let (fs, o, _) ← pump e blockSize (remaining + 1) fs i o junk remaining
      ok (true, close e fs o)
    else ok (false, fs)
  else ok (false, close e fs o)

/-- `fileio::concatenate` (strtk.hpp 18536-18575). -/
def concatenate (e : Env) (fs : FS N) (f1 f2 out : N) (junk : List UInt8) : Outcome (Bool × FS N) :=
  let i1 := openIn fs f1
  let i2 := openIn fs f2
  let (fs, o) := openOut fs out
  if i1.good && i2.good && o.good then do
    let remaining := fileSize fs f1
    let (fs, o, buf) ← pump e blockSize (remaining + 1) fs i1 o junk remaining
    let remaining := fileSize fs f2
    let (fs, o, _) ← pump e blockSize (remaining + 1) fs i2 o buf remaining
    ok (true, close e fs o)
  else ok (false, close e fs o)

/-- The comparison loop of `files_identical` (strtk.hpp 18589-18607). -/
def sameLoop (block : Nat) (fs : FS N) : Nat → IStream N → IStream N → List UInt8 → List UInt8 → Nat → Outcome Bool
  | 0, _, _, _, _, _ => diverge
  | fuel + 1, i1, i2, b1, b2, remaining =>
    if block ≤ remaining then do
      let (b1, i1) ← read fs i1 b1 block
      let (b2, i2) ← read fs i2 b2 block
      let d1 ← slice b1 0 block
      let d2 ← slice b2 0 block
      if d1 ≠ d2 then ok false else sameLoop block fs fuel i1 i2 b1 b2 (remaining - block)
    else if 0 < remaining then do
      let (b1, _) ← read fs i1 b1 remaining
      let (b2, _) ← read fs i2 b2 remaining
      let d1 ← slice b1 0 remaining
      let d2 ← slice b2 0 remaining
      if d1 ≠ d2 then ok false else ok true
    else ok true

/-- `fileio::files_identical` (strtk.hpp 18577-18613); `j1`, `j2` are the uninitialised buffers. -/
def filesIdentical (fs : FS N) (n1 n2 : N) (j1 j2 : List UInt8) : Outcome Bool :=
  let i1 := openIn fs n1
  let i2 := openIn fs n2
  if i1.good then
    if i2.good then
      if fileSize fs n1 ≠ fileSize fs n2 then ok false
      else sameLoop blockSize fs (fileSize fs n1 + 1) i1 i2 j1 j2 (fileSize fs n1)
    else ok false
  else ok false

/-- `fileio::read_at_offset(stream, offset, buffer, buffer_size)` on a freshly opened or used stream (strtk.hpp 19018-19030).  Seeking
past the end of a file succeeds, as POSIX `lseek` does. -/
def readAt (fs : FS N) (s : IStream N) (offset : Nat) (buf : List UInt8) (size : Nat) : Outcome (Bool × List UInt8) :=
  if s.good then do
    let (buf, s) ← read fs { s with pos := offset } buf size
    ok (s.good, buf)
  else ok (false, buf)

/-- `fileio::read_at_offset(file_name, offset, char*, buffer_size)` (strtk.hpp 19032-19040). -/
def readAtBuf (fs : FS N) (n : N) (offset : Nat) (buf : List UInt8) (size : Nat) : Outcome (Bool × List UInt8) :=
  let s := openIn fs n
  if s.good then readAt fs s offset buf size else ok (false, buf)

/-- `fileio::read_at_offset(file_name, offset, std::string&, buffer_size)` (strtk.hpp 19042-19054). -/
def readAtStr (fs : FS N) (n : N) (offset : Nat) (buf : List UInt8) (size : Nat) : Outcome (Bool × List UInt8) :=
  let s := openIn fs n
  if s.good then readAt fs s offset (resize 0 buf size) size else ok (false, buf)

/-- `details::write_pod_proxy(stream, t)` (strtk.hpp 18624-18629); `t` is given by its bytes. -/
def writePod (e : Env) (fs : FS N) (s : OStream N) (t : List UInt8) : Bool × FS N × OStream N :=
  let (fs, s) := write e fs s t
  (s.good, fs, s)

/-- `write_pod(stream, t1, ..., tn)` for n = 1, ..., 10 (strtk.hpp 18828-18956): stops at the first failure. -/
def writePods (e : Env) (fs : FS N) (s : OStream N) : List (List UInt8) → Bool × FS N × OStream N
  | [] => (true, fs, s)
  | t :: ts =>
    let (r, fs, s) := writePod e fs s t
    if r then writePods e fs s ts else (false, fs, s)

/-- `write_pod(stream, T (&t)[N])` (strtk.hpp 18958-18962); `t` is given by the bytes of all its elements. -/
def writePodArr (e : Env) (fs : FS N) (s : OStream N) (t : List UInt8) : Bool × FS N × OStream N :=
  let (fs, s) := write e fs s t
  (!s.good, fs, s)

/-- `write_pod(stream, sequence)`, `(set)`, `(multiset)` (strtk.hpp 18964-19016).  Control runs off the end of a function that should
return `bool` when everything has been written. -/
def writePodSeq (e : Env) (fs : FS N) (s : OStream N) : List (List UInt8) → Outcome (Bool × FS N × OStream N)
  | [] => ub
  | t :: ts =>
    let (r, fs, s) := writePod e fs s t
    if r then writePodSeq e fs s ts else ok (false, fs, s)

/-- `details::read_pod_proxy(stream, t)` (strtk.hpp 18617-18622); `t` is given by its old bytes. -/
def readPod (fs : FS N) (s : IStream N) (t : List UInt8) : Outcome (Bool × List UInt8 × IStream N) := do
  let (t, s) ← read fs s t t.length
  ok (s.good, t, s)

/-- `read_pod(stream, t1, ..., tn)` for n = 1, ..., 10 (strtk.hpp 18632-18760): stops at the first failure. -/
def readPods (fs : FS N) (s : IStream N) : List (List UInt8) → Outcome (Bool × List (List UInt8) × IStream N)
  | [] => ok (true, [], s)
  | t :: ts => do
    let (r, t, s) ← readPod fs s t
    if r then do
      let (r, us, s) ← readPods fs s ts
      ok (r, t :: us, s)
    else ok (false, t :: ts, s)

/-- `read_pod(stream, T (&t)[N])` (strtk.hpp 18762-18766). -/
def readPodArr (fs : FS N) (s : IStream N) (t : List UInt8) : Outcome (Bool × List UInt8 × IStream N) := do
  let (t, s) ← read fs s t t.length
  ok (!s.good, t, s)

/-- `read_pod(stream, count, sequence)` (strtk.hpp 18768-18786); `t` is the uninitialised local, `acc` the sequence. -/
def readPodSeq (fs : FS N) (s : IStream N) (t : List UInt8) : Nat → List (List UInt8) → Outcome (Bool × List (List UInt8) × IStream N)
  | 0, acc => ok (true, acc, s)
  | count + 1, acc => do
    let (r, t, s) ← readPod fs s t
    if r then readPodSeq fs s t count (acc ++ [t]) else ok (false, acc, s)

/-- `write_pod(data, t1, ..., tn)` for n = 1, ..., 12 (strtk.hpp 19289-19473) and, with the single object `t`, for arrays and
sequences (strtk.hpp 19475-19492): copies the objects one after the other to `data`, returns the advanced pointer.  The overloads for
sets do not compile and are not modelled. -/
def memWritePods (mem : List UInt8) (data : Nat) : List (List UInt8) → Outcome (Nat × List UInt8)
  | [] => ok (data, mem)
  | t :: ts => do
    let mem ← copyTo mem data t
    memWritePods mem (data + t.length) ts

/-- `read_pod(data, t1, ..., tn)` for n = 1, ..., 12 (strtk.hpp 19058-19242) and for arrays (strtk.hpp 19244-19251).  The overloads
for sequences and sets do not compile and are not modelled. -/
def memReadPods (mem : List UInt8) (data : Nat) : List (List UInt8) → Outcome (Nat × List (List UInt8))
  | [] => ok (data, [])
  | t :: ts => do
    let u ← slice mem data t.length
    let (d, us) ← memReadPods mem (data + t.length) ts
    ok (d, u :: us)

end Strtk.FileIO
