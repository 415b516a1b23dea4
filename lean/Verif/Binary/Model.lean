import Verif.Mem

/-! # Binary reading and writing (strtk.hpp 13701-14795)

Bytes are `UInt8`; the host is little-endian (x86-64), so the 32-bit length prefixes are written lowest byte first. -/

namespace Strtk.Binary
open Outcome Mem

/-! ## Byte order -/

/-- `details::convert(const unsigned short)` (13744-13748); `v << 8` is computed in `int`, so nothing is lost. -/
def convert16 (v : BitVec 16) : BitVec 16 :=
  let w := v.setWidth 32
  ((w >>> 8 &&& 0x00FF#32) ||| (w <<< 8 &&& 0xFFFF#32)).setWidth 16

/-- `details::convert(const unsigned int)` (13750-13755), masks and shifts as they are in the source. -/
def convert32 (v : BitVec 32) : BitVec 32 :=
  (v >>> 24 &&& 0x000000FF#32) ||| (v <<< 24 &&& 0x0000FF00#32) ||| (v <<< 8 &&& 0x00FF0000#32) ||| (v >>> 8 &&& 0xFF000000#32)

/-- `details::convert(const unsigned long long)` (13757-13764). -/
def convert64 (v : BitVec 64) : BitVec 64 :=
  (v >>> 56 &&& 0x00000000000000FF#64) ||| (v <<< 56 &&& 0xFF00000000000000#64) |||
  (v >>> 40 &&& 0x000000000000FF00#64) ||| (v <<< 40 &&& 0x00FF000000000000#64) |||
  (v >>> 24 &&& 0x0000000000FF0000#64) ||| (v <<< 24 &&& 0x0000FF0000000000#64) |||
  (v >>> 8 &&& 0x00000000FF000000#64) ||| (v <<< 8 &&& 0x000000FF00000000#64)

/-- The bytes of a number as they lie in memory (little-endian host): `k` bytes, lowest first. -/
def leBytes : Nat → Nat → List UInt8
  | 0, _ => []
  | k + 1, v => UInt8.ofNat (v % 256) :: leBytes k (v / 256)

/-- The number stored in some bytes. -/
def leNat : List UInt8 → Nat
  | [] => 0
  | b :: bs => b.toNat + 256 * leNat bs

/-! ## State of a reader or writer -/

/-- `original_buffer_` with its contents (`buf`), `buffer_` as an offset (`ptr`), `amount_read_sofar_` or `amount_written_sofar_` (`amount`), and the
stack of the `marker` (13841-13867), top first.  `buffer_length_` is the length of `buf`. -/
structure St where
  buf : List UInt8
  ptr : Nat
  amount : Nat
  marks : List (Nat × Nat)
deriving DecidableEq

/-- The constructors (13881-13887, 14329-14334). -/
def St.fresh (buf : List UInt8) : St := ⟨buf, 0, 0, []⟩

/-- `buffer_capacity_ok` (14221-14224, 14618-14621): the sum is computed in 64 bits. -/
def capacityOk (st : St) (n : Nat) : Bool := (n + st.amount) % 2 ^ 64 ≤ st.buf.length

/-- `std::copy(buffer_, buffer_ + n, ...); buffer_ += n; amount_read_sofar_ += n`. -/
def takeBytes (st : St) (n : Nat) : Outcome (List UInt8 × St) := do
  let bs ← slice st.buf st.ptr n
  ok (bs, { st with ptr := st.ptr + n, amount := st.amount + n })

/-- `std::copy(ptr, ptr + n, buffer_); buffer_ += n; amount_written_sofar_ += n`. -/
def putBytes (st : St) (bs : List UInt8) : Outcome St := do
  let buf ← copyTo st.buf st.ptr bs
  ok { st with buf := buf, ptr := st.ptr + bs.length, amount := st.amount + bs.length }

/-- `read_pod` (14294-14309) for a type of `n` bytes; `none` is the result `false`.  The object is its bytes; alignment is not modelled. -/
def readPod (n : Nat) (st : St) : Outcome (Option (List UInt8) × St) :=
  if capacityOk st n then do
    let (bs, st) ← takeBytes st n
    ok (some bs, st)
  else ok (none, st)

/-- `write_pod` (14684-14701). -/
def writePod (bs : List UInt8) (st : St) : Outcome (Bool × St) :=
  if capacityOk st bs.length then do
    let st ← putBytes st bs
    ok (true, st)
  else ok (false, st)

/-! ## Types -/

/-- The types the reader and writer handle. -/
inductive Ty where
  /-- a type registered as POD, with its size (`selector_impl<T,yes_t>`) -/
  | pod (n : Nat)
  /-- `std::string` -/
  | str
  /-- `short_string` (`k = 2`) and `pascal_string` (`k = 1`) -/
  | pstr (k : Nat)
  /-- `std::pair`; also the shape of a class written with the `strtk_binary_reader` and `strtk_binary_writer` macros (14710-14728) -/
  | pair (a b : Ty)
  /-- `std::deque`, `std::list`, `std::queue` -/
  | seq (t : Ty)
  /-- `std::vector` of a POD type -/
  | podVec (n : Nat)
  /-- `std::vector` of any other type -/
  | objVec (t : Ty)
  /-- `std::set` of a POD type with its comparator -/
  | set (n : Nat) (lt : List UInt8 → List UInt8 → Bool)

/-- Values: a POD is its bytes, a set the list of its elements in the order of the comparator. -/
def Ty.Val : Ty → Type
  | pod _ => List UInt8
  | str => List UInt8
  | pstr _ => List UInt8
  | pair a b => a.Val × b.Val
  | seq t => List t.Val
  | podVec _ => List (List UInt8)
  | objVec t => List t.Val
  | set _ _ => List (List UInt8)

/-- The default-constructed value. -/
def Ty.dflt : (t : Ty) → t.Val
  | pod n => List.replicate n 0
  | str => ([] : List UInt8)
  | pstr _ => ([] : List UInt8)
  | pair a b => (a.dflt, b.dflt)
  | seq t => ([] : List t.Val)
  | podVec _ => ([] : List (List UInt8))
  | objVec t => ([] : List t.Val)
  | set _ _ => ([] : List (List UInt8))

/-- `std::set::insert`. -/
def setInsert (lt : List UInt8 → List UInt8 → Bool) (x : List UInt8) : List (List UInt8) → List (List UInt8)
  | [] => [x]
  | a :: l => if lt x a then x :: a :: l else if lt a x then a :: setInsert lt x l else a :: l

/-- Memory cut into objects of `n` bytes. -/
def chunks (n : Nat) : Nat → List UInt8 → List (List UInt8)
  | 0, _ => []
  | k + 1, bs => bs.take n :: chunks n k (bs.drop n)

/-- The loops over `size` elements (14036-14042, 14249-14255, 14083-14088): one object `t` is read again and again; returns the objects that were
read.  It is not cleared in between. -/
def readLoop {V : Type} (rd : V → St → Outcome (Bool × V × St)) : Nat → V → St → Outcome (Bool × List V × St)
  | 0, _, st => ok (true, [], st)
  | n + 1, t, st => do
    let (good, t, st) ← rd t st
    if good then do
      let (good, rest, st) ← readLoop rd n t st
      ok (good, t :: rest, st)
    else ok (false, [], st)

/-- `reader::operator()(std::string&)` (13991-14009). -/
def readStr (prior : List UInt8) (st : St) : Outcome (Bool × List UInt8 × St) := do
  let (r, st) ← readPod 4 st
  match r with
  | none => ok (false, prior, st)
  | some l =>
    if capacityOk st (leNat l) then do
      let (bs, st) ← takeBytes st (leNat l)
      ok (true, bs, st)
    else ok (false, prior, st)

/-- `short_string_impl::operator()(reader&)` (14756-14769, with 13957-13976, `read_length` false): the string is resized before the bytes are read. -/
def readPstr (k : Nat) (prior : List UInt8) (st : St) : Outcome (Bool × List UInt8 × St) := do
  let (r, st) ← readPod k st
  match r with
  | none => ok (false, prior, st)
  | some l =>
    if capacityOk st (leNat l) then do
      let (bs, st) ← takeBytes st (leNat l)
      ok (true, bs, st)
    else ok (false, resize 0 prior (leNat l), st)

/-- `reader::operator()` for `std::deque`, `std::list` and `std::queue` (14024-14045); `size` is `sizeof(T)`, `rd` reads a `T`, `fresh` is `T()`. -/
def readSeq {V : Type} (rd : V → St → Outcome (Bool × V × St)) (size : Nat) (fresh : V) (prior : List V) (st : St) :
    Outcome (Bool × List V × St) := do
  let (r, st) ← readPod 4 st
  match r with
  | none => ok (false, prior, st)
  | some l =>
    if capacityOk st (leNat l * size) then do
      let (good, xs, st) ← readLoop rd (leNat l) fresh st
      ok (good, prior ++ xs, st)
    else ok (false, prior, st)

/-- `reader::operator()(std::vector&)` for a POD type of `n` bytes (14053-14067, 14272-14285).  `ev` is what evaluating `&v[0]` on an empty vector does
(14280; undefined according to the standard, harmless in an implementation without checks). -/
def readPodVec (ev : Outcome Unit) (n : Nat) (prior : List (List UInt8)) (st : St) : Outcome (Bool × List (List UInt8) × St) := do
  let (r, st) ← readPod 4 st
  match r with
  | none => ok (false, prior, st)
  | some l =>
    if capacityOk st (leNat l * n) then do
      (if leNat l = 0 then ev else ok ())
      let (bs, st) ← takeBytes st (n * leNat l)
      ok (true, chunks n (leNat l) bs, st)
    else ok (false, prior, st)

/-- `reader::operator()(std::vector&)` for other types (14053-14067, 14240-14258): the vector is resized, then its elements are assigned. -/
def readObjVec {V : Type} (rd : V → St → Outcome (Bool × V × St)) (size : Nat) (fresh : V) (prior : List V) (st : St) :
    Outcome (Bool × List V × St) := do
  let (r, st) ← readPod 4 st
  match r with
  | none => ok (false, prior, st)
  | some l =>
    if capacityOk st (leNat l * size) then do
      let (good, xs, st) ← readLoop rd (leNat l) fresh st
      ok (good, xs ++ (resize fresh prior (leNat l)).drop xs.length, st)
    else ok (false, prior, st)

/-- `reader::operator()(T&)` for a POD type (14132-14135, 14265-14270). -/
def readPodVal (n : Nat) (prior : List UInt8) (st : St) : Outcome (Bool × List UInt8 × St) := do
  let (r, st) ← readPod n st
  match r with
  | some bs => ok (true, bs, st)
  | none => ok (false, prior, st)

/-- `reader::operator()(std::set&)` (14072-14091; `std::multiset` is alike), for a POD type. -/
def readSet (n : Nat) (lt : List UInt8 → List UInt8 → Bool) (prior : List (List UInt8)) (st : St) : Outcome (Bool × List (List UInt8) × St) := do
  let (r, st) ← readPod 4 st
  match r with
  | none => ok (false, prior, st)
  | some l =>
    if capacityOk st (leNat l * n) then do
      let (good, xs, st) ← readLoop (readPodVal n) (leNat l) (List.replicate n 0) st
      ok (good, xs.foldl (fun s x => setInsert lt x s) prior, st)
    else ok (false, prior, st)

/-- `reader::operator()(std::pair&)` (14012-14019). -/
def readPair {A B : Type} (ra : A → St → Outcome (Bool × A × St)) (rb : B → St → Outcome (Bool × B × St)) (prior : A × B) (st : St) :
    Outcome (Bool × (A × B) × St) := do
  let (good, x, st) ← ra prior.1 st
  if good then do
    let (good, y, st) ← rb prior.2 st
    ok (good, (x, y), st)
  else ok (false, (x, prior.2), st)

/-- `reader::operator()` for each type; the second argument is the value of the target before the call.  `sz` is `sizeof`; for `ev` see `readPodVec`. -/
def read (sz : Ty → Nat) (ev : Outcome Unit) : (t : Ty) → t.Val → St → Outcome (Bool × t.Val × St)
  | .pod n => readPodVal n
  | .str => readStr
  | .pstr k => readPstr k
  | .pair a b => readPair (read sz ev a) (read sz ev b)
  | .seq t => readSeq (read sz ev t) (sz t) t.dflt
  | .podVec n => readPodVec ev n
  | .objVec t => readObjVec (read sz ev t) (sz t) t.dflt
  | .set n lt => readSet n lt

/-- The loops over the elements of a container (14453-14458, 14498-14503, 14643-14649). -/
def writeLoop {V : Type} (wr : V → St → Outcome (Bool × St)) : List V → St → Outcome (Bool × St)
  | [], st => ok (true, st)
  | x :: xs, st => do
    let (good, st) ← wr x st
    if good then writeLoop wr xs st else ok (false, st)

/-- `operator()(const T* data, const uint32_t& length, bool write_length)` (14391-14406) behind its length prefix: `raw` bytes at `data`. -/
def writeRaw (data : List UInt8) (raw : Nat) (st : St) : Outcome (Bool × St) :=
  if capacityOk st raw then do
    let bs ← slice data 0 raw
    let st ← putBytes st bs
    ok (true, st)
  else ok (false, st)

/-- The 32-bit length prefix: `static_cast<uint32_t>(size)`. -/
def size32 (n : Nat) : Nat := n % 2 ^ 32

/-- `writer::operator()(const std::string&)` (14436-14439, 14391-14406). -/
def writeStr (v : List UInt8) (st : St) : Outcome (Bool × St) := do
  let (good, st) ← writePod (leBytes 4 (size32 v.length)) st
  if good then writeRaw v (size32 v.length) st else ok (false, st)

/-- `short_string_impl::operator()(writer&)` (14771-14783). -/
def writePstr (k : Nat) (v : List UInt8) (st : St) : Outcome (Bool × St) :=
  if v.length > 2 ^ (8 * k) - 1 then ok (false, st)
  else do
    let (good, st) ← writePod (leBytes k v.length) st
    if good then writeRaw v v.length st else ok (false, st)

/-- `writer::operator()` for `std::deque`, `std::list` and `std::queue` (14444-14461). -/
def writeSeq {V : Type} (wr : V → St → Outcome (Bool × St)) (v : List V) (st : St) : Outcome (Bool × St) := do
  let (good, st) ← writePod (leBytes 4 (size32 v.length)) st
  if good then writeLoop wr v st else ok (false, st)

/-- `batch_vector_writer` for POD types (14664-14675). -/
def writeBatch (ev : Outcome Unit) (raw : Nat) (v : List (List UInt8)) (st : St) : Outcome (Bool × St) := do
  (if v.length = 0 then ev else ok ())
  let bs ← slice v.flatten 0 raw
  let st ← putBytes st bs
  ok (true, st)

/-- `writer::operator()(const std::vector&)` for a POD type of `k` bytes (14470-14479, 14664-14675). -/
def writePodVec (ev : Outcome Unit) (k : Nat) (v : List (List UInt8)) (st : St) : Outcome (Bool × St) :=
  if capacityOk st (size32 v.length * k + 4) then do
    let (good, st) ← writePod (leBytes 4 (size32 v.length)) st
    if good then writeBatch ev (size32 v.length * k) v st else ok (false, st)
  else ok (false, st)

/-- `writer::operator()(const std::vector&)` for other types (14470-14479, 14637-14652). -/
def writeObjVec {V : Type} (wr : V → St → Outcome (Bool × St)) (size : Nat) (v : List V) (st : St) : Outcome (Bool × St) :=
  if capacityOk st (size32 v.length * size + 4) then writeSeq wr v st else ok (false, st)

/-- `writer::operator()(const std::set&)` behind the length (14490-14505). -/
def writeSetBody (k : Nat) (v : List (List UInt8)) (st : St) : Outcome (Bool × St) :=
  if capacityOk st (size32 v.length * k) then writeLoop writePod v st else ok (false, st)

/-- `writer::operator()(const std::set&)` (14484-14506; `std::multiset` is alike), for a POD type. -/
def writeSet (k : Nat) (v : List (List UInt8)) (st : St) : Outcome (Bool × St) := do
  let (good, st) ← writePod (leBytes 4 (size32 v.length)) st
  if good then writeSetBody k v st else ok (false, st)

/-- `writer::operator()(const std::pair&)` (14427-14434). -/
def writePair {A B : Type} (wa : A → St → Outcome (Bool × St)) (wb : B → St → Outcome (Bool × St)) (v : A × B) (st : St) : Outcome (Bool × St) := do
  let (good, st) ← wa v.1 st
  if good then wb v.2 st else ok (false, st)

/-- `writer::operator()` for each type. -/
def write (sz : Ty → Nat) (ev : Outcome Unit) : (t : Ty) → t.Val → St → Outcome (Bool × St)
  | .pod _ => writePod
  | .str => writeStr
  | .pstr k => writePstr k
  | .pair a b => writePair (write sz ev a) (write sz ev b)
  | .seq t => writeSeq (write sz ev t)
  | .podVec k => writePodVec ev k
  | .objVec t => writeObjVec (write sz ev t) (sz t)
  | .set k _ => writeSet k

/-! ## The other calls -/

/-- `rewind` (13919-13929). -/
def rewind (n : Nat) (st : St) : Outcome (Bool × St) :=
  if n ≤ st.amount then
    if n ≤ st.ptr then ok (true, { st with amount := st.amount - n, ptr := st.ptr - n }) else ub
  else ok (false, st)

/-- `seek(const int&)` (13931-13948); `-INT_MIN` overflows. -/
def seek (n : Int) (st : St) : Outcome (Bool × St) :=
  if n < 0 then
    if n = -2 ^ 31 then ub else rewind (-n).toNat st
  else if n > 0 then
    if (st.amount + n.toNat) % 2 ^ 64 ≤ st.buf.length then ok (true, { st with amount := st.amount + n.toNat, ptr := st.ptr + n.toNat })
    else ok (false, st)
  else ok (true, st)

/-- `reset` and `clear` (13896-13902, 13950-13954, 14343-14370). -/
def reset (clear : Bool) (st : St) : St :=
  { st with amount := 0, ptr := 0, buf := if clear then List.replicate st.buf.length 0 else st.buf }

/-- `mark` (13859-13862, 14205-14208). -/
def mark (st : St) : St := { st with marks := (st.amount, st.ptr) :: st.marks }

/-- `reset_to_mark` (13849-13857, 14210-14213). -/
def resetToMark (st : St) : Bool × St :=
  match st.marks with
  | [] => (false, st)
  | (a, p) :: ms => (true, { st with amount := a, ptr := p, marks := ms })

/-- `reader::operator()(T (&output)[N])` (14172-14189) and `operator()(T*&, uint32_t&, false)` (13957-13976): `raw` bytes into memory of the caller. -/
def readArray (raw : Nat) (st : St) : Outcome (Option (List UInt8) × St) := readPod raw st

/-- `reader::operator()(T*& data, uint32_t& length, true)` (13957-13976): length prefix, then `length * sizeof(T)` bytes. -/
def readPtr (elem : Nat) (st : St) : Outcome (Option (List UInt8) × St) := do
  let (r, st) ← readPod 4 st
  match r with
  | none => ok (none, st)
  | some l => readPod (leNat l * elem) st

/-- `reader::operator()(T& output, const std::size_t& size)` (14192-14203): the text handed to the converter. -/
def readField (size : Nat) (st : St) : Outcome (Option (List UInt8) × St) := readPod size st

/-- `writer::operator()(const T* data, const uint32_t& length, bool write_length)` (14391-14406); `data` is the caller's memory. -/
def writePtr (data : List UInt8) (length elem : Nat) (withLength : Bool) (st : St) : Outcome (Bool × St) := do
  let (good, st) ← (if withLength then writePod (leBytes 4 length) st else ok (true, st))
  if good then writeRaw data (length * elem) st else ok (false, st)

/-- Side of the padding (14568-14572). -/
inductive Padding where
  | right
  | left
deriving DecidableEq

/-- `writer::operator()(const T& input, size, pmode, padding)` (14575-14600); `text` is the value converted by `type_to_string` (`none` when that
fails).  `s.resize(size - s.size(), padding)` is written as in the source; `std::length_error` from `reserve` (size above 2^63 - 1) is `thrown`. -/
def writeField (text : Option (List UInt8)) (size : Nat) (pmode : Padding) (padding : UInt8) (st : St) : Outcome (Bool × St) :=
  if (st.amount + size) % 2 ^ 64 ≤ st.buf.length then
    if size > 2 ^ 63 - 1 then thrown else
    match text with
    | none => ok (false, st)
    | some s =>
      if s.length > size then ok (false, st)
      else
        let s := if s.length < size then
            match pmode with
            | .right => resize padding s (size - s.length)
            | .left => List.replicate (size - s.length) padding ++ s
          else s
        writePtr s (size32 size) 1 false st
  else ok (false, st)

end Strtk.Binary
