import Verif.Binary.Trip

/-!
# Buffers sent through a file stream (C125), and byte order on both kinds of host (C46)

`std::ofstream::write` appends the bytes to the file (a disk with room), `std::ifstream::read` delivers at most as many bytes as are left; the
stream's own error flags are not modelled.
-/

namespace Strtk.Binary
open Outcome Mem

/-- `writer::operator()(std::ofstream&)` (14534-14538): everything written so far goes to the file; returns the number of bytes. -/
def writerToStream (st : St) (file : List UInt8) : Outcome (Nat × List UInt8) :=
  if st.amount ≤ st.buf.length then ok (st.amount, file ++ st.buf.take st.amount) else ub

/-- `stream.read(original_buffer_, n)`: the bytes of the file that are left are `inp`. -/
def streamRead (n : Nat) (st : St) (inp : List UInt8) : Outcome (St × List UInt8) :=
  if n ≤ st.buf.length then ok ({ st with buf := inp.take n ++ st.buf.drop (inp.take n).length }, inp.drop n) else ub

/-- `reader::operator()(std::ifstream&, const std::size_t&)` (14117-14122). -/
def readerFromStream (length : Nat) (st : St) (inp : List UInt8) : Outcome (Bool × St × List UInt8) :=
  if length > st.buf.length then ok (false, st, inp) else do
    let (st, inp) ← streamRead length st inp
    ok (true, st, inp)

/-- `reader::operator()(std::ifstream&)` (14124-14129): as many bytes as have been read so far. -/
def readerFromStreamAgain (st : St) (inp : List UInt8) : Outcome (Bool × St × List UInt8) :=
  if 0 = st.amount then ok (false, st, inp) else do
    let (st, inp) ← streamRead st.amount st inp
    ok (true, st, inp)

/-- **C125**: values written by a program of writes, sent to a file after any other contents, and loaded from there into the buffer of a reader of
sufficient size are read back unchanged, whatever else the file and the buffers contain. -/
theorem C125_through_file_partial (sz : Ty → Nat) (buf rbuf file rest : List UInt8) (hbuf : buf.length < 2 ^ 63) (hr : rbuf.length < 2 ^ 63)
    (items : List Item) (hi : ∀ i ∈ items, Good sz i.1 ∧ Small sz i.1 ∧ Valid i.1 i.2) (st : St)
    (hw : writeAll sz (ok ()) items (St.fresh buf) = ok (true, st)) (hlen : st.amount ≤ rbuf.length) :
    ∃ out st1 st2, writerToStream st file = ok (st.amount, file ++ out) ∧ out.length = st.amount ∧
      readerFromStream st.amount (St.fresh rbuf) (out ++ rest) = ok (true, st1, rest) ∧
      readAll sz (ok ()) (items.map (·.1)) st1 = ok (true, items, st2) ∧ st2.amount = st.amount := by
  obtain ⟨good, st', h1, h2, h3⟩ := C47_write_succeeds sz buf hbuf items hi
  rw [h1] at hw
  simp only [ok.injEq, Prod.mk.injEq] at hw
  obtain ⟨rfl, rfl⟩ := hw
  obtain ⟨h4, h5⟩ := h3 rfl
  have hle := h2.mp rfl
  have hread := readAll_spec sz [] items [] (rbuf.drop (items.flatMap fun i => enc i.1 i.2).length) (fun i h => ⟨(hi i h).1, (hi i h).2.2⟩) (by
      rw [List.nil_append, List.length_append, List.length_drop]; rw [h5] at hlen; omega)
  generalize (items.flatMap fun i => enc i.1 i.2) = e at *
  refine ⟨e, ⟨e ++ rbuf.drop e.length, 0, 0, []⟩, at' ([] ++ e) (rbuf.drop e.length) [], ?_, h5.symm, ?_, hread, ?_⟩
  · unfold writerToStream
    rw [if_pos (by rw [h4, h5]; simp), h4, h5]
    simp
  · unfold readerFromStream streamRead
    rw [h5] at hlen ⊢
    have hle2 : e.length ≤ (St.fresh rbuf).buf.length := hlen
    rw [if_neg (by omega), if_pos hle2]
    simp [St.fresh]
  · rw [h5]; simp [at']

/-- **C125**: loading refuses a length beyond the buffer and otherwise touches only the first `length` bytes; the position does not move. -/
theorem C125_load_inside (length : Nat) (st : St) (inp : List UInt8) :
    ∃ good st' inp', readerFromStream length st inp = ok (good, st', inp') ∧ (good = true ↔ length ≤ st.buf.length) ∧
      st'.buf.length = st.buf.length ∧ st'.amount = st.amount ∧ st'.ptr = st.ptr ∧ st'.marks = st.marks ∧
      (∀ j, length ≤ j → st'.buf[j]? = st.buf[j]?) ∧
      (good = true → ∀ j < length, st'.buf[j]? = (if j < inp.length then inp[j]? else st.buf[j]?)) ∧
      (good = false → st' = st) := by
  unfold readerFromStream streamRead
  by_cases h : length > st.buf.length
  · rw [if_pos h]
    exact ⟨false, st, inp, rfl, by simp; omega, rfl, rfl, rfl, rfl, fun _ _ => rfl, by simp, fun _ => rfl⟩
  · rw [if_neg h, if_pos (by omega), ok_bind]
    refine ⟨true, _, _, rfl, by simp; omega, ?_, rfl, rfl, rfl, ?_, ?_, by simp⟩
    · simp; omega
    · intro j hj
      simp only [List.length_take]
      rw [List.getElem?_append_right (by simp; omega), List.getElem?_drop]
      congr 1
      simp; omega
    · intro _ j hj
      simp only [List.length_take]
      by_cases hji : j < inp.length
      · rw [if_pos hji, List.getElem?_append_left (by simp; omega), List.getElem?_take_of_lt hj]
      · rw [if_neg hji, List.getElem?_append_right (by simp; omega), List.getElem?_drop]
        congr 1
        simp; omega

/-- **C125** (negative result): a file that is too short is not noticed: the call reports success and the bytes behind the end of the file are those
the buffer had before. -/
theorem C125_short_file (length : Nat) (st : St) (inp : List UInt8) (h1 : length ≤ st.buf.length) (h2 : inp.length < length) :
    readerFromStream length st inp = ok (true, { st with buf := inp ++ st.buf.drop inp.length }, []) := by
  unfold readerFromStream streamRead
  rw [if_neg (by omega), if_pos h1, ok_bind, List.take_of_length_le (by omega)]
  simp only []
  rw [List.drop_of_length_le (by omega : inp.length ≤ length)]

/-- **C125**: without a length the call is refused by a reader that has not read anything, and otherwise loads as many bytes as have been read. -/
theorem C125_load_again (st : St) (inp : List UInt8) (h : st.amount ≤ st.buf.length) :
    readerFromStreamAgain st inp = (if st.amount = 0 then ok (false, st, inp) else readerFromStream st.amount st inp) := by
  unfold readerFromStreamAgain readerFromStream
  by_cases h0 : st.amount = 0
  · rw [if_pos h0.symm, if_pos h0]
  · rw [if_neg (fun h => h0 h.symm), if_neg h0, if_neg (by omega)]

/-- Two integers and a string through a file into a larger buffer that held something else. -/
example : ∃ st, writeAll (fun _ => 1) (ok ()) [⟨.pod 2, [1, 2]⟩, ⟨.str, [104, 105]⟩] (St.fresh (List.replicate 12 0)) = ok (true, st) ∧
    writerToStream st [7] = ok (8, [7, 1, 2, 2, 0, 0, 0, 104, 105]) ∧
    readerFromStream 8 (St.fresh (List.replicate 10 255)) [1, 2, 2, 0, 0, 0, 104, 105] =
      ok (true, ⟨[1, 2, 2, 0, 0, 0, 104, 105, 255, 255], 0, 0, []⟩, []) := ⟨_, rfl, rfl, rfl⟩

/-! ## Byte order on both kinds of host -/

/-- The bytes of a `k`-byte number in memory, on a host that is little-endian or not. -/
def hostBytes (little : Bool) (k v : Nat) : List UInt8 := if little then leBytes k v else (leBytes k v).reverse

/-- `convert_to_be` (13781-13809), 16, 32 and 64 bits; the signed versions convert the same bits (13766-13779). -/
def toBe16 (little : Bool) (v : BitVec 16) : BitVec 16 := if little then convert16 v else v
@[inherit_doc toBe16] def toBe32 (little : Bool) (v : BitVec 32) : BitVec 32 := if little then convert32 v else v
@[inherit_doc toBe16] def toBe64 (little : Bool) (v : BitVec 64) : BitVec 64 := if little then convert64 v else v

/-- `convert_to_le` (13811-13839). -/
def toLe16 (little : Bool) (v : BitVec 16) : BitVec 16 := if !little then convert16 v else v
@[inherit_doc toLe16] def toLe32 (little : Bool) (v : BitVec 32) : BitVec 32 := if !little then convert32 v else v
@[inherit_doc toLe16] def toLe64 (little : Bool) (v : BitVec 64) : BitVec 64 := if !little then convert64 v else v

/-- **C46**: on either kind of host the 16- and 64-bit conversions put the bytes into the order asked for; the 32-bit ones do so only where nothing
is to be converted. -/
theorem C46_both_hosts_partial (little : Bool) :
    (∀ v : BitVec 16, hostBytes little 2 (toBe16 little v).toNat = (leBytes 2 v.toNat).reverse ∧ hostBytes little 2 (toLe16 little v).toNat = leBytes 2 v.toNat) ∧
    (∀ v : BitVec 64, hostBytes little 8 (toBe64 little v).toNat = (leBytes 8 v.toNat).reverse ∧ hostBytes little 8 (toLe64 little v).toNat = leBytes 8 v.toNat) ∧
    (∀ v : BitVec 32, (little = false → hostBytes little 4 (toBe32 little v).toNat = (leBytes 4 v.toNat).reverse) ∧
      (little = true → hostBytes little 4 (toLe32 little v).toNat = leBytes 4 v.toNat)) := by
  refine ⟨fun v => ?_, fun v => ?_, fun v => ⟨?_, ?_⟩⟩
  · have hrev := reverse_of_bytes 2 (convert16 v) v (fun j hj => C46_convert16 v j hj)
    cases little
    · simp [hostBytes, toBe16, toLe16, hrev]
    · simp [hostBytes, toBe16, toLe16, hrev]
  · have hrev := reverse_of_bytes 8 (convert64 v) v (fun j hj => C46_convert64 v j hj)
    cases little
    · simp [hostBytes, toBe64, toLe64, hrev]
    · simp [hostBytes, toBe64, toLe64, hrev]
  · rintro rfl; rfl
  · rintro rfl; rfl

/-- **C46**: converting there and back is the identity for 16 and 64 bits on either kind of host. -/
theorem C46_there_and_back_partial (little : Bool) : (∀ v : BitVec 16, toBe16 little (toBe16 little v) = v ∧ toLe16 little (toLe16 little v) = v) ∧
    ∀ v : BitVec 64, toBe64 little (toBe64 little v) = v ∧ toLe64 little (toLe64 little v) = v := by
  cases little <;> simp [toBe16, toLe16, toBe64, toLe64, C46_involution_partial.1, C46_involution_partial.2]

/-- **C46** (negative result): the 32-bit conversion in the direction that has to swap gives wrong bytes for every number with a non-zero byte 0 or 2. -/
theorem C46_swap32_wrong (v : BitVec 32) (h : byteOf v 0 ≠ 0#8 ∨ byteOf v 2 ≠ 0#8) :
    hostBytes true 4 (toBe32 true v).toNat ≠ (leBytes 4 v.toNat).reverse ∧ hostBytes false 4 (toLe32 false v).toNat ≠ leBytes 4 v.toNat := by
  obtain ⟨-, h1, -, h3⟩ := C46_convert32_wrong v
  have key : leBytes 4 (convert32 v).toNat ≠ (leBytes 4 v.toNat).reverse := by
    intro he
    have g : ∀ j < 4, (byteOf (convert32 v) j).toNat = (byteOf v (3 - j)).toNat := by
      intro j hj
      have := congrArg (fun l : List UInt8 => l[j]?) he
      rw [leBytes_get _ _ _ hj, List.getElem?_reverse (by rw [leBytes_length]; exact hj), leBytes_length, leBytes_get _ _ _ (by omega),
        ← byteOf_toNat, ← byteOf_toNat] at this
      have := congrArg UInt8.toNat (Option.some.inj this)
      simpa [show 4 - 1 - j = 3 - j by omega, Nat.mod_eq_of_lt (byteOf (convert32 v) j).isLt, Nat.mod_eq_of_lt (byteOf v (3 - j)).isLt] using this
    rcases h with h | h
    · apply h
      apply BitVec.eq_of_toNat_eq
      rw [← g 3 (by omega), h3]
    · apply h
      apply BitVec.eq_of_toNat_eq
      rw [show (2 : Nat) = 3 - 1 from rfl, ← g 1 (by omega), h1]
  constructor
  · simpa [hostBytes, toBe32] using key
  · simp only [hostBytes, toLe32]
    intro he
    apply key
    have := congrArg List.reverse he
    simpa using this

example : byteOf 0x00010000#32 2 ≠ 0#8 := by decide

end Strtk.Binary
