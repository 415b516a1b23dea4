import Verif.Binary.Room
import Verif.Binary.Bounds
import Verif.Number.Props
import Mathlib.Logic.Function.Iterate

/-!
# The serializer example program (C154)

strtk_serializer_example.cpp.  The constants of the program (1000 persons, the name, the increments) are parameters here.  Printing is not modelled.
-/

namespace Strtk.Programs.Serializer
open Outcome Strtk.Binary

/-! ## Persons -/

/-- `struct person` (strtk_serializer_example.cpp 33-90); `height` and `weight` are the bits of the floating point numbers. -/
structure Person where
  id : BitVec 64
  name : List UInt8
  age : BitVec 32
  height : BitVec 64
  weight : BitVec 32
  insane : Bool

/-- The fields in the order of the reader and writer macros (70-86). -/
abbrev personTy : Ty := .pair (.pod 8) (.pair .str (.pair (.pod 4) (.pair (.pod 8) (.pair (.pod 4) (.pod 1)))))

/-- The bytes of the fields in memory. -/
def Person.val (p : Person) : personTy.Val :=
  (leBytes 8 p.id.toNat, p.name, leBytes 4 p.age.toNat, leBytes 8 p.height.toNat, leBytes 4 p.weight.toNat, leBytes 1 p.insane.toNat)

/-- The person with these bytes.  A `bool` with a byte other than 0 and 1 counts as true. -/
def Person.ofVal (v : personTy.Val) : Person :=
  ⟨BitVec.ofNat 64 (leNat v.1), v.2.1, BitVec.ofNat 32 (leNat v.2.2.1), BitVec.ofNat 64 (leNat v.2.2.2.1), BitVec.ofNat 32 (leNat v.2.2.2.2.1),
    leNat v.2.2.2.2.2 != 0⟩

/-- `person()` and `clear` (42-66). -/
def Person.blank : Person := ⟨0, [], 0, 0, 0, false⟩

/-- `person::operator==` (47-55); `deq` and `feq` compare doubles and floats. -/
def same (deq : BitVec 64 → BitVec 64 → Bool) (feq : BitVec 32 → BitVec 32 → Bool) (p q : Person) : Bool :=
  p.id == q.id && p.name == q.name && p.age == q.age && feq p.weight q.weight && deq p.height q.height && p.insane == q.insane

/-- `writer(p)`. -/
def writePerson (sz : Ty → Nat) (p : Person) (st : St) : Outcome (Bool × St) := write sz (ok ()) personTy p.val st

/-- `reader(p)`; `p` is the person before the call. -/
def readPerson (sz : Ty → Nat) (p : Person) (st : St) : Outcome (Bool × Person × St) := do
  let (good, v, st) ← read sz (ok ()) personTy p.val st
  ok (good, Person.ofVal v, st)

/-- `example01` (92-122): one person; the results of the calls are not looked at. -/
def example01 (sz : Ty → Nat) (eq : Person → Person → Bool) (pOut : Person) (buf : List UInt8) : Outcome Bool := do
  let (_, st) ← writePerson sz pOut (reset true (St.fresh buf))
  let (_, pIn, _) ← readPerson sz .blank (St.fresh st.buf)
  ok (eq pIn pOut)

/-- The writing loop of `example02` (138-152): the person is changed, then written. -/
def writeAfter (sz : Ty → Nat) (step : Person → Person) : Nat → Person → St → Outcome (Bool × St)
  | 0, _, st => ok (true, st)
  | n + 1, p, st => do
    let p := step p
    let (good, st) ← writePerson sz p st
    if good then writeAfter sz step n p st else ok (false, st)

/-- The reading loop of `example02` (167-189). -/
def readAfter (sz : Ty → Nat) (eq : Person → Person → Bool) (step : Person → Person) : Nat → Person → Person → St → Outcome Bool
  | 0, _, _, _ => ok true
  | n + 1, pIn, expected, st => do
    let expected := step expected
    let (good, pIn, st) ← readPerson sz pIn st
    if good then
      if !(eq pIn expected) then ok false else readAfter sz eq step n pIn expected st
    else ok false

/-- `example02` (124-196). -/
def example02 (sz : Ty → Nat) (eq : Person → Person → Bool) (step : Person → Person) (rounds : Nat) (p : Person) (buf : List UInt8) : Outcome Bool := do
  let (good, st) ← writeAfter sz step rounds p (reset true (St.fresh buf))
  if good then readAfter sz eq step rounds .blank p (St.fresh st.buf) else ok false

/-- The writing loop of `example03` (214-227) and, with a person that does not change, of `example05` (652-659). -/
def writeBefore (sz : Ty → Nat) (step : Person → Person) : Nat → Person → St → Outcome (Bool × St)
  | 0, _, st => ok (true, st)
  | n + 1, p, st => do
    let (good, st) ← writePerson sz p st
    if good then writeBefore sz step n (step p) st else ok (false, st)

/-- The reading loop of `example03` (262-285). -/
def readBefore (sz : Ty → Nat) (eq : Person → Person → Bool) (step : Person → Person) : Nat → Person → St → Outcome Bool
  | 0, _, _ => ok true
  | n + 1, expected, st => do
    let (good, pIn, st) ← readPerson sz .blank st
    if good then
      if !(eq pIn expected) then ok false else readBefore sz eq step n (step expected) st
    else ok false

/-- `example03` (198-287): through a new file; a disk with room.  The result of loading is not looked at. -/
def example03 (sz : Ty → Nat) (eq : Person → Person → Bool) (step : Person → Person) (rounds : Nat) (p : Person) (buf : List UInt8) : Outcome Bool := do
  let (good, st) ← writeBefore sz step rounds p (reset true (St.fresh buf))
  if good then do
    let (_, file) ← writerToStream st []
    let (_, rd, _) ← readerFromStream file.length (reset true (St.fresh st.buf)) file
    readBefore sz eq step rounds p (reset false rd)
  else ok false

/-- `writer(p_out_list)` for a vector of pairs of a number and a person (strtk_serializer_example.cpp 594-600). -/
def writePeople (sz : Ty → Nat) (people : List (Nat × Person)) (st : St) : Outcome (Bool × St) :=
  let v : List (List UInt8 × personTy.Val) := people.map fun q => (leBytes 8 q.1, q.2.val)
  write sz (ok ()) (.objVec (.pair (.pod 8) personTy)) v st

/-- `reader(p_in_list)` for an empty deque of such pairs (604-611). -/
def readPeople (sz : Ty → Nat) (st : St) : Outcome (Bool × List (Nat × Person) × St) := do
  let none : List (List UInt8 × personTy.Val) := []
  let (good, got, st) ← read sz (ok ()) (.seq (.pair (.pod 8) personTy)) none st
  ok (good, (got : List (List UInt8 × personTy.Val)).map fun q => (leNat q.1, Person.ofVal q.2), st)

/-- The last part of `example04` (574-626): a vector is written and read as a deque. -/
def example04People (sz : Ty → Nat) (eq : Nat × Person → Nat × Person → Bool) (people : List (Nat × Person)) (buf : List UInt8) : Outcome Bool := do
  let (good, st) ← writePeople sz people (St.fresh buf)
  if good then do
    let (good, got, _) ← readPeople sz (St.fresh st.buf)
    if good then
      if people.length ≠ got.length then ok false else ok ((List.zipWith eq people got).all id)
    else ok false
  else ok false

/-- The rounds of `example05` (648-663, 684-701, 736-748, 768-783, 814-828, 850-866): the writer or reader starts again, `body` runs, and the amount is
added to a total of 64 bits; `none` when `body` fails. -/
def totalRounds (body : St → Outcome (Bool × St)) : Nat → Nat → St → Outcome (Option Nat × St)
  | 0, total, st => ok (some total, st)
  | n + 1, total, st => do
    let (good, st) ← body (reset false st)
    if good then totalRounds body n ((total + st.amount) % 2 ^ 64) st else ok (none, st)

/-- One reading round of `example05` (688-696, 772-776, 855-860): the values are not looked at. -/
def readBody (sz : Ty → Nat) (types : List Ty) (st : St) : Outcome (Bool × St) := do
  let (good, _, st) ← readAll sz (ok ()) types st
  ok (good, st)

/-- `example06` (880-966), one of its two blocks: a pascal string (one byte for the length) and a short string (two); gives what was read, `none` after a
failure. -/
def example06 (s : List UInt8) (buf : List UInt8) : Outcome (Option (List UInt8 × List UInt8)) := do
  let (good, st) ← writePstr 1 s (St.fresh (List.replicate buf.length 0))
  if good then do
    let (good, st) ← writePstr 2 s st
    if good then do
      let (good, r1, st) ← readPstr 1 [] (St.fresh st.buf)
      if good then do
        let (good, r2, _) ← readPstr 2 [] st
        if good then ok (some (r1, r2)) else ok none
      else ok none
    else ok none
  else ok none

/-- `example07` (968-995): a number as text of `size` characters, padded with '0' on the left. -/
def example07 (i : Int) (size : Nat) (buf : List UInt8) : Outcome Bool := do
  let text ← Number.signedToString 32 i
  let (good, st) ← writeField (some (text.map UInt8.ofBitVec)) size .left 48 (St.fresh buf)
  if good then do
    let (r, _) ← readField size (St.fresh st.buf)
    match r with
    | none => ok false
    | some bs => do
      let (good, j) ← Number.parseSigned Number.int (bs.map UInt8.toBitVec) 0
      if good then (if i ≠ j then ok false else ok true) else ok false
  else ok false

/-! ## Specification -/

/-- The serialised form of a person. -/
def Person.bytes (p : Person) : List UInt8 := enc personTy p.val

/-- The persons one gets by `n` steps: the first, the first changed once, ... -/
def persons (step : Person → Person) (n : Nat) (p : Person) : List Person := (List.range n).map fun i => step^[i] p

/-! ## Proofs -/

theorem ofVal_val (p : Person) : Person.ofVal p.val = p := by
  have h : ∀ (k w : Nat) (x : BitVec w), 256 ^ k = 2 ^ w → BitVec.ofNat w (leNat (leBytes k x.toNat)) = x := by
    intro k w x e
    rw [leNat_leBytes, e, Nat.mod_eq_of_lt x.isLt]
    exact BitVec.ofNat_toNat w x ▸ by simp
  cases p with
  | mk id name age height weight insane =>
    unfold Person.ofVal Person.val
    simp only [Person.mk.injEq]
    refine ⟨h 8 64 id rfl, trivial, h 4 32 age rfl, h 8 64 height rfl, h 4 32 weight rfl, ?_⟩
    cases insane <;> rfl

theorem val_valid (p : Person) (h : p.name.length < 2 ^ 32) : Valid personTy p.val :=
  ⟨leBytes_length 8 _, h, leBytes_length 4 _, leBytes_length 8 _, leBytes_length 4 _, leBytes_length 1 _⟩

theorem bytes_length (p : Person) : p.bytes.length = 29 + p.name.length := by
  show (leBytes 8 _ ++ (withLen 4 p.name.length p.name ++ (leBytes 4 _ ++ (leBytes 8 _ ++ (leBytes 4 _ ++ leBytes 1 _))))).length = _
  simp only [List.length_append, leBytes_length, withLen_length]
  omega

theorem personTy_good (sz : Ty → Nat) : Good sz personTy := ⟨trivial, trivial, trivial, trivial, trivial, trivial⟩
theorem personTy_small (sz : Ty → Nat) : Small sz personTy :=
  ⟨by show 8 < 2 ^ 31; decide, trivial, by show 4 < 2 ^ 31; decide, by show 8 < 2 ^ 31; decide, by show 4 < 2 ^ 31; decide, by show 1 < 2 ^ 31; decide⟩
theorem personTy_replaces : Replaces personTy := ⟨trivial, trivial, trivial, trivial, trivial, trivial⟩

theorem writePerson_spec (sz : Ty → Nat) (p : Person) (hp : p.name.length < 2 ^ 32) (pre room : List UInt8) (marks : List (Nat × Nat))
    (hl : (pre ++ room).length < 2 ^ 63) : WroteSpec (writePerson sz p (at' pre room marks)) pre room p.bytes marks :=
  wrote sz marks personTy (personTy_small sz) (personTy_good sz) p.val (val_valid p hp) pre room hl

theorem readPerson_spec (sz : Ty → Nat) (p : Person) (hp : p.name.length < 2 ^ 32) (prior : Person) (pre post : List UInt8) (marks : List (Nat × Nat))
    (hl : (pre ++ (p.bytes ++ post)).length < 2 ^ 63) :
    readPerson sz prior (at' pre (p.bytes ++ post) marks) = ok (true, p, at' (pre ++ p.bytes) post marks) := by
  unfold readPerson
  rw [show p.bytes = enc personTy p.val from rfl,
    read_spec sz marks personTy (personTy_good sz) p.val (val_valid p hp) prior.val pre post hl, ok_bind, merge_replaces personTy personTy_replaces]
  simp only [ofVal_val]

theorem writeAfter_eq (sz : Ty → Nat) (step : Person → Person) : ∀ (n : Nat) (p : Person) (st : St),
    writeAfter sz step n p st = writeBefore sz step n (step p) st := by
  intro n
  induction n with
  | zero => intro p st; rfl
  | succ n ih =>
    intro p st
    unfold writeAfter writeBefore
    simp only [ih]

theorem persons_succ (step : Person → Person) (n : Nat) (p : Person) : persons step (n + 1) p = p :: persons step n (step p) := by
  unfold persons
  rw [List.range_succ_eq_map, List.map_cons, List.map_map]
  rfl

theorem writeBefore_spec (sz : Ty → Nat) (step : Person → Person) (marks : List (Nat × Nat)) : ∀ (n : Nat) (p : Person) (pre room : List UInt8),
    (∀ q ∈ persons step n p, q.name.length < 2 ^ 32) → (pre ++ room).length < 2 ^ 63 →
    WroteSpec (writeBefore sz step n p (at' pre room marks)) pre room ((persons step n p).flatMap Person.bytes) marks := by
  intro n
  induction n with
  | zero => intro p pre room _ _; left; exact ⟨by simp [persons], by simp [writeBefore, persons]⟩
  | succ n ih =>
    intro p pre room h hl
    rw [persons_succ] at h ⊢
    rw [List.flatMap_cons]
    exact wrote_seq (writePerson_spec sz p (h p (by simp)) pre room marks hl) fun hle =>
      ih (step p) _ _ (fun q hq => h q (by simp [hq])) (by simp at hl ⊢; omega)

theorem readBefore_spec (sz : Ty → Nat) (eq : Person → Person → Bool) (step : Person → Person) (marks : List (Nat × Nat)) :
    ∀ (n : Nat) (p : Person) (pre post : List UInt8), (∀ q ∈ persons step n p, q.name.length < 2 ^ 32) →
    (pre ++ ((persons step n p).flatMap Person.bytes ++ post)).length < 2 ^ 63 →
    readBefore sz eq step n p (at' pre ((persons step n p).flatMap Person.bytes ++ post) marks) = ok ((persons step n p).all fun q => eq q q) := by
  intro n
  induction n with
  | zero => intro p pre post _ _; simp [readBefore, persons]
  | succ n ih =>
    intro p pre post h hl
    rw [persons_succ] at h hl ⊢
    rw [List.flatMap_cons, List.append_assoc] at hl ⊢
    unfold readBefore
    rw [readPerson_spec sz p (h p (by simp)) _ pre _ marks hl, ok_bind]
    simp only [if_true, List.all_cons]
    cases he : eq p p with
    | false => rfl
    | true =>
      simp only [Bool.not_true, Bool.false_eq_true, if_false, Bool.true_and]
      exact ih (step p) (pre ++ p.bytes) post (fun q hq => h q (by simp [hq])) (by simpa using hl)

theorem readAfter_spec (sz : Ty → Nat) (eq : Person → Person → Bool) (step : Person → Person) (marks : List (Nat × Nat)) :
    ∀ (n : Nat) (pIn p : Person) (pre post : List UInt8), (∀ q ∈ persons step n (step p), q.name.length < 2 ^ 32) →
    (pre ++ ((persons step n (step p)).flatMap Person.bytes ++ post)).length < 2 ^ 63 →
    readAfter sz eq step n pIn p (at' pre ((persons step n (step p)).flatMap Person.bytes ++ post) marks) =
      ok ((persons step n (step p)).all fun q => eq q q) := by
  intro n
  induction n with
  | zero => intro pIn p pre post _ _; simp [readAfter, persons]
  | succ n ih =>
    intro pIn p pre post h hl
    rw [persons_succ] at h hl ⊢
    rw [List.flatMap_cons, List.append_assoc] at hl ⊢
    unfold readAfter
    simp only []
    rw [readPerson_spec sz (step p) (h _ (by simp)) _ pre _ marks hl, ok_bind]
    simp only [if_true, List.all_cons]
    cases he : eq (step p) (step p) with
    | false => rfl
    | true =>
      simp only [Bool.not_true, Bool.false_eq_true, if_false, Bool.true_and]
      exact ih (step p) (step p) (pre ++ (step p).bytes) post (fun q hq => h q (by simp [hq])) (by simpa using hl)

theorem loopRoom_map {A V : Type} (e : V → List UInt8) (r : V → Nat) (f : A → V) (g : A → Nat) (h1 : ∀ a, (e (f a)).length = g a)
    (h2 : ∀ a, r (f a) = g a) : ∀ l : List A, loopRoom e r (l.map f) = (l.map g).sum := by
  intro l
  induction l with
  | nil => rfl
  | cons a l ih =>
    rw [List.map_cons, List.map_cons, List.sum_cons, loopRoom, ih, h1, h2]
    omega

theorem reset_fresh (c : Bool) (buf : List UInt8) : reset c (St.fresh buf) = at' [] (if c then List.replicate buf.length 0 else buf) [] := rfl

/-! ## Theorems -/

/-- **C154**, first example: a person that fits into the buffer is read back: the program compares it with itself. -/
theorem C154_one_person (sz : Ty → Nat) (eq : Person → Person → Bool) (p : Person) (hp : p.name.length < 2 ^ 32) (buf : List UInt8)
    (hb : buf.length < 2 ^ 63) (hfit : p.bytes.length ≤ buf.length) : example01 sz eq p buf = ok (eq p p) := by
  unfold example01
  rw [reset_fresh, if_pos rfl]
  rcases writePerson_spec sz p hp [] (List.replicate buf.length 0) [] (by simpa using hb) with ⟨_, h⟩ | ⟨_, _, _, _, h⟩
  · rw [h, ok_bind]
    simp only []
    have hr := readPerson_spec sz p hp .blank [] ((List.replicate buf.length (0 : UInt8)).drop p.bytes.length) [] (by simp; omega)
    have hr' : readPerson sz .blank (St.fresh ([] ++ p.bytes ++ (List.replicate buf.length (0 : UInt8)).drop p.bytes.length)) = _ := hr
    rw [hr', ok_bind]
  · simp at h; omega

/-- **C154**, second example: any number of persons, each made from the one before: the program returns true exactly when all of them fit into the buffer
and each is equal to itself (no NaN). -/
theorem C154_persons (sz : Ty → Nat) (eq : Person → Person → Bool) (step : Person → Person) (n : Nat) (p : Person) (buf : List UInt8)
    (hb : buf.length < 2 ^ 63) (hp : ∀ q ∈ persons step n (step p), q.name.length < 2 ^ 32) :
    example02 sz eq step n p buf =
      ok (decide (((persons step n (step p)).flatMap Person.bytes).length ≤ buf.length) && (persons step n (step p)).all fun q => eq q q) := by
  unfold example02
  rw [reset_fresh, if_pos rfl, writeAfter_eq]
  rcases writeBefore_spec sz step [] n (step p) [] (List.replicate buf.length 0) hp (by simpa using hb) with ⟨hle, h⟩ | ⟨_, _, h, _, hlt⟩
  · rw [h, ok_bind]
    simp only [if_true]
    rw [List.length_replicate] at hle
    rw [decide_eq_true hle, Bool.true_and]
    exact readAfter_spec sz eq step [] n .blank p [] _ hp (by rw [List.nil_append, List.length_append, List.length_drop, List.length_replicate]; omega)
  · rw [h, ok_bind]
    rw [List.length_replicate] at hlt
    rw [decide_eq_false (by omega)]
    rfl

/-- **C154**, third example: the same through a file. -/
theorem C154_persons_through_file (sz : Ty → Nat) (eq : Person → Person → Bool) (step : Person → Person) (n : Nat) (p : Person) (buf : List UInt8)
    (hb : buf.length < 2 ^ 63) (hp : ∀ q ∈ persons step n p, q.name.length < 2 ^ 32) :
    example03 sz eq step n p buf =
      ok (decide (((persons step n p).flatMap Person.bytes).length ≤ buf.length) && (persons step n p).all fun q => eq q q) := by
  unfold example03
  rw [reset_fresh, if_pos rfl]
  rcases writeBefore_spec sz step [] n p [] (List.replicate buf.length 0) hp (by simpa using hb) with ⟨hle, h⟩ | ⟨_, _, h, _, hlt⟩
  · rw [h, ok_bind]
    simp only [if_true]
    rw [List.length_replicate] at hle
    rw [decide_eq_true hle, Bool.true_and]
    have hread := fun post => readBefore_spec sz eq step [] n p [] post hp
    generalize (persons step n p).flatMap Person.bytes = e at *
    have hw : writerToStream (at' ([] ++ e) ((List.replicate buf.length (0 : UInt8)).drop e.length) []) [] = ok (e.length, e) := by
      unfold writerToStream
      rw [if_pos (by simp)]
      simp
    rw [hw, ok_bind]
    simp only []
    have hr : ∀ b : List UInt8, b.length = buf.length → readerFromStream e.length (reset true (St.fresh b)) e =
        ok (true, ⟨e ++ (List.replicate b.length (0 : UInt8)).drop e.length, 0, 0, []⟩, []) := by
      intro b hbl
      unfold readerFromStream streamRead
      rw [if_neg (by simp [reset, St.fresh]; omega), if_pos (by simp [reset, St.fresh]; omega), ok_bind]
      simp [reset, St.fresh]
    rw [hr _ (by simp; omega), ok_bind]
    simp only []
    exact hread _ (by simp; omega)
  · rw [h, ok_bind]
    rw [List.length_replicate] at hlt
    rw [decide_eq_false (by omega)]
    rfl

/-- **C154**, fourth example: a vector of numbered persons that is written is read back into a deque: the same elements, compared with themselves.  The
writer accepts the vector exactly when the serialised forms fit and there are `sizeof` bytes for each element behind the length. -/
theorem C154_vector_to_deque (sz : Ty → Nat) (hsz : sz (.pair (.pod 8) personTy) < 2 ^ 31) (eq : Nat × Person → Nat × Person → Bool)
    (people : List (Nat × Person)) (hn : people.length < 2 ^ 32) (hp : ∀ q ∈ people, q.1 < 2 ^ 64 ∧ q.2.name.length < 2 ^ 32) (buf : List UInt8)
    (hb : buf.length < 2 ^ 63) :
    example04People sz eq people buf =
      ok (decide (4 + (people.map fun q => 8 + q.2.bytes.length).sum ≤ buf.length ∧ 4 + people.length * sz (.pair (.pod 8) personTy) ≤ buf.length) &&
        people.all fun q => eq q q) := by
  have hsm : Small sz (.objVec (.pair (.pod 8) personTy)) := ⟨hsz, by show 8 < 2 ^ 31; decide, personTy_small sz⟩
  let v : List (List UInt8 × personTy.Val) := people.map fun q => (leBytes 8 q.1, q.2.val)
  have hvl : v.length = people.length := by simp [v]
  have hv : Valid (.objVec (.pair (.pod 8) personTy)) (show List (List UInt8 × personTy.Val) from v) := by
    refine ⟨by show v.length < 2 ^ 32; omega, ?_⟩
    intro x hx
    obtain ⟨q, hq, rfl⟩ := List.mem_map.mp (show x ∈ people.map fun q => (leBytes 8 q.1, q.2.val) from hx)
    exact ⟨leBytes_length 8 _, val_valid q.2 (hp q hq).2⟩
  have hns : NoSeq (.pair (.pod 8) personTy) := ⟨trivial, trivial, trivial, trivial, trivial, trivial, trivial⟩
  have hel : Elems (.pair (.pod 8) personTy) := ⟨trivial, trivial, trivial, trivial, trivial, trivial, trivial⟩
  have hre : Replaces (.pair (.pod 8) personTy) := ⟨trivial, trivial, trivial, trivial, trivial, trivial, trivial⟩
  have hroom : writeRoom sz (.objVec (.pair (.pod 8) personTy)) (show List (List UInt8 × personTy.Val) from v) =
      max (4 + people.length * sz (.pair (.pod 8) personTy)) (4 + (people.map fun q => 8 + q.2.bytes.length).sum) := by
    show max (4 + v.length * _) (4 + loopRoom (enc (.pair (.pod 8) personTy)) (writeRoom sz (.pair (.pod 8) personTy)) v) = _
    rw [hvl]
    congr 2
    have hone : ∀ q : Nat × Person, (enc (.pair (.pod 8) personTy) (leBytes 8 q.1, q.2.val)).length = 8 + q.2.bytes.length := by
      intro q
      show (leBytes 8 q.1 ++ q.2.bytes).length = _
      rw [List.length_append, leBytes_length]
    have hwr : ∀ q : Nat × Person, writeRoom sz (.pair (.pod 8) personTy) (leBytes 8 q.1, q.2.val) = 8 + q.2.bytes.length := by
      intro q
      rw [bytes_length]
      show max (leBytes 8 q.1).length ((leBytes 8 q.1).length + max (leBytes 8 q.2.id.toNat).length ((leBytes 8 q.2.id.toNat).length +
        max (4 + q.2.name.length) ((withLen 4 q.2.name.length q.2.name).length + max (leBytes 4 _).length ((leBytes 4 _).length +
        max (leBytes 8 _).length ((leBytes 8 _).length + max (leBytes 4 _).length ((leBytes 4 _).length + (leBytes 1 _).length)))))) = _
      simp only [leBytes_length, withLen_length]
      omega
    exact loopRoom_map _ _ _ _ hone hwr people
  unfold example04People
  rcases wroteRoom sz [] (.objVec (.pair (.pod 8) personTy)) hsm v hv [] buf (by simpa using hb) with ⟨h1, h2⟩ | ⟨h1, done, room', h2, h3⟩
  · have h1' := Nat.le_trans (Nat.le_of_eq hroom.symm) h1
    rw [show at' [] buf [] = St.fresh buf from rfl] at h2
    obtain ⟨st', h5, _, _⟩ := C47_vector_read_as_deque sz buf hb _ hns hel hre hsm v hv _ h2
    have h2' : writePeople sz people (St.fresh buf) = _ := h2
    rw [h2', ok_bind]
    simp only [if_true]
    rw [decide_eq_true (by omega), Bool.true_and]
    have hback : v.map (fun q => (leNat q.1, Person.ofVal q.2)) = people := by
      show (people.map _).map _ = people
      rw [List.map_map]
      conv => rhs; rw [← List.map_id people]
      apply List.map_congr_left
      intro q hq
      show (leNat (leBytes 8 q.1), Person.ofVal q.2.val) = q
      rw [ofVal_val, leNat_leBytes, Nat.mod_eq_of_lt (by have := (hp q hq).1; simpa using this)]
    have h6 : ∀ st, read sz (ok ()) (.seq (.pair (.pod 8) personTy)) ([] : List (List UInt8 × personTy.Val)) st = ok (true, v, st') →
        readPeople sz st = ok (true, people, st') := by
      intro st h
      have e : readPeople sz st = (read sz (ok ()) (.seq (.pair (.pod 8) personTy)) ([] : List (List UInt8 × personTy.Val)) st >>= fun r =>
        ok (r.1, (r.2.1 : List (List UInt8 × personTy.Val)).map (fun q => (leNat q.1, Person.ofVal q.2)), r.2.2)) := rfl
      rw [e, h]
      exact congrArg (fun l => ok (true, l, st')) hback
    have h7 := h6 _ h5
    dsimp only at h7
    rw [h7, ok_bind]
    simp only [if_true]
    rw [if_neg (by simp)]
    congr 1
    clear * -
    induction people with
    | nil => rfl
    | cons q people ih => simp only [List.zipWith_cons_cons, List.all_cons, ih, id]
  · have h1' := Nat.lt_of_lt_of_le h1 (Nat.le_of_eq hroom)
    rw [show at' [] buf [] = St.fresh buf from rfl] at h2
    have h2' : writePeople sz people (St.fresh buf) = _ := h2
    rw [h2', ok_bind, decide_eq_false (by omega)]
    rfl

theorem totalRounds_spec (body : St → Outcome (Bool × St)) (len L : Nat)
    (h : ∀ st, st.ptr = 0 → st.amount = 0 → st.buf.length = len → ∃ st', body st = ok (true, st') ∧ st'.amount = L ∧ st'.buf.length = len) :
    ∀ (n total : Nat) (st : St), total < 2 ^ 64 → st.buf.length = len →
    ∃ st', totalRounds body n total st = ok (some ((total + n * L) % 2 ^ 64), st') ∧ st'.buf.length = len := by
  intro n
  induction n with
  | zero => intro total st ht hl; exact ⟨st, by rw [totalRounds, Nat.zero_mul, Nat.add_zero, Nat.mod_eq_of_lt ht], hl⟩
  | succ n ih =>
    intro total st ht hl
    obtain ⟨st1, h1, h2, h3⟩ := h (reset false st) rfl rfl hl
    obtain ⟨st2, h4, h5⟩ := ih ((total + L) % 2 ^ 64) st1 (Nat.mod_lt _ (by decide)) h3
    refine ⟨st2, ?_, h5⟩
    unfold totalRounds
    rw [h1, ok_bind]
    simp only [if_true]
    rw [h2, h4, Nat.mod_add_mod, Nat.succ_mul]
    congr 4
    omega

/-- **C154**, fifth example, writing: when the values fit, every round succeeds and the total is the number of rounds times the length of the serialised
forms (as a number of 64 bits). -/
theorem C154_total_written (sz : Ty → Nat) (items : List Item) (hi : ∀ i ∈ items, Small sz i.1 ∧ Valid i.1 i.2) (buf : List UInt8) (hb : buf.length < 2 ^ 63)
    (hfit : roomAll (writeRoom sz) items ≤ buf.length) (n : Nat) :
    ∃ st, totalRounds (writeAll sz (ok ()) items) n 0 (St.fresh buf) = ok (some (n * (encAll items).length % 2 ^ 64), st) ∧ st.buf.length = buf.length := by
  have := totalRounds_spec (writeAll sz (ok ()) items) buf.length (encAll items).length (fun st h1 h2 h3 => by
    obtain ⟨b, p, a, m⟩ := st
    simp only at h1 h2 h3
    subst h1 h2
    have hle : (encAll items).length ≤ buf.length :=
      Nat.le_trans (loopRoom_ge _ (fun i : Item => writeRoom sz i.1 i.2) (fun i => enc_le_writeRoom sz i.1 i.2) items) hfit
    rcases writeAll_room sz m items [] b hi (by simp; omega) with ⟨_, h⟩ | ⟨h, _⟩
    · exact ⟨_, h, rfl, by simp only [List.nil_append, List.length_append, List.length_drop]; omega⟩
    · omega) n 0 (St.fresh buf) (by decide) rfl
  simpa using this

/-- **C154**, fifth example, reading: from a buffer that begins with the serialised forms and has the room, every round succeeds, and the total is the
same. -/
theorem C154_total_read (sz : Ty → Nat) (items : List Item) (hi : ∀ i ∈ items, Elems i.1 ∧ Small sz i.1 ∧ Valid i.1 i.2) (rest : List UInt8)
    (hb : (encAll items ++ rest).length < 2 ^ 63) (hfit : roomAll (readRoom sz) items ≤ (encAll items ++ rest).length) (n : Nat) :
    ∃ st, totalRounds (readBody sz (items.map (·.1))) n 0 (St.fresh (encAll items ++ rest)) =
      ok (some (n * (encAll items).length % 2 ^ 64), st) := by
  have key : ∀ (n total : Nat) (st : St), total < 2 ^ 64 → st.buf = encAll items ++ rest →
      ∃ st', totalRounds (readBody sz (items.map (·.1))) n total st =
        ok (some ((total + n * (encAll items).length) % 2 ^ 64), st') := by
    intro n
    induction n with
    | zero => intro total st ht _; exact ⟨st, by rw [totalRounds, Nat.zero_mul, Nat.add_zero, Nat.mod_eq_of_lt ht]⟩
    | succ n ih =>
      intro total st ht hs
      have hr : reset false st = at' [] (encAll items ++ rest) st.marks := by simp [reset, hs]
      rcases readAll_room sz st.marks items [] rest hi (by simpa using hb) with ⟨_, h⟩ | ⟨h, _⟩
      · obtain ⟨st2, h4⟩ := ih ((total + (encAll items).length) % 2 ^ 64) (at' ([] ++ encAll items) rest st.marks) (Nat.mod_lt _ (by decide)) rfl
        refine ⟨st2, ?_⟩
        have hbody : readBody sz (items.map (·.1)) (reset false st) = ok (true, at' ([] ++ encAll items) rest st.marks) := by
          unfold readBody
          rw [hr, h, ok_bind]
        unfold totalRounds
        rw [hbody, ok_bind]
        simp only [if_true]
        rw [List.nil_append] at h4 ⊢
        rw [h4, Nat.mod_add_mod, Nat.succ_mul]
        congr 4
        omega
      · omega
  simpa using key n 0 (St.fresh (encAll items ++ rest)) (by decide) rfl

/-- **C154**, sixth example: a text of fewer than 256 characters that fits is read back twice; a longer one is refused. -/
theorem C154_short_strings (s buf : List UInt8) (hb : buf.length < 2 ^ 63) :
    example06 s buf = ok (if s.length < 256 ∧ 3 + 2 * s.length ≤ buf.length then some (s, s) else none) := by
  unfold example06
  rw [show St.fresh (List.replicate buf.length 0) = at' [] (List.replicate buf.length 0) [] from rfl]
  by_cases h256 : s.length < 256
  · rcases wrote_pstr 1 (by omega) s [] (List.replicate buf.length 0) [] (by simpa using h256) (by simpa using hb) with ⟨hle, h⟩ | ⟨_, _, h, _, hlt⟩
    · rw [h, ok_bind]
      simp only [if_true]
      rw [withLen_length, List.length_replicate] at hle
      rcases wrote_pstr 2 (by omega) s ([] ++ withLen 1 s.length s) ((List.replicate buf.length (0 : UInt8)).drop (withLen 1 s.length s).length) []
        (by simp; omega) (by simp [withLen_length]; omega) with ⟨hle2, h2⟩ | ⟨_, _, h2, _, hlt⟩
      · rw [h2, ok_bind]
        simp only [if_true]
        rw [withLen_length, List.length_drop, withLen_length, List.length_replicate] at hle2
        generalize hpost : ((List.replicate buf.length (0 : UInt8)).drop (withLen 1 s.length s).length).drop (withLen 2 s.length s).length = post
        have hpl : post.length + 3 + 2 * s.length = buf.length := by rw [← hpost]; simp [withLen_length]; omega
        have hr1 := read_pstr 1 [] s [] (withLen 2 s.length s ++ post) [] (by simpa using h256) (by simp [withLen_length]; omega)
        rw [show St.fresh ([] ++ withLen 1 s.length s ++ withLen 2 s.length s ++ post) = at' [] (withLen 1 s.length s ++ (withLen 2 s.length s ++ post)) [] by
          simp [St.fresh], hr1, ok_bind]
        simp only [if_true]
        rw [read_pstr 2 [] s ([] ++ withLen 1 s.length s) post [] (by simp; omega) (by simp [withLen_length]; omega), ok_bind]
        rw [if_pos (c := s.length < 256 ∧ _) ⟨h256, by omega⟩]
        rfl
      · rw [h2, ok_bind]
        rw [withLen_length, List.length_drop, withLen_length, List.length_replicate] at hlt
        rw [if_neg (c := s.length < 256 ∧ _) (by omega)]
        rfl
    · rw [h, ok_bind]
      rw [withLen_length, List.length_replicate] at hlt
      rw [if_neg (c := s.length < 256 ∧ _) (by omega)]
      rfl
  · have h := C47_pstr_too_long (fun _ => 0) (ok ()) 1 s (by omega) (at' [] (List.replicate buf.length 0) [])
    have h' : writePstr 1 s (at' [] (List.replicate buf.length 0) []) = _ := h
    rw [h', ok_bind, if_neg (c := s.length < 256 ∧ _) (by omega)]
    rfl

theorem decVal_zeros (k : Nat) (s : List (BitVec 8)) : Number.decVal (List.replicate k 48 ++ s) = Number.decVal s := by
  induction k with
  | zero => rfl
  | succ k ih =>
    rw [List.replicate_succ, List.cons_append]
    exact ih

theorem map_ofBitVec_toBitVec (s : List (BitVec 8)) : (s.map UInt8.ofBitVec).map UInt8.toBitVec = s := by
  rw [List.map_map]
  conv => rhs; rw [← List.map_id s]
  exact List.map_congr_left fun _ _ => rfl

/-- What the seventh example gives to the converter: the text, with zeros in front. -/
theorem example07_reads (i : Int) (h1 : -2 ^ 31 ≤ i) (h2 : i < 2 ^ 31) (size : Nat) (hs : size < 2 ^ 32) (buf : List UInt8) (hb : buf.length < 2 ^ 63)
    (hfit : size ≤ buf.length) : example07 i size buf =
      (if (Number.intText i).length ≤ size then do
        let (good, j) ← Number.parseSigned Number.int (List.replicate (size - (Number.intText i).length) 48 ++ Number.intText i) 0
        if good then (if i ≠ j then ok false else ok true) else ok false
      else ok false) := by
  unfold example07
  rw [Number.C28_signed_text 32 (by simp) i h1 h2, ok_bind]
  simp only []
  have hlen : ((Number.intText i).map UInt8.ofBitVec).length = (Number.intText i).length := List.length_map ..
  by_cases hle : (Number.intText i).length ≤ size
  · rw [if_pos hle, show St.fresh buf = at' [] buf [] from rfl, C49_padded_field_partial [] buf _ [] size .left 48 (by simpa using hb) hs (by omega) hfit
      (Or.inl rfl), ok_bind]
    simp only [if_true]
    have hpl : (padded ((Number.intText i).map UInt8.ofBitVec) size .left 48).length = size := by simp [padded]; omega
    have hr := readPod_at [] (padded ((Number.intText i).map UInt8.ofBitVec) size .left 48) (buf.drop size) []
      (by simp only [List.nil_append, List.length_append, hpl, List.length_drop]; omega)
    rw [hpl] at hr
    have hr' : readField size (St.fresh ([] ++ padded ((Number.intText i).map UInt8.ofBitVec) size .left 48 ++ buf.drop size)) = _ := hr
    rw [hr', ok_bind]
    have hm : (padded ((Number.intText i).map UInt8.ofBitVec) size .left 48).map UInt8.toBitVec =
        List.replicate (size - (Number.intText i).length) 48 ++ Number.intText i := by
      simp only [padded, List.map_append, map_ofBitVec_toBitVec, List.map_replicate, hlen]
      rfl
    simp only [hm]
  · rw [if_neg hle, show St.fresh buf = at' [] buf [] from rfl, C49_fails_unchanged [] buf _ [] size .left 48 (by simpa using hb) (by omega)
      (Or.inr (Or.inr ⟨_, rfl, by omega⟩)), ok_bind]
    rfl

/-- **C154**, seventh example: a number that is not negative is read back from its field of `size` characters exactly when it has no more digits than
that. -/
theorem C154_padded_number (i : Int) (h1 : 0 ≤ i) (h2 : i < 2 ^ 31) (size : Nat) (hs : size < 2 ^ 32) (buf : List UInt8) (hb : buf.length < 2 ^ 63)
    (hfit : size ≤ buf.length) : example07 i size buf = ok (decide ((Number.intText i).length ≤ size)) := by
  rw [example07_reads i (by omega) h2 size hs buf hb hfit]
  by_cases hle : (Number.intText i).length ≤ size
  · rw [if_pos hle, decide_eq_true hle]
    have ht : Number.intText i = Number.decText i.natAbs := by unfold Number.intText; rw [if_neg (by omega)]
    have hd := Number.C28_canonical i.natAbs
    have hn : Number.SNumeral (List.replicate (size - (Number.intText i).length) 48 ++ Number.intText i) i := by
      refine ⟨_, ⟨by rw [ht]; simp [hd.1.1], ?_⟩, Or.inl ⟨Or.inl rfl, ?_⟩⟩
      · intro c hc
        rcases List.mem_append.mp hc with hc | hc
        · rw [(List.mem_replicate.mp hc).2]; decide
        · exact hd.1.2 c (by rwa [ht] at hc)
      · rw [decVal_zeros, ht, hd.2.1]; omega
    rw [(Number.C29_signed_partial Number.int (Or.inl rfl) _ 0).1 i hn (by simp [Number.int]; omega) (by simpa [Number.int] using h2), ok_bind]
    simp
  · rw [if_neg hle, decide_eq_false hle]

/-- **C154** (negative result): a negative number that is shorter than its field is never read back, since the zeros come before the sign. -/
theorem C154_padded_negative (i : Int) (h1 : -2 ^ 31 ≤ i) (h2 : i < 0) (size : Nat) (hs : size < 2 ^ 32) (buf : List UInt8) (hb : buf.length < 2 ^ 63)
    (hfit : size ≤ buf.length) (hlt : (Number.intText i).length < size) : example07 i size buf = ok false := by
  rw [example07_reads i h1 (by omega) size hs buf hb hfit, if_pos (by omega)]
  have ht : Number.intText i = 45 :: Number.decText i.natAbs := by unfold Number.intText; rw [if_pos h2]
  have hno : ∀ v, ¬ Number.SNumeral (List.replicate (size - (Number.intText i).length) 48 ++ Number.intText i) v := by
    rintro v ⟨ds, ⟨hne, hd⟩, h⟩
    obtain ⟨k, hk⟩ : ∃ k, size - (Number.intText i).length = k + 1 := ⟨size - (Number.intText i).length - 1, by omega⟩
    rw [hk, List.replicate_succ, List.cons_append] at h
    rcases h with ⟨h | h, _⟩ | ⟨h, _⟩
    · have : (45 : BitVec 8) ∈ ds := by rw [← h, ht]; simp
      exact absurd (hd _ this) (by decide)
    · injection h with h _; exact absurd h (by decide)
    · injection h with h _; exact absurd h (by decide)
  rw [(Number.C29_signed_partial Number.int (Or.inl rfl) _ 0).2 (fun v hv => absurd hv (hno v)), ok_bind]
  rfl

/-- Two persons with names of three and four bytes, in a buffer of 70 bytes: the hypotheses are met and the program returns true. -/
example :
    let step : Person → Person := fun p => { p with id := p.id + 1, name := 65 :: p.name, insane := !p.insane }
    let p : Person := ⟨7, [66, 67], 30, 5, 6, true⟩
    (∀ q ∈ persons step 2 (step p), q.name.length < 2 ^ 32) ∧ ((persons step 2 (step p)).flatMap Person.bytes).length = 65 ∧
      example02 (fun _ => 8) (same (· == ·) (· == ·)) step 2 p (List.replicate 70 9) = ok true := by
  refine ⟨by decide, by decide +kernel, ?_⟩
  rw [C154_persons _ _ _ _ _ _ (by decide) (by decide)]
  decide +kernel

/-- A vector of two numbered persons, `sizeof` being 72: 4 + 144 bytes are asked for, and the smaller buffer is refused. -/
example :
    let people : List (Nat × Person) := [(1, ⟨7, [66, 67], 30, 5, 6, true⟩), (2, ⟨8, [], 31, 5, 6, false⟩)]
    let eq : Nat × Person → Nat × Person → Bool := fun a b => a.1 == b.1 && same (· == ·) (· == ·) a.2 b.2
    example04People (fun _ => 72) eq people (List.replicate 148 9) = ok true ∧ example04People (fun _ => 72) eq people (List.replicate 147 9) = ok false := by
  constructor
  · rw [C154_vector_to_deque _ (by decide) _ _ (by decide) (by decide) _ (by rw [List.length_replicate]; decide)]
    decide +kernel
  · rw [C154_vector_to_deque _ (by decide) _ _ (by decide) (by decide) _ (by rw [List.length_replicate]; decide)]
    decide +kernel

/-- 123 in four characters as in the program, and -12. -/
example : example07 123 4 (List.replicate 10 0) = ok true ∧ example07 (-12) 4 (List.replicate 10 0) = ok false := by
  constructor <;> decide +kernel

/-! ## Concrete cases of C154 -/

example : example01 (fun _ => 8) (same (· == ·) (· == ·)) ⟨7, [66, 67], 30, 5, 6, true⟩ (List.replicate 70 9) = ok true := by
  rw [C154_one_person _ _ _ (by decide) _ (by decide) (by decide +kernel)]
  decide +kernel

example : example03 (fun _ => 8) (same (· == ·) (· == ·)) (fun p => { p with id := p.id + 1 }) 2 ⟨7, [66, 67], 30, 5, 6, true⟩ (List.replicate 70 9) = ok true := by
  rw [C154_persons_through_file _ _ _ _ _ _ (by decide) (by decide)]
  decide +kernel

theorem items_ok (i : Item) (hi : i ∈ ([⟨.pod 2, [1, 2]⟩, ⟨.str, [3, 4, 5]⟩] : List Item)) : Elems i.1 ∧ Small (fun _ => 8) i.1 ∧ Valid i.1 i.2 := by
  rcases List.mem_cons.mp hi with rfl | hi
  · exact ⟨trivial, by show 2 < 2 ^ 31; decide, rfl⟩
  · rcases List.mem_cons.mp hi with rfl | hi
    · exact ⟨trivial, trivial, by show 3 < 2 ^ 32; decide⟩
    · cases hi

example := C154_total_written (fun _ => 8) [⟨.pod 2, [1, 2]⟩, ⟨.str, [3, 4, 5]⟩] (fun i hi => (items_ok i hi).2) (List.replicate 20 0) (by decide) (by decide +kernel) 1000

example := C154_total_read (fun _ => 8) [⟨.pod 2, [1, 2]⟩, ⟨.str, [3, 4, 5]⟩] items_ok (List.replicate 20 0) (by decide +kernel) (by decide +kernel) 1000

end Strtk.Programs.Serializer
