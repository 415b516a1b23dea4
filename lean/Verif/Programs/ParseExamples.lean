import Verif.Parse.Props
import Verif.Parse.SinkType
import Verif.Number.Props
import Verif.Text.Props
import Mathlib.Data.List.Forall2

/-!
# strtk_examples.cpp: `datetime` and `event_information` (698-769)

A user-defined type that parses itself, inside a container and inside a sink.
-/

namespace Strtk.Programs
open Outcome Strtk.Codec Strtk.Split Strtk.Parse
open Strtk.Number hiding Byte

/-- `struct datetime` (strtk_examples.cpp 698-707); the members are `unsigned int`. -/
structure Datetime where
  year : Nat
  month : Nat
  day : Nat
  hour : Nat
  minute : Nat
  second : Nat
  msecond : Nat
  deriving DecidableEq

/-- The members, in the order in which they are handed to `parse` (712-714). -/
def Datetime.members (d : Datetime) : List Nat := [d.year, d.month, d.day, d.hour, d.minute, d.second, d.msecond]

/-- `string_to_type_converter_impl` for `datetime` (709-715): `t` is the old value. -/
def Datetime.convert (w : List Byte) (t : Datetime) : Outcome (Bool × Datetime) := do
  let (good, vs) ← parse [45, 58, 46, 32] (List.replicate 7 fun s r => parseUnsigned uint s r) t.members w
  match vs with
  | [year, month, day, hour, minute, second, msecond] => ok (good, ⟨year, month, day, hour, minute, second, msecond⟩)
  | _ => ub

/-- `strtk::parse(data,"|",datetime_list)` (727-728).  `fresh` is the local the iterator converts into, which is not initialised
(strtk.hpp 2638-2647). -/
def readDatetimes (fresh : Datetime) (data : List Byte) : Outcome (Nat × List Datetime) :=
  parseContainer { compress := true } [124] (fun w => Datetime.convert w fresh) (fun c v => c ++ [v]) [] data

/-- `strtk::text::right_align(width,'0',value)` (strtk.hpp 15454-15461). -/
def zeroAligned (width v : Nat) : Outcome (List Byte) := do
  let t ← unsignedToString v
  ok (Text.rightAlign width 48 t)

/-- What the loop body prints for a datetime, without the end of the line (733-739). -/
def Datetime.print (d : Datetime) : Outcome (List Byte) := do
  let year ← unsignedToString d.year
  let month ← zeroAligned 2 d.month
  let day ← zeroAligned 2 d.day
  let hour ← zeroAligned 2 d.hour
  let minute ← zeroAligned 2 d.minute
  let second ← zeroAligned 2 d.second
  let msecond ← zeroAligned 3 d.msecond
  ok (year ++ [45] ++ month ++ [45] ++ day ++ [32] ++ hour ++ [58] ++ minute ++ [58] ++ second ++ [46] ++ msecond)

/-- The loop (730-740). -/
def printDatetimes : List Datetime → Outcome (List Byte)
  | [] => ok []
  | d :: ds => do
    let t ← d.print
    let rest ← printDatetimes ds
    ok (t ++ [10] ++ rest)

/-- `parse_example05` (717-741) for any `data`, after its first line of output. -/
def parseExample05 (fresh : Datetime) (data : List Byte) : Outcome (List Byte) := do
  let (_, ds) ← readDatetimes fresh data
  printDatetimes ds

/-- `struct event_information` (743-749); `id` is a `std::size_t`, that is an `unsigned long`. -/
structure Event where
  id : Nat
  name : List Byte
  location : List Byte
  observed : List Datetime
  deriving DecidableEq

/-- The four targets of `parse` (764-767). -/
inductive EventPart where
  | id (v : Nat) | text (s : List Byte) | sink (k : Sink (List Datetime))

/-- The converter of each of the four. -/
def EventPart.convert (fresh : Datetime) (w : List Byte) : EventPart → Outcome (Bool × EventPart)
  | .id v => do let (g, v) ← parseUnsigned ulong w v; ok (g, .id v)
  | .text _ => ok (true, .text w)
  | .sink k => do
    let (g, k) ← k.parse (fun w => Datetime.convert w fresh) (fun c v => c ++ [v]) List.length w
    ok (g, .sink k)

/-- `parse_example06` (753-769) for any `event_data`: the result of `parse` and the event; `e` is the event before. -/
def parseExample06 (fresh : Datetime) (e : Event) (data : List Byte) : Outcome (Bool × Event) := do
  let (good, vs) ← parse [124] (List.replicate 4 fun w (t : EventPart) => t.convert fresh w) [.id e.id, .text e.name, .text e.location, .sink ((Sink.make [44]).bindTo e.observed)] data
  match vs with
  | [.id v, .text n, .text l, .sink k] => ok (good, ⟨v, n, l, (k.target).getD e.observed⟩)
  | _ => ub

/-! ## Specification -/

/-- A number written with at least `k` digits. -/
def zeroPadded (k v : Nat) : List Byte := List.replicate (k - (decText v).length) 48 ++ decText v

/-- YYYY-MM-DD hh:mm:ss.mmm -/
def Datetime.stamp (d : Datetime) : List Byte :=
  decText d.year ++ [45] ++ zeroPadded 2 d.month ++ [45] ++ zeroPadded 2 d.day ++ [32] ++ zeroPadded 2 d.hour ++ [58] ++ zeroPadded 2 d.minute ++ [58] ++
    zeroPadded 2 d.second ++ [46] ++ zeroPadded 3 d.msecond

/-- Every member is an `unsigned int`. -/
def Datetime.Fits (d : Datetime) : Prop := ∀ v ∈ d.members, v < 2 ^ 32

/-- The text starts with seven numerals of `unsigned int`s separated by runs of '-', ':', '.' and ' ', and these are the members. -/
def Reads (w : List Byte) (d : Datetime) : Prop :=
  d.Fits ∧ ∃ ws rest, fields [45, 58, 46, 32] w = ws ++ rest ∧ List.Forall₂ UNumeral ws d.members

/-- id|name|location|stamp,stamp,... -/
def Event.record (e : Event) : List Byte :=
  decText e.id ++ [124] ++ e.name ++ [124] ++ e.location ++ [124] ++ List.intercalate [44] (e.observed.map Datetime.stamp)

/-! ## Proofs -/

theorem UNumeral_unique {s : List Byte} {v v' : Nat} (h : UNumeral s v) (h' : UNumeral s v') : v = v' := by
  obtain ⟨d, ⟨hd, hd2⟩, e, rfl⟩ := h
  obtain ⟨d', ⟨hd', hd2'⟩, e', rfl⟩ := h'
  rcases e with rfl | rfl <;> rcases e' with e' | e'
  · rw [e']
  · subst e'
    exact absurd (hd2 43 (by simp)) (by decide)
  · subst e'
    exact absurd (hd2' 43 (by simp)) (by decide)
  · rw [List.cons.inj e' |>.2]

theorem convertAll_uints : ∀ (ts : List Nat) (ws : List (List Byte)), ts.length ≤ ws.length →
    (∀ vs, (∀ v ∈ vs, v < 2 ^ 32) → List.Forall₂ UNumeral (ws.take ts.length) vs →
      convertAll (List.replicate ts.length fun s r => parseUnsigned uint s r) ts ws = ok (true, vs)) ∧
    ((¬ ∃ vs, (∀ v ∈ vs, v < 2 ^ 32) ∧ List.Forall₂ UNumeral (ws.take ts.length) vs) →
      ∃ vs, vs.length = ts.length ∧ convertAll (List.replicate ts.length fun s r => parseUnsigned uint s r) ts ws = ok (false, vs))
  | [], ws, _ => by
    constructor
    · intro vs _ h
      cases h
      rfl
    · intro h
      exact absurd ⟨[], by simp, by simp⟩ h
  | t :: ts, [], h => by simp at h
  | t :: ts, w :: ws, h => by
    obtain ⟨ih1, ih2⟩ := convertAll_uints ts ws (by simpa using h)
    have hu := C29_unsigned uint (Or.inr (Or.inl rfl)) w t
    constructor
    · intro vs hv hf
      simp only [List.length_cons, List.take_succ_cons] at hf
      cases hf with
      | cons a b =>
        rename_i v vs
        simp only [List.length_cons, List.replicate_succ, convertAll]
        rw [hu.1 v a (by simpa [uint] using hv v (by simp)), ok_bind]
        simp only [if_true]
        rw [ih1 vs (fun x hx => hv x (by simp [hx])) b, ok_bind]
    · intro hn
      simp only [List.length_cons, List.replicate_succ, convertAll]
      by_cases hw : ∃ v, UNumeral w v ∧ v < 2 ^ 32
      · obtain ⟨v, h1, h2⟩ := hw
        rw [hu.1 v h1 (by simpa [uint] using h2), ok_bind]
        simp only [if_true]
        obtain ⟨vs, hl, e⟩ := ih2 (by
          rintro ⟨vs, a, b⟩
          refine hn ⟨v :: vs, ?_, ?_⟩
          · intro x hx
            rcases List.mem_cons.mp hx with rfl | hx
            · exact h2
            · exact a x hx
          · exact List.Forall₂.cons h1 b)
        exact ⟨v :: vs, by simp [hl], by rw [e, ok_bind]⟩
      · rw [hu.2 (fun v hv => by
          by_contra hc
          exact hw ⟨v, hv, by simpa [uint] using hc⟩), ok_bind]
        exact ⟨t :: ts, rfl, rfl⟩

theorem parse_uints (w : List Byte) (delims : List Byte) (ts : List Nat) :
    (∀ vs ws rest, fields delims w = ws ++ rest → vs.length = ts.length → (∀ v ∈ vs, v < 2 ^ 32) → List.Forall₂ UNumeral ws vs →
      parse delims (List.replicate ts.length fun s r => parseUnsigned uint s r) ts w = ok (true, vs)) ∧
    ((¬ ∃ vs ws rest, fields delims w = ws ++ rest ∧ vs.length = ts.length ∧ (∀ v ∈ vs, v < 2 ^ 32) ∧ List.Forall₂ UNumeral ws vs) →
      ∃ vs, vs.length = ts.length ∧ parse delims (List.replicate ts.length fun s r => parseUnsigned uint s r) ts w = ok (false, vs)) := by
  obtain ⟨r, e1, e2⟩ := splitN_fields delims w ts.length
  have hp : parse delims (List.replicate ts.length fun s r => parseUnsigned uint s r) ts w =
      if ts.length > min (fields delims w).length ts.length then ok (false, ts)
      else convertAll (List.replicate ts.length fun s r => parseUnsigned uint s r) ts ((fields delims w).take ts.length) := by
    unfold parse
    rw [List.length_replicate, e1, ok_bind]
    simp only
    rw [e2]
  rw [hp]
  constructor
  · intro vs ws rest h1 h2 h3 h4
    have hl := h4.length_eq
    rw [if_neg (by rw [h1]; simp; omega), h1, List.take_left' (by omega)]
    apply (convertAll_uints ts ws (by omega)).1 vs h3
    rw [List.take_of_length_le (by omega)]
    exact h4
  · intro hn
    split
    · exact ⟨ts, rfl, rfl⟩
    · rename_i hc
      have hc' : ts.length ≤ (fields delims w).length := by omega
      apply (convertAll_uints ts _ (by rw [List.length_take]; omega)).2
      rintro ⟨vs, a, b⟩
      rw [List.take_take, Nat.min_self] at b
      refine hn ⟨vs, _, (fields delims w).drop ts.length, (List.take_append_drop _ _).symm, ?_, a, b⟩
      rw [← b.length_eq, List.length_take]
      omega

/-- What the converter of `datetime` accepts and what it makes of it. -/
theorem C159_accepts (w : List Byte) (t : Datetime) :
    (∀ d, Reads w d → Datetime.convert w t = ok (true, d)) ∧ ((¬ ∃ d, Reads w d) → ∃ d, Datetime.convert w t = ok (false, d)) := by
  have h := parse_uints w [45, 58, 46, 32] t.members
  have hl : t.members.length = 7 := rfl
  rw [hl] at h
  constructor
  · rintro d ⟨hf, ws, rest, e, hw⟩
    unfold Datetime.convert
    rw [h.1 d.members ws rest e rfl hf hw, ok_bind]
    rfl
  · intro hn
    obtain ⟨vs, hv, e⟩ := h.2 (by
      rintro ⟨vs, ws, rest, e, hl, hv, hw⟩
      match vs, hl with
      | [a, b, c, d, f, g, k], _ => exact hn ⟨⟨a, b, c, d, f, g, k⟩, hv, ws, rest, e, hw⟩)
    unfold Datetime.convert
    rw [e, ok_bind]
    match vs, hv with
    | [a, b, c, d, f, g, k], _ => exact ⟨_, rfl⟩

theorem Reads_unique {w : List Byte} {d d' : Datetime} (h : Reads w d) (h' : Reads w d') : d = d' := by
  have a := (C159_accepts w d).1 d h
  rw [(C159_accepts w d).1 d' h'] at a
  exact (Prod.mk.inj (Outcome.ok.inj a)).2.symm

theorem exists_reader : ∃ spec : List Byte → Option Datetime, ∀ w d, spec w = some d ↔ Reads w d := by
  classical
  refine ⟨fun w => if h : ∃ d, Reads w d then some h.choose else none, fun w d => ?_⟩
  by_cases h : ∃ d, Reads w d
  · simp only [h, dif_pos, Option.some.injEq]
    exact ⟨fun e => e ▸ h.choose_spec, fun e => Reads_unique h.choose_spec e⟩
  · simp only [h, dif_neg, not_false_eq_true, reduceCtorEq, false_iff]
    exact fun e => h ⟨d, e⟩

theorem reader_spec {spec : List Byte → Option Datetime} (hspec : ∀ w d, spec w = some d ↔ Reads w d) (fresh : Datetime) (w : List Byte) :
    (∀ v, spec w = some v → Datetime.convert w fresh = ok (true, v)) ∧ (spec w = none → ∃ v, Datetime.convert w fresh = ok (false, v)) := by
  constructor
  · intro v hv
    exact (C159_accepts w fresh).1 v ((hspec w v).1 hv)
  · intro hn
    apply (C159_accepts w fresh).2
    rintro ⟨d, hd⟩
    rw [← hspec, hn] at hd
    exact absurd hd (by simp)

theorem foldl_snoc {V : Type} : ∀ (l c : List V), l.foldl (fun c v => c ++ [v]) c = c ++ l
  | [], c => by simp
  | v :: l, c => by rw [List.foldl_cons, foldl_snoc l]; simp

/-- Reading a list of datetimes keeps exactly the entries that are datetimes, in order, whatever is in the local variable before; the return value is
the number of entries. -/
theorem C159_list (spec : List Byte → Option Datetime) (hspec : ∀ w d, spec w = some d ↔ Reads w d) (fresh : Datetime) (data : List Byte) :
    readDatetimes fresh data = ok ((fields [124] data).length, (fields [124] data).filterMap spec) := by
  unfold readDatetimes
  rw [C34_parse_container [124] data _ spec _ [] (reader_spec hspec fresh), foldl_snoc]
  rfl

theorem zeroAligned_eq (k v : Nat) (h : v < 2 ^ 32) : zeroAligned k v = ok (zeroPadded k v) := by
  rw [zeroAligned, C28_unsigned_text v (by omega), ok_bind, Text.rightAlign, zeroPadded]
  split
  · rename_i hc
    rw [Nat.sub_eq_zero_of_le hc]
    rfl
  · rfl

theorem C159_print (d : Datetime) (h : d.Fits) : d.print = ok d.stamp := by
  have hm : ∀ v ∈ d.members, v < 2 ^ 32 := h
  simp only [Datetime.members, List.mem_cons, List.not_mem_nil, or_false, forall_eq_or_imp, forall_eq] at hm
  obtain ⟨h1, h2, h3, h4, h5, h6, h7⟩ := hm
  unfold Datetime.print
  rw [C28_unsigned_text d.year (by omega), ok_bind, zeroAligned_eq 2 _ h2, ok_bind, zeroAligned_eq 2 _ h3, ok_bind, zeroAligned_eq 2 _ h4, ok_bind,
    zeroAligned_eq 2 _ h5, ok_bind, zeroAligned_eq 2 _ h6, ok_bind, zeroAligned_eq 3 _ h7, ok_bind]
  rfl

theorem decVal_zeros (n : Nat) (s : List Byte) : decVal (List.replicate n 48 ++ s) = decVal s := by
  unfold decVal
  rw [List.foldl_append]
  congr 1
  induction n with
  | zero => rfl
  | succ n ih => rw [List.replicate_succ, List.foldl_cons]; exact ih

theorem zeroPadded_digits (k v : Nat) : Digits (zeroPadded k v) ∧ decVal (zeroPadded k v) = v := by
  obtain ⟨⟨h1, h2⟩, h3⟩ := decText_digits v
  refine ⟨⟨by simp [zeroPadded, h1], ?_⟩, by rw [zeroPadded, decVal_zeros, h3]⟩
  intro c hc
  rcases List.mem_append.mp hc with hc | hc
  · rw [List.eq_of_mem_replicate hc]
    decide
  · exact h2 c hc

theorem decText_zeroPadded (v : Nat) : decText v = zeroPadded 0 v := by simp [zeroPadded]

theorem fields_word (delims w : List Byte) (hn : w ≠ []) (hw : ∀ c ∈ w, c ∉ delims) : fields delims w = [w] := by
  have hw' : ∀ c ∈ w, decide (c ∈ delims) = false := fun c hc => by simpa using hw c hc
  have := collapse_word (fun c => decide (c ∈ delims)) w [] hw'
  simp only [List.append_nil, collapseRuns] at this
  rw [fields, if_neg hn, this, List.splitOnP_eq_singleton hw']

theorem fields_cons (delims w block rest : List Byte) (hn : w ≠ []) (hw : ∀ c ∈ w, c ∉ delims) (hb : block ≠ []) (hd : ∀ c ∈ block, c ∈ delims)
    (hr : rest ≠ []) (hh : ∀ c ∈ rest.head?, c ∉ delims) : fields delims (w ++ block ++ rest) = w :: fields delims rest := by
  have hw' : ∀ c ∈ w, decide (c ∈ delims) = false := fun c hc => by simpa using hw c hc
  obtain ⟨c, hc, he⟩ := collapse_block (fun c => decide (c ∈ delims)) block rest hb (fun c hc => by simpa using hd c hc) (fun c hc => by simpa using hh c hc)
  rw [fields, if_neg (by simp [hn]), List.append_assoc, collapse_word _ w _ hw', he, List.splitOnP_append_cons_of_forall_mem hw' c hc, fields, if_neg hr]

theorem digit_not_delim {c : Byte} (h : isDigit c) : c ∉ ([45, 58, 46, 32] : List Byte) := by
  obtain ⟨h1, h2⟩ := h
  intro hc
  simp only [List.mem_cons, List.not_mem_nil, or_false] at hc
  rcases hc with rfl | rfl | rfl | rfl <;> simp at h1 h2

/-- A numeral, a separator, and more that starts with a digit. -/
theorem fields_numeral (k v : Nat) (c : Byte) (hc : c ∈ ([45, 58, 46, 32] : List Byte)) (rest : List Byte) (hr : ∃ a t, rest = a :: t ∧ isDigit a) :
    fields [45, 58, 46, 32] (zeroPadded k v ++ [c] ++ rest) = zeroPadded k v :: fields [45, 58, 46, 32] rest := by
  obtain ⟨⟨h1, h2⟩, -⟩ := zeroPadded_digits k v
  obtain ⟨a, t, rfl, ha⟩ := hr
  apply fields_cons _ _ _ _ h1 (fun x hx => digit_not_delim (h2 x hx)) (by simp) (by simpa using hc) (by simp)
  intro x hx
  simp at hx
  subst hx
  exact digit_not_delim ha

theorem zeroPadded_head (k v : Nat) (rest : List Byte) : ∃ a t, zeroPadded k v ++ rest = a :: t ∧ isDigit a := by
  obtain ⟨⟨h1, h2⟩, -⟩ := zeroPadded_digits k v
  obtain ⟨a, t, e⟩ := List.exists_cons_of_ne_nil h1
  exact ⟨a, t ++ rest, by rw [e]; rfl, h2 a (by rw [e]; simp)⟩

theorem stamp_fields (d : Datetime) : fields [45, 58, 46, 32] d.stamp =
    [zeroPadded 0 d.year, zeroPadded 2 d.month, zeroPadded 2 d.day, zeroPadded 2 d.hour, zeroPadded 2 d.minute, zeroPadded 2 d.second, zeroPadded 3 d.msecond] := by
  unfold Datetime.stamp
  rw [decText_zeroPadded]
  simp only [List.append_assoc]
  iterate 6
    rw [← List.append_assoc]
    rw [fields_numeral _ _ _ (by simp) _ (by first | exact zeroPadded_head _ _ _ | simpa using zeroPadded_head _ _ [])]
  obtain ⟨⟨h1, h2⟩, -⟩ := zeroPadded_digits 3 d.msecond
  rw [fields_word _ _ h1 fun x hx => digit_not_delim (h2 x hx)]

theorem zeroPadded_numeral (k v : Nat) : UNumeral (zeroPadded k v) v := ⟨_, (zeroPadded_digits k v).1, Or.inl rfl, (zeroPadded_digits k v).2.symm⟩

/-- What was printed for a datetime reads as that datetime, whatever its members are. -/
theorem C159_stamp_reads (d : Datetime) (h : d.Fits) : Reads d.stamp d := by
  refine ⟨h, _, [], (stamp_fields d).trans (List.append_nil _).symm, ?_⟩
  simp only [Datetime.members, List.forall₂_cons, List.Forall₂.nil, and_true]
  exact ⟨zeroPadded_numeral _ _, zeroPadded_numeral _ _, zeroPadded_numeral _ _, zeroPadded_numeral _ _, zeroPadded_numeral _ _, zeroPadded_numeral _ _, zeroPadded_numeral _ _⟩

/-- Every character of a stamp is a digit or one of the four separators. -/
theorem stamp_chars (d : Datetime) : d.stamp ≠ [] ∧ ∀ c ∈ d.stamp, c ≠ 124 ∧ c ≠ 44 := by
  have hp : ∀ k v, ∀ c ∈ zeroPadded k v, c ≠ 124 ∧ c ≠ 44 := by
    intro k v c hc
    obtain ⟨h1, h2⟩ := (zeroPadded_digits k v).1.2 c hc
    constructor <;> rintro rfl <;> simp at h1 h2
  constructor
  · simp [Datetime.stamp]
  · intro c hc
    unfold Datetime.stamp at hc
    rw [decText_zeroPadded] at hc
    simp only [List.mem_append, List.mem_singleton] at hc
    rcases hc with (((((((((((hc | rfl) | hc) | rfl) | hc) | rfl) | hc) | rfl) | hc) | rfl) | hc) | rfl) | hc
    all_goals first | exact hp _ _ c hc | decide

/-- Datetimes that are written one after the other with bars between them are read back, all of them and in order. -/
theorem C159_round_trip (fresh : Datetime) (ds : List Datetime) (h0 : ds ≠ []) (h : ∀ d ∈ ds, d.Fits) :
    readDatetimes fresh (List.intercalate [124] (ds.map Datetime.stamp)) = ok (ds.length, ds) := by
  obtain ⟨spec, hspec⟩ := exists_reader
  have hf : fields [124] (List.intercalate [124] (ds.map Datetime.stamp)) = ds.map Datetime.stamp := by
    have := C37_construct_fields [124] (ds.map Datetime.stamp) (by simp) (by simpa using h0) (by
      intro w hw
      rw [List.mem_map] at hw
      obtain ⟨d, -, rfl⟩ := hw
      exact ⟨(stamp_chars d).1, fun c hc => by simpa using ((stamp_chars d).2 c hc).1⟩)
    rwa [construct_append, List.nil_append] at this
  rw [C159_list spec hspec, hf, List.length_map, List.filterMap_map]
  congr 2
  clear hf h0
  induction ds with
  | nil => rfl
  | cons d ds ih =>
    rw [List.filterMap_cons_some (f := spec ∘ Datetime.stamp) (b := d) ((hspec _ _).2 (C159_stamp_reads d (h d (by simp)))), ih fun x hx => h x (by simp [hx])]

theorem printDatetimes_eq : ∀ ds : List Datetime, (∀ d ∈ ds, d.Fits) → printDatetimes ds = ok (ds.flatMap fun d => d.stamp ++ [10])
  | [], _ => rfl
  | d :: ds, h => by
    rw [printDatetimes, C159_print d (h d (by simp)), ok_bind, printDatetimes_eq ds (fun x hx => h x (by simp [hx])), ok_bind]
    rfl

/-- The program prints one line for each entry of its input that is a datetime, in the canonical form. -/
theorem C159_program (spec : List Byte → Option Datetime) (hspec : ∀ w d, spec w = some d ↔ Reads w d) (fresh : Datetime) (data : List Byte) :
    parseExample05 fresh data = ok (((fields [124] data).filterMap spec).flatMap fun d => d.stamp ++ [10]) := by
  unfold parseExample05
  rw [C159_list spec hspec, ok_bind]
  apply printDatetimes_eq
  intro d hd
  rw [List.mem_filterMap] at hd
  obtain ⟨w, -, hw⟩ := hd
  exact ((hspec w d).1 hw).1

/-- Two datetimes that print alike are the same. -/
theorem C159_distinct (d d' : Datetime) (h : d.Fits) (h' : d'.Fits) (e : d.print = d'.print) : d = d' := by
  rw [C159_print d h, C159_print d' h'] at e
  have := Outcome.ok.inj e
  exact Reads_unique (C159_stamp_reads d h) (this ▸ C159_stamp_reads d' h')

-- "2000/1-2 3:4" is no datetime; "7 8.9-10:11 12...13 14" is one: the separators may be any of the four, and the rest is ignored
example : Reads [55, 32, 56, 46, 57, 45, 49, 48, 58, 49, 49, 32, 49, 50, 46, 46, 46, 49, 51, 32, 49, 52] ⟨7, 8, 9, 10, 11, 12, 13⟩ := by
  refine ⟨by intro v hv; revert v; decide, [[55], [56], [57], [49, 48], [49, 49], [49, 50], [49, 51]], [[49, 52]], by decide +kernel, ?_⟩
  simp only [Datetime.members, List.forall₂_cons, List.Forall₂.nil, and_true]
  refine ⟨⟨_, ⟨?_, ?_⟩, Or.inl rfl, ?_⟩, ⟨_, ⟨?_, ?_⟩, Or.inl rfl, ?_⟩, ⟨_, ⟨?_, ?_⟩, Or.inl rfl, ?_⟩, ⟨_, ⟨?_, ?_⟩, Or.inl rfl, ?_⟩, ⟨_, ⟨?_, ?_⟩, Or.inl rfl, ?_⟩,
    ⟨_, ⟨?_, ?_⟩, Or.inl rfl, ?_⟩, ⟨_, ⟨?_, ?_⟩, Or.inl rfl, ?_⟩⟩ <;> decide
example : (⟨2000, 1, 10, 3, 1, 16, 123⟩ : Datetime).stamp =
    [50, 48, 48, 48, 45, 48, 49, 45, 49, 48, 32, 48, 51, 58, 48, 49, 58, 49, 54, 46, 49, 50, 51] := by simp [Datetime.stamp, zeroPadded, decText]
example : (⟨2000, 99, 4294967295, 3, 1, 16, 1234⟩ : Datetime).Fits := by intro v hv; revert v; decide

/-! ### Events -/

/-- An event written as a record is read back: `id` must be below 2^32, the two texts must not be empty and must not contain bars. -/
theorem C159_event (fresh : Datetime) (e0 e : Event) (hid : e.id < 2 ^ 32) (hn : e.name ≠ [] ∧ 124 ∉ e.name) (hl : e.location ≠ [] ∧ 124 ∉ e.location)
    (ho : e.observed ≠ []) (hd : ∀ d ∈ e.observed, d.Fits) :
    parseExample06 fresh e0 e.record = ok (true, { e with observed := e0.observed ++ e.observed }) := by
  obtain ⟨spec, hspec⟩ := exists_reader
  set obs := List.intercalate [44] (e.observed.map Datetime.stamp) with hobs
  have hmem : ∀ c ∈ obs, c ≠ 124 := by
    intro c hc
    rw [hobs, List.intercalate, List.mem_flatten] at hc
    obtain ⟨l, hl, hc⟩ := hc
    have : ∀ (ls : List (List Byte)) l, l ∈ List.intersperse [44] ls → l = [44] ∨ l ∈ ls := by
      intro ls
      induction ls with
      | nil => intro l h; simp at h
      | cons a ls ih =>
        intro l h
        cases ls with
        | nil => simp at h; simp [h]
        | cons b ls =>
          simp only [List.intersperse, List.mem_cons] at h
          rcases h with rfl | rfl | h
          · simp
          · simp
          · rcases ih l h with h | h
            · exact Or.inl h
            · exact Or.inr (List.mem_cons_of_mem _ h)
    rcases this _ _ hl with rfl | h
    · simp at hc
      subst hc
      decide
    · rw [List.mem_map] at h
      obtain ⟨d, -, rfl⟩ := h
      exact ((stamp_chars d).2 c hc).1
  have hobs0 : obs ≠ [] := by
    obtain ⟨d, ds, hds⟩ := List.exists_cons_of_ne_nil ho
    have := (stamp_chars d).1
    rw [hobs, hds]
    cases ds <;> simp [List.intercalate, List.intersperse, this]
  have hdec : decText e.id ≠ [] ∧ ∀ c ∈ decText e.id, c ∉ ([124] : List Byte) := by
    obtain ⟨⟨a, b⟩, -⟩ := decText_digits e.id
    refine ⟨a, fun c hc => ?_⟩
    obtain ⟨x, y⟩ := b c hc
    intro hh
    simp only [List.mem_singleton] at hh
    subst hh
    simp at x y
  have hrec : e.record = construct [] [124] [decText e.id, e.name, e.location, obs] := by
    rw [construct_append]
    simp [Event.record, List.intercalate, List.intersperse, hobs]
  have hfo : fields [44] obs = e.observed.map Datetime.stamp := by
    have := C37_construct_fields [44] (e.observed.map Datetime.stamp) (by simp) (by simpa using ho) (by
      intro w hw
      rw [List.mem_map] at hw
      obtain ⟨d, -, rfl⟩ := hw
      exact ⟨(stamp_chars d).1, fun c hc => by simpa using ((stamp_chars d).2 c hc).2⟩)
    rwa [construct_append, List.nil_append] at this
  have hconv : (fields [44] obs).filterMap spec = e.observed := by
    rw [hfo]
    clear_value obs
    clear hfo hrec hobs0 hmem hobs ho
    revert hd
    generalize e.observed = ds
    intro hd
    induction ds with
    | nil => rfl
    | cons d ds ih =>
      rw [List.map_cons, List.filterMap_cons_some ((hspec _ _).2 (C159_stamp_reads d (hd d (by simp)))), ih fun x hx => hd x (by simp [hx])]
  have hs := C103_all [44] obs (fun w => Datetime.convert w fresh) spec (fun c v => c ++ [v]) List.length e0.observed (reader_spec hspec fresh)
  rw [foldl_snoc, converted, hconv, decide_eq_true hobs0] at hs
  unfold parseExample06
  rw [hrec, C37_construct_then_parse [124] _ _ _ [.id e.id, .text e.name, .text e.location, .sink ((Sink.make [44]).bindTo (e0.observed ++ e.observed))]
    (by simp) (by simp) _ (by simp) (by simp) (by simp) _, ok_bind]
  · rfl
  · intro w hw
    simp only [List.mem_cons, List.not_mem_nil, or_false] at hw
    rcases hw with rfl | rfl | rfl | rfl
    · exact hdec
    · exact ⟨hn.1, fun c hc hh => hn.2 ((List.mem_singleton.mp hh) ▸ hc)⟩
    · exact ⟨hl.1, fun c hc hh => hl.2 ((List.mem_singleton.mp hh) ▸ hc)⟩
    · exact ⟨hobs0, fun c hc hh => hmem c hc (List.mem_singleton.mp hh)⟩
  · intro i f t v w hf ht hv hw
    match i with
    | 0 =>
      cases hf; cases ht; cases hv; cases hw
      show EventPart.convert fresh (decText e.id) (.id e0.id) = _
      rw [EventPart.convert, (C29_unsigned_long_partial _ _).1 e.id ⟨_, (decText_digits _).1, Or.inl rfl, (decText_digits _).2.symm⟩ hid, ok_bind]
    | 1 => cases hf; cases ht; cases hv; cases hw; rfl
    | 2 => cases hf; cases ht; cases hv; cases hw; rfl
    | 3 =>
      cases hf; cases ht; cases hv; cases hw
      show EventPart.convert fresh obs (.sink ((Sink.make [44]).bindTo e0.observed)) = _
      rw [EventPart.convert, hs, ok_bind]
    | i + 4 => simp at hf

/-- An event without a name loses it: its record has three fields only, the parse fails and nothing is read. -/
theorem C159_event_unnamed (fresh : Datetime) (e0 e : Event) (hn : e.name = []) (hl : e.location ≠ [] ∧ 124 ∉ e.location) (d : Datetime)
    (ho : e.observed = [d]) : parseExample06 fresh e0 e.record = ok (false, e0) := by
  have hdec : decText e.id ≠ [] ∧ ∀ c ∈ decText e.id, c ∉ ([124] : List Byte) := by
    obtain ⟨⟨a, b⟩, -⟩ := decText_digits e.id
    refine ⟨a, fun c hc => ?_⟩
    obtain ⟨x, y⟩ := b c hc
    intro hh
    simp only [List.mem_singleton] at hh
    subst hh
    simp at x y
  obtain ⟨a, t, ht⟩ := List.exists_cons_of_ne_nil hl.1
  have hrec : e.record = decText e.id ++ [124, 124] ++ (e.location ++ [124] ++ d.stamp) := by
    simp [Event.record, hn, ho, List.intercalate, List.intersperse]
  have hloc : ∀ c ∈ e.location, c ∉ ([124] : List Byte) := fun c hc hh => hl.2 ((List.mem_singleton.mp hh) ▸ hc)
  have hst : ∀ c ∈ d.stamp, c ∉ ([124] : List Byte) := fun c hc hh => ((stamp_chars d).2 c hc).1 (List.mem_singleton.mp hh)
  have hf : (fields [124] e.record).length = 3 := by
    rw [hrec, fields_cons _ _ _ _ hdec.1 hdec.2 (by simp) (by simp) (by simp [ht]) (by
      intro c hc
      rw [ht] at hc
      simp at hc
      subst hc
      exact hloc _ (by rw [ht]; simp)),
      fields_cons _ _ _ _ hl.1 hloc (by simp) (by simp) (stamp_chars d).1 (by
        intro c hc
        exact hst c (List.mem_of_mem_head? hc)),
      fields_word _ _ (stamp_chars d).1 hst]
    rfl
  unfold parseExample06
  rw [C33_too_few_fields _ _ _ _ (by rw [hf]; simp), ok_bind]
  rfl

-- the event of the program
example : ∃ e : Event, e.id = 172493 ∧ e.id < 2 ^ 32 ∧ (e.name ≠ [] ∧ 124 ∉ e.name) ∧ (e.location ≠ [] ∧ 124 ∉ e.location) ∧ e.observed ≠ [] ∧
    ∀ d ∈ e.observed, d.Fits :=
  ⟨⟨172493, [76, 117, 110, 97, 114], [77, 97, 114, 101], [⟨2010, 1, 19, 0, 28, 45, 357⟩, ⟨2010, 2, 18, 0, 57, 7, 109⟩]⟩, rfl, by decide, by decide, by decide,
    by simp, by intro d hd v hv; revert v; revert d; decide⟩

example (fresh : Datetime) : ∃ spec : List Byte → Option Datetime, (∀ w d, spec w = some d ↔ Reads w d) ∧
    readDatetimes fresh [49, 124, 50] = ok ((fields [124] [49, 124, 50]).length, (fields [124] [49, 124, 50]).filterMap spec) := by
  obtain ⟨spec, h⟩ := exists_reader
  exact ⟨spec, h, C159_list spec h fresh _⟩

end Strtk.Programs
