import Verif.Targets.Model
import Verif.Boxes.Props
import Verif.Parse.Props
import Verif.Lines.Props
import Verif.FileIO.Props
import Mathlib.Data.List.Dedup

/-!
# C115: what a program takes out of a container that strtk has filled
-/

namespace Strtk.Targets
open Outcome Strtk.Parse Strtk.Split Strtk.Codec

variable {V : Type} [LinearOrder V]

/-! ## Specification -/

/-- A container that can exist: a set is strictly increasing, a multiset not decreasing. -/
def Valid : Kind → List V → Prop
  | .set, c => c.Pairwise (· < ·)
  | .multiset, c => c.Pairwise (· ≤ ·)
  | _, _ => True

/-- `out` is what comes out of a container of this kind that held `c` and into which `vs` were put. -/
def Delivers (k : Kind) (c vs out : List V) : Prop :=
  match k with
  | .sequence => out = c ++ vs
  | .queue => out = c ++ vs
  | .stack => out = vs.reverse ++ c.reverse
  | .set => out.Pairwise (· < ·) ∧ ∀ x, x ∈ out ↔ x ∈ c ∨ x ∈ vs
  | .multiset => out.Pairwise (· ≤ ·) ∧ out.Perm (c ++ vs)
  | .priorityQueue => out.Pairwise (· ≥ ·) ∧ out.Perm (c ++ vs)

/-! ## Taking out -/

theorem drain_front (k : Kind) (h1 : k ≠ .stack) (h2 : k ≠ .priorityQueue) (c : List V) : k.drain c = c := by
  unfold Kind.drain
  induction c with
  | nil => rfl
  | cons a c ih =>
    cases k <;> simp_all [drainLoop, Kind.next]

theorem drain_stack (c : List V) : Kind.stack.drain c = c.reverse := by
  have h : ∀ (n : Nat) (c : List V), c.length = n → drainLoop .stack n c = c.reverse := by
    intro n
    induction n with
    | zero => intro c hc; rw [List.length_eq_zero_iff] at hc; subst hc; rfl
    | succ n ih =>
      intro c hc
      rcases List.eq_nil_or_concat c with rfl | ⟨l, a, rfl⟩
      · simp at hc
      · have hl : l.length = n := by simpa using hc
        unfold drainLoop
        simp [Kind.next, ih l hl]
  exact h _ _ rfl

theorem greatest_spec (c : List V) : (greatest c = none ↔ c = []) ∧ ∀ m, greatest c = some m → m ∈ c ∧ ∀ x ∈ c, x ≤ m := by
  induction c with
  | nil => simp [greatest]
  | cons a c ih =>
    unfold greatest
    cases hg : greatest c with
    | none =>
      have : c = [] := ih.1.mp hg
      subst this
      simp
    | some b =>
      obtain ⟨hb, hm⟩ := ih.2 b hg
      simp only
      split
      · rename_i hab
        refine ⟨by simp, ?_⟩
        rintro m ⟨⟩
        refine ⟨List.mem_cons_of_mem _ hb, ?_⟩
        intro x hx
        rcases List.mem_cons.mp hx with rfl | hx
        · exact le_of_lt hab
        · exact hm x hx
      · rename_i hab
        refine ⟨by simp, ?_⟩
        rintro m ⟨⟩
        refine ⟨List.mem_cons_self, ?_⟩
        intro x hx
        rcases List.mem_cons.mp hx with rfl | hx
        · exact le_refl _
        · exact le_trans (hm x hx) (not_lt.mp hab)

theorem drain_priority (c : List V) : (Kind.priorityQueue.drain c).Pairwise (· ≥ ·) ∧ (Kind.priorityQueue.drain c).Perm c := by
  have h : ∀ (n : Nat) (c : List V), c.length = n →
      (drainLoop .priorityQueue n c).Pairwise (· ≥ ·) ∧ (drainLoop .priorityQueue n c).Perm c := by
    intro n
    induction n with
    | zero => intro c hc; rw [List.length_eq_zero_iff] at hc; subst hc; simp [drainLoop]
    | succ n ih =>
      intro c hc
      unfold drainLoop Kind.next
      cases hg : greatest c with
      | none =>
        rw [(greatest_spec c).1.mp hg] at hc
        simp at hc
      | some m =>
        obtain ⟨hm, hmax⟩ := (greatest_spec c).2 m hg
        obtain ⟨i1, i2⟩ := ih (c.erase m) (by rw [List.length_erase_of_mem hm]; omega)
        simp only [hg]
        constructor
        · rw [List.pairwise_cons]
          refine ⟨?_, i1⟩
          intro x hx
          exact hmax x (List.mem_of_mem_erase (i2.mem_iff.mp hx))
        · exact (List.Perm.cons m i2).trans (List.perm_cons_erase hm).symm
  exact h _ _ rfl

theorem fold_append (vs : List V) : ∀ c : List V, vs.foldl (fun c v => c ++ [v]) c = c ++ vs := by
  induction vs with
  | nil => intro c; simp
  | cons v vs ih => intro c; rw [List.foldl_cons, ih]; simp

theorem fold_set (vs : List V) : ∀ c : List V, c.Pairwise (· < ·) →
    (vs.foldl (Kind.set.push) c).Pairwise (· < ·) ∧ ∀ x, x ∈ vs.foldl (Kind.set.push) c ↔ x ∈ c ∨ x ∈ vs := by
  induction vs with
  | nil => intro c h; simp [h]
  | cons v vs ih =>
    intro c h
    rw [List.foldl_cons]
    obtain ⟨i1, i2⟩ := ih (Kind.set.push c v) (Boxes.setInsert_sorted v c h)
    refine ⟨i1, ?_⟩
    intro x
    rw [i2]
    simp only [Kind.push, Boxes.setInsert_mem, List.mem_cons]
    tauto

theorem fold_multiset (vs : List V) : ∀ c : List V, c.Pairwise (· ≤ ·) →
    (vs.foldl (Kind.multiset.push) c).Pairwise (· ≤ ·) ∧ (vs.foldl (Kind.multiset.push) c).Perm (c ++ vs) := by
  induction vs with
  | nil => intro c h; simp [h]
  | cons v vs ih =>
    intro c h
    rw [List.foldl_cons]
    obtain ⟨i1, i2⟩ := ih (Kind.multiset.push c v) (Boxes.multisetInsert_sorted v c h)
    refine ⟨i1, i2.trans ?_⟩
    refine (List.Perm.append_right vs (Boxes.multisetInsert_perm v c)).trans ?_
    exact (List.perm_middle (a := v) (l₁ := c) (l₂ := vs)).symm

theorem filled (k : Kind) (c vs : List V) (h : Valid k c) : Valid k (vs.foldl k.push c) ∧ Delivers k c vs (k.drain (vs.foldl k.push c)) := by
  cases k with
  | sequence => exact ⟨trivial, by rw [drain_front _ (by simp) (by simp)]; exact fold_append vs c⟩
  | queue => exact ⟨trivial, by rw [drain_front _ (by simp) (by simp)]; exact fold_append vs c⟩
  | stack => exact ⟨trivial, by
      rw [drain_stack]
      show (vs.foldl (fun c v => c ++ [v]) c).reverse = _
      rw [fold_append, List.reverse_append]⟩
  | set => exact ⟨(fold_set vs c h).1, by rw [drain_front _ (by simp) (by simp)]; exact fold_set vs c h⟩
  | multiset => exact ⟨(fold_multiset vs c h).1, by rw [drain_front _ (by simp) (by simp)]; exact fold_multiset vs c h⟩
  | priorityQueue => exact ⟨trivial, by
      have := drain_priority (vs.foldl (fun c v => c ++ [v]) c)
      rw [fold_append] at this
      show _ ∧ _
      rw [show vs.foldl Kind.priorityQueue.push c = c ++ vs from fold_append vs c]
      exact this⟩

theorem drain_length (k : Kind) (c : List V) : (k.drain c).length = c.length := by
  cases k with
  | stack => rw [drain_stack, List.length_reverse]
  | priorityQueue => exact (drain_priority c).2.length_eq
  | _ => rw [drain_front _ (by simp) (by simp)]

theorem length_filled (k : Kind) (c vs : List V) (h : Valid k c) : c.length ≤ (vs.foldl k.push c).length ∧
    (k ≠ .set → (vs.foldl k.push c).length = c.length + vs.length) ∧
    (k = .set → (vs.foldl k.push c).length = c.length + (vs.filter (fun v => decide (v ∉ c))).dedup.length) := by
  have hset : k = .set → (vs.foldl k.push c).length = c.length + (vs.filter (fun v => decide (v ∉ c))).dedup.length := by
    rintro rfl
    obtain ⟨h1, h2⟩ := fold_set vs c h
    rw [← List.length_append]
    apply List.Perm.length_eq
    rw [List.perm_ext_iff_of_nodup (h1.imp ne_of_lt)]
    · intro x
      rw [h2]
      simp only [List.mem_append, List.mem_dedup, List.mem_filter, decide_eq_true_eq]
      tauto
    · rw [List.nodup_append]
      refine ⟨h.imp ne_of_lt, List.nodup_dedup _, ?_⟩
      rintro x hx y hy rfl
      simp [hx] at hy
  have hother : k ≠ .set → (vs.foldl k.push c).length = c.length + vs.length := by
    intro hk
    cases k with
    | set => exact absurd rfl hk
    | multiset => rw [(fold_multiset vs c h).2.length_eq, List.length_append]
    | _ => exact (congrArg List.length (fold_append vs c)).trans List.length_append
  refine ⟨?_, hother, hset⟩
  by_cases hk : k = .set
  · rw [hset hk]; omega
  · rw [hother hk]; omega

/-! ## C115 -/

/-- **C115**: after `parse(text, delimiters, container)` the program takes out of the container what its kind promises about what was in it and the
values of the fields that convert, in the order of the text. -/
theorem C115_parse (k : Kind) (c : List V) (hc : Valid k c) (delims s : List Byte) (conv : List Byte → Outcome (Bool × V))
    (spec : List Byte → Option V)
    (hspec : ∀ w, (∀ v, spec w = some v → conv w = ok (true, v)) ∧ (spec w = none → ∃ v, conv w = ok (false, v))) :
    ∃ c', parseContainer { compress := true } delims conv k.push c s = ok ((fields delims s).length, c') ∧ Valid k c' ∧
      Delivers k c ((fields delims s).filterMap spec) (k.drain c') := by
  refine ⟨_, C34_parse_container delims s conv spec k.push c hspec, ?_⟩
  exact filled k c _ hc

/-- With any other split option the same holds of the tokens that `split` delivers. -/
theorem C115_parse_any_option (opt : Opt) (k : Kind) (c : List V) (hc : Valid k c) (delims s : List Byte) (conv : List Byte → Outcome (Bool × V))
    (spec : List Byte → Option V)
    (hspec : ∀ w, (∀ v, spec w = some v → conv w = ok (true, v)) ∧ (spec w = none → ∃ v, conv w = ok (false, v))) :
    ∃ r c', split opt (fun x => decide (x ∈ delims)) s = ok (r, r.length) ∧ parseContainer opt delims conv k.push c s = ok (r.length, c') ∧
      Valid k c' ∧ Delivers k c ((r.map (textOf s)).filterMap spec) (k.drain c') := by
  obtain ⟨r, h1, h2⟩ := C34_parse_container_any_option opt delims s conv spec k.push c hspec
  exact ⟨r, _, h1, h2, filled k c _ hc⟩

/-- **C115**: `parse_n` does the same with the first n fields; it returns by how much the container has grown: for a set only the values count that
were not in it. -/
theorem C115_parse_n (k : Kind) (c : List V) (hc : Valid k c) (delims s : List Byte) (n : Nat) (conv : List Byte → Outcome (Bool × V))
    (spec : List Byte → Option V)
    (hspec : ∀ w, (∀ v, spec w = some v → conv w = ok (true, v)) ∧ (spec w = none → ∃ v, conv w = ok (false, v))) :
    ∃ g c', parseN { compress := true } delims n conv k.push List.length c s = ok (g, c') ∧ Valid k c' ∧
      Delivers k c (((fields delims s).take n).filterMap spec) (k.drain c') ∧ (k.drain c').length = c.length + g ∧
      (k ≠ .set → g = (((fields delims s).take n).filterMap spec).length) ∧
      (k = .set → g = ((((fields delims s).take n).filterMap spec).filter (fun v => decide (v ∉ c))).dedup.length) := by
  obtain ⟨r, e1, e2⟩ := splitN_fields delims s n
  obtain ⟨f1, f2⟩ := filled k c (((fields delims s).take n).filterMap spec) hc
  obtain ⟨g1, g2, g3⟩ := length_filled k c (((fields delims s).take n).filterMap spec) hc
  refine ⟨((((fields delims s).take n).filterMap spec).foldl k.push c).length - c.length, _, ?_, f1, f2, ?_, ?_, ?_⟩
  · unfold parseN
    rw [e1, ok_bind]
    simp only
    rw [e2, insertAll_spec conv spec k.push hspec, ok_bind]
    rfl
  · rw [drain_length]; omega
  · intro h; rw [g2 h]; omega
  · intro h; rw [g3 h]; omega

/-- **C115**: a container as the last argument of `parse` takes the fields behind the first ones, up to the first that does not convert. -/
theorem C115_parse_tail {W : Type} (k : Kind) (c : List V) (hc : Valid k c) (delims s : List Byte) (fs : List (Conv W)) (ts vs : List W)
    (conv : List Byte → Outcome (Bool × V)) (spec : List Byte → Option V)
    (hspec : ∀ w, (∀ v, spec w = some v → conv w = ok (true, v)) ∧ (spec w = none → ∃ v, conv w = ok (false, v)))
    (h1 : ts.length = fs.length) (h2 : vs.length = fs.length)
    (hconv : ∀ (i : Nat) (f : Conv W) t v w, fs[i]? = some f → ts[i]? = some t → vs[i]? = some v → (fields delims s)[i]? = some w →
      f w t = ok (true, v)) (hn : fs.length < (fields delims s).length) :
    let rest := (fields delims s).drop fs.length
    ∃ c', parseTail delims fs ts conv k.push c s = ok (rest.all (fun w => (spec w).isSome), vs, c') ∧ Valid k c' ∧
      Delivers k c ((rest.takeWhile (fun w => (spec w).isSome)).filterMap spec) (k.drain c') :=
  ⟨_, (C34_parse_tail delims s fs ts vs conv spec k.push c hspec h1 h2 hconv).2 hn, filled k c _ hc⟩

/-! ### Text files -/

theorem loadLoop_eq (k : Kind) (conv : List UInt8 → Option V) (fuel : Nat) : ∀ (text : List UInt8) (c : List V) (count : Nat), text.length < fuel →
    loadLoop k conv fuel text c count =
      ok (if (Lines.linesOf text).all (fun l => (conv l).isSome) then some (count + (Lines.linesOf text).length) else none,
        (((Lines.linesOf text).takeWhile (fun l => (conv l).isSome)).filterMap conv).foldl k.push c) := by
  induction fuel with
  | zero => intro text _ _ h; omega
  | succ fuel ih =>
    intro text c count hf
    unfold loadLoop
    rcases Lines.getline_spec text with ⟨rfl, h⟩ | ⟨line, rest, h1, h2, h3, _⟩
    · rw [h]; simp [Lines.linesOf_nil]
    · rw [h1, h2]
      cases hc : conv line with
      | none => simp [hc]
      | some v =>
        simp only [hc]
        rw [ih rest _ _ (by omega)]
        simp only [List.all_cons, hc, Option.isSome_some, Bool.true_and, List.length_cons, List.takeWhile_cons_of_pos, List.filterMap_cons_some,
          List.foldl_cons]
        rw [show count + 1 + (Lines.linesOf rest).length = count + ((Lines.linesOf rest).length + 1) by omega, List.filterMap_cons_some hc,
          List.foldl_cons]

/-- **C115**: `load_from_text_file` puts the values of the lines into the container and returns the number of lines; a line that does not convert
makes it throw, and the values of the lines before it stay in the container. -/
theorem C115_load (k : Kind) (c : List V) (hc : Valid k c) (conv : List UInt8 → Option V) (text : List UInt8) :
    ∃ n c', load k conv (some text) c = ok (n, c') ∧ Valid k c' ∧
      Delivers k c (((Lines.linesOf text).takeWhile (fun l => (conv l).isSome)).filterMap conv) (k.drain c') ∧
      (n = some (Lines.linesOf text).length ↔ ∀ l ∈ Lines.linesOf text, ∃ v, conv l = some v) ∧
      (n = none ↔ ∃ l ∈ Lines.linesOf text, conv l = none) := by
  refine ⟨_, _, loadLoop_eq k conv (text.length + 1) text c 0 (by omega), ?_⟩
  refine ⟨(filled k c _ hc).1, (filled k c _ hc).2, ?_, ?_⟩
  · simp [Option.isSome_iff_exists]
  · simp

/-- A file that cannot be opened leaves the container as it is. -/
theorem C115_no_file (k : Kind) (c : List V) (conv : List UInt8 → Option V) : load k conv none c = ok (some 0, c) := rfl

/-! ### Rows -/

theorem rowLoop_eq {T : Type} (k : Kind) (conv : T → Option V) (ts : List T) : ∀ c : List V, rowLoop k conv ts c =
    (ts.all (fun t => (conv t).isSome), ((ts.takeWhile (fun t => (conv t).isSome)).filterMap conv).foldl k.push c) := by
  induction ts with
  | nil => intro c; rfl
  | cons t ts ih =>
    intro c
    unfold rowLoop
    cases h : conv t with
    | none => simp [h]
    | some v => simp [h, ih]

/-- **C115**: `row.parse(range, container)` puts the values of the tokens of the range into the container up to the first that does not convert, and
tells whether all did; a range that is not one of the row leaves the container as it is. -/
theorem C115_row {T : Type} (k : Kind) (c : List V) (hc : Valid k c) (conv : T → Option V) (row : List T) (a b : Nat) :
    (a ≤ b → b ≤ row.length → ∃ r c', rowParse k conv row a b c = (r, c') ∧ Valid k c' ∧
      Delivers k c ((((row.drop a).take (b - a)).takeWhile (fun t => (conv t).isSome)).filterMap conv) (k.drain c') ∧
      (r = true ↔ ∀ t ∈ (row.drop a).take (b - a), ∃ v, conv t = some v)) ∧
    (¬ (a ≤ b ∧ b ≤ row.length) → rowParse k conv row a b c = (false, c)) := by
  constructor
  · intro h1 h2
    refine ⟨((row.drop a).take (b - a)).all (fun t => (conv t).isSome), _, ?_, (filled k c _ hc).1, (filled k c _ hc).2, ?_⟩
    · unfold rowParse
      rw [if_neg (by omega), if_neg (by omega)]
      exact rowLoop_eq k conv _ c
    · simp [Option.isSome_iff_exists]
  · intro h
    unfold rowParse
    split
    · rfl
    · rw [if_pos (by omega)]

/-! ### Binary files -/

/-- **C115**: `read_pod(stream, count, container)` puts exactly those objects into a set or multiset that it would append to a sequence, and returns the
same (C88 says which those are). -/
theorem C115_read_pod {N : Type} (k : Kind) (c : List V) (hc : Valid k c) (dec : List UInt8 → V) (fs : FileIO.FS N) (s s' : FileIO.IStream N)
    (t : List UInt8) (count : Nat) (r : Bool) (ts : List (List UInt8)) (h : FileIO.readPodSeq fs s t count [] = ok (r, ts, s')) :
    ∃ c', readPods k dec fs s t count c = ok (r, c', s') ∧ Valid k c' ∧ Delivers k c (ts.map dec) (k.drain c') := by
  have key : ∀ (count : Nat) (s : FileIO.IStream N) (t : List UInt8) (acc ts : List (List UInt8)) (c : List V),
      FileIO.readPodSeq fs s t count acc = ok (r, ts, s') →
      ∃ us, ts = acc ++ us ∧ readPods k dec fs s t count c = ok (r, (us.map dec).foldl k.push c, s') := by
    intro count
    induction count with
    | zero =>
      intro s t acc ts c h
      simp only [FileIO.readPodSeq, ok.injEq, Prod.mk.injEq] at h
      obtain ⟨rfl, rfl, rfl⟩ := h
      exact ⟨[], by simp, rfl⟩
    | succ count ih =>
      intro s t acc ts c h
      unfold FileIO.readPodSeq at h
      unfold readPods
      obtain ⟨⟨b, t', s1⟩, h1, h2⟩ := bind_eq_ok.mp h
      rw [h1, ok_bind]
      simp only at h2 ⊢
      cases b with
      | true =>
        rw [if_pos rfl] at h2 ⊢
        obtain ⟨us, rfl, hr⟩ := ih s1 t' _ ts (k.push c (dec t')) h2
        exact ⟨t' :: us, by simp, by rw [hr]; rfl⟩
      | false =>
        rw [if_neg (by simp)] at h2 ⊢
        simp only [ok.injEq, Prod.mk.injEq] at h2
        obtain ⟨rfl, rfl, rfl⟩ := h2
        exact ⟨[], by simp, rfl⟩
  obtain ⟨us, h1, h2⟩ := key count s t [] ts c h
  rw [List.nil_append] at h1
  subst h1
  exact ⟨_, h2, filled k c _ hc⟩

/-- In particular the objects `ts` stored in a file all get into the container. -/
theorem C115_read_pod_file {N : Type} [DecidableEq N] (k : Kind) (c : List V) (hc : Valid k c) (dec : List UInt8 → V) (fs : FileIO.FS N) (s : FileIO.IStream N)
    (ts : List (List UInt8)) (t pre post : List UInt8) (hts : ∀ u ∈ ts, u.length = t.length) (hg : s.good = true) (hp : s.pos = pre.length)
    (hf : fs.get s.name = pre ++ ts.flatten ++ post) :
    ∃ c' s', readPods k dec fs s t ts.length c = ok (true, c', s') ∧ Valid k c' ∧ Delivers k c (ts.map dec) (k.drain c') := by
  obtain ⟨s', h⟩ := FileIO.C88_read_sequence fs ts t.length hts s t pre post [] hg hp hf rfl
  obtain ⟨c', h1, h2⟩ := C115_read_pod k c hc dec fs s s' t ts.length true ts (by simpa using h)
  exact ⟨c', s', h1, h2⟩

/-- Two-byte objects 5 and 3 and 5 of a file, big endian, into a set and a multiset. -/
example : (readPods Kind.set (fun u => u.foldl (fun n b => 256 * n + b.toNat) 0) (⟨fun _ => some [0, 5, 0, 3, 0, 5], fun _ => true, fun _ => true⟩ : FileIO.FS Unit) ⟨(), 0, true⟩ [9, 9] 3 [] >>=
      fun x => ok (x.1, x.2.1)) = ok (true, [3, 5]) := by decide +kernel

/-! ### Pushing and clearing -/

/-- **C115**: `util::push_back`. -/
theorem C115_push_back (k : Kind) (c : List V) (hc : Valid k c) (vs : List V) :
    Valid k (pushBack k c vs) ∧ Delivers k c vs (k.drain (pushBack k c vs)) := by
  have h : ∀ (vs c : List V), pushBack k c vs = vs.foldl k.push c := by
    intro vs
    induction vs with
    | nil => intro c; rfl
    | cons v vs ih => intro c; exact ih _
  rw [h]
  exact filled k c vs hc

/-- **C115**: nothing can be taken out of a cleared container. -/
theorem C115_clear (k : Kind) (c : List V) : k.drain (clear c) = [] := by cases k <;> rfl

omit [LinearOrder V] in
/-- **C115**: `remove_empty_strings` keeps exactly the strings that are not empty, in order, also for sets and multisets. -/
theorem C115_remove_empty (l : List (List UInt8)) :
    removeEmpty l = l.filter (fun s => decide (s ≠ [])) ∧ removeEmptyLoop [] l = l.filter (fun s => decide (s ≠ [])) := by
  have h : ∀ (l before : List (List UInt8)), removeEmptyLoop before l = before ++ l.filter (fun s => decide (s ≠ [])) := by
    intro l
    induction l with
    | nil => intro before; simp [removeEmptyLoop]
    | cons a l ih =>
      intro before
      unfold removeEmptyLoop
      by_cases ha : a = []
      · rw [if_pos ha, ih]; simp [ha]
      · rw [if_neg ha, ih]; simp [ha]
  refine ⟨?_, by rw [h]; rfl⟩
  induction l with
  | nil => rfl
  | cons a l ih =>
    unfold removeEmpty
    by_cases ha : a = []
    · rw [if_pos ha, ih]; simp [ha]
    · rw [if_neg ha, ih]; simp [ha]

/-! ## Examples -/

/-- A converter for one-digit numbers. -/
def digit : List Byte → Outcome (Bool × Nat)
  | [b] => if 48 ≤ b.toNat ∧ b.toNat ≤ 57 then ok (true, b.toNat - 48) else ok (false, 0)
  | _ => ok (false, 0)

/-- "3,x,1,3" parsed into each kind of container that already holds 2. -/
example : ∀ k : Kind, parseContainer { compress := true } [44] digit k.push [2] [51, 44, 120, 44, 49, 44, 51] =
      ok (4, match k with | .set => [1, 2, 3] | .multiset => [1, 2, 3, 3] | _ => [2, 3, 1, 3]) ∧
    k.drain (match k with | .set => [1, 2, 3] | .multiset => [1, 2, 3, 3] | _ => [2, 3, 1, 3]) =
      match k with
      | .sequence => [2, 3, 1, 3] | .queue => [2, 3, 1, 3] | .stack => [3, 1, 3, 2] | .set => [1, 2, 3] | .multiset => [1, 2, 3, 3]
      | .priorityQueue => [3, 3, 2, 1] := by
  intro k
  cases k <;> decide +kernel

/-- "3,1,3" into a set that holds 1: it grows by one. -/
example : parseN { compress := true } [44] 3 digit Kind.set.push List.length [1] [51, 44, 49, 44, 51] = ok (1, [1, 3]) := by decide +kernel

/-- Lines "3", "1", "x" loaded into a stack: the exception leaves two values. -/
example : load Kind.stack (fun l => match l with | [b] => if 48 ≤ b ∧ b ≤ 57 then some (b.toNat - 48) else none | _ => none)
    (some [51, 10, 49, 10, 120, 10]) ([] : List Nat) = ok (none, [3, 1]) := by decide +kernel

/-- The tokens 5, 0, 7, where 0 does not convert. -/
example : rowParse Kind.priorityQueue (fun t : Nat => if t = 0 then none else some t) [5, 0, 7] 0 3 [6] = (false, [6, 5]) ∧
    Kind.priorityQueue.drain [6, 5] = [6, 5] ∧ rowParse Kind.set (fun t : Nat => if t = 0 then none else some t) [5, 0, 7] 2 4 [] = (false, []) := by
  decide

/-! ### Concrete cases of C115 -/

/-- What `digit` accepts. -/
def digitSpec : List Byte → Option Nat
  | [b] => if 48 ≤ b.toNat ∧ b.toNat ≤ 57 then some (b.toNat - 48) else none
  | _ => none

theorem digit_spec (w : List Byte) : (∀ v, digitSpec w = some v → digit w = ok (true, v)) ∧ (digitSpec w = none → ∃ v, digit w = ok (false, v)) := by
  unfold digitSpec digit
  split
  · split
    · exact ⟨fun v h => by cases h; rfl, fun h => absurd h (by simp)⟩
    · exact ⟨fun v h => absurd h (by simp), fun _ => ⟨0, rfl⟩⟩
  · exact ⟨fun v h => absurd h (by simp), fun _ => ⟨0, rfl⟩⟩

theorem valid_sample (k : Kind) : Valid k [1, 2] := by cases k <;> (unfold Valid; decide)

example := fun k => C115_parse k [1, 2] (valid_sample k) [44] [51, 44, 120, 44, 49] digit digitSpec digit_spec
example := fun opt k => C115_parse_any_option opt k [1, 2] (valid_sample k) [44] [51, 44, 120, 44, 49] digit digitSpec digit_spec
example := fun k => C115_parse_n k [1, 2] (valid_sample k) [44] [51, 44, 120, 44, 49] 2 digit digitSpec digit_spec

/-- The first field goes to a text, the others to the container. -/
example := fun k => C115_parse_tail (W := List Byte) k [1, 2] (valid_sample k) [44] [97, 98, 44, 51, 44, 120, 44, 49] [fun w _ => ok (true, w)] [[0]] [[97, 98]] digit digitSpec digit_spec
  rfl rfl (by
    intro i f t v w hf ht hv hw
    match i with
    | 0 =>
      cases hf
      cases hv
      have : w = [97, 98] := by
        have h : (fields [44] [97, 98, 44, 51, 44, 120, 44, 49])[0]? = some [97, 98] := by decide +kernel
        exact (Option.some.inj (h.symm.trans hw)).symm
      rw [this]
    | i + 1 => simp at hf) (by decide +kernel)

end Strtk.Targets
