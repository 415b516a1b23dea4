import Verif.Guards.Model

/-!
# C69, C70, C74, C92-C94: conditions on texts, guarded parse targets, filters
-/

namespace Strtk.Guards
open Outcome Find

/-! ## Comparisons -/

theorem stdEqual_all (s t : List Byte) (h : s.length = t.length) : stdEqual eqc t s 0 = ok (decide (s = t)) := by
  have := C17_begins_ends_plain (α := Byte) s t
  have h1 := this.1
  unfold Find.beginsWith at h1
  rw [if_pos (by omega)] at h1
  show stdEqual (fun a b => a == b) t s 0 = _
  rw [h1]
  congr 1
  rw [decide_eq_decide]
  constructor
  · intro hp; exact hp.eq_of_length h
  · rintro rfl; exact List.prefix_rfl

theorem occurs_iff (s t : List Byte) : (∃ i, OccursAt eqc s t i) ↔ s <:+: t := by
  constructor
  · rintro ⟨i, u, m, v, rfl, rfl, hm, hz⟩
    have : m = s := by
      have := (occursAt_zero_iff (α := Byte) s (m ++ v)).mp ⟨[], m, v, by simp, rfl, hm, hz⟩
      obtain ⟨w, hw⟩ := this
      exact (List.append_inj hw.symm hm).1
    subst this
    exact ⟨u, v, rfl⟩
  · rintro ⟨u, v, rfl⟩
    refine ⟨u.length, u, s, v, rfl, rfl, rfl, ?_⟩
    intro x hx
    have : ∀ (l : List Byte), ∀ x ∈ l.zip l, x.1 = x.2 := by
      intro l; induction l with
      | nil => simp
      | cons a l ih =>
        simp only [List.zip_cons_cons, List.mem_cons]
        rintro x (rfl | h)
        · rfl
        · exact ih x h
    unfold eqc; rw [this s x hx]; simp

theorem search_end_iff (s t : List Byte) (h : s ≠ [] ∨ t ≠ []) : t.length = search eqc t s 0 ↔ ¬ s <:+: t := by
  rw [← occurs_iff]
  rcases search_spec eqc s t 0 with ⟨h1, h2⟩ | ⟨_, h2, _⟩
  · exact ⟨fun _ ⟨i, hi⟩ => h2 i (by omega) hi, fun _ => h1.symm⟩
  · constructor
    · intro he
      have hle := h2.le
      by_cases hs : s = []
      · subst hs
        have ht : t ≠ [] := by simpa using h
        rcases search_spec eqc [] t 0 with ⟨_, h3⟩ | ⟨_, _, h4⟩
        · exact absurd ⟨[], [], t, by simp, rfl, rfl, by simp⟩ (h3 0 (by omega))
        · exact absurd ⟨[], [], t, by simp, rfl, rfl, by simp⟩ (h4 0 (by omega) (by rw [← he]; exact List.length_pos_iff.mpr ht))
      · have := List.length_pos_iff.mpr hs
        omega
    · intro hno; exact absurd ⟨_, h2⟩ hno

/-! ## C69 -/

/-- **C69**: `equal` and `notequal` decide equality. -/
theorem C69_equal (s t : List Byte) :
    stringCondition .equal s t = ok (decide (s = t)) ∧ stringCondition .notequal s t = ok (decide (s ≠ t)) := by
  unfold stringCondition condition
  by_cases h : s.length = t.length
  · simp [h, stdEqual_all s t h]
  · have : s ≠ t := fun e => h (by rw [e])
    simp [h, this]

/-- **C69**: `within` and `notwithin` decide whether `s` is a substring of `t`. Missing: both texts empty, next theorem. -/
theorem C69_within_partial (s t : List Byte) (h : s ≠ [] ∨ t ≠ []) :
    stringCondition .within s t = ok (decide (s <:+: t)) ∧ stringCondition .notwithin s t = ok (decide (¬ s <:+: t)) := by
  unfold stringCondition condition
  have he := search_end_iff s t h
  by_cases hl : s.length ≤ t.length
  · simp only [hl, if_true, ok_bind]
    refine ⟨?_, ?_⟩
    · congr 1; rw [decide_eq_decide]
      exact ⟨fun hn => Classical.byContradiction fun hc => hn (he.mpr hc), fun hi hc => he.mp hc hi⟩
    · congr 1; rw [decide_eq_decide]; exact he
  · have : ¬ s <:+: t := fun e => hl e.length_le
    simp [hl, this]

/-- **C69** (negative result): the empty text is not found within the empty text. -/
theorem C69_empty_not_within_empty :
    stringCondition .within [] [] = ok false ∧ stringCondition .notwithin [] [] = ok true ∧ ([] : List Byte) <:+: [] := by decide

/-- **C69**: what `begins_with` and `ends_with` really decide: equality.  So they never hold wrongly ... -/
theorem C69_begins_ends (s t : List Byte) :
    stringCondition .beginsWith s t = ok (decide (s = t)) ∧ stringCondition .endsWith s t = ok (decide (s = t)) := by
  unfold stringCondition condition
  by_cases h : s.length = t.length
  · simp only [h, if_true, ok_bind]
    have := C17_begins_ends_plain (α := Byte) s t
    have e1 : Find.beginsWith eqc s t = ok (decide (s <+: t)) := this.1
    have e2 : Find.endsWith eqc s t = ok (decide (s <:+ t)) := this.2
    rw [e1, e2]
    refine ⟨?_, ?_⟩ <;> congr 1 <;> rw [decide_eq_decide]
    · exact ⟨fun hp => hp.eq_of_length h, by rintro rfl; exact List.prefix_rfl⟩
    · exact ⟨fun hp => hp.eq_of_length h, by rintro rfl; exact List.suffix_rfl⟩
  · have : s ≠ t := fun e => h (by rw [e])
    simp [h, this]

/-- ... and are exact for texts of the same length.  Missing: longer texts, next theorem. -/
theorem C69_begins_ends_partial (s t : List Byte) (h : t.length ≤ s.length) :
    stringCondition .beginsWith s t = ok (decide (s <+: t)) ∧ stringCondition .endsWith s t = ok (decide (s <:+ t)) := by
  rw [(C69_begins_ends s t).1, (C69_begins_ends s t).2]
  refine ⟨?_, ?_⟩ <;> congr 1 <;> rw [decide_eq_decide]
  · exact ⟨by rintro rfl; exact List.prefix_rfl, fun hp => hp.eq_of_length (by have := hp.length_le; omega)⟩
  · exact ⟨by rintro rfl; exact List.suffix_rfl, fun hp => hp.eq_of_length (by have := hp.length_le; omega)⟩

/-- **C69** (negative result): a longer text that begins (ends) with `s` is always refused. -/
theorem C69_proper_prefix_refused (s u : List Byte) (hu : u ≠ []) :
    stringCondition .beginsWith s (s ++ u) = ok false ∧ stringCondition .endsWith s (u ++ s) = ok false := by
  rw [(C69_begins_ends s _).1, (C69_begins_ends s _).2]
  have h1 : s ≠ s ++ u := fun h => hu (by simpa using h)
  have h2 : s ≠ u ++ s := fun h => hu (by simpa using h)
  simp [h1, h2]

/-- **C69**: `like` is `match` with `*` and `?` (whose own properties are C15). -/
theorem C69_like (s t : List Byte) : stringCondition .like s t = matchImpl (fun a b => a == b) 42 63 s t := rfl

example : stringCondition .within [98, 99] [97, 98, 99, 100] = ok true ∧ stringCondition .notwithin [98, 100] [97, 98, 99, 100] = ok true ∧
    stringCondition .beginsWith [97] [97, 98] = ok false ∧ stringCondition .equal [97, 98] [97, 98] = ok true := by decide

/-! ## C92: copies of conditions -/

/-- Identities handed out are new, sources of copies are alive. -/
def Fresh (used : List Nat) : Op → Prop
  | .construct id _ _ => id ∉ used
  | .copy _ dst => dst ∉ used
  | .destroy _ => True

/-- The identity an operation uses up. -/
def Op.uses : Op → List Nat
  | .construct id _ _ => [id]
  | .copy _ dst => [dst]
  | .destroy _ => []

/-- A history of operations, from no objects; the second component collects the identities used so far. -/
inductive History : Objects → List Nat → Prop
  | start : History (fun _ => none) []
  | step {objs used} (op : Op) : History objs used → Fresh used op → History (op.run objs) (op.uses ++ used)

theorem history_inv {objs : Objects} {used : List Nat} (h : History objs used) :
    ∀ id o, objs id = some o → id ∈ used ∧ o.target ∈ used ∧ ∀ p, objs o.target = some p → p.s = o.s ∧ p.kind = o.kind := by
  induction h with
  | start => intro id o h; cases h
  | @step objs used op _ hf ih =>
    intro id o ho
    cases op with
    | construct nid kind s =>
      simp only [Op.run, Op.uses, Fresh] at *
      by_cases hi : id = nid
      · subst hi
        simp only [if_true] at ho
        cases ho
        refine ⟨by simp, by simp, ?_⟩
        intro p hp
        simp only [if_true] at hp
        cases hp; exact ⟨rfl, rfl⟩
      · rw [if_neg hi] at ho
        obtain ⟨h1, h2, h3⟩ := ih id o ho
        refine ⟨by simp [h1], by simp [h2], ?_⟩
        intro p hp
        rw [if_neg (fun e : o.target = nid => hf (e ▸ h2))] at hp
        exact h3 p hp
    | copy src dst =>
      simp only [Op.run, Op.uses, Fresh] at *
      have key : ∀ i o, objs i = some o → ∀ p, (if o.target = dst then objs src else objs o.target) = some p → p.s = o.s ∧ p.kind = o.kind := by
        intro i o ho p hp
        obtain ⟨_, h2, h3⟩ := ih i o ho
        rw [if_neg (fun e : o.target = dst => hf (e ▸ h2))] at hp
        exact h3 p hp
      by_cases hi : id = dst
      · subst hi
        simp only [if_true] at ho
        obtain ⟨h1, h2, h3⟩ := ih src o ho
        exact ⟨by simp, by simp [h2], key src o ho⟩
      · rw [if_neg hi] at ho
        obtain ⟨h1, h2, h3⟩ := ih id o ho
        exact ⟨by simp [h1], by simp [h2], key id o ho⟩
    | destroy did =>
      simp only [Op.run, Op.uses, List.nil_append] at *
      by_cases hi : id = did
      · rw [if_pos hi] at ho; cases ho
      · rw [if_neg hi] at ho
        obtain ⟨h1, h2, h3⟩ := ih id o ho
        refine ⟨h1, h2, ?_⟩
        intro p hp
        by_cases ht : o.target = did
        · rw [if_pos ht] at hp; cases hp
        · rw [if_neg ht] at hp; exact h3 p hp

/-- **C92**: after any history of constructions, copies and destructions, a condition whose *original* (the object first constructed, of
which it is a copy of a copy ...) still lives gives the answer of its own text. Missing: originals that were destroyed, next theorem. -/
theorem C92_copies_partial {objs : Objects} {used : List Nat} (h : History objs used) (id : Nat) (o : Obj) (ho : objs id = some o)
    (halive : (objs o.target).isSome) (t : List Byte) : apply objs id t = stringCondition o.kind o.s t := by
  obtain ⟨p, hp⟩ := Option.isSome_iff_exists.mp halive
  obtain ⟨h1, _⟩ := (history_inv h id o ho).2.2 p hp
  unfold apply stringCondition
  rw [ho]
  simp only
  rw [hp]
  simp only
  rw [h1]

/-- **C92** (negative result): a copy used after its original is gone reads the freed string. -/
theorem C92_dangling (kind : Kind) (s t : List Byte) (h : s.length = t.length) :
    ∃ objs used, History objs used ∧ (objs 1).isSome ∧ apply objs 1 t = ub := by
  refine ⟨_, _, ((History.start.step (.construct 0 kind s) (by simp [Fresh])).step (.copy 0 1) (by simp [Fresh, Op.uses])).step
    (.destroy 0) trivial, by simp [Op.run], ?_⟩
  unfold apply
  simp only [Op.run]
  cases kind <;> simp [condition, h]

/-- Non-vacuity of the positive part: a copy made and used while the original lives. -/
example : ∃ objs used, History objs used ∧ apply objs 1 [97] = ok true :=
  ⟨_, _, (History.start.step (.construct 0 .equal [97]) (by simp [Fresh])).step (.copy 0 1) (by simp [Fresh, Op.uses]), by decide⟩

/-! ## C70 -/

/-- **C70**: `expect(s)` accepts exactly the token `s`. -/
theorem C70_expect (s token : List Byte) : expect s token = ok (decide (token = s)) := by
  unfold expect
  by_cases h : token.length = s.length
  · rw [if_neg (by simpa using h), stdEqual_all s token h.symm]
    congr 1; rw [decide_eq_decide]; exact eq_comm
  · rw [if_pos h]
    have : token ≠ s := fun e => h (by rw [e])
    simp [this]

theorem stdEqualM_imatch : ∀ (s pre m : List Byte), m.length = s.length → (∀ c ∈ s, c.toNat < 128) → (∀ c ∈ m, c.toNat < 128) →
    stdEqualM imatchChar (pre ++ m) s pre.length = ok (decide (m.map asciiUpper = s.map asciiUpper)) := by
  intro s
  induction s with
  | nil => intro pre m h _ _; have : m = [] := List.length_eq_zero_iff.mp (by simpa using h); subst this; simp [stdEqualM]
  | cons b s ih =>
    intro pre m h hs hm
    cases m with
    | nil => simp at h
    | cons a m =>
      unfold stdEqualM
      rw [deref_append_cons, ok_bind]
      have ha := hm a (by simp)
      have hb := hs b (by simp)
      have he : imatchChar b a = ok (decide (asciiUpper a = asciiUpper b)) := by
        unfold imatchChar
        rw [toUpper_ascii b hb, toUpper_ascii a ha, ok_bind, ok_bind]
        congr 1; rw [decide_eq_decide]
        constructor
        · intro h; exact (BitVec.eq_of_toNat_eq (by omega)).symm
        · intro h; rw [h]
      rw [he, ok_bind]
      by_cases hu : asciiUpper a = asciiUpper b
      · rw [if_pos (by simpa using hu)]
        have := ih (pre ++ [a]) m (by simpa using h) (fun c hc => hs c (by simp [hc])) (fun c hc => hm c (by simp [hc]))
        simp only [List.append_assoc, List.singleton_append, List.length_append, List.length_singleton] at this
        rw [this]
        simp [hu]
      · rw [if_neg (by simpa using hu)]
        simp [hu]

/-- **C70**: `iexpect(s)` accepts exactly the case variants of `s`. Missing: texts with bytes above 0x7F, next theorem. -/
theorem C70_iexpect_partial (s token : List Byte) (hs : ∀ c ∈ s, c.toNat < 128) (ht : ∀ c ∈ token, c.toNat < 128) :
    iexpect s token = ok (decide (token.map asciiUpper = s.map asciiUpper)) := by
  unfold iexpect
  by_cases h : token.length = s.length
  · rw [if_neg (by simpa using h)]
    simpa using stdEqualM_imatch s [] token h hs ht
  · rw [if_pos h]
    have : token.map asciiUpper ≠ s.map asciiUpper := fun e => h (by simpa using congrArg List.length e)
    simp [this]

/-- **C70** (negative result): a byte from 0x80 to 0xFE reaches `std::toupper` as a negative number. -/
theorem C70_iexpect_high (c : Byte) (h : 128 ≤ c.toNat) (h2 : c ≠ 0xFF) (d : Byte) : iexpect [c] [d] = ub := by
  have hu : toUpper c = ub := by
    unfold toUpper
    rw [if_neg (by omega), if_neg h2]
  unfold iexpect stdEqualM imatchChar
  simp [deref, hu]

/-- **C70**: `inrange(t, low, hi)` accepts exactly the tokens whose value lies in `[low, hi]`, stores the value then, and leaves the target
alone otherwise; for any linearly ordered type. -/
theorem C70_inrange {T : Type} [LE T] [LT T] [DecidableLT T] (hlin : ∀ a b : T, ¬ a < b ↔ b ≤ a) (conv : List Byte → Option T)
    (low hi t : T) (token : List Byte) :
    (∀ v, conv token = some v → low ≤ v → v ≤ hi → inrange conv (fun a b => decide (a < b)) low hi t token = (true, v)) ∧
    ((∀ v, conv token = some v → ¬ (low ≤ v ∧ v ≤ hi)) → inrange conv (fun a b => decide (a < b)) low hi t token = (false, t)) := by
  unfold inrange
  constructor
  · intro v hv h1 h2
    rw [hv]
    simp [(hlin _ _).mpr h1, (hlin _ _).mpr h2]
  · intro h
    cases hc : conv token with
    | none => rfl
    | some v =>
      have := h v hc
      simp only [decide_eq_true_eq]
      by_cases h1 : v < low
      · rw [if_pos h1]
      · rw [if_neg h1]
        by_cases h2 : hi < v
        · rw [if_pos h2]
        · exact absurd ⟨(hlin _ _).mp h1, (hlin _ _).mp h2⟩ this

example : inrange (fun s => some (s.length : Int)) (fun a b => decide (a < b)) 2 3 7 [1, 2, 3] = (true, 3) ∧
    inrange (fun s => some (s.length : Int)) (fun a b => decide (a < b)) 2 3 7 [1, 2, 3, 4] = (false, 7) := by decide

/-- **C70** (negative result): a value that compares with nothing, such as a floating-point NaN, is accepted by every range. -/
theorem C70_inrange_nan {T : Type} (conv : List Byte → Option T) (lt : T → T → Bool) (nan : T) (hn : ∀ x, lt nan x = false ∧ lt x nan = false)
    (low hi t : T) (token : List Byte) (hc : conv token = some nan) : inrange conv lt low hi t token = (true, nan) := by
  simp [inrange, hc, (hn low).1, (hn hi).2]

/-- **C70**: `like` accepts exactly what `match` with `*` and `?` accepts (C15); in particular patterns of ordinary characters accept exactly
themselves, and such a pattern followed by `*` accepts exactly its continuations. -/
theorem C70_like (s token : List Byte) (hs : ∀ c ∈ s, c ≠ 42 ∧ c ≠ 63) :
    like s token = ok (decide (token = s)) ∧ like (s ++ [42]) token = ok (decide (s <+: token)) := by
  have hg : ∀ (tail l t : List Byte), (∀ c ∈ l, c ≠ 42 ∧ c ≠ 63) →
      (Glob eqc 42 63 (l ++ tail) t ↔ ∃ u, t = l ++ u ∧ Glob eqc 42 63 tail u) := by
    intro tail l
    induction l with
    | nil => intro t _; simp
    | cons c l ih =>
      intro t h
      rw [List.cons_append, glob_lit_cons eqc 42 63 c (h c (by simp))]
      constructor
      · rintro ⟨x, d, rfl, h1, h2⟩
        obtain ⟨u, rfl, h3⟩ := (ih d fun x hx => h x (by simp [hx])).mp h2
        have : c = x := by simpa [eqc] using h1
        exact ⟨u, by rw [this]; rfl, h3⟩
      · rintro ⟨u, rfl, h3⟩
        exact ⟨c, l ++ u, rfl, by simp [eqc], (ih _ fun x hx => h x (by simp [hx])).mpr ⟨u, rfl, h3⟩⟩
  constructor
  · obtain ⟨b, h1, h2⟩ := C15_match_exact_partial eqc 42 63 (by decide) s [] token hs (Or.inl rfl)
    rw [hg [] s token hs] at h2
    rw [List.append_nil] at h1
    unfold like
    rw [h1]; congr 1
    rw [Bool.eq_iff_iff, h2, decide_eq_true_iff]
    constructor
    · rintro ⟨u, rfl, h3⟩; rw [(glob_nil_left eqc 42 63 u).mp h3, List.append_nil]
    · rintro rfl; exact ⟨[], by simp, .nil⟩
  · obtain ⟨b, h1, h2⟩ := C15_match_exact_partial eqc 42 63 (by decide) s [42] token hs (Or.inr (Or.inl rfl))
    rw [hg [42] s token hs] at h2
    unfold like
    rw [h1]; congr 1
    rw [Bool.eq_iff_iff, h2, decide_eq_true_iff]
    constructor
    · rintro ⟨u, rfl, _⟩; exact List.prefix_append _ _
    · rintro ⟨u, rfl⟩; exact ⟨u, rfl, glob_all_wild eqc 42 63 [] u (by simp)⟩

example : like [97, 42] [97, 98] = ok true ∧ like [97, 98] [97, 98] = ok true ∧ like [97] [97, 98] = ok false := by decide

/-- **C70**: `fill_array` accepts exactly the tokens of the declared size and then fills the array with the token; nothing outside the first
`size` bytes changes. -/
theorem C70_fill_array (mem : List Byte) (size : Nat) (hm : size ≤ mem.length) (token : List Byte) :
    (token.length = size → fillArray mem size token = ok (true, token ++ mem.drop size)) ∧
    (token.length ≠ size → fillArray mem size token = ok (false, mem)) := by
  unfold fillArray
  constructor
  · intro h
    rw [if_neg (by simpa using h)]
    unfold Mem.copyTo
    rw [if_pos (by omega)]
    simp [h]
  · intro h; rw [if_pos h]

example : fillArray [0, 0, 0, 9] 3 [1, 2, 3] = ok (true, [1, 2, 3, 9]) := by decide

/-- **C70** (negative result): a size larger than the array is not noticed. -/
theorem C70_fill_array_overflow (mem : List Byte) (size : Nat) (hm : mem.length < size) (token : List Byte) (ht : token.length = size) :
    fillArray mem size token = ub := by
  unfold fillArray
  rw [if_neg (by simpa using ht)]
  unfold Mem.copyTo
  rw [if_neg (by omega)]
  rfl

/-- **C70**: a guarded target consumes the whole token when it accepts, and nothing when it does not. -/
theorem C70_consumes {R : Type} (b e : Nat) (r : R) :
    guarded b e (ok (true, r)) = ok (true, r, e) ∧ guarded b e (ok (false, r)) = ok (false, r, b) := ⟨rfl, rfl⟩

/-! ## C93: trimming and case-changing targets -/

/-- The text without the leading / trailing characters of a set. -/
def stripLeft (rem s : List Byte) : List Byte := s.dropWhile (fun c => decide (c ∈ rem))
/-- See `stripLeft`. -/
def stripRight (rem s : List Byte) : List Byte := (stripLeft rem s.reverse).reverse

theorem trimText_eq (rem s : List Byte) :
    trimText rem s 0 = ok (some (stripRight rem (stripLeft rem s))) ∧ trimText rem s 1 = ok (some (stripLeft rem s)) ∧
    ((s = [] ∨ ∃ c ∈ s, c ∉ rem) → trimText rem s 2 = ok (some (stripRight rem s))) := by
  refine ⟨?_, ?_, ?_⟩
  · show (do let r ← Strings.removeLeadingTrailing _ s; ok (some r)) = _
    rw [Strings.C12_remove_leading_trailing]; rfl
  · show (do let r ← Strings.removeLeading _ s; ok (some r)) = _
    rw [Strings.C12_remove_leading]; rfl
  · intro h
    show (do let r ← Strings.removeTrailing _ s; ok (some r)) = _
    rw [Strings.C12_remove_trailing_partial _ s (by simpa using h)]; rfl

/-- **C93**: `trim` converts the token without the leading and trailing characters of the set; `trim_leading` and `trim_trailing` strip one
side.  Missing: `trim_trailing` on a non-empty token of characters of the set only, next theorem. -/
theorem C93_trim_partial {T : Type} (conv : List Byte → Option T) (rem : List Byte) (t : T) (token : List Byte) :
    (trimConv conv rem 0 t token = ok (match conv (stripRight rem (stripLeft rem token)) with | some v => (true, v) | none => (false, t))) ∧
    (trimConv conv rem 1 t token = ok (match conv (stripLeft rem token) with | some v => (true, v) | none => (false, t))) ∧
    ((token = [] ∨ ∃ c ∈ token, c ∉ rem) →
      trimConv conv rem 2 t token = ok (match conv (stripRight rem token) with | some v => (true, v) | none => (false, t))) := by
  obtain ⟨h0, h1, h2⟩ := trimText_eq rem token
  unfold trimConv
  refine ⟨?_, ?_, ?_⟩
  · rw [h0, ok_bind]; simp only; cases conv _ <;> rfl
  · rw [h1, ok_bind]; simp only; cases conv _ <;> rfl
  · intro h; rw [h2 h, ok_bind]; simp only; cases conv _ <;> rfl

/-- **C93**: the same for string targets, which always succeed. -/
theorem C93_trim_string_partial (rem token : List Byte) :
    trimString rem 0 token = ok (true, stripRight rem (stripLeft rem token)) ∧ trimString rem 1 token = ok (true, stripLeft rem token) ∧
    ((token = [] ∨ ∃ c ∈ token, c ∉ rem) → trimString rem 2 token = ok (true, stripRight rem token)) := by
  obtain ⟨h0, h1, h2⟩ := trimText_eq rem token
  unfold trimString
  refine ⟨?_, ?_, ?_⟩
  · rw [h0]; rfl
  · rw [h1]; rfl
  · intro h; rw [h2 h]; rfl

/-- **C93**: a mode that is none of the three is refused, the target is left alone. -/
theorem C93_trim_other_mode {T : Type} (conv : List Byte → Option T) (rem : List Byte) (t : T) (token : List Byte) (mode : Nat) (h : 3 ≤ mode) :
    trimConv conv rem mode t token = ok (false, t) ∧ trimString rem mode token = ok (false, token) := by
  obtain ⟨k, rfl⟩ : ∃ k, mode = k + 3 := ⟨mode - 3, by omega⟩
  exact ⟨rfl, rfl⟩

/-- **C93** (negative result): `trim_trailing` keeps the first character of a token that consists of characters to remove only. -/
theorem C93_trim_trailing_keeps_one (rem : List Byte) (a : Byte) (u : List Byte) (h : ∀ c ∈ a :: u, c ∈ rem) :
    trimString rem 2 (a :: u) = ok (true, [a]) := by
  unfold trimString
  show (do let o ← (do let r ← Strings.removeTrailing _ (a :: u); ok (some r)); _) = _
  rw [Strings.C12_remove_trailing_all_match _ a u (by simpa using h)]; rfl

/-- **C93**: `as_lcase` and `as_ucase` accept every token and store it with its ASCII letters changed. -/
theorem C93_case (token : List Byte) :
    lcase token = (true, token.map fun c => if 65 ≤ c.toNat ∧ c.toNat ≤ 90 then c + 32 else c) ∧
    ucase token = (true, token.map fun c => if 97 ≤ c.toNat ∧ c.toNat ≤ 122 then c - 32 else c) := by
  unfold lcase ucase
  rw [Codec.C22_lowercase, Codec.C22_uppercase]
  exact ⟨rfl, rfl⟩

example : trimString [32] 0 [32, 97, 32, 98, 32] = ok (true, [97, 32, 98]) ∧ trimString [32] 2 [32, 97, 32] = ok (true, [32, 97]) ∧
    trimString [32] 2 [32, 32] = ok (true, [32]) ∧ ucase [97, 49] = (true, [65, 49]) := by decide

/-! ## C74: wildcard filter -/

/-- **C74** (what the code does): with `allow_through_on_match = true` the filter forwards exactly the tokens that do **not** match, with
`false` exactly those that do: the flag is inverted. -/
theorem C74_inverted (pattern token : List Byte) (m : Bool) (hm : matchImpl eqc 42 63 pattern token = ok m) :
    filterOnWildcard pattern true token = ok (if m then [] else [token]) ∧
    filterOnWildcard pattern false token = ok (if m then [token] else []) := by
  unfold filterOnWildcard
  rw [hm]
  cases m <;> simp

/-- **C74** (negative result): whenever `match` answers, the property fails for that token and either value of the flag. -/
theorem C74_never_as_documented (pattern token : List Byte) (allow m : Bool) (hm : matchImpl eqc 42 63 pattern token = ok m) :
    filterOnWildcard pattern allow token ≠ ok (if m = allow then [token] else []) := by
  unfold filterOnWildcard
  rw [hm]
  cases m <;> cases allow <;> simp

/-- **C74** (the part that holds): each token is forwarded at most once, unchanged, and the two values of the flag split the tokens: one of the
two filters forwards the token, the other does not. -/
theorem C74_split_partial (pattern token : List Byte) (m : Bool) (hm : matchImpl eqc 42 63 pattern token = ok m) :
    ∃ b : Bool, filterOnWildcard pattern true token = ok (if b then [token] else []) ∧
      filterOnWildcard pattern false token = ok (if b then [] else [token]) := by
  refine ⟨!m, ?_⟩
  rw [(C74_inverted pattern token m hm).1, (C74_inverted pattern token m hm).2]
  cases m <;> simp

example : filterOnWildcard [97, 42] true [97, 98] = ok [] ∧ filterOnWildcard [97, 42] true [98] = ok [[98]] := by decide

/-- **C74**: `filter_non_empty_range` forwards exactly the non-empty tokens. -/
theorem C74_non_empty (token : List Byte) : filterNonEmpty token = if token = [] then [] else [token] := by
  unfold filterNonEmpty
  by_cases h : token = [] <;> simp [h]

/-! ## C94: filter_on_match -/

/-- `std::equal` from a place in memory, exactly: it leaves the memory iff all of the memory agrees with the string and the string goes on. -/
theorem stdEqual_exact : ∀ (s pre v : List Byte),
    stdEqual eqc (pre ++ v) s pre.length = if v <+: s ∧ v.length < s.length then ub else ok (decide (s <+: v)) := by
  intro s
  induction s with
  | nil => intro pre v; simp [stdEqual]
  | cons b s ih =>
    intro pre v
    unfold stdEqual
    cases v with
    | nil => rw [deref_ub (by simp)]; simp
    | cons a v =>
      rw [deref_append_cons, ok_bind]
      have := ih (pre ++ [a]) v
      simp only [List.append_assoc, List.singleton_append, List.length_append, List.length_singleton] at this
      by_cases h : b = a
      · subst h
        simp only [eqc, beq_self_eq_true, if_true, List.cons_prefix_cons, true_and, List.length_cons, Nat.add_lt_add_iff_right]
        exact this
      · have h' : a ≠ b := fun e => h e.symm
        simp [eqc, h, h', List.cons_prefix_cons]

theorem stdEqual_slice (pre s v : List Byte) (h : ¬ (v <+: s ∧ v.length < s.length)) :
    stdEqual eqc (pre ++ v) s pre.length = ok (decide (s <+: v)) := by
  rw [stdEqual_exact, if_neg h]

/-- One string of the list against the token, case sensitive: a hit is "the memory from the token's start on begins with the string". -/
theorem filterHit_eq (pre token post s : List Byte) (h : ¬ (token ++ post <+: s ∧ (token ++ post).length < s.length)) :
    filterHit false (pre ++ token ++ post) pre.length (pre.length + token.length) s = ok (decide (s <+: token ++ post)) := by
  unfold filterHit
  rw [Nat.add_sub_cancel_left, Mem.slice_append, ok_bind]
  simp only [Bool.false_eq_true, if_false]
  rw [List.append_assoc]
  exact stdEqual_slice pre s (token ++ post) h

/-- **C94** (what the code does, case sensitive, ranges): the token is forwarded iff (some string of the list is a prefix of the text from the
token's start on) agrees with the flag.  Needs that no string of the list
continues beyond the end of the memory that holds the token (`C94_beyond` says what happens then). -/
theorem C94_ranges (allow : Bool) (pre token post : List Byte) (list : List (List Byte))
    (h : ∀ s ∈ list, ¬ (token ++ post <+: s ∧ (token ++ post).length < s.length)) :
    filterOnMatchRange false allow (pre ++ token ++ post) pre.length (pre.length + token.length) list =
      ok (if (decide (∃ s ∈ list, s <+: token ++ post)) = allow then [(pre.length, pre.length + token.length)] else []) := by
  induction list with
  | nil => unfold filterOnMatchRange; cases allow <;> simp
  | cons s rest ih =>
    unfold filterOnMatchRange
    rw [filterHit_eq pre token post s (h s (by simp)), ok_bind, ih (fun x hx => h x (by simp [hx]))]
    by_cases hp : s <+: token ++ post
    · have e1 : decide (∃ x ∈ s :: rest, x <+: token ++ post) = true := decide_eq_true ⟨s, by simp, hp⟩
      simp only [e1, hp, decide_true, if_true]
      cases allow <;> simp
    · simp [hp]

/-- **C94** (the part that holds): when no string of the list is a proper prefix of the token, nor a continuation of it in memory, the
filter forwards exactly the tokens in the list (`allow`) or exactly those not in it. Missing: the general case, next theorem. -/
theorem C94_ranges_partial (allow : Bool) (pre token post : List Byte) (list : List (List Byte))
    (h : ∀ s ∈ list, ¬ (token ++ post <+: s ∧ (token ++ post).length < s.length)) (hp : ∀ s ∈ list, s <+: token ++ post → s.length = token.length) :
    filterOnMatchRange false allow (pre ++ token ++ post) pre.length (pre.length + token.length) list =
      ok (if (decide (token ∈ list)) = allow then [(pre.length, pre.length + token.length)] else []) := by
  rw [C94_ranges allow pre token post list h]
  have : (∃ s ∈ list, s <+: token ++ post) ↔ token ∈ list := by
    constructor
    · rintro ⟨s, hs, hsp⟩
      have : s = token := by
        have h1 := List.prefix_of_prefix_length_le hsp (List.prefix_append token post) (by rw [hp s hs hsp]; exact Nat.le_refl _)
        exact h1.eq_of_length (hp s hs hsp)
      exact this ▸ hs
    · intro ht; exact ⟨token, ht, List.prefix_append _ _⟩
  rw [decide_eq_decide.mpr this]

/-- **C94** (negative result, general): an entry that is a proper prefix of the token counts as a match, whatever else is in the list behind it. -/
theorem C94_prefix_matches (pre token post s : List Byte) (rest : List (List Byte)) (hs : s <+: token) (allow : Bool) :
    filterOnMatchRange false allow (pre ++ token ++ post) pre.length (pre.length + token.length) (s :: rest) =
      ok (if allow then [(pre.length, pre.length + token.length)] else []) := by
  unfold filterOnMatchRange
  have hl := hs.length_le
  rw [filterHit_eq pre token post s (by simp only [List.length_append]; omega), ok_bind,
    decide_eq_true (hs.trans (List.prefix_append _ _))]
  cases allow <;> simp

/-- **C94** (negative result, general): so does an entry whose rest stands behind the token in memory: the token's end is never looked at. -/
theorem C94_continuation_matches (pre token more post : List Byte) (rest : List (List Byte)) (allow : Bool) :
    filterOnMatchRange false allow (pre ++ token ++ (more ++ post)) pre.length (pre.length + token.length) ((token ++ more) :: rest) =
      ok (if allow then [(pre.length, pre.length + token.length)] else []) := by
  unfold filterOnMatchRange
  rw [filterHit_eq pre token (more ++ post) (token ++ more) (by simp only [List.length_append]; omega), ok_bind,
    decide_eq_true (by rw [← List.append_assoc]; exact List.prefix_append _ _)]
  cases allow <;> simp

/-- **C94** (negative result, general): an entry that agrees with all of the memory from the token on, and is longer, is compared beyond the end
of the memory. -/
theorem C94_beyond (pre token post more : List Byte) (c : Byte) (rest : List (List Byte)) (allow : Bool) :
    filterOnMatchRange false allow (pre ++ token ++ post) pre.length (pre.length + token.length) ((token ++ post ++ c :: more) :: rest) = ub := by
  unfold filterOnMatchRange filterHit
  rw [Nat.add_sub_cancel_left, Mem.slice_append, ok_bind]
  simp only [Bool.false_eq_true, if_false]
  rw [List.append_assoc, stdEqual_exact, if_pos ⟨List.prefix_append _ _, by simp⟩]
  rfl

/-- The three cases on texts: "abc" against the entry "a"; the token "a" of "abc" against "ab"; and a string "ab" (with its terminating zero)
against an entry that contains that zero and goes on. -/
example : filterOnMatchRange false true [97, 98, 99] 0 3 [[97]] = ok [(0, 3)] ∧
    filterOnMatchRange false true [97, 98, 99] 0 1 [[97, 98]] = ok [(0, 1)] ∧
    filterOnMatchRange false true [97, 98, 0] 0 2 [[97, 98, 0, 99]] = ub := by decide

/-- **C94**: with case-insensitive comparison (ASCII texts) the range filter is exact. -/
theorem C94_ranges_icase (allow : Bool) (pre token post : List Byte) (list : List (List Byte)) (ht : ∀ c ∈ token, c.toNat < 128)
    (hl : ∀ s ∈ list, ∀ c ∈ s, c.toNat < 128) :
    filterOnMatchRange true allow (pre ++ token ++ post) pre.length (pre.length + token.length) list =
      ok (if (decide (∃ s ∈ list, s.map asciiUpper = token.map asciiUpper)) = allow then [(pre.length, pre.length + token.length)] else []) := by
  induction list with
  | nil => unfold filterOnMatchRange; cases allow <;> simp
  | cons s rest ih =>
    unfold filterOnMatchRange
    have hh : filterHit true (pre ++ token ++ post) pre.length (pre.length + token.length) s =
        ok (decide (s.map asciiUpper = token.map asciiUpper)) := by
      unfold filterHit
      rw [Nat.add_sub_cancel_left, Mem.slice_append, ok_bind]
      simp only [if_true]
      exact C18_imatch_partial s token (hl s (by simp)) ht
    rw [hh, ok_bind, ih (fun x hx => hl x (by simp [hx]))]
    by_cases hp : s.map asciiUpper = token.map asciiUpper
    · have e1 : decide (∃ x ∈ s :: rest, x.map asciiUpper = token.map asciiUpper) = true := decide_eq_true ⟨s, by simp, hp⟩
      simp only [e1, hp, decide_true, if_true]
      cases allow <;> simp
    · simp [hp]

/-- **C94** (negative result): on strings, with `allow_through_on_match = false`, the filter forwards every token, also those in the list
(whenever the comparisons stay inside the token at all). -/
theorem C94_strings_not_blocked (icase : Bool) (t : List Byte) (list : List (List Byte)) (r : List (List Byte))
    (h : filterOnMatchString icase false t list = ok r) : r = [t] := by
  induction list with
  | nil => simpa [filterOnMatchString, eq_comm] using h
  | cons s rest ih =>
    unfold filterOnMatchString at h
    rw [bind_eq_ok] at h
    obtain ⟨b, _, h⟩ := h
    apply ih
    cases b <;> simpa using h

/-- **C94**: on strings, with `allow_through_on_match = true` and case-insensitive comparison (ASCII), exactly the tokens in the list pass. -/
theorem C94_strings_icase (t : List Byte) (list : List (List Byte)) (ht : ∀ c ∈ t, c.toNat < 128) (hl : ∀ s ∈ list, ∀ c ∈ s, c.toNat < 128) :
    filterOnMatchString true true t list = ok (if ∃ s ∈ list, s.map asciiUpper = t.map asciiUpper then [t] else []) := by
  induction list with
  | nil => simp [filterOnMatchString]
  | cons s rest ih =>
    unfold filterOnMatchString
    have hh : filterHit true t 0 t.length s = ok (decide (s.map asciiUpper = t.map asciiUpper)) := by
      unfold filterHit
      have := Mem.slice_append ([] : List Byte) t []
      simp only [List.nil_append, List.append_nil, List.length_nil] at this
      rw [Nat.sub_zero, this, ok_bind]
      simp only [if_true]
      exact C18_imatch_partial s t (hl s (by simp)) ht
    rw [hh, ok_bind, ih (fun x hx => hl x (by simp [hx]))]
    by_cases hp : s.map asciiUpper = t.map asciiUpper <;> simp [hp]

/-- **C94** (what the code does): on strings, case sensitive and with `allow_through_on_match = true`, a string passes iff some entry is a prefix of
it. -/
theorem C94_strings (t : List Byte) (list : List (List Byte)) (h : ∀ s ∈ list, ¬ (t <+: s ∧ t.length < s.length)) :
    filterOnMatchString false true t list = ok (if ∃ s ∈ list, s <+: t then [t] else []) := by
  induction list with
  | nil => simp [filterOnMatchString]
  | cons s rest ih =>
    unfold filterOnMatchString
    have hh : filterHit false t 0 t.length s = ok (decide (s <+: t)) := by
      have := filterHit_eq [] t [] s (by simpa using h s (by simp))
      simpa using this
    rw [hh, ok_bind, ih (fun x hx => h x (by simp [hx]))]
    by_cases hp : s <+: t <;> simp [hp]

example : filterOnMatchString false false [97] [[97], [98]] = ok [[97]] ∧ filterOnMatchString true true [97] [[98], [65]] = ok [[97]] ∧
    filterOnMatchRange true false [97, 44, 98] 0 1 [[98], [65]] = ok [] := by decide

/-- **C94**: `skip_while_matching` stops at the first character that does not match, or at the end. -/
theorem C94_skip (p : Byte → Bool) (pre s : List Byte) :
    skipWhileMatching p (pre ++ s) (s.length + 1) pre.length = ok (pre.length + (s.takeWhile p).length) := by
  induction s generalizing pre with
  | nil => simp [skipWhileMatching]
  | cons c s ih =>
    unfold skipWhileMatching
    rw [if_pos (by simp), deref_append_cons, ok_bind]
    by_cases h : p c
    · rw [if_pos h]
      have := ih (pre ++ [c])
      simp only [List.append_assoc, List.singleton_append, List.length_append, List.length_cons, List.length_nil, Nat.zero_add] at this ⊢
      rw [this]
      simp [h]; omega
    · rw [if_neg h]; simp [h]

example : fillArray [0, 0] 3 [1, 2, 3] = ub := C70_fill_array_overflow [0, 0] 3 (by decide) [1, 2, 3] (by decide)

end Strtk.Guards
