import Verif.Parse.Props

/-!
# parse with targets that are the text, the delimiters, one another, or the container the text lives in (strtk.hpp 3304-3336, 8023-8661, 9801-10030)

The overloads with strings take the address of the text once (9811, 10015: `to_ptr(data), to_ptr(data) + data.size()`) and the tokens are pairs of addresses.  Changing a string, or moving it, makes addresses of its
characters invalid; a later use of one is undefined.  `std::string::assign(first,last)` itself (17292) may be given a part of the string it changes: it works as with a copy of that part.
-/

namespace Strtk.Parse
open Outcome Mem Strtk.Codec Strtk.Split

variable {V : Type}

/-- The variables of the caller, by number. -/
abbrev Vars (V : Type) := Nat → V

/-- One variable changed. -/
def Vars.put (x : Vars V) (i : Nat) (v : V) : Vars V := fun j => if j = i then v else x j

/-- The `strtk_cmpstmt` sequence of `parse` (8053-8073) for targets given as variables, which may repeat.  `text` is the number of the variable that is the text, if it is one; `valid` says whether the
addresses in the list of tokens still are.  The converters get the old value of the target and give the flag and the new value. -/
def convertShared (text : Option Nat) : List ((List Byte → V → Bool × V) × Nat) → Bool → Vars V → List (List Byte) → Outcome (Bool × Vars V)
  | [], _, x, _ => ok (true, x)
  | _ :: _, _, _, [] => ub
  | (f, i) :: fs, valid, x, w :: ws =>
    if !valid then ub
    else
      let (good, v) := f w (x i)
      let x := x.put i v
      if good then convertShared text fs (text != some i) x ws else ok (false, x)

/-- `parse(data,delimiters,t1,...,tn)` (8023-8619, 9801-10019) with the text and the delimiters read from objects that may be variables among the targets: `s` and `delims` are what they hold at the call. -/
def parseShared (text : Option Nat) (delims s : List Byte) (fs : List ((List Byte → V → Bool × V) × Nat)) (x : Vars V) : Outcome (Bool × Vars V) := do
  let (toks, n) ← splitN { compress := true } (delimPred delims) s fs.length
  if fs.length > n then ok (false, x)
  else convertShared text fs true x (toks.map (textOf s))

/-- `while ((end != ++range.second) && delimiter(*range.second));` (3322), the text being there or not. -/
def skipRunLive (live : Bool) {α : Type} (d : α → Bool) (s : List α) (i : Nat) : Outcome Nat := if live then skipRun d s (s.length + 1) i else if i ≠ s.length then ub else ok i

/-- `details::split_compress_delimiters` (3304-3336) with a container as output whose growth may take the text away: `live n` says whether the text is still there after `n` tokens have been stored.  The
tokens stored, as offsets. -/
def compressLive {α : Type} (live : Nat → Bool) (d : α → Bool) (s : List α) : Nat → Nat → Nat → List (Nat × Nat) → Outcome (List (Nat × Nat))
  | 0, _, _, _ => diverge
  | fuel + 1, first, second, out =>
    if second ≠ s.length then
      if !live out.length then ub
      else do
        let c ← deref s second
        if d c then do
          let out := out ++ [(first, second)]
          let second ← skipRunLive (live out.length) d s (second + 1)
          let first := second
          let second := if second ≠ s.length then second + 1 else second
          compressLive live d s fuel first second out
        else compressLive live d s fuel first (second + 1) out
    else if first ≠ second then
      if !live out.length then ub else ok (out ++ [(first, second)])
    else if second = 0 then ub
    else if !live out.length then ub
    else do
      let c ← deref s (second - 1)
      if d c then ok (out ++ [(first, second)]) else ok out

/-- `parse(c[k],delimiters,c)` (8623-8661, 10020-10035) for a sequence `c` of strings: the count and the sequence.  `live n` says whether the characters of the element stay where they are when `n`
elements have been added. -/
def parseOwn (live : Nat → Bool) (delims : List Byte) (c : List (List Byte)) (k : Nat) : Outcome (Nat × List (List Byte)) := do
  let s ← deref c k
  if s.length = 0 then ok (0, c)
  else do
    let toks ← compressLive live (delimPred delims) s (s.length + 1) 0 0 []
    ok (toks.length, c ++ toks.map (textOf s))

/-- A `std::vector` moves its elements when it grows beyond its capacity; the characters of a short string move with it. -/
def vectorLive (size capacity : Nat) : Nat → Bool := fun n => size + n ≤ capacity

/-- A `std::deque` or a `std::list` never moves its elements when one is added at the end. -/
def dequeLive : Nat → Bool := fun _ => true

/-! ## Specification -/

/-- The number of leading fields that convert, where a conversion may depend on the value before it: that many conversions succeed, the next one fails or there is none. -/
def convertible : List ((List Byte → V → Bool × V) × Nat) → Vars V → List (List Byte) → Nat
  | (f, i) :: fs, x, w :: ws => if (f w (x i)).1 then convertible fs (x.put i (f w (x i)).2) ws + 1 else 0
  | _, _, _ => 0

/-- The variables after the first `n` conversions, one after the other. -/
def valuesAfter : Nat → List ((List Byte → V → Bool × V) × Nat) → Vars V → List (List Byte) → Vars V
  | n + 1, (f, i) :: fs, x, w :: ws => valuesAfter n fs (x.put i (f w (x i)).2) ws
  | _, _, x, _ => x

/-- A conversion is tried after one that wrote the variable `text`. -/
def WritesEarly (text : Option Nat) (fs : List ((List Byte → V → Bool × V) × Nat)) (x : Vars V) (ws : List (List Byte)) : Prop :=
  ∃ j t, text = some t ∧ (fs[j]?).map Prod.snd = some t ∧ j < convertible fs x ws ∧ j + 1 < fs.length

/-! ## Proofs -/

theorem convertShared_spec (text : Option Nat) : ∀ (fs : List ((List Byte → V → Bool × V) × Nat)) (x : Vars V) (ws : List (List Byte)), fs.length ≤ ws.length →
    (WritesEarly text fs x ws → convertShared text fs true x ws = ub) ∧
    (¬ WritesEarly text fs x ws → convertShared text fs true x ws = ok (decide (convertible fs x ws = fs.length), valuesAfter (convertible fs x ws + 1) fs x ws)) := by
  intro fs
  induction fs with
  | nil =>
    intro x ws _
    refine ⟨by rintro ⟨j, t, _, _, _, h⟩; simp at h, fun _ => ?_⟩
    cases ws <;> rfl
  | cons p fs ih =>
    obtain ⟨f, i⟩ := p
    intro x ws hl
    match ws with
    | [] => simp at hl
    | w :: ws =>
      simp only [List.length_cons, Nat.add_le_add_iff_right] at hl
      rcases e : f w (x i) with ⟨good, v⟩
      have hc : convertible ((f, i) :: fs) x (w :: ws) = if good then convertible fs (x.put i v) ws + 1 else 0 := by
        simp only [convertible, e]
      have hv : ∀ n, valuesAfter (n + 1) ((f, i) :: fs) x (w :: ws) = valuesAfter n fs (x.put i v) ws := by
        intro n; simp only [valuesAfter, e]
      have hs : convertShared text ((f, i) :: fs) true x (w :: ws) = if good then convertShared text fs (text != some i) (x.put i v) ws else ok (false, x.put i v) := by
        simp only [convertShared, e, Bool.not_true, Bool.false_eq_true, if_false]
      unfold WritesEarly
      rw [hs, hc, hv]
      cases good with
      | false =>
        simp only [Bool.false_eq_true, if_false]
        refine ⟨by rintro ⟨j, t, _, _, h, _⟩; omega, fun _ => ?_⟩
        simp [valuesAfter]
      | true =>
        simp only [if_true]
        by_cases hti : text = some i
        · rw [show (text != some i) = false by simp [hti]]
          cases fs with
          | nil =>
            refine ⟨by rintro ⟨j, t, _, _, _, h⟩; simp at h, fun _ => ?_⟩
            cases ws <;> simp [convertShared, convertible, valuesAfter]
          | cons p2 fs =>
            refine ⟨fun _ => ?_, fun h => absurd ⟨0, i, hti, by simp, by omega, by simp⟩ h⟩
            match ws with
            | [] => simp at hl
            | w2 :: ws => obtain ⟨f2, i2⟩ := p2; simp [convertShared]
        · rw [show (text != some i) = true by simp [hti]]
          obtain ⟨h1, h2⟩ := ih (x.put i v) ws hl
          constructor
          · rintro ⟨j, t, g1, g2, g3, g4⟩
            refine h1 ?_
            match j with
            | 0 => simp at g2; exact absurd (g2 ▸ g1) hti
            | j + 1 => exact ⟨j, t, g1, by simpa using g2, by omega, by simp at g4; omega⟩
          · intro hn
            rw [h2 (by rintro ⟨j, t, g1, g2, g3, g4⟩; exact hn ⟨j + 1, t, g1, by simpa using g2, by omega, by simp; omega⟩)]
            simp

theorem convertible_take : ∀ (fs : List ((List Byte → V → Bool × V) × Nat)) (x : Vars V) (ws : List (List Byte)), convertible fs x (ws.take fs.length) = convertible fs x ws := by
  intro fs
  induction fs with
  | nil => intro x ws; cases ws <;> rfl
  | cons p fs ih =>
    obtain ⟨f, i⟩ := p
    intro x ws
    cases ws with
    | nil => rfl
    | cons w ws => simp only [List.length_cons, List.take_succ_cons, convertible, ih]

theorem valuesAfter_take : ∀ (fs : List ((List Byte → V → Bool × V) × Nat)) (n : Nat) (x : Vars V) (ws : List (List Byte)), valuesAfter n fs x (ws.take fs.length) = valuesAfter n fs x ws := by
  intro fs
  induction fs with
  | nil => intro n x ws; cases n <;> cases ws <;> rfl
  | cons p fs ih =>
    obtain ⟨f, i⟩ := p
    intro n x ws
    cases ws with
    | nil => rfl
    | cons w ws =>
      cases n with
      | zero => rfl
      | succ n => simp only [List.length_cons, List.take_succ_cons, valuesAfter, ih]

/-- C175: what `parse` into variables does, whichever of them are the same, the text or the delimiters.  With fewer fields than targets nothing changes.  Otherwise the conversions are done one after the
other up to the first that fails, each into its variable as the ones before left it; the delimiters may be among the targets; and so may the text, unless another conversion is tried after it was written:
then, and only then, the call is undefined. -/
theorem C175_targets_partial (text : Option Nat) (delims s : List Byte) (fs : List ((List Byte → V → Bool × V) × Nat)) (x : Vars V) :
    ((fields delims s).length < fs.length → parseShared text delims s fs x = ok (false, x)) ∧
    (fs.length ≤ (fields delims s).length → ¬ WritesEarly text fs x (fields delims s) →
      parseShared text delims s fs x = ok (decide (convertible fs x (fields delims s) = fs.length), valuesAfter (convertible fs x (fields delims s) + 1) fs x (fields delims s))) ∧
    (fs.length ≤ (fields delims s).length → WritesEarly text fs x (fields delims s) → parseShared text delims s fs x = ub) := by
  obtain ⟨r, e1, e2⟩ := splitN_fields delims s fs.length
  unfold parseShared
  rw [e1, ok_bind]
  simp only
  have hw : WritesEarly text fs x ((fields delims s).take fs.length) ↔ WritesEarly text fs x (fields delims s) := by
    unfold WritesEarly; rw [convertible_take]
  refine ⟨fun h => by rw [if_pos (by omega)], fun h hn => ?_, fun h hn => ?_⟩
  · rw [if_neg (by omega), e2, (convertShared_spec text fs x _ (by simp; omega)).2 (fun h => hn (hw.mp h)), convertible_take, valuesAfter_take]
  · rw [if_neg (by omega), e2, (convertShared_spec text fs x _ (by simp; omega)).1 (hw.mpr hn)]

/-- C175: the value a variable ends with: that of the last conversion into it, or its old one if there was none. -/
theorem C175_last_wins : ∀ (n : Nat) (fs : List ((List Byte → V → Bool × V) × Nat)) (x : Vars V) (ws : List (List Byte)) (i : Nat), n ≤ fs.length → n ≤ ws.length →
    ((∀ j < n, (fs[j]?).map Prod.snd ≠ some i) → valuesAfter n fs x ws i = x i) ∧
    ∀ j f w, j < n → fs[j]? = some (f, i) → ws[j]? = some w → (∀ k, j < k → k < n → (fs[k]?).map Prod.snd ≠ some i) → ∃ old, valuesAfter n fs x ws i = (f w old).2 := by
  intro n
  induction n with
  | zero => intro fs x ws i _ _; exact ⟨fun _ => by cases fs <;> rfl, by omega⟩
  | succ n ih =>
    intro fs x ws i h1 h2
    match fs, ws with
    | [], _ => simp at h1
    | _ :: _, [] => simp at h2
    | (f, t) :: fs, w :: ws =>
      simp only [List.length_cons, Nat.add_le_add_iff_right] at h1 h2
      obtain ⟨g1, g2⟩ := ih fs (x.put t (f w (x t)).2) ws i h1 h2
      constructor
      · intro h
        have h0 := h 0 (by omega)
        simp at h0
        show valuesAfter n fs (x.put t (f w (x t)).2) ws i = x i
        rw [g1 (fun j hj => by simpa using h (j + 1) (by omega))]
        exact if_neg (Ne.symm h0)
      · intro j f' w' hj hf hw hk
        match j with
        | 0 =>
          simp only [List.getElem?_cons_zero, Option.some.injEq, Prod.mk.injEq] at hf hw
          obtain ⟨rfl, rfl⟩ := hf
          subst hw
          refine ⟨x t, ?_⟩
          show valuesAfter n fs (x.put t (f w (x t)).2) ws t = _
          rw [g1 (fun j hj => by simpa using hk (j + 1) (by omega) (by omega))]
          exact if_pos rfl
        | j + 1 =>
          exact g2 j f' w' (by omega) (by simpa using hf) (by simpa using hw) (fun k h3 h4 => by simpa using hk (k + 1) (by omega) (by omega))

theorem skipRun_last {α : Type} (d : α → Bool) (s : List α) : ∀ fuel i, i ≤ s.length → s.length < fuel + i → ∃ j, skipRun d s fuel i = ok j ∧ i ≤ j ∧ j ≤ s.length ∧ (∀ h : j - 1 < s.length, i < j → d s[j - 1] = true) := by
  intro fuel
  induction fuel with
  | zero => intro i h1 h2; omega
  | succ fuel ih =>
    intro i h1 h2
    unfold skipRun
    by_cases hi : i = s.length
    · rw [if_neg (by simp [hi])]; exact ⟨i, rfl, Nat.le_refl _, h1, fun _ h => by omega⟩
    · have hlt : i < s.length := by omega
      rw [if_pos hi, deref_eq_ok hlt, ok_bind]
      by_cases hd : d s[i] = true
      · rw [if_pos hd]
        obtain ⟨j, g1, g2, g3, g4⟩ := ih (i + 1) (by omega) (by omega)
        refine ⟨j, g1, by omega, g3, fun h h' => ?_⟩
        by_cases e : i + 1 < j
        · exact g4 h e
        · have : j - 1 = i := by omega
          simp only [this]; exact hd
      · rw [if_neg hd]; exact ⟨i, rfl, Nat.le_refl _, h1, fun _ h => by omega⟩

/-- The two loops side by side: the same tokens if the text is there until the last of them is stored, undefined otherwise. -/
theorem compressLive_spec {α : Type} (live : Nat → Bool) (hlive : ∀ n m, n ≤ m → live m = true → live n = true) (d : α → Bool) (s : List α) (hs : s ≠ []) :
    ∀ fuel first second out, first ≤ second → second ≤ s.length → s.length < fuel + second →
      (first = second → second = 0 ∨ (second = s.length ∧ ∀ h : second - 1 < s.length, d s[second - 1] = true)) →
      ∃ ts, compressLoop d s fuel first second out out.length = ok (ts, ts.length) ∧ out.length < ts.length ∧
        compressLive live d s fuel first second out = if live (ts.length - 1) then ok ts else ub := by
  have hpos : 0 < s.length := List.length_pos_iff.mpr hs
  intro fuel
  induction fuel with
  | zero => intro first second out h1 h2 h3; omega
  | succ fuel ih =>
    intro first second out h1 h2 h3 hst
    unfold compressLoop compressLive
    by_cases hi : second = s.length
    · rw [if_neg (by simp [hi]), if_neg (by simp [hi])]
      refine ⟨out ++ [(first, second)], ?_, by simp, ?_⟩
      · unfold finish
        by_cases hfs : first = second
        · rcases hst hfs with h | ⟨_, h⟩
          · omega
          · have hlt : second - 1 < s.length := by omega
            rw [if_neg (by simp [hfs]), if_neg (by omega), deref_eq_ok hlt, ok_bind, if_pos (h hlt)]
            simp
        · rw [if_pos hfs]; simp
      · simp only [List.length_append, List.length_singleton, Nat.add_sub_cancel]
        cases hl : live out.length with
        | false =>
          simp only [Bool.not_false, if_true, Bool.false_eq_true, if_false]
          split
          · rfl
          · split <;> rfl
        | true =>
          simp only [Bool.not_true, Bool.false_eq_true, if_false, if_true]
          by_cases hfs : first = second
          · rcases hst hfs with h | ⟨_, h⟩
            · omega
            · have hlt : second - 1 < s.length := by omega
              rw [if_neg (by simp [hfs]), if_neg (by omega), deref_eq_ok hlt, ok_bind, if_pos (h hlt)]
          · rw [if_pos hfs]
    · have hlt : second < s.length := by omega
      rw [if_pos hi, if_pos hi, deref_eq_ok hlt, ok_bind]
      by_cases hd : d s[second] = true
      · rw [if_pos hd]
        obtain ⟨j, g1, g2, g3, g4⟩ := skipRun_last d s (s.length + 1) (second + 1) (by omega) (by omega)
        obtain ⟨ts, e1, e2, e3⟩ := ih j (if j ≠ s.length then j + 1 else j) (out ++ [(first, second)]) (by split <;> omega) (by split <;> omega) (by split <;> omega) (by
          intro h
          by_cases hj : j = s.length
          · simp only [hj, ne_eq, not_true_eq_false, if_false] at h ⊢
            refine Or.inr ⟨trivial, fun hh => ?_⟩
            by_cases hjs : second + 1 < j
            · have := g4 (by omega) hjs
              simp only [hj] at this
              exact this
            · have : s.length - 1 = second := by omega
              simp only [this]; exact hd
          · rw [if_pos hj] at h; omega)
        simp only [List.length_append, List.length_singleton] at e1 e2
        refine ⟨ts, ?_, by omega, ?_⟩
        · simp only
          rw [g1, ok_bind]
          exact e1
        · cases hl : live out.length with
          | false =>
            have : live (ts.length - 1) = false := by
              cases h : live (ts.length - 1) with
              | false => rfl
              | true => rw [hlive _ _ (by omega) h] at hl; exact absurd hl (by simp)
            rw [this]
            simp
          | true =>
            simp only [Bool.not_true, Bool.false_eq_true, if_false, ok_bind]
            rw [if_pos hd]
            simp only [List.length_append, List.length_singleton]
            cases hl2 : live (out.length + 1) with
            | true =>
              simp only [skipRunLive, if_true]
              rw [g1, ok_bind]
              exact e3
            | false =>
              have : live (ts.length - 1) = false := by
                cases h : live (ts.length - 1) with
                | false => rfl
                | true => rw [hlive _ _ (by omega) h] at hl2; exact absurd hl2 (by simp)
              rw [this] at e3 ⊢
              simp only [skipRunLive, Bool.false_eq_true, if_false]
              by_cases hend : second + 1 = s.length
              · rw [if_neg (by simp [hend]), ok_bind]
                have hj : j = second + 1 := by omega
                rw [hj] at e3
                exact e3
              · rw [if_pos hend]; rfl
      · rw [if_neg hd]
        obtain ⟨ts, e1, e2, e3⟩ := ih first (second + 1) out (by omega) (by omega) (by omega) (by omega)
        refine ⟨ts, e1, e2, ?_⟩
        cases hl : live out.length with
        | false =>
          have : live (ts.length - 1) = false := by
            cases h : live (ts.length - 1) with
            | false => rfl
            | true => rw [hlive _ _ (by omega) h] at hl; exact absurd hl (by simp)
          rw [this]
          simp
        | true =>
          simp only [Bool.not_true, Bool.false_eq_true, if_false, ok_bind]
          rw [if_neg hd]
          exact e3

theorem parseOwn_spec (live : Nat → Bool) (hlive : ∀ n m, n ≤ m → live m = true → live n = true) (delims : List Byte) (c : List (List Byte)) (k : Nat) (s : List Byte) (hk : c[k]? = some s) :
    parseOwn live delims c k = if s = [] ∨ live ((fields delims s).length - 1) = true then ok ((fields delims s).length, c ++ fields delims s) else ub := by
  have hd : deref c k = ok s := by unfold deref; rw [hk]
  unfold parseOwn
  rw [hd, ok_bind]
  by_cases hs : s = []
  · subst hs
    rw [if_pos (show ([] : List Byte).length = 0 from rfl), if_pos (Or.inl rfl)]
    simp [fields]
  · have hpos : 0 < s.length := List.length_pos_iff.mpr hs
    rw [if_neg (by omega)]
    obtain ⟨ts, h1, h2, h3⟩ := compressLive_spec live hlive (delimPred delims) s hs (s.length + 1) 0 0 [] (Nat.le_refl _) (Nat.zero_le _) (by omega) (fun _ => Or.inl rfl)
    obtain ⟨r, e1, e2⟩ := split_fields delims s
    have hsp : split { compress := true } (delimPred delims) s = compressLoop (delimPred delims) s (s.length + 1) 0 0 [] 0 := by
      unfold split splitCompress
      rw [if_neg (by omega)]
      rfl
    rw [hsp] at e1
    simp only [List.length_nil] at h1
    rw [h1] at e1
    simp only [Outcome.ok.injEq, Prod.mk.injEq] at e1
    obtain ⟨rfl, -⟩ := e1
    have hlen : (fields delims s).length = ts.length := by rw [← e2, List.length_map]
    rw [h3, hlen]
    simp only [hs, false_or]
    split
    · rw [ok_bind, e2]
    · rfl

/-- C175: parsing an element of a `std::vector` of strings into that vector appends its fields if the vector has room, without growing, for all of them but the last, and is undefined otherwise. -/
theorem C175_vector_partial (delims : List Byte) (c : List (List Byte)) (capacity k : Nat) (s : List Byte) (hk : c[k]? = some s) (hcap : c.length ≤ capacity) :
    parseOwn (vectorLive c.length capacity) delims c k =
      if c.length + (fields delims s).length ≤ capacity + 1 then ok ((fields delims s).length, c ++ fields delims s) else ub := by
  rw [parseOwn_spec _ (by intro n m h; simp only [vectorLive, decide_eq_true_eq]; omega) delims c k s hk]
  by_cases hs : s = []
  · subst hs
    rw [if_pos (Or.inl rfl), if_pos (by simp [fields]; omega)]
  · simp only [hs, false_or, vectorLive, decide_eq_true_eq]
    have hf : (fields delims s).length ≠ 0 := by
      unfold fields
      rw [if_neg hs]
      simp [List.splitOnP_ne_nil]
    by_cases h : c.length + (fields delims s).length ≤ capacity + 1
    · rw [if_pos h, if_pos (by omega)]
    · rw [if_neg h, if_neg (by omega)]

/-- C175: parsing an element of a `std::deque` or `std::list` of strings into it always appends its fields. -/
theorem C175_deque (delims : List Byte) (c : List (List Byte)) (k : Nat) (s : List Byte) (hk : c[k]? = some s) :
    parseOwn dequeLive delims c k = ok ((fields delims s).length, c ++ fields delims s) := by
  rw [parseOwn_spec _ (by intros; rfl) delims c k s hk, if_pos (Or.inr (show dequeLive _ = true from rfl))]

/-- The converter of `std::string`: it always succeeds. -/
def toStr : List Byte → List Byte → Bool × List Byte := fun w _ => (true, w)

/-- C175: with strings as targets the text is where a call may and may not write it: as the last target it gets its field as from a copy, as an earlier one the call is undefined. -/
theorem C175_text (delims s : List Byte) (is : List Nat) (t : Nat) (x : Vars (List Byte)) (hn : is.length + 1 ≤ (fields delims s).length) :
    (t ∉ is → parseShared (some t) delims s ((is ++ [t]).map fun i => (toStr, i)) x = parseShared none delims s ((is ++ [t]).map fun i => (toStr, i)) x) ∧
    (t ∈ is → parseShared (some t) delims s ((is ++ [t]).map fun i => (toStr, i)) x = ub) := by
  have hl : ((is ++ [t]).map fun i => (toStr, i)).length = is.length + 1 := by simp
  have hall : ∀ (l : List Nat) (x : Vars (List Byte)) (ws : List (List Byte)), l.length ≤ ws.length → convertible (l.map fun i => (toStr, i)) x ws = l.length := by
    intro l
    induction l with
    | nil => intro x ws _; cases ws <;> rfl
    | cons i l ih =>
      intro x ws h
      cases ws with
      | nil => simp at h
      | cons w ws => simp at h; simp [convertible, toStr, ih _ ws h]
  have hc := hall (is ++ [t]) x (fields delims s) (by simp; omega)
  obtain ⟨-, h2, h3⟩ := C175_targets_partial (some t) delims s ((is ++ [t]).map fun i => (toStr, i)) x
  obtain ⟨-, g2, -⟩ := C175_targets_partial none delims s ((is ++ [t]).map fun i => (toStr, i)) x
  rw [hl] at h2 h3 g2
  constructor
  · intro ht
    rw [h2 hn ?_, g2 hn ?_]
    · rintro ⟨j, t', h, _⟩; cases h
    · rintro ⟨j, t', h, hj, _, hj2⟩
      cases h
      rw [hl] at hj2
      have hjl : j < is.length := by omega
      rw [List.getElem?_map, List.getElem?_append_left hjl, List.getElem?_eq_getElem hjl] at hj
      simp at hj
      exact ht (hj ▸ List.getElem_mem hjl)
  · intro ht
    obtain ⟨j, hjl, hj⟩ := List.getElem_of_mem ht
    refine h3 hn ⟨j, t, rfl, ?_, ?_, by rw [hl]; omega⟩
    · rw [List.getElem?_map, List.getElem?_append_left hjl, List.getElem?_eq_getElem hjl, hj]; rfl
    · rw [hc]; simp; omega

/-- `a,b` with the delimiters in variable 1 and the text in variable 2: the text may be the last target but not the first. -/
example : parseShared (some 2) [44] [97, 44, 98] [(toStr, 1), (toStr, 2)] (fun i => if i = 1 then [44] else if i = 2 then [97, 44, 98] else []) =
    ok (true, Vars.put (Vars.put (fun i => if i = 1 then [44] else if i = 2 then [97, 44, 98] else []) 1 [97]) 2 [98]) := rfl

example : parseShared (some 2) [44] [97, 44, 98] [(toStr, 2), (toStr, 1)] (fun i => if i = 1 then [44] else if i = 2 then [97, 44, 98] else []) = ub := rfl

/-- `C175_text` and `C175_targets_partial` apply to it. -/
example (x : Vars (List Byte)) : parseShared (some 2) [44] [97, 44, 98] ((([1] : List Nat) ++ [2]).map fun i => (toStr, i)) x = parseShared none [44] [97, 44, 98] (([1] ++ [2]).map fun i => (toStr, i)) x := by
  refine (C175_text [44] [97, 44, 98] [1] 2 x ?_).1 (by decide)
  obtain ⟨r, h1, h2⟩ := split_fields [44] [97, 44, 98]
  have e : split { compress := true } (delimPred [44]) [97, 44, 98] = ok ([(0, 1), (2, 3)], 2) := rfl
  rw [e] at h1
  simp only [Outcome.ok.injEq, Prod.mk.injEq] at h1
  rw [← h2, ← h1.1]
  decide

/-- A vector of two strings, the first of which has three fields: room for four is enough, room for three is not. -/
example : parseOwn (vectorLive 2 4) [44] [[97, 44, 98, 44, 99], [120]] 0 = ok (3, [[97, 44, 98, 44, 99], [120], [97], [98], [99]]) ∧
    parseOwn (vectorLive 2 3) [44] [[97, 44, 98, 44, 99], [120]] 0 = ub ∧ parseOwn dequeLive [44] [[97, 44, 98, 44, 99], [120]] 0 = ok (3, [[97, 44, 98, 44, 99], [120], [97], [98], [99]]) := ⟨rfl, rfl, rfl⟩

example := C175_vector_partial [44] [[97, 44, 98, 44, 99], [120]] 4 0 [97, 44, 98, 44, 99] rfl (by decide)

example := C175_deque [44] [[97, 44, 98, 44, 99], [120]] 0 [97, 44, 98, 44, 99] rfl

/-- A variable that is a target twice. -/
example := (C175_last_wins 2 [(toStr, 5), (toStr, 5)] (fun _ => []) [[97], [98]] 5 (by decide) (by decide)).2 1 toStr [98] (by decide) rfl rfl (by omega)

end Strtk.Parse
