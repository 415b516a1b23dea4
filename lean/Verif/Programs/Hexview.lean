import Verif.Codec.Props

/-!
# The hex viewer strtk_hexview.cpp

Line numbers refer to strtk_hexview.cpp.  Standard input is the list of its bytes and never fails otherwise than by ending; standard output takes everything.
The address counts in unbounded numbers (an input of 2^64 bytes is out of reach).
-/

namespace Strtk.Programs
open Outcome Strtk.Codec

/-- What `std::hex << std::uppercase` writes for a number. -/
def hexNumber (n : Nat) : List Byte := if n < 16 then [hexDigit n] else hexNumber (n / 16) ++ [hexDigit (n % 16)]

/-- `std::setw(w)` with a fill character. -/
def padded (fill : Byte) (w : Nat) (s : List Byte) : List Byte := List.replicate (w - s.length) fill ++ s

/-- `std::ostream::write(buf, n)`. -/
def written (buf : List Byte) (n : Nat) : Outcome (List Byte) := if n ≤ buf.length then ok (buf.take n) else ub

/-- The loop of `main` (74-111): the input that is left, `current_address`, the fill character of `std::cout`, which stays what `std::setfill` set it to,
`buffer`, `hex_buffer` and what was written so far. -/
def hexviewLoop : Nat → List Byte → Nat → Byte → List Byte → List Byte → List Byte → Outcome (List Byte)
  | 0, _, _, _, _, _, _ => diverge
  | fuel + 1, inp, address, fill, buffer, hex, out => do
    if 16 ≤ inp.length then do
      let buffer ← Mem.puts buffer 0 (inp.take 16)
      let hex ← binToHexLoop (buffer.take 16) hex 0
      let h ← written hex (2 * 16)
      let view ← toPrintable (buffer.take 16)
      let buffer := view ++ buffer.drop 16
      let v ← written buffer 16
      hexviewLoop fuel (inp.drop 16) (address + 16) 48 buffer hex (out ++ (padded 48 10 (hexNumber address) ++ [32] ++ h ++ [32] ++ v ++ [10]))
    else if inp.length ≠ 0 then do
      let buffer ← Mem.puts buffer 0 inp
      let hex ← binToHexLoop (buffer.take inp.length) hex 0
      let h ← written hex (2 * inp.length)
      let view ← toPrintable (buffer.take inp.length)
      let buffer := view ++ buffer.drop inp.length
      let v ← written buffer inp.length
      ok (out ++ (padded fill 10 (hexNumber address) ++ [32] ++ h ++ List.replicate (2 * (16 - inp.length) + 1) 32 ++ v ++ [10]))
    else ok out

/-- `main` (60-114): the text written for an input; the initial contents of the two buffers is arbitrary. -/
def hexview (inp buffer hex : List Byte) : Outcome (List Byte) := hexviewLoop (inp.length + 1) inp 0 32 buffer hex []

/-! ## Specification -/

/-- One line: the address padded to ten places, the bytes in hexadecimal padded to 33 places, the bytes as characters. -/
def hexLine (fill : Byte) (address : Nat) (bytes : List Byte) : List Byte :=
  padded fill 10 (hexNumber address) ++ [32] ++ hexText bytes ++ List.replicate (2 * (16 - bytes.length) + 1) 32 ++
    bytes.map (fun c => if 0x21 ≤ c.toNat ∧ c.toNat ≤ 0x7E then c else 0x2E) ++ [10]

/-- The lines of full groups from an address on. -/
def hexLines : Nat → List (List Byte) → List Byte
  | _, [] => []
  | address, c :: cs => hexLine 48 address c ++ hexLines (address + 16) cs

theorem puts_front (w s : List Byte) (h : w.length ≤ s.length) : Mem.puts s 0 w = ok (w ++ s.drop w.length) := by
  have := Mem.puts_append w [] s h
  simpa using this

theorem hexviewLoop_spec : ∀ (cs : List (List Byte)) (last : List Byte) (fuel address : Nat) (fill : Byte) (buffer hex out : List Byte),
    (∀ c ∈ cs, c.length = 16) → last.length < 16 → cs.length < fuel → buffer.length = 16 → hex.length = 32 →
    hexviewLoop fuel (cs.flatten ++ last) address fill buffer hex out =
      ok (out ++ (hexLines address cs ++ if last = [] then [] else hexLine (if cs = [] then fill else 48) (address + 16 * cs.length) last)) := by
  intro cs
  induction cs with
  | nil =>
    intro last fuel address fill buffer hex out _ hl hf hb hh
    obtain ⟨fuel, rfl⟩ : ∃ f, fuel = f + 1 := ⟨fuel - 1, by simp at hf; omega⟩
    simp only [hexviewLoop, List.flatten_nil, List.nil_append, hexLines]
    rw [if_neg (by omega)]
    by_cases h0 : last = []
    · subst h0; simp
    · have h0' : last.length ≠ 0 := fun e => h0 (List.length_eq_zero_iff.mp e)
      rw [if_pos h0', puts_front last buffer (by omega), ok_bind, List.take_left]
      have hx := binToHexLoop_spec last [] hex (by omega)
      simp only [List.nil_append, List.length_nil] at hx
      rw [hx, ok_bind]
      have e1 : written (hexText last ++ hex.drop (last.length * 2)) (2 * last.length) = ok (hexText last) := by
        unfold written
        rw [if_pos (by simp [hexText_length]; omega), List.take_left' (by rw [hexText_length]; omega)]
      rw [e1, ok_bind, C22_printable, ok_bind]
      have e2 : ∀ (v r : List Byte), v.length = last.length → written (v ++ r) last.length = ok v := fun v r hv => by
        unfold written
        rw [if_pos (by simp; omega), List.take_left' hv]
      simp only [if_neg h0, if_true]
      rw [e2 _ _ (by simp), ok_bind]
      simp [hexLine]
  | cons c cs ih =>
    intro last fuel address fill buffer hex out hc hl hf hb hh
    obtain ⟨fuel, rfl⟩ : ∃ f, fuel = f + 1 := ⟨fuel - 1, by simp at hf; omega⟩
    have h16 := hc c (by simp)
    simp only [hexviewLoop, List.flatten_cons, List.append_assoc]
    rw [if_pos (by simp; omega), List.take_left' h16, List.drop_left' h16, puts_front c buffer (by omega), ok_bind, List.take_left' h16]
    have hx := binToHexLoop_spec c [] hex (by omega)
    simp only [List.nil_append, List.length_nil] at hx
    rw [hx, ok_bind]
    have e1 : written (hexText c ++ hex.drop (c.length * 2)) (2 * 16) = ok (hexText c) := by
      unfold written
      rw [if_pos (by simp [hexText_length]; omega), List.take_left' (by rw [hexText_length]; omega)]
    rw [e1, ok_bind, C22_printable, ok_bind]
    have e2 : ∀ (v r : List Byte), v.length = 16 → written (v ++ r) 16 = ok v := fun v r hv => by
      unfold written
      rw [if_pos (by simp; omega), List.take_left' hv]
    have := e2 (c.map fun c => if 0x21 ≤ c.toNat ∧ c.toNat ≤ 0x7E then c else 0x2E) ((c ++ buffer.drop c.length).drop 16) (by simpa using h16)
    rw [this, ok_bind, ih last fuel _ _ _ _ _ (fun x hx => hc x (by simp [hx])) hl (by simp at hf; omega) (by simp; omega)
      (by simp [hexText_length]; omega)]
    simp only [hexLines, hexLine, h16, Nat.sub_self, Nat.mul_zero, Nat.zero_add, List.replicate_one, List.length_cons, if_neg (List.cons_ne_nil c cs)]
    have e3 : address + 16 + 16 * cs.length = address + 16 * (cs.length + 1) := by omega
    rw [e3]
    split <;> simp

/-- C127: every line shows 16 bytes, the last one what is left: the offset, the bytes in hexadecimal and the bytes as characters.  Nothing is written behind
the end of the buffers.  Every address is padded with zeros, except that of an input of less than one full line, which is padded with blanks. -/
theorem C127_hexview (cs : List (List Byte)) (last buffer hex : List Byte) (hc : ∀ c ∈ cs, c.length = 16) (hl : last.length < 16)
    (hb : buffer.length = 16) (hh : hex.length = 32) :
    hexview (cs.flatten ++ last) buffer hex =
      ok (hexLines 0 cs ++ if last = [] then [] else hexLine (if cs = [] then 32 else 48) (16 * cs.length) last) := by
  unfold hexview
  have : cs.length ≤ cs.flatten.length := by
    clear hl
    induction cs with
    | nil => simp
    | cons c cs ih =>
      have := hc c (by simp)
      have := ih fun x hx => hc x (by simp [hx])
      rw [List.flatten_cons, List.length_append, List.length_cons]; omega
  rw [hexviewLoop_spec cs last _ 0 32 buffer hex [] hc hl (by rw [List.length_append]; omega) hb hh]
  simp

/-- Every input is such a sequence of groups. -/
theorem groups (n : Nat) : ∀ inp : List Byte, inp.length ≤ n → ∃ (cs : List (List Byte)) (last : List Byte), inp = cs.flatten ++ last ∧ (∀ c ∈ cs, c.length = 16) ∧ last.length < 16 := by
  induction n with
  | zero => intro inp h; exact ⟨[], inp, by simp, by simp, by omega⟩
  | succ n ih =>
    intro inp h
    by_cases h16 : inp.length < 16
    · exact ⟨[], inp, by simp, by simp, h16⟩
    · obtain ⟨cs, last, e, h1, h2⟩ := ih (inp.drop 16) (by simp; omega)
      refine ⟨inp.take 16 :: cs, last, ?_, ?_, h2⟩
      · rw [List.flatten_cons, List.append_assoc, ← e, List.take_append_drop]
      · intro c hc
        rcases List.mem_cons.mp hc with rfl | hc
        · simp; omega
        · exact h1 c hc

theorem hexText_noblank (b : List Byte) : ∀ c ∈ hexText b, c ≠ 32 := by
  have hd : ∀ n : Fin 16, hexDigit n.val ≠ 32 := by decide
  induction b with
  | nil => simp [hexText]
  | cons c b ih =>
    intro x hx
    have := c.isLt
    simp only [hexText, List.mem_cons] at hx
    rcases hx with rfl | rfl | hx
    · exact hd ⟨c.toNat / 16, by omega⟩
    · exact hd ⟨c.toNat % 16, by omega⟩
    · exact ih x hx

theorem hexText_inj (a b : List Byte) (h : hexText a = hexText b) : a = b := by
  by_cases ha : a = []
  · subst ha
    have := congrArg List.length h
    simp only [hexText_length] at this
    exact (List.length_eq_zero_iff.mp (by simp at this; omega)).symm
  · by_cases hb : b = []
    · subst hb
      have := congrArg List.length h
      simp only [hexText_length] at this
      exact List.length_eq_zero_iff.mp (by simp at this; omega)
    · have h1 := C19_hex_round_trip a [] [] ha
      have h2 := C19_hex_round_trip b [] [] hb
      rw [C19_hex_encode, ok_bind] at h1 h2
      rw [h, h2] at h1
      simpa using h1.symm

theorem takeWhile_blank (a r : List Byte) (k : Nat) (h : ∀ c ∈ a, c ≠ 32) : (a ++ List.replicate (k + 1) 32 ++ r).takeWhile (· ≠ 32) = a := by
  induction a with
  | nil => simp [List.replicate_succ]
  | cons c a ih =>
    have := h c (by simp)
    simp only [List.cons_append, List.takeWhile_cons, ne_eq, this, not_false_eq_true, decide_true, if_true, List.cons.injEq, true_and]
    exact ih fun x hx => h x (by simp [hx])

/-- A line tells its bytes, and where it ends. -/
theorem hexLine_inj (f : Byte) (address : Nat) (a b r r' : List Byte) (ha : a.length ≤ 16) (hb : b.length ≤ 16)
    (h : hexLine f address a ++ r = hexLine f address b ++ r') : a = b ∧ r = r' := by
  have e : a = b := by
    have h1 := h
    simp only [hexLine, List.append_assoc, List.append_cancel_left_eq] at h1
    apply hexText_inj
    have t1 := takeWhile_blank (hexText a) (a.map (fun c => if 0x21 ≤ c.toNat ∧ c.toNat ≤ 0x7E then c else 0x2E) ++ ([10] ++ r)) (2 * (16 - a.length)) (hexText_noblank a)
    have t2 := takeWhile_blank (hexText b) (b.map (fun c => if 0x21 ≤ c.toNat ∧ c.toNat ≤ 0x7E then c else 0x2E) ++ ([10] ++ r')) (2 * (16 - b.length)) (hexText_noblank b)
    rw [← t1, ← t2]
    simp only [List.append_assoc]
    rw [h1]
  subst e
  exact ⟨rfl, List.append_cancel_left h⟩

/-- Not empty. -/
theorem hexLine_ne (f : Byte) (address : Nat) (a r : List Byte) : hexLine f address a ++ r ≠ [] := by simp [hexLine]

/-- The text after some lines, with the fill character of the next short line. -/
def rest (fill : Byte) (address : Nat) (cs : List (List Byte)) (last : List Byte) : List Byte :=
  hexLines address cs ++ if last = [] then [] else hexLine (if cs = [] then fill else 48) (address + 16 * cs.length) last

theorem rest_inj : ∀ (cs ds : List (List Byte)) (last last' : List Byte) (address : Nat), (∀ c ∈ cs, c.length = 16) → (∀ c ∈ ds, c.length = 16) →
    last.length < 16 → last'.length < 16 → rest 48 address cs last = rest 48 address ds last' → cs.flatten ++ last = ds.flatten ++ last' := by
  have hstep : ∀ (c : List Byte) (cs : List (List Byte)) (last : List Byte) (address : Nat),
      rest 48 address (c :: cs) last = hexLine 48 address c ++ rest 48 (address + 16) cs last := by
    intro c cs last address
    unfold rest
    simp only [hexLines, List.length_cons, List.append_assoc, if_neg (List.cons_ne_nil c cs), ite_self]
    rw [show address + 16 * (cs.length + 1) = address + 16 + 16 * cs.length by omega]
  have hnil : ∀ (last : List Byte) (address : Nat), last ≠ [] → rest 48 address [] last = hexLine 48 address last ++ [] := by
    intro last address h
    simp [rest, hexLines, h]
  have hempty : ∀ address, rest 48 address [] [] = [] := by simp [rest, hexLines]
  intro cs
  induction cs with
  | nil =>
    intro ds last last' address hc hd hl hl' h
    cases ds with
    | nil =>
      by_cases h1 : last = [] <;> by_cases h2 : last' = []
      · subst h1; subst h2; rfl
      · subst h1; rw [hempty, hnil _ _ h2] at h; exact absurd h.symm (hexLine_ne _ _ _ _)
      · subst h2; rw [hempty, hnil _ _ h1] at h; exact absurd h (hexLine_ne _ _ _ _)
      · rw [hnil _ _ h1, hnil _ _ h2] at h
        rw [(hexLine_inj _ _ _ _ _ _ (by omega) (by omega) h).1]
    | cons d ds =>
      have := hd d (by simp)
      by_cases h1 : last = []
      · subst h1; rw [hempty, hstep] at h; exact absurd h.symm (hexLine_ne _ _ _ _)
      · rw [hnil _ _ h1, hstep] at h
        have := (hexLine_inj _ _ _ _ _ _ (by omega) (by omega) h).1
        subst this
        omega
  | cons c cs ih =>
    intro ds last last' address hc hd hl hl' h
    have h16 := hc c (by simp)
    cases ds with
    | nil =>
      by_cases h1 : last' = []
      · subst h1; rw [hempty, hstep] at h; exact absurd h (hexLine_ne _ _ _ _)
      · rw [hnil _ _ h1, hstep] at h
        have := (hexLine_inj _ _ _ _ _ _ (by omega) (by omega) h).1
        subst this
        omega
    | cons d ds =>
      have := hd d (by simp)
      rw [hstep, hstep] at h
      obtain ⟨e1, e2⟩ := hexLine_inj _ _ _ _ _ _ (by omega) (by omega) h
      subst e1
      have := ih ds last last' (address + 16) (fun x hx => hc x (by simp [hx])) (fun x hx => hd x (by simp [hx])) hl hl' e2
      simp [this]

/-- C127: nothing is lost: different inputs are shown differently. -/
theorem C127_hexview_faithful (a b buffer hex buffer' hex' out : List Byte) (hb : buffer.length = 16) (hh : hex.length = 32) (hb' : buffer'.length = 16)
    (hh' : hex'.length = 32) (h1 : hexview a buffer hex = ok out) (h2 : hexview b buffer' hex' = ok out) : a = b := by
  obtain ⟨cs, last, rfl, hc, hl⟩ := groups a.length a (by omega)
  obtain ⟨ds, last', rfl, hd, hl'⟩ := groups b.length b (by omega)
  rw [C127_hexview cs last buffer hex hc hl hb hh] at h1
  rw [C127_hexview ds last' buffer' hex' hd hl' hb' hh'] at h2
  simp only [Outcome.ok.injEq] at h1 h2
  have hpad : ∀ f g : Byte, ∀ x r : List Byte, hexLine f 0 x ++ r = padded f 10 (hexNumber 0) ++ ([32] ++ hexText x ++ List.replicate (2 * (16 - x.length) + 1) 32 ++
      x.map (fun c => if 0x21 ≤ c.toNat ∧ c.toNat ≤ 0x7E then c else 0x2E) ++ [10] ++ r) := by intro f g x r; simp [hexLine]
  have hn : hexNumber 0 = [48] := by rw [hexNumber]; rfl
  have hhead : ∀ (f : Byte) (x r : List Byte), (hexLine f 0 x ++ r).head? = some f := by
    intro f x r
    rw [hpad f f, hn]
    rfl
  by_cases hcs : cs = [] <;> by_cases hds : ds = []
  · subst hcs; subst hds
    simp only [hexLines, List.nil_append, if_true, List.length_nil, Nat.mul_zero, List.flatten_nil] at h1 h2 ⊢
    rw [← h2] at h1
    by_cases e1 : last = [] <;> by_cases e2 : last' = []
    · rw [e1, e2]
    · rw [if_pos e1, if_neg e2] at h1; exact absurd (by simpa using h1.symm) (hexLine_ne 32 0 last' [])
    · rw [if_neg e1, if_pos e2] at h1; exact absurd (by simpa using h1) (hexLine_ne 32 0 last [])
    · rw [if_neg e1, if_neg e2] at h1
      exact (hexLine_inj 32 0 last last' [] [] (by omega) (by omega) (by simpa using h1)).1
  · exfalso
    subst hcs
    obtain ⟨d, ds, rfl⟩ := List.exists_cons_of_ne_nil hds
    simp only [hexLines, List.nil_append, if_true, List.length_nil, Nat.mul_zero] at h1
    have hz := congrArg List.head? h2
    simp only [hexLines, List.append_assoc] at hz
    rw [hhead] at hz
    rw [← h1] at hz
    split at hz
    · simp at hz
    · have := hhead 32 last []
      rw [List.append_nil] at this
      rw [this] at hz
      simp at hz
  · exfalso
    subst hds
    obtain ⟨c, cs, rfl⟩ := List.exists_cons_of_ne_nil hcs
    simp only [hexLines, List.nil_append, if_true, List.length_nil, Nat.mul_zero] at h2
    have hz := congrArg List.head? h1
    simp only [hexLines, List.append_assoc] at hz
    rw [hhead] at hz
    rw [← h2] at hz
    split at hz
    · simp at hz
    · have := hhead 32 last' []
      rw [List.append_nil] at this
      rw [this] at hz
      simp at hz
  · apply rest_inj cs ds last last' 0 hc hd hl hl'
    unfold rest
    simp only [if_neg hcs, if_neg hds, Nat.zero_add] at h1 h2 ⊢
    rw [h1, h2]

-- "AB" (blanks before the address) and seventeen bytes
example : hexview [65, 66] (List.replicate 16 0) (List.replicate 32 0) =
    ok ([32, 32, 32, 32, 32, 32, 32, 32, 32, 48, 32, 52, 49, 52, 50] ++ List.replicate 29 32 ++ [65, 66, 10]) := by decide +kernel
example : (∃ out, hexview (List.replicate 17 7) (List.replicate 16 0) (List.replicate 32 0) = ok out ∧ out.length = 11 + 33 + 16 + 1 + 11 + 33 + 1 + 1) :=
  ⟨_, rfl, by decide +kernel⟩
example : hexNumber 0xAD0 = [65, 68, 48] := by decide +kernel

example := C127_hexview [List.replicate 16 65, List.replicate 16 66] [67, 68] (List.replicate 16 0) (List.replicate 32 0) (by decide) (by decide) (by decide) (by decide)

end Strtk.Programs
