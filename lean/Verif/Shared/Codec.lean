import Verif.Codec.Raw

/-!
# Calls whose output is one of their inputs: conversions (strtk.hpp 4422-4465, 4467-4561, 4563-4626, 4628-4730, 4971-5010)

The overloads on strings take the input by reference and resize the output first; the overloads on pointers only see addresses.  Here an input may be the
output object itself, so that it is read through the changes made by the same call.  Elements are written one at a time, as the code does.
-/

namespace Mem

/-- Where an argument lives: in the object that also receives the output, or in an object of its own. -/
inductive Src (α : Type) where
  | same
  | other (s : List α)

/-- What reading the argument yields while the output object holds `out`. -/
def Src.now {α : Type} (out : List α) : Src α → List α
  | .same => out
  | .other s => s

theorem Src.now_same {α : Type} (out : List α) : Src.now out .same = out := by cases out <;> rfl

theorem Src.now_other {α : Type} (out s : List α) : Src.now out (.other s) = s := by cases s <;> rfl

end Mem

namespace Strtk.Codec
open Outcome Mem

/-- Loop 4422-4426 of `convert_bin_to_hex`, `n` bytes left to read. -/
def binToHexSh (a : Src Byte) : Nat → Nat → List Byte → Nat → Outcome (List Byte)
  | 0, _, buf, _ => ok buf
  | n + 1, itr, buf, o => do
    let c ← deref (a.now buf) itr
    let v ← deref hexLut c.toNat
    let buf ← put16 buf o v
    binToHexSh a n (itr + 1) buf (o + 2)

/-- `convert_bin_to_hex(const std::string&, std::string& output)` (4451-4458): `size()` of the input is asked again after the resize (4456). -/
def binToHexStrSh (a : Src Byte) (out : List Byte) : Outcome (List Byte) :=
  let out := resize 0 out ((a.now out).length * 2)
  binToHexSh a (a.now out).length 0 out 0

/-- Loop 4514-4519 of `convert_hex_to_bin`, `n` pairs left to read. -/
def hexToBinSh (a : Src Byte) : Nat → Nat → List Byte → Nat → Outcome (List Byte)
  | 0, _, buf, _ => ok buf
  | n + 1, itr, buf, o => do
    let c ← deref (a.now buf) itr
    let d ← deref (a.now buf) (itr + 1)
    let x ← deref hexToBin c.toNat
    let y ← deref hexToBin d.toNat
    let buf ← puts buf o [x <<< 4 ||| y]
    hexToBinSh a n (itr + 2) buf (o + 1)

/-- `convert_hex_to_bin(begin, end, out)` (4467-4522), with `out == begin` for `same`. -/
def hexToBinRawSh (a : Src Byte) (buf : List Byte) : Outcome (Bool × List Byte) :=
  let length := (a.now buf).length
  if length = 0 then ok (false, buf)
  else if length % 2 = 1 then ok (false, buf)
  else do
    let buf ← hexToBinSh a (length / 2) 0 buf 0
    ok (true, buf)

/-- `convert_hex_to_bin(const std::string&, std::string& output)` (4551-4561). -/
def hexToBinStrSh (a : Src Byte) (out : List Byte) : Outcome (Bool × List Byte) :=
  if a.now out = [] ∨ (a.now out).length % 2 = 1 then ok (false, out) else hexToBinRawSh a (resize 0 out ((a.now out).length >>> 1))

/-- Loop 4572-4581 of `convert_bin_to_base64`. -/
def b64EncSh (a : Src Byte) : Nat → Nat → List Byte → Nat → Outcome (Nat × List Byte × Nat)
  | 0, itr, buf, o => ok (itr, buf, o)
  | n + 1, itr, buf, o => do
    let x ← deref (a.now buf) itr
    let y ← deref (a.now buf) (itr + 1)
    let z ← deref (a.now buf) (itr + 2)
    let block := x.toNat <<< 16 ||| y.toNat <<< 8 ||| z.toNat
    let e0 ← deref binToBase64 ((block >>> 18) &&& 0x3F)
    let e1 ← deref binToBase64 ((block >>> 12) &&& 0x3F)
    let e2 ← deref binToBase64 ((block >>> 6) &&& 0x3F)
    let e3 ← deref binToBase64 (block &&& 0x3F)
    let buf ← puts buf o [e0, e1, e2, e3]
    b64EncSh a n (itr + 3) buf (o + 4)

/-- `convert_bin_to_base64(begin, end, out)` (4563-4609). -/
def b64EncRawSh (a : Src Byte) (buf : List Byte) : Outcome (Nat × List Byte) := do
  let length := (a.now buf).length
  let (itr, buf, o) ← b64EncSh a (length / 3) 0 buf 0
  let buf ← match length % 3 with
    | 1 => do
      let x ← deref (a.now buf) itr
      let block := x.toNat <<< 16
      let e0 ← deref binToBase64 ((block >>> 18) &&& 0x3F)
      let e1 ← deref binToBase64 ((block >>> 12) &&& 0x3F)
      puts buf o [e0, e1, 61, 61]
    | 2 => do
      let x ← deref (a.now buf) itr
      let y ← deref (a.now buf) (itr + 1)
      let block := x.toNat <<< 16 ||| y.toNat <<< 8
      let e0 ← deref binToBase64 ((block >>> 18) &&& 0x3F)
      let e1 ← deref binToBase64 ((block >>> 12) &&& 0x3F)
      let e2 ← deref binToBase64 ((block >>> 6) &&& 0x3F)
      puts buf o [e0, e1, e2, 61]
    | _ => ok buf
  ok (length / 3 * 4 + (if length % 3 > 0 then 4 else 0), buf)

/-- `convert_bin_to_base64(const std::string&, std::string& output)` (4618-4626). -/
def b64EncStrSh (a : Src Byte) (out : List Byte) : Outcome (List Byte) := do
  let (n, buf) ← b64EncRawSh a (resize 0 out (max 4 ((a.now out).length <<< 1)))
  ok (resize 0 buf n)

/-- Loop 4677-4687 of `convert_base64_to_bin`. -/
def b64DecSh (a : Src Byte) : Nat → Nat → List Byte → Nat → Outcome (Nat × List Byte × Nat)
  | 0, itr, buf, o => ok (itr, buf, o)
  | n + 1, itr, buf, o => do
    let c0 ← deref (a.now buf) itr
    let c1 ← deref (a.now buf) (itr + 1)
    let c2 ← deref (a.now buf) (itr + 2)
    let c3 ← deref (a.now buf) (itr + 3)
    let d0 ← deref base64ToBin c0.toNat
    let d1 ← deref base64ToBin c1.toNat
    let d2 ← deref base64ToBin c2.toNat
    let d3 ← deref base64ToBin c3.toNat
    let block := d0.toNat <<< 18 ||| d1.toNat <<< 12 ||| d2.toNat <<< 6 ||| d3.toNat
    let buf ← puts buf o [BitVec.ofNat 8 ((block >>> 16) &&& 0xFF), BitVec.ofNat 8 ((block >>> 8) &&& 0xFF), BitVec.ofNat 8 (block &&& 0xFF)]
    b64DecSh a n (itr + 4) buf (o + 3)

/-- `convert_base64_to_bin(begin, end, out)` (4628-4714), with `out == begin` for `same`. -/
def b64DecRawSh (a : Src Byte) (buf : List Byte) : Outcome (Nat × List Byte) := do
  let size := (a.now buf).length
  let c2 ← (if size < 2 then ub else deref (a.now buf) (size - 2))
  let endItr ← (if c2 = 61 then ok (size - 2) else do
    let c1 ← deref (a.now buf) (size - 1)
    if c1 = 61 then ok (size - 1) else ok size)
  let length := endItr
  let (itr, buf, o) ← b64DecSh a (length / 4) 0 buf 0
  let buf ← match length % 4 with
    | 2 => do
      let c0 ← deref (a.now buf) itr
      let c1 ← deref (a.now buf) (itr + 1)
      let d0 ← deref base64ToBin c0.toNat
      let d1 ← deref base64ToBin c1.toNat
      let block := d0.toNat <<< 18 ||| d1.toNat <<< 12
      puts buf o [BitVec.ofNat 8 ((block >>> 16) &&& 0xFF)]
    | 3 => do
      let c0 ← deref (a.now buf) itr
      let c1 ← deref (a.now buf) (itr + 1)
      let c2 ← deref (a.now buf) (itr + 2)
      let d0 ← deref base64ToBin c0.toNat
      let d1 ← deref base64ToBin c1.toNat
      let d2 ← deref base64ToBin c2.toNat
      let block := d0.toNat <<< 18 ||| d1.toNat <<< 12 ||| d2.toNat <<< 6
      puts buf o [BitVec.ofNat 8 ((block >>> 16) &&& 0xFF), BitVec.ofNat 8 ((block >>> 8) &&& 0xFF)]
    | _ => ok buf
  ok (3 * length / 4, buf)

/-- `convert_base64_to_bin(const std::string&, std::string& output)` (4723-4730). -/
def b64DecStrSh (a : Src Byte) (out : List Byte) : Outcome (List Byte) := do
  let (n, buf) ← b64DecRawSh a (resize 0 out (a.now out).length)
  ok (resize 0 buf n)

/-- Loops 4981-4983 of `bitwise_transform`, `n` bytes left. -/
def bitwiseSh (op : BitOp) (a b : Src Byte) : Nat → Nat → List Byte → Outcome (List Byte)
  | 0, _, buf => ok buf
  | n + 1, i, buf => do
    let x ← deref (a.now buf) i
    let y ← deref (b.now buf) i
    let buf ← puts buf i [op.apply x y]
    bitwiseSh op a b n (i + 1) buf

/-- `bitwise_transform(operation, const std::string&, const std::string&, std::string& out)` (4999-5010). -/
def bitwiseTransformSh (op : BitOp) (a b : Src Byte) (out : List Byte) : Outcome (List Byte) :=
  if (a.now out).length ≠ (b.now out).length then ok out
  else
    let out := resize 0 out (a.now out).length
    bitwiseSh op a b (a.now out).length 0 out

/-! ## Proofs -/

/-- Reads at or behind `itr` are not disturbed by writes before `o`. -/
def Ahead (a : Src Byte) (o itr : Nat) : Prop := a = .same → o ≤ itr

theorem puts_drop {α : Type} (vs : List α) : ∀ (buf buf' : List α) (o k : Nat), puts buf o vs = ok buf' → o + vs.length ≤ k → buf'.drop k = buf.drop k := by
  induction vs with
  | nil => intro buf buf' o k h _; rw [← Outcome.ok.inj h]
  | cons v vs ih =>
    intro buf buf' o k h hk
    rw [puts] at h
    obtain ⟨b1, h1, h2⟩ := bind_eq_ok.mp h
    rw [ih b1 buf' (o + 1) k h2 (by simp only [List.length_cons] at hk; omega)]
    unfold store at h1
    split at h1
    · rw [← Outcome.ok.inj h1, List.drop_set_of_lt (by simp only [List.length_cons] at hk; omega)]
    · cases h1

theorem now_drop (a : Src Byte) (buf buf' : List Byte) (o k : Nat) (vs t : List Byte) (h : puts buf o vs = ok buf') (ha : Ahead a (o + vs.length) k)
    (ht : (a.now buf).drop k = t) : (a.now buf').drop k = t := by
  cases a with
  | same => rw [← ht]; exact puts_drop vs buf buf' o k h (ha rfl)
  | other s => exact ht

theorem drop_two {α : Type} {s t : List α} {i : Nat} {x : α} (h : s.drop i = x :: t) : s[i]? = some x ∧ s.drop (i + 1) = t := by
  refine ⟨?_, ?_⟩
  · have := congrArg List.head? h
    rwa [List.head?_drop, List.head?_cons] at this
  · have := congrArg (List.drop 1) h
    rwa [List.drop_drop, List.drop_one, List.tail_cons] at this

theorem deref_drop {α : Type} {s t : List α} {i : Nat} {x : α} (h : s.drop i = x :: t) : deref s i = ok x := by
  rw [deref, (drop_two h).1]

theorem bind_congr_ok {α β : Type} {x : Outcome α} {f g : α → Outcome β} (h : ∀ b, x = ok b → f b = g b) : (x >>= f) = (x >>= g) := by
  cases x with
  | ok b => exact h b rfl
  | _ => rfl

theorem binToHexSh_other (src : List Byte) : ∀ (t : List Byte) (itr o : Nat) (buf : List Byte), src.drop itr = t →
    binToHexSh (.other src) t.length itr buf o = binToHexLoop t buf o := by
  intro t
  induction t with
  | nil => intro itr o buf h; rfl
  | cons c t ih =>
    intro itr o buf h
    rw [List.length_cons, binToHexSh, binToHexLoop, Src.now, deref_drop h, ok_bind]
    congr 1; funext v; congr 1; funext buf'
    exact ih (itr + 1) (o + 2) buf' (drop_two h).2

theorem hexToBinSh_eq (a : Src Byte) : ∀ (n itr o : Nat) (buf t : List Byte), t.length = 2 * n → (a.now buf).drop itr = t → Ahead a o itr →
    hexToBinSh a n itr buf o = hexToBinLoop t buf o := by
  intro n
  induction n with
  | zero => intro itr o buf t hl _ _; obtain rfl := List.length_eq_zero_iff.mp (show t.length = 0 by omega); rfl
  | succ n ih =>
    intro itr o buf t hl ht ha
    match t, hl with
    | x :: y :: t, hl =>
      have h1 := drop_two ht
      rw [hexToBinSh, hexToBinLoop, deref_drop ht, ok_bind, deref_drop h1.2, ok_bind]
      congr 1; funext u; congr 1; funext v
      cases hp : puts buf o [u <<< 4 ||| v] with
      | ok buf' =>
        rw [ok_bind, ok_bind]
        refine ih (itr + 2) (o + 1) buf' t (by simp only [List.length_cons] at hl; omega) ?_ (fun e => by have := ha e; omega)
        exact now_drop a buf buf' o (itr + 2) _ t hp (fun e => by have := ha e; simp only [List.length_cons, List.length_nil]; omega) (drop_two h1.2).2
      | _ => rfl

theorem b64DecSh_eq (a : Src Byte) (src : List Byte) : ∀ (n itr o : Nat) (buf : List Byte), (a.now buf).drop itr = src.drop itr → Ahead a o itr →
    itr + 4 * n ≤ src.length → b64DecSh a n itr buf o = b64DecRounds src n itr buf o ∧
      ∀ itr' buf' o', b64DecSh a n itr buf o = ok (itr', buf', o') → (a.now buf').drop itr' = src.drop itr' := by
  intro n
  induction n with
  | zero =>
    intro itr o buf ht _ _
    refine ⟨rfl, ?_⟩
    intro itr' buf' o' h
    have := Outcome.ok.inj h
    simp only [Prod.mk.injEq] at this
    rw [← this.1, ← this.2.1]; exact ht
  | succ n ih =>
    intro itr o buf ht ha hl
    have hget : ∀ k, deref (a.now buf) (itr + k) = deref src (itr + k) := by
      intro k
      rw [deref, deref]
      have := congrArg (fun l => l[k]?) ht
      simp only [List.getElem?_drop] at this
      rw [this]
    have hdrop : ∀ k, (a.now buf).drop (itr + k) = src.drop (itr + k) := by
      intro k
      have := congrArg (List.drop k) ht
      simpa only [List.drop_drop] using this
    have h0 := hget 0
    rw [Nat.add_zero] at h0
    rw [b64DecSh, b64DecRounds, h0, hget 1, hget 2, hget 3]
    rw [deref_eq_ok (by omega), ok_bind, deref_eq_ok (by omega), ok_bind, deref_eq_ok (by omega), ok_bind, deref_eq_ok (by omega), ok_bind]
    simp only [ok_bind, base64ToBin_value]
    refine ⟨bind_congr_ok fun buf' hp => ?_, ?_⟩
    · exact (ih (itr + 4) (o + 3) buf' (now_drop a buf buf' o (itr + 4) _ _ hp (fun e => by have := ha e; simp only [List.length_cons, List.length_nil]; omega)
        (hdrop 4)) (fun e => by have := ha e; omega) (by omega)).1
    · intro itr' buf' o' h
      obtain ⟨b1, hp, h2⟩ := bind_eq_ok.mp h
      exact (ih (itr + 4) (o + 3) b1 (now_drop a buf b1 o (itr + 4) _ _ hp (fun e => by have := ha e; simp only [List.length_cons, List.length_nil]; omega)
        (hdrop 4)) (fun e => by have := ha e; omega) (by omega)).2 itr' buf' o' h2

theorem resize_self (z : Byte) (s : List Byte) : resize z s s.length = s := by simp [resize]

theorem b64DecRawSh_eq (a : Src Byte) (src buf : List Byte) (h : a.now buf = src) : b64DecRawSh a buf = b64Dec src buf := by
  unfold b64DecRawSh b64Dec
  simp only [h]
  refine bind_congr_ok fun c2 hc2 => bind_congr_ok fun e he => ?_
  have hsz : ¬ src.length < 2 := by intro hh; rw [if_pos hh] at hc2; cases hc2
  have hle : e ≤ src.length := by
    split at he
    · rw [← Outcome.ok.inj he]; omega
    · obtain ⟨c1, _, h1⟩ := bind_eq_ok.mp he
      split at h1
      · rw [← Outcome.ok.inj h1]; omega
      · exact Nat.le_of_eq (Outcome.ok.inj h1).symm
  obtain ⟨g1, g2⟩ := b64DecSh_eq a src (e / 4) 0 0 buf (by rw [h]) (fun _ => Nat.le_refl 0) (by omega)
  rw [g1] at g2 ⊢
  refine bind_congr_ok fun r hr => ?_
  obtain ⟨itr, b1, o⟩ := r
  have hd := g2 itr b1 o hr
  have hget : ∀ k, deref (a.now b1) (itr + k) = deref src (itr + k) := by
    intro k
    rw [deref, deref]
    have := congrArg (fun l => l[k]?) hd
    simp only [List.getElem?_drop] at this
    rw [this]
  have h0 := hget 0
  rw [Nat.add_zero] at h0
  simp only [h0, hget 1, hget 2]
  rcases h4 : e % 4 with _ | _ | _ | _ | k <;> rfl

theorem binToHexSh_ub : ∀ (n itr : Nat) (buf : List Byte) (o : Nat), itr + n ≤ buf.length → o ≤ buf.length → buf.length < o + 2 * n →
    binToHexSh .same n itr buf o = ub := by
  intro n
  induction n with
  | zero => intro itr buf o _ h1 h2; omega
  | succ n ih =>
    intro itr buf o hi h1 h2
    rw [binToHexSh, Src.now, deref_eq_ok (by omega), ok_bind]
    obtain ⟨v, hv, _⟩ := hexLut_at (buf[itr]'(by omega))
    rw [hv, ok_bind, put16]
    by_cases h : o + 2 ≤ buf.length
    · obtain ⟨buf', hb, hl⟩ := puts_length buf o [v.extractLsb' 0 8, v.extractLsb' 8 8] (by simpa using h)
      rw [hb, ok_bind]
      exact ih _ _ _ (by omega) (by omega) (by omega)
    · rw [puts_ub _ _ _ (by simp only [List.length_cons, List.length_nil]; omega) h1]; rfl

theorem b64EncSh_same : ∀ (n itr : Nat) (buf : List Byte) (o : Nat), itr + 3 * n ≤ buf.length → o ≤ buf.length →
    if o + 4 * n ≤ buf.length then ∃ buf', b64EncSh .same n itr buf o = ok (itr + 3 * n, buf', o + 4 * n) ∧ buf'.length = buf.length
    else b64EncSh .same n itr buf o = ub := by
  intro n
  induction n with
  | zero => intro itr buf o _ h1; rw [if_pos (by omega)]; exact ⟨buf, rfl, rfl⟩
  | succ n ih =>
    intro itr buf o hs h1
    rw [b64EncSh]
    simp only [Src.now_same]
    rw [deref_eq_ok (by omega), ok_bind, deref_eq_ok (by omega), ok_bind, deref_eq_ok (by omega), ok_bind]
    simp only [and63]
    rw [binToBase64_at _ (Nat.mod_lt _ (by omega)), ok_bind, binToBase64_at _ (Nat.mod_lt _ (by omega)), ok_bind,
      binToBase64_at _ (Nat.mod_lt _ (by omega)), ok_bind, binToBase64_at _ (Nat.mod_lt _ (by omega)), ok_bind]
    by_cases h : o + 4 ≤ buf.length
    · obtain ⟨buf', hb, hl⟩ := puts_length buf o [_, _, _, _] (by simpa using h)
      rw [hb, ok_bind]
      have := ih (itr + 3) buf' (o + 4) (by omega) (by omega)
      rw [hl] at this
      rw [show itr + 3 * (n + 1) = itr + 3 + 3 * n by omega, show o + 4 * (n + 1) = o + 4 + 4 * n by omega]
      exact this
    · rw [if_neg (by omega), puts_ub _ _ _ (by simp only [List.length_cons, List.length_nil]; omega) h1]; rfl

theorem b64EncRawSh_ub (buf : List Byte) (h : 4 ≤ buf.length) : b64EncRawSh .same buf = ub := by
  unfold b64EncRawSh
  simp only [Src.now_same]
  have hr := b64EncSh_same (buf.length / 3) 0 buf 0 (by omega) (by omega)
  split at hr
  · rename_i hf
    obtain ⟨b1, h1, h2⟩ := hr
    rw [h1, ok_bind]
    have h3 : buf.length % 3 = 1 ∨ buf.length % 3 = 2 := by omega
    simp only [and63]
    rcases h3 with h3 | h3
    · simp only [h3]
      rw [deref_eq_ok (by omega), ok_bind, binToBase64_at _ (Nat.mod_lt _ (by omega)), ok_bind, binToBase64_at _ (Nat.mod_lt _ (by omega)), ok_bind,
        puts_ub _ _ _ (by simp only [List.length_cons, List.length_nil]; omega) (by omega)]
      rfl
    · simp only [h3]
      rw [deref_eq_ok (by omega), ok_bind, deref_eq_ok (by omega), ok_bind, binToBase64_at _ (Nat.mod_lt _ (by omega)), ok_bind,
        binToBase64_at _ (Nat.mod_lt _ (by omega)), ok_bind, binToBase64_at _ (Nat.mod_lt _ (by omega)), ok_bind,
        puts_ub _ _ _ (by simp only [List.length_cons, List.length_nil]; omega) (by omega)]
      rfl
  · rw [hr]; rfl

theorem b64EncSh_other (src : List Byte) : ∀ (n itr : Nat) (buf : List Byte) (o : Nat), b64EncSh (.other src) n itr buf o = b64EncRounds src n itr buf o := by
  intro n
  induction n with
  | zero => intro itr buf o; rfl
  | succ n ih =>
    intro itr buf o
    rw [b64EncSh, b64EncRounds]
    simp only [Src.now_other, ih]

theorem bitwiseSh_eq (op : BitOp) (a b : Src Byte) : ∀ (t u : List Byte) (i : Nat) (buf : List Byte), t.length = u.length →
    (a.now buf).drop i = t → (b.now buf).drop i = u → bitwiseSh op a b t.length i buf = bitwiseLoop op t u buf i := by
  intro t
  induction t with
  | nil => intro u i buf _ _ _; rfl
  | cons x t ih =>
    intro u i buf hl ht hu
    match u, hl with
    | y :: u, hl =>
      rw [List.length_cons, bitwiseSh, bitwiseLoop, deref_drop ht, ok_bind, deref_drop hu, ok_bind]
      refine bind_congr_ok fun buf' hp => ?_
      refine ih u (i + 1) buf' (by simpa using hl) ?_ ?_
      · exact now_drop a buf buf' i (i + 1) _ t hp (fun _ => by simp) (drop_two ht).2
      · exact now_drop b buf buf' i (i + 1) _ u hp (fun _ => by simp) (drop_two hu).2

/-! ## Theorems -/

/-- C164: with an input of its own every conversion is the one of C19-C21 and C27. -/
theorem C164_separate_objects (op : BitOp) (s t out : List Byte) :
    binToHexStrSh (.other s) out = binToHex s out ∧ hexToBinStrSh (.other s) out = hexToBinStr s out ∧ b64EncStrSh (.other s) out = b64EncStr s out ∧
    b64DecStrSh (.other s) out = b64DecStr s out ∧ bitwiseTransformSh op (.other s) (.other t) out = bitwiseTransform op s t out := by
  refine ⟨?_, ?_, ?_, ?_, ?_⟩
  · exact binToHexSh_other s s 0 0 _ rfl
  · unfold hexToBinStrSh hexToBinStr
    simp only [Src.now_other]
    by_cases h : s = [] ∨ s.length % 2 = 1
    · rw [if_pos h, if_pos h]
    · have h0 : s.length ≠ 0 := fun e => h (.inl (List.length_eq_zero_iff.mp e))
      have h1 : ¬ s.length % 2 = 1 := fun e => h (.inr e)
      rw [if_neg h, if_neg h]
      rw [hexToBinRawSh, hexToBinRaw]
      simp only [Src.now_other]
      rw [if_neg h0, if_neg h1, if_neg h0, if_neg h1, hexToBinSh_eq (.other s) (s.length / 2) 0 0 _ s (by omega) rfl (fun e => by cases e)]
  · unfold b64EncStrSh b64EncStr b64EncRawSh b64Enc
    simp only [Src.now_other, b64EncSh_other]
    have h3 : s.length % 3 = 0 ∨ s.length % 3 = 1 ∨ s.length % 3 = 2 := by omega
    rcases h3 with h3 | h3 | h3 <;> simp only [h3]
  · unfold b64DecStrSh b64DecStr
    rw [b64DecRawSh_eq (.other s) s _ rfl]
    rfl
  · unfold bitwiseTransformSh bitwiseTransform
    simp only [Src.now_other]
    split
    · rfl
    · rename_i h
      exact bitwiseSh_eq op (.other s) (.other t) s t 0 _ (by omega) rfl rfl

/-- C164: a string may be decoded from base64 into itself. -/
theorem C164_base64_to_bin_same (s : List Byte) (h : 2 ≤ s.length) : b64DecStrSh .same s = ok (base64Bytes (unpad s)) := by
  rw [← C21_base64_exact s s h]
  unfold b64DecStrSh b64DecStr
  simp only [Src.now_same, resize_self]
  rw [b64DecRawSh_eq .same s s rfl]

/-- C164: so encoding and then decoding in place returns the bytes. -/
theorem C164_base64_round_trip (b out : List Byte) (hb : b ≠ []) :
    (do let e ← b64EncStr b out; b64DecStrSh .same e) = ok b := by
  rw [C20_base64_encode, ok_bind, ← C20_base64_decode b [] hb]
  have hl : 2 ≤ (base64Text b).length := by
    rw [base64Text_length]
    have := List.length_pos_iff.mpr hb
    omega
  rw [C164_base64_to_bin_same _ hl, C21_base64_exact _ _ hl]

/-- C164: characters may be decoded from hexadecimal over themselves: the bytes take the first half and the second half keeps the characters. -/
theorem C164_hex_in_place (h : List Byte) (h0 : h ≠ []) (he : h.length % 2 = 0) :
    hexToBinRawSh .same h = ok (true, hexBytes h ++ h.drop (h.length / 2)) := by
  have := C148_hex_to_bin h h
  rw [if_neg (by simp [h0, he]), if_pos (by omega)] at this
  rw [← this]
  unfold hexToBinRawSh hexToBinRaw
  simp only [Src.now_same]
  rw [if_neg (by simpa using h0), if_neg (by omega), if_neg (by simpa using h0), if_neg (by omega),
    hexToBinSh_eq .same (h.length / 2) 0 0 h h (by omega) rfl (fun _ => Nat.le_refl 0)]

/-- C164 is false for `convert_hex_to_bin` on strings: the string is cut in half first, so only its first half is decoded, into the first quarter; the
second quarter keeps its characters.  With an odd half the answer is `false` although the string was cut. -/
theorem C164_hex_to_bin_same (h : List Byte) (h0 : h ≠ []) (he : h.length % 2 = 0) :
    hexToBinStrSh .same h = if h.length % 4 = 0
      then ok (true, hexBytes (h.take (h.length / 2)) ++ (h.take (h.length / 2)).drop (h.length / 4))
      else ok (false, h.take (h.length / 2)) := by
  have hl := List.length_pos_iff.mpr h0
  unfold hexToBinStrSh
  simp only [Src.now_same]
  rw [if_neg (by simp [h0, he]), Nat.shiftRight_eq_div_pow, Nat.pow_one, resize_le _ _ _ (by omega)]
  have hm : (h.take (h.length / 2)).length = h.length / 2 := by rw [List.length_take]; omega
  split
  · rename_i h4
    rw [C164_hex_in_place (h.take (h.length / 2)) (by intro e; rw [e] at hm; simp only [List.length_nil] at hm; omega) (by rw [hm]; omega), hm]
    rw [show h.length / 2 / 2 = h.length / 4 by omega]
  · unfold hexToBinRawSh
    simp only [Src.now_same, hm]
    rw [if_neg (by omega), if_pos (by omega)]

/-- C164 is false for `convert_bin_to_hex` on strings: the call writes behind the string, whatever it holds. -/
theorem C164_bin_to_hex_same (s : List Byte) (h : s ≠ []) : binToHexStrSh .same s = ub := by
  have := List.length_pos_iff.mpr h
  unfold binToHexStrSh
  simp only [Src.now_same]
  have hl : (resize 0 s (s.length * 2)).length = s.length * 2 := resize_length _ _ _
  exact binToHexSh_ub _ 0 _ 0 (by omega) (by omega) (by omega)

/-- C164 is false for `convert_bin_to_base64` on strings: the call writes behind the string, whatever it holds, even nothing. -/
theorem C164_bin_to_base64_same (s : List Byte) : b64EncStrSh .same s = ub := by
  unfold b64EncStrSh
  simp only [Src.now_same]
  rw [b64EncRawSh_ub _ (by rw [resize_length]; omega)]
  rfl

/-- C164: `bitwise_transform` may write over its first argument, its second argument, or both: the result is the one for separate objects. -/
theorem C164_bitwise_same (op : BitOp) (a b : Src Byte) (out : List Byte) :
    bitwiseTransformSh op a b out = bitwiseTransform op (a.now out) (b.now out) out := by
  unfold bitwiseTransformSh bitwiseTransform
  split
  · rfl
  · rename_i h
    have hl : (a.now out).length = (b.now out).length := by omega
    have ha : a.now (resize 0 out (a.now out).length) = a.now out := by
      cases a with
      | same => exact resize_self 0 out
      | other s => rfl
    have hb : b.now (resize 0 out (a.now out).length) = b.now out := by
      cases b with
      | same => rw [hl]; exact resize_self 0 out
      | other s => rfl
    simp only
    have := bitwiseSh_eq op a b (a.now out) (b.now out) 0 (resize 0 out (a.now out).length) hl (by rw [ha]; rfl) (by rw [hb]; rfl)
    rwa [show (a.now (resize 0 out (a.now out).length)).length = (a.now out).length by rw [ha]]

-- "Zm9vYg==" decoded into itself; "41424344" into itself; "ab" ^ "ab"
example : b64DecStrSh .same [90, 109, 57, 118, 89, 103, 61, 61] = ok [102, 111, 111, 98] := by decide +kernel
example : hexToBinStrSh .same [52, 49, 52, 50, 52, 51, 52, 52] = ok (true, [65, 66, 52, 50]) := by decide +kernel
example : hexToBinStrSh .same [52, 49, 52, 50, 52, 51] = ok (false, [52, 49, 52]) := by decide +kernel
example : hexToBinRawSh .same [52, 49, 52, 50] = ok (true, [65, 66, 52, 50]) := by decide +kernel
example : binToHexStrSh .same [65] = ub ∧ b64EncStrSh .same [] = ub := by decide +kernel
example : bitwiseTransformSh .eXOR .same (.other [1, 2]) [97, 98] = ok [96, 96] ∧ bitwiseTransformSh .eXOR .same .same [97, 98] = ok [0, 0] := by decide +kernel

example := C164_base64_to_bin_same [90, 109, 57, 118, 89, 103, 61, 61] (by decide)

end Strtk.Codec
