import Verif.Binary.Bounds

/-! # Where the position goes (C48) -/

namespace Strtk.Binary
open Outcome Mem

/-- The states a reader over a buffer can be in. -/
def ReaderState (sz : Ty → Nat) (buf : List UInt8) (st : St) : Prop :=
  ∃ ops results, (∀ o ∈ ops, ROp.Allowed sz o) ∧ history (fun st o => o.run sz (ok ()) st) ops (St.fresh buf) = ok (results, st)

theorem ReaderState.inside {sz : Ty → Nat} {buf : List UInt8} (hL : buf.length < 2 ^ 63) {st : St} (h : ReaderState sz buf st) : Inside buf.length st := by
  obtain ⟨ops, results, ha, h⟩ := h
  obtain ⟨rs, st', h1, h2, h3⟩ := history_inside (fun st o => ROp.run sz (ok ()) st o) (ROp.Allowed sz)
    (fun st o hi ha => rop_inside hL sz st o hi ha) ops (St.fresh buf) ha (fresh_inside buf)
  rw [h1] at h
  simp only [ok.injEq, Prod.mk.injEq] at h
  rw [← h.2]
  exact h3

/-- **C48**: `rewind(n)` goes back by `n` exactly when `n` bytes lie before the position; otherwise `false` and no change. -/
theorem C48_rewind (sz : Ty → Nat) (buf : List UInt8) (hL : buf.length < 2 ^ 63) (st : St) (h : ReaderState sz buf st) (n : Nat) :
    rewind n st = if n ≤ st.amount then ok (true, { st with amount := st.amount - n, ptr := st.amount - n }) else ok (false, st) := by
  obtain ⟨_, h2, _, _⟩ := h.inside hL
  unfold rewind
  split
  · rw [if_pos (by omega), h2]
  · rfl

/-- **C48**: `seek(n)` moves by `n` exactly when that is a position inside the buffer (its end included); otherwise `false` and no change. -/
theorem C48_seek (sz : Ty → Nat) (buf : List UInt8) (hL : buf.length < 2 ^ 63) (st : St) (h : ReaderState sz buf st) (n : Int)
    (hn : -2 ^ 31 < n ∧ n < 2 ^ 31) :
    seek n st = if 0 ≤ st.amount + n ∧ st.amount + n ≤ buf.length then
        ok (true, { st with amount := (st.amount + n).toNat, ptr := (st.amount + n).toNat })
      else ok (false, st) := by
  obtain ⟨h1, h2, h3, _⟩ := h.inside hL
  unfold seek
  by_cases h0 : n < 0
  · rw [if_pos h0, if_neg (by omega), C48_rewind sz buf hL st h]
    by_cases hle : (-n).toNat ≤ st.amount
    · rw [if_pos hle, if_pos (by omega)]
      have : st.amount - (-n).toNat = (st.amount + n).toNat := by omega
      rw [this]
    · rw [if_neg hle, if_neg (by omega)]
  · rw [if_neg h0]
    by_cases hp : n > 0
    · rw [if_pos hp, h1, h2]
      have hmod : (st.amount + n.toNat) % 2 ^ 64 = st.amount + n.toNat := Nat.mod_eq_of_lt (by omega)
      rw [hmod]
      have : st.amount + n.toNat = (st.amount + n).toNat := by omega
      rw [this]
      by_cases hle : (st.amount + n).toNat ≤ buf.length
      · rw [if_pos hle, if_pos (by omega)]
      · rw [if_neg hle, if_neg (by omega)]
    · have : n = 0 := by omega
      subst this
      rw [if_neg hp, if_pos (by omega)]
      have e : ((st.amount : Int) + 0).toNat = st.amount := by omega
      rw [e]
      obtain ⟨b, p, a, m⟩ := st
      simp only at h2
      subst h2
      rfl

/-- **C48**: `reset` returns to the beginning; `clear` also sets every byte of the buffer to zero. -/
theorem C48_reset (c : Bool) (st : St) : (reset c st).amount = 0 ∧ (reset c st).ptr = 0 ∧ (reset c st).buf.length = st.buf.length ∧
    (c = false → (reset c st).buf = st.buf) ∧ (c = true → ∀ b ∈ (reset c st).buf, b = 0) := by
  cases c
  · simp [reset]
  · simp [reset, List.mem_replicate]

/-- **C48**: reading `raw` bytes into memory of the caller. -/
theorem C48_reader_array (sz : Ty → Nat) (buf : List UInt8) (hL : buf.length < 2 ^ 63) (st : St) (h : ReaderState sz buf st) (raw : Nat) (hr : raw < 2 ^ 63) :
    readArray raw st =
      if st.amount + raw ≤ buf.length then ok (some ((st.buf.drop st.amount).take raw), { st with ptr := st.amount + raw, amount := st.amount + raw })
      else ok (none, st) := by
  have h3 := h.inside hL
  unfold readArray
  rcases readPod_inside hL raw h3 (by omega) with ⟨hle, bs, h1, h2, h4⟩ | ⟨hle, h1⟩
  · rw [if_pos hle, h1]
    unfold readPod takeBytes slice at h1
    rw [if_pos ((capacity_iff raw h3 hL (by omega)).mpr hle), if_pos (by rw [h3.2.1, h3.1]; omega)] at h1
    simp only [ok_bind, ok.injEq, Prod.mk.injEq, Option.some.injEq] at h1
    rw [← h1.1]
    simp only [h3.2.1]
  · rw [if_neg (by omega), h1]

/-- Non-vacuity: a reader over ten bytes that has read four. -/
example : ∃ st, ReaderState (fun _ => 4) (List.replicate 10 7) st ∧ st.amount = 4 ∧ seek 6 st = ok (true, { st with amount := 10, ptr := 10 }) ∧
    seek 7 st = ok (false, st) ∧ rewind 4 st = ok (true, { st with amount := 0, ptr := 0 }) :=
  ⟨⟨List.replicate 10 7, 4, 4, []⟩, ⟨[.array 4], [true], by intro o ho; rw [List.mem_singleton.mp ho]; show 4 < 2 ^ 63; decide, by decide +kernel⟩, rfl,
    by decide +kernel, by decide +kernel, by decide +kernel⟩

end Strtk.Binary
