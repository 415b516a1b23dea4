import Verif.FileIO.Model

/-! # File helpers: lemmas -/

namespace Strtk.FileIO
open Outcome Mem

variable {N : Type} [DecidableEq N]

@[simp] theorem put_put (fs : FS N) (n : N) (a b : List UInt8) : (fs.put n a).put n b = fs.put n b := by
  unfold FS.put
  congr 1
  funext m
  by_cases h : m = n <;> simp [h]

@[simp] theorem get_put (fs : FS N) (n : N) (a : List UInt8) : (fs.put n a).get n = a := by simp [FS.get, FS.put]

theorem get_put_ne (fs : FS N) {n m : N} (a : List UInt8) (h : m ≠ n) : (fs.put n a).get m = fs.get m := by simp [FS.get, FS.put, h]

theorem canRead_put_ne (fs : FS N) {n m : N} (a : List UInt8) (h : m ≠ n) : (fs.put n a).canRead m = fs.canRead m := by
  simp [FS.canRead, FS.put, h]

/-- The output stream `o` on file `n` has been given `data` in total, starting from the file system `fs0`. -/
def Given (e : Env) (fs0 : FS N) (n : N) (data : List UInt8) (fs : FS N) (o : OStream N) : Prop :=
  o.name = n ∧ ∃ file, fs = fs0.put n file ∧
    (o.good = true ∧ file ++ o.pending = data ∧ file.length ≤ e.room ∨ o.good = false ∧ file = data.take e.room ∧ e.room ≤ data.length)

theorem given_push {e : Env} {fs0 : FS N} {n : N} {data : List UInt8} {fs : FS N} {o : OStream N} (h : Given e fs0 n data fs o)
    (hg : o.good = true) (k : Nat) : Given e fs0 n data (push e fs o k).1 (push e fs o k).2 := by
  obtain ⟨hn, file, hfs, h⟩ := h
  rcases h with ⟨_, hd, hr⟩ | ⟨h, _⟩
  · subst hfs hd
    subst hn
    refine ⟨rfl, file ++ (o.pending.take k).take (e.room - file.length), by simp [push], ?_⟩
    by_cases hfit : (o.pending.take k).length ≤ e.room - file.length
    · left
      simp only [push, get_put]
      rw [List.take_of_length_le hfit]
      refine ⟨by simp, by simp [List.append_assoc], ?_⟩
      rw [List.length_append]; omega
    · right
      simp only [push, get_put]
      refine ⟨by rw [List.length_take]; simp only [decide_eq_false_iff_not]; omega, ?_, ?_⟩
      · rw [List.take_append, List.take_of_length_le hr, List.take_take]
        rw [List.length_take] at hfit
        congr 2
        omega
      · rw [List.length_take] at hfit
        rw [List.length_append]; omega
  · rw [hg] at h; cases h

theorem given_write {e : Env} {fs0 : FS N} {n : N} {data : List UInt8} {fs : FS N} {o : OStream N} (h : Given e fs0 n data fs o)
    (d : List UInt8) : Given e fs0 n (data ++ d) (write e fs o d).1 (write e fs o d).2 := by
  unfold write
  by_cases hg : o.good = true
  · rw [if_pos hg]
    obtain ⟨hn, file, hfs, h⟩ := h
    rcases h with ⟨_, hd, hr⟩ | ⟨h, _⟩
    · have hG : Given e fs0 n (data ++ d) fs { o with pending := o.pending ++ d, writes := o.writes + 1 } :=
        ⟨hn, file, hfs, Or.inl ⟨hg, by rw [← hd]; exact (List.append_assoc ..).symm, hr⟩⟩
      exact given_push hG hg _
    · rw [hg] at h; cases h
  · rw [if_neg hg]
    obtain ⟨hn, file, hfs, h⟩ := h
    rcases h with ⟨h, _⟩ | ⟨h1, h2, h3⟩
    · exact absurd h hg
    · refine ⟨hn, file, hfs, Or.inr ⟨h1, ?_, by rw [List.length_append]; omega⟩⟩
      rw [List.take_append_of_le_length h3]; exact h2

theorem given_close {e : Env} {fs0 : FS N} {n : N} {data : List UInt8} {fs : FS N} {o : OStream N} (h : Given e fs0 n data fs o) :
    close e fs o = fs0.put n (data.take e.room) := by
  unfold close
  by_cases hg : o.good = true
  · rw [if_pos hg]
    have hp := given_push h hg o.pending.length
    obtain ⟨_, file, hfs, h⟩ := hp
    rcases h with ⟨_, h2, h3⟩ | ⟨_, h2, _⟩
    · have : (push e fs o o.pending.length).2.pending = [] := by simp [push]
      rw [this, List.append_nil] at h2
      rw [hfs, ← h2, List.take_of_length_le h3]
    · rw [hfs, ← h2]
  · rw [if_neg hg]
    obtain ⟨_, file, hfs, h⟩ := h
    rcases h with ⟨h, _⟩ | ⟨_, h2, _⟩
    · exact absurd h hg
    · rw [hfs, h2]

theorem given_open (e : Env) (fs : FS N) (n : N) (h : fs.creatable n = true) :
    Given e fs n [] (openOut fs n).1 (openOut fs n).2 ∧ (openOut fs n).2.good = true ∧ (openOut fs n).1 = fs.put n [] := by
  unfold openOut
  rw [if_pos h]
  exact ⟨⟨rfl, [], rfl, Or.inl ⟨rfl, rfl, Nat.zero_le _⟩⟩, rfl, rfl⟩

/-- A read of bytes that are there. -/
theorem read_full (fs : FS N) (s : IStream N) (buf pre d post : List UInt8) (hg : s.good = true) (hc : fs.get s.name = pre ++ d ++ post)
    (hp : s.pos = pre.length) (hb : d.length ≤ buf.length) :
    read fs s buf d.length = ok (d ++ buf.drop d.length, { s with pos := (pre ++ d).length }) := by
  unfold read
  have h1 : ((fs.get s.name).drop s.pos).take d.length = d := by rw [hc, hp]; simp
  rw [if_pos hg, h1]
  simp only
  have h2 : copyTo buf 0 d = ok (d ++ buf.drop d.length) := by simp [copyTo, hb]
  rw [h2]
  cases s
  simp_all

theorem slice_prefix (d t : List UInt8) : slice (d ++ t) 0 d.length = ok d := by simp [slice]

/-- The block loop passes on exactly the rest of the input. -/
theorem pump_given (e : Env) (block : Nat) (hb : 0 < block) (fs0 : FS N) (n : N) (fuel : Nat) :
    ∀ (fs : FS N) (i : IStream N) (o : OStream N) (buf data pre rest : List UInt8), Given e fs0 n data fs o → i.name ≠ n →
      i.good = true → fs0.get i.name = pre ++ rest → i.pos = pre.length → buf.length = block → rest.length < fuel →
      ∃ fs' o' buf', pump e block fuel fs i o buf rest.length = ok (fs', o', buf') ∧ Given e fs0 n (data ++ rest) fs' o' ∧
        buf'.length = block := by
  induction fuel with
  | zero => intro _ _ _ _ _ _ rest _ _ _ _ _ _ h; omega
  | succ fuel ih =>
    intro fs i o buf data pre rest hgiv hne hg hc hp hbl hf
    have hget : fs.get i.name = pre ++ rest := by
      obtain ⟨_, file, hfs, _⟩ := hgiv
      rw [hfs, get_put_ne _ _ hne, hc]
    unfold pump
    by_cases hle : block ≤ rest.length
    · rw [if_pos hle]
      have hl : (rest.take block).length = block := by rw [List.length_take]; omega
      have hrd := read_full fs i buf pre (rest.take block) (rest.drop block) hg (by rw [List.append_assoc, List.take_append_drop]; exact hget) hp
        (by omega)
      rw [hl] at hrd
      rw [hrd, ok_bind]
      have hsl := slice_prefix (rest.take block) (buf.drop block)
      rw [hl] at hsl
      simp only
      rw [hsl, ok_bind]
      have hlen : rest.length - block = (rest.drop block).length := by rw [List.length_drop]
      rw [hlen]
      have := ih (write e fs o (rest.take block)).1 { i with pos := (pre ++ rest.take block).length } (write e fs o (rest.take block)).2
        (rest.take block ++ buf.drop block) (data ++ rest.take block) (pre ++ rest.take block) (rest.drop block)
        (given_write hgiv _) hne hg (by rw [List.append_assoc, List.take_append_drop]; exact hc) rfl
        (by rw [List.length_append, List.length_drop]; omega) (by rw [List.length_drop]; omega)
      rw [List.append_assoc, List.take_append_drop] at this
      exact this
    · rw [if_neg hle]
      by_cases h0 : 0 < rest.length
      · rw [if_pos h0]
        have hrd := read_full fs i buf pre rest [] hg (by simpa using hget) hp (by omega)
        rw [hrd, ok_bind]
        simp only
        rw [slice_prefix, ok_bind]
        refine ⟨_, _, _, rfl, given_write hgiv _, ?_⟩
        rw [List.length_append, List.length_drop]; omega
      · rw [if_neg h0]
        have : rest = [] := List.length_eq_zero_iff.mp (by omega)
        subst this
        exact ⟨_, _, _, rfl, by simpa using hgiv, hbl⟩

/-- The comparison loop decides equality of the rests. -/
theorem sameLoop_eq (block : Nat) (hb : 0 < block) (fs : FS N) (fuel : Nat) :
    ∀ (i1 i2 : IStream N) (b1 b2 p1 p2 r1 r2 : List UInt8), i1.good = true → i2.good = true → fs.get i1.name = p1 ++ r1 →
      fs.get i2.name = p2 ++ r2 → i1.pos = p1.length → i2.pos = p2.length → b1.length = block → b2.length = block →
      r1.length = r2.length → r1.length < fuel → sameLoop block fs fuel i1 i2 b1 b2 r1.length = ok (decide (r1 = r2)) := by
  induction fuel with
  | zero => intro _ _ _ _ _ _ _ _ _ _ _ _ _ _ _ _ _ h; omega
  | succ fuel ih =>
    intro i1 i2 b1 b2 p1 p2 r1 r2 hg1 hg2 hc1 hc2 hp1 hp2 hb1 hb2 hlen hf
    unfold sameLoop
    by_cases hle : block ≤ r1.length
    · rw [if_pos hle]
      have hl1 : (r1.take block).length = block := by rw [List.length_take]; omega
      have hl2 : (r2.take block).length = block := by rw [List.length_take]; omega
      have hr1 := read_full fs i1 b1 p1 (r1.take block) (r1.drop block) hg1 (by rw [List.append_assoc, List.take_append_drop]; exact hc1) hp1
        (by omega)
      have hr2 := read_full fs i2 b2 p2 (r2.take block) (r2.drop block) hg2 (by rw [List.append_assoc, List.take_append_drop]; exact hc2) hp2
        (by omega)
      rw [hl1] at hr1
      rw [hl2] at hr2
      rw [hr1, ok_bind]
      simp only
      rw [hr2, ok_bind]
      simp only
      have hs1 := slice_prefix (r1.take block) (b1.drop block)
      have hs2 := slice_prefix (r2.take block) (b2.drop block)
      rw [hl1] at hs1
      rw [hl2] at hs2
      rw [hs1, ok_bind, hs2, ok_bind]
      by_cases heq : r1.take block = r2.take block
      · rw [if_neg (by simp [heq])]
        have hlen' : r1.length - block = (r1.drop block).length := by rw [List.length_drop]
        rw [hlen']
        rw [ih _ _ _ _ (p1 ++ r1.take block) (p2 ++ r2.take block) (r1.drop block) (r2.drop block) (by exact hg1) (by exact hg2)
          (by rw [List.append_assoc, List.take_append_drop]; exact hc1) (by rw [List.append_assoc, List.take_append_drop]; exact hc2)
          rfl rfl (by rw [List.length_append, List.length_drop]; omega) (by rw [List.length_append, List.length_drop]; omega)
          (by rw [List.length_drop, List.length_drop, hlen]) (by rw [List.length_drop]; omega)]
        congr 1
        rw [decide_eq_decide]
        constructor
        · intro h
          rw [← List.take_append_drop block r1, ← List.take_append_drop block r2, heq, h]
        · intro h; rw [h]
      · rw [if_pos heq]
        congr 1
        symm
        rw [decide_eq_false_iff_not]
        intro h; exact heq (by rw [h])
    · rw [if_neg hle]
      by_cases h0 : 0 < r1.length
      · rw [if_pos h0]
        have hr1 := read_full fs i1 b1 p1 r1 [] hg1 (by simpa using hc1) hp1 (by omega)
        have hr2 := read_full fs i2 b2 p2 r2 [] hg2 (by simpa using hc2) hp2 (by omega)
        rw [hr1, ok_bind]
        simp only
        rw [hlen, hr2, ok_bind]
        simp only
        have hs1 := slice_prefix r1 (b1.drop r1.length)
        rw [hlen] at hs1
        rw [hs1, ok_bind, slice_prefix, ok_bind]
        by_cases h : r1 = r2 <;> simp [h]
      · rw [if_neg h0]
        have h1 : r1 = [] := List.length_eq_zero_iff.mp (by omega)
        have h2 : r2 = [] := List.length_eq_zero_iff.mp (by omega)
        simp [h1, h2]

end Strtk.FileIO
