import Verif.Bloom.Props

/-! # Bloom filter: the value of the hash, and the salts (C123)

The specification is arithmetic on natural numbers; the model computes with `UInt32`. -/

namespace Strtk.Bloom
open Outcome Mem Binary

/-! ## Specification -/

/-- The word with the given bytes, least significant byte first. -/
def word : List UInt8 → Nat
  | [] => 0
  | b :: bs => b.toNat + 256 * word bs

/-- The product half of the mixing: `hash` shifted up by seven bits, against `i` times an eighth of `hash`. -/
def mulMix (h i : Nat) : Nat := (h * 128 % 2 ^ 32) ^^^ (i * (h / 8) % 2 ^ 32)

/-- The sum half: the complement of `2048 hash` plus `i` against a 32nd of `hash`. -/
def addMix (h i : Nat) : Nat := 2 ^ 32 - 1 - (h * 2048 + (i ^^^ (h / 32))) % 2 ^ 32

/-- One block of eight bytes takes both halves. -/
def blockStep (h : Nat) (block : List UInt8) : Nat := h ^^^ (mulMix h (word (block.take 4)) ^^^ addMix h (word (block.drop 4)))

/-- Four of the up to seven bytes behind the blocks. -/
def tail4 (tail : List UInt8) (h : Nat) : Nat := if 4 ≤ tail.length then h ^^^ addMix h (word (tail.take 4)) else h

/-- The two bytes behind that: the other half if there was a part of four bytes. -/
def tail2 (tail : List UInt8) (h : Nat) : Nat :=
  if tail.length % 4 < 2 then h
  else if 4 ≤ tail.length then h ^^^ mulMix h (word ((tail.drop 4).take 2)) else h ^^^ addMix h (word (tail.take 2))

/-- The last byte of an odd number of bytes, with the number of parts before it. -/
def tail1 (tail : List UInt8) (h : Nat) : Nat :=
  if tail.length % 2 = 0 then h
  else (h + (word (tail.drop (tail.length - 1)) ^^^ (h * 0xA5A5A5A5 % 2 ^ 32)) + (tail.length / 4 + tail.length / 2 % 2)) % 2 ^ 32

def hashSpec (blocks : List (List UInt8)) (tail : List UInt8) (salt : Nat) : Nat := tail1 tail (tail2 tail (tail4 tail (blocks.foldl blockStep salt)))

/-! ## Proofs -/

theorem word_lt : ∀ l : List UInt8, word l < 256 ^ l.length
  | [] => by simp [word]
  | b :: bs => by
    have := word_lt bs
    have := b.toNat_lt
    simp only [word, List.length_cons, Nat.pow_succ]
    omega

theorem u16_word (a b : UInt8) : (u16 a b).toNat = word [a, b] := by
  have ha := a.toNat_lt
  have hb := b.toNat_lt
  simp only [u16, UInt32.toNat_or, UInt32.toNat_shiftLeft, UInt8.toNat_toUInt32, word]
  have : (b.toNat <<< (UInt32.toNat 8 % 32)) % 2 ^ 32 = 2 ^ 8 * b.toNat := by
    show (b.toNat <<< 8) % 2 ^ 32 = _
    rw [Nat.shiftLeft_eq]; omega
  rw [this, Nat.or_comm, ← Nat.two_pow_add_eq_or_of_lt (by omega : a.toNat < 2 ^ 8)]
  omega

theorem u32_word (a b c d : UInt8) : (u32 a b c d).toNat = word [a, b, c, d] := by
  have ha := a.toNat_lt
  have hb := b.toNat_lt
  have hc := c.toNat_lt
  have hd := d.toNat_lt
  simp only [u32, UInt32.toNat_or, UInt32.toNat_shiftLeft, UInt8.toNat_toUInt32, word]
  have h1 : (b.toNat <<< (UInt32.toNat 8 % 32)) % 2 ^ 32 = 2 ^ 8 * b.toNat := by
    show (b.toNat <<< 8) % 2 ^ 32 = _
    rw [Nat.shiftLeft_eq]; omega
  have h2 : (c.toNat <<< (UInt32.toNat 16 % 32)) % 2 ^ 32 = 2 ^ 16 * c.toNat := by
    show (c.toNat <<< 16) % 2 ^ 32 = _
    rw [Nat.shiftLeft_eq]; omega
  have h3 : (d.toNat <<< (UInt32.toNat 24 % 32)) % 2 ^ 32 = 2 ^ 24 * d.toNat := by
    show (d.toNat <<< 24) % 2 ^ 32 = _
    rw [Nat.shiftLeft_eq]; omega
  rw [h1, h2, h3, Nat.or_comm a.toNat, ← Nat.two_pow_add_eq_or_of_lt (by omega : a.toNat < 2 ^ 8), Nat.or_comm _ (2 ^ 16 * c.toNat),
    ← Nat.two_pow_add_eq_or_of_lt (by omega : 2 ^ 8 * b.toNat + a.toNat < 2 ^ 16), Nat.or_comm _ (2 ^ 24 * d.toNat),
    ← Nat.two_pow_add_eq_or_of_lt (by omega : 2 ^ 16 * c.toNat + (2 ^ 8 * b.toNat + a.toNat) < 2 ^ 24)]
  omega

theorem mul_toNat (h i : UInt32) : ((h <<< 7) ^^^ i * (h >>> 3)).toNat = mulMix h.toNat i.toNat := by
  simp only [UInt32.toNat_xor, UInt32.toNat_shiftLeft, UInt32.toNat_mul, UInt32.toNat_shiftRight, mulMix]
  show (h.toNat <<< 7) % 2 ^ 32 ^^^ (i.toNat * (h.toNat >>> 3)) % 2 ^ 32 = _
  rw [Nat.shiftLeft_eq, Nat.shiftRight_eq_div_pow]

theorem add_toNat (h i : UInt32) : (~~~((h <<< 11) + (i ^^^ (h >>> 5)))).toNat = addMix h.toNat i.toNat := by
  simp only [UInt32.toNat_not, UInt32.toNat_xor, UInt32.toNat_shiftLeft, UInt32.toNat_add, UInt32.toNat_shiftRight, addMix]
  show UInt32.size - 1 - ((h.toNat <<< 11) % 2 ^ 32 + (i.toNat ^^^ (h.toNat >>> 5))) % 2 ^ 32 = _
  rw [Nat.shiftLeft_eq, Nat.shiftRight_eq_div_pow, Nat.mod_add_mod]

theorem mix_even (i h : UInt32) : (mix 0 i h).toNat = h.toNat ^^^ addMix h.toNat i.toNat := by
  unfold mix
  rw [if_neg (by decide), UInt32.toNat_xor, add_toNat]

theorem mix_odd (i h : UInt32) : (mix 1 i h).toNat = h.toNat ^^^ mulMix h.toNat i.toNat := by
  unfold mix
  rw [if_pos (by decide), UInt32.toNat_xor, mul_toNat]

theorem hashBlocks_spec (tail : List UInt8) (ht : tail.length < 8) : ∀ (blocks : List (List UInt8)) (h : UInt32), (∀ b ∈ blocks, b.length = 8) →
    ∃ h', hashBlocks h (blocks.flatten ++ tail) = (h', tail) ∧ h'.toNat = blocks.foldl blockStep h.toNat := by
  intro blocks
  induction blocks with
  | nil =>
    intro h _
    refine ⟨h, ?_, rfl⟩
    simp only [List.flatten_nil, List.nil_append]
    unfold hashBlocks
    split
    · rename_i rest
      simp only [List.length_cons] at ht
      omega
    · rfl
  | cons b bs ih =>
    intro h hb
    have hb8 := hb b (by simp)
    match b, hb8 with
    | [a, b, c, d, e, f, g, i], _ =>
      obtain ⟨h', h1, h2⟩ := ih (h ^^^ ((h <<< 7) ^^^ u32 a b c d * (h >>> 3) ^^^ ~~~((h <<< 11) + (u32 e f g i ^^^ (h >>> 5)))))
        (fun x hx => hb x (by simp [hx]))
      refine ⟨h', ?_, ?_⟩
      · simp only [List.flatten_cons, List.cons_append, List.nil_append, hashBlocks]
        exact h1
      · rw [h2, List.foldl_cons]
        congr 1
        rw [UInt32.toNat_xor, UInt32.toNat_xor, mul_toNat, add_toNat, u32_word, u32_word]
        rfl

theorem last_toNat (h : UInt32) (a : UInt8) (n : Nat) (hn : n < 3) :
    (h + ((a.toUInt32 ^^^ (h * 0xA5A5A5A5)) + UInt32.ofNat n)).toNat = (h.toNat + (word [a] ^^^ (h.toNat * 0xA5A5A5A5 % 2 ^ 32)) + n) % 2 ^ 32 := by
  simp only [UInt32.toNat_add, UInt32.toNat_xor, UInt32.toNat_mul, UInt8.toNat_toUInt32, UInt32.toNat_ofNat', word]
  show (h.toNat + ((a.toNat ^^^ (h.toNat * 0xA5A5A5A5 % 2 ^ 32)) + n % 2 ^ 32) % 2 ^ 32) % 2 ^ 32 = _
  rw [Nat.mul_zero, Nat.add_zero]
  omega

/-- C123, the hash: the key is cut into blocks of eight bytes and up to seven bytes behind them. -/
theorem C123_hash_value (blocks : List (List UInt8)) (tail : List UInt8) (hb : ∀ b ∈ blocks, b.length = 8) (ht : tail.length < 8) (salt : UInt32) :
    (hashAp (blocks.flatten ++ tail) salt).toNat = hashSpec blocks tail salt.toNat := by
  obtain ⟨h, h1, h2⟩ := hashBlocks_spec tail ht blocks salt hb
  unfold hashAp hashSpec
  rw [h1, ← h2]
  simp only
  match tail, ht with
  | [], _ => rfl
  | [a], _ =>
    show (h + ((a.toUInt32 ^^^ (h * 0xA5A5A5A5)) + UInt32.ofNat 0)).toNat = _
    rw [last_toNat _ _ _ (by omega)]
    simp [tail1, tail2, tail4]
  | [a, b], _ =>
    show (mix 0 (u16 a b) h).toNat = _
    rw [mix_even, u16_word] <;> simp [tail1, tail2, tail4]
  | [a, b, c], _ =>
    show (mix 0 (u16 a b) h + ((c.toUInt32 ^^^ (mix 0 (u16 a b) h * 0xA5A5A5A5)) + UInt32.ofNat 1)).toNat = _
    rw [last_toNat _ _ _ (by omega), mix_even, u16_word] <;> simp [tail1, tail2, tail4]
  | [a, b, c, d], _ =>
    show (mix 0 (u32 a b c d) h).toNat = _
    rw [mix_even, u32_word] <;> simp [tail1, tail2, tail4]
  | [a, b, c, d, e], _ =>
    show (mix 0 (u32 a b c d) h + ((e.toUInt32 ^^^ (mix 0 (u32 a b c d) h * 0xA5A5A5A5)) + UInt32.ofNat 1)).toNat = _
    rw [last_toNat _ _ _ (by omega), mix_even, u32_word] <;> simp [tail1, tail2, tail4]
  | [a, b, c, d, e, f], _ =>
    show (mix 1 (u16 e f) (mix 0 (u32 a b c d) h)).toNat = _
    rw [mix_odd, mix_even, u32_word, u16_word] <;> simp [tail1, tail2, tail4]
  | [a, b, c, d, e, f, g], _ =>
    show (mix 1 (u16 e f) (mix 0 (u32 a b c d) h) + ((g.toUInt32 ^^^ (mix 1 (u16 e f) (mix 0 (u32 a b c d) h) * 0xA5A5A5A5)) + UInt32.ofNat 2)).toNat = _
    rw [last_toNat _ _ _ (by omega), mix_odd, mix_even, u32_word, u16_word] <;> simp [tail1, tail2, tail4]

/-- Every key is cut that way. -/
theorem C123_hash_every_key : ∀ key : List UInt8, ∃ (blocks : List (List UInt8)) (tail : List UInt8),
    key = blocks.flatten ++ tail ∧ (∀ b ∈ blocks, b.length = 8) ∧ tail.length < 8 := by
  intro key
  induction hn : key.length using Nat.strongRecOn generalizing key with
  | ind n ih =>
    by_cases h : key.length < 8
    · exact ⟨[], key, rfl, by simp, h⟩
    · obtain ⟨blocks, tail, h1, h2, h3⟩ := ih (key.drop 8).length (by rw [List.length_drop]; omega) (key.drop 8) rfl
      refine ⟨key.take 8 :: blocks, tail, ?_, ?_, h3⟩
      · rw [List.flatten_cons, List.append_assoc, ← h1, List.take_append_drop]
      · intro b hb
        rcases List.mem_cons.mp hb with rfl | hb
        · rw [List.length_take]; omega
        · exact h2 b hb

theorem xor_cancel {i j k : Nat} (h : i ^^^ k = j ^^^ k) : i = j := by
  have : i ^^^ k ^^^ k = j ^^^ k ^^^ k := by rw [h]
  simpa [Nat.xor_assoc] using this

theorem xor_cancel' {i j k : Nat} (h : k ^^^ i = k ^^^ j) : i = j := xor_cancel (k := k) (by rw [Nat.xor_comm i, Nat.xor_comm j, h])

theorem addMix_inj {h i j : Nat} (hh : h < 2 ^ 32) (hi : i < 2 ^ 32) (hj : j < 2 ^ 32) (e : addMix h i = addMix h j) : i = j := by
  have h5 : h / 32 < 2 ^ 32 := by omega
  have xi := Nat.xor_lt_two_pow hi h5
  have xj := Nat.xor_lt_two_pow hj h5
  unfold addMix at e
  have : i ^^^ (h / 32) = j ^^^ (h / 32) := by omega
  exact xor_cancel this

theorem word_inj : ∀ (k l : List UInt8), k.length = l.length → word k = word l → k = l
  | [], [], _, _ => rfl
  | a :: k, b :: l, hl, h => by
    have := a.toNat_lt
    have := b.toNat_lt
    simp only [word] at h
    rw [word_inj k l (by simpa using hl) (by omega), UInt8.toNat_inj.mp (by omega : a.toNat = b.toNat)]

/-- Different keys of one, two or four bytes (characters, `short`, `int`) have different hashes under every salt: between such keys the filter confuses
only what its table size folds together. -/
theorem C123_hash_injective (k l : List UInt8) (hl : k.length = l.length) (h : k.length = 1 ∨ k.length = 2 ∨ k.length = 4) (salt : UInt32)
    (e : hashAp k salt = hashAp l salt) : k = l := by
  have ek := C123_hash_value [] k (by simp) (by omega) salt
  have el := C123_hash_value [] l (by simp) (by omega) salt
  simp only [List.flatten_nil, List.nil_append] at ek el
  have e' : hashSpec [] k salt.toNat = hashSpec [] l salt.toNat := by rw [← ek, ← el, e]
  have hs := salt.toNat_lt
  have wk := word_lt k
  have wl := word_lt l
  apply word_inj k l hl
  match k, l, hl, h with
  | [a], [b], _, _ =>
    simp only [hashSpec, tail1, tail2, tail4, List.foldl_nil, List.length_cons, List.length_nil] at e'
    simp at e'
    have hm : salt.toNat * 2779096485 % 4294967296 < 2 ^ 32 := by omega
    have xk := Nat.xor_lt_two_pow (Nat.lt_of_lt_of_le wk (by simp)) hm
    have xl := Nat.xor_lt_two_pow (Nat.lt_of_lt_of_le wl (by simp)) hm
    exact xor_cancel (k := salt.toNat * 2779096485 % 4294967296) (by omega)
  | [a, b], [c, d], _, _ =>
    simp only [hashSpec, tail1, tail2, tail4, List.foldl_nil, List.length_cons, List.length_nil] at e'
    simp at e'
    exact addMix_inj hs (Nat.lt_of_lt_of_le wk (by simp)) (Nat.lt_of_lt_of_le wl (by simp)) (xor_cancel' e')
  | [a, b, c, d], [a', b', c', d'], _, _ =>
    simp only [hashSpec, tail1, tail2, tail4, List.foldl_nil, List.length_cons, List.length_nil] at e'
    simp at e'
    exact addMix_inj hs (Nat.lt_of_lt_of_le wk (by simp)) (Nat.lt_of_lt_of_le wl (by simp)) (xor_cancel' e')

example : hashAp [1, 2, 3, 4, 5, 6, 7, 8, 9, 10, 11, 12, 13, 14, 15] 7 = UInt32.ofNat (hashSpec [[1, 2, 3, 4, 5, 6, 7, 8]] [9, 10, 11, 12, 13, 14, 15] 7) := by
  decide +kernel
/-- From eight bytes on hashes do collide: the product with zero forgets the first half of the block under salts below eight. -/
theorem C123_hash_collision (a b : List UInt8) (ha : a.length = 4) (hb : b.length = 4) (r : List UInt8) (hr : r.length = 4) (salt : UInt32) (hs : salt.toNat < 8) :
    hashAp (a ++ r) salt = hashAp (b ++ r) salt := by
  apply UInt32.toNat_inj.mp
  have ea := C123_hash_value [a ++ r] [] (by simp [ha, hr]) (by simp) salt
  have eb := C123_hash_value [b ++ r] [] (by simp [hb, hr]) (by simp) salt
  simp only [List.flatten_cons, List.flatten_nil, List.append_nil] at ea eb
  rw [ea, eb]
  have h8 : salt.toNat / 8 = 0 := by omega
  simp only [hashSpec, List.foldl_cons, List.foldl_nil, blockStep, mulMix, h8, Nat.mul_zero]
  rw [List.drop_append_of_le_length (by omega), List.drop_append_of_le_length (by omega), ← ha, List.drop_length, ha, ← hb, List.drop_length]

example : hashAp [1, 2, 3, 4, 9, 9, 9, 9] 5 = hashAp [8, 7, 6, 5, 9, 9, 9, 9] 5 :=
  C123_hash_collision [1, 2, 3, 4] [8, 7, 6, 5] rfl rfl [9, 9, 9, 9] rfl 5 (by decide)

/-! ## Salts -/

/-- What the loop over the salts has done before index `i`: these are final, the others still the predefined ones. -/
def Mixed (seed : UInt32) (old new : List UInt32) (i : Nat) : Prop :=
  new.length = old.length ∧ (∀ j, i ≤ j → new[j]? = old[j]?) ∧
    ∀ j, j < i → j < old.length → new[j]? = do
      let a ← old[j]?
      let b ← (if (j + 3) % old.length < j then new[(j + 3) % old.length]? else old[(j + 3) % old.length]?)
      some (a * b + seed)

theorem mixSalts_spec (seed : UInt32) (old : List UInt32) : ∀ (n i : Nat) (salts : List UInt32), i + n = old.length → Mixed seed old salts i →
    ∃ l, mixSalts seed n i salts = ok l ∧ Mixed seed old l old.length := by
  intro n
  induction n with
  | zero =>
    intro i salts h hm
    rw [Nat.add_zero] at h
    exact ⟨salts, rfl, h ▸ hm⟩
  | succ n ih =>
    intro i salts h ⟨hl, hold, hnew⟩
    have hpos : 0 < old.length := by omega
    obtain ⟨a, ha', ha⟩ := deref_lt (s := salts) (i := i) (by omega)
    have hj := Nat.mod_lt (i + 3) hpos
    obtain ⟨b, hb', hb⟩ := deref_lt (s := salts) (i := (i + 3) % salts.length) (by rw [hl]; exact hj)
    rw [hl] at hb'
    have hset : ∀ j, j ≠ i → (salts.set i (a * b + seed))[j]? = salts[j]? := fun j hj => List.getElem?_set_ne (Ne.symm hj)
    obtain ⟨l, h1, h2⟩ := ih (i + 1) (salts.set i (a * b + seed)) (by omega) ⟨by simp [hl], fun j hj => by rw [hset j (by omega), hold j (by omega)], by
      intro j hj hjl
      have hcond : ∀ k, k < i → (salts.set i (a * b + seed))[k]? = salts[k]? := fun k hk => hset k (by omega)
      by_cases e : j = i
      · subst e
        rw [List.getElem?_set_self (by omega), ← hold j (Nat.le_refl _), ha']
        by_cases c : (j + 3) % old.length < j
        · rw [if_pos c, hcond _ c, hb']; rfl
        · rw [if_neg c, ← hold _ (by omega), hb']; rfl
      · rw [hset j e, hnew j (by omega) hjl]
        by_cases c : (j + 3) % old.length < j
        · rw [if_pos c, if_pos c, hcond _ (by omega)]
        · rw [if_neg c, if_neg c]⟩
    refine ⟨l, ?_, h2⟩
    unfold mixSalts
    rw [ha, ok_bind, hb, ok_bind, store_lt _ (by omega), ok_bind, h1]

/-- C123, the salts up to 128 hash functions: each predefined salt times the salt three places on (around the end; the mixed one where the loop has been
there), plus the seed. -/
theorem C123_salts (rand : UInt32 → Nat → UInt32) (fuel : Nat) (p : Params) (hp : p.hashes ≤ 128) :
    ∃ f, Filter.new rand fuel p = ok f ∧ f.seed = (p.seed * 0xA5A5A5A5 + 1) % 2 ^ 64 ∧ f.salts.length = p.hashes ∧ ∀ i, i < p.hashes →
      f.salts[i]? = (do
        let a ← predefSalt[i]?
        let b ← (if (i + 3) % p.hashes < i then f.salts[(i + 3) % p.hashes]? else predefSalt[(i + 3) % p.hashes]?)
        some (a * b + UInt32.ofNat f.seed)) := by
  have hl128 : predefSalt.length = 128 := by decide +kernel
  have hlen : (predefSalt.take p.hashes).length = p.hashes := by rw [List.length_take]; omega
  obtain ⟨l, h1, h2, _, h3⟩ := mixSalts_spec (UInt32.ofNat ((p.seed * 0xA5A5A5A5 + 1) % 2 ^ 64)) (predefSalt.take p.hashes) (predefSalt.take p.hashes).length 0
    (predefSalt.take p.hashes) (by omega) ⟨rfl, fun _ _ => rfl, fun j hj => by omega⟩
  have hnew : Filter.new rand fuel p = ok
      { salts := l, table := List.replicate (p.tableSize / 8) 0, saltCount := p.hashes, tableSize := p.tableSize,
        rawSize := p.tableSize / 8, projected := p.projected, inserted := 0, seed := (p.seed * 0xA5A5A5A5 + 1) % 2 ^ 64, fpp := p.fpp, sizes := none } := by
    unfold Filter.new generateSalts
    simp only [if_pos hp, h1, ok_bind]
  refine ⟨_, hnew, rfl, h2.trans hlen, ?_⟩
  intro i hi
  have := h3 i (by omega) (by omega)
  rw [hlen, List.getElem?_take_of_lt hi, List.getElem?_take_of_lt (Nat.mod_lt _ (by omega))] at this
  exact this

/-- Adding candidates one after another: zero and what is there already are left out. -/
def addNew (salts candidates : List UInt32) : List UInt32 := candidates.foldl (fun l c => if c = 0 ∨ c ∈ l then l else l ++ [c]) salts

theorem moreSalts_exact (rnd : Nat → UInt32) (count : Nat) : ∀ (fuel j : Nat) (salts l : List UInt32), moreSalts rnd count fuel j salts = ok l →
    ∃ m, l = addNew salts ((List.range m).map fun k => rnd (j + 2 * k) * rnd (j + 2 * k + 1)) ∧ count ≤ l.length ∧
      ∀ m' < m, (addNew salts ((List.range m').map fun k => rnd (j + 2 * k) * rnd (j + 2 * k + 1))).length < count := by
  intro fuel
  induction fuel with
  | zero => intro j salts l h; cases h
  | succ fuel ih =>
    intro j salts l h
    unfold moreSalts at h
    split at h
    · rename_i hlt
      have hstep : ∀ m, addNew salts ((List.range (m + 1)).map fun k => rnd (j + 2 * k) * rnd (j + 2 * k + 1)) =
          addNew (if rnd j * rnd (j + 1) = 0 ∨ rnd j * rnd (j + 1) ∈ salts then salts else salts ++ [rnd j * rnd (j + 1)])
            ((List.range m).map fun k => rnd (j + 2 + 2 * k) * rnd (j + 2 + 2 * k + 1)) := by
        intro m
        rw [List.range_succ_eq_map, List.map_cons, addNew, List.foldl_cons, addNew, List.map_map]
        simp only [Nat.mul_zero, Nat.add_zero]
        congr 2
        funext k
        simp only [Function.comp]
        congr 2 <;> omega
      have hnext : moreSalts rnd count fuel (j + 2)
          (if rnd j * rnd (j + 1) = 0 ∨ rnd j * rnd (j + 1) ∈ salts then salts else salts ++ [rnd j * rnd (j + 1)]) = ok l := by
        simp only at h
        by_cases c : rnd j * rnd (j + 1) = 0
        · rw [if_pos c] at h
          rw [if_pos (Or.inl c)]; exact h
        · rw [if_neg c] at h
          by_cases c' : rnd j * rnd (j + 1) ∈ salts
          · rw [if_pos c'] at h
            rw [if_pos (Or.inr c')]; exact h
          · rw [if_neg c'] at h
            rw [if_neg (not_or.mpr ⟨c, c'⟩)]; exact h
      obtain ⟨m, h1, h2, h3⟩ := ih _ _ _ hnext
      refine ⟨m + 1, ?_, h2, ?_⟩
      · rw [hstep]; exact h1
      · intro m' hm'
        cases m' with
        | zero => exact hlt
        | succ m' => rw [hstep]; exact h3 m' (by omega)
    · cases h
      exact ⟨0, rfl, by omega, by omega⟩

/-- C123, the salts beyond 128 hash functions: the predefined ones, then products of pairs of consecutive results of `rand()` seeded with the low half of
the seed, in the order they come, without zeroes and without repetitions; no more pairs are drawn than needed.  The seed does not enter into the first 128. -/
theorem C123_salts_many (rand : UInt32 → Nat → UInt32) (fuel : Nat) (p : Params) (hp : 128 < p.hashes) (f : Filter) (hf : Filter.new rand fuel p = ok f) :
    ∃ m, f.salts = addNew predefSalt ((List.range m).map fun k => rand (UInt32.ofNat f.seed) (2 * k) * rand (UInt32.ofNat f.seed) (2 * k + 1)) ∧
      f.salts.length = p.hashes ∧
      ∀ m' < m, (addNew predefSalt ((List.range m').map fun k => rand (UInt32.ofNat f.seed) (2 * k) * rand (UInt32.ofNat f.seed) (2 * k + 1))).length < p.hashes := by
  have hlen := ((C54_new rand fuel p).2 f hf).1
  unfold Filter.new generateSalts at hf
  simp only [if_neg (by omega : ¬ p.hashes ≤ 128), bind_eq_ok] at hf
  obtain ⟨l, h1, h2⟩ := hf
  cases h2
  obtain ⟨m, e1, _, e3⟩ := moreSalts_exact _ _ _ _ _ _ h1
  simp only [Nat.zero_add] at e1 e3
  exact ⟨m, e1, hlen, e3⟩

/-- Non-vacuity: 130 hash functions over a generator that repeats itself and returns a zero. -/
example : (Filter.new (fun _ j => [5, 7, 0, 3, 5, 7, 1, 2].getD j 0) 10 ⟨130, 64, 10, 0, 7⟩ >>= fun f => ok f.salts) = ok (predefSalt ++ [35, 2]) := by
  decide +kernel

example := C123_hash_value [[1, 2, 3, 4, 5, 6, 7, 8], [9, 9, 9, 9, 9, 9, 9, 9]] [9, 10, 11, 12, 13, 14, 15] (by decide) (by decide) 7

end Strtk.Bloom
