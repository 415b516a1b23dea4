import Verif.Bloom.Props

/-! # Bloom filter: file round trip (C56) -/

namespace Strtk.Bloom
open Outcome Mem Binary

/-- A plain filter whose members are in the ranges of their C++ types, with one salt for each hash function and a table of the size it says. -/
structure Fits (f : Filter) : Prop where
  salts : f.salts.length = f.saltCount
  saltCount : f.saltCount < 2 ^ 32
  tableSize : f.tableSize < 2 ^ 64
  raw : f.rawSize < 2 ^ 62
  projected : f.projected < 2 ^ 64
  inserted : f.inserted < 2 ^ 32
  seed : f.seed < 2 ^ 64
  fpp : f.fpp < 2 ^ 64
  table : f.table.length = f.rawSize
  plain : f.sizes = none

/-- A writer that puts exactly `bytes` if there is room for them. -/
def Puts (w : St → Outcome (Bool × St)) (bytes : List UInt8) : Prop :=
  ∀ pre room, bytes.length ≤ room.length → (pre ++ room).length < 2 ^ 63 → w (at' pre room []) = ok (true, at' (pre ++ bytes) (room.drop bytes.length) [])

theorem puts_pod (bs : List UInt8) (h : bs.length < 2 ^ 63) : Puts (writePod bs) bs :=
  fun pre room h1 h2 => (writePod_at pre room bs [] h2 h).1 h1

theorem puts_podVec (v : List (List UInt8)) (hv : v.length < 2 ^ 32) (hp : ∀ x ∈ v, x.length = 4) :
    Puts (writePodVec (ok ()) 4 v) (withLen 4 v.length v.flatten) := by
  intro pre room h1 h2
  have hfl := flatten_length_const 4 v hp
  rw [withLen_length, hfl] at h1
  have h2' := h2
  simp only [List.length_append] at h2'
  unfold writePodVec
  rw [size32_of_lt hv, if_pos (by simp only [capacityOk, List.length_append, decide_eq_true_eq]; omega),
    (writePod_at pre room _ [] h2 (by rw [leBytes_length]; omega)).1 (by rw [leBytes_length]; omega), ok_bind]
  simp only [if_true]
  unfold writeBatch
  have hif : (if v.length = 0 then ok () else ok ()) = ok () := by split <;> rfl
  have hsl : slice v.flatten 0 (v.length * 4) = ok v.flatten := by rw [← hfl]; have := slice_append [] v.flatten []; simpa using this
  rw [hif, ok_bind, hsl, ok_bind]
  unfold putBytes
  rw [copyTo_append (pre ++ leBytes 4 v.length) _ (room.drop (leBytes 4 v.length).length) v.flatten
    (by rw [List.length_drop, leBytes_length, hfl]; omega) rfl]
  simp [withLen, leBytes_length]
  omega

theorem puts_ptr (data : List UInt8) (n : Nat) (hn : n < 2 ^ 32) (hd : n ≤ data.length) :
    Puts (writePtr data n 1 true) (withLen 4 n (data.take n)) := by
  intro pre room h1 h2
  have h2' := h2
  simp only [List.length_append] at h2'
  have hlen : (data.take n).length = n := by simp; omega
  rw [withLen_length, hlen] at h1
  unfold writePtr
  simp only [if_true]
  rw [(writePod_at pre room _ [] h2 (by rw [leBytes_length]; omega)).1 (by rw [leBytes_length]; omega), ok_bind]
  simp only [if_true, Nat.mul_one]
  unfold writeRaw
  rw [if_pos (by simp only [capacityOk, List.length_append, List.length_drop, leBytes_length, decide_eq_true_eq]; omega)]
  have hsl : slice data 0 n = ok (data.take n) := by simp [slice, hd]
  rw [hsl, ok_bind]
  unfold putBytes
  rw [copyTo_append (pre ++ leBytes 4 n) _ (room.drop (leBytes 4 n).length) (data.take n)
    (by rw [List.length_drop, leBytes_length, hlen]; omega) rfl]
  simp [withLen, leBytes_length, Nat.min_eq_left hd]
  omega

theorem chain_puts : ∀ (ws : List ((St → Outcome (Bool × St)) × List UInt8)), (∀ w ∈ ws, Puts w.1 w.2) →
    Puts (chain (ws.map Prod.fst)) (ws.map Prod.snd).flatten := by
  intro ws
  induction ws with
  | nil => intro _ pre room _ _; simp [chain]
  | cons w ws ih =>
    intro h pre room h1 h2
    simp only [List.map_cons, List.flatten_cons, List.length_append] at h1
    have h2' := h2
    simp only [List.length_append] at h2'
    simp only [List.map_cons, chain]
    rw [h w (by simp) pre room (by omega) h2, ok_bind]
    simp only [if_true]
    rw [ih (fun w hw => h w (by simp [hw])) (pre ++ w.2) (room.drop w.2.length) (by rw [List.length_drop]; omega)
      (by simp only [List.length_append, List.length_drop]; omega)]
    simp [Nat.add_comm]

/-- The bytes of the file. -/
def fileBytes (f : Filter) : List UInt8 :=
  leBytes 4 f.saltCount ++ (leBytes 8 f.tableSize ++ (leBytes 8 f.rawSize ++ (leBytes 8 f.projected ++ (leBytes 4 f.inserted ++
    (leBytes 8 f.seed ++ (leBytes 8 f.fpp ++ (withLen 4 f.saltCount (f.salts.flatMap fun s => leBytes 4 s.toNat) ++
      withLen 4 (f.rawSize % 2 ^ 32) (f.table.take (f.rawSize % 2 ^ 32)))))))))

theorem writeFile_eq (f : Filter) (hf : Fits f) (ht : 0 < f.tableSize) : f.writeFile = ok (some (fileBytes f)) := by
  have e := hf.salts
  have b1 := hf.saltCount
  have b2 := hf.raw
  have b3 := hf.table
  have hmod : f.rawSize % 2 ^ 32 < 2 ^ 32 := Nat.mod_lt _ (by decide)
  have hmod' : f.rawSize % 2 ^ 32 ≤ f.rawSize := Nat.mod_le _ _
  have hlen4 : ∀ x ∈ f.salts.map (fun s => leBytes 4 s.toNat), x.length = 4 := by
    intro x hx
    obtain ⟨s, _, rfl⟩ := List.mem_map.mp hx
    exact leBytes_length _ _
  have hflat := flatten_length_const 4 _ hlen4
  rw [List.length_map] at hflat
  have hp := chain_puts [
      (writePod (leBytes 4 f.saltCount), leBytes 4 f.saltCount),
      (writePod (leBytes 8 f.tableSize), leBytes 8 f.tableSize),
      (writePod (leBytes 8 f.rawSize), leBytes 8 f.rawSize),
      (writePod (leBytes 8 f.projected), leBytes 8 f.projected),
      (writePod (leBytes 4 f.inserted), leBytes 4 f.inserted),
      (writePod (leBytes 8 f.seed), leBytes 8 f.seed),
      (writePod (leBytes 8 f.fpp), leBytes 8 f.fpp),
      (writePodVec (ok ()) 4 (f.salts.map fun s => leBytes 4 s.toNat),
        withLen 4 (f.salts.map fun s => leBytes 4 s.toNat).length (f.salts.map fun s => leBytes 4 s.toNat).flatten),
      (writePtr f.table (size32 f.rawSize) 1 true, withLen 4 (size32 f.rawSize) (f.table.take (size32 f.rawSize)))] (by
    intro w hw
    simp only [List.mem_cons, List.not_mem_nil, or_false] at hw
    rcases hw with rfl | rfl | rfl | rfl | rfl | rfl | rfl | rfl | rfl
    · exact puts_pod _ (by rw [leBytes_length]; omega)
    · exact puts_pod _ (by rw [leBytes_length]; omega)
    · exact puts_pod _ (by rw [leBytes_length]; omega)
    · exact puts_pod _ (by rw [leBytes_length]; omega)
    · exact puts_pod _ (by rw [leBytes_length]; omega)
    · exact puts_pod _ (by rw [leBytes_length]; omega)
    · exact puts_pod _ (by rw [leBytes_length]; omega)
    · exact puts_podVec _ (by rw [List.length_map]; omega) hlen4
    · exact puts_ptr _ _ (Nat.mod_lt _ (by decide)) (by show f.rawSize % 2 ^ 32 ≤ _; omega))
  simp only [List.map_cons, List.map_nil, List.flatten_cons, List.flatten_nil, List.append_nil] at hp
  have hp := hp [] (List.replicate (bufferSize f) 0) (by
      simp only [List.length_append, leBytes_length, withLen_length, List.length_replicate, hflat, List.length_take, bufferSize, size32]
      omega) (by
      simp only [List.nil_append, List.length_replicate, bufferSize]
      omega)
  unfold Filter.writeFile
  rw [if_neg (by omega)]
  have h0 : St.fresh (List.replicate (bufferSize f) 0) = at' [] (List.replicate (bufferSize f) 0) [] := rfl
  rw [h0, hp, ok_bind]
  simp only [List.nil_append, if_true, List.take_left]
  unfold fileBytes size32
  rw [List.length_map, e, List.flatMap_def]

theorem thenPod_eq (n v : Nat) (hv : v < 256 ^ n) (pre post : List UInt8) (hl : (pre ++ (leBytes n v ++ post)).length < 2 ^ 63)
    (k : Nat → St → Outcome (Option Filter)) :
    thenPod n (at' pre (leBytes n v ++ post) []) k = k v (at' (pre ++ leBytes n v) post []) := by
  unfold thenPod
  have := readPod_at pre (leBytes n v) post [] hl
  rw [leBytes_length] at this
  rw [this, ok_bind]
  simp only [leNat_leBytes, Nat.mod_eq_of_lt hv]

theorem readPtr_eq (n : Nat) (hn : n < 2 ^ 32) (data pre : List UInt8) (hd : data.length = n) (hl : (pre ++ (withLen 4 n data ++ [])).length < 2 ^ 63) :
    ∃ st, readPtr 1 (at' pre (withLen 4 n data ++ []) []) = ok (some data, st) := by
  obtain ⟨h1, h2, h3, h4⟩ := readPrefix 4 n hn pre data [] [] hl
  unfold readPtr
  rw [h2, ok_bind]
  simp only [h1, Nat.mul_one]
  rw [← hd, readPod_at _ _ _ _ (by rw [hd]; exact h3)]
  exact ⟨_, rfl⟩

/-- What comes back, for every filter: everything but the table, of which as many cells are kept as fit into 32 bits. -/
theorem C56_read_back (f : Filter) (hf : Fits f) (ht : 0 < f.tableSize) :
    ∃ bytes, f.writeFile = ok (some bytes) ∧
      readFile bytes = ok (some { f with table := f.table.take (f.rawSize % 2 ^ 32), rawSize := f.rawSize % 2 ^ 32 }) := by
  refine ⟨fileBytes f, writeFile_eq f hf ht, ?_⟩
  have e := hf.salts
  have b1 := hf.saltCount
  have b2 := hf.raw
  have b3 := hf.table
  have hmod : f.rawSize % 2 ^ 32 < 2 ^ 32 := Nat.mod_lt _ (by decide)
  have hmod' : f.rawSize % 2 ^ 32 ≤ f.rawSize := Nat.mod_le _ _
  have hlen4 : ∀ x ∈ f.salts.map (fun s => leBytes 4 s.toNat), x.length = 4 := by
    intro x hx
    obtain ⟨s, _, rfl⟩ := List.mem_map.mp hx
    exact leBytes_length _ _
  have hflat := flatten_length_const 4 _ hlen4
  rw [List.length_map, ← List.flatMap_def] at hflat
  have htl : (f.table.take (f.rawSize % 2 ^ 32)).length = f.rawSize % 2 ^ 32 := by rw [List.length_take]; omega
  unfold readFile
  have h0 : ∀ l, St.fresh l = at' [] l [] := fun _ => rfl
  rw [h0]
  unfold fileBytes
  rw [thenPod_eq _ _ (by have := hf.saltCount; omega)]
  rw [thenPod_eq _ _ (by have := hf.tableSize; omega)]
  rw [thenPod_eq _ _ (by have := hf.raw; omega)]
  rw [thenPod_eq _ _ (by have := hf.projected; omega)]
  rw [thenPod_eq _ _ (by have := hf.inserted; omega)]
  rw [thenPod_eq _ _ (by have := hf.seed; omega)]
  rw [thenPod_eq _ _ (by have := hf.fpp; omega)]
  case hl => simp only [List.length_append, leBytes_length, withLen_length, hflat, htl, List.length_nil]; omega
  case hl => simp only [List.length_append, leBytes_length, withLen_length, hflat, htl, List.length_nil]; omega
  case hl => simp only [List.length_append, leBytes_length, withLen_length, hflat, htl, List.length_nil]; omega
  case hl => simp only [List.length_append, leBytes_length, withLen_length, hflat, htl, List.length_nil]; omega
  case hl => simp only [List.length_append, leBytes_length, withLen_length, hflat, htl, List.length_nil]; omega
  case hl => simp only [List.length_append, leBytes_length, withLen_length, hflat, htl, List.length_nil]; omega
  case hl => simp only [List.length_append, leBytes_length, withLen_length, hflat, htl, List.length_nil]; omega
  generalize hpre : ([] ++ leBytes 4 f.saltCount ++ leBytes 8 f.tableSize ++ leBytes 8 f.rawSize ++ leBytes 8 f.projected ++ leBytes 4 f.inserted ++
    leBytes 8 f.seed ++ leBytes 8 f.fpp) = pre
  have hprel : pre.length = 48 := by rw [← hpre]; simp [leBytes_length]
  have hv := read_podVec 4 [] (f.salts.map fun s => leBytes 4 s.toNat) pre (withLen 4 (f.rawSize % 2 ^ 32) (f.table.take (f.rawSize % 2 ^ 32))) []
    (by rw [List.length_map]; omega) hlen4 (by
      rw [← List.flatMap_def]
      simp only [List.length_append, withLen_length, hflat, htl, hprel]; omega)
  rw [List.length_map, e, ← List.flatMap_def] at hv
  rw [hv, ok_bind]
  simp only [if_true]
  obtain ⟨st, hr⟩ := readPtr_eq (f.rawSize % 2 ^ 32) hmod (f.table.take (f.rawSize % 2 ^ 32))
    (pre ++ withLen 4 f.saltCount (f.salts.flatMap fun s => leBytes 4 s.toNat)) htl (by
      simp only [List.length_append, withLen_length, hflat, htl, hprel, List.length_nil]; omega)
  rw [List.append_nil] at hr
  rw [hr, ok_bind]
  simp only [htl, List.map_map]
  have hs : f.salts.map ((fun b => UInt32.ofNat (leNat b)) ∘ fun s => leBytes 4 s.toNat) = f.salts := by
    conv => rhs; rw [← List.map_id f.salts]
    apply List.map_congr_left
    intro s _
    simp only [Function.comp, leNat_leBytes, id]
    rw [Nat.mod_eq_of_lt (by have := s.toNat_lt; omega)]
    simp
  rw [hs, ← hf.plain]

/-- C56: for tables below 4 GB the file restores the same filter, and `==` says so. -/
theorem C56_round_trip_partial (f : Filter) (hf : Fits f) (ht : 0 < f.tableSize) (hr : f.rawSize < 2 ^ 32) :
    ∃ bytes, f.writeFile = ok (some bytes) ∧ readFile bytes = ok (some f) ∧ f.equal f = ok true := by
  obtain ⟨bytes, h1, h2⟩ := C56_read_back f hf ht
  refine ⟨bytes, h1, ?_, ?_⟩
  · rw [h2, Nat.mod_eq_of_lt hr, List.take_of_length_le (Nat.le_of_eq hf.table)]
  · have : slice f.table 0 f.rawSize = ok f.table := by
      simp [slice, hf.table, List.take_of_length_le (Nat.le_of_eq hf.table)]
    simp [Filter.equal, this]

/-- From 4 GB on the filter read back is a different one. -/
theorem C56_large_truncated (f : Filter) (hf : Fits f) (ht : 0 < f.tableSize) (hr : 2 ^ 32 ≤ f.rawSize) :
    ∃ bytes g, f.writeFile = ok (some bytes) ∧ readFile bytes = ok (some g) ∧ g.rawSize ≠ f.rawSize ∧ f.equal g = ok false := by
  obtain ⟨bytes, h1, h2⟩ := C56_read_back f hf ht
  have hlt : f.rawSize % 2 ^ 32 < 2 ^ 32 := Nat.mod_lt _ (by decide)
  refine ⟨bytes, _, h1, h2, ?_, ?_⟩
  · show f.rawSize % 2 ^ 32 ≠ f.rawSize
    omega
  · unfold Filter.equal
    rw [if_neg]
    rintro ⟨_, _, h, _⟩
    have h : f.rawSize = f.rawSize % 2 ^ 32 := h
    omega

/-- Every filter with a history of plain operations qualifies, whatever the parameters. -/
theorem C56_history_fits (rand : UInt32 → Nat → UInt32) (fuel : Nat) (p : Params) (f0 : Filter) (hnew : Filter.new rand fuel p = ok f0)
    (h8 : 8 ∣ p.tableSize) (hpos : 0 < p.tableSize) (hp : p.hashes < 2 ^ 32 ∧ p.tableSize < 2 ^ 64 ∧ p.projected < 2 ^ 64 ∧ p.fpp < 2 ^ 64) (h : Hist) :
    ∃ f, h.run rand fuel p = ok f ∧ Fits f ∧ 0 < f.tableSize := by
  obtain ⟨f, hf, inv⟩ := run_inv hnew h8 hpos h
  have hs := (C54_new rand fuel p).2 f0 hnew
  have hf0 : f0.sizes = none ∧ f0.tableSize = p.tableSize ∧ f0.rawSize = p.tableSize / 8 ∧ f0.saltCount = p.hashes ∧ f0.projected = p.projected ∧
      f0.seed < 2 ^ 64 ∧ f0.fpp = p.fpp := by
    unfold Filter.new at hnew
    simp only [bind_eq_ok] at hnew
    obtain ⟨salts, _, h⟩ := hnew
    cases h
    exact ⟨rfl, rfl, rfl, rfl, rfl, Nat.mod_lt _ (by decide), rfl⟩
  obtain ⟨a1, a2, a3, a4, a5, a6, a7⟩ := hf0
  have hsame := inv.same
  refine ⟨f, hf, ⟨?_, ?_, ?_, ?_, ?_, inv.count, ?_, ?_, inv.len, ?_⟩, ?_⟩
  · rw [hsame]; simp only; rw [hs.1, a4]
  · rw [hsame]; simp only; omega
  · rw [hsame]; simp only; omega
  · rw [hsame]; simp only; omega
  · rw [hsame]; simp only; omega
  · rw [hsame]; simp only; omega
  · rw [hsame]; simp only; omega
  · rw [hsame]; exact a1
  · rw [hsame]; simp only; omega

/-- Non-vacuity: a filter of 64 bits with one key; the file has 76 bytes. -/
example : ∃ f, (Hist.insert .fresh [97]).run (fun _ _ => 0) 0 ⟨3, 64, 10, 0, 7⟩ = ok f ∧ Fits f ∧ 0 < f.tableSize := by
  obtain ⟨f0, h⟩ := (C54_new (fun _ _ => 0) 0 ⟨3, 64, 10, 0, 7⟩).1 (by decide)
  exact C56_history_fits _ _ _ f0 h (by decide) (by decide) (by decide) _
example : ((Hist.insert .fresh [97]).run (fun _ _ => 0) 0 ⟨3, 64, 10, 0, 7⟩ >>= fun f => f.writeFile >>= fun r => ok (r.map List.length)) = ok (some 76) := by
  decide +kernel

end Strtk.Bloom
