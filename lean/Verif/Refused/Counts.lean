import Verif.Refused.Props
import Verif.Strings.Props

/-!
# How many requests for memory the functions make (strtk.hpp 1695-1760, 11430-11482)

`C179` says what a refused request leaves behind; here is said which requests are made, so that a caller knows when none can be refused.
-/

namespace Strtk.Refused
open Outcome Mem Strtk.Codec

/-! ## Specification -/

/-- The capacity of a vector that starts with capacity `c` after it grew `j` times, each time for one element more than it holds. -/
def caps (M : Machine) (c : Nat) : Nat → Nat
  | 0 => c
  | j + 1 => M.grow (caps M c j) (caps M c j + 1)

/-- A vector that has to hold `k` elements grows `j` times. -/
def Grows (M : Machine) (c k j : Nat) : Prop := k ≤ caps M c j ∧ ∀ i < j, caps M c i < k

/-! ## The single steps -/

theorem caps_succ (M : Machine) (c : Nat) : ∀ j, caps M (M.grow c (c + 1)) j = caps M c (j + 1)
  | 0 => rfl
  | j + 1 => by rw [caps, caps_succ M c j]; rfl

theorem request_granted {M : Machine} (hg : ∀ i, M.grants i = true) (st : State) : request M st = ok (some (), { st with asked := st.asked + 1 }) := by
  rw [request, if_pos (hg _)]

theorem requests_granted {M : Machine} (hg : ∀ i, M.grants i = true) : ∀ (k : Nat) (st : State), requests M k st = ok (some (), { st with asked := st.asked + k })
  | 0, _ => rfl
  | k + 1, st => by
    unfold requests
    rw [bind_ok (request_granted hg st), requests_granted hg k]
    simp [Nat.add_assoc, Nat.add_comm 1 k]

theorem room_granted {M : Machine} (hg : ∀ i, M.grants i = true) (n : Nat) (st : State) :
    room M n st = ok (some (), ⟨st.text, if n ≤ st.cap then st.cap else M.grow st.cap n, if n ≤ st.cap then st.asked else st.asked + 1⟩) := by
  unfold room
  split
  · rfl
  · exact bind_ok (request_granted hg st)

theorem resizeTo_granted {M : Machine} (hg : ∀ i, M.grants i = true) (n : Nat) (st : State) :
    resizeTo M n st = ok (some (), ⟨resize 0 st.text n, if n ≤ st.cap then st.cap else M.grow st.cap n, if n ≤ st.cap then st.asked else st.asked + 1⟩) := by
  unfold resizeTo
  rw [bind_ok (room_granted hg n st)]
  exact inPlace_ok rfl

theorem pushRequests_granted {M : Machine} (hM : M.Sound) (hg : ∀ i, M.grants i = true) : ∀ (k n c j : Nat) (st : State), n ≤ c → Grows M c (n + k) j →
    pushRequests M k n c st = ok (some (), { st with asked := st.asked + j })
  | 0, n, c, j, st, hc, h => by
    have : j = 0 := by
      by_contra hj
      have := h.2 0 (by omega)
      unfold caps at this
      omega
    subst this
    rfl
  | k + 1, n, c, j, st, hc, h => by
    unfold pushRequests
    split
    · next hn =>
      subst hn
      have hj : j ≠ 0 := by
        rintro rfl
        have := h.1
        unfold caps at this
        omega
      obtain ⟨i, rfl⟩ := Nat.exists_eq_succ_of_ne_zero hj
      rw [bind_ok (request_granted hg st), pushRequests_granted hM hg k (n + 1) (M.grow n (n + 1)) i _ (hM _ _)]
      · simp [Nat.add_assoc, Nat.add_comm 1 i]
      · refine ⟨by rw [caps_succ]; have := h.1; rwa [show n + 1 + k = n + (k + 1) by omega], fun l hl => ?_⟩
        rw [caps_succ]
        have := h.2 (l + 1) (by omega)
        rwa [show n + 1 + k = n + (k + 1) by omega]
    · exact pushRequests_granted hM hg k (n + 1) c j st (by omega) (by rwa [show n + 1 + k = n + (k + 1) by omega])

/-- A vector grows as often as it has to, and only one number is right. -/
theorem Grows.unique {M : Machine} {c k i j : Nat} (hi : Grows M c k i) (hj : Grows M c k j) : i = j := by
  rcases Nat.lt_trichotomy i j with h | h | h
  · exact absurd hi.1 (Nat.not_le.mpr (hj.2 i h))
  · exact h
  · exact absurd hj.1 (Nat.not_le.mpr (hi.2 j h))

theorem caps_grow {M : Machine} (hM : M.Sound) (c : Nat) : ∀ j, c + j ≤ caps M c j
  | 0 => le_refl _
  | j + 1 => by
    have := caps_grow hM c j
    have := hM (caps M c j) (caps M c j + 1)
    unfold caps
    omega

theorem grows_exists {M : Machine} (hM : M.Sound) (c k : Nat) : ∃ j, Grows M c k j := by
  have : ∃ j, k ≤ caps M c j := ⟨k, by have := caps_grow hM c k; omega⟩
  classical
  exact ⟨Nat.find this, Nat.find_spec this, fun i hi => Nat.not_le.mp (Nat.find_min this hi)⟩

/-! ## The theorems -/

theorem flatten_app (q : List Byte) (l : List (List Byte)) : ((l.map (· ++ q)).flatten).length = (l.flatten).length + l.length * q.length := by
  induction l with
  | nil => simp
  | cons a l ih =>
    rw [List.map_cons, List.flatten_cons, List.length_append, ih, List.flatten_cons, List.length_append, List.length_append, List.length_cons, Nat.add_mul]
    omega

/-- **C179**: `replace_pattern` asks for memory once for the list of the places found, as often as that list grows beyond its first capacity, and once more if the output
string has to grow.  `k` is the number of places: that of the patterns missing when all are removed. -/
theorem C179_pattern_requests (M : Machine) (hM : M.Sound) (hg : ∀ i, M.grants i = true) (st : State) (s p r : List Byte) (hp : p ≠ []) (hpr : p ≠ r)
    (hp31 : p.length < 2 ^ 31) (hr31 : r.length < 2 ^ 31) (hs : s.length < 2 ^ 64) (hres : (Strings.replaceAll p r hp s).length < 2 ^ 64)
    (k : Nat) (hk : k * p.length + (Strings.replaceAll p [] hp s).length = s.length) (j : Nat) (hj : Grows M (min 32 (s.length / p.length + 1)) k j) :
    ∃ after, replacePatternM M s p r st = ok (some (), after) ∧ after.text = Strings.replaceAll p r hp s ∧
      after.asked = st.asked + 1 + j + (if (Strings.replaceAll p r hp s).length ≤ st.cap then 0 else 1) := by
  have h := Strings.C13_replace_pattern s p r st.text hp hp31 hr31 hs hres
  have hlp : 0 < p.length := List.length_pos_iff.mpr hp
  obtain ⟨us, w, h1, h2, h3⟩ := Strings.deltaLoop_spec p hp (s.length + 2) [] s [] (by omega)
  simp only [List.nil_append, List.length_nil] at h3
  have hsl : s.length = (us.flatten).length + us.length * p.length + w.length := by
    conv => lhs; rw [h1]
    rw [List.length_append, flatten_app]
  have hku : k = us.length := by
    rw [h2 [], List.length_append, flatten_app] at hk
    simp only [List.length_nil, Nat.mul_zero] at hk
    exact Nat.eq_of_mul_eq_mul_right hlp (by omega)
  have hrl : (Strings.replaceAll p r hp s).length = (us.flatten).length + us.length * r.length + w.length := by
    rw [h2 r, List.length_append, flatten_app]
  generalize ht : Strings.replaceAll p r hp s = t at *
  unfold Strings.replacePattern at h
  unfold replacePatternM
  rw [if_neg (by simp [hp, hpr])] at h ⊢
  simp only [h3, ok_bind] at h
  rw [bind_ok (request_granted hg st), bind_ok (b := Strings.posOf p 0 us) (by rw [value, h3]; rfl)]
  rw [bind_ok (pushRequests_granted hM hg _ 0 _ j _ (Nat.zero_le _) (by rw [Strings.posOf_length, ← hku, Nat.zero_add]; exact hj))]
  by_cases hz : Strings.posOf p 0 us = []
  · rw [if_pos hz] at h ⊢
    cases h
    unfold assign
    rw [bind_ok (room_granted hg _ _)]
    refine ⟨_, inPlace_ok rfl, rfl, ?_⟩
    simp only
    split <;> rfl
  · rw [if_neg hz] at h ⊢
    have hsize : (us.length * ((Strings.toInt32 r.length - Strings.toInt32 p.length) % 2 ^ 64).toNat + s.length) % 2 ^ 64 = t.length :=
      Strings.size_calc us.length s.length (Strings.toInt32 r.length - Strings.toInt32 p.length) t.length (by
        rw [Strings.toInt32_small _ hp31, Strings.toInt32_small _ hr31, hrl, hsl, Int.mul_sub]
        simp only [Int.natCast_add, Int.natCast_mul]
        omega) hres
    rw [Strings.posOf_length, hsize] at h
    simp only [Strings.posOf_length, hsize]
    rw [bind_ok (resizeTo_granted hg _ _)]
    refine ⟨_, inPlace_ok (t := t) (b := ()) ?_, rfl, ?_⟩
    · simp only
      obtain ⟨⟨i, j, n⟩, g1, h⟩ := bind_eq_ok.mp h
      rw [show (default : Byte) = 0 from rfl] at g1
      rw [g1, ok_bind]
      simp only at h ⊢
      split
      · next hs =>
        rw [if_pos hs] at h
        obtain ⟨piece, g2, h⟩ := bind_eq_ok.mp h
        rw [g2, ok_bind, h, ok_bind]
      · next hs =>
        rw [if_neg hs] at h
        rw [Outcome.ok.inj h]
    · simp only
      split <;> rfl

/-- With fewer than 32 places in the text the list of them never grows. -/
theorem C179_pattern_few (M : Machine) (s p : List Byte) (k : Nat) (hp : p ≠ []) (hk : k * p.length ≤ s.length) (h : k ≤ 32) :
    Grows M (min 32 (s.length / p.length + 1)) k 0 := by
  refine ⟨?_, by simp⟩
  have : k ≤ s.length / p.length := (Nat.le_div_iff_mul_le (List.length_pos_iff.mpr hp)).mpr hk
  unfold caps
  omega

/-- **C179**: `bracketize` asks for memory for the output string only if that has to grow, for its local string only if a new string cannot hold 1024 characters, and for the texts
of the values. -/
theorem C179_bracketize_requests {β : Type} (M : Machine) (hM : M.Sound) (hg : ∀ i, M.grants i = true) (txt : β → List Byte) (cost : β → Nat) (pre post : List Byte)
    (l : List β) (st : State) (hl : ∀ a ∈ l, (pre ++ txt a ++ post).length ≤ 1024) (hroom : (st.text ++ l.flatMap fun a => pre ++ txt a ++ post).length ≤ st.cap) :
    bracketizeM M txt cost pre post l st =
      ok (some (), ⟨st.text ++ l.flatMap (fun a => pre ++ txt a ++ post), st.cap, st.asked + (if 1024 ≤ M.small then 0 else 1) + (l.map cost).sum⟩) := by
  have loop : ∀ (l : List β) (c : Nat) (st : State), 1024 ≤ c → (∀ a ∈ l, (pre ++ txt a ++ post).length ≤ 1024) →
      (st.text ++ l.flatMap fun a => pre ++ txt a ++ post).length ≤ st.cap →
      bracketizeLoop M txt cost pre post c l st = ok (some (), ⟨st.text ++ l.flatMap (fun a => pre ++ txt a ++ post), st.cap, st.asked + (l.map cost).sum⟩) := by
    intro l
    induction l with
    | nil => intro c st _ _ _; simp [bracketizeLoop, pure_apply]
    | cons a l ih =>
      intro c st hc hl hroom
      have ha := hl a (by simp)
      have hloc : ∀ n (st : State), n ≤ c → localRoom M c n st = ok (some c, st) := by
        intro n st hn
        rw [localRoom, if_pos hn]
        rfl
      rw [List.flatMap_cons, List.length_append, List.length_append] at hroom
      have ha' : pre.length + (txt a).length + post.length ≤ 1024 := by simpa [Nat.add_assoc] using ha
      unfold bracketizeLoop
      rw [bind_ok (hloc pre.length st (by omega)), bind_ok (requests_granted hg _ _), bind_ok (hloc _ _ (by rw [List.length_append]; omega)),
        bind_ok (hloc _ _ (by rw [List.length_append, List.length_append]; omega)), bind_ok (append_enough M _ _ (by simp only; omega)),
        ih c _ hc (fun b hb => hl b (by simp [hb])) (by simp only [List.length_append]; rw [List.length_append] at hroom; simp only [List.length_append] at hroom ⊢; omega)]
      simp [Nat.add_assoc]
  unfold bracketizeM localRoom
  split
  · next h =>
    rw [bind_ok (b := M.small) (after := st) rfl, loop l _ st h hl hroom, Nat.add_zero]
  · next h =>
    rw [bind_ok (b := M.grow M.small 1024) (after := { st with asked := st.asked + 1 }) (by rw [bind_ok (request_granted hg st)]; rfl)]
    exact loop l _ { st with asked := st.asked + 1 } (hM _ _) hl hroom

/-- **C179**: `replicate_inplace` on a string with the room for all copies asks for memory only for the temporary copy, and for that only if it does not fit into a new string. -/
theorem C179_replicate_requests (M : Machine) (hs : M.shrinks = false) (n : Nat) (st : State) (hb : st.text.length + st.text.length * n < 2 ^ 64)
    (hroom : st.text.length + st.text.length * n ≤ st.cap) :
    (st.text.length ≤ M.small → replicateInplaceM M n st = ok (some (), { st with text := (List.replicate (n + 1) st.text).flatten })) ∧
    (M.small < st.text.length → (∀ i, M.grants i = true) →
      replicateInplaceM M n st = ok (some (), ⟨(List.replicate (n + 1) st.text).flatten, st.cap, st.asked + 1⟩)) := by
  have rest : ∀ a : State, a.text = st.text → a.cap = st.cap →
      (do let l ← size; reserve M ((l + l * n) % 2 ^ 64); appendTimes M st.text n : Prog Unit) a = ok (some (), { a with text := (List.replicate (n + 1) st.text).flatten }) := by
    intro a ht hc
    rw [bind_ok (b := a.text.length) (after := a) rfl, ht, Nat.mod_eq_of_lt hb,
      bind_ok (b := ()) (after := a) (by rw [reserve, if_neg (by simp [hs]), room_enough M _ a (by omega)]), appendTimes_enough M st.text n a (by rw [ht]; omega), ht]
    rw [← Join.C38_replicate_inplace n st.text, Join.replicateInplace]
  unfold replicateInplaceM
  rw [bind_ok (b := st.text) (after := st) rfl]
  constructor
  · intro h
    rw [bind_ok (b := ()) (after := st) (by rw [tempCopy, if_pos h]; rfl), rest st rfl rfl]
  · intro h hg
    rw [bind_ok (b := ()) (after := { st with asked := st.asked + 1 }) (by rw [tempCopy, if_neg (by omega), request_granted hg])]
    exact rest { st with asked := st.asked + 1 } rfl rfl

/-! ## The hypotheses are met -/

/-- A machine like libstdc++: new strings hold 15 characters, capacities are doubled. -/
def usual : Machine := ⟨fun _ => true, fun c n => max n (2 * c), false, 15⟩

theorem usual_sound : usual.Sound := fun _ _ => le_max_left _ _

-- "a,b,c" with "; " for ",": one request for the list of two places, none for the output
example : ∃ after, replacePatternM usual [97, 44, 98, 44, 99] [44] [59, 32] ⟨[], 15, 0⟩ = ok (some (), after) ∧ after.text = [97, 59, 32, 98, 59, 32, 99] ∧ after.asked = 1 := by
  have e : Strings.replaceAll [44] [59, 32] (by simp) ([97, 44, 98, 44, 99] : List Byte) = [97, 59, 32, 98, 59, 32, 99] := by
    simp [Strings.replaceAll]
  have e0 : Strings.replaceAll [44] [] (by simp) ([97, 44, 98, 44, 99] : List Byte) = [97, 98, 99] := by
    simp [Strings.replaceAll]
  obtain ⟨a, h1, h2, h3⟩ := C179_pattern_requests usual usual_sound (fun _ => rfl) ⟨[], 15, 0⟩ [97, 44, 98, 44, 99] [44] [59, 32] (by simp) (by simp) (by simp) (by simp)
    (by simp) (by rw [e]; simp) 2 (by rw [e0]; simp) 0 (C179_pattern_few usual _ _ 2 (by simp) (by simp) (by simp))
  rw [e] at h2 h3
  exact ⟨a, h1, h2, by simpa using h3⟩

-- a list of 33 places grows once
example : Grows usual 32 33 1 := ⟨by decide, by decide⟩

example : bracketizeM usual (fun b : Byte => [b]) (fun _ => 0) [60] [62] [97, 98] ⟨[], 15, 0⟩ = ok (some (), ⟨[60, 97, 62, 60, 98, 62], 15, 1⟩) := by
  have := C179_bracketize_requests usual usual_sound (fun _ => rfl) (fun b : Byte => [b]) (fun _ => 0) [60] [62] [97, 98] ⟨[], 15, 0⟩ (by simp) (by simp)
  simpa [usual] using this

example : replicateInplaceM ⟨fun _ => false, fun _ n => n, false, 15⟩ 2 ⟨[97, 98], 6, 0⟩ = ok (some (), ⟨[97, 98, 97, 98, 97, 98], 6, 0⟩) :=
  (C179_replicate_requests ⟨fun _ => false, fun _ n => n, false, 15⟩ rfl 2 ⟨[97, 98], 6, 0⟩ (by decide) (by decide)).1 (by decide)

end Strtk.Refused
