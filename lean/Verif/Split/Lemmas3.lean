import Verif.Split.Lemmas2

/-! Helper lemmas for the tokenizer, `offset_splitter` and `split_pair`. -/

namespace Strtk.Split
open Outcome

variable {α : Type}

/-- The block rule the tokenizer iterator follows (differs from `split` when all three option bits are set). -/
def tokPerRun (opt : Opt) : Bool := if opt.first then opt.compress && !opt.all else opt.compress || opt.all

theorem scan_none (opt : Opt) (d : α → Bool) (s : List α) :
    ∀ (fuel : Nat) (pre w t : List α) (cur : Nat × Nat) (l : Bool),
      s = pre ++ w ++ t → (∀ c ∈ t, d c = false) → t.length < fuel →
      Tok.scan opt d s fuel { range := (pre.length, pre.length + w.length), current := cur, lastDone := l } =
        ok (false, { range := (pre.length, s.length), current := cur, lastDone := l }) := by
  intro fuel
  induction fuel with
  | zero => intros; omega
  | succ fuel ih =>
    intro pre w t cur l hs ht hf
    cases t with
    | nil =>
      have : s.length = pre.length + w.length := by rw [hs]; simp
      unfold Tok.scan
      rw [if_neg (by simp [this])]
      simp [this]
    | cons c t =>
      have hlen : s.length ≠ pre.length + w.length := by subst hs; simp only [List.length_append, List.length_cons]; omega
      have hd : deref s (pre.length + w.length) = ok c := by
        subst hs
        have := deref_append_cons (pre ++ w) c t
        simpa using this
      unfold Tok.scan
      rw [if_pos hlen]
      simp only [hd, ok_bind]
      rw [if_neg (by simp [ht c])]
      have := ih pre (w ++ [c]) t cur l (by simp [hs]) (fun x hx => ht x (by simp [hx])) (by simp at hf; omega)
      simpa [Nat.add_assoc] using this

theorem scan_some (opt : Opt) (d : α → Bool) (s : List α) :
    ∀ (fuel : Nat) (pre w u : List α) (c : α) (t : List α) (cur : Nat × Nat) (l : Bool),
      s = pre ++ w ++ u ++ c :: t → (∀ x ∈ u, d x = false) → d c = true → u.length + t.length + 1 < fuel →
      Tok.scan opt d s fuel { range := (pre.length, pre.length + w.length), current := cur, lastDone := l } =
        ok (true, { range := (pre.length, pre.length + w.length + u.length + (blockOf (tokPerRun opt) d c t).1.length),
                    current := (pre.length, pre.length + w.length + u.length +
                      ((keepOf opt).part (blockOf (tokPerRun opt) d c t).1).length),
                    lastDone := l }) := by
  intro fuel
  induction fuel with
  | zero => intros; omega
  | succ fuel ih =>
    intro pre w u c t cur l hs hu hc hf
    cases u with
    | nil =>
      have hlen : s.length ≠ pre.length + w.length := by subst hs; simp only [List.length_append, List.length_cons, List.length_nil]; omega
      have hs' : s = (pre ++ w) ++ c :: t := by simp [hs]
      have hd : deref s (pre.length + w.length) = ok c := by
        rw [hs']
        have := deref_append_cons (pre ++ w) c t
        simpa using this
      have hsk : skipRun d s (s.length + 1) (pre.length + w.length + 1) =
          ok (pre.length + w.length + 1 + (t.takeWhile d).length) := by
        have := skip_tail d (pre ++ w) t c
        rw [hs']; simpa using this
      have hsk' : skipRun d s (s.length + 1) (pre.length + w.length) =
          ok (pre.length + w.length + 1 + (t.takeWhile d).length) := by
        have := skip_here d (pre ++ w) t c hc
        rw [hs']; simpa using this
      unfold Tok.scan
      rw [if_pos hlen]
      simp only [hd, ok_bind]
      rw [if_pos hc]
      obtain ⟨co, f, a⟩ := opt
      cases co <;> cases f <;> cases a <;>
        simp [tokPerRun, keepOf, blockOf, Keep.part, hsk, hsk'] <;> omega
    | cons x u =>
      have hlen : s.length ≠ pre.length + w.length := by subst hs; simp only [List.length_append, List.length_cons]; omega
      have hs' : s = (pre ++ w) ++ x :: (u ++ c :: t) := by simp [hs]
      have hd : deref s (pre.length + w.length) = ok x := by
        rw [hs']
        have := deref_append_cons (pre ++ w) x (u ++ c :: t)
        simpa using this
      unfold Tok.scan
      rw [if_pos hlen]
      simp only [hd, ok_bind]
      rw [if_neg (by simp [hu x])]
      have := ih pre (w ++ [x]) u c t cur l (by simp [hs]) (fun y hy => hu y (by simp [hy])) hc (by simp at hf; omega)
      simp only [List.length_append, List.length_cons, List.length_nil, Nat.zero_add, ← Nat.add_assoc] at this
      rw [this]
      simp only [List.length_cons]
      rw [show pre.length + w.length + (u.length + 1) = pre.length + w.length + 1 + u.length by omega]

theorem walk_done (opt : Opt) (d : α → Bool) (s : List α) (e : Tok) (he : e.range = (s.length, s.length)) (fuel x : Nat)
    (hx : x ≠ s.length) (cur : Nat × Nat) (out : List (Nat × Nat)) (hf : 2 ≤ fuel) :
    Tok.walk opt d s e fuel { range := (x, s.length), current := cur, lastDone := true } out = ok (out ++ [cur]) := by
  obtain ⟨f, rfl⟩ : ∃ f, fuel = f + 2 := ⟨fuel - 2, by omega⟩
  unfold Tok.walk
  rw [if_pos (by simp [he, hx])]
  simp only [Tok.next, if_true, ok_bind]
  unfold Tok.walk
  rw [if_neg (by simp [he])]

/-- The scanned remainder of a list that starts with a delimiter-free word. -/
theorem first_delim (d : α → Bool) (t : List α) :
    (∀ c ∈ t, d c = false) ∨ ∃ u c v, t = u ++ c :: v ∧ (∀ x ∈ u, d x = false) ∧ d c = true := by
  induction t with
  | nil => left; simp
  | cons x t ih =>
    by_cases hx : d x = true
    · right; exact ⟨[], x, t, by simp, by simp, hx⟩
    · rcases ih with h | ⟨u, c, v, rfl, hu, hc⟩
      · left; intro c hcm
        simp at hcm
        rcases hcm with rfl | hcm
        · simpa using hx
        · exact h c hcm
      · right
        refine ⟨x :: u, c, v, by simp, ?_, hc⟩
        intro y hy; simp at hy
        rcases hy with rfl | hy
        · simpa using hx
        · exact hu y hy

theorem walk_spec (opt : Opt) (d : α → Bool) (s : List α) (e : Tok) (he : e.range = (s.length, s.length)) (hs0 : s ≠ []) :
    ∀ (fuel : Nat) (pre t : List α) (x : Nat) (cur : Nat × Nat) (out : List (Nat × Nat)),
      s = pre ++ t → (t = [] → x ≠ pre.length) → (t = [] → ∀ c ∈ pre.getLast?, d c = true) → t.length + 2 ≤ fuel →
      ∃ toks, Splits (tokPerRun opt) (keepOf opt) d pre.length t toks ∧
        (Tok.next opt d s { range := (x, pre.length), current := cur, lastDone := false } >>= fun tk =>
          Tok.walk opt d s e fuel tk out) = ok (out ++ toks.map pairOf) := by
  intro fuel
  induction fuel with
  | zero => intros; omega
  | succ fuel ih =>
    intro pre t x cur out hs hx hpre hf
    by_cases ht : t = []
    · subst ht
      have hsp : s = pre := by simpa using hs
      subst hsp
      refine ⟨[(s.length, [])], by simpa using Splits.last s.length ([] : List α) (by simp), ?_⟩
      have hsc : Tok.scan opt d s (s.length + 1) { range := (x, s.length), current := cur, lastDone := false } =
          ok (false, { range := (x, s.length), current := cur, lastDone := false }) := by
        unfold Tok.scan; simp
      have hl : s.length ≠ 0 := by simpa using hs0
      have hpos : 0 < s.length := by omega
      have hlast : s.getLast? = some (s.getLast hs0) := List.getLast?_eq_some_getLast hs0
      have hde : deref s (s.length - 1) = ok (s.getLast hs0) := by
        rw [deref_eq_ok (by omega)]; simp [List.getLast_eq_getElem]
      have hdc : d (s.getLast hs0) = true := hpre rfl _ (by simp [hlast])
      have hn : Tok.next opt d s { range := (x, s.length), current := cur, lastDone := false } =
          ok { range := (x, s.length), current := (s.length, s.length), lastDone := true } := by
        unfold Tok.next
        simp only [Bool.false_eq_true, if_false, ne_eq, not_true_eq_false, hsc, ok_bind, hx rfl, not_false_eq_true, if_true, hl, hde, hdc]
      rw [hn, ok_bind, walk_done opt d s e he _ x (hx rfl) _ _ (by omega)]
      simp [pairOf]
    · have hlen : s.length ≠ pre.length := by
        have : 0 < t.length := List.length_pos_iff.mpr ht
        rw [hs]; simp; exact ht
      rcases first_delim d t with hnone | ⟨u, c, v, rfl, hu, hc⟩
      · refine ⟨[(pre.length, t)], Splits.last pre.length t hnone, ?_⟩
        have hsc := scan_none opt d s (s.length + 1) pre [] t cur false (by simpa using hs) hnone (by rw [hs]; simp; omega)
        simp only [List.length_nil, Nat.add_zero] at hsc
        have hl : s.length ≠ 0 := by simpa using hs0
        have hde : deref s (s.length - 1) = ok (t.getLast ht) := by
          rw [deref_eq_ok (by omega), ← List.getLast_eq_getElem hs0]
          simp [hs, List.getLast_append, ht]
        have hdc : d (t.getLast ht) = false := hnone _ (List.getLast_mem ht)
        have hn : Tok.next opt d s { range := (x, pre.length), current := cur, lastDone := false } =
            ok { range := (pre.length, s.length), current := (pre.length, s.length), lastDone := true } := by
          unfold Tok.next
          simp only [Bool.false_eq_true, if_false, ne_eq, hlen, not_false_eq_true, if_true, hsc, ok_bind, Ne.symm hlen, hl, hde, hdc]
        rw [hn, ok_bind, walk_done opt d s e he _ _ (Ne.symm hlen) _ _ (by omega)]
        simp [pairOf, hs]
      · obtain ⟨hb1, hb2, hb3, hb4⟩ := blockOf_spec (tokPerRun opt) d c v hc
        have hsc := scan_some opt d s (s.length + 1) pre [] u c v cur false (by simpa using hs) hu hc (by rw [hs]; simp; omega)
        generalize hB : blockOf (tokPerRun opt) d c v = B at hb1 hb2 hb3 hb4 hsc
        obtain ⟨block, rest⟩ := B
        simp only [List.length_nil, Nat.add_zero] at hb1 hb2 hb3 hb4 hsc
        have hn : Tok.next opt d s { range := (x, pre.length), current := cur, lastDone := false } =
            ok { range := (pre.length, pre.length + u.length + block.length),
                 current := (pre.length, pre.length + u.length + ((keepOf opt).part block).length), lastDone := false } := by
          unfold Tok.next
          simp only [Bool.false_eq_true, if_false, ne_eq, hlen, not_false_eq_true, if_true, hsc, ok_bind]
        rw [hn, ok_bind]
        have hbl : 0 < block.length := List.length_pos_iff.mpr hb1
        have hlb : v.length + 1 = block.length + rest.length := by
          have := congrArg List.length hb4; simpa using this
        obtain ⟨toks, h1, h2⟩ := ih (pre ++ u ++ block) rest pre.length
          (pre.length, pre.length + u.length + ((keepOf opt).part block).length)
          (out ++ [(pre.length, pre.length + u.length + ((keepOf opt).part block).length)])
          (by rw [hs, hb4]; simp) (by intro _; simp only [List.length_append]; omega) (fun _ => getLast_block d _ _ hb1 hb2)
          (by simp at hf; omega)
        simp only [List.length_append] at h1 h2
        refine ⟨(pre.length, u ++ (keepOf opt).part block) :: toks, ?_, ?_⟩
        · rw [hb4, ← List.append_assoc]
          exact Splits.more _ u block rest toks hu hb1 hb2 hb3 h1
        · unfold Tok.walk
          rw [if_pos (by simp [he, Ne.symm hlen])]
          rw [h2]
          simp [pairOf, Nat.add_assoc]

theorem tokenizer_spec (opt : Opt) (d : α → Bool) (s : List α) (hs : s ≠ []) :
    ∃ toks, Splits (tokPerRun opt) (keepOf opt) d 0 s toks ∧ tokenizerTokens opt d s = ok (toks.map pairOf) := by
  have hl : s.length ≠ 0 := by simpa using hs
  let e : Tok := { range := (s.length, s.length), current := (s.length, s.length), lastDone := false }
  obtain ⟨toks, h1, h2⟩ := walk_spec opt d s e rfl hs (s.length + 2) [] s 0 (s.length, s.length) [] (by simp)
    (fun h => absurd h hs) (by simp) (by omega)
  refine ⟨toks, h1, ?_⟩
  unfold tokenizerTokens Tok.make
  simp only [ne_eq, hl, not_false_eq_true, if_true, not_true_eq_false, if_false, ok_bind]
  simpa using h2

end Strtk.Split
