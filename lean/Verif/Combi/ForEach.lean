import Verif.Combi.Next

/-! # for_each_combination (C45) -/

namespace Strtk.Combi
open Outcome Mem

variable {α : Type}

theorem swapRanges_spec : ∀ (X Y1 : List α), X.length = Y1.length → ∀ (pre gap post : List α),
    swapRanges X.length (pre ++ (X ++ (gap ++ (Y1 ++ post)))) pre.length (pre.length + X.length + gap.length) =
      ok (pre ++ (Y1 ++ (gap ++ (X ++ post))), pre.length + X.length + gap.length + X.length) := by
  intro X
  induction X with
  | nil =>
    intro Y1 h pre gap post
    have : Y1 = [] := List.length_eq_zero_iff.mp h.symm
    subst this
    rfl
  | cons x X ih =>
    intro Y1 h pre gap post
    match Y1, h with
    | y :: Y1, h =>
      simp only [List.length_cons] at h ⊢
      unfold swapRanges
      have e1 : pre ++ (x :: X ++ (gap ++ (y :: Y1 ++ post))) = pre ++ x :: ((X ++ gap) ++ y :: (Y1 ++ post)) := by simp
      have hs := swapAt_mid pre (X ++ gap) (Y1 ++ post) x y
      rw [show pre.length + (X.length + 1) + gap.length = pre.length + 1 + (X ++ gap).length by simp; omega, e1, hs, ok_bind]
      have := ih Y1 (by omega) (pre ++ [y]) (gap ++ [x]) post
      simp only [List.length_append, List.length_cons, List.length_nil, List.append_assoc, List.cons_append, List.nil_append, Nat.zero_add] at this ⊢
      rw [show pre.length + 1 + (X.length + gap.length) + 1 = pre.length + 1 + X.length + (gap.length + 1) by omega, this]
      congr 2
      omega

theorem swapBack_spec : ∀ (Y X2 : List α), X2.length = Y.length → ∀ (fuel : Nat) (pre gap post : List α), Y.length < fuel →
    swapBack (pre.length + X2.length + gap.length) fuel (pre ++ (X2 ++ (gap ++ (Y ++ post)))) (pre.length + X2.length)
        (pre.length + X2.length + gap.length + Y.length) =
      ok (pre ++ (Y ++ (gap ++ (X2 ++ post))), pre.length) := by
  intro Y
  induction Y using List.reverseRecOn with
  | nil =>
    intro X2 h fuel pre gap post hf
    have : X2 = [] := List.length_eq_zero_iff.mp h
    subst this
    cases fuel with
    | zero => simp at hf
    | succ f => unfold swapBack; rw [if_neg (by simp)]; simp
  | append_singleton Y y ih =>
    intro X2 h fuel pre gap post hf
    have hne : X2 ≠ [] := by rintro rfl; simp at h
    obtain ⟨X2', x, e⟩ : ∃ R0 z, X2 = R0 ++ [z] := ⟨X2.dropLast, X2.getLast hne, (List.dropLast_concat_getLast hne).symm⟩
    subst e
    simp only [List.length_append, List.length_cons, List.length_nil] at h hf ⊢
    cases fuel with
    | zero => omega
    | succ f =>
      unfold swapBack
      rw [if_pos (by omega), if_neg (by omega)]
      have hs := swapAt_mid (pre ++ X2') (gap ++ Y) post x y
      have e1 : pre ++ (X2' ++ [x] ++ (gap ++ (Y ++ [y] ++ post))) = pre ++ X2' ++ x :: (gap ++ Y ++ y :: post) := by simp
      rw [e1, show pre.length + (X2'.length + (0 + 1)) - 1 = (pre ++ X2').length by simp,
        show pre.length + (X2'.length + (0 + 1)) + gap.length + (Y.length + (0 + 1)) - 1 = (pre ++ X2').length + 1 + (gap ++ Y).length by simp; omega,
        hs, ok_bind]
      have := ih X2' (by omega) f pre (y :: gap) (x :: post) (by omega)
      simp only [List.length_append, List.length_cons, List.append_assoc, List.cons_append] at this ⊢
      rw [show pre.length + (X2'.length + (0 + 1)) + gap.length = pre.length + X2'.length + (gap.length + 1) by omega,
        show pre.length + X2'.length + 1 + (gap.length + Y.length) = pre.length + X2'.length + (gap.length + 1) + Y.length by omega, this]
      simp

/-- The two ranges, taken together, are rotated: `X ++ Y` becomes `Y ++ X`. -/
theorem rotateDisc_spec (pre X gap Y : List α) :
    ∃ X' Y', X' ++ Y' = Y ++ X ∧ X'.length = X.length ∧ Y'.length = Y.length ∧
      rotateDisc (pre ++ (X ++ (gap ++ Y))) pre.length (pre.length + X.length) X.length (pre.length + X.length + gap.length)
        (pre ++ (X ++ (gap ++ Y))).length Y.length = ok (pre ++ (X' ++ (gap ++ Y'))) := by
  unfold rotateDisc
  by_cases h : X.length ≤ Y.length
  · rw [if_pos h]
    refine ⟨Y.take X.length, Y.drop X.length ++ X, by rw [← List.append_assoc, List.take_append_drop], by simp; omega, by simp; omega, ?_⟩
    have hs := swapRanges_spec X (Y.take X.length) (by simp; omega) pre gap (Y.drop X.length)
    rw [List.take_append_drop] at hs
    rw [show pre.length + X.length - pre.length = X.length by omega, hs, ok_bind]
    have hr := rotate_append (pre ++ (Y.take X.length ++ gap)) X (Y.drop X.length) []
    simp only [List.append_nil, List.append_assoc] at hr ⊢
    have e1 : (pre ++ (Y.take X.length ++ gap)).length = pre.length + X.length + gap.length := by simp; omega
    rw [e1] at hr
    rw [show (pre ++ (X ++ (gap ++ Y))).length = pre.length + X.length + gap.length + X.length + (Y.drop X.length).length by simp; omega, hr]
  · rw [if_neg h]
    have hY : Y.length < X.length := by omega
    have e : X = X.take (X.length - Y.length) ++ X.drop (X.length - Y.length) := (List.take_append_drop _ _).symm
    have hl1 : (X.take (X.length - Y.length)).length = X.length - Y.length := by simp
    have hl2 : (X.drop (X.length - Y.length)).length = Y.length := by simp; omega
    generalize X.take (X.length - Y.length) = X1 at e hl1
    generalize X.drop (X.length - Y.length) = X2 at e hl2
    subst e
    refine ⟨Y ++ X1, X2, by simp, by simp; omega, by omega, ?_⟩
    have hs := swapBack_spec Y X2 (by omega) ((pre ++ (X1 ++ X2 ++ (gap ++ Y))).length + 1) (pre ++ X1) gap [] (by simp; omega)
    simp only [List.append_nil, List.append_assoc, List.length_append] at hs ⊢
    rw [show pre.length + (X1.length + X2.length) = pre.length + X1.length + X2.length by omega,
      show pre.length + (X1.length + (X2.length + (gap.length + Y.length))) = pre.length + X1.length + X2.length + gap.length + Y.length by omega]
    rw [show pre.length + (X1.length + (X2.length + (gap.length + Y.length))) = pre.length + X1.length + X2.length + gap.length + Y.length by omega] at hs
    rw [hs, ok_bind]
    have hr := rotate_append pre X1 Y (gap ++ X2)
    simp only
    rw [hl2, hr]

/-- The parts of length `k`, by position, in lexicographic order of positions. -/
def parts : Nat → List α → List (List α)
  | 0, _ => [[]]
  | _ + 1, [] => []
  | k + 1, a :: t => (parts k t).map (a :: ·) ++ parts (k + 1) t

theorem parts_self (l : List α) : parts l.length l = [l] := by
  have hnil : ∀ (l : List α) (k : Nat), l.length < k → parts k l = [] := by
    intro l
    induction l with
    | nil => intro k h; cases k with
      | zero => simp at h
      | succ k => rfl
    | cons a t ih =>
      intro k h
      cases k with
      | zero => simp at h
      | succ k => simp only [List.length_cons] at h; rw [parts, ih k (by omega), ih (k + 1) (by omega)]; rfl
  induction l with
  | nil => rfl
  | cons a t ih => rw [List.length_cons, parts, ih, hnil t _ (by omega)]; rfl

theorem parts_perm (k : Nat) (l : List α) : (parts k l).Perm (l.sublistsLen k) := by
  induction l generalizing k with
  | nil => cases k <;> simp [parts]
  | cons a t ih =>
    cases k with
    | zero => simp [parts]
    | succ k =>
      rw [parts, List.sublistsLen_succ_cons]
      exact List.perm_append_comm.trans ((ih (k + 1)).append ((ih k).map _))

theorem window_swap (pre gap1 gap2 Xt Y : List α) (a b : α) (hX : True) :
    swapAt (pre ++ (a :: Xt ++ (gap1 ++ b :: Y))) pre.length (pre.length + 1 + Xt.length + gap1.length) =
      ok (pre ++ (b :: Xt ++ (gap1 ++ a :: Y))) := by
  have := swapAt_mid pre (Xt ++ gap1) Y a b
  simp only [List.length_append, List.append_assoc, List.cons_append] at this ⊢
  rw [← this]
  congr 1
  omega

/-- What `combine` does on `pre ++ X ++ gap ++ Y`: it shows `pre` followed by every part of `X ++ Y` of length `|X|`; at the top level everything is
put back, below it the first `|X| + 1` elements are rotated by one. -/
def CombineSpec (d1 : Nat) : Prop :=
  ∀ (pre X gap Y : List α) (d : Nat) (out : List (List α)), X.length = d1 → 0 < Y.length →
    ∃ X' Y', combine (pre.length + d1) d1 (pre ++ (X ++ (gap ++ Y))) pre.length (pre.length + d1) (pre.length + d1 + gap.length) Y.length d out =
        ok (pre ++ (X' ++ (gap ++ Y')), out ++ (parts d1 (X ++ Y)).map (pre ++ ·)) ∧
      X'.length = X.length ∧ Y'.length = Y.length ∧
      (d1 ≠ 0 → if d = 0 then X' ++ Y' = X ++ Y else ∃ z Z, X ++ Y = z :: Z ∧ Y' = z :: Z.drop d1 ∧ X' = Z.take d1)

theorem combineLoop_spec (d1 : Nat) (ih : CombineSpec (α := α) d1) : ∀ (n : Nat) (pre X done gap Y : List α) (d : Nat) (out : List (List α)),
    X.length = d1 + 1 → Y.length = n →
    combineLoop (pre.length + (d1 + 1)) d1 n (pre ++ (X ++ (gap ++ (done ++ Y)))) pre.length (pre.length + (d1 + 1))
        (pre.length + (d1 + 1) + gap.length + done.length) n d out =
      ok (pre ++ ((X ++ Y).drop n ++ (gap ++ (done ++ (X ++ Y).take n))),
        out ++ ((List.range n).flatMap fun i => match (X ++ Y).drop i with
          | [] => []
          | a :: t => (parts d1 t).map fun p => pre ++ a :: p)) := by
  intro n
  induction n with
  | zero =>
    intro pre X done gap Y d out hX hY
    have : Y = [] := List.length_eq_zero_iff.mp hY
    subst this
    unfold combineLoop
    simp
  | succ n ihn =>
    intro pre X done gap Y d out hX hY
    match X, Y, hX, hY with
    | x :: Xt, y :: Yt, hX, hY =>
      simp only [List.length_cons] at hX hY
      unfold combineLoop
      -- the call or the recursive enumeration
      have hcall : ∃ b Xt', (if d1 = 0 then ok (pre ++ (x :: Xt ++ (gap ++ (done ++ y :: Yt))), out ++ [(pre ++ (x :: Xt ++ (gap ++ (done ++ y :: Yt)))).take (pre.length + (d1 + 1))])
          else combine (pre.length + (d1 + 1)) d1 (pre ++ (x :: Xt ++ (gap ++ (done ++ y :: Yt)))) (pre.length + 1) (pre.length + (d1 + 1))
            (pre.length + (d1 + 1) + gap.length + done.length) (n + 1) (d + 1) out) =
          ok (pre ++ (x :: Xt' ++ (gap ++ (done ++ b :: Yt))), out ++ (parts d1 (Xt ++ y :: Yt)).map fun p => pre ++ x :: p) ∧
          b :: Xt' = Xt ++ [y] := by
        by_cases h0 : d1 = 0
        · subst h0
          have : Xt = [] := List.length_eq_zero_iff.mp (by omega)
          subst this
          refine ⟨y, [], ?_, rfl⟩
          rw [if_pos rfl]
          simp [parts, List.take_append, List.take_of_length_le]
        · rw [if_neg h0]
          obtain ⟨X', Y', h1, h2, h3, h4⟩ := ih (pre ++ [x]) Xt (gap ++ done) (y :: Yt) (d + 1) out (by omega) (by simp)
          have h4 := h4 h0
          rw [if_neg (by omega)] at h4
          obtain ⟨z, Z, e1, e2, e3⟩ := h4
          have hXt : Xt ≠ [] := by rintro rfl; simp at hX; omega
          obtain ⟨w, Xs, rfl⟩ := List.exists_cons_of_ne_nil hXt
          simp only [List.cons_append, List.cons.injEq] at e1
          obtain ⟨rfl, rfl⟩ := e1
          refine ⟨w, X', ?_, ?_⟩
          · have e4 : Y' = w :: Yt := by
              rw [e2]
              congr 1
              have : d1 = (Xs ++ [y]).length := by simp at hX ⊢; omega
              rw [this, show Xs ++ y :: Yt = (Xs ++ [y]) ++ Yt by simp, List.drop_left' rfl]
            rw [e4] at h1
            simp only [List.length_append, List.length_cons, List.length_nil, List.append_assoc, List.cons_append, List.nil_append, Nat.zero_add] at h1 ⊢
            rw [show pre.length + (d1 + 1) = pre.length + 1 + d1 by omega,
              show pre.length + 1 + d1 + gap.length + done.length = pre.length + 1 + d1 + (gap.length + done.length) by omega,
              show n + 1 = Yt.length + 1 by omega, h1]
          · rw [e3]
            have : d1 = (Xs ++ [y]).length := by simp at hX ⊢; omega
            rw [this, show Xs ++ y :: Yt = (Xs ++ [y]) ++ Yt by simp, List.take_left' rfl]
            simp
      obtain ⟨b, Xt', h1, h2⟩ := hcall
      rw [h1, ok_bind]
      simp only
      have hXt' : Xt'.length = d1 := by
        have := congrArg List.length h2
        simp at this; omega
      have hsw := window_swap pre (gap ++ done) [] Xt' Yt x b trivial
      simp only [List.length_append, List.append_assoc] at hsw
      rw [show pre.length + (d1 + 1) + gap.length + done.length = pre.length + 1 + Xt'.length + (gap.length + done.length) by omega, hsw, ok_bind]
      have hrec := ihn pre (b :: Xt') (done ++ [x]) gap Yt d (out ++ (parts d1 (Xt ++ y :: Yt)).map fun p => pre ++ x :: p)
        (by simp; omega) (by omega)
      simp only [List.length_append, List.length_cons, List.length_nil, List.append_assoc, List.cons_append, List.nil_append, Nat.zero_add] at hrec ⊢
      rw [show pre.length + 1 + Xt'.length + (gap.length + done.length) + 1 = pre.length + (d1 + 1) + gap.length + (done.length + 1) by omega,
        Nat.add_sub_cancel, hrec]
      have e5 : b :: (Xt' ++ Yt) = Xt ++ y :: Yt := by
        rw [← List.cons_append, h2]; simp
      rw [e5]
      congr 1
      simp only [Prod.mk.injEq]
      constructor
      · simp [List.take_succ_cons, List.drop_succ_cons]
      · rw [List.range_succ_eq_map, List.flatMap_cons, List.flatMap_map]
        simp [List.drop_succ_cons]

/-- The loop's parts and the last one together are all parts. -/
theorem parts_windows (k : Nat) : ∀ (n : Nat) (Z : List α), Z.length = n + (k + 1) →
    ((List.range n).flatMap fun i => match Z.drop i with
      | [] => []
      | a :: t => (parts k t).map fun p => a :: p) ++ [Z.drop n] = parts (k + 1) Z := by
  intro n
  induction n with
  | zero =>
    intro Z h
    have : k + 1 = Z.length := by omega
    rw [this, parts_self]
    simp
  | succ n ih =>
    intro Z h
    match Z, h with
    | z :: Z, h =>
      simp only [List.length_cons] at h
      rw [parts, ← ih Z (by omega), List.range_succ_eq_map, List.flatMap_cons, List.flatMap_map]
      simp [List.drop_succ_cons]

theorem combine_spec : ∀ (d1 : Nat), CombineSpec (α := α) d1 := by
  intro d1
  induction d1 with
  | zero =>
    intro pre X gap Y d out hX hY
    have : X = [] := List.length_eq_zero_iff.mp hX
    subst this
    refine ⟨[], Y, ?_, rfl, rfl, by simp⟩
    unfold combine
    simp [parts, List.take_append]
  | succ d1 ih =>
    intro pre X gap Y d out hX hY
    unfold combine
    rw [if_neg (by omega)]
    have hl := combineLoop_spec d1 ih Y.length pre X [] gap Y d out hX rfl
    simp only [List.nil_append, List.length_nil, Nat.add_zero] at hl
    rw [hl, ok_bind]
    simp only
    have hwl : ((X ++ Y).drop Y.length).length = d1 + 1 := by simp; omega
    have hyl : ((X ++ Y).take Y.length).length = Y.length := by simp
    have htake : (pre ++ ((X ++ Y).drop Y.length ++ (gap ++ (X ++ Y).take Y.length))).take (pre.length + (d1 + 1)) = pre ++ (X ++ Y).drop Y.length := by
      rw [← List.append_assoc, List.take_left' (by rw [List.length_append, hwl])]
    have hparts : ((List.range Y.length).flatMap fun i => match (X ++ Y).drop i with
          | [] => []
          | a :: t => (parts d1 t).map fun p => pre ++ a :: p) ++ [pre ++ (X ++ Y).drop Y.length] = (parts (d1 + 1) (X ++ Y)).map (pre ++ ·) := by
      rw [← parts_windows d1 Y.length (X ++ Y) (by simp; omega), List.map_append, List.map_flatMap]
      congr 1
      apply List.flatMap_congr
      intro i _
      cases (X ++ Y).drop i with
      | nil => rfl
      | cons a t => simp
    rw [htake, List.append_assoc, hparts]
    generalize hW : (X ++ Y).drop Y.length = W at *
    generalize hV : (X ++ Y).take Y.length = V at *
    have hVW : V ++ W = X ++ Y := by rw [← hV, ← hW]; exact List.take_append_drop _ _
    by_cases hd : d = 0
    · rw [if_neg (by simpa using hd)]
      obtain ⟨X', Y', h1, h2, h3, h4⟩ := rotateDisc_spec pre W gap V
      rw [hwl, hyl] at h4
      rw [h4, ok_bind]
      refine ⟨X', Y', rfl, by omega, by omega, fun _ => ?_⟩
      rw [if_pos hd, h1, hVW]
    · rw [if_pos (by simpa using hd)]
      have hVne : V ≠ [] := by rintro rfl; simp at hyl; omega
      obtain ⟨z, V', rfl⟩ := List.exists_cons_of_ne_nil hVne
      obtain ⟨X', Y', h1, h2, h3, h4⟩ := rotateDisc_spec pre W (gap ++ [z]) V'
      simp only [List.length_cons] at hyl
      rw [hwl, show V'.length = Y.length - 1 by omega] at h4
      simp only [List.length_append, List.length_cons, List.length_nil, List.append_assoc, List.cons_append, List.nil_append, Nat.zero_add] at h4 ⊢
      rw [show pre.length + (d1 + 1) + gap.length + 1 = pre.length + (d1 + 1) + (gap.length + 1) by omega, h4, ok_bind]
      refine ⟨X', z :: Y', rfl, by omega, by simp; omega, fun _ => ?_⟩
      rw [if_neg hd]
      refine ⟨z, V' ++ W, by rw [← hVW]; rfl, ?_, ?_⟩
      · rw [← h1, show d1 + 1 = X'.length by omega, List.drop_left' rfl]
      · rw [← h1, show d1 + 1 = X'.length by omega, List.take_left' rfl]

/-- The parts themselves, in the order in which they are shown. -/
theorem C45_order (s : List α) (k : Nat) (hk : k ≤ s.length) : forEachCombination s k = ok (s, parts k s) := by
  unfold forEachCombination
  rw [if_neg (by omega)]
  by_cases h0 : s.length - k = 0
  · have hks : k = s.length := by omega
    rw [h0, hks, parts_self]
    cases h : s.length with
    | zero => unfold combine; have : s = [] := List.length_eq_zero_iff.mp h; subst this; rfl
    | succ k => unfold combine; rw [if_pos rfl]; simp [← h]
  · obtain ⟨X', Y', h1, h2, h3, h4⟩ := combine_spec (α := α) k [] (s.take k) [] (s.drop k) 0 [] (by simp; omega) (by simp; omega)
    simp only [List.nil_append, List.length_nil, Nat.zero_add, Nat.add_zero, List.take_append_drop, List.length_drop] at h1
    have hid : (parts k s).map (fun x => x) = parts k s := by simp
    rw [hid] at h1
    by_cases hk0 : k = 0
    · subst hk0
      unfold combine
      simp [parts]
    · have := h4 hk0
      rw [if_pos rfl] at this
      rw [h1, this, List.take_append_drop]

/-- `for_each_combination(begin,end,k,f)` shows `f` every part of `k` positions exactly once (so C(n,k) calls), in order of positions within each
part, and leaves the range as it found it; for `k > n` there are no calls. -/
theorem C45_for_each_combination (s : List α) (k : Nat) :
    ∃ calls, forEachCombination s k = ok (s, calls) ∧ calls.Perm (s.sublistsLen k) ∧ calls.length = s.length.choose k := by
  by_cases hk : k ≤ s.length
  · refine ⟨parts k s, C45_order s k hk, parts_perm k s, ?_⟩
    rw [(parts_perm k s).length_eq, List.length_sublistsLen]
  · have hc : s.length.choose k = 0 := Nat.choose_eq_zero_of_lt (by omega)
    have : s.sublistsLen k = [] := by
      rw [← List.length_eq_zero_iff, List.length_sublistsLen, hc]
    refine ⟨[], ?_, by rw [this], by rw [hc]; rfl⟩
    unfold forEachCombination
    rw [if_pos (by omega)]

example : forEachCombination [1, 2, 3, 4] 2 = ok ([1, 2, 3, 4], [[1, 2], [1, 3], [1, 4], [2, 3], [2, 4], [3, 4]]) := by
  rw [C45_order _ _ (by decide)]; rfl

end Strtk.Combi
