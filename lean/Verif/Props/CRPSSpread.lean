import Verif.Lemmas.Ensemble
import Verif.Spec.Array

/-!
# C30: the two forms of the ensemble spread
-/

set_option linter.unusedSectionVars false

namespace WBX
open DA Classical
variable {L K : Type} [DecidableEq L] [Field K] [LinearOrder K] [IsStrictOrderedRing K]

section
variable {argsort : List (FV K) → List ℕ} {order : List L} {d : Dim} {fair sk : Bool} {which : String}
  {p t a s : StatVar L (FV K)}

theorem whichArray_eq (hw : which = "predictions" ∧ a = p ∨ which = "targets" ∧ a = t) : whichArray which p t = .ok a := by
  rcases hw with ⟨rfl, rfl⟩ | ⟨rfl, rfl⟩ <;> simp [whichArray]

theorem sizeDim_val {n : StatVar L (FV K)} (hn : a.sizeDim sk d = .ok n) (e : Dim → L) :
    n.arr.val e = FV.ofNat (present sk (a.arr.coords d) (fun l => a.arr.val (setLabel e d l))).card := by
  unfold StatVar.sizeDim at hn
  split at hn
  · rw [Except.ok.injEq] at hn
    subst hn
    cases sk
    · simp [scalar, present]
    · simp [StatVar.reduce]
  · simp at hn

theorem sizeDim_dims {n : StatVar L (FV K)} (hn : a.sizeDim sk d = .ok n) : d ∈ a.arr.dims := by
  unfold StatVar.sizeDim at hn
  split at hn
  · assumption
  · simp at hn

theorem spread_pairwise_ok (hw : whichArray which p t = .ok a) (h : crpsSpread argsort order d false fair which sk p t = .ok s) :
    d ∈ a.arr.dims ∧ "ensemble_dim_2" ∉ a.arr.dims ∧ (sk = false → 2 ≤ (a.arr.coords d).card) ∧
    ∀ e, s.arr.val e = (∑ l' ∈ a.arr.coords d, npSum sk (a.arr.coords d) (fun l =>
        FV.abs (a.arr.val (setLabel (setLabel e "ensemble_dim_2" l') d l) -
          a.arr.val (setLabel (setLabel (setLabel e "ensemble_dim_2" l') d l) d l')))) /
      (FV.ofNat (present sk (a.arr.coords d) (fun l => a.arr.val (setLabel e d l))).card *
        (FV.ofNat (present sk (a.arr.coords d) (fun l => a.arr.val (setLabel e d l))).card - FV.ofNat (if fair then 1 else 0))) := by
  unfold crpsSpread at h
  rw [hw] at h
  simp only [bind, Except.bind] at h
  cases hn : a.sizeDim sk d with
  | error => rw [hn] at h; simp at h
  | ok n =>
    rw [hn] at h
    simp only at h
    have hd := sizeDim_dims hn
    split at h
    · simp at h
    · rename_i hcard
      simp only [Bool.false_eq_true, if_false] at h
      unfold StatVar.rename at h
      by_cases hr : d ∈ a.arr.dims ∧ "ensemble_dim_2" ∉ a.arr.dims
      · rw [if_pos hr] at h
        simp only [pure, Except.pure, Except.ok.injEq] at h
        have hne : d ≠ "ensemble_dim_2" := fun h => hr.2 (h ▸ hr.1)
        refine ⟨hd, hr.2, fun hsk => ?_, fun e => ?_⟩
        · subst hsk
          simp at hcard
          omega
        · subst h
          simp only [StatVar.zipWith, zipWith, StatVar.map, map, StatVar.reduce]
          rw [sizeDim_val hn]
          have j1 : joinCoords a.arr (a.arr.rename d "ensemble_dim_2") d = a.arr.coords d := by
            simp [joinCoords, DA.rename, hd, hne]
          have j2 : joinCoords a.arr (a.arr.rename d "ensemble_dim_2") "ensemble_dim_2" = a.arr.coords d := by
            simp [joinCoords, DA.rename, hr.1, hr.2]
          rw [j1, j2]
          congr 1
          unfold npSum
          rw [present_false]
          refine Finset.sum_congr rfl (fun l' _ => ?_)
          have j3 : ∀ l, (a.arr.rename d "ensemble_dim_2").val (setLabel (setLabel e "ensemble_dim_2" l') d l) =
              a.arr.val (setLabel (setLabel (setLabel e "ensemble_dim_2" l') d l) d l') := fun l => by
            rw [DA.rename, if_pos hr.1]
            simp only
            rw [setLabel_other _ hne.symm, setLabel_same]
          simp only [j3]
      · rw [if_neg hr] at h
        simp at h

/-- **C30** Pairwise form, no missing members (`skipna_ensemble` on or off): the mean absolute difference over distinct pairs
(fair) or all pairs. -/
theorem C30_pairwise (hw : which = "predictions" ∧ a = p ∨ which = "targets" ∧ a = t) (hwf : a.arr.WF)
    (h : crpsSpread argsort order d false fair which sk p t = .ok s) {e : Dim → L} {M : Finset L} {x : L → K}
    (hM : Members a d e M x) (hn : 2 ≤ M.card) : s.arr.val e = FV.fin (eSpread fair M x) := by
  obtain ⟨hd, h2, -, hv⟩ := spread_pairwise_ok (whichArray_eq hw) h
  have hne : d ≠ "ensemble_dim_2" := fun h => h2 (h ▸ hd)
  obtain ⟨hC, hx⟩ := hM
  have key : ∀ l' l, a.arr.val (setLabel (setLabel e "ensemble_dim_2" l') d l) = a.arr.val (setLabel e d l) := by
    intro l' l
    apply hwf
    intro k hk
    have : k ≠ "ensemble_dim_2" := fun h => h2 (h ▸ hk)
    by_cases hkd : k = d <;> simp [setLabel, hkd, this]
  rw [hv e, hC]
  simp only [setLabel_twice, key]
  have hsum : ∑ l' ∈ M, npSum sk M (fun l => FV.abs (a.arr.val (setLabel e d l) - a.arr.val (setLabel e d l'))) =
      FV.fin (∑ i ∈ M, ∑ j ∈ M, |x i - x j|) := by
    refine FV.sum_fin _ _ _ (fun l' hl' => ?_)
    rw [npSum_fin (y := fun l => |x l' - x l|)]
    intro l hl
    rw [hx l hl, hx l' hl', FV.fin_sub_fin, FV.abs, abs_sub_comm]
  rw [hsum, present_of_fin hx]
  unfold FV.ofNat eSpread
  rw [FV.fin_sub_fin, FV.fin_mul_fin, FV.fin_div_fin_of_ne]
  · cases fair <;> simp
  · have h0 : (M.card : K) ≠ 0 := by exact_mod_cast (show M.card ≠ 0 by omega)
    have h1 : (1 : K) < M.card := by exact_mod_cast (show 1 < M.card by omega)
    refine mul_ne_zero h0 ?_
    cases fair
    · simpa using h0
    · simpa using (sub_pos.mpr h1).ne'

/-- **C30** Pairwise form with `skipna_ensemble`: NaN members are as good as absent - the result is the mean absolute difference of
the members that are present. -/
theorem C30_skipna (hw : which = "predictions" ∧ a = p ∨ which = "targets" ∧ a = t) (hwf : a.arr.WF)
    (h : crpsSpread argsort order d false fair which true p t = .ok s) {e : Dim → L} {M : Finset L} {x : L → K}
    (hM : PresentMembers a d e M x) (hn : 2 ≤ M.card) : s.arr.val e = FV.fin (eSpread fair M x) := by
  obtain ⟨hd, h2, -, hv⟩ := spread_pairwise_ok (whichArray_eq hw) h
  obtain ⟨hC, hx, hnan⟩ := hM
  have key : ∀ l' l, a.arr.val (setLabel (setLabel e "ensemble_dim_2" l') d l) = a.arr.val (setLabel e d l) := by
    intro l' l
    apply hwf
    intro k hk
    have : k ≠ "ensemble_dim_2" := fun h => h2 (h ▸ hk)
    by_cases hkd : k = d <;> simp [setLabel, hkd, this]
  rw [hv e]
  simp only [setLabel_twice, key]
  have hsum : ∑ l' ∈ a.arr.coords d, npSum true (a.arr.coords d) (fun l => FV.abs (a.arr.val (setLabel e d l) - a.arr.val (setLabel e d l'))) =
      FV.fin (∑ i ∈ M, ∑ j ∈ M, |x i - x j|) := by
    rw [← Finset.sum_subset hC]
    · refine FV.sum_fin _ _ _ (fun l' hl' => ?_)
      rw [npSum_present (y := fun l => |x l' - x l|) hC]
      · intro l hl
        rw [hx l hl, hx l' hl', FV.fin_sub_fin, FV.abs, abs_sub_comm]
      · intro l hl hl'
        rw [hnan l hl hl']; simp [FV.abs]
    · intro l' hl' hl''
      unfold npSum
      rw [present_true (M := ∅) (Finset.empty_subset _) (by simp)]
      · simp
      · intro l _ _
        rw [hnan l' hl' hl'', FV.sub_nan]; rfl
  rw [hsum, present_true hC (fun l hl => by rw [hx l hl]; rfl) (fun l hl hl' => by rw [hnan l hl hl']; rfl)]
  unfold FV.ofNat eSpread
  rw [FV.fin_sub_fin, FV.fin_mul_fin, FV.fin_div_fin_of_ne]
  · cases fair <;> simp
  · have h0 : (M.card : K) ≠ 0 := by exact_mod_cast (show M.card ≠ 0 by omega)
    have h1 : (1 : K) < M.card := by exact_mod_cast (show 1 < M.card by omega)
    refine mul_ne_zero h0 ?_
    cases fair
    · simpa using h0
    · simpa using (sub_pos.mpr h1).ne'

/-- **C30** `skipna_ensemble` with a single member present: NaN for the fair spread, as documented (probabilistic.py:527-533); but 0 for
the unfair one (found: the documentation promises NaN "when fewer than two ensemble members are present"). -/
theorem C30_single_member (hw : which = "predictions" ∧ a = p ∨ which = "targets" ∧ a = t) (hwf : a.arr.WF)
    (h : crpsSpread argsort order d false fair which true p t = .ok s) {e : Dim → L} {m : L} {x : L → K}
    (hM : PresentMembers a d e {m} x) : s.arr.val e = if fair then FV.nan else FV.fin 0 := by
  obtain ⟨hd, h2, -, hv⟩ := spread_pairwise_ok (whichArray_eq hw) h
  obtain ⟨hC, hx, hnan⟩ := hM
  have key : ∀ l' l, a.arr.val (setLabel (setLabel e "ensemble_dim_2" l') d l) = a.arr.val (setLabel e d l) := by
    intro l' l
    apply hwf
    intro k hk
    have : k ≠ "ensemble_dim_2" := fun h => h2 (h ▸ hk)
    by_cases hkd : k = d <;> simp [setLabel, hkd, this]
  rw [hv e]
  simp only [setLabel_twice, key]
  have hsum : ∑ l' ∈ a.arr.coords d, npSum true (a.arr.coords d) (fun l => FV.abs (a.arr.val (setLabel e d l) - a.arr.val (setLabel e d l'))) =
      FV.fin 0 := by
    rw [← Finset.sum_subset hC]
    · rw [Finset.sum_singleton, npSum_present (y := fun l => |x m - x l|) hC]
      · simp
      · intro l hl
        rw [hx l hl, hx m (Finset.mem_singleton_self m), FV.fin_sub_fin, FV.abs, abs_sub_comm]
      · intro l hl hl'
        rw [hnan l hl hl']; simp [FV.abs]
    · intro l' hl' hl''
      unfold npSum
      rw [present_true (M := ∅) (Finset.empty_subset _) (by simp)]
      · simp
      · intro l _ _
        rw [hnan l' hl' hl'', FV.sub_nan]; rfl
  rw [hsum, present_true hC (fun l hl => by rw [hx l hl]; rfl) (fun l hl hl' => by rw [hnan l hl hl']; rfl)]
  unfold FV.ofNat
  rw [FV.fin_sub_fin, FV.fin_mul_fin, FV.fin_div_fin]
  cases fair <;> simp

theorem spread_sorted_ok (hw : whichArray which p t = .ok a) (h : crpsSpread argsort order d true fair which sk p t = .ok s) :
    sk = false ∧ d ∈ a.arr.dims ∧ 2 ≤ (a.arr.coords d).card ∧
    ∀ e, s.arr.val e = FV.ofNat 2 * (npMean false (a.arr.coords d) (fun l =>
        (FV.ofNat 2 * FV.ofNat (rankdata argsort (order.map (fun l' => a.arr.val (setLabel e d l'))) (order.idxOf l)) -
          FV.ofNat (a.arr.coords d).card - FV.ofNat 1) * a.arr.val (setLabel e d l))) /
      (FV.ofNat (a.arr.coords d).card - FV.ofNat (if fair then 1 else 0)) := by
  unfold crpsSpread at h
  rw [hw] at h
  simp only [bind, Except.bind] at h
  cases hn : a.sizeDim sk d with
  | error => rw [hn] at h; simp at h
  | ok n =>
    rw [hn] at h
    simp only at h
    have hd := sizeDim_dims hn
    split at h
    · simp at h
    · rename_i hcard
      cases sk with
      | true => simp at h
      | false =>
        have hcard' : 2 ≤ (a.arr.coords d).card := by
          simp at hcard
          omega
        have hn' : n = ⟨DA.scalar (FV.ofNat (a.arr.coords d).card), none⟩ := by
          unfold StatVar.sizeDim at hn
          rw [if_pos hd] at hn
          simpa using hn.symm
        subst hn'
        simp only [if_true, Bool.false_eq_true, if_false, StatVar.meanDim] at h
        rw [if_pos (by simp [StatVar.zipWith, zipWith, StatVar.map, map, hd])] at h
        simp only [pure, Except.pure, Except.ok.injEq] at h
        refine ⟨rfl, hd, hcard', fun e => ?_⟩
        subst h
        simp only [StatVar.zipWith, zipWith, StatVar.map, map, StatVar.reduce, rankDA, scalar]
        simp only [joinCoords, hd, Finset.union_empty, if_true, Finset.inter_self, Finset.notMem_empty, if_false, setLabel_twice, setLabel_same]

/-- **C30** Sorted form: for every correct `argsort` (ties in any order), every order of the members and every finite ensemble it
gives the same mean absolute difference as the pairwise form. -/
theorem C30_sorted (hw : which = "predictions" ∧ a = p ∨ which = "targets" ∧ a = t) (harg : IsArgsort argsort)
    (h : crpsSpread argsort order d true fair which sk p t = .ok s) {e : Dim → L} {M : Finset L} {x : L → K}
    (hM : Members a d e M x) (ho : order.Nodup) (hoM : order.toFinset = M) : s.arr.val e = FV.fin (eSpread fair M x) := by
  obtain ⟨-, hd, hn, hv⟩ := spread_sorted_ok (whichArray_eq hw) h
  obtain ⟨hC, hx⟩ := hM
  rw [hC] at hn hv
  have hne : M.Nonempty := Finset.card_pos.mp (by omega)
  have hrank := isRank_rankdata harg ho hoM (fun l => a.arr.val (setLabel e d l)) x hx
  set r := fun l => rankdata argsort (order.map (fun l => a.arr.val (setLabel e d l))) (order.idxOf l) with hr
  have hmean : npMean false M (fun l =>
        (FV.ofNat 2 * FV.ofNat (rankdata argsort (order.map (fun l' => a.arr.val (setLabel e d l'))) (order.idxOf l)) -
          FV.ofNat M.card - FV.ofNat 1) * a.arr.val (setLabel e d l)) = FV.fin (eMean M (fun l => (2 * r l - M.card - 1) * x l)) := by
    refine npMean_fin (fun l hl => ?_) hne
    rw [hx l hl]
    simp [FV.ofNat, hr]
  rw [hv e, hmean]
  have h0 : (M.card : K) ≠ 0 := by exact_mod_cast (show M.card ≠ 0 by omega)
  have h1 : (1 : K) < M.card := by exact_mod_cast (show 1 < M.card by omega)
  have h2 : (M.card : K) - (if fair then 1 else 0) ≠ 0 := by
    cases fair
    · simpa using h0
    · simpa using (sub_pos.mpr h1).ne'
  have hf : (((if fair then 1 else 0 : ℕ)) : K) = if fair then 1 else 0 := by cases fair <;> simp
  unfold FV.ofNat
  rw [FV.fin_mul_fin, FV.fin_sub_fin, hf, FV.fin_div_fin_of_ne _ h2]
  congr 1
  unfold eSpread eMean
  rw [rank_spread hrank]
  push_cast
  field_simp

/-- **C30** A NaN member makes the result NaN in both forms when `skipna_ensemble` is off. -/
theorem C30_nan {useSort : Bool} (hw : which = "predictions" ∧ a = p ∨ which = "targets" ∧ a = t) (hwf : a.arr.WF)
    (h : crpsSpread argsort order d useSort fair which false p t = .ok s) {e : Dim → L} {l : L} (hl : l ∈ a.arr.coords d)
    (hnan : a.arr.val (setLabel e d l) = .nan) : s.arr.val e = FV.nan := by
  cases useSort with
  | true =>
    obtain ⟨-, hd, hn, hv⟩ := spread_sorted_ok (whichArray_eq hw) h
    rw [hv e]
    unfold npMean
    rw [npSum_nan hl (by rw [hnan, FV.mul_nan])]
    simp
  | false =>
    obtain ⟨hd, h2, -, hv⟩ := spread_pairwise_ok (whichArray_eq hw) h
    rw [hv e, FV.sum_nan _ _ l hl, FV.nan_div]
    refine npSum_nan hl ?_
    rw [setLabel_twice]
    have : a.arr.val (setLabel (setLabel e "ensemble_dim_2" l) d l) = .nan := by
      rw [← hnan]
      apply hwf
      intro k hk
      have : k ≠ "ensemble_dim_2" := fun h => h2 (h ▸ hk)
      by_cases hkd : k = d <;> simp [setLabel, hkd, this]
    rw [this]
    simp [FV.abs]

/-- **C30** Errors: without `skipna_ensemble`, fewer than two members are a `ValueError` in both forms; sorting with `skipna_ensemble`
is a `ValueError`, as is any other `which`. -/
theorem C30_errors (useSort : Bool) (hd : d ∈ a.arr.dims) (hw : which = "predictions" ∧ a = p ∨ which = "targets" ∧ a = t) :
    ((a.arr.coords d).card < 2 → crpsSpread argsort order d useSort fair which false p t = .error .valueError) ∧
    crpsSpread argsort order d true fair which true p t = .error .valueError ∧
    ∀ w, w ≠ "predictions" → w ≠ "targets" → crpsSpread argsort order d useSort fair w sk p t = .error .valueError := by
  refine ⟨fun hn => ?_, ?_, fun w h1 h2 => ?_⟩
  · unfold crpsSpread
    rw [whichArray_eq hw]
    simp [bind, Except.bind, StatVar.sizeDim, hd, hn]
  · unfold crpsSpread
    rw [whichArray_eq hw]
    simp [bind, Except.bind, StatVar.sizeDim, hd]
  · simp [crpsSpread, whichArray, h1, h2, bind, Except.bind]

/-- **C30** Otherwise the spread is computed (the array must not have a dimension called `ensemble_dim_2`). -/
theorem C30_ok (useSort : Bool) (hd : d ∈ a.arr.dims) (h2 : "ensemble_dim_2" ∉ a.arr.dims)
    (hw : which = "predictions" ∧ a = p ∨ which = "targets" ∧ a = t) (hn : sk = false → 2 ≤ (a.arr.coords d).card)
    (hs : useSort = true → sk = false) : ∃ s, crpsSpread argsort order d useSort fair which sk p t = .ok s := by
  unfold crpsSpread
  rw [whichArray_eq hw]
  have hc : ¬ ((!sk && decide ((a.arr.coords d).card < 2)) = true) := by
    cases sk
    · have := hn rfl
      simp; omega
    · simp
  cases useSort with
  | false =>
    simp only [bind, Except.bind, StatVar.sizeDim, hd, if_true]
    rw [if_neg hc]
    simp [StatVar.rename, hd, h2, pure, Except.pure]
  | true =>
    have := hs rfl
    subst this
    simp only [bind, Except.bind, StatVar.sizeDim, hd, if_true]
    rw [if_neg hc]
    simp [StatVar.meanDim, StatVar.zipWith, zipWith, StatVar.map, map, hd, pure, Except.pure]

end

/-- **C30** The result has the dimensions and labels of the ensemble array, without the ensemble dimension. -/
theorem C30_shape {argsort : List (FV K) → List ℕ} {order : List L} {d : Dim} {useSort fair sk : Bool} {which : String}
    {p t a s : StatVar L (FV K)} (hw : which = "predictions" ∧ a = p ∨ which = "targets" ∧ a = t)
    (h : crpsSpread argsort order d useSort fair which sk p t = .ok s) :
    s.arr.dims = a.arr.dims.erase d ∧ (∀ k ∈ s.arr.dims, s.arr.coords k = a.arr.coords k) ∧ (a.mask = none → s.mask = none) := by
  have hd : d ∈ a.arr.dims := by
    cases useSort
    · exact (spread_pairwise_ok (whichArray_eq hw) h).1
    · exact (spread_sorted_ok (whichArray_eq hw) h).2.1
  unfold crpsSpread at h
  rw [whichArray_eq hw] at h
  simp only [bind, Except.bind] at h
  cases hn : a.sizeDim sk d with
  | error => rw [hn] at h; simp at h
  | ok n =>
    have hnd : n.arr.dims ⊆ a.arr.dims.erase d ∧ (∀ k ∈ n.arr.dims, n.arr.coords k = a.arr.coords k) ∧ (a.mask = none → n.mask = none) := by
      unfold StatVar.sizeDim at hn
      rw [if_pos hd, Except.ok.injEq] at hn
      subst hn
      cases sk
      · simp [scalar]
      · refine ⟨by simp [StatVar.reduce], fun k _ => by simp [StatVar.reduce], fun hm => by simp [StatVar.reduce, hm, dropMask]⟩
    obtain ⟨n1, n2, n3⟩ := hnd
    rw [hn] at h
    simp only at h
    split at h
    · simp at h
    · cases useSort with
      | true =>
        cases sk with
        | true => simp at h
        | false =>
          simp only [if_true, Bool.false_eq_true, if_false, StatVar.meanDim] at h
          rw [if_pos (by simp [StatVar.zipWith, zipWith, StatVar.map, map, hd])] at h
          simp only [pure, Except.pure, Except.ok.injEq] at h
          subst h
          have hdims : (a.arr.dims ∪ n.arr.dims ∪ a.arr.dims).erase d ∪ n.arr.dims = a.arr.dims.erase d := by
            ext k
            simp only [Finset.mem_union, Finset.mem_erase]
            have := @n1 k
            simp only [Finset.mem_erase] at this
            tauto
          refine ⟨by simpa [StatVar.zipWith, zipWith, StatVar.map, map, StatVar.reduce, rankDA] using hdims, ?_, fun hm => ?_⟩
          · intro k hk
            have hk' : k ∈ a.arr.dims.erase d := by
              rw [← hdims]; simpa [StatVar.zipWith, zipWith, StatVar.map, map, StatVar.reduce, rankDA] using hk
            rw [Finset.mem_erase] at hk'
            simp only [StatVar.zipWith, zipWith, StatVar.map, map, StatVar.reduce, rankDA, joinCoords]
            by_cases hkn : k ∈ n.arr.dims <;> simp [hk'.1, hk'.2, hkn, n2]
          · simp [StatVar.zipWith, StatVar.map, StatVar.reduce, rankDA, hm, n3 hm, combineMask, dropMask]
      | false =>
        simp only [Bool.false_eq_true, if_false] at h
        unfold StatVar.rename at h
        by_cases hr : d ∈ a.arr.dims ∧ "ensemble_dim_2" ∉ a.arr.dims
        · rw [if_pos hr] at h
          simp only [pure, Except.pure, Except.ok.injEq] at h
          subst h
          have hdims : ((a.arr.dims ∪ insert "ensemble_dim_2" (a.arr.dims.erase d)).erase d).erase "ensemble_dim_2" ∪ (n.arr.dims ∪ n.arr.dims) =
              a.arr.dims.erase d := by
            ext k
            simp only [Finset.mem_union, Finset.mem_erase, Finset.mem_insert]
            have h1 := @n1 k
            simp only [Finset.mem_erase] at h1
            have h2 : k ∈ a.arr.dims → k ≠ "ensemble_dim_2" := fun h h' => hr.2 (h' ▸ h)
            tauto
          refine ⟨by simpa [StatVar.zipWith, zipWith, StatVar.map, map, StatVar.reduce, DA.rename, hd] using hdims, ?_, fun hm => ?_⟩
          · intro k hk
            have hk' : k ∈ a.arr.dims.erase d := by
              rw [← hdims]; simpa [StatVar.zipWith, zipWith, StatVar.map, map, StatVar.reduce, DA.rename, hd] using hk
            rw [Finset.mem_erase] at hk'
            have h2 : k ≠ "ensemble_dim_2" := fun h' => hr.2 (h' ▸ hk'.2)
            simp only [StatVar.zipWith, zipWith, StatVar.map, map, StatVar.reduce, DA.rename, joinCoords]
            by_cases hkn : k ∈ n.arr.dims <;> simp [hk'.1, hk'.2, hkn, n2, hd, h2]
          · simp [StatVar.zipWith, StatVar.map, StatVar.reduce, hm, n3 hm, combineMask, dropMask]
        · rw [if_neg hr] at h
          simp at h

/-! ### numpy's order and a concrete case -/

/-- numpy's sort order: NaN last. -/
def npLE (a b : FV K) : Bool := b.isnan || (!a.isnan && !FV.lt b a)

/-- A stable argsort. -/
def npArgsort (x : List (FV K)) : List ℕ :=
  (List.range x.length).insertionSort (fun i j => npLE (x.getD i .nan) (x.getD j .nan) = true)

theorem npArgsort_ok : IsArgsort (npArgsort (K := K)) := by
  intro x
  refine ⟨List.perm_insertionSort _ _, ?_⟩
  have : Std.Total (fun i j : ℕ => npLE (x.getD i .nan) (x.getD j .nan) = true) := ⟨fun i j => by
    generalize x.getD i .nan = a
    generalize x.getD j .nan = b
    rcases a with _ | a | a <;> rcases b with _ | b | b <;> simp [npLE, FV.isnan, FV.lt]
    · cases a <;> cases b <;> simp
    · exact le_total a b⟩
  have : IsTrans ℕ (fun i j : ℕ => npLE (x.getD i .nan) (x.getD j .nan) = true) := ⟨fun i j k => by
    generalize x.getD i .nan = a
    generalize x.getD j .nan = b
    generalize x.getD k .nan = c
    rcases a with _ | a | a <;> rcases b with _ | b | b <;> rcases c with _ | c | c <;> simp [npLE, FV.isnan, FV.lt]
    any_goals first
      | exact le_trans
      | (cases a <;> cases b <;> cases c <;> simp)
      | (cases a <;> cases b <;> simp)
      | (cases a <;> cases c <;> simp)
      | (cases b <;> cases c <;> simp)
      | (cases a <;> simp)
      | (cases b <;> simp)
      | (cases c <;> simp)⟩
  refine (List.pairwise_insertionSort _ _).imp ?_
  intro i j h
  revert h
  generalize x.getD i .nan = a
  generalize x.getD j .nan = b
  rcases a with _ | a | a <;> rcases b with _ | b | b <;> simp [npLE, FV.isnan, FV.lt]
  cases a <;> cases b <;> simp

/-- Four members with a tie: 3, 1, 3, 0, along dimension `number`. -/
def exEnsemble : StatVar ℕ (FV ℚ) :=
  ⟨{ dims := {"number"}, coords := fun _ => Finset.range 4, val := fun e => FV.fin ([3, 1, 3, 0].getD (e "number") 0) }, none⟩

theorem exEnsemble_wf : exEnsemble.arr.WF := by
  intro e e' h
  simp only [exEnsemble]
  rw [h "number" (by simp [exEnsemble])]

example : ∃ s s', crpsSpread npArgsort [2, 0, 1, 3] "number" true true "predictions" false exEnsemble exEnsemble = .ok s ∧
    crpsSpread npArgsort [2, 0, 1, 3] "number" false true "predictions" false exEnsemble exEnsemble = .ok s' ∧
    s.arr.val (fun _ => 0) = FV.fin (11 / 6) ∧ s'.arr.val (fun _ => 0) = FV.fin (11 / 6) := by
  have hM : Members exEnsemble "number" (fun _ => 0) (Finset.range 4) (fun l => [3, 1, 3, 0].getD l 0) :=
    ⟨rfl, fun l _ => by simp [exEnsemble, setLabel]⟩
  obtain ⟨s, hs⟩ := C30_ok (argsort := npArgsort) (order := [2, 0, 1, 3]) (d := "number") (fair := true) (sk := false)
    (which := "predictions") (p := exEnsemble) (t := exEnsemble) (a := exEnsemble) true (by simp [exEnsemble]) (by simp [exEnsemble]) (.inl ⟨rfl, rfl⟩)
    (by simp [exEnsemble]) (by simp)
  obtain ⟨s', hs'⟩ := C30_ok (argsort := npArgsort) (order := [2, 0, 1, 3]) (d := "number") (fair := true) (sk := false)
    (which := "predictions") (p := exEnsemble) (t := exEnsemble) (a := exEnsemble) false (by simp [exEnsemble]) (by simp [exEnsemble]) (.inl ⟨rfl, rfl⟩)
    (by simp [exEnsemble]) (by simp)
  refine ⟨s, s', hs, hs', ?_, ?_⟩
  · rw [C30_sorted (.inl ⟨rfl, rfl⟩) npArgsort_ok hs hM (by decide) (by decide)]
    norm_num [eSpread, Finset.sum_range_succ]
  · rw [C30_pairwise (.inl ⟨rfl, rfl⟩) exEnsemble_wf hs' hM (by simp)]
    norm_num [eSpread, Finset.sum_range_succ]

end WBX
