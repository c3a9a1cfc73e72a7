import Verif.Props.CRPS
import Verif.Lemmas.WMean

/-!
# C32: ensemble variance and the unbiased mean squared error of the ensemble mean
-/

set_option linter.unusedSectionVars false

namespace WBX
open DA Classical
variable {L K : Type} [DecidableEq L] [Field K] [LinearOrder K] [IsStrictOrderedRing K]

/-! ### Identities -/

theorem sum_sq_dev {M : Finset L} (hM : M.Nonempty) (x : L → K) :
    ∑ l ∈ M, (x l - eMean M x) ^ 2 = ∑ l ∈ M, x l ^ 2 - (∑ l ∈ M, x l) ^ 2 / M.card := by
  have h0 : (M.card : K) ≠ 0 := by exact_mod_cast hM.card_pos.ne'
  have h := sum_sq_diff M ({()} : Finset Unit) x (fun _ => eMean M x)
  simp only [Finset.sum_singleton, Finset.card_singleton, Nat.cast_one, one_mul] at h
  rw [h]
  unfold eMean
  field_simp
  ring

/-- Sum over ordered pairs of distinct members. -/
def pairSum (M : Finset L) (f : L → L → K) : K := ∑ i ∈ M, ∑ j ∈ M.erase i, f i j

theorem pairSum_eq (M : Finset L) (f : L → L → K) : pairSum M f = ∑ i ∈ M, ∑ j ∈ M, f i j - ∑ i ∈ M, f i i := by
  unfold pairSum
  rw [← Finset.sum_sub_distrib]
  refine Finset.sum_congr rfl (fun i hi => ?_)
  rw [← Finset.add_sum_erase M (f i) hi]; ring

/-- **C32** The variance of an ensemble is half the mean squared difference over the `n(n-1)` ordered pairs of distinct members. -/
theorem C32_variance_pairs {M : Finset L} (hn : 2 ≤ M.card) (x : L → K) :
    eVar M x = 1 / 2 * (pairSum M (fun i j => (x i - x j) ^ 2) / (M.card * (M.card - 1))) := by
  have hM : M.Nonempty := Finset.card_pos.mp (by omega)
  have h0 : (M.card : K) ≠ 0 := by exact_mod_cast hM.card_pos.ne'
  have h1 : (M.card : K) - 1 ≠ 0 := by
    have : (1 : K) < M.card := by exact_mod_cast (show 1 < M.card by omega)
    exact (sub_pos.mpr this).ne'
  rw [pairSum_eq, sum_sq_diff, eVar, sum_sq_dev hM]
  simp only [sub_self, ne_eq, OfNat.ofNat_ne_zero, not_false_eq_true, zero_pow, Finset.sum_const_zero, sub_zero]
  field_simp
  ring

/-- **C32** `(mean - y)² - var / n` is the mean over ordered pairs of distinct members of the product of their errors: no member is
paired with itself, which is why it is unbiased. -/
theorem C32_pairs {M : Finset L} (hn : 2 ≤ M.card) (x : L → K) (y : K) :
    (eMean M x - y) ^ 2 - eVar M x / M.card = pairSum M (fun i j => (x i - y) * (x j - y)) / (M.card * (M.card - 1)) := by
  have hM : M.Nonempty := Finset.card_pos.mp (by omega)
  have h0 : (M.card : K) ≠ 0 := by exact_mod_cast hM.card_pos.ne'
  have h1 : (M.card : K) - 1 ≠ 0 := by
    have : (1 : K) < M.card := by exact_mod_cast (show 1 < M.card by omega)
    exact (sub_pos.mpr this).ne'
  have e1 : ∑ i ∈ M, ∑ j ∈ M, (x i - y) * (x j - y) = (∑ i ∈ M, x i - M.card * y) ^ 2 := by
    rw [← Finset.sum_mul_sum]
    simp [Finset.sum_sub_distrib, pow_two]
  have e2 : ∑ i ∈ M, (x i - y) * (x i - y) = ∑ i ∈ M, x i ^ 2 - 2 * y * ∑ i ∈ M, x i + M.card * y ^ 2 := by
    rw [Finset.mul_sum, show (M.card : K) * y ^ 2 = ∑ i ∈ M, y ^ 2 by simp, ← Finset.sum_sub_distrib, ← Finset.sum_add_distrib]
    exact Finset.sum_congr rfl (fun i _ => by ring)
  rw [pairSum_eq, e1, e2, eVar, sum_sq_dev hM]
  unfold eMean
  field_simp
  ring

/-! ### The code -/

theorem npVar_at {sk : Bool} {a : StatVar L (FV K)} {d : Dim} {e : Dim → L} {M : Finset L} {x : L → K} (h : EnsembleAt sk a d e M x)
    (hn : 2 ≤ M.card) : npVar1 sk (a.arr.coords d) (fun l => a.arr.val (setLabel e d l)) = FV.fin (eVar M x) := by
  cases sk with
  | false => obtain ⟨hC, hx⟩ := h; rw [hC]; exact npVar1_fin hx hn
  | true => obtain ⟨hC, hx, hnan⟩ := h; exact npVar1_present hC hx hnan hn

theorem npMean_at {sk : Bool} {a : StatVar L (FV K)} {d : Dim} {e : Dim → L} {M : Finset L} {x : L → K} (h : EnsembleAt sk a d e M x)
    (hn : M.Nonempty) : npMean sk (a.arr.coords d) (fun l => a.arr.val (setLabel e d l)) = FV.fin (eMean M x) :=
  ensembleAt_skipna h (f := id) (g := id) (fun _ => rfl) rfl hn

theorem present_at {sk : Bool} {a : StatVar L (FV K)} {d : Dim} {e : Dim → L} {M : Finset L} {x : L → K} (h : EnsembleAt sk a d e M x) :
    present sk (a.arr.coords d) (fun l => a.arr.val (setLabel e d l)) = M := by
  cases sk with
  | false => obtain ⟨hC, hx⟩ := h; rw [present_false, hC]
  | true =>
    obtain ⟨hC, hx, hnan⟩ := h
    exact present_true hC (fun l hl => by rw [hx l hl]; rfl) (fun l hl hl' => by rw [hnan l hl hl']; rfl)

/-- **C32** `EnsembleVariance` of a cell. -/
theorem C32_variance {d : Dim} {sk : Bool} {p t s : StatVar L (FV K)} (h : ensembleVariance d sk p t = .ok s) {e : Dim → L}
    {M : Finset L} {x : L → K} (hM : EnsembleAt sk p d e M x) (hn : 2 ≤ M.card) :
    s.arr.val e = FV.fin (eVar M x) ∧ 0 ≤ eVar M x := by
  unfold ensembleVariance StatVar.varDim at h
  split at h
  · rw [Except.ok.injEq] at h
    subst h
    refine ⟨npVar_at hM hn, div_nonneg (Finset.sum_nonneg (fun _ _ => sq_nonneg _)) ?_⟩
    have : (1 : K) ≤ M.card := by exact_mod_cast (show 1 ≤ M.card by omega)
    linarith
  · simp at h

/-- **C32** A single member: the variance is NaN. -/
theorem C32_variance_single {d : Dim} {sk : Bool} {p t s : StatVar L (FV K)} (h : ensembleVariance d sk p t = .ok s) {e : Dim → L}
    {m : L} {x : L → K} (hM : EnsembleAt sk p d e {m} x) : s.arr.val e = FV.nan := by
  unfold ensembleVariance StatVar.varDim at h
  split at h
  · rw [Except.ok.injEq] at h
    subst h
    show npVar1 sk (p.arr.coords d) (fun l => p.arr.val (setLabel e d l)) = _
    have hmean := npMean_at hM (Finset.singleton_nonempty m)
    unfold npVar1
    rw [hmean, present_at hM]
    have hs : npSum sk (p.arr.coords d) (fun l => (p.arr.val (setLabel e d l) - FV.fin (eMean {m} x)).sq) = FV.fin 0 := by
      cases sk with
      | false =>
        obtain ⟨hC, hx⟩ := hM
        rw [hC, npSum_fin (y := fun l => (x l - eMean {m} x) ^ 2) (fun l hl => by rw [hx l hl]; simp [FV.sq, pow_two])]
        simp [eMean]
      | true =>
        obtain ⟨hC, hx, hnan⟩ := hM
        rw [npSum_present (y := fun l => (x l - eMean {m} x) ^ 2) hC (fun l hl => by rw [hx l hl]; simp [FV.sq, pow_two])
          (fun l hl hl' => by rw [hnan l hl hl']; simp [FV.sq])]
        simp [eMean]
    rw [hs]
    simp [FV.ofNat, FV.fin_div_fin]
  · simp at h

theorem unbiasedMSE_ok {d : Dim} {sk : Bool} {p t s : StatVar L (FV K)} (h : unbiasedMSE d sk p t = .ok s) : d ∈ p.arr.dims := by
  unfold unbiasedMSE StatVar.meanDim at h
  split at h
  · assumption
  · simp [bind, Except.bind] at h

/-- **C32** `UnbiasedEnsembleMeanSquaredError` of a cell, targets without ensemble: the mean over pairs of distinct members of the
product of their errors. -/
theorem C32_unbiased {d : Dim} {sk : Bool} {p t s : StatVar L (FV K)} (hd : d ∉ t.arr.dims) (h : unbiasedMSE d sk p t = .ok s)
    {e : Dim → L} {M : Finset L} {x : L → K} {y : K} (hM : EnsembleAt sk p d e M x) (hn : 2 ≤ M.card) (hy : t.arr.val e = .fin y) :
    s.arr.val e = FV.fin (pairSum M (fun i j => (x i - y) * (x j - y)) / (M.card * (M.card - 1))) := by
  have hdp := unbiasedMSE_ok h
  have hne : M.Nonempty := Finset.card_pos.mp (by omega)
  have h0 : (M.card : K) ≠ 0 := by exact_mod_cast hne.card_pos.ne'
  unfold unbiasedMSE StatVar.meanDim StatVar.varDim at h
  cases hs : p.sizeDim sk d with
  | error =>
    rw [hs] at h
    simp [hdp, bind, Except.bind] at h
  | ok n =>
    rw [hs] at h
    simp only [hdp, if_true, bind, Except.bind, hd, if_false, pure, Except.pure, Except.ok.injEq] at h
    subst h
    have hsz := sizeDim_val hs e
    rw [present_at hM] at hsz
    simp only [StatVar.map, StatVar.zipWith, map, zipWith, StatVar.reduce]
    rw [npMean_at hM hne, npVar_at hM hn, hsz, hy]
    unfold FV.ofNat
    rw [FV.fin_div_fin_of_ne _ h0, FV.fin_sub_fin, FV.sq, FV.fin_mul_fin, FV.fin_sub_fin, FV.zero_def, FV.fin_sub_fin, sub_zero, ← pow_two,
      C32_pairs hn]

/-- **C32** An ensemble target: both sampling variances are removed. -/
theorem C32_unbiased_ensemble_target {d : Dim} {sk : Bool} {p t s : StatVar L (FV K)} (hd : d ∈ t.arr.dims) (h : unbiasedMSE d sk p t = .ok s)
    {e : Dim → L} {M N : Finset L} {x y : L → K} (hM : EnsembleAt sk p d e M x) (hN : EnsembleAt sk t d e N y) (hn : 2 ≤ M.card)
    (hm : 2 ≤ N.card) :
    s.arr.val e = FV.fin ((eMean M x - eMean N y) ^ 2 - eVar M x / M.card - eVar N y / N.card) := by
  have hdp := unbiasedMSE_ok h
  have hne : M.Nonempty := Finset.card_pos.mp (by omega)
  have hne' : N.Nonempty := Finset.card_pos.mp (by omega)
  have h0 : (M.card : K) ≠ 0 := by exact_mod_cast hne.card_pos.ne'
  have h0' : (N.card : K) ≠ 0 := by exact_mod_cast hne'.card_pos.ne'
  unfold unbiasedMSE StatVar.meanDim StatVar.varDim at h
  cases hs : p.sizeDim sk d with
  | error =>
    rw [hs] at h
    simp [hdp, bind, Except.bind] at h
  | ok n =>
    cases hs' : t.sizeDim sk d with
    | error =>
      rw [hs, hs'] at h
      simp [hdp, hd, bind, Except.bind] at h
    | ok n' =>
      rw [hs, hs'] at h
      simp only [hdp, if_true, bind, Except.bind, hd, pure, Except.pure, Except.ok.injEq] at h
      subst h
      have hsz := sizeDim_val hs e
      have hsz' := sizeDim_val hs' e
      rw [present_at hM] at hsz
      rw [present_at hN] at hsz'
      simp only [StatVar.map, StatVar.zipWith, map, zipWith, StatVar.reduce]
      rw [npMean_at hM hne, npVar_at hM hn, hsz, npMean_at hN hne', npVar_at hN hm, hsz']
      unfold FV.ofNat
      rw [FV.fin_div_fin_of_ne _ h0, FV.fin_div_fin_of_ne _ h0', FV.fin_sub_fin, FV.sq, FV.fin_mul_fin, FV.fin_sub_fin, FV.fin_sub_fin, ← pow_two]

/-- **C32** Predictions without the ensemble dimension are a `ValueError`. -/
theorem C32_missing_dim {d : Dim} {sk : Bool} {p t : StatVar L (FV K)} (hd : d ∉ p.arr.dims) :
    unbiasedMSE d sk p t = .error .valueError ∧ ensembleVariance d sk p t = .error .valueError := by
  constructor
  · simp [unbiasedMSE, StatVar.meanDim, hd, bind, Except.bind]
  · simp [ensembleVariance, StatVar.varDim, hd]

/-! ### The metrics built on them -/

theorem valueOf_metric1 {s1 : String × FStatistic L K} {f} {agg : Aggregator L (FV K)} {p t : Vars (StatVar L (FV K))} {v : String}
    {x : DA L (FV K)} (h : ValueOf (metric1 s1 f) agg p t v x) : ∃ y1, IsMeanOf agg p t v s1.2 y1 ∧ x = f y1 := by
  obtain ⟨ys, hys, hg⟩ := valueOf_perVariable (by simp) h
  rw [List.forall₂_cons_left_iff] at hys
  obtain ⟨⟨k1, y1⟩, l1, ⟨e1, m1⟩, hys, rfl⟩ := hys
  rw [List.forall₂_nil_left_iff] at hys
  subst hys
  simp only at e1
  subst e1
  rw [item_hd] at hg
  simp only [bind, Except.bind, pure, Except.pure, Except.ok.injEq] at hg
  exact ⟨y1, m1, hg.symm⟩

section metrics
variable {agg : Aggregator L (FV ℝ)} {p t : Vars (StatVar L (FV ℝ))} (hp : (p.map Prod.fst).Nodup) (ht : (t.map Prod.fst).Nodup)
  {v : String} {a b : StatVar L (FV ℝ)} (ha : (v, a) ∈ p) (hb : (v, b) ∈ t) {d : Dim} {sk : Bool} {e : Dim → L} {cs : Finset (Dim → L)}
  {M : (Dim → L) → Finset L} {x : (Dim → L) → L → ℝ} {y : (Dim → L) → ℝ}
  (hM : ∀ e' ∈ cs, EnsembleAt sk a d e' (M e') (x e')) (hn : ∀ e' ∈ cs, 2 ≤ (M e').card)
include hp ht ha hb hM hn

/-- **C32** `EnsembleRootMeanVariance` is the root of the weighted mean ensemble variance. -/
theorem C32_rootMeanVariance {s : StatVar L (FV ℝ)} (h : ensembleVariance d sk a b = .ok s) (E : Evaluated agg s e cs)
    (hW : GoodWeights agg s cs) {X : DA L (FV ℝ)} (hX : ValueOf (ensembleRootMeanVariance d sk) agg p t v X) :
    X.val e = FV.fin (Real.sqrt (wmean agg s cs (fun e' => eVar (M e') (x e')))) := by
  obtain ⟨y1, m1, rfl⟩ := valueOf_metric1 hX
  have v1 := mean_statOfE hp ht ha hb m1 h E hW (g := fun e' => eVar (M e') (x e'))
    (fun e' he' => (C32_variance h (hM e' he') (hn e' he')).1)
  simp only [map]
  rw [v1, FV.sqrt, if_neg]
  exact not_lt.mpr (wmean_nonneg hW (fun e' he' => (C32_variance h (hM e' he') (hn e' he')).2))

/-- **C32** `UnbiasedEnsembleMeanRMSE` is the root of the weighted mean of the pairwise products of errors; NaN if that is negative
(which can happen, as an unbiased estimate). -/
theorem C32_unbiasedRMSE (hd : d ∉ b.arr.dims) (hy : ∀ e' ∈ cs, b.arr.val e' = .fin (y e')) {s : StatVar L (FV ℝ)} (h : unbiasedMSE d sk a b = .ok s) (E : Evaluated agg s e cs)
    (hW : GoodWeights agg s cs) {X : DA L (FV ℝ)} (hX : ValueOf (unbiasedRMSE d sk) agg p t v X) :
    let m := wmean agg s cs (fun e' => pairSum (M e') (fun i j => (x e' i - y e') * (x e' j - y e')) / ((M e').card * ((M e').card - 1)))
    X.val e = if m < 0 then FV.nan else FV.fin (Real.sqrt m) := by
  obtain ⟨y1, m1, rfl⟩ := valueOf_metric1 hX
  have v1 := mean_statOfE hp ht ha hb m1 h E hW (g := fun e' => pairSum (M e') (fun i j => (x e' i - y e') * (x e' j - y e')) / ((M e').card * ((M e').card - 1)))
    (fun e' he' => C32_unbiased hd h (hM e' he') (hn e' he') (hy e' he'))
  simp only [map]
  rw [v1, FV.sqrt]

/-- **C32** `UnbiasedSpreadSkillRatio` is the root of the ratio of the two means when the unbiased mean squared error is positive. -/
theorem C32_spreadSkillRatio (hd : d ∉ b.arr.dims) (hy : ∀ e' ∈ cs, b.arr.val e' = .fin (y e')) {s1 s2 : StatVar L (FV ℝ)} (h1 : ensembleVariance d sk a b = .ok s1)
    (h2 : unbiasedMSE d sk a b = .ok s2) (E1 : Evaluated agg s1 e cs) (E2 : Evaluated agg s2 e cs) (hW1 : GoodWeights agg s1 cs)
    (hW2 : GoodWeights agg s2 cs)
    (hpos : 0 < wmean agg s2 cs (fun e' => pairSum (M e') (fun i j => (x e' i - y e') * (x e' j - y e')) / ((M e').card * ((M e').card - 1))))
    {X : DA L (FV ℝ)} (hX : ValueOf (spreadSkillRatio d sk) agg p t v X) :
    X.val e = FV.fin (Real.sqrt (wmean agg s1 cs (fun e' => eVar (M e') (x e')) /
      wmean agg s2 cs (fun e' => pairSum (M e') (fun i j => (x e' i - y e') * (x e' j - y e')) / ((M e').card * ((M e').card - 1))))) := by
  obtain ⟨y1, y2, m1, m2, rfl⟩ := valueOf_metric2 (show "EnsembleVariance" ≠ "UnbiasedEnsembleMeanSquaredError" by decide) hX
  have v1 := mean_statOfE hp ht ha hb m1 h1 E1 hW1 (g := fun e' => eVar (M e') (x e'))
    (fun e' he' => (C32_variance h1 (hM e' he') (hn e' he')).1)
  have v2 := mean_statOfE hp ht ha hb m2 h2 E2 hW2 (g := fun e' => pairSum (M e') (fun i j => (x e' i - y e') * (x e' j - y e')) / ((M e').card * ((M e').card - 1)))
    (fun e' he' => C32_unbiased hd h2 (hM e' he') (hn e' he') (hy e' he'))
  simp only [map, div, zipWith]
  rw [v1, v2, FV.fin_div_fin_of_ne _ hpos.ne', FV.sqrt, if_neg]
  exact not_lt.mpr (div_nonneg (wmean_nonneg hW1 (fun e' he' => (C32_variance h1 (hM e' he') (hn e' he')).2)) hpos.le)

end metrics

/-! ### Concrete cases -/

example : ∃ s1 s2, ensembleVariance "number" false crpsPred crpsTarget = .ok s1 ∧ unbiasedMSE "number" false crpsPred crpsTarget = .ok s2 ∧
    s1.arr.val (exCell 1) = FV.fin 1 ∧ s2.arr.val (exCell 1) = FV.fin (2 / 3) := by
  have hM : EnsembleAt false crpsPred "number" (exCell 1) (Finset.range 3) (fun l => (l : ℝ) + 1) :=
    ⟨rfl, fun l _ => by simp [crpsPred, setLabel, exCell]⟩
  have hd : "number" ∈ crpsPred.arr.dims := by simp [crpsPred]
  have hd' : "number" ∉ crpsTarget.arr.dims := by simp [crpsTarget]
  obtain ⟨s1, h1⟩ : ∃ s, ensembleVariance "number" false crpsPred crpsTarget = .ok s := by
    unfold ensembleVariance StatVar.varDim; rw [if_pos hd]; exact ⟨_, rfl⟩
  obtain ⟨s2, h2⟩ : ∃ s, unbiasedMSE "number" false crpsPred crpsTarget = .ok s := by
    simp only [unbiasedMSE, StatVar.meanDim, StatVar.varDim, StatVar.sizeDim, hd, hd', if_true, if_false, bind, Except.bind]; exact ⟨_, rfl⟩
  refine ⟨s1, s2, h1, h2, ?_, ?_⟩
  · rw [(C32_variance h1 hM (by simp)).1]
    norm_num [eVar, eMean, Finset.sum_range_succ]
  · rw [C32_unbiased hd' h2 hM (by simp) (y := 1) rfl, ← C32_pairs (by simp)]
    norm_num [eVar, eMean, Finset.sum_range_succ]

/-- The unbiased estimate can be negative: members -1 and 1 around the observation 0. -/
example : pairSum (Finset.range 2) (fun i j => ((if i = 0 then (-1 : ℚ) else 1) - 0) * ((if j = 0 then (-1 : ℚ) else 1) - 0)) / ((Finset.range 2).card * ((Finset.range 2).card - 1)) = -1 := by
  rw [pairSum_eq]
  norm_num [Finset.sum_range_succ]

end WBX
