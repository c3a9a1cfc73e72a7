import Verif.Spec.EnsembleScores
import Verif.Props.ImprovedMore
import Verif.Props.ImprovedEnsemble
import Verif.Props.EnsembleMoments
import Verif.Props.Latency

/-!
# C98: the scores of an ensemble fit together
-/

set_option linter.unusedSectionVars false

namespace WBX
open DA Classical
variable {L : Type} [DecidableEq L]

/-! ### Means -/

section means
variable {K : Type} [Field K] [LinearOrder K] [IsStrictOrderedRing K] {agg : Aggregator L (FV K)} {s : StatVar L (FV K)} {e : Dim → L} {cs : Finset (Dim → L)} {w f g : (Dim → L) → K}

theorem AveragedOver.good (h : AveragedOver agg s e cs w) (hw : WeightsOk cs w) : GoodWeights agg s cs :=
  ⟨fun e' he' => by rw [h.weights e' he']; exact hw.1 e' he', by rw [Finset.sum_congr rfl h.weights]; exact hw.2⟩

theorem AveragedOver.wmean (h : AveragedOver agg s e cs w) (f : (Dim → L) → K) : WBX.wmean agg s cs f = cellMean cs w f := by
  unfold WBX.wmean cellMean
  rw [Finset.sum_congr rfl h.weights, Finset.sum_congr rfl (fun e' he' => by rw [h.weights e' he'])]

theorem cellMean_congr (h : ∀ e' ∈ cs, f e' = g e') : cellMean cs w f = cellMean cs w g := by
  unfold cellMean
  rw [Finset.sum_congr rfl (fun e' he' => by rw [h e' he'])]

theorem cellMean_mono (hw : WeightsOk cs w) (h : ∀ e' ∈ cs, f e' ≤ g e') : cellMean cs w f ≤ cellMean cs w g :=
  div_le_div_of_nonneg_right (Finset.sum_le_sum (fun e' he' => mul_le_mul_of_nonneg_right (h e' he') (hw.1 e' he'))) hw.2.le

theorem cellMean_add (f g : (Dim → L) → K) : cellMean cs w (fun e' => f e' + g e') = cellMean cs w f + cellMean cs w g := by
  unfold cellMean
  rw [← add_div, ← Finset.sum_add_distrib]
  simp only [add_mul]

theorem cellMean_smul (c : K) (f : (Dim → L) → K) : cellMean cs w (fun e' => c * f e') = c * cellMean cs w f := by
  unfold cellMean
  rw [← mul_div_assoc, Finset.mul_sum]
  simp only [mul_assoc]

end means

/-! ### Members -/

section members
variable {K : Type} [Field K] [LinearOrder K] [IsStrictOrderedRing K] {M : Finset L} {x : L → K} {y : K}

/-- The squared error of the mean and the variance make up the mean squared error of the members. -/
theorem eMean_sq (hn : 2 ≤ M.card) : (eMean M x - y) ^ 2 + ((M.card : K) - 1) / M.card * eVar M x = eMean M (fun l => (x l - y) ^ 2) := by
  have hM : M.Nonempty := Finset.card_pos.mp (by omega)
  have h0 : (M.card : K) ≠ 0 := by exact_mod_cast hM.card_pos.ne'
  have h1 : (M.card : K) - 1 ≠ 0 := by
    have : (1 : K) < M.card := by exact_mod_cast (show 1 < M.card by omega)
    exact (sub_pos.mpr this).ne'
  have e2 : ∑ i ∈ M, (x i - y) ^ 2 = ∑ i ∈ M, x i ^ 2 - 2 * y * ∑ i ∈ M, x i + M.card * y ^ 2 := by
    rw [Finset.mul_sum, show (M.card : K) * y ^ 2 = ∑ i ∈ M, y ^ 2 by simp, ← Finset.sum_sub_distrib, ← Finset.sum_add_distrib]
    exact Finset.sum_congr rfl (fun i _ => by ring)
  rw [eVar, sum_sq_dev hM, eMean, eMean, e2]
  field_simp
  ring

theorem eVar_nonneg (hn : 2 ≤ M.card) : 0 ≤ eVar M x := by
  have : (1 : K) ≤ M.card := by exact_mod_cast (show 1 ≤ M.card by omega)
  exact div_nonneg (Finset.sum_nonneg (fun _ _ => sq_nonneg _)) (by linarith)

theorem eMean_sub (hn : 2 ≤ M.card) : eMean M x - y = eMean M (fun l => x l - y) := by
  have h0 : (M.card : K) ≠ 0 := by exact_mod_cast (show M.card ≠ 0 by omega)
  unfold eMean
  rw [Finset.sum_sub_distrib, Finset.sum_const, nsmul_eq_mul]
  field_simp

theorem eMean_abs (hn : 2 ≤ M.card) : |eMean M x - y| ≤ eMean M (fun l => |x l - y|) := by
  rw [eMean_sub hn]
  have h0 : (0 : K) ≤ M.card := Nat.cast_nonneg _
  unfold eMean
  rw [abs_div, abs_of_nonneg h0]
  exact div_le_div_of_nonneg_right (Finset.abs_sum_le_sum_abs _ _) h0

end members

/-! ### Values -/

section values
variable {K : Type} [Field K] [LinearOrder K] [IsStrictOrderedRing K] {agg : Aggregator L (FV K)} {p t : Vars (StatVar L (FV K))} {v : String} {a b : StatVar L (FV K)} {d : Dim} {sk : Bool}
  {e : Dim → L} {cs : Finset (Dim → L)} {w : (Dim → L) → K} {M : (Dim → L) → Finset L} {x : (Dim → L) → L → K} {y : (Dim → L) → K} {X : DA L (FV K)}

/-- A metric wrapped with `EnsembleMean` is the metric of the array of the means over the members. -/
theorem ensembleMean_split {m : FMetric L K} (hne : m.statistics ≠ []) {skip : Bool} {suffix : Option String} {tr : InputTransform L K} (htr : ensembleMean "predictions" d sk skip = .ok tr)
    (hp : IsDict p) (ht : IsDict t) (ha : (v, a) ∈ p) (hb : (v, b) ∈ t) (hd : d ∈ a.arr.dims) (hx : ValueOf (wrappedMetric m [tr] suffix) agg p t v X) :
    ∃ q u, IsDict q ∧ IsDict u ∧ (v, a.reduce d (npMean sk)) ∈ q ∧ (v, b) ∈ u ∧ ValueOf m agg q u v X := by
  obtain ⟨q, u, h1, h2, h3⟩ := wrapped_split hne hx
  unfold ensembleMean mkTransform at htr
  rw [if_pos (by simp)] at htr
  cases htr
  obtain ⟨A, ga, ma⟩ := transformedVars_item h1 ha
  obtain ⟨B, gb, mb⟩ := transformedVars_item h2 hb
  have hA : A = a.reduce d (npMean sk) := by
    simp only [transformed, touches, true_or, if_true, bind_ok_iff, Except.ok.injEq, exists_eq_right] at ga
    unfold ensembleMeanFn StatVar.meanDim at ga
    rw [if_neg (by simp [hd]), if_pos hd] at ga
    exact (Except.ok.inj ga).symm
  have hB : B = b := by
    simpa [transformed, touches, eq_comm] using gb
  subst hA hB
  exact ⟨q, u, by unfold IsDict; rw [transformedVars_keys h1]; exact hp, by unfold IsDict; rw [transformedVars_keys h2]; exact ht, ma, mb, h3⟩

/-- A statistic averaged over the members (`EnsembleAveragedStatistic`): the mean over the cells of the means over the members. -/
theorem ensembleAveraged_mean {name : String} {f : StatVar L (FV K) → StatVar L (FV K) → StatVar L (FV K)} (hp : IsDict p) (ht : IsDict t) (ha : (v, a) ∈ p) (hb : (v, b) ∈ t)
    (hA : AveragedOver agg ((f a b).reduce d (npMean sk)) e cs w) (hw : WeightsOk cs w) {g : (Dim → L) → K}
    (hg : ∀ e' ∈ cs, npMean sk ((f a b).arr.coords d) (fun l => (f a b).arr.val (setLabel e' d l)) = FV.fin (g e'))
    (hX : IsMeanOf agg p t v (ensembleAveragedStatistic d sk (statOf name f)) X) : X.val e = FV.fin (cellMean cs w g) := by
  obtain ⟨vars, s, q, h1, h2, h3, rfl⟩ := hX
  unfold ensembleAveragedStatistic at h1
  obtain ⟨r, hr, h1⟩ := bind_pair_ok _ _ _ h1
  obtain ⟨kv, hkv, h4⟩ := mapM_out_mem h1 _ h2
  obtain ⟨k, z⟩ := kv
  have hs : s = (f a b).reduce d (npMean sk) := by
    cases z with
    | none =>
      simp at h4
    | some z =>
      simp only [bind_ok_iff, pure, Except.pure, Except.ok.injEq, Prod.mk.injEq, Option.some.injEq] at h4
      obtain ⟨z', hz, rfl, rfl⟩ := h4
      rw [statOf_mem hp ht ha hb hr hkv] at hz
      unfold StatVar.meanDim at hz
      split at hz
      · exact (Except.ok.inj hz).symm
      · cases hz
  subst hs
  rw [evaluated_mean hA.evaluated h3 (hA.good hw).2.ne', hA.wmean]
  congr 1
  exact cellMean_congr (fun e' he' => by
    show (npMean sk ((f a b).arr.coords d) (fun l => (f a b).arr.val (setLabel e' d l))).num = _
    rw [hg e' he']; rfl)

/-- `EnsembleAveragedMetric` of a statistic. -/
theorem ensembleAveraged_value {name : String} {f : StatVar L (FV K) → StatVar L (FV K) → StatVar L (FV K)} (hp : IsDict p) (ht : IsDict t) (ha : (v, a) ∈ p) (hb : (v, b) ∈ t)
    (hA : AveragedOver agg ((f a b).reduce d (npMean sk)) e cs w) (hw : WeightsOk cs w) {g : (Dim → L) → K}
    (hg : ∀ e' ∈ cs, npMean sk ((f a b).arr.coords d) (fun l => (f a b).arr.val (setLabel e' d l)) = FV.fin (g e'))
    (hX : ValueOf (ensembleAveragedMetric d sk (statOf name f).toMetric) agg p t v X) : X.val e = FV.fin (cellMean cs w g) := by
  have hX' : ValueOf (ensembleAveragedStatistic d sk (statOf name f)).toMetric agg p t v X := hX
  exact ensembleAveraged_mean hp ht ha hb hA hw hg (valueOf_statistic hX')

/-- The members of the field of a function of forecast and target, cell by cell. -/
theorem zipped_mean (hE : EnsembleOver sk d a b cs M x y) (hd : d ∈ a.arr.dims) (f : FV K → FV K) {g : K → K → K} (hf : ∀ z u, f (.fin z - .fin u) = .fin (g z u)) (hn : f .nan = .nan)
    {e' : Dim → L} (he' : e' ∈ cs) :
    npMean sk (((error a b).map f).arr.coords d) (fun l => ((error a b).map f).arr.val (setLabel e' d l)) = FV.fin (eMean (M e') (fun l => g (x e' l) (y e'))) := by
  have hc : ((error a b).map f).arr.coords d = a.arr.coords d := by
    simp [error, StatVar.map, map, StatVar.zipWith, zipWith, joinCoords, hd, hE.noMember]
  have hv : ∀ l, ((error a b).map f).arr.val (setLabel e' d l) = f (a.arr.val (setLabel e' d l) - .fin (y e')) := fun l => by
    show f (a.arr.val (setLabel e' d l) - b.arr.val (setLabel e' d l)) = _
    have hb' : b.arr.val (setLabel e' d l) = b.arr.val e' := hE.wf _ _ (fun k hk => setLabel_other e' (fun h : k = d => hE.noMember (h ▸ hk)) l)
    rw [hb', hE.target e' he']
  rw [hc, funext hv]
  have hne : (M e').Nonempty := Finset.card_pos.mp (by have := hE.two e' he'; omega)
  have hn' : f (FV.nan - FV.fin (y e')) = FV.nan := by
    rw [show (FV.nan - FV.fin (y e') : FV K) = FV.nan from rfl, hn]
  have hf' : ∀ z, f (FV.fin z - FV.fin (y e')) = FV.fin (g z (y e')) := fun z => hf z _
  exact ensembleAt_skipna (f := fun z => f (z - FV.fin (y e'))) (g := fun z => g z (y e')) (hE.members e' he') hf' hn' hne

end values

section real
variable {agg : Aggregator L (FV ℝ)} {p t : Vars (StatVar L (FV ℝ))} {v : String} {a b : StatVar L (FV ℝ)} {d : Dim} {sk : Bool}
  {e : Dim → L} {cs : Finset (Dim → L)} {w : (Dim → L) → ℝ} {M : (Dim → L) → Finset L} {x : (Dim → L) → L → ℝ} {y : (Dim → L) → ℝ} {X : DA L (FV ℝ)}
  {skip : Bool} {suffix : Option String} {tr : InputTransform L ℝ}
  (hp : IsDict p) (ht : IsDict t) (ha : (v, a) ∈ p) (hb : (v, b) ∈ t) (hd : d ∈ a.arr.dims) (hE : EnsembleOver sk d a b cs M x y) (hw : WeightsOk cs w)
include hp ht ha hb hd hE hw

theorem errAt_mean {e' : Dim → L} (he' : e' ∈ cs) : errAt (a.reduce d (npMean sk)) b e' = eMean (M e') (x e') - y e' := by
  unfold errAt
  rw [hE.target e' he', show (a.reduce d (npMean sk)).arr.val e' = _ from npMean_at (hE.members e' he') (Finset.card_pos.mp (by have := hE.two e' he'; omega))]
  rfl

theorem em_bias (htr : ensembleMean "predictions" d sk skip = .ok tr) (hA : AveragedOver agg (error (a.reduce d (npMean sk)) b) e cs w)
    (hX : ValueOf (wrappedMetric errorStatistic.toMetric [tr] suffix) agg p t v X) : X.val e = FV.fin (cellMean cs w (fun e' => eMean (M e') (x e') - y e')) := by
  obtain ⟨q, u, h1, h2, h3, h4, h5⟩ := ensembleMean_split (by simp [Statistic.toMetric]) htr hp ht ha hb hd hX
  rw [C22_bias_value h1 h2 h3 h4 hA.evaluated (hA.good hw) h5, hA.wmean]
  exact congrArg FV.fin (cellMean_congr (fun e' he' => errAt_mean hp ht ha hb hd hE hw he'))

theorem em_mae (htr : ensembleMean "predictions" d sk skip = .ok tr) (hA : AveragedOver agg (error (a.reduce d (npMean sk)) b) e cs w)
    (hX : ValueOf (wrappedMetric absoluteErrorStatistic.toMetric [tr] suffix) agg p t v X) : X.val e = FV.fin (cellMean cs w (fun e' => |eMean (M e') (x e') - y e'|)) := by
  obtain ⟨q, u, h1, h2, h3, h4, h5⟩ := ensembleMean_split (by simp [Statistic.toMetric]) htr hp ht ha hb hd hX
  rw [C22_mae_value h1 h2 h3 h4 hA.evaluated (hA.good hw) h5, hA.wmean]
  exact congrArg FV.fin (cellMean_congr (fun e' he' => by rw [errAt_mean hp ht ha hb hd hE hw he']))

theorem em_mse (htr : ensembleMean "predictions" d sk skip = .ok tr) (hA : AveragedOver agg (error (a.reduce d (npMean sk)) b) e cs w)
    (hX : ValueOf (wrappedMetric squaredErrorStatistic.toMetric [tr] suffix) agg p t v X) : X.val e = FV.fin (cellMean cs w (fun e' => (eMean (M e') (x e') - y e') ^ 2)) := by
  obtain ⟨q, u, h1, h2, h3, h4, h5⟩ := ensembleMean_split (by simp [Statistic.toMetric]) htr hp ht ha hb hd hX
  rw [C22_mse_value h1 h2 h3 h4 hA.evaluated (hA.good hw) h5, hA.wmean]
  exact congrArg FV.fin (cellMean_congr (fun e' he' => by rw [errAt_mean hp ht ha hb hd hE hw he']))

theorem each_bias (hA : AveragedOver agg ((error a b).reduce d (npMean sk)) e cs w)
    (hX : ValueOf (ensembleAveragedMetric d sk errorStatistic.toMetric) agg p t v X) : X.val e = FV.fin (cellMean cs w (fun e' => eMean (M e') (fun l => x e' l - y e'))) :=
  ensembleAveraged_value hp ht ha hb hA hw (fun e' he' => zipped_mean hE hd id (g := fun z u => z - u) (fun z u => FV.fin_sub_fin z u) rfl he') hX

theorem each_mae (hA : AveragedOver agg ((absoluteError a b).reduce d (npMean sk)) e cs w)
    (hX : ValueOf (ensembleAveragedMetric d sk absoluteErrorStatistic.toMetric) agg p t v X) : X.val e = FV.fin (cellMean cs w (fun e' => eMean (M e') (fun l => |x e' l - y e'|))) :=
  ensembleAveraged_value hp ht ha hb hA hw (fun e' he' => zipped_mean hE hd FV.abs (g := fun z u => |z - u|) (fun z u => by rw [FV.fin_sub_fin]; rfl) rfl he') hX

theorem each_mse (hA : AveragedOver agg ((squaredError a b).reduce d (npMean sk)) e cs w)
    (hX : ValueOf (ensembleAveragedMetric d sk squaredErrorStatistic.toMetric) agg p t v X) : X.val e = FV.fin (cellMean cs w (fun e' => eMean (M e') (fun l => (x e' l - y e') ^ 2))) :=
  ensembleAveraged_value hp ht ha hb hA hw (fun e' he' => zipped_mean hE hd FV.sq (g := fun z u => (z - u) ^ 2) (fun z u => by rw [FV.fin_sub_fin, FV.sq, FV.fin_mul_fin, pow_two]) rfl he') hX

theorem variance_value {s : StatVar L (FV ℝ)} (hs : ensembleVariance d sk a b = .ok s) (hA : AveragedOver agg s e cs w)
    (hX : ValueOf (ensembleVarianceStatistic d sk).toMetric agg p t v X) : X.val e = FV.fin (cellMean cs w (fun e' => eVar (M e') (x e'))) := by
  rw [mean_statOfE hp ht ha hb (valueOf_statistic hX) hs hA.evaluated (hA.good hw) (fun e' he' => (C32_variance hs (hE.members e' he') (hE.two e' he')).1), hA.wmean]

theorem unbiased_value {s : StatVar L (FV ℝ)} (hs : unbiasedMSE d sk a b = .ok s) (hA : AveragedOver agg s e cs w)
    (hX : ValueOf (unbiasedMSEStatistic d sk).toMetric agg p t v X) :
    X.val e = FV.fin (cellMean cs w (fun e' => (eMean (M e') (x e') - y e') ^ 2 - eVar (M e') (x e') / (M e').card)) := by
  rw [mean_statOfE hp ht ha hb (valueOf_statistic hX) hs hA.evaluated (hA.good hw) (fun e' he' => C32_unbiased hE.noMember hs (hE.members e' he') (hE.two e' he') (hE.target e' he')), hA.wmean]
  exact congrArg FV.fin (cellMean_congr (fun e' he' => (C32_pairs (hE.two e' he') _ _).symm))

theorem em_rmse (htr : ensembleMean "predictions" d sk skip = .ok tr) (hA : AveragedOver agg (error (a.reduce d (npMean sk)) b) e cs w)
    (hX : ValueOf (wrappedMetric rmse [tr] suffix) agg p t v X) : X.val e = FV.fin (Real.sqrt (cellMean cs w (fun e' => (eMean (M e') (x e') - y e') ^ 2))) := by
  obtain ⟨q, u, h1, h2, h3, h4, h5⟩ := ensembleMean_split (by simp [rmse, perVariableMetric]) htr hp ht ha hb hd hX
  rw [C22_rmse_value h1 h2 h3 h4 hA.evaluated (hA.good hw) h5, hA.wmean]
  exact congrArg (fun z => FV.fin (Real.sqrt z)) (cellMean_congr (fun e' he' => by rw [errAt_mean hp ht ha hb hd hE hw he']))

theorem each_rmse (hA : AveragedOver agg ((squaredError a b).reduce d (npMean sk)) e cs w)
    (hX : ValueOf (ensembleAveragedMetric d sk rmse) agg p t v X) : X.val e = FV.fin (Real.sqrt (cellMean cs w (fun e' => eMean (M e') (fun l => (x e' l - y e') ^ 2)))) := by
  have hX' : ValueOf (metric1 ("SquaredError", ensembleAveragedStatistic d sk squaredErrorStatistic) (fun z => z.map FV.sqrt)) agg p t v X := hX
  obtain ⟨y1, m1, rfl⟩ := valueOf_metric1 hX'
  have hv : y1.val e = _ := ensembleAveraged_mean hp ht ha hb hA hw
    (fun e' he' => zipped_mean hE hd FV.sq (g := fun z u => (z - u) ^ 2) (fun z u => by rw [FV.fin_sub_fin, FV.sq, FV.fin_mul_fin, pow_two]) rfl he') m1
  simp only [map]
  rw [hv, FV.sqrt, if_neg]
  refine not_lt.mpr (div_nonneg (Finset.sum_nonneg (fun e' he' => mul_nonneg ?_ (hw.1 e' he'))) hw.2.le)
  exact div_nonneg (Finset.sum_nonneg (fun _ _ => sq_nonneg _)) (Nat.cast_nonneg _)

/-! ### How the scores fit together -/

/-- **C98** Where all cells have `n` members, the MSE of the ensemble mean and the ensemble variance make up the MSE averaged over the members: `MSE(mean) + (n - 1) / n * variance = mean MSE`. -/
theorem C98_mse_split {n : ℕ} (hN : ∀ e' ∈ cs, (M e').card = n) (htr : ensembleMean "predictions" d sk skip = .ok tr) {s : StatVar L (FV ℝ)} (hs : ensembleVariance d sk a b = .ok s)
    (A1 : AveragedOver agg (error (a.reduce d (npMean sk)) b) e cs w) (A2 : AveragedOver agg s e cs w) (A3 : AveragedOver agg ((squaredError a b).reduce d (npMean sk)) e cs w) {X1 X2 X3 : DA L (FV ℝ)}
    (h1 : ValueOf (wrappedMetric squaredErrorStatistic.toMetric [tr] suffix) agg p t v X1) (h2 : ValueOf (ensembleVarianceStatistic d sk).toMetric agg p t v X2)
    (h3 : ValueOf (ensembleAveragedMetric d sk squaredErrorStatistic.toMetric) agg p t v X3) :
    ∃ mse var each, X1.val e = FV.fin mse ∧ X2.val e = FV.fin var ∧ X3.val e = FV.fin each ∧ mse + ((n : ℝ) - 1) / n * var = each := by
  refine ⟨_, _, _, em_mse hp ht ha hb hd hE hw htr A1 h1, variance_value hp ht ha hb hd hE hw hs A2 h2, each_mse hp ht ha hb hd hE hw A3 h3, ?_⟩
  rw [← cellMean_smul, ← cellMean_add]
  refine cellMean_congr (fun e' he' => ?_)
  have := eMean_sq (x := x e') (y := y e') (hE.two e' he')
  rw [hN e' he'] at this
  exact this

/-- **C98** Where all cells have `n` members, the unbiased MSE of the ensemble mean is its MSE without the share `variance / n` of the sampling error. -/
theorem C98_unbiased_split {n : ℕ} (hN : ∀ e' ∈ cs, (M e').card = n) (htr : ensembleMean "predictions" d sk skip = .ok tr) {s s' : StatVar L (FV ℝ)} (hs : ensembleVariance d sk a b = .ok s)
    (hs' : unbiasedMSE d sk a b = .ok s') (A1 : AveragedOver agg (error (a.reduce d (npMean sk)) b) e cs w) (A2 : AveragedOver agg s e cs w) (A3 : AveragedOver agg s' e cs w) {X1 X2 X3 : DA L (FV ℝ)}
    (h1 : ValueOf (wrappedMetric squaredErrorStatistic.toMetric [tr] suffix) agg p t v X1) (h2 : ValueOf (ensembleVarianceStatistic d sk).toMetric agg p t v X2)
    (h3 : ValueOf (unbiasedMSEStatistic d sk).toMetric agg p t v X3) :
    ∃ mse var unbiased, X1.val e = FV.fin mse ∧ X2.val e = FV.fin var ∧ X3.val e = FV.fin unbiased ∧ unbiased + var / n = mse := by
  refine ⟨_, _, _, em_mse hp ht ha hb hd hE hw htr A1 h1, variance_value hp ht ha hb hd hE hw hs A2 h2, unbiased_value hp ht ha hb hd hE hw hs' A3 h3, ?_⟩
  rw [div_eq_inv_mul, ← cellMean_smul, ← cellMean_add]
  refine cellMean_congr (fun e' he' => ?_)
  rw [hN e' he']
  ring

/-- **C98** The MSE of the ensemble mean is not above the MSE averaged over the members. -/
theorem C98_mean_beats_members (htr : ensembleMean "predictions" d sk skip = .ok tr)
    (A1 : AveragedOver agg (error (a.reduce d (npMean sk)) b) e cs w) (A3 : AveragedOver agg ((squaredError a b).reduce d (npMean sk)) e cs w) {X1 X3 : DA L (FV ℝ)}
    (h1 : ValueOf (wrappedMetric squaredErrorStatistic.toMetric [tr] suffix) agg p t v X1)
    (h3 : ValueOf (ensembleAveragedMetric d sk squaredErrorStatistic.toMetric) agg p t v X3) :
    ∃ mse each, X1.val e = FV.fin mse ∧ X3.val e = FV.fin each ∧ mse ≤ each := by
  refine ⟨_, _, em_mse hp ht ha hb hd hE hw htr A1 h1, each_mse hp ht ha hb hd hE hw A3 h3, cellMean_mono hw (fun e' he' => ?_)⟩
  have := eMean_sq (x := x e') (y := y e') (hE.two e' he')
  have h1 : (1 : ℝ) ≤ (M e').card := by exact_mod_cast (show 1 ≤ (M e').card by have := hE.two e' he'; omega)
  have h2 : 0 ≤ (((M e').card : ℝ) - 1) / (M e').card * eVar (M e') (x e') := mul_nonneg (div_nonneg (by linarith) (by linarith)) (eVar_nonneg (hE.two e' he'))
  linarith

/-- **C98** The unbiased MSE of the ensemble mean is not above its MSE. -/
theorem C98_unbiased_le (htr : ensembleMean "predictions" d sk skip = .ok tr) {s' : StatVar L (FV ℝ)}
    (hs' : unbiasedMSE d sk a b = .ok s') (A1 : AveragedOver agg (error (a.reduce d (npMean sk)) b) e cs w) (A3 : AveragedOver agg s' e cs w) {X1 X3 : DA L (FV ℝ)}
    (h1 : ValueOf (wrappedMetric squaredErrorStatistic.toMetric [tr] suffix) agg p t v X1) (h3 : ValueOf (unbiasedMSEStatistic d sk).toMetric agg p t v X3) :
    ∃ mse unbiased, X1.val e = FV.fin mse ∧ X3.val e = FV.fin unbiased ∧ unbiased ≤ mse := by
  refine ⟨_, _, em_mse hp ht ha hb hd hE hw htr A1 h1, unbiased_value hp ht ha hb hd hE hw hs' A3 h3, cellMean_mono hw (fun e' he' => ?_)⟩
  have : 0 ≤ eVar (M e') (x e') / (M e').card := div_nonneg (eVar_nonneg (hE.two e' he')) (Nat.cast_nonneg _)
  linarith

/-- **C98** The MAE of the ensemble mean is not above the MAE averaged over the members. -/
theorem C98_mae (htr : ensembleMean "predictions" d sk skip = .ok tr)
    (A1 : AveragedOver agg (error (a.reduce d (npMean sk)) b) e cs w) (A3 : AveragedOver agg ((absoluteError a b).reduce d (npMean sk)) e cs w) {X1 X3 : DA L (FV ℝ)}
    (h1 : ValueOf (wrappedMetric absoluteErrorStatistic.toMetric [tr] suffix) agg p t v X1)
    (h3 : ValueOf (ensembleAveragedMetric d sk absoluteErrorStatistic.toMetric) agg p t v X3) :
    ∃ mae each, X1.val e = FV.fin mae ∧ X3.val e = FV.fin each ∧ mae ≤ each :=
  ⟨_, _, em_mae hp ht ha hb hd hE hw htr A1 h1, each_mae hp ht ha hb hd hE hw A3 h3, cellMean_mono hw (fun e' he' => eMean_abs (hE.two e' he'))⟩

/-- **C98** The bias of the ensemble mean is the bias averaged over the members. -/
theorem C98_bias (htr : ensembleMean "predictions" d sk skip = .ok tr)
    (A1 : AveragedOver agg (error (a.reduce d (npMean sk)) b) e cs w) (A3 : AveragedOver agg ((error a b).reduce d (npMean sk)) e cs w) {X1 X3 : DA L (FV ℝ)}
    (h1 : ValueOf (wrappedMetric errorStatistic.toMetric [tr] suffix) agg p t v X1)
    (h3 : ValueOf (ensembleAveragedMetric d sk errorStatistic.toMetric) agg p t v X3) :
    ∃ bias, X1.val e = FV.fin bias ∧ X3.val e = FV.fin bias := by
  refine ⟨_, em_bias hp ht ha hb hd hE hw htr A1 h1, ?_⟩
  rw [each_bias hp ht ha hb hd hE hw A3 h3]
  exact congrArg FV.fin (cellMean_congr (fun e' he' => (eMean_sub (hE.two e' he')).symm))

/-- **C98** The RMSE of the ensemble mean is not above the RMSE averaged over the members (the root of the averaged squared error). -/
theorem C98_rmse (htr : ensembleMean "predictions" d sk skip = .ok tr)
    (A1 : AveragedOver agg (error (a.reduce d (npMean sk)) b) e cs w) (A3 : AveragedOver agg ((squaredError a b).reduce d (npMean sk)) e cs w) {X1 X3 : DA L (FV ℝ)}
    (h1 : ValueOf (wrappedMetric rmse [tr] suffix) agg p t v X1) (h3 : ValueOf (ensembleAveragedMetric d sk rmse) agg p t v X3) :
    ∃ r each, X1.val e = FV.fin r ∧ X3.val e = FV.fin each ∧ r ≤ each := by
  refine ⟨_, _, em_rmse hp ht ha hb hd hE hw htr A1 h1, each_rmse hp ht ha hb hd hE hw A3 h3, Real.sqrt_le_sqrt (cellMean_mono hw (fun e' he' => ?_))⟩
  have := eMean_sq (x := x e') (y := y e') (hE.two e' he')
  have h1 : (1 : ℝ) ≤ (M e').card := by exact_mod_cast (show 1 ≤ (M e').card by have := hE.two e' he'; omega)
  have h2 : 0 ≤ (((M e').card : ℝ) - 1) / (M e').card * eVar (M e') (x e') := mul_nonneg (div_nonneg (by linarith) (by linarith)) (eVar_nonneg (hE.two e' he'))
  linarith

theorem crps_over {argsort : List (FV ℝ) → List ℕ} (harg : IsArgsort argsort) {order : List L} (ho : order.Nodup) (hord : order.toFinset = a.arr.coords d) (hwa : a.arr.WF) {useSort fair : Bool}
    {s1 s2 : StatVar L (FV ℝ)} (k1 : crpsSkill d sk a b = .ok s1) (k2 : crpsSpread argsort order d useSort fair "predictions" sk a b = .ok s2) (A1 : AveragedOver agg s1 e cs w)
    (A2 : AveragedOver agg s2 e cs w) (hX : ValueOf (crpsEnsemble argsort order d useSort fair sk) agg p t v X) :
    X.val e = FV.fin (cellMean cs w (fun e' => eCRPS fair (M e') (x e') (y e'))) := by
  rw [C31_value harg ho hp ht ha hb hwa hE.wf hE.noMember hord k1 k2 A1.evaluated A2.evaluated (A1.good hw) (fun e' he' => by rw [A2.weights e' he', A1.weights e' he']) hE.members hE.two hE.target hX,
    A1.wmean]

/-- **C98** The CRPS is not above the MAE averaged over the members, fair or not, sorted or not; the fair CRPS is not above the unfair one. -/
theorem C98_crps {argsort : List (FV ℝ) → List ℕ} (harg : IsArgsort argsort) {order : List L} (ho : order.Nodup) (hord : order.toFinset = a.arr.coords d) (hwa : a.arr.WF) {useSort useSort' : Bool}
    {s1 s2 s3 : StatVar L (FV ℝ)} (k1 : crpsSkill d sk a b = .ok s1) (k2 : crpsSpread argsort order d useSort true "predictions" sk a b = .ok s2)
    (k3 : crpsSpread argsort order d useSort' false "predictions" sk a b = .ok s3) (A1 : AveragedOver agg s1 e cs w)
    (A2 : AveragedOver agg s2 e cs w) (A3 : AveragedOver agg s3 e cs w) (A4 : AveragedOver agg ((absoluteError a b).reduce d (npMean sk)) e cs w) {X1 X2 X3 : DA L (FV ℝ)}
    (h1 : ValueOf (crpsEnsemble argsort order d useSort true sk) agg p t v X1) (h2 : ValueOf (crpsEnsemble argsort order d useSort' false sk) agg p t v X2)
    (h3 : ValueOf (ensembleAveragedMetric d sk absoluteErrorStatistic.toMetric) agg p t v X3) :
    ∃ fair unfair each, X1.val e = FV.fin fair ∧ X2.val e = FV.fin unfair ∧ X3.val e = FV.fin each ∧ fair ≤ unfair ∧ unfair ≤ each := by
  have hs : ∀ e' ∈ cs, 0 ≤ eSpread false (M e') (x e') ∧ eSpread false (M e') (x e') ≤ eSpread true (M e') (x e') := fun e' he' => by
    have h1 : (1 : ℝ) < (M e').card := by exact_mod_cast (show 1 < (M e').card by have := hE.two e' he'; omega)
    have h0 : 0 ≤ ∑ i ∈ M e', ∑ j ∈ M e', |x e' i - x e' j| := Finset.sum_nonneg (fun _ _ => Finset.sum_nonneg (fun _ _ => abs_nonneg _))
    unfold eSpread
    refine ⟨div_nonneg h0 (by simp; positivity), div_le_div_of_nonneg_left h0 ?_ ?_⟩
    · simp only [if_true]; nlinarith
    · simp only [if_true, Bool.false_eq_true, if_false]; nlinarith
  refine ⟨_, _, _, crps_over hp ht ha hb hd hE hw harg ho hord hwa k1 k2 A1 A2 h1, crps_over hp ht ha hb hd hE hw harg ho hord hwa k1 k3 A1 A3 h2, each_mae hp ht ha hb hd hE hw A4 h3,
    cellMean_mono hw (fun e' he' => ?_), cellMean_mono hw (fun e' he' => ?_)⟩
  · have := (hs e' he').2
    unfold eCRPS; linarith
  · have := (hs e' he').1
    unfold eCRPS eSkill eMean; linarith

end real

/-! ### The same cells and weights -/

theorem AveragedOver.other {K : Type} [Field K] [LinearOrder K] [IsStrictOrderedRing K] {agg : Aggregator L (FV K)} {s s' : StatVar L (FV K)} {e : Dim → L} {cs : Finset (Dim → L)}
    (E : Evaluated agg s e cs) (hs : agg.skipna = false) (hd : s'.arr.dims = s.arr.dims) (hc : s'.arr.coords = s.arr.coords) (hm : s'.mask = s.mask)
    (hf : ∀ e' ∈ cs, ∃ r, s'.arr.val e' = FV.fin r) : AveragedOver agg s' e cs (cellWeight agg s) := by
  obtain ⟨E', hw⟩ := E.transfer (s' := s') hd hc hm (fun h => by rw [hs] at h; cases h) (fun e' he' _ => by obtain ⟨r, hr⟩ := hf e' he'; rw [hr]; rfl)
  exact ⟨E', fun e' _ => by rw [hw]⟩

/-- **C98** The scores above are averaged over the same cells with the same weights if the target has the dimensions and labels of the forecast without the members and neither has a mask (NaN not
skipped by the aggregation). The unbiased MSE is included for `skipna_ensemble`; without it the model loses the labels of dimensions that the array does not have, on which a general weighting may
depend. -/
theorem C98_same_cells {agg : Aggregator L (FV ℝ)} {a b : StatVar L (FV ℝ)} {d : Dim} {sk : Bool} {e : Dim → L} {cs : Finset (Dim → L)} {M : (Dim → L) → Finset L} {x : (Dim → L) → L → ℝ}
    {y : (Dim → L) → ℝ} (hs : agg.skipna = false) (ma : a.mask = none) (mb : b.mask = none) (hd : d ∈ a.arr.dims) (hdb : b.arr.dims = a.arr.dims.erase d) (hcb : b.arr.coords = a.arr.coords)
    (hE : EnsembleOver sk d a b cs M x y) (E : Evaluated agg (error (a.reduce d (npMean sk)) b) e cs) :
    let w := cellWeight agg (error (a.reduce d (npMean sk)) b)
    AveragedOver agg (error (a.reduce d (npMean sk)) b) e cs w ∧ AveragedOver agg ((error a b).reduce d (npMean sk)) e cs w ∧ AveragedOver agg ((absoluteError a b).reduce d (npMean sk)) e cs w ∧
    AveragedOver agg ((squaredError a b).reduce d (npMean sk)) e cs w ∧ (∀ s, ensembleVariance d sk a b = .ok s → AveragedOver agg s e cs w) ∧
    (sk = true → ∀ s, unbiasedMSE d sk a b = .ok s → AveragedOver agg s e cs w) ∧ (∀ s, crpsSkill d sk a b = .ok s → AveragedOver agg s e cs w) := by
  have hed : (a.arr.dims ∪ a.arr.dims.erase d).erase d = a.arr.dims.erase d := by
    rw [Finset.union_eq_left.mpr (Finset.erase_subset _ _)]
  have j0 : (error (a.reduce d (npMean sk)) b).arr.dims = a.arr.dims.erase d := by
    simp [error, StatVar.zipWith, zipWith, StatVar.reduce, hdb]
  have j1 : (error (a.reduce d (npMean sk)) b).arr.coords = a.arr.coords := by
    funext k
    simp [error, StatVar.zipWith, zipWith, StatVar.reduce, joinCoords, hdb, hcb]
  have j2 : (error (a.reduce d (npMean sk)) b).mask = none := by simp [error, StatVar.zipWith, StatVar.reduce, ma, mb, combineMask, dropMask]
  have c0 : joinCoords a.arr b.arr = a.arr.coords := by
    funext k
    simp [joinCoords, hcb]
  have dims : ∀ f : FV ℝ → FV ℝ, ((StatVar.map f (error a b)).reduce d (npMean sk)).arr.dims = (error (a.reduce d (npMean sk)) b).arr.dims := fun f => by
    rw [j0]
    simp [StatVar.reduce, StatVar.map, map, error, StatVar.zipWith, zipWith, hdb, hed]
  have coords : ∀ f : FV ℝ → FV ℝ, ((StatVar.map f (error a b)).reduce d (npMean sk)).arr.coords = (error (a.reduce d (npMean sk)) b).arr.coords := fun f => by
    rw [j1]
    simp [StatVar.reduce, StatVar.map, map, error, StatVar.zipWith, zipWith, c0]
  have mask : ∀ f : FV ℝ → FV ℝ, ((StatVar.map f (error a b)).reduce d (npMean sk)).mask = (error (a.reduce d (npMean sk)) b).mask := fun f => by
    rw [j2]
    simp [StatVar.reduce, StatVar.map, error, StatVar.zipWith, ma, mb, combineMask, dropMask]
  have habs : AveragedOver agg ((absoluteError a b).reduce d (npMean sk)) e cs (cellWeight agg (error (a.reduce d (npMean sk)) b)) :=
    AveragedOver.other E hs (dims FV.abs) (coords FV.abs) (mask FV.abs) (fun e' he' => ⟨_, zipped_mean hE hd FV.abs (g := fun z u => |z - u|) (fun z u => by rw [FV.fin_sub_fin]; rfl) rfl he'⟩)
  refine ⟨⟨E, fun _ _ => rfl⟩, AveragedOver.other E hs (dims id) (coords id) (mask id) (fun e' he' => ⟨_, zipped_mean hE hd id (g := fun z u => z - u) (fun z u => FV.fin_sub_fin z u) rfl he'⟩),
    habs, AveragedOver.other E hs (dims FV.sq) (coords FV.sq) (mask FV.sq)
      (fun e' he' => ⟨_, zipped_mean hE hd FV.sq (g := fun z u => (z - u) ^ 2) (fun z u => by rw [FV.fin_sub_fin, FV.sq, FV.fin_mul_fin, pow_two]) rfl he'⟩), ?_, ?_, ?_⟩
  · intro s h
    have hf : ∀ e' ∈ cs, ∃ r, s.arr.val e' = FV.fin r := fun e' he' => ⟨_, (C32_variance h (hE.members e' he') (hE.two e' he')).1⟩
    unfold ensembleVariance StatVar.varDim at h
    rw [if_pos hd, Except.ok.injEq] at h
    refine AveragedOver.other E hs ?_ ?_ ?_ hf <;> rw [← h]
    · rw [j0]; rfl
    · rw [j1]; rfl
    · rw [j2]; simp [StatVar.reduce, ma, dropMask]
  · intro hsk s h
    have hf : ∀ e' ∈ cs, ∃ r, s.arr.val e' = FV.fin r := fun e' he' => ⟨_, C32_unbiased hE.noMember h (hE.members e' he') (hE.two e' he') (hE.target e' he')⟩
    unfold unbiasedMSE StatVar.meanDim StatVar.varDim StatVar.sizeDim at h
    simp only [if_pos hd, if_neg hE.noMember, bind, Except.bind, pure, Except.pure, Except.ok.injEq, hsk, if_true] at h
    subst hsk
    refine AveragedOver.other E hs ?_ ?_ ?_ hf <;> rw [← h]
    · rw [j0]; simp [StatVar.map, map, StatVar.zipWith, zipWith, StatVar.reduce, hdb]
    · rw [j1]; funext k; simp [StatVar.map, map, StatVar.zipWith, zipWith, StatVar.reduce, joinCoords, hdb, hcb]
    · rw [j2]; simp [StatVar.map, StatVar.zipWith, StatVar.reduce, ma, mb, dropMask, combineMask]
  · intro s h
    unfold crpsSkill at h
    rw [if_neg hE.noMember] at h
    unfold StatVar.meanDim at h
    split at h
    · rw [← Except.ok.inj h]; exact habs
    · cases h

end WBX
