import Verif.Props.DimNames
import Verif.Model.Ensemble
import Verif.Model.Categorical

/-!
# C104: ensembles whose member dimension is called otherwise
-/

set_option linter.unusedSectionVars false

namespace WBX
open DA Aggregator

section reductions
variable {L : Type} [DecidableEq L] {σ : Equiv.Perm Dim}

theorem reduce_redim {V W : Type} (f : Finset L → (L → V) → W) (d : Dim) (a : StatVar L V) : (a.redim σ).reduce (σ d) f = (a.reduce d f).redim σ := by
  obtain ⟨a, m⟩ := a
  unfold StatVar.reduce StatVar.redim
  dsimp only
  congr 1
  · refine DA.extAll ?_ rfl ?_
    · simp only [DA.redim, Finset.map_erase, Equiv.coe_toEmbedding]
    · funext e
      show f ((a.redim σ).coords (σ d)) (fun l => a.val (fun k => setLabel e (σ d) l (σ k))) = f (a.coords d) (fun l => a.val (setLabel (fun k => e (σ k)) d l))
      rw [redim_coords]
      simp only [set_redim]
  · rcases m with _ | m
    · rfl
    · simp only [Option.map_some, dropMask, mem_redim]
      split <;> rfl

theorem rename_redim {V : Type} (d d' : Dim) (a : DA L V) : (a.redim σ).rename (σ d) (σ d') = (a.rename d d').redim σ := by
  unfold DA.rename
  simp only [mem_redim]
  split
  · refine DA.extAll ?_ ?_ ?_
    · simp only [DA.redim, Finset.map_insert, Finset.map_erase, Equiv.coe_toEmbedding]
    · funext k
      simp only [DA.redim, Equiv.symm_apply_apply, Equiv.symm_apply_eq]
    · funext e
      show a.val (fun k => setLabel e (σ d) (e (σ d')) (σ k)) = a.val (setLabel (fun k => e (σ k)) d (e (σ d')))
      rw [set_redim]
  · rfl

theorem redim_sv_rename {V : Type} (d d' : Dim) (a : StatVar L V) : (a.redim σ).rename (σ d) (σ d') = (a.rename d d').map (StatVar.redim σ) := by
  obtain ⟨a, m⟩ := a
  unfold StatVar.rename
  simp only [StatVar.redim, mem_redim, rename_redim]
  split
  · rcases m with _ | m
    · rfl
    · simp only [Option.map_some, rename_redim]; rfl
  · rfl

theorem redim_sv_dims {V : Type} (d : Dim) (a : StatVar L V) : σ d ∈ (a.redim σ).arr.dims ↔ d ∈ a.arr.dims := mem_redim σ a.arr

theorem redim_sv_coords {V : Type} (d : Dim) (a : StatVar L V) : (a.redim σ).arr.coords (σ d) = a.arr.coords d := redim_coords σ d a.arr

variable {K : Type} [Field K] [LinearOrder K] [IsStrictOrderedRing K] {d : Dim}

theorem redim_meanDim (skipna : Bool) (a : StatVar L (FV K)) : (a.redim σ).meanDim skipna (σ d) = (a.meanDim skipna d).map (StatVar.redim σ) := by
  unfold StatVar.meanDim
  simp only [redim_sv_dims, reduce_redim]
  split <;> rfl

theorem redim_varDim (skipna : Bool) (a : StatVar L (FV K)) : (a.redim σ).varDim skipna (σ d) = (a.varDim skipna d).map (StatVar.redim σ) := by
  unfold StatVar.varDim
  simp only [redim_sv_dims, reduce_redim]
  split <;> rfl

theorem redim_sv_scalar (x : FV K) : (⟨DA.scalar x, none⟩ : StatVar L (FV K)).redim σ = ⟨DA.scalar x, none⟩ := by
  unfold StatVar.redim
  rw [redim_scalar]
  rfl

theorem redim_sizeDim (skipna : Bool) (a : StatVar L (FV K)) : (a.redim σ).sizeDim skipna (σ d) = (a.sizeDim skipna d).map (StatVar.redim σ) := by
  unfold StatVar.sizeDim
  simp only [redim_sv_dims, reduce_redim, redim_sv_coords]
  split
  · cases skipna
    · exact congrArg Except.ok (redim_sv_scalar _).symm
    · rfl
  · rfl

theorem ensembleVariance_redims (skipna : Bool) : (ensembleVarianceStatistic (L := L) (K := K) d skipna).Redims σ (ensembleVarianceStatistic (σ d) skipna) := statOfE_redims (fun a _ => redim_varDim skipna a)

theorem unbiasedMSE_redims (skipna : Bool) : (unbiasedMSEStatistic (L := L) (K := K) d skipna).Redims σ (unbiasedMSEStatistic (σ d) skipna) := by
  refine statOfE_redims (fun p t => ?_)
  unfold unbiasedMSE
  rw [redim_meanDim, redim_varDim, redim_sizeDim, redim_meanDim, redim_varDim, redim_sizeDim]
  refine bind_image (fun pm => bind_image (fun pv => bind_image (fun pn => ?_)))
  simp only [redim_sv_dims]
  split
  · refine bind_image (fun tm => bind_image (fun tv => bind_image (fun tn => ?_)))
    simp only [redim_sv_zip, redim_sv_map]
    rfl
  · simp only [redim_sv_zip, redim_sv_map]
    rfl

theorem crpsSkill_redims (skipna : Bool) (h : σ (d ++ "_PSEUDO_FOR_TARGETS") = σ d ++ "_PSEUDO_FOR_TARGETS") : (crpsSkillStatistic (L := L) (K := K) d skipna).Redims σ (crpsSkillStatistic (σ d) skipna) := by
  refine statOfE_redims (fun p t => ?_)
  unfold crpsSkill
  dsimp only
  rw [← h, redim_sv_rename, redim_sv_zip, redim_sv_map, redim_meanDim]
  simp only [redim_sv_dims]
  split
  · refine bind_image (fun t' => ?_)
    simp only [redim_sv_zip, redim_sv_map, reduce_redim, redim_sv_dims]
    split <;> rfl
  · rfl

theorem rank_redim (argsort : List (FV K) → List ℕ) (order : List L) (a : StatVar L (FV K)) : rankDA argsort order (σ d) (a.redim σ) = (rankDA argsort order d a).redim σ := by
  unfold rankDA StatVar.redim
  dsimp only
  congr 1
  refine DA.extAll rfl rfl ?_
  funext e
  simp only [DA.redim, set_redim]

theorem crpsSpread_redims (argsort : List (FV K) → List ℕ) (order : List L) (useSort fair : Bool) (which : String) (skipna : Bool) (h : σ "ensemble_dim_2" = "ensemble_dim_2") :
    (crpsSpreadStatistic argsort order d useSort fair which skipna).Redims σ (crpsSpreadStatistic argsort order (σ d) useSort fair which skipna) := by
  refine statOfE_redims (fun p t => ?_)
  unfold crpsSpread
  have hw : whichArray which (p.redim σ) (t.redim σ) = (whichArray which p t).map (StatVar.redim σ) := by
    unfold whichArray
    split_ifs <;> rfl
  rw [hw]
  refine bind_image (fun da => ?_)
  rw [redim_sizeDim]
  refine bind_image (fun n => ?_)
  dsimp only
  rw [redim_sv_coords]
  have hr : (da.redim σ).rename (σ d) "ensemble_dim_2" = (da.rename d "ensemble_dim_2").map (StatVar.redim σ) := by
    have := redim_sv_rename (σ := σ) d "ensemble_dim_2" da
    rwa [h] at this
  split
  · rfl
  · split
    · split
      · rfl
      · rw [rank_redim, redim_sv_map, redim_sv_zip, redim_sv_map, redim_sv_zip, redim_meanDim]
        refine bind_image (fun m => ?_)
        rw [redim_sv_map, redim_sv_map, redim_sv_zip]
        rfl
    · rw [hr]
      refine bind_image (fun da2 => ?_)
      have hx : ∀ (f : Finset L → (L → FV K) → FV K) (s : StatVar L (FV K)), (s.redim σ).reduce "ensemble_dim_2" f = (s.reduce "ensemble_dim_2" f).redim σ := by
        intro f s
        have := reduce_redim (σ := σ) f "ensemble_dim_2" s
        rwa [h] at this
      simp only [redim_sv_zip, redim_sv_map, reduce_redim, hx]
      rfl

/-- **C104** The CRPS of an ensemble does not depend on what the member dimension is called, if the setting `ensemble_dim` is called so too and no dimension is called like the two dimensions
that the code makes itself. -/
theorem C104_crps (argsort : List (FV K) → List ℕ) (order : List L) (useSort fair skipna : Bool) (h : σ (d ++ "_PSEUDO_FOR_TARGETS") = σ d ++ "_PSEUDO_FOR_TARGETS") (h2 : σ "ensemble_dim_2" = "ensemble_dim_2") :
    (crpsEnsemble argsort order d useSort fair skipna).Redims σ (crpsEnsemble argsort order (σ d) useSort fair skipna) :=
  metric2_redims (crpsSkill_redims skipna h) (crpsSpread_redims argsort order useSort fair "predictions" skipna h2) (by formula_redims)

/-- **C104** Nor does the distance of two ensembles. -/
theorem C104_crps_distance (argsort : List (FV K) → List ℕ) (order order' : List L) (useSort fair skipna : Bool) (h : σ (d ++ "_PSEUDO_FOR_TARGETS") = σ d ++ "_PSEUDO_FOR_TARGETS")
    (h2 : σ "ensemble_dim_2" = "ensemble_dim_2") :
    (crpsEnsembleDistance argsort order order' d useSort fair skipna).Redims σ (crpsEnsembleDistance argsort order order' (σ d) useSort fair skipna) :=
  metric3_redims (crpsSkill_redims false h) (crpsSpread_redims argsort order useSort fair "predictions" skipna h2)
    (crpsSpread_redims argsort order' useSort fair "targets" false h2) (by formula_redims)

/-- **C104** Nor do the ensemble variance and the unbiased squared error of the ensemble mean. -/
theorem C104_moments (skipna : Bool) : ((ensembleVarianceStatistic (L := L) (K := K) d skipna).toMetric (M := DA L (FV K))).Redims σ (ensembleVarianceStatistic (σ d) skipna).toMetric ∧
    ((unbiasedMSEStatistic (L := L) (K := K) d skipna).toMetric (M := DA L (FV K))).Redims σ (unbiasedMSEStatistic (σ d) skipna).toMetric :=
  ⟨statistic_redims (ensembleVariance_redims skipna), statistic_redims (unbiasedMSE_redims skipna)⟩

/-- **C104** Nor does the ranked probability score depend on the name of the dimension of the bins. -/
theorem C104_rps (binDim : Dim) : ((rpsStatistic (L := L) (K := K) binDim).toMetric (M := DA L (FV K))).Redims σ (rpsStatistic (σ binDim)).toMetric := by
  refine statistic_redims (perVariable_redims (fun a b => ?_))
  unfold rankedProbabilityScore
  dsimp only
  rw [redim_sv_zip, redim_sv_map]
  have : ∀ s : StatVar L (FV K), (⟨DA.sumDim (σ binDim) ((s.redim σ).arr.map (fun x => if x.isnan then 0 else x)), (s.redim σ).mask⟩ : StatVar L (FV K)) =
      (⟨DA.sumDim binDim (s.arr.map (fun x => if x.isnan then 0 else x)), s.mask⟩ : StatVar L (FV K)).redim σ := by
    intro s
    unfold StatVar.redim
    dsimp only
    rw [redim_map, redim_sumDim]
  rw [this]
  simp only [redim_sv_dims]
  split <;> rfl

/-- **C104** Nor does the fraction of errors above thresholds. -/
theorem C104_exceedance (thresholds : DA L (FV K)) : ((errorExceedanceStatistic thresholds).toMetric (M := DA L (FV K))).Redims σ (errorExceedanceStatistic (thresholds.redim σ)).toMetric :=
  statistic_redims (statOf_redims (fun a b => by
    unfold errorExceedance
    dsimp only
    rw [redim_sv_bare, redim_sv_zip, redim_sv_map, redim_sv_zip, redim_sv_map, redim_sv_zip, redim_sv_map, redim_sv_zip]))

theorem eachMember_redims {s s' : FStatistic L K} (hs : s.Redims σ s') (skipna : Bool) : (ensembleAveragedStatistic d skipna s).Redims σ (ensembleAveragedStatistic (σ d) skipna s') := by
  intro p t
  show (s'.compute _ _ >>= fun r => _) = Except.map _ (s.compute p t >>= fun r => _)
  rw [hs p t]
  refine bind_image (fun r => ?_)
  unfold redimStats
  rw [List.mapM_map]
  refine mapM_image (fun kv _ => ?_)
  obtain ⟨k, o⟩ := kv
  rcases o with _ | a
  · rfl
  · show ((a.redim σ).meanDim skipna (σ d) >>= fun a' => _) = Except.map _ (a.meanDim skipna d >>= fun a' => _)
    rw [redim_meanDim]
    exact bind_image (fun a' => rfl)

/-- **C104** Nor does any metric averaged over the members, if the metric does not. -/
theorem C104_each_member {m m' : FMetric L K} (hm : m.Redims σ m') (skipna : Bool) : (ensembleAveragedMetric d skipna m).Redims σ (ensembleAveragedMetric (σ d) skipna m') := by
  refine ⟨?_, hm.formula⟩
  show List.Forall₂ _ (m.statistics.map _) (m'.statistics.map _)
  rw [List.forall₂_map_left_iff, List.forall₂_map_right_iff]
  exact hm.statistics.imp (fun ks ks' h => ⟨h.1, eachMember_redims h.2 skipna⟩)

end reductions

section roots
variable {L : Type} [DecidableEq L] {σ : Equiv.Perm Dim} {d : Dim}

/-- **C104** Nor do the spread-skill ratio, the unbiased root mean squared error and the root mean variance. -/
theorem C104_spread_skill (skipna : Bool) : (spreadSkillRatio (L := L) d skipna).Redims σ (spreadSkillRatio (σ d) skipna) ∧ (unbiasedRMSE (L := L) d skipna).Redims σ (unbiasedRMSE (σ d) skipna) ∧
    (ensembleRootMeanVariance (L := L) d skipna).Redims σ (ensembleRootMeanVariance (σ d) skipna) :=
  ⟨metric2_redims (ensembleVariance_redims skipna) (unbiasedMSE_redims skipna) (by formula_redims), metric1_redims (unbiasedMSE_redims skipna) (fun _ => rfl),
    metric1_redims (ensembleVariance_redims skipna) (fun _ => rfl)⟩

end roots
end WBX
