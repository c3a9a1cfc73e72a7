import Verif.Props.Relabel
import Verif.Model.Ensemble

/-!
# C102: ensembles with other member labels
-/

set_option linter.unusedSectionVars false

namespace WBX
open DA Aggregator

section reductions
variable {L : Type} [DecidableEq L] {ρ : Dim → Equiv.Perm L}

/-- A reduction that does not look at the labels. -/
def NaturalFn {V W : Type} (f : Finset L → (L → V) → W) : Prop := ∀ (σ : Equiv.Perm L) (C : Finset L) (x : L → V), f (C.map σ.toEmbedding) (fun l => x (σ.symm l)) = f C x

theorem back_label (e : Dim → L) (d : Dim) (l : L) : (fun k => (ρ k).symm (setLabel e d l k)) = setLabel (fun k => (ρ k).symm (e k)) d ((ρ d).symm l) := by
  have := back_set ρ e d ((ρ d).symm l)
  rwa [Equiv.apply_symm_apply] at this

theorem reduce_relabel {V W : Type} {f : Finset L → (L → V) → W} (hf : NaturalFn f) (d : Dim) (a : StatVar L V) : (a.relabel ρ).reduce d f = (a.reduce d f).relabel ρ := by
  obtain ⟨a, m⟩ := a
  unfold StatVar.reduce StatVar.relabel
  dsimp only
  congr 1
  · refine DA.extAll rfl rfl ?_
    funext e
    simp only [DA.relabel, back_label]
    exact hf (ρ d) (a.coords d) (fun l => a.val (setLabel (fun k => (ρ k).symm (e k)) d l))
  · rcases m with _ | m
    · rfl
    · by_cases h : d ∈ m.dims <;> simp [dropMask, relabel_dims, h]

theorem rename_relabel {V : Type} {d d' : Dim} (h : ρ d' = ρ d) (a : DA L V) : (a.relabel ρ).rename d d' = (a.rename d d').relabel ρ := by
  unfold DA.rename
  rw [relabel_dims]
  split
  · refine DA.extAll rfl ?_ ?_
    · funext k
      simp only [DA.relabel]
      split
      · rename_i hk; rw [hk, h]
      · rfl
    · funext e
      simp only [DA.relabel, back_label, h]
  · rfl

theorem sv_rename {V : Type} {d d' : Dim} (h : ρ d' = ρ d) (a : StatVar L V) : (a.relabel ρ).rename d d' = (a.rename d d').map (StatVar.relabel ρ) := by
  obtain ⟨a, m⟩ := a
  unfold StatVar.rename
  simp only [StatVar.relabel, relabel_dims, rename_relabel h]
  split
  · rcases m with _ | m
    · rfl
    · simp only [Option.map_some, rename_relabel h]; rfl
  · rfl

variable {K : Type} [Field K] [LinearOrder K] [IsStrictOrderedRing K]

theorem natural_present (skipna : Bool) (σ : Equiv.Perm L) (C : Finset L) (x : L → FV K) : present skipna (C.map σ.toEmbedding) (fun l => x (σ.symm l)) = (present skipna C x).map σ.toEmbedding := by
  cases skipna
  · rfl
  · simp only [present, if_true, Finset.filter_map]
    congr 1
    refine Finset.filter_congr (fun l _ => ?_)
    simp

theorem natural_npSum (skipna : Bool) : NaturalFn (npSum (L := L) (K := K) skipna) := by
  intro σ C x
  unfold npSum
  rw [natural_present, Finset.sum_map]
  simp

theorem natural_card (skipna : Bool) : NaturalFn (fun C (x : L → FV K) => (FV.ofNat (present skipna C x).card : FV K)) := by
  intro σ C x
  dsimp only
  rw [natural_present, Finset.card_map]

theorem natural_npMean (skipna : Bool) : NaturalFn (npMean (L := L) (K := K) skipna) := by
  intro σ C x
  unfold npMean
  rw [natural_npSum, natural_present, Finset.card_map]

theorem natural_npVar1 (skipna : Bool) : NaturalFn (npVar1 (L := L) (K := K) skipna) := by
  intro σ C x
  unfold npVar1
  rw [natural_npMean, natural_present, Finset.card_map]
  rw [natural_npSum skipna σ C (fun l => (x l - npMean skipna C x).sq)]

variable {d : Dim}

theorem sv_meanDim (skipna : Bool) (a : StatVar L (FV K)) : (a.relabel ρ).meanDim skipna d = (a.meanDim skipna d).map (StatVar.relabel ρ) := by
  unfold StatVar.meanDim
  rw [reduce_relabel (natural_npMean skipna)]
  split <;> split <;> first | rfl | contradiction

theorem sv_varDim (skipna : Bool) (a : StatVar L (FV K)) : (a.relabel ρ).varDim skipna d = (a.varDim skipna d).map (StatVar.relabel ρ) := by
  unfold StatVar.varDim
  rw [reduce_relabel (natural_npVar1 skipna)]
  split <;> split <;> first | rfl | contradiction

theorem sv_scalar (x : FV K) : (⟨DA.scalar x, none⟩ : StatVar L (FV K)).relabel ρ = ⟨DA.scalar x, none⟩ := by
  unfold StatVar.relabel
  rw [relabel_scalar]
  rfl

theorem card_relabel {V : Type} (a : StatVar L V) : ((a.relabel ρ).arr.coords d).card = (a.arr.coords d).card := Finset.card_map _

theorem sv_sizeDim (skipna : Bool) (a : StatVar L (FV K)) : (a.relabel ρ).sizeDim skipna d = (a.sizeDim skipna d).map (StatVar.relabel ρ) := by
  unfold StatVar.sizeDim
  rw [reduce_relabel (natural_card true), card_relabel, ← sv_scalar (ρ := ρ)]
  show (if d ∈ a.arr.dims then _ else _) = _
  split <;> cases skipna <;> rfl

theorem ensembleVariance_relabels (skipna : Bool) : (ensembleVarianceStatistic (L := L) (K := K) d skipna).Blind ρ := statOfE_relabels (fun a _ => sv_varDim skipna a)

theorem unbiasedMSE_relabels (skipna : Bool) : (unbiasedMSEStatistic (L := L) (K := K) d skipna).Blind ρ := by
  refine statOfE_relabels (fun p t => ?_)
  unfold unbiasedMSE
  rw [sv_meanDim, sv_varDim, sv_sizeDim, sv_meanDim, sv_varDim, sv_sizeDim]
  refine bind_image (fun pm => bind_image (fun pv => bind_image (fun pn => ?_)))
  show (if d ∈ t.arr.dims then _ else _) = Except.map _ (if d ∈ t.arr.dims then _ else _)
  split
  · refine bind_image (fun tm => bind_image (fun tv => bind_image (fun tn => ?_)))
    simp only [sv_zip, sv_map]
    rfl
  · simp only [sv_zip, sv_map]
    rfl

theorem crpsSkill_relabels (skipna : Bool) (h : ρ (d ++ "_PSEUDO_FOR_TARGETS") = ρ d) : (crpsSkillStatistic (L := L) (K := K) d skipna).Blind ρ := by
  refine statOfE_relabels (fun p t => ?_)
  unfold crpsSkill
  dsimp only
  rw [sv_rename h, sv_zip, sv_map, sv_meanDim]
  show (if d ∈ t.arr.dims then _ else _) = Except.map _ (if d ∈ t.arr.dims then _ else _)
  split
  · refine bind_image (fun t' => ?_)
    rw [sv_zip, sv_map, reduce_relabel (natural_card skipna), reduce_relabel (natural_npSum skipna), reduce_relabel (natural_npSum false), reduce_relabel (natural_npSum false), sv_zip]
    show (if d ∈ (p.arr.dims ∪ t'.arr.dims) then _ else _) = Except.map _ (if d ∈ (p.arr.dims ∪ t'.arr.dims) then _ else _)
    split <;> rfl
  · rfl

theorem idxOf_relabel (σ : Equiv.Perm L) (order : List L) (l : L) : (order.map σ).idxOf l = order.idxOf (σ.symm l) := by
  induction order with
  | nil => rfl
  | cons x order ih =>
    rw [List.map_cons, List.idxOf_cons, List.idxOf_cons, ih]
    by_cases h : x = σ.symm l
    · subst h; simp
    · have : σ x ≠ l := fun h' => h (by rw [← h', Equiv.symm_apply_apply])
      rw [beq_false_of_ne this, beq_false_of_ne h]

theorem rank_relabel (argsort : List (FV K) → List ℕ) (order : List L) (a : StatVar L (FV K)) : rankDA argsort (order.map (ρ d)) d (a.relabel ρ) = (rankDA argsort order d a).relabel ρ := by
  unfold rankDA StatVar.relabel
  dsimp only
  congr 1
  refine DA.extAll rfl rfl ?_
  funext e
  simp only [DA.relabel, back_label, List.map_map, idxOf_relabel, Function.comp_def, Equiv.symm_apply_apply]

theorem crpsSpread_relabels (argsort : List (FV K) → List ℕ) (order : List L) (useSort fair : Bool) (which : String) (skipna : Bool) (h : ρ "ensemble_dim_2" = ρ d) :
    (crpsSpreadStatistic argsort order d useSort fair which skipna).Relabels ρ (crpsSpreadStatistic argsort (order.map (ρ d)) d useSort fair which skipna) := by
  refine statOfE_relabels (fun p t => ?_)
  unfold crpsSpread
  have hw : whichArray which (p.relabel ρ) (t.relabel ρ) = (whichArray which p t).map (StatVar.relabel ρ) := by
    unfold whichArray
    split_ifs <;> rfl
  rw [hw]
  refine bind_image (fun da => ?_)
  rw [sv_sizeDim]
  refine bind_image (fun n => ?_)
  dsimp only
  rw [card_relabel]
  split
  · rfl
  · split
    · split
      · rfl
      · rw [rank_relabel, sv_map, sv_zip, sv_map, sv_zip, sv_meanDim]
        refine bind_image (fun m => ?_)
        rw [sv_map, sv_map, sv_zip]
        rfl
    · rw [sv_rename h]
      refine bind_image (fun da2 => ?_)
      rw [sv_zip, sv_map, reduce_relabel (natural_npSum skipna), reduce_relabel (natural_npSum false), sv_map, sv_zip, sv_zip]
      rfl

/-- **C102** The CRPS of an ensemble does not look at labels, whichever way the spread is computed. With `use_sort` the order of the members is part of the data:
the relabelled members come in the same order. -/
theorem C102_crps (argsort : List (FV K) → List ℕ) (order : List L) (useSort fair skipna : Bool) (h : ρ (d ++ "_PSEUDO_FOR_TARGETS") = ρ d) (h2 : ρ "ensemble_dim_2" = ρ d) :
    (crpsEnsemble argsort order d useSort fair skipna).Relabels ρ (crpsEnsemble argsort (order.map (ρ d)) d useSort fair skipna) :=
  metric2_relabels (crpsSkill_relabels skipna h) (crpsSpread_relabels argsort order useSort fair "predictions" skipna h2) (by formula_relabels)

/-- **C102** Nor does the distance of two ensembles. -/
theorem C102_crps_distance (argsort : List (FV K) → List ℕ) (order order' : List L) (useSort fair skipna : Bool) (h : ρ (d ++ "_PSEUDO_FOR_TARGETS") = ρ d) (h2 : ρ "ensemble_dim_2" = ρ d) :
    (crpsEnsembleDistance argsort order order' d useSort fair skipna).Relabels ρ (crpsEnsembleDistance argsort (order.map (ρ d)) (order'.map (ρ d)) d useSort fair skipna) :=
  metric3_relabels (crpsSkill_relabels false h) (crpsSpread_relabels argsort order useSort fair "predictions" skipna h2)
    (crpsSpread_relabels argsort order' useSort fair "targets" false h2) (by formula_relabels)

/-- **C102** Nor do the ensemble variance and the unbiased squared error of the ensemble mean. -/
theorem C102_moments (skipna : Bool) : ((ensembleVarianceStatistic (L := L) (K := K) d skipna).toMetric (M := DA L (FV K))).Blind ρ ∧
    ((unbiasedMSEStatistic (L := L) (K := K) d skipna).toMetric (M := DA L (FV K))).Blind ρ :=
  ⟨statistic_relabels (ensembleVariance_relabels skipna), statistic_relabels (unbiasedMSE_relabels skipna)⟩

/-- **C102** Nor does the ranked probability score. -/
theorem C102_rps (binDim : Dim) : ((rpsStatistic (L := L) (K := K) binDim).toMetric (M := DA L (FV K))).Blind ρ := by
  refine statistic_relabels (perVariable_relabels (fun a b => ?_))
  unfold rankedProbabilityScore
  dsimp only
  rw [sv_zip, sv_map]
  have : ∀ s : StatVar L (FV K), (⟨DA.sumDim binDim ((s.relabel ρ).arr.map (fun x => if x.isnan then 0 else x)), (s.relabel ρ).mask⟩ : StatVar L (FV K)) =
      (⟨DA.sumDim binDim (s.arr.map (fun x => if x.isnan then 0 else x)), s.mask⟩ : StatVar L (FV K)).relabel ρ := by
    intro s
    unfold StatVar.relabel
    dsimp only
    rw [relabel_map, relabel_sumDim]
  rw [this]
  show (if binDim ∈ (StatVar.map FV.sq (a.zipWith (· - ·) b)).arr.dims then _ else _) = Except.map _ (if binDim ∈ (StatVar.map FV.sq (a.zipWith (· - ·) b)).arr.dims then _ else _)
  split <;> rfl

/-- **C102** The fraction of errors above thresholds, with the labels of the thresholds relabelled in the same way. -/
theorem C102_exceedance (thresholds : DA L (FV K)) : ((errorExceedanceStatistic thresholds).toMetric (M := DA L (FV K))).Relabels ρ (errorExceedanceStatistic (thresholds.relabel ρ)).toMetric :=
  statistic_relabels (statOf_relabels (fun a b => by
    unfold errorExceedance
    dsimp only
    rw [sv_bare, sv_zip, sv_map, sv_zip, sv_map, sv_zip, sv_map, sv_zip]))

theorem eachMember_relabels {s s' : FStatistic L K} (hs : s.Relabels ρ s') (skipna : Bool) : (ensembleAveragedStatistic d skipna s).Relabels ρ (ensembleAveragedStatistic d skipna s') := by
  intro p t
  show (s'.compute _ _ >>= fun r => _) = Except.map _ (s.compute p t >>= fun r => _)
  rw [hs p t]
  refine bind_image (fun r => ?_)
  unfold relabelStats
  rw [List.mapM_map]
  refine mapM_image (fun kv _ => ?_)
  obtain ⟨k, o⟩ := kv
  rcases o with _ | a
  · rfl
  · show ((a.relabel ρ).meanDim skipna d >>= fun a' => _) = Except.map _ (a.meanDim skipna d >>= fun a' => _)
    rw [sv_meanDim]
    exact bind_image (fun a' => rfl)

/-- **C102** Nor does any metric averaged over the members, if the metric does not. -/
theorem C102_each_member {m m' : FMetric L K} (hm : m.Relabels ρ m') (skipna : Bool) : (ensembleAveragedMetric d skipna m).Relabels ρ (ensembleAveragedMetric d skipna m') := by
  refine ⟨?_, hm.formula⟩
  show List.Forall₂ _ (m.statistics.map _) (m'.statistics.map _)
  rw [List.forall₂_map_left_iff, List.forall₂_map_right_iff]
  exact hm.statistics.imp (fun ks ks' h => ⟨h.1, eachMember_relabels h.2 skipna⟩)

end reductions

section roots
variable {L : Type} [DecidableEq L] {ρ : Dim → Equiv.Perm L} {d : Dim}

/-- **C102** Nor do the spread-skill ratio, the unbiased root mean squared error and the root mean variance. -/
theorem C102_spread_skill (skipna : Bool) : (spreadSkillRatio (L := L) d skipna).Blind ρ ∧ (unbiasedRMSE (L := L) d skipna).Blind ρ ∧ (ensembleRootMeanVariance (L := L) d skipna).Blind ρ :=
  ⟨metric2_relabels (ensembleVariance_relabels skipna) (unbiasedMSE_relabels skipna) (by formula_relabels), metric1_relabels (unbiasedMSE_relabels skipna) (fun _ => rfl),
    metric1_relabels (ensembleVariance_relabels skipna) (fun _ => rfl)⟩

end roots
end WBX
