import Verif.Props.EnsembleScores
import Verif.Props.ImprovedExamples
import Verif.Props.RankHistogram

/-!
# C98: concrete cases, and the mask that the ensemble variance does not see
-/

set_option linter.unusedSectionVars false

namespace WBX
open DA Classical

theorem imp_over (f : ℕ → ℕ → ℝ) (cs : Finset (Dim → ℕ)) : EnsembleOver false "number" (impMembers f) crpsTarget cs (fun _ => Finset.range 3) (fun e' l => f l (e' "x")) (fun _ => 1) :=
  ⟨fun e' _ => impMembers_at f e', fun _ _ => by simp, fun _ _ => rfl, by simp [crpsTarget], fun _ _ _ => rfl⟩

theorem imp_averaged {s : StatVar ℕ (FV ℝ)} (h : Evaluated mAgg s (exCell 0) (({0, 1} : Finset ℕ).image exCell)) :
    AveragedOver mAgg s (exCell 0) (({0, 1} : Finset ℕ).image exCell) (fun _ => 1) :=
  ⟨h, fun e' _ => by simp [cellWeight, Aggregator.allFactors, mAgg]⟩

theorem imp_weights : WeightsOk (({0, 1} : Finset ℕ).image exCell) (fun _ => (1 : ℝ)) :=
  ⟨fun _ _ => zero_le_one, by rw [Finset.sum_const, Finset.card_image_of_injective _ exCell_inj]; simp⟩

theorem imp_mean (f : ℕ → ℕ → ℝ) : AveragedOver mAgg (error ((impMembers f).reduce "number" (npMean false)) crpsTarget) (exCell 0) (({0, 1} : Finset ℕ).image exCell) (fun _ => 1) := by
  refine imp_averaged (crps_plain _ ?_ ?_ (fun n => ?_))
  · simp [error, StatVar.zipWith, zipWith, joinCoords, StatVar.reduce, impMembers, crpsTarget]
  · simp [error, StatVar.zipWith, StatVar.reduce, impMembers, crpsTarget, combineMask, dropMask]
  · show ((impMembers f).reduce "number" (npMean false)).arr.val (exCell n) - FV.fin 1 |>.isFin
    rw [show ((impMembers f).reduce "number" (npMean false)).arr.val (exCell n) = _ from npMean_at (impMembers_at f (exCell n)) (by simp), FV.fin_sub_fin]
    rfl

theorem imp_each (f : ℕ → ℕ → ℝ) : AveragedOver mAgg ((squaredError (impMembers f) crpsTarget).reduce "number" (npMean false)) (exCell 0) (({0, 1} : Finset ℕ).image exCell) (fun _ => 1) := by
  refine imp_averaged (crps_plain _ ?_ ?_ (fun n => ?_))
  · simp [squaredError, StatVar.map, map, StatVar.zipWith, zipWith, joinCoords, StatVar.reduce, impMembers, crpsTarget]
  · simp [squaredError, StatVar.map, StatVar.zipWith, StatVar.reduce, impMembers, crpsTarget, combineMask, dropMask]
  · rw [show ((squaredError (impMembers f) crpsTarget).reduce "number" (npMean false)).arr.val (exCell n) = _ from
      zipped_mean (imp_over f {exCell n}) (by simp [impMembers]) FV.sq (g := fun z u => (z - u) ^ 2) (fun z u => by rw [FV.fin_sub_fin, FV.sq, FV.fin_mul_fin, pow_two]) rfl (by simp)]
    rfl

theorem imp_var (f : ℕ → ℕ → ℝ) (t : StatVar ℕ (FV ℝ)) : ∃ s, ensembleVariance "number" false (impMembers f) t = .ok s ∧ s.mask = none ∧ "x" ∈ s.arr.dims ∧
    AveragedOver mAgg s (exCell 0) (({0, 1} : Finset ℕ).image exCell) (fun _ => 1) := by
  have h : ensembleVariance "number" false (impMembers f) t = .ok ((impMembers f).reduce "number" (npVar1 false)) := by
    unfold ensembleVariance StatVar.varDim
    rw [if_pos (by simp [impMembers])]
  refine ⟨_, h, by simp [StatVar.reduce, impMembers, dropMask], by simp [StatVar.reduce, impMembers], imp_averaged (crps_plain _ ?_ ?_ (fun n => ?_))⟩
  · simp [StatVar.reduce, impMembers]
  · simp [StatVar.reduce, impMembers, dropMask]
  · rw [(C32_variance h (impMembers_at f (exCell n)) (by simp)).1]; rfl

/-- Three members at two cells and the observation 1: the three scores exist and fit together. -/
example (f : ℕ → ℕ → ℝ) : ∃ tr, ensembleMean "predictions" "number" false false = .ok tr ∧ ∃ X1 X2 X3,
    ValueOf (wrappedMetric squaredErrorStatistic.toMetric [tr] none) mAgg [("t", impMembers f)] [("t", crpsTarget)] "t" X1 ∧
    ValueOf (ensembleVarianceStatistic "number" false).toMetric mAgg [("t", impMembers f)] [("t", crpsTarget)] "t" X2 ∧
    ValueOf (ensembleAveragedMetric "number" false squaredErrorStatistic.toMetric) mAgg [("t", impMembers f)] [("t", crpsTarget)] "t" X3 ∧
    ∃ mse var each, X1.val (exCell 0) = FV.fin mse ∧ X2.val (exCell 0) = FV.fin var ∧ X3.val (exCell 0) = FV.fin each ∧ mse + ((3 : ℕ) - 1) / (3 : ℕ) * var = each := by
  have htr : ∃ tr : InputTransform ℕ ℝ, ensembleMean "predictions" "number" false false = .ok tr ∧ tr.which = "predictions" ∧ tr.fn = fun _ => ensembleMeanFn "number" false false := by
    unfold ensembleMean mkTransform
    rw [if_pos (by simp)]
    exact ⟨_, rfl, rfl, rfl⟩
  obtain ⟨tr, htr, w1, w2⟩ := htr
  have hd : "number" ∈ (impMembers f).arr.dims := by simp [impMembers]
  have T1 : TransformedVars "predictions" [tr] [("t", impMembers f)] [("t", (impMembers f).reduce "number" (npMean false))] := by
    refine .cons ⟨rfl, ?_⟩ .nil
    simp only [transformed, touches, w1, true_or, if_true, w2, bind, Except.bind]
    unfold ensembleMeanFn StatVar.meanDim
    rw [if_neg (by simp), if_pos hd]
  have T2 : TransformedVars "targets" [tr] [("t", crpsTarget)] [("t", crpsTarget)] := by
    refine .cons ⟨rfl, ?_⟩ .nil
    simp [transformed, touches, w1]
  obtain ⟨q1, hq1⟩ := exists_aggregate mAgg rfl (squaredError ((impMembers f).reduce "number" (npMean false)) crpsTarget)
    (by simp [mAgg, squaredError, StatVar.map, map, StatVar.zipWith, zipWith, StatVar.reduce, impMembers])
  obtain ⟨r, hr, hv⟩ := exists_value "SquaredError" squaredError mAgg "t" _ _ hq1
  obtain ⟨s, hs, -, hx, A2⟩ := imp_var f crpsTarget
  obtain ⟨q2, hq2⟩ := exists_aggregate mAgg rfl s (by simp [mAgg, hx])
  obtain ⟨q3, hq3⟩ := exists_aggregate mAgg rfl ((squaredError (impMembers f) crpsTarget).reduce "number" (npMean false))
    (by simp [mAgg, squaredError, StatVar.map, map, StatVar.zipWith, zipWith, StatVar.reduce, impMembers])
  have h1 : ValueOf (wrappedMetric squaredErrorStatistic.toMetric [tr] none) mAgg [("t", impMembers f)] [("t", crpsTarget)] "t" (DA.zipWith (· / ·) q1.1 q1.2) :=
    ⟨r, (C38_values _ _ _ _ T1 T2 r).mpr hr, hv⟩
  have h2 := exists_statistic (oneMean_statOfE ("EnsembleVariance_" ++ "number" ++ "_skipna_ensemble_" ++ (if false then "True" else "False")) (v := "t") hs hq2)
  have h3 : ValueOf (ensembleAveragedMetric "number" false squaredErrorStatistic.toMetric) mAgg [("t", impMembers f)] [("t", crpsTarget)] "t" (DA.zipWith (· / ·) q3.1 q3.2) := by
    refine exists_statistic (st := ensembleAveragedStatistic "number" false squaredErrorStatistic) ⟨_, q3, ?_, hq3, rfl⟩
    simp [ensembleAveragedStatistic, squaredErrorStatistic, statOf, perVariableStatistic, perVariableLoop, pyGet?, bind, Except.bind, pure, Except.pure, StatVar.meanDim,
      squaredError, StatVar.map, map, StatVar.zipWith, zipWith, impMembers]
  exact ⟨tr, htr, _, _, _, h1, h2, h3, C98_mse_split (by simp [IsDict]) (by simp [IsDict]) (by simp) (by simp) hd (imp_over f _) imp_weights (fun _ _ => by simp) htr hs (imp_mean f) A2 (imp_each f) h1 h2 h3⟩

/-! ### The mask of the target does not reach the spread -/

/-- The observation 1 at both cells; only the cell 1 is kept by the mask. -/
noncomputable def maskedTarget : StatVar ℕ (FV ℝ) :=
  ⟨{ dims := {"x"}, coords := fun _ => {0, 1}, val := fun _ => FV.fin 1 }, some { dims := {"x"}, coords := fun k => if k = "x" then {0, 1} else ∅, val := fun e => decide (e "x" = 1) }⟩

/-- Members -2, 0, 2 at the cell 0; three members 2 at the cell 1. -/
noncomputable def maskedMembers (l x : ℕ) : ℝ := if x = 0 then 2 * (l : ℝ) - 2 else 2

/-- **C98 ★** With `masked=True` and a mask on the targets only, the variance is averaged over all cells but the error of the mean over the cells that are kept: here the members agree at every cell that
is kept, yet the spread-skill ratio is √2 instead of 0. -/
theorem C98_spread_mask : (∀ e : Dim → ℕ, (∃ m, maskedTarget.mask = some m ∧ m.val e = true) → ∀ l l' : ℕ, maskedMembers l (e "x") = maskedMembers l' (e "x")) ∧
    ∃ X, ValueOf (spreadSkillRatio "number" false) mAgg [("t", impMembers maskedMembers)] [("t", maskedTarget)] "t" X ∧ X.val (exCell 0) = FV.fin (Real.sqrt 2) := by
  refine ⟨?_, ?_⟩
  · rintro e ⟨m, hm, he⟩ l l'
    simp only [maskedTarget, Option.some.injEq] at hm
    subst hm
    simp only [decide_eq_true_eq] at he
    simp [maskedMembers, he]
  have hd : "number" ∈ (impMembers maskedMembers).arr.dims := by simp [impMembers]
  have hd' : "number" ∉ maskedTarget.arr.dims := by simp [maskedTarget]
  obtain ⟨s1, h1, -, hx1, A1⟩ := imp_var maskedMembers maskedTarget
  obtain ⟨s2, h2, hx2, hc2, hm2⟩ : ∃ s, unbiasedMSE "number" false (impMembers maskedMembers) maskedTarget = .ok s ∧ "x" ∈ s.arr.dims ∧ (s.arr.coords = fun k => if k = "x" then {0, 1} else ∅) ∧ s.mask = maskedTarget.mask := by
    simp only [unbiasedMSE, StatVar.meanDim, StatVar.varDim, StatVar.sizeDim, hd, hd', if_true, if_false, bind, Except.bind, pure, Except.pure, Bool.false_eq_true, if_false]
    refine ⟨_, rfl, ?_, ?_, ?_⟩
    · simp [StatVar.map, map, StatVar.zipWith, zipWith, StatVar.reduce, maskedTarget]
    · funext k
      by_cases hk : k = "x" <;> simp [StatVar.map, map, StatVar.zipWith, zipWith, StatVar.reduce, maskedTarget, joinCoords, impMembers, DA.scalar, hk]
    · simp [StatVar.map, StatVar.zipWith, StatVar.reduce, maskedTarget, combineMask, impMembers, dropMask]
  have v2 : s2.arr.val (exCell 1) = FV.fin 1 := by
    rw [C32_unbiased hd' h2 (impMembers_at maskedMembers (exCell 1)) (by simp) (y := 1) rfl, ← C32_pairs (by simp)]
    norm_num [eVar, eMean, Finset.sum_range_succ, maskedMembers, exCell]
  have E2 : Evaluated mAgg s2 (exCell 0) (({1} : Finset ℕ).image exCell) := by
    refine evaluated1 s2 {0, 1} (by rw [hc2]; rfl) ?_ {1} ?_ ?_
    · intro m hm
      rw [hm2] at hm
      simp only [maskedTarget, Option.some.injEq] at hm
      subst hm
      exact ⟨by simpa using hx2, hc2.symm⟩
    · intro n
      simp only [counted, mAgg, hm2, maskedTarget, exCell]
      by_cases hn : n = 1 <;> simp [hn]
    · intro n hn
      rw [Finset.mem_singleton] at hn
      rw [hn, v2]; rfl
  obtain ⟨q1, hq1⟩ := exists_aggregate mAgg rfl s1 (by simp [mAgg, hx1])
  obtain ⟨q2, hq2⟩ := exists_aggregate mAgg rfl s2 (by simp [mAgg, hx2])
  refine ⟨_, exists_metric2 (show "EnsembleVariance" ≠ "UnbiasedEnsembleMeanSquaredError" by decide) (oneMean_statOfE _ h1 hq1) (oneMean_statOfE _ h2 hq2), ?_⟩
  have m1 := mAgg_mean s1 {0, 1} (by decide) A1.evaluated hq1
  have m2 := mAgg_mean s2 {1} (by decide) E2 hq2
  have w : ∀ n, s1.arr.val (exCell n) = _ := fun n => (C32_variance h1 (impMembers_at maskedMembers (exCell n)) (by simp)).1
  rw [Finset.sum_singleton, v2] at m2
  rw [Finset.sum_pair (by decide), w, w] at m1
  have f1 : (DA.zipWith (· / ·) q1.1 q1.2).val (exCell 0) = FV.fin 2 := by
    rw [m1]
    norm_num [eVar, eMean, Finset.sum_range_succ, maskedMembers, exCell, FV.num]
  have f2 : (DA.zipWith (· / ·) q2.1 q2.2).val (exCell 0) = FV.fin 1 := by
    rw [m2]
    norm_num [FV.num]
  show FV.sqrt ((DA.zipWith (· / ·) q1.1 q1.2).val (exCell 0) / (DA.zipWith (· / ·) q2.1 q2.2).val (exCell 0)) = _
  rw [f1, f2, FV.fin_div_fin_of_ne _ one_ne_zero, div_one, FV.sqrt, if_neg (by norm_num)]

end WBX
