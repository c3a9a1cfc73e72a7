import Verif.Model.Autodiff
import Mathlib.Analysis.Calculus.FDeriv.Comp
import Mathlib.Analysis.Calculus.FDeriv.Add
import Mathlib.Analysis.Calculus.FDeriv.Mul
import Mathlib.Analysis.Calculus.Deriv.Inv
import Mathlib.Analysis.SpecialFunctions.Sqrt
import Mathlib.Algebra.BigOperators.Field
import Mathlib.Tactic.FieldSimp
import Mathlib.Tactic.Ring
import Mathlib.Tactic.LinearCombination

set_option linter.unusedSectionVars false

/-!
# C58: values linearised around the mean statistics
-/

namespace WBX.Autodiff
variable {ι κ : Type} [Fintype ι] [Fintype κ] {n : ℕ}

/-- The mean statistics. -/
noncomputable def meanStatistics (s : Fin n → State ι) : ι → ℝ := fun j => (∑ i, (s i).1 j) / ∑ i, (s i).2 j

/-- The value is that of the metrics of the totals: the number of units cancels. -/
theorem C58_value (g : (ι → ℝ) → (κ → ℝ)) (s : Fin n → State ι) (hn : n ≠ 0) : (perUnitValues g s).1 = g (meanStatistics s) := by
  have hn' : (n : ℝ) ≠ 0 := by exact_mod_cast hn
  simp only [perUnitValues, linearize, metricOfState, meanState, meanStatistics]
  congr 1
  funext j
  rw [div_div_div_cancel_right₀ hn']
  rfl

theorem sum_sub_mean (s : Fin n → State ι) (hn : n ≠ 0) : ∑ i, (s i - meanState s) = 0 := by
  have hn' : (n : ℝ) ≠ 0 := by exact_mod_cast hn
  rw [Finset.sum_sub_distrib]
  ext j
  · simp [meanState, Prod.fst_sum]; field_simp; simp
  · simp [meanState, Prod.snd_sum]; field_simp; simp

/-- The tangents have mean zero, whatever the metrics. -/
theorem C58_mean_zero (g : (ι → ℝ) → (κ → ℝ)) (s : Fin n → State ι) (c : κ) : ∑ i, (perUnitValues g s).2 i c = 0 := by
  by_cases hn : n = 0
  · subst hn; simp
  · have h := sum_sub_mean s hn
    have : ∑ i, (perUnitValues g s).2 i = 0 := by
      simp only [perUnitValues, linearize]
      rw [← map_sum, h, map_zero]
    have := congrFun this c
    simpa using this

/-- The derivative of the mean statistics by numerators and denominators. -/
theorem hasFDerivAt_ratio (p : State ι) (hp : ∀ j, p.2 j ≠ 0) :
    HasFDerivAt (fun q : State ι => fun j => q.1 j / q.2 j)
      (ContinuousLinearMap.pi (fun j => (p.2 j)⁻¹ • ((ContinuousLinearMap.proj j).comp (ContinuousLinearMap.fst ℝ (ι → ℝ) (ι → ℝ)))
        - (p.1 j / (p.2 j) ^ 2) • ((ContinuousLinearMap.proj j).comp (ContinuousLinearMap.snd ℝ (ι → ℝ) (ι → ℝ))))) p := by
  rw [hasFDerivAt_pi]
  intro j
  have h1 : HasFDerivAt (fun q : State ι => q.1 j) ((ContinuousLinearMap.proj j).comp (ContinuousLinearMap.fst ℝ (ι → ℝ) (ι → ℝ))) p :=
    ((ContinuousLinearMap.proj (R := ℝ) (φ := fun _ : ι => ℝ) j).comp (ContinuousLinearMap.fst ℝ (ι → ℝ) (ι → ℝ))).hasFDerivAt
  have h2 : HasFDerivAt (fun q : State ι => q.2 j) ((ContinuousLinearMap.proj j).comp (ContinuousLinearMap.snd ℝ (ι → ℝ) (ι → ℝ))) p :=
    ((ContinuousLinearMap.proj (R := ℝ) (φ := fun _ : ι => ℝ) j).comp (ContinuousLinearMap.snd ℝ (ι → ℝ) (ι → ℝ))).hasFDerivAt
  have h3 := (hasDerivAt_inv (hp j)).comp_hasFDerivAt p h2
  have h4 := h1.mul h3
  have hfun : (fun q : State ι => q.1 j / q.2 j) = (fun q => q.1 j * ((fun x => x⁻¹) ∘ fun q : State ι => q.2 j) q) := by
    funext q; simp [div_eq_mul_inv]
  rw [hfun]
  refine h4.congr_fderiv ?_
  ext q
  · simp
  · simp; field_simp

/-- The tangents are the derivative of the metrics at the mean statistics, applied to the tangents of the mean statistics, and these are
`(numerator - mean statistic * weight) / mean weight` for every unit. -/
theorem C58_tangents (g : (ι → ℝ) → (κ → ℝ)) (s : Fin n → State ι) (hn : n ≠ 0) (hw : ∀ j, ∑ i, (s i).2 j ≠ 0) (hg : DifferentiableAt ℝ g (meanStatistics s)) (i : Fin n) :
    (perUnitValues g s).2 i = fderiv ℝ g (meanStatistics s) (fun j => ((s i).1 j - meanStatistics s j * (s i).2 j) / ((∑ k, (s k).2 j) / n)) := by
  have hn' : (n : ℝ) ≠ 0 := by exact_mod_cast hn
  have hmean : (fun j => (meanState s).1 j / (meanState s).2 j) = meanStatistics s := by
    funext j
    simp only [meanState, meanStatistics]
    rw [div_div_div_cancel_right₀ hn']
  have hp : ∀ j, (meanState s).2 j ≠ 0 := fun j => div_ne_zero (hw j) hn'
  have hr := hasFDerivAt_ratio (meanState s) hp
  have hg' : HasFDerivAt g (fderiv ℝ g (meanStatistics s)) ((fun q : State ι => fun j => q.1 j / q.2 j) (meanState s)) := by
    simp only [hmean]; exact hg.hasFDerivAt
  have hc := hg'.comp (meanState s) hr
  have hf : fderiv ℝ (metricOfState g) (meanState s) = _ := hc.fderiv
  simp only [perUnitValues, linearize]
  rw [hf]
  simp only [ContinuousLinearMap.comp_apply]
  congr 1
  funext j
  simp only [ContinuousLinearMap.pi_apply, sub_apply, smul_apply, ContinuousLinearMap.comp_apply, ContinuousLinearMap.coe_fst',
    ContinuousLinearMap.coe_snd', ContinuousLinearMap.proj_apply, Prod.fst_sub, Prod.snd_sub, Pi.sub_apply, smul_eq_mul]
  have h2 := hw j
  simp only [meanState, meanStatistics]
  field_simp
  ring

/-- A weighted mean itself as metric. -/
theorem C58_weighted_mean (s : Fin n → State ι) (hn : n ≠ 0) (hw : ∀ j, ∑ i, (s i).2 j ≠ 0) (i : Fin n) (j : ι) :
    (perUnitValues (fun m : ι → ℝ => m) s).1 j = meanStatistics s j ∧
    (perUnitValues (fun m : ι → ℝ => m) s).2 i j = ((s i).1 j - meanStatistics s j * (s i).2 j) / ((∑ k, (s k).2 j) / n) := by
  refine ⟨congrFun (C58_value _ s hn) j, ?_⟩
  rw [C58_tangents (fun m : ι → ℝ => m) s hn hw differentiableAt_id i, show (fun m : ι → ℝ => m) = id from rfl, fderiv_id]
  rfl

/-- The tangents of a difference of metrics are the differences of the tangents: a comparison with a baseline is paired. -/
theorem C58_difference (g h : (ι → ℝ) → (κ → ℝ)) (s : Fin n → State ι) (hn : n ≠ 0) (hw : ∀ j, ∑ i, (s i).2 j ≠ 0) (hg : DifferentiableAt ℝ g (meanStatistics s))
    (hh : DifferentiableAt ℝ h (meanStatistics s)) (i : Fin n) (c : κ) :
    (perUnitValues (fun m c => g m c - h m c) s).1 c = (perUnitValues g s).1 c - (perUnitValues h s).1 c ∧
    (perUnitValues (fun m c => g m c - h m c) s).2 i c = (perUnitValues g s).2 i c - (perUnitValues h s).2 i c := by
  have hd : (fun m c => g m c - h m c) = g - h := rfl
  constructor
  · rw [C58_value _ s hn, C58_value _ s hn, C58_value _ s hn]
  · rw [hd, C58_tangents (g - h) s hn hw (hg.sub hh) i, C58_tangents g s hn hw hg i, C58_tangents h s hn hw hh i, fderiv_sub hg hh]
    rfl

/-- Linear metrics of statistics with the same weights at all units: value plus tangent is the value of the metrics of the unit alone. -/
theorem C58_linear (g : (ι → ℝ) →L[ℝ] (κ → ℝ)) (s : Fin n → State ι) (hn : n ≠ 0) (w : ι → ℝ) (hw0 : ∀ j, w j ≠ 0) (hw : ∀ i, (s i).2 = w) (i : Fin n) :
    (perUnitValues g s).1 + (perUnitValues g s).2 i = g (fun j => (s i).1 j / w j) := by
  have hn' : (n : ℝ) ≠ 0 := by exact_mod_cast hn
  have hsum : ∀ j, ∑ k, (s k).2 j = n * w j := by intro j; simp [hw]
  have hw' : ∀ j, ∑ k, (s k).2 j ≠ 0 := fun j => by rw [hsum]; exact mul_ne_zero hn' (hw0 j)
  rw [C58_value _ s hn, C58_tangents (⇑g) s hn hw' g.differentiableAt i, ContinuousLinearMap.fderiv, ← map_add]
  congr 1
  funext j
  have := hw0 j
  simp only [Pi.add_apply, meanStatistics, hsum]
  rw [hw i]
  field_simp
  ring

/-- A resample of the units, with counts that add up to the number of units: the metrics of the resampled totals differ from the value by the mean of the resampled tangents,
up to an error of smaller order than the change of the mean state. So the spread of tangents describes the spread of the metrics to first order. -/
theorem C58_first_order (g : (ι → ℝ) → (κ → ℝ)) (s : Fin n → State ι) (hn : n ≠ 0) (hw : ∀ j, ∑ i, (s i).2 j ≠ 0) (hg : DifferentiableAt ℝ g (meanStatistics s)) :
    ∀ ε > 0, ∃ δ > 0, ∀ counts : Fin n → ℝ, ∑ i, counts i = n →
      ‖(∑ i, (counts i / n) • s i) - meanState s‖ < δ →
      ‖metricOfState g (∑ i, (counts i / n) • s i) - (perUnitValues g s).1 - ∑ i, (counts i / n) • (perUnitValues g s).2 i‖ ≤ ε * ‖(∑ i, (counts i / n) • s i) - meanState s‖ := by
  intro ε hε
  have hn' : (n : ℝ) ≠ 0 := by exact_mod_cast hn
  have hmean : (fun j => (meanState s).1 j / (meanState s).2 j) = meanStatistics s := by
    funext j
    simp only [meanState, meanStatistics]
    rw [div_div_div_cancel_right₀ hn']
  have hp : ∀ j, (meanState s).2 j ≠ 0 := fun j => div_ne_zero (hw j) hn'
  have hr := (hasFDerivAt_ratio (meanState s) hp).differentiableAt
  have hd : DifferentiableAt ℝ (metricOfState g) (meanState s) := by
    have hg' : DifferentiableAt ℝ g ((fun q : State ι => fun j => q.1 j / q.2 j) (meanState s)) := by simp only [hmean]; exact hg
    exact hg'.comp (meanState s) hr
  have ho := hd.hasFDerivAt.isLittleO
  rw [Asymptotics.isLittleO_iff] at ho
  obtain ⟨δ, hδ, hball⟩ := Metric.eventually_nhds_iff.mp (ho hε)
  refine ⟨δ, hδ, ?_⟩
  intro counts hc hlt
  have := hball (y := ∑ i, (counts i / n) • s i) (by rw [dist_eq_norm]; exact hlt)
  have htan : ∑ i, (counts i / n) • (perUnitValues g s).2 i = fderiv ℝ (metricOfState g) (meanState s) ((∑ i, (counts i / n) • s i) - meanState s) := by
    simp only [perUnitValues, linearize]
    rw [show ∑ i, (counts i / (n : ℝ)) • fderiv ℝ (metricOfState g) (meanState s) (s i - meanState s)
        = fderiv ℝ (metricOfState g) (meanState s) (∑ i, (counts i / (n : ℝ)) • (s i - meanState s)) by rw [map_sum]; simp only [map_smul]]
    congr 1
    simp only [smul_sub, Finset.sum_sub_distrib]
    congr 1
    rw [← Finset.sum_smul, ← Finset.sum_div, hc, div_self hn', one_smul]
  rw [htan]
  exact this

/-- The root of a weighted mean (as for the RMSE): tangents are those of the mean divided by twice the root. -/
theorem C58_root (s : Fin n → State ι) (hn : n ≠ 0) (hw : ∀ j, ∑ i, (s i).2 j ≠ 0) (hm : ∀ j, 0 < meanStatistics s j) (i : Fin n) (j : ι) :
    (perUnitValues (fun (m : ι → ℝ) j => √(m j)) s).1 j = √(meanStatistics s j) ∧
    (perUnitValues (fun (m : ι → ℝ) j => √(m j)) s).2 i j = (perUnitValues (fun m : ι → ℝ => m) s).2 i j / (2 * √(meanStatistics s j)) := by
  refine ⟨congrFun (C58_value _ s hn) j, ?_⟩
  have hd : HasFDerivAt (fun (m : ι → ℝ) j => √(m j))
      (ContinuousLinearMap.pi (fun j => (1 / (2 * √(meanStatistics s j))) • (ContinuousLinearMap.proj j : (ι → ℝ) →L[ℝ] ℝ))) (meanStatistics s) := by
    rw [hasFDerivAt_pi]
    intro k
    have hk : HasFDerivAt (fun m : ι → ℝ => m k) (ContinuousLinearMap.proj k : (ι → ℝ) →L[ℝ] ℝ) (meanStatistics s) :=
      (ContinuousLinearMap.proj (R := ℝ) (φ := fun _ : ι => ℝ) k).hasFDerivAt
    exact hk.sqrt (hm k).ne'
  rw [C58_tangents _ s hn hw hd.differentiableAt i, (C58_weighted_mean s hn hw i j).2, hd.fderiv]
  simp only [ContinuousLinearMap.pi_apply, smul_apply, ContinuousLinearMap.proj_apply, smul_eq_mul]
  ring

/-- Two units with squared errors 1 and 7 and weights 1 and 3: the mean statistic is 2, the tangents of the mean are -1/2 and 1/2. -/
example : (perUnitValues (fun m : Fin 1 → ℝ => m) ![((fun _ => 1), (fun _ => 1)), ((fun _ => 7), (fun _ => 3))]).2 1 0 = 1 / 2 := by
  rw [(C58_weighted_mean _ (by norm_num) (by intro j; simp; norm_num) 1 0).2]
  simp [meanStatistics]
  norm_num

end WBX.Autodiff
