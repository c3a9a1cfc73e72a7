import Verif.Lemmas.Ensemble
import Mathlib.MeasureTheory.Integral.Bochner.Set
import Mathlib.MeasureTheory.Measure.Lebesgue.Basic

/-! # The CRPS as the integral of the squared difference of distribution functions -/

set_option linter.unusedSectionVars false

namespace WBX
open Classical MeasureTheory

section algebra
variable {L L' K : Type} [DecidableEq L] [DecidableEq L'] [Field K] [LinearOrder K] [IsStrictOrderedRing K]

theorem sum_sq_diff (M : Finset L) (N : Finset L') (a : L → K) (b : L' → K) :
    ∑ i ∈ M, ∑ j ∈ N, (a i - b j) ^ 2 =
      N.card * ∑ i ∈ M, a i ^ 2 + M.card * ∑ j ∈ N, b j ^ 2 - 2 * (∑ i ∈ M, a i) * ∑ j ∈ N, b j := by
  have : ∀ i ∈ M, ∑ j ∈ N, (a i - b j) ^ 2 = N.card * a i ^ 2 + ∑ j ∈ N, b j ^ 2 - 2 * a i * ∑ j ∈ N, b j := by
    intro i _
    rw [Finset.mul_sum]
    rw [show (N.card : K) * a i ^ 2 = ∑ j ∈ N, a i ^ 2 by simp]
    rw [← Finset.sum_add_distrib, ← Finset.sum_sub_distrib]
    exact Finset.sum_congr rfl (fun j _ => by ring)
  rw [Finset.sum_congr rfl this, Finset.sum_sub_distrib, Finset.sum_add_distrib, ← Finset.mul_sum, ← Finset.sum_mul, ← Finset.mul_sum]
  simp

/-- The squared difference of two means from the pairwise squared differences. -/
theorem mean_diff_sq {M : Finset L} {N : Finset L'} (hM : M.Nonempty) (hN : N.Nonempty) (a : L → K) (b : L' → K) :
    (eMean M a - eMean N b) ^ 2 = (∑ i ∈ M, ∑ j ∈ N, (a i - b j) ^ 2) / (M.card * N.card)
      - 1 / 2 * ((∑ i ∈ M, ∑ j ∈ M, (a i - a j) ^ 2) / (M.card * M.card))
      - 1 / 2 * ((∑ i ∈ N, ∑ j ∈ N, (b i - b j) ^ 2) / (N.card * N.card)) := by
  rw [sum_sq_diff, sum_sq_diff, sum_sq_diff]
  have h1 : (M.card : K) ≠ 0 := by exact_mod_cast hM.card_pos.ne'
  have h2 : (N.card : K) ≠ 0 := by exact_mod_cast hN.card_pos.ne'
  unfold eMean
  field_simp
  ring

end algebra

/-- The step function at `a`. -/
noncomputable def stepAt (a z : ℝ) : ℝ := if a ≤ z then 1 else 0

theorem stepAt_diff_sq (a b : ℝ) : (fun z => (stepAt a z - stepAt b z) ^ 2) = (Set.Ico (min a b) (max a b)).indicator (fun _ => (1 : ℝ)) := by
  funext z
  unfold stepAt
  rw [Set.indicator_apply]
  simp only [Set.mem_Ico, min_le_iff, lt_max_iff]
  by_cases h1 : a ≤ z <;> by_cases h2 : b ≤ z <;> simp [h1, h2, not_lt.mpr, not_le.mp] <;> push Not at h1 h2 <;> simp [*]

theorem integrable_stepAt_diff (a b : ℝ) : Integrable (fun z => (stepAt a z - stepAt b z) ^ 2) := by
  rw [stepAt_diff_sq]
  rw [integrable_indicator_iff measurableSet_Ico]
  exact integrableOn_const (by simp)

theorem integral_stepAt_diff (a b : ℝ) : ∫ z, (stepAt a z - stepAt b z) ^ 2 = |a - b| := by
  rw [stepAt_diff_sq, integral_indicator measurableSet_Ico]
  simp [max_sub_min_eq_abs']

theorem integral_pairs {L L' : Type} (M : Finset L) (N : Finset L') (x : L → ℝ) (y : L' → ℝ) :
    Integrable (fun z => ∑ i ∈ M, ∑ j ∈ N, (stepAt (x i) z - stepAt (y j) z) ^ 2) ∧
    ∫ z, ∑ i ∈ M, ∑ j ∈ N, (stepAt (x i) z - stepAt (y j) z) ^ 2 = ∑ i ∈ M, ∑ j ∈ N, |x i - y j| := by
  have hi : ∀ i ∈ M, Integrable (fun z => ∑ j ∈ N, (stepAt (x i) z - stepAt (y j) z) ^ 2) :=
    fun i _ => integrable_finsetSum _ (fun j _ => integrable_stepAt_diff _ _)
  refine ⟨integrable_finsetSum _ hi, ?_⟩
  rw [integral_finsetSum _ hi]
  refine Finset.sum_congr rfl (fun i _ => ?_)
  rw [integral_finsetSum _ (fun j _ => integrable_stepAt_diff _ _)]
  exact Finset.sum_congr rfl (fun j _ => integral_stepAt_diff _ _)

/-- The (unfair) energy distance of two ensembles is the integral of the squared difference of their distribution functions. -/
theorem energy_integral {L L' : Type} [DecidableEq L] [DecidableEq L'] {M : Finset L} {N : Finset L'} (hM : M.Nonempty) (hN : N.Nonempty)
    (x : L → ℝ) (y : L' → ℝ) :
    eSkill2 M N x y - 1 / 2 * eSpread false M x - 1 / 2 * eSpread false N y = ∫ z, (eCDF M x z - eCDF N y z) ^ 2 := by
  have hpt : ∀ z, (eCDF M x z - eCDF N y z) ^ 2 = (∑ i ∈ M, ∑ j ∈ N, (stepAt (x i) z - stepAt (y j) z) ^ 2) / (M.card * N.card)
      - 1 / 2 * ((∑ i ∈ M, ∑ j ∈ M, (stepAt (x i) z - stepAt (x j) z) ^ 2) / (M.card * M.card))
      - 1 / 2 * ((∑ i ∈ N, ∑ j ∈ N, (stepAt (y i) z - stepAt (y j) z) ^ 2) / (N.card * N.card)) := by
    intro z
    rw [← mean_diff_sq hM hN]
    rfl
  simp only [hpt]
  obtain ⟨i1, v1⟩ := integral_pairs M N x y
  obtain ⟨i2, v2⟩ := integral_pairs M M x x
  obtain ⟨i3, v3⟩ := integral_pairs N N y y
  rw [integral_sub, integral_sub, integral_const_mul, integral_const_mul, integral_div, integral_div, integral_div, v1, v2, v3]
  · simp [eSkill2, eSpread]
  · exact i1.div_const _
  · exact (i2.div_const _).const_mul _
  · exact (i1.div_const _).sub ((i2.div_const _).const_mul _)
  · exact (i3.div_const _).const_mul _

end WBX
