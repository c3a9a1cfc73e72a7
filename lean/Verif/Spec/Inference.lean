import Verif.Model.TTest
import Mathlib.Analysis.SpecialFunctions.Trigonometric.Arctan

/-!
# Specification: what is used of Student's t-distributions

`scipy.stats.t(df)` has a distribution function that is continuous, strictly increasing, symmetric around 0 and between 0 and 1, and `ppf` is its inverse.
-/

namespace WBX

/-- A symmetric distribution with a strictly increasing distribution function and its inverse. -/
structure IsSymmetricDist (d : TDist) : Prop where
  strictMono : StrictMono d.cdf
  symm : ∀ x, d.cdf (-x) = 1 - d.cdf x
  pos : ∀ x, 0 < d.cdf x
  ppf_cdf : ∀ x, d.ppf (d.cdf x) = x
  cdf_ppf : ∀ q, 0 < q → q < 1 → d.cdf (d.ppf q) = q

/-- The probability that the variable is at most `z` in absolute value. -/
noncomputable def TDist.within (d : TDist) (z : ℝ) : ℝ := d.cdf z - d.cdf (-z)

/-- Student's t-distribution with one degree of freedom (Cauchy's distribution), a concrete instance. -/
noncomputable def student1 : TDist where
  cdf x := 1 / 2 + Real.arctan x / Real.pi
  ppf q := Real.tan (Real.pi * (q - 1 / 2))

theorem student1_spec : IsSymmetricDist student1 := by
  have hpi := Real.pi_pos
  refine ⟨?_, ?_, ?_, ?_, ?_⟩
  · intro a b hab
    have := Real.arctan_strictMono hab
    simp only [student1]
    have h2 : Real.arctan a / Real.pi < Real.arctan b / Real.pi := div_lt_div_of_pos_right this hpi
    linarith
  · intro x; simp only [student1, Real.arctan_neg]; ring
  · intro x
    have := Real.neg_pi_div_two_lt_arctan x
    simp only [student1]
    have h2 : -(1 / 2) < Real.arctan x / Real.pi := by rw [lt_div_iff₀ hpi]; linarith
    linarith
  · intro x
    simp only [student1]
    rw [show Real.pi * (1 / 2 + Real.arctan x / Real.pi - 1 / 2) = Real.arctan x by field_simp; ring, Real.tan_arctan]
  · intro q h0 h1
    simp only [student1]
    rw [Real.arctan_tan (by nlinarith) (by nlinarith)]
    field_simp
    ring

end WBX

namespace WBX
open Finset

/-- The coefficients `φ1, φ2` of the AR(2) process with autocorrelations `ρ1, ρ2` (Yule–Walker equations). -/
def YuleWalker (rho1 rho2 phi1 phi2 : ℝ) : Prop := rho1 = phi1 + phi2 * rho1 ∧ rho2 = phi1 * rho1 + phi2

/-- All autocorrelations of an AR(2) process. -/
structure AR2Autocorrelation (phi1 phi2 : ℝ) (rho : ℕ → ℝ) : Prop where
  zero : rho 0 = 1
  one : rho 1 = phi1 + phi2 * rho 1
  step : ∀ h, rho (h + 2) = phi1 * rho (h + 1) + phi2 * rho h
  summable : Summable rho

/-- The estimated variance of `n` deviations `x 0, …, x (n - 1)`. -/
noncomputable def sampleVariance (n : ℕ) (x : ℕ → ℝ) : ℝ := (∑ i ∈ range n, x i ^ 2) / (n - 1)

/-- The estimated autocorrelation. -/
noncomputable def sampleAutocorrelation (n lag : ℕ) (x : ℕ → ℝ) : ℝ := (∑ i ∈ range (n - lag), x i * x (i + lag)) / (n - lag : ℕ) / sampleVariance n x

/-- Geer's squared inflation factor. -/
noncomputable def geerFactorSq (rho1 rho2 : ℝ) : ℝ :=
  (1 - rho1 * ((rho1 * (1 - rho2)) / (1 - rho1 ^ 2)) - rho2 * ((rho2 - rho1 ^ 2) / (1 - rho1 ^ 2))) /
    (1 - (rho1 * (1 - rho2)) / (1 - rho1 ^ 2) - (rho2 - rho1 ^ 2) / (1 - rho1 ^ 2)) ^ 2

/-- The projection of the deviations on the cosine of frequency `k`, normalised (Lazarus et al. 2018). -/
noncomputable def cosineProjection (n : ℕ) (x : ℕ → ℝ) (k : ℕ) : ℝ := √(2 / n) * ∑ j ∈ range n, x j * Real.cos (Real.pi * k * (j + 1 / 2) / n)

end WBX
