import Mathlib.Analysis.Calculus.FDeriv.Basic
import Mathlib.Analysis.Calculus.FDeriv.Pi
import Mathlib.Analysis.Calculus.FDeriv.Prod

/-!
# Model of `/repo/weatherbenchX/statistical_inference/autodiff.py`

The nested dicts of arrays are flattened: `ι` has one element for every statistic, variable and cell of the state, `κ` one for every metric, variable and cell of the result.
Values are real: NaN, weights that sum to zero and rounding are not modelled. `jax.linearize` and `jax.vmap` are taken at their contract: the derivative of a differentiable
function, applied to every experimental unit.
-/

namespace WBX.Autodiff
variable {ι κ : Type} [Fintype ι] [Fintype κ] {n : ℕ}

/-- The sums of weighted statistics and the sums of weights. -/
abbrev State (ι : Type) := (ι → ℝ) × (ι → ℝ)

/-- `x.mean(experimental_unit_dim)` of numerators and denominators (autodiff.py:170-171). -/
noncomputable def meanState (s : Fin n → State ι) : State ι := ((fun j => (∑ i, (s i).1 j) / n), (fun j => (∑ i, (s i).2 j) / n))

/-- `metric_jax` (autodiff.py:181-192): the metric of the mean statistics of a state. -/
noncomputable def metricOfState (g : (ι → ℝ) → (κ → ℝ)) (p : State ι) : κ → ℝ := g (fun j => p.1 j / p.2 j)

/-- `jax.linearize(f, p)`: the value and the derivative at `p`. -/
noncomputable def linearize (f : State ι → (κ → ℝ)) (p : State ι) : (κ → ℝ) × (State ι →L[ℝ] (κ → ℝ)) := (f p, fderiv ℝ f p)

/-- `per_unit_values_linearized_around_mean_statistics` (autodiff.py:33-233): the value of the metrics and, for every unit, the tangent. -/
noncomputable def perUnitValues (g : (ι → ℝ) → (κ → ℝ)) (s : Fin n → State ι) : (κ → ℝ) × (Fin n → κ → ℝ) :=
  let mean := meanState s
  let (value, linearized) := linearize (metricOfState g) mean
  (value, fun i => linearized (s i - mean))

end WBX.Autodiff
