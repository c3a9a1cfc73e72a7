import Verif.Model.Deterministic
import Verif.Model.Interpolation
import Mathlib.Analysis.SpecialFunctions.Trigonometric.Basic
import Mathlib.Analysis.SpecialFunctions.Pow.Real

/-!
# Model of `/repo/weatherbenchX/statistical_inference/t_test.py` and of `significance_tests` in `base.py`

The arrays of deviations have a dimension of experimental units with a given order of its labels (`Ordered`). The t-distributions of scipy are a parameter: a family of
distribution functions with their inverses (`TDist`), one for each positive number of degrees of freedom; scipy returns NaN for others. Rounding is not modelled.
-/

namespace WBX
open DA

/-! ### Estimates from deviations -/

/-- `_variance_estimate_from_deviations` (t_test.py:60-64) of one series. -/
noncomputable def varianceEstimate (ddof : ℕ) (xs : List (FV ℝ)) : FV ℝ := (xs.map FV.sq).sum / FV.fin ((xs.length : ℝ) - ddof)

/-- `(original * lagged).mean(dim, skipna=False)` (t_test.py:76-82) for a positive lag; the mean of nothing is NaN. -/
noncomputable def laggedMean (lag : ℕ) (xs : List (FV ℝ)) : FV ℝ :=
  let ps := List.zipWith (· * ·) (xs.take (xs.length - lag)) (xs.drop lag)
  ps.sum / FV.fin (ps.length : ℝ)

/-- `_autocorrelation_estimate_from_deviations` (t_test.py:67-85): 0 where the variance is 0 (a NaN variance is not 0). -/
noncomputable def autocorrelation (lag : ℕ) (xs : List (FV ℝ)) : FV ℝ :=
  let variance := varianceEstimate 1 xs
  if FV.beq variance 0 then 0 else laggedMean lag xs / variance

/-- The numerator and denominator of `k_squared` (t_test.py:99, 107). -/
noncomputable def kSquared (rho1 rho2 phi1 phi2 : FV ℝ) : FV ℝ := (1 - rho1 * phi1 - rho2 * phi2) / FV.sq (1 - phi1 - phi2)

/-- `_inflation_factor_from_ar2_autocorrelation` (t_test.py:90-100). -/
noncomputable def inflationFromAutocorrelation (rho1 rho2 : FV ℝ) : FV ℝ :=
  let denominator := 1 - FV.sq rho1
  let phi1 := (rho1 * (1 - rho2)) / denominator
  let phi2 := (rho2 - FV.sq rho1) / denominator
  FV.sqrt (kSquared rho1 rho2 phi1 phi2)

/-- `_inflation_factor_from_ar2_coeffs` (t_test.py:103-108). -/
noncomputable def inflationFromCoefficients (phi1 phi2 : FV ℝ) : FV ℝ :=
  let rho1 := phi1 / (1 - phi2)
  let rho2 := phi2 + FV.sq phi1 / (1 - phi2)
  FV.sqrt (kSquared rho1 rho2 phi1 phi2)

/-! ### Results of the t-test -/

/-- A distribution of scipy: `cdf` and `ppf`. -/
structure TDist where
  cdf : ℝ → ℝ
  ppf : ℝ → ℝ

/-- `scipy.stats.t(df).cdf`: NaN unless `df > 0`. -/
noncomputable def tCdf (dist : ℕ → TDist) (df : ℤ) (z : FV ℝ) : FV ℝ :=
  if df ≤ 0 then .nan else match z with
    | .nan => .nan
    | .inf true => 0
    | .inf false => 1
    | .fin x => .fin ((dist df.toNat).cdf x)

/-- `scipy.stats.t(df).ppf`: NaN unless `df > 0`, and outside of `[0, 1]`. -/
noncomputable def tPpf (dist : ℕ → TDist) (df : ℤ) (q : ℝ) : FV ℝ :=
  if df ≤ 0 then .nan
  else if q < 0 ∨ 1 < q then .nan
  else if q = 0 then .inf true
  else if q = 1 then .inf false
  else .fin ((dist df.toNat).ppf q)

/-- `_TTestResults` (t_test.py:111-140). -/
structure TTestResults (L : Type) where
  mean : DA L (FV ℝ)
  standardError : DA L (FV ℝ)
  degreesOfFreedom : ℤ

section results
variable {L : Type} [DecidableEq L]

/-- `z_alpha` (t_test.py:120, 124). -/
noncomputable def zAlpha (dist : ℕ → TDist) (df : ℤ) (alpha : ℝ) : FV ℝ := - tPpf dist df (alpha / 2)

/-- `ci_lower` (t_test.py:119-121). -/
noncomputable def TTestResults.ciLower (dist : ℕ → TDist) (r : TTestResults L) (alpha : ℝ) : DA L (FV ℝ) :=
  DA.zipWith (fun m s => m - s * zAlpha dist r.degreesOfFreedom alpha) r.mean r.standardError

/-- `ci_upper` (t_test.py:123-125). -/
noncomputable def TTestResults.ciUpper (dist : ℕ → TDist) (r : TTestResults L) (alpha : ℝ) : DA L (FV ℝ) :=
  DA.zipWith (fun m s => m + s * zAlpha dist r.degreesOfFreedom alpha) r.mean r.standardError

/-- `z_score` (t_test.py:129-138). -/
noncomputable def zScore (m s : FV ℝ) (null : ℝ) : FV ℝ :=
  let difference := m - FV.fin null
  if FV.beq difference 0 && FV.beq s 0 then 0 else difference / s

/-- `p_value` (t_test.py:127-140). -/
noncomputable def TTestResults.pValue (dist : ℕ → TDist) (r : TTestResults L) (null : ℝ) : DA L (FV ℝ) :=
  DA.zipWith (fun m s => FV.fin 2 * (1 - tCdf dist r.degreesOfFreedom (zScore m s null).abs)) r.mean r.standardError

/-- A tree of results: metric name, variable name (statistical_inference/base.py:27-28), and `xarray_tree.map_structure` over it. -/
def mapTree {α β : Type} (f : α → β) (t : List (String × Vars α)) : List (String × Vars β) :=
  t.map (fun mv => (mv.1, mv.2.map (fun kv => (kv.1, f kv.2))))

/-- `significance_tests` (statistical_inference/base.py:170-198), given the p-values of the method. -/
noncomputable def significanceTests (pValues : ℝ → List (String × Vars (DA L (FV ℝ)))) (null alpha : ℝ) : List (String × Vars (DA L Bool)) :=
  mapTree (fun p => p.map (fun v => FV.le v (FV.fin alpha))) (pValues null)

/-- The methods of `_Base` (t_test.py:217-245). -/
noncomputable def tPointEstimates (rs : List (String × Vars (TTestResults L))) : List (String × Vars (DA L (FV ℝ))) := mapTree TTestResults.mean rs

/-- See `tPointEstimates`. -/
noncomputable def tStandardErrors (rs : List (String × Vars (TTestResults L))) : List (String × Vars (DA L (FV ℝ))) := mapTree TTestResults.standardError rs

/-- See `tPointEstimates`. -/
noncomputable def tConfidenceIntervals (dist : ℕ → TDist) (rs : List (String × Vars (TTestResults L))) (alpha : ℝ) :
    List (String × Vars (DA L (FV ℝ))) × List (String × Vars (DA L (FV ℝ))) :=
  (mapTree (fun r => r.ciLower dist alpha) rs, mapTree (fun r => r.ciUpper dist alpha) rs)

/-- See `tPointEstimates`. -/
noncomputable def tPValues (dist : ℕ → TDist) (rs : List (String × Vars (TTestResults L))) (null : ℝ) : List (String × Vars (DA L (FV ℝ))) :=
  mapTree (fun r => r.pValue dist null) rs

/-! ### The three methods -/

/-- The series of deviations along `d` at a cell of the other dimensions. -/
def series (d : Dim) (dev : Ordered L (FV ℝ)) (e : Dim → L) : List (FV ℝ) := (dev.order d).map (fun l => dev.arr.val (setLabel e d l))

/-- An array without the dimension `d` computed from the series along `d`. -/
def reduceSeries (d : Dim) (f : List (FV ℝ) → FV ℝ) (dev : Ordered L (FV ℝ)) : DA L (FV ℝ) :=
  { dims := dev.arr.dims.erase d, coords := dev.arr.coords, val := fun e => f (series d dev e) }

/-- `IID._compute_results` (t_test.py:264-275). -/
noncomputable def iidResults (d : Dim) (mean : DA L (FV ℝ)) (dev : Ordered L (FV ℝ)) : TTestResults L :=
  { mean := mean
    standardError := reduceSeries d (fun xs => FV.sqrt (varianceEstimate 1 xs / FV.fin (xs.length : ℝ))) dev
    degreesOfFreedom := ((dev.order d).length : ℤ) - 1 }

/-- The coordinate of the units: there may be none, numbers (`np.number`), or something else such as `datetime64`. -/
inductive UnitCoord where
  | missing
  | float (xs : List ℝ)
  | integer (xs : List ℤ)
  | other (xs : List ℤ)

/-- `coord.diff(dim)`. -/
def diffs {A : Type} [Sub A] (xs : List A) : List A := List.zipWith (fun a b => b - a) xs xs.tail

/-- `_check_constant(coord.diff(dim), …)` (t_test.py:39-49) for floats: `np.allclose` to the first; `isel([0])` of nothing is an `IndexError`. -/
noncomputable def checkConstantFloat (xs : List ℝ) : Except Err Unit :=
  match xs with
  | [] => .error .indexError
  | x :: _ => if xs.all (fun y => decide (|x - y| ≤ 1 / 10 ^ 8 + 1 / 10 ^ 5 * |y|)) then .ok () else .error .valueError

/-- `_check_constant` for other dtypes: all equal to the first. -/
def checkConstantInt (xs : List ℤ) : Except Err Unit :=
  match xs with
  | [] => .error .indexError
  | x :: _ => if xs.all (fun y => decide (x = y)) then .ok () else .error .valueError

/-- `_check_uniform_step` (t_test.py:52-57): only for coordinates whose dtype is a subtype of `np.number`, which `datetime64` is not. -/
noncomputable def checkUniformStep (coord : UnitCoord) : Except Err Unit :=
  match coord with
  | .float xs => checkConstantFloat (diffs xs)
  | .integer xs => checkConstantInt (diffs xs)
  | _ => .ok ()

/-- `GeerAR2Corrected._compute_results` (t_test.py:307-330). -/
noncomputable def geerResults (coord : UnitCoord) (d : Dim) (mean : DA L (FV ℝ)) (dev : Ordered L (FV ℝ)) : Except Err (TTestResults L) := do
  checkUniformStep coord
  return { mean := mean
           standardError := reduceSeries d (fun xs => FV.sqrt (varianceEstimate 1 xs / FV.fin (xs.length : ℝ)) *
             inflationFromAutocorrelation (autocorrelation 1 xs) (autocorrelation 2 xs)) dev
           degreesOfFreedom := ((dev.order d).length : ℤ) - 1 }

/-- Python's `int(x)`: towards zero. -/
noncomputable def pyInt (x : ℝ) : ℤ := if 0 ≤ x then ⌊x⌋ else ⌈x⌉

/-- The number of coefficients (t_test.py:453-458). -/
noncomputable def lazarusV (v0 : ℝ) (n : ℕ) : ℤ := min (max 1 (pyInt (v0 * (n : ℝ) ^ (2 / 3 : ℝ)))) ((n : ℤ) - 1)

/-- `scipy.fft.dct(x, type=2, norm='ortho')`, coefficient number `k`. -/
noncomputable def dctOrtho (xs : List (FV ℝ)) (k : ℕ) : FV ℝ :=
  (xs.zipIdx.map (fun q => q.1 * FV.fin (2 * Real.cos (Real.pi * k * (2 * q.2 + 1) / (2 * xs.length))))).sum *
    FV.fin (if k = 0 then √(1 / (4 * xs.length)) else √(1 / (2 * xs.length)))

/-- `compute_long_run_variance_estimate` (t_test.py:460-471): the mean of the squares of the coefficients `1, …, v`. -/
noncomputable def longRunVariance (v : ℕ) (xs : List (FV ℝ)) : FV ℝ :=
  let ps := (List.range xs.length).map (dctOrtho xs)
  let ps := (ps.take (v + 1)).drop 1
  (ps.map FV.sq).sum / FV.fin (ps.length : ℝ)

/-- `LazarusHACEWC._compute_results` (t_test.py:445-485). -/
noncomputable def lazarusResults (v0 : ℝ) (coord : UnitCoord) (d : Dim) (mean : DA L (FV ℝ)) (dev : Ordered L (FV ℝ)) : Except Err (TTestResults L) := do
  checkUniformStep coord
  return { mean := mean
           standardError := reduceSeries d (fun xs => FV.sqrt (longRunVariance (lazarusV v0 (dev.order d).length).toNat xs / FV.fin (xs.length : ℝ))) dev
           degreesOfFreedom := lazarusV v0 (dev.order d).length }

end results
end WBX
