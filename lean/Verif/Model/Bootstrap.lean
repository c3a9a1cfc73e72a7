import Verif.Model.TTest
import Verif.Model.MetricsBase
import Mathlib.Data.List.Sort
import Mathlib.Analysis.SpecialFunctions.Log.Base

/-!
# Model of `/repo/weatherbenchX/statistical_inference/bootstrap.py` and of `utils.py`

Random draws are arguments, so that theorems hold for all of them. Replicates that are infinite are not modelled (`finites` drops them). The resampled values of a cell are
given as a list over the dimension of the replicates. Rounding is not modelled.
-/

namespace WBX
open DA

/-! ### Results from replicates -/

/-- `resampled[~np.isnan(resampled)]` (bootstrap.py:113) and `skipna=True`, for lists without infinite values. -/
def finites (xs : List (FV ℝ)) : List ℝ := xs.filterMap (fun | .fin x => some x | _ => none)

/-- `np.sort`. -/
noncomputable def sorted (xs : List ℝ) : List ℝ := xs.insertionSort (· ≤ ·)

/-- `np.quantile` of sorted numbers with the default method `linear`: interpolation at the position `q * (n - 1)`. -/
noncomputable def quantileSorted (q : ℝ) (a : List ℝ) : ℝ :=
  let position := q * ((a.length : ℝ) - 1)
  let lo := ⌊position⌋₊
  let hi := min (lo + 1) (a.length - 1)
  a.getD lo 0 + (a.getD hi 0 - a.getD lo 0) * (position - lo)

/-- `x.quantile(q, _REPLICATE_DIM, skipna=True)` (bootstrap.py:96-103); NaN without any number. The `ValueError` for `q` outside of `[0, 1]` is not modelled. -/
noncomputable def quantile (q : ℝ) (xs : List (FV ℝ)) : FV ℝ :=
  if finites xs = [] then .nan else .fin (quantileSorted q (sorted (finites xs)))

/-- `np.linspace(0, 1, n)[j]`; a single value is 0. -/
noncomputable def linspace01 (n j : ℕ) : ℝ := if n = 1 then 0 else (j : ℝ) / ((n : ℝ) - 1)

/-- `np.interp(x, a, np.linspace(0, 1, n))` for increasing `a`: constant outside of the data; between, the segment that starts at the last element at most `x`. -/
noncomputable def interpCdf (x : ℝ) (a : List ℝ) : ℝ :=
  let n := a.length
  if x < a.getD 0 0 then linspace01 n 0
  else
    let j := Nat.findGreatest (fun i => a.getD i 0 ≤ x) (n - 1)
    if j = n - 1 then linspace01 n (n - 1)
    else (linspace01 n (j + 1) - linspace01 n j) / (a.getD (j + 1) 0 - a.getD j 0) * (x - a.getD j 0) + linspace01 n j

/-- `p_value_numpy_1d` (bootstrap.py:112-119). -/
noncomputable def bootstrapPValue (null : ℝ) (xs : List (FV ℝ)) : FV ℝ :=
  if finites xs = [] then .nan
  else
    let c := interpCdf null (sorted (finites xs))
    .fin (2 * min c (1 - c))

/-- `x.std(_REPLICATE_DIM, ddof=1, skipna=True)` (bootstrap.py:85-89); NaN for less than two numbers. -/
noncomputable def bootstrapStd (xs : List (FV ℝ)) : FV ℝ :=
  let ys := finites xs
  if ys.length ≤ 1 then .nan
  else
    let mean := ys.sum / ys.length
    .fin √((ys.map (fun y => (y - mean) ^ 2)).sum / ((ys.length : ℝ) - 1))

/-! ### Resampling with counts -/

section counts
variable {L D : Type} [DecidableEq L]

/-- `_REPLICATE_DIM` (bootstrap.py:32). -/
def replicateDim : Dim := "bootstrap_replicate"

/-- The array of counts of `IIDBootstrap` (bootstrap.py:149-153): `np.random.multinomial(n, uniform, size)` counts, for every replicate, how often each unit occurs among `n`
draws. -/
def iidCounts (d : Dim) (units replicates : Finset L) (draws : L → List L) : DA L (FV ℝ) where
  dims := {replicateDim, d}
  coords := fun d' => if d' = replicateDim then replicates else units
  val := fun e => .fin ((draws (e replicateDim)).count (e d))

/-- The array of counts of `ClusterBootstrap` (bootstrap.py:216-227): the count of the cluster of each unit among the drawn clusters. -/
def clusterCounts {C : Type} [DecidableEq C] (d : Dim) (units replicates : Finset L) (cluster : L → C) (draws : L → List C) : DA L (FV ℝ) where
  dims := {replicateDim, d}
  coords := fun d' => if d' = replicateDim then replicates else units
  val := fun e => .fin ((draws (e replicateDim)).count (cluster (e d)))

/-- The point estimates (bootstrap.py:156-158, 231-233). -/
noncomputable def bootstrapEstimates (metrics : List (String × Metric D (Option (StatVar L (FV ℝ))) (DA L (FV ℝ)))) (d : Dim) (s : AggState L (FV ℝ)) :
    Except Err (List (String × Vars (DA L (FV ℝ)))) := do
  let total ← s.sumAlongDims [d]
  total.metricTable metrics

/-- The resampled values (bootstrap.py:154-155, 159-160 and 229-230, 234-235). -/
noncomputable def bootstrapReplicates (metrics : List (String × Metric D (Option (StatVar L (FV ℝ))) (DA L (FV ℝ)))) (d : Dim) (counts : DA L (FV ℝ)) (s : AggState L (FV ℝ)) :
    Except Err (List (String × Vars (DA L (FV ℝ)))) := do
  let resampled ← s.dot [counts] [d]
  resampled.metricTable metrics

end counts

/-! ### Stationary bootstrap -/

/-- `stationary_bootstrap_indices` (bootstrap.py:238-259) for one replicate: the first index and, for every later position, the random number that may end the block and the
new random index. -/
noncomputable def stationaryIndices (n : ℕ) (meanBlockLength : ℝ) (first : ℕ) (draws : List (ℝ × ℕ)) : List ℕ :=
  draws.scanl (fun current draw => if draw.1 < 1 / meanBlockLength then draw.2 else (current + 1) % n) first

/-- `data.isel(…).sum(dim)` (bootstrap.py:543-548): the default `skipna` of a float array leaves NaN out. -/
def sumResampled (xs : List (FV ℝ)) (indices : List ℕ) : FV ℝ := ((indices.map (fun i => xs.getD i .nan)).filter (fun v => !v.isnan)).sum

/-- The mean statistic of one replicate (bootstrap.py:549-552), of a statistic with the given values and weights of the units. -/
noncomputable def resampledMean (stats weights : List (FV ℝ)) (indices : List ℕ) : FV ℝ := sumResampled stats indices / sumResampled weights indices

/-- The mean statistic of the point estimate (autodiff.py:170-171: `mean(skipna=False)` of numerator and denominator). -/
noncomputable def estimateMean (stats weights : List (FV ℝ)) : FV ℝ :=
  (stats.sum / FV.fin (stats.length : ℝ)) / (weights.sum / FV.fin (weights.length : ℝ))

/-- `logarithmic_round` (utils.py:71-73) with `round` a rounding to a nearest integer. -/
noncomputable def logarithmicRound (round : ℝ → ℤ) (resolution x : ℝ) : ℝ := (10 : ℝ) ^ ((round (Real.logb 10 x * resolution) : ℝ) / resolution)

/-- `_optimal_block_length` (bootstrap.py:403-439): the given one, or the one of the `arch` library, at least 1 and rounded; too few units are a `ValueError`. -/
noncomputable def optimalBlockLength (given : Option ℝ) (n : ℕ) (arch : ℝ) (round : ℝ → ℤ) (resolution : Option ℝ) : Except Err ℝ :=
  match given with
  | some b => .ok b
  | none =>
    if n < 8 then .error .valueError
    else
      let result := max 1 arch
      match resolution with
      | some res => .ok (logarithmicRound round res result)
      | none => .ok result

/-! ### The coordinate of the experimental units -/

/-- What `get_and_check_experimental_unit_coord` (utils.py:25-68) reads of the coordinate of one variable. -/
structure CoordInfo (A : Type) where
  dims : List Dim
  values : List A

/-- The loop (utils.py:43-65) over all variables of all statistics; `none` stands for a variable without the coordinate. -/
def checkUnitCoordLoop {A : Type} [DecidableEq A] (name : String) (checkIsDim : Bool) : Option (CoordInfo A) → List (Option (CoordInfo A)) → Except Err (Option (CoordInfo A))
  | coord, [] => .ok coord
  | _, none :: _ => .error .valueError
  | coord, some c :: rest =>
    if c.dims.length ≠ 1 then .error .valueError
    else if checkIsDim && c.dims.head? != some name then .error .valueError
    else match coord with
      | none => checkUnitCoordLoop name checkIsDim (some c) rest
      | some first =>
        if c.values.length ≠ first.values.length then .error .valueError
        else if c.values ≠ first.values then .error .valueError
        else checkUnitCoordLoop name checkIsDim (some first) rest

/-- `get_and_check_experimental_unit_coord` (utils.py:25-68). -/
def checkUnitCoord {A : Type} [DecidableEq A] (name : String) (checkIsDim : Bool) (coords : List (Option (CoordInfo A))) : Except Err (CoordInfo A) := do
  let coord ← checkUnitCoordLoop name checkIsDim none coords
  match coord with
  | some c => return c
  | none => .error .valueError

end WBX
