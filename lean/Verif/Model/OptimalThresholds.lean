import Verif.Model.EconomicValue

/-!
# Model of `RelativeEconomicValue` with `optimal_thresholds` as they are given (`/repo/weatherbenchX/metrics/probabilistic.py:883-936, 1048-1065, 1112-1180`)

The selection is by the values of the thresholds, exactly or with `method='nearest'`, as `pandas.Index.get_indexer` does it. Optimal thresholds that are NaN and the jax branch are not modelled.
-/

namespace WBX
open Classical
variable {L K : Type} [DecidableEq L] [Field K] [LinearOrder K] [IsStrictOrderedRing K]

/-- The argument `optimal_thresholds` (probabilistic.py:964-966). -/
inductive OptimalArg (L K : Type)
  | notGiven
  | shared (o : DA L K)
  | perVariable (m : Vars (DA L K))

/-- The arrays that `__init__` looks at (probabilistic.py:1048-1052). -/
def OptimalArg.arrays : OptimalArg L K → List (DA L K)
  | .notGiven => []
  | .shared o => [o]
  | .perVariable m => m.map Prod.snd

/-- The checks of `optimal_thresholds` in `__init__` (probabilistic.py:1048-1062); `ratios` are the labels of the cost/loss ratios. Their order, which `equals` also compares, is not modelled. -/
def checkOptimal (ratios : Finset L) (opt : OptimalArg L K) : Except Err Unit :=
  opt.arrays.foldlM (fun _ o => if "cost_loss_ratio" ∉ o.dims then .error .valueError else if o.coords "cost_loss_ratio" ≠ ratios then .error .valueError else .ok ⟨⟩) ⟨⟩

/-- The thresholds of the arrays after `_add_constant_threshold_results` (probabilistic.py:1105-1109), in their order. -/
def thresholdIndex (ts : List K) : List K := 0 :: (ts ++ [1])

/-- `method='pad'`: the last entry that is not larger. -/
def padEntry (index : List K) (x : K) : Option K := (index.filter (fun y => decide (y ≤ x))).getLast?

/-- `method='backfill'`: the first entry that is not smaller. -/
def backfillEntry (index : List K) (x : K) : Option K := (index.filter (fun y => decide (x ≤ y))).head?

/-- `method='nearest'` of pandas for an increasing index: the entry before if it is strictly nearer, else the entry after. -/
def nearestEntry (index : List K) (x : K) : Option K :=
  match padEntry index x, backfillEntry index x with
  | some l, some r => if |l - x| < |r - x| then some l else some r
  | some l, none => some l
  | none, some r => some r
  | none, none => none

/-- `_select_optimal_thresholds` (probabilistic.py:883-936): an index with repeated entries is refused (`InvalidIndexError`, here `indexError`), and with `method='nearest'` one that is not
increasing (`ValueError`); without a method an optimum that is not in the index is a `KeyError`. -/
noncomputable def selectThresholds (label : FV K → L) (nearest : Bool) (index : List K) (o : DA L K) (x : DA L (FV K)) : Except Err (DA L (FV K)) :=
  if ¬ index.Nodup then .error .indexError
  else if nearest then
    if ¬ index.Pairwise (· ≤ ·) ∧ (∃ e, o.InDom e) then .error .valueError
    else selectOptimal (o.map (fun y => label (.fin ((nearestEntry index y).getD y)))) x
  else selectOptimal (o.map (fun y => label (.fin y))) x

/-- The thresholds of a variable (probabilistic.py:1167-1171): `KeyError` if a mapping does not have the variable. -/
def OptimalArg.forVariable (opt : OptimalArg L K) (v : String) : Except Err (Option (DA L K)) :=
  match opt with
  | .notGiven => .ok none
  | .shared o => .ok (some o)
  | .perVariable m => do
    let o ← pyItem m v
    return some o

/-- `_values_from_mean_statistics_per_variable` (probabilistic.py:1133-1180) for one variable. -/
noncomputable def revValuesFor (label : FV K → L) (ts : List K) (ratio : DA L (FV K)) (opt : OptimalArg L K) (nearest : Bool) (v : String) (first : L) (tp fp fn : DA L (FV K)) :
    Except Err (DA L (FV K)) := do
  let o ← opt.forVariable v
  match o with
  | none => revValues label first ratio none tp fp fn
  | some o => do
    let tp' ← selectThresholds label nearest (thresholdIndex ts) o (addConstants label first tp fp fn).1
    let fp' ← selectThresholds label nearest (thresholdIndex ts) o (addConstants label first tp fp fn).2.1
    let fn' ← selectThresholds label nearest (thresholdIndex ts) o (addConstants label first tp fp fn).2.2
    return revFormula ratio tp' fp' fn'

/-- `values_from_mean_statistics` (probabilistic.py:1112-1131): as in `PerVariableMetric`, but the formula also gets the name of the variable. -/
def perVariableNamedValues {M : Type} (names : List String) (g : String → List (String × M) → Except Err M) (sv : List (String × Vars M)) : Except Err (Vars M) := do
  let vs ← names.mapM (pyItem sv)
  let common ← commonVariables vs
  common.mapM (fun v => do
    let perVar ← names.mapM (fun s => do
      let m ← pyItem sv s
      let x ← pyItem m v
      return (s, x))
    let x ← g v perVar
    return (v, x))

/-- The formula of one variable (probabilistic.py:1133-1165): from the three statistics. `isel(threshold=0)` of no threshold is an `IndexError`. -/
noncomputable def revFromStatistics (label : FV K → L) (ts : List K) (ratio : DA L (FV K)) (opt : OptimalArg L K) (nearest : Bool) (v : String) (xs : List (String × DA L (FV K))) :
    Except Err (DA L (FV K)) := do
  let tp ← pyItem xs "TruePositives"
  let fp ← pyItem xs "FalsePositives"
  let fn ← pyItem xs "FalseNegatives"
  match ts with
  | [] => .error .indexError
  | first :: _ => revValuesFor label ts ratio opt nearest v (label (.fin first)) tp fp fn

/-- `RelativeEconomicValue` (probabilistic.py:939-1180) with all of its arguments, after `__init__`. -/
noncomputable def economicValueMetric (label : FV K → L) (ts : List K) (suffix : String) (ratio : DA L (FV K)) (opt : OptimalArg L K) (nearest : Bool) : FMetric L K :=
  { statistics := (relativeEconomicValue label (ts.map FV.fin) suffix ratio none).statistics
    valuesFromMeanStatistics := perVariableNamedValues ["TruePositives", "TrueNegatives", "FalsePositives", "FalseNegatives"] (revFromStatistics label ts ratio opt nearest) }

end WBX
