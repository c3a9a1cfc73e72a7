import Verif.Model.Wrappers

/-!
# Model of `EnsembleRankedProbabilityScore` and `RelativeEconomicValue` (`/repo/weatherbenchX/metrics/probabilistic.py`)
-/

namespace WBX
open Classical
variable {L K : Type} [DecidableEq L] [Field K] [LinearOrder K] [IsStrictOrderedRing K]

/-- `EnsembleRankedProbabilityScore._compute_per_variable` with the statistic built in `__init__` (probabilistic.py:404-452, 464-478).
`trP` and `trT` are the `ContinuousToCDF` transforms of the predictions and the targets; inside `_compute_per_variable` the arrays sit
under the key `tmp`, but their `.name` is still that of the variable, so `trP` and `trT` are already those of the variable. -/
noncomputable def ensembleRPS (trP trT : InputTransform L K) (binDim d : Dim) (skipna fair : Bool) (p t : StatVar L (FV K)) :
    Except Err (StatVar L (FV K)) := do
  let seStat : FStatistic L K := if fair then unbiasedMSEStatistic d skipna
    else wrappedStatistic squaredErrorStatistic ⟨"both", "ensemble_mean", fun _ => ensembleMeanFn d skipna true⟩
  let r ← (wrappedStatistic (wrappedStatistic seStat trT) trP).compute [("tmp", p)] [("tmp", t)]
  let s ← pyItem r "tmp"
  match s with
  | some s => s.nansumDim skipna binDim
  | none => .error .attributeError

/-- `EnsembleRankedProbabilityScore` (probabilistic.py:339-478) for thresholds that do not depend on the name of the variable; the
unique name does not mention `right_inclusive` nor the bin dimension. -/
noncomputable def ensembleRPSStatistic (trP trT : InputTransform L K) (binDim d : Dim) (skipna fair : Bool) (suffix : String) : FStatistic L K :=
  statOfE ("RankedProbabilityScore_" ++ d ++ "_skipna_ensemble_" ++ (if skipna then "True" else "False") ++ "_fair_" ++
    (if fair then "True" else "False") ++ "_" ++ suffix) (ensembleRPS trP trT binDim d skipna fair)

/-- `np.minimum`: NaN if either is NaN. -/
def FV.minimum (a b : FV K) : FV K := if a.isnan then .nan else if b.isnan then .nan else if FV.le a b then a else b

/-- `RelativeEconomicValue.__init__`, the thresholds (probabilistic.py:1010-1065): exactly one of `ensemble_size` and
`probability_thresholds` must be given, the latter with a suffix, and all thresholds must be in `[0, 1]`. -/
def revThresholds (ensembleSize : Option ℕ) (probabilityThresholds : Option (List (FV K))) (suffix : Option String) :
    Except Err (List (FV K) × String) :=
  match ensembleSize, probabilityThresholds with
  | none, none => .error .valueError
  | some _, some _ => .error .valueError
  | none, some ts => match suffix with
    | none => .error .valueError
    | some s => if ts.all (fun t => FV.le 0 t) && ts.all (fun t => FV.le t 1) then .ok (ts, s) else .error .valueError
  | some n, none =>
    let ts : List (FV K) := (List.range n).map (fun i : ℕ => FV.fin (((i : K) + 1 / 2) / n))
    if ts.all (fun t => FV.le 0 t) && ts.all (fun t => FV.le t 1) then .ok (ts, suffix.getD "all_thresholds_for_ensemble_size")
    else .error .valueError

/-- One array with the constant forecasts added (probabilistic.py:1091-1131): `xr.concat([at(x0, 0.0), x, at(x1, 1.0)])`.
Thresholds 0 and 1 among the given ones (which would give repeated labels) are not modelled. -/
def addConstant (label : FV K → L) (x0 x x1 : DA L (FV K)) : DA L (FV K) :=
  { dims := insert "threshold" x.dims,
    coords := fun k => if k = "threshold" then insert (label 0) (insert (label 1) (x.coords k)) else x.coords k,
    val := fun e => if e "threshold" = label 0 then x0.val e else if e "threshold" = label 1 then x1.val e else x.val e }

/-- `x.isel(threshold=0, drop=True)`; `first` is the first threshold label. -/
def firstThreshold (first : L) (x : DA L (FV K)) : DA L (FV K) :=
  { dims := x.dims.erase "threshold", coords := x.coords, val := fun e => x.val (DA.setLabel e "threshold" first) }

/-- `_add_constant_threshold_results` (probabilistic.py:1091-1110). -/
def addConstants (label : FV K → L) (first : L) (tp fp fn : DA L (FV K)) : DA L (FV K) × DA L (FV K) × DA L (FV K) :=
  let base := (firstThreshold first tp).add (firstThreshold first fn)
  let zero := base.map (fun _ => 0)
  (addConstant label base tp zero, addConstant label (base.map (fun b => 1 - b)) fp zero, addConstant label zero fn base)

/-- `_select_optimal_thresholds` with exact matches (probabilistic.py:883-936): `opt` is the array of the labels of the optimal
thresholds. `method='nearest'` and the jax branch are not modelled. -/
noncomputable def selectOptimal (opt : DA L L) (x : DA L (FV K)) : Except Err (DA L (FV K)) :=
  if ∀ e, opt.InDom e → opt.val e ∈ x.coords "threshold" then
    .ok { dims := x.dims.erase "threshold" ∪ opt.dims, coords := fun k => if k ∈ opt.dims then opt.coords k else x.coords k,
          val := fun e => x.val (DA.setLabel e "threshold" (opt.val e)) }
  else .error .keyError

/-- The cost formula (probabilistic.py:1177-1180). -/
def revFormula (ratio tp fp fn : DA L (FV K)) : DA L (FV K) :=
  let pred := (ratio.mul (tp.add fp)).add fn
  let perf := ratio.mul (tp.add fn)
  let clim := DA.zipWith FV.minimum ratio (tp.add fn)
  (clim.sub pred).div (clim.sub perf)

/-- `_values_from_mean_statistics_per_variable` (probabilistic.py:1133-1180). -/
noncomputable def revValues (label : FV K → L) (first : L) (ratio : DA L (FV K)) (opt : Option (DA L L)) (tp fp fn : DA L (FV K)) :
    Except Err (DA L (FV K)) :=
  let (tp, fp, fn) := addConstants label first tp fp fn
  match opt with
  | none => .ok (revFormula ratio tp fp fn)
  | some o => do
    let tp ← selectOptimal o tp
    let fp ← selectOptimal o fp
    let fn ← selectOptimal o fn
    return revFormula ratio tp fp fn

/-- The `ContinuousToBinary` transform of the statistics (probabilistic.py:1069-1074). -/
noncomputable def revBinarize (label : FV K → L) (thresholds : List (FV K)) (suffix : String) : InputTransform L K :=
  ⟨"predictions", "threshold=" ++ suffix, fun _ x => .ok (binarize (thresholdArray label "threshold" thresholds) x)⟩

/-- `RelativeEconomicValue` (probabilistic.py:939-1180) for optimal thresholds that do not depend on the variable: its values are
computed per variable, for the variables common to all four statistics, exactly as in `PerVariableMetric`. `isel(threshold=0)` of no
threshold is an `IndexError`. -/
noncomputable def relativeEconomicValue (label : FV K → L) (thresholds : List (FV K)) (suffix : String) (ratio : DA L (FV K))
    (opt : Option (DA L L)) : FMetric L K :=
  perVariableMetric [("TruePositives", wrappedStatistic tpStatistic (revBinarize label thresholds suffix)),
      ("TrueNegatives", wrappedStatistic tnStatistic (revBinarize label thresholds suffix)),
      ("FalsePositives", wrappedStatistic fpStatistic (revBinarize label thresholds suffix)),
      ("FalseNegatives", wrappedStatistic fnStatistic (revBinarize label thresholds suffix))] (fun xs => do
    let tp ← pyItem xs "TruePositives"
    let fp ← pyItem xs "FalsePositives"
    let fn ← pyItem xs "FalseNegatives"
    match thresholds with
    | [] => .error .indexError
    | first :: _ => revValues label (label first) ratio opt tp fp fn)

end WBX
