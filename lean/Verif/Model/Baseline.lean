import Verif.Model.MetricsBase

/-!
# Model of `/repo/weatherbenchX/statistical_inference/baseline_comparison.py`
-/

namespace WBX

/-- A dict display `{k: v for ...}` or `{**a, **b}` from its items in order; later items overwrite. -/
def pyDict {β : Type} (items : List (String × β)) : List (String × β) := items.foldl (fun d kv => pyInsert kv.1 kv.2 d) []

/-- `{f'{prefix}{k}': v for k, v in d.items()}` (baseline_comparison.py:145-160). -/
def prefixKeys {β : Type} (pre : String) (d : List (String × β)) : List (String × β) := pyDict (d.map (fun kv => (pre ++ kv.1, kv.2)))

/-- `{name[len(prefix):]: v for name, v in d.items() if name.startswith(prefix)}` (baseline_comparison.py:118-127). -/
def stripKeys {β : Type} (pre : String) (d : List (String × β)) : List (String × β) :=
  pyDict (d.filterMap (fun kv => if pre.toList.isPrefixOf kv.1.toList then some (String.ofList (kv.1.toList.drop pre.toList.length), kv.2) else none))

section
variable {D S M : Type}

/-- A renamed statistic (wrappers.py:808-824). -/
def Statistic.rename (s : Statistic D S) (name : String) : Statistic D S := { uniqueName := name, compute := s.compute }

/-- The statistics of one side (baseline_comparison.py:94-112). -/
def prefixedStatistics (pre : String) (statistics : List (String × Statistic D S)) : List (String × Statistic D S) :=
  pyDict (statistics.map (fun ks => (pre ++ ks.1, ks.2.rename (pre ++ ks.2.uniqueName))))

/-- `BaselineComparison` (baseline_comparison.py:41-131) with both metrics and the comparison. -/
def baselineComparison (metric baseline : Metric D S M) (comparison : Vars M → Vars M → Except Err (Vars M)) : Metric D S M where
  statistics := pyDict (prefixedStatistics "main_" metric.statistics ++ prefixedStatistics "baseline_" baseline.statistics)
  valuesFromMeanStatistics := fun sv => do
    let main ← metric.valuesFromMeanStatistics (stripKeys "main_" sv)
    let base ← baseline.valuesFromMeanStatistics (stripKeys "baseline_" sv)
    comparison main base

/-- `for_metrics` (baseline_comparison.py:167-179): the metrics present in both mappings, in the order of the first (a Python set has no order). -/
def baselineForMetrics (metrics : List (String × Metric D S M)) (baselines : Option (List (String × Metric D S M))) (comparison : Vars M → Vars M → Except Err (Vars M)) :
    List (String × Metric D S M) :=
  let baselines := baselines.getD metrics
  metrics.filterMap (fun nm => (pyGet? nm.1 baselines).map (fun b => (nm.1, baselineComparison nm.2 b comparison)))

end

section
variable {L V : Type} [DecidableEq L]

/-- `difference` (baseline_comparison.py:31-38), in the order of the main result (a Python set has no order). -/
def baselineDifference [Sub V] (main base : Vars (DA L V)) : Except Err (Vars (DA L V)) :=
  .ok (main.filterMap (fun kv => (pyGet? kv.1 base).map (fun b => (kv.1, DA.zipWith (· - ·) kv.2 b))))

/-- The items of one side of a state; the `AttributeError` of `None.items()` or of a structure that is not a dict. -/
def Tree.items {α : Type} : Tree α → Except Err (List (String × Tree α))
  | .dict d => .ok d.toList
  | _ => .error .attributeError

/-- `combine_aggregation_states` (baseline_comparison.py:140-164). -/
def combineStates (main base : AggState L V) : Except Err (AggState L V) :=
  match main, base with
  | some (ms, mw), some (bs, bw) => do
    let mainW ← mw.items
    let mainS ← ms.items
    let baseW ← bw.items
    let baseS ← bs.items
    return some (.dict (Dict.ofList (pyDict (prefixKeys "main_" mainS ++ prefixKeys "baseline_" baseS))),
                 .dict (Dict.ofList (pyDict (prefixKeys "main_" mainW ++ prefixKeys "baseline_" baseW))))
  | _, _ => .error .attributeError

/-- `StatisticalInferenceMethod.for_baseline_comparison` (statistical_inference/base.py:79-115); `cls` is what is computed by the method made from metrics and a state (with its further
arguments). -/
def forBaselineComparison {D R : Type} (cls : List (String × Metric D (Option (StatVar L V)) (DA L V)) → AggState L V → Except Err R)
    (metrics : List (String × Metric D (Option (StatVar L V)) (DA L V))) (state baseline : AggState L V) (baselines : Option (List (String × Metric D (Option (StatVar L V)) (DA L V))))
    (comparison : Vars (DA L V) → Vars (DA L V) → Except Err (Vars (DA L V))) : Except Err R := do
  let both ← combineStates state baseline
  cls (baselineForMetrics metrics baselines comparison) both

end
end WBX
