import Verif.Model.Aggregation
import Verif.Model.Beam

/-!
# Model of `/repo/weatherbenchX/metrics/base.py` and of `metric_values` (`aggregation.py:115-141, 404-428`)

Dicts are association lists in insertion order. `D` is the type of a predictions/targets array, `S` that of a statistic
array, `M` that of a mean statistic / metric value.
-/

namespace WBX

/-- A dict from variable names to arrays. -/
abbrev Vars (α : Type) := List (String × α)

/-- `Statistic` (metrics/base.py:85-173): its `unique_name` and `compute`. -/
structure Statistic (D S : Type) where
  uniqueName : String
  compute : Vars D → Vars D → Except Err (Vars S)

/-- `Metric` (metrics/base.py:24-83): its `statistics` by internal name, and `values_from_mean_statistics`. -/
structure Metric (D S M : Type) where
  statistics : List (String × Statistic D S)
  valuesFromMeanStatistics : List (String × Vars M) → Except Err (Vars M)

/-- `d[k]`. -/
def pyItem {β : Type} (d : List (String × β)) (k : String) : Except Err β :=
  match pyGet? k d with
  | some v => .ok v
  | none => .error .keyError

section
variable {D S M : Type}

/-- A statistic used directly as a metric (metrics/base.py:163-173). -/
def Statistic.toMetric (s : Statistic D S) : Metric D S M :=
  { statistics := [("self", s)], valuesFromMeanStatistics := fun sv => pyItem sv "self" }

/-- The loop of `PerVariableStatistic.compute` (metrics/base.py:183-197). -/
def perVariableLoop (f : D → D → Except Err (Option S)) (targets : Vars D) : Vars D → Except Err (Vars S)
  | [] => .ok []
  | (v, p) :: rest =>
    match pyGet? v targets with
    | none => perVariableLoop f targets rest
    | some t => do
      let r ← f p t
      let rs ← perVariableLoop f targets rest
      match r with
      | some x => return (v, x) :: rs
      | none => return rs

/-- `PerVariableStatistic` (metrics/base.py:176-205) with the given `_compute_per_variable`. -/
def perVariableStatistic (name : String) (f : D → D → Except Err (Option S)) : Statistic D S :=
  { uniqueName := name, compute := fun p t => perVariableLoop f t p }

/-- The variables present for all the given statistics (metrics/base.py:216-222), listed in the order of the first one (a Python
set has no order). No statistics at all is a `TypeError` of `set.intersection()`. -/
def commonVariables : List (Vars M) → Except Err (List String)
  | [] => .error .typeError
  | v :: vs => .ok ((v.map Prod.fst).filter (fun k => vs.all (fun w => k ∈ w.map Prod.fst)))

/-- `PerVariableMetric.values_from_mean_statistics` (metrics/base.py:211-227). `names` are the keys of `self.statistics`. -/
def perVariableValues (names : List String) (g : List (String × M) → Except Err M) (sv : List (String × Vars M)) :
    Except Err (Vars M) := do
  let vs ← names.mapM (pyItem sv)
  let common ← commonVariables vs
  common.mapM (fun v => do
    let perVar ← names.mapM (fun s => do
      let m ← pyItem sv s
      let x ← pyItem m v
      return (s, x))
    let x ← g perVar
    return (v, x))

/-- `PerVariableMetric` (metrics/base.py:208-243). -/
def perVariableMetric (statistics : List (String × Statistic D S)) (g : List (String × M) → Except Err M) : Metric D S M :=
  { statistics := statistics, valuesFromMeanStatistics := perVariableValues (statistics.map Prod.fst) g }

/-- The dict `unique_statistics` (metrics/base.py:258-261): one entry per unique name, the last statistic wins. -/
def uniqueStatistics (metrics : List (String × Metric D S M)) : List (String × Statistic D S) :=
  (metrics.flatMap (fun m => m.2.statistics.map Prod.snd)).foldl (fun d s => pyInsert s.uniqueName s d) []

/-- `compute_unique_statistics_for_all_metrics` (metrics/base.py:272-291): any exception becomes a `ValueError`. -/
def computeUniqueStatistics (metrics : List (String × Metric D S M)) (predictions targets : Vars D) :
    Except Err (List (String × Vars S)) :=
  (uniqueStatistics metrics).mapM (fun ks =>
    match ks.2.compute predictions targets with
    | .ok v => .ok (ks.1, v)
    | .error _ => .error .valueError)

/-- `compute_metric_from_statistics` (metrics/base.py:294-315): re-keying from unique to internal names. -/
def computeMetricFromStatistics (metric : Metric D S M) (sv : List (String × Vars M)) : Except Err (Vars M) := do
  let renamed ← metric.statistics.mapM (fun ks => do
    let v ← pyItem sv ks.2.uniqueName
    return (ks.1, v))
  metric.valuesFromMeanStatistics renamed

/-- `compute_metrics_from_statistics` (metrics/base.py:318-335). -/
def computeMetricsFromStatistics (metrics : List (String × Metric D S M)) (sv : List (String × Vars M)) :
    Except Err (List (String × Vars M)) :=
  metrics.mapM (fun nm => do
    let v ← computeMetricFromStatistics nm.2 sv
    return (nm.1, v))

end

section
variable {D L V : Type} [DecidableEq L]

/-- The variables of one statistic of a two-level structure; `TypeError` for other shapes. -/
def leafVars {α : Type} : Dict α → Except Err (Vars α)
  | .nil => .ok []
  | .cons k v rest => do
    let a ← v.asLeaf
    let r ← leafVars rest
    return (k, a) :: r

/-- The statistics of a two-level structure with their variables (the shape of an aggregation state, aggregation.py:57-70); `TypeError` for other shapes. -/
def twoLevels {α : Type} : Dict α → Except Err (List (String × Vars α))
  | .nil => .ok []
  | .cons k v rest =>
    match v with
    | .dict d => do
      let a ← leafVars d
      let r ← twoLevels rest
      return (k, a) :: r
    | _ => .error .typeError

/-- `AggregationState.metric_values` (aggregation.py:115-141) before the flattening of names. -/
def AggState.metricTable [Div V] (s : AggState L V) (metrics : List (String × Metric D (Option (StatVar L V)) (DA L V))) :
    Except Err (List (String × Vars (DA L V))) := do
  let mean ← s.meanStatistics
  let sv ← match mean with
    | .dict d => twoLevels d
    | _ => .error .typeError
  computeMetricsFromStatistics metrics sv

/-- The keys `<metric>.<variable>` of the result (aggregation.py:136-140); later entries overwrite. Alignment of the
arrays in one Dataset is not modelled. -/
def metricDataset {α : Type} (table : List (String × Vars α)) : List (String × α) :=
  (table.flatMap (fun mv => mv.2.map (fun va => (mv.1 ++ "." ++ va.1, va.2)))).foldl (fun d ka => pyInsert ka.1 ka.2 d) []

/-- `AggregationState.metric_values` (aggregation.py:115-141). -/
def AggState.metricValues [Div V] (s : AggState L V) (metrics : List (String × Metric D (Option (StatVar L V)) (DA L V))) :
    Except Err (List (String × DA L V)) := do
  let table ← s.metricTable metrics
  return metricDataset table

/-- `compute_metric_values_for_single_chunk` (aggregation.py:404-428) before the flattening of names. -/
def metricTableForSingleChunk [AddCommMonoid V] [Mul V] [One V] [Div V] [IsNull V]
    (metrics : List (String × Metric D (Option (StatVar L V)) (DA L V))) (agg : Aggregator L V)
    (predictions targets : Vars D) : Except Err (List (String × Vars (DA L V))) := do
  let statistics ← computeUniqueStatistics metrics predictions targets
  let state ← agg.aggregateStatistics statistics
  state.metricTable metrics

/-- `compute_metric_values_for_single_chunk` (aggregation.py:404-428). -/
def computeMetricValuesForSingleChunk [AddCommMonoid V] [Mul V] [One V] [Div V] [IsNull V]
    (metrics : List (String × Metric D (Option (StatVar L V)) (DA L V))) (agg : Aggregator L V)
    (predictions targets : Vars D) : Except Err (List (String × DA L V)) := do
  let table ← metricTableForSingleChunk metrics agg predictions targets
  return metricDataset table

end
end WBX
