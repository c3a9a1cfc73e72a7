import Verif.Model.MetricsBase

/-!
# Specification for C20, C21: what metrics mean without sharing of statistics
-/

namespace WBX
set_option linter.unusedSectionVars false
variable {D S M : Type}

/-- All statistics required by the metrics, with repetitions. -/
def requiredStatistics (metrics : List (String × Metric D S M)) : List (Statistic D S) :=
  metrics.flatMap (fun m => m.2.statistics.map Prod.snd)

/-- Statistics with the same unique name compute the same on this chunk. -/
def NamesIdentify (metrics : List (String × Metric D S M)) (p t : Vars D) : Prop :=
  ∀ s ∈ requiredStatistics metrics, ∀ s' ∈ requiredStatistics metrics, s.uniqueName = s'.uniqueName →
    s.compute p t = s'.compute p t

/-- Statistics return dicts (unique variable names). -/
def ReturnDicts (metrics : List (String × Metric D S M)) (p t : Vars D) : Prop :=
  ∀ s ∈ requiredStatistics metrics, ∀ r, s.compute p t = .ok r → (r.map Prod.fst).Nodup

/-- The mean value of variable `v` in each of the statistics `names`. -/
def StatsAt (sv : List (String × Vars M)) (names : List String) (v : String) (xs : List (String × M)) : Prop :=
  List.Forall₂ (fun n x => x.1 = n ∧ ∃ vars, (n, vars) ∈ sv ∧ (v, x.2) ∈ vars) names xs


section mean
variable {L V : Type} [DecidableEq L] [AddCommMonoid V] [Mul V] [One V] [Div V] [IsNull V]

/-- The mean statistic per variable. -/
def meanVars (agg : Aggregator L V) (vars : List (String × Option (StatVar L V))) : Except Err (Vars (DA L V)) := do
  let pv ← agg.perVar vars
  return pv.map (fun q => (q.1, DA.zipWith (· / ·) q.2.1 q.2.2))

/-! ### Specification: a metric computed alone, straight from its own statistics

No unique names, no sharing: each statistic of the metric is computed, its weighted mean taken, and the metric's own
formula applied to those means under the metric's own internal names. -/

/-- The value of one metric from its own statistics only. -/
def metricAlone (m : Metric D (Option (StatVar L V)) (DA L V)) (agg : Aggregator L V) (p t : Vars D) :
    Except Err (Vars (DA L V)) := do
  let means ← m.statistics.mapM (fun ks => do
    let v ← ks.2.compute p t
    let mean ← meanVars agg v
    return (ks.1, mean))
  m.valuesFromMeanStatistics means

end mean
end WBX
