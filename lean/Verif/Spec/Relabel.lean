import Verif.Spec.MetricsBase
import Verif.Model.Ensemble

/-!
# Specification for C102: other labels for the same data

`ρ d` gives the new label of each label of dimension `d` (for example longitudes from -180 to 180 instead of 0 to 360, init times shifted
by a year, members numbered from 1). Different labels get different new labels.
-/

namespace WBX
variable {L V : Type} [DecidableEq L]

/-- The same array with new labels: the value at the new labels is the value at the old ones. -/
def DA.relabel (ρ : Dim → Equiv.Perm L) (a : DA L V) : DA L V :=
  { dims := a.dims, coords := fun d => (a.coords d).map (ρ d).toEmbedding, val := fun e => a.val (fun d => (ρ d).symm (e d)) }

/-- New labels for an array and its `mask` coordinate. -/
def StatVar.relabel (ρ : Dim → Equiv.Perm L) (a : StatVar L V) : StatVar L V := ⟨a.arr.relabel ρ, a.mask.map (DA.relabel ρ)⟩

/-- New labels for all variables. -/
def relabelVars (ρ : Dim → Equiv.Perm L) (vs : Vars (StatVar L V)) : Vars (StatVar L V) := vs.map (fun kv => (kv.1, kv.2.relabel ρ))

/-- New labels for the variables of a statistic. -/
def relabelStats (ρ : Dim → Equiv.Perm L) (vs : Vars (Option (StatVar L V))) : Vars (Option (StatVar L V)) :=
  vs.map (fun kv => (kv.1, kv.2.map (StatVar.relabel ρ)))

/-- New labels for the values of a metric. -/
def relabelValues (ρ : Dim → Equiv.Perm L) (vs : Vars (DA L V)) : Vars (DA L V) := vs.map (fun kv => (kv.1, kv.2.relabel ρ))

/-- New labels for the values of all metrics. -/
def relabelTable (ρ : Dim → Equiv.Perm L) (table : List (String × Vars (DA L V))) : List (String × Vars (DA L V)) :=
  table.map (fun kv => (kv.1, relabelValues ρ kv.2))

/-- `agg'` reduces the same dimensions, and its weights and bins give at the new labels what those of `agg` give at the old ones. -/
structure Aggregator.Relabels (ρ : Dim → Equiv.Perm L) (agg agg' : Aggregator L V) : Prop where
  dims : agg'.reduceDims = agg.reduceDims
  masked : agg'.masked = agg.masked
  skipna : agg'.skipna = agg.skipna
  weights : List.Forall₂ (fun w w' => ∀ a : DA L V, w' (a.relabel ρ) = (w a).relabel ρ) agg.weighBy agg'.weighBy
  bins : List.Forall₂ (fun b b' => b'.binDim = b.binDim ∧ ∀ a : DA L V, b'.createBinMask (a.relabel ρ) = (b.createBinMask a).relabel ρ) agg.binBy agg'.binBy

/-- Relabelled data give, with `s'`, the relabelled statistic `s`, or the same error. (`s'` differs from `s` if a setting of `s` mentions labels.) -/
def Statistic.Relabels (ρ : Dim → Equiv.Perm L) (s s' : Statistic (StatVar L V) (Option (StatVar L V))) : Prop :=
  ∀ p t, s'.compute (relabelVars ρ p) (relabelVars ρ t) = (s.compute p t).map (relabelStats ρ)

/-- The same for metrics: the same internal names, and a formula that treats all labels alike. -/
structure Metric.Relabels (ρ : Dim → Equiv.Perm L) (m m' : Metric (StatVar L V) (Option (StatVar L V)) (DA L V)) : Prop where
  statistics : List.Forall₂ (fun ks ks' => ks'.1 = ks.1 ∧ ks.2.Relabels ρ ks'.2) m.statistics m'.statistics
  formula : ∀ sv : List (String × Vars (DA L V)), m'.valuesFromMeanStatistics (sv.map (fun kv => (kv.1, relabelValues ρ kv.2))) =
    (m.valuesFromMeanStatistics sv).map (relabelValues ρ)

/-- A statistic that does not look at labels. -/
def Statistic.Blind (ρ : Dim → Equiv.Perm L) (s : Statistic (StatVar L V) (Option (StatVar L V))) : Prop := s.Relabels ρ s

/-- A metric that does not look at labels. -/
def Metric.Blind (ρ : Dim → Equiv.Perm L) (m : Metric (StatVar L V) (Option (StatVar L V)) (DA L V)) : Prop := m.Relabels ρ m

end WBX
