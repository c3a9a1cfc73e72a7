import Verif.Spec.MetricsBase
import Verif.Model.Ensemble

/-!
# Specification for C104: other names for the dimensions

`σ` gives the new name of each dimension (for example `number` for `realization`). Different dimensions get different new names.
-/

namespace WBX
variable {L V : Type} [DecidableEq L]

/-- The same array with other names for its dimensions (`a.rename(...)`). -/
def DA.redim (σ : Equiv.Perm Dim) (a : DA L V) : DA L V :=
  { dims := a.dims.map σ.toEmbedding, coords := fun d => a.coords (σ.symm d), val := fun e => a.val (fun d => e (σ d)) }

/-- Other names for the dimensions of an array and of its `mask` coordinate. -/
def StatVar.redim (σ : Equiv.Perm Dim) (a : StatVar L V) : StatVar L V := ⟨a.arr.redim σ, a.mask.map (DA.redim σ)⟩

/-- Other names for the dimensions of all variables. -/
def redimVars (σ : Equiv.Perm Dim) (vs : Vars (StatVar L V)) : Vars (StatVar L V) := vs.map (fun kv => (kv.1, kv.2.redim σ))

/-- Other names for the dimensions of all variables of a statistic. -/
def redimStats (σ : Equiv.Perm Dim) (vs : Vars (Option (StatVar L V))) : Vars (Option (StatVar L V)) := vs.map (fun kv => (kv.1, kv.2.map (StatVar.redim σ)))

/-- Other names for the dimensions of the values of a metric. -/
def redimValues (σ : Equiv.Perm Dim) (vs : Vars (DA L V)) : Vars (DA L V) := vs.map (fun kv => (kv.1, kv.2.redim σ))

/-- `agg'` has the settings of `agg` with the dimensions called otherwise; its weights and bins are those of `agg` with their dimensions called otherwise. -/
structure Aggregator.Redims (σ : Equiv.Perm Dim) (agg agg' : Aggregator L V) : Prop where
  dims : agg'.reduceDims = agg.reduceDims.map σ
  masked : agg'.masked = agg.masked
  skipna : agg'.skipna = agg.skipna
  weights : List.Forall₂ (fun w w' => ∀ a : DA L V, w' (a.redim σ) = (w a).redim σ) agg.weighBy agg'.weighBy
  bins : List.Forall₂ (fun b b' => b'.binDim = σ b.binDim ∧ ∀ a : DA L V, b'.createBinMask (a.redim σ) = (b.createBinMask a).redim σ) agg.binBy agg'.binBy

/-- Data with other names for their dimensions give, with `s'`, what `s` gives, or the same error. (`s'` differs from `s` if a setting of `s` names a dimension.) -/
def Statistic.Redims (σ : Equiv.Perm Dim) (s s' : Statistic (StatVar L V) (Option (StatVar L V))) : Prop :=
  ∀ p t, s'.compute (redimVars σ p) (redimVars σ t) = (s.compute p t).map (redimStats σ)

/-- The same for metrics: the same internal names of the statistics, and a formula that treats all dimensions alike. -/
structure Metric.Redims (σ : Equiv.Perm Dim) (m m' : Metric (StatVar L V) (Option (StatVar L V)) (DA L V)) : Prop where
  statistics : List.Forall₂ (fun ks ks' => ks'.1 = ks.1 ∧ ks.2.Redims σ ks'.2) m.statistics m'.statistics
  formula : ∀ sv : List (String × Vars (DA L V)), m'.valuesFromMeanStatistics (sv.map (fun kv => (kv.1, redimValues σ kv.2))) =
    (m.valuesFromMeanStatistics sv).map (redimValues σ)

/-- A statistic that does not look at the names of the dimensions. -/
def Statistic.DimBlind (σ : Equiv.Perm Dim) (s : Statistic (StatVar L V) (Option (StatVar L V))) : Prop := s.Redims σ s

/-- A metric that does not look at the names of the dimensions. -/
def Metric.DimBlind (σ : Equiv.Perm Dim) (m : Metric (StatVar L V) (Option (StatVar L V)) (DA L V)) : Prop := m.Redims σ m

end WBX
