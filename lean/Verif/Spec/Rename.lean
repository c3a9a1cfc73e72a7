import Verif.Spec.MetricsBase
import Mathlib.Data.List.Forall2
import Mathlib.Data.Finset.Image

/-!
# Specification for C103: other names for the variables, in another order
-/

namespace WBX

/-- Other names for the variables, for example `'t2m'` for `'2m_temperature'`. -/
def renameVars {α : Type} (f : String → String) (vs : Vars α) : Vars α := vs.map (fun kv => (f kv.1, kv.2))

/-- Other names in all tables of values. -/
def renameTable {α : Type} (f : String → String) (table : List (String × Vars α)) : List (String × Vars α) := table.map (fun kv => (kv.1, renameVars f kv.2))

variable {D S M : Type}

/-- With `s'`, the renamed data give what `s` gives, renamed, or the same error. (`s'` differs from `s` only if a setting of `s` names variables.) -/
def Statistic.Renames (f : String → String) (s s' : Statistic D S) : Prop :=
  ∀ p t, s'.compute (renameVars f p) (renameVars f t) = (s.compute p t).map (renameVars f)

/-- The same for metrics: the same internal names of statistics, and a formula that treats all variables alike. -/
structure Metric.Renames (f : String → String) (m m' : Metric D S M) : Prop where
  statistics : List.Forall₂ (fun ks ks' => ks'.1 = ks.1 ∧ ks.2.Renames f ks'.2) m.statistics m'.statistics
  formula : ∀ sv : List (String × Vars M), m'.valuesFromMeanStatistics (renameTable f sv) = (m.valuesFromMeanStatistics sv).map (renameVars f)

/-- The metric is the same whatever the variables are called. -/
def Metric.NameBlind (m : Metric D S M) : Prop := ∀ f : String → String, Function.Injective f → m.Renames f m

end WBX
