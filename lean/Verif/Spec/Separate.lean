import Verif.Model.MetricsBase

/-!
# Specification for C92: variables evaluated together do not influence each other
-/

namespace WBX
set_option linter.unusedSectionVars false

/-- The variables of a dict whose name is in `S`. -/
def onlyVars {α : Type} (S : String → Bool) (xs : Vars α) : Vars α := xs.filter (fun kv => S kv.1)

/-- Two dicts agree on the variables of `S`. -/
def AgreeOn {α : Type} (S : String → Bool) (xs ys : Vars α) : Prop := onlyVars S xs = onlyVars S ys

/-- A table of metrics with the variables of `S` only. -/
def onlyRows {α : Type} (S : String → Bool) (table : List (String × Vars α)) : List (String × Vars α) :=
  table.map (fun kv => (kv.1, onlyVars S kv.2))

variable {D S M : Type}

/-- The statistic of a selection of the variables is the selection of the statistic. -/
def Statistic.Separate (s : Statistic D S) : Prop :=
  ∀ (W : String → Bool) (p t : Vars D) (r : Vars S), s.compute p t = .ok r →
    s.compute (onlyVars W p) (onlyVars W t) = .ok (onlyVars W r)

/-- The metric of a selection of the variables is the selection of the metric: this holds of its statistics, and of its formula. -/
def Metric.Separate (m : Metric D S M) : Prop :=
  (∀ ks ∈ m.statistics, ks.2.Separate) ∧
  ∀ (W : String → Bool) (sv : List (String × Vars M)) (r : Vars M), m.valuesFromMeanStatistics sv = .ok r →
    m.valuesFromMeanStatistics (sv.map (fun kv => (kv.1, onlyVars W kv.2))) = .ok (onlyVars W r)

/-- The variable `v` alone. -/
def justVar {α : Type} (v : String) (xs : Vars α) : Vars α := onlyVars (fun k => decide (k = v)) xs

/-- The statistic raises only if it raises for one of the variables alone. -/
def Statistic.Isolated (s : Statistic D S) : Prop :=
  ∀ p t : Vars D, (∀ v, ∃ r, s.compute (justVar v p) (justVar v t) = .ok r) → ∃ r, s.compute p t = .ok r

/-- The metric raises only if it raises for one of the variables alone. -/
def Metric.Isolated (m : Metric D S M) : Prop :=
  (∀ ks ∈ m.statistics, ks.2.Isolated) ∧
  ∀ sv : List (String × Vars M), (∀ v, ∃ r, m.valuesFromMeanStatistics (sv.map (fun kv => (kv.1, justVar v kv.2))) = .ok r) →
    ∃ r, m.valuesFromMeanStatistics sv = .ok r

/-- Both: neither results nor failures of a variable depend on the other variables. -/
def Statistic.Apart (s : Statistic D S) : Prop := s.Separate ∧ s.Isolated

/-- Both, for a metric. -/
def Metric.Apart (m : Metric D S M) : Prop := m.Separate ∧ m.Isolated

end WBX
