import Verif.Model.MetricsBase
import Verif.Spec.Array
import Mathlib.Data.Option.Defs

/-!
# Specification vocabulary: the same results, whatever the order of dict keys
-/

namespace WBX
variable {L V D : Type} [DecidableEq L]

/-- Two dicts have the same keys, with the same arrays. -/
def VarsSame (x y : Vars (DA L V)) : Prop := ∀ v, Option.Rel DA.Same (pyGet? v x) (pyGet? v y)

/-- Two dicts of dicts have the same keys on both levels, with the same arrays. -/
def TableSame (x y : List (String × Vars (DA L V))) : Prop := ∀ s, Option.Rel VarsSame (pyGet? s x) (pyGet? s y)

/-- Both computations fail, or both give results that are related. -/
inductive SameOutcome {α : Type} (r : α → α → Prop) : Except Err α → Except Err α → Prop where
  | fails (e e' : Err) : SameOutcome r (.error e) (.error e')
  | gives {a b : α} : r a b → SameOutcome r (.ok a) (.ok b)

/-- No repeated names, as in a dict. -/
def IsDict {β : Type} (d : List (String × β)) : Prop := (d.map Prod.fst).Nodup

/-- The values of a metric depend on the arrays of the mean statistics only, not on the order in which dicts list them, and are a dict. -/
structure Metric.Extensional (m : Metric D (Option (StatVar L V)) (DA L V)) : Prop where
  same : ∀ x y, TableSame x y → SameOutcome VarsSame (m.valuesFromMeanStatistics x) (m.valuesFromMeanStatistics y)
  dict : ∀ x r, (∀ sv ∈ x, IsDict sv.2) → m.valuesFromMeanStatistics x = .ok r → IsDict r

end WBX
