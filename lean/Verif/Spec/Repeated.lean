import Verif.Spec.MetricsBase
import Verif.Model.Deterministic

/-!
# Specification for C106: the same data repeated along a further dimension
-/

namespace WBX
variable {L V W : Type} [DecidableEq L]

/-- The array does not have the dimension `d` and its values do not depend on it. -/
def DA.Without (d : Dim) (a : DA L V) : Prop := d ∉ a.dims ∧ ∀ e l, a.val (DA.setLabel e d l) = a.val e

/-- `a.expand_dims({d: C})`: the array repeated for the labels `C` of a new dimension `d`. -/
def DA.repeated (d : Dim) (C : Finset L) (a : DA L V) : DA L V := { dims := insert d a.dims, coords := fun k => if k = d then C else a.coords k, val := a.val }

/-- The same array; only the labels it would have along `d`, if it had this dimension, are others. -/
def DA.withLabels (d : Dim) (C : Finset L) (a : DA L V) : DA L V := { a with coords := fun k => if k = d then C else a.coords k }

/-- The values are repeated; a `mask` coordinate stays as it is (`expand_dims` does not repeat coordinates). -/
def StatVar.repeated (d : Dim) (C : Finset L) (a : StatVar L V) : StatVar L V := ⟨a.arr.repeated d C, a.mask⟩

/-- Neither the values nor the mask have the dimension `d`. -/
def StatVar.Without (d : Dim) (a : StatVar L V) : Prop := a.arr.Without d ∧ ∀ m, a.mask = some m → m.Without d

/-- All variables repeated. -/
def repeatVars (d : Dim) (C : Finset L) (vs : Vars (StatVar L V)) : Vars (StatVar L V) := vs.map (fun kv => (kv.1, kv.2.repeated d C))

/-- All variables of a statistic repeated. -/
def repeatStats (d : Dim) (C : Finset L) (vs : Vars (Option (StatVar L V))) : Vars (Option (StatVar L V)) := vs.map (fun kv => (kv.1, kv.2.map (StatVar.repeated d C)))

/-- The same values of a metric. -/
def sameValuesAs (d : Dim) (C : Finset L) (vs : Vars (DA L V)) : Vars (DA L V) := vs.map (fun kv => (kv.1, kv.2.withLabels d C))

/-- Which side of the evaluation is repeated. -/
inductive Sides where
  | both
  | predictions
  | targets

/-- What happens to the predictions. -/
def Sides.ofPredictions {α : Type} (s : Sides) (f : α → α) (x : α) : α := match s with
  | .targets => x
  | _ => f x

/-- What happens to the targets. -/
def Sides.ofTargets {α : Type} (s : Sides) (f : α → α) (x : α) : α := match s with
  | .predictions => x
  | _ => f x

/-- No variable has the dimension `d`. -/
def WithoutDim (d : Dim) (vs : Vars (StatVar L V)) : Prop := ∀ kv ∈ vs, kv.2.Without d

/-- The statistic of repeated data is the repeated statistic. -/
def Statistic.Repeats (sides : Sides) (d : Dim) (C : Finset L) (s : Statistic (StatVar L V) (Option (StatVar L V))) : Prop :=
  ∀ p t, WithoutDim d p → WithoutDim d t →
    s.compute (sides.ofPredictions (repeatVars d C) p) (sides.ofTargets (repeatVars d C) t) = (s.compute p t).map (repeatStats d C) ∧
    ∀ out, s.compute p t = .ok out → ∀ v a, (v, some a) ∈ out → a.Without d

/-- The statistics of a metric are repeated, and its formula does not look at labels along `d`. -/
structure Metric.Repeats (sides : Sides) (d : Dim) (C : Finset L) (m : Metric (StatVar L V) (Option (StatVar L V)) (DA L V)) : Prop where
  statistics : ∀ ks ∈ m.statistics, ks.2.Repeats sides d C
  formula : ∀ sv : List (String × Vars (DA L V)), m.valuesFromMeanStatistics (sv.map (fun kv => (kv.1, sameValuesAs d C kv.2))) = (m.valuesFromMeanStatistics sv).map (sameValuesAs d C)

/-- The weights and bins of the aggregation do not look at the dimension `d`, which it does not reduce. -/
structure Aggregator.Ignores (d : Dim) (C : Finset L) (agg : Aggregator L V) : Prop where
  dims : d ∉ agg.reduceDims
  weights : ∀ w ∈ agg.weighBy, ∀ a : DA L V, (w a).Without d ∧ w (a.repeated d C) = w a
  bins : ∀ b ∈ agg.binBy, ∀ a : DA L V, (b.createBinMask a).Without d ∧ b.createBinMask (a.repeated d C) = b.createBinMask a

/-- The aggregation that also averages over `d`. -/
def Aggregator.averagedOver (d : Dim) (agg : Aggregator L V) : Aggregator L V := { agg with reduceDims := d :: agg.reduceDims }

end WBX
