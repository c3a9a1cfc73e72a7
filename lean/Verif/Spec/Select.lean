import Verif.Spec.Locality
import Verif.Spec.Roles

/-!
# Specification for C100: selecting labels before or after the evaluation
-/

namespace WBX
variable {L V : Type} [DecidableEq L]

/-- `values.sel({c: S})`: the labels `S` of dimension `c` of every array. -/
def selectLabels (c : Dim) (S : Finset L) (vs : Vars (DA L V)) : Vars (DA L V) := vs.map (fun kv => (kv.1, kv.2.restrict c S))

/-- The two datasets have the same variables with the same labels, and the same values and masks at the labels `S` of dimension `c`.
Nothing is said about their values at other labels. -/
def AgreeAtLabels (c : Dim) (S : Finset L) (p p' : Vars (StatVar L V)) : Prop :=
  ∀ v, Option.Rel StatVar.Same (pyGet? v (chunkVars c S p)) (pyGet? v (chunkVars c S p'))

/-- Two sets of scores are the same at the labels `S` of dimension `c`. -/
def ScoresAgree (c : Dim) (S : Finset L) (x y : Vars (DA L V)) : Prop := VarsSame (selectLabels c S x) (selectLabels c S y)

/-- The formula of a metric works label by label along `c`. -/
def FormulaSelects (c : Dim) (m : Metric (StatVar L V) (Option (StatVar L V)) (DA L V)) : Prop :=
  ∀ (S : Finset L) (T : List (String × Vars (DA L V))) (out : Vars (DA L V)), m.valuesFromMeanStatistics T = .ok out →
    m.valuesFromMeanStatistics (T.map (fun sv => (sv.1, selectLabels c S sv.2))) = .ok (selectLabels c S out)

/-- A statistic whose arrays keep the dimension `c`. -/
def KeepsDim (c : Dim) (s : Statistic (StatVar L V) (Option (StatVar L V))) (p t : Vars (StatVar L V)) : Prop :=
  ∀ out, s.compute p t = .ok out → ∀ v x, (v, some x) ∈ out → c ∈ x.arr.dims

/-- A statistic that is a function of the labelled arrays (and not of how they are represented). -/
def RespectsArrays (s : Statistic (StatVar L V) (Option (StatVar L V))) : Prop :=
  ∀ p p' t t' : Vars (StatVar L V), IsDict p → IsDict p' → IsDict t → IsDict t' →
    (∀ v, Option.Rel StatVar.Same (pyGet? v p) (pyGet? v p')) → (∀ v, Option.Rel StatVar.Same (pyGet? v t) (pyGet? v t')) →
    SameOutcome (fun x y => IsDict x ∧ IsDict y ∧ ∀ v, Option.Rel (Option.Rel StatVar.Same) (pyGet? v x) (pyGet? v y)) (s.compute p t) (s.compute p' t')

/-- A metric that works label by label along `c`: its statistics, and its formula. -/
structure Selectable (c : Dim) (m : Metric (StatVar L V) (Option (StatVar L V)) (DA L V)) : Prop where
  extensional : m.Extensional
  formula : FormulaSelects c m
  statistics : ∀ ks ∈ m.statistics, ks.2.ChunkLocal c
  dims : ∀ ks ∈ m.statistics, ∀ p t, Chunkable c p t → KeepsDim c ks.2 p t

end WBX
