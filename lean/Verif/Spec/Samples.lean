import Verif.Spec.Copies
import Verif.Spec.Repeated

/-!
# Specification for C108: cases that are averaged over, each evaluated several times
-/

namespace WBX
variable {L V : Type} [DecidableEq L]

/-- If the array has the dimension `d`, its labels there are `C`; if not, its values do not depend on it. -/
def DA.Along (d : Dim) (C : Finset L) (a : DA L V) : Prop := (d ∈ a.dims → a.coords d = C) ∧ (d ∉ a.dims → a.Without d)

/-- Every listed case is one of the cases, and every case is listed (any number of times). -/
structure Lists (C C' : Finset L) (π : L → L) : Prop where
  maps : ∀ l ∈ C', π l ∈ C
  onto : ∀ l ∈ C, ∃ l' ∈ C', π l' = l

/-- The case `l` is listed `m l` times, at least once. -/
structure ListedTimes (m : L → ℕ) (C C' : Finset L) (π : L → L) : Prop where
  maps : ∀ l ∈ C', π l ∈ C
  fibres : ∀ l ∈ C, (C'.filter (fun l' => π l' = l)).card = m l
  positive : ∀ l, m l ≠ 0

/-- Values and mask. -/
def StatVar.Along (d : Dim) (C : Finset L) (a : StatVar L V) : Prop := a.arr.Along d C ∧ ∀ m, a.mask = some m → m.Along d C

/-- Every case is listed as often as `π` says, with its mask. -/
def StatVar.listed (d : Dim) (C' : Finset L) (π : L → L) (a : StatVar L V) : StatVar L V := ⟨a.arr.copied d C' π, a.mask.map (DA.copied d C' π)⟩

/-- All variables. -/
def listCases (d : Dim) (C' : Finset L) (π : L → L) (vs : Vars (StatVar L V)) : Vars (StatVar L V) := vs.map (fun kv => (kv.1, kv.2.listed d C' π))

/-- All variables of a statistic. -/
def listStats (d : Dim) (C' : Finset L) (π : L → L) (vs : Vars (Option (StatVar L V))) : Vars (Option (StatVar L V)) := vs.map (fun kv => (kv.1, kv.2.map (StatVar.listed d C' π)))

/-- The cases `C` are the labels of the dimension `d` wherever it occurs. -/
def CasesOf (d : Dim) (C : Finset L) (vs : Vars (StatVar L V)) : Prop := ∀ kv ∈ vs, kv.2.Along d C

/-- The statistic of the listed cases lists the statistics of the cases. -/
def Statistic.CaseByCase (d : Dim) (C C' : Finset L) (π : L → L) (s : Statistic (StatVar L V) (Option (StatVar L V))) : Prop :=
  ∀ p t, CasesOf d C p → CasesOf d C t →
    s.compute (listCases d C' π p) (listCases d C' π t) = (s.compute p t).map (listStats d C' π) ∧ ∀ out, s.compute p t = .ok out → ∀ v a, (v, some a) ∈ out → a.Along d C

/-- All statistics of a metric work case by case, and its formula does not look at labels of `d`. -/
structure Metric.CaseByCase (d : Dim) (C C' : Finset L) (π : L → L) (m : Metric (StatVar L V) (Option (StatVar L V)) (DA L V)) : Prop where
  statistics : ∀ ks ∈ m.statistics, ks.2.CaseByCase d C C' π
  formula : ∀ sv : List (String × Vars (DA L V)), m.valuesFromMeanStatistics (sv.map (fun kv => (kv.1, sameValuesAs d C' kv.2))) = (m.valuesFromMeanStatistics sv).map (sameValuesAs d C')

/-- The dimension `d` occurs in every variable, with the cases `C` as labels. -/
def AllHaveCases (d : Dim) (C : Finset L) (vs : Vars (StatVar L V)) : Prop := ∀ kv ∈ vs, kv.2.Along d C ∧ d ∈ kv.2.arr.dims

/-- As `Metric.CaseByCase`, for arrays that all have the dimension. -/
structure Metric.EachCase (d : Dim) (C C' : Finset L) (π : L → L) (m : Metric (StatVar L V) (Option (StatVar L V)) (DA L V)) : Prop where
  statistics : ∀ ks ∈ m.statistics, ∀ p t, AllHaveCases d C p → AllHaveCases d C t →
    ks.2.compute (listCases d C' π p) (listCases d C' π t) = (ks.2.compute p t).map (listStats d C' π) ∧ ∀ out, ks.2.compute p t = .ok out → ∀ v a, (v, some a) ∈ out → a.Along d C
  formula : ∀ sv : List (String × Vars (DA L V)), m.valuesFromMeanStatistics (sv.map (fun kv => (kv.1, sameValuesAs d C' kv.2))) = (m.valuesFromMeanStatistics sv).map (sameValuesAs d C')

/-- The aggregation averages over `d`, and its weights and bins do not look at it. -/
structure Aggregator.TreatsAlike (d : Dim) (C' : Finset L) (π : L → L) (agg : Aggregator L V) : Prop where
  dims : d ∈ agg.reduceDims
  weights : ∀ w ∈ agg.weighBy, ∀ a : DA L V, (w a).Without d ∧ w (a.copied d C' π) = w a
  bins : ∀ b ∈ agg.binBy, ∀ a : DA L V, (b.createBinMask a).Without d ∧ b.createBinMask (a.copied d C' π) = b.createBinMask a

/-- A weighting by the numbers of copies: the case `l` has the weight `number (m l)`. -/
def caseWeights (number : ℕ → V) (m : L → ℕ) (d : Dim) (a : DA L V) : DA L V := { dims := {d}, coords := a.coords, val := fun e => number (m (e d)) }

/-- The aggregation with the numbers of copies as weights. -/
def Aggregator.countingCopies (number : ℕ → V) (m : L → ℕ) (d : Dim) (agg : Aggregator L V) : Aggregator L V := { agg with weighBy := caseWeights number m d :: agg.weighBy }

end WBX
