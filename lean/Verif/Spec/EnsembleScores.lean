import Verif.Spec.Evaluated
import Verif.Spec.Ensemble

/-!
# Specification for C98: the scores of an ensemble fit together

Two scores can be compared if they average over the same cells with the same weights.
-/

namespace WBX
variable {L K : Type} [DecidableEq L] [Field K] [LinearOrder K] [IsStrictOrderedRing K]

/-- The result cell `e` of the statistic `s` is averaged over the cells `cs` with the weights `w`. -/
structure AveragedOver (agg : Aggregator L (FV K)) (s : StatVar L (FV K)) (e : Dim → L) (cs : Finset (Dim → L)) (w : (Dim → L) → K) : Prop where
  evaluated : Evaluated agg s e cs
  weights : ∀ e' ∈ cs, cellWeight agg s e' = w e'

/-- The mean of `f` over the cells with these weights. -/
def cellMean (cs : Finset (Dim → L)) (w f : (Dim → L) → K) : K := (∑ e' ∈ cs, f e' * w e') / ∑ e' ∈ cs, w e'

/-- Nonnegative weights, not all 0. -/
def WeightsOk (cs : Finset (Dim → L)) (w : (Dim → L) → K) : Prop := (∀ e' ∈ cs, 0 ≤ w e') ∧ 0 < ∑ e' ∈ cs, w e'

/-- At each of the cells the forecast `a` has the members `x e' l`, `l ∈ M e'` (at least two; with `skipna` the NaN members are left out) and the target `b` is `y e'`. -/
structure EnsembleOver (sk : Bool) (d : Dim) (a b : StatVar L (FV K)) (cs : Finset (Dim → L)) (M : (Dim → L) → Finset L) (x : (Dim → L) → L → K) (y : (Dim → L) → K) : Prop where
  members : ∀ e' ∈ cs, EnsembleAt sk a d e' (M e') (x e')
  two : ∀ e' ∈ cs, 2 ≤ (M e').card
  target : ∀ e' ∈ cs, b.arr.val e' = .fin (y e')
  noMember : d ∉ b.arr.dims
  wf : b.arr.WF

end WBX
