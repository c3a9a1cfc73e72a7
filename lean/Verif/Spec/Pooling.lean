import Verif.Spec.Evaluated
import Verif.Spec.Array
import Verif.Model.Categorical

/-!
# Specification for C99: pooled data and its parts

The parts are the results `agg` gives for the labels `l ∈ C` of a result dimension `d` (a dimension of the data that is not averaged over, or a bin dimension);
the whole is the result of `agg'`, in which the dimension `d` is averaged over or the binning is left out.
-/

namespace WBX
open DA
variable {L K : Type} [DecidableEq L] [Field K] [LinearOrder K] [IsStrictOrderedRing K]

/-- The same aggregation, averaging over `d` too. -/
def Aggregator.alsoOver (agg : Aggregator L (FV K)) (d : Dim) : Aggregator L (FV K) := { agg with reduceDims := agg.reduceDims ++ [d] }

/-- The cells `cs'` behind the result cell `e` of the whole are made of the cells `cs l` behind the result cells `d = l` of the parts: all results are averages of
finite values with nonnegative weights of positive sum, and weighted sums over the parts add up to the weighted sum over the whole (of any quantity of the cells
that depends on `d` only if the statistic has the dimension `d`). -/
structure Pooled (agg agg' : Aggregator L (FV K)) (s : StatVar L (FV K)) (d : Dim) (C : Finset L) (e : Dim → L) (cs : L → Finset (Dim → L)) (cs' : Finset (Dim → L)) : Prop where
  nonempty : C.Nonempty
  parts : ∀ l ∈ C, Evaluated agg s (setLabel e d l) (cs l)
  weights : ∀ l ∈ C, GoodWeights agg s (cs l)
  whole : Evaluated agg' s e cs'
  weight : GoodWeights agg' s cs'
  sums : ∀ f : (Dim → L) → K, (d ∉ s.arr.dims → ∀ e' l, f (setLabel e' d l) = f e') →
    ∑ l ∈ C, ∑ e' ∈ cs l, f e' * cellWeight agg s e' = ∑ e' ∈ cs', f e' * cellWeight agg' s e'

/-- The result `x'` of the whole is not below all the results `x` of the parts and not above all of them; all are finite. -/
def Between (x x' : DA L (FV K)) (d : Dim) (C : Finset L) (e : Dim → L) : Prop :=
  ∃ (r : L → K) (r' : K), (∀ l ∈ C, x.val (setLabel e d l) = .fin (r l)) ∧ x'.val e = .fin r' ∧ (∃ l ∈ C, r l ≤ r') ∧ ∃ l ∈ C, r' ≤ r l

/-- `s` is the statistic `st` computes for the variable `v`. -/
def IsStatistic (st : FStatistic L K) (p t : Vars (StatVar L (FV K))) (v : String) (s : StatVar L (FV K)) : Prop :=
  ∃ vars, st.compute p t = .ok vars ∧ (vars.map Prod.fst).Nodup ∧ (v, some s) ∈ vars

/-- Two statistics whose averages are over the same cells with the same weights, in the parts and in the whole. -/
structure PooledTogether (agg agg' : Aggregator L (FV K)) (s s' : StatVar L (FV K)) (d : Dim) (C : Finset L) (e : Dim → L) (cs : L → Finset (Dim → L)) (cs' : Finset (Dim → L)) : Prop where
  pooled : Pooled agg agg' s d C e cs cs'
  pooled' : Pooled agg agg' s' d C e cs cs'
  dims : d ∈ s'.arr.dims → d ∈ s.arr.dims
  parts : ∀ l ∈ C, ∀ e' ∈ cs l, cellWeight agg s' e' = cellWeight agg s e'
  whole : ∀ e' ∈ cs', cellWeight agg' s' e' = cellWeight agg' s e'

end WBX
