import Verif.Spec.Aggregation
import Verif.Spec.Array
import Verif.Model.FV
import Verif.Lemmas.Mean

/-!
# Specification: the cells and weights that enter one aggregated value

Used to state the metric properties: `Evaluated agg s e cs` says that the result cell `e` of aggregating statistic `s` is
evaluated on the finite set of cells `cs`: all cells of `s` that agree with `e` in the dimensions not reduced, that the
mask (if masking is on) keeps and that are not NaN (if NaN are skipped); the statistic is finite there and the weights and
bin masks are finite and only depend on the coordinates.
-/

namespace WBX
open DA Aggregator
variable {L K : Type} [DecidableEq L] [Field K] [LinearOrder K] [IsStrictOrderedRing K]

/-- The number in a float; 0 for NaN and infinities. -/
def FV.num : FV K → K
  | .fin x => x
  | _ => 0

/-- Is this cell counted? -/
def counted (agg : Aggregator L (FV K)) (s : StatVar L (FV K)) (e : Dim → L) : Bool :=
  (match agg.masked, s.mask with
    | true, some m => m.val e
    | _, _ => true) && (!agg.skipna || !(s.arr.val e).isnan)

/-- The weight of a cell: the product of all weights and bin masks. -/
def cellWeight (agg : Aggregator L (FV K)) (s : StatVar L (FV K)) (e : Dim → L) : K :=
  ((agg.allFactors s.arr).map (fun m => (m.val e).num)).prod

/-- See the module comment. -/
structure Evaluated (agg : Aggregator L (FV K)) (s : StatVar L (FV K)) (e : Dim → L) (cs : Finset (Dim → L)) : Prop where
  coordOnly : agg.CoordOnly
  covers : ∀ m ∈ agg.allFactors s.arr, CoversLabels m s.arr
  maskOk : ∀ m, s.mask = some m → m.dims ⊆ s.arr.dims ∧ m.coords = s.arr.coords
  weightsFinite : ∀ m ∈ agg.allFactors s.arr, ∀ e', (m.val e').isFin = true
  cells : ∀ e', e' ∈ cs ↔ ((∀ d ∈ agg.reduceDims, e' d ∈ s.arr.coords d) ∧ ∀ d, d ∉ agg.reduceDims → e' d = e d) ∧
    counted agg s e' = true
  finite : ∀ e' ∈ cs, (s.arr.val e').isFin = true

/-- Nonnegative weights with positive total. -/
def GoodWeights (agg : Aggregator L (FV K)) (s : StatVar L (FV K)) (cs : Finset (Dim → L)) : Prop :=
  (∀ e' ∈ cs, 0 ≤ cellWeight agg s e') ∧ 0 < ∑ e' ∈ cs, cellWeight agg s e'

/-- The weighted mean of a function of the cells. -/
def wmean (agg : Aggregator L (FV K)) (s : StatVar L (FV K)) (cs : Finset (Dim → L)) (f : (Dim → L) → K) : K :=
  (∑ e' ∈ cs, f e' * cellWeight agg s e') / ∑ e' ∈ cs, cellWeight agg s e'

end WBX
