import Verif.Model.Categorical
import Verif.Model.MetricsBase

/-!
# Model of the aggregation of statistics of boolean type (`/repo/weatherbenchX/aggregation.py`)

`Confident`, `Covered` and `JaccardDistant` (categorical.py:700-862) return arrays of type `bool`. `Aggregator.aggregation_fn` sums with `xr.dot`, that is `einsum`, which keeps the type if
all its arguments are boolean: products are conjunctions and sums are disjunctions. Everything else in this development is about statistics of floating point type; here the same functions are
applied at the value type of NumPy booleans.
-/

namespace WBX

/-- A NumPy boolean: `einsum` adds with "or" and multiplies with "and". -/
structure NPBool where
  b : Bool
deriving DecidableEq

namespace NPBool

instance : Zero NPBool := ⟨⟨false⟩⟩
instance : One NPBool := ⟨⟨true⟩⟩
instance : Mul NPBool := ⟨fun x y => ⟨x.b && y.b⟩⟩
instance : Add NPBool := ⟨fun x y => ⟨x.b || y.b⟩⟩

instance : AddCommMonoid NPBool where
  add_assoc := fun ⟨a⟩ ⟨b⟩ ⟨c⟩ => congrArg NPBool.mk (Bool.or_assoc a b c)
  zero_add := fun ⟨a⟩ => congrArg NPBool.mk (Bool.false_or a)
  add_zero := fun ⟨a⟩ => congrArg NPBool.mk (Bool.or_false a)
  add_comm := fun ⟨a⟩ ⟨b⟩ => congrArg NPBool.mk (Bool.or_comm a b)
  nsmul := nsmulRec

/-- `isnull` of a boolean is False. -/
instance : IsNull NPBool := ⟨fun _ => false⟩

variable {K : Type} [Field K] [LinearOrder K] [IsStrictOrderedRing K]

/-- A number 0 or 1 stored as a boolean. -/
def ofFV (x : FV K) : NPBool := ⟨x.toBool⟩

/-- A boolean used as a number: `0 + b`, `b / b`. -/
def toFV (x : NPBool) : FV K := FV.ofBool x.b

end NPBool

variable {L : Type} [DecidableEq L] {K : Type} [Field K] [LinearOrder K] [IsStrictOrderedRing K]

namespace Aggregator

/-- Are the sums of a boolean statistic taken in a numeric type (aggregation.py:330-359)? They are if there is a weighting (float weights, or the integer `xr.DataArray(1)` of
weighting.py:111), if one of the bin masks is of integer type (`integerBins`: `1 - self._land_mask` in binning.py:131 makes the masks of `LandSea` integers; the masks of all other binnings
are boolean), or after `stat.where(mask, 0)` with the integer 0 (lines 341, 348). -/
def promotes (agg : Aggregator L (FV K)) (integerBins : Bool) (s : StatVar L (FV K)) : Bool :=
  !agg.weighBy.isEmpty || integerBins || agg.skipna || (agg.masked && s.mask.isSome)

/-- The aggregator as applied to an array of type `bool`, without weightings: the bin masks are boolean too. -/
def boolean (agg : Aggregator L (FV K)) : Aggregator L NPBool where
  reduceDims := agg.reduceDims
  binBy := agg.binBy.map (fun b => { binDim := b.binDim, createBinMask := fun a => (b.createBinMask (a.map NPBool.toFV)).map NPBool.ofFV })
  weighBy := []
  masked := agg.masked
  skipna := agg.skipna

/-- `Aggregator.aggregate_stat_var` (aggregation.py:330-359) for a statistic of type `bool`: the sums of a boolean computation are booleans, here converted to numbers, as the division
(line 111) and the summation over chunks (`0 + b`, line 51) do. -/
def aggregateBoolVar (agg : Aggregator L (FV K)) (integerBins : Bool) (s : StatVar L (FV K)) : Except Err (Option (DA L (FV K) × DA L (FV K))) :=
  if agg.promotes integerBins s then agg.aggregateStatVar s
  else (agg.boolean.aggregateStatVar ⟨s.arr.map NPBool.ofFV, s.mask⟩).map (Option.map (fun q => (q.1.map NPBool.toFV, q.2.map NPBool.toFV)))

/-- `perVar` (aggregation.py:364-375) with a given `aggregate_stat_var`. -/
def perVarWith (f : StatVar L (FV K) → Except Err (Option (DA L (FV K) × DA L (FV K)))) :
    List (String × Option (StatVar L (FV K))) → Except Err (List (String × (DA L (FV K) × DA L (FV K))))
  | [] => .ok []
  | (_, none) :: rest => perVarWith f rest
  | (k, some s) :: rest => do
    let r ← f s
    let rs ← perVarWith f rest
    match r with
    | some p => return (k, p) :: rs
    | none => return rs

end Aggregator

/-- The means of a boolean statistic (aggregation.py:105-113, 361-375). -/
def boolMeanVars (agg : Aggregator L (FV K)) (integerBins : Bool) (vars : List (String × Option (StatVar L (FV K)))) : Except Err (Vars (DA L (FV K))) := do
  let pv ← Aggregator.perVarWith (agg.aggregateBoolVar integerBins) vars
  return pv.map (fun q => (q.1, DA.zipWith (· / ·) q.2.1 q.2.2))

/-- The values of a metric all of whose statistics are boolean, from the means of its statistics on one chunk (aggregation.py:404-428, metrics/base.py:258-292); compare `metricAlone`. -/
def boolMetricAlone {D : Type} (m : Metric D (Option (StatVar L (FV K))) (DA L (FV K))) (agg : Aggregator L (FV K)) (integerBins : Bool) (p t : Vars D) : Except Err (Vars (DA L (FV K))) := do
  let means ← m.statistics.mapM (fun ks => do
    let v ← ks.2.compute p t
    let mean ← boolMeanVars agg integerBins v
    return (ks.1, mean))
  m.valuesFromMeanStatistics means

end WBX
