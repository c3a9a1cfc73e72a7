import Verif.Model.Array
import Verif.Model.Tree
import Verif.Model.FV

/-!
# Model of `/repo/weatherbenchX/aggregation.py`: `AggregationState` and `Aggregator`

Serialisation (`to_data_tree` etc.) is modelled in `Verif.Model.Serialize`, `metric_values` in
`Verif.Model.MetricsBase`.
-/

namespace WBX

/-- `DataArray.isnull()` on one value. -/
class IsNull (V : Type) where
  isnull : V → Bool

/-- On floats, null is NaN. -/
instance {K : Type} : IsNull (FV K) := ⟨FV.isnan⟩

/-- `AggregationState` (aggregation.py:56-74). The zero state (both fields `None`) is `none`; otherwise the
pair (sum_weighted_statistics, sum_weights). Simplification: a state with exactly one `None` field, which no
code path creates, is not representable. -/
abbrev AggState (L V : Type) := Option (Tree (DA L V) × Tree (DA L V))

namespace AggState

variable {L V : Type} [DecidableEq L]

/-- `AggregationState.zero` (aggregation.py:72-75). -/
def zero : AggState L V := none

/-- A two-element tuple of structures. -/
def tuple {α : Type} (a b : Tree α) : Tree α := .seq (.cons a (.cons b .nil))

/-- Unpacking of a two-element tuple. -/
def untuple {α : Type} : Tree α → Except Err (Tree α × Tree α)
  | .seq (.cons a (.cons b .nil)) => .ok (a, b)
  | _ => .error .valueError

/-- `AggregationState.sum` (aggregation.py:80-103). -/
def sum [Add V] [Zero V] (states : List (AggState L V)) : Except Err (AggState L V) :=
  -- states whose sum_weighted_statistics is None are skipped (lines 85-89)
  let tuples := (states.filterMap id).map (fun p => tuple p.1 p.2)
  if tuples.isEmpty then .ok zero
  else do
    let r ← Tree.mapStructure (fun as => .ok (combiningSum as)) tuples
    let p ← untuple r
    return some p

/-- `AggregationState.__add__` (aggregation.py:77-78). -/
def add [Add V] [Zero V] (a b : AggState L V) : Except Err (AggState L V) := sum [a, b]

/-- `AggregationState.mean_statistics` (aggregation.py:105-113). On a zero state `map_structure` calls
`None / None`, a `TypeError`. -/
def meanStatistics [Div V] : AggState L V → Except Err (Tree (DA L V))
  | none => .error .typeError
  | some (sws, sw) => Tree.mapStructure (fun
      | [s, w] => .ok (DA.zipWith (· / ·) s w)
      | _ => .error .typeError) [sws, sw]

/-- `AggregationState.map_multi` (aggregation.py:176-189). -/
def mapMulti (f : List (DA L V) → Except Err (DA L V)) (states : List (AggState L V)) :
    Except Err (AggState L V) :=
  if states.any Option.isNone then .error .valueError
  else do
    let sws ← Tree.mapStructure f ((states.filterMap id).map Prod.fst)
    let sw ← Tree.mapStructure f ((states.filterMap id).map Prod.snd)
    return some (sws, sw)

/-- `AggregationState.map` (aggregation.py:191-194). -/
def map (f : DA L V → Except Err (DA L V)) (s : AggState L V) : Except Err (AggState L V) :=
  mapMulti (fun
    | [a] => f a
    | _ => .error .typeError) [s]

/-- `x.sum(dims, skipna=False)`: `ValueError` if a dimension is missing. -/
def sumChecked [AddCommMonoid V] (dims : List Dim) (a : DA L V) : Except Err (DA L V) :=
  if dims.all (fun d => d ∈ a.dims) then .ok (DA.sumDims dims.dedup a) else .error .valueError

/-- `AggregationState.sum_along_dims` (aggregation.py:143-168). -/
def sumAlongDims [AddCommMonoid V] (dims : List Dim) : AggState L V → Except Err (AggState L V)
  | none => .ok none
  | some p => map (sumChecked dims) (some p)

/-- `AggregationState.dot` (aggregation.py:170-174). Simplification: every dimension of `dims` is one of the statistic or of `arrays` (`xr.dot` ignores others); its only caller passes the
resampling dimension of the counts (bootstrap.py:154, 229). -/
def dot [AddCommMonoid V] [Mul V] (arrays : List (DA L V)) (dims : List Dim) (s : AggState L V) :
    Except Err (AggState L V) :=
  map (fun a => .ok (DA.dot a arrays dims.dedup)) s

end AggState

/-- A statistic for one variable: its values and the optional boolean `mask` coordinate
(aggregation.py:332-333). -/
structure StatVar (L V : Type) where
  arr : DA L V
  mask : Option (DA L Bool)

/-- A binning: its bin dimension name and `create_bin_mask`. Errors raised by `create_bin_mask` itself are
modelled with the individual binnings, not here. -/
structure BinBy (L V : Type) where
  binDim : Dim
  createBinMask : DA L V → DA L V

/-- `Aggregator` (aggregation.py:262-288). `None` for `bin_by`/`weigh_by` is the empty list. -/
structure Aggregator (L V : Type) where
  reduceDims : List Dim
  binBy : List (BinBy L V) := []
  weighBy : List (DA L V → DA L V) := []
  masked : Bool := false
  skipna : Bool := false

namespace Aggregator

variable {L V : Type} [DecidableEq L]

/-- The loop creating the bin masks (aggregation.py:312-323); `none` is the early `return None`. -/
def binMasks (stat : DA L V) : List (BinBy L V) → Option (List (DA L V))
  | [] => some []
  | b :: bs =>
    let m := b.createBinMask stat
    if m.dims \ {b.binDim} ⊆ stat.dims then (binMasks stat bs).map (m :: ·) else none

/-- `Aggregator.aggregation_fn` (aggregation.py:290-328). -/
def aggregationFn [AddCommMonoid V] [Mul V] (agg : Aggregator L V) (stat : DA L V) :
    Except Err (Option (DA L V)) :=
  if ¬ (agg.reduceDims.all (fun d => d ∈ stat.dims)) then .ok none
  else
    let weights := agg.weighBy.map (fun w => w stat)
    let names := (agg.binBy.map (·.binDim)).dedup
    if names.length ≠ agg.binBy.length then .error .valueError
    else
      match binMasks stat agg.binBy with
      | none => .ok none
      | some masks => .ok (some (DA.dot stat (weights ++ masks) agg.reduceDims.dedup))

/-- `mask.astype(stat.dtype)`: True is 1, False is 0. -/
def boolToV [Zero V] [One V] (b : Bool) : V := if b then 1 else 0

/-- The masked statistic and the (numeric) mask of aggregation.py:332-350. The assertion on equal sizes
(line 352) holds by construction for masks that are coordinates of the statistic. -/
def applyMask [Zero V] [One V] [IsNull V] (agg : Aggregator L V) (stat : StatVar L V) : DA L V × DA L V :=
  match agg.masked, stat.mask with
  | true, some m =>
    let m' := if agg.skipna then
        DA.zipWith (· && ·) m (stat.arr.map (fun v => !IsNull.isnull v)) else m
    let s' := stat.arr.where_ m' 0
    (s', (m'.broadcastLike s').map boolToV)
  | _, _ =>
    if agg.skipna then
      let m := stat.arr.map (fun v => !IsNull.isnull v)
      (stat.arr.where_ m 0, m.map boolToV)
    else (stat.arr, stat.arr.map (fun _ => 1))

/-- `Aggregator.aggregate_stat_var` (aggregation.py:330-359) for a statistic of floating point type; boolean statistics are in `Verif.Model.BoolStatistics`. -/
def aggregateStatVar [AddCommMonoid V] [Mul V] [One V] [IsNull V] (agg : Aggregator L V)
    (stat : StatVar L V) : Except Err (Option (DA L V × DA L V)) := do
  let (s, m) := agg.applyMask stat
  let sws ← agg.aggregationFn s
  let sw ← agg.aggregationFn m
  match sws, sw with
  | some a, some b => return some (a, b)
  | _, _ => return none

/-- The `per_var` dict of `aggregate_stat_vars` (aggregation.py:364-365), without the `None` results that
the later comprehensions drop (lines 366-374). -/
def perVar [AddCommMonoid V] [Mul V] [One V] [IsNull V] (agg : Aggregator L V) :
    List (String × Option (StatVar L V)) → Except Err (List (String × (DA L V × DA L V)))
  | [] => .ok []
  | (_, none) :: rest => perVar agg rest
  | (k, some s) :: rest => do
    let r ← agg.aggregateStatVar s
    let rs ← perVar agg rest
    match r with
    | some p => return (k, p) :: rs
    | none => return rs

/-- A one-level dict of leaves. -/
def leaves {α : Type} (kvs : List (String × α)) : Tree α :=
  .dict (Dict.ofList (kvs.map (fun p => (p.1, .leaf p.2))))

/-- `Aggregator.aggregate_stat_vars` (aggregation.py:361-375). -/
def aggregateStatVars [AddCommMonoid V] [Mul V] [One V] [IsNull V] (agg : Aggregator L V)
    (stats : List (String × Option (StatVar L V))) : Except Err (Tree (DA L V) × Tree (DA L V)) := do
  let pv ← agg.perVar stats
  return (leaves (pv.map (fun p => (p.1, p.2.1))), leaves (pv.map (fun p => (p.1, p.2.2))))

/-- The `per_stat` dict of `aggregate_statistics` (aggregation.py:392-393). -/
def perStat [AddCommMonoid V] [Mul V] [One V] [IsNull V] (agg : Aggregator L V) :
    List (String × List (String × Option (StatVar L V))) →
      Except Err (List (String × (Tree (DA L V) × Tree (DA L V))))
  | [] => .ok []
  | (k, stats) :: rest => do
    let r ← agg.aggregateStatVars stats
    let rs ← perStat agg rest
    return (k, r) :: rs

/-- `Aggregator.aggregate_statistics` (aggregation.py:377-401). -/
def aggregateStatistics [AddCommMonoid V] [Mul V] [One V] [IsNull V] (agg : Aggregator L V)
    (statistics : List (String × List (String × Option (StatVar L V)))) :
    Except Err (AggState L V) := do
  let ps ← agg.perStat statistics
  return some (.dict (Dict.ofList (ps.map (fun p => (p.1, p.2.1)))),
               .dict (Dict.ofList (ps.map (fun p => (p.1, p.2.2)))))

end Aggregator
end WBX
