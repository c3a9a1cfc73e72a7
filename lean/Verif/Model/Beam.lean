import Verif.Model.Aggregation

/-!
# Model of the aggregation path of `/repo/weatherbenchX/beam_pipeline.py` and of `beam_utils.CombiningSum`

Beam itself is modelled by what it promises: `ParDo` applies a function to each element, `CombinePerKey` gives each key
one output obtained by *some* schedule of accumulator operations over the inputs of the key in *some* order,
`GroupByKey` gives each key all its values in *some* order, and collections have no order.
-/

namespace WBX
variable {L V : Type} [DecidableEq L]

/-! ## `CombiningSum` -/
namespace CombiningSum

/-- `CombiningSum.create_accumulator` (beam_utils.py:33-34). -/
def createAccumulator : Option (DA L V) := none

/-- `CombiningSum.add_input` (beam_utils.py:36-42). -/
def addInput [Add V] [Zero V] (accumulator : Option (DA L V)) (element : DA L V) : Option (DA L V) :=
  match accumulator with
  | none => some element
  | some a => some (combiningSum [a, element])

/-- `CombiningSum.merge_accumulators` (beam_utils.py:44-47). -/
def mergeAccumulators [Add V] [Zero V] (accumulators : List (Option (DA L V))) : Option (DA L V) :=
  let as := accumulators.filterMap id
  if as.isEmpty then none else some (combiningSum as)

/-- `CombiningSum.extract_output` (beam_utils.py:49-50). -/
def extractOutput (accumulator : Option (DA L V)) : Option (DA L V) := accumulator

end CombiningSum

/-- All ways a Beam runner may drive a `CombiningSum`: `CombineRun inputs acc` says that some sequence of
`create_accumulator`, `add_input` and `merge_accumulators` calls (any bundling, any merge tree, any number of empty
accumulators) consumes exactly `inputs` and ends with accumulator `acc`. -/
inductive CombineRun [Add V] [Zero V] : List (DA L V) → Option (DA L V) → Prop where
  | create : CombineRun [] CombiningSum.createAccumulator
  | add {inputs : List (DA L V)} {acc : Option (DA L V)} (x : DA L V) :
      CombineRun inputs acc → CombineRun (inputs ++ [x]) (CombiningSum.addInput acc x)
  | merge (accs : List (List (DA L V) × Option (DA L V))) :
      (∀ p ∈ accs, CombineRun p.1 p.2) →
      CombineRun (accs.map Prod.fst).flatten (CombiningSum.mergeAccumulators (accs.map Prod.snd))

/-! ## Keys and per-chunk aggregation -/

/-- `_AggregationKey` (beam_pipeline.py:119-130). `isStat` is `type == 'sum_weighted_statistics'`. -/
structure AggKey where
  isStat : Bool
  stat : String
  var : String
  initOffset : Option ℕ
  leadOffset : Option ℕ
  deriving DecidableEq

/-- `_AggregationKey.drop_offsets` (beam_pipeline.py:132-135). -/
def AggKey.dropOffsets (k : AggKey) : AggKey := { k with initOffset := none, leadOffset := none }

/-- Loop body for one variable of `ComputeStatisticsAggregateAndPrepareForCombine.process`
(beam_pipeline.py:203-238), given the result of `aggregate_stat_var`. -/
def emitVar (off : ℕ × ℕ) (stat var : String) : Option (DA L V × DA L V) → List (AggKey × DA L V)
  | none => []
  | some (sws, sw) =>
    let io := if "init_time" ∈ sws.dims then some off.1 else none
    let lo := if "lead_time" ∈ sws.dims then some off.2 else none
    [(⟨true, stat, var, io, lo⟩, sws), (⟨false, stat, var, io, lo⟩, sw)]

/-- The loop over the variables of one statistic (beam_pipeline.py:203-238). A `None` statistic would make
`aggregate_stat_var` raise. -/
def processVars [AddCommMonoid V] [Mul V] [One V] [IsNull V] (agg : Aggregator L V) (off : ℕ × ℕ) (stat : String) :
    List (String × Option (StatVar L V)) → Except Err (List (AggKey × DA L V))
  | [] => .ok []
  | (_, none) :: _ => .error .typeError
  | (v, some s) :: rest => do
    let r ← agg.aggregateStatVar s
    let rs ← processVars agg off stat rest
    return emitVar off stat v r ++ rs

/-- `ComputeStatisticsAggregateAndPrepareForCombine.process` (beam_pipeline.py:155-240) for the statistics of one
chunk (their computation is modelled with the metrics). -/
def processChunk [AddCommMonoid V] [Mul V] [One V] [IsNull V] (agg : Aggregator L V) (off : ℕ × ℕ) :
    List (String × List (String × Option (StatVar L V))) → Except Err (List (AggKey × DA L V))
  | [] => .ok []
  | (st, vars) :: rest => do
    let a ← processVars agg off st vars
    let b ← processChunk agg off rest
    return a ++ b

/-- The `ParDo` over all chunks. -/
def processChunks [AddCommMonoid V] [Mul V] [One V] [IsNull V] (agg : Aggregator L V) :
    List ((ℕ × ℕ) × List (String × List (String × Option (StatVar L V)))) → Except Err (List (AggKey × DA L V))
  | [] => .ok []
  | (off, stats) :: rest => do
    let a ← processChunk agg off stats
    let b ← processChunks agg rest
    return a ++ b

/-! ## Concatenation of the kept chunks -/

/-- `init_time` and `lead_time`, excluded from the alignment (beam_pipeline.py:270). -/
def timeDims : List Dim := ["init_time", "lead_time"]

/-- One array after `xr.align(*arrays, join='outer', fill_value=0, exclude=['init_time', 'lead_time'])`
(beam_pipeline.py:266-271), `C` being the union of the labels. -/
def alignExceptTime [Zero V] (C : Dim → Finset L) (a : DA L V) : DA L V :=
  { dims := a.dims, coords := fun d => if d ∈ timeDims then a.coords d else C d,
    val := fun e => if a.InDom e then a.val e else 0 }

/-- `d.size > 0`. -/
def hasCells (a : DA L V) : Bool := decide (∀ d ∈ a.dims, (a.coords d).Nonempty)

/-- One block of labels lies entirely before another. -/
def blockBefore [LinearOrder L] (A B : Finset L) : Bool := decide (∀ x ∈ A, ∀ y ∈ B, x < y)

/-- `xr.combine_by_coords` for unnamed arrays without zero-sized ones (beam_pipeline.py:295). Dimensions whose labels
agree on all arrays are left alone; at least one must differ if there are several arrays; along a differing dimension
the label blocks must be equal or ordered (otherwise the global index is not monotonic); two arrays on the same tile,
or with different dimensions, are rejected (xarray would drop one / fail). A cell covered by no array gets `fill`
(NaN). Simplification: labels within an array are taken to be increasing. -/
def combineByCoords [LinearOrder L] (fill : V) (as : List (DA L V)) : Except Err (DA L V) :=
  match as with
  | [] => .error .valueError
  | a0 :: rest =>
    let cut := a0.dims.filter (fun d => ∃ a ∈ rest, a.coords d ≠ a0.coords d)
    if ¬ (∀ a ∈ rest, a.dims = a0.dims) then .error .valueError
    else if rest ≠ [] ∧ cut = ∅ then .error .valueError
    else if ¬ (∀ d ∈ cut, ∀ a ∈ a0 :: rest, ∀ b ∈ a0 :: rest, a.coords d = b.coords d ∨
        blockBefore (a.coords d) (b.coords d) = true ∨ blockBefore (b.coords d) (a.coords d) = true) then
      .error .valueError
    else if ¬ ((a0 :: rest).map (fun a => cut.image (fun d => (d, a.coords d)))).Nodup then .error .valueError
    else .ok { dims := a0.dims
               coords := DA.outerCoords (a0 :: rest)
               val := fun e => match (a0 :: rest).find? (fun a => decide (a.InDom e)) with
                 | some a => a.val e
                 | none => fill }

/-- `combine_data_arrays_by_coords` (beam_pipeline.py:260-295). Non-dimension coordinates are not modelled. `fill` is
the NaN of `xr.DataArray()` and of `combine_by_coords`. -/
def concatArrays [LinearOrder L] [Zero V] (fill : V) (as : List (DA L V)) : Except Err (DA L V) :=
  let aligned := as.map (alignExceptTime (DA.outerCoords as))
  let kept := aligned.filter hasCells
  if kept.isEmpty then .ok (DA.scalar fill) else combineByCoords fill kept

/-! ## The final state -/

/-- A two-level Python dict. -/
abbrev Nested (α : Type) := List (String × List (String × α))

/-- `d[k] = v` on a Python dict. -/
def pyInsert {β : Type} (k : String) (v : β) : List (String × β) → List (String × β)
  | [] => [(k, v)]
  | (k', v') :: rest => if k' = k then (k', v) :: rest else (k', v') :: pyInsert k v rest

/-- `d.get(k)`. -/
def pyGet? {β : Type} (k : String) : List (String × β) → Option β
  | [] => none
  | (k', v') :: rest => if k' = k then some v' else pyGet? k rest

/-- `variables = d.setdefault(s, {}); variables[v] = x` (beam_pipeline.py:337-338). -/
def Nested.put {α : Type} (d : Nested α) (s v : String) (x : α) : Nested α :=
  pyInsert s (pyInsert v x ((pyGet? s d).getD [])) d

/-- `d[s][v]`, if present. -/
def Nested.get? {α : Type} (d : Nested α) (s v : String) : Option α := (pyGet? s d).bind (pyGet? v)

/-- `reconstruct_aggregation_state` (beam_pipeline.py:312-339): (sum_weighted_statistics, sum_weights). -/
def reconstructAggregationState {α : Type} (kvs : List (AggKey × α)) : Nested α × Nested α :=
  kvs.foldl (fun st kv =>
    if kv.1.isStat then (st.1.put kv.1.stat kv.1.var kv.2, st.2)
    else (st.1, st.2.put kv.1.stat kv.1.var kv.2)) ([], [])

/-- A run of the combining part of the pipeline (beam_pipeline.py:458-474): `CombinePerKey(CombiningSum())` turns
`emitted` into `combined` by any schedules, `ConcatPerStatisticPerVariable` turns `combined` into `concat` with the
grouped values in any order; both collections may come in any order. -/
structure PipelineRun [LinearOrder L] [AddCommMonoid V] (fill : V) (emitted combined : List (AggKey × DA L V))
    (concat : List (AggKey × Except Err (DA L V))) : Prop where
  combined_nodup : (combined.map Prod.fst).Nodup
  combined_keys : ∀ k, k ∈ combined.map Prod.fst ↔ k ∈ emitted.map Prod.fst
  combined_val : ∀ k v, (k, v) ∈ combined → ∃ inputs acc,
    inputs.Perm ((emitted.filter (fun kv => kv.1 = k)).map Prod.snd) ∧ CombineRun inputs acc ∧
    CombiningSum.extractOutput acc = some v
  concat_nodup : (concat.map Prod.fst).Nodup
  concat_keys : ∀ k, k ∈ concat.map Prod.fst ↔ k ∈ combined.map (fun kv => kv.1.dropOffsets)
  concat_val : ∀ k r, (k, r) ∈ concat → ∃ arrays,
    arrays.Perm ((combined.filter (fun kv => kv.1.dropOffsets = k)).map Prod.snd) ∧ r = concatArrays fill arrays

end WBX
