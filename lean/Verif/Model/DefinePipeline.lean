import Verif.Model.Unaggregated
import Verif.Model.Serialize

/-!
# Model of `define_pipeline` (`/repo/weatherbenchX/beam_pipeline.py:407-485`)

The steps before the final state are in `Model/TimeChunks`, `Model/Load`, `Model/Beam`. Here: the state as the pipeline builds it,
`ComputeMetrics`, the Dataset of metric values with xarray's alignment on assignment, and the two optional output files.
-/

namespace WBX
variable {D M L V : Type} [DecidableEq L]

/-- What a chunk contributes to the pipeline: its offsets and its statistics (beam_pipeline.py:68-115 and 118-192). -/
def chunkElement (metrics : List (String × Metric D (Option (StatVar L V)) M))
    (targets : List L → LeadChunk L → Except Err (Vars D))
    (predictions : List L → LeadChunk L → Vars D → Except Err (Vars D))
    (x : TimeChunks.Offsets × (List L × LeadChunk L)) : Except Err ((ℕ × ℕ) × List (String × Vars (Option (StatVar L V)))) := do
  let stats ← chunkStatistics metrics targets predictions x.2.1 x.2.2
  return ((x.1.initTime, x.1.leadTime), stats)

/-- A two-level dict as a structure. -/
def nestedTree {α : Type} (n : Nested α) : Tree α := .dict (Dict.ofList (n.map (fun p => (p.1, Aggregator.leaves p.2))))

/-- The structures of the state made by `reconstruct_aggregation_state` (beam_pipeline.py:339). -/
def nestedState {α : Type} (n : Nested α × Nested α) : Tree α × Tree α := (nestedTree n.1, nestedTree n.2)

/-- `GroupAll` (beam_utils.py:53-61): the elements in one list, in any order; an empty collection has no key, hence no
group. -/
inductive GroupAllRun {α : Type} (xs : List α) : List (List α) → Prop where
  | empty : xs = [] → GroupAllRun xs []
  | all (ys : List α) : xs ≠ [] → ys.Perm xs → GroupAllRun xs [ys]

/-- An `xr.Dataset`: its data variables in insertion order and the labels of its indexes. Non-dimension coordinates and
attributes are not modelled. -/
structure ValuesDataset (L V : Type) where
  vars : List (String × DA L V)
  index : Dim → Option (Finset L)

/-- `xr.Dataset()`. -/
def ValuesDataset.empty : ValuesDataset L V := ⟨[], fun _ => none⟩

/-- The array reindexed to the known labels; cells it does not have become `fill` (NaN). -/
def reindexKnown (fill : V) (index : Dim → Option (Finset L)) (a : DA L V) : DA L V where
  dims := a.dims
  coords := fun d => (index d).getD (a.coords d)
  val := fun e => if a.InDom e then a.val e else fill

/-- `ds[name] = array` (as in aggregation.py:140): xarray aligns the array to the indexes the dataset already has, and adds its
labels for the other dimensions. -/
def ValuesDataset.assign (fill : V) (ds : ValuesDataset L V) (ka : String × DA L V) : ValuesDataset L V where
  vars := pyInsert ka.1 (reindexKnown fill ds.index ka.2) ds.vars
  index := fun d => match ds.index d with
    | some c => some c
    | none => if d ∈ ka.2.dims then some (ka.2.coords d) else none

/-- The names `<metric>.<variable>` and arrays in the order of the loops (aggregation.py:136-140). -/
def metricArrays {α : Type} (table : List (String × Vars α)) : List (String × α) :=
  table.flatMap (fun mv => mv.2.map (fun va => (mv.1 ++ "." ++ va.1, va.2)))

/-- The dataset of metric values (aggregation.py:135-141), with the alignment on assignment. -/
def alignedDataset (fill : V) (table : List (String × Vars (DA L V))) : ValuesDataset L V :=
  (metricArrays table).foldl (ValuesDataset.assign fill) ValuesDataset.empty

/-- `ComputeMetrics.process` (beam_pipeline.py:359-366): `metric_values` (aggregation.py:115-141). -/
def computeMetrics [Div V] (fill : V) (metrics : List (String × Metric D (Option (StatVar L V)) (DA L V)))
    (state : Tree (DA L V) × Tree (DA L V)) : Except Err (List (String × DA L V)) := do
  let table ← AggState.metricTable (some state) metrics
  return (alignedDataset fill table).vars

/-- `out_path` and `aggregation_state_out_path` (beam_pipeline.py:414-415). -/
structure OutPaths where
  metrics : Option String
  state : Option String

/-- The files that are to be written for one final state, with their content (beam_pipeline.py:376-404, 475-485). Each write is an
atomic one (see `Model/AtomicWrite`); an exception means that this file is not written and the pipeline fails. -/
def outputsOf [Div V] (fill : V) (paths : OutPaths) (metrics : List (String × Metric D (Option (StatVar L V)) (DA L V)))
    (state : Tree (DA L V) × Tree (DA L V)) : List (String × Except Err (List (String × DA L V))) :=
  (paths.metrics.map (fun p => (p, computeMetrics fill metrics state))).toList ++
  (paths.state.map (fun p => (p, Serialize.toDataset fill "#" state))).toList

/-- The steps that `define_pipeline` (beam_pipeline.py:407-485) adds behind the final states; `ValueError` while the pipeline is being
defined if no output is asked for (beam_pipeline.py:469-473). -/
def definePipeline [Div V] (fill : V) (paths : OutPaths) (metrics : List (String × Metric D (Option (StatVar L V)) (DA L V))) :
    Except Err (List (Tree (DA L V) × Tree (DA L V)) → List (String × Except Err (List (String × DA L V)))) :=
  if paths.metrics = none ∧ paths.state = none then .error .valueError
  else .ok (fun states => states.flatMap (outputsOf fill paths metrics))

/-- A run of the whole pipeline (beam_pipeline.py:436-485) in which no step before the outputs raises: every chunk of `out` is loaded
and evaluated, the parts are combined as Beam likes, grouped in any order, and `outputs` is what is then to be written. -/
def RunsTo [LinearOrder L] [AddCommMonoid V] [Mul V] [One V] [Div V] [IsNull V] (fill : V) (paths : OutPaths)
    (metrics : List (String × Metric D (Option (StatVar L V)) (DA L V))) (agg : Aggregator L V)
    (targets : List L → LeadChunk L → Except Err (Vars D)) (predictions : List L → LeadChunk L → Vars D → Except Err (Vars D))
    (out : List (TimeChunks.Offsets × (List L × LeadChunk L)))
    (outputs : List (String × Except Err (List (String × DA L V)))) : Prop :=
  ∃ steps elements emitted combined outs groups,
    definePipeline fill paths metrics = .ok steps ∧
    out.mapM (chunkElement metrics targets predictions) = .ok elements ∧
    processChunks agg elements = .ok emitted ∧
    PipelineRun fill emitted combined (outs.map (fun kv => (kv.1, Except.ok kv.2))) ∧
    GroupAllRun outs groups ∧
    outputs = steps (groups.map (fun g => nestedState (reconstructAggregationState g)))

end WBX
