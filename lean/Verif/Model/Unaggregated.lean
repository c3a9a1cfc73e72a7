import Verif.Model.MetricsBase
import Verif.Model.TimeChunks
import Verif.Model.Beam

/-!
# Model of the unaggregated pipeline (`/repo/weatherbenchX/beam_pipeline.py:487-682`)

The output Zarr store is an array of cells per variable. Along `init_time` and `lead_time` a cell is addressed by its
*position* (that is how `xbeam.ChunksToZarr` addresses a region), along the other dimensions by its label: the chunks are
assumed to have the same coordinates along them ("assumes that all statistics have compatible coordinates",
beam_pipeline.py:622-624). The order of the labels of a chunk along the time dimensions is the order in which the chunk's
times were asked for. Simplifications: dtypes and the float32 item size are dropped; a statistic that is `None` is an error.
-/

namespace WBX

variable {L V D M : Type} [DecidableEq L]

/-- A `(xbeam.Key, xr.Dataset)` pair with one variable (beam_pipeline.py:522-540): the offsets of the key (absent for a
dimension that the variable does not have), the labels of the chunk along the time dimensions, in order, and the data. -/
structure Write (L V : Type) where
  name : String
  init : Option ℕ
  lead : Option ℕ
  initLabels : List L
  leadLabels : List L
  arr : DA L V

/-- The dataset variable name ``f'{stat_name}.{var_name}'`` (beam_pipeline.py:524). -/
def statisticName (stat var : String) : String := stat ++ "." ++ var

/-- `ComputeAndFormatStatistics.process` (beam_pipeline.py:505-540) for one computed statistic of one variable. -/
def formatStatistic (o : TimeChunks.Offsets) (is ts : List L) (stat var : String) (s : StatVar L V) : Write L V where
  name := statisticName stat var
  init := if "init_time" ∈ s.arr.dims then some o.initTime else none
  lead := if "lead_time" ∈ s.arr.dims then some o.leadTime else none
  initLabels := is
  leadLabels := ts
  arr := s.arr

/-- The loop over statistics and variables (beam_pipeline.py:522-540). A `None` statistic is reported as an error here (its
object-dtype variable cannot be written to the store). -/
def formatStatistics (o : TimeChunks.Offsets) (is ts : List L) (stats : List (String × Vars (Option (StatVar L V)))) :
    Except Err (List (Write L V)) :=
  (stats.flatMap (fun st => st.2.map (fun vr => (st.1, vr)))).mapM (fun x =>
    match x.2.2 with
    | some s => .ok (formatStatistic o is ts x.1 x.2.1 s)
    | none => .error .typeError)

/-- The labels of a chunk along `lead_time`, in order: those asked for, or for a slice those found by the loaders. -/
def chunkLeads (between : L → L → List L) : LeadChunk L → List L
  | .arr ts => ts
  | .slice a b => between a b

/-- Loading (beam_pipeline.py:68-115, see Model/Load) and statistics (beam_pipeline.py:518-520) of one chunk. -/
def chunkStatistics (metrics : List (String × Metric D (Option (StatVar L V)) M))
    (targets : List L → LeadChunk L → Except Err (Vars D)) (predictions : List L → LeadChunk L → Vars D → Except Err (Vars D))
    (is : List L) (lc : LeadChunk L) : Except Err (List (String × Vars (Option (StatVar L V)))) := do
  let t ← targets is lc
  let p ← predictions is lc t
  computeUniqueStatistics metrics p t

/-- All the elements that reach the `Rechunk` step (beam_pipeline.py:659-669). -/
def unaggregatedWrites (metrics : List (String × Metric D (Option (StatVar L V)) M))
    (targets : List L → LeadChunk L → Except Err (Vars D)) (predictions : List L → LeadChunk L → Vars D → Except Err (Vars D))
    (between : L → L → List L) (tc : TimeChunks L L) : Except Err (List (Write L V)) := do
  let out ← tc.iterWithOffsets
  let ws ← out.mapM (fun x => do
    let stats ← chunkStatistics metrics targets predictions x.2.1 x.2.2
    formatStatistics x.1 x.2.1 (chunkLeads between x.2.2) stats)
  return ws.flatten

/-- A cell of a variable of the store: positions along the time dimensions (irrelevant for a variable without them) and
labels along the others. -/
structure StoreCell (L : Type) where
  init : ℕ
  lead : ℕ
  rest : Dim → L

/-- The label that a chunk has at a position of the store: the chunk occupies the positions from its offset on. -/
def labelAt (offset : Option ℕ) (labels : List L) (pos : ℕ) (rest : L) : Option L :=
  match offset with
  | none => some rest
  | some o => if o ≤ pos then labels[pos - o]? else none

/-- What an element carries for a cell of the store, if anything (`xbeam.ChunksToZarr` region writes,
beam_pipeline.py:677-681). -/
def Write.valueAt (w : Write L V) (c : StoreCell L) : Option V :=
  match labelAt w.init w.initLabels c.init (c.rest "init_time"), labelAt w.lead w.leadLabels c.lead (c.rest "lead_time") with
  | some i, some j =>
    let e := DA.setLabel (DA.setLabel c.rest "init_time" i) "lead_time" j
    if w.arr.InDom e then some (w.arr.val e) else none
  | _, _ => none

/-- The store: the values written so far. -/
abbrev Store (L V : Type) := String → StoreCell L → Option V

/-- One region write (`xbeam.ChunksToZarr`, beam_pipeline.py:677-681). -/
def Store.write (st : Store L V) (w : Write L V) : Store L V := fun n c =>
  if n = w.name then (match w.valueAt c with | some v => some v | none => st n c) else st n c

/-- `_get_template_dataset` (beam_pipeline.py:543-605), the checks: what the lead times of the template are. `first` are the
statistics of the first chunk. -/
def templateLeads (tc : TimeChunks L L) : Except Err (List L) :=
  match tc.leadTimes with
  | .arr ts => .ok ts
  -- `np.arange(start, stop + step, step)`; `TimeChunks` rejects a step, `stop + None` raises `TypeError`
  | .slice _ _ _ => .error .typeError
  | .other => .error .valueError

/-- The template: its variables, its time coordinates if some variable has the dimension, and whether it has the coordinate
`valid_time` (the value at `(i, l)` is `i + l`). -/
structure Template (L : Type) where
  names : List String
  initTimes : Option (List L)
  leadTimes : Option (List L)
  validTime : Bool

/-- The arrays of the statistics. -/
def statArrays (stats : List (String × Vars (Option (StatVar L V)))) : List (String × StatVar L V) :=
  stats.flatMap (fun st => st.2.filterMap (fun vr => vr.2.map (fun s => (statisticName st.1 vr.1, s))))

/-- `_get_template_dataset` (beam_pipeline.py:573-605) after the first chunk has been computed. -/
def templateOf (tc : TimeChunks L L) (first : List (String × StatVar L V)) : Except Err (Template L) := do
  if first.any (fun x => x.2.mask.isSome) then throw .valueError
  let leads ← if first.any (fun x => "lead_time" ∈ x.2.arr.dims) then (templateLeads tc).map some else .ok none
  let inits := if first.any (fun x => "init_time" ∈ x.2.arr.dims) then some tc.initTimes else none
  return { names := first.map Prod.fst, initTimes := inits, leadTimes := leads, validTime := inits.isSome && leads.isSome }

/-- `_get_template_dataset` (beam_pipeline.py:543-605). -/
def getTemplate (metrics : List (String × Metric D (Option (StatVar L V)) M))
    (targets : List L → LeadChunk L → Except Err (Vars D)) (predictions : List L → LeadChunk L → Vars D → Except Err (Vars D))
    (tc : TimeChunks L L) : Except Err (Template L) :=
  match tc.getItem 0 with
  | .error .indexError => .error .valueError
  | .error e => .error e
  | .ok c => do
    let stats ← chunkStatistics metrics targets predictions c.1 c.2
    templateOf tc (statArrays stats)

/-- `x or -1` (beam_pipeline.py:645 and 647). -/
def orMinusOne : Option ℕ → ℤ
  | none => -1
  | some 0 => -1
  | some n => n

/-- `stat_chunks` (beam_pipeline.py:642-649). -/
def statChunks (tc : TimeChunks L L) (sizes : List (Dim × ℕ)) : List (Dim × ℤ) :=
  sizes.map (fun ds => (ds.1, if ds.1 = "init_time" then orMinusOne (some tc.initSize)
    else if ds.1 = "lead_time" then orMinusOne tc.leadSize else (ds.2 : ℤ)))

/-- `zarr_chunks = stat_chunks | zarr_chunks` (beam_pipeline.py:651-656). -/
def zarrChunks (stat : List (Dim × ℤ)) (user : Option (List (Dim × ℤ))) : List (Dim × ℤ) :=
  (user.getD []).foldl (fun d kv => pyInsert kv.1 kv.2 d) stat

end WBX
