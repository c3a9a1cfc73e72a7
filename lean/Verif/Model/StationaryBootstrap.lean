import Verif.Model.Bootstrap
import Verif.Model.Interpolation

/-!
# Model of `apply_to_slices` (`/repo/weatherbenchX/statistical_inference/utils.py:79-138`) and of `StationaryBootstrap`
(`/repo/weatherbenchX/statistical_inference/bootstrap.py:347-401, 441-554`)

Arrays come with the order of their labels (`Ordered`). A dimension without a coordinate counts as one with the labels that `apply_to_slices` gives it. Arrays have no names (with
names, `xr.combine_by_coords` returns a Dataset). Repeated labels are not modelled.
-/

namespace WBX
open DA

/-! ### `apply_to_slices` -/

section slices
variable {L V S A : Type} [DecidableEq L]

/-- `np.ndindex`: all positions, the last dimension varies fastest. -/
def ndindex : List ℕ → List (List ℕ)
  | [] => [[]]
  | n :: ns => (List.range n).flatMap (fun i => (ndindex ns).map (fun js => i :: js))

/-- `slice_arg` (utils.py:130-132): `isel` with a list of one position, for the dimensions that the array has. -/
def iselOne (positions : List (Dim × ℕ)) (a : Ordered L V) : Ordered L V :=
  let labels : Dim → List L := fun d =>
    match positions.lookup d with
    | some i => if d ∈ a.arr.dims then (a.order d)[i]?.toList else a.order d
    | none => a.order d
  { arr :=
    { dims := a.arr.dims
      coords := fun d => if d ∈ a.arr.dims ∧ (positions.lookup d).isSome then (labels d).toFinset else a.arr.coords d
      val := a.arr.val }
    order := labels }

/-- The size of one dimension and its checks (utils.py:109-126). -/
def sliceSize (leaves : List (Ordered L V)) (d : Dim) : Except Err ℕ :=
  match (leaves.filter (fun a => decide (d ∈ a.arr.dims))).map (fun a => (a.order d).length) with
  | [] => .error .valueError
  | n :: ns => if ns.all (fun m => m == n) then .ok n else .error .valueError

/-- The sizes of the dimensions (utils.py:107-126); all errors are `ValueError`s. -/
def sliceSizes (dims : List Dim) (leaves : List (Ordered L V)) : Except Err (List ℕ) := dims.mapM (sliceSize leaves)

/-- Calls of a function with a state (here: the cache of `StationaryBootstrap`), one after another; the first exception ends them. -/
def runCalls {R : Type} (f : S → A → Except Err (R × S)) : S → List A → Except Err (List R × S)
  | s, [] => .ok ([], s)
  | s, a :: as => do
    let r ← f s a
    let rs ← runCalls f r.2 as
    return (r.1 :: rs.1, rs.2)

/-- The dimensions of the first array along which the labels are not the same in all arrays. -/
def concatDims (r : DA L V) (rs : List (DA L V)) : Finset Dim := r.dims.filter (fun d => rs.any (fun s => decide (s.coords d ≠ r.coords d)))

open Classical in
/-- The array that consists of the given ones. -/
noncomputable def joinTiles (r : DA L V) (rs : List (DA L V)) : DA L V where
  dims := r.dims
  coords := fun d => if d ∈ concatDims r rs then (r :: rs).toFinset.biUnion (fun s => s.coords d) else r.coords d
  val := fun e =>
    match (r :: rs).reverse.find? (fun s => decide (∀ d ∈ concatDims r rs, e d ∈ s.coords d)) with
    | some s => s.val e
    | none => r.val e

open Classical in
/-- `xr.combine_by_coords` of unnamed arrays (utils.py:137-138). The dimensions along which the labels are not the same in all arrays are concatenated; more than one array and no such
dimension is a `ValueError`. Arrays with the same labels along these dimensions have the same place, and the last one takes it (`dict(zip(tile_ids, datasets))`). Simplified: arrays
with different dimensions, overlapping but different labels, and missing places are all a `ValueError`. -/
noncomputable def combineTiles : List (DA L V) → Except Err (DA L V)
  | [] => .error .valueError
  | r :: rs =>
    if ∃ s ∈ rs, s.dims ≠ r.dims then .error .valueError
    else if concatDims r rs = ∅ ∧ rs ≠ [] then .error .valueError
    else if ∃ d ∈ concatDims r rs, ∃ s ∈ r :: rs, ∃ s' ∈ r :: rs, s.coords d ≠ s'.coords d ∧ ¬ Disjoint (s.coords d) (s'.coords d) then .error .valueError
    else if ∃ e : Dim → L, (∀ d ∈ concatDims r rs, ∃ s ∈ r :: rs, e d ∈ s.coords d) ∧ ∀ s ∈ r :: rs, ∃ d ∈ concatDims r rs, e d ∉ s.coords d then .error .valueError
    else .ok (joinTiles r rs)

/-- `apply_to_slices` (utils.py:79-138) for a function with one array as result. `mapArgs` and `leaves` are `map_structure` and the arrays of the arguments. A dimension of size zero
gives no results, and `map_structure` without arguments raises a `ValueError`. -/
noncomputable def applyToSlices (mapArgs : (Ordered L V → Ordered L V) → A → A) (leaves : A → List (Ordered L V)) (f : S → A → Except Err (DA L V × S)) (dims : List Dim) (args : A)
    (s : S) : Except Err (DA L V × S) := do
  let sizes ← sliceSizes dims (leaves args)
  let results ← runCalls f s ((ndindex sizes).map (fun positions => mapArgs (iselOne (dims.zip positions)) args))
  let r ← combineTiles results.1
  return (r, results.2)

end slices

/-! ### The cache of bootstrap indices -/

/-- `functools.lru_cache` (bootstrap.py:384-386): the entries, most recently used first, and the number of calls of the function so far. -/
structure LruCache (K T : Type) where
  entries : List (K × T)
  misses : ℕ

/-- A call of the cached function. `fresh k` is what the `k`-th call of the function itself returns: it is random. -/
def LruCache.get {K T : Type} [DecidableEq K] (maxsize : ℕ) (fresh : ℕ → K → T) (key : K) (c : LruCache K T) : T × LruCache K T :=
  match c.entries.find? (fun x => x.1 = key) with
  | some x => (x.2, { c with entries := x :: c.entries.filter (fun y => y.1 ≠ key) })
  | none => (fresh c.misses key, { entries := ((key, fresh c.misses key) :: c.entries).take maxsize, misses := c.misses + 1 })

/-! ### `StationaryBootstrap` -/

section stationary
variable {L D : Type} [DecidableEq L] [Inhabited L]

/-- The arguments of `StationaryBootstrap` (bootstrap.py:347-356) besides metrics and statistics, and what it takes from outside: `arch` is `arch.bootstrap.optimal_block_length`, `round`
the rounding of numpy, and `draws k n b` the random first position and the later random numbers of replicate `b` in the `k`-th sampling for `n` units. `replicates` are the labels of the
replicates. -/
structure StationaryOptions (L : Type) where
  unitDim : Dim
  replicates : Finset L
  meanBlockLength : Option ℝ
  resolution : Option ℝ
  cacheSize : ℕ
  arch : List (FV ℝ) → ℝ
  round : ℝ → ℤ
  draws : ℕ → ℕ → L → ℕ × List (ℝ × ℕ)

/-- The indices of all replicates, and the cache of them by the number of units and the mean block length. -/
abbrev IndexCache (L : Type) := LruCache (ℕ × ℝ) (L → List ℕ)

/-- What a call of `stationary_bootstrap_indices` returns (bootstrap.py:238-259). -/
noncomputable def StationaryOptions.sample (o : StationaryOptions L) (k : ℕ) (key : ℕ × ℝ) : L → List ℕ :=
  fun b => stationaryIndices key.1 key.2 (o.draws k key.1 b).1 (o.draws k key.1 b).2

/-- The statistics of a metric or of all metrics: the sums of weighted statistics and of weights, by statistic and variable. -/
abbrev OrderedTable (L : Type) := List (String × Vars (Ordered L (FV ℝ) × Ordered L (FV ℝ)))

/-- The arguments that are sliced (bootstrap.py:516-518). -/
structure SliceArgs (L : Type) where
  tangents : Ordered L (FV ℝ)
  table : OrderedTable L

/-- `map_structure` for them. -/
def SliceArgs.map (f : Ordered L (FV ℝ) → Ordered L (FV ℝ)) (a : SliceArgs L) : SliceArgs L :=
  { tangents := f a.tangents, table := a.table.map (fun sv => (sv.1, sv.2.map (fun v => (v.1, f v.2.1, f v.2.2)))) }

/-- All arrays among the arguments. -/
def SliceArgs.leaves (a : SliceArgs L) : List (Ordered L (FV ℝ)) :=
  a.tangents :: (a.table.flatMap (fun sv => sv.2.map (fun v => v.2.1)) ++ a.table.flatMap (fun sv => sv.2.map (fun v => v.2.2)))

/-- `_optimal_block_length` (bootstrap.py:403-439) of a slice: `squeeze` has to leave one dimension. -/
noncomputable def sliceBlockLength (o : StationaryOptions L) (tangents : Ordered L (FV ℝ)) : Except Err ℝ :=
  let n := (tangents.order o.unitDim).length
  if o.meanBlockLength.isNone ∧ 8 ≤ n ∧ ¬ ∀ d ∈ tangents.arr.dims.erase o.unitDim, (tangents.order d).length = 1 then .error .assertionError
  else optimalBlockLength o.meanBlockLength n (o.arch (series o.unitDim tangents (fun d => (tangents.order d).headD default))) o.round o.resolution

/-- The sums over the units at the given positions, one for every replicate (bootstrap.py:543-548). -/
def resampledArray (d : Dim) (replicates : Finset L) (indices : L → List ℕ) (a : Ordered L (FV ℝ)) : DA L (FV ℝ) where
  dims := insert replicateDim (a.arr.dims.erase d)
  coords := fun k => if k = replicateDim then replicates else a.arr.coords k
  val := fun e => sumResampled (series d a e) (indices (e replicateDim))

/-- `sum_of_resampled` (bootstrap.py:543-548): no such dimension is a `ValueError`, a position behind the end an `IndexError`. An array that has a dimension of replicates already is not
modelled. -/
def resampleSum (d : Dim) (replicates : Finset L) (indices : L → List ℕ) (a : Ordered L (FV ℝ)) : Except Err (DA L (FV ℝ)) :=
  if d ∉ a.arr.dims then .error .valueError
  else if ∃ b ∈ replicates, ∃ i ∈ indices b, (a.order d).length ≤ i then .error .indexError
  else .ok (resampledArray d replicates indices a)

/-- The mean statistics of the replicates (bootstrap.py:549-552). -/
noncomputable def resampledTable (d : Dim) (replicates : Finset L) (indices : L → List ℕ) (table : OrderedTable L) : Except Err (List (String × Vars (DA L (FV ℝ)))) :=
  table.mapM (fun sv => do
    let vars ← sv.2.mapM (fun v => do
      let x ← resampleSum d replicates indices v.2.1
      let w ← resampleSum d replicates indices v.2.2
      return (v.1, zipWith (· / ·) x w))
    return (sv.1, vars))

/-- `_bootstrap_results_for_metric_scalar` (bootstrap.py:524-555). -/
noncomputable def stationaryScalar (o : StationaryOptions L) (metric : Metric D (Option (StatVar L (FV ℝ))) (DA L (FV ℝ))) (var : String) (cache : IndexCache L) (a : SliceArgs L) :
    Except Err (DA L (FV ℝ) × IndexCache L) :=
  if o.unitDim ∉ a.tangents.arr.dims then .error .keyError
  else do
    let length ← sliceBlockLength o a.tangents
    let indices := cache.get o.cacheSize o.sample ((a.tangents.order o.unitDim).length, length)
    let means ← resampledTable o.unitDim o.replicates indices.1 a.table
    let values ← metric.valuesFromMeanStatistics means
    let x ← pyItem values var
    return (x, indices.2)

/-- The statistics of a metric by their internal names (bootstrap.py:448-457). -/
def selectStatistics (metric : Metric D (Option (StatVar L (FV ℝ))) (DA L (FV ℝ))) (table : OrderedTable L) : Except Err (OrderedTable L) :=
  metric.statistics.mapM (fun s => do
    let vars ← pyItem table s.2.uniqueName
    return (s.1, vars))

/-- The choice of the statistics that are resampled for a variable (bootstrap.py:466-489). -/
def statisticsForVariable (single : Bool) (var : String) (table : OrderedTable L) : OrderedTable L :=
  if !single && table.all (fun sv => (pyGet? var sv.2).isSome) then
    table.map (fun sv => (sv.1, ((pyGet? var sv.2).map (fun x => (var, x))).toList))
  else table

/-- `_bootstrap_results_for_metric` (bootstrap.py:441-522). `estimates` are the dimensions of the point estimate of each variable, `tangents` the linearized values per unit. -/
noncomputable def stationaryMetric (o : StationaryOptions L) (metric : Metric D (Option (StatVar L (FV ℝ))) (DA L (FV ℝ))) (estimates : Vars (List Dim)) (tangents : Vars (Ordered L (FV ℝ)))
    (table : OrderedTable L) (cache : IndexCache L) : Except Err (Vars (DA L (FV ℝ)) × IndexCache L) := do
  let selected ← selectStatistics metric table
  runCalls (fun cache (est : String × List Dim) => do
    let t ← pyItem tangents est.1
    let r ← applyToSlices SliceArgs.map SliceArgs.leaves (stationaryScalar o metric est.1) est.2
      { tangents := t, table := statisticsForVariable (decide (estimates.length ≤ 1)) est.1 selected } cache
    return ((est.1, r.1), r.2)) cache estimates

/-- The resampled values of all metrics (bootstrap.py:384-401): one cache, empty at first. `estimates` has the metrics with dimensions and tangents of their point estimates. -/
noncomputable def stationaryBootstrap (o : StationaryOptions L)
    (metrics : List (String × Metric D (Option (StatVar L (FV ℝ))) (DA L (FV ℝ)) × Vars (List Dim) × Vars (Ordered L (FV ℝ)))) (table : OrderedTable L) :
    Except Err (List (String × Vars (DA L (FV ℝ)))) := do
  let r ← runCalls (fun cache (m : String × Metric D (Option (StatVar L (FV ℝ))) (DA L (FV ℝ)) × Vars (List Dim) × Vars (Ordered L (FV ℝ))) => do
    let r ← stationaryMetric o m.2.1 m.2.2.1 m.2.2.2 table cache
    return ((m.1, r.1), r.2)) ({ entries := [], misses := 0 } : IndexCache L) metrics
  return r.1

end stationary
end WBX
