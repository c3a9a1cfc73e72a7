import Verif.Model.Array
import Verif.Model.FV
import Verif.Model.MetricsBase
import Mathlib.Algebra.Order.Group.Defs

/-!
# Model of the gridded data loaders (`/repo/weatherbenchX/data_loaders/{base,xarray_loaders,latency_wrappers}.py`)

Labels, times and time differences are elements of one ordered group `L` (`datetime64`/`timedelta64` in a common unit). A dataset is modelled by one of
its variables, an array with the time dimensions of the dataset. Not modelled: repeated labels, sparse data (`concat_dim='index'`), lazy (dask) arrays and
dtypes — `compute` is the identity —, opening files, logging.
-/

namespace WBX
open DA
variable {L V : Type} [DecidableEq L]

/-! ### Selection -/

/-- `lead_times`: `None`, exact lead times or a slice (its bounds may be `None`). -/
inductive LeadTimes (L : Type) where
  | none
  | exact (l : List L)
  | slice (start stop : Option L)

/-- `da.sel({d: labels})`: `KeyError` if a label is missing. -/
def selList (d : Dim) (ls : List L) (a : DA L V) : Except Err (DA L V) :=
  if ls.all (fun l => decide (l ∈ a.coords d)) then .ok { a with coords := fun k => if k = d then ls.toFinset else a.coords k } else .error .keyError

/-- `da.sel({d: slice(start, stop)})` on a sorted index: both ends included. -/
def selSlice [LinearOrder L] (d : Dim) (start stop : Option L) (a : DA L V) : DA L V :=
  { a with coords := fun k => if k = d then (a.coords k).filter (fun l => (∀ s, start = some s → s ≤ l) ∧ (∀ s, stop = some s → l ≤ s)) else a.coords k }

/-- `da.sel({d: times})` for an array `times` of labels over the dimensions `ds` (vectorized indexing): the dimension `d` is replaced by `ds`, with the
labels `C`. `KeyError` if a time is missing. -/
def selArray (d : Dim) (ds : Finset Dim) (C : Dim → Finset L) (times : (Dim → L) → L) (present : Bool) (a : DA L V) : Except Err (DA L V) :=
  if present then .ok
    { dims := a.dims.erase d ∪ ds, coords := fun k => if k ∈ ds then C k else a.coords k, val := fun e => a.val (setLabel e d (times e)) }
  else .error .keyError

/-- The labels of the dimensions `init_time` and `lead_time`. -/
def initLead (inits leads : List L) (k : Dim) : Finset L := if k = "init_time" then inits.toFinset else leads.toFinset

/-! ### Loaders -/

/-- `PredictionsFromXarray._load_chunk_from_source` (xarray_loaders.py:191-206). -/
def loadPredictions [LinearOrder L] (ds : DA L V) (inits : List L) : LeadTimes L → Except Err (DA L V)
  | .exact leads => do
    let a ← selList "init_time" inits ds
    selList "lead_time" leads a
  | .slice start stop => do
    let a ← selList "init_time" inits ds
    return selSlice "lead_time" start stop a
  | .none => selList "init_time" inits ds

/-- `TargetsFromXarray._load_chunk_from_source` (xarray_loaders.py:242-263). Without lead times the result keeps the dimension `valid_time`. -/
def loadTargets [Add L] (ds : DA L V) (inits : List L) : LeadTimes L → Except Err (DA L V)
  | .exact leads => selArray "valid_time" {"init_time", "lead_time"} (initLead inits leads) (fun e => e "init_time" + e "lead_time")
      (inits.all (fun i => leads.all (fun l => decide (i + l ∈ ds.coords "valid_time")))) ds
  | .slice _ _ => .error .valueError
  | .none => selList "valid_time" inits ds

/-- The time coordinates of a climatology: the fields of a date (`dayofyear`, `hour`), as labels. -/
abbrev ClimFields (L : Type) := List (Dim × (L → L))

/-- The cell with the fields of the date `t`. -/
def setFields (fields : ClimFields L) (t : L) (e : Dim → L) : Dim → L := fields.foldl (fun e f => setLabel e f.1 (f.2 t)) e

/-- `ds.sel({field: field of times})`. -/
def selFields (fields : ClimFields L) (ds : Finset Dim) (C : Dim → Finset L) (times : (Dim → L) → L) (wanted : List L) (a : DA L V) : Except Err (DA L V) :=
  if wanted.all (fun t => fields.all (fun f => decide (f.2 t ∈ a.coords f.1))) then .ok
    { dims := (a.dims \ (fields.map Prod.fst).toFinset) ∪ ds, coords := fun k => if k ∈ ds then C k else a.coords k, val := fun e => a.val (setFields fields (times e) e) }
  else .error .keyError

/-- `ClimatologyFromXarray._load_chunk_from_source` (xarray_loaders.py:287-316). -/
def loadClimatology [Add L] (fields : ClimFields L) (ds : DA L V) (inits : List L) : LeadTimes L → Except Err (DA L V)
  | .exact leads => selFields fields {"init_time", "lead_time"} (initLead inits leads) (fun e => e "init_time" + e "lead_time")
      (inits.flatMap (fun i => leads.map (fun l => i + l))) ds
  | .slice _ _ => .error .valueError
  | .none => selFields fields {"init_time"} (fun _ => inits.toFinset) (fun e => e "init_time") inits ds

/-- `PersistenceFromXarray._load_chunk_from_source` (xarray_loaders.py:322-337): select, `expand_dims` by the lead times, rename `valid_time`. -/
def loadPersistence (ds : DA L V) (inits : List L) : LeadTimes L → Except Err (DA L V)
  | .exact leads => do
    let a ← selList "valid_time" inits ds
    return { dims := a.dims.erase "valid_time" ∪ {"init_time", "lead_time"},
             coords := fun k => if k = "init_time" then a.coords "valid_time" else if k = "lead_time" then leads.toFinset else ds.coords k,
             val := fun e => a.val (setLabel e "valid_time" (e "init_time")) }
  | _ => .error .valueError

/-- `ProbabilisticClimatologyFromXarray._load_chunk_from_source` (xarray_loaders.py:374-410): `yearStart y` is the first instant of year `y`, `dayOfYear` and
`hourOfDay` are the fields of a date, `hour` is the length of an hour. The members have the labels `member 0, member 1, …` (`indexOf` is the inverse), one per year from `startYear` to `endYear`. An
empty range of years is a `ValueError` of `xr.concat`. -/
def loadProbClimatology [AddCommGroup L] (yearStart : ℤ → L) (dayOfYear hourOfDay : L → ℤ) (hour : L) (member : ℕ → L) (indexOf : L → ℕ)
    (startYear endYear : ℤ) (ensembleDim : Dim) (ds : DA L V) (inits : List L) : LeadTimes L → Except Err (DA L V)
  | .exact leads =>
    let n := (endYear + 1 - startYear).toNat
    let time : ℤ → L → L := fun y t => yearStart y + ((dayOfYear t - 1) * 24 + hourOfDay t) • hour
    if n = 0 then .error .valueError
    else selArray "valid_time" {"init_time", "lead_time", ensembleDim} (fun k => if k = ensembleDim then ((List.range n).map member).toFinset else initLead inits leads k)
      (fun e => time (startYear + indexOf (e ensembleDim)) (e "init_time" + e "lead_time"))
      ((List.range n).all (fun k => inits.all (fun i => leads.all (fun l => decide (time (startYear + k) (i + l) ∈ ds.coords "valid_time"))))) ds
  | _ => .error .valueError

/-! ### Latency -/

/-- `np.nanargmax`: the first index of the largest entry; `none` if there is none (`ValueError`). -/
def nanArgmax [LinearOrder L] : List (Option L) → Option ℕ
  | [] => none
  | x :: xs =>
    match x, nanArgmax xs with
    | none, none => none
    | none, some j => some (j + 1)
    | some _, none => some 0
    | some a, some j =>
      match xs.getD j none with
      | some b => if a < b then some (j + 1) else some 0
      | none => some 0

/-- `ConstantLatencyWrapper.get_available_init_time` (latency_wrappers.py:94-102). -/
def availableInitTime [AddCommGroup L] [LinearOrder L] (nominal : List L) (latency : L) (init : L) : Except Err L :=
  let diff := nominal.map (fun t => t + latency - init)
  match nanArgmax (diff.map (fun d => if d ≤ 0 then some d else none)) with
  | none => .error .valueError
  | some idx =>
    match nominal[idx]? with
    | some t => .ok t
    | none => .error .indexError

/-- `x.assign_coords({d: x[d] + offset})`. -/
def shiftLabels [AddCommGroup L] (d : Dim) (offset : L) (a : DA L V) : DA L V :=
  { dims := a.dims, coords := fun k => if k = d then (a.coords k).image (· + offset) else a.coords k, val := fun e => a.val (setLabel e d (e d - offset)) }

/-- `xr.concat(chunks, dim=d)` of arrays with the same other labels; without any chunk `map_structure` raises a `ValueError`. -/
def concatAlong (d : Dim) : List (DA L V) → Except Err (DA L V)
  | [] => .error .valueError
  | a :: as => .ok
    { dims := a.dims, coords := fun k => if k = d then (a :: as).foldr (fun b s => b.coords d ∪ s) ∅ else a.coords k,
      val := fun e => match (a :: as).find? (fun b => decide (e d ∈ b.coords d)) with
        | some b => b.val e
        | none => a.val e }

/-- One init time of `ConstantLatencyWrapper._load_chunk_from_source` (latency_wrappers.py:124-159). -/
def latencyOne [AddCommGroup L] [LinearOrder L] (source : List L → LeadTimes L → Except Err (DA L V)) (nominal : List L) (latency : L) (leads : List L) (init : L) :
    Except Err (DA L V) := do
  let available ← availableInitTime nominal latency init
  let raw ← source [available] (.exact (leads.map (· + (init - available))))
  return shiftLabels "lead_time" (-(init - available)) (shiftLabels "init_time" (init - available) raw)

/-- `ConstantLatencyWrapper._load_chunk_from_source` (latency_wrappers.py:104-170): no lead times are a `ValueError`; a slice plus a time difference is a `TypeError` (after the
available init time has been found). -/
def latencySource [AddCommGroup L] [LinearOrder L] (source : List L → LeadTimes L → Except Err (DA L V)) (nominal : List L) (latency : L) (inits : List L) :
    LeadTimes L → Except Err (DA L V)
  | .none => .error .valueError
  | .slice _ _ =>
    match inits with
    | [] => .error .valueError
    | i :: _ => do
      let _ ← availableInitTime nominal latency i
      .error .typeError
  | .exact leads => do
    let chunks ← inits.mapM (latencyOne source nominal latency leads)
    concatAlong "init_time" chunks

/-- A loader wrapped with a latency: its nominal init times, its latency and its `load_chunk` for one init time. -/
structure LatencyLoader (L V : Type) where
  nominal : List L
  latency : L
  load : L → LeadTimes L → Except Err (DA L V)

/-- The keys by which `MultipleConstantLatencyWrapper._get_data_loader` (latency_wrappers.py:258-286) sorts: the offset and the negative latency. -/
def loaderKeys [AddCommGroup L] [LinearOrder L] (loaders : List (LatencyLoader L V)) (init : L) : Except Err (List (L × L)) :=
  loaders.mapM (fun d => do
    let available ← availableInitTime d.nominal d.latency init
    return (init - available, -d.latency))

/-- `idx[0]` of `np.argsort(keys, order=…)`: an index with a smallest key in lexicographic order (the sort is not stable). -/
def IsArgmin [LinearOrder L] (keys : List (L × L)) (idx : ℕ) : Prop :=
  ∃ k, keys[idx]? = some k ∧ ∀ k' ∈ keys, k.1 < k'.1 ∨ k.1 = k'.1 ∧ k.2 ≤ k'.2

/-- `MultipleConstantLatencyWrapper.load_chunk` (latency_wrappers.py:288-310); `argmin` is the choice made by the sort. -/
def multipleLatencyLoad [AddCommGroup L] [LinearOrder L] (argmin : List (L × L) → ℕ) (loaders : List (LatencyLoader L V)) (inits : List L) (leads : LeadTimes L) :
    Except Err (DA L V) := do
  let chunks ← inits.mapM (fun init => do
    let keys ← loaderKeys loaders init
    match loaders[argmin keys]? with
    | some d => d.load init leads
    | none => .error .indexError)
  concatAlong "init_time" chunks

/-! ### `DataLoader.load_chunk` -/

/-- A loaded variable with its optional coordinates. -/
structure LoadedVar (L K : Type) where
  arr : DA L (FV K)
  mask : Option (DA L Bool) := none
  valuesAsCoord : Option (DA L (FV K)) := none

/-- The options of `DataLoader` (data_loaders/base.py:71-102); `R` is the type of a reference. -/
structure LoaderOptions (L K R : Type) where
  interpolation : Option (Vars (LoadedVar L K) → Option R → Except Err (Vars (LoadedVar L K)))
  compute : Bool
  addNanMask : Bool
  processChunkFn : Option (Vars (LoadedVar L K) → Except Err (Vars (LoadedVar L K)))
  addValuesToCoords : Bool

section
variable {K R : Type}

/-- `add_nan_mask_to_data` (data_loaders/base.py:25-57). -/
def addNanMaskToData (subset : Option (List String)) (data : Vars (LoadedVar L K)) : Vars (LoadedVar L K) :=
  data.map (fun v => if subset = none ∨ v.1 ∈ subset.getD [] then (v.1, { v.2 with mask := some (v.2.arr.map (fun x => !x.isnan)) }) else v)

/-- `process_chunk_fn` if there is one (data_loaders/base.py:138-139). -/
def applyProcess (o : LoaderOptions L K R) (chunk : Vars (LoadedVar L K)) : Except Err (Vars (LoadedVar L K)) :=
  match o.processChunkFn with
  | some f => f chunk
  | none => .ok chunk

/-- The interpolation if there is one (data_loaders/base.py:141-144). -/
def applyInterpolation (o : LoaderOptions L K R) (chunk : Vars (LoadedVar L K)) (reference : Option R) : Except Err (Vars (LoadedVar L K)) :=
  match o.interpolation with
  | some f => f chunk reference
  | none => .ok chunk

/-- `DataLoader.load_chunk` (data_loaders/base.py:111-163) after `_load_chunk_from_source`. -/
def finishChunk (o : LoaderOptions L K R) (chunk : Vars (LoadedVar L K)) (reference : Option R) : Except Err (Vars (LoadedVar L K)) := do
  let chunk ← applyProcess o chunk
  let chunk ← applyInterpolation o chunk reference
  let chunk := if o.addNanMask then addNanMaskToData none chunk else chunk
  return if o.addValuesToCoords then chunk.map (fun v => (v.1, { v.2 with valuesAsCoord := some v.2.arr })) else chunk

/-- The options that `ConstantLatencyWrapper.__init__` (latency_wrappers.py:83-88) passes on: not `add_values_to_coords`. -/
def latencyOptions (o : LoaderOptions L K R) : LoaderOptions L K R :=
  { interpolation := o.interpolation, compute := o.compute, addNanMask := o.addNanMask, processChunkFn := o.processChunkFn, addValuesToCoords := false }

end

/-! ### Lazy preparation of the dataset -/

/-- The state of an `XarrayDataLoader`: `_ds` and `_preprocessed`. -/
structure XarrayState (D : Type) where
  ds : Option D
  preprocessed : Bool := false

/-- The constructor arguments that matter for the preparation; `steps` are, in order, `preprocessing_fn`, the renaming, the choice of variables and `sel`
(xarray_loaders.py:121-136), each replacing `_ds`; `opened` is what opening the path gives. -/
structure Preparation (D : Type) where
  opened : Except Err D
  steps : List (D → Except Err D)

/-- The successive assignments to `_ds`: the state when the first step raises, or at the end. -/
def runSteps {D : Type} : List (D → Except Err D) → D → D × Except Err Unit
  | [], ds => (ds, .ok ())
  | f :: fs, ds =>
    match f ds with
    | .ok ds' => runSteps fs ds'
    | .error e => (ds, .error e)

/-- The dataset that the preparation starts with: the one given to the constructor, or else the file (xarray_loaders.py:121-130). -/
def startDataset {D : Type} (p : Preparation D) (s : XarrayState D) : Except Err D :=
  match s.ds with
  | some ds => .ok ds
  | none => p.opened

/-- `maybe_prepare_dataset` (xarray_loaders.py:116-141). -/
def maybePrepare {D : Type} (p : Preparation D) (s : XarrayState D) : XarrayState D × Except Err Unit :=
  if s.preprocessed then (s, .ok ())
  else
    match startDataset p s with
    | .error e => (s, .error e)
    | .ok ds =>
      match runSteps p.steps ds with
      | (ds', .ok ()) => ({ ds := some ds', preprocessed := true }, .ok ())
      | (ds', .error e) => ({ ds := some ds', preprocessed := false }, .error e)

/-- `XarrayDataLoader.load_chunk` (xarray_loaders.py:150-157): prepare, then load from the dataset (`load` is the rest, a function of the dataset and the arguments). -/
def xarrayLoadChunk {D A R : Type} (p : Preparation D) (load : D → A → Except Err R) (args : A) (s : XarrayState D) : XarrayState D × Except Err R :=
  match maybePrepare p s with
  | (s', .error e) => (s', .error e)
  | (s', .ok ()) =>
    match s'.ds with
    | some ds => (s', load ds args)
    | none => (s', .error .assertionError)

/-- A sequence of calls and their results. -/
def xarrayCalls {D A R : Type} (p : Preparation D) (load : D → A → Except Err R) : List A → XarrayState D → XarrayState D × List (Except Err R)
  | [], s => (s, [])
  | a :: as, s =>
    let r := xarrayLoadChunk p load a s
    let rest := xarrayCalls p load as r.1
    (rest.1, r.2 :: rest.2)

end WBX
