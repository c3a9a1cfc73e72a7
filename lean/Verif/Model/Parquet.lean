import Verif.Model.Basic
import Verif.Model.FV
import Verif.Model.Binning
import Verif.Model.Loaders
import Verif.Spec.Calendar

/-!
# Model of the loader of sparse observations (`/repo/weatherbenchX/data_loaders/sparse_parquet.py`)

Times are integers in units of which `hour` make an hour. A table is the list of its rows; a row has columns of times, numbers and text, each a total function of the column's name: missing columns
(`KeyError`), NaT and the choice of columns at the end are not modelled, nor is reading files, apart from the fact that a missing file raises. A parquet dataset is a function from the number of
a partition to its rows.
-/

namespace WBX
variable {K : Type}

/-- A row of a table. -/
structure ObsRow (K : Type) where
  time : String → ℤ
  num : String → FV K
  text : String → String

/-- `partitioned_by`. -/
inductive PartitionUnit
  | month | day | hour
  deriving DecidableEq

/-- The check of `partitioned_by` in the constructor (sparse_parquet.py:158-160). -/
def parsePartition : String → Except Err PartitionUnit
  | "month" => .ok .month
  | "day" => .ok .day
  | "hour" => .ok .hour
  | _ => .error .valueError

/-- `np.datetime64(t, unit)`: the number of the month, day or hour of a time, rounded down. -/
noncomputable def partitionOf (hour : ℤ) : PartitionUnit → ℤ → ℤ
  | .month, t => monthOf hour t
  | .day, t => dayOf hour t
  | .hour, t => t / hour

/-- `np.arange(a, b + 1, 1)`. -/
def arangeIncl (a b : ℤ) : List ℤ := (List.range (b + 1 - a).toNat).map (fun k : ℕ => a + k)

/-- `get_parquet_files_subset` (sparse_parquet.py:27-50): the numbers of the partitions. -/
noncomputable def parquetFilesSubset (hour : ℤ) (unit : PartitionUnit) (start stop : ℤ) : List ℤ :=
  arangeIncl (partitionOf hour unit start) (partitionOf hour unit stop)

/-- The numbers in the name given by `parquet_filename_for_time` (sparse_parquet.py:53-70) to the partition of a time. Simplification: the text of the name is not modelled. -/
noncomputable def parquetFileName (hour : ℤ) (unit : PartitionUnit) (t : ℤ) : List ℤ :=
  let leap := decide (LeapYear (yearOf hour t))
  let doy := dayOfYear hour t
  let month : ℤ := monthOfDay leap doy + 1
  match unit with
  | .month => [yearOf hour t, month]
  | .day => [yearOf hour t, month, dayOfMonth leap doy]
  | .hour => [yearOf hour t, month, dayOfMonth leap doy, hourOfDay hour t]

/-- The argument `tolerance`. -/
inductive ToleranceArg
  | single (t : ℤ)
  | tuple (ts : List ℤ)

/-- The check and normalisation of the tolerance (sparse_parquet.py:166-178). -/
def normaliseTolerance : Option ToleranceArg → Except Err (Option (ℤ × ℤ))
  | none => .ok none
  | some arg =>
    match (match arg with | .single t => [-t, t] | .tuple ts => ts) with
    | [lo, hi] => if hi - lo ≤ 0 then .error .valueError else .ok (some (lo, hi))
    | _ => .error .valueError

/-- The options of the loader after the constructor (sparse_parquet.py:157-190). `sort` is `sort_values('time_diff')`. -/
structure ParquetOptions (K : Type) where
  hour : ℤ
  unit : PartitionUnit
  timeDim : String
  tolerance : Option (ℤ × ℤ)
  includeSliceEndTime : Bool := false
  removeDuplicates : Bool := false
  pickClosestDuplicateBy : Option String := none
  observationDim : String := ""
  fileTolerance : ℤ
  preprocessing : Option (List (ObsRow K) → Except Err (List (ObsRow K))) := none
  sort : (ObsRow K → ℤ) → List (ObsRow K) → List (ObsRow K)

/-- `df[~df[col].duplicated(keep='first')]`: the rows whose text in the column did not occur before. -/
def dropDuplicated (col : String) : List String → List (ObsRow K) → List (ObsRow K)
  | _, [] => []
  | seen, r :: rs => if r.text col ∈ seen then dropDuplicated col seen rs else r :: dropDuplicated col (r.text col :: seen) rs

/-- `_pick_closest_from_duplicates` (sparse_parquet.py:192-200). -/
def pickClosest (o : ParquetOptions K) (rows : List (ObsRow K)) (validTime : ℤ) : List (ObsRow K) :=
  let rows := match o.pickClosestDuplicateBy with
    | some col => o.sort (fun r => |r.time col - validTime|) rows
    | none => rows
  dropDuplicated o.observationDim [] rows

/-- The window of times that is asked for: its start and, if it is not a single time, its end (sparse_parquet.py:221-231). A slice without one of its bounds is a `TypeError`. -/
def window (o : ParquetOptions K) (validTime : ℤ) (slice : Option (Option ℤ × Option ℤ)) : Except Err (ℤ × Option ℤ) :=
  match o.tolerance with
  | some (lo, hi) => .ok (validTime + lo, some (validTime + hi))
  | none =>
    match slice with
    | none => .ok (validTime, none)
    | some (some start, some stop) => .ok (validTime - start, some (validTime + stop))
    | some _ => .error .typeError

/-- The filters on the column `time_dim` (sparse_parquet.py:235-257). -/
def inWindow (o : ParquetOptions K) (w : ℤ × Option ℤ) (r : ObsRow K) : Bool :=
  match w.2 with
  | none => r.time o.timeDim == w.1
  | some stop => decide (w.1 ≤ r.time o.timeDim) && (if o.includeSliceEndTime then decide (r.time o.timeDim ≤ stop) else decide (r.time o.timeDim < stop))

/-- Reading the files and concatenating (sparse_parquet.py:258-272): a missing file raises; no file at all is a `ValueError` of `pd.concat`. -/
noncomputable def readFiles (o : ParquetOptions K) (store : ℤ → Option (List (ObsRow K))) (w : ℤ × Option ℤ) : Except Err (List (ObsRow K)) :=
  let files := parquetFilesSubset o.hour o.unit (w.1 - o.fileTolerance) (w.2.getD w.1 + o.fileTolerance)
  if files = [] then .error .valueError
  else do
    let parts ← files.mapM (fun f => match store f with
      | some rows => .ok (rows.filter (inWindow o w))
      | none => .error .fileNotFound)
    return parts.flatten

/-- `preprocessing_fn` if there is one (sparse_parquet.py:274-275). -/
def applyPreprocessing (o : ParquetOptions K) (rows : List (ObsRow K)) : Except Err (List (ObsRow K)) :=
  match o.preprocessing with
  | some f => f rows
  | none => .ok rows

/-- `_load_data_for_single_time` (sparse_parquet.py:202-291), without renaming. -/
noncomputable def loadSingleTime (o : ParquetOptions K) (store : ℤ → Option (List (ObsRow K))) (validTime : ℤ) (slice : Option (Option ℤ × Option ℤ)) :
    Except Err (List (ObsRow K)) := do
  let w ← window o validTime slice
  let rows ← readFiles o store w
  let rows ← applyPreprocessing o rows
  if o.removeDuplicates then
    if slice.isSome then .error .assertionError else .ok (pickClosest o rows validTime)
  else .ok rows

/-- An observation in the result: its row and, unless there were no lead times, its init and lead time. -/
structure Obs (K : Type) where
  row : ObsRow K
  initLead : Option (ℤ × ℤ)

/-- `pd.concat` of the tables: an empty list is a `ValueError`. -/
def pdConcat {α : Type} : List (List α) → Except Err (List α)
  | [] => .error .valueError
  | ts => .ok ts.flatten

/-- `_load_chunk_from_source` (sparse_parquet.py:296-347), up to the combined table. -/
noncomputable def loadObservations (o : ParquetOptions K) (store : ℤ → Option (List (ObsRow K))) (inits : List ℤ) : LeadTimes ℤ → Except Err (List (Obs K))
  | .none => do
    let ts ← inits.mapM (fun i => loadSingleTime o store i none)
    pdConcat (ts.map (List.map (fun r => { row := r, initLead := none })))
  | .exact leads => do
    let ts ← (inits.flatMap (fun i => leads.map (fun l => (i, l)))).mapM (fun q => do
      let rows ← loadSingleTime o store (q.1 + q.2) none
      return rows.map (fun r => { row := r, initLead := some q }))
    pdConcat ts
  | .slice start stop =>
    if o.tolerance.isSome then .error .assertionError
    else do
      let ts ← inits.mapM (fun i => do
        let rows ← loadSingleTime o store i (some (start, stop))
        return rows.map (fun r => { row := r, initLead := some (i, r.time o.timeDim - i) }))
      pdConcat ts

/-- The end of `_load_chunk_from_source` with `split_variables=False` (sparse_parquet.py:355-358). -/
def dropnaAll (dropna : Bool) (vars : List String) (obs : List (Obs K)) : List (Obs K) :=
  if dropna then obs.filter (fun x => vars.all (fun v => !(x.row.num v).isnan)) else obs

/-- The end of `_load_chunk_from_source` with `split_variables=True` (sparse_parquet.py:349-354): each variable on its own. -/
def dropnaSplit (dropna : Bool) (vars : List String) (obs : List (Obs K)) : List (String × List (Obs K)) :=
  vars.map (fun v => (v, if dropna then obs.filter (fun x => !(x.row.num v).isnan) else obs))

/-! ### METAR -/

/-- `METAR_TO_ERA5_NAMES` (sparse_parquet.py:362-376). -/
def metarToEra5 : List (String × String) :=
  [("seaLevelPress", "mean_sea_level_pressure"), ("temperature", "2m_temperature"), ("dewpoint", "2m_dewpoint_temperature"), ("windSpeed", "10m_wind_speed"),
   ("windGust", "10m_wind_gust"), ("windDir", "10m_wind_direction"), ("minTemp24Hour", "min_2m_temperature_24hr"), ("maxTemp24Hour", "max_2m_temperature_24hr"),
   ("precip1Hour", "total_precipitation_1hr"), ("precip3Hour", "total_precipitation_3hr"), ("precip6Hour", "total_precipitation_6hr"),
   ("precip24Hour", "total_precipitation_24hr"), ("precipRate", "precipitation_rate")]

/-- `ERA5_TO_METAR_NAMES[v]` (sparse_parquet.py:377). -/
def era5ToMetar (v : String) : Except Err String :=
  match metarToEra5.find? (fun p => p.2 == v) with
  | some p => .ok p.1
  | none => .error .keyError

/-- `METAR_BAD_QUALITY_FLAGS` (sparse_parquet.py:381). -/
def metarBadFlags : List String := ["Z", "B", "X", "Q", "k"]

/-- `set_bad_quality_to_nan` (sparse_parquet.py:392-402): one variable after the other. -/
def setBadQualityToNan (vars : List String) (suffix : String) (bad : List String) (rows : List (ObsRow K)) : List (ObsRow K) :=
  vars.foldl (fun rows v => rows.map (fun r => { r with num := fun c => if c = v then (if r.text (v ++ suffix) ∈ bad then .nan else r.num c) else r.num c })) rows

section
variable [Field K] [LinearOrder K] [FloorRing K]

/-- `np.mod(x, 360)`: NaN for infinities. -/
def fvMod360 : FV K → FV K
  | .fin x => .fin (mod360 x)
  | _ => .nan

/-- `convert_longitude_to_0_to_360` (sparse_parquet.py:405-409). -/
def convertLongitude (rows : List (ObsRow K)) : List (ObsRow K) :=
  rows.map (fun r => { r with num := fun c => if c = "longitude" then fvMod360 (r.num c) else r.num c })

/-- `df['elevation'].where(df['elevation'] < 9.999e03, np.nan)` (sparse_parquet.py:498-501). -/
def cleanElevation (rows : List (ObsRow K)) : List (ObsRow K) :=
  rows.map (fun r => { r with num := fun c => if c = "elevation" then (if (r.num c).lt (.fin 9999) then r.num c else .nan) else r.num c })

/-- `metar_preprocessing_fn` (sparse_parquet.py:482-502): the user's function first. -/
def metarPreprocessing (vars : List String) (user : Option (List (ObsRow K) → Except Err (List (ObsRow K)))) (rows : List (ObsRow K)) : Except Err (List (ObsRow K)) := do
  let rows ← (match user with | some f => f rows | none => .ok rows)
  let raw ← vars.mapM era5ToMetar
  return cleanElevation (convertLongitude (setBadQualityToNan raw "DD" metarBadFlags rows))

end

/-- The renaming that `METARFromParquet.__init__` (sparse_parquet.py:504-523) passes on: not the user's `rename_variables`. -/
def metarRename (_user : Option (List (String × String))) : Option (List (String × String)) := some metarToEra5

end WBX
