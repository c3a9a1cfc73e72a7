import Verif.Model.MetricsBase
import Verif.Model.Serialize

/-!
# Model of `/repo/public_benchmark/combine_results.py`

Result files are lists of named arrays; labels of all dimensions are strings (numbers and lead times are printed). Non-dimension coordinates,
attributes, the order of variables and labels, and the chunking and encoding of the Zarr file are not modelled.
-/

namespace WBX.CombineResults
open WBX

/-- The models of the deterministic results (combine_results.py:51-94). -/
def deterministicModels : List (String × String) :=
  [("hres_vs_hres_t0", "IFS HRES vs Analysis"), ("hres_vs_era5", "IFS HRES vs ERA5"), ("ens_mean_vs_hres_t0", "IFS ENS (mean) vs Analysis"),
   ("ens_single_member_vs_hres_t0", "IFS ENS (1st member) vs Analysis"), ("ens_mean_vs_era5", "IFS ENS (mean) vs ERA5"),
   ("ens_single_member_vs_era5", "IFS ENS (1st member) vs ERA5"), ("era5_forecast_vs_era5", "ERA5-Forecasts vs ERA5"),
   ("climatology_vs_era5", "Climatology vs ERA5"), ("persistence_vs_era5", "Persistence vs ERA5"), ("keisler_vs_era5", "Keisler (2022) vs ERA5"),
   ("pangu_vs_era5", "Pangu-Weather vs ERA5"), ("pangu_hres_init_vs_era5", "Pangu-Weather (oper.) vs ERA5"),
   ("pangu_hres_init_vs_hres_t0", "Pangu-Weather (oper.) vs Analysis"), ("graphcast_vs_era5", "GraphCast vs ERA5"),
   ("graphcast_hres_init_vs_era5", "GraphCast (oper.) vs ERA5"), ("graphcast_hres_init_vs_hres_t0", "GraphCast (oper.) vs Analysis"),
   ("gencast_mean_vs_era5", "GenCast (mean) vs ERA5"), ("gencast_single_member_vs_era5", "GenCast (1st member) vs ERA5"),
   ("gencast_operational_100m_uv_mean_vs_era5", "GenCast (oper.) (mean) vs ERA5"),
   ("gencast_operational_100m_uv_single_member_vs_era5", "GenCast (oper.) (1st member) vs ERA5"),
   ("gencast_operational_100m_uv_mean_vs_hres_t0", "GenCast (oper.) (mean) vs Analysis"),
   ("gencast_operational_100m_uv_single_member_vs_hres_t0", "GenCast (oper.) (1st member) vs Analysis"),
   ("neuralgcm_hres_vs_era5", "NeuralGCM 0.7 vs ERA5"), ("neuralgcm_ens_mean_vs_era5", "NeuralGCM ENS (mean) vs ERA5"),
   ("neuralgcm_ens_single_member_vs_era5", "NeuralGCM ENS (1st member) vs ERA5"), ("fuxi_vs_era5", "FuXi vs ERA5"),
   ("stormer_ens_mean_vs_era5", "Stormer ENS (mean) vs ERA5"), ("arches_weather_mx4_vs_era5", "ArchesWeather-Mx4 vs ERA5"),
   ("arches_weather_gen_mean_vs_era5", "ArchesWeatherGen (mean) vs ERA5"), ("swin_vs_era5", "Swin vs ERA5"),
   ("excarta_vs_era5", "Excarta (HEAL-ViT) vs ERA5"), ("aurora_vs_hres_t0", "Aurora (oper.) vs Analysis"), ("baguan_vs_era5", "Baguan vs ERA5"),
   ("weathermesh4_vs_era5", "WeatherMesh4 vs ERA5")]

/-- The models of the probabilistic results (combine_results.py:95-104). -/
def probabilisticModels : List (String × String) :=
  [("ens_vs_hres_t0", "IFS ENS vs Analysis"), ("ens_vs_era5", "IFS ENS vs ERA5"), ("neuralgcm_ens_vs_era5", "NeuralGCM ENS vs ERA5"),
   ("probabilistic_climatology_vs_era5", "Probabilistic Climatology vs ERA5"), ("gencast_vs_era5", "GenCast vs ERA5"),
   ("gencast_operational_100m_uv_vs_era5", "GenCast (oper.) vs ERA5"), ("gencast_operational_100m_uv_vs_hres_t0", "GenCast (oper.) vs Analysis"),
   ("arches_weather_gen_vs_era5", "ArchesWeatherGen vs ERA5")]

/-- `REGION_NAMES` (combine_results.py:105-124). -/
def regionNames : List (String × String) :=
  [("global", "Global"), ("tropics", "Tropics"), ("northern-hemisphere", "Northern Hemisphere"), ("southern-hemisphere", "Southern Hemisphere"),
   ("europe", "Europe"), ("north-america", "North America"), ("north-atlantic", "North Atlantic"), ("north-pacific", "North Pacific"),
   ("east-asia", "East Asia"), ("ausnz", "Australia/New Zealand"), ("arctic", "Arctic"), ("antarctic", "Antarctic"),
   ("northern-africa", "Northern Africa"), ("southern-africa", "Southern Africa"), ("south-america", "South America"), ("west-asia", "West Asia"),
   ("south-east-asia", "South-East Asia")]

/-- `VARIABLE_NAMES` (combine_results.py:125-141). -/
def variableNames : List (String × String) :=
  [("geopotential", "Geopotential"), ("temperature", "Temperature"), ("specific_humidity", "Specific Humidity"),
   ("u_component_of_wind", "U Component of Wind"), ("v_component_of_wind", "V Component of Wind"),
   ("10m_u_component_of_wind", "10m U Component of Wind"), ("10m_v_component_of_wind", "10m V Component of Wind"),
   ("mean_sea_level_pressure", "Sea Level Pressure"), ("2m_temperature", "2m Temperature"), ("total_precipitation_6hr", "6h Precipitation"),
   ("total_precipitation_24hr", "24h Precipitation"), ("wind_speed", "Wind Speed"), ("10m_wind_speed", "10m Wind Speed"),
   ("wind_vector", "Wind Vector"), ("10m_wind_vector", "10m Wind Vector")]

/-- `DETERMINISTIC_METRIC_NAMES` (combine_results.py:142-150). -/
def deterministicMetricNames : List (String × String) :=
  [("rmse", "RMSE"), ("mae", "MAE"), ("bias", "Bias"), ("seeps", "SEEPS"), ("acc", "ACC"), ("mse", "MSE"), ("prediction_activity", "Forecast Activity")]

/-- `PROBABILISTIC_METRIC_NAMES` (combine_results.py:151-157). -/
def probabilisticMetricNames : List (String × String) :=
  [("crps", "CRPS"), ("spread_skill", "Spread/Skill"), ("unbiased_spread_skill", "Unbiased Spread/Skill"), ("unbiased_mean_rmse", "Unbiased Mean RMSE"),
   ("mean_rmse", "Mean RMSE")]

/-- `YEARS` (combine_results.py:181), printed. -/
def years : List String := ["2018", "2020", "2022"]

/-- `RESOLUTIONS` (combine_results.py:182). -/
def resolutions : List String := ["64x32", "240x121", "1440x721"]

/-- `s.split(pat)[0]`: what is before the first occurrence of `pat`. -/
def beforeFirst (pat : List Char) : List Char → List Char
  | [] => []
  | c :: s => if pat.isPrefixOf (c :: s) then [] else c :: beforeFirst pat s

/-- `_rename_region` (combine_results.py:192-196); `none` where `REGION_NAMES` has no such key. -/
def renameRegion (region : String) : Option String :=
  if "_land".toList.isSuffixOf region.toList then
    (pyGet? (String.ofList (beforeFirst "_land".toList region.toList)) regionNames).map (fun n => n ++ " (Land)")
  else pyGet? region regionNames

/-- The names of `REGIONS` (run_benchmark_evaluation.py:110-131), each of which `binning.Regions` also gives with the suffix `_land`. -/
def benchmarkRegions : List String :=
  ["global", "tropics", "northern-hemisphere", "southern-hemisphere", "europe", "north-america", "north-atlantic", "north-pacific", "east-asia", "ausnz",
   "arctic", "antarctic", "northern-africa", "southern-africa", "south-america", "west-asia", "south-east-asia"]

/-- The keys of `deterministic_metrics`, without the wind vectors (run_benchmark_evaluation.py:294-332). -/
def benchmarkDeterministicMetrics : List String := ["rmse", "mse", "bias", "acc", "prediction_activity", "seeps"]

/-- The keys of `probabilistic_metrics` (run_benchmark_evaluation.py:334-346). -/
def benchmarkProbabilisticMetrics : List String := ["crps", "unbiased_spread_skill", "unbiased_mean_rmse", "mean_rmse"]

/-- The names of the wind vectors in the result file (run_benchmark_evaluation.py:304-321). -/
def benchmarkVectors : List String := ["vector_rmse.wind", "vector_rmse.10m_wind"]

variable {V : Type}

/-- A dataset: named arrays. -/
abbrev File (V : Type) := List (String × DA String V)

/-- `s.split(".")`. -/
def dotParts (s : String) : List String := (Serialize.splitAtChar '.' s.toList).map String.ofList

/-- The name with the wind vectors renamed (combine_results.py:213-216). -/
def vectorName (name : String) : String :=
  if name = "vector_rmse.wind" then "rmse.wind_vector" else if name = "vector_rmse.10m_wind" then "rmse.10m_wind_vector" else name

/-- Renaming of data variables; xarray refuses a name that is taken. -/
def renameAll (f : String → String) (ds : File V) : Except Err (File V) :=
  if (ds.map (fun kv => f kv.1)).Nodup then .ok (ds.map (fun kv => (f kv.1, kv.2))) else .error .valueError

/-- `v.split(".")[1]` (combine_results.py:218). -/
def secondPart (n : String) : Except Err String :=
  match (dotParts n)[1]? with
  | some v => .ok v
  | none => .error .indexError

/-- `v.split(".")[1]` for all names (combine_results.py:218), without repetitions. -/
def variablesOf (names : List String) : Except Err (List String) := do
  let vs ← names.mapM secondPart
  return vs.dedup

/-- `metrics_for_variable` (combine_results.py:221-223). -/
def metricsFor (v : String) (names : List String) : List String :=
  (names.filter (fun mv => ("." ++ v).toList.isSuffixOf mv.toList)).map (fun mv => (dotParts mv).headD "")

/-- The arrays stacked along `metric` (combine_results.py:224-227): `xr.concat` of arrays of one dataset, which have the same labels; an array
without some dimension is repeated along it. -/
def stackMetrics (fill : V) (parts : List (String × DA String V)) : Except Err (DA String V) :=
  if parts = [] then .error .valueError
  else .ok {
    dims := insert "metric" (parts.foldr (fun ma ds => ma.2.dims ∪ ds) ∅)
    coords := fun d => if d = "metric" then (parts.map Prod.fst).toFinset else DA.outerCoords (parts.map Prod.snd) d
    val := fun e => match pyGet? (e "metric") parts with
      | some a => a.val e
      | none => fill }

/-- One variable with all its metrics (combine_results.py:220-228). -/
def stackVariable (fill : V) (ds : File V) (v : String) : Except Err (String × DA String V) := do
  let parts ← (metricsFor v (ds.map Prod.fst)).mapM (fun m => do
    let a ← pyItem ds (m ++ "." ++ v)
    return (m, a))
  let a ← stackMetrics fill parts
  return (v, a)

/-- The labels of a dimension in any of the arrays. -/
def labelsOf (ds : File V) (d : Dim) : Finset String := DA.outerCoords (ds.map Prod.snd) d

/-- An array reindexed to more labels. -/
def reindexTo (fill : V) (labels : Dim → Finset String) (a : DA String V) : DA String V :=
  { dims := a.dims, coords := labels, val := fun e => if a.InDom e then a.val e else fill }

/-- `xr.Dataset(...)` (combine_results.py:229): an outer join of the labels. -/
def toDataset (fill : V) (ds : File V) : File V := ds.map (fun kv => (kv.1, reindexTo fill (labelsOf ds) kv.2))

/-- The display name of a variable (combine_results.py:230). -/
def variableName (v : String) : String := (pyGet? v variableNames).getD v

/-- The label of `labels` that is translated to `l`. -/
noncomputable def original (f : String → Option String) (labels : Finset String) (l : String) : String :=
  ((labels.filter (fun x => f x = some l)).toList.head?).getD l

/-- An array with translated labels along one dimension, if it has it. Labels that become equal are not modelled (see `C82_distinct_names`). -/
noncomputable def relabelArray (d : Dim) (f : String → Option String) (a : DA String V) : DA String V :=
  if d ∈ a.dims then
    { dims := a.dims
      coords := fun d' => if d' = d then (a.coords d).image (fun l => (f l).getD l) else a.coords d'
      val := fun e => a.val (DA.setLabel e d (original f (a.coords d) (e d))) }
  else a

/-- `assign_coords` along one dimension with translated labels (combine_results.py:235-236): `AttributeError` if no array has the dimension, `KeyError`
if a label has no translation. -/
noncomputable def relabel (d : Dim) (f : String → Option String) (ds : File V) : Except Err (File V) :=
  if ∀ kv ∈ ds, d ∉ kv.2.dims then .error .attributeError
  else if ∀ l ∈ labelsOf ds d, (f l).isSome then .ok (ds.map (fun kv => (kv.1, relabelArray d f kv.2)))
  else .error .keyError

/-- `process_results` for an existing file (combine_results.py:199-237). -/
noncomputable def processResults (fill : V) (metricNames : List (String × String)) (ds : File V) : Except Err (File V) := do
  let ds ← renameAll vectorName ds
  let vs ← variablesOf (ds.map Prod.fst)
  let cat ← vs.mapM (stackVariable fill ds)
  let ds ← renameAll variableName (toDataset fill cat)
  let ds ← relabel "metric" (fun m => pyGet? m metricNames) ds
  relabel "region" renameRegion ds

/-- `expand_dims` with one label for each of three new dimensions (combine_results.py:253-257). -/
def expandDims (model resolution year : String) (a : DA String V) : DA String V where
  dims := insert "model" (insert "resolution" (insert "year" a.dims))
  coords := fun d => if d = "model" then {model} else if d = "resolution" then {resolution} else if d = "year" then {year} else a.coords d
  val := a.val

variable [IsNull V]

/-- Two arrays with different values in a common cell, both not null. -/
def Conflict (a b : DA String V) : Prop :=
  ∃ e, a.InDom e ∧ b.InDom e ∧ IsNull.isnull (a.val e) = false ∧ IsNull.isnull (b.val e) = false ∧ a.val e ≠ b.val e

/-- The two arrays of one variable after `xr.merge`: all labels; the first value that is not null. -/
def mergeArrays (fill : V) (labels : Dim → Finset String) (a b : DA String V) : DA String V where
  dims := a.dims ∪ b.dims
  coords := labels
  val := fun e => if a.InDom e ∧ IsNull.isnull (a.val e) = false then a.val e else if b.InDom e then b.val e else fill

open Classical in
/-- `xr.merge([results, ds])` (combine_results.py:260) with its defaults: an outer join of the labels, and arrays of the same name may not have
conflicting values. -/
noncomputable def merge (fill : V) (r s : File V) : Except Err (File V) :=
  if ∃ v a b, (v, a) ∈ r ∧ (v, b) ∈ s ∧ Conflict a b then .error .valueError
  else .ok (
    r.map (fun kv => (kv.1, match pyGet? kv.1 s with
      | some b => mergeArrays fill (labelsOf (r ++ s)) kv.2 b
      | none => reindexTo fill (labelsOf (r ++ s)) kv.2)) ++
    (s.filter (fun kv => kv.1 ∉ r.map Prod.fst)).map (fun kv => (kv.1, reindexTo fill (labelsOf (r ++ s)) kv.2)))

/-- The loops of `main` (combine_results.py:246-260) over the models, years and resolutions; `files` gives the processed results, `none` where there is no
file. -/
noncomputable def combine (fill : V) (models : List (String × String)) (files : String → String → String → Option (Except Err (File V))) : Except Err (File V) :=
  (models.flatMap (fun m => years.flatMap (fun y => resolutions.map (fun r => (m, y, r))))).foldlM (fun results k =>
    match files k.1.1 k.2.1 k.2.2 with
    | none => .ok results
    | some processed => do
      let ds ← processed
      merge fill results (ds.map (fun kv => (kv.1, expandDims k.1.2 k.2.2 k.2.1 kv.2)))) []

open Classical in
/-- `main` up to the writing of the Zarr file (combine_results.py:240-263): `results.lead_time` raises `AttributeError` if no array has lead times. The
coordinate `lead_time_h` is not modelled. -/
noncomputable def main (fill : V) (models : List (String × String)) (files : String → String → String → Option (Except Err (File V))) : Except Err (File V) := do
  let results ← combine fill models files
  if ∀ kv ∈ results, "lead_time" ∉ kv.2.dims then .error .attributeError else .ok results

end WBX.CombineResults
