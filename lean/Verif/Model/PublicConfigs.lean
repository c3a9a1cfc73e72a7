import Verif.Model.Naming
import Verif.Model.Benchmark
import Verif.Model.Serialize

/-!
# Model of `/repo/public_benchmark/public_configs.py` (configurations of the public benchmark)

The tables are transcribed in the order of the file. A function given as `preprocessing_fn` is named by what it does.
-/

namespace WBX.PublicConfigs
open WBX

/-- The functions that are given as `preprocessing_fn` (public_configs.py:252-262, 351). -/
inductive Preprocess where
  | sortLatitude
  | firstMember
deriving DecidableEq

/-- `data_loader_kwargs`. -/
structure LoaderKwargs where
  rename : Option (List (String × String)) := none
  nanMask : Bool := false
  preprocess : Option Preprocess := none
deriving DecidableEq

/-- One configuration. -/
structure LoaderConfig where
  path : String
  names : List String
  levels : Option (List ℕ) := none
  kwargs : Option LoaderKwargs := none
deriving DecidableEq

/-- `dict.fromkeys(keys, value)`. -/
def fromKeys (keys : List String) (value : LoaderConfig) : List (String × LoaderConfig) := keys.map (fun k => (k, value))

/-- `s.startswith(p)`. -/
def startsWith (s p : String) : Bool := p.toList.isPrefixOf s.toList

/-- `s.replace(old, new)`. -/
def replaceText (s old new : String) : String := String.ofList (Serialize.replace old.toList new.toList s.toList)

/-- The configuration of a single member (public_configs.py:267-284): a deep copy with another path and with `select_first_member`. `AssertionError` if there already is a `preprocessing_fn`. -/
def singleMember (c : LoaderConfig) : Except Err LoaderConfig :=
  match c.kwargs with
  | some k =>
    if k.preprocess.isSome then .error .assertionError
    else .ok { c with path := replaceText c.path "_mean.zarr" ".zarr", kwargs := some { k with preprocess := some .firstMember } }
  | none => .ok { c with path := replaceText c.path "_mean.zarr" ".zarr", kwargs := some { preprocess := some .firstMember } }

/-- `single_member_configs` (public_configs.py:265-284); `prefixes` is `add_single_member_config`. -/
def singleMembers (prefixes : List String) (table : List (String × LoaderConfig)) : Except Err (List (String × LoaderConfig)) :=
  table.foldlM (fun acc kv => do
    if prefixes.any (fun p => startsWith kv.1 p) then
      let s ← singleMember kv.2
      return pyInsert (replaceText kv.1 "_mean" "_single_member") s acc
    else return acc) []

/-- `deterministic_prediction_configs.update(single_member_configs)` (public_configs.py:285). -/
def withSingleMembers (prefixes : List String) (table : List (String × LoaderConfig)) : Except Err (List (String × LoaderConfig)) := do
  let s ← singleMembers prefixes table
  return s.foldl (fun acc kv => pyInsert kv.1 kv.2 acc) table

/-- `add_single_member_config` (public_configs.py:248). -/
def ensemblePrefixes : List String := ["ens", "neuralgcm_ens"]

section members
variable {L V : Type} [DecidableEq L]

/-- `ds.isel(d=0)`; `first` is the first label along a dimension. Variables without the dimension do not change, an empty dimension is an `IndexError`. -/
def iselFirst (first : Dim → Option L) (d : Dim) (ds : Dataset L V) : Except Err (Dataset L V) :=
  match first d with
  | some l => .ok { vars := ds.vars.map (fun v => (v.1, if d ∈ v.2.dims then { v.2 with dims := v.2.dims.erase d, val := fun e => v.2.val (DA.setLabel e d l) } else v.2)),
                    coords := ds.coords.map (fun c => (c.1, c.2.erase d)) }
  | none => .error .indexError

/-- `select_first_member` (public_configs.py:251-261). -/
def selectFirstMember (first : Dim → Option L) (ds : Dataset L V) : Except Err (Dataset L V) :=
  if "number" ∈ ds.dims then iselFirst first "number" ds
  else if "sample" ∈ ds.dims then iselFirst first "sample" ds
  else if "member" ∈ ds.dims then iselFirst first "member" ds
  else if "realization" ∈ ds.dims then iselFirst first "realization" ds
  else .error .valueError

end members

/-- `start_year` and `end_year` of the probabilistic climatology of the benchmark (run_benchmark_evaluation.py:186-193). -/
def probClimatologyYears : ℤ × ℤ := (1990, 2019)

/-! ### The tables -/

/-- `upper_level_variables` (public_configs.py:18-25). -/
def upperLevelVariables : List String := ["geopotential", "temperature", "u_component_of_wind", "v_component_of_wind", "wind_speed", "specific_humidity"]

/-- `surface_variables` (public_configs.py:27-33). -/
def surfaceVariables : List String := ["2m_temperature", "mean_sea_level_pressure", "10m_u_component_of_wind", "10m_v_component_of_wind", "10m_wind_speed"]

/-- `standard_variables` (public_configs.py:35). -/
def standardVariables : List String := upperLevelVariables ++ surfaceVariables

/-- `precipitation_variables` (public_configs.py:37-40). -/
def precipitationVariables : List String := ["total_precipitation_6hr", "total_precipitation_24hr"]

/-- `fuxi_variables` (public_configs.py:42-46). -/
def fuxiVariables : List String := (standardVariables ++ precipitationVariables).filter (fun v => decide (v ≠ "specific_humidity"))

/-- `deterministic_prediction_configs` (public_configs.py:56-245). -/
def deterministicPredictionConfigs : List (String × LoaderConfig) :=
  fromKeys ["hres_64x32_2018", "hres_64x32_2020", "hres_64x32_2022"] ⟨"gs://weatherbench2/datasets/hres/2016-2022-0012-64x32_equiangular_conservative.zarr", (standardVariables ++ precipitationVariables), none, none⟩ ++
  fromKeys ["hres_240x121_2018", "hres_240x121_2020", "hres_240x121_2022"] ⟨"gs://weatherbench2/datasets/hres/2016-2022-0012-240x121_equiangular_with_poles_conservative.zarr", (standardVariables ++ precipitationVariables), none, none⟩ ++
  fromKeys ["hres_1440x721_2018", "hres_1440x721_2020", "hres_1440x721_2022"] ⟨"gs://weatherbench2/datasets/hres/2016-2022-0012-1440x721.zarr", (standardVariables ++ precipitationVariables), none, none⟩ ++
  fromKeys ["ens_mean_64x32_2018", "ens_mean_64x32_2020", "ens_mean_64x32_2022"] ⟨"gs://weatherbench2/datasets/ifs_ens/2018-2022-64x32_equiangular_conservative_mean.zarr", (standardVariables ++ precipitationVariables), none, none⟩ ++
  fromKeys ["ens_mean_240x121_2018", "ens_mean_240x121_2020", "ens_mean_240x121_2022"] ⟨"gs://weatherbench2/datasets/ifs_ens/2018-2022-240x121_equiangular_with_poles_conservative_mean.zarr", (standardVariables ++ precipitationVariables), none, none⟩ ++
  fromKeys ["ens_mean_1440x721_2018", "ens_mean_1440x721_2020", "ens_mean_1440x721_2022"] ⟨"gs://weatherbench2/datasets/ifs_ens/2018-2022-1440x721_mean.zarr", (standardVariables ++ precipitationVariables), none, none⟩ ++
  [("era5_forecast_64x32_2018", ⟨"gs://weatherbench2/datasets/era5-forecasts/2018-64x32_equiangular_conservative.zarr", standardVariables, none, none⟩)] ++
  [("era5_forecast_64x32_2020", ⟨"gs://weatherbench2/datasets/era5-forecasts/2020-64x32_equiangular_conservative.zarr", standardVariables, none, none⟩)] ++
  [("era5_forecast_240x121_2018", ⟨"gs://weatherbench2/datasets/era5-forecasts/2018-240x121_equiangular_with_poles_conservative.zarr", standardVariables, none, none⟩)] ++
  [("era5_forecast_240x121_2020", ⟨"gs://weatherbench2/datasets/era5-forecasts/2020-240x121_equiangular_with_poles_conservative.zarr", standardVariables, none, none⟩)] ++
  [("era5_forecast_1440x721_2018", ⟨"gs://weatherbench2/datasets/era5-forecasts/2018-1440x721.zarr", standardVariables, none, none⟩)] ++
  [("era5_forecast_1440x721_2020", ⟨"gs://weatherbench2/datasets/era5-forecasts/2020-1440x721.zarr", standardVariables, none, none⟩)] ++
  [("keisler_64x32_2020", ⟨"gs://weatherbench2/datasets/keisler/2020-64x32_equiangular_conservative.zarr", upperLevelVariables, none, some { nanMask := true }⟩)] ++
  [("keisler_240x121_2020", ⟨"gs://weatherbench2/datasets/keisler/2020-240x121_equiangular_with_poles_conservative.zarr", upperLevelVariables, none, some { nanMask := true }⟩)] ++
  fromKeys ["pangu_64x32_2018", "pangu_64x32_2020", "pangu_64x32_2022"] ⟨"gs://weatherbench2/datasets/pangu/2018-2022_0012_64x32_equiangular_conservative.zarr", standardVariables, none, none⟩ ++
  fromKeys ["pangu_240x121_2018", "pangu_240x121_2020", "pangu_240x121_2022"] ⟨"gs://weatherbench2/datasets/pangu/2018-2022_0012_240x121_equiangular_with_poles_conservative.zarr", standardVariables, none, none⟩ ++
  fromKeys ["pangu_1440x721_2018", "pangu_1440x721_2020", "pangu_1440x721_2022"] ⟨"gs://weatherbench2/datasets/pangu/2018-2022_0012_0p25.zarr", standardVariables, none, none⟩ ++
  [("pangu_hres_init_64x32_2020", ⟨"gs://weatherbench2/datasets/pangu_hres_init/2020_0012_64x32_equiangular_conservative.zarr", standardVariables, none, none⟩)] ++
  [("pangu_hres_init_64x32_2022", ⟨"gs://weatherbench2/datasets/pangu_hres_init/2022_0012_64x32_equiangular_conservative.zarr", standardVariables, none, none⟩)] ++
  [("pangu_hres_init_240x121_2020", ⟨"gs://weatherbench2/datasets/pangu_hres_init/2020_0012_240x121_equiangular_with_poles_conservative.zarr", standardVariables, none, none⟩)] ++
  [("pangu_hres_init_240x121_2022", ⟨"gs://weatherbench2/datasets/pangu_hres_init/2022_0012_240x121_equiangular_with_poles_conservative.zarr", standardVariables, none, none⟩)] ++
  [("pangu_hres_init_1440x721_2020", ⟨"gs://weatherbench2/datasets/pangu_hres_init/2020_0012_0p25.zarr", standardVariables, none, none⟩)] ++
  [("pangu_hres_init_1440x721_2022", ⟨"gs://weatherbench2/datasets/pangu_hres_init/2022_0012_0p25.zarr", standardVariables, none, none⟩)] ++
  [("neuralgcm_hres_64x32_2020", ⟨"gs://weatherbench2/datasets/neuralgcm_deterministic/2020-64x32_equiangular_conservative.zarr", upperLevelVariables, none, none⟩)] ++
  [("neuralgcm_hres_240x121_2020", ⟨"gs://weatherbench2/datasets/neuralgcm_deterministic/2020-240x121_equiangular_with_poles_conservative.zarr", upperLevelVariables, none, none⟩)] ++
  [("neuralgcm_ens_mean_64x32_2020", ⟨"gs://weatherbench2/datasets/neuralgcm_ens/2020-64x32_equiangular_conservative_mean.zarr", upperLevelVariables, none, none⟩)] ++
  [("neuralgcm_ens_mean_240x121_2020", ⟨"gs://weatherbench2/datasets/neuralgcm_ens/2020-240x121_equiangular_with_poles_conservative_mean.zarr", upperLevelVariables, none, none⟩)] ++
  [("fuxi_64x32_2020", ⟨"gs://weatherbench2/datasets/fuxi/2020-64x32_equiangular_conservative.zarr", fuxiVariables, some [500, 850], none⟩)] ++
  [("fuxi_240x121_2020", ⟨"gs://weatherbench2/datasets/fuxi/2020-240x121_equiangular_with_poles_conservative.zarr", fuxiVariables, some [500, 850], none⟩)] ++
  [("fuxi_1440x721_2020", ⟨"gs://weatherbench2/datasets/fuxi/2020-1440x721.zarr", fuxiVariables, some [500, 850], none⟩)]

/-- `probabilistic_prediction_configs` (public_configs.py:287-343). -/
def probabilisticPredictionConfigs : List (String × LoaderConfig) :=
  fromKeys ["ens_64x32_2018", "ens_64x32_2020", "ens_64x32_2022"] ⟨"gs://weatherbench2/datasets/ifs_ens/2018-2022-64x32_equiangular_conservative.zarr", (standardVariables ++ precipitationVariables), none, none⟩ ++
  fromKeys ["ens_240x121_2018", "ens_240x121_2020", "ens_240x121_2022"] ⟨"gs://weatherbench2/datasets/ifs_ens/2018-2022-240x121_equiangular_with_poles_conservative.zarr", (standardVariables ++ precipitationVariables), none, none⟩ ++
  fromKeys ["ens_1440x721_2018", "ens_1440x721_2020", "ens_1440x721_2022"] ⟨"gs://weatherbench2/datasets/ifs_ens/2018-2022-1440x721.zarr", (standardVariables ++ precipitationVariables), none, none⟩ ++
  [("neuralgcm_ens_64x32_2020", ⟨"gs://weatherbench2/datasets/neuralgcm_ens/2020-64x32_equiangular_conservative.zarr", upperLevelVariables, none, some { rename := some [("realization", "number"), ("time", "init_time"), ("prediction_timedelta", "lead_time")] }⟩)] ++
  [("neuralgcm_ens_240x121_2020", ⟨"gs://weatherbench2/datasets/neuralgcm_ens/2020-240x121_equiangular_with_poles_conservative.zarr", upperLevelVariables, none, some { rename := some [("realization", "number"), ("time", "init_time"), ("prediction_timedelta", "lead_time")] }⟩)]

/-- `target_configs` (public_configs.py:345-383). -/
def targetConfigs : List (String × LoaderConfig) :=
  [("era5_64x32", ⟨"gs://weatherbench2/datasets/era5/1959-2023_01_10-6h-64x32_equiangular_conservative.zarr", (standardVariables ++ precipitationVariables), none, some { preprocess := some .sortLatitude }⟩)] ++
  [("era5_240x121", ⟨"gs://weatherbench2/datasets/era5/1959-2023_01_10-6h-240x121_equiangular_with_poles_conservative.zarr", (standardVariables ++ precipitationVariables), none, some { preprocess := some .sortLatitude }⟩)] ++
  [("era5_1440x721", ⟨"gs://weatherbench2/datasets/era5/1959-2023_01_10-wb13-6h-1440x721_with_derived_variables.zarr", (standardVariables ++ precipitationVariables), none, some { preprocess := some .sortLatitude }⟩)] ++
  [("hres_t0_64x32", ⟨"gs://weatherbench2/datasets/hres_t0/2016-2022-6h-64x32_equiangular_conservative.zarr", standardVariables, none, none⟩)] ++
  [("hres_t0_240x121", ⟨"gs://weatherbench2/datasets/hres_t0/2016-2022-6h-240x121_equiangular_with_poles_conservative.zarr", standardVariables, none, none⟩)] ++
  [("hres_t0_1440x721", ⟨"gs://weatherbench2/datasets/hres_t0/2016-2022-6h-1440x721.zarr", standardVariables, none, none⟩)]

/-- `climatology_configs` (public_configs.py:385-429). -/
def climatologyConfigs : List (String × LoaderConfig) :=
  [("era5_64x32_2018", ⟨"gs://weatherbench2/datasets/era5-hourly-climatology/1990-2017_6h_64x32_equiangular_conservative.zarr", (standardVariables ++ precipitationVariables), none, none⟩)] ++
  [("era5_240x121_2016", ⟨"gs://weatherbench2/datasets/era5-hourly-climatology/1990-2017_6h_240x121_equiangular_with_poles_conservative.zarr", (standardVariables ++ precipitationVariables), none, none⟩)] ++
  [("era5_240x121_2018", ⟨"gs://weatherbench2/datasets/era5-hourly-climatology/1990-2017_6h_240x121_equiangular_with_poles_conservative.zarr", (standardVariables ++ precipitationVariables), none, none⟩)] ++
  [("era5_1440x721_2018", ⟨"gs://weatherbench2/datasets/era5-hourly-climatology/1990-2017_6h_1440x721.zarr", (standardVariables ++ precipitationVariables), none, some { preprocess := some .sortLatitude }⟩)] ++
  fromKeys ["era5_64x32_2020", "era5_64x32_2022"] ⟨"gs://weatherbench2/datasets/era5-hourly-climatology/1990-2019_6h_64x32_equiangular_conservative.zarr", (standardVariables ++ precipitationVariables), none, none⟩ ++
  fromKeys ["era5_240x121_2020", "era5_240x121_2022"] ⟨"gs://weatherbench2/datasets/era5-hourly-climatology/1990-2019_6h_240x121_equiangular_with_poles_conservative.zarr", (standardVariables ++ precipitationVariables), none, none⟩ ++
  fromKeys ["era5_1440x721_2020", "era5_1440x721_2022"] ⟨"gs://weatherbench2/datasets/era5-hourly-climatology/1990-2019_6h_1440x721.zarr", (standardVariables ++ precipitationVariables), none, some { preprocess := some .sortLatitude }⟩

/-- What `run_benchmark_evaluation.py` uses of a configuration (`Model/Benchmark`). -/
def LoaderConfig.toConfig (c : LoaderConfig) : Benchmark.Config := ⟨c.path, c.names⟩

/-- The table as it is read. -/
def toTable (t : List (String × LoaderConfig)) : List (String × Benchmark.Config) := t.map (fun kv => (kv.1, kv.2.toConfig))

/-- The module `public_configs` (public_configs.py:18-429). -/
def publicConfigs : Except Err Benchmark.Configs := do
  let d ← withSingleMembers ensemblePrefixes deterministicPredictionConfigs
  return { targets := toTable targetConfigs, climatologies := toTable climatologyConfigs, deterministic := toTable d, probabilistic := toTable probabilisticPredictionConfigs }

end WBX.PublicConfigs
