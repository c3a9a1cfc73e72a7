import Verif.Model.CombineResults
import Verif.Spec.Calendar

/-!
# Model of `/repo/public_benchmark/run_benchmark_evaluation.py` (times, configurations, metrics and file names)

Times are hours since the beginning of 1970, lead times are hours. A year is a number (the flag is its text). The pipeline that is run with these arguments is
in `Model/DefinePipeline`.
-/

namespace WBX.Benchmark
open WBX

/-- The flags that decide what is evaluated (run_benchmark_evaluation.py:67-107). A time is given by its text and the hours it stands for. -/
structure Options where
  prediction : String
  target : String
  resolution : String
  year : ℕ
  timeStart : Option (String × ℤ) := none
  timeStop : Option (String × ℤ) := none
  timeFrequency : Option ℤ := none
  leadStart : Option ℤ := none
  leadStop : Option ℤ := none
  leadFrequency : ℤ := 6
  temporal : Bool := false

/-- The hours of the text `f'{year}-{month}-{day}T{hour}'`. -/
def stamp (year month day hour : ℤ) : ℤ :=
  yearStart 1 year + ((0 :: monthStarts (decide (LeapYear year))).getD (month - 1).toNat 0 + (day - 1)) * 24 + hour

/-- `np.arange(start, stop, step)` for a step other than 0: its length is `⌈(stop - start) / step⌉`, if that is positive. -/
def arange (start stop step : ℤ) : List ℤ := (List.range (-((start - stop).fdiv step)).toNat).map (fun k : ℕ => start + k * step)

/-- The first init time, and the one that is not evaluated any more, for a year (run_benchmark_evaluation.py:218-234). -/
def yearRange (o : Options) : ℤ × ℤ :=
  if o.year = 2022 ∨ o.prediction ∈ ["fuxi", "excarta"] then
    (if o.prediction = "aurora" then stamp o.year 1 1 12 else stamp o.year 1 1 0, stamp o.year 12 16 0)
  else if o.year = 2020 ∧ o.prediction = "baguan" then (stamp o.year 1 1 0, stamp o.year 12 30 12)
  else (stamp o.year 1 1 0, stamp (o.year + 1) 1 1 0)

/-- The range of init times and its text (run_benchmark_evaluation.py:213-238). -/
def initRange (o : Options) : Except Err ((ℤ × ℤ) × String) :=
  match o.timeStart, o.timeStop with
  | none, none => .ok (yearRange o, toString o.year)
  | some a, some b => .ok ((a.2, b.2), a.1 ++ "_" ++ b.1)
  | _, _ => .error .valueError

/-- The step of the init times (run_benchmark_evaluation.py:239-245). -/
def initFrequency (o : Options) : ℤ :=
  match o.timeFrequency with
  | some f => f
  | none => if o.prediction = "excarta" then 24 else 12

/-- `init_times` (run_benchmark_evaluation.py:213-251). -/
def initTimes (o : Options) : Except Err (List ℤ) := do
  let r ← initRange o
  return arange r.1.1 r.1.2 (initFrequency o)

/-- `lead_times` (run_benchmark_evaluation.py:252-284); `known` are those of the prepared dataset of the predictions, or the exception of its preparation. -/
def leadTimes (o : Options) (known : Except Err (List ℤ)) : Except Err (List ℤ) :=
  match o.leadStart, o.leadStop with
  | none, none => if o.prediction ∈ ["persistence", "climatology", "probabilistic_climatology"] then .ok (arange 0 (15 * 24 + 6) 6) else known
  | some a, some b => .ok (arange a b o.leadFrequency)
  | _, _ => .error .valueError

/-- The name of the result file (run_benchmark_evaluation.py:387-392). -/
def fileName (o : Options) : Except Err String := do
  let r ← initRange o
  return o.prediction ++ "_vs_" ++ o.target ++ "_" ++ o.resolution ++ "_" ++ r.2 ++ (if o.temporal then "_temporal" else "") ++ ".nc"

/-- The name of the file that is read for a model, a resolution and a year when the results are combined (combine_results.py:202). -/
def resultFile (model resolution year : String) : String := model ++ "_" ++ resolution ++ "_" ++ year ++ ".nc"

/-! ### Configurations -/

/-- What is used of a configuration: its path and variables. -/
structure Config where
  path : String
  names : List String

/-- The module of configurations. -/
structure Configs where
  targets : List (String × Config)
  climatologies : List (String × Config)
  deterministic : List (String × Config)
  probabilistic : List (String × Config)

/-- The configuration of the predictions, and whether they are probabilistic (run_benchmark_evaluation.py:140-159). -/
def predictionConfig (c : Configs) (o : Options) : Except Err (Config × Bool) :=
  if o.prediction = "persistence" then do
    let x ← pyItem c.targets ("era5_" ++ o.resolution)
    return (x, false)
  else if o.prediction = "probabilistic_climatology" then do
    let x ← pyItem c.targets ("era5_" ++ o.resolution)
    return (x, true)
  else if o.prediction = "climatology" then do
    let x ← pyItem c.climatologies ("era5_" ++ o.resolution ++ "_" ++ toString o.year)
    return (x, false)
  else match pyGet? (o.prediction ++ "_" ++ o.resolution ++ "_" ++ toString o.year) c.deterministic with
    | some x => .ok (x, false)
    | none => do
      let x ← pyItem c.probabilistic (o.prediction ++ "_" ++ o.resolution ++ "_" ++ toString o.year)
      return (x, true)

/-- `variables` (run_benchmark_evaluation.py:164-166), in any order: those of both configurations. -/
def commonVariables (prediction target : Config) : List String := (prediction.names.filter (fun v => decide (v ∈ target.names))).dedup

/-- The names of the wind vectors that are evaluated (run_benchmark_evaluation.py:304-317). -/
def vectorNames (vs : List String) : List String :=
  (if "u_component_of_wind" ∈ vs ∧ "v_component_of_wind" ∈ vs then ["wind"] else []) ++
  (if "10m_u_component_of_wind" ∈ vs ∧ "10m_v_component_of_wind" ∈ vs then ["10m_wind"] else [])

/-- `precip_variables` (run_benchmark_evaluation.py:167-169). -/
def precipVariables (vs : List String) : List String := vs.filter (fun v => "total_precipitation".toList.isPrefixOf v.toList)

/-- `seeps_dry_thresholds` (run_benchmark_evaluation.py:324-327); the thresholds as text. -/
def dryThresholds : List (String × String) := [("total_precipitation_6hr", "0.1"), ("total_precipitation_24hr", "0.25")]

/-- The metrics of a deterministic evaluation with the variables that each of them has values for (run_benchmark_evaluation.py:294-332). -/
def deterministicMetrics (vs : List String) : Except Err (List (String × List String)) := do
  let seeps ← (if precipVariables vs = [] then .ok [] else do
    let _ ← (precipVariables vs).mapM (fun v => pyItem dryThresholds v)
    return [("seeps", precipVariables vs)] : Except Err (List (String × List String)))
  return ["rmse", "mse", "bias", "acc", "prediction_activity"].map (fun m => (m, vs)) ++
    (if vectorNames vs = [] then [] else [("vector_rmse", vectorNames vs)]) ++ seeps

/-- The metrics of a probabilistic evaluation (run_benchmark_evaluation.py:334-346). -/
def probabilisticMetrics (vs : List String) : List (String × List String) :=
  ["crps", "unbiased_spread_skill", "unbiased_mean_rmse", "mean_rmse"].map (fun m => (m, vs))

/-- `all_metrics` (run_benchmark_evaluation.py:349-352). The metrics of the other kind are constructed too, which also raises for an unknown
precipitation. -/
def allMetrics (prob : Bool) (vs : List String) : Except Err (List (String × List String)) := do
  let d ← deterministicMetrics vs
  return if prob then probabilisticMetrics vs else d

/-- The names of the arrays in the result file (aggregation.py:136-140): `<metric>.<variable>`. -/
def arrayNames (metrics : List (String × List String)) : List String := metrics.flatMap (fun mv => mv.2.map (fun v => mv.1 ++ "." ++ v))

/-- The dimensions that are averaged over (run_benchmark_evaluation.py:363-366). -/
def reduceDims (o : Options) : List Dim := if o.temporal then ["latitude", "longitude"] else ["init_time", "latitude", "longitude"]

end WBX.Benchmark
