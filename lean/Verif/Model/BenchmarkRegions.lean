import Verif.Model.ExampleEvaluation

/-!
# Model of the aggregation of `/repo/public_benchmark/run_benchmark_evaluation.py`

The regions, the land-sea mask and the aggregator of the script. Labels are as in `Model/ExampleEvaluation`; `land` gives the label of a name with `_land` appended.
-/

namespace WBX.Benchmark
noncomputable section
open WBX DA
variable {L : Type} [DecidableEq L]

/-- `REGIONS` (run_benchmark_evaluation.py:110-131): southern and northern limit, western and eastern limit, in degrees. -/
def regions : List (String × ((ℝ × ℝ) × (ℝ × ℝ))) := [
  ("global", ((-90, 90), (0, 360))),
  ("tropics", ((-20, 20), (0, 360))),
  ("northern-hemisphere", ((20, 90), (0, 360))),
  ("southern-hemisphere", ((-90, -20), (0, 360))),
  ("europe", ((35, 75), (-12.5, 42.5))),
  ("north-america", ((25, 60), (360 - 120, 360 - 75))),
  ("north-atlantic", ((25, 65), (360 - 70, 360 - 10))),
  ("north-pacific", ((25, 60), (145, 360 - 130))),
  ("east-asia", ((25, 60), (102.5, 150))),
  ("ausnz", ((-45, -12.5), (120, 175))),
  ("arctic", ((60, 90), (0, 360))),
  ("antarctic", ((-90, -60), (0, 360))),
  ("northern-africa", ((5, 32.5), (-12.5, 37.5))),
  ("southern-africa", ((-30, 5), (12.5, 37.5))),
  ("south-america", ((-40, 5), (-75, -45))),
  ("west-asia", ((15, 60), (42.5, 102.5))),
  ("south-east-asia", ((-12.5, 25), (95, 125)))]

open Classical in
/-- `astype(bool)` of a float (binning.py:197): everything but zero is true, also NaN. -/
def asBool : FV ℝ → Bool
  | .fin x => decide (x ≠ 0)
  | _ => true

/-- `binning.Regions(REGIONS, land_sea_mask=land_sea_mask)` (run_benchmark_evaluation.py:357-361); `fraction` is the variable `land_sea_mask` of the ERA5 dataset. Where the creation of
the masks raises (the land-sea mask is on another grid), so does the aggregation; the theorems are for a land-sea mask on the grid of the statistic. -/
def regionBinning (name : String → L) (land : L → L) (degrees : L → ℝ) (fraction : DA L (FV ℝ)) : BinBy L (FV ℝ) where
  binDim := "region"
  createBinMask := fun stat =>
    match regionsMask "region" (regions.map (fun r => (name r.1, r.2))) (some (fraction.map asBool)) land (Example.coordArray degrees "latitude" stat) (Example.coordArray degrees "longitude" stat) with
    | .ok m => m.map FV.ofBool
    | .error _ => DA.scalar FV.nan

/-- `aggregation_method` (run_benchmark_evaluation.py:363-374); `order` are the latitudes of the datasets in their order. -/
def aggregator (name : String → L) (land : L → L) (order : List L) (degrees : L → ℝ) (fraction : DA L (FV ℝ)) (o : Options) : Aggregator L (FV ℝ) where
  reduceDims := reduceDims o
  binBy := [regionBinning name land degrees fraction]
  weighBy := [Example.gridWeights order degrees]
  masked := true
  skipna := decide (o.prediction = "keisler")

end
end WBX.Benchmark
