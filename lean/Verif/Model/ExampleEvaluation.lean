import Verif.Model.DefinePipeline
import Verif.Model.Datasets
import Verif.Model.Weighting
import Verif.Model.Binning
import Verif.Model.Benchmark
import Verif.Model.Deterministic

/-!
# Model of `/repo/evaluation_scripts/run_example_evaluation.py`

The whole script, from the flags to the files. Labels of all dimensions are of one type `L`: `hours` gives the label of a time (or lead
time) of that many hours, `name` that of the name of a region, and `degrees` the number that a label of a latitude or longitude stands for.
The datasets are those after renaming (`Model/Naming`), restricted to the variables of the flag; the flag `levels` is not set (its default).
-/

namespace WBX
namespace Example
noncomputable section
open DA
variable {L : Type} [DecidableEq L]

/-- The flags (run_example_evaluation.py:59-131): times and lead times in hours, chunk sizes, dimensions to reduce, and the output files. -/
structure Flags where
  timeStart : ℤ
  timeStop : ℤ
  timeFrequency : ℤ := 12
  timeChunkSize : Option Int := none
  leadTimeStart : ℤ := 0
  leadTimeStop : ℤ := 24 * 10
  leadTimeFrequency : ℤ := 6
  leadTimeChunkSize : Option Int := none
  reduceDims : List Dim := ["init_time", "latitude", "longitude"]
  outputPath : Option String
  statePath : Option String := none

/-- `init_times` (run_example_evaluation.py:135-140). -/
def initTimes (hours : ℤ → L) (f : Flags) : List L := (Benchmark.arange f.timeStart f.timeStop f.timeFrequency).map hours

/-- `lead_times` (run_example_evaluation.py:141-146). -/
def leadTimes (hours : ℤ → L) (f : Flags) : List L := (Benchmark.arange f.leadTimeStart f.leadTimeStop f.leadTimeFrequency).map hours

/-- `all_metrics` (run_example_evaluation.py:172). -/
def metrics : List (String × FMetric L ℝ) := [("rmse", rmse), ("mse", squaredErrorStatistic.toMetric)]

/-- `regions` (run_example_evaluation.py:175-178). -/
def regions (name : String → L) : List (L × ((ℝ × ℝ) × (ℝ × ℝ))) :=
  [(name "global", ((-90, 90), (0, 360))), (name "northern-hemisphere", ((20, 90), (0, 360)))]

/-- The coordinate `stat.<d>` as an array. -/
def coordArray {V : Type} (degrees : L → ℝ) (d : Dim) (stat : DA L V) : DA L ℝ :=
  { dims := {d}, coords := fun k => if k = d then stat.coords d else ∅, val := fun e => degrees (e d) }

/-- `weighting.GridAreaWeighting()` (run_example_evaluation.py:173) as a weighting of the aggregator; `order` are the latitudes of the
datasets in their order. Where the computation of the weights raises, so does the aggregation; the theorems are for latitudes for which it does
not (`latitudeWeights_area`). -/
def gridWeights (order : List L) (degrees : L → ℝ) (stat : DA L (FV ℝ)) : DA L (FV ℝ) :=
  match gridAreaWeights "latitude" true order degrees stat with
  | .ok w => w.map FV.fin
  | .error _ => DA.scalar FV.nan

/-- `binning.Regions(regions)` (run_example_evaluation.py:179). For these regions the mask always exists (`regions_mask`). -/
def regionBinning (name : String → L) (degrees : L → ℝ) : BinBy L (FV ℝ) where
  binDim := "region"
  createBinMask := fun stat =>
    match regionsMask "region" (regions name) none id (coordArray degrees "latitude" stat) (coordArray degrees "longitude" stat) with
    | .ok m => m.map FV.ofBool
    | .error _ => DA.scalar FV.nan

/-- `aggregation_method` (run_example_evaluation.py:181-185). -/
def aggregator (name : String → L) (order : List L) (degrees : L → ℝ) (f : Flags) : Aggregator L (FV ℝ) where
  reduceDims := f.reduceDims
  binBy := [regionBinning name degrees]
  weighBy := [gridWeights order degrees]

/-- A run of the script (run_example_evaluation.py:134-197) in which no step before the outputs raises; `outputs` is what is then to be
written. -/
def Runs [LinearOrder L] [Add L] (hours : ℤ → L) (name : String → L) (order : List L) (degrees : L → ℝ) (f : Flags)
    (forecasts observations : Vars (DA L (FV ℝ))) (outputs : List (String × Except Err (List (String × DA L (FV ℝ))))) : Prop :=
  ∃ tc out, TimeChunks.make (initTimes hours f) (.arr (leadTimes hours f)) f.timeChunkSize f.leadTimeChunkSize = .ok tc ∧
    tc.iterWithOffsets = .ok out ∧
    RunsTo FV.nan ⟨f.outputPath, f.statePath⟩ metrics (aggregator name order degrees f) (loadVars loadTargets false observations)
      (fun i l _ => loadVars loadPredictions false forecasts i l) out outputs

end
end Example
end WBX
