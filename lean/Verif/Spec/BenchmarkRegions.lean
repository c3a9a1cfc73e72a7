import Verif.Model.BenchmarkRegions
import Verif.Spec.ExampleEvaluation
import Verif.Props.Regions

/-!
# Specification of the numbers of the benchmark (C93): means over parts of the globe, weighted by area
-/

namespace WBX.Benchmark
noncomputable section
open WBX DA
variable {L : Type} [DecidableEq L]

/-- A point lies in a region given by its southern and northern, western and eastern limits (which belong to it); the region extends to the east from its western limit. -/
def Inside (box : (ℝ × ℝ) × (ℝ × ℝ)) (lat lon : ℝ) : Prop := (box.1.1 ≤ lat ∧ lat ≤ box.1.2) ∧ OnArc box.2.1 box.2.2 lon

/-- The regions of the benchmark on a map with longitudes from 0 to 360 degrees: southern and northern limit, western and eastern limit. A region whose western limit is greater than the
eastern one lies on both sides of the Greenwich meridian. -/
def onMap : List (String × ((ℝ × ℝ) × (ℝ × ℝ))) := [
  ("global", ((-90, 90), (0, 360))), ("tropics", ((-20, 20), (0, 360))), ("northern-hemisphere", ((20, 90), (0, 360))), ("southern-hemisphere", ((-90, -20), (0, 360))),
  ("europe", ((35, 75), (347.5, 42.5))), ("north-america", ((25, 60), (240, 285))), ("north-atlantic", ((25, 65), (290, 350))), ("north-pacific", ((25, 60), (145, 230))),
  ("east-asia", ((25, 60), (102.5, 150))), ("ausnz", ((-45, -12.5), (120, 175))), ("arctic", ((60, 90), (0, 360))), ("antarctic", ((-90, -60), (0, 360))),
  ("northern-africa", ((5, 32.5), (347.5, 37.5))), ("southern-africa", ((-30, 5), (12.5, 37.5))), ("south-america", ((-40, 5), (285, 315))), ("west-asia", ((15, 60), (42.5, 102.5))),
  ("south-east-asia", ((-12.5, 25), (95, 125)))]

/-- A point (longitude from 0 to 360) lies in a region of the map. -/
def InsideOnMap (box : (ℝ × ℝ) × (ℝ × ℝ)) (lat lon : ℝ) : Prop :=
  (box.1.1 ≤ lat ∧ lat ≤ box.1.2) ∧ if box.2.1 ≤ box.2.2 then box.2.1 ≤ lon ∧ lon ≤ box.2.2 else box.2.1 ≤ lon ∨ lon ≤ box.2.2

/-- Different labels of all regions and their land parts. -/
structure Labels (name : String → L) (land : L → L) : Prop where
  different : Function.Injective name
  land : ∀ r, land (name r) = name (r ++ "_land")

/-- A statistic on the grid with the latitudes `south` (from south to north), which is also that of the land-sea mask. -/
structure OnGrid (order south : List L) (degrees : L → ℝ) (fraction : DA L (FV ℝ)) (s : StatVar L (FV ℝ)) : Prop where
  order : order = south ∨ order = south.reverse
  latitudes : SouthToNorth (south.map degrees)
  dims : ∀ d ∈ ["init_time", "latitude", "longitude"], d ∈ s.arr.dims
  region : "region" ∉ s.arr.dims
  labels : s.arr.coords "latitude" = south.toFinset
  mask : ∀ m, s.mask = some m → m.dims ⊆ s.arr.dims ∧ m.coords = s.arr.coords
  landSea : fraction.WF ∧ fraction.dims = {"latitude", "longitude"} ∧ fraction.coords "latitude" = s.arr.coords "latitude" ∧ fraction.coords "longitude" = s.arr.coords "longitude"

/-- The cell is used: the mask keeps it, and in the evaluation of the Keisler model it is not NaN. -/
def Kept (o : Options) (s : StatVar L (FV ℝ)) (e : Dim → L) : Prop :=
  (∀ m, s.mask = some m → m.val e = true) ∧ (o.prediction = "keisler" → s.arr.val e ≠ FV.nan)

/-- The init times that are averaged over for a cell of the results: all, or in the temporal evaluation that of the cell. -/
def initsOf (o : Options) (s : StatVar L (FV ℝ)) (e : Dim → L) : Finset L := if o.temporal then {e "init_time"} else s.arr.coords "init_time"

/-- All combinations of init times, latitudes and longitudes that belong to a cell of the results. -/
def gridCells (o : Options) (s : StatVar L (FV ℝ)) (e : Dim → L) : Finset (L × L × L) := initsOf o s e ×ˢ s.arr.coords "latitude" ×ˢ s.arr.coords "longitude"

open Classical in
/-- Those of them that are used and satisfy `inside`. -/
def usedCells (o : Options) (s : StatVar L (FV ℝ)) (e : Dim → L) (inside : L → L → Prop) : Finset (L × L × L) :=
  (gridCells o s e).filter (fun c => Kept o s (Example.cellAt e c.1 c.2.1 c.2.2) ∧ inside c.2.1 c.2.2)

/-- The mean of `x` over cells, weighted by the area of the cells of the grid. -/
def areaMean (south : List L) (degrees : L → ℝ) (cells : Finset (L × L × L)) (x : L × L × L → ℝ) : ℝ :=
  (∑ c ∈ cells, Example.bandArea south degrees c.2.1 * x c) / ∑ c ∈ cells, Example.bandArea south degrees c.2.1

/-- The points of a region (or of its land part) in terms of the labels: for the land part, those with a land fraction other than 0. -/
def insideOf (degrees : L → ℝ) (fraction : DA L (FV ℝ)) (box : (ℝ × ℝ) × (ℝ × ℝ)) (landOnly : Bool) (la lo : L) : Prop :=
  Inside box (degrees la) (degrees lo) ∧ (landOnly = true → ∀ e : Dim → L, e "latitude" = la → e "longitude" = lo → fraction.val e ≠ FV.fin 0)

/-- The label of a region, or of its land part. -/
def labelOf (name : String → L) (region : String) (landOnly : Bool) : L := name (if landOnly then region ++ "_land" else region)

end
end WBX.Benchmark
