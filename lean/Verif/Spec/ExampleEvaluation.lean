import Verif.Model.ExampleEvaluation
import Verif.Spec.Weighting
import Verif.Spec.Evaluated

/-!
# Specification of the example evaluation (C85): area-weighted mean squared errors on the sphere
-/

namespace WBX
namespace Example
noncomputable section
open DA
variable {L : Type} [DecidableEq L]

/-- The cell of the forecast started at `i`, at the latitude `la` and longitude `lo`; all other labels (lead time, level, …) are those of `e`. -/
def cellAt (e : Dim → L) (i la lo : L) : Dim → L :=
  fun d => if d = "init_time" then i else if d = "latitude" then la else if d = "longitude" then lo else e d

/-- The squared error of the forecast `F` started at `i`: against the observation `O` at the time `i` + lead time. -/
def squaredErrorAt [Add L] (F O : DA L (FV ℝ)) (e : Dim → L) (i la lo : L) : ℝ :=
  ((F.val (cellAt e i la lo)).num - (O.val (setLabel (cellAt e i la lo) "valid_time" (i + e "lead_time"))).num) ^ 2

/-- The area of the cells at the latitude `la`, per radian of longitude; `south` are the latitudes from south to north. -/
def bandArea (south : List L) (degrees : L → ℝ) (la : L) : ℝ := cellArea south.length (radians (south.map degrees)) (south.idxOf la)

/-- The mean of `x i la lo` over the init times, the latitudes between `s` and `n` degrees (both included) and the longitudes, weighted by area. -/
def areaMean (inits : Finset L) (south : List L) (lons : Finset L) (degrees : L → ℝ) (s n : ℝ) (x : L → L → L → ℝ) : ℝ :=
  (∑ i ∈ inits, ∑ la ∈ south.toFinset with s ≤ degrees la ∧ degrees la ≤ n, ∑ lo ∈ lons, bandArea south degrees la * x i la lo) /
    (∑ _i ∈ inits, ∑ la ∈ south.toFinset with s ≤ degrees la ∧ degrees la ≤ n, ∑ _lo ∈ lons, bandArea south degrees la)

/-- Data that can be evaluated for the init times `is` and lead times `ts`: every variable has a forecast and an observation on the same grid (and
the same other labels `C`), all of them given and finite where they are needed. The latitudes are in the datasets from south to north or
from north to south. -/
structure Data [Add L] (is ts : List L) (order south : List L) (degrees : L → ℝ) (C : Dim → Finset L) (data : List (String × (DA L (FV ℝ) × DA L (FV ℝ)))) : Prop where
  some : data ≠ []
  names : (data.map Prod.fst).Nodup
  order : order = south ∨ order = south.reverse
  latitudes : SouthToNorth (south.map degrees)
  grid : C "latitude" = south.toFinset ∧ (C "longitude").Nonempty
  dims : ∀ v F O, (v, (F, O)) ∈ data → ∃ extra : Finset Dim, (∀ d ∈ extra, d ∉ ["init_time", "lead_time", "valid_time", "latitude", "longitude", "region"] ∧ (C d).Nonempty) ∧
    F.dims = {"init_time", "lead_time", "latitude", "longitude"} ∪ extra ∧ O.dims = {"valid_time", "latitude", "longitude"} ∪ extra
  labels : ∀ v F O, (v, (F, O)) ∈ data → ∀ d, d ≠ "init_time" → d ≠ "lead_time" → d ≠ "valid_time" → (d ∈ F.dims → F.coords d = C d) ∧ (d ∈ O.dims → O.coords d = C d)
  times : ∀ v F O, (v, (F, O)) ∈ data → (∀ i ∈ is, i ∈ F.coords "init_time") ∧ (∀ l ∈ ts, l ∈ F.coords "lead_time") ∧
    ∀ i ∈ is, ∀ l ∈ ts, i + l ∈ O.coords "valid_time"
  finite : ∀ v F O, (v, (F, O)) ∈ data → ∀ e : Dim → L, e "init_time" ∈ is → e "lead_time" ∈ ts → (∀ d ∈ F.dims, d ≠ "init_time" → d ≠ "lead_time" → e d ∈ C d) →
    (F.val e).isFin = true ∧ (O.val (setLabel e "valid_time" (e "init_time" + e "lead_time"))).isFin = true

/-- The two regions of the script: their labels, and their southernmost and northernmost latitude. They reach around the globe. -/
def IsRegion (name : String → L) (region : L) (s n : ℝ) : Prop :=
  (region = name "global" ∧ s = -90 ∧ n = 90) ∨ (region = name "northern-hemisphere" ∧ s = 20 ∧ n = 90)

/-- A cell of the results for the variable with the forecast `F`: a region from `s` to `n` degrees, a lead time, and labels of the other dimensions. -/
structure ResultCell (name : String → L) (ts : List L) (C : Dim → Finset L) (F : DA L (FV ℝ)) (s n : ℝ) (e : Dim → L) : Prop where
  region : IsRegion name (e "region") s n
  lead : e "lead_time" ∈ ts
  other : ∀ d ∈ F.dims, d ∉ ["init_time", "lead_time", "latitude", "longitude"] → e d ∈ C d

/-- The dimensions and labels of the results for the variable with the forecast `F`: init times, latitudes and longitudes are gone, regions are new. -/
structure ResultShape (name : String → L) (ts : List L) (C : Dim → Finset L) (F x : DA L (FV ℝ)) : Prop where
  dims : ∀ d, d ∈ x.dims ↔ d = "region" ∨ (d ∈ F.dims ∧ d ∉ ["init_time", "latitude", "longitude"])
  region : x.coords "region" = {name "global", name "northern-hemisphere"}
  lead : x.coords "lead_time" = ts.toFinset
  other : ∀ d ∈ F.dims, d ∉ ["init_time", "lead_time", "latitude", "longitude"] → x.coords d = C d

/-- What is required of the script's arguments: labels of times in the order of the hours, different labels of the two regions, at least one init time
and lead time, the default dimensions, and an output file. -/
structure Setting [LT L] (hours : ℤ → L) (name : String → L) (f : Flags) (path : String) : Prop where
  hours : ∀ a b, a < b → hours a < hours b
  names : name "global" ≠ name "northern-hemisphere"
  inits : 0 < f.timeFrequency ∧ f.timeStart < f.timeStop
  leads : 0 < f.leadTimeFrequency ∧ f.leadTimeStart < f.leadTimeStop
  dims : f.reduceDims = ["init_time", "latitude", "longitude"]
  output : f.outputPath = some path

end
end Example
end WBX
