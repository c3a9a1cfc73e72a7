import Verif.Model.Aggregation
import Verif.Model.FV
import Mathlib.Algebra.Order.Floor.Ring
import Mathlib.Data.Finset.Pi

/-!
# Model of `/repo/weatherbenchX/binning.py`

A coordinate of a statistic is modelled as the labelled array `statistic[name]`: with dimensions `{name}` for an index coordinate, other
dimensions for a coordinate such as the latitude of stations. Bin names and bin values are labels. `toFactor` turns a boolean mask into
the factor by which the aggregator multiplies. Not modelled: repeated bin labels, dtypes, NaN coordinate values, rounding of bin edges.
-/

namespace WBX
variable {L K V : Type} [DecidableEq L] [Field K] [LinearOrder K] [IsStrictOrderedRing K] [FloorRing K]

/-- A boolean mask as a factor (the product of a statistic and a boolean array in xarray). -/
def toFactor [Zero V] [One V] (m : DA L Bool) : DA L V := m.map (fun b => if b then 1 else 0)

/-! ### Concatenation of the masks of the bins -/

/-- The mask of the bin with label `l`. -/
def findBin {B : Type} (ms : List (L × B)) (l : L) : Option B := (ms.find? (fun m => decide (m.1 = l))).map Prod.snd

/-- `xr.concat(masks, dim=bin_dim_name)` of masks expanded by `bin_dim_name` (binning.py:139-144, 178-184, 232-243): `ValueError` if there are
none. The masks of one binning have the same labels. -/
def concatBins (binDim : Dim) : List (L × DA L Bool) → Except Err (DA L Bool)
  | [] => .error .valueError
  | (l, m) :: ms => .ok
    { dims := insert binDim (((l, m) :: ms).foldr (fun q s => q.2.dims ∪ s) ∅),
      coords := fun k => if k = binDim then (((l, m) :: ms).map Prod.fst).toFinset else m.coords k,
      val := fun e => match findBin ((l, m) :: ms) (e binDim) with
        | some m' => m'.val e
        | none => false }

/-! ### Regions -/

/-- `np.mod(x, 360)`. -/
def mod360 (x : K) : K := x - 360 * (⌊x / 360⌋ : K)

/-- `_create_lat_mask` (binning.py:52-60) at one latitude. -/
def latMask (lims : K × K) : Except Err (K → Bool) :=
  if lims.2 ≤ lims.1 then .error .valueError else .ok (fun lat => decide (lims.1 ≤ lat) && decide (lat ≤ lims.2))

/-- `_create_lon_mask` (binning.py:63-77) at one longitude. -/
def lonMask (lims : K × K) (lon : K) : Bool :=
  let x := mod360 lon
  let a := mod360 lims.1
  let b := mod360 lims.2
  if a < b then decide (a ≤ x) && decide (x ≤ b) else decide (x ≤ b) || decide (a ≤ x)

/-- `_region_to_mask` (binning.py:80-89). -/
def regionToMask (lat lon : DA L K) (latLims lonLims : K × K) : Except Err (DA L Bool) := do
  let f ← latMask latLims
  return DA.zipWith (· && ·) (lat.map f) (lon.map (lonMask lonLims))

/-- One region and its name. -/
def regionBin (lat lon : DA L K) (r : L × ((K × K) × (K × K))) : Except Err (L × DA L Bool) := do
  let m ← regionToMask lat lon r.2.1 r.2.2
  return (r.1, m)

/-- The land bins of `Regions.create_bin_mask` (binning.py:186-201); `land` maps a region name to the name with `_land` appended. The assertion that
the coordinates of the land mask match those of the statistic is modelled on sets of labels. -/
def addLandBins (landMask : Option (DA L Bool)) (land : L → L) (lat lon : DA L K) (ms : List (L × DA L Bool)) : Except Err (List (L × DA L Bool)) :=
  match landMask with
  | none => .ok ms
  | some lm =>
    if ms = [] then .error .valueError
    else if lat.coords "latitude" = lm.coords "latitude" ∧ lon.coords "longitude" = lm.coords "longitude" then
      .ok (ms ++ ms.map (fun m => (land m.1, DA.zipWith (· && ·) m.2 lm)))
    else .error .assertionError

/-- The bins of `Regions.create_bin_mask` (binning.py:186-201). -/
def regionBins (regions : List (L × ((K × K) × (K × K)))) (landMask : Option (DA L Bool)) (land : L → L) (lat lon : DA L K) :
    Except Err (List (L × DA L Bool)) := do
  let ms ← regions.mapM (regionBin lat lon)
  addLandBins landMask land lat lon ms

/-- `Regions.create_bin_mask`. -/
def regionsMask (binDim : Dim) (regions : List (L × ((K × K) × (K × K)))) (landMask : Option (DA L Bool)) (land : L → L) (lat lon : DA L K) :
    Except Err (DA L Bool) := do
  let ms ← regionBins regions landMask land lat lon
  concatBins binDim ms

/-! ### Land and sea -/

/-- `LandSea` (binning.py:92-145): `1 - mask` is the complement. -/
def landSeaBins (fraction : DA L (FV K)) (threshold : FV K) (name : String → L) (includeGlobal : Bool) : List (L × DA L Bool) :=
  let land := fraction.map (fun x => FV.le threshold x)
  [(name "land", land), (name "sea", land.map (!·))] ++ (if includeGlobal then [(name "global", land.map (fun _ => true))] else [])

/-- `LandSea.create_bin_mask`. -/
def landSeaMask (binDim : Dim) (fraction : DA L (FV K)) (threshold : FV K) (name : String → L) (includeGlobal : Bool) : Except Err (DA L Bool) :=
  concatBins binDim (landSeaBins fraction threshold name includeGlobal)

/-! ### Bands -/

/-- `np.arange(start, stop + step, step)[:-1]` for a step other than 0: its length is `⌈(stop + step - start) / step⌉ - 1`. -/
def bandStarts (start stop step : K) : List K :=
  (List.range (⌈(stop + step - start) / step⌉.toNat - 1)).map (fun k : ℕ => start + (k : K) * step)

/-- One band of `LatitudeBins.create_bin_mask` (binning.py:230-242). The broadcast to the statistic is left to the multiplication. -/
def latBand (number : K → L) (degrees : K) (lat : DA L K) (start : K) : Except Err (L × DA L Bool) := do
  let f ← latMask (start, start + degrees)
  return (number start, lat.map f)

/-- `LatitudeBins` (binning.py:204-243). -/
def latitudeBins (binDim : Dim) (number : K → L) (degrees : K) (range : K × K) (lat : DA L K) : Except Err (DA L Bool) := do
  let ms ← (bandStarts range.1 range.2 degrees).mapM (latBand number degrees lat)
  concatBins binDim ms

/-- The end of the longitude range (binning.py:264-266). -/
def lonEnd (range : K × K) : K := if range.2 ≤ range.1 then range.2 + 360 else range.2

/-- `LongitudeBins` (binning.py:246-288). -/
def longitudeBins (binDim : Dim) (number : K → L) (degrees : K) (range : K × K) (lon : DA L K) : Except Err (DA L Bool) :=
  concatBins binDim ((bandStarts range.1 (lonEnd range) degrees).map (fun start => (number (mod360 start), lon.map (lonMask (start, start + degrees)))))

/-! ### Values of a coordinate -/

/-- `np.unique(coord)`: the values of the cells. -/
def uniqueValues [Inhabited L] (coord : DA L L) : Finset L :=
  (coord.dims.pi coord.coords).image (fun p => coord.val (fun d => if h : d ∈ coord.dims then p d h else default))

/-- `vectorized_coord_mask` (binning.py:291-320). `str` is the conversion of labels to strings that happens when there is a global bin. -/
def coordMask [Inhabited L] (binDim : Dim) (globalBin : Option L) (str : L → L) (coord : DA L L) : DA L Bool :=
  match globalBin with
  | none =>
    { dims := insert binDim coord.dims,
      coords := fun k => if k = binDim then uniqueValues coord else coord.coords k,
      val := fun e => decide (coord.val e = e binDim) }
  | some g =>
    { dims := insert binDim coord.dims,
      coords := fun k => if k = binDim then insert g ((uniqueValues coord).image str) else coord.coords k,
      val := fun e => if e binDim = g then true else decide (str (coord.val e) = e binDim) }

/-- `ByExactCoord.create_bin_mask` (binning.py:343-355). -/
def exactCoordMask [Inhabited L] (name : Dim) (globalBin : Option L) (str : L → L) (stat : DA L V) (coord : DA L L) : Except Err (DA L Bool) :=
  if name ∈ stat.dims then .error .assertionError else .ok (coordMask name globalBin str coord)

/-! ### Intervals of a coordinate -/

/-- The bins of `ByCoordBins` (binning.py:599-621): `zip(edges[:-1], edges[1:])`. -/
def coordBins (number : K → L) (globalBin : Option L) (edges : List K) (coord : DA L K) : List (L × DA L Bool) :=
  (edges.zip edges.tail).map (fun q => (number q.1, coord.map (fun x => decide (q.1 ≤ x) && decide (x < q.2)))) ++
    (match globalBin with
      | none => []
      | some g => [(g, coord.map (fun _ => true))])

/-- `ByCoordBins.create_bin_mask` (binning.py:592-637): `expand_dims` is a `ValueError` if the coordinate is a dimension; without any bin the mask is
empty. -/
def coordBinsMask (name : Dim) (number : K → L) (globalBin : Option L) (edges : List K) (stat : DA L V) (coord : DA L K) : Except Err (DA L Bool) :=
  if name ∈ stat.dims then .error .valueError
  else match coordBins number globalBin edges coord with
    | [] => .ok { dims := insert name stat.dims, coords := fun k => if k = name then ∅ else stat.coords k, val := fun _ => true }
    | m :: ms => concatBins name (m :: ms)

/-! ### Sets of values -/

/-- The bins of `BySets` (binning.py:675-705): `notIn` maps the name of a set to that of its complement. -/
def setBins (sets : List (L × List L)) (complements : Bool) (notIn : L → L) (globalBin : Option L) (coord : DA L L) : List (L × DA L Bool) :=
  sets.flatMap (fun s => (s.1, coord.map (fun x => decide (x ∈ s.2))) ::
    (if complements then [(notIn s.1, coord.map (fun x => !decide (x ∈ s.2)))] else [])) ++
    (match globalBin with
      | none => []
      | some g => [(g, coord.map (fun _ => true))])

/-- `BySets` (binning.py:640-705): the bin dimension must be given and differ from the coordinate. -/
def setsMask (binDim : Option Dim) (coordName : Dim) (sets : List (L × List L)) (complements : Bool) (notIn : L → L) (globalBin : Option L) (coord : DA L L) :
    Except Err (DA L Bool) :=
  match binDim with
  | none => .error .valueError
  | some d => if d = coordName then .error .valueError else concatBins d (setBins sets complements notIn globalBin coord)

/-! ### Units of time -/

/-- A time coordinate: time differences in seconds, or dates (`T`). -/
inductive TimeCoord (L K T : Type) where
  | timedelta (coord : DA L K)
  | datetime (coord : DA L T)

/-- The seconds in a unit of time differences (binning.py:378-391). -/
def unitSeconds : String → Option ℕ
  | "second" => some 1
  | "minute" => some 60
  | "hour" => some (60 * 60)
  | "day" => some (60 * 60 * 24)
  | "week" => some (60 * 60 * 24 * 7)
  | "year" => some (60 * 60 * 24 * 365)
  | _ => none

/-- `_extract_time_unit` (binning.py:358-393); `dt unit` is the attribute `unit` of xarray's datetime accessor, `none` if there is none. -/
def extractTimeUnit {T : Type} (dt : String → Option (T → K)) (unit : String) : TimeCoord L K T → Except Err (DA L K)
  | .timedelta coord => match unitSeconds unit with
    | none => .error .valueError
    | some n => .ok (coord.map (fun x => if n = 1 then x else (⌊x / (n : K)⌋ : K)))
  | .datetime coord => match dt unit with
    | none => .error .attributeError
    | some f => .ok (coord.map f)

/-- `ByTimeUnit.create_bin_mask` (binning.py:430-441). -/
def timeUnitMask {T : Type} [Inhabited L] (dt : String → Option (T → K)) (number : K → L) (unit : String) (timeDim : Dim) (globalBin : Option L) (str : L → L)
    (coord : TimeCoord L K T) : Except Err (DA L Bool) := do
  let c ← extractTimeUnit dt unit coord
  return coordMask (timeDim ++ "_" ++ unit) globalBin str (c.map number)

/-- `ByTimeUnitSets.create_bin_mask` (binning.py:489-514). -/
def timeUnitSetsMask {T : Type} (dt : String → Option (T → K)) (number : K → L) (unit : String) (timeDim : Dim) (binDim : Option Dim) (sets : List (L × List L))
    (globalBin : Option L) (coord : TimeCoord L K T) : Except Err (DA L Bool) := do
  let c ← extractTimeUnit dt unit coord
  concatBins (binDim.getD (timeDim ++ "_" ++ unit ++ "_sets")) (setBins sets false id globalBin (c.map number))

/-- The divisor and the number of default bins of `ByTimeUnitFromSeconds` (binning.py:551-560). -/
def secondsUnit : String → Option (ℕ × ℕ)
  | "second" => some (1, 60)
  | "minute" => some (60, 60)
  | "hour" => some (60 * 60, 24)
  | _ => none

/-- `ByTimeUnitFromSeconds.create_bin_mask` (binning.py:544-567). -/
def fromSecondsMask (number : K → L) (unit : String) (timeDim : Dim) (bins : Option (List K)) (coord : DA L K) : Except Err (DA L Bool) :=
  match secondsUnit unit with
  | none => .error .valueError
  | some (n, count) =>
    let bs := bins.getD ((List.range count).map (fun k : ℕ => (k : K)))
    .ok
    { dims := insert (timeDim ++ "_" ++ unit) coord.dims,
      coords := fun k => if k = timeDim ++ "_" ++ unit then (bs.map number).toFinset else coord.coords k,
      val := fun e => decide (e (timeDim ++ "_" ++ unit) ∈ bs.map number) && decide (number (if n = 1 then coord.val e else (⌊coord.val e / (n : K)⌋ : K)) = e (timeDim ++ "_" ++ unit)) }

end WBX
