import Verif.Model.Wrappers
import Verif.Model.Spatial
import Mathlib.Data.List.Sort

/-!
# Model of `/repo/weatherbenchX/interpolations.py`

Labels have no order by themselves: where the order of a dimension matters it is given as a list of labels (`order`), and `deg` gives the number that a label of
latitude or longitude stands for. `DataArray.interp` is modelled for `method='linear'` by its contract (scipy's `interp1d` / `interpn`): linear on each interval between
neighbouring grid points, one dimension after another. Rounding, other methods and grids with fewer than two points are not modelled.
-/

namespace WBX
open Classical DA

section base
variable {A : Type}

/-- An `Interpolation` is its `interpolate_data_array` (interpolations.py:30-36): array and optional reference. -/
abbrev Interpolator (A : Type) := A → Option A → Except Err A

/-- `Interpolation.interpolate` (interpolations.py:38-57): every variable on its own; with a reference, the reference array of the same name (`KeyError` if there is none). -/
def interpolateVars (f : Interpolator A) (ds : Vars A) (reference : Option (Vars A)) : Except Err (Vars A) :=
  match reference with
  | none => ds.mapM (fun kv => do
      let a ← f kv.2 none
      return (kv.1, a))
  | some ref => ds.mapM (fun kv => do
      let r ← pyItem ref kv.1
      let a ← f kv.2 (some r)
      return (kv.1, a))

/-- `MultipleInterpolation.interpolate_data_array` (interpolations.py:70-77). -/
def multipleInterpolation (fs : List (Interpolator A)) : Interpolator A :=
  fun a reference => fs.foldlM (fun a f => f a reference) a

end base

section linear
variable {L K : Type} [DecidableEq L] [Field K] [LinearOrder K] [IsStrictOrderedRing K]

/-- The interval used for `x` among sorted points (`searchsorted`, clipped to the first and last interval). -/
def segment (pts : List (K × FV K)) (x : K) : Option ((K × FV K) × (K × FV K)) :=
  match (pts.zip pts.tail).find? (fun q => decide (x ≤ q.2.1)) with
  | some q => some q
  | none => (pts.zip pts.tail).getLast?

/-- The line through two points. -/
def lineAt (a b : K × FV K) (x : K) : FV K := a.2 + (b.2 - a.2) * FV.fin ((x - a.1) / (b.1 - a.1))

/-- Linear interpolation in one dimension: the points are sorted first (`assume_sorted=False`); outside of the grid the value is NaN unless `extrapolate`. -/
def interp1 (extrapolate : Bool) (pts : List (K × FV K)) (x : FV K) : FV K :=
  match x with
  | .fin x =>
    let sorted := pts.insertionSort (fun a b => a.1 ≤ b.1)
    if !extrapolate && (sorted.all (fun q => decide (x < q.1)) || sorted.all (fun q => decide (q.1 < x))) then .nan
    else match segment sorted x with
      | some (a, b) => lineAt a b x
      | none => .nan
  | _ => .nan

/-- An array with the order of the labels of its dimensions. -/
structure Ordered (L V : Type) where
  arr : DA L V
  order : Dim → List L

/-- `da.interp({d: target}, method='linear')` (interpolations.py:89-113) for one dimension; `deg` are the coordinate values of the grid, `target` the new ones. -/
def interpAlong (d : Dim) (deg : L → K) (extrapolate : Bool) (order : List L) (target : DA L (FV K)) (a : DA L (FV K)) : DA L (FV K) :=
  { dims := a.dims.erase d ∪ target.dims, coords := fun k => if k ∈ target.dims then target.coords k else a.coords k,
    val := fun e => interp1 extrapolate (order.map (fun l => (deg l, a.val (setLabel e d l)))) (target.val e) }

/-- `pad_longitude` (interpolations.py:80-86): the last longitude is repeated 360 degrees to the west and the first one 360 degrees to the east. `shift c l` is the label of the
longitude `c` degrees east of that of `l`; an empty dimension is an `IndexError`. -/
def padLongitude (shift : K → L → L) (a : Ordered L (FV K)) : Except Err (Ordered L (FV K)) :=
  match (a.order "longitude").head?, (a.order "longitude").getLast? with
  | some first, some last => .ok
    { arr :=
      { dims := a.arr.dims
        coords := fun k => if k = "longitude" then insert (shift (-360) last) (insert (shift 360 first) (a.arr.coords k)) else a.arr.coords k
        val := fun e =>
          if e "longitude" ∈ a.arr.coords "longitude" then a.arr.val e
          else if e "longitude" = shift (-360) last then a.arr.val (setLabel e "longitude" last)
          else a.arr.val (setLabel e "longitude" first) }
      order := fun k => if k = "longitude" then shift (-360) last :: (a.order k ++ [shift 360 first]) else a.order k }
  | _, _ => .error .indexError

/-- The padding if it is asked for (interpolations.py:201-203, 259-260). -/
def maybePad (wrap : Bool) (shift : K → L → L) (a : Ordered L (FV K)) : Except Err (Ordered L (FV K)) :=
  if wrap then padLongitude shift a else .ok a

/-- The `fill_value` given to `DataArray.interp`. -/
inductive Fill where
  | nan
  | unset
  | extrapolate
  deriving DecidableEq

/-- `interp_kwargs` of `interpolate_to_coords` (interpolations.py:96-105) for `n` coordinates: no `fill_value` argument (NaN) without extrapolation, `None` for several coordinates and
`'extrapolate'` for one. -/
def fillFor (extrapolate : Bool) (n : ℕ) : Fill := if extrapolate then (if 1 < n then .unset else .extrapolate) else .nan

/-- What a `fill_value` means for coordinates that xarray interpolates together: `'extrapolate'` is for a single coordinate (scipy's `interp1d`); `None` extrapolates for several
coordinates at once (`interpn`), but for a single one it is xarray's default, NaN. -/
def Fill.extrapolates : Fill → ℕ → Bool
  | .nan, _ => false
  | .extrapolate, _ => true
  | .unset, k => decide (2 ≤ k)

/-- The dimensions along which a target coordinate varies; a scalar counts as its own dimension. -/
def destinationDims (c : Dim × DA L (FV K)) : Finset Dim := if c.2.dims = ∅ then {c.1} else c.2.dims

/-- xarray's `decompose_interp`, called by `da.interp` (interpolations.py:107-111): the coordinates are split, in their order, into groups that have no dimension of the target in common with
the later ones; each group is interpolated on its own. `pending` are the coordinates of the group that is being collected. -/
def coordGroups (pending : List (Dim × DA L (FV K))) : List (Dim × DA L (FV K)) → List (List (Dim × DA L (FV K)))
  | [] => [pending]
  | c :: rest =>
    if rest = [] then [pending ++ [c]]
    else if ∀ p ∈ pending ++ [c], ∀ q ∈ rest, Disjoint (destinationDims p) (destinationDims q) then (pending ++ [c]) :: coordGroups [] rest
    else coordGroups (pending ++ [c]) rest

/-- The coordinates in their order, each with whether it is extrapolated. -/
noncomputable def extrapolations (fill : Fill) (coords : List (Dim × DA L (FV K))) : List (Bool × Dim × DA L (FV K)) :=
  (coordGroups [] coords).flatMap (fun g => g.map (fun c => (fill.extrapolates g.length, c)))

/-- `da.interp(**dim_args, method='linear', kwargs=...)` (interpolations.py:107-111): the coordinates one after another (within a group this is `interpn`, multilinear). -/
noncomputable def interpCoords (deg : L → K) (fill : Fill) (coords : List (Dim × DA L (FV K))) (order : Dim → List L) (b : DA L (FV K)) : DA L (FV K) :=
  (extrapolations fill coords).foldl (fun r c => interpAlong c.2.1 deg c.1 (order c.2.1) c.2.2 r) b

/-- Padding and `interp` with a given `fill_value`; a coordinate that is not a dimension is an error of `interp`. -/
noncomputable def interpolateWith (deg : L → K) (shift : K → L → L) (wrap : Bool) (fill : Fill) (coords : List (Dim × DA L (FV K))) (a : Ordered L (FV K)) : Except Err (DA L (FV K)) := do
  let p ← maybePad wrap shift a
  if coords.all (fun c => decide (c.1 ∈ p.arr.dims)) then return interpCoords deg fill coords p.order p.arr else .error .valueError

/-- `InterpolateToFixedCoords.interpolate_data_array` (interpolations.py:195-211) with `interpolate_to_coords` (interpolations.py:89-113). -/
noncomputable def interpolateFixed (deg : L → K) (shift : K → L → L) (wrap extrapolate : Bool) (coords : List (Dim × DA L (FV K))) (a : Ordered L (FV K)) : Except Err (DA L (FV K)) :=
  interpolateWith deg shift wrap (fillFor extrapolate coords.length) coords a

end linear

section reference
variable {L K : Type} [DecidableEq L] [Field K] [LinearOrder K] [IsStrictOrderedRing K]

/-- A reference array: its dimensions and labels, its values and its coordinates by name (`elevation`, `latitude`, …). -/
structure Reference (L K : Type) where
  arr : DA L (FV K)
  coord : List (Dim × DA L (FV K))

/-- An array like the reference, with the coordinates that the altitude adjustment needs. -/
structure LikeReference (L K : Type) where
  arr : DA L (FV K)
  elevation : Option (DA L (FV K))
  gridElevation : Option (DA L (FV K))

/-- `dims` of `InterpolateToReferenceCoords` (interpolations.py:285-290); `dimList` are the dimensions of the array in order. -/
def referenceDims (dims : Option (List Dim)) (dimList : List Dim) (ref : Reference L K) : List Dim :=
  match dims with
  | none => dimList.filter (fun d => decide (d ∈ ref.coord.map Prod.fst))
  | some ds => ds

/-- `reference.copy().expand_dims({d: da[d] for d in da_dims_to_retain})` (interpolations.py:275-280). Expanding by a dimension that is already there is a `ValueError`. -/
def expandReference (retain : Finset Dim) (a : DA L (FV K)) (ref : DA L (FV K)) : Except Err (DA L (FV K)) :=
  if retain ∩ ref.dims = ∅ then
    .ok { dims := ref.dims ∪ retain, coords := fun k => if k ∈ ref.dims then ref.coords k else a.coords k, val := ref.val }
  else .error .valueError

/-- `InterpolateToReferenceCoords.interpolate_data_array` (interpolations.py:253-290) without `clip_reference_coords`. `grid` is the grid elevation attached to the array by
`GridToSparseWithAltitudeAdjustment`: it is interpolated along with the array (with the `fill_value` of the array) over the dimensions that it has, but the early return for an empty reference does not have it. -/
noncomputable def interpolateReference (deg : L → K) (shift : K → L → L) (dims : Option (List Dim)) (wrap extrapolate : Bool) (dimList : List Dim) (grid : Option (Ordered L (FV K)))
    (a : Ordered L (FV K)) (ref : Reference L K) : Except Err (LikeReference L K) := do
  let p ← maybePad wrap shift a
  let ds := referenceDims dims dimList ref
  if ¬ hasCells ref.arr then do
    let r ← expandReference (p.arr.dims \ ds.toFinset) p.arr ref.arr
    return ⟨r, pyGet? "elevation" ref.coord, none⟩
  else do
    let args ← ds.mapM (fun d => do
      let c ← pyItem ref.coord d
      return (d, c))
    let r ← interpolateFixed deg shift false extrapolate args p
    let g ← grid.mapM (fun g => do
      let g ← maybePad wrap shift g
      interpolateWith deg shift false (fillFor extrapolate args.length) (args.filter (fun c => decide (c.1 ∈ g.arr.dims))) g)
    return ⟨r, pyGet? "elevation" ref.coord, g⟩

/-! ### Altitude adjustment -/

/-- `LAPSE_RATE_K_PER_M` (interpolations.py:293). -/
def lapseRate : K := -(65 / 10000)

/-- `elevation - grid_elevation`, 0 where it is not smaller in magnitude than the maximum (interpolations.py:355-362). A NaN comparison is False. -/
def heightDifference (maxDiff : K) (elevation grid : FV K) : FV K :=
  let dz := elevation - grid
  if FV.lt dz.abs (FV.fin maxDiff) then dz else 0

/-- The factor for wind speeds (interpolations.py:366-379): two successive `where`s. -/
def windFactor (dz : FV K) : FV K :=
  let f : FV K := if FV.lt dz (FV.fin 100) then 1 else FV.fin 1 + FV.fin (2 / 1000) * (dz - FV.fin 100)
  if FV.lt dz (FV.fin 1100) then f else FV.fin 3

/-- One value of `GridToSparseWithAltitudeAdjustment` (interpolations.py:296-380) after the interpolation. -/
def adjustValue (name : String) (maxDiff : K) (elevation grid x : FV K) : FV K :=
  if name = "2m_temperature" then x + heightDifference maxDiff elevation grid * FV.fin lapseRate
  else if name = "10m_wind_speed" then x * windFactor (heightDifference maxDiff elevation grid)
  else x

/-- Whether a variable is adjusted. -/
def isAdjusted (name : String) : Bool := name = "2m_temperature" || name = "10m_wind_speed"

/-- The adjustment of the array: both elevations must be there (`KeyError`). -/
def adjustArray (name : String) (maxDiff : K) (r : LikeReference L K) : Except Err (DA L (FV K)) :=
  if isAdjusted name then
    match r.elevation, r.gridElevation with
    | some el, some g => .ok (DA.zipWith (fun x (q : FV K × FV K) => adjustValue name maxDiff q.1 q.2 x) r.arr (DA.zipWith Prod.mk el g))
    | _, _ => .error .keyError
  else .ok r.arr

/-- `GridToSparseWithAltitudeAdjustment.interpolate_data_array` (interpolations.py:345-380) of the variable `name`. -/
noncomputable def altitudeAdjusted (deg : L → K) (shift : K → L → L) (dims : Option (List Dim)) (wrap extrapolate : Bool) (dimList : List Dim) (gridElevation : Ordered L (FV K)) (maxDiff : K)
    (name : String) (a : Ordered L (FV K)) (ref : Reference L K) : Except Err (DA L (FV K)) := do
  let r ← interpolateReference deg shift dims wrap extrapolate dimList (if isAdjusted name then some gridElevation else none) a ref
  adjustArray name maxDiff r

end reference

section crop
variable {L K V : Type} [DecidableEq L] [Field K] [LinearOrder K] [IsStrictOrderedRing K]

/-- The bounding box of `CropToBox`. -/
structure Box (K : Type) where
  latMin : K
  latMax : K
  lonMin : K
  lonMax : K

/-- `CropToBox.__init__` (interpolations.py:126-148). -/
def mkBox (latMin latMax lonMin lonMax : K) : Except Err (Box K) :=
  if latMax < latMin then .error .valueError
  else if lonMax < lonMin then .error .valueError
  else .ok ⟨latMin, latMax, lonMin, lonMax⟩

/-- `da.sel({d: slice(lo, hi)})` on a sorted index: both ends included. -/
def selRange (d : Dim) (deg : L → K) (lo hi : K) (a : DA L V) : DA L V :=
  { a with coords := fun k => if k = d then (a.coords k).filter (fun l => lo ≤ deg l ∧ deg l ≤ hi) else a.coords k }

/-- `CropToBox.interpolate_data_array` (interpolations.py:150-163): sorting changes no label; a missing dimension is a `KeyError`. -/
def cropToBox (deg : L → K) (b : Box K) (a : DA L V) : Except Err (DA L V) :=
  if "longitude" ∈ a.dims ∧ "latitude" ∈ a.dims then
    .ok (selRange "longitude" deg b.lonMin b.lonMax (selRange "latitude" deg b.latMin b.latMax a))
  else .error .keyError

/-- `xs[::stride]`. -/
def everyNth (stride : ℕ) (xs : List L) : List L :=
  (xs.zipIdx.filter (fun q => q.2 % stride = 0)).map Prod.fst

/-- `Subsample.__init__` (interpolations.py:445-459). -/
def mkStride (stride : ℤ) : Except Err ℕ := if stride < 1 then .error .valueError else .ok stride.toNat

/-- `Subsample.interpolate_data_array` (interpolations.py:461-471): dimensions that the array does not have are ignored. -/
def subsample (dims : List Dim) (stride : ℕ) (a : Ordered L V) : Ordered L V :=
  { arr := { dims := a.arr.dims
             coords := fun k => if k ∈ dims ∧ k ∈ a.arr.dims then (everyNth stride (a.order k)).toFinset else a.arr.coords k
             val := a.arr.val }
    order := fun k => if k ∈ dims ∧ k ∈ a.arr.dims then everyNth stride (a.order k) else a.order k }

end crop

section neighborhood
variable {L K : Type} [DecidableEq L] [Field K] [LinearOrder K] [IsStrictOrderedRing K]

/-- `xr.concat(out, dim=xr.DataArray(sizes, dims=['smoothing_neighborhood']))` (interpolations.py:429-434): the labels are the sizes, given by `position`. Repeated sizes are not modelled. -/
def concatSmoothing (position : ℤ → L) (a : DA L (FV K)) (rs : List (ℤ × DA L (FV K))) : DA L (FV K) :=
  { dims := insert "smoothing_neighborhood" a.dims,
    coords := fun k => if k = "smoothing_neighborhood" then (rs.map (fun r => position r.1)).toFinset else a.coords k,
    val := fun e => match pick position rs (e "smoothing_neighborhood") with
      | some s => s.val e
      | none => FV.nan }

/-- `NeighborhoodThresholdProbabilities.interpolate_data_array` (interpolations.py:414-435): binarize, then average over each size. The mask coordinate is not modelled; no size at all is a
`ValueError` of `xr.concat`. -/
noncomputable def neighborhoodProbabilities (label : FV K → L) (g : Grid L) (position : ℤ → L) (wrap : Bool) (sizes : List ℤ) (th : Thresholds L K) (thDim : Dim) (name : String) (a : DA L (FV K)) :
    Except Err (DA L (FV K)) := do
  let t ← th.forBinary label thDim name
  let b := binarize t ⟨a, none⟩
  let rs ← sizes.mapM (averageOne g wrap b)
  if sizes = [] then .error .valueError else return concatSmoothing position b.arr (sizes.zip (rs.map (fun r => r.arr)))

end neighborhood
end WBX
