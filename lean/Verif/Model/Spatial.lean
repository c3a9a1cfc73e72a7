import Verif.Model.Ensemble

/-!
# Model of `/repo/weatherbenchX/metrics/spatial.py`

Rounding (the code convolves in float32) is not modelled.
-/

namespace WBX
open Classical
variable {L K : Type} [DecidableEq L] [Field K] [LinearOrder K] [IsStrictOrderedRing K]

/-- `ndimage.convolve1d(x, np.ones(n) / n, mode='wrap')` of a line of length `N`, for odd `n` (spatial.py:43-45): the window of `n`
positions centred at `i`, with positions taken modulo `N`. -/
def conv1 (n N : ℕ) (x : ℕ → FV K) (i : ℕ) : FV K :=
  ∑ k ∈ Finset.range n, FV.fin (1 / (n : K)) * x (((i : ℤ) + k - ((n - 1) / 2 : ℕ)) % N).toNat

/-- `convolve2d_wrap_longitude` (spatial.py:25-57) of an array of `N` latitudes and `M` longitudes; `np.ones` of a negative size is a
`ValueError`. -/
def convolve2d (size : ℤ) (wrap : Bool) : Except Err (ℕ → ℕ → (ℕ → ℕ → FV K) → ℕ → ℕ → FV K) :=
  if size = 1 then .ok (fun _ _ x => x)
  else if size % 2 ≠ 1 then .error .valueError
  else if size < 0 then .error .valueError
  else
    let n := size.toNat
    let half := (n - 1) / 2
    .ok (fun N M x i j =>
      let rows := fun i j => conv1 n N (fun i => x i j) i
      let out := conv1 n M (fun j => rows i j) j
      let out := if i < half ∨ N ≤ i + half then 0 else out
      if wrap then out else if j < half ∨ M ≤ j + half then 0 else out)

/-- The labels of the latitudes and the longitudes in their order. -/
structure Grid (L : Type) where
  lat : List L
  lon : List L

/-- `xr.apply_ufunc(..., input_core_dims=[['latitude', 'longitude']], vectorize=True)` (spatial.py:64-70): a function of the
two-dimensional slices. -/
def gridApply {V W : Type} (g : Grid L) (f : ℕ → ℕ → (ℕ → ℕ → V) → ℕ → ℕ → W) (a : DA L V) : DA L W :=
  { dims := a.dims, coords := a.coords,
    val := fun e => f g.lat.length g.lon.length
      (fun i j => a.val (DA.setLabel (DA.setLabel e "latitude" ((g.lat[i]?).getD (e "latitude"))) "longitude" ((g.lon[j]?).getD (e "longitude"))))
      (g.lat.idxOf (e "latitude")) (g.lon.idxOf (e "longitude")) }

/-- `np.isclose(x, True)`: within `1e-8 + 1e-5` of 1. -/
def isclose1 : FV K → Bool
  | .fin x => decide (|x - 1| ≤ 1 / 10 ^ 8 + 1 / 10 ^ 5)
  | _ => false

/-- The mask after averaging (spatial.py:72-79): it must have both dimensions. The code assigns the new values by position; here they are assigned by label, which is the same if the
mask has latitude and longitude as its last dimensions, in this order (`averageMaskAt` in Model/MaskLayout models any order, and C39_mask_layout the agreement). -/
def averageMask (g : Grid L) (f : ℕ → ℕ → (ℕ → ℕ → FV K) → ℕ → ℕ → FV K) (m : DA L Bool) : Except Err (DA L Bool) :=
  if "latitude" ∈ m.dims ∧ "longitude" ∈ m.dims then .ok ((gridApply g f (m.map FV.ofBool)).map isclose1) else .error .valueError

/-- The mask coordinate of the result, if there is one. -/
def averageMask? (g : Grid L) (f : ℕ → ℕ → (ℕ → ℕ → FV K) → ℕ → ℕ → FV K) : Option (DA L Bool) → Except Err (Option (DA L Bool))
  | none => .ok none
  | some m => do
    let m' ← averageMask g f m
    return some m'

/-- `neighborhood_averaging_for_single_size` (spatial.py:60-80). -/
def averageOne (g : Grid L) (wrap : Bool) (a : StatVar L (FV K)) (size : ℤ) : Except Err (StatVar L (FV K)) :=
  if "latitude" ∈ a.arr.dims ∧ "longitude" ∈ a.arr.dims then do
    let f ← convolve2d size wrap
    let m ← averageMask? g f a.mask
    return ⟨gridApply g f a.arr, m⟩
  else .error .valueError

/-- The neighborhood size(s). -/
inductive Sizes where
  | one (n : ℤ)
  | many (ns : List ℤ)

/-- One of the arrays that are concatenated. -/
def pick {V : Type} (number : ℤ → L) (rs : List (ℤ × V)) (l : L) : Option V := (rs.find? (fun r => decide (number r.1 = l))).map Prod.snd

/-- `xr.concat(..., dim='neighborhood_size')` (spatial.py:89-96). The masks are concatenated too (xarray leaves out the new dimension if
all masks are equal; the values are the same). Repeated sizes are not modelled. -/
def concatSizes (number : ℤ → L) (a : StatVar L (FV K)) (rs : List (ℤ × StatVar L (FV K))) : StatVar L (FV K) :=
  ⟨{ dims := insert "neighborhood_size" a.arr.dims,
     coords := fun k => if k = "neighborhood_size" then (rs.map (fun r => number r.1)).toFinset else a.arr.coords k,
     val := fun e => match pick number rs (e "neighborhood_size") with
       | some s => s.arr.val e
       | none => FV.nan },
   a.mask.map (fun m =>
     { dims := insert "neighborhood_size" m.dims,
       coords := fun k => if k = "neighborhood_size" then (rs.map (fun r => number r.1)).toFinset else m.coords k,
       val := fun e => match pick number rs (e "neighborhood_size") with
         | some ⟨_, some m'⟩ => m'.val e
         | _ => false })⟩

/-- `neighborhood_averaging` (spatial.py:82-99); `xr.concat` of nothing is a `ValueError`. -/
def neighborhoodAveraging (g : Grid L) (number : ℤ → L) (wrap : Bool) (sizes : Sizes) (a : StatVar L (FV K)) : Except Err (StatVar L (FV K)) :=
  match sizes with
  | .one n => averageOne g wrap a n
  | .many ns => do
    let rs ← ns.mapM (averageOne g wrap a)
    if ns = [] then .error .valueError else return concatSizes number a (ns.zip rs)

/-- `get_suffix` (spatial.py:102-112). -/
def sizesSuffix (sizes : Sizes) (wrap : Bool) : String :=
  (match sizes with
    | .one n => toString n
    | .many ns => ",".intercalate (ns.map toString)) ++ (if wrap then "_wrap_longitude" else "")

/-- `SquaredFractionsError._compute_per_variable` (spatial.py:127-138). -/
noncomputable def squaredFractionsError (g : Grid L) (number : ℤ → L) (wrap : Bool) (sizes : Sizes) (p t : StatVar L (FV K)) :
    Except Err (StatVar L (FV K)) := do
  let P ← neighborhoodAveraging g number wrap sizes p
  let T ← neighborhoodAveraging g number wrap sizes t
  return (P.zipWith (· - ·) T).map FV.sq

/-- `SquaredPredictionFraction._compute_per_variable` (spatial.py:153-161). -/
noncomputable def squaredPredictionFraction (g : Grid L) (number : ℤ → L) (wrap : Bool) (sizes : Sizes) (p t : StatVar L (FV K)) :
    Except Err (StatVar L (FV K)) := do
  let P ← neighborhoodAveraging g number wrap sizes p
  return (P.map FV.sq).zipWith (· + ·) (t.map (fun _ => 0))

/-- `SquaredTargetFraction._compute_per_variable` (spatial.py:176-184). -/
noncomputable def squaredTargetFraction (g : Grid L) (number : ℤ → L) (wrap : Bool) (sizes : Sizes) (p t : StatVar L (FV K)) :
    Except Err (StatVar L (FV K)) := do
  let T ← neighborhoodAveraging g number wrap sizes t
  return (T.map FV.sq).zipWith (· + ·) (p.map (fun _ => 0))

/-- `FSS` (spatial.py:188-244). -/
noncomputable def fss (g : Grid L) (number : ℤ → L) (wrap : Bool) (sizes : Sizes) : FMetric L K :=
  metric3 ("SquaredFractionsError", statOfE ("SquaredFractionsError_" ++ sizesSuffix sizes wrap) (squaredFractionsError g number wrap sizes))
    ("SquaredPredictionFraction", statOfE ("SquaredPredictionFraction_" ++ sizesSuffix sizes wrap) (squaredPredictionFraction g number wrap sizes))
    ("SquaredTargetFraction", statOfE ("SquaredTargetFraction_" ++ sizesSuffix sizes wrap) (squaredTargetFraction g number wrap sizes))
    (fun sfe spf stf => (sfe.div (spf.add stf)).map (fun x => 1 - x))

end WBX
