import Verif.Model.Array
import Verif.Model.Basic
import Mathlib.Analysis.SpecialFunctions.Trigonometric.Basic
import Mathlib.Data.Real.Basic

/-!
# Model of `/repo/weatherbenchX/weighting.py`

Latitudes are a list of reals in the order of the dimension. Rounding and dtypes are not modelled; `π` and `sin` are the real ones.
-/

namespace WBX
noncomputable section

/-- `np.diff`. -/
def npDiff : List ℝ → List ℝ
  | a :: b :: l => (b - a) :: npDiff (b :: l)
  | _ => []

/-- `_is_increasing` (weighting.py:48-50). -/
def isIncreasing (x : List ℝ) : Prop := ∀ d ∈ npDiff x, 0 < d

/-- `_is_strictly_monotonic` (weighting.py:43-45). -/
def isStrictlyMonotonic (x : List ℝ) : Prop := isIncreasing x ∨ ∀ d ∈ npDiff x, d < 0

/-- `(x[:-1] + x[1:]) / 2`. -/
def midpoints : List ℝ → List ℝ
  | a :: b :: l => (a + b) / 2 :: midpoints (b :: l)
  | _ => []

open Classical in
/-- `latitude_cell_bounds` (weighting.py:60-77); `diff[0]` of fewer than two points is an `IndexError`. -/
def latitudeCellBounds (x : List ℝ) : Except Err (List ℝ) :=
  if ¬ isIncreasing x then .error .assertionError
  else match x.head?, x.getLast?, (npDiff x).head?, (npDiff x).getLast? with
    | some x0, some xn, some d0, some dn => .ok ((max (x0 - d0 / 2) (-(Real.pi / 2)) :: midpoints x) ++ [min (xn + dn / 2) (Real.pi / 2)])
    | _, _, _, _ => .error .indexError

/-- `np.sin(bounds[1:]) - np.sin(bounds[:-1])`. -/
def sinDiffs : List ℝ → List ℝ
  | a :: b :: l => (Real.sin b - Real.sin a) :: sinDiffs (b :: l)
  | _ => []

/-- `cell_area_from_latitude` (weighting.py:80-86). -/
def cellAreaFromLatitude (x : List ℝ) : Except Err (List ℝ) := do
  let b ← latitudeCellBounds x
  return sinDiffs b

/-- `np.deg2rad`. -/
def deg2rad (x : ℝ) : ℝ := x * (Real.pi / 180)

/-- `weights / np.mean(weights)`. -/
def normalizeMean (w : List ℝ) : List ℝ := w.map (fun x => x / (w.sum / w.length))

open Classical in
/-- The weights of the latitudes (weighting.py:112-128). `latitude[1]` of fewer than two latitudes is an `IndexError`. -/
def latitudeWeights (normalized : Bool) (lat : List ℝ) : Except Err (List ℝ) :=
  if ¬ isStrictlyMonotonic lat then .error .assertionError
  else match lat with
    | a :: b :: l =>
      if a > b then do
        let w ← cellAreaFromLatitude ((a :: b :: l).reverse.map deg2rad)
        return if normalized then normalizeMean w.reverse else w.reverse
      else do
        let w ← cellAreaFromLatitude ((a :: b :: l).map deg2rad)
        return if normalized then normalizeMean w else w
    | _ => .error .indexError

/-- The value paired with a label. -/
def lookupLabel {L : Type} [DecidableEq L] (labels : List L) (w : List ℝ) (l : L) : ℝ :=
  match (labels.zip w).find? (fun q => decide (q.1 = l)) with
  | some q => q.2
  | none => 0

/-- `GridAreaWeighting.weights` (weighting.py:104-129): `order` are the labels of the latitude dimension in order and `degrees` their values. -/
def gridAreaWeights {L V : Type} [DecidableEq L] (latitudeName : Dim) (normalized : Bool) (order : List L) (degrees : L → ℝ) (stat : DA L V) : Except Err (DA L ℝ) :=
  if latitudeName ∉ stat.dims then .ok (DA.scalar 1)
  else do
    let w ← latitudeWeights normalized (order.map degrees)
    return { dims := {latitudeName}, coords := fun k => if k = latitudeName then order.toFinset else ∅, val := fun e => lookupLabel order w (e latitudeName) }

end
end WBX
