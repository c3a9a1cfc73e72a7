import Verif.Model.Interpolation

/-!
# Model of `clip_reference_coords` of `InterpolateToReferenceCoords` (`/repo/weatherbenchX/interpolations.py:262-266`)
-/

namespace WBX
open Classical DA
variable {L K : Type} [DecidableEq L] [Field K] [LinearOrder K] [IsStrictOrderedRing K]

/-- The labels that `.sel({d: slice(lo, hi)})` selects from an index with the labels `order`: the slice goes from `lo` to `hi` in the order of the index, so from a decreasing index
it selects the labels from `lo` down to `hi`. An index that is neither increasing nor decreasing is taken as a `KeyError`. -/
noncomputable def sliceLabels (deg : L → K) (order : List L) (lo hi : K) : Except Err (List L) :=
  if (order.map deg).Pairwise (· < ·) then .ok (order.filter (fun l => decide (lo ≤ deg l ∧ deg l ≤ hi)))
  else if (order.map deg).Pairwise (· > ·) then .ok (order.filter (fun l => decide (hi ≤ deg l ∧ deg l ≤ lo)))
  else .error .keyError

/-- `reference.sel({d: slice(da[d].min(), da[d].max())})` (interpolations.py:262-266) for one coordinate; `grid` are the labels of the array. A coordinate that is not a
dimension of the array is a `KeyError`, as is one that is not a dimension of the reference (it has no index); the minimum of nothing is a `ValueError`. -/
noncomputable def clipReferenceOne (deg : L → K) (order : Dim → List L) (a : Ordered L (FV K)) (ref : Reference L K) (d : Dim) : Except Err (Reference L K) :=
  if d ∉ a.arr.dims then .error .keyError
  else match ((a.order d).map deg).min?, ((a.order d).map deg).max? with
    | some lo, some hi =>
      if d ∉ ref.arr.dims then .error .keyError
      else do
        let ls ← sliceLabels deg (order d) lo hi
        return { arr := ref.arr.restrict d ls.toFinset, coord := ref.coord.map (fun kc => (kc.1, if d ∈ kc.2.dims then kc.2.restrict d ls.toFinset else kc.2)) }
    | _, _ => .error .valueError

/-- `InterpolateToReferenceCoords.interpolate_data_array` (interpolations.py:253-290) with `clip_reference_coords`; `order` are the labels of the dimensions of the reference in order. The
extent is that of the padded array. -/
noncomputable def interpolateClipped (deg : L → K) (shift : K → L → L) (dims : Option (List Dim)) (wrap extrapolate : Bool) (clip : Option (List Dim)) (dimList : List Dim)
    (order : Dim → List L) (a : Ordered L (FV K)) (ref : Reference L K) : Except Err (LikeReference L K) :=
  match clip with
  | none => interpolateReference deg shift dims wrap extrapolate dimList none a ref
  | some ds => do
    let p ← maybePad wrap shift a
    let ref ← ds.foldlM (clipReferenceOne deg order p) ref
    interpolateReference deg shift dims wrap extrapolate dimList none a ref

end WBX
