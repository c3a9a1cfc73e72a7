import Verif.Model.Ensemble

/-!
# Model of `RelativeIntensity` (`/repo/weatherbenchX/metrics/deterministic.py:31-87`)
-/

namespace WBX
open DA
variable {L K : Type} [DecidableEq L] [Field K] [LinearOrder K] [IsStrictOrderedRing K]

/-- `abs((p + epsilon) / (t + epsilon) - 1)` (deterministic.py:77-78, 85-86). -/
def relativeDeviation (eps p t : FV K) : FV K := FV.abs ((p + eps) / (t + eps) - 1)

/-- `a.mean(dim=ds, skipna=False)` (deterministic.py:83-84); `ValueError` for a missing dimension. -/
def meanOverDims (ds : List Dim) (a : DA L (FV K)) : Except Err (DA L (FV K)) := do
  let s ← AggState.sumChecked ds a
  return s.map (fun v => v / FV.ofNat (∏ d ∈ ds.toFinset, (a.coords d).card))

/-- `where(count > 0, 0.0)` of a sum divided by the count (deterministic.py:73-76). -/
def countedMean (sum count : DA L (FV K)) : DA L (FV K) := zipWith (fun m c => if FV.lt 0 c then m else 0) (zipWith (· / ·) sum count) count

/-- `RelativeIntensity._compute_per_variable` (deterministic.py:52-87), `epsilon = 1e-6` being `eps`. The mask of the predictions stays if it has none of the spatial dimensions and the
targets have none (xarray drops coordinates along reduced dimensions). Different labels of predictions, targets and mask (a `ValueError` of `where`) are not modelled. -/
def relativeIntensity (ds : List Dim) (eps : K) (p t : StatVar L (FV K)) : Except Err (StatVar L (FV K)) :=
  match t.mask with
  | some mask => do
    let count ← AggState.sumChecked ds (mask.map FV.ofBool)
    let pSum ← AggState.sumChecked ds (p.arr.where_ mask 0)
    let tSum ← AggState.sumChecked ds (t.arr.where_ mask 0)
    return ⟨zipWith (relativeDeviation (.fin eps)) (countedMean pSum count) (countedMean tSum count), some (count.map (fun c => FV.lt 0 c))⟩
  | none => do
    let pMean ← meanOverDims ds p.arr
    let tMean ← meanOverDims ds t.arr
    return ⟨zipWith (relativeDeviation (.fin eps)) pMean tMean, p.mask.bind (fun m => if ds.any (fun d => d ∈ m.dims) then none else some m)⟩

end WBX
