import Verif.Model.Spatial

/-!
# Model of the assignment of the averaged mask (`/repo/weatherbenchX/metrics/spatial.py` 72-79) with the order of the dimensions
-/

namespace WBX
open Classical
variable {L K : Type} [DecidableEq L] [Field K] [LinearOrder K] [IsStrictOrderedRing K]

/-- The order of the dimensions of `new_mask` (spatial.py:73-75): `xr.apply_ufunc` puts its core dimensions last (spatial.py:64-70). -/
def newMaskOrder (order : List Dim) : List Dim := order.filter (fun d => decide (d ≠ "latitude" ∧ d ≠ "longitude")) ++ ["latitude", "longitude"]

/-- The cell of an array with dimensions in order `source` that is assigned to the cell `e` of an array with dimensions in order `target`: the same positions, and position 0 where the
source has a single label (broadcasting). `labels d` are the labels of dimension `d` in their order. -/
def positionOf (labels : Dim → List L) (source target : List Dim) (e : Dim → L) : Dim → L := fun d =>
  match target[source.idxOf d]? with
  | none => e d
  | some t => ((labels d)[if (labels d).length = 1 then 0 else (labels t).idxOf (e t)]?).getD (e d)

/-- `target[:] = source` for arrays without labels (spatial.py:79; `np.isclose` has turned the new mask into one): each size of the source must be the size of the target at the same position or 1. -/
def assignByPosition {V : Type} (labels : Dim → List L) (source target : List Dim) (new : DA L V) : Except Err (DA L V) :=
  if source.length = target.length ∧ ∀ st ∈ source.zip target, (labels st.1).length = (labels st.2).length ∨ (labels st.1).length = 1 then
    .ok { new with val := fun e => new.val (positionOf labels source target e) }
  else .error .valueError

/-- The mask after averaging (spatial.py:72-79) of a mask with dimensions in the order `order`. -/
def averageMaskAt (labels : Dim → List L) (order : List Dim) (f : ℕ → ℕ → (ℕ → ℕ → FV K) → ℕ → ℕ → FV K) (m : DA L Bool) : Except Err (DA L Bool) := do
  let new ← averageMask ⟨labels "latitude", labels "longitude"⟩ f m
  assignByPosition labels (newMaskOrder order) order new

end WBX
