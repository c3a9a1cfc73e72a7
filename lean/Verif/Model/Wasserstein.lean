import Verif.Model.Ensemble
import Mathlib.Data.List.Sort
import Mathlib.Data.Finset.Dedup

/-!
# Model of `WassersteinDistance` (`/repo/weatherbenchX/metrics/probabilistic.py:662-710`)

`scipy.stats.wasserstein_distance` is modelled after its source (`_cdf_distance` with `p = 1`): the values of both samples are sorted
together, and the absolute difference of the two empirical distribution functions between consecutive values is multiplied by the distance
of the values. `np.sort` puts NaN last. An empty sample is a `ValueError`.
-/

namespace WBX
variable {L K : Type} [DecidableEq L] [Field K] [LinearOrder K] [IsStrictOrderedRing K]

/-- The order of `np.sort`: NaN last. -/
def npLe (a b : FV K) : Bool := b.isnan || (!a.isnan && FV.le a b)

/-- The empirical distribution function of a sample (`searchsorted(..., 'right') / size`). -/
def ecdf (xs : List (FV K)) (z : FV K) : FV K := FV.ofNat (xs.countP (fun x => FV.le x z)) / FV.ofNat xs.length

/-- The sum over consecutive values of `g` at the first of them times their distance (`np.sum(np.multiply(..., np.diff(all_values)))`). -/
def stepSum (g : FV K → FV K) : List (FV K) → FV K
  | a :: b :: zs => g a * (b - a) + stepSum g (b :: zs)
  | _ => 0

/-- `scipy.stats.wasserstein_distance(u, v)`. -/
def scipyWasserstein (us vs : List (FV K)) : Except Err (FV K) :=
  if us = [] ∨ vs = [] then .error .valueError
  else .ok (stepSum (fun z => (ecdf us z - ecdf vs z).abs) ((us ++ vs).insertionSort (fun a b => npLe a b = true)))

/-- The members at a cell. -/
noncomputable def memberValues (d : Dim) (a : DA L (FV K)) (e : Dim → L) : List (FV K) :=
  (a.coords d).toList.map (fun l => a.val (DA.setLabel e d l))

/-- `WassersteinDistance._compute_per_variable` (probabilistic.py:682-710): `xr.apply_ufunc` with the ensemble dimension as core dimension of
both arguments and excluded from alignment. The labels of the other common dimensions must be equal (`join='exact'`), coordinates along the
ensemble dimension are dropped, the `mask` coordinates are merged as in arithmetic. The function is called for every cell; that it would not
be called at all without cells is not modelled. -/
noncomputable def wasserstein (d : Dim) (p t : StatVar L (FV K)) : Except Err (StatVar L (FV K)) :=
  if d ∉ p.arr.dims then .error .valueError
  else if d ∉ t.arr.dims then .error .valueError
  else if ∃ k ∈ p.arr.dims ∩ t.arr.dims, k ≠ d ∧ p.arr.coords k ≠ t.arr.coords k then .error .valueError
  else if p.arr.coords d = ∅ ∨ t.arr.coords d = ∅ then .error .valueError
  else .ok ⟨{ dims := (p.arr.dims ∪ t.arr.dims).erase d,
              coords := DA.joinCoords p.arr t.arr,
              val := fun e => match scipyWasserstein (memberValues d p.arr e) (memberValues d t.arr e) with
                | .ok w => w
                | .error _ => .nan },
    combineMask (dropMask d p.mask) (dropMask d t.mask)⟩

/-- `WassersteinDistance` (probabilistic.py:662-710). -/
noncomputable def wassersteinStatistic (d : Dim) : FStatistic L K := statOfE ("WassersteinDistance_" ++ d) (wasserstein d)

end WBX
