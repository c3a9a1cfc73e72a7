import Verif.Spec.Evaluated

/-!
# Specification for C97: a forecast that is at least as good everywhere
-/

namespace WBX
variable {L K : Type} [DecidableEq L] [Field K] [LinearOrder K] [IsStrictOrderedRing K]

/-- The two forecasts have the same dimensions, labels and mask, and differ only at cells where both are finite (in particular NaN are at the same cells). -/
structure SameCells (a a' : StatVar L (FV K)) : Prop where
  dims : a'.arr.dims = a.arr.dims
  coords : a'.arr.coords = a.arr.coords
  mask : a'.mask = a.mask
  values : ∀ e, ((a.arr.val e).isFin = true ∧ (a'.arr.val e).isFin = true) ∨ a'.arr.val e = a.arr.val e

/-- At this cell the second forecast is at most as far from the target as the first. -/
def AsClose (a a' b : StatVar L (FV K)) (e : Dim → L) : Prop :=
  |(a'.arr.val e).num - (b.arr.val e).num| ≤ |(a.arr.val e).num - (b.arr.val e).num|

/-- At this cell the second forecast is nearer to the target than the first. -/
def Nearer (a a' b : StatVar L (FV K)) (e : Dim → L) : Prop :=
  |(a'.arr.val e).num - (b.arr.val e).num| < |(a.arr.val e).num - (b.arr.val e).num|

/-- A yes/no forecast some of whose values have been replaced by those of the target. -/
structure Corrected (a a' b : StatVar L (FV K)) : Prop where
  dims : a'.arr.dims = a.arr.dims
  coords : a'.arr.coords = a.arr.coords
  mask : a'.mask = a.mask
  values : ∀ e, a'.arr.val e = a.arr.val e ∨ (a'.arr.val e = b.arr.val e ∧ (a.arr.val e).isFin = true ∧ (b.arr.val e).isFin = true)

/-- `x'` lies between `x` and `y` (both included). -/
def InBetween (x x' y : K) : Prop := (x ≤ x' ∧ x' ≤ y) ∨ (y ≤ x' ∧ x' ≤ x)

/-- Two finite scores, the second not above the first; and below it in the given circumstances. -/
def NotAbove (x x' : FV K) (strict : Prop) : Prop := ∃ r r', x = FV.fin r ∧ x' = FV.fin r' ∧ r' ≤ r ∧ (strict → r' < r)

/-- Some counted cell with nonzero weight has the property. -/
def Somewhere (agg : Aggregator L (FV K)) (s : StatVar L (FV K)) (cs : Finset (Dim → L)) (P : (Dim → L) → Prop) : Prop :=
  ∃ e ∈ cs, 0 < cellWeight agg s e ∧ P e

end WBX
