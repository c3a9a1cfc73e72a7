import Mathlib.Algebra.BigOperators.Group.Finset.Basic
import Mathlib.Data.Finset.Union
import Verif.Model.Basic

/-!
# Labelled arrays

Model of `xr.DataArray` as used by `/repo/weatherbenchX/aggregation.py` and the Beam pipeline: a set of named
dimensions, a set of labels for each dimension and a value for each choice of labels. Simplifications: order of
dimensions and labels, attrs and laziness are dropped; labels are unique (xarray refuses to align duplicate
labels); a dimension without coordinate uses its positions as labels; `coords d` is meaningless for `d ∉ dims`.
-/

namespace WBX

/-- Names of dimensions. -/
abbrev Dim := String

/-- A labelled array. `val e` is the value at the cell whose label in dimension `d` is `e d`. -/
structure DA (L V : Type) where
  dims : Finset Dim
  coords : Dim → Finset L
  val : (Dim → L) → V

namespace DA

variable {L V W : Type} [DecidableEq L]

/-- `e` is a cell of the array. -/
def InDom (a : DA L V) (e : Dim → L) : Prop := ∀ d ∈ a.dims, e d ∈ a.coords d

instance (a : DA L V) (e : Dim → L) : Decidable (a.InDom e) := by unfold InDom; infer_instance

/-- A zero-dimensional array; also models a Python scalar in array arithmetic. -/
def scalar (v : V) : DA L V := { dims := ∅, coords := fun _ => ∅, val := fun _ => v }

/-- Elementwise function of one array. -/
def map (f : V → W) (a : DA L V) : DA L W := { dims := a.dims, coords := a.coords, val := fun e => f (a.val e) }

/-- Labels of the broadcast of two arrays under xarray's default inner join. -/
def joinCoords (a : DA L V) (b : DA L W) (d : Dim) : Finset L :=
  if d ∈ a.dims then (if d ∈ b.dims then a.coords d ∩ b.coords d else a.coords d) else b.coords d

/-- Elementwise binary arithmetic with broadcasting and inner join on labels
(xarray's default `arithmetic_join='inner'`). -/
def zipWith {U : Type} (f : V → W → U) (a : DA L V) (b : DA L W) : DA L U :=
  { dims := a.dims ∪ b.dims, coords := joinCoords a b, val := fun e => f (a.val e) (b.val e) }

/-- `e` with the label of dimension `d` replaced. -/
def setLabel (e : Dim → L) (d : Dim) (l : L) : Dim → L := fun d' => if d' = d then l else e d'

/-- `a.sum(d, skipna=False)` over one dimension. -/
def sumDim [AddCommMonoid V] (d : Dim) (a : DA L V) : DA L V :=
  { dims := a.dims.erase d, coords := a.coords, val := fun e => ∑ l ∈ a.coords d, a.val (setLabel e d l) }

/-- `a.sum(dims, skipna=False)`, one dimension after another. -/
def sumDims [AddCommMonoid V] : List Dim → DA L V → DA L V
  | [], a => a
  | d :: ds, a => sumDims ds (sumDim d a)

/-- `xr.dot(a, *bs, dim=dims)`: sum over `dims` of the broadcast product. -/
def dot [AddCommMonoid V] [Mul V] (a : DA L V) (bs : List (DA L V)) (dims : List Dim) : DA L V :=
  sumDims dims (bs.foldl (zipWith (· * ·)) a)

/-- `a.where(mask, other)` for a mask whose labels are those of `a` (a coordinate of `a`). -/
def where_ (a : DA L V) (mask : DA L Bool) (other : V) : DA L V :=
  zipWith (fun v m => if m then v else other) a mask

/-- `a.broadcast_like(b)` for `a` whose dimensions are among those of `b`, with the same labels. -/
def broadcastLike (a : DA L V) (b : DA L W) : DA L V :=
  zipWith (fun v _ => v) a b

/-- Selection of the labels in `S` along dimension `d` (`a.sel({d: [...]})`, i.e. one chunk). -/
def restrict (d : Dim) (S : Finset L) (a : DA L V) : DA L V :=
  { dims := a.dims, coords := fun d' => if d' = d then a.coords d' ∩ S else a.coords d', val := a.val }

/-- Union of the labels of dimension `d` over the arrays that have it (`join='outer'`). -/
def outerCoords : List (DA L V) → Dim → Finset L
  | [], _ => ∅
  | a :: as, d => (if d ∈ a.dims then a.coords d else ∅) ∪ outerCoords as d

/-- Reindexing of one array to the labels `C` with fill value 0 (`xr.align(..., fill_value=0)`); only dimensions
the array has are reindexed. -/
def reindexZero [Zero V] (C : Dim → Finset L) (a : DA L V) : DA L V :=
  { dims := a.dims, coords := C, val := fun e => if a.InDom e then a.val e else 0 }

/-- `xr.align(*as, join='outer', fill_value=0)`. -/
def alignOuter [Zero V] (as : List (DA L V)) : List (DA L V) := as.map (reindexZero (outerCoords as))

/-- Python's `sum(...)` of arrays, starting from the scalar 0. -/
def pySum [Add V] [Zero V] (as : List (DA L V)) : DA L V := as.foldl (zipWith (· + ·)) (scalar 0)

end DA

/-- `combining_sum` (aggregation.py:27-53). -/
def combiningSum {L V : Type} [DecidableEq L] [Add V] [Zero V] (as : List (DA L V)) : DA L V :=
  DA.pySum (DA.alignOuter as)

end WBX
