import Verif.Model.Array

/-!
# Specification vocabulary for labelled arrays
-/

namespace WBX
variable {L V : Type} [DecidableEq L]

/-- Two arrays are the same labelled array: same dimensions, same labels, same value at every cell. -/
structure DA.Same (a b : DA L V) : Prop where
  dims : a.dims = b.dims
  coords : ∀ d ∈ a.dims, a.coords d = b.coords d
  val : ∀ e, a.InDom e → a.val e = b.val e

/-- The label sets `Ss` split `C` into chunks: they are pairwise disjoint and cover `C` (so the chunks
`C ∩ S` form a partition of `C`, some possibly empty). -/
def Partition (Ss : List (Finset L)) (C : Finset L) : Prop :=
  Ss.Pairwise (fun S T => ∀ l, l ∈ S → l ∉ T) ∧ ∀ l ∈ C, ∃ S ∈ Ss, l ∈ S

/-- A function of arrays that is computed label by label along dimension `c`: on a chunk it gives the chunk of
what it gives on the whole. -/
def LocalAlong (c : Dim) (w : DA L V → DA L V) : Prop :=
  ∀ (a : DA L V) (S : Finset L), c ∈ a.dims → (w (a.restrict c S)).Same ((w a).restrict c S)

/-- The values of the array only depend on the labels of its own dimensions. -/
def DA.WF (a : DA L V) : Prop := ∀ e e', (∀ d ∈ a.dims, e d = e' d) → a.val e = a.val e'

end WBX

namespace WBX
variable {L V : Type} [DecidableEq L]

/-- `cs` are the cells that are summed into result cell `e` when the dimensions `ds`, with labels `C`, are reduced. -/
def ReducedCells (ds : List Dim) (C : Dim → Finset L) (e : Dim → L) (cs : Finset (Dim → L)) : Prop :=
  ∀ e', e' ∈ cs ↔ (∀ d ∈ ds, e' d ∈ C d) ∧ ∀ d, d ∉ ds → e' d = e d

/-- The labels of `m` include those of `a` in every dimension they share (e.g. weights computed from `a`). -/
def CoversLabels (m a : DA L V) : Prop := ∀ d ∈ m.dims, d ∈ a.dims → a.coords d ⊆ m.coords d

end WBX
