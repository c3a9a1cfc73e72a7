import Verif.Spec.Roles
import Verif.Spec.Units

/-!
# Specification for C95: the unit of the weights
-/

namespace WBX
variable {L K : Type} [DecidableEq L] [Field K] [LinearOrder K] [IsStrictOrderedRing K]

/-- `w'` gives the weights of `w` in another unit. The factor may depend on the dimensions of the array that is weighted, not on its cells. -/
def OtherUnit (w w' : DA L (FV K) → DA L (FV K)) : Prop := ∃ c : Finset Dim → K, (∀ D, 0 < c D) ∧ ∀ a, (w' a).Same ((w a).map (FV.times (c a.dims)))

/-- A weighting that is positive, finite and the same for all cells that are averaged: it depends only on labels of dimensions that are kept, and has weights for all labels of the array. -/
def EvenOver (reduced : List Dim) (u : DA L (FV K) → DA L (FV K)) : Prop :=
  ∃ h : Finset Dim → (Dim → L) → K, (∀ D e, ∀ d ∈ reduced, ∀ l, h D (DA.setLabel e d l) = h D e) ∧
    ∀ a : DA L (FV K), (∀ d ∈ reduced, d ∈ a.dims) → (u a).dims ⊆ a.dims ∧ (∀ d ∈ (u a).dims, a.coords d ⊆ (u a).coords d) ∧
      ∀ e, a.InDom e → 0 < h a.dims e ∧ (u a).val e = .fin (h a.dims e)

end WBX
