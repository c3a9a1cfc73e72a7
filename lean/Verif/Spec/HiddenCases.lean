import Verif.Spec.Samples
import Verif.Spec.Locality

/-!
# Specification for C109: cases that are masked everywhere
-/

namespace WBX
variable {L V : Type} [DecidableEq L]

/-- The values and the mask have the cases `C` along `d`, and the mask hides everything at the cases outside `S`. -/
structure StatVar.HiddenOutside (d : Dim) (C S : Finset L) (a : StatVar L V) : Prop where
  has : d ∈ a.arr.dims
  labels : a.arr.coords d = C
  hidden : ∃ mk, a.mask = some mk ∧ d ∈ mk.dims ∧ mk.coords d = C ∧ ∀ e : Dim → L, e d ∈ C → e d ∉ S → mk.val e = false

/-- Weights and bins are such that zero stays zero (for floats: they are finite). -/
structure Aggregator.KeepsZero [Zero V] [Mul V] (agg : Aggregator L V) : Prop where
  weights : ∀ w ∈ agg.weighBy, ∀ (a : DA L V) (e : Dim → L), 0 * (w a).val e = 0
  bins : ∀ b ∈ agg.binBy, ∀ (a : DA L V) (e : Dim → L), 0 * (b.createBinMask a).val e = 0

/-- The evaluation of unmasked predictions against observations whose masks hide everything at the cases outside `S`. -/
structure HidesCases (d : Dim) (C S : Finset L) (p t : Vars (StatVar L V)) : Prop where
  predictions : ∀ v a, (v, a) ∈ p → d ∈ a.arr.dims ∧ a.arr.coords d = C ∧ a.mask = none
  targets : ∀ v a, (v, a) ∈ t → a.HiddenOutside d C S

end WBX
