import Verif.Spec.MetricsBase
import Verif.Spec.DefinePipeline
import Verif.Model.Deterministic

/-!
# Specification for C94: predictions and targets exchanged
-/

namespace WBX
variable {L V : Type} [DecidableEq L]

/-- The same labelled array with the same mask coordinate (or none). -/
structure StatVar.Same (a b : StatVar L V) : Prop where
  arr : a.arr.Same b.arr
  mask : Option.Rel DA.Same a.mask b.mask

/-- Weights and bin masks of the arrays that are reduced are functions of the labelled array: they do not depend on how it is represented. -/
structure Aggregator.RespectsSame (agg : Aggregator L V) : Prop where
  weights : ∀ w ∈ agg.weighBy, ∀ a a' : DA L V, (∀ d ∈ agg.reduceDims, d ∈ a.dims) → a.Same a' → (w a).Same (w a')
  bins : ∀ b ∈ agg.binBy, ∀ a a' : DA L V, (∀ d ∈ agg.reduceDims, d ∈ a.dims) → a.Same a' → (b.createBinMask a).Same (b.createBinMask a')

/-- Both evaluations fail, or both give the same variables with the same values, dimensions and labels. -/
def SameValues (x y : Except Err (Vars (DA L V))) : Prop := SameOutcome VarsSame x y

end WBX
