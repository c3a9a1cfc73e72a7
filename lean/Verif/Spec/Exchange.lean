import Verif.Spec.MetricsBase
import Verif.Spec.Array
import Verif.Model.Ensemble

/-!
# Specification for C91: members of an ensemble are exchangeable
-/

namespace WBX
variable {L K : Type} [DecidableEq L]

/-- The members along `d` in another order: position `l` holds what was at `σ l`. -/
def StatVar.shuffle {V : Type} (d : Dim) (σ : Equiv.Perm L) (a : StatVar L V) : StatVar L V :=
  ⟨{ dims := a.arr.dims, coords := a.arr.coords, val := fun e => a.arr.val (if d ∈ a.arr.dims then DA.setLabel e d (σ (e d)) else e) }, a.mask⟩

/-- All variables of one side with their members in another order, which may be a different one for each variable. -/
def shuffleMembers {V : Type} (d : Dim) (σ : String → Equiv.Perm L) (vs : Vars (StatVar L V)) : Vars (StatVar L V) :=
  vs.map (fun kv => (kv.1, kv.2.shuffle d (σ kv.1)))

/-- `σ` permutes the labels of `d`, the values do not depend on labels of other dimensions, and the mask is the same for all members. -/
structure StatVar.Members {V : Type} (d : Dim) (σ : Equiv.Perm L) (a : StatVar L V) : Prop where
  perm : ∀ l, σ l ∈ a.arr.coords d ↔ l ∈ a.arr.coords d
  wf : a.arr.WF
  mask : ∀ m, a.mask = some m → d ∉ m.dims

end WBX
