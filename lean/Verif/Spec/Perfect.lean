import Verif.Model.Aggregation
import Verif.Model.FV

/-!
# Specification for C96: a forecast equal to the target
-/

namespace WBX
variable {L K : Type} [DecidableEq L]

/-- Forecast and target have the same value at every cell that both have, or one of them is NaN there (a target without members is compared with every member). -/
def Perfect (a b : StatVar L (FV K)) : Prop :=
  ∀ e, a.arr.InDom e → b.arr.InDom e → a.arr.val e = FV.nan ∨ b.arr.val e = FV.nan ∨ a.arr.val e = b.arr.val e

/-- Every value of the array is the number `c` or NaN. -/
def OnlyOrNaN (c : K) (x : DA L (FV K)) : Prop := ∀ e, x.InDom e → x.val e = FV.nan ∨ x.val e = FV.fin c

end WBX
