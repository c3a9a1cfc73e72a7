import Mathlib.Algebra.Order.Field.Basic
import Mathlib.Algebra.BigOperators.Group.Finset.Basic
import Mathlib.Order.Bounds.Basic

/-!
# Specification of the earth mover's distance of two ensembles

Every member of an ensemble has the same share of the mass. A transport plan moves the mass of one ensemble to the other; its cost is the
mass moved times the distance.
-/

namespace WBX
variable {L K : Type} [Field K] [LinearOrder K]

/-- A plan that moves equal masses at the members `A` to equal masses at the members `B`: `π a b` is what is moved from `a` to `b`. -/
structure TransportPlan (A B : Finset L) (π : L → L → K) : Prop where
  nonneg : ∀ a ∈ A, ∀ b ∈ B, 0 ≤ π a b
  from_ : ∀ a ∈ A, ∑ b ∈ B, π a b = 1 / (A.card : K)
  to_ : ∀ b ∈ B, ∑ a ∈ A, π a b = 1 / (B.card : K)

/-- The cost of a plan; `x` and `y` are the values of the members. -/
def transportCost (A B : Finset L) (x y : L → K) (π : L → L → K) : K := ∑ a ∈ A, ∑ b ∈ B, π a b * |x a - y b|

/-- `w` is the smallest cost of a plan. -/
def IsTransportDistance (A B : Finset L) (x y : L → K) (w : K) : Prop := IsLeast {c | ∃ π, TransportPlan A B π ∧ c = transportCost A B x y π} w

end WBX
