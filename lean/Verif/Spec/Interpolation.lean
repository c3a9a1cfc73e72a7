import Mathlib.Algebra.Order.Field.Basic
import Mathlib.Tactic.Ring

/-!
# Specification: linear interpolation between neighbouring grid points, on a line and on the circle of longitudes
-/

namespace WBX
variable {K : Type} [Field K] [LinearOrder K] [IsStrictOrderedRing K]

/-- `y` is the value at `x` of the straight line from `(a, u)` to `(b, v)`. -/
def OnLine (a u b v x y : K) : Prop := y = u + (v - u) * ((x - a) / (b - a))

/-- `y` is obtained by linear interpolation at `x` between two neighbouring points among `pts` (pairs of position and value): `x` lies between them and there is no
other point between them. -/
def InterpolatesAt (pts : List (K × K)) (x y : K) : Prop :=
  ∃ p ∈ pts, ∃ q ∈ pts, p.1 < q.1 ∧ p.1 ≤ x ∧ x ≤ q.1 ∧ (∀ r ∈ pts, r.1 ≤ p.1 ∨ q.1 ≤ r.1) ∧ OnLine p.1 p.2 q.1 q.2 x y

/-- The same on the circle: positions count modulo 360. -/
def CircleInterpolatesAt (pts : List (K × K)) (x y : K) : Prop :=
  ∃ p ∈ pts, ∃ q ∈ pts, ∃ m n : ℤ, p.1 + 360 * m < q.1 + 360 * n ∧ p.1 + 360 * m ≤ x ∧ x ≤ q.1 + 360 * n ∧
    (∀ r ∈ pts, ∀ k : ℤ, r.1 + 360 * k ≤ p.1 + 360 * m ∨ q.1 + 360 * n ≤ r.1 + 360 * k) ∧ OnLine (p.1 + 360 * m) p.2 (q.1 + 360 * n) q.2 x y

end WBX
