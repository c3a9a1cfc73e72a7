import Mathlib.Analysis.SpecialFunctions.Trigonometric.Basic

/-!
# Specification of area weights
-/

namespace WBX
noncomputable section

/-- The bounds of the cells around the `n` increasing latitudes `x 0, …, x (n-1)` (in radians): halfway between neighbours; the outer bounds are half a spacing
further out, but not beyond the poles. -/
def cellBound (n : ℕ) (x : ℕ → ℝ) (i : ℕ) : ℝ :=
  if i = 0 then max (x 0 - (x 1 - x 0) / 2) (-(Real.pi / 2))
  else if i = n then min (x (n - 1) + (x (n - 1) - x (n - 2)) / 2) (Real.pi / 2)
  else (x (i - 1) + x i) / 2

/-- The area of the `i`th cell, per radian of longitude on the unit sphere. -/
def cellArea (n : ℕ) (x : ℕ → ℝ) (i : ℕ) : ℝ := Real.sin (cellBound n x (i + 1)) - Real.sin (cellBound n x i)

/-- The `i`th latitude in radians. -/
def radians (lat : List ℝ) (i : ℕ) : ℝ := lat.getD i 0 * (Real.pi / 180)

/-- Latitudes from south to north, at least two, between the poles. -/
structure SouthToNorth (lat : List ℝ) : Prop where
  two : 2 ≤ lat.length
  increasing : lat.Pairwise (· < ·)
  range : ∀ x ∈ lat, -90 ≤ x ∧ x ≤ 90

end
end WBX
