import Verif.Model.Spatial

/-!
# Specification: means over square windows of a latitude-longitude grid
-/

namespace WBX
open DA
variable {L K : Type} [DecidableEq L] [Field K] [LinearOrder K] [IsStrictOrderedRing K]

/-- The position `d` steps east of `j` on a circle of `M` positions. -/
def onRing (M j : ℕ) (d : ℤ) : ℕ := (((j : ℤ) + d) % (M : ℤ)).toNat

/-- The mean over the `(2h+1) × (2h+1)` window centred at `(i, j)`; longitudes wrap around. -/
noncomputable def boxMean (h M : ℕ) (x : ℕ → ℕ → K) (i j : ℕ) : K :=
  (∑ i' ∈ Finset.Icc (i - h) (i + h), ∑ d ∈ Finset.Icc (-(h : ℤ)) h, x i' (onRing M j d)) / ((2 * h + 1 : ℕ) : K) ^ 2

/-- The window of half width `h` at latitude number `i` of `N` and longitude number `j` of `M` lies on the grid. -/
def Interior (wrap : Bool) (h N M i j : ℕ) : Prop := (h ≤ i ∧ i + h < N) ∧ (wrap = true ∨ h ≤ j ∧ j + h < M)

/-- Cell `(i, j)` of the grid, the labels of the other dimensions being those of `e`. -/
def gridPoint (g : Grid L) (e : Dim → L) (i j : ℕ) : Dim → L :=
  setLabel (setLabel e "latitude" ((g.lat[i]?).getD (e "latitude"))) "longitude" ((g.lon[j]?).getD (e "longitude"))

end WBX
