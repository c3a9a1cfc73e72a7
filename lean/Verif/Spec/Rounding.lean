import Verif.Model.Rounding
import Mathlib.Algebra.BigOperators.Fin

/-!
# Specification for C90: rounding errors

`Near R k v s m`: the computed number `v` approximates the exact number `s`, a signed sum of terms whose absolute values add up to `m`, and at most `k` roundings have piled up on any term.
-/

namespace WBX

/-- `|v - s| ≤ ((1 + u)^k - 1) m`; for double precision `u = 2^-53`, so the factor is about `k · 10^-16`. -/
def Near (R : Rounding) (k : ℕ) (v s m : ℝ) : Prop := |v - s| ≤ ((1 + R.unit) ^ k - 1) * m ∧ |s| ≤ m

/-- `v` is computed from the numbers in the list by floating-point additions, in some order and with some grouping; each number is used exactly once and nothing else is added. -/
inductive RoundedSum {R : Rounding} : List (Fl R) → Fl R → Prop where
  | zero : RoundedSum [] 0
  | single (x : Fl R) : RoundedSum [x] x
  | add {xs ys : List (Fl R)} {a b : Fl R} : xs ≠ [] → ys ≠ [] → RoundedSum xs a → RoundedSum ys b → RoundedSum (xs ++ ys) (a + b)

/-- The factor for a mean: `a` roundings in the numerator, `b` in the denominator, and the division. -/
noncomputable def meanFactor (R : Rounding) (a b : ℕ) : ℝ := (1 + R.unit) ^ (a + 1) / (2 - (1 + R.unit) ^ b) - 1

end WBX
