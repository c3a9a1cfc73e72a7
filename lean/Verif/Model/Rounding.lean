import Verif.Model.Beam
import Mathlib.Data.Real.Archimedean
import Mathlib.Data.Int.Log

/-!
# Floating-point arithmetic

The other modules compute with exact numbers. Here the same functions (`combiningSum`, the accumulators of `CombiningSum`: any carrier with an addition) are run
on rounded numbers. Standard model: every operation returns the exact result rounded, with a relative error of at most `unit`; overflow, underflow and NaN are left out.
-/

namespace WBX

/-- A rounding: relative error at most `unit`, and a rounded number stays as it is. -/
structure Rounding where
  rnd : ℝ → ℝ
  unit : ℝ
  nonneg : 0 ≤ unit
  close : ∀ x, |rnd x - x| ≤ unit * |x|
  idem : ∀ x, rnd (rnd x) = rnd x

theorem Rounding.rnd_zero (R : Rounding) : R.rnd 0 = 0 := by
  have h := R.close 0
  simp only [sub_zero, abs_zero, mul_zero] at h
  exact abs_eq_zero.mp (le_antisymm h (abs_nonneg _))

/-- The representable numbers. -/
structure Fl (R : Rounding) where
  val : ℝ
  fixed : R.rnd val = val

namespace Fl
variable {R : Rounding}

/-- An operation in floating point: the exact result, rounded. -/
def round (R : Rounding) (x : ℝ) : Fl R := ⟨R.rnd x, R.idem x⟩

instance : Zero (Fl R) := ⟨⟨0, R.rnd_zero⟩⟩
instance : Add (Fl R) := ⟨fun a b => round R (a.val + b.val)⟩
instance : Mul (Fl R) := ⟨fun a b => round R (a.val * b.val)⟩
noncomputable instance : Div (Fl R) := ⟨fun a b => round R (a.val / b.val)⟩

end Fl

/-- An arithmetic expression of additions and multiplications. `xr.dot` (aggregation.py:328) is an `einsum`: in which order it adds, how it associates the products and whether it
sums some dimensions before it multiplies by further weights is up to NumPy. -/
inductive Arith (ι : Type) where
  | var (i : ι)
  | add (a b : Arith ι)
  | mul (a b : Arith ι)

/-- The value of an expression over any carrier: exact over `ℝ`, as computed over `Fl R`. -/
def Arith.eval {ι V : Type} [Add V] [Mul V] (x : ι → V) : Arith ι → V
  | .var i => x i
  | .add a b => a.eval x + b.eval x
  | .mul a b => a.eval x * b.eval x

/-- Number of roundings that can pile up on one term of the expression. -/
def Arith.cost {ι : Type} : Arith ι → ℕ
  | .var _ => 0
  | .add a b => max a.cost b.cost + 1
  | .mul a b => a.cost + b.cost + 1

/-- Rounding to the nearest number with `p + 1` significant binary digits (ties upwards); double precision is `p = 52`. The exponent is not limited. -/
noncomputable def roundBinary (p : ℕ) (x : ℝ) : ℝ := (round (x / (2 : ℝ) ^ (Int.log 2 |x| - (p : ℤ))) : ℤ) * (2 : ℝ) ^ (Int.log 2 |x| - (p : ℤ))

end WBX
