import Mathlib.Algebra.Order.Field.Basic
import Mathlib.Algebra.BigOperators.Group.Finset.Basic
import Mathlib.Tactic.Ring
import Mathlib.Tactic.Linarith
import Mathlib.Tactic.FieldSimp

/-!
# Float values

Model of the values stored in numpy / xarray float arrays: a finite number of an ordered field `K`, an infinity
or NaN, with the IEEE-754 rules for special values. Simplifications: no rounding, no overflow, no signed zero
(`x / 0` has the sign of `x`), one NaN. Used by every model of code under `/repo/weatherbenchX` in which NaN matters.
-/

set_option linter.unusedSectionVars false

namespace WBX

/-- A float: NaN, an infinity (`inf true` is `-∞`), or a finite number. -/
inductive FV (K : Type) where
  | nan
  | inf (neg : Bool)
  | fin (x : K)
  deriving DecidableEq, Repr

namespace FV

variable {K : Type}

/-- `np.isnan` / `DataArray.isnull` on floats. -/
def isnan : FV K → Bool
  | nan => true
  | _ => false

/-- Is the value a finite number? (`np.isfinite`) -/
def isFin : FV K → Bool
  | fin _ => true
  | _ => false

section Add
variable [AddCommMonoid K]

instance : Zero (FV K) := ⟨fin 0⟩

/-- IEEE addition: NaN absorbs, opposite infinities give NaN. -/
protected def add : FV K → FV K → FV K
  | nan, _ => nan
  | _, nan => nan
  | inf a, inf b => if a = b then inf a else nan
  | inf a, fin _ => inf a
  | fin _, inf b => inf b
  | fin x, fin y => fin (x + y)

instance : Add (FV K) := ⟨FV.add⟩

@[simp] theorem nan_add (a : FV K) : nan + a = nan := by cases a <;> rfl
@[simp] theorem add_nan (a : FV K) : a + nan = nan := by cases a <;> rfl
@[simp] theorem fin_add_fin (x y : K) : (fin x + fin y : FV K) = fin (x + y) := rfl
@[simp] theorem inf_add_fin (a : Bool) (y : K) : (inf a + fin y : FV K) = inf a := rfl
@[simp] theorem fin_add_inf (a : Bool) (y : K) : (fin y + inf a : FV K) = inf a := rfl
theorem inf_add_inf (a b : Bool) : (inf a + inf b : FV K) = if a = b then inf a else nan := rfl
theorem zero_def : (0 : FV K) = fin 0 := rfl

instance : AddCommMonoid (FV K) where
  add_assoc a b c := by
    rcases a with _ | a | a <;> rcases b with _ | b | b <;> rcases c with _ | c | c <;>
      simp [inf_add_inf, add_assoc]
    · cases a <;> cases b <;> cases c <;> simp [inf_add_inf]
    · cases a <;> cases b <;> simp
    · cases b <;> cases c <;> simp
  zero_add a := by cases a <;> simp [zero_def]
  add_zero a := by cases a <;> simp [zero_def]
  add_comm a b := by
    cases a <;> cases b <;> simp [inf_add_inf, add_comm, eq_comm]
    split
    · subst_vars; simp
    · rfl
  nsmul := nsmulRec

end Add

section Ring
variable [Field K] [LinearOrder K] [IsStrictOrderedRing K]

instance : One (FV K) := ⟨fin 1⟩
theorem one_def : (1 : FV K) = fin 1 := rfl

/-- IEEE negation. -/
protected def neg : FV K → FV K
  | nan => nan
  | inf a => inf (!a)
  | fin x => fin (-x)

instance : Neg (FV K) := ⟨FV.neg⟩
/-- IEEE subtraction. -/
instance : Sub (FV K) := ⟨fun a b => a + -b⟩

/-- IEEE multiplication: `0 * ∞ = NaN`, signs multiply. -/
protected def mul : FV K → FV K → FV K
  | nan, _ => nan
  | _, nan => nan
  | inf a, inf b => inf (xor a b)
  | inf a, fin y => if y = 0 then nan else inf (xor a (decide (y < 0)))
  | fin x, inf b => if x = 0 then nan else inf (xor (decide (x < 0)) b)
  | fin x, fin y => fin (x * y)

instance : Mul (FV K) := ⟨FV.mul⟩

/-- IEEE division: `0 / 0 = ∞ / ∞ = NaN`, `x / 0 = ±∞` with the sign of `x`. -/
protected def div : FV K → FV K → FV K
  | nan, _ => nan
  | _, nan => nan
  | inf _, inf _ => nan
  | inf a, fin y => if y = 0 then inf a else inf (xor a (decide (y < 0)))
  | fin _, inf _ => fin 0
  | fin x, fin y => if y = 0 then (if x = 0 then nan else inf (decide (x < 0))) else fin (x / y)

instance : Div (FV K) := ⟨FV.div⟩

/-- `np.abs`. -/
def abs : FV K → FV K
  | nan => nan
  | inf _ => inf false
  | fin x => fin |x|

/-- IEEE `<`; False if either side is NaN. -/
def lt : FV K → FV K → Bool
  | nan, _ => false
  | _, nan => false
  | inf a, inf b => a && !b
  | inf a, fin _ => a
  | fin _, inf b => !b
  | fin x, fin y => decide (x < y)

/-- IEEE `<=`; False if either side is NaN. -/
def le : FV K → FV K → Bool
  | nan, _ => false
  | _, nan => false
  | inf a, inf b => a || !b
  | inf a, fin _ => a
  | fin _, inf b => !b
  | fin x, fin y => decide (x ≤ y)

/-- IEEE `==`; False if either side is NaN. -/
def beq : FV K → FV K → Bool
  | nan, _ => false
  | _, nan => false
  | inf a, inf b => a == b
  | fin x, fin y => decide (x = y)
  | _, _ => false

/-- Boolean to float (`astype(float)`): True is 1, False is 0. -/
def ofBool (b : Bool) : FV K := if b then 1 else 0

@[simp] theorem nan_mul (a : FV K) : nan * a = nan := by cases a <;> rfl
@[simp] theorem mul_nan (a : FV K) : a * nan = nan := by cases a <;> rfl
@[simp] theorem fin_mul_fin (x y : K) : (fin x * fin y : FV K) = fin (x * y) := rfl
theorem inf_mul_inf (a b : Bool) : (inf a * inf b : FV K) = inf (xor a b) := rfl
theorem inf_mul_fin (a : Bool) (y : K) :
    (inf a * fin y : FV K) = if y = 0 then nan else inf (xor a (decide (y < 0))) := rfl
theorem fin_mul_inf (b : Bool) (x : K) :
    (fin x * inf b : FV K) = if x = 0 then nan else inf (xor (decide (x < 0)) b) := rfl
@[simp] theorem neg_fin (x : K) : (-(fin x) : FV K) = fin (-x) := rfl
@[simp] theorem neg_nan : (-(nan) : FV K) = nan := rfl
theorem sub_def (a b : FV K) : a - b = a + -b := rfl
@[simp] theorem fin_sub_fin (x y : K) : (fin x - fin y : FV K) = fin (x - y) := by
  simp [sub_def, sub_eq_add_neg]
@[simp] theorem nan_sub (a : FV K) : nan - a = nan := by simp [sub_def]
@[simp] theorem sub_nan (a : FV K) : a - nan = nan := by simp [sub_def]
@[simp] theorem nan_div (a : FV K) : nan / a = nan := by cases a <;> rfl
@[simp] theorem div_nan (a : FV K) : a / nan = nan := by cases a <;> rfl
theorem fin_div_fin (x y : K) : (fin x / fin y : FV K) =
    if y = 0 then (if x = 0 then nan else inf (decide (x < 0))) else fin (x / y) := rfl
theorem fin_div_fin_of_ne (x : K) {y : K} (h : y ≠ 0) : (fin x / fin y : FV K) = fin (x / y) := by
  simp [fin_div_fin, h]

theorem mul_comm' (a b : FV K) : a * b = b * a := by
  rcases a with _ | a | a <;> rcases b with _ | b | b <;>
    simp [inf_mul_inf, inf_mul_fin, fin_mul_inf, mul_comm, Bool.xor_comm]

end Ring
end FV
end WBX
