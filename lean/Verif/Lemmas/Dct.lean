import Verif.Model.TTest
import Mathlib.Tactic.LinearCombination
import Mathlib.Algebra.BigOperators.Ring.Finset

/-!
# Parseval's identity for the orthonormal DCT-II
-/

set_option linter.unusedSectionVars false

namespace WBX
open Finset Real

/-- Dirichlet's sum of cosines. -/
theorem sum_cos_telescope (φ : ℝ) (n : ℕ) : 2 * sin (φ / 2) * ∑ k ∈ range n, cos (k * φ) = sin ((n - 1 / 2) * φ) + sin (φ / 2) := by
  induction n with
  | zero => simp only [range_zero, sum_empty, mul_zero, Nat.cast_zero]; rw [show ((0 : ℝ) - 1 / 2) * φ = -(φ / 2) by ring, sin_neg]; ring
  | succ n ih =>
    rw [sum_range_succ, mul_add, ih]
    have h1 : sin ((((n + 1 : ℕ) : ℝ) - 1 / 2) * φ) = sin (n * φ) * cos (φ / 2) + cos (n * φ) * sin (φ / 2) := by
      rw [← sin_add]; congr 1; push_cast; ring
    have h2 : sin (((n : ℝ) - 1 / 2) * φ) = sin (n * φ) * cos (φ / 2) - cos (n * φ) * sin (φ / 2) := by
      rw [← sin_sub]; congr 1; ring
    rw [h1, h2]; ring

/-- `2 Σ_{k<n} cos(π k m / n) = 1 - (-1)^m` for `0 < m < 2n`. -/
theorem sum_cos_grid {n m : ℕ} (hm : 0 < m) (hn : m < 2 * n) : 2 * ∑ k ∈ range n, cos (k * (π * m / n)) = 1 - (-1) ^ m := by
  have hn0 : (0 : ℝ) < n := by exact_mod_cast (by omega : 0 < n)
  have hm0 : (0 : ℝ) < m := by exact_mod_cast hm
  have hlt : (m : ℝ) < 2 * n := by exact_mod_cast hn
  have h := sum_cos_telescope (π * m / n) n
  have hpos : 0 < sin (π * m / n / 2) := by
    refine sin_pos_of_pos_of_lt_pi (by positivity) ?_
    rw [div_div, div_lt_iff₀ (by positivity)]
    nlinarith [pi_pos]
  have h2 : sin (((n : ℝ) - 1 / 2) * (π * m / n)) = -((-1) ^ m * sin (π * m / n / 2)) := by
    rw [show ((n : ℝ) - 1 / 2) * (π * m / n) = m * π - π * m / n / 2 by field_simp, sin_nat_mul_pi_sub]
  rw [h2] at h
  have : sin (π * m / n / 2) * (2 * ∑ k ∈ range n, cos (k * (π * m / n))) = sin (π * m / n / 2) * (1 - (-1) ^ m) := by linear_combination h
  exact mul_left_cancel₀ hpos.ne' this

/-- The factor of coefficient `k` for the value at position `j`. -/
noncomputable def dctKernel (n k j : ℕ) : ℝ := 2 * cos (π * k * (2 * j + 1) / (2 * n)) * (if k = 0 then √(1 / (4 * n)) else √(1 / (2 * n)))

theorem dctKernel_mul {n k : ℕ} (i j : ℕ) : dctKernel n k i * dctKernel n k j =
    (if k = 0 then 1 / (n : ℝ) else 2 / (n : ℝ)) * (cos (π * k * (2 * i + 1) / (2 * n)) * cos (π * k * (2 * j + 1) / (2 * n))) := by
  have h4 : √(1 / (4 * (n : ℝ))) * √(1 / (4 * (n : ℝ))) = 1 / (4 * n) := mul_self_sqrt (by positivity)
  have h2 : √(1 / (2 * (n : ℝ))) * √(1 / (2 * (n : ℝ))) = 1 / (2 * n) := mul_self_sqrt (by positivity)
  unfold dctKernel
  by_cases hk : k = 0
  · simp only [hk, if_true, Nat.cast_zero]
    have : (1 : ℝ) / n = 4 * (1 / (4 * n)) := by ring
    rw [this]; linear_combination 4 * (cos (π * 0 * (2 * i + 1) / (2 * n)) * cos (π * 0 * (2 * j + 1) / (2 * n))) * h4
  · simp only [hk, if_false]
    have : (2 : ℝ) / n = 4 * (1 / (2 * n)) := by ring
    rw [this]; linear_combination 4 * (cos (π * k * (2 * i + 1) / (2 * n)) * cos (π * k * (2 * j + 1) / (2 * n))) * h2

theorem cos_mul_cos' (a b : ℝ) : 2 * (cos a * cos b) = cos (a - b) + cos (a + b) := by rw [cos_sub, cos_add]; ring

theorem sum_kernel_ne {n i j : ℕ} (hij : j < i) (hi : i < n) : ∑ k ∈ range n, dctKernel n k i * dctKernel n k j = 0 := by
  have hn0 : (0 : ℝ) < n := by exact_mod_cast (by omega : 0 < n)
  have h1 := sum_cos_grid (n := n) (m := i - j) (by omega) (by omega)
  have h2 := sum_cos_grid (n := n) (m := i + j + 1) (by omega) (by omega)
  have hpar : ((-1 : ℝ)) ^ (i - j) = -(-1) ^ (i + j + 1) := by
    rw [show i + j + 1 = (i - j) + 2 * j + 1 by omega, pow_succ, pow_add, pow_mul]; simp
  have hterm : ∀ k ∈ range n, dctKernel n k i * dctKernel n k j =
      1 / n * (cos (k * (π * ((i - j : ℕ) : ℝ) / n)) + cos (k * (π * ((i + j + 1 : ℕ) : ℝ) / n))) - (if k = 0 then 1 / (n : ℝ) else 0) := by
    intro k _
    rw [dctKernel_mul]
    have h := cos_mul_cos' (π * k * (2 * i + 1) / (2 * n)) (π * k * (2 * j + 1) / (2 * n))
    rw [show π * k * (2 * i + 1) / (2 * n) - π * k * (2 * j + 1) / (2 * n) = k * (π * ((i - j : ℕ) : ℝ) / n) by
        rw [Nat.cast_sub hij.le]; field_simp; ring,
      show π * k * (2 * i + 1) / (2 * n) + π * k * (2 * j + 1) / (2 * n) = k * (π * ((i + j + 1 : ℕ) : ℝ) / n) by push_cast; field_simp; ring] at h
    by_cases hk : k = 0
    · simp [hk]; ring
    · simp only [hk, if_false, sub_zero]; rw [← h]; ring
  rw [sum_congr rfl hterm, sum_sub_distrib, ← mul_sum, sum_add_distrib, sum_ite_eq' (range n) 0, if_pos (mem_range.mpr (by omega))]
  have : ∑ k ∈ range n, cos (k * (π * ((i - j : ℕ) : ℝ) / n)) + ∑ k ∈ range n, cos (k * (π * ((i + j + 1 : ℕ) : ℝ) / n)) = 1 := by
    rw [hpar] at h1; linarith
  rw [this]; ring

theorem sum_kernel_self {n i : ℕ} (hi : i < n) : ∑ k ∈ range n, dctKernel n k i * dctKernel n k i = 1 := by
  have hn0 : (0 : ℝ) < n := by exact_mod_cast (by omega : 0 < n)
  have h2 := sum_cos_grid (n := n) (m := 2 * i + 1) (by omega) (by omega)
  have hterm : ∀ k ∈ range n, dctKernel n k i * dctKernel n k i =
      1 / n * (1 + cos (k * (π * ((2 * i + 1 : ℕ) : ℝ) / n))) - (if k = 0 then 1 / (n : ℝ) else 0) := by
    intro k _
    rw [dctKernel_mul]
    have h := cos_mul_cos' (π * k * (2 * i + 1) / (2 * n)) (π * k * (2 * i + 1) / (2 * n))
    rw [sub_self, cos_zero, show π * k * (2 * i + 1) / (2 * n) + π * k * (2 * i + 1) / (2 * n) = k * (π * ((2 * i + 1 : ℕ) : ℝ) / n) by push_cast; field_simp; ring] at h
    by_cases hk : k = 0
    · simp [hk]; ring
    · simp only [hk, if_false, sub_zero]; rw [← h]; ring
  rw [sum_congr rfl hterm, sum_sub_distrib, ← mul_sum, sum_add_distrib, sum_ite_eq' (range n) 0, if_pos (mem_range.mpr (by omega))]
  rw [pow_succ, pow_mul] at h2
  have h3 : ∑ k ∈ range n, cos (k * (π * ((2 * i + 1 : ℕ) : ℝ) / n)) = 1 := by norm_num at h2 ⊢; linarith
  rw [h3]
  simp
  field_simp
  ring

/-- Parseval. -/
theorem sum_sq_dct (n : ℕ) (y : ℕ → ℝ) : ∑ k ∈ range n, (∑ j ∈ range n, y j * dctKernel n k j) ^ 2 = ∑ j ∈ range n, y j ^ 2 := by
  have h : ∀ k ∈ range n, (∑ j ∈ range n, y j * dctKernel n k j) ^ 2 = ∑ i ∈ range n, ∑ j ∈ range n, y i * y j * (dctKernel n k i * dctKernel n k j) := by
    intro k _
    rw [sq, sum_mul_sum]
    exact sum_congr rfl (fun i _ => sum_congr rfl (fun j _ => by ring))
  rw [sum_congr rfl h, sum_comm]
  refine sum_congr rfl (fun i hi => ?_)
  rw [sum_comm]
  have h2 : ∀ j ∈ range n, ∑ k ∈ range n, y i * y j * (dctKernel n k i * dctKernel n k j) = if j = i then y i ^ 2 else 0 := by
    intro j hj
    rw [← mul_sum]
    rcases lt_trichotomy i j with hlt | heq | hgt
    · have := sum_kernel_ne (n := n) hlt (mem_range.mp hj)
      rw [if_neg (by omega), sum_congr rfl (fun k _ => mul_comm _ _), this, mul_zero]
    · subst heq; rw [if_pos rfl, sum_kernel_self (mem_range.mp hi)]; ring
    · rw [if_neg (by omega), sum_kernel_ne hgt (mem_range.mp hi), mul_zero]
  rw [sum_congr rfl h2, sum_ite_eq', if_pos hi]

end WBX
