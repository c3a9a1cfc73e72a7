import Verif.Props.Deterministic

/-!
# Weighted means
-/

set_option linter.unusedSectionVars false

namespace WBX
open DA Aggregator
variable {L K : Type} [DecidableEq L] [Field K] [LinearOrder K] [IsStrictOrderedRing K]
variable {agg : Aggregator L (FV K)} {s : StatVar L (FV K)} {cs : Finset (Dim → L)}

theorem wmean_add (f g : (Dim → L) → K) : wmean agg s cs (fun e => f e + g e) = wmean agg s cs f + wmean agg s cs g := by
  unfold wmean
  rw [← add_div, ← Finset.sum_add_distrib]
  congr 1
  exact Finset.sum_congr rfl (fun e' _ => by ring)

theorem wmean_smul (c : K) (f : (Dim → L) → K) : wmean agg s cs (fun e => c * f e) = c * wmean agg s cs f := by
  unfold wmean
  rw [← mul_div_assoc, Finset.mul_sum]
  congr 1
  exact Finset.sum_congr rfl (fun e' _ => by ring)

theorem wmean_sub (f g : (Dim → L) → K) : wmean agg s cs (fun e => f e - g e) = wmean agg s cs f - wmean agg s cs g := by
  have := wmean_add (agg := agg) (s := s) (cs := cs) f (fun e => (-1) * g e)
  rw [wmean_smul] at this
  simp only [neg_one_mul, ← sub_eq_add_neg] at this
  exact this

theorem wmean_const (hW : GoodWeights agg s cs) (c : K) : wmean agg s cs (fun _ => c) = c := by
  unfold wmean
  rw [← Finset.mul_sum, mul_div_assoc, div_self hW.2.ne', mul_one]

theorem wmean_mono (hW : GoodWeights agg s cs) {f g : (Dim → L) → K} (h : ∀ e ∈ cs, f e ≤ g e) :
    wmean agg s cs f ≤ wmean agg s cs g := by
  unfold wmean
  exact div_le_div_of_nonneg_right (Finset.sum_le_sum (fun e he => mul_le_mul_of_nonneg_right (h e he) (hW.1 e he))) hW.2.le

theorem wmean_nonneg (hW : GoodWeights agg s cs) {f : (Dim → L) → K} (h : ∀ e ∈ cs, 0 ≤ f e) : 0 ≤ wmean agg s cs f := by
  have := wmean_mono hW (f := fun _ => 0) (g := f) h
  rwa [wmean_const hW] at this

theorem wmean_le (hW : GoodWeights agg s cs) {f : (Dim → L) → K} {c : K} (h : ∀ e ∈ cs, f e ≤ c) : wmean agg s cs f ≤ c := by
  have := wmean_mono hW (f := f) (g := fun _ => c) h
  rwa [wmean_const hW] at this

theorem wmean_congr' {f g : (Dim → L) → K} (h : ∀ e ∈ cs, f e = g e) : wmean agg s cs f = wmean agg s cs g :=
  wmean_congr rfl h

theorem wmean_eq_zero_iff (hW : GoodWeights agg s cs) {f : (Dim → L) → K} (h : ∀ e ∈ cs, 0 ≤ f e) :
    wmean agg s cs f = 0 ↔ ∀ e ∈ cs, cellWeight agg s e ≠ 0 → f e = 0 := by
  unfold wmean
  rw [div_eq_zero_iff, or_iff_left hW.2.ne', Finset.sum_eq_zero_iff_of_nonneg (fun e he => mul_nonneg (h e he) (hW.1 e he))]
  refine forall_congr' (fun e => forall_congr' (fun he => ?_))
  rw [mul_eq_zero]
  tauto

/-- An indicator mean is the share of the total weight carried by the cells of the event. -/
theorem wmean_indicator (P : (Dim → L) → Prop) [DecidablePred P] :
    wmean agg s cs (fun e => if P e then 1 else 0) =
      (∑ e ∈ cs.filter P, cellWeight agg s e) / ∑ e ∈ cs, cellWeight agg s e := by
  unfold wmean
  rw [Finset.sum_filter]
  congr 1
  exact Finset.sum_congr rfl (fun e _ => by by_cases h : P e <;> simp [h])

end WBX
