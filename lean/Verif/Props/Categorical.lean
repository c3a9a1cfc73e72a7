import Verif.Lemmas.WMean
import Verif.Lemmas.MetricN
import Verif.Lemmas.OneDim

/-!
# C26 (contingency table), C27 (categorical scores)
-/

set_option linter.unusedSectionVars false

namespace WBX
open DA Aggregator
variable {L : Type} [DecidableEq L]

section C26
variable {K : Type} [Field K] [LinearOrder K] [IsStrictOrderedRing K]

theorem contingency_val (f : Bool → Bool → Bool) (a b : StatVar L (FV K)) (e : Dim → L) :
    (contingency f a b).arr.val e = if (a.arr.val e * b.arr.val e).isnan = true then FV.nan
      else FV.ofBool (f (a.arr.val e).toBool (b.arr.val e).toBool) := by
  show FV.keepIf (FV.ofBool (f (a.arr.val e).toBool (b.arr.val e).toBool)) (!(a.arr.val e * b.arr.val e).isnan) = _
  unfold FV.keepIf
  cases (a.arr.val e * b.arr.val e).isnan <;> simp

/-- **C26** If the prediction or the target is NaN at a cell, all four statistics are NaN there. -/
theorem C26_nan (a b : StatVar L (FV K)) (e : Dim → L) (h : (a.arr.val e).isnan = true ∨ (b.arr.val e).isnan = true) :
    (truePositives a b).arr.val e = FV.nan ∧ (trueNegatives a b).arr.val e = FV.nan ∧
    (falsePositives a b).arr.val e = FV.nan ∧ (falseNegatives a b).arr.val e = FV.nan := by
  have hn : (a.arr.val e * b.arr.val e).isnan = true := by
    rcases h with h | h
    · cases ha : a.arr.val e <;> simp [ha, FV.isnan] at h ⊢
    · cases hb : b.arr.val e <;> simp [hb, FV.isnan] at h ⊢
  simp only [truePositives, trueNegatives, falsePositives, falseNegatives, contingency_val, hn, if_true, and_self]

/-- **C26** For finite prediction and target, with non-zero meaning "event", the four statistics are the indicators of the four
combinations; exactly one of them is 1 and the others are 0. -/
theorem C26_finite (a b : StatVar L (FV K)) (e : Dim → L) {x y : K} (hx : a.arr.val e = FV.fin x) (hy : b.arr.val e = FV.fin y) :
    (truePositives a b).arr.val e = (if x ≠ 0 ∧ y ≠ 0 then 1 else 0) ∧
    (trueNegatives a b).arr.val e = (if x = 0 ∧ y = 0 then 1 else 0) ∧
    (falsePositives a b).arr.val e = (if x ≠ 0 ∧ y = 0 then 1 else 0) ∧
    (falseNegatives a b).arr.val e = (if x = 0 ∧ y ≠ 0 then 1 else 0) := by
  simp only [truePositives, trueNegatives, falsePositives, falseNegatives, contingency_val, hx, hy, FV.fin_mul_fin, FV.isnan,
    FV.toBool]
  by_cases h1 : x = 0 <;> by_cases h2 : y = 0 <;> simp [h1, h2, FV.ofBool]

theorem C26_exactly_one (a b : StatVar L (FV K)) (e : Dim → L) {x y : K} (hx : a.arr.val e = FV.fin x) (hy : b.arr.val e = FV.fin y) :
    ∃ i : Fin 4, ∀ j : Fin 4,
      ![(truePositives a b).arr.val e, (trueNegatives a b).arr.val e, (falsePositives a b).arr.val e,
        (falseNegatives a b).arr.val e] j = if j = i then 1 else 0 := by
  obtain ⟨h1, h2, h3, h4⟩ := C26_finite a b e hx hy
  rw [h1, h2, h3, h4]
  by_cases hx0 : x = 0 <;> by_cases hy0 : y = 0
  · exact ⟨1, fun j => by fin_cases j <;> simp [hx0, hy0]⟩
  · exact ⟨3, fun j => by fin_cases j <;> simp [hx0, hy0]⟩
  · exact ⟨2, fun j => by fin_cases j <;> simp [hx0, hy0]⟩
  · exact ⟨0, fun j => by fin_cases j <;> simp [hx0, hy0]⟩

example : ∃ (a b : StatVar ℕ (FV ℚ)) (e : Dim → ℕ), a.arr.val e = FV.fin 1 ∧ b.arr.val e = FV.fin 0 ∧
    (falsePositives a b).arr.val e = 1 := by
  refine ⟨⟨.scalar (.fin 1), none⟩, ⟨.scalar (.fin 0), none⟩, fun _ => 0, rfl, rfl, ?_⟩
  rw [(C26_finite (x := 1) (y := 0) _ _ _ rfl rfl).2.2.1]; simp

/-- The share of the total weight on the cells where prediction and target are as given (event or no event). -/
noncomputable def share (agg : Aggregator L (FV K)) (a b : StatVar L (FV K)) (cs : Finset (Dim → L)) (pred targ : Bool) : K :=
  (∑ e' ∈ cs.filter (fun e' => (a.arr.val e').toBool = pred ∧ (b.arr.val e').toBool = targ),
    cellWeight agg (truePositives a b) e') / ∑ e' ∈ cs, cellWeight agg (truePositives a b) e'

variable {agg : Aggregator L (FV K)} {p t : Vars (StatVar L (FV K))} (hp : (p.map Prod.fst).Nodup)
  (ht : (t.map Prod.fst).Nodup) {v : String} {a b : StatVar L (FV K)} (ha : (v, a) ∈ p) (hb : (v, b) ∈ t)
  {e : Dim → L} {cs : Finset (Dim → L)} (E : Evaluated agg (truePositives a b) e cs)
  (hW : GoodWeights agg (truePositives a b) cs)

theorem contingency_num (E : Evaluated agg (truePositives a b) e cs) (f : Bool → Bool → Bool) {e' : Dim → L} (he' : e' ∈ cs) :
    ((contingency f a b).arr.val e').isFin = true ∧
    ((contingency f a b).arr.val e').num = if f (a.arr.val e').toBool (b.arr.val e').toBool = true then 1 else 0 := by
  have hf := E.finite e' he'
  unfold truePositives at hf
  rw [contingency_val] at hf ⊢
  have hn : (a.arr.val e' * b.arr.val e').isnan = false := by
    by_contra h
    simp only [Bool.not_eq_false] at h
    rw [if_pos h] at hf
    simp [FV.isFin] at hf
  rw [hn]
  simp only [Bool.false_eq_true, if_false]
  unfold FV.ofBool
  cases f (a.arr.val e').toBool (b.arr.val e').toBool
  · exact ⟨rfl, rfl⟩
  · exact ⟨rfl, rfl⟩

include hp ht ha hb E hW

theorem contingency_mean {name : String} {f : Bool → Bool → Bool} {pred targ : Bool}
    (hf : ∀ x y, f x y = true ↔ x = pred ∧ y = targ) {y : DA L (FV K)}
    (h : IsMeanOf agg p t v (statOf name (contingency f)) y) : y.val e = FV.fin (share agg a b cs pred targ) := by
  obtain ⟨q, hq, rfl⟩ := isMeanOf_statOf hp ht ha hb h
  obtain ⟨E', hw⟩ := E.transfer (s' := contingency f a b) rfl rfl rfl (by
    intro _ e'
    unfold truePositives
    rw [contingency_val, contingency_val]
    split
    · rfl
    · unfold FV.ofBool; split <;> split <;> rfl) (fun e' he' _ => (contingency_num E f he').1)
  rw [evaluated_mean E' hq (by rw [hw]; exact hW.2.ne')]
  congr 1
  rw [wmean_congr hw (fun e' he' => (contingency_num E f he').2)]
  unfold share
  rw [← wmean_indicator]
  refine wmean_congr' (fun e' _ => ?_)
  by_cases h : f (a.arr.val e').toBool (b.arr.val e').toBool = true
  · rw [if_pos h, if_pos ((hf _ _).mp h)]
  · rw [if_neg h, if_neg (fun h' => h ((hf _ _).mpr h'))]

theorem share_nonneg (x y : Bool) : 0 ≤ share agg a b cs x y := by
  unfold share
  exact div_nonneg (Finset.sum_nonneg (fun e' he' => hW.1 e' (Finset.mem_of_mem_filter e' he'))) hW.2.le

theorem share_sum : share agg a b cs true true + share agg a b cs false false + share agg a b cs true false +
    share agg a b cs false true = 1 := by
  unfold share
  rw [← wmean_indicator, ← wmean_indicator, ← wmean_indicator, ← wmean_indicator, ← wmean_add, ← wmean_add, ← wmean_add]
  refine Eq.trans (wmean_congr' (fun e' _ => ?_)) (wmean_const hW (1 : K))
  cases (a.arr.val e').toBool <;> cases (b.arr.val e').toBool <;> simp

/-- **C26** The means of the four statistics are the shares of the total weight of the four combinations; they are nonnegative
and add up to one. -/
theorem C26_means {x1 x2 x3 x4 : DA L (FV K)} (h1 : ValueOf tpStatistic.toMetric agg p t v x1)
    (h2 : ValueOf tnStatistic.toMetric agg p t v x2) (h3 : ValueOf fpStatistic.toMetric agg p t v x3)
    (h4 : ValueOf fnStatistic.toMetric agg p t v x4) :
    x1.val e = FV.fin (share agg a b cs true true) ∧ x2.val e = FV.fin (share agg a b cs false false) ∧
    x3.val e = FV.fin (share agg a b cs true false) ∧ x4.val e = FV.fin (share agg a b cs false true) ∧
    (∀ x y, 0 ≤ share agg a b cs x y) ∧
    x1.val e + x2.val e + x3.val e + x4.val e = 1 := by
  have m1 := contingency_mean hp ht ha hb E hW (pred := true) (targ := true) (by decide) (valueOf_statistic h1)
  have m2 := contingency_mean hp ht ha hb E hW (pred := false) (targ := false) (by decide) (valueOf_statistic h2)
  have m3 := contingency_mean hp ht ha hb E hW (pred := true) (targ := false) (by decide) (valueOf_statistic h3)
  have m4 := contingency_mean hp ht ha hb E hW (pred := false) (targ := true) (by decide) (valueOf_statistic h4)
  refine ⟨m1, m2, m3, m4, share_nonneg hp ht ha hb E hW, ?_⟩
  rw [m1, m2, m3, m4]
  simp only [FV.fin_add_fin]
  rw [share_sum hp ht ha hb E hW]
  rfl

end C26

/-! ### C27 -/
section C27
variable {K : Type} [Field K] [LinearOrder K] [IsStrictOrderedRing K]
variable {agg : Aggregator L (FV K)} {p t : Vars (StatVar L (FV K))} (hp : (p.map Prod.fst).Nodup)
  (ht : (t.map Prod.fst).Nodup) {v : String} {a b : StatVar L (FV K)} (ha : (v, a) ∈ p) (hb : (v, b) ∈ t)
  {e : Dim → L} {cs : Finset (Dim → L)} (E : Evaluated agg (truePositives a b) e cs)
  (hW : GoodWeights agg (truePositives a b) cs) {x : DA L (FV K)}
include hp ht ha hb E hW

local notation "TP" => share agg a b cs true true
local notation "TN" => share agg a b cs false false
local notation "FP" => share agg a b cs true false
local notation "FN" => share agg a b cs false true

theorem mean_tp {y} (h : IsMeanOf agg p t v tpStatistic y) : y.val e = FV.fin TP :=
  contingency_mean hp ht ha hb E hW (by decide) h
theorem mean_tn {y} (h : IsMeanOf agg p t v tnStatistic y) : y.val e = FV.fin TN :=
  contingency_mean hp ht ha hb E hW (by decide) h
theorem mean_fp {y} (h : IsMeanOf agg p t v fpStatistic y) : y.val e = FV.fin FP :=
  contingency_mean hp ht ha hb E hW (by decide) h
theorem mean_fn {y} (h : IsMeanOf agg p t v fnStatistic y) : y.val e = FV.fin FN :=
  contingency_mean hp ht ha hb E hW (by decide) h

/-- **C27** `CSI` is hits / (hits + false alarms + misses). -/
theorem C27_csi_value (h : ValueOf csi agg p t v x) : x.val e = FV.fin TP / FV.fin (TP + FP + FN) := by
  obtain ⟨y1, y2, y3, m1, m2, m3, rfl⟩ := valueOf_metric3 (by simp) (by simp) (by simp) h
  show y1.val e / (y1.val e + y2.val e + y3.val e) = _
  rw [mean_tp hp ht ha hb E hW m1, mean_fp hp ht ha hb E hW m2, mean_fn hp ht ha hb E hW m3]
  rfl

theorem C27_accuracy_value (h : ValueOf accuracy agg p t v x) : x.val e = FV.fin (TP + TN) := by
  obtain ⟨y1, y2, y3, y4, m1, m2, m3, m4, rfl⟩ := valueOf_metric4 (by simp) (by simp) (by simp) (by simp) (by simp) (by simp) h
  show (y1.val e + y4.val e) / (y1.val e + y2.val e + y3.val e + y4.val e) = _
  rw [mean_tp hp ht ha hb E hW m1, mean_fp hp ht ha hb E hW m2, mean_fn hp ht ha hb E hW m3, mean_tn hp ht ha hb E hW m4]
  have hs := share_sum hp ht ha hb E hW
  simp only [FV.fin_add_fin]
  rw [show TP + FP + FN + TN = 1 by linarith, FV.fin_div_fin_of_ne _ one_ne_zero, div_one]

theorem C27_recall_value (h : ValueOf recall agg p t v x) : x.val e = FV.fin TP / FV.fin (TP + FN) := by
  obtain ⟨y1, y2, m1, m2, rfl⟩ := valueOf_metric2 (by simp) h
  show y1.val e / (y1.val e + y2.val e) = _
  rw [mean_tp hp ht ha hb E hW m1, mean_fn hp ht ha hb E hW m2]
  rfl

theorem C27_far_value (h : ValueOf falseAlarmRate agg p t v x) : x.val e = FV.fin FP / FV.fin (TP + FP) := by
  obtain ⟨y1, y2, m1, m2, rfl⟩ := valueOf_metric2 (by simp) h
  show y2.val e / (y1.val e + y2.val e) = _
  rw [mean_tp hp ht ha hb E hW m1, mean_fp hp ht ha hb E hW m2]
  rfl

theorem C27_precision_value (h : ValueOf precision agg p t v x) : x.val e = FV.fin TP / FV.fin (TP + FP) := by
  obtain ⟨y1, y2, m1, m2, rfl⟩ := valueOf_metric2 (by simp) h
  show y1.val e / (y1.val e + y2.val e) = _
  rw [mean_tp hp ht ha hb E hW m1, mean_fp hp ht ha hb E hW m2]
  rfl

theorem C27_f1_value (h : ValueOf f1Score agg p t v x) : x.val e = FV.fin (2 * TP) / FV.fin (2 * TP + FP + FN) := by
  obtain ⟨y1, y2, y3, m1, m2, m3, rfl⟩ := valueOf_metric3 (by simp) (by simp) (by simp) h
  show (FV.fin 2 * y1.val e) / (FV.fin 2 * y1.val e + y2.val e + y3.val e) = _
  rw [mean_tp hp ht ha hb E hW m1, mean_fp hp ht ha hb E hW m2, mean_fn hp ht ha hb E hW m3]
  rfl

theorem C27_frequency_bias_value (h : ValueOf frequencyBias agg p t v x) :
    x.val e = FV.fin (TP + FP) / FV.fin (TP + FN) := by
  obtain ⟨y1, y2, y3, m1, m2, m3, rfl⟩ := valueOf_metric3 (by simp) (by simp) (by simp) h
  show (y1.val e + y2.val e) / (y1.val e + y3.val e) = _
  rw [mean_tp hp ht ha hb E hW m1, mean_fp hp ht ha hb E hW m2, mean_fn hp ht ha hb E hW m3]
  rfl

theorem C27_hss_value (h : ValueOf hss agg p t v x) :
    x.val e = FV.fin (2 * (TP * TN - FP * FN)) / FV.fin ((TP + FN) * (FN + TN) + (TP + FP) * (FP + TN)) := by
  obtain ⟨y1, y2, y3, y4, m1, m2, m3, m4, rfl⟩ := valueOf_metric4 (by simp) (by simp) (by simp) (by simp) (by simp) (by simp) h
  show (FV.fin 2 * (y1.val e * y4.val e - y2.val e * y3.val e)) /
    ((y1.val e + y3.val e) * (y3.val e + y4.val e) + (y1.val e + y2.val e) * (y2.val e + y4.val e)) = _
  rw [mean_tp hp ht ha hb E hW m1, mean_fp hp ht ha hb E hW m2, mean_fn hp ht ha hb E hW m3, mean_tn hp ht ha hb E hW m4]
  simp only [FV.fin_mul_fin, FV.fin_sub_fin, FV.fin_add_fin]

theorem C27_ets_value (h : ValueOf ets agg p t v x) :
    x.val e = FV.fin (TP - (TP + FP) * (TP + FN)) / FV.fin (TP + FP + FN - (TP + FP) * (TP + FN)) := by
  obtain ⟨y1, y2, y3, y4, m1, m2, m3, m4, rfl⟩ := valueOf_metric4 (by simp) (by simp) (by simp) (by simp) (by simp) (by simp) h
  show (y1.val e - ((y1.val e + y2.val e) * (y1.val e + y3.val e)) / (y1.val e + y2.val e + y3.val e + y4.val e)) /
    (y1.val e + y2.val e + y3.val e -
      ((y1.val e + y2.val e) * (y1.val e + y3.val e)) / (y1.val e + y2.val e + y3.val e + y4.val e)) = _
  rw [mean_tp hp ht ha hb E hW m1, mean_fp hp ht ha hb E hW m2, mean_fn hp ht ha hb E hW m3, mean_tn hp ht ha hb E hW m4]
  have hs := share_sum hp ht ha hb E hW
  simp only [FV.fin_mul_fin, FV.fin_sub_fin, FV.fin_add_fin]
  rw [show TP + FP + FN + TN = 1 by linarith, FV.fin_div_fin_of_ne _ one_ne_zero, div_one]
  simp only [FV.fin_sub_fin]

omit hp ht ha hb E hW in
theorem unit_ratio {n d : K} (h0 : 0 ≤ n) (h1 : n ≤ d) (hd : d ≠ 0) :
    ∃ r, FV.fin n / FV.fin d = FV.fin r ∧ 0 ≤ r ∧ r ≤ 1 := by
  have hd' : 0 < d := lt_of_le_of_ne (h0.trans h1) hd.symm
  exact ⟨n / d, FV.fin_div_fin_of_ne _ hd, div_nonneg h0 hd'.le, (div_le_one hd').mpr h1⟩

/-- **C27** The ratio scores lie in [0, 1] whenever their denominator is not zero. -/
theorem C27_csi_range (h : ValueOf csi agg p t v x) (hd : TP + FP + FN ≠ 0) : ∃ r, x.val e = FV.fin r ∧ 0 ≤ r ∧ r ≤ 1 := by
  have n := share_nonneg hp ht ha hb E hW
  rw [C27_csi_value hp ht ha hb E hW h]
  exact unit_ratio (n _ _) (by linarith [n true false, n false true]) hd

theorem C27_accuracy_range (h : ValueOf accuracy agg p t v x) : ∃ r, x.val e = FV.fin r ∧ 0 ≤ r ∧ r ≤ 1 := by
  have n := share_nonneg hp ht ha hb E hW
  have hs := share_sum hp ht ha hb E hW
  rw [C27_accuracy_value hp ht ha hb E hW h]
  exact ⟨_, rfl, add_nonneg (n _ _) (n _ _), by linarith [n true false, n false true]⟩

theorem C27_recall_range (h : ValueOf recall agg p t v x) (hd : TP + FN ≠ 0) : ∃ r, x.val e = FV.fin r ∧ 0 ≤ r ∧ r ≤ 1 := by
  have n := share_nonneg hp ht ha hb E hW
  rw [C27_recall_value hp ht ha hb E hW h]
  exact unit_ratio (n _ _) (by linarith [n false true]) hd

/-- **C27** Precision and false alarm rate lie in [0, 1] and add up to 1. -/
theorem C27_precision_far {x' : DA L (FV K)} (h : ValueOf precision agg p t v x) (h' : ValueOf falseAlarmRate agg p t v x')
    (hd : TP + FP ≠ 0) :
    ∃ r r', x.val e = FV.fin r ∧ x'.val e = FV.fin r' ∧ 0 ≤ r ∧ r ≤ 1 ∧ 0 ≤ r' ∧ r' ≤ 1 ∧ r + r' = 1 := by
  have n := share_nonneg hp ht ha hb E hW
  rw [C27_precision_value hp ht ha hb E hW h, C27_far_value hp ht ha hb E hW h', FV.fin_div_fin_of_ne _ hd, FV.fin_div_fin_of_ne _ hd]
  have hpos : 0 < TP + FP := lt_of_le_of_ne (add_nonneg (n _ _) (n _ _)) hd.symm
  refine ⟨_, _, rfl, rfl, div_nonneg (n _ _) hpos.le, (div_le_one hpos).mpr (by linarith [n true false]),
    div_nonneg (n _ _) hpos.le, (div_le_one hpos).mpr (by linarith [n true true]), ?_⟩
  rw [← add_div, div_self hd]

/-- **C27** The F1 score lies in [0, 1] and is determined by the CSI: `F1 = 2 CSI / (1 + CSI)`. -/
theorem C27_f1_csi {x' : DA L (FV K)} (h : ValueOf f1Score agg p t v x) (h' : ValueOf csi agg p t v x')
    (hd : TP + FP + FN ≠ 0) :
    ∃ f c, x.val e = FV.fin f ∧ x'.val e = FV.fin c ∧ 0 ≤ f ∧ f ≤ 1 ∧ f = 2 * c / (1 + c) := by
  have n := share_nonneg hp ht ha hb E hW
  have hpos : 0 < TP + FP + FN := lt_of_le_of_ne (add_nonneg (add_nonneg (n _ _) (n _ _)) (n _ _)) hd.symm
  have hpos2 : 0 < 2 * TP + FP + FN := by linarith [n true true]
  rw [C27_f1_value hp ht ha hb E hW h, C27_csi_value hp ht ha hb E hW h', FV.fin_div_fin_of_ne _ hd,
    FV.fin_div_fin_of_ne _ hpos2.ne']
  refine ⟨_, _, rfl, rfl, div_nonneg (mul_nonneg zero_le_two (n _ _)) hpos2.le,
    (div_le_one hpos2).mpr (by linarith [n true false, n false true]), ?_⟩
  have h1 : 1 + TP / (TP + FP + FN) = (2 * TP + FP + FN) / (TP + FP + FN) := by
    rw [eq_div_iff hd, add_mul, div_mul_cancel₀ _ hd]; ring
  rw [h1, ← mul_div_assoc, div_div_div_cancel_right₀ hd]

/-- **C27** The F1 score is the harmonic mean of precision and recall (when there are hits). -/
theorem C27_f1_harmonic {x' x'' : DA L (FV K)} (h : ValueOf f1Score agg p t v x) (h' : ValueOf precision agg p t v x')
    (h'' : ValueOf recall agg p t v x'') (hd : TP ≠ 0) :
    ∃ f pr re, x.val e = FV.fin f ∧ x'.val e = FV.fin pr ∧ x''.val e = FV.fin re ∧ f = 2 * pr * re / (pr + re) := by
  have n := share_nonneg hp ht ha hb E hW
  have hpos : 0 < TP := lt_of_le_of_ne (n _ _) hd.symm
  have h1 : 0 < TP + FP := by linarith [n true false]
  have h2 : 0 < TP + FN := by linarith [n false true]
  have h3 : 0 < 2 * TP + FP + FN := by linarith
  rw [C27_f1_value hp ht ha hb E hW h, C27_precision_value hp ht ha hb E hW h', C27_recall_value hp ht ha hb E hW h'',
    FV.fin_div_fin_of_ne _ h1.ne', FV.fin_div_fin_of_ne _ h2.ne', FV.fin_div_fin_of_ne _ h3.ne']
  refine ⟨_, _, _, rfl, rfl, rfl, ?_⟩
  generalize share agg a b cs true true = tp at *
  generalize share agg a b cs true false = fp at *
  generalize share agg a b cs false true = fn at *
  have h1' := h1.ne'
  have h2' := h2.ne'
  have h3' := h3.ne'
  have h4 : tp / (tp + fp) + tp / (tp + fn) = tp * (2 * tp + fp + fn) / ((tp + fp) * (tp + fn)) := by
    rw [div_add_div _ _ h1' h2']; ring
  rw [h4, eq_div_iff (div_ne_zero (mul_ne_zero hd h3') (mul_ne_zero h1' h2'))]
  field_simp

/-- **C27** The Heidke skill score lies in [-1, 1], the equitable threat score in [-1/3, 1], and `ETS = HSS / (2 - HSS)`. -/
theorem C27_hss_ets {x' : DA L (FV K)} (h : ValueOf hss agg p t v x) (h' : ValueOf ets agg p t v x')
    (hd : (TP + FN) * (FN + TN) + (TP + FP) * (FP + TN) ≠ 0) :
    ∃ s s', x.val e = FV.fin s ∧ -1 ≤ s ∧ s ≤ 1 ∧ x'.val e = FV.fin s' ∧ -(1 / 3) ≤ s' ∧ s' ≤ 1 ∧ s' = s / (2 - s) := by
  have n := share_nonneg hp ht ha hb E hW
  have hs := share_sum hp ht ha hb E hW
  rw [C27_hss_value hp ht ha hb E hW h, C27_ets_value hp ht ha hb E hW h', FV.fin_div_fin_of_ne _ hd]
  have n1 := n true true
  have n2 := n false false
  have n3 := n true false
  have n4 := n false true
  generalize share agg a b cs true true = A at *
  generalize share agg a b cs false false = D at *
  generalize share agg a b cs true false = B at *
  generalize share agg a b cs false true = C at *
  have hD : D = 1 - A - B - C := by linarith
  have q1 := mul_nonneg n1 n2
  have q2 := mul_nonneg n1 n3
  have q3 := mul_nonneg n1 n4
  have q4 := mul_nonneg n2 n3
  have q5 := mul_nonneg n2 n4
  have q6 := mul_nonneg n3 n4
  have q7 := mul_nonneg n3 n3
  have q8 := mul_nonneg n4 n4
  have q9 := mul_self_nonneg (B - C)
  have hpos : 0 < (A + C) * (C + D) + (A + B) * (B + D) := lt_of_le_of_ne (by nlinarith) hd.symm
  -- the ETS numerator and denominator in terms of the four shares
  have hn : A - (A + B) * (A + C) = A * D - B * C := by rw [hD]; ring
  have hdn : A + B + C - (A + B) * (A + C) = B * B + C * C + A * B + A * C + B * C + A * D + B * D + C * D := by rw [hD]; ring
  have hpos' : 0 < A + B + C - (A + B) * (A + C) := by
    rw [hdn]
    have : (A + C) * (C + D) + (A + B) * (B + D) = A * C + 2 * (A * D) + C * C + C * D + A * B + B * B + B * D := by ring
    rw [this] at hpos
    nlinarith
  rw [FV.fin_div_fin_of_ne _ hpos'.ne']
  refine ⟨_, _, rfl, ?_, ?_, rfl, ?_, ?_, ?_⟩
  · rw [le_div_iff₀ hpos]; nlinarith
  · rw [div_le_one hpos]; nlinarith
  · rw [le_div_iff₀ hpos', hn, hdn]; nlinarith
  · rw [div_le_one hpos', hn, hdn]; nlinarith
  · have hden : (A + C) * (C + D) + (A + B) * (B + D) - (A * D - B * C) = A + B + C - (A + B) * (A + C) := by rw [hdn]; ring
    have h2 : 2 - 2 * (A * D - B * C) / ((A + C) * (C + D) + (A + B) * (B + D)) =
        2 * (A + B + C - (A + B) * (A + C)) / ((A + C) * (C + D) + (A + B) * (B + D)) := by
      rw [eq_div_iff hpos.ne', sub_mul, div_mul_cancel₀ _ hpos.ne', ← hden]; ring
    rw [h2, div_div_div_cancel_right₀ hpos.ne', hn, mul_div_mul_left _ _ two_ne_zero]

/-- **C27** A forecast that has the right class at every counted cell, with both classes present, gets the best value of every
score. -/
theorem C27_perfect (hperf : ∀ e' ∈ cs, (a.arr.val e').toBool = (b.arr.val e').toBool) (hT : TP ≠ 0) (hN : TN ≠ 0) :
    (ValueOf csi agg p t v x → x.val e = FV.fin 1) ∧ (ValueOf accuracy agg p t v x → x.val e = FV.fin 1) ∧
    (ValueOf recall agg p t v x → x.val e = FV.fin 1) ∧ (ValueOf precision agg p t v x → x.val e = FV.fin 1) ∧
    (ValueOf falseAlarmRate agg p t v x → x.val e = FV.fin 0) ∧ (ValueOf f1Score agg p t v x → x.val e = FV.fin 1) ∧
    (ValueOf frequencyBias agg p t v x → x.val e = FV.fin 1) ∧ (ValueOf hss agg p t v x → x.val e = FV.fin 1) ∧
    (ValueOf ets agg p t v x → x.val e = FV.fin 1) := by
  have hs := share_sum hp ht ha hb E hW
  have z : ∀ x y : Bool, x ≠ y → share agg a b cs x y = 0 := by
    intro x y hxy
    unfold share
    rw [Finset.sum_eq_zero, zero_div]
    intro e' he'
    rw [Finset.mem_filter] at he'
    exact absurd (he'.2.1.symm.trans ((hperf e' he'.1).trans he'.2.2)) hxy
  have hFP : FP = 0 := z _ _ (by simp)
  have hFN : FN = 0 := z _ _ (by simp)
  have hsum : TP + TN = 1 := by rw [hFP, hFN] at hs; linarith
  refine ⟨fun h => ?_, fun h => ?_, fun h => ?_, fun h => ?_, fun h => ?_, fun h => ?_, fun h => ?_, fun h => ?_, fun h => ?_⟩
  · rw [C27_csi_value hp ht ha hb E hW h, hFP, hFN, add_zero, add_zero, FV.fin_div_fin_of_ne _ hT, div_self hT]
  · rw [C27_accuracy_value hp ht ha hb E hW h, hsum]
  · rw [C27_recall_value hp ht ha hb E hW h, hFN, add_zero, FV.fin_div_fin_of_ne _ hT, div_self hT]
  · rw [C27_precision_value hp ht ha hb E hW h, hFP, add_zero, FV.fin_div_fin_of_ne _ hT, div_self hT]
  · rw [C27_far_value hp ht ha hb E hW h, hFP, add_zero, FV.fin_div_fin_of_ne _ hT, zero_div]
  · rw [C27_f1_value hp ht ha hb E hW h, hFP, hFN, add_zero, add_zero, FV.fin_div_fin_of_ne _ (mul_ne_zero two_ne_zero hT),
      div_self (mul_ne_zero two_ne_zero hT)]
  · rw [C27_frequency_bias_value hp ht ha hb E hW h, hFP, hFN, add_zero, FV.fin_div_fin_of_ne _ hT, div_self hT]
  · have hne : TP * TN + TP * TN ≠ 0 := by
      rw [← two_mul]; exact mul_ne_zero two_ne_zero (mul_ne_zero hT hN)
    rw [C27_hss_value hp ht ha hb E hW h, hFP, hFN, add_zero, zero_add, zero_mul, sub_zero, FV.fin_div_fin_of_ne _ hne]
    rw [two_mul, div_self hne]
  · have hne : TP - TP * TP ≠ 0 := by
      rw [show TP - TP * TP = TP * TN by rw [show TN = 1 - TP by linarith]; ring]
      exact mul_ne_zero hT hN
    rw [C27_ets_value hp ht ha hb E hW h, hFP, hFN, add_zero, add_zero, FV.fin_div_fin_of_ne _ hne, div_self hne]

end C27

/-! ### SEDI -/
section SEDI
variable {agg : Aggregator L (FV ℝ)} {p t : Vars (StatVar L (FV ℝ))} (hp : (p.map Prod.fst).Nodup)
  (ht : (t.map Prod.fst).Nodup) {v : String} {a b : StatVar L (FV ℝ)} (ha : (v, a) ∈ p) (hb : (v, b) ∈ t)
  {e : Dim → L} {cs : Finset (Dim → L)} (E : Evaluated agg (truePositives a b) e cs)
  (hW : GoodWeights agg (truePositives a b) cs) {x : DA L (FV ℝ)}

/-- Hit rate and false alarm rate limited to [1e-6, 1 - 1e-6]. -/
noncomputable def clipRate (r : ℝ) : ℝ := min (max r (1 / 1000000)) (1 - 1 / 1000000)

theorem clipRate_bounds (r : ℝ) : 1 / 1000000 ≤ clipRate r ∧ clipRate r ≤ 1 - 1 / 1000000 :=
  ⟨le_min (le_max_right _ _) (by norm_num), min_le_right _ _⟩

include hp ht ha hb E hW

/-- **C27** `SEDI` is the documented formula of the clipped hit rate `H` and false alarm rate `F`; it lies strictly between -1 and
1 (so even a perfect forecast does not reach 1) and has the sign of `H - F`. -/
theorem C27_sedi (h : ValueOf sedi agg p t v x)
    (hP : share agg a b cs true true + share agg a b cs false true ≠ 0)
    (hN : share agg a b cs true false + share agg a b cs false false ≠ 0) :
    let H := clipRate (share agg a b cs true true / (share agg a b cs true true + share agg a b cs false true))
    let F := clipRate (share agg a b cs true false / (share agg a b cs true false + share agg a b cs false false))
    ∃ s, x.val e = FV.fin s ∧
      s = (Real.log F - Real.log H + Real.log (1 - H) - Real.log (1 - F)) /
        (Real.log H + Real.log F + Real.log (1 - H) + Real.log (1 - F)) ∧
      -1 < s ∧ s < 1 ∧ (0 < s ↔ F < H) := by
  intro H F
  obtain ⟨y1, y2, y3, y4, m1, m2, m3, m4, rfl⟩ := valueOf_metric4 (by simp) (by simp) (by simp) (by simp) (by simp) (by simp) h
  have bH := clipRate_bounds (share agg a b cs true true / (share agg a b cs true true + share agg a b cs false true))
  have bF := clipRate_bounds (share agg a b cs true false / (share agg a b cs true false + share agg a b cs false false))
  change 1 / 1000000 ≤ H ∧ H ≤ 1 - 1 / 1000000 at bH
  change 1 / 1000000 ≤ F ∧ F ≤ 1 - 1 / 1000000 at bF
  have hH0 : 0 < H := lt_of_lt_of_le (by norm_num) bH.1
  have hF0 : 0 < F := lt_of_lt_of_le (by norm_num) bF.1
  have hH1 : 0 < 1 - H := by linarith [bH.2]
  have hF1 : 0 < 1 - F := by linarith [bF.2]
  have logfin : ∀ r : ℝ, 0 < r → FV.log (FV.fin r) = FV.fin (Real.log r) := by
    intro r hr
    unfold FV.log
    simp only
    rw [if_neg (not_lt.mpr hr.le), if_neg hr.ne']
  have lH : Real.log H < 0 := Real.log_neg hH0 (by linarith)
  have lF : Real.log F < 0 := Real.log_neg hF0 (by linarith)
  have lH1 : Real.log (1 - H) < 0 := Real.log_neg hH1 (by linarith)
  have lF1 : Real.log (1 - F) < 0 := Real.log_neg hF1 (by linarith)
  have hden : Real.log H + Real.log F + Real.log (1 - H) + Real.log (1 - F) < 0 := by linarith
  refine ⟨_, ?_, rfl, ?_, ?_, ?_⟩
  · have eH : ((y1.val e) / (y1.val e + y3.val e)) =
        FV.fin (share agg a b cs true true / (share agg a b cs true true + share agg a b cs false true)) := by
      rw [mean_tp hp ht ha hb E hW m1, mean_fn hp ht ha hb E hW m3, FV.fin_add_fin, FV.fin_div_fin_of_ne _ hP]
    have eF : ((y2.val e) / (y2.val e + y4.val e)) =
        FV.fin (share agg a b cs true false / (share agg a b cs true false + share agg a b cs false false)) := by
      rw [mean_fp hp ht ha hb E hW m2, mean_tn hp ht ha hb E hW m4, FV.fin_add_fin, FV.fin_div_fin_of_ne _ hN]
    have cH : FV.clip (1 / 1000000) (1 - 1 / 1000000) ((y1.val e) / (y1.val e + y3.val e)) = FV.fin H := by rw [eH]; rfl
    have cF : FV.clip (1 / 1000000) (1 - 1 / 1000000) ((y2.val e) / (y2.val e + y4.val e)) = FV.fin F := by rw [eF]; rfl
    show (FV.log (FV.clip (1 / 1000000) (1 - 1 / 1000000) ((y2.val e) / (y2.val e + y4.val e))) -
        FV.log (FV.clip (1 / 1000000) (1 - 1 / 1000000) ((y1.val e) / (y1.val e + y3.val e))) +
        FV.log (FV.fin 1 - FV.clip (1 / 1000000) (1 - 1 / 1000000) ((y1.val e) / (y1.val e + y3.val e))) -
        FV.log (FV.fin 1 - FV.clip (1 / 1000000) (1 - 1 / 1000000) ((y2.val e) / (y2.val e + y4.val e)))) /
      (FV.log (FV.clip (1 / 1000000) (1 - 1 / 1000000) ((y1.val e) / (y1.val e + y3.val e))) +
        FV.log (FV.clip (1 / 1000000) (1 - 1 / 1000000) ((y2.val e) / (y2.val e + y4.val e))) +
        FV.log (FV.fin 1 - FV.clip (1 / 1000000) (1 - 1 / 1000000) ((y1.val e) / (y1.val e + y3.val e))) +
        FV.log (FV.fin 1 - FV.clip (1 / 1000000) (1 - 1 / 1000000) ((y2.val e) / (y2.val e + y4.val e)))) = _
    rw [cH, cF]
    simp only [FV.fin_sub_fin, logfin H hH0, logfin F hF0, logfin (1 - H) hH1, logfin (1 - F) hF1, FV.fin_add_fin]
    rw [FV.fin_div_fin_of_ne _ hden.ne]
  · rw [lt_div_iff_of_neg hden]; linarith
  · rw [div_lt_one_of_neg hden]; linarith
  · rw [show (0 : ℝ) < (Real.log F - Real.log H + Real.log (1 - H) - Real.log (1 - F)) /
        (Real.log H + Real.log F + Real.log (1 - H) + Real.log (1 - F)) ↔
        Real.log F - Real.log H + Real.log (1 - H) - Real.log (1 - F) < 0 from by
      rw [div_pos_iff]; constructor
      · rintro (⟨_, h⟩ | ⟨h, _⟩)
        · exact absurd h (not_lt.mpr hden.le)
        · exact h
      · intro h; exact .inr ⟨h, hden⟩]
    constructor
    · intro hlt
      by_contra hge
      have h1 := Real.log_le_log hH0 (not_lt.mp hge)
      have h2 := Real.log_le_log hF1 (by linarith [not_lt.mp hge] : 1 - F ≤ 1 - H)
      linarith
    · intro hlt
      have h1 := Real.log_lt_log hF0 hlt
      have h2 := Real.log_lt_log hH1 (by linarith : 1 - H < 1 - F)
      linarith

end SEDI

/-! ### The hypotheses are met: four cells, one of each kind -/
section C27ex

noncomputable def catEx (f : ℕ → ℝ) : StatVar ℕ (FV ℝ) :=
  ⟨{ dims := {"x"}, coords := fun _ => {0, 1, 2, 3}, val := fun e => .fin (f (e "x")) }, none⟩
/-- Events predicted at cells 0 and 1, observed at cells 0 and 2. -/
noncomputable def catP : StatVar ℕ (FV ℝ) := catEx (fun n => if n < 2 then 1 else 0)
noncomputable def catT : StatVar ℕ (FV ℝ) := catEx (fun n => if n = 0 ∨ n = 2 then 1 else 0)

open Classical in
theorem catEvaluated : Evaluated mAgg (truePositives catP catT) (exCell 0) (({0, 1, 2, 3} : Finset ℕ).image exCell) := by
  have hm : (truePositives catP catT).mask = none := by
    simp [truePositives, contingency, StatVar.map, StatVar.zipWith, combineMask, catP, catT, catEx]
  refine evaluated1 _ {0, 1, 2, 3} ?_ (by simp [hm]) _ (by intro n; simp [counted, mAgg, hm]) ?_
  · simp [truePositives, contingency, StatVar.map, StatVar.zipWith, DA.map, DA.zipWith, joinCoords, catP, catT, catEx]
  · intro n _
    rw [(C26_finite catP catT (exCell n) rfl rfl).1]
    split <;> rfl

open Classical in
theorem catShare_ne (x y : Bool) {n : ℕ} (hn : n ∈ ({0, 1, 2, 3} : Finset ℕ)) (hx : (catP.arr.val (exCell n)).toBool = x)
    (hy : (catT.arr.val (exCell n)).toBool = y) : share mAgg catP catT (({0, 1, 2, 3} : Finset ℕ).image exCell) x y ≠ 0 := by
  have hW := mAgg_good (truePositives catP catT) {0, 1, 2, 3} (by simp)
  unfold share
  refine div_ne_zero (ne_of_gt ?_) hW.2.ne'
  refine lt_of_lt_of_le ?_ (Finset.single_le_sum (f := fun e' => cellWeight mAgg (truePositives catP catT) e')
    (fun e' he' => hW.1 e' (Finset.mem_of_mem_filter e' he'))
    (Finset.mem_filter.mpr ⟨Finset.mem_image.mpr ⟨n, hn, rfl⟩, hx, hy⟩))
  simp [cellWeight, allFactors, mAgg]

open Classical in
example : ∃ xh xe xs : DA ℕ (FV ℝ), ∃ s s' s'' : ℝ, ValueOf hss mAgg [("z", catP)] [("z", catT)] "z" xh ∧
    ValueOf ets mAgg [("z", catP)] [("z", catT)] "z" xe ∧ ValueOf sedi mAgg [("z", catP)] [("z", catT)] "z" xs ∧
    xh.val (exCell 0) = FV.fin s ∧ xe.val (exCell 0) = FV.fin s' ∧ s' = s / (2 - s) ∧ xs.val (exCell 0) = FV.fin s'' := by
  have hx : ∀ f, "x" ∈ (contingency f catP catT).arr.dims := by
    intro f; simp [contingency, StatVar.map, StatVar.zipWith, DA.map, DA.zipWith, catP, catEx]
  have hq : ∀ f, ∃ q, mAgg.aggregateStatVar (contingency f catP catT) = .ok (some q) := fun f =>
    exists_aggregate mAgg rfl _ (by simpa [mAgg] using hx f)
  obtain ⟨q1, h1⟩ := hq (fun p t => p && t)
  obtain ⟨q2, h2⟩ := hq (fun p t => p && !t)
  obtain ⟨q3, h3⟩ := hq (fun p t => !p && t)
  obtain ⟨q4, h4⟩ := hq (fun p t => !p && !t)
  have m1 := oneMean_statOf "TruePositives" truePositives mAgg "z" catP catT h1
  have m2 := oneMean_statOf "FalsePositives" falsePositives mAgg "z" catP catT h2
  have m3 := oneMean_statOf "FalseNegatives" falseNegatives mAgg "z" catP catT h3
  have m4 := oneMean_statOf "TrueNegatives" trueNegatives mAgg "z" catP catT h4
  have n1 : share mAgg catP catT (({0, 1, 2, 3} : Finset ℕ).image exCell) true true ≠ 0 :=
    catShare_ne _ _ (n := 0) (by simp) (by simp [catP, catEx, exCell, FV.toBool]) (by simp [catT, catEx, exCell, FV.toBool])
  have n4 : share mAgg catP catT (({0, 1, 2, 3} : Finset ℕ).image exCell) false false ≠ 0 :=
    catShare_ne _ _ (n := 3) (by simp) (by simp [catP, catEx, exCell, FV.toBool]) (by simp [catT, catEx, exCell, FV.toBool])
  have hW := mAgg_good (truePositives catP catT) {0, 1, 2, 3} (by simp)
  have nn := share_nonneg (p := [("z", catP)]) (t := [("z", catT)]) (v := "z") (by simp) (by simp) (by simp) (by simp) catEvaluated hW
  have p1 := lt_of_le_of_ne (nn true true) n1.symm
  have p4 := lt_of_le_of_ne (nn false false) n4.symm
  have w1 : ValueOf hss mAgg [("z", catP)] [("z", catT)] "z" _ :=
    exists_metric4 (by simp) (by simp) (by simp) (by simp) (by simp) (by simp) m1 m2 m3 m4
  have w2 : ValueOf ets mAgg [("z", catP)] [("z", catT)] "z" _ :=
    exists_metric4 (by simp) (by simp) (by simp) (by simp) (by simp) (by simp) m1 m2 m3 m4
  have w3 : ValueOf sedi mAgg [("z", catP)] [("z", catT)] "z" _ :=
    exists_metric4 (by simp) (by simp) (by simp) (by simp) (by simp) (by simp) m1 m2 m3 m4
  obtain ⟨s, s', g1, -, -, g2, -, -, g3⟩ := C27_hss_ets (by simp) (by simp) (by simp) (by simp) catEvaluated hW w1 w2 (by
    have a1 := mul_pos p1 p4
    have a2 := nn true false
    have a3 := nn false true
    have := mul_nonneg p1.le a3
    have := mul_nonneg p1.le a2
    have := mul_nonneg a3 a3
    have := mul_nonneg a2 a2
    have := mul_nonneg a3 p4.le
    have := mul_nonneg a2 p4.le
    nlinarith)
  obtain ⟨s'', g4, -⟩ := C27_sedi (by simp) (by simp) (by simp) (by simp) catEvaluated hW w3
    (by linarith [nn false true]) (by linarith [nn true false])
  exact ⟨_, _, _, s, s', s'', w1, w2, w3, g1, g2, g3, g4⟩

end C27ex
end WBX
