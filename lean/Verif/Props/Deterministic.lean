import Verif.Lemmas.MetricAlone
import Mathlib.Algebra.Order.BigOperators.Ring.Finset
import Mathlib.Analysis.SpecialFunctions.Pow.Real

/-!
# C22 (bias, MAE, RMSE), C23 (ACC), C24 (wind vector), C25 (error exceedance)
-/

set_option linter.unusedSectionVars false

namespace WBX
open DA Aggregator
variable {L : Type} [DecidableEq L]

/-! ### Floats -/
section floats
variable {K : Type} [Field K] [LinearOrder K] [IsStrictOrderedRing K]

theorem FV.sub_isFin {x y : FV K} (h : (x - y).isFin = true) :
    x.isFin = true ∧ y.isFin = true ∧ (x - y).num = x.num - y.num := by
  rcases x with _ | a | x <;> rcases y with _ | b | y <;>
    simp [FV.sub_def, FV.isFin, FV.num, FV.inf_add_inf] at h ⊢
  · cases a <;> cases b <;> simp [Neg.neg, FV.neg, FV.inf_add_inf] at h
  · simp [Neg.neg, FV.neg] at h
  · ring

theorem FV.abs_isFin {x : FV K} (h : x.isFin = true) : x.abs.isFin = true ∧ x.abs.num = |x.num| := by
  cases x <;> simp [FV.isFin, FV.abs, FV.num] at h ⊢

theorem FV.sq_isFin {x : FV K} (h : x.isFin = true) : x.sq.isFin = true ∧ x.sq.num = x.num ^ 2 := by
  cases x <;> simp [FV.isFin, FV.sq, FV.num, pow_two] at h ⊢

theorem FV.mul_isFin {x y : FV K} (hx : x.isFin = true) (hy : y.isFin = true) :
    (x * y).isFin = true ∧ (x * y).num = x.num * y.num := by
  cases x <;> cases y <;> simp [FV.isFin, FV.num] at hx hy ⊢

theorem FV.add_isFin {x y : FV K} (hx : x.isFin = true) (hy : y.isFin = true) :
    (x + y).isFin = true ∧ (x + y).num = x.num + y.num := by
  cases x <;> cases y <;> simp [FV.isFin, FV.num] at hx hy ⊢

theorem FV.abs_isnan (x : FV K) : x.abs.isnan = x.isnan := by cases x <;> rfl
theorem FV.sq_isnan (x : FV K) : x.sq.isnan = x.isnan := by
  cases x <;> simp [FV.sq, FV.isnan, FV.inf_mul_inf]

end floats

/-- The forecast error at a cell. -/
noncomputable def errAt (a b : StatVar L (FV ℝ)) (e : Dim → L) : ℝ := (a.arr.val e).num - (b.arr.val e).num

theorem error_num {a b : StatVar L (FV ℝ)} {agg : Aggregator L (FV ℝ)} {e cs} (E : Evaluated agg (error a b) e cs)
    {e' : Dim → L} (he : e' ∈ cs) : ((error a b).arr.val e').num = errAt a b e' :=
  (FV.sub_isFin (E.finite e' he)).2.2

theorem wmean_congr {K : Type} [Field K] [LinearOrder K] [IsStrictOrderedRing K]
    {agg : Aggregator L (FV K)} {s s' : StatVar L (FV K)} {cs : Finset (Dim → L)} {f g : (Dim → L) → K}
    (hw : cellWeight agg s' = cellWeight agg s) (h : ∀ e' ∈ cs, f e' = g e') : wmean agg s' cs f = wmean agg s cs g := by
  unfold wmean
  rw [hw, Finset.sum_congr rfl (fun e' he' => by rw [h e' he'])]

section C22
variable {agg : Aggregator L (FV ℝ)} {p t : Vars (StatVar L (FV ℝ))} (hp : (p.map Prod.fst).Nodup)
  (ht : (t.map Prod.fst).Nodup) {v : String} {a b : StatVar L (FV ℝ)} (ha : (v, a) ∈ p) (hb : (v, b) ∈ t)
  {e : Dim → L} {cs : Finset (Dim → L)} (E : Evaluated agg (error a b) e cs)
  (hW : GoodWeights agg (error a b) cs)
include hp ht ha hb E hW

/-- **C22** The value of `Bias` at a result cell is the weighted mean of prediction minus target over the cells counted. -/
theorem C22_bias_value {x : DA L (FV ℝ)} (h : ValueOf errorStatistic.toMetric agg p t v x) :
    x.val e = FV.fin (wmean agg (error a b) cs (errAt a b)) := by
  obtain ⟨q, hq, rfl⟩ := isMeanOf_statOf hp ht ha hb (valueOf_statistic h)
  rw [evaluated_mean E hq hW.2.ne']
  congr 1
  exact wmean_congr rfl (fun e' he' => error_num E he')

/-- **C22** The value of `MAE` is the weighted mean of the absolute differences. -/
theorem C22_mae_value {x : DA L (FV ℝ)} (h : ValueOf absoluteErrorStatistic.toMetric agg p t v x) :
    x.val e = FV.fin (wmean agg (error a b) cs (fun e' => |errAt a b e'|)) := by
  obtain ⟨q, hq, rfl⟩ := isMeanOf_statOf hp ht ha hb (valueOf_statistic h)
  obtain ⟨E', hw⟩ := E.transfer (s' := absoluteError a b) rfl rfl rfl (fun _ e' => FV.abs_isnan _)
    (fun e' _ hf => (FV.abs_isFin hf).1)
  rw [evaluated_mean E' hq (by rw [hw]; exact hW.2.ne')]
  congr 1
  refine wmean_congr hw (fun e' he' => ?_)
  rw [show (absoluteError a b).arr.val e' = ((error a b).arr.val e').abs from rfl, (FV.abs_isFin (E.finite e' he')).2,
    error_num E he']

theorem mse_mean {q} (hq : agg.aggregateStatVar (squaredError a b) = .ok (some q)) :
    (DA.zipWith (· / ·) q.1 q.2).val e = FV.fin (wmean agg (error a b) cs (fun e' => errAt a b e' ^ 2)) := by
  obtain ⟨E', hw⟩ := E.transfer (s' := squaredError a b) rfl rfl rfl (fun _ e' => FV.sq_isnan _)
    (fun e' _ hf => (FV.sq_isFin hf).1)
  rw [evaluated_mean E' hq (by rw [hw]; exact hW.2.ne')]
  congr 1
  refine wmean_congr hw (fun e' he' => ?_)
  rw [show (squaredError a b).arr.val e' = ((error a b).arr.val e').sq from rfl, (FV.sq_isFin (E.finite e' he')).2,
    error_num E he']

/-- **C22** The value of `MSE` is the weighted mean of the squared differences. -/
theorem C22_mse_value {x : DA L (FV ℝ)} (h : ValueOf squaredErrorStatistic.toMetric agg p t v x) :
    x.val e = FV.fin (wmean agg (error a b) cs (fun e' => errAt a b e' ^ 2)) := by
  obtain ⟨q, hq, rfl⟩ := isMeanOf_statOf hp ht ha hb (valueOf_statistic h)
  exact mse_mean hp ht ha hb E hW hq

theorem wmean_sq_nonneg (f : (Dim → L) → ℝ) : 0 ≤ wmean agg (error a b) cs (fun e' => f e' ^ 2) := by
  unfold wmean
  exact div_nonneg (Finset.sum_nonneg (fun e' he' => mul_nonneg (sq_nonneg _) (hW.1 e' he'))) hW.2.le

/-- **C22** The value of `RMSE` is the square root of the weighted mean of the squared differences. -/
theorem C22_rmse_value {x : DA L (FV ℝ)} (h : ValueOf rmse agg p t v x) :
    x.val e = FV.fin (Real.sqrt (wmean agg (error a b) cs (fun e' => errAt a b e' ^ 2))) := by
  obtain ⟨ys, hys, hg⟩ := valueOf_perVariable (by simp) h
  rcases hys with _ | ⟨⟨h1, h2⟩, hnil⟩
  cases hnil
  rename_i y
  obtain ⟨k, y⟩ := y
  simp only at h1 h2
  subst h1
  obtain ⟨q, hq, rfl⟩ := isMeanOf_statOf hp ht ha hb h2
  simp only [pyItem, pyGet?, if_true, bind, Except.bind, pure, Except.pure, Except.ok.injEq] at hg
  subst hg
  have hm := mse_mean hp ht ha hb E hW hq
  simp only [DA.map]
  rw [hm, FV.sqrt, if_neg (not_lt.mpr (wmean_sq_nonneg hp ht ha hb E hW (errAt a b)))]

/-- **C22** `|Bias| ≤ MAE ≤ RMSE` at every result cell, for nonnegative weights of positive total: the three metrics are
finite there, whatever the grid, weights, bins, masks and NaN handling. -/
theorem C22_bias_le_mae_le_rmse {xb xm xr : DA L (FV ℝ)} (h1 : ValueOf errorStatistic.toMetric agg p t v xb)
    (h2 : ValueOf absoluteErrorStatistic.toMetric agg p t v xm) (h3 : ValueOf rmse agg p t v xr) :
    ∃ bias mae rms : ℝ, xb.val e = FV.fin bias ∧ xm.val e = FV.fin mae ∧ xr.val e = FV.fin rms ∧
      |bias| ≤ mae ∧ mae ≤ rms := by
  refine ⟨_, _, _, C22_bias_value hp ht ha hb E hW h1, C22_mae_value hp ht ha hb E hW h2,
    C22_rmse_value hp ht ha hb E hW h3, ?_, ?_⟩
  · unfold wmean
    rw [abs_div, abs_of_pos hW.2]
    apply div_le_div_of_nonneg_right _ hW.2.le
    refine (Finset.abs_sum_le_sum_abs _ _).trans (Finset.sum_le_sum fun e' he' => ?_)
    rw [abs_mul, abs_of_nonneg (hW.1 e' he')]
  · apply Real.le_sqrt_of_sq_le
    unfold wmean
    rw [div_pow, div_le_div_iff₀ (pow_pos hW.2 2) hW.2]
    have hcs := Finset.sum_sq_le_sum_mul_sum_of_sq_le_mul cs
      (r := fun e' => |errAt a b e'| * cellWeight agg (error a b) e')
      (f := fun e' => errAt a b e' ^ 2 * cellWeight agg (error a b) e')
      (g := fun e' => cellWeight agg (error a b) e')
      (fun e' he' => mul_nonneg (sq_nonneg _) (hW.1 e' he')) (fun e' he' => hW.1 e' he') (fun e' _ => by
        rw [mul_pow, sq_abs]; exact le_of_eq (by ring))
    calc _ ≤ _ := mul_le_mul_of_nonneg_right hcs hW.2.le
      _ = _ := by ring

/-- **C22** A forecast equal to the target at every counted cell has bias, MAE and RMSE 0. -/
theorem C22_perfect {xb xm xr : DA L (FV ℝ)} (h1 : ValueOf errorStatistic.toMetric agg p t v xb)
    (h2 : ValueOf absoluteErrorStatistic.toMetric agg p t v xm) (h3 : ValueOf rmse agg p t v xr)
    (hperf : ∀ e' ∈ cs, a.arr.val e' = b.arr.val e') :
    xb.val e = FV.fin 0 ∧ xm.val e = FV.fin 0 ∧ xr.val e = FV.fin 0 := by
  have h0 : ∀ e' ∈ cs, errAt a b e' = 0 := fun e' he' => by simp [errAt, hperf e' he']
  have hz : ∀ f : ℝ → ℝ, f 0 = 0 → wmean agg (error a b) cs (fun e' => f (errAt a b e')) = 0 := by
    intro f hf
    unfold wmean
    rw [Finset.sum_eq_zero (fun e' he' => by simp only [h0 e' he', hf, zero_mul]), zero_div]
  refine ⟨?_, ?_, ?_⟩
  · rw [C22_bias_value hp ht ha hb E hW h1, ← hz id rfl]; rfl
  · rw [C22_mae_value hp ht ha hb E hW h2, hz (fun x => |x|) (by simp)]
  · rw [C22_rmse_value hp ht ha hb E hW h3, hz (fun x => x ^ 2) (by simp), Real.sqrt_zero]

/-- **C22** MAE (or RMSE) 0 implies a forecast equal to the target wherever a counted cell has positive weight. -/
theorem C22_zero_only_if_perfect {xm xr : DA L (FV ℝ)} (h2 : ValueOf absoluteErrorStatistic.toMetric agg p t v xm)
    (h3 : ValueOf rmse agg p t v xr) (h0 : xm.val e = FV.fin 0 ∨ xr.val e = FV.fin 0) :
    ∀ e' ∈ cs, 0 < cellWeight agg (error a b) e' → a.arr.val e' = b.arr.val e' := by
  have key : ∀ f : ℝ → ℝ, (∀ x, 0 ≤ f x) → (∀ x, f x = 0 → x = 0) →
      wmean agg (error a b) cs (fun e' => f (errAt a b e')) = 0 →
      ∀ e' ∈ cs, 0 < cellWeight agg (error a b) e' → a.arr.val e' = b.arr.val e' := by
    intro f hf0 hf hz e' he' hw
    unfold wmean at hz
    rw [div_eq_zero_iff, or_iff_left hW.2.ne', Finset.sum_eq_zero_iff_of_nonneg
      (fun e' he' => mul_nonneg (hf0 _) (hW.1 e' he'))] at hz
    have := hf _ ((mul_eq_zero.mp (hz e' he')).resolve_right hw.ne')
    obtain ⟨f1, f2, -⟩ := FV.sub_isFin (E.finite e' he')
    rw [FV.eq_fin_num f1, FV.eq_fin_num f2]
    congr 1
    exact sub_eq_zero.mp this
  rcases h0 with h0 | h0
  · rw [C22_mae_value hp ht ha hb E hW h2, FV.fin.injEq] at h0
    exact key (fun x => |x|) (fun x => abs_nonneg x) (fun x => abs_eq_zero.mp) h0
  · rw [C22_rmse_value hp ht ha hb E hW h3, FV.fin.injEq, Real.sqrt_eq_zero (wmean_sq_nonneg hp ht ha hb E hW _)] at h0
    exact key (fun x => x ^ 2) (fun x => sq_nonneg x) (fun x => by simp) h0

end C22

/-! #### Non-vacuity -/
section C22ex

/-- Predictions 1, 4, ∞ and targets 3, 3, NaN at x = 0, 1, 2, the last one masked out. -/
noncomputable def exPred : StatVar ℕ (FV ℝ) :=
  ⟨{ dims := {"x"}, coords := fun _ => {0, 1, 2}, val := fun e => if e "x" = 0 then .fin 1 else if e "x" = 1 then .fin 4 else .inf false },
    none⟩
noncomputable def exTarget : StatVar ℕ (FV ℝ) :=
  ⟨{ dims := {"x"}, coords := fun _ => {0, 1, 2}, val := fun e => if e "x" = 2 then .nan else .fin 3 },
    some { dims := {"x"}, coords := fun _ => {0, 1, 2}, val := fun e => decide (e "x" ≠ 2) }⟩
noncomputable def detAgg : Aggregator ℕ (FV ℝ) :=
  { reduceDims := ["x"], weighBy := [fun _ => { dims := {"x"}, coords := fun _ => {0, 1, 2}, val := fun e => .fin (e "x" + 1) }],
    masked := true }
/-- The cell with `x = n`. -/
def exCell (n : ℕ) : Dim → ℕ := fun d => if d = "x" then n else 7

theorem exCell_eq {e' : Dim → ℕ} {n : ℕ} (h : e' "x" = n) (h2 : ∀ d, d ≠ "x" → e' d = 7) : e' = exCell n := by
  funext d
  by_cases hd : d = "x"
  · subst hd; simp [h, exCell]
  · rw [h2 d hd]; simp [exCell, hd]

open Classical in
/-- The hypotheses of the C22 theorems hold for this concrete masked, weighted aggregation. -/
theorem exEvaluated : Evaluated detAgg (error exPred exTarget) (exCell 0) {exCell 0, exCell 1} ∧
    GoodWeights detAgg (error exPred exTarget) {exCell 0, exCell 1} := by
  have hc : ∀ d, (error exPred exTarget).arr.coords d = {0, 1, 2} := by
    intro d
    simp [error, StatVar.zipWith, DA.zipWith, joinCoords, exPred, exTarget]
  have hv : ∀ e, (error exPred exTarget).arr.val e = exPred.arr.val e - exTarget.arr.val e := fun _ => rfl
  have hw : ∀ n, cellWeight detAgg (error exPred exTarget) (exCell n) = n + 1 := by
    intro n
    simp [cellWeight, allFactors, detAgg, exCell, FV.num]
  have hne : exCell 0 ≠ exCell 1 := fun h => by
    have := congrFun h "x"
    simp [exCell] at this
  refine ⟨⟨⟨?_, by simp [detAgg]⟩, ?_, ?_, ?_, ?_, ?_⟩, ?_, ?_⟩
  · intro w hw
    simp [detAgg] at hw
    subst hw
    intros; rfl
  · simp [allFactors, detAgg, CoversLabels, hc]
  · intro m hm
    simp [error, StatVar.zipWith, combineMask, exPred, exTarget] at hm
    subst hm
    refine ⟨by simp [error, StatVar.zipWith, DA.zipWith, exPred, exTarget], ?_⟩
    funext d
    simp [hc]
  · simp [allFactors, detAgg, FV.isFin]
  · intro e'
    have hm : counted detAgg (error exPred exTarget) e' = decide (e' "x" ≠ 2) := by
      simp [counted, detAgg, error, StatVar.zipWith, combineMask, exPred, exTarget]
    have hr : detAgg.reduceDims = ["x"] := rfl
    rw [hm, hr]
    simp only [List.mem_singleton, forall_eq, hc, Finset.mem_insert, Finset.mem_singleton, decide_eq_true_eq]
    constructor
    · rintro (rfl | rfl) <;> refine ⟨⟨by simp [exCell], fun d hd => by simp [exCell, hd]⟩, by simp [exCell]⟩
    · rintro ⟨⟨h | h | h, h2⟩, h3⟩
      · left; exact exCell_eq h (fun d hd => by rw [h2 d hd]; simp [exCell, hd])
      · right; exact exCell_eq h (fun d hd => by rw [h2 d hd]; simp [exCell, hd])
      · exact absurd h h3
  · intro e' he'
    simp only [Finset.mem_insert, Finset.mem_singleton] at he'
    rcases he' with rfl | rfl <;> rw [hv] <;> simp [exPred, exTarget, exCell, FV.isFin]
  · intro e' he'
    simp only [Finset.mem_insert, Finset.mem_singleton] at he'
    rcases he' with rfl | rfl <;> rw [hw] <;> norm_num
  · rw [Finset.sum_pair hne, hw, hw]; norm_num

/-- An aggregation whose reduced dimensions are those of the statistic, with distinct bins that apply, succeeds. -/
theorem exists_aggregate {K : Type} [Field K] [LinearOrder K] [IsStrictOrderedRing K]
    (agg : Aggregator L (FV K)) (hb : agg.binBy = []) (s : StatVar L (FV K))
    (hr : ∀ d ∈ agg.reduceDims, d ∈ s.arr.dims) : ∃ q, agg.aggregateStatVar s = .ok (some q) := by
  rw [aggregateStatVar_eq]
  have hd := fun d h => applyMask_dims agg s (d := d) h
  obtain ⟨-, -, -, h⟩ := aggregationFn_eq agg (agg.applyMask s).1
  obtain ⟨-, -, -, h'⟩ := aggregationFn_eq agg (agg.applyMask s).2
  rw [h (by simpa using fun d h => (hd d (hr d h)).1) (by simp [hb]) (by simp [hb, BinsApply]),
    h' (by simpa using fun d h => (hd d (hr d h)).2) (by simp [hb]) (by simp [hb, BinsApply])]
  exact ⟨_, rfl⟩

/-- The metrics of a single variable exist whenever the aggregation of the statistic succeeds. -/
theorem exists_value {K : Type} [Field K] [LinearOrder K] [IsStrictOrderedRing K] (name : String)
    (f : StatVar L (FV K) → StatVar L (FV K) → StatVar L (FV K)) (agg : Aggregator L (FV K)) (v : String)
    (a b : StatVar L (FV K)) {q} (hq : agg.aggregateStatVar (f a b) = .ok (some q)) :
    ValueOf (statOf name f).toMetric agg [(v, a)] [(v, b)] v (DA.zipWith (· / ·) q.1 q.2) := by
  refine ⟨[(v, DA.zipWith (· / ·) q.1 q.2)], ?_, by simp⟩
  simp [metricAlone, Statistic.toMetric, statOf, perVariableStatistic, perVariableLoop, meanVars, perVar, hq, pyGet?,
    pyItem, bind, Except.bind, pure, Except.pure]

theorem exists_rmse (agg : Aggregator L (FV ℝ)) (v : String)
    (a b : StatVar L (FV ℝ)) {q} (hq : agg.aggregateStatVar (squaredError a b) = .ok (some q)) :
    ValueOf rmse agg [(v, a)] [(v, b)] v ((DA.zipWith (· / ·) q.1 q.2).map FV.sqrt) := by
  refine ⟨[(v, (DA.zipWith (· / ·) q.1 q.2).map FV.sqrt)], ?_, by simp⟩
  simp [metricAlone, rmse, perVariableMetric, perVariableValues, squaredErrorStatistic, statOf, perVariableStatistic,
    perVariableLoop, meanVars, perVar, hq, pyGet?, pyItem, commonVariables, bind, Except.bind, pure, Except.pure]

/-- All the hypotheses together: the three metrics of `exPred` against `exTarget` exist and satisfy the inequalities. -/
example : ∃ xb xm xr : DA ℕ (FV ℝ), ∃ bias mae rms : ℝ,
    ValueOf errorStatistic.toMetric detAgg [("t2m", exPred)] [("t2m", exTarget)] "t2m" xb ∧
    ValueOf absoluteErrorStatistic.toMetric detAgg [("t2m", exPred)] [("t2m", exTarget)] "t2m" xm ∧
    ValueOf rmse detAgg [("t2m", exPred)] [("t2m", exTarget)] "t2m" xr ∧
    xb.val (exCell 0) = FV.fin bias ∧ xm.val (exCell 0) = FV.fin mae ∧ xr.val (exCell 0) = FV.fin rms ∧
      |bias| ≤ mae ∧ mae ≤ rms := by
  have hr : ∀ d ∈ detAgg.reduceDims, d ∈ (error exPred exTarget).arr.dims := by
    simp [detAgg, error, StatVar.zipWith, DA.zipWith, exPred]
  obtain ⟨q1, h1⟩ := exists_aggregate detAgg rfl (error exPred exTarget) hr
  obtain ⟨q2, h2⟩ := exists_aggregate detAgg rfl (absoluteError exPred exTarget) hr
  obtain ⟨q3, h3⟩ := exists_aggregate detAgg rfl (squaredError exPred exTarget) hr
  have v1 := exists_value "Error" error detAgg "t2m" exPred exTarget h1
  have v2 := exists_value "AbsoluteError" absoluteError detAgg "t2m" exPred exTarget h2
  have v3 := exists_rmse detAgg "t2m" exPred exTarget h3
  obtain ⟨b, m, r, h⟩ := C22_bias_le_mae_le_rmse (by simp) (by simp) (by simp) (by simp) exEvaluated.1 exEvaluated.2 v1 v2 v3
  exact ⟨_, _, _, b, m, r, v1, v2, v3, h⟩

end C22ex
end WBX
