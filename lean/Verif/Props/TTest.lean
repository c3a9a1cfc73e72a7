import Verif.Spec.Inference

/-!
# C54: confidence intervals, p-values and significance of the t-test

Theorems are about a cell `e` of the arrays of estimates `mean` and of standard errors, with at least one degree of freedom.
-/

set_option linter.unusedSectionVars false

namespace WBX
open Classical DA
variable {L : Type} [DecidableEq L]

namespace IsSymmetricDist
variable {d : TDist} (hd : IsSymmetricDist d)
include hd

theorem lt_one (x : ℝ) : d.cdf x < 1 := by have := hd.pos (-x); rw [hd.symm] at this; linarith
theorem zero : d.cdf 0 = 1 / 2 := by have := hd.symm 0; rw [neg_zero] at this; linarith
theorem ppf_lt {q x : ℝ} (h0 : 0 < q) (h1 : q < 1) : d.ppf q < x ↔ q < d.cdf x := by
  conv_rhs => rw [← hd.cdf_ppf q h0 h1]
  exact hd.strictMono.lt_iff_lt.symm
theorem lt_ppf {q x : ℝ} (h0 : 0 < q) (h1 : q < 1) : x < d.ppf q ↔ d.cdf x < q := by
  conv_rhs => rw [← hd.cdf_ppf q h0 h1]
  exact hd.strictMono.lt_iff_lt.symm
theorem ppf_neg {q : ℝ} (h0 : 0 < q) (h1 : q < 1 / 2) : d.ppf q < 0 := by
  rw [hd.ppf_lt h0 (by linarith), hd.zero]; exact h1
theorem ppf_mono {q q' : ℝ} (h0 : 0 < q) (hq : q ≤ q') (h1 : q' < 1) : d.ppf q ≤ d.ppf q' := by
  by_contra h
  have := hd.strictMono (not_le.mp h)
  rw [hd.cdf_ppf _ h0 (by linarith), hd.cdf_ppf _ (by linarith) h1] at this
  linarith
theorem within_eq (z : ℝ) : d.within z = 2 * d.cdf z - 1 := by unfold TDist.within; rw [hd.symm]; ring

end IsSymmetricDist

theorem zAlpha_eq {dist : ℕ → TDist} {df : ℤ} (hdf : 0 < df) {alpha : ℝ} (h0 : 0 < alpha) (h1 : alpha < 2) :
    zAlpha dist df alpha = FV.fin (-(dist df.toNat).ppf (alpha / 2)) := by
  unfold zAlpha tPpf
  rw [if_neg (by omega), if_neg (by intro h; rcases h with h | h <;> linarith), if_neg (by positivity), if_neg (by intro h; linarith)]
  rfl

section cell
variable {dist : ℕ → TDist} {r : TTestResults L} {e : Dim → L} {m s : ℝ}

theorem ciLower_val (hdf : 0 < r.degreesOfFreedom) (hm : r.mean.val e = .fin m) (hs : r.standardError.val e = .fin s) {alpha : ℝ} (h0 : 0 < alpha) (h1 : alpha < 2) :
    (r.ciLower dist alpha).val e = .fin (m + s * (dist r.degreesOfFreedom.toNat).ppf (alpha / 2)) := by
  simp only [TTestResults.ciLower, DA.zipWith, hm, hs, zAlpha_eq hdf h0 h1, FV.fin_mul_fin, FV.fin_sub_fin]
  congr 1; ring

theorem ciUpper_val (hdf : 0 < r.degreesOfFreedom) (hm : r.mean.val e = .fin m) (hs : r.standardError.val e = .fin s) {alpha : ℝ} (h0 : 0 < alpha) (h1 : alpha < 2) :
    (r.ciUpper dist alpha).val e = .fin (m - s * (dist r.degreesOfFreedom.toNat).ppf (alpha / 2)) := by
  simp only [TTestResults.ciUpper, DA.zipWith, hm, hs, zAlpha_eq hdf h0 h1, FV.fin_mul_fin, FV.fin_add_fin]
  congr 1; ring

theorem pValue_pos (hdf : 0 < r.degreesOfFreedom) (hm : r.mean.val e = .fin m) (hs : r.standardError.val e = .fin s) (hs0 : s ≠ 0) (null : ℝ) :
    (r.pValue dist null).val e = .fin (2 * (1 - (dist r.degreesOfFreedom.toNat).cdf |(m - null) / s|)) := by
  have hz : zScore (.fin m) (.fin s) null = .fin ((m - null) / s) := by
    simp only [zScore, FV.fin_sub_fin, FV.beq, FV.zero_def, decide_eq_true_eq, hs0, Bool.and_false, decide_false, Bool.false_eq_true, if_false]
    exact FV.fin_div_fin_of_ne _ hs0
  simp only [TTestResults.pValue, DA.zipWith, hm, hs, hz, FV.abs, tCdf, if_neg (not_le.mpr hdf), FV.one_def, FV.fin_sub_fin, FV.fin_mul_fin]

theorem pValue_zero (hd : 0 < r.degreesOfFreedom) (hm : r.mean.val e = .fin m) (hs : r.standardError.val e = .fin 0) (null : ℝ) :
    (r.pValue dist null).val e = if m = null then .fin (2 * (1 - (dist r.degreesOfFreedom.toNat).cdf 0)) else .fin 0 := by
  by_cases h : m = null
  · have hz : zScore (.fin m) (.fin 0) null = .fin 0 := by simp [zScore, FV.beq, FV.zero_def, h]
    rw [if_pos h]
    simp only [TTestResults.pValue, DA.zipWith, hm, hs, hz, FV.abs, abs_zero, tCdf, if_neg (not_le.mpr hd), FV.one_def, FV.fin_sub_fin, FV.fin_mul_fin]
  · have hz : (zScore (.fin m) (.fin 0) null).abs = .inf false := by
      simp [zScore, FV.beq, FV.zero_def, sub_eq_zero, h, FV.fin_div_fin, FV.abs]
    rw [if_neg h]
    simp only [TTestResults.pValue, DA.zipWith, hm, hs, hz, tCdf, if_neg (not_le.mpr hd), FV.one_def, FV.fin_sub_fin, FV.fin_mul_fin]
    congr 1; ring

/-- **C54** The confidence interval is `mean ± z * se` where the reference variable lies within `z` with probability `1 - alpha`. -/
theorem C54_interval (hd : ∀ n, 0 < n → IsSymmetricDist (dist n)) (hdf : 0 < r.degreesOfFreedom) (hm : r.mean.val e = .fin m)
    (hs : r.standardError.val e = .fin s) {alpha : ℝ} (h0 : 0 < alpha) (h1 : alpha < 1) :
    ∃ z, 0 < z ∧ (dist r.degreesOfFreedom.toNat).within z = 1 - alpha ∧
      (r.ciLower dist alpha).val e = .fin (m - s * z) ∧ (r.ciUpper dist alpha).val e = .fin (m + s * z) := by
  have hD := hd r.degreesOfFreedom.toNat (by omega)
  refine ⟨-(dist r.degreesOfFreedom.toNat).ppf (alpha / 2), ?_, ?_, ?_, ?_⟩
  · have := hD.ppf_neg (q := alpha / 2) (by linarith) (by linarith); linarith
  · rw [hD.within_eq, hD.symm, hD.cdf_ppf _ (by linarith) (by linarith)]; ring
  · rw [ciLower_val hdf hm hs h0 (by linarith)]; congr 1; ring
  · rw [ciUpper_val hdf hm hs h0 (by linarith)]; congr 1; ring

/-- **C54** Intervals for a smaller alpha contain the ones for a larger alpha. -/
theorem C54_nested (hd : ∀ n, 0 < n → IsSymmetricDist (dist n)) (hdf : 0 < r.degreesOfFreedom) (hm : r.mean.val e = .fin m)
    (hs : r.standardError.val e = .fin s) (hs0 : 0 ≤ s) {alpha alpha' : ℝ} (h0 : 0 < alpha) (hle : alpha ≤ alpha') (h1 : alpha' < 1) :
    ∃ l l' u' u, (r.ciLower dist alpha).val e = .fin l ∧ (r.ciLower dist alpha').val e = .fin l' ∧ (r.ciUpper dist alpha').val e = .fin u' ∧
      (r.ciUpper dist alpha).val e = .fin u ∧ l ≤ l' ∧ l' ≤ m ∧ m ≤ u' ∧ u' ≤ u := by
  have hD := hd r.degreesOfFreedom.toNat (by omega)
  have hp := hD.ppf_mono (q := alpha / 2) (q' := alpha' / 2) (by linarith) (by linarith) (by linarith)
  have hn := hD.ppf_neg (q := alpha' / 2) (by linarith) (by linarith)
  refine ⟨_, _, _, _, ciLower_val hdf hm hs h0 (by linarith), ciLower_val hdf hm hs (by linarith) (by linarith), ciUpper_val hdf hm hs (by linarith) (by linarith),
    ciUpper_val hdf hm hs h0 (by linarith), ?_, ?_, ?_, ?_⟩ <;> nlinarith

/-- **C54** The p-value is the probability that the reference variable is at least as far from 0 as the z-score; it lies in `(0, 1]`. -/
theorem C54_p_value (hd : ∀ n, 0 < n → IsSymmetricDist (dist n)) (hdf : 0 < r.degreesOfFreedom) (hm : r.mean.val e = .fin m)
    (hs : r.standardError.val e = .fin s) (hs0 : 0 < s) (null : ℝ) :
    ∃ p, (r.pValue dist null).val e = .fin p ∧ p = 1 - (dist r.degreesOfFreedom.toNat).within (|m - null| / s) ∧ 0 < p ∧ p ≤ 1 ∧ (p = 1 ↔ m = null) := by
  have hD := hd r.degreesOfFreedom.toNat (by omega)
  refine ⟨_, pValue_pos hdf hm hs hs0.ne' null, ?_, ?_, ?_, ?_⟩
  · rw [hD.within_eq, abs_div, abs_of_pos hs0]; ring
  · have := hD.lt_one |(m - null) / s|; linarith
  · have := hD.strictMono.monotone (abs_nonneg ((m - null) / s)); rw [hD.zero] at this; linarith
  · constructor
    · intro h
      have h2 : (dist r.degreesOfFreedom.toNat).cdf |(m - null) / s| = (dist r.degreesOfFreedom.toNat).cdf 0 := by rw [hD.zero]; linarith
      have h3 := hD.strictMono.injective h2
      rw [abs_eq_zero, div_eq_zero_iff] at h3
      rcases h3 with h3 | h3
      · linarith
      · exact absurd h3 hs0.ne'
    · intro h; rw [h]; simp [hD.zero]; norm_num

/-- **C54** Without any spread the p-value is 1 for the estimate itself and 0 for every other null value. -/
theorem C54_no_spread (hd : ∀ n, 0 < n → IsSymmetricDist (dist n)) (hdf : 0 < r.degreesOfFreedom) (hm : r.mean.val e = .fin m)
    (hs : r.standardError.val e = .fin 0) (null : ℝ) : (r.pValue dist null).val e = .fin (if m = null then 1 else 0) := by
  have hD := hd r.degreesOfFreedom.toNat (by omega)
  rw [pValue_zero hdf hm hs]
  by_cases h : m = null
  · rw [if_pos h, if_pos h, hD.zero]; congr 1; norm_num
  · rw [if_neg h, if_neg h]

/-- **C54** The null value lies outside of the closed confidence interval exactly if the p-value is below alpha. -/
theorem C54_duality (hd : ∀ n, 0 < n → IsSymmetricDist (dist n)) (hdf : 0 < r.degreesOfFreedom) (hm : r.mean.val e = .fin m)
    (hs : r.standardError.val e = .fin s) (hs0 : 0 ≤ s) {alpha : ℝ} (h0 : 0 < alpha) (h1 : alpha < 1) (null : ℝ) :
    FV.lt ((r.pValue dist null).val e) (.fin alpha) = true ↔
      FV.lt (.fin null) ((r.ciLower dist alpha).val e) = true ∨ FV.lt ((r.ciUpper dist alpha).val e) (.fin null) = true := by
  have hD := hd r.degreesOfFreedom.toNat (by omega)
  rw [ciLower_val hdf hm hs h0 (by linarith), ciUpper_val hdf hm hs h0 (by linarith)]
  rcases hs0.eq_or_lt with hz | hpos
  · subst hz
    rw [C54_no_spread hd hdf hm hs]
    simp only [FV.lt, decide_eq_true_eq, zero_mul, add_zero, sub_zero]
    by_cases h : m = null
    · simp only [h, if_true, lt_self_iff_false, or_self, iff_false, not_lt]; exact h1.le
    · simp only [h, if_false, h0, true_iff]; exact lt_or_gt_of_ne (Ne.symm h)
  · rw [pValue_pos hdf hm hs hpos.ne']
    simp only [FV.lt, decide_eq_true_eq]
    generalize hx : (m - null) / s = x
    have hmx : m = null + s * x := by rw [← hx]; field_simp; ring
    have h2 : 2 * (1 - (dist r.degreesOfFreedom.toNat).cdf |x|) < alpha ↔ -|x| < (dist r.degreesOfFreedom.toNat).ppf (alpha / 2) := by
      rw [hD.lt_ppf (by linarith) (by linarith), hD.symm]; constructor <;> intro h <;> linarith
    rw [h2, hmx]
    generalize (dist r.degreesOfFreedom.toNat).ppf (alpha / 2) = q
    rw [neg_lt, lt_abs]
    constructor
    · rintro (h | h)
      · left; nlinarith
      · right; nlinarith
    · rintro (h | h)
      · left; by_contra hc; nlinarith
      · right; by_contra hc; nlinarith

/-- **C54** With some spread the test is significant (p at most alpha) exactly if the null value is not inside of the open confidence interval. -/
theorem C54_significance_boundary (hd : ∀ n, 0 < n → IsSymmetricDist (dist n)) (hdf : 0 < r.degreesOfFreedom) (hm : r.mean.val e = .fin m)
    (hs : r.standardError.val e = .fin s) (hs0 : 0 < s) {alpha : ℝ} (h0 : 0 < alpha) (h1 : alpha < 1) (null : ℝ) :
    FV.le ((r.pValue dist null).val e) (.fin alpha) = true ↔
      FV.le (.fin null) ((r.ciLower dist alpha).val e) = true ∨ FV.le ((r.ciUpper dist alpha).val e) (.fin null) = true := by
  have hD := hd r.degreesOfFreedom.toNat (by omega)
  rw [ciLower_val hdf hm hs h0 (by linarith), ciUpper_val hdf hm hs h0 (by linarith), pValue_pos hdf hm hs hs0.ne']
  simp only [FV.le, decide_eq_true_eq]
  generalize hx : (m - null) / s = x
  have hmx : m = null + s * x := by rw [← hx]; field_simp; ring
  have h2 : 2 * (1 - (dist r.degreesOfFreedom.toNat).cdf |x|) ≤ alpha ↔ -|x| ≤ (dist r.degreesOfFreedom.toNat).ppf (alpha / 2) := by
    rw [← not_lt, ← not_lt, hD.ppf_lt (by linarith) (by linarith), hD.symm, not_lt, not_lt]; constructor <;> intro h <;> linarith
  rw [h2, hmx]
  generalize (dist r.degreesOfFreedom.toNat).ppf (alpha / 2) = q
  rw [neg_le, le_abs]
  constructor
  · rintro (h | h)
    · left; nlinarith
    · right; nlinarith
  · rintro (h | h)
    · left; by_contra hc; nlinarith
    · right; by_contra hc; nlinarith

end cell

/-- **C54** Where the estimate or the standard error is NaN, or there is no degree of freedom, interval and p-value are NaN, and the test is not significant. -/
theorem C54_nan (dist : ℕ → TDist) (r : TTestResults L) (e : Dim → L) (alpha null : ℝ)
    (h : r.mean.val e = .nan ∨ r.standardError.val e = .nan ∨ r.degreesOfFreedom ≤ 0) :
    (r.ciLower dist alpha).val e = .nan ∧ (r.ciUpper dist alpha).val e = .nan ∧ (r.pValue dist null).val e = .nan ∧
      FV.le ((r.pValue dist null).val e) (.fin alpha) = false := by
  have hn : (r.pValue dist null).val e = .nan := by
    rcases h with h | h | h
    · simp [TTestResults.pValue, DA.zipWith, h, zScore, FV.beq, FV.abs, tCdf]
    · simp [TTestResults.pValue, DA.zipWith, h, zScore, FV.beq, FV.abs, tCdf]
    · simp [TTestResults.pValue, DA.zipWith, h, tCdf]
  refine ⟨?_, ?_, hn, by rw [hn]; rfl⟩ <;> rcases h with h | h | h <;>
    simp [TTestResults.ciLower, TTestResults.ciUpper, DA.zipWith, h, zAlpha, tPpf]

/-- **C54** With a single experimental unit everything but the estimate is NaN and nothing is significant. -/
theorem C54_single_unit (dist : ℕ → TDist) (d : Dim) (mean : DA L (FV ℝ)) (dev : Ordered L (FV ℝ)) (l : L) (h : dev.order d = [l]) (e : Dim → L) (alpha null : ℝ) :
    (iidResults d mean dev).mean = mean ∧ ((iidResults d mean dev).ciLower dist alpha).val e = .nan ∧
      ((iidResults d mean dev).ciUpper dist alpha).val e = .nan ∧ ((iidResults d mean dev).pValue dist null).val e = .nan := by
  have := C54_nan dist (iidResults d mean dev) e alpha null (Or.inr (Or.inr (by simp [iidResults, h])))
  exact ⟨rfl, this.1, this.2.1, this.2.2.1⟩

/-- **C54** The methods of the result, metric by metric and variable by variable: `confidence_intervals` gives the lower ends first and the upper ends second; they lie around the
`point_estimates`, at a distance of the same multiple of the `standard_error_estimates` that `C54_interval` describes, and all four have the names of the results. -/
theorem C54_methods {dist : ℕ → TDist} (hd : ∀ n, 0 < n → IsSymmetricDist (dist n)) {rs : List (String × Vars (TTestResults L))} {alpha : ℝ} (h0 : 0 < alpha) (h1 : alpha < 1)
    {i j : ℕ} {n v : String} {vs : Vars (TTestResults L)} {r : TTestResults L} (hi : rs[i]? = some (n, vs)) (hj : vs[j]? = some (v, r)) (hdf : 0 < r.degreesOfFreedom) :
    ∃ lows highs points errors, (tConfidenceIntervals dist rs alpha).1[i]? = some (n, lows) ∧ (tConfidenceIntervals dist rs alpha).2[i]? = some (n, highs) ∧
      (tPointEstimates rs)[i]? = some (n, points) ∧ (tStandardErrors rs)[i]? = some (n, errors) ∧
      ∃ low high point error, lows[j]? = some (v, low) ∧ highs[j]? = some (v, high) ∧ points[j]? = some (v, point) ∧ errors[j]? = some (v, error) ∧
        ∀ e m s, point.val e = .fin m → error.val e = .fin s → 0 ≤ s → ∃ z, 0 < z ∧ (dist r.degreesOfFreedom.toNat).within z = 1 - alpha ∧
          low.val e = .fin (m - s * z) ∧ high.val e = .fin (m + s * z) ∧ m - s * z ≤ m ∧ m ≤ m + s * z := by
  refine ⟨_, _, _, _, by simp only [tConfidenceIntervals, mapTree, List.getElem?_map, hi]; rfl, by simp only [tConfidenceIntervals, mapTree, List.getElem?_map, hi]; rfl,
    by simp only [tPointEstimates, mapTree, List.getElem?_map, hi]; rfl, by simp only [tStandardErrors, mapTree, List.getElem?_map, hi]; rfl, ?_⟩
  refine ⟨_, _, _, _, by simp only [List.getElem?_map, hj]; rfl, by simp only [List.getElem?_map, hj]; rfl, by simp only [List.getElem?_map, hj]; rfl,
    by simp only [List.getElem?_map, hj]; rfl, ?_⟩
  intro e m s hm hs hs0
  obtain ⟨z, z0, z1, z2, z3⟩ := C54_interval hd hdf hm hs h0 h1
  exact ⟨z, z0, z1, z2, z3, by nlinarith, by nlinarith⟩

/-- **C54** `significance_tests` has the names of the results and is true exactly where the p-value is at most alpha. -/
theorem C54_significance_tests (dist : ℕ → TDist) (rs : List (String × Vars (TTestResults L))) (null alpha : ℝ) :
    (significanceTests (tPValues dist rs) null alpha).map (fun mv => (mv.1, mv.2.map Prod.fst)) = rs.map (fun mv => (mv.1, mv.2.map Prod.fst)) ∧
    ∀ (i : ℕ) (m : String) (vs : Vars (TTestResults L)), rs[i]? = some (m, vs) → ∃ bs, (significanceTests (tPValues dist rs) null alpha)[i]? = some (m, bs) ∧
      ∀ (j : ℕ) (v : String) (r : TTestResults L), vs[j]? = some (v, r) → ∃ b, bs[j]? = some (v, b) ∧
        ∀ e, b.val e = true ↔ FV.le ((r.pValue dist null).val e) (.fin alpha) = true := by
  constructor
  · simp [significanceTests, tPValues, mapTree, Function.comp_def]
  · intro i m vs hi
    refine ⟨_, by simp only [significanceTests, tPValues, mapTree, List.map_map, List.getElem?_map, hi]; rfl, ?_⟩
    intro j v r hj
    refine ⟨_, by simp only [List.map_map, List.getElem?_map, hj]; rfl, ?_⟩
    intro e
    rfl

/-! ### The hypotheses can be met -/

example : ∀ n, 0 < n → IsSymmetricDist ((fun _ => student1) n) := fun _ _ => student1_spec

/-- Four units with deviations 1, -1, 2, -2 from a mean of 3. -/
def exDeviations : Ordered ℕ (FV ℝ) where
  arr := { dims := {"init_time"}, coords := fun _ => {0, 1, 2, 3}, val := fun e => .fin (if e "init_time" = 0 then 1 else if e "init_time" = 1 then -1 else if e "init_time" = 2 then 2 else -2) }
  order := fun _ => [0, 1, 2, 3]

example (e : Dim → ℕ) : 0 < (iidResults "init_time" (DA.scalar (.fin 3)) exDeviations).degreesOfFreedom ∧
    ∃ s, 0 < s ∧ (iidResults "init_time" (DA.scalar (.fin 3)) exDeviations).standardError.val e = .fin s := by
  refine ⟨by simp [iidResults, exDeviations], √5 / √6, by positivity, ?_⟩
  simp [iidResults, exDeviations, reduceSeries, series, varianceEstimate, FV.sq, setLabel]
  rw [FV.fin_div_fin_of_ne _ (by norm_num), FV.fin_div_fin_of_ne _ (by norm_num)]
  simp only [FV.sqrt]
  rw [if_neg (by norm_num)]
  congr 1
  norm_num

end WBX
