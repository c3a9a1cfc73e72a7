import Verif.Spec.Inference
import Verif.Lemmas.Dct
import Mathlib.Tactic.LinearCombination
import Mathlib.Topology.Algebra.InfiniteSum.NatInt
import Mathlib.Topology.Algebra.InfiniteSum.Ring
import Mathlib.Topology.Instances.Real.Lemmas

/-!
# C55: standard errors with autocorrelation
-/

set_option linter.unusedSectionVars false

namespace WBX
open Classical DA Finset
variable {L : Type} [DecidableEq L]

/-! ### Sums of lists of finite values -/

theorem list_sum_fin {ι : Type} (l : List ι) (f : ι → FV ℝ) (g : ι → ℝ) (h : ∀ i ∈ l, f i = .fin (g i)) : (l.map f).sum = .fin (l.map g).sum := by
  induction l with
  | nil => rfl
  | cons a l ih => simp only [List.map_cons, List.sum_cons, h a (by simp), ih (fun i hi => h i (by simp [hi])), FV.fin_add_fin]

theorem sum_map_range (n : ℕ) (g : ℕ → ℝ) : ((List.range n).map g).sum = ∑ i ∈ Finset.range n, g i := by
  induction n with
  | zero => rfl
  | succ n ih => rw [List.range_succ, List.map_append, List.sum_append, Finset.sum_range_succ, ih]; simp

theorem sum_shift (v : ℕ) (g : ℕ → ℝ) : ∑ i ∈ Finset.range v, g (i + 1) = ∑ k ∈ Finset.Icc 1 v, g k := by
  induction v with
  | zero => rfl
  | succ v ih => rw [Finset.sum_range_succ, ih, Finset.sum_Icc_succ_top (by omega)]

/-- The list of the values `x 0, …, x (n - 1)`. -/
def finSeries (n : ℕ) (x : ℕ → ℝ) : List (FV ℝ) := (List.range n).map (fun i => .fin (x i))

@[simp] theorem finSeries_length (n : ℕ) (x : ℕ → ℝ) : (finSeries n x).length = n := by simp [finSeries]

theorem varianceEstimate_fin {n : ℕ} (x : ℕ → ℝ) (hn : 2 ≤ n) : varianceEstimate 1 (finSeries n x) = .fin (sampleVariance n x) := by
  have hne : (n : ℝ) - 1 ≠ 0 := by have : (2 : ℝ) ≤ n := by exact_mod_cast hn
                                   linarith
  unfold varianceEstimate sampleVariance
  rw [finSeries_length, show (finSeries n x).map FV.sq = (List.range n).map (fun i => FV.fin (x i ^ 2)) by simp [finSeries, FV.sq, Function.comp_def, sq],
    list_sum_fin _ _ (fun i => x i ^ 2) (fun _ _ => rfl), sum_map_range]
  rw [show (FV.fin ((n : ℝ) - (1 : ℕ)) : FV ℝ) = FV.fin ((n : ℝ) - 1) by simp, FV.fin_div_fin_of_ne _ hne]

theorem laggedMean_fin {n lag : ℕ} (x : ℕ → ℝ) (hlag : lag < n) :
    laggedMean lag (finSeries n x) = .fin ((∑ i ∈ range (n - lag), x i * x (i + lag)) / (n - lag : ℕ)) := by
  have hne : ((n - lag : ℕ) : ℝ) ≠ 0 := by exact_mod_cast (by omega : n - lag ≠ 0)
  have hps : List.zipWith (· * ·) ((finSeries n x).take ((finSeries n x).length - lag)) ((finSeries n x).drop lag) =
      (List.range (n - lag)).map (fun i => FV.fin (x i * x (i + lag))) := by
    apply List.ext_getElem
    · simp [finSeries]
    · intro i h1 h2
      simp [finSeries, Nat.add_comm]
  unfold laggedMean
  simp only [hps, List.length_map, List.length_range]
  rw [list_sum_fin _ _ (fun i => x i * x (i + lag)) (fun _ _ => rfl), sum_map_range, FV.fin_div_fin_of_ne _ hne]

theorem autocorrelation_fin {n lag : ℕ} (x : ℕ → ℝ) (hn : 2 ≤ n) (hlag : lag < n) (hv : sampleVariance n x ≠ 0) :
    autocorrelation lag (finSeries n x) = .fin (sampleAutocorrelation n lag x) := by
  simp only [autocorrelation, varianceEstimate_fin x hn, laggedMean_fin x hlag, FV.beq, FV.zero_def, hv, decide_false, Bool.false_eq_true, if_false]
  rw [FV.fin_div_fin_of_ne _ hv]; rfl

theorem sampleVariance_nonneg {n : ℕ} (x : ℕ → ℝ) (hn : 1 ≤ n) : 0 ≤ sampleVariance n x := by
  have : (1 : ℝ) ≤ n := by exact_mod_cast hn
  exact div_nonneg (Finset.sum_nonneg (fun i _ => sq_nonneg _)) (by linarith)

theorem iid_se_fin {n : ℕ} (x : ℕ → ℝ) (hn : 2 ≤ n) :
    FV.sqrt (varianceEstimate 1 (finSeries n x) / FV.fin ((finSeries n x).length : ℝ)) = .fin √(sampleVariance n x / n) := by
  have hne : (n : ℝ) ≠ 0 := by exact_mod_cast (by omega : n ≠ 0)
  rw [varianceEstimate_fin x hn, finSeries_length, FV.fin_div_fin_of_ne _ hne]
  exact if_neg (not_lt.mpr (div_nonneg (sampleVariance_nonneg x (by omega)) (by positivity)))

/-! ### The inflation factor -/

theorem inflation_fin {r1 r2 : ℝ} (h1 : 1 - r1 ^ 2 ≠ 0) (h2 : 1 - (r1 * (1 - r2)) / (1 - r1 ^ 2) - (r2 - r1 ^ 2) / (1 - r1 ^ 2) ≠ 0) :
    inflationFromAutocorrelation (.fin r1) (.fin r2) = FV.sqrt (.fin (geerFactorSq r1 r2)) := by
  have h1' : 1 - r1 * r1 ≠ 0 := by rwa [← sq]
  simp only [inflationFromAutocorrelation, kSquared, FV.sq, FV.one_def, FV.fin_mul_fin, FV.fin_sub_fin, FV.fin_div_fin_of_ne _ h1']
  rw [FV.fin_div_fin_of_ne _ (by simp only [sq] at h2; exact mul_ne_zero h2 h2)]
  simp only [geerFactorSq, sq]

theorem yuleWalker_solve {r1 r2 p1 p2 : ℝ} (h : YuleWalker r1 r2 p1 p2) (h1 : 1 - r1 ^ 2 ≠ 0) :
    p1 = (r1 * (1 - r2)) / (1 - r1 ^ 2) ∧ p2 = (r2 - r1 ^ 2) / (1 - r1 ^ 2) := by
  obtain ⟨e1, e2⟩ := h
  constructor
  · rw [eq_div_iff h1]; linear_combination r1 * e2 - e1
  · rw [eq_div_iff h1]; linear_combination r1 * e1 - e2

/-- **C55** The inflation factor from autocorrelations is the one from the coefficients of the AR(2) process with these autocorrelations. -/
theorem C55_same_factor {r1 r2 p1 p2 : ℝ} (h : YuleWalker r1 r2 p1 p2) (h1 : r1 ^ 2 ≠ 1) (hp2 : p2 ≠ 1) (hroot : p1 + p2 ≠ 1) :
    inflationFromAutocorrelation (.fin r1) (.fin r2) = inflationFromCoefficients (.fin p1) (.fin p2) := by
  have h1' : 1 - r1 ^ 2 ≠ 0 := fun hc => h1 (by linarith)
  obtain ⟨s1, s2⟩ := yuleWalker_solve h h1'
  have hd : 1 - p2 ≠ 0 := fun hc => hp2 (by linarith)
  have hr : 1 - p1 - p2 ≠ 0 := fun hc => hroot (by linarith)
  rw [inflation_fin h1' (by rw [← s1, ← s2]; exact hr)]
  simp only [inflationFromCoefficients, kSquared, FV.sq, FV.one_def, FV.fin_mul_fin, FV.fin_sub_fin, FV.fin_div_fin_of_ne _ hd, FV.fin_add_fin]
  rw [FV.fin_div_fin_of_ne _ (mul_ne_zero hr hr)]
  have e1 : p1 / (1 - p2) = r1 := by rw [div_eq_iff hd]; linear_combination -h.1
  have e2 : p2 + p1 * p1 / (1 - p2) = r2 := by rw [mul_div_assoc, e1]; linear_combination -h.2
  rw [e1, e2, geerFactorSq, ← s1, ← s2, sq]

/-- **C55** Its square is the sum of the autocorrelations of the process over all lags of both signs: the factor by which the variance of a long mean exceeds the one of
independent values. -/
theorem C55_long_run {p1 p2 : ℝ} {rho : ℕ → ℝ} (h : AR2Autocorrelation p1 p2 rho) (h1 : rho 1 ^ 2 ≠ 1) (hp2 : p2 ≠ 1) (hroot : p1 + p2 ≠ 1) :
    inflationFromAutocorrelation (.fin (rho 1)) (.fin (rho 2)) = FV.sqrt (.fin (1 + 2 * ∑' k, rho (k + 1))) := by
  have h1' : 1 - rho 1 ^ 2 ≠ 0 := fun hc => h1 (by linarith)
  have hd : 1 - p2 ≠ 0 := fun hc => hp2 (by linarith)
  have hr : 1 - p1 - p2 ≠ 0 := fun hc => hroot (by linarith)
  have hyw : YuleWalker (rho 1) (rho 2) p1 p2 := ⟨h.one, by have := h.step 0; rw [h.zero] at this; linarith⟩
  obtain ⟨s1, s2⟩ := yuleWalker_solve hyw h1'
  rw [inflation_fin h1' (by rw [← s1, ← s2]; exact hr)]
  congr 2
  have hs1 : Summable (fun k => rho (k + 1)) := (summable_nat_add_iff 1).mpr h.summable
  have hs2 : Summable (fun k => rho (k + 2)) := (summable_nat_add_iff 2).mpr h.summable
  have t0 : ∑' k, rho k = rho 0 + ∑' k, rho (k + 1) := h.summable.tsum_eq_zero_add
  have t1 : ∑' k, rho (k + 1) = rho 1 + ∑' k, rho (k + 2) := by
    have := hs1.tsum_eq_zero_add
    simpa [add_assoc] using this
  have t2 : ∑' k, rho (k + 2) = p1 * ∑' k, rho (k + 1) + p2 * ∑' k, rho k := by
    rw [← tsum_mul_left, ← tsum_mul_left, ← (hs1.mul_left p1).tsum_add (h.summable.mul_left p2)]
    exact tsum_congr h.step
  rw [h.zero] at t0
  generalize (∑' k, rho (k + 1)) = S at *
  have hS : (1 - p1 - p2) * S = rho 1 + p2 := by rw [t0] at t2; linear_combination t1 + t2
  have e1 : rho 1 = p1 / (1 - p2) := by rw [eq_div_iff hd]; linear_combination hyw.1
  have e2 : rho 2 = p2 + p1 * (p1 / (1 - p2)) := by rw [← e1]; linear_combination hyw.2
  have hS' : S = (p1 / (1 - p2) + p2) / (1 - p1 - p2) := by rw [eq_div_iff hr, ← e1]; linear_combination hS
  rw [geerFactorSq, ← s1, ← s2, e1, e2, hS']
  field_simp
  ring

/-- **C55** Without autocorrelation at lags 1 and 2 nothing is inflated. -/
theorem C55_uncorrelated : inflationFromAutocorrelation 0 0 = 1 := by
  rw [FV.zero_def, inflation_fin (by norm_num) (by norm_num)]
  simp [geerFactorSq, FV.sqrt, FV.one_def]

/-! ### Geer's standard error -/

section geer
variable {d : Dim} {mean : DA L (FV ℝ)} {dev : Ordered L (FV ℝ)} {coord : UnitCoord} {r : TTestResults L}

theorem geer_ok (h : geerResults coord d mean dev = .ok r) : r.mean = mean ∧ r.degreesOfFreedom = ((dev.order d).length : ℤ) - 1 ∧
    ∀ e, r.standardError.val e = FV.sqrt (varianceEstimate 1 (series d dev e) / FV.fin ((series d dev e).length : ℝ)) *
      inflationFromAutocorrelation (autocorrelation 1 (series d dev e)) (autocorrelation 2 (series d dev e)) := by
  unfold geerResults at h
  cases hc : checkUniformStep coord with
  | error err => rw [hc] at h; cases h
  | ok u => rw [hc] at h; injection h with h; subst h; exact ⟨rfl, rfl, fun _ => rfl⟩

/-- **C55** Geer's standard error is the one for independent units times the inflation factor of the estimated autocorrelations; estimate and degrees of freedom are
those of the test for independent units. -/
theorem C55_geer (h : geerResults coord d mean dev = .ok r) {n : ℕ} {x : ℕ → ℝ} {e : Dim → L} (hx : series d dev e = finSeries n x) (hn : 3 ≤ n)
    (hv : sampleVariance n x ≠ 0) (h1 : sampleAutocorrelation n 1 x ^ 2 ≠ 1)
    (h2 : 1 - (sampleAutocorrelation n 1 x * (1 - sampleAutocorrelation n 2 x)) / (1 - sampleAutocorrelation n 1 x ^ 2) -
      (sampleAutocorrelation n 2 x - sampleAutocorrelation n 1 x ^ 2) / (1 - sampleAutocorrelation n 1 x ^ 2) ≠ 0)
    (h3 : 0 ≤ geerFactorSq (sampleAutocorrelation n 1 x) (sampleAutocorrelation n 2 x)) :
    r.mean = mean ∧ r.degreesOfFreedom = (iidResults d mean dev).degreesOfFreedom ∧ (iidResults d mean dev).standardError.val e = .fin √(sampleVariance n x / n) ∧
      r.standardError.val e = .fin (√(sampleVariance n x / n) * √(geerFactorSq (sampleAutocorrelation n 1 x) (sampleAutocorrelation n 2 x))) := by
  obtain ⟨g1, g2, g3⟩ := geer_ok h
  refine ⟨g1, by rw [g2]; rfl, ?_, ?_⟩
  · simp only [iidResults, reduceSeries, hx]; exact iid_se_fin x (by omega)
  · rw [g3, hx, iid_se_fin x (by omega), autocorrelation_fin x (by omega) (by omega) hv, autocorrelation_fin x (by omega) (by omega) hv,
      inflation_fin (fun hc => h1 (by linarith)) h2]
    simp only [FV.sqrt, if_neg (not_lt.mpr h3), FV.fin_mul_fin]

/-- **C55** Where all units agree, the standard error is 0 like the one for independent units. -/
theorem C55_geer_no_spread (h : geerResults coord d mean dev = .ok r) {n : ℕ} {e : Dim → L} (hx : series d dev e = finSeries n (fun _ => 0)) (hn : 2 ≤ n) :
    r.standardError.val e = 0 ∧ (iidResults d mean dev).standardError.val e = 0 := by
  have hv : sampleVariance n (fun _ => (0 : ℝ)) = 0 := by simp [sampleVariance]
  have hs : FV.sqrt (varianceEstimate 1 (finSeries n (fun _ => 0)) / FV.fin ((finSeries n (fun _ => (0 : ℝ))).length : ℝ)) = 0 := by
    rw [iid_se_fin _ hn, hv]; simp [FV.zero_def]
  have ha : ∀ lag, autocorrelation lag (finSeries n (fun _ => 0)) = 0 := by
    intro lag; simp [autocorrelation, varianceEstimate_fin _ hn, hv, FV.beq, FV.zero_def]
  constructor
  · rw [(geer_ok h).2.2, hx, hs, ha, ha, C55_uncorrelated]; simp [FV.zero_def, FV.one_def]
  · simp only [iidResults, reduceSeries, hx]; exact hs

end geer

/-! ### The estimator of Lazarus et al. -/

theorem zipIdx_finSeries (n : ℕ) (x : ℕ → ℝ) (f : FV ℝ × ℕ → FV ℝ) :
    (finSeries n x).zipIdx.map f = (List.range n).map (fun i => f (.fin (x i), i)) := by
  apply List.ext_getElem
  · simp
  · intro i h1 h2; simp [finSeries]

theorem dctOrtho_fin (n : ℕ) (x : ℕ → ℝ) (k : ℕ) : dctOrtho (finSeries n x) k = .fin (∑ j ∈ range n, x j * dctKernel n k j) := by
  unfold dctOrtho
  rw [zipIdx_finSeries, list_sum_fin _ _ (fun j => x j * (2 * Real.cos (Real.pi * k * (2 * j + 1) / (2 * n)))) (fun j _ => by simp), sum_map_range, finSeries_length,
    FV.fin_mul_fin, Finset.sum_mul]
  congr 1
  refine Finset.sum_congr rfl (fun j _ => ?_)
  simp only [dctKernel]; ring

theorem dct_eq_projection {n : ℕ} (x : ℕ → ℝ) {k : ℕ} (hk : k ≠ 0) : ∑ j ∈ range n, x j * dctKernel n k j = cosineProjection n x k := by
  unfold cosineProjection
  rw [Finset.mul_sum]
  refine Finset.sum_congr rfl (fun j _ => ?_)
  rw [dctKernel, if_neg hk]
  have : √(2 / (n : ℝ)) = 2 * √(1 / (2 * n)) := by
    rw [show (2 : ℝ) / n = 2 ^ 2 * (1 / (2 * n)) by ring, Real.sqrt_mul (by norm_num), Real.sqrt_sq (by norm_num)]
  rw [this, show Real.pi * k * ((j : ℝ) + 1 / 2) / n = Real.pi * k * (2 * j + 1) / (2 * n) by ring]
  ring

theorem longRunVariance_fin {n v : ℕ} (x : ℕ → ℝ) (hv : 1 ≤ v) (hn : v + 1 ≤ n) :
    longRunVariance v (finSeries n x) = .fin ((∑ k ∈ Finset.Icc 1 v, cosineProjection n x k ^ 2) / v) := by
  have hps : (((List.range (finSeries n x).length).map (dctOrtho (finSeries n x))).take (v + 1)).drop 1 =
      (List.range v).map (fun i => FV.fin (cosineProjection n x (i + 1))) := by
    apply List.ext_getElem
    · simp; omega
    · intro i h1 h2
      simp only [List.getElem_drop, List.getElem_take, List.getElem_map, List.getElem_range, dctOrtho_fin]
      rw [dct_eq_projection x (by omega), Nat.add_comm]
  unfold longRunVariance
  simp only [hps, List.length_map, List.length_range]
  have hne : (v : ℝ) ≠ 0 := by exact_mod_cast (by omega : v ≠ 0)
  rw [show ((List.range v).map (fun i => FV.fin (cosineProjection n x (i + 1)))).map FV.sq = (List.range v).map (fun i => FV.fin (cosineProjection n x (i + 1) ^ 2)) by
      simp [FV.sq, Function.comp_def, sq],
    list_sum_fin _ _ (fun i => cosineProjection n x (i + 1) ^ 2) (fun _ _ => rfl), sum_map_range, FV.fin_div_fin_of_ne _ hne]
  rw [sum_shift v (fun k => cosineProjection n x k ^ 2)]

theorem sum_projections {n : ℕ} (x : ℕ → ℝ) (hn : 1 ≤ n) (hmean : ∑ j ∈ range n, x j = 0) :
    ∑ k ∈ Finset.Icc 1 (n - 1), cosineProjection n x k ^ 2 = ∑ j ∈ range n, x j ^ 2 := by
  rw [← sum_sq_dct n x]
  obtain ⟨m, rfl⟩ : ∃ m, n = m + 1 := ⟨n - 1, by omega⟩
  rw [Finset.sum_range_succ']
  have h0 : ∑ j ∈ range (m + 1), x j * dctKernel (m + 1) 0 j = 0 := by
    have : ∀ j ∈ range (m + 1), x j * dctKernel (m + 1) 0 j = x j * (2 * √(1 / (4 * ((m + 1 : ℕ) : ℝ)))) := by
      intro j _; simp [dctKernel]
    rw [Finset.sum_congr rfl this, ← Finset.sum_mul, hmean, zero_mul]
  rw [h0]
  simp only [ne_eq, OfNat.ofNat_ne_zero, not_false_eq_true, zero_pow, add_zero, Nat.add_sub_cancel]
  rw [← sum_shift m (fun k => cosineProjection (m + 1) x k ^ 2)]
  exact Finset.sum_congr rfl (fun k _ => by rw [dct_eq_projection x (Nat.succ_ne_zero k)])

section lazarus
variable {d : Dim} {mean : DA L (FV ℝ)} {dev : Ordered L (FV ℝ)} {coord : UnitCoord} {r : TTestResults L} {v0 : ℝ}

theorem lazarus_ok (h : lazarusResults v0 coord d mean dev = .ok r) : r.mean = mean ∧ r.degreesOfFreedom = lazarusV v0 (dev.order d).length ∧
    ∀ e, r.standardError.val e = FV.sqrt (longRunVariance (lazarusV v0 (dev.order d).length).toNat (series d dev e) / FV.fin ((series d dev e).length : ℝ)) := by
  unfold lazarusResults at h
  cases hc : checkUniformStep coord with
  | error err => rw [hc] at h; cases h
  | ok u => rw [hc] at h; injection h with h; subst h; exact ⟨rfl, rfl, fun _ => rfl⟩

theorem lazarusV_range {n : ℕ} (hn : 2 ≤ n) : 1 ≤ lazarusV v0 n ∧ lazarusV v0 n ≤ n - 1 := by
  unfold lazarusV
  exact ⟨le_min (le_max_left _ _) (by omega), min_le_right _ _⟩

/-- **C55** The standard error of Lazarus et al. uses `v` cosines, at least one and less than the number of units, and as many degrees of freedom. -/
theorem C55_lazarus (h : lazarusResults v0 coord d mean dev = .ok r) {x : ℕ → ℝ} {n : ℕ} {e : Dim → L} (hx : series d dev e = finSeries n x) (hn : 2 ≤ n) :
    ∃ v : ℕ, 1 ≤ v ∧ v ≤ n - 1 ∧ r.mean = mean ∧ r.degreesOfFreedom = v ∧ (1 ≤ v0 * (n : ℝ) ^ (2 / 3 : ℝ) → v0 * (n : ℝ) ^ (2 / 3 : ℝ) < n → v = ⌊v0 * (n : ℝ) ^ (2 / 3 : ℝ)⌋₊) ∧
      r.standardError.val e = .fin √((∑ k ∈ Finset.Icc 1 v, cosineProjection n x k ^ 2) / v / n) := by
  have hlen : (dev.order d).length = n := by have := congrArg List.length hx; simpa [series] using this
  obtain ⟨g1, g2, g3⟩ := lazarus_ok h
  rw [hlen] at g2 g3
  obtain ⟨hv1, hv2⟩ := lazarusV_range (v0 := v0) hn
  refine ⟨(lazarusV v0 n).toNat, by omega, by omega, g1, by rw [g2]; omega, ?_, ?_⟩
  · intro ha hb
    have hp : pyInt (v0 * (n : ℝ) ^ (2 / 3 : ℝ)) = ⌊v0 * (n : ℝ) ^ (2 / 3 : ℝ)⌋ := if_pos (by linarith)
    have hf1 : 1 ≤ ⌊v0 * (n : ℝ) ^ (2 / 3 : ℝ)⌋ := Int.le_floor.mpr (by exact_mod_cast ha)
    have hf2 : ⌊v0 * (n : ℝ) ^ (2 / 3 : ℝ)⌋ < n := Int.floor_lt.mpr (by exact_mod_cast hb)
    unfold lazarusV
    rw [hp, max_eq_right hf1, min_eq_left (by omega)]
    rfl
  · have hne : (n : ℝ) ≠ 0 := by exact_mod_cast (by omega : n ≠ 0)
    rw [g3, hx, longRunVariance_fin x (by omega) (by omega), finSeries_length, FV.fin_div_fin_of_ne _ hne]
    exact if_neg (not_lt.mpr (by positivity))

/-- **C55** With `v_0` at least the cube root of the number of units it is the t-test for independent units. -/
theorem C55_lazarus_iid (h : lazarusResults v0 coord d mean dev = .ok r) {x : ℕ → ℝ} {n : ℕ} {e : Dim → L} (hx : series d dev e = finSeries n x) (hn : 2 ≤ n)
    (hmean : ∑ j ∈ range n, x j = 0) (hv0 : (n : ℝ) ^ (1 / 3 : ℝ) ≤ v0) :
    r.degreesOfFreedom = (iidResults d mean dev).degreesOfFreedom ∧ r.standardError.val e = (iidResults d mean dev).standardError.val e := by
  have hlen : (dev.order d).length = n := by have := congrArg List.length hx; simpa [series] using this
  have hn0 : (0 : ℝ) < n := by exact_mod_cast (by omega : 0 < n)
  have hbig : (n : ℝ) ≤ v0 * (n : ℝ) ^ (2 / 3 : ℝ) := by
    have : (n : ℝ) = (n : ℝ) ^ (1 / 3 : ℝ) * (n : ℝ) ^ (2 / 3 : ℝ) := by rw [← Real.rpow_add hn0]; norm_num
    calc (n : ℝ) = (n : ℝ) ^ (1 / 3 : ℝ) * (n : ℝ) ^ (2 / 3 : ℝ) := this
      _ ≤ _ := mul_le_mul_of_nonneg_right hv0 (Real.rpow_nonneg hn0.le _)
  have hV : lazarusV v0 n = n - 1 := by
    unfold lazarusV
    have hp : pyInt (v0 * (n : ℝ) ^ (2 / 3 : ℝ)) = ⌊v0 * (n : ℝ) ^ (2 / 3 : ℝ)⌋ := if_pos (by linarith)
    have : (n : ℤ) ≤ ⌊v0 * (n : ℝ) ^ (2 / 3 : ℝ)⌋ := Int.le_floor.mpr (by exact_mod_cast hbig)
    rw [hp, max_eq_right (by omega), min_eq_right (by omega)]
  obtain ⟨g1, g2, g3⟩ := lazarus_ok h
  refine ⟨by rw [g2, hlen, hV]; simp [iidResults, hlen], ?_⟩
  rw [g3, hlen, hV, hx, show ((n : ℤ) - 1).toNat = n - 1 by omega, longRunVariance_fin x (by omega) (by omega), sum_projections x (by omega) hmean]
  simp only [iidResults, reduceSeries, hx, varianceEstimate_fin x hn, sampleVariance]
  rw [Nat.cast_sub (by omega), Nat.cast_one]

end lazarus

/-! ### Spacing of the units -/

/-- The positions of the units are equally spaced. -/
def EquallySpaced (xs : List ℤ) : Prop := ∃ step, ∀ i (h : i + 1 < xs.length), xs[i + 1] - xs[i] = step

theorem diffs_get {xs : List ℤ} {i : ℕ} (h : i + 1 < xs.length) : (diffs xs)[i]? = some (xs[i + 1] - xs[i]) := by
  unfold diffs
  rw [List.getElem?_eq_getElem (by simp; omega)]
  simp

/-- **C55** Integer coordinates of at least two units are accepted exactly if they are equally spaced, otherwise a `ValueError` is raised. -/
theorem C55_spacing (xs : List ℤ) (hn : 2 ≤ xs.length) :
    (EquallySpaced xs → checkUniformStep (.integer xs) = .ok ()) ∧ (¬ EquallySpaced xs → checkUniformStep (.integer xs) = .error .valueError) := by
  have hlen : (diffs xs).length = xs.length - 1 := by simp [diffs]
  obtain ⟨x, rest, hd⟩ : ∃ x rest, diffs xs = x :: rest := by
    cases hd : diffs xs with
    | nil => rw [hd] at hlen; simp at hlen; omega
    | cons x rest => exact ⟨x, rest, rfl⟩
  have hcheck : checkUniformStep (.integer xs) = if (diffs xs).all (fun y => decide (x = y)) then .ok () else .error .valueError := by
    simp only [checkUniformStep, checkConstantInt, hd]
  have hx0 : ∀ h : 0 + 1 < xs.length, xs[0 + 1] - xs[0] = x := by
    intro h; have := diffs_get h; rw [hd] at this; simpa using this.symm
  have hiff : (diffs xs).all (fun y => decide (x = y)) = true ↔ EquallySpaced xs := by
    rw [List.all_eq_true]
    constructor
    · intro h
      refine ⟨x, fun i hi => ?_⟩
      have := h _ (List.mem_of_getElem? (diffs_get hi))
      simpa using (of_decide_eq_true this).symm
    · rintro ⟨step, h⟩ y hy
      obtain ⟨i, hi, rfl⟩ := List.mem_iff_getElem.mp hy
      have hi' : i + 1 < xs.length := by omega
      have h1 := diffs_get hi'
      rw [List.getElem?_eq_getElem hi, Option.some.injEq] at h1
      rw [decide_eq_true_eq, h1, h i hi', ← hx0 (by omega), h 0 (by omega)]
  constructor
  · intro h; rw [hcheck, if_pos (hiff.mpr h)]
  · intro h; rw [hcheck, if_neg (fun hc => h (hiff.mp hc))]

/-- **C55** ★ The spacing of `datetime64` coordinates, the usual ones, is not checked; numeric coordinates of a single unit end in an `IndexError`. -/
theorem C55_spacing_gaps : (∀ xs, checkUniformStep (.other xs) = .ok ()) ∧ (∀ x, checkUniformStep (.integer [x]) = .error .indexError) ∧
    (∀ x, checkUniformStep (.float [x]) = .error .indexError) ∧ ¬ EquallySpaced [0, 6, 100] := by
  refine ⟨fun _ => rfl, fun _ => rfl, fun _ => rfl, ?_⟩
  rintro ⟨step, h⟩
  have h0 := h 0 (by simp)
  have h1 := h 1 (by simp)
  simp at h0 h1
  omega

/-! ### Findings -/

/-- One cell whose units have the given deviations. -/
def exUnits (xs : List ℝ) : Ordered ℕ (FV ℝ) where
  arr := { dims := {"init_time"}, coords := fun _ => Finset.range xs.length, val := fun e => .fin (xs.getD (e "init_time") 0) }
  order := fun _ => List.range xs.length

theorem exUnits_series (xs : List ℝ) (e : Dim → ℕ) : series "init_time" (exUnits xs) e = finSeries xs.length (fun i => xs.getD i 0) := by
  simp [series, exUnits, finSeries, setLabel]

/-- **C55** ★ Geer's factor can vanish although the units differ: deviations -1, 0, 1 have the standard error 0, so that every null value but the mean is rejected with
p-value 0. -/
theorem C55_geer_zero (dist : ℕ → TDist) (e : Dim → ℕ) (null : ℝ) (hnull : null ≠ 3) :
    ∃ r, geerResults .missing "init_time" (DA.scalar (.fin 3)) (exUnits [-1, 0, 1]) = .ok r ∧ r.standardError.val e = .fin 0 ∧ (r.pValue dist null).val e = .fin 0 := by
  obtain ⟨r, hr⟩ : ∃ r, geerResults .missing "init_time" (DA.scalar (.fin 3)) (exUnits [-1, 0, 1]) = .ok r := ⟨_, rfl⟩
  obtain ⟨g1, g2, g3⟩ := geer_ok hr
  have hv : sampleVariance 3 (fun i => [(-1 : ℝ), 0, 1].getD i 0) = 1 := by simp [sampleVariance, Finset.sum_range_succ]; norm_num
  have h1 : sampleAutocorrelation 3 1 (fun i => [(-1 : ℝ), 0, 1].getD i 0) = 0 := by simp [sampleAutocorrelation, Finset.sum_range_succ]
  have h2 : sampleAutocorrelation 3 2 (fun i => [(-1 : ℝ), 0, 1].getD i 0) = -1 := by
    rw [sampleAutocorrelation, hv]; simp [Finset.sum_range_succ]
  have hf : geerFactorSq 0 (-1) = 0 := by norm_num [geerFactorSq]
  have hs : r.standardError.val e = .fin 0 := by
    have hx : series "init_time" (exUnits [-1, 0, 1]) e = finSeries 3 (fun i => [(-1 : ℝ), 0, 1].getD i 0) := exUnits_series _ e
    have := (C55_geer hr hx (by norm_num) (by rw [hv]; norm_num) (by rw [h1]; norm_num) (by rw [h1, h2]; norm_num) (by rw [h1, h2, hf])).2.2.2
    rw [this, h1, h2, hf, Real.sqrt_zero, mul_zero]
  refine ⟨r, hr, hs, ?_⟩
  have hdf : 0 < r.degreesOfFreedom := by rw [g2]; simp [exUnits]
  have hm : r.mean.val e = .fin 3 := by rw [g1]; rfl
  have hz : (zScore (.fin 3) (.fin 0) null).abs = .inf false := by
    simp [zScore, FV.beq, FV.zero_def, sub_eq_zero, hnull.symm, FV.fin_div_fin, FV.abs]
  simp only [TTestResults.pValue, DA.zipWith, hm, hs, hz, tCdf, if_neg (not_le.mpr hdf), FV.one_def, FV.fin_sub_fin, FV.fin_mul_fin]
  congr 1; ring

/-- **C55** ★ The estimated autocorrelation at lag 2 can be below -1, and then Geer's standard error is NaN although the data are finite. -/
theorem C55_geer_nan (e : Dim → ℕ) :
    ∃ r, geerResults .missing "init_time" (DA.scalar (.fin 3)) (exUnits [4, 0, -7, 0, 9, 0, -9, 0, 7, 0, -4]) = .ok r ∧ r.standardError.val e = .nan := by
  obtain ⟨r, hr⟩ : ∃ r, geerResults .missing "init_time" (DA.scalar (.fin 3)) (exUnits [4, 0, -7, 0, 9, 0, -9, 0, 7, 0, -4]) = .ok r := ⟨_, rfl⟩
  refine ⟨r, hr, ?_⟩
  have hv : sampleVariance 11 (fun i => [(4 : ℝ), 0, -7, 0, 9, 0, -9, 0, 7, 0, -4].getD i 0) = 146 / 5 := by simp [sampleVariance, Finset.sum_range_succ]; norm_num
  have h1 : sampleAutocorrelation 11 1 (fun i => [(4 : ℝ), 0, -7, 0, 9, 0, -9, 0, 7, 0, -4].getD i 0) = 0 := by simp [sampleAutocorrelation, Finset.sum_range_succ]
  have h2 : sampleAutocorrelation 11 2 (fun i => [(4 : ℝ), 0, -7, 0, 9, 0, -9, 0, 7, 0, -4].getD i 0) = -1315 / 1314 := by
    rw [sampleAutocorrelation, hv]; simp [Finset.sum_range_succ]; norm_num
  have hf : geerFactorSq 0 (-1315 / 1314) < 0 := by norm_num [geerFactorSq]
  have hx : series "init_time" (exUnits [4, 0, -7, 0, 9, 0, -9, 0, 7, 0, -4]) e = finSeries 11 (fun i => [(4 : ℝ), 0, -7, 0, 9, 0, -9, 0, 7, 0, -4].getD i 0) :=
    exUnits_series _ e
  rw [(geer_ok hr).2.2, hx, iid_se_fin _ (by norm_num), autocorrelation_fin _ (by norm_num) (by norm_num) (by rw [hv]; norm_num),
    autocorrelation_fin _ (by norm_num) (by norm_num) (by rw [hv]; norm_num), h1, h2]
  rw [inflation_fin (by norm_num) (by norm_num)]
  simp only [FV.sqrt, hf, if_true, FV.mul_nan]

/-! ### The hypotheses can be met -/

example : YuleWalker (1 / 2) (1 / 4) (1 / 2) 0 := by constructor <;> norm_num

/-- The autocorrelations of an AR(1) process with coefficient one half. -/
example : AR2Autocorrelation (1 / 2) 0 (fun h => (1 / 2) ^ h) where
  zero := by norm_num
  one := by norm_num
  step := fun h => by ring
  summable := by
    have : Summable (fun h : ℕ => (1 / 2 : ℝ) ^ h) := summable_geometric_two
    exact this

example : sampleVariance 4 (fun i => [(1 : ℝ), -1, 2, -2].getD i 0) ≠ 0 := by simp [sampleVariance, Finset.sum_range_succ]; norm_num

example : ∑ j ∈ range 3, [(-1 : ℝ), 0, 1].getD j 0 = 0 := by simp [Finset.sum_range_succ]

end WBX
