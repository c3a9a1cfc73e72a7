import Verif.Lemmas.WMean
import Verif.Lemmas.MetricN
import Verif.Lemmas.OneDim
import Verif.Props.Wind

/-!
# C29 (ranked probability score)
-/

set_option linter.unusedSectionVars false

namespace WBX
open DA Aggregator
variable {L : Type} [DecidableEq L] {K : Type} [Field K] [LinearOrder K] [IsStrictOrderedRing K]

/-- The labels of the bin dimension that both sides share (all of them if only one side has the dimension). -/
def rpsBins (binDim : Dim) (a b : StatVar L (FV K)) : Finset L := DA.joinCoords a.arr b.arr binDim

/-- **C29** The statistic exists iff one of the sides has the bin dimension; otherwise `ValueError`. -/
theorem C29_missing_dim (binDim : Dim) (a b : StatVar L (FV K)) :
    (binDim ∈ a.arr.dims ∪ b.arr.dims → ∃ s, rankedProbabilityScore binDim a b = .ok (some (some s))) ∧
    (binDim ∉ a.arr.dims ∪ b.arr.dims → rankedProbabilityScore binDim a b = .error .valueError) := by
  unfold rankedProbabilityScore
  constructor
  · intro h
    exact ⟨_, if_pos h⟩
  · intro h
    exact if_neg h

theorem rps_val {binDim : Dim} {a b s : StatVar L (FV K)} (h : rankedProbabilityScore binDim a b = .ok (some (some s))) (e : Dim → L) :
    s.arr.val e = ∑ l ∈ rpsBins binDim a b, (let x := (a.arr.val (setLabel e binDim l) - b.arr.val (setLabel e binDim l)).sq
      if x.isnan then 0 else x) := by
  unfold rankedProbabilityScore at h
  simp only at h
  split at h
  · simp only [Except.ok.injEq, Option.some.injEq] at h
    subst h
    rfl
  · simp at h

/-- **C29** For finite CDFs the score of a cell is the sum over the bins of the squared CDF differences. -/
theorem C29_sum {binDim : Dim} {a b s : StatVar L (FV K)} (h : rankedProbabilityScore binDim a b = .ok (some (some s)))
    {e : Dim → L} (F G : L → K) (hF : ∀ l ∈ rpsBins binDim a b, a.arr.val (setLabel e binDim l) = .fin (F l))
    (hG : ∀ l ∈ rpsBins binDim a b, b.arr.val (setLabel e binDim l) = .fin (G l)) :
    s.arr.val e = FV.fin (∑ l ∈ rpsBins binDim a b, (F l - G l) ^ 2) := by
  rw [rps_val h e]
  refine FV.sum_fin _ _ _ (fun l hl => ?_)
  rw [hF l hl, hG l hl]
  simp [FV.sq, FV.isnan, pow_two]

/-- **C29** Nonnegative; zero exactly when the CDFs agree on every bin. -/
theorem C29_zero_iff {binDim : Dim} {a b s : StatVar L (FV K)} (h : rankedProbabilityScore binDim a b = .ok (some (some s)))
    {e : Dim → L} (F G : L → K) (hF : ∀ l ∈ rpsBins binDim a b, a.arr.val (setLabel e binDim l) = .fin (F l))
    (hG : ∀ l ∈ rpsBins binDim a b, b.arr.val (setLabel e binDim l) = .fin (G l)) :
    ∃ r, s.arr.val e = FV.fin r ∧ 0 ≤ r ∧ (r = 0 ↔ ∀ l ∈ rpsBins binDim a b, F l = G l) := by
  refine ⟨_, C29_sum h F G hF hG, Finset.sum_nonneg (fun l _ => sq_nonneg _), ?_⟩
  rw [Finset.sum_eq_zero_iff_of_nonneg (fun l _ => sq_nonneg _)]
  refine forall_congr' (fun l => forall_congr' (fun _ => ?_))
  rw [pow_eq_zero_iff two_ne_zero, sub_eq_zero]

/-- **C29** Exchanging predictions and targets does not change the score. -/
theorem C29_symmetric {binDim : Dim} {a b s s' : StatVar L (FV K)} (h : rankedProbabilityScore binDim a b = .ok (some (some s)))
    (h' : rankedProbabilityScore binDim b a = .ok (some (some s'))) (hd : binDim ∈ a.arr.dims) (hd' : binDim ∈ b.arr.dims)
    {e : Dim → L} (F G : L → K) (hF : ∀ l ∈ rpsBins binDim a b, a.arr.val (setLabel e binDim l) = .fin (F l))
    (hG : ∀ l ∈ rpsBins binDim a b, b.arr.val (setLabel e binDim l) = .fin (G l)) : s'.arr.val e = s.arr.val e := by
  have hb : rpsBins binDim b a = rpsBins binDim a b := by
    unfold rpsBins DA.joinCoords
    rw [if_pos hd, if_pos hd', if_pos hd, if_pos hd', Finset.inter_comm]
  rw [C29_sum h F G hF hG, C29_sum h' G F (by rw [hb]; exact hG) (by rw [hb]; exact hF), hb]
  congr 1
  exact Finset.sum_congr rfl (fun l _ => by ring)

/-- **C29** Two deterministic (step) CDFs, in categories `i` and `j` of `n` bins numbered from 0: the score is the distance
`|i - j|` of the categories. -/
theorem C29_step {binDim : Dim} {a b s : StatVar ℕ (FV K)} (h : rankedProbabilityScore binDim a b = .ok (some (some s)))
    {e : Dim → ℕ} {n i j : ℕ} (hn : rpsBins binDim a b = Finset.range n) (hi : i ≤ n) (hj : j ≤ n)
    (hF : ∀ l < n, a.arr.val (setLabel e binDim l) = .fin (if i ≤ l then 1 else 0))
    (hG : ∀ l < n, b.arr.val (setLabel e binDim l) = .fin (if j ≤ l then 1 else 0)) :
    s.arr.val e = FV.fin |(i : K) - j| := by
  rw [C29_sum h (fun l => if i ≤ l then 1 else 0) (fun l => if j ≤ l then 1 else 0)
    (fun l hl => hF l (by rw [hn] at hl; exact Finset.mem_range.mp hl))
    (fun l hl => hG l (by rw [hn] at hl; exact Finset.mem_range.mp hl)), hn]
  congr 1
  have key : ∀ i j : ℕ, i ≤ j → j ≤ n →
      ∑ l ∈ Finset.range n, ((if i ≤ l then (1 : K) else 0) - (if j ≤ l then 1 else 0)) ^ 2 = (j : K) - i := by
    intro i j hij hj
    have : ∀ l, ((if i ≤ l then (1 : K) else 0) - (if j ≤ l then 1 else 0)) ^ 2 = if l ∈ Finset.Ico i j then 1 else 0 := by
      intro l
      simp only [Finset.mem_Ico]
      by_cases h1 : i ≤ l <;> by_cases h2 : j ≤ l
      · simp [h1, h2, not_lt.mpr h2]
      · simp [h1, h2, not_le.mp h2]
      · exact absurd (hij.trans h2) h1
      · simp [h1, h2]
    simp only [this]
    rw [Finset.sum_ite_mem, Finset.inter_eq_right.mpr (by
      intro l hl
      rw [Finset.mem_Ico] at hl
      exact Finset.mem_range.mpr (lt_of_lt_of_le hl.2 hj))]
    simp [Nat.cast_sub hij]
  rcases le_total i j with hij | hij
  · rw [key i j hij hj, abs_sub_comm, abs_of_nonneg (sub_nonneg.mpr (by exact_mod_cast hij))]
  · rw [abs_of_nonneg (sub_nonneg.mpr (by exact_mod_cast hij)), ← key j i hij hi]
    exact Finset.sum_congr rfl (fun l _ => by ring)

/-- **C29** (found) NaN bins are skipped by the sum: a forecast compared with missing observations (NaN in every bin), or a missing
forecast, scores 0, the perfect score, instead of NaN. -/
theorem C29_nan_scores_zero {binDim : Dim} {a b s : StatVar L (FV K)} (h : rankedProbabilityScore binDim a b = .ok (some (some s)))
    {e : Dim → L} (hnan : ∀ l ∈ rpsBins binDim a b, a.arr.val (setLabel e binDim l) = .nan ∨ b.arr.val (setLabel e binDim l) = .nan) :
    s.arr.val e = FV.fin 0 := by
  rw [rps_val h e, Finset.sum_eq_zero]
  · rfl
  · intro l hl
    rcases hnan l hl with h | h <;> rw [h] <;> simp [FV.sq, FV.isnan]

/-! ### Concrete case and the mean -/

/-- A CDF over 3 bins, at one point. -/
def rpsEx (f : ℕ → FV ℚ) : StatVar ℕ (FV ℚ) := ⟨{ dims := {"bin"}, coords := fun _ => Finset.range 3, val := fun e => f (e "bin") }, none⟩

example : ∃ s, rankedProbabilityScore "bin" (rpsEx (fun l => .fin (if 0 ≤ l then 1 else 0))) (rpsEx (fun l => .fin (if 2 ≤ l then 1 else 0))) =
    .ok (some (some s)) ∧ s.arr.val (fun _ => 0) = FV.fin 2 := by
  obtain ⟨s, hs⟩ := (C29_missing_dim "bin" (rpsEx (fun l => .fin (if 0 ≤ l then 1 else 0))) (rpsEx (fun l => .fin (if 2 ≤ l then 1 else 0)))).1
    (by simp [rpsEx])
  refine ⟨s, hs, ?_⟩
  rw [C29_step hs (n := 3) (i := 0) (j := 2) (by simp [rpsBins, joinCoords, rpsEx]) (by simp) (by simp)
    (fun l _ => by simp [rpsEx, setLabel]) (fun l _ => by simp [rpsEx, setLabel])]
  norm_num

example : ∃ s, rankedProbabilityScore "bin" (rpsEx (fun l => .fin l)) (rpsEx (fun _ => .nan)) = .ok (some (some s)) ∧
    s.arr.val (fun _ => 0) = FV.fin 0 := by
  obtain ⟨s, hs⟩ := (C29_missing_dim "bin" (rpsEx (fun l => .fin l)) (rpsEx (fun _ => .nan))).1 (by simp [rpsEx])
  exact ⟨s, hs, C29_nan_scores_zero hs (fun l _ => .inr rfl)⟩

/-- **C29** The metric value: the weighted mean over the counted cells of the sum of squared CDF differences, hence nonnegative and
zero iff the CDFs agree on every bin at every cell of nonzero weight. -/
theorem C29_mean {agg : Aggregator L (FV K)} {p t : Vars (StatVar L (FV K))} (hp : (p.map Prod.fst).Nodup)
    (ht : (t.map Prod.fst).Nodup) {v : String} {a b s : StatVar L (FV K)} (ha : (v, a) ∈ p) (hb : (v, b) ∈ t) {binDim : Dim}
    (h : rankedProbabilityScore binDim a b = .ok (some (some s))) {e : Dim → L} {cs : Finset (Dim → L)}
    (E : Evaluated agg s e cs) (hW : GoodWeights agg s cs) (F G : (Dim → L) → L → K)
    (hF : ∀ e' ∈ cs, ∀ l ∈ rpsBins binDim a b, a.arr.val (setLabel e' binDim l) = .fin (F e' l))
    (hG : ∀ e' ∈ cs, ∀ l ∈ rpsBins binDim a b, b.arr.val (setLabel e' binDim l) = .fin (G e' l))
    {x : DA L (FV K)} (hx : ValueOf (rpsStatistic binDim).toMetric agg p t v x) :
    ∃ r, x.val e = FV.fin r ∧ r = wmean agg s cs (fun e' => ∑ l ∈ rpsBins binDim a b, (F e' l - G e' l) ^ 2) ∧ 0 ≤ r ∧
      (r = 0 ↔ ∀ e' ∈ cs, cellWeight agg s e' ≠ 0 → ∀ l ∈ rpsBins binDim a b, F e' l = G e' l) := by
  obtain ⟨vars, s', q, g1, g2, g3, rfl⟩ := valueOf_statistic hx
  have hss : s' = s := by
    obtain ⟨-, hh⟩ := C21_statistic "RankedProbabilityScore" (rankedProbabilityScore binDim) p t hp ht vars g1
    obtain ⟨a', b', h1, h2, h3⟩ := (hh v (some s')).mp g2
    have e1 := (pyItem_ok_iff hp).mpr h1; rw [(pyItem_ok_iff hp).mpr ha] at e1
    have e2 := (pyItem_ok_iff ht).mpr h2; rw [(pyItem_ok_iff ht).mpr hb] at e2
    simp only [Except.ok.injEq] at e1 e2
    subst e1 e2
    rw [h] at h3
    simp only [Except.ok.injEq, Option.some.injEq] at h3
    exact h3.symm
  subst hss
  have hnum : ∀ e' ∈ cs, (s'.arr.val e').num = ∑ l ∈ rpsBins binDim a b, (F e' l - G e' l) ^ 2 := by
    intro e' he'
    rw [C29_sum h (F e') (G e') (hF e' he') (hG e' he')]
    rfl
  refine ⟨_, evaluated_mean E g3 hW.2.ne', ?_⟩
  rw [wmean_congr' hnum]
  refine ⟨rfl, wmean_nonneg hW (fun e' _ => Finset.sum_nonneg (fun l _ => sq_nonneg _)), ?_⟩
  rw [wmean_eq_zero_iff hW (fun e' _ => Finset.sum_nonneg (fun l _ => sq_nonneg _))]
  refine forall_congr' (fun e' => forall_congr' (fun he' => forall_congr' (fun _ => ?_)))
  rw [Finset.sum_eq_zero_iff_of_nonneg (fun l _ => sq_nonneg _)]
  refine forall_congr' (fun l => forall_congr' (fun _ => ?_))
  rw [pow_eq_zero_iff two_ne_zero, sub_eq_zero]

end WBX
