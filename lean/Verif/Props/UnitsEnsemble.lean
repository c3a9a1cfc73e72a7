import Verif.Props.Units

/-!
# C88: ensemble metrics under a change of units
-/

namespace WBX
set_option linter.unusedSectionVars false

section lemmas
variable {L K : Type} [DecidableEq L] [Field K] [LinearOrder K] [IsStrictOrderedRing K]

theorem present_congr {skipna : Bool} {C : Finset L} {x y : L → FV K} (h : ∀ l, (y l).isnan = (x l).isnan) :
    present skipna C y = present skipna C x := by
  unfold present
  simp only [h]

theorem present_affine {c : K} (hc : c ≠ 0) (d : K) (skipna : Bool) (C : Finset L) (x : L → FV K) :
    present skipna C (fun l => FV.affine c d (x l)) = present skipna C x := present_congr (fun l => FV.affine_isnan hc d (x l))

theorem present_times {k : K} (hk : k ≠ 0) (skipna : Bool) (C : Finset L) (x : L → FV K) :
    present skipna C (fun l => FV.times k (x l)) = present skipna C x := present_congr (fun l => FV.times_isnan hk (x l))

theorem npSum_times {k : K} (hk : k ≠ 0) (skipna : Bool) (C : Finset L) (x : L → FV K) :
    npSum skipna C (fun l => FV.times k (x l)) = FV.times k (npSum skipna C x) := by
  unfold npSum
  rw [present_times hk, FV.times_sum hk]

theorem npMean_times {k : K} (hk : k ≠ 0) (skipna : Bool) (C : Finset L) (x : L → FV K) :
    npMean skipna C (fun l => FV.times k (x l)) = FV.times k (npMean skipna C x) := by
  unfold npMean
  rw [npSum_times hk, present_times hk, FV.times_div hk]

theorem sum_offset (c d : K) (s : Finset L) (x : L → FV K) :
    ∑ l ∈ s, FV.affine c d (x l) = (∑ l ∈ s, FV.times c (x l)) + FV.fin ((s.card : K) * d) := by
  induction s using Finset.induction_on with
  | empty => simp [FV.zero_def]
  | insert a s ha ih =>
    rw [Finset.sum_insert ha, Finset.sum_insert ha, ih, Finset.card_insert_of_notMem ha, FV.affine_def]
    have : (FV.fin (((s.card + 1 : ℕ) : K) * d) : FV K) = FV.fin d + FV.fin ((s.card : K) * d) := by
      rw [FV.fin_add_fin]; push_cast; congr 1; ring
    rw [this]
    exact add_add_add_comm _ _ _ _

theorem FV.offset_div {n : K} (hn : n ≠ 0) (d : K) (a : FV K) : (a + FV.fin (n * d)) / FV.fin n = a / FV.fin n + FV.fin d := by
  rcases a with _ | a | a
  · rfl
  · show (if n = 0 then _ else _) = (if n = 0 then _ else _) + FV.fin d
    rw [if_neg hn]; rfl
  · rw [FV.fin_add_fin, FV.fin_div_fin_of_ne _ hn, FV.fin_div_fin_of_ne _ hn, FV.fin_add_fin]
    congr 1
    field_simp

/-- The ensemble mean changes its unit like the members. -/
theorem npMean_affine {c : K} (hc : c ≠ 0) (d : K) (skipna : Bool) (C : Finset L) (x : L → FV K) :
    npMean skipna C (fun l => FV.affine c d (x l)) = FV.affine c d (npMean skipna C x) := by
  unfold npMean npSum
  rw [present_affine hc]
  generalize present skipna C x = s
  rw [sum_offset, FV.times_sum hc, FV.affine_def]
  by_cases hs : s.card = 0
  · rw [hs]
    have : s = ∅ := Finset.card_eq_zero.mp hs
    subst this
    have h0 : ((0 : FV K) / FV.ofNat 0) = FV.nan := by
      simp [FV.ofNat, FV.zero_def, FV.fin_div_fin]
    rw [Finset.sum_empty, h0, FV.times_zero]
    simp [FV.ofNat, FV.zero_def, FV.fin_div_fin, FV.times_nan]
  · have hn : (s.card : K) ≠ 0 := Nat.cast_ne_zero.mpr hs
    unfold FV.ofNat
    rw [FV.offset_div hn, FV.times_div hc]

/-- The ensemble variance. -/
theorem npVar1_affine {c : K} (hc : c ≠ 0) (d : K) (skipna : Bool) (C : Finset L) (x : L → FV K) :
    npVar1 skipna C (fun l => FV.affine c d (x l)) = FV.times (c * c) (npVar1 skipna C x) := by
  unfold npVar1
  rw [npMean_affine hc, present_affine hc]
  have : (fun l => (FV.affine c d (x l) - FV.affine c d (npMean skipna C x)).sq) =
      fun l => FV.times (c * c) ((x l - npMean skipna C x).sq) := by
    funext l
    rw [FV.affine_sub hc, FV.sq_times hc]
  rw [this, npSum_times (mul_ne_zero hc hc), FV.times_div (mul_ne_zero hc hc)]

theorem StatVar.reduce_map {V W X : Type} (d : Dim) (f : Finset L → (L → W) → X) (g : V → W) (s : StatVar L V) :
    (s.map g).reduce d f = s.reduce d (fun C x => f C (fun l => g (x l))) := rfl

theorem StatVar.reduce_congr {V W : Type} (d : Dim) {f g : Finset L → (L → V) → W} (h : ∀ C x, f C x = g C x) (s : StatVar L V) :
    s.reduce d f = s.reduce d g := by
  have : f = g := funext (fun C => funext (h C))
  rw [this]

theorem StatVar.reduce_npSum_times {k : K} (hk : k ≠ 0) (skipna : Bool) (d : Dim) (s : StatVar L (FV K)) :
    (s.map (FV.times k)).reduce d (npSum skipna) = (s.reduce d (npSum skipna)).map (FV.times k) :=
  StatVar.reduce_congr d (fun C x => npSum_times hk skipna C x) s

theorem StatVar.meanDim_times {k : K} (hk : k ≠ 0) (skipna : Bool) (d : Dim) (s : StatVar L (FV K)) :
    (s.map (FV.times k)).meanDim skipna d = (s.meanDim skipna d).map (fun s => s.map (FV.times k)) := by
  unfold StatVar.meanDim
  show (if d ∈ s.arr.dims then _ else _) = _
  by_cases h : d ∈ s.arr.dims
  · rw [if_pos h, if_pos h]
    exact congrArg Except.ok (StatVar.reduce_congr d (fun C x => npMean_times hk skipna C x) s)
  · rw [if_neg h, if_neg h]; rfl

theorem StatVar.meanDim_affine {c : K} (hc : c ≠ 0) (o : K) (skipna : Bool) (d : Dim) (s : StatVar L (FV K)) :
    (s.map (FV.affine c o)).meanDim skipna d = (s.meanDim skipna d).map (fun s => s.map (FV.affine c o)) := by
  unfold StatVar.meanDim
  show (if d ∈ s.arr.dims then _ else _) = _
  by_cases h : d ∈ s.arr.dims
  · rw [if_pos h, if_pos h]
    exact congrArg Except.ok (StatVar.reduce_congr d (fun C x => npMean_affine hc o skipna C x) s)
  · rw [if_neg h, if_neg h]; rfl

theorem StatVar.varDim_affine {c : K} (hc : c ≠ 0) (o : K) (skipna : Bool) (d : Dim) (s : StatVar L (FV K)) :
    (s.map (FV.affine c o)).varDim skipna d = (s.varDim skipna d).map (fun s => s.map (FV.times (c * c))) := by
  unfold StatVar.varDim
  show (if d ∈ s.arr.dims then _ else _) = _
  by_cases h : d ∈ s.arr.dims
  · rw [if_pos h, if_pos h]
    exact congrArg Except.ok (StatVar.reduce_congr d (fun C x => npVar1_affine hc o skipna C x) s)
  · rw [if_neg h, if_neg h]; rfl

theorem StatVar.sizeDim_affine {c : K} (hc : c ≠ 0) (o : K) (skipna : Bool) (d : Dim) (s : StatVar L (FV K)) :
    (s.map (FV.affine c o)).sizeDim skipna d = s.sizeDim skipna d := by
  unfold StatVar.sizeDim
  show (if d ∈ s.arr.dims then _ else _) = _
  by_cases h : d ∈ s.arr.dims
  · rw [if_pos h, if_pos h]
    cases skipna
    · rfl
    · refine congrArg Except.ok ?_
      rw [if_pos rfl, if_pos rfl, StatVar.reduce_map]
      refine StatVar.reduce_congr d (fun C x => ?_) s
      rw [present_affine hc]
  · rw [if_neg h, if_neg h]

theorem StatVar.rename_map {V W : Type} (d d' : Dim) (f : V → W) (s : StatVar L V) :
    (s.map f).rename d d' = (s.rename d d').map (fun s => s.map f) := by
  unfold StatVar.rename
  show (if d ∈ s.arr.dims ∧ d' ∉ s.arr.dims then _ else _) = _
  by_cases h : d ∈ s.arr.dims ∧ d' ∉ s.arr.dims
  · rw [if_pos h, if_pos h]
    refine congrArg Except.ok ?_
    simp only [StatVar.map, StatVar.mk.injEq, and_true]
    unfold DA.rename
    show (if d ∈ s.arr.dims then _ else _) = _
    rw [if_pos h.1, if_pos h.1]; rfl
  · rw [if_neg h, if_neg h]; rfl

theorem StatVar.div_times {k : K} (hk : k ≠ 0) (a b : StatVar L (FV K)) :
    (a.map (FV.times k)).zipWith (· / ·) b = (a.zipWith (· / ·) b).map (FV.times k) := by
  show StatVar.mk (DA.zipWith (· / ·) (a.arr.map (FV.times k)) b.arr) _ = _
  rw [DA.div_times hk]; rfl

theorem StatVar.sub_times {k : K} (hk : k ≠ 0) (a b : StatVar L (FV K)) :
    (a.map (FV.times k)).zipWith (· - ·) (b.map (FV.times k)) = (a.zipWith (· - ·) b).map (FV.times k) := by
  simp only [StatVar.zipWith, StatVar.map, DA.zipWith, DA.map, StatVar.mk.injEq, DA.mk.injEq]
  refine ⟨⟨trivial, rfl, ?_⟩, trivial⟩
  funext e
  exact FV.times_sub hk _ _

theorem crpsSkill_affine {c : K} (hc : c ≠ 0) (o : K) (d : Dim) (skipna : Bool) (p t : StatVar L (FV K)) :
    crpsSkill d skipna (p.map (FV.affine c o)) (t.map (FV.affine c o)) = (crpsSkill d skipna p t).map (fun s => s.map (FV.times |c|)) := by
  have ha : |c| ≠ 0 := abs_ne_zero.mpr hc
  unfold crpsSkill
  show (if d ∈ t.arr.dims then _ else _) = _
  by_cases h : d ∈ t.arr.dims
  · rw [if_pos h, if_pos h]
    dsimp only
    rw [StatVar.rename_map]
    rcases t.rename d (d ++ "_PSEUDO_FOR_TARGETS") with e | t'
    · rfl
    · show (if d ∈ _ then _ else _) = Except.map _ (if d ∈ _ then _ else _)
      rw [StatVar.sub_affine hc, StatVar.abs_times hc]
      by_cases h2 : d ∈ ((p.zipWith (· - ·) t').map FV.abs).arr.dims
      · rw [if_pos h2, if_pos (by exact h2)]
        refine congrArg Except.ok ?_
        rw [StatVar.reduce_npSum_times ha, StatVar.reduce_npSum_times ha, StatVar.div_times ha]
        have e1 : ∀ s : StatVar L (FV K), (s.map (FV.times |c|)).reduce d (fun C x => FV.ofNat (present skipna C x).card) =
            s.reduce d (fun C x => (FV.ofNat (present skipna C x).card : FV K)) := by
          intro s
          rw [StatVar.reduce_map]
          exact StatVar.reduce_congr d (fun C x => by rw [present_times ha]) s
        rw [e1]
      · rw [if_neg h2, if_neg (by exact h2)]; rfl
  · rw [if_neg h, if_neg h, StatVar.sub_affine hc, StatVar.abs_times hc, StatVar.meanDim_times ha]

theorem crpsSpread_affine {c : K} (hc : c ≠ 0) (o : K) (argsort : List (FV K) → List ℕ) (order : List L) (d : Dim) (fair : Bool)
    (which : String) (skipna : Bool) (p t : StatVar L (FV K)) :
    crpsSpread argsort order d false fair which skipna (p.map (FV.affine c o)) (t.map (FV.affine c o)) =
      (crpsSpread argsort order d false fair which skipna p t).map (fun s => s.map (FV.times |c|)) := by
  have ha : |c| ≠ 0 := abs_ne_zero.mpr hc
  unfold crpsSpread
  have hw : whichArray which (p.map (FV.affine c o)) (t.map (FV.affine c o)) = (whichArray which p t).map (fun s => s.map (FV.affine c o)) := by
    unfold whichArray
    split_ifs <;> rfl
  rw [hw]
  rcases whichArray which p t with e | da
  · rfl
  · show (StatVar.sizeDim skipna d (da.map (FV.affine c o)) >>= _) = Except.map _ (StatVar.sizeDim skipna d da >>= _)
    rw [StatVar.sizeDim_affine hc]
    rcases StatVar.sizeDim skipna d da with e | n
    · rfl
    · show (if (!skipna && decide ((da.arr.coords d).card < 2)) = true then _ else _) = Except.map _ (if _ then _ else _)
      by_cases h : (!skipna && decide ((da.arr.coords d).card < 2)) = true
      · rw [if_pos h, if_pos h]; rfl
      · rw [if_neg h, if_neg h]
        show (StatVar.rename d "ensemble_dim_2" (da.map (FV.affine c o)) >>= _) = Except.map _ (StatVar.rename d "ensemble_dim_2" da >>= _)
        rw [StatVar.rename_map]
        rcases StatVar.rename d "ensemble_dim_2" da with e | da2
        · rfl
        · refine congrArg Except.ok ?_
          rw [StatVar.sub_affine hc, StatVar.abs_times hc, StatVar.reduce_npSum_times ha, StatVar.reduce_npSum_times ha, StatVar.div_times ha]

theorem FV.sub_zero' (x : FV K) : x - 0 = x := by
  rcases x with _ | a | a
  · rfl
  · simp [FV.sub_def, FV.zero_def]
  · simp [FV.zero_def]

theorem unbiasedMSE_affine {c : K} (hc : c ≠ 0) (o : K) (d : Dim) (skipna : Bool) (p t : StatVar L (FV K)) :
    unbiasedMSE d skipna (p.map (FV.affine c o)) (t.map (FV.affine c o)) =
      (unbiasedMSE d skipna p t).map (fun s => s.map (FV.times (c * c))) := by
  have h2 : c * c ≠ 0 := mul_ne_zero hc hc
  unfold unbiasedMSE
  rw [StatVar.meanDim_affine hc, StatVar.varDim_affine hc, StatVar.sizeDim_affine hc]
  rcases p.meanDim skipna d with e | pm
  · rfl
  rcases p.varDim skipna d with e | pv
  · rfl
  rcases p.sizeDim skipna d with e | pn
  · rfl
  show (if d ∈ t.arr.dims then _ else _) = Except.map _ (if d ∈ t.arr.dims then _ else _)
  by_cases h : d ∈ t.arr.dims
  · rw [if_pos h, if_pos h, StatVar.meanDim_affine hc, StatVar.varDim_affine hc, StatVar.sizeDim_affine hc]
    rcases t.meanDim skipna d with e | tm
    · rfl
    rcases t.varDim skipna d with e | tv
    · rfl
    rcases t.sizeDim skipna d with e | tn
    · rfl
    refine congrArg Except.ok ?_
    rw [StatVar.sub_affine hc, StatVar.sq_times hc, StatVar.div_times h2, StatVar.div_times h2, StatVar.sub_times h2, StatVar.sub_times h2]
  · rw [if_neg h, if_neg h]
    refine congrArg Except.ok ?_
    rw [StatVar.sub_affine hc, StatVar.sq_times hc, StatVar.div_times h2, StatVar.sub_times h2]
    have hz : ∀ s : StatVar L (FV K), s.map (fun x => x - 0) = s := fun s => (StatVar.map_congr' (g := id) FV.sub_zero' s)
    rw [hz, hz]

end lemmas

section metrics
variable {L K : Type} [DecidableEq L] [Field K] [LinearOrder K] [IsStrictOrderedRing K]
variable {agg : Aggregator L (FV K)} (hagg : agg.CoordOnly) {c : String → K} (hc : ∀ v, c v ≠ 0) (o : String → K)
include hagg hc

/-- C88: the ensemble variance is multiplied by the square of the factor. -/
theorem C88_ensemble_variance (d : Dim) (skipna : Bool) :
    Metric.ScalesBy (ensembleVarianceStatistic d skipna).toMetric agg c o (fun v => c v * c v) :=
  toMetric_scales hagg (fun v => mul_ne_zero (hc v) (hc v))
    (statOfE_scales (fun v p _ => StatVar.varDim_affine (hc v) (o v) skipna d p))

/-- C88: the CRPS (computed from the differences of all pairs of members) is multiplied by the absolute value of the factor. -/
theorem C88_crps (argsort : List (FV K) → List ℕ) (order : List L) (d : Dim) (fair skipna : Bool) :
    Metric.ScalesBy (crpsEnsemble argsort order d false fair skipna) agg c o (fun v => |c v|) :=
  metric2_scales hagg (by decide) (fun v => abs_ne_zero.mpr (hc v)) (fun v => abs_ne_zero.mpr (hc v))
    (statOfE_scales (fun v p t => crpsSkill_affine (hc v) (o v) d skipna p t))
    (statOfE_scales (fun v p t => crpsSpread_affine (hc v) (o v) argsort order d fair "predictions" skipna p t))
    (fun v x y => by
      have ha : |c v| ≠ 0 := abs_ne_zero.mpr (hc v)
      simp only [DA.sub, DA.smul, DA.zipWith, DA.map, DA.mk.injEq]
      refine ⟨trivial, rfl, ?_⟩
      funext e
      have : ∀ z : FV K, FV.fin (1 / 2) * FV.times |c v| z = FV.times |c v| (FV.fin (1 / 2) * z) := by
        intro z
        rw [FV.mul_comm', FV.times_mul ha, FV.mul_comm']
      simp only [this]
      exact FV.times_sub ha _ _)

/-- C88: the debiased mean squared error of the ensemble mean is multiplied by the square of the factor. -/
theorem C88_unbiased_mse (d : Dim) (skipna : Bool) :
    Metric.ScalesBy (unbiasedMSEStatistic d skipna).toMetric agg c o (fun v => c v * c v) :=
  toMetric_scales hagg (fun v => mul_ne_zero (hc v) (hc v))
    (statOfE_scales (fun v p t => unbiasedMSE_affine (hc v) (o v) d skipna p t))

end metrics

theorem FV.times_ratio {k : ℝ} (hk : k ≠ 0) (h0 : 0 < k) (a b : FV ℝ) : FV.times k a / FV.times k b = a / b := by
  have hn : ¬ k < 0 := not_lt.mpr h0.le
  rcases b with _ | b | b
  · rw [FV.times_nan, FV.div_nan, FV.div_nan]
  · rw [FV.times_inf hk]
    rcases a with _ | a | a
    · rfl
    · rw [FV.times_inf hk]; rfl
    · rfl
  · rw [FV.times_fin]
    rcases a with _ | a | a
    · rfl
    · rw [FV.times_inf hk]
      show (if k * b = 0 then _ else _) = (if b = 0 then _ else _)
      by_cases hb : b = 0
      · simp [hb, hn]
      · rw [if_neg hb, if_neg (mul_ne_zero hk hb), FV.sign_mul hk hb]; simp [hn]
    · rw [FV.times_fin, FV.fin_div_fin, FV.fin_div_fin]
      by_cases hb : b = 0
      · by_cases ha : a = 0
        · simp [hb, ha]
        · simp only [hb, mul_zero, if_true, if_neg ha, if_neg (mul_ne_zero hk ha), FV.sign_mul hk ha]; simp [hn]
      · rw [if_neg hb, if_neg (mul_ne_zero hk hb)]
        congr 1
        field_simp

section roots
variable {L : Type} [DecidableEq L] {agg : Aggregator L (FV ℝ)} (hagg : agg.CoordOnly) {c : String → ℝ} (hc : ∀ v, c v ≠ 0) (o : String → ℝ)
include hagg hc

/-- C88: its root is multiplied by the absolute value of the factor. -/
theorem C88_unbiased_rmse (d : Dim) (skipna : Bool) : Metric.ScalesBy (unbiasedRMSE d skipna) agg c o (fun v => |c v|) :=
  metric1_scales hagg (fun v => mul_ne_zero (hc v) (hc v))
    (statOfE_scales (fun v p t => unbiasedMSE_affine (hc v) (o v) d skipna p t)) (fun v x => DA.sqrt_times (hc v) x)

/-- C88: the root mean ensemble variance is multiplied by the absolute value of the factor. -/
theorem C88_root_mean_variance (d : Dim) (skipna : Bool) : Metric.ScalesBy (ensembleRootMeanVariance d skipna) agg c o (fun v => |c v|) :=
  metric1_scales hagg (fun v => mul_ne_zero (hc v) (hc v))
    (statOfE_scales (fun v p _ => StatVar.varDim_affine (hc v) (o v) skipna d p)) (fun v x => DA.sqrt_times (hc v) x)

/-- C88: the spread-skill ratio does not depend on the unit. -/
theorem C88_spread_skill (d : Dim) (skipna : Bool) : Metric.ScalesBy (spreadSkillRatio d skipna) agg c o (fun _ => 1) :=
  metric2_scales hagg (by decide) (fun v => mul_ne_zero (hc v) (hc v)) (fun v => mul_ne_zero (hc v) (hc v))
    (statOfE_scales (fun v p _ => StatVar.varDim_affine (hc v) (o v) skipna d p))
    (statOfE_scales (fun v p t => unbiasedMSE_affine (hc v) (o v) d skipna p t))
    (fun v x y => by
      have h2 : c v * c v ≠ 0 := mul_ne_zero (hc v) (hc v)
      have h0 : 0 < c v * c v := lt_of_le_of_ne (mul_self_nonneg _) (Ne.symm h2)
      simp only [DA.div, DA.zipWith, DA.map, DA.mk.injEq]
      refine ⟨trivial, rfl, ?_⟩
      funext e
      rw [FV.times_one', FV.times_ratio h2 h0])

end roots
end WBX
