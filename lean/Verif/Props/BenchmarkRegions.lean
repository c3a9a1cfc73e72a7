import Verif.Props.Chunking
import Verif.Lemmas.BenchmarkRegions
import Verif.Props.Survive
import Verif.Props.Deterministic
import Verif.Props.Mean

set_option linter.unusedSectionVars false

/-!
# C93: the numbers of the public benchmark are area-weighted means over its regions
-/

namespace WBX.Benchmark
open WBX DA Aggregator
variable {L : Type} [DecidableEq L]
variable {name : String → L} {land : L → L} {order south : List L} {degrees : L → ℝ} {fraction : DA L (FV ℝ)} {s : StatVar L (FV ℝ)} {o : Options}

/-! ### The regions -/

theorem onArc_all (lon : ℝ) : OnArc 0 360 lon := by rw [← C41_longitude]; exact Example.all_longitudes lon

theorem onArc_iff {w e lon : ℝ} (h1 : w < e) (h2 : e ≤ w + 360) (h3 : 0 ≤ lon) (h4 : lon < 360) (h5 : -360 ≤ w) (h6 : e < 360) :
    OnArc w e lon ↔ (w ≤ lon ∧ lon ≤ e) ∨ w + 360 ≤ lon ∧ lon ≤ e + 360 := by
  constructor
  · rintro ⟨u, hu0, hu, ⟨k, hk⟩, t, ht0, ht, j, hj⟩
    have hk0 : k = 0 := by
      have a : (k : ℝ) < 1 := by linarith
      have b : (-1 : ℝ) < k := by linarith
      have a' : k < 1 := by exact_mod_cast a
      have b' : -1 < k := by exact_mod_cast b
      omega
    subst hk0
    push_cast at hk
    have hj' : j = 0 ∨ j = 1 := by
      have a : (j : ℝ) < 2 + 1 / 2 := by linarith
      have b : (-1 : ℝ) < j := by
        by_contra hc
        push Not at hc
        linarith
      have b' : -1 < j := by exact_mod_cast b
      have a' : (j : ℝ) < 3 := by linarith
      have a'' : j < 3 := by exact_mod_cast a'
      have c : j ≠ 2 := by
        rintro rfl
        push_cast at hj
        linarith
      omega
    rcases hj' with rfl | rfl
    · push_cast at hj
      exact Or.inl ⟨by linarith, by linarith⟩
    · push_cast at hj
      exact Or.inr ⟨by linarith, by linarith⟩
  · rintro (⟨ha, hb⟩ | ⟨ha, hb⟩)
    · exact ⟨e - w, by linarith, by linarith, ⟨0, by push_cast; ring⟩, lon - w, by linarith, by linarith, 0, by push_cast; ring⟩
    · exact ⟨e - w, by linarith, by linarith, ⟨0, by push_cast; ring⟩, lon - 360 - w, by linarith, by linarith, 1, by push_cast; ring⟩

/-- C93: the regions. On a map with longitudes from 0 to 360 degrees the regions have the limits of the table `onMap`; Europe and northern Africa have parts on both sides of the Greenwich meridian. -/
theorem C93_regions {lat lon : ℝ} (h3 : 0 ≤ lon) (h4 : lon < 360) :
    List.Forall₂ (fun r m => r.1 = m.1 ∧ (Inside r.2 lat lon ↔ InsideOnMap m.2 lat lon)) regions onMap := by
  unfold regions onMap
  repeat' refine List.Forall₂.cons ⟨rfl, ?_⟩ ?_
  all_goals first
    | exact List.Forall₂.nil
    | exact and_congr Iff.rfl (iff_of_true (onArc_all lon) (by rw [if_pos (by norm_num)]; exact ⟨h3, h4.le⟩))
    | (refine and_congr Iff.rfl ?_
       dsimp only
       rw [onArc_iff (by norm_num) (by norm_num) h3 h4 (by norm_num) (by norm_num)]
       split_ifs with hc
       all_goals first
         | (exfalso; revert hc; norm_num; done)
         | (constructor
            · intro h
              first
               | (rcases h with h | h
                  · exact ⟨by linarith [h.1], by linarith [h.2]⟩
                  · exact ⟨by linarith [h.1], by linarith [h.2]⟩)
               | (rcases h with h | h
                  · first | exact Or.inl (by linarith [h.1, h.2]) | exact Or.inr (by linarith [h.1, h.2])
                  · first | exact Or.inl (by linarith [h.1, h.2]) | exact Or.inr (by linarith [h.1, h.2]))
            · intro h
              first
               | exact Or.inl ⟨by linarith [h.1], by linarith [h.2]⟩
               | exact Or.inr ⟨by linarith [h.1], by linarith [h.2]⟩
               | (rcases h with h | h
                  · first | exact Or.inl ⟨by linarith, by linarith⟩ | exact Or.inr ⟨by linarith, by linarith⟩
                  · first | exact Or.inl ⟨by linarith, by linarith⟩ | exact Or.inr ⟨by linarith, by linarith⟩)))

/-- C93: the region "global" has every point of the globe, and every point is in the tropics or in one of the two extratropical regions; in two of them exactly on the circles of
latitude at 20 degrees, which are counted twice. -/
theorem C93_bands {lat : ℝ} (lon : ℝ) (h : -90 ≤ lat ∧ lat ≤ 90) :
    ∃ g t n s, ("global", g) ∈ regions ∧ ("tropics", t) ∈ regions ∧ ("northern-hemisphere", n) ∈ regions ∧ ("southern-hemisphere", s) ∈ regions ∧
      Inside g lat lon ∧ (Inside t lat lon ∨ Inside n lat lon ∨ Inside s lat lon) ∧ ¬ (Inside n lat lon ∧ Inside s lat lon) ∧
      (Inside t lat lon ∧ (Inside n lat lon ∨ Inside s lat lon) ↔ |lat| = 20) := by
  refine ⟨((-90, 90), (0, 360)), ((-20, 20), (0, 360)), ((20, 90), (0, 360)), ((-90, -20), (0, 360)), by simp [regions], by simp [regions], by simp [regions], by simp [regions], ?_⟩
  have ha := onArc_all lon
  simp only [Inside, ha, and_true]
  refine ⟨h, ?_, ?_, ?_⟩
  · rcases le_total lat 20 with h1 | h1
    · rcases le_total lat (-20) with h2 | h2
      · exact Or.inr (Or.inr ⟨h.1, h2⟩)
      · exact Or.inl ⟨h2, h1⟩
    · exact Or.inr (Or.inl ⟨h1, h.2⟩)
  · rintro ⟨h1, h2⟩
    linarith [h1.1, h2.2]
  · constructor
    · rintro ⟨h1, h2 | h2⟩
      · rw [abs_of_nonneg (by linarith [h2.1])]
        exact le_antisymm h1.2 h2.1
      · rw [abs_of_nonpos (by linarith [h2.2])]
        linarith [h1.1, h2.2]
    · intro h1
      rcases abs_eq (by norm_num : (0 : ℝ) ≤ 20) |>.mp h1 with rfl | rfl
      · exact ⟨by norm_num, Or.inl (by norm_num)⟩
      · exact ⟨by norm_num, Or.inr (by norm_num)⟩

/-! ### The shape of the results -/

theorem aggregation_shape (hn : Labels name land) (hg : OnGrid order south degrees fraction s) :
    ∃ x, (aggregator name land order degrees fraction o).aggregationFn s.arr = .ok (some x) ∧
      (∀ d, d ∈ x.dims ↔ d = "region" ∨ (d ∈ s.arr.dims ∧ d ∉ reduceDims o)) ∧
      x.coords "region" = ((regions.map Prod.fst ++ regions.map (fun r => r.1 ++ "_land")).map name).toFinset ∧
      ∀ d ∈ s.arr.dims, d ∉ reduceDims o → x.coords d = s.arr.coords d := by
  obtain ⟨m, hm, hmd, hmr, hmla, hmlo, -, -⟩ := benchmark_mask hn hg
  obtain ⟨c, -, hwd, -, -, -⟩ := Example.grid_weights hg.order hg.latitudes (hg.dims "latitude" (by simp))
  obtain ⟨-, -, -, h4⟩ := Aggregator.aggregationFn_eq (aggregator name land order degrees fraction o) s.arr
  have hd : (reduceDims o).dedup = reduceDims o := by
    unfold reduceDims
    split_ifs <;> decide
  have hred : ∀ d, d ∈ reduceDims o → d ∈ (["init_time", "latitude", "longitude"] : List Dim) := by
    intro d hd
    unfold reduceDims at hd
    split_ifs at hd
    · exact List.mem_cons_of_mem _ hd
    · exact hd
  have hll : "latitude" ∈ reduceDims o ∧ "longitude" ∈ reduceDims o ∧ "region" ∉ reduceDims o := by
    unfold reduceDims
    split_ifs <;> decide
  refine ⟨_, h4 (fun d hd => hg.dims d (hred d hd)) (by simp [aggregator]) ?_, ?_⟩
  · intro b hb
    simp only [aggregator, List.mem_singleton] at hb
    subst hb
    rw [hm, hmd]
    intro d hd
    simp only [regionBinning, Finset.mem_sdiff, Finset.mem_insert, Finset.mem_singleton] at hd
    rcases hd with ⟨rfl | rfl | rfl, h2⟩
    · exact absurd rfl h2
    · exact hg.dims _ (by simp)
    · exact hg.dims _ (by simp)
  · show (∀ d, d ∈ (DA.dot s.arr ([Example.gridWeights order degrees s.arr] ++ [(regionBinning name land degrees fraction).createBinMask s.arr]) (reduceDims o).dedup).dims ↔ _) ∧
      (DA.dot s.arr ([Example.gridWeights order degrees s.arr] ++ [(regionBinning name land degrees fraction).createBinMask s.arr]) (reduceDims o).dedup).coords "region" = _ ∧
      ∀ d ∈ s.arr.dims, d ∉ reduceDims o →
        (DA.dot s.arr ([Example.gridWeights order degrees s.arr] ++ [(regionBinning name land degrees fraction).createBinMask s.arr]) (reduceDims o).dedup).coords d = _
    rw [hd, hm]
    unfold DA.dot
    rw [sumDims_eq]
    simp only [List.singleton_append, List.foldl_cons, List.foldl_nil, DA.zipWith]
    refine ⟨?_, ?_, ?_⟩
    · intro d
      simp only [hwd, hmd, Finset.mem_sdiff, Finset.mem_union, Finset.mem_insert, Finset.mem_singleton, List.mem_toFinset]
      constructor
      · rintro ⟨(h1 | rfl) | (rfl | rfl | rfl), h2⟩
        · exact Or.inr ⟨h1, h2⟩
        · exact absurd hll.1 h2
        · exact Or.inl rfl
        · exact absurd hll.1 h2
        · exact absurd hll.2.1 h2
      · rintro (rfl | ⟨h1, h2⟩)
        · exact ⟨Or.inr (Or.inl rfl), hll.2.2⟩
        · exact ⟨Or.inl (Or.inl h1), h2⟩
    · simp [joinCoords, hwd, hg.region, hmr]
    · intro d hd1 hd2
      have h1 : d ≠ "latitude" := fun h => hd2 (h ▸ hll.1)
      have h2 : d ≠ "longitude" := fun h => hd2 (h ▸ hll.2.1)
      have h3 : d ≠ "region" := fun h => hg.region (h ▸ hd1)
      simp only [joinCoords, hwd, hmd, Finset.mem_union, Finset.mem_insert, Finset.mem_singleton, hd1, h1, h2, h3, if_true, if_false, true_or, or_self]

theorem onGrid_of {a : DA L (FV ℝ)} (hg : OnGrid order south degrees fraction s) (hd : a.dims = s.arr.dims) (hc : ∀ d ∈ s.arr.dims, a.coords d = s.arr.coords d) :
    OnGrid order south degrees fraction ⟨a, none⟩ := by
  have h1 := hc "latitude" (hg.dims _ (by simp))
  have h2 := hc "longitude" (hg.dims _ (by simp))
  refine ⟨hg.order, hg.latitudes, ?_, ?_, ?_, ?_, ?_⟩
  · rw [hd]; exact hg.dims
  · rw [hd]; exact hg.region
  · rw [h1]; exact hg.labels
  · intro m hm; cases hm
  · obtain ⟨f0, f1, f2, f3⟩ := hg.landSea
    exact ⟨f0, f1, f2.trans h1.symm, f3.trans h2.symm⟩

/-- C93: the shape. The results have a label for each of the 17 regions and for the land part of each of them, and the labels of the statistic in all other dimensions that are not
averaged over: latitudes and longitudes always are, init times exactly if the evaluation is not temporal. -/
theorem C93_shape (hn : Labels name land) (hg : OnGrid order south degrees fraction s) :
    ∃ p, (aggregator name land order degrees fraction o).aggregateStatVar s = .ok (some p) ∧ ∀ x ∈ [p.1, p.2],
      (∀ d, d ∈ x.dims ↔ d = "region" ∨ (d ∈ s.arr.dims ∧ d ≠ "latitude" ∧ d ≠ "longitude" ∧ (d = "init_time" → o.temporal = true))) ∧
      (∀ l, l ∈ x.coords "region" ↔ ∃ r ∈ regions, ∃ b, l = labelOf name r.1 b) ∧
      ∀ d ∈ s.arr.dims, d ∈ x.dims → x.coords d = s.arr.coords d := by
  have hred : ∀ d, d ∉ reduceDims o ↔ d ≠ "latitude" ∧ d ≠ "longitude" ∧ (d = "init_time" → o.temporal = true) := by
    intro d
    unfold reduceDims
    split_ifs with ht
    · simp only [List.mem_cons, List.not_mem_nil, or_false, not_or, ht, implies_true, and_true]
    · simp only [List.mem_cons, List.not_mem_nil, or_false, not_or, ht, imp_false, Bool.false_eq_true]
      tauto
  have hdims := applyMask_dims_eq (aggregator name land order degrees fraction o) s (fun m hm => (hg.mask m hm).1)
  have hcoords := masked_coords (aggregator name land order degrees fraction o) hg.mask
  have hlab : ∀ l, l ∈ ((regions.map Prod.fst ++ regions.map (fun r => r.1 ++ "_land")).map name).toFinset ↔ ∃ r ∈ regions, ∃ b, l = labelOf name r.1 b := by
    intro l
    rw [List.mem_toFinset, List.mem_map]
    constructor
    · rintro ⟨x, hx, rfl⟩
      rcases List.mem_append.mp hx with hx | hx
      · obtain ⟨r, hr, rfl⟩ := List.mem_map.mp hx
        exact ⟨r, hr, false, rfl⟩
      · obtain ⟨r, hr, rfl⟩ := List.mem_map.mp hx
        exact ⟨r, hr, true, rfl⟩
    · rintro ⟨r, hr, b, rfl⟩
      cases b with
      | false => exact ⟨r.1, List.mem_append_left _ (List.mem_map.mpr ⟨r, hr, rfl⟩), rfl⟩
      | true => exact ⟨r.1 ++ "_land", List.mem_append_right _ (List.mem_map.mpr ⟨r, hr, rfl⟩), rfl⟩
  obtain ⟨x, hx, x1, x2, x3⟩ := aggregation_shape (o := o) hn (onGrid_of (a := ((aggregator name land order degrees fraction o).applyMask s).1) hg hdims.1 (fun d _ => congrFun hcoords.1 d))
  obtain ⟨y, hy, y1, y2, y3⟩ := aggregation_shape (o := o) hn (onGrid_of (a := ((aggregator name land order degrees fraction o).applyMask s).2) hg hdims.2 (fun d _ => congrFun hcoords.2 d))
  refine ⟨(x, y), ?_, ?_⟩
  · rw [Aggregator.aggregateStatVar_eq]
    dsimp only at hx hy
    rw [hx, hy]
    rfl
  · intro z hz
    simp only [List.mem_cons, List.not_mem_nil, or_false] at hz
    rcases hz with rfl | rfl
    · refine ⟨fun d => ?_, fun l => ?_, fun d h1 h2 => ?_⟩
      · rw [x1, hdims.1, hred]
      · rw [x2, hlab]
      · rcases (x1 d).mp h2 with rfl | h3
        · exact absurd h1 hg.region
        · rw [x3 d h3.1 h3.2, hcoords.1]
    · refine ⟨fun d => ?_, fun l => ?_, fun d h1 h2 => ?_⟩
      · rw [y1, hdims.2, hred]
      · rw [y2, hlab]
      · rcases (y1 d).mp h2 with rfl | h3
        · exact absurd h1 hg.region
        · rw [y3 d h3.1 h3.2, hcoords.2]

/-! ### The values -/

section
variable (hn : Labels name land) (hg : OnGrid order south degrees fraction s) {r : String × ((ℝ × ℝ) × (ℝ × ℝ))} (hr : r ∈ regions) {b : Bool} {e : Dim → L} (he : e "region" = labelOf name r.1 b)
include hn hg hr he

theorem areas_pos (hne : (usedCells o s e (insideOf degrees fraction r.2 b)).Nonempty) : 0 < ∑ c ∈ usedCells o s e (insideOf degrees fraction r.2 b), Example.bandArea south degrees c.2.1 := by
  refine Finset.sum_pos (fun c hc => ?_) hne
  refine Example.bandArea_pos hg.latitudes ?_
  have := ((mem_used _ _).mp hc).1
  simp only [gridCells, Finset.mem_product, hg.labels, List.mem_toFinset] at this
  exact this.2.1

/-- The weighted means of the aggregator are the area-weighted means over the region. -/
theorem mean_eq_area (f : (Dim → L) → ℝ) :
    wmean (aggregator name land order degrees fraction o) s (cellSet o s e) f =
      areaMean south degrees (usedCells o s e (insideOf degrees fraction r.2 b)) (fun c => f (Example.cellAt e c.1 c.2.1 c.2.2)) := by
  obtain ⟨k, hk, hsum⟩ := weighted_sum (o := o) hn hg
  have h1 := hsum r hr b e he f
  have h2 := hsum r hr b e he (fun _ => 1)
  simp only [one_mul, mul_one] at h2
  unfold wmean areaMean
  rw [h1, h2, div_div_div_cancel_right₀ hk.ne']

theorem good_weights (hne : (usedCells o s e (insideOf degrees fraction r.2 b)).Nonempty) : GoodWeights (aggregator name land order degrees fraction o) s (cellSet o s e) := by
  obtain ⟨k, hk, hsum⟩ := weighted_sum (o := o) hn hg
  obtain ⟨k', hk', hw⟩ := cell_weight (o := o) hn hg
  have h2 := hsum r hr b e he (fun _ => 1)
  simp only [one_mul, mul_one] at h2
  refine ⟨?_, ?_⟩
  · intro e' he'
    classical
    simp only [cellSet, Finset.mem_image] at he'
    obtain ⟨c, hc, rfl⟩ := he'
    have hc := ((mem_used _ _).mp hc).1
    rw [hw r hr b e he c hc]
    refine div_nonneg ?_ hk'.le
    split_ifs
    · refine (Example.bandArea_pos hg.latitudes ?_).le
      simp only [gridCells, Finset.mem_product, hg.labels, List.mem_toFinset] at hc
      exact hc.2.1
    · exact le_refl _
  · rw [h2]
    exact div_pos (areas_pos hn hg hr he hne) hk

/-- C93: the value. For every statistic, the mean at a region (or its land part), and at any labels of the dimensions that are kept, is the mean over the cells of the grid in that region,
weighted by their area on the sphere: over the cells that the mask keeps (in the evaluation of the Keisler model, also only over those that are not NaN), for all init times or, in the
temporal evaluation, for the init time of the result. The land part of a region has the cells with any land at all, however small the fraction (finding). A region without such cells gets NaN. -/
theorem C93_value {p : DA L (FV ℝ) × DA L (FV ℝ)} (hp : (aggregator name land order degrees fraction o).aggregateStatVar s = .ok (some p))
    (hf : ∀ c ∈ gridCells o s e, Kept o s (Example.cellAt e c.1 c.2.1 c.2.2) → (s.arr.val (Example.cellAt e c.1 c.2.1 c.2.2)).isFin = true) :
    ((usedCells o s e (insideOf degrees fraction r.2 b)).Nonempty → (DA.zipWith (· / ·) p.1 p.2).val e =
      FV.fin (areaMean south degrees (usedCells o s e (insideOf degrees fraction r.2 b)) (fun c => (s.arr.val (Example.cellAt e c.1 c.2.1 c.2.2)).num))) ∧
    (¬ (usedCells o s e (insideOf degrees fraction r.2 b)).Nonempty → (DA.zipWith (· / ·) p.1 p.2).val e = FV.nan) := by
  have E := evaluated (o := o) hn hg hf
  constructor
  · intro hne
    rw [evaluated_mean E hp (good_weights hn hg hr he hne).2.ne', mean_eq_area hn hg hr he]
  · intro hne
    obtain ⟨h1, h2⟩ := evaluated_sums E hp
    obtain ⟨k, hk, hsum⟩ := weighted_sum (o := o) hn hg
    rw [Finset.not_nonempty_iff_eq_empty] at hne
    have h3 := hsum r hr b e he (fun e' => (s.arr.val e').num)
    have h4 := hsum r hr b e he (fun _ => 1)
    rw [hne] at h3 h4
    simp only [Finset.sum_empty, zero_div, one_mul] at h3 h4
    show p.1.val e / p.2.val e = _
    rw [h1, h2, h3, h4]
    simp [FV.fin_div_fin]

omit hg in
/-- C93: the scores. The bias, the mean squared error and the root mean squared error in the result file are computed from these means: of the differences between the predictions `a` and the
targets `t`, and of their squares. -/
theorem C93_scores {P T : Vars (StatVar L (FV ℝ))} (hP : (P.map Prod.fst).Nodup) (hT : (T.map Prod.fst).Nodup) {v : String} {a t : StatVar L (FV ℝ)} (ha : (v, a) ∈ P) (ht : (v, t) ∈ T)
    (hg : OnGrid order south degrees fraction (error a t))
    (hf : ∀ c ∈ gridCells o (error a t) e, Kept o (error a t) (Example.cellAt e c.1 c.2.1 c.2.2) → ((error a t).arr.val (Example.cellAt e c.1 c.2.1 c.2.2)).isFin = true)
    (hne : (usedCells o (error a t) e (insideOf degrees fraction r.2 b)).Nonempty) {mean : (ℝ → ℝ) → ℝ}
    (hmean : mean = fun f => areaMean south degrees (usedCells o (error a t) e (insideOf degrees fraction r.2 b))
      (fun c => f ((a.arr.val (Example.cellAt e c.1 c.2.1 c.2.2)).num - (t.arr.val (Example.cellAt e c.1 c.2.1 c.2.2)).num))) :
    (∀ x, ValueOf errorStatistic.toMetric (aggregator name land order degrees fraction o) P T v x → x.val e = FV.fin (mean (fun d => d))) ∧
    (∀ x, ValueOf squaredErrorStatistic.toMetric (aggregator name land order degrees fraction o) P T v x → x.val e = FV.fin (mean (fun d => d ^ 2))) ∧
    (∀ x, ValueOf rmse (aggregator name land order degrees fraction o) P T v x → x.val e = FV.fin (Real.sqrt (mean (fun d => d ^ 2)))) := by
  have E := evaluated (o := o) hn hg hf
  have hW := good_weights hn hg hr he hne
  rw [hmean]
  refine ⟨fun x hx => ?_, fun x hx => ?_, fun x hx => ?_⟩
  · rw [C22_bias_value hP hT ha ht E hW hx, mean_eq_area hn hg hr he]
    rfl
  · rw [C22_mse_value hP hT ha ht E hW hx, mean_eq_area hn hg hr he]
    rfl
  · rw [C22_rmse_value hP hT ha ht E hW hx, mean_eq_area hn hg hr he]
    rfl

omit hr he in
/-- C93 (finding): except for the Keisler model, a single NaN that is not masked, anywhere on the globe, makes the mean of every region NaN, also of the regions that it is not in. -/
theorem C93_nan (ho : o.prediction ≠ "keisler") {p : DA L (FV ℝ) × DA L (FV ℝ)} (hp : (aggregator name land order degrees fraction o).aggregateStatVar s = .ok (some p)) {c : L × L × L}
    (hc : c ∈ gridCells o s e) (hk : Kept o s (Example.cellAt e c.1 c.2.1 c.2.2)) (hnan : s.arr.val (Example.cellAt e c.1 c.2.1 c.2.2) = FV.nan) :
    (DA.zipWith (· / ·) p.1 p.2).val e = FV.nan := by
  obtain ⟨h1, h2⟩ := aggregateStatVar_some hp
  have hdims := applyMask_dims_eq (aggregator name land order degrees fraction o) s (fun m hm => (hg.mask m hm).1)
  have hcoords := masked_coords (aggregator name land order degrees fraction o) hg.mask
  have hg' := onGrid_of (a := ((aggregator name land order degrees fraction o).applyMask s).1) hg hdims.1 (fun d _ => congrFun hcoords.1 d)
  obtain ⟨cs, hcs⟩ := exists_reducedCells (reduceDims o) s.arr.coords e
  have hval : ((aggregator name land order degrees fraction o).applyMask s).1.val (Example.cellAt e c.1 c.2.1 c.2.2) = FV.nan := by
    have hsk : (aggregator name land order degrees fraction o).skipna = false := decide_eq_false ho
    have hmk : (aggregator name land order degrees fraction o).masked = true := rfl
    cases hm : s.mask with
    | none =>
      simp only [Aggregator.applyMask, hmk, hm, hsk, Bool.false_eq_true, if_false]
      exact hnan
    | some m =>
      simp only [Aggregator.applyMask, hmk, hm, hsk, Bool.false_eq_true, if_false, DA.where_, DA.zipWith, hk.1 m hm, if_true]
      exact hnan
  show p.1.val e / p.2.val e = _
  rw [aggregationFn_val h1 (covers hn hg') e cs (by
    show ReducedCells (reduceDims o) _ e cs
    rw [hcoords.1]
    exact hcs)]
  have hin : Example.cellAt e c.1 c.2.1 c.2.2 ∈ cs := by
    rw [hcs]
    simp only [gridCells, Finset.mem_product] at hc
    have hi := hc.1
    unfold initsOf at hi
    unfold reduceDims
    split_ifs at hi ⊢ with ht
    · refine ⟨?_, ?_⟩
      · intro d hd
        simp only [List.mem_cons, List.not_mem_nil, or_false] at hd
        rcases hd with rfl | rfl
        · exact hc.2.1
        · exact hc.2.2
      · intro d hd
        by_cases h1 : d = "init_time"
        · subst h1
          exact Finset.mem_singleton.mp hi
        · refine at_other _ _ _ _ ?_
          simp only [List.mem_cons, List.not_mem_nil, or_false, not_or] at hd ⊢
          exact ⟨h1, hd⟩
    · refine ⟨?_, fun d hd => at_other _ _ _ _ hd⟩
      intro d hd
      simp only [List.mem_cons, List.not_mem_nil, or_false] at hd
      rcases hd with rfl | rfl | rfl
      · exact hi
      · exact hc.2.1
      · exact hc.2.2
  rw [FV.sum_nan cs _ _ hin (by simp only [hval]; exact FV.foldl_nan _)]
  cases p.2.val e <;> rfl

end

/-! ### A concrete case -/

/-- C93: the chunks. However the init times and lead times are cut into chunks, adding up what is computed for the chunks gives the sums of the whole evaluation (and so the same means). -/
theorem C93_chunks (hf : fraction.dims = {"latitude", "longitude"}) (statistics : List (String × List (String × Option (StatVar L (FV ℝ))))) (hk : UniqueKeys statistics)
    (inits leads : List (Finset L)) (hne : inits ≠ []) (hne' : leads ≠ [])
    (hdim : ∀ st ∈ statistics, ∀ v s, (v, some s) ∈ st.2 → "init_time" ∈ s.arr.dims ∧ Partition inits (s.arr.coords "init_time") ∧ "lead_time" ∈ s.arr.dims ∧ Partition leads (s.arr.coords "lead_time"))
    {whole : AggState L (FV ℝ)} (hw : (aggregator name land order degrees fraction o).aggregateStatistics statistics = .ok whole) :
    ∃ parts : Finset L × Finset L → AggState L (FV ℝ), ∃ r,
      (∀ p, (aggregator name land order degrees fraction o).aggregateStatistics (chunkOf "lead_time" p.2 (chunkOf "init_time" p.1 statistics)) = .ok (parts p)) ∧
      AggState.sum ((inits ×ˢ leads).map parts) = .ok r ∧ r.Same whole :=
  C07_grid_of_chunks _ "init_time" "lead_time" (by decide) (benchmark_local hf (Or.inl rfl)) (benchmark_local hf (Or.inr rfl)) statistics hk inits leads hne hne' hdim whole hw

/-- Three latitudes. -/
noncomputable def exDegrees (l : String) : ℝ := if l = "-60" then -60 else if l = "60" then 60 else if l = "180" then 180 else 0

/-- A little land at 60 degrees north, on one side of the globe. -/
noncomputable def exLand : DA String (FV ℝ) where
  dims := {"latitude", "longitude"}
  coords := fun d => if d = "latitude" then {"-60", "0", "60"} else {"0", "180"}
  val := fun e => if e "latitude" = "60" ∧ e "longitude" = "180" then .fin (1 / 100) else .fin 0

/-- A statistic: 3 and 5 at 60 degrees north, otherwise 1. -/
noncomputable def exStatistic : StatVar String (FV ℝ) where
  arr := { dims := {"init_time", "latitude", "longitude"}
           coords := fun d => if d = "init_time" then {"a", "b"} else if d = "latitude" then {"-60", "0", "60"} else {"0", "180"}
           val := fun e => if e "latitude" = "60" then (if e "longitude" = "180" then .fin 5 else .fin 3) else .fin 1 }
  mask := none

def exOptions (temporal : Bool) : Options := { prediction := "hres", target := "era5", resolution := "64x32", year := 2020, temporal := temporal }

theorem exLabels : Labels (L := String) id (· ++ "_land") := ⟨Function.injective_id, fun _ => rfl⟩

theorem exOnGrid : OnGrid ["60", "0", "-60"] ["-60", "0", "60"] exDegrees exLand exStatistic where
  order := Or.inr rfl
  latitudes := by
    have : ["-60", "0", "60"].map exDegrees = [-60, 0, 60] := by simp [exDegrees]
    rw [this]
    refine ⟨by simp, by simp, ?_⟩
    intro x hx
    simp only [List.mem_cons, List.not_mem_nil, or_false] at hx
    rcases hx with rfl | rfl | rfl <;> norm_num
  dims := by decide
  region := by decide
  labels := by decide
  mask := by intro m hm; cases hm
  landSea := by
    refine ⟨?_, rfl, rfl, rfl⟩
    intro e e' h
    have h1 := h "latitude" (by decide)
    have h2 := h "longitude" (by decide)
    show (if _ then _ else _) = (if _ then _ else _)
    rw [h1, h2]

/-- The hypotheses are met: the land part of the arctic has the mean 5, and the antarctic has no land: NaN. -/
example (temporal : Bool) : ∃ p, (aggregator id (· ++ "_land") ["60", "0", "-60"] exDegrees exLand (exOptions temporal)).aggregateStatVar exStatistic = .ok (some p) ∧
    (DA.zipWith (· / ·) p.1 p.2).val (fun d => if d = "region" then "arctic_land" else "a") = FV.fin 5 ∧
    (DA.zipWith (· / ·) p.1 p.2).val (fun d => if d = "region" then "antarctic_land" else "a") = FV.nan := by
  obtain ⟨p, hp, -⟩ := C93_shape (o := exOptions temporal) exLabels exOnGrid
  have hfin : ∀ e, (exStatistic.arr.val e).isFin = true := by
    intro e
    simp only [exStatistic]
    split_ifs <;> rfl
  have hfrac : ∀ e : Dim → String, exLand.val e ≠ FV.fin 0 → e "latitude" = "60" ∧ e "longitude" = "180" := by
    intro e he
    by_contra hne
    exact he (if_neg hne)
  refine ⟨p, hp, ?_, ?_⟩
  · have key := (C93_value (o := exOptions temporal) exLabels exOnGrid (r := ("arctic", ((60, 90), (0, 360)))) (by simp [regions]) (b := true) (e := fun d => if d = "region" then "arctic_land" else "a") rfl hp
      (fun c _ _ => hfin _)).1
    have hne : (usedCells (exOptions temporal) exStatistic (fun d => if d = "region" then "arctic_land" else "a") (insideOf exDegrees exLand ((60, 90), (0, 360)) true)).Nonempty := by
      refine ⟨("a", "60", "180"), (mem_used _ _).mpr ⟨?_, ?_, ⟨⟨?_, onArc_all _⟩, ?_⟩⟩⟩
      · cases temporal <;> decide
      · exact ⟨(fun m hm => by cases hm), (fun h => absurd h (show ¬ "hres" = "keisler" by decide))⟩
      · simp [exDegrees]
        norm_num
      · intro _ e h1 h2
        have : exLand.val e = FV.fin (1 / 100) := if_pos ⟨h1, h2⟩
        rw [this]
        simp
    rw [key hne]
    congr 1
    unfold areaMean
    rw [Finset.sum_congr rfl (g := fun c => Example.bandArea ["-60", "0", "60"] exDegrees c.2.1 * 5), ← Finset.sum_mul,
      mul_div_cancel_left₀ _ (areas_pos exLabels exOnGrid (r := ("arctic", ((60, 90), (0, 360)))) (by simp [regions]) (b := true) (e := fun d => if d = "region" then "arctic_land" else "a") rfl hne).ne']
    intro c hc
    obtain ⟨-, -, -, hl⟩ := (mem_used _ _).mp hc
    obtain ⟨h1, h2⟩ := hfrac _ (hl rfl (Example.cellAt (fun _ => "a") c.1 c.2.1 c.2.2) rfl rfl)
    rw [at_lat] at h1
    rw [at_lon] at h2
    dsimp only
    rw [h1, h2]
    rfl
  · refine (C93_value (o := exOptions temporal) exLabels exOnGrid (r := ("antarctic", ((-90, -60), (0, 360)))) (by simp [regions]) (b := true) (e := fun d => if d = "region" then "antarctic_land" else "a") rfl hp
      (fun c _ _ => hfin _)).2 ?_
    rintro ⟨c, hc⟩
    obtain ⟨-, -, ⟨⟨-, hlat⟩, -⟩, hl⟩ := (mem_used _ _).mp hc
    obtain ⟨h1, h2⟩ := hfrac _ (hl rfl (Example.cellAt (fun _ => "a") c.1 c.2.1 c.2.2) rfl rfl)
    rw [at_lat] at h1
    rw [h1] at hlat
    simp [exDegrees] at hlat
    norm_num at hlat

/-- The hypotheses of `C93_scores` are met by a forecast that is off by the statistic above. -/
noncomputable def exZero : StatVar String (FV ℝ) := { exStatistic with arr := { exStatistic.arr with val := fun _ => .fin 0 } }

example : OnGrid ["60", "0", "-60"] ["-60", "0", "60"] exDegrees exLand (error exStatistic exZero) where
  order := Or.inr rfl
  latitudes := exOnGrid.latitudes
  dims := by decide
  region := by decide
  labels := by decide
  mask := by intro m hm; cases hm
  landSea := exOnGrid.landSea

/-- The hypotheses of `C93_nan` are met: a NaN at the equator. -/
noncomputable def exMissing : StatVar String (FV ℝ) := { exStatistic with arr := { exStatistic.arr with val := fun e => if e "latitude" = "0" then .nan else .fin 1 } }

theorem exMissing_onGrid : OnGrid ["60", "0", "-60"] ["-60", "0", "60"] exDegrees exLand exMissing where
  order := Or.inr rfl
  latitudes := exOnGrid.latitudes
  dims := by decide
  region := by decide
  labels := by decide
  mask := by intro m hm; cases hm
  landSea := exOnGrid.landSea

example : ∃ p, (aggregator id (· ++ "_land") ["60", "0", "-60"] exDegrees exLand (exOptions false)).aggregateStatVar exMissing = .ok (some p) ∧
    (DA.zipWith (· / ·) p.1 p.2).val (fun d => if d = "region" then "arctic" else "a") = FV.nan := by
  obtain ⟨p, hp, -⟩ := C93_shape (o := exOptions false) exLabels exMissing_onGrid
  refine ⟨p, hp, C93_nan (o := exOptions false) exLabels exMissing_onGrid (e := fun d => if d = "region" then "arctic" else "a") (show ¬ "hres" = "keisler" by decide) hp
    (c := ("a", "0", "0")) (by decide) ?_ ?_⟩
  · exact ⟨(fun m hm => by cases hm), (fun h => absurd h (show ¬ "hres" = "keisler" by decide))⟩
  · show (if (Example.cellAt (fun d => if d = "region" then "arctic" else "a") "a" "0" "0") "latitude" = "0" then FV.nan else FV.fin 1) = FV.nan
    rw [at_lat, if_pos rfl]

end WBX.Benchmark
