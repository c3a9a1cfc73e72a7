import Verif.Props.Baseline
import Verif.Props.Slices

set_option linter.unusedSectionVars false

/-!
# C57: inference for the comparison with a baseline, for several metrics
-/

namespace WBX
open DA

section
variable {L V D : Type} [DecidableEq L]

/-- Metrics are evaluated one by one. -/
theorem metrics_each {S M : Type} (ms : List (String × Metric D S M)) (sv : List (String × Vars M)) (r : List (String × Vars M)) :
    computeMetricsFromStatistics ms sv = .ok r ↔ List.Forall₂ (fun nm x => computeMetricsFromStatistics [nm] sv = .ok [x]) ms r := by
  have hone : ∀ (nm : String × Metric D S M) x, computeMetricsFromStatistics [nm] sv = .ok [x] ↔ (do
      let v ← computeMetricFromStatistics nm.2 sv
      return (nm.1, v) : Except Err _) = .ok x := by
    intro nm x
    unfold computeMetricsFromStatistics
    rw [List.mapM_cons, List.mapM_nil]
    constructor
    · intro h
      obtain ⟨y, hy, h⟩ := bind_ok_iff.mp h
      cases h
      exact hy
    · intro h
      exact bind_ok_iff.mpr ⟨x, h, rfl⟩
  simp only [hone]
  unfold computeMetricsFromStatistics
  induction ms generalizing r with
  | nil =>
    rw [List.mapM_nil]
    constructor
    · intro h; cases h; exact .nil
    · intro h; cases h; rfl
  | cons nm ms ih =>
    rw [List.mapM_cons]
    constructor
    · intro h
      obtain ⟨x, hx, h⟩ := bind_ok_iff.mp h
      obtain ⟨xs, hxs, h⟩ := bind_ok_iff.mp h
      cases h
      exact .cons hx ((ih xs).mp hxs)
    · intro h
      cases h with
      | @cons _ x _ xs h1 h2 => exact bind_ok_iff.mpr ⟨x, h1, bind_ok_iff.mpr ⟨xs, (ih xs).mpr h2, rfl⟩⟩

/-- The comparisons that are made. -/
theorem for_metrics_filter {S M : Type} (metrics : List (String × Metric D S M)) (bs : List (String × Metric D S M)) (cmp : Vars M → Vars M → Except Err (Vars M))
    {R : Type} (P : String × Metric D S M → R → Prop) (r : List R) :
    List.Forall₂ P (metrics.filterMap (fun nm => (pyGet? nm.1 bs).map (fun b => (nm.1, baselineComparison nm.2 b cmp)))) r ↔
      List.Forall₂ (fun nm x => ∃ b, pyGet? nm.1 bs = some b ∧ P (nm.1, baselineComparison nm.2 b cmp) x) (metrics.filter (fun nm => decide (nm.1 ∈ bs.map Prod.fst))) r := by
  induction metrics generalizing r with
  | nil => simp
  | cons nm metrics ih =>
    rw [List.filterMap_cons, List.filter_cons]
    cases hb : pyGet? nm.1 bs with
    | none =>
      have : nm.1 ∉ bs.map Prod.fst := (pyGet?_none_iff _ _).mp hb
      simp only [Option.map_none, decide_eq_false this, Bool.false_eq_true, if_false]
      exact ih r
    | some b =>
      have hin : nm.1 ∈ bs.map Prod.fst := by
        by_contra hno
        rw [(pyGet?_none_iff _ _).mpr hno] at hb
        cases hb
      simp only [Option.map_some, decide_eq_true hin, if_true]
      constructor
      · intro h
        cases h with
        | cons h1 h2 => exact .cons ⟨b, hb, h1⟩ ((ih _).mp h2)
      · intro h
        cases h with
        | cons h1 h2 =>
          obtain ⟨b', hb', h1⟩ := h1
          rw [hb] at hb'
          cases hb'
          exact .cons h1 ((ih _).mpr h2)

end

section
variable {L D : Type} [DecidableEq L] {d : Dim}

/-- The statistics of every metric have different names (they are the keys of a dict). -/
def DistinctStatistics {S M : Type} (metrics : List (String × Metric D S M)) : Prop := ∀ nm ∈ metrics, (nm.2.statistics.map Prod.fst).Nodup

theorem replicates_each {w : StateTable L (FV ℝ)} (hw : UniqueNames w) (counts : DA L (FV ℝ)) (ms : List (String × Metric D (Option (StatVar L (FV ℝ))) (DA L (FV ℝ)))) (r) :
    bootstrapReplicates ms d counts (AggState.ofTable w) = .ok r ↔ List.Forall₂ (fun nm x => bootstrapReplicates [nm] d counts (AggState.ofTable w) = .ok [x]) ms r := by
  have h : ∀ ms : List (String × Metric D (Option (StatVar L (FV ℝ))) (DA L (FV ℝ))), bootstrapReplicates ms d counts (AggState.ofTable w) =
      computeMetricsFromStatistics ms (StateTable.mapEntries (DA.zipWith (· / ·)) (w.mapEntries (fun a b => (DA.dot a [counts] [d], DA.dot b [counts] [d])))) := by
    intro ms
    refine Eq.trans (bind_ok_of (AggState.dot_ofTable w hw [counts] [d]) rfl) ?_
    exact AggState.metricTable_ofTable _ (AggState.unique_mapEntries w hw _) ms
  simp only [h]
  exact metrics_each _ _ _

theorem estimates_each {w : StateTable L (FV ℝ)} (hw : UniqueNames w) (hd : ∀ sv ∈ w, ∀ v ∈ sv.2, d ∈ v.2.1.dims ∧ d ∈ v.2.2.dims)
    (ms : List (String × Metric D (Option (StatVar L (FV ℝ))) (DA L (FV ℝ)))) (r) :
    bootstrapEstimates ms d (AggState.ofTable w) = .ok r ↔ List.Forall₂ (fun nm x => bootstrapEstimates [nm] d (AggState.ofTable w) = .ok [x]) ms r := by
  have h : ∀ ms : List (String × Metric D (Option (StatVar L (FV ℝ))) (DA L (FV ℝ))), bootstrapEstimates ms d (AggState.ofTable w) =
      computeMetricsFromStatistics ms (StateTable.mapEntries (DA.zipWith (· / ·)) (w.mapEntries (fun a b => (DA.sumDims [d] a, DA.sumDims [d] b)))) := by
    intro ms
    refine Eq.trans (bind_ok_of (AggState.sumAlongDims_ofTable w hw [d] (fun sv hsv v hv d' hd' => by
      rw [List.mem_singleton] at hd'; subst hd'; exact hd sv hsv v hv)) rfl) ?_
    exact AggState.metricTable_ofTable _ (AggState.unique_mapEntries w hw _) ms
  simp only [h]
  exact metrics_each _ _ _

variable {metrics : List (String × Metric D (Option (StatVar L (FV ℝ))) (DA L (FV ℝ)))} {baselines : Option (List (String × Metric D (Option (StatVar L (FV ℝ))) (DA L (FV ℝ))))}
  {cmp : Vars (DA L (FV ℝ)) → Vars (DA L (FV ℝ)) → Except Err (Vars (DA L (FV ℝ)))} {t u : StateTable L (FV ℝ)}

theorem replicates_name {w : StateTable L (FV ℝ)} (hw : UniqueNames w) {counts : DA L (FV ℝ)} {nm : String × Metric D (Option (StatVar L (FV ℝ))) (DA L (FV ℝ))} {x}
    (h : bootstrapReplicates [nm] d counts (AggState.ofTable w) = .ok [x]) : x.1 = nm.1 := by
  have h1 : bootstrapReplicates [nm] d counts (AggState.ofTable w) =
      computeMetricsFromStatistics [nm] (StateTable.mapEntries (DA.zipWith (· / ·)) (w.mapEntries (fun a b => (DA.dot a [counts] [d], DA.dot b [counts] [d])))) :=
    Eq.trans (bind_ok_of (AggState.dot_ofTable w hw [counts] [d]) rfl) (AggState.metricTable_ofTable _ (AggState.unique_mapEntries w hw _) _)
  rw [h1] at h
  unfold computeMetricsFromStatistics at h
  rw [List.mapM_cons, List.mapM_nil] at h
  obtain ⟨y, hy, h⟩ := bind_ok_iff.mp h
  cases h
  obtain ⟨v, _, hy⟩ := bind_ok_iff.mp hy
  cases hy
  rfl

theorem estimates_name {w : StateTable L (FV ℝ)} (hw : UniqueNames w) (hd : ∀ sv ∈ w, ∀ v ∈ sv.2, d ∈ v.2.1.dims ∧ d ∈ v.2.2.dims)
    {nm : String × Metric D (Option (StatVar L (FV ℝ))) (DA L (FV ℝ))} {x}
    (h : bootstrapEstimates [nm] d (AggState.ofTable w) = .ok [x]) : x.1 = nm.1 := by
  have h1 : bootstrapEstimates [nm] d (AggState.ofTable w) =
      computeMetricsFromStatistics [nm] (StateTable.mapEntries (DA.zipWith (· / ·)) (w.mapEntries (fun a b => (DA.sumDims [d] a, DA.sumDims [d] b)))) :=
    Eq.trans (bind_ok_of (AggState.sumAlongDims_ofTable w hw [d] (fun sv hsv v hv d' hd' => by
      rw [List.mem_singleton] at hd'; subst hd'; exact hd sv hsv v hv)) rfl) (AggState.metricTable_ofTable _ (AggState.unique_mapEntries w hw _) _)
  rw [h1] at h
  unfold computeMetricsFromStatistics at h
  rw [List.mapM_cons, List.mapM_nil] at h
  obtain ⟨y, hy, h⟩ := bind_ok_iff.mp h
  cases h
  obtain ⟨v, _, hy⟩ := bind_ok_iff.mp hy
  cases hy
  rfl

theorem distinct_get {S M : Type} {bs : List (String × Metric D S M)} (h : DistinctStatistics bs) {k : String} {b : Metric D S M} (hb : pyGet? k bs = some b) :
    (b.statistics.map Prod.fst).Nodup := h _ (pyGet?_mem hb)

/-- `for_baseline_comparison` of the IID and the cluster bootstrap, with any comparison: there is a result for exactly the metrics that both mappings have, and its replicates compare
the replicates of the metric for the model with those of the baseline metric for the baseline, for the same draws of experimental units for all metrics, variables and both models. -/
theorem C57_inference_replicates (ht : UniqueNames t) (hu : UniqueNames u) (hm : DistinctStatistics metrics) (hb : DistinctStatistics (baselines.getD metrics)) (counts : DA L (FV ℝ))
    (r : List (String × Vars (DA L (FV ℝ)))) :
    forBaselineComparison (fun ms s => bootstrapReplicates ms d counts s) metrics (AggState.ofTable t) (AggState.ofTable u) baselines cmp = .ok r ↔
      List.Forall₂ (fun nm x => x.1 = nm.1 ∧ ∃ b v w, pyGet? nm.1 (baselines.getD metrics) = some b ∧ bootstrapReplicates [nm] d counts (AggState.ofTable t) = .ok [(nm.1, v)] ∧
        bootstrapReplicates [(nm.1, b)] d counts (AggState.ofTable u) = .ok [(nm.1, w)] ∧ cmp v w = .ok x.2)
        (metrics.filter (fun nm => decide (nm.1 ∈ (baselines.getD metrics).map Prod.fst))) r := by
  have hc := combine_ofTable t u ht hu
  have hb2 := unique_bothSides ht hu
  have h1 : forBaselineComparison (fun ms s => bootstrapReplicates ms d counts s) metrics (AggState.ofTable t) (AggState.ofTable u) baselines cmp
      = bootstrapReplicates (baselineForMetrics metrics baselines cmp) d counts (AggState.ofTable (bothSides t u)) := bind_ok_of hc rfl
  rw [h1, replicates_each hb2]
  unfold baselineForMetrics
  dsimp only
  rw [for_metrics_filter]
  have hiff : ∀ nm ∈ metrics.filter (fun nm => decide (nm.1 ∈ (baselines.getD metrics).map Prod.fst)), ∀ x : String × Vars (DA L (FV ℝ)),
      (∃ b, pyGet? nm.1 (baselines.getD metrics) = some b ∧ bootstrapReplicates [(nm.1, baselineComparison nm.2 b cmp)] d counts (AggState.ofTable (bothSides t u)) = .ok [x]) ↔
      (x.1 = nm.1 ∧ ∃ b v w, pyGet? nm.1 (baselines.getD metrics) = some b ∧ bootstrapReplicates [nm] d counts (AggState.ofTable t) = .ok [(nm.1, v)] ∧
        bootstrapReplicates [(nm.1, b)] d counts (AggState.ofTable u) = .ok [(nm.1, w)] ∧ cmp v w = .ok x.2) := by
    intro nm hnm x
    have hnm' := (List.mem_filter.mp hnm).1
    constructor
    · rintro ⟨b, hb', h⟩
      have hx := replicates_name hb2 h
      dsimp only at hx
      obtain ⟨s, hs, hp⟩ := C57_paired (d := d) t u ht hu nm.1 nm.2 b cmp (hm nm hnm') (distinct_get hb hb') counts
      rw [hc] at hs
      cases hs
      obtain ⟨n, x⟩ := x
      dsimp only at hx
      subst hx
      obtain ⟨v, w, h2, h3, h4⟩ := (hp x).mp h
      exact ⟨rfl, b, v, w, hb', h2, h3, h4⟩
    · rintro ⟨hx, b, v, w, hb', h2, h3, h4⟩
      obtain ⟨s, hs, hp⟩ := C57_paired (d := d) t u ht hu nm.1 nm.2 b cmp (hm nm hnm') (distinct_get hb hb') counts
      rw [hc] at hs
      cases hs
      obtain ⟨n, x⟩ := x
      dsimp only at hx
      subst hx
      exact ⟨b, hb', (hp x).mpr ⟨v, w, h2, h3, h4⟩⟩
  constructor
  · intro h; exact forall₂_imp_mem h (fun nm hnm x hx => (hiff nm hnm x).mp hx)
  · intro h; exact forall₂_imp_mem h (fun nm hnm x hx => (hiff nm hnm x).mpr hx)

/-- Likewise for its point estimates. -/
theorem C57_inference_estimates (ht : UniqueNames t) (hu : UniqueNames u) (hm : DistinctStatistics metrics) (hb : DistinctStatistics (baselines.getD metrics))
    (hdt : ∀ sv ∈ t, ∀ v ∈ sv.2, d ∈ v.2.1.dims ∧ d ∈ v.2.2.dims) (hdu : ∀ sv ∈ u, ∀ v ∈ sv.2, d ∈ v.2.1.dims ∧ d ∈ v.2.2.dims)
    (r : List (String × Vars (DA L (FV ℝ)))) :
    forBaselineComparison (fun ms s => bootstrapEstimates ms d s) metrics (AggState.ofTable t) (AggState.ofTable u) baselines cmp = .ok r ↔
      List.Forall₂ (fun nm x => x.1 = nm.1 ∧ ∃ b v w, pyGet? nm.1 (baselines.getD metrics) = some b ∧ bootstrapEstimates [nm] d (AggState.ofTable t) = .ok [(nm.1, v)] ∧
        bootstrapEstimates [(nm.1, b)] d (AggState.ofTable u) = .ok [(nm.1, w)] ∧ cmp v w = .ok x.2)
        (metrics.filter (fun nm => decide (nm.1 ∈ (baselines.getD metrics).map Prod.fst))) r := by
  have hc := combine_ofTable t u ht hu
  have hb2 := unique_bothSides ht hu
  have hboth : ∀ sv ∈ bothSides t u, ∀ v ∈ sv.2, d ∈ v.2.1.dims ∧ d ∈ v.2.2.dims := by
    intro sv hsv
    unfold bothSides at hsv
    rcases List.mem_append.mp hsv with h | h
    · obtain ⟨x, hx, rfl⟩ := List.mem_map.mp h; exact hdt x hx
    · obtain ⟨x, hx, rfl⟩ := List.mem_map.mp h; exact hdu x hx
  have h1 : forBaselineComparison (fun ms s => bootstrapEstimates ms d s) metrics (AggState.ofTable t) (AggState.ofTable u) baselines cmp
      = bootstrapEstimates (baselineForMetrics metrics baselines cmp) d (AggState.ofTable (bothSides t u)) := bind_ok_of hc rfl
  rw [h1, estimates_each hb2 hboth]
  unfold baselineForMetrics
  dsimp only
  rw [for_metrics_filter]
  have hiff : ∀ nm ∈ metrics.filter (fun nm => decide (nm.1 ∈ (baselines.getD metrics).map Prod.fst)), ∀ x : String × Vars (DA L (FV ℝ)),
      (∃ b, pyGet? nm.1 (baselines.getD metrics) = some b ∧ bootstrapEstimates [(nm.1, baselineComparison nm.2 b cmp)] d (AggState.ofTable (bothSides t u)) = .ok [x]) ↔
      (x.1 = nm.1 ∧ ∃ b v w, pyGet? nm.1 (baselines.getD metrics) = some b ∧ bootstrapEstimates [nm] d (AggState.ofTable t) = .ok [(nm.1, v)] ∧
        bootstrapEstimates [(nm.1, b)] d (AggState.ofTable u) = .ok [(nm.1, w)] ∧ cmp v w = .ok x.2) := by
    intro nm hnm x
    have hnm' := (List.mem_filter.mp hnm).1
    constructor
    · rintro ⟨b, hb', h⟩
      have hx := estimates_name hb2 hboth h
      dsimp only at hx
      obtain ⟨s, hs, hp⟩ := C57_estimates (d := d) t u ht hu nm.1 nm.2 b cmp (hm nm hnm') (distinct_get hb hb') hdt hdu
      rw [hc] at hs
      cases hs
      obtain ⟨n, x⟩ := x
      dsimp only at hx
      subst hx
      obtain ⟨v, w, h2, h3, h4⟩ := (hp x).mp h
      exact ⟨rfl, b, v, w, hb', h2, h3, h4⟩
    · rintro ⟨hx, b, v, w, hb', h2, h3, h4⟩
      obtain ⟨s, hs, hp⟩ := C57_estimates (d := d) t u ht hu nm.1 nm.2 b cmp (hm nm hnm') (distinct_get hb hb') hdt hdu
      rw [hc] at hs
      cases hs
      obtain ⟨n, x⟩ := x
      dsimp only at hx
      subst hx
      exact ⟨b, hb', (hp x).mpr ⟨v, w, h2, h3, h4⟩⟩
  constructor
  · intro h; exact forall₂_imp_mem h (fun nm hnm x hx => (hiff nm hnm x).mp hx)
  · intro h; exact forall₂_imp_mem h (fun nm hnm x hx => (hiff nm hnm x).mpr hx)

/-- A model compared with itself: every difference of finite values is 0 in every replicate. -/
theorem C57_self (ht : UniqueNames t) (hm : DistinctStatistics metrics) (hn : (metrics.map Prod.fst).Nodup) (counts : DA L (FV ℝ)) {r : List (String × Vars (DA L (FV ℝ)))}
    (h : forBaselineComparison (fun ms s => bootstrapReplicates ms d counts s) metrics (AggState.ofTable t) (AggState.ofTable t) none baselineDifference = .ok r) :
    List.Forall₂ (fun nm x => x.1 = nm.1 ∧ ∃ v, bootstrapReplicates [nm] d counts (AggState.ofTable t) = .ok [(nm.1, v)] ∧
      ∀ k y, pyGet? k x.2 = some y → ∃ z, pyGet? k v = some z ∧ ∀ e q, z.val e = .fin q → y.val e = .fin 0) metrics r := by
  have h1 := (C57_inference_replicates (baselines := none) ht ht hm hm counts r).mp h
  have hf : metrics.filter (fun nm => decide (nm.1 ∈ ((none : Option (List (String × Metric D (Option (StatVar L (FV ℝ))) (DA L (FV ℝ))))).getD metrics).map Prod.fst)) = metrics := by
    rw [List.filter_eq_self]
    intro nm hnm
    exact decide_eq_true (List.mem_map_of_mem hnm)
  rw [hf] at h1
  refine forall₂_imp_mem h1 ?_
  rintro nm hnm x ⟨hx, b, v, w, hb, h2, h3, h4⟩
  rw [Option.getD_none, pyGet?_eq_some hn] at hb
  have hbe : b = nm.2 := by
    have := hn
    have h5 := List.inj_on_of_nodup_map this hnm hb rfl
    rw [h5]
  subst hbe
  rw [h2] at h3
  have hvw : v = w := by
    have := Except.ok.inj h3
    simpa using this
  subst hvw
  refine ⟨hx, v, h2, ?_⟩
  intro k y hy
  obtain ⟨r', hr', hk⟩ := C57_difference v v
  rw [h4] at hr'
  cases hr'
  rw [hk k] at hy
  cases hv : pyGet? k v with
  | none => rw [hv] at hy; simp at hy
  | some z =>
    rw [hv] at hy
    simp only [Option.some.injEq] at hy
    subst hy
    refine ⟨z, rfl, ?_⟩
    intro e q hq
    show z.val e - z.val e = .fin 0
    rw [hq, FV.fin_sub_fin, sub_self]

end
/-! ### Instance -/

/-- A metric that is the mean of one statistic. -/
def exMeanR (D : Type) : Metric D (Option (StatVar ℕ (FV ℝ))) (DA ℕ (FV ℝ)) := Statistic.toMetric { uniqueName := "SquaredError", compute := fun _ _ => .ok [] }

/-- Sums per init time. -/
noncomputable def exPerInit (x : ℝ) : StateTable ℕ (FV ℝ) :=
  [("SquaredError", [("t", (({ dims := {"init_time"}, coords := fun _ => {0, 1}, val := fun e => .fin (x * e "init_time") } : DA ℕ (FV ℝ)),
    ({ dims := {"init_time"}, coords := fun _ => {0, 1}, val := fun _ => .fin 1 } : DA ℕ (FV ℝ))))])]

theorem exPerInit_unique (x : ℝ) : UniqueNames (exPerInit x) := by
  refine ⟨by simp [exPerInit], ?_⟩
  intro sv hsv
  simp only [exPerInit, List.mem_singleton] at hsv
  subst hsv
  simp

theorem exPerInit_replicates (D : Type) (x : ℝ) (counts : DA ℕ (FV ℝ)) :
    ∃ v, bootstrapReplicates [("mse", exMeanR D)] "init_time" counts (AggState.ofTable (exPerInit x)) = .ok [("mse", v)] ∧ ∃ y, pyGet? "t" v = some y := by
  have h1 : bootstrapReplicates [("mse", exMeanR D)] "init_time" counts (AggState.ofTable (exPerInit x)) = computeMetricsFromStatistics [("mse", exMeanR D)]
      (StateTable.mapEntries (DA.zipWith (· / ·)) ((exPerInit x).mapEntries (fun a b => (DA.dot a [counts] ["init_time"], DA.dot b [counts] ["init_time"])))) :=
    Eq.trans (bind_ok_of (AggState.dot_ofTable _ (exPerInit_unique x) [counts] ["init_time"]) rfl) (AggState.metricTable_ofTable _ (AggState.unique_mapEntries _ (exPerInit_unique x) _) _)
  rw [h1]
  exact ⟨_, rfl, _, rfl⟩

/-- The hypotheses of `C57_inference_replicates` and `C57_self` hold, and there is a comparison. -/
example (D : Type) (counts : DA ℕ (FV ℝ)) : DistinctStatistics [("mse", exMeanR D)] ∧
    ∃ r, forBaselineComparison (fun ms s => bootstrapReplicates ms "init_time" counts s) [("mse", exMeanR D)] (AggState.ofTable (exPerInit 1)) (AggState.ofTable (exPerInit 2)) none
      baselineDifference = .ok [("mse", r)] ∧ ∃ y, pyGet? "t" r = some y := by
  have hd : DistinctStatistics [("mse", exMeanR D)] := by
    intro nm hnm
    rw [List.mem_singleton] at hnm
    subst hnm
    simp [exMeanR, Statistic.toMetric]
  refine ⟨hd, ?_⟩
  obtain ⟨v, hv, y, hy⟩ := exPerInit_replicates D 1 counts
  obtain ⟨w, hw, z, hz⟩ := exPerInit_replicates D 2 counts
  obtain ⟨r, hr, hk⟩ := C57_difference v w
  refine ⟨r, (C57_inference_replicates (baselines := none) (exPerInit_unique 1) (exPerInit_unique 2) hd hd counts _).mpr ?_, ?_⟩
  · have hf : [("mse", exMeanR D)].filter (fun nm => decide (nm.1 ∈ ((none : Option (List (String × Metric D (Option (StatVar ℕ (FV ℝ))) (DA ℕ (FV ℝ))))).getD
        [("mse", exMeanR D)]).map Prod.fst)) = [("mse", exMeanR D)] := by simp
    rw [hf]
    exact .cons ⟨rfl, exMeanR D, v, w, by simp [pyGet?], hv, hw, hr⟩ .nil
  · rw [hk "t", hy, hz]
    exact ⟨_, rfl⟩

end WBX
