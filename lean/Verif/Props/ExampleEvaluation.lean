import Verif.Lemmas.ExampleValue
import Verif.Props.PipelineFilesExample
import Verif.Props.StationaryCellwise

set_option linter.unusedSectionVars false

/-!
# C85: the example evaluation, from the flags to the file of metric values
-/

namespace WBX
namespace Example
open DA
variable {L : Type} [LinearOrder L] [Add L]
variable {is ts order south : List L} {degrees : L → ℝ} {C : Dim → Finset L} {data : List (String × (DA L (FV ℝ) × DA L (FV ℝ)))}
variable {hours : ℤ → L} {name : String → L} {f : Flags} {path : String} {outputs : List (String × Except Err (List (String × DA L (FV ℝ))))}

/-! ### The aggregated statistics, as a table -/

/-- The two sums of one variable. -/
noncomputable def sumsOf (name : String → L) (order : List L) (degrees : L → ℝ) (is ts : List L) (d : DA L (FV ℝ) × DA L (FV ℝ)) : DA L (FV ℝ) × DA L (FV ℝ) :=
  match (defaultAgg name order degrees).aggregateStatVar (statisticOf is ts d.1 d.2) with
  | .ok (some q) => q
  | _ => d

/-- The mean squared error of one variable. -/
noncomputable def meanOf (name : String → L) (order : List L) (degrees : L → ℝ) (is ts : List L) (d : DA L (FV ℝ) × DA L (FV ℝ)) : DA L (FV ℝ) :=
  DA.zipWith (· / ·) (sumsOf name order degrees is ts d).1 (sumsOf name order degrees is ts d).2

theorem sumsOf_eq (hname : name "global" ≠ name "northern-hemisphere") (h : Data is ts order south degrees C data) {v : String} {d : DA L (FV ℝ) × DA L (FV ℝ)} (hv : (v, d) ∈ data) :
    (defaultAgg name order degrees).aggregateStatVar (statisticOf is ts d.1 d.2) = .ok (some (sumsOf name order degrees is ts d)) ∧
    ∃ extra, d.1.dims = {"init_time", "lead_time", "latitude", "longitude"} ∪ extra ∧
      (∀ d ∈ extra, d ∉ ["init_time", "lead_time", "valid_time", "latitude", "longitude", "region"] ∧ (C d).Nonempty) ∧
      Summed name ts C extra (sumsOf name order degrees is ts d).1 ∧ Summed name ts C extra (sumsOf name order degrees is ts d).2 := by
  obtain ⟨q, extra, hq, hF, hd, h1, h2⟩ := aggregate_statistic hname h hv
  have : sumsOf name order degrees is ts d = q := by
    unfold sumsOf
    rw [hq]
  rw [this]
  exact ⟨hq, extra, hF, hd, h1, h2⟩

theorem perVar_data {agg : Aggregator L (FV ℝ)} {g : DA L (FV ℝ) × DA L (FV ℝ) → StatVar L (FV ℝ)} {O : DA L (FV ℝ) × DA L (FV ℝ) → DA L (FV ℝ) × DA L (FV ℝ)}
    (data : List (String × (DA L (FV ℝ) × DA L (FV ℝ)))) (h : ∀ d ∈ data, agg.aggregateStatVar (g d.2) = .ok (some (O d.2))) :
    agg.perVar (data.map (fun d => (d.1, some (g d.2)))) = .ok (data.map (fun d => (d.1, O d.2))) := by
  induction data with
  | nil => rfl
  | cons d data ih =>
    simp only [List.map_cons, Aggregator.perVar, h d (by simp), ih (fun d hd => h d (List.mem_cons_of_mem _ hd)), bind, Except.bind, pure, Except.pure]

/-- The state of the evaluation. -/
noncomputable def stateOf (name : String → L) (order : List L) (degrees : L → ℝ) (is ts : List L) (data : List (String × (DA L (FV ℝ) × DA L (FV ℝ)))) : StateTable L (FV ℝ) :=
  [("SquaredError", data.map (fun d => (d.1, sumsOf name order degrees is ts d.2)))]

theorem example_state (hname : name "global" ≠ name "northern-hemisphere") (h : Data is ts order south degrees C data) :
    (defaultAgg name order degrees).aggregateStatistics [("SquaredError", data.map (fun d => (d.1, some (statisticOf is ts d.2.1 d.2.2))))] =
      .ok (AggState.ofTable (stateOf name order degrees is ts data)) := by
  have hp := perVar_data (agg := defaultAgg name order degrees) (g := fun d => statisticOf is ts d.1 d.2) (O := sumsOf name order degrees is ts) data
    (fun d hd => (sumsOf_eq hname h (v := d.1) hd).1)
  unfold Aggregator.aggregateStatistics Aggregator.perStat Aggregator.aggregateStatVars
  rw [hp]
  rfl

theorem state_unique (h : Data is ts order south degrees C data) : UniqueNames (stateOf name order degrees is ts data) := by
  refine ⟨by simp [stateOf], ?_⟩
  intro sv hsv
  rw [stateOf, List.mem_singleton] at hsv
  subst hsv
  simpa [Function.comp_def] using h.names

theorem mapM_vars {α β : Type} (l : Vars α) (hn : (l.map Prod.fst).Nodup) (g : α → β) :
    (l.map Prod.fst).mapM (fun v => do
      let x ← pyItem l v
      return (v, g x)) = .ok (l.map (fun x => (x.1, g x.2))) := by
  have key : ∀ m : Vars α, (∀ x ∈ m, x ∈ l) → (m.map Prod.fst).mapM (fun v => do
      let x ← pyItem l v
      return (v, g x)) = (.ok (m.map (fun x => (x.1, g x.2))) : Except Err _) := by
    intro m
    induction m with
    | nil => intro _; rfl
    | cons x m ih =>
      intro hm
      have hx : pyItem l x.1 = .ok x.2 := by
        unfold pyItem
        rw [(pyGet?_eq_some hn x.1 x.2).mpr (hm x (by simp))]
      rw [List.map_cons, List.mapM_cons]
      refine bind_ok_of (a := (x.1, g x.2)) (bind_ok_of hx rfl) (bind_ok_of (ih (fun y hy => hm y (List.mem_cons_of_mem _ hy))) rfl)
  exact key l (fun _ h => h)

theorem rmse_values (l : Vars (DA L (FV ℝ))) (hn : (l.map Prod.fst).Nodup) :
    computeMetricFromStatistics rmse [("SquaredError", l)] = .ok (l.map (fun x => (x.1, x.2.map FV.sqrt))) := by
  refine bind_ok_of (a := [("SquaredError", l)]) rfl ?_
  show perVariableValues ["SquaredError"] _ [("SquaredError", l)] = _
  rw [perVariableValues_eq]
  refine bind_ok_of (a := [l]) rfl (bind_ok_of (a := l.map Prod.fst) ?_ ?_)
  · simp [commonVariables]
  · refine Eq.trans ?_ (mapM_vars l hn (fun x => x.map FV.sqrt))
    congr 1
    funext v
    unfold valueOfVar
    cases hv : pyItem l v with
    | error e =>
      have h2 : pyItem [("SquaredError", l)] "SquaredError" = .ok l := rfl
      simp only [List.mapM_cons, h2, hv, bind, Except.bind]
    | ok x =>
      have h2 : pyItem [("SquaredError", l)] "SquaredError" = .ok l := rfl
      simp only [List.mapM_cons, List.mapM_nil, h2, hv, bind, Except.bind, pure, Except.pure]
      rfl

/-- The values of the two metrics. -/
noncomputable def tableOfExample (name : String → L) (order : List L) (degrees : L → ℝ) (is ts : List L) (data : List (String × (DA L (FV ℝ) × DA L (FV ℝ)))) : List (String × Vars (DA L (FV ℝ))) :=
  [("rmse", data.map (fun d => (d.1, (meanOf name order degrees is ts d.2).map FV.sqrt))), ("mse", data.map (fun d => (d.1, meanOf name order degrees is ts d.2)))]

theorem example_table (hname : name "global" ≠ name "northern-hemisphere") (h : Data is ts order south degrees C data) :
    metricTableForSingleChunk metrics (defaultAgg name order degrees) (data.map (fun d => (d.1, loadedF is ts d.2.1))) (data.map (fun d => (d.1, loadedO is ts d.2.2))) =
      .ok (tableOfExample name order degrees is ts data) := by
  unfold metricTableForSingleChunk
  refine bind_ok_of (example_statistics h) (bind_ok_of (example_state hname h) ?_)
  rw [AggState.metricTable_ofTable _ (state_unique h)]
  have hm : (stateOf name order degrees is ts data).mapEntries (DA.zipWith (· / ·)) = [("SquaredError", data.map (fun d => (d.1, meanOf name order degrees is ts d.2)))] := by
    simp only [StateTable.mapEntries, stateOf, List.map_cons, List.map_nil, List.map_map]
    rfl
  rw [hm]
  have hn : ((data.map (fun d => (d.1, meanOf name order degrees is ts d.2))).map Prod.fst).Nodup := by simpa [Function.comp_def] using h.names
  have h1 := rmse_values _ hn
  have h2 : computeMetricFromStatistics (squaredErrorStatistic (L := L) (K := ℝ)).toMetric [("SquaredError", data.map (fun d => (d.1, meanOf name order degrees is ts d.2)))] =
      .ok (data.map (fun d => (d.1, meanOf name order degrees is ts d.2))) := rfl
  unfold computeMetricsFromStatistics metrics
  rw [List.mapM_cons, List.mapM_cons, List.mapM_nil]
  refine bind_ok_of (bind_ok_of h1 rfl) (bind_ok_of (bind_ok_of (bind_ok_of h2 rfl) rfl) ?_)
  simp only [List.map_map]
  rfl

/-! ### The pipeline -/

theorem times_increasing (hs : Setting hours name f path) : (initTimes hours f).Pairwise (· < ·) ∧ (leadTimes hours f).Pairwise (· < ·) ∧ initTimes hours f ≠ [] ∧ leadTimes hours f ≠ [] := by
  have key : ∀ start stop step : ℤ, 0 < step → start < stop → ((Benchmark.arange start stop step).map hours).Pairwise (· < ·) ∧ (Benchmark.arange start stop step).map hours ≠ [] := by
    intro start stop step h1 h2
    refine ⟨List.pairwise_map.mpr ((Benchmark.arange_increasing h1).imp (fun h => hs.hours _ _ h)), ?_⟩
    have : start ∈ Benchmark.arange start stop step := (Benchmark.mem_arange h1).mpr ⟨0, by simp, h2⟩
    intro hnil
    rw [List.map_eq_nil_iff] at hnil
    rw [hnil] at this
    cases this
  obtain ⟨a, b⟩ := key _ _ _ hs.inits.1 hs.inits.2
  obtain ⟨c, d⟩ := key _ _ _ hs.leads.1 hs.leads.2
  exact ⟨a, c, b, d⟩

theorem aggregator_default (hs : Setting hours name f path) : aggregator name order degrees f = defaultAgg name order degrees := by
  unfold aggregator defaultAgg
  rw [hs.dims]

theorem Summed.full {extra : Finset Dim} {x : DA L (FV ℝ)} (h : Summed name ts C extra x) (hn : ∀ d ∈ extra, d ∉ ["init_time", "lead_time", "valid_time", "latitude", "longitude", "region"] ∧ (C d).Nonempty)
    (ht : ts ≠ []) : (∀ d ∈ x.dims, (x.coords d).Nonempty) ∧ "init_time" ∉ x.dims := by
  constructor
  · intro d hd
    rw [h.dims] at hd
    simp only [Finset.mem_union, Finset.mem_insert, Finset.mem_singleton] at hd
    rcases hd with (rfl | rfl) | hd
    · rw [h.region]
      exact ⟨_, Finset.mem_insert_self _ _⟩
    · rw [h.lead]
      obtain ⟨t, ht⟩ := List.exists_mem_of_ne_nil _ ht
      exact ⟨t, List.mem_toFinset.mpr ht⟩
    · rw [h.other d hd]
      exact (hn d hd).2
  · intro hd
    rw [h.dims] at hd
    simp only [Finset.mem_union, Finset.mem_insert, Finset.mem_singleton] at hd
    rcases hd with (hd | hd) | hd
    · exact absurd hd (by decide)
    · exact absurd hd (by decide)
    · exact (hn _ hd).1 (by simp)

theorem get2_state (name : String → L) (order : List L) (degrees : L → ℝ) (is ts : List L) (data : List (String × (DA L (FV ℝ) × DA L (FV ℝ)))) (g : DA L (FV ℝ) × DA L (FV ℝ) → DA L (FV ℝ)) (s v : String) :
    (Tree.dict (Dict.ofList ((stateOf name order degrees is ts data).map (fun sv => (sv.1, Aggregator.leaves (sv.2.map (fun w => (w.1, g w.2)))))))).get2 s v =
      if s = "SquaredError" then (pyGet? v data).map (fun d => g (sumsOf name order degrees is ts d)) else none := by
  have := get2_nested ((stateOf name order degrees is ts data).map (fun sv => (sv.1, sv.2.map (fun w => (w.1, g w.2))))) s v
  rw [List.map_map] at this
  refine Eq.trans this ?_
  unfold Nested.get?
  simp only [stateOf, List.map_cons, List.map_nil, List.map_map, pyGet?]
  by_cases hs : "SquaredError" = s
  · subst hs
    simp only [if_true]
    exact pyGet?_map (fun d => g (sumsOf name order degrees is ts d)) data v
  · rw [if_neg hs, if_neg (fun h => hs h.symm)]
    rfl

theorem example_setup (hs : Setting hours name f path) (h : Data (initTimes hours f) (leadTimes hours f) order south degrees C data) {tc : TimeChunks L L} {out}
    (htc : TimeChunks.make (initTimes hours f) (.arr (leadTimes hours f)) f.timeChunkSize f.leadTimeChunkSize = .ok tc) (ho : tc.iterWithOffsets = .ok out) :
    ∃ sws sw, (sws, sw) = ((Tree.dict (Dict.ofList ((stateOf name order degrees (initTimes hours f) (leadTimes hours f) data).map (fun sv => (sv.1, Aggregator.leaves (sv.2.map (fun w => (w.1, w.2.1)))))))),
        (Tree.dict (Dict.ofList ((stateOf name order degrees (initTimes hours f) (leadTimes hours f) data).map (fun sv => (sv.1, Aggregator.leaves (sv.2.map (fun w => (w.1, w.2.2))))))))) ∧
    PipelineSetup Chunkable metrics (loadVars loadTargets false (data.map (fun d => (d.1, d.2.2)))) (fun i l _ => loadVars loadPredictions false (data.map (fun d => (d.1, d.2.1))) i l)
      (aggregator name order degrees f) (initTimes hours f) (leadTimes hours f) f.timeChunkSize f.leadTimeChunkSize out
      (data.map (fun d => (d.1, loadedF (initTimes hours f) (leadTimes hours f) d.2.1))) (data.map (fun d => (d.1, loadedO (initTimes hours f) (leadTimes hours f) d.2.2)))
      [("SquaredError", data.map (fun d => (d.1, some (statisticOf (initTimes hours f) (leadTimes hours f) d.2.1 d.2.2))))] sws sw := by
  obtain ⟨o1, o2, o3, o4⟩ := times_increasing hs
  have hagg := aggregator_default (order := order) (degrees := degrees) hs
  refine ⟨_, _, rfl, ?_⟩
  have hch : ∀ c, c = "init_time" ∨ c = "lead_time" → Chunkable c (data.map (fun d => (d.1, loadedF (initTimes hours f) (leadTimes hours f) d.2.1))) (data.map (fun d => (d.1, loadedO (initTimes hours f) (leadTimes hours f) d.2.2))) := by
    intro c hc
    refine ⟨?_, ?_, fun _ => DA.scalar true, ?_, ?_⟩
    · intro v a hva
      obtain ⟨d, hd, he⟩ := List.mem_map.mp hva
      cases he
      obtain ⟨extra, -, hF, -⟩ := h.dims d.1 d.2.1 d.2.2 hd
      show c ∈ d.2.1.dims
      rw [hF]
      rcases hc with rfl | rfl <;> simp
    · intro v a hva
      obtain ⟨d, hd, he⟩ := List.mem_map.mp hva
      cases he
      show c ∈ d.2.2.dims.erase "valid_time" ∪ {"init_time", "lead_time"}
      rcases hc with rfl | rfl <;> simp
    · intro v a hva
      obtain ⟨d, hd, he⟩ := List.mem_map.mp hva
      cases he
      exact Or.inl rfl
    · intro v a hva
      obtain ⟨d, hd, he⟩ := List.mem_map.mp hva
      cases he
      exact Or.inl rfl
  exact {
    heritable := heritable_chunkable
    statistics := by
      intro c hc nm hnm ks hks
      have : ks.2 = squaredErrorStatistic := by
        simp only [metrics, List.mem_cons, List.not_mem_nil, or_false] at hnm
        rcases hnm with rfl | rfl
        · simp only [rmse, perVariableMetric, List.mem_singleton] at hks
          rw [hks]
        · simp only [Statistic.toMetric, List.mem_singleton] at hks
          rw [hks]
      rw [this]
      exact C74_squared_error
    initOrder := o1
    leadOrder := o2
    times := ⟨o3, o4⟩
    loaders := C74_loaders C74_load_targets C74_load_predictions (load_observations h) (load_forecasts h)
    initData := hch _ (Or.inl rfl)
    leadData := hch _ (Or.inr rfl)
    computed := example_statistics h
    initLocal := hagg ▸ defaultAgg_local hs.names _ _ (Or.inl rfl)
    leadLocal := hagg ▸ defaultAgg_local hs.names _ _ (Or.inr rfl)
    chunks := ⟨tc, htc, ho⟩
    names := by
      refine ⟨by simp, ?_⟩
      intro st hst
      rw [List.mem_singleton] at hst
      subst hst
      simpa [Function.comp_def] using h.names
    present := by
      intro st hst vr hvr
      rw [List.mem_singleton] at hst
      subst hst
      obtain ⟨d, hd, rfl⟩ := List.mem_map.mp hvr
      simp
    dims := by
      intro st hst k s hks
      rw [List.mem_singleton] at hst
      subst hst
      obtain ⟨d, hd, he⟩ := List.mem_map.mp hks
      cases he
      obtain ⟨extra, hsh, -, -⟩ := statistic_shaped h (v := d.1) (F := d.2.1) (O := d.2.2) hd
      exact ⟨(hsh.mem_iff _).mpr (by simp), hsh.init, (hsh.mem_iff _).mpr (by simp), hsh.lead⟩
    aggregated := by
      rw [hagg]
      exact example_state hs.names h
    full := by
      intro t ht s v x hx
      obtain ⟨g, hg, htg⟩ : ∃ g : DA L (FV ℝ) × DA L (FV ℝ) → DA L (FV ℝ), (∀ p, g p = p.1 ∨ g p = p.2) ∧
          t = Tree.dict (Dict.ofList ((stateOf name order degrees (initTimes hours f) (leadTimes hours f) data).map (fun sv => (sv.1, Aggregator.leaves (sv.2.map (fun w => (w.1, g w.2))))))) := by
        rcases ht with rfl | rfl
        · exact ⟨Prod.fst, fun _ => Or.inl rfl, rfl⟩
        · exact ⟨Prod.snd, fun _ => Or.inr rfl, rfl⟩
      rw [htg, get2_state] at hx
      split_ifs at hx with hsq
      obtain ⟨d, hd, rfl⟩ := Option.map_eq_some_iff.mp hx
      obtain ⟨-, extra, -, hex, s1, s2⟩ := sumsOf_eq hs.names h (pyGet?_mem hd)
      have hsum : Summed name (leadTimes hours f) C extra (g (sumsOf name order degrees (initTimes hours f) (leadTimes hours f) d)) := by
        rcases hg (sumsOf name order degrees (initTimes hours f) (leadTimes hours f) d) with hh | hh <;> rw [hh] <;> assumption
      obtain ⟨f1, f2⟩ := hsum.full hex o4
      exact ⟨f1, fun hh => absurd hh f2, fun _ => hsum.lead⟩ }

theorem meanOf_shape (hname : name "global" ≠ name "northern-hemisphere") (h : Data is ts order south degrees C data) {v : String} {d : DA L (FV ℝ) × DA L (FV ℝ)} (hv : (v, d) ∈ data) :
    ResultShape name ts C d.1 (meanOf name order degrees is ts d) := by
  obtain ⟨-, extra, hF, hex, s1, s2⟩ := sumsOf_eq hname h hv
  have he : ∀ d ∈ extra, d ≠ "init_time" ∧ d ≠ "lead_time" ∧ d ≠ "latitude" ∧ d ≠ "longitude" ∧ d ≠ "region" := by
    intro d hd
    have := (hex d hd).1
    simp only [List.mem_cons, List.not_mem_nil, or_false, not_or] at this
    tauto
  have hd : ∀ k, k ∈ (sumsOf name order degrees is ts d).1.dims ∪ (sumsOf name order degrees is ts d).2.dims ↔ k = "region" ∨ k = "lead_time" ∨ k ∈ extra := by
    intro k
    rw [s1.dims, s2.dims]
    simp only [Finset.mem_union, Finset.mem_insert, Finset.mem_singleton]
    tauto
  have hc : ∀ k, k = "region" ∨ k = "lead_time" ∨ k ∈ extra → (meanOf name order degrees is ts d).coords k = (sumsOf name order degrees is ts d).1.coords k ∩ (sumsOf name order degrees is ts d).2.coords k := by
    intro k hk
    have h1 : k ∈ (sumsOf name order degrees is ts d).1.dims := by
      rw [s1.dims]
      simp only [Finset.mem_union, Finset.mem_insert, Finset.mem_singleton]
      tauto
    have h2 : k ∈ (sumsOf name order degrees is ts d).2.dims := by
      rw [s2.dims]
      simp only [Finset.mem_union, Finset.mem_insert, Finset.mem_singleton]
      tauto
    show joinCoords _ _ k = _
    unfold joinCoords
    rw [if_pos h1, if_pos h2]
  refine ⟨?_, ?_, ?_, ?_⟩
  · intro k
    rw [show k ∈ (meanOf name order degrees is ts d).dims ↔ _ from hd k, hF]
    simp only [Finset.mem_union, Finset.mem_insert, Finset.mem_singleton, List.mem_cons, List.not_mem_nil, or_false, not_or]
    constructor
    · rintro (rfl | rfl | hk)
      · exact Or.inl rfl
      · exact Or.inr ⟨Or.inl (Or.inr (Or.inl rfl)), by decide, by decide, by decide⟩
      · have := he k hk
        exact Or.inr ⟨Or.inr hk, this.1, this.2.2.1, this.2.2.2.1⟩
    · tauto
  · rw [hc _ (Or.inl rfl), s1.region, s2.region, Finset.inter_self]
  · rw [hc _ (Or.inr (Or.inl rfl)), s1.lead, s2.lead, Finset.inter_self]
  · intro k hk hk2
    have : k ∈ extra := by
      rw [hF] at hk
      simp only [Finset.mem_union, Finset.mem_insert, Finset.mem_singleton] at hk
      simp only [List.mem_cons, List.not_mem_nil, or_false, not_or] at hk2
      tauto
    rw [hc _ (Or.inr (Or.inr this)), s1.other _ this, s2.other _ this, Finset.inter_self]

theorem ResultShape.transfer {F x y : DA L (FV ℝ)} (h : ResultShape name ts C F y) (hl : "lead_time" ∈ F.dims) (hs : x.Same y) : ResultShape name ts C F x := by
  have hd : ∀ d, d ∈ x.dims ↔ d = "region" ∨ (d ∈ F.dims ∧ d ∉ ["init_time", "latitude", "longitude"]) := by
    intro d
    rw [hs.dims]
    exact h.dims d
  refine ⟨hd, ?_, ?_, ?_⟩
  · rw [hs.coords _ ((hd _).mpr (Or.inl rfl))]
    exact h.region
  · rw [hs.coords _ ((hd _).mpr (Or.inr ⟨hl, by decide⟩))]
    exact h.lead
  · intro d hd1 hd2
    rw [hs.coords _ ((hd _).mpr (Or.inr ⟨hd1, ?_⟩))]
    · exact h.other d hd1 hd2
    · simp only [List.mem_cons, List.not_mem_nil, or_false, not_or] at hd2 ⊢
      tauto

theorem ResultCell.inDom {F x : DA L (FV ℝ)} (h : ResultShape name ts C F x) {s n : ℝ} {e : Dim → L} (he : ResultCell name ts C F s n e) : x.InDom e := by
  intro d hd
  rcases (h.dims d).mp hd with rfl | ⟨h1, h2⟩
  · rw [h.region]
    rcases he.region with ⟨h1, -, -⟩ | ⟨h1, -, -⟩ <;> rw [h1] <;> simp
  · by_cases h3 : d = "lead_time"
    · subst h3
      rw [h.lead]
      exact List.mem_toFinset.mpr he.lead
    · have h4 : d ∉ ["init_time", "lead_time", "latitude", "longitude"] := by
        simp only [List.mem_cons, List.not_mem_nil, or_false, not_or] at h2 ⊢
        tauto
      rw [h.other d h1 h4]
      exact he.other d h1 h4

theorem areaMean_nonneg (hl : SouthToNorth (south.map degrees)) (inits lons : Finset L) (s n : ℝ) {x : L → L → L → ℝ} (hx : ∀ i la lo, 0 ≤ x i la lo) :
    0 ≤ areaMean inits south lons degrees s n x := by
  unfold areaMean
  have hb : ∀ la ∈ south.toFinset.filter (fun la => s ≤ degrees la ∧ degrees la ≤ n), 0 ≤ bandArea south degrees la := by
    intro la hla
    rw [Finset.mem_filter, List.mem_toFinset] at hla
    exact (bandArea_pos hl hla.1).le
  refine div_nonneg ?_ ?_
  · exact Finset.sum_nonneg (fun i _ => Finset.sum_nonneg (fun la hla => Finset.sum_nonneg (fun lo _ => mul_nonneg (hb la hla) (hx i la lo))))
  · exact Finset.sum_nonneg (fun i _ => Finset.sum_nonneg (fun la hla => Finset.sum_nonneg (fun lo _ => hb la hla)))

/-- What the runs of the script write. -/
theorem example_output (hs : Setting hours name f path) (h : Data (initTimes hours f) (leadTimes hours f) order south degrees C data)
    (hr : Runs hours name order degrees f (data.map (fun d => (d.1, d.2.1))) (data.map (fun d => (d.1, d.2.2))) outputs) :
    ∃ file state, outputs = (path, .ok file) :: (f.statePath.map (fun p => (p, state))).toList ∧
      ∀ k, Option.Rel DA.Same (pyGet? k file) (pyGet? k (metricArrays (tableOfExample name order degrees (initTimes hours f) (leadTimes hours f) data))) := by
  obtain ⟨tc, out, htc, ho, hrun⟩ := hr
  obtain ⟨sws, sw, heq, setup⟩ := example_setup hs h htc ho
  have hagg := aggregator_default (order := order) (degrees := degrees) hs
  have hdirect := example_table hs.names h
  rw [← hagg] at hdirect
  have hn : ((metricArrays (tableOfExample name order degrees (initTimes hours f) (leadTimes hours f) data)).map Prod.fst).Nodup := by
    refine metricArrays_nodup (by simp [tableOfExample]) ?_ ?_
    · intro mv hmv
      simp only [tableOfExample, List.mem_cons, List.not_mem_nil, or_false] at hmv
      rcases hmv with rfl | rfl <;> (unfold IsDict; simpa [Function.comp_def] using h.names)
    · intro mv hmv
      simp only [tableOfExample, List.mem_cons, List.not_mem_nil, or_false] at hmv
      rcases hmv with rfl | rfl <;> (dsimp only; decide)
  obtain ⟨file, state, h1, h2⟩ := C81_metrics_file setup
    (by
      intro nm hnm
      simp only [metrics, List.mem_cons, List.not_mem_nil, or_false] at hnm
      rcases hnm with rfl | rfl
      · exact extensional_rmse
      · exact extensional_statistic _)
    (by simp [metrics])
    (by
      intro nm hnm
      simp only [metrics, List.mem_cons, List.not_mem_nil, or_false] at hnm
      rcases hnm with rfl | rfl <;> (dsimp only; decide))
    (by simp)
    (by
      intro st hst
      rw [List.mem_singleton] at hst
      subst hst
      obtain ⟨d, hd⟩ := List.exists_mem_of_ne_nil _ h.some
      have hh : sws = _ := (Prod.mk.inj heq).1
      refine ⟨d.1, (sumsOf name order degrees (initTimes hours f) (leadTimes hours f) d.2).1, ?_⟩
      rw [hh]
      refine (get2_state name order degrees (initTimes hours f) (leadTimes hours f) data Prod.fst "SquaredError" d.1).trans ?_
      rw [if_pos rfl, (pyGet?_eq_some h.names d.1 d.2).mpr hd]
      rfl)
    hdirect
    (by
      have key : ∀ x ∈ metricArrays (tableOfExample name order degrees (initTimes hours f) (leadTimes hours f) data), ∀ d ∈ x.2.dims,
          x.2.coords d = if d = "region" then {name "global", name "northern-hemisphere"} else if d = "lead_time" then (leadTimes hours f).toFinset else C d := by
        intro x hx d hd
        obtain ⟨mv, hmv, hx⟩ := List.mem_flatMap.mp hx
        obtain ⟨va, hva, rfl⟩ := List.mem_map.mp hx
        obtain ⟨dd, hdd, hmean⟩ : ∃ dd ∈ data, va.2.dims = (meanOf name order degrees (initTimes hours f) (leadTimes hours f) dd.2).dims ∧ va.2.coords = (meanOf name order degrees (initTimes hours f) (leadTimes hours f) dd.2).coords := by
          simp only [tableOfExample, List.mem_cons, List.not_mem_nil, or_false] at hmv
          rcases hmv with rfl | rfl
          · obtain ⟨dd, hdd, rfl⟩ := List.mem_map.mp hva
            exact ⟨dd, hdd, rfl, rfl⟩
          · obtain ⟨dd, hdd, rfl⟩ := List.mem_map.mp hva
            exact ⟨dd, hdd, rfl, rfl⟩
        have hsh := meanOf_shape hs.names h (v := dd.1) (d := dd.2) hdd
        dsimp only at hd ⊢
        rw [hmean.1] at hd
        rw [hmean.2]
        rcases (hsh.dims d).mp hd with rfl | ⟨h3, h4⟩
        · rw [if_pos rfl, hsh.region]
        · have h5 : d ≠ "region" := by
            rintro rfl
            obtain ⟨extra, hex, hF, -⟩ := h.dims dd.1 dd.2.1 dd.2.2 hdd
            rw [hF] at h3
            simp only [Finset.mem_union, Finset.mem_insert, Finset.mem_singleton] at h3
            rcases h3 with (hh | hh | hh | hh) | hh
            · exact absurd hh (by decide)
            · exact absurd hh (by decide)
            · exact absurd hh (by decide)
            · exact absurd hh (by decide)
            · exact (hex _ hh).1 (by decide)
          rw [if_neg h5]
          by_cases h6 : d = "lead_time"
          · subst h6
            rw [if_pos rfl, hsh.lead]
          · rw [if_neg h6]
            refine hsh.other d h3 ?_
            simp only [List.mem_cons, List.not_mem_nil, or_false, not_or] at h4 ⊢
            tauto
      intro x hx y hy d hd hd'
      rw [key x hx d hd, key y hy d hd'])
    hrun
  refine ⟨file, state, ?_, ?_⟩
  · rw [h1, hs.output]
    rfl
  · intro k
    have h3 := h2 k
    have h4 : metricDataset (tableOfExample name order degrees (initTimes hours f) (leadTimes hours f) data) = metricArrays (tableOfExample name order degrees (initTimes hours f) (leadTimes hours f) data) := by
      show (metricArrays _).foldl (fun d ka => pyInsert ka.1 ka.2 d) [] = _
      rw [Serialize.foldl_pyInsert]
      · simp
      · simpa using hn
    rwa [h4] at h3

theorem table_get (h : Data is ts order south degrees C data) (k : String) (x : DA L (FV ℝ)) :
    pyGet? k (metricArrays (tableOfExample name order degrees is ts data)) = some x ↔
      ∃ v d, (v, d) ∈ data ∧ ((k = "rmse." ++ v ∧ x = (meanOf name order degrees is ts d).map FV.sqrt) ∨ (k = "mse." ++ v ∧ x = meanOf name order degrees is ts d)) := by
  have hn : ((metricArrays (tableOfExample name order degrees is ts data)).map Prod.fst).Nodup := by
    refine metricArrays_nodup (by simp [tableOfExample]) ?_ ?_
    · intro mv hmv
      simp only [tableOfExample, List.mem_cons, List.not_mem_nil, or_false] at hmv
      rcases hmv with rfl | rfl <;> (unfold IsDict; simpa [Function.comp_def] using h.names)
    · intro mv hmv
      simp only [tableOfExample, List.mem_cons, List.not_mem_nil, or_false] at hmv
      rcases hmv with rfl | rfl <;> (dsimp only; decide)
  have e1 : ∀ v : String, "rmse" ++ "." ++ v = "rmse." ++ v := fun v => congrArg (· ++ v) (by decide : "rmse" ++ "." = "rmse.")
  have e2 : ∀ v : String, "mse" ++ "." ++ v = "mse." ++ v := fun v => congrArg (· ++ v) (by decide : "mse" ++ "." = "mse.")
  rw [pyGet?_eq_some hn]
  simp only [metricArrays, tableOfExample, List.flatMap_cons, List.flatMap_nil, List.append_nil, List.mem_append, List.map_map, List.mem_map, Function.comp_def, Prod.mk.injEq, e1, e2, Prod.exists]
  constructor
  · rintro (⟨v, F, O, hv, h1, h2⟩ | ⟨v, F, O, hv, h1, h2⟩)
    · exact ⟨v, F, O, hv, Or.inl ⟨h1.symm, h2.symm⟩⟩
    · exact ⟨v, F, O, hv, Or.inr ⟨h1.symm, h2.symm⟩⟩
  · rintro ⟨v, F, O, hv, ⟨h1, h2⟩ | ⟨h1, h2⟩⟩
    · exact Or.inl ⟨v, F, O, hv, h1.symm, h2.symm⟩
    · exact Or.inr ⟨v, F, O, hv, h1.symm, h2.symm⟩

theorem entry_of {file : List (String × DA L (FV ℝ))} {table : List (String × DA L (FV ℝ))} (h : ∀ k, Option.Rel DA.Same (pyGet? k file) (pyGet? k table)) {k : String} {y : DA L (FV ℝ)}
    (hk : pyGet? k table = some y) : ∃ x, pyGet? k file = some x ∧ x.Same y := by
  have := h k
  rw [hk] at this
  cases hx : pyGet? k file with
  | none => rw [hx] at this; cases this
  | some x =>
    rw [hx] at this
    cases this with
    | some hs => exact ⟨x, rfl, hs⟩

/-! ### The property -/

/-- C85: the init times and lead times are those of the flags: every multiple of the frequency from the start, before the stop. -/
theorem C85_times (hs : Setting hours name f path) (t : L) :
    (t ∈ initTimes hours f ↔ ∃ k : ℕ, t = hours (f.timeStart + k * f.timeFrequency) ∧ f.timeStart + k * f.timeFrequency < f.timeStop) ∧
    (t ∈ leadTimes hours f ↔ ∃ k : ℕ, t = hours (f.leadTimeStart + k * f.leadTimeFrequency) ∧ f.leadTimeStart + k * f.leadTimeFrequency < f.leadTimeStop) := by
  have key : ∀ start stop step : ℤ, 0 < step → (t ∈ (Benchmark.arange start stop step).map hours ↔ ∃ k : ℕ, t = hours (start + k * step) ∧ start + k * step < stop) := by
    intro start stop step h1
    simp only [List.mem_map, Benchmark.mem_arange h1]
    constructor
    · rintro ⟨a, ⟨k, rfl, hk⟩, rfl⟩
      exact ⟨k, rfl, hk⟩
    · rintro ⟨k, rfl, hk⟩
      exact ⟨_, ⟨k, rfl, hk⟩, rfl⟩
  exact ⟨key _ _ _ hs.inits.1, key _ _ _ hs.leads.1⟩

/-- C85: every run of the script writes the file of metric values first, with exactly the entries `rmse.<variable>` and `mse.<variable>`. -/
theorem C85_written (hs : Setting hours name f path) (h : Data (initTimes hours f) (leadTimes hours f) order south degrees C data)
    (hr : Runs hours name order degrees f (data.map (fun d => (d.1, d.2.1))) (data.map (fun d => (d.1, d.2.2))) outputs) :
    ∃ file state, outputs = (path, .ok file) :: (f.statePath.map (fun p => (p, state))).toList ∧
      ∀ k, (pyGet? k file).isSome ↔ ∃ v ∈ data.map Prod.fst, k = "rmse." ++ v ∨ k = "mse." ++ v := by
  obtain ⟨file, state, h1, h2⟩ := example_output hs h hr
  refine ⟨file, state, h1, ?_⟩
  intro k
  have h3 : (pyGet? k file).isSome ↔ ∃ x, pyGet? k (metricArrays (tableOfExample name order degrees (initTimes hours f) (leadTimes hours f) data)) = some x := by
    have := h2 k
    revert this
    cases pyGet? k file <;> cases pyGet? k (metricArrays (tableOfExample name order degrees (initTimes hours f) (leadTimes hours f) data)) <;> intro this
    · simp
    · cases this
    · cases this
    · simp
  rw [h3]
  simp only [table_get h]
  constructor
  · rintro ⟨x, v, d, hv, ⟨rfl, -⟩ | ⟨rfl, -⟩⟩
    · exact ⟨v, List.mem_map.mpr ⟨(v, d), hv, rfl⟩, Or.inl rfl⟩
    · exact ⟨v, List.mem_map.mpr ⟨(v, d), hv, rfl⟩, Or.inr rfl⟩
  · rintro ⟨v, hv, hk⟩
    obtain ⟨⟨v', d⟩, hd, rfl⟩ := List.mem_map.mp hv
    rcases hk with rfl | rfl
    · exact ⟨_, v', d, hd, Or.inl ⟨rfl, rfl⟩⟩
    · exact ⟨_, v', d, hd, Or.inr ⟨rfl, rfl⟩⟩

/-- C85: the values. In the file of every run, whatever the chunk sizes and however Beam orders and groups the chunks, `mse.<variable>` is the area-weighted
mean of the squared differences between the forecast and the observation at its valid time, over all init times, over the latitudes of the
region and over all longitudes, and `rmse.<variable>` is its square root. -/
theorem C85_values (hs : Setting hours name f path) (h : Data (initTimes hours f) (leadTimes hours f) order south degrees C data)
    (hr : Runs hours name order degrees f (data.map (fun d => (d.1, d.2.1))) (data.map (fun d => (d.1, d.2.2))) outputs)
    {file : List (String × DA L (FV ℝ))} (hfile : outputs.head? = some (path, .ok file)) {v : String} {F O : DA L (FV ℝ)} (hv : (v, (F, O)) ∈ data) :
    ∃ m r, pyGet? ("mse." ++ v) file = some m ∧ pyGet? ("rmse." ++ v) file = some r ∧
      ResultShape name (leadTimes hours f) C F m ∧ ResultShape name (leadTimes hours f) C F r ∧
      ∀ s n e, ResultCell name (leadTimes hours f) C F s n e → (∃ la ∈ south, s ≤ degrees la ∧ degrees la ≤ n) →
        m.val e = FV.fin (areaMean (initTimes hours f).toFinset south (C "longitude") degrees s n (squaredErrorAt F O e)) ∧
        r.val e = FV.fin (Real.sqrt (areaMean (initTimes hours f).toFinset south (C "longitude") degrees s n (squaredErrorAt F O e))) := by
  obtain ⟨file', state, h1, h2⟩ := example_output hs h hr
  have hff : file' = file := by
    rw [h1] at hfile
    simpa using hfile
  subst hff
  obtain ⟨m, hm, hmS⟩ := entry_of h2 ((table_get h _ _).mpr ⟨v, (F, O), hv, Or.inr ⟨rfl, rfl⟩⟩)
  obtain ⟨r, hr', hrS⟩ := entry_of h2 ((table_get h _ _).mpr ⟨v, (F, O), hv, Or.inl ⟨rfl, rfl⟩⟩)
  have hl : "lead_time" ∈ F.dims := by
    obtain ⟨extra, -, hF, -⟩ := h.dims v F O hv
    rw [hF]
    simp
  have sh := meanOf_shape hs.names h hv
  have sh2 : ResultShape name (leadTimes hours f) C F ((meanOf name order degrees (initTimes hours f) (leadTimes hours f) (F, O)).map FV.sqrt) := ⟨sh.dims, sh.region, sh.lead, sh.other⟩
  have shm := ResultShape.transfer sh hl hmS
  have shr := ResultShape.transfer sh2 hl hrS
  refine ⟨m, r, hm, hr', shm, shr, ?_⟩
  intro s n e he hla
  have hv1 := (region_mean hs.names h (times_increasing hs).2.2.1 hv (sumsOf_eq hs.names h hv).1 he).1 hla
  have hv2 : (meanOf name order degrees (initTimes hours f) (leadTimes hours f) (F, O)).val e = _ := hv1
  constructor
  · rw [hmS.val e (he.inDom shm), hv2]
  · rw [hrS.val e (he.inDom shr)]
    show FV.sqrt ((meanOf name order degrees (initTimes hours f) (leadTimes hours f) (F, O)).val e) = _
    rw [hv2]
    show (if _ < (0 : ℝ) then FV.nan else FV.fin _) = _
    rw [if_neg (not_lt.mpr (areaMean_nonneg h.latitudes _ _ _ _ (fun i la lo => show 0 ≤ squaredErrorAt F O e i la lo from sq_nonneg _)))]

/-- C85: a region without any latitude of the grid gets NaN, not an error. -/
theorem C85_empty_region (hs : Setting hours name f path) (h : Data (initTimes hours f) (leadTimes hours f) order south degrees C data)
    (hr : Runs hours name order degrees f (data.map (fun d => (d.1, d.2.1))) (data.map (fun d => (d.1, d.2.2))) outputs)
    {file : List (String × DA L (FV ℝ))} (hfile : outputs.head? = some (path, .ok file)) {v : String} {F O : DA L (FV ℝ)} (hv : (v, (F, O)) ∈ data) :
    ∃ m r, pyGet? ("mse." ++ v) file = some m ∧ pyGet? ("rmse." ++ v) file = some r ∧
      ∀ s n e, ResultCell name (leadTimes hours f) C F s n e → (∀ la ∈ south, ¬ (s ≤ degrees la ∧ degrees la ≤ n)) → m.val e = FV.nan ∧ r.val e = FV.nan := by
  obtain ⟨file', state, h1, h2⟩ := example_output hs h hr
  have hff : file' = file := by
    rw [h1] at hfile
    simpa using hfile
  subst hff
  obtain ⟨m, hm, hmS⟩ := entry_of h2 ((table_get h _ _).mpr ⟨v, (F, O), hv, Or.inr ⟨rfl, rfl⟩⟩)
  obtain ⟨r, hr', hrS⟩ := entry_of h2 ((table_get h _ _).mpr ⟨v, (F, O), hv, Or.inl ⟨rfl, rfl⟩⟩)
  have hl : "lead_time" ∈ F.dims := by
    obtain ⟨extra, -, hF, -⟩ := h.dims v F O hv
    rw [hF]
    simp
  have sh := meanOf_shape hs.names h hv
  have sh2 : ResultShape name (leadTimes hours f) C F ((meanOf name order degrees (initTimes hours f) (leadTimes hours f) (F, O)).map FV.sqrt) := ⟨sh.dims, sh.region, sh.lead, sh.other⟩
  have shm := ResultShape.transfer sh hl hmS
  have shr := ResultShape.transfer sh2 hl hrS
  refine ⟨m, r, hm, hr', ?_⟩
  intro s n e he hla
  have hv1 := (region_mean hs.names h (times_increasing hs).2.2.1 hv (sumsOf_eq hs.names h hv).1 he).2 (fun ⟨la, hh, hhh⟩ => hla la hh hhh)
  have hv2 : (meanOf name order degrees (initTimes hours f) (leadTimes hours f) (F, O)).val e = _ := hv1
  constructor
  · rw [hmS.val e (he.inDom shm), hv2]
  · rw [hrS.val e (he.inDom shr)]
    show FV.sqrt ((meanOf name order degrees (initTimes hours f) (leadTimes hours f) (F, O)).val e) = _
    rw [hv2]
    rfl

/-- C85: the script runs to the end: with chunk sizes that are not negative, there is a run. -/
theorem C85_runs (hs : Setting hours name f path) (h : Data (initTimes hours f) (leadTimes hours f) order south degrees C data)
    (hc : (∀ c, f.timeChunkSize = some c → 0 ≤ c) ∧ ∀ c, f.leadTimeChunkSize = some c → 0 ≤ c) :
    ∃ outputs, Runs hours name order degrees f (data.map (fun d => (d.1, d.2.1))) (data.map (fun d => (d.1, d.2.2))) outputs := by
  obtain ⟨-, -, n1, n2⟩ := times_increasing hs
  obtain ⟨tc, htc⟩ := (TimeChunks.C04_accepts_iff (initTimes hours f) (.arr (leadTimes hours f)) f.timeChunkSize f.leadTimeChunkSize).mpr (by
    have key : ∀ (c : Option Int) (xs : List L), (∀ v, c = some v → 0 ≤ v) → xs ≠ [] → TimeChunks.SizeUsable c xs := by
      intro c xs h1 h2
      rw [← TimeChunks.effectiveSize_pos_iff c xs h1]
      unfold TimeChunks.effectiveSize
      have := List.length_pos_iff.mpr h2
      cases c with
      | none => exact this
      | some v =>
        dsimp only
        have := h1 v rfl
        split_ifs <;> omega
    exact ⟨key _ _ hc.1 n1, hc.2, key _ _ hc.2 n2⟩)
  obtain ⟨out, ho, -⟩ := TimeChunks.C03_offsets htc
  obtain ⟨sws, sw, -, setup⟩ := example_setup hs h htc ho
  obtain ⟨outputs, hr⟩ := C81_runs (fill := FV.nan) (paths := ⟨f.outputPath, f.statePath⟩) setup (Or.inl (by rw [hs.output]; simp))
  exact ⟨outputs, tc, out, htc, ho, hr⟩

/-! ### A concrete evaluation -/

/-- Labels of the two regions. -/
def exRegionName (s : String) : ℤ := if s = "global" then 0 else 1

/-- Two init times, two lead times, chunks of one init time. -/
def exFlags : Flags where
  timeStart := 0
  timeStop := 24
  timeChunkSize := some 1
  leadTimeStop := 12
  outputPath := some "metrics.nc"

/-- The latitudes and longitudes of the example. -/
def exLabels (d : Dim) : Finset ℤ := if d = "latitude" then {-60, 0, 60} else {0, 180}

/-- Forecasts that are wrong by 2 at 60 degrees north. -/
noncomputable def exF : DA ℤ (FV ℝ) :=
  ⟨{"init_time", "lead_time", "latitude", "longitude"}, fun d => if d = "init_time" then {0, 12, 24} else if d = "lead_time" then {0, 6, 12} else exLabels d, fun e => .fin (if e "latitude" = 60 then 3 else 1)⟩

/-- The observations. -/
noncomputable def exO : DA ℤ (FV ℝ) := ⟨{"valid_time", "latitude", "longitude"}, fun d => if d = "valid_time" then {0, 6, 12, 18, 24} else exLabels d, fun _ => .fin 1⟩

theorem exSetting : Setting (L := ℤ) id exRegionName exFlags "metrics.nc" where
  hours := fun _ _ h => h
  names := by decide
  inits := by decide
  leads := by decide
  dims := rfl
  output := rfl

theorem exInits : initTimes (L := ℤ) id exFlags = [0, 12] := rfl
theorem exLeads : leadTimes (L := ℤ) id exFlags = [0, 6] := rfl

theorem exData : Data (L := ℤ) (initTimes id exFlags) (leadTimes id exFlags) [60, 0, -60] [-60, 0, 60] (fun l => (l : ℝ)) exLabels [("t2m", (exF, exO))] := by
  rw [exInits, exLeads]
  have hmem : ∀ {v : String} {F O : DA ℤ (FV ℝ)}, (v, (F, O)) ∈ [("t2m", (exF, exO))] → F = exF ∧ O = exO := by
    intro v F O h
    rw [List.mem_singleton] at h
    simp only [Prod.mk.injEq] at h
    exact h.2
  refine ⟨by simp, by simp, Or.inr rfl, ⟨by simp, ?_, ?_⟩, ⟨rfl, ⟨0, by decide⟩⟩, ?_, ?_, ?_, ?_⟩
  · simp
  · intro x hx
    simp only [List.map_cons, List.map_nil, List.mem_cons, List.not_mem_nil, or_false] at hx
    rcases hx with rfl | rfl | rfl <;> norm_num
  · intro v F O hv
    obtain ⟨rfl, rfl⟩ := hmem hv
    exact ⟨∅, by simp, by simp [exF], by simp [exO]⟩
  · intro v F O hv d h1 h2 h3
    obtain ⟨rfl, rfl⟩ := hmem hv
    exact ⟨fun _ => by simp [exF, h1, h2], fun _ => by simp [exO, h3]⟩
  · intro v F O hv
    obtain ⟨rfl, rfl⟩ := hmem hv
    refine ⟨?_, ?_, ?_⟩
    · show ∀ i ∈ [0, 12], i ∈ ({0, 12, 24} : Finset ℤ)
      decide
    · show ∀ i ∈ [0, 6], i ∈ ({0, 6, 12} : Finset ℤ)
      decide
    · show ∀ i ∈ [0, 12], ∀ l ∈ [0, 6], i + l ∈ ({0, 6, 12, 18, 24} : Finset ℤ)
      decide
  · intro v F O hv e _ _ _
    obtain ⟨rfl, rfl⟩ := hmem hv
    exact ⟨rfl, rfl⟩

/-- The hypotheses of C85, met: a run exists, and in its file the mean squared error of the northern hemisphere is 4. -/
example : ∃ outputs file m, Runs (L := ℤ) id exRegionName [60, 0, -60] (fun l => (l : ℝ)) exFlags [("t2m", exF)] [("t2m", exO)] outputs ∧ outputs.head? = some ("metrics.nc", .ok file) ∧
    pyGet? "mse.t2m" file = some m ∧ m.val (fun d => if d = "lead_time" then 6 else 1) = FV.fin 4 := by
  obtain ⟨outputs, hr⟩ := C85_runs exSetting exData ⟨by intro c hc; cases hc; decide, by intro c hc; cases hc⟩
  obtain ⟨file, state, h1, -⟩ := C85_written exSetting exData hr
  obtain ⟨m, r, hm, -, -, -, hval⟩ := C85_values exSetting exData hr (by rw [h1]; rfl) (v := "t2m") (F := exF) (O := exO) (by simp)
  refine ⟨outputs, file, m, hr, by rw [h1]; rfl, hm, ?_⟩
  obtain ⟨h2, -⟩ := hval 20 90 (fun d => if d = "lead_time" then 6 else 1) ⟨Or.inr ⟨by decide, rfl, rfl⟩, by rw [exLeads]; decide, by
    intro d hd hn
    simp only [exF, Finset.mem_insert, Finset.mem_singleton] at hd
    simp only [List.mem_cons, List.not_mem_nil, or_false] at hn
    exact absurd hd hn⟩ ⟨60, by decide, by norm_num⟩
  rw [h2]
  congr 1
  have hf : ([-60, 0, 60] : List ℤ).toFinset.filter (fun la => (20 : ℝ) ≤ ((la : ℤ) : ℝ) ∧ ((la : ℤ) : ℝ) ≤ 90) = {60} := by
    ext la
    simp only [Finset.mem_filter, List.mem_toFinset, List.mem_cons, List.not_mem_nil, or_false, Finset.mem_singleton]
    constructor
    · rintro ⟨rfl | rfl | rfl, h3⟩
      · norm_num at h3
      · norm_num at h3
      · rfl
    · rintro rfl
      exact ⟨Or.inr (Or.inr rfl), by norm_num⟩
  have hpos : 0 < bandArea ([-60, 0, 60] : List ℤ) (fun l => (l : ℝ)) 60 := bandArea_pos exData.latitudes (by decide)
  have hsq : ∀ i lo : ℤ, squaredErrorAt exF exO (fun d => if d = "lead_time" then 6 else 1) i 60 lo = 4 := by
    intro i lo
    simp only [squaredErrorAt, exF, exO, cellAt_lat, if_true, FV.num]
    norm_num
  unfold areaMean
  rw [hf, exInits]
  simp only [Finset.sum_singleton, hsq, Finset.sum_const]
  simp only [nsmul_eq_mul]
  have c1 : ((([0, 12] : List ℤ).toFinset.card : ℕ) : ℝ) ≠ 0 := by norm_num [show ([0, 12] : List ℤ).toFinset.card = 2 from rfl]
  have c2 : (((exLabels "longitude").card : ℕ) : ℝ) ≠ 0 := by norm_num [show (exLabels "longitude").card = 2 from rfl]
  field_simp

end Example
end WBX
