import Verif.Props.PipelineStateFile

set_option linter.unusedSectionVars false

/-!
# C81: concrete pipelines, and what goes wrong when labels differ or statistics are missing
-/

namespace WBX
open DA

/-! ### The labels of the first array win -/

/-- The mean statistics of two variables on different levels, in one order. -/
def exPartsZFirst : List (AggKey × DA ℕ (FV ℚ)) :=
  [(⟨true, "AbsoluteError", "z", none, none⟩, ⟨{"level"}, fun _ => {0}, fun _ => .fin 5⟩),
   (⟨false, "AbsoluteError", "z", none, none⟩, ⟨{"level"}, fun _ => {0}, fun _ => .fin 1⟩),
   (⟨true, "AbsoluteError", "t", none, none⟩, ⟨{"level"}, fun _ => {0, 1}, fun _ => .fin 7⟩),
   (⟨false, "AbsoluteError", "t", none, none⟩, ⟨{"level"}, fun _ => {0, 1}, fun _ => .fin 1⟩)]

/-- The same, in another order. -/
def exPartsTFirst : List (AggKey × DA ℕ (FV ℚ)) :=
  [(⟨true, "AbsoluteError", "t", none, none⟩, ⟨{"level"}, fun _ => {0, 1}, fun _ => .fin 7⟩),
   (⟨false, "AbsoluteError", "t", none, none⟩, ⟨{"level"}, fun _ => {0, 1}, fun _ => .fin 1⟩),
   (⟨true, "AbsoluteError", "z", none, none⟩, ⟨{"level"}, fun _ => {0}, fun _ => .fin 5⟩),
   (⟨false, "AbsoluteError", "z", none, none⟩, ⟨{"level"}, fun _ => {0}, fun _ => .fin 1⟩)]

/-- C81 (finding): the file of metric values depends on the order in which Beam delivers the parts, if variables have different labels: the same parts in
two orders, and the value of `t` at level 1 is in one file and lost in the other, without an error. -/
theorem C81_order_dependent : ∃ f g x y : _,
    GroupAllRun exPartsZFirst [exPartsZFirst] ∧ GroupAllRun exPartsZFirst [exPartsTFirst] ∧
    computeMetrics (FV.nan : FV ℚ) [("mae", exMAE)] (nestedState (reconstructAggregationState exPartsZFirst)) = .ok f ∧
    computeMetrics (FV.nan : FV ℚ) [("mae", exMAE)] (nestedState (reconstructAggregationState exPartsTFirst)) = .ok g ∧
    pyGet? "mae.t" f = some x ∧ pyGet? "mae.t" g = some y ∧ x.coords "level" = {0} ∧ y.coords "level" = {0, 1} ∧ y.val (fun _ => 1) = .fin 7 := by
  refine ⟨_, _, _, _, .all _ (by simp [exPartsZFirst]) (List.Perm.refl _), .all _ (by simp [exPartsZFirst]) ?_, rfl, rfl, rfl, rfl, ?_, ?_, ?_⟩
  · exact (List.perm_append_comm (l₁ := [_, _]) (l₂ := [_, _]))
  · rfl
  · rfl
  · show (reindexKnown FV.nan (fun _ => none) (DA.zipWith (· / ·) (⟨{"level"}, fun _ => {0, 1}, fun _ => .fin 7⟩ : DA ℕ (FV ℚ)) ⟨{"level"}, fun _ => {0, 1}, fun _ => .fin 1⟩)).val (fun _ => 1) = .fin 7
    unfold reindexKnown
    dsimp only
    rw [if_pos]
    · show (FV.fin 7 : FV ℚ) / FV.fin 1 = FV.fin 7
      rw [FV.fin_div_fin_of_ne _ one_ne_zero, div_one]
    · intro d _
      simp [DA.zipWith, joinCoords]

/-! ### A pipeline -/

/-- The chunks of two init times and one lead time. -/
theorem exChunks_ok : ∃ out, ∃ tc : TimeChunks ℕ ℕ, TimeChunks.make [0, 1, 2] (.arr [1, 2]) (some 2) (some 1) = .ok tc ∧ tc.iterWithOffsets = .ok out ∧ out.length = 4 :=
  ⟨_, _, rfl, rfl, rfl⟩

/-- The loaders of the example. -/
def exTargetsLoader : List ℕ → LeadChunk ℕ → Except Err (Vars (StatVar ℕ (FV ℚ))) := loadVars loadTargets true [("t2m", exObserved)]

/-- The loaders of the example. -/
def exPredictionsLoader : List ℕ → LeadChunk ℕ → Vars (StatVar ℕ (FV ℚ)) → Except Err (Vars (StatVar ℕ (FV ℚ))) :=
  fun i l _ => loadVars loadPredictions false [("t2m", exForecasts)] i l

theorem exAbs_full (d : Dim) (hd : d ∈ exAbs.arr.dims) : (exAbs.arr.coords d).Nonempty := by
  rw [exAbs_dims] at hd
  simp only [Finset.mem_insert, Finset.mem_singleton] at hd
  rcases hd with rfl | rfl
  · rw [exAbs_coords.1]; exact ⟨0, by simp⟩
  · rw [exAbs_coords.2]; exact ⟨1, by simp⟩

/-- The metric with other values. -/
noncomputable def exMAEWith (g : List (String × Vars (DA ℕ (FV ℚ))) → Except Err (Vars (DA ℕ (FV ℚ)))) : FMetric ℕ ℚ := { exMAE with valuesFromMeanStatistics := g }

theorem exSetupWith (g : List (String × Vars (DA ℕ (FV ℚ))) → Except Err (Vars (DA ℕ (FV ℚ)))) : ∃ out x y, out.length = 4 ∧ (∀ a : DA ℕ (FV ℚ), a = x ∨ a = y → a.dims = {"lead_time"} ∧ a.coords "lead_time" = {1, 2}) ∧
    PipelineSetup Chunkable [("mae", exMAEWith g)] exTargetsLoader exPredictionsLoader exInitAgg [0, 1, 2] [1, 2] (some 2) (some 1) out
      [("t2m", exLoadedP)] [("t2m", exLoadedT)] [("AbsoluteError", [("t2m", some exAbs)])]
      (.dict (.cons "AbsoluteError" (.dict (.cons "t2m" (.leaf x) .nil)) .nil)) (.dict (.cons "AbsoluteError" (.dict (.cons "t2m" (.leaf y) .nil)) .nil)) := by
  obtain ⟨out, tc, htc, ho, hlen⟩ := exChunks_ok
  obtain ⟨x, y, hw, hxy⟩ := exAbs_agg
  refine ⟨out, x, y, hlen, hxy, ?_⟩
  exact {
    heritable := heritable_chunkable
    statistics := by
      intro c hc nm hnm ks hks
      rw [List.mem_singleton] at hnm
      exact exMAE_local c hc ("mae", exMAE) (by simp) ks (by rw [hnm] at hks; exact hks)
    initOrder := by decide
    leadOrder := by decide
    times := ⟨by simp, by simp⟩
    loaders := C74_loaders C74_load_targets C74_load_predictions exLoadedT_ok exLoadedP_ok
    initData := exChunkable _ (Or.inl rfl)
    leadData := exChunkable _ (Or.inr rfl)
    computed := exMAE_whole
    initLocal := by constructor <;> intro w hw <;> simp [exInitAgg] at hw
    leadLocal := by constructor <;> intro w hw <;> simp [exInitAgg] at hw
    chunks := ⟨tc, htc, ho⟩
    names := by simp [UniqueKeys]
    present := by simp
    dims := by
      intro st hst k s hs
      rw [List.mem_singleton] at hst
      subst hst
      simp only [List.mem_singleton, Prod.mk.injEq, Option.some.injEq] at hs
      rw [hs.2, exAbs_dims, exAbs_coords.1, exAbs_coords.2]
      refine ⟨by simp, by decide, by simp, by decide⟩
    aggregated := hw
    full := by
      intro t ht s v z hz
      have key : ∀ a : DA ℕ (FV ℚ), t = .dict (.cons "AbsoluteError" (.dict (.cons "t2m" (.leaf a) .nil)) .nil) → z = a := by
        intro a hta
        subst hta
        by_cases h3 : "AbsoluteError" = s <;> by_cases h4 : "t2m" = v <;> simp [Tree.get2, Dict.get, h3, h4] at hz
        exact hz.symm
      obtain ⟨a, ha, hta⟩ : ∃ a, (a = x ∨ a = y) ∧ t = .dict (.cons "AbsoluteError" (.dict (.cons "t2m" (.leaf a) .nil)) .nil) := by
        rcases ht with rfl | rfl
        · exact ⟨x, Or.inl rfl, rfl⟩
        · exact ⟨y, Or.inr rfl, rfl⟩
      have hza := key a hta
      subst hza
      obtain ⟨d1, d2⟩ := hxy z ha
      rw [d1]
      refine ⟨?_, by simp, fun _ => by rw [d2]; decide⟩
      intro d hd
      rw [Finset.mem_singleton] at hd
      subst hd
      rw [d2]
      exact ⟨1, by simp⟩ }

/-- The values of this metric are those of its statistic. -/
theorem exMAE_extensional : exMAE.Extensional where
  same := fun x y h => sameOutcome_item (h "AbsoluteError")
  dict := fun x r hx hr => hx _ (pyItem_mem hr)

/-- The hypotheses of `C81_metrics_file` and `C81_state_file`: a run that writes both files, one with the values of the direct evaluation, the other with
its state. -/
example : ∃ outputs out table file stateFile state, RunsTo (FV.nan : FV ℚ) ⟨some "metrics.nc", some "state.nc"⟩ [("mae", exMAE)] exInitAgg exTargetsLoader exPredictionsLoader out outputs ∧
    out.length = 4 ∧ outputs = [("metrics.nc", .ok file), ("state.nc", .ok stateFile)] ∧
    metricTableForSingleChunk [("mae", exMAE)] exInitAgg [("t2m", exLoadedP)] [("t2m", exLoadedT)] = .ok table ∧
    (∀ k, Option.Rel DA.Same (pyGet? k file) (pyGet? k (metricDataset table))) ∧ (pyGet? "mae.t2m" (metricDataset table)).isSome ∧
    Serialize.fromDataset "#" stateFile = .ok state ∧ (state.1.getPath ["AbsoluteError", "t2m"]).isSome := by
  obtain ⟨out, x, y, hlen, hxy, hs⟩ := exSetupWith exMAE.valuesFromMeanStatistics
  change PipelineSetup Chunkable [("mae", exMAE)] _ _ _ _ _ _ _ _ _ _ _ _ _ at hs
  obtain ⟨outputs, hr⟩ := C81_runs (fill := FV.nan) (paths := ⟨some "metrics.nc", some "state.nc"⟩) hs (Or.inl (by simp))
  have hdirect : metricTableForSingleChunk [("mae", exMAE)] exInitAgg [("t2m", exLoadedP)] [("t2m", exLoadedT)] = .ok [("mae", [("t2m", DA.zipWith (· / ·) x y)])] := by
    unfold metricTableForSingleChunk
    exact bind_ok_of hs.computed (bind_ok_of hs.aggregated rfl)
  have hget : Tree.get2 (.dict (.cons "AbsoluteError" (.dict (.cons "t2m" (.leaf x) .nil)) .nil)) "AbsoluteError" "t2m" = some x := rfl
  obtain ⟨file, st, h1, h2⟩ := C81_metrics_file hs (by simpa using exMAE_extensional) (by simp) (by simp) (by simp)
    (by intro st hst; rw [List.mem_singleton] at hst; subst hst; exact ⟨"t2m", x, rfl⟩) hdirect
    (by
      intro u hu w hw d _ _
      simp only [metricArrays, List.flatMap_cons, List.flatMap_nil, List.map_cons, List.map_nil, List.append_nil, List.mem_singleton] at hu hw
      rw [hu, hw]) hr
  have hone : ∀ (z : DA ℕ (FV ℚ)) s v, (Tree.get2 (.dict (.cons "AbsoluteError" (.dict (.cons "t2m" (.leaf z) .nil)) .nil)) s v).isSome → s = "AbsoluteError" ∧ v = "t2m" := by
    intro z s v h
    by_cases h3 : "AbsoluteError" = s <;> by_cases h4 : "t2m" = v <;> simp [Tree.get2, Dict.get, h3, h4] at h
    exact ⟨h3.symm, h4.symm⟩
  obtain ⟨before, sf, state, h3, h4, h5, -⟩ := C81_state_file hs ⟨_, _, _, hget⟩
    (by
      intro s v h
      obtain ⟨rfl, rfl⟩ := hone _ _ _ h
      refine ⟨⟨?_, by decide⟩, ?_, by decide⟩ <;> (unfold GoodName; decide))
    (by
      intro s v s' v' u w hu hw
      have hval : ∀ (s v : String) (u : DA ℕ (FV ℚ)), (Tree.get2 (.dict (.cons "AbsoluteError" (.dict (.cons "t2m" (.leaf x) .nil)) .nil)) s v = some u ∨
          Tree.get2 (.dict (.cons "AbsoluteError" (.dict (.cons "t2m" (.leaf y) .nil)) .nil)) s v = some u) → u = x ∨ u = y := by
        intro s v u h
        rcases h with h | h <;> obtain ⟨rfl, rfl⟩ := hone _ s v (by rw [h]; rfl)
        · exact Or.inl (Option.some.inj h).symm
        · exact Or.inr (Option.some.inj h).symm
      obtain ⟨d1, d2⟩ := hxy u (hval _ _ _ hu)
      obtain ⟨d3, d4⟩ := hxy w (hval _ _ _ hw)
      intro d hd _
      rw [d1, Finset.mem_singleton] at hd
      rw [hd, d2, d4])
    (path := "state.nc") rfl hr
  have h6 : outputs = [("metrics.nc", .ok file), ("state.nc", st)] := h1
  have h7 : st = .ok sf := by
    rw [h6] at h3
    have := congrArg List.getLast? h3
    simpa using this
  rw [h7] at h6
  refine ⟨outputs, out, _, file, sf, state, hr, hlen, h6, hdirect, h2, rfl, h4, ?_⟩
  have := (h5 "AbsoluteError" "t2m").1
  rw [hget] at this
  revert this
  cases state.1.getPath ["AbsoluteError", "t2m"] with
  | none => intro h; cases h
  | some z => intro _; rfl

/-- The hypotheses of `C81_failure`: a metric that asks for a statistic under a name it has not declared. -/
example : ∃ outputs out, out.length = 4 ∧ RunsTo (FV.nan : FV ℚ) ⟨some "metrics.nc", none⟩ [("mae", exMAEWith (fun sv => pyItem sv "MAE"))] exInitAgg exTargetsLoader exPredictionsLoader out outputs ∧
    metricTableForSingleChunk [("mae", exMAEWith (fun sv => pyItem sv "MAE"))] exInitAgg [("t2m", exLoadedP)] [("t2m", exLoadedT)] = .error .keyError ∧
    ∃ e rest, outputs = ("metrics.nc", .error e) :: rest := by
  obtain ⟨out, x, y, hlen, hxy, hs⟩ := exSetupWith (fun sv => pyItem sv "MAE")
  obtain ⟨outputs, hr⟩ := C81_runs (fill := FV.nan) (paths := ⟨some "metrics.nc", none⟩) hs (Or.inl (by simp))
  have hdirect : metricTableForSingleChunk [("mae", exMAEWith (fun sv => pyItem sv "MAE"))] exInitAgg [("t2m", exLoadedP)] [("t2m", exLoadedT)] = .error .keyError := by
    unfold metricTableForSingleChunk
    exact bind_ok_of hs.computed (bind_ok_of hs.aggregated rfl)
  refine ⟨outputs, out, hlen, hr, hdirect, C81_failure hs ?_ (by simp) ?_ hdirect rfl hr⟩
  · intro nm hnm
    rw [List.mem_singleton] at hnm
    subst hnm
    exact ⟨fun x y h => sameOutcome_item (h "MAE"), fun x r hx hr => hx _ (pyItem_mem hr)⟩
  · intro st hst
    rw [List.mem_singleton] at hst
    subst hst
    exact ⟨"t2m", x, rfl⟩

/-- An aggregator over a dimension that the statistics do not have. -/
def exLevelAgg : Aggregator ℕ (FV ℚ) := { reduceDims := ["level"] }

theorem exLevelAgg_drops : exLevelAgg.aggregateStatistics [("AbsoluteError", [("t2m", some exAbs)])] =
    .ok (some (.dict (.cons "AbsoluteError" (.dict .nil) .nil), .dict (.cons "AbsoluteError" (.dict .nil) .nil))) := by
  have h1 : ∀ f : DA ℕ (FV ℚ), f.dims = {"init_time", "lead_time"} → exLevelAgg.aggregationFn f = .ok none := by
    intro f hf
    obtain ⟨h, -⟩ := Aggregator.aggregationFn_eq exLevelAgg f
    first
      | exact h (by simp [exLevelAgg, hf])
      | simp [Aggregator.aggregationFn, exLevelAgg, hf]
  obtain ⟨f, g, hfg, hd⟩ : ∃ f g : DA ℕ (FV ℚ), exLevelAgg.applyMask exAbs = (f, g) ∧ ∀ a, a = f ∨ a = g → a.dims = {"init_time", "lead_time"} := by
    refine ⟨_, _, rfl, ?_⟩
    intro a ha
    have e1 := exAbs_dims
    rcases ha with rfl | rfl <;> simp [Aggregator.applyMask, exLevelAgg, DA.map, e1]
  simp only [Aggregator.aggregateStatistics, Aggregator.perStat, Aggregator.aggregateStatVars,
    Aggregator.perVar, Aggregator.aggregateStatVar_eq, hfg, h1 f (hd f (Or.inl rfl)), h1 g (hd g (Or.inr rfl)), bind, Except.bind, pure, Except.pure]
  rfl

theorem exEmptySetup : ∃ out, out.length = 4 ∧
    PipelineSetup Chunkable [("mae", exMAE)] exTargetsLoader exPredictionsLoader exLevelAgg [0, 1, 2] [1, 2] (some 2) (some 1) out
      [("t2m", exLoadedP)] [("t2m", exLoadedT)] [("AbsoluteError", [("t2m", some exAbs)])]
      (.dict (.cons "AbsoluteError" (.dict .nil) .nil)) (.dict (.cons "AbsoluteError" (.dict .nil) .nil)) := by
  obtain ⟨out, x, y, hlen, hxy, hs⟩ := exSetupWith exMAE.valuesFromMeanStatistics
  change PipelineSetup Chunkable [("mae", exMAE)] _ _ _ _ _ _ _ _ _ _ _ _ _ at hs
  refine ⟨out, hlen, { hs with
    initLocal := by constructor <;> intro w hw <;> simp [exLevelAgg] at hw
    leadLocal := by constructor <;> intro w hw <;> simp [exLevelAgg] at hw
    aggregated := exLevelAgg_drops
    full := ?_ }⟩
  intro t ht s v z hz
  have : t = .dict (.cons "AbsoluteError" (.dict .nil) .nil) := by rcases ht with rfl | rfl <;> rfl
  subst this
  by_cases h3 : "AbsoluteError" = s <;> simp [Tree.get2, Dict.get, h3] at hz

/-- The hypotheses of `C81_nothing_written`: a misspelt dimension, two files asked for, and none is written. -/
example : ∃ out, out.length = 4 ∧ RunsTo (FV.nan : FV ℚ) ⟨some "metrics.nc", some "state.nc"⟩ [("mae", exMAE)] exLevelAgg exTargetsLoader exPredictionsLoader out [] := by
  obtain ⟨out, hlen, hs⟩ := exEmptySetup
  obtain ⟨outputs, hr⟩ := C81_runs (fill := FV.nan) (paths := ⟨some "metrics.nc", some "state.nc"⟩) hs (Or.inl (by simp))
  have : outputs = [] := C81_nothing_written hs (by
    intro s v
    by_cases h3 : "AbsoluteError" = s <;> simp [Tree.get2, Dict.get, h3]) hr
  exact ⟨out, hlen, this ▸ hr⟩

/-- A statistic of variables that the data do not have. -/
def exNoVariables : Statistic (StatVar ℕ (FV ℚ)) (Option (StatVar ℕ (FV ℚ))) := ⟨"None", fun _ _ => .ok []⟩

/-- A metric of variables that the data do not have. -/
def exNoMetric : FMetric ℕ ℚ := ⟨[("None", exNoVariables)], fun sv => pyItem sv "None"⟩

theorem exMissingSetup : ∃ out x y, out.length = 4 ∧
    PipelineSetup Chunkable [("mae", exMAE), ("none", exNoMetric)] exTargetsLoader exPredictionsLoader exInitAgg [0, 1, 2] [1, 2] (some 2) (some 1) out
      [("t2m", exLoadedP)] [("t2m", exLoadedT)] [("AbsoluteError", [("t2m", some exAbs)]), ("None", [])]
      (.dict (.cons "AbsoluteError" (.dict (.cons "t2m" (.leaf x) .nil)) (.cons "None" (.dict .nil) .nil)))
      (.dict (.cons "AbsoluteError" (.dict (.cons "t2m" (.leaf y) .nil)) (.cons "None" (.dict .nil) .nil))) := by
  obtain ⟨out, x, y, hlen, hxy, hs⟩ := exSetupWith exMAE.valuesFromMeanStatistics
  change PipelineSetup Chunkable [("mae", exMAE)] _ _ _ _ _ _ _ _ _ _ _ _ _ at hs
  refine ⟨out, x, y, hlen, { hs with
    statistics := ?_
    computed := rfl
    names := by simp [UniqueKeys]
    present := by simp
    dims := ?_
    aggregated := ?_
    full := ?_ }⟩
  · intro c hc nm hnm ks hks
    simp only [List.mem_cons, List.not_mem_nil, or_false] at hnm
    rcases hnm with rfl | rfl
    · exact hs.statistics c hc _ (by simp) ks hks
    · simp only [exNoMetric, List.mem_singleton] at hks
      subst hks
      intro S p t r _ h
      rw [← Except.ok.inj h]
      rfl
  · intro st hst k s hks
    simp only [List.mem_cons, List.not_mem_nil, or_false] at hst
    rcases hst with rfl | rfl
    · exact hs.dims _ (by simp) k s hks
    · simp at hks
  · have h := hs.aggregated
    unfold Aggregator.aggregateStatistics at h ⊢
    obtain ⟨ps, hps, he⟩ := bind_ok_iff.mp h
    obtain ⟨r, hr, hps⟩ := bind_ok_iff.mp hps
    obtain ⟨rs, hrs, hps⟩ := bind_ok_iff.mp hps
    rw [← Except.ok.inj hrs] at hps
    rw [← Except.ok.inj hps] at he
    rcases r with ⟨r1, r2⟩
    simp only [List.map_cons, List.map_nil, Dict.ofList, pure, Except.pure, Except.ok.injEq, Option.some.injEq, Prod.mk.injEq, Tree.dict.injEq, Dict.cons.injEq, true_and, and_true] at he
    rw [he.1, he.2] at hr
    exact bind_ok_of (bind_ok_of hr (bind_ok_of rfl rfl)) rfl
  · intro t ht s v z hz
    by_cases h3 : "None" = s
    · subst h3
      rcases ht with rfl | rfl <;> simp [Tree.get2, Dict.get] at hz
    · refine hs.full (.dict (.cons "AbsoluteError" (.dict (.cons "t2m" (.leaf z) .nil)) .nil)) ?_ s v z ?_
      · rcases ht with rfl | rfl <;> by_cases h4 : "AbsoluteError" = s <;> by_cases h5 : "t2m" = v <;> simp [Tree.get2, Dict.get, h3, h4, h5] at hz
        · exact Or.inl (by rw [hz])
        · exact Or.inr (by rw [hz])
      · rcases ht with rfl | rfl <;> by_cases h4 : "AbsoluteError" = s <;> by_cases h5 : "t2m" = v <;> simp [Tree.get2, Dict.get, h3, h4, h5] at hz ⊢

/-- The hypotheses of `C81_statistic_missing`: the direct evaluation has the values of `mae` and none of the other metric; the pipeline writes no values. -/
example : ∃ outputs out table, out.length = 4 ∧ RunsTo (FV.nan : FV ℚ) ⟨some "metrics.nc", none⟩ [("mae", exMAE), ("none", exNoMetric)] exInitAgg exTargetsLoader exPredictionsLoader out outputs ∧
    metricTableForSingleChunk [("mae", exMAE), ("none", exNoMetric)] exInitAgg [("t2m", exLoadedP)] [("t2m", exLoadedT)] = .ok table ∧
    (pyGet? "mae.t2m" (metricDataset table)).isSome ∧ (outputs = [] ∨ ∃ e rest, outputs = ("metrics.nc", .error e) :: rest) := by
  obtain ⟨out, x, y, hlen, hs⟩ := exMissingSetup
  obtain ⟨outputs, hr⟩ := C81_runs (fill := FV.nan) (paths := ⟨some "metrics.nc", none⟩) hs (Or.inl (by simp))
  have hdirect : metricTableForSingleChunk [("mae", exMAE), ("none", exNoMetric)] exInitAgg [("t2m", exLoadedP)] [("t2m", exLoadedT)] =
      .ok [("mae", [("t2m", DA.zipWith (· / ·) x y)]), ("none", [])] := by
    unfold metricTableForSingleChunk
    exact bind_ok_of hs.computed (bind_ok_of hs.aggregated rfl)
  refine ⟨outputs, out, _, hlen, hr, hdirect, rfl, ?_⟩
  refine C81_statistic_missing hs (nm := ("none", exNoMetric)) (by simp) (ks := ("None", exNoVariables)) (by simp [exNoMetric]) ?_ hr rfl
  intro v
  simp [Tree.get2, Dict.get, exNoVariables]

end WBX
