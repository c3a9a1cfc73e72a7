import Verif.Lemmas.ExampleWeights
import Verif.Props.PipelineStateFile
import Verif.Props.Deterministic

set_option linter.unusedSectionVars false

/-!
# The example evaluation: what is loaded, and the aggregated statistics
-/

namespace WBX
namespace Example
open DA
variable {L : Type} [LinearOrder L] [Add L]

/-- A forecast as it is loaded. -/
noncomputable def loadedF (is ts : List L) (F : DA L (FV ℝ)) : StatVar L (FV ℝ) :=
  ⟨{ F with coords := fun k => if k = "lead_time" then ts.toFinset else if k = "init_time" then is.toFinset else F.coords k }, none⟩

/-- An observation as it is loaded. -/
noncomputable def loadedO (is ts : List L) (O : DA L (FV ℝ)) : StatVar L (FV ℝ) :=
  ⟨{ dims := O.dims.erase "valid_time" ∪ {"init_time", "lead_time"}, coords := fun k => if k ∈ ({"init_time", "lead_time"} : Finset Dim) then initLead is ts k else O.coords k, val := fun e => O.val (setLabel e "valid_time" (e "init_time" + e "lead_time")) }, none⟩

/-- The statistic of one variable. -/
noncomputable def statisticOf (is ts : List L) (F O : DA L (FV ℝ)) : StatVar L (FV ℝ) := squaredError (loadedF is ts F) (loadedO is ts O)

variable {is ts order south : List L} {degrees : L → ℝ} {C : Dim → Finset L} {data : List (String × (DA L (FV ℝ) × DA L (FV ℝ)))}

theorem load_forecasts (h : Data is ts order south degrees C data) :
    loadVars loadPredictions false (data.map (fun d => (d.1, d.2.1))) is (.arr ts) = .ok (data.map (fun d => (d.1, loadedF is ts d.2.1))) := by
  unfold loadVars
  rw [List.mapM_map]
  refine Eq.trans (TimeChunks.mapM_ok_of_forall _ (fun d : String × (DA L (FV ℝ) × DA L (FV ℝ)) => (d.1, loadedF is ts d.2.1)) data ?_) rfl
  intro d hd
  obtain ⟨h1, h2, -⟩ := h.times d.1 d.2.1 d.2.2 hd
  refine bind_ok_of (a := (loadedF is ts d.2.1).arr) ?_ rfl
  refine bind_ok_of (if_pos ?_) (if_pos ?_)
  · simpa using h1
  · simpa using h2

theorem load_observations (h : Data is ts order south degrees C data) :
    loadVars loadTargets false (data.map (fun d => (d.1, d.2.2))) is (.arr ts) = .ok (data.map (fun d => (d.1, loadedO is ts d.2.2))) := by
  unfold loadVars
  rw [List.mapM_map]
  refine Eq.trans (TimeChunks.mapM_ok_of_forall _ (fun d : String × (DA L (FV ℝ) × DA L (FV ℝ)) => (d.1, loadedO is ts d.2.2)) data ?_) rfl
  intro d hd
  obtain ⟨-, -, h3⟩ := h.times d.1 d.2.1 d.2.2 hd
  refine bind_ok_of (a := (loadedO is ts d.2.2).arr) (if_pos ?_) rfl
  simpa using h3

theorem loop_data {D S : Type} (f : D → D → S) (a b : (DA L (FV ℝ) × DA L (FV ℝ)) → D) {all : List (String × (DA L (FV ℝ) × DA L (FV ℝ)))} (hn : (all.map Prod.fst).Nodup)
    (data : List (String × (DA L (FV ℝ) × DA L (FV ℝ)))) (hsub : ∀ d ∈ data, d ∈ all) :
    perVariableLoop (fun p t => .ok (some (f p t))) (all.map (fun d => (d.1, b d.2))) (data.map (fun d => (d.1, a d.2))) = .ok (data.map (fun d => (d.1, f (a d.2) (b d.2)))) := by
  induction data with
  | nil => rfl
  | cons d data ih =>
    have hg : pyGet? d.1 (all.map (fun d => (d.1, b d.2))) = some (b d.2) := by
      rw [pyGet?_map b, (pyGet?_eq_some hn d.1 d.2).mpr (hsub d (by simp))]
      rfl
    simp only [List.map_cons]
    rw [perVariableLoop, hg]
    dsimp only
    rw [ih (fun d hd => hsub d (List.mem_cons_of_mem _ hd))]
    rfl

theorem example_statistics (h : Data is ts order south degrees C data) :
    computeUniqueStatistics metrics (data.map (fun d => (d.1, loadedF is ts d.2.1))) (data.map (fun d => (d.1, loadedO is ts d.2.2))) =
      .ok [("SquaredError", data.map (fun d => (d.1, some (statisticOf is ts d.2.1 d.2.2))))] := by
  have hu : uniqueStatistics (metrics (L := L)) = [("SquaredError", squaredErrorStatistic)] := rfl
  have hl : (squaredErrorStatistic (L := L) (K := ℝ)).compute (data.map (fun d => (d.1, loadedF is ts d.2.1))) (data.map (fun d => (d.1, loadedO is ts d.2.2))) =
      .ok (data.map (fun d => (d.1, some (statisticOf is ts d.2.1 d.2.2)))) :=
    loop_data (fun p t => some (squaredError p t)) (fun d => loadedF is ts d.1) (fun d => loadedO is ts d.2) h.names data (fun _ hd => hd)
  unfold computeUniqueStatistics
  rw [hu, List.mapM_cons, List.mapM_nil]
  dsimp only
  rw [hl]
  rfl

/-- An array with the dimensions and labels of the statistics. -/
structure Shaped (is ts : List L) (C : Dim → Finset L) (extra : Finset Dim) (a : DA L (FV ℝ)) : Prop where
  names : ∀ d ∈ extra, d ∉ ["init_time", "lead_time", "valid_time", "latitude", "longitude", "region"] ∧ (C d).Nonempty
  dims : a.dims = {"init_time", "lead_time", "latitude", "longitude"} ∪ extra
  init : a.coords "init_time" = is.toFinset
  lead : a.coords "lead_time" = ts.toFinset
  other : ∀ d ∈ a.dims, d ≠ "init_time" → d ≠ "lead_time" → a.coords d = C d

theorem statistic_shaped (h : Data is ts order south degrees C data) {v : String} {F O : DA L (FV ℝ)} (hv : (v, (F, O)) ∈ data) :
    ∃ extra, Shaped is ts C extra (statisticOf is ts F O).arr ∧ (statisticOf is ts F O).mask = none ∧ F.dims = {"init_time", "lead_time", "latitude", "longitude"} ∪ extra := by
  obtain ⟨extra, he, hF, hO⟩ := h.dims v F O hv
  have hdims : ∀ d, d ∈ F.dims ∪ (O.dims.erase "valid_time" ∪ {"init_time", "lead_time"}) ↔ d ∈ F.dims := by
    intro d
    simp only [hF, hO, Finset.mem_union, Finset.mem_erase, Finset.mem_insert, Finset.mem_singleton]
    tauto
  refine ⟨extra, ⟨he, ?_, ?_, ?_, ?_⟩, rfl, hF⟩
  · rw [← hF]
    exact Finset.ext hdims
  · simp [statisticOf, squaredError, StatVar.map, StatVar.zipWith, DA.map, DA.zipWith, joinCoords, loadedF, loadedO, initLead, hF]
  · simp [statisticOf, squaredError, StatVar.map, StatVar.zipWith, DA.map, DA.zipWith, joinCoords, loadedF, loadedO, initLead, hF]
  · intro d hd h1 h2
    have hd : d ∈ F.dims := (hdims d).mp hd
    have hval : d ≠ "valid_time" := by
      rintro rfl
      rw [hF] at hd
      simp only [Finset.mem_union, Finset.mem_insert, Finset.mem_singleton] at hd
      rcases hd with (hd | hd | hd | hd) | hd
      · exact absurd hd (by decide)
      · exact absurd hd (by decide)
      · exact absurd hd (by decide)
      · exact absurd hd (by decide)
      · exact (he _ hd).1 (by decide)
    obtain ⟨h3, h4⟩ := h.labels v F O hv d h1 h2 hval
    have h5 : d ∈ O.dims := by
      rw [hF] at hd
      rw [hO]
      simp only [Finset.mem_union, Finset.mem_insert, Finset.mem_singleton] at hd ⊢
      tauto
    show joinCoords (loadedF is ts F).arr (loadedO is ts O).arr d = C d
    have h6 : d ∈ (loadedO is ts O).arr.dims := by simp [loadedO, h5, hval]
    have h7 : d ∈ (loadedF is ts F).arr.dims := hd
    unfold joinCoords
    rw [if_pos h7, if_pos h6]
    simp only [loadedF, loadedO, h1, h2, if_false, h3 hd, h4 h5, Finset.mem_insert, Finset.mem_singleton, or_self, Finset.inter_self]

theorem Shaped.mem_iff {extra : Finset Dim} {a : DA L (FV ℝ)} (h : Shaped is ts C extra a) (d : Dim) :
    d ∈ a.dims ↔ d = "init_time" ∨ d = "lead_time" ∨ d = "latitude" ∨ d = "longitude" ∨ d ∈ extra := by
  rw [h.dims]
  simp only [Finset.mem_union, Finset.mem_insert, Finset.mem_singleton]
  tauto

theorem Shaped.ones {extra : Finset Dim} {a : DA L (FV ℝ)} (h : Shaped is ts C extra a) : Shaped is ts C extra (a.map (fun _ => (1 : FV ℝ))) :=
  ⟨h.names, h.dims, h.init, h.lead, h.other⟩

/-- The aggregator of the script with its default dimensions. -/
noncomputable def defaultAgg (name : String → L) (order : List L) (degrees : L → ℝ) : Aggregator L (FV ℝ) :=
  { reduceDims := ["init_time", "latitude", "longitude"], binBy := [regionBinning name degrees], weighBy := [gridWeights order degrees] }

/-- An aggregated array. -/
structure Summed (name : String → L) (ts : List L) (C : Dim → Finset L) (extra : Finset Dim) (x : DA L (FV ℝ)) : Prop where
  dims : x.dims = {"region", "lead_time"} ∪ extra
  region : x.coords "region" = {name "global", name "northern-hemisphere"}
  lead : x.coords "lead_time" = ts.toFinset
  other : ∀ d ∈ extra, x.coords d = C d

theorem aggregate_shaped {name : String → L} (hname : name "global" ≠ name "northern-hemisphere") (ho : order = south ∨ order = south.reverse) (hs : SouthToNorth (south.map degrees))
    {extra : Finset Dim} {a : DA L (FV ℝ)} (h : Shaped is ts C extra a) : ∃ x, (defaultAgg name order degrees).aggregationFn a = .ok (some x) ∧ Summed name ts C extra x := by
  obtain ⟨m, hm, hmd, hmr, hmla, hmlo, -, -⟩ := regions_mask name hname degrees a
  obtain ⟨c, -, hwd, -, -, -⟩ := grid_weights (stat := a) ho hs ((h.mem_iff _).mpr (by simp))
  obtain ⟨-, -, -, h4⟩ := Aggregator.aggregationFn_eq (defaultAgg name order degrees) a
  have hd : (["init_time", "latitude", "longitude"] : List Dim).dedup = ["init_time", "latitude", "longitude"] := by decide
  refine ⟨_, h4 ?_ ?_ ?_, ?_⟩
  · intro d hd
    rw [h.mem_iff]
    simp only [defaultAgg, List.mem_cons, List.not_mem_nil, or_false] at hd
    tauto
  · simp [defaultAgg]
  · intro b hb
    simp only [defaultAgg, List.mem_singleton] at hb
    subst hb
    rw [hm, hmd]
    intro d hd
    rw [h.mem_iff]
    simp only [regionBinning, Finset.mem_sdiff, Finset.mem_insert, Finset.mem_singleton] at hd
    tauto
  · have he : ∀ d ∈ extra, d ≠ "init_time" ∧ d ≠ "lead_time" ∧ d ≠ "latitude" ∧ d ≠ "longitude" ∧ d ≠ "region" := by
      intro d hd
      have := (h.names d hd).1
      simp only [List.mem_cons, List.not_mem_nil, or_false, not_or] at this
      tauto
    have hr : "region" ∉ a.dims := by
      rw [h.mem_iff]
      intro hh
      rcases hh with hh | hh | hh | hh | hh
      · exact absurd hh (by decide)
      · exact absurd hh (by decide)
      · exact absurd hh (by decide)
      · exact absurd hh (by decide)
      · exact (he _ hh).2.2.2.2 rfl
    have hl : "lead_time" ∈ a.dims := (h.mem_iff _).mpr (by simp)
    show Summed name ts C extra (DA.dot a ([gridWeights order degrees a] ++ [(regionBinning name degrees).createBinMask a]) (["init_time", "latitude", "longitude"] : List Dim).dedup)
    rw [hd, hm]
    unfold DA.dot
    rw [sumDims_eq]
    simp only [List.singleton_append, List.foldl_cons, List.foldl_nil, DA.zipWith]
    refine ⟨?_, ?_, ?_, ?_⟩
    · ext d
      simp only [hwd, hmd, Finset.mem_sdiff, Finset.mem_union, h.mem_iff, Finset.mem_insert, Finset.mem_singleton, List.mem_toFinset, List.mem_cons, List.not_mem_nil, or_false]
      constructor
      · tauto
      · rintro ((rfl | rfl) | hd)
        · exact ⟨Or.inr (Or.inl rfl), by decide⟩
        · exact ⟨Or.inl (Or.inl (Or.inr (Or.inl rfl))), by decide⟩
        · have := he d hd
          tauto
    · simp [joinCoords, hwd, hmd, hr, hmr]
    · simp [joinCoords, hwd, hmd, hl, h.lead]
    · intro d hd
      obtain ⟨h1, h2, h3, h5, h6⟩ := he d hd
      have hda : d ∈ a.dims := (h.mem_iff _).mpr (by tauto)
      simp only [joinCoords, hwd, hmd, Finset.mem_union, Finset.mem_insert, Finset.mem_singleton, hda, h1, h2, h3, h5, h6, if_true, if_false, true_or, or_self]
      exact h.other d hda h1 h2

theorem aggregate_statistic {name : String → L} (hname : name "global" ≠ name "northern-hemisphere") (h : Data is ts order south degrees C data) {v : String} {F O : DA L (FV ℝ)} (hv : (v, (F, O)) ∈ data) :
    ∃ q extra, (defaultAgg name order degrees).aggregateStatVar (statisticOf is ts F O) = .ok (some q) ∧ F.dims = {"init_time", "lead_time", "latitude", "longitude"} ∪ extra ∧
      (∀ d ∈ extra, d ∉ ["init_time", "lead_time", "valid_time", "latitude", "longitude", "region"] ∧ (C d).Nonempty) ∧ Summed name ts C extra q.1 ∧ Summed name ts C extra q.2 := by
  obtain ⟨extra, hs, hm, hF⟩ := statistic_shaped h hv
  obtain ⟨x, hx, hx'⟩ := aggregate_shaped hname h.order h.latitudes hs
  obtain ⟨y, hy, hy'⟩ := aggregate_shaped hname h.order h.latitudes hs.ones
  refine ⟨(x, y), extra, ?_, hF, hs.names, hx', hy'⟩
  rw [Aggregator.aggregateStatVar_eq]
  have : (defaultAgg name order degrees).applyMask (statisticOf is ts F O) = ((statisticOf is ts F O).arr, (statisticOf is ts F O).arr.map (fun _ => (1 : FV ℝ))) := rfl
  rw [this]
  dsimp only
  rw [hx, hy]
  rfl

/-- Weights and bins depend on the grid only. -/
theorem defaultAgg_coordOnly (name : String → L) (order : List L) (degrees : L → ℝ) : (defaultAgg name order degrees).CoordOnly := by
  constructor
  · intro w hw a a' h1 h2
    simp only [defaultAgg, List.mem_singleton] at hw
    subst hw
    unfold gridWeights gridAreaWeights
    rw [h1]
  · intro b hb a a' h1 h2
    simp only [defaultAgg, List.mem_singleton] at hb
    subst hb
    simp only [regionBinning, coordArray, h2]

theorem defaultAgg_local {name : String → L} (hname : name "global" ≠ name "northern-hemisphere") (order : List L) (degrees : L → ℝ) {c : Dim} (hc : c = "init_time" ∨ c = "lead_time") :
    (defaultAgg name order degrees).Local c := by
  have hc' : c ≠ "latitude" ∧ c ≠ "longitude" ∧ c ≠ "region" := by rcases hc with rfl | rfl <;> decide
  have key : ∀ x : DA L (FV ℝ), c ∉ x.dims → ∀ S, x.Same (x.restrict c S) := by
    intro x hx S
    refine ⟨rfl, ?_, fun _ _ => rfl⟩
    intro d hd
    have : d ≠ c := by rintro rfl; exact hx hd
    simp [DA.restrict, this]
  constructor
  · intro w hw a S _
    simp only [defaultAgg, List.mem_singleton] at hw
    subst hw
    have : gridWeights order degrees (a.restrict c S) = gridWeights order degrees a := rfl
    rw [this]
    refine key _ ?_ S
    unfold gridWeights gridAreaWeights
    by_cases h1 : "latitude" ∈ a.dims
    · cases h2 : latitudeWeights true (order.map degrees) <;> simp [h1, bind, Except.bind, pure, Except.pure, DA.map, DA.scalar, hc'.1]
    · simp only [h1, not_false_eq_true, if_true]
      exact Finset.notMem_empty c
  · intro b hb a S _
    simp only [defaultAgg, List.mem_singleton] at hb
    subst hb
    have : (regionBinning name degrees).createBinMask (a.restrict c S) = (regionBinning name degrees).createBinMask a := by
      have e1 : (a.restrict c S).coords "latitude" = a.coords "latitude" := by simp [DA.restrict, hc'.1.symm]
      have e2 : (a.restrict c S).coords "longitude" = a.coords "longitude" := by simp [DA.restrict, hc'.2.1.symm]
      simp only [regionBinning, coordArray, e1, e2]
    rw [this]
    refine key _ ?_ S
    obtain ⟨m, hm, hmd, -⟩ := regions_mask name hname degrees a
    rw [hm, hmd]
    simp [hc']

end Example
end WBX
