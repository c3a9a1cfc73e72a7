import Verif.Props.Dashboard
import Mathlib.Tactic.NormNum

set_option linter.unusedSectionVars false

/-!
# C84: the graph of the public benchmark: findings and instances
-/

namespace WBX.Dashboard
open WBX DA

section
variable {K : Type} [Field K] [LinearOrder K] [IsStrictOrderedRing K]

/-- C84 (finding): the metrics of the combined results are called differently from the one whose values at lead time 0 are left out: also for the ratio of spread and skill the value at
lead time 0 is shown. -/
theorem C84_spread_skill {app : AppData K} (hwf : ∀ v x, (v, x) ∈ app.ds → x.WF) {det : Bool} {o : Choice} {prev : Option (List (String × Visible))} {g : Graph K}
    (h : updateGraph app det o prev = .ok g) (hs : g.seepsAlert = false) (hr : o.relative = false)
    (hm : o.metric ∈ (CombineResults.deterministicMetricNames ++ CombineResults.probabilisticMetricNames).map Prod.snd) :
    ∃ x, pyGet? o.var app.ds = some x ∧ ∀ t ∈ g.traces, ∀ l ∈ app.leads, (app.hours l, x.val (cell o t.name l)) ∈ t.points := by
  have hne : o.metric ≠ "Spread/Skill Ratio" := by
    have : ∀ m ∈ (CombineResults.deterministicMetricNames ++ CombineResults.probabilisticMetricNames).map Prod.snd, m ≠ "Spread/Skill Ratio" := by decide
    exact this _ hm
  obtain ⟨x, hx, hg⟩ := C84_absolute hwf h hs hr hne
  refine ⟨x, hx, ?_⟩
  intro t ht l hl
  have : (t.name, t.points) ∈ g.traces.map (fun t => (t.name, t.points)) := List.mem_map.mpr ⟨t, ht, rfl⟩
  rw [hg] at this
  obtain ⟨m, _, e⟩ := List.mem_map.mp this
  have e1 := (Prod.mk.inj e).1
  have e2 := (Prod.mk.inj e).2
  rw [← e2, ← e1]
  exact List.mem_map.mpr ⟨l, hl, rfl⟩

/-- C84 (finding): every metric but ACC is treated as better if smaller. A bias of the other sign and of greater magnitude is shown as an improvement of more than 200 %, and a ratio
of spread and skill below that of a model with the perfect ratio 1 as an improvement. -/
theorem C84_not_better {app : AppData K} (hwf : ∀ v x, (v, x) ∈ app.ds → x.WF) {det : Bool} {o : Choice} {prev : Option (List (String × Visible))} {g : Graph K}
    (h : updateGraph app det o prev = .ok g) (hs : g.seepsAlert = false) (hr : o.relative = true) :
    ∃ x, pyGet? o.var app.ds = some x ∧ ∀ t ∈ g.traces, ∀ l ∈ app.leads, 0 < app.hours l → ∀ s b, x.val (cell o t.name l) = .fin s → x.val (cell o o.relativeTo l) = .fin b →
      (o.metric = "Bias" → b * s < 0 → |b| < |s| → ∃ v, 200 < v ∧ (app.hours l, .fin v) ∈ t.points) ∧
      (o.metric = "Unbiased Spread/Skill" → b = 1 → 0 < s → s < 1 → ∃ v, 0 < v ∧ (app.hours l, .fin v) ∈ t.points) := by
  obtain ⟨x, hx, hg⟩ := curves h hs
  have hwfx := hwf _ _ (pyGet?_mem hx)
  refine ⟨x, hx, ?_⟩
  intro t ht l hl hpos s b hsv hbv
  have hpt : (app.hours l, value app o (o.labels.foldl atLabel x) t.name l) ∈ t.points := by
    have : (t.name, t.points) ∈ g.traces.map (fun t => (t.name, t.points)) := List.mem_map.mpr ⟨t, ht, rfl⟩
    rw [hg] at this
    obtain ⟨m, _, e⟩ := List.mem_map.mp this
    have e1 := (Prod.mk.inj e).1
    have e2 := (Prod.mk.inj e).2
    rw [← e2, ← e1]
    exact List.mem_map.mpr ⟨l, hl, rfl⟩
  have hval : o.metric ≠ "ACC" → o.metric ≠ "Spread/Skill Ratio" → b ≠ 0 → value app o (o.labels.foldl atLabel x) t.name l = .fin ((b - s) / b * 100) := by
    intro h1 h2 h3
    unfold value
    simp only [hr, if_neg h2, if_true, score_eq hwfx, hsv, hbv]
    rw [improvement_lower h1 h3]
    simp [FV.keepIf, hpos]
  refine ⟨?_, ?_⟩
  · intro hm hbs hlt
    have hb0 : b ≠ 0 := by rintro rfl; simp at hbs
    refine ⟨(b - s) / b * 100, ?_, ?_⟩
    rotate_left
    · rw [hval (by rw [hm]; decide) (by rw [hm]; decide) hb0] at hpt
      exact hpt
    · have : (b - s) / b = 1 - s / b := by field_simp
      rw [this]
      have h1 : s / b < -1 := by
        have hneg : s / b < 0 := by
          rw [div_neg_iff]
          rcases mul_neg_iff.mp hbs with ⟨h1, h2⟩ | ⟨h1, h2⟩
          · exact Or.inr ⟨h2, h1⟩
          · exact Or.inl ⟨h2, h1⟩
        have habs : 1 < |s / b| := by
          rw [abs_div, lt_div_iff₀ (abs_pos.mpr hb0), one_mul]
          exact hlt
        rw [abs_of_neg hneg] at habs
        linarith
      linarith
  · intro hm hb hs0 hs1
    refine ⟨(b - s) / b * 100, ?_, ?_⟩
    rotate_left
    · rw [hval (by rw [hm]; decide) (by rw [hm]; decide) (by rw [hb]; exact one_ne_zero)] at hpt
      exact hpt
    · rw [hb, div_one]
      linarith

/-- C84: the level menu. It can be used for every variable on pressure levels, and cannot be used for the variables without levels, (finding) except for the two components of the wind
at 10 m, for which it can be used although it has no effect (`C84_level`). -/
theorem C84_level_menu : ∀ v ∈ CombineResults.variableNames, disableLevel v.2 = false ↔
    v.1 ∈ ["geopotential", "temperature", "specific_humidity", "u_component_of_wind", "v_component_of_wind", "wind_speed", "wind_vector"] ∨
    v.1 ∈ ["10m_u_component_of_wind", "10m_v_component_of_wind"] := by decide

/-- C84 (finding): in the probabilistic graph, curves that were not in the graph before are never drawn at first, also those of the default models. -/
theorem C84_new_curves {app : AppData K} {det : Bool} {o : Choice} {p : List (String × Visible)} {g : Graph K} (h : updateGraph app det o (some p) = .ok g) :
    ∀ t ∈ g.traces, t.name ∈ CombineResults.probabilisticModels.map Prod.snd → pyGet? t.name p = none → t.visible = .legendOnly := by
  intro t ht hn hp
  have hdef : ∀ m ∈ CombineResults.probabilisticModels.map Prod.snd, defaultModels.contains m = false := by decide
  by_cases hs : g.seepsAlert = true
  · rw [(C84_seeps h).2 hs] at ht
    cases ht
  · obtain ⟨_, _, ts, _, _, _, _, _, _, hg, _, _⟩ := update_ok h (by simpa using hs)
    rw [hg] at ht
    unfold retained at ht
    obtain ⟨t', _, rfl⟩ := List.mem_map.mp ht
    rw [(retain_points p t').1] at hn hp
    unfold retainVisible
    rw [hp]
    dsimp only
    rw [hdef _ hn]
    rfl

end

/-! ### Instance -/

/-- Scores of two models: biases 1 and -10, RMSE 2 and 1, ACC 1/2 and 3/4. -/
def exScores : DA String (FV ℚ) where
  dims := {"model", "metric", "region", "level", "year", "resolution", "lead_time"}
  coords := fun d => if d = "model" then {"IFS HRES vs Analysis", "GraphCast vs ERA5"} else if d = "metric" then {"Bias", "RMSE", "ACC", "Spread/Skill Ratio"} else if d = "region" then {"Global"}
    else if d = "level" then {"500", "850"} else if d = "year" then {"2020"} else if d = "resolution" then {"240x121"} else if d = "lead_time" then {"0", "6"} else ∅
  val := fun e => if e "metric" = "Bias" then (if e "model" = "IFS HRES vs Analysis" then .fin 1 else .fin (-10))
    else if e "metric" = "RMSE" then (if e "model" = "IFS HRES vs Analysis" then .fin 2 else .fin 1) else (if e "model" = "IFS HRES vs Analysis" then .fin (1 / 2) else .fin (3 / 4))

def exApp : AppData ℚ where
  ds := [("Temperature", exScores)]
  models := ["IFS HRES vs Analysis", "GraphCast vs ERA5"]
  leads := ["0", "6"]
  hours := fun l => if l = "0" then 0 else 6

theorem exApp_wf : ∀ v x, (v, x) ∈ exApp.ds → x.WF := by
  intro v x hx
  simp only [exApp, List.mem_singleton] at hx
  rw [(Prod.mk.inj hx).2]
  intro e e' h
  have h1 := h "metric" (by decide)
  have h2 := h "model" (by decide)
  unfold exScores
  dsimp only
  rw [h1, h2]

def exChoice (metric : String) (relative : Bool) : Choice where
  var := "Temperature"
  metric := metric
  level := "850"
  region := "Global"
  year := "2020"
  resolution := "240x121"
  relative := relative
  relativeTo := "IFS HRES vs Analysis"

set_option synthInstance.maxSize 4000
set_option synthInstance.maxHeartbeats 400000

/-- What can be seen: names, points and visibility of the curves, and both alerts. -/
def Graph.view (g : Graph ℚ) : List (String × List (ℤ × FV ℚ) × Visible) × Bool × Bool := (g.traces.map (fun t => (t.name, t.points, t.visible)), g.relativeAlert, g.seepsAlert)

/-- The RMSE halved is an improvement of 50 %; nothing is shown at lead time 0. -/
example : (updateGraph exApp true (exChoice "RMSE" true) none).toOption.map Graph.view
    = some ([("IFS HRES vs Analysis", [(0, .nan), (6, .fin 0)], .unset), ("GraphCast vs ERA5", [(0, .nan), (6, .fin 50)], .unset)], false, false) := by decide +kernel

/-- The same for the ACC: from 1/2 to 3/4. -/
example : (updateGraph exApp true (exChoice "ACC" true) none).toOption.map Graph.view
    = some ([("IFS HRES vs Analysis", [(0, .nan), (6, .fin 0)], .unset), ("GraphCast vs ERA5", [(0, .nan), (6, .fin 50)], .unset)], false, false) := by decide +kernel

/-- Biases of 1 and -10: an improvement of 1100 %. -/
example : (updateGraph exApp true (exChoice "Bias" true) (some [("GraphCast vs ERA5", .legendOnly)])).toOption.map Graph.view
    = some ([("IFS HRES vs Analysis", [(0, .nan), (6, .fin 0)], .shown), ("GraphCast vs ERA5", [(0, .nan), (6, .fin 1100)], .legendOnly)], false, false) := by decide +kernel

/-- Absolute scores. -/
example : (updateGraph exApp true (exChoice "RMSE" false) none).toOption.map Graph.view
    = some ([("IFS HRES vs Analysis", [(0, .fin 2), (6, .fin 2)], .unset), ("GraphCast vs ERA5", [(0, .fin 1), (6, .fin 1)], .unset)], false, false) := by decide +kernel

/-- The ratio that would be left out at lead time 0 (`C84_ratio`), and the title of the axis (`C84_title`). -/
example : (updateGraph exApp true (exChoice "Spread/Skill Ratio" false) none).toOption.map (fun g => (g.seepsAlert, g.ylabel)) = some (false, some "Spread/Skill Ratio [K]") ∧
    (updateGraph exApp true (exChoice "RMSE" true) none).toOption.map (fun g => (g.seepsAlert, g.ylabel)) = some (false, some "% improvement relative to IFS HRES vs Analysis") := by
  decide +kernel

/-- SEEPS of a temperature. -/
example : (updateGraph exApp true (exChoice "SEEPS" false) none).toOption.map Graph.view = some ([], false, true) := by decide +kernel

end WBX.Dashboard
