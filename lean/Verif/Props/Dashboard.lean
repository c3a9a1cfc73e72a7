import Verif.Model.Dashboard
import Verif.Spec.Array
import Verif.Props.MetricsBase
import Verif.Props.Wrappers
import Mathlib.Tactic.Linarith
import Mathlib.Tactic.FieldSimp

set_option linter.unusedSectionVars false

/-!
# C84: the graph of the public benchmark
-/

namespace WBX.Dashboard
open WBX DA

/-- The cell of the combined results that belongs to the choices in the menu, a model and a lead time. -/
def cell (o : Choice) (model lead : String) : Dim → String := fun d =>
  if d = "model" then model else if d = "lead_time" then lead else if d = "region" then o.region else if d = "metric" then o.metric
  else if d = "level" then o.level else if d = "year" then o.year else if d = "resolution" then o.resolution else ""

theorem atLabel_wf {V : Type} {a : DA String V} (ha : a.WF) (dl : Dim × String) : (atLabel a dl).WF := by
  unfold atLabel
  split_ifs with h
  · intro e e' hee
    refine ha _ _ ?_
    intro d hd
    unfold setLabel
    split_ifs with hd'
    · rfl
    · exact hee d (Finset.mem_erase.mpr ⟨hd', hd⟩)
  · exact ha

theorem atLabel_val {V : Type} {a : DA String V} (ha : a.WF) (dl : Dim × String) (e : Dim → String) : (atLabel a dl).val e = a.val (setLabel e dl.1 dl.2) := by
  unfold atLabel
  split_ifs with h
  · rfl
  · refine ha _ _ ?_
    intro d hd
    unfold setLabel
    rw [if_neg]
    rintro rfl
    exact h hd

theorem foldl_val {V : Type} (ls : List (Dim × String)) : ∀ {a : DA String V}, a.WF → ∀ e : Dim → String,
    (ls.foldl atLabel a).val e = a.val (fun d => (pyGet? d ls).getD (e d)) := by
  induction ls with
  | nil => intro a _ e; rfl
  | cons dl ls ih =>
    intro a ha e
    rw [List.foldl_cons, ih (atLabel_wf ha dl), atLabel_val ha]
    congr 1
    funext d
    unfold setLabel
    simp only [pyGet?]
    by_cases h : dl.1 = d
    · rw [if_pos h.symm, if_pos h]; rfl
    · rw [if_neg (fun h' => h h'.symm), if_neg h]

theorem foldl_coords {V : Type} (ls : List (Dim × String)) : ∀ a : DA String V, (ls.foldl atLabel a).coords = a.coords := by
  induction ls with
  | nil => intro a; rfl
  | cons dl ls ih =>
    intro a
    rw [List.foldl_cons, ih]
    unfold atLabel
    split_ifs <;> rfl

section
variable {K : Type} [Field K] [LinearOrder K] [IsStrictOrderedRing K]

theorem score_eq {x : DA String (FV K)} (hx : x.WF) (o : Choice) (m l : String) : score (o.labels.foldl atLabel x) m l = x.val (cell o m l) := by
  unfold score
  rw [foldl_val _ hx]
  congr 1
  funext d
  unfold Choice.labels cell setLabel
  simp only [pyGet?]
  by_cases h1 : d = "model"
  · subst h1; rfl
  by_cases h2 : d = "lead_time"
  · subst h2; rfl
  by_cases h3 : d = "region"
  · subst h3; rfl
  by_cases h4 : d = "metric"
  · subst h4; rfl
  by_cases h5 : d = "level"
  · subst h5; rfl
  by_cases h6 : d = "year"
  · subst h6; rfl
  by_cases h7 : d = "resolution"
  · subst h7; rfl
  simp only [if_neg h1, if_neg h2, if_neg h3, if_neg h4, if_neg h5, if_neg h6, if_neg h7, if_neg (fun h => h3 (Eq.symm h)), if_neg (fun h => h4 (Eq.symm h)), if_neg (fun h => h5 (Eq.symm h)),
    if_neg (fun h => h6 (Eq.symm h)), if_neg (fun h => h7 (Eq.symm h)), Option.getD_none]

theorem selection_ok {app : AppData K} {o : Choice} {y : DA String (FV K)} (h : selection app o = .ok y) :
    ∃ x, pyGet? o.var app.ds = some x ∧ y = o.labels.foldl atLabel x := by
  unfold selection at h
  split_ifs at h
  obtain ⟨x, hx, h⟩ := bind_ok_iff.mp h
  refine ⟨x, ?_, (Except.ok.inj h).symm⟩
  unfold pyItem at hx
  cases hg : pyGet? o.var app.ds with
  | none => rw [hg] at hx; cases hx
  | some v => rw [hg] at hx; rw [Except.ok.inj hx]

/-- Everything that a successful update without SEEPS alert has done. -/
theorem update_ok {app : AppData K} {det : Bool} {o : Choice} {prev : Option (List (String × Visible))} {g : Graph K} (h : updateGraph app det o prev = .ok g) (hs : g.seepsAlert = false) :
    seepsAlert o = false ∧ ∃ x ts label, pyGet? o.var app.ds = some x ∧ selection app o = .ok (o.labels.foldl atLabel x) ∧ checkBaseline (o.labels.foldl atLabel x) o = .ok () ∧
      app.models.mapM (trace app det o (o.labels.foldl atLabel x)) = .ok ts ∧ yLabel o = .ok label ∧
      g.traces = retained prev (ts.filterMap id) ∧
      g.ylabel = some label ∧ g.relativeAlert = (o.relative && allMissing app (o.labels.foldl atLabel x) o.relativeTo) := by
  unfold updateGraph at h
  by_cases hb : seepsAlert o = true
  · rw [if_pos hb] at h
    rw [← Except.ok.inj h] at hs
    cases hs
  · rw [if_neg hb] at h
    refine ⟨by simpa using hb, ?_⟩
    obtain ⟨y, hy, h⟩ := bind_ok_iff.mp h
    obtain ⟨x, hx, rfl⟩ := selection_ok hy
    obtain ⟨_, hc, h⟩ := bind_ok_iff.mp h
    obtain ⟨ts, ht, h⟩ := bind_ok_iff.mp h
    obtain ⟨label, hl, h⟩ := bind_ok_iff.mp h
    have hg := Except.ok.inj h
    refine ⟨x, ts, label, hx, hy, hc, ht, hl, ?_, ?_, ?_⟩ <;> rw [← hg]

theorem traces_of {app : AppData K} {det : Bool} {o : Choice} {x : DA String (FV K)} {models : List String} {ts : List (Option (Trace K))}
    (h : models.mapM (trace app det o x) = .ok ts) :
    ts.filterMap id = (models.filter (fun m => app.leads.any (fun l => (value app o x m l).isFin))).map
      (fun m => ({ name := m, points := app.leads.map (fun l => (app.hours l, value app o x m l)), visible := defaultVisible det o.var m } : Trace K)) := by
  induction models generalizing ts with
  | nil => cases h; rfl
  | cons m models ih =>
    rw [List.mapM_cons] at h
    obtain ⟨t, ht, h⟩ := bind_ok_iff.mp h
    obtain ⟨ts', hts, h⟩ := bind_ok_iff.mp h
    rw [← Except.ok.inj h, List.filterMap_cons, List.filter_cons]
    unfold trace at ht
    split_ifs at ht with h1 h2
    · rw [← Except.ok.inj ht, if_pos h1, List.map_cons, ← ih hts]; rfl
    · rw [← Except.ok.inj ht, if_neg h1, ← ih hts]; rfl

theorem retain_points (p : List (String × Visible)) (t : Trace K) : (retainVisible p t).name = t.name ∧ (retainVisible p t).points = t.points := by
  unfold retainVisible
  split <;> exact ⟨rfl, rfl⟩

/-- The curves, with the values as computed. -/
theorem curves {app : AppData K} {det : Bool} {o : Choice} {prev : Option (List (String × Visible))} {g : Graph K} (h : updateGraph app det o prev = .ok g) (hs : g.seepsAlert = false) :
    ∃ x, pyGet? o.var app.ds = some x ∧ g.traces.map (fun t => (t.name, t.points)) =
      (app.models.filter (fun m => app.leads.any (fun l => (value app o (o.labels.foldl atLabel x) m l).isFin))).map
        (fun m => (m, app.leads.map (fun l => (app.hours l, value app o (o.labels.foldl atLabel x) m l)))) := by
  obtain ⟨_, x, ts, label, hx, _, _, ht, _, hg, _, _⟩ := update_ok h hs
  refine ⟨x, hx, ?_⟩
  have hd := traces_of ht
  have hname : g.traces.map (fun t => (t.name, t.points)) = (ts.filterMap id).map (fun t => (t.name, t.points)) := by
    rw [hg]
    cases prev with
    | none => rfl
    | some p =>
      unfold retained
      dsimp only
      rw [List.map_map]
      refine List.map_congr_left ?_
      intro t _
      simp only [Function.comp_apply, (retain_points p t).1, (retain_points p t).2]
  rw [hname, hd, List.map_map]
  rfl

/-- C84: absolute scores. The graph has a curve for exactly the models with a finite score, in order, and the curve shows for every lead time the score of the combined results for the
choices in the menu. -/
theorem C84_absolute {app : AppData K} (hwf : ∀ v x, (v, x) ∈ app.ds → x.WF) {det : Bool} {o : Choice} {prev : Option (List (String × Visible))} {g : Graph K}
    (h : updateGraph app det o prev = .ok g) (hs : g.seepsAlert = false) (hr : o.relative = false) (hm : o.metric ≠ "Spread/Skill Ratio") :
    ∃ x, pyGet? o.var app.ds = some x ∧ g.traces.map (fun t => (t.name, t.points)) =
      (app.models.filter (fun m => app.leads.any (fun l => (x.val (cell o m l)).isFin))).map (fun m => (m, app.leads.map (fun l => (app.hours l, x.val (cell o m l))))) := by
  obtain ⟨x, hx, hg⟩ := curves h hs
  have hv : ∀ m l, value app o (o.labels.foldl atLabel x) m l = x.val (cell o m l) := by
    intro m l
    unfold value
    simp only [hr, if_neg hm, Bool.false_eq_true, if_false]
    exact score_eq (hwf _ _ (pyGet?_mem hx)) o m l
  refine ⟨x, hx, ?_⟩
  simp only [hv] at hg
  exact hg

/-- C84: the spread-skill ratio. As for the other scores, except that nothing is shown at lead time 0, where the spread and the error of a forecast are those of its initial state. -/
theorem C84_ratio {app : AppData K} (hwf : ∀ v x, (v, x) ∈ app.ds → x.WF) {det : Bool} {o : Choice} {prev : Option (List (String × Visible))} {g : Graph K}
    (h : updateGraph app det o prev = .ok g) (hs : g.seepsAlert = false) (hr : o.relative = false) (hm : o.metric = "Spread/Skill Ratio") :
    ∃ x, pyGet? o.var app.ds = some x ∧ ∃ y : String → String → FV K,
      g.traces.map (fun t => (t.name, t.points)) = (app.models.filter (fun m => app.leads.any (fun l => (y m l).isFin))).map (fun m => (m, app.leads.map (fun l => (app.hours l, y m l)))) ∧
      ∀ m l, (app.hours l ≤ 0 → y m l = .nan) ∧ (0 < app.hours l → y m l = x.val (cell o m l)) := by
  obtain ⟨x, hx, hg⟩ := curves h hs
  refine ⟨x, hx, fun m l => value app o (o.labels.foldl atLabel x) m l, hg, ?_⟩
  intro m l
  have hv : value app o (o.labels.foldl atLabel x) m l = FV.keepIf (x.val (cell o m l)) (decide (0 < app.hours l)) := by
    unfold value
    simp only [hr, if_pos hm, Bool.false_eq_true, if_false]
    rw [score_eq (hwf _ _ (pyGet?_mem hx)) o m l]
  refine ⟨?_, ?_⟩
  · intro hl
    show value app o _ m l = _
    rw [hv, decide_eq_false (not_lt.mpr hl)]
    rfl
  · intro hl
    show value app o _ m l = _
    rw [hv, decide_eq_true hl]
    rfl

/-- C84: the title of the axis says what is shown: for a comparison the model compared to, for ACC its name, otherwise the metric and the unit that the table has for the variable. -/
theorem C84_title {app : AppData K} {det : Bool} {o : Choice} {prev : Option (List (String × Visible))} {g : Graph K} (h : updateGraph app det o prev = .ok g) (hs : g.seepsAlert = false) :
    (o.relative = true → g.ylabel = some ("% improvement relative to " ++ o.relativeTo)) ∧
    (o.relative = false → o.metric = "ACC" → g.ylabel = some "ACC") ∧
    (o.relative = false → o.metric ≠ "ACC" → ∃ u, (o.var, u) ∈ units ∧
      g.ylabel = some ((if o.metric = "rms_bias" then "RMS Bias" else o.metric) ++ " [" ++ u ++ "]")) := by
  obtain ⟨_, x, ts, label, _, _, _, _, hl, _, hy, _⟩ := update_ok h hs
  rw [hy]
  unfold yLabel at hl
  refine ⟨?_, ?_, ?_⟩
  · intro hr
    rw [if_pos hr] at hl
    rw [← Except.ok.inj hl]
  · intro hr hm
    rw [if_neg (by rw [hr]; decide), if_pos hm] at hl
    rw [← Except.ok.inj hl]
  · intro hr hm
    rw [if_neg (by rw [hr]; decide), if_neg hm] at hl
    obtain ⟨u, hu, hl⟩ := bind_ok_iff.mp hl
    refine ⟨u, pyItem_mem hu, ?_⟩
    rw [← Except.ok.inj hl]
    by_cases hb : o.metric = "rms_bias"
    · rw [if_pos hb, if_pos hb]; rfl
    · rw [if_neg hb, if_neg hb]

theorem improvement_lower {metric : String} (hm : metric ≠ "ACC") {s b : K} (hb : b ≠ 0) : improvement metric (FV.fin s) (FV.fin b) = FV.fin ((b - s) / b * 100) := by
  unfold improvement
  rw [if_neg hm, FV.fin_sub_fin, FV.fin_div_fin_of_ne _ hb]
  show FV.fin ((s - b) / b * -100) = _
  congr 1
  field_simp
  ring

theorem improvement_acc {s b : K} (hb : b ≠ 1) : improvement "ACC" (FV.fin s) (FV.fin b) = FV.fin ((s - b) / (1 - b) * 100) := by
  unfold improvement
  rw [if_pos rfl, FV.fin_sub_fin, FV.one_def, FV.fin_sub_fin, FV.fin_div_fin_of_ne _ (sub_ne_zero.mpr hb.symm)]
  rfl

theorem improvement_nan (metric : String) {s b : FV K} (h : s = .nan ∨ b = .nan) : improvement metric s b = .nan := by
  have hd : s - b = .nan := by
    show s + -b = .nan
    rcases h with rfl | rfl
    · exact FV.nan_add _
    · exact FV.add_nan _
  unfold improvement
  rw [hd]
  split_ifs
  · cases (1 - b : FV K) <;> rfl
  · cases b <;> rfl

/-- C84: compared to a model. A curve shows nothing at lead time 0; at a later lead time at which the model has the score `s` and the model compared to the score `b`, it shows the
improvement in percent: for the metrics that are better if smaller (with a positive `b`) `100 (b - s) / b`, which is positive exactly if `s` is smaller, 0 exactly if the scores are equal
and 100 exactly for a perfect score; for ACC (with `b` below 1) `100 (s - b) / (1 - b)`, which is positive exactly if `s` is greater, 0 exactly if the scores are equal, 100 exactly for a
perfect score. Where one of the two scores is missing it shows nothing. -/
theorem C84_relative {app : AppData K} (hwf : ∀ v x, (v, x) ∈ app.ds → x.WF) {det : Bool} {o : Choice} {prev : Option (List (String × Visible))} {g : Graph K}
    (h : updateGraph app det o prev = .ok g) (hs : g.seepsAlert = false) (hr : o.relative = true) (hm : o.metric ≠ "Spread/Skill Ratio") :
    ∃ x, pyGet? o.var app.ds = some x ∧ o.relativeTo ∈ x.coords "model" ∧ ∃ y : String → String → FV K,
      g.traces.map (fun t => (t.name, t.points)) = (app.models.filter (fun m => app.leads.any (fun l => (y m l).isFin))).map (fun m => (m, app.leads.map (fun l => (app.hours l, y m l)))) ∧
      ∀ m l, (app.hours l ≤ 0 → y m l = .nan) ∧ (x.val (cell o m l) = .nan ∨ x.val (cell o o.relativeTo l) = .nan → y m l = .nan) ∧
        ∀ s b, 0 < app.hours l → x.val (cell o m l) = .fin s → x.val (cell o o.relativeTo l) = .fin b →
          (o.metric ≠ "ACC" → 0 < b → ∃ v, y m l = .fin v ∧ v = 100 * (b - s) / b ∧ (0 < v ↔ s < b) ∧ (v = 0 ↔ s = b) ∧ (v = 100 ↔ s = 0)) ∧
          (o.metric = "ACC" → b < 1 → ∃ v, y m l = .fin v ∧ v = 100 * (s - b) / (1 - b) ∧ (0 < v ↔ b < s) ∧ (v = 0 ↔ s = b) ∧ (v = 100 ↔ s = 1)) := by
  obtain ⟨x, hx, hg⟩ := curves h hs
  have hwfx := hwf _ _ (pyGet?_mem hx)
  have hbase : o.relativeTo ∈ x.coords "model" := by
    obtain ⟨_, x', _, _, hx', _, hc, _⟩ := update_ok h hs
    rw [hx] at hx'
    cases hx'
    unfold checkBaseline at hc
    split_ifs at hc with hif
    rw [hr, foldl_coords] at hif
    simpa using hif
  have hv : ∀ m l, value app o (o.labels.foldl atLabel x) m l = FV.keepIf (improvement o.metric (x.val (cell o m l)) (x.val (cell o o.relativeTo l))) (decide (0 < app.hours l)) := by
    intro m l
    unfold value
    simp only [hr, if_neg hm, if_true, score_eq hwfx]
  refine ⟨x, hx, hbase, fun m l => value app o (o.labels.foldl atLabel x) m l, hg, ?_⟩
  intro m l
  dsimp only
  rw [hv]
  refine ⟨?_, ?_, ?_⟩
  · intro hl
    simp [FV.keepIf, not_lt.mpr hl]
  · intro hn
    rw [improvement_nan _ hn]
    simp [FV.keepIf]
  · intro s b hl hsv hbv
    rw [hsv, hbv]
    have hk : ∀ z : FV K, FV.keepIf z (decide (0 < app.hours l)) = z := by
      intro z; simp [FV.keepIf, hl]
    rw [hk]
    refine ⟨?_, ?_⟩
    · intro hacc hb
      refine ⟨_, improvement_lower hacc hb.ne', by ring, ?_, ?_, ?_⟩
      · rw [mul_pos_iff_of_pos_right (by norm_num : (0 : K) < 100), div_pos_iff_of_pos_right hb, sub_pos]
      · rw [mul_eq_zero, or_iff_left (by norm_num : (100 : K) ≠ 0), div_eq_zero_iff, or_iff_left hb.ne', sub_eq_zero, eq_comm]
      · constructor
        · intro hv
          have : (b - s) / b = 1 := by linarith
          rw [div_eq_one_iff_eq hb.ne'] at this
          linarith
        · rintro rfl
          rw [sub_zero, div_self hb.ne', one_mul]
    · intro hacc hb
      rw [hacc]
      have hb' : 0 < 1 - b := by linarith
      refine ⟨_, improvement_acc hb.ne, by ring, ?_, ?_, ?_⟩
      · rw [mul_pos_iff_of_pos_right (by norm_num : (0 : K) < 100), div_pos_iff_of_pos_right hb', sub_pos]
      · rw [mul_eq_zero, or_iff_left (by norm_num : (100 : K) ≠ 0), div_eq_zero_iff, or_iff_left hb'.ne', sub_eq_zero]
      · constructor
        · intro hv
          have : (s - b) / (1 - b) = 1 := by linarith
          rw [div_eq_one_iff_eq hb'.ne'] at this
          linarith
        · rintro rfl
          rw [div_self hb'.ne', one_mul]

/-- C84: the alert. It is raised exactly if a comparison is asked for and the model compared to has no value at any lead time; then there is no curve. -/
theorem C84_alert {app : AppData K} (hwf : ∀ v x, (v, x) ∈ app.ds → x.WF) {det : Bool} {o : Choice} {prev : Option (List (String × Visible))} {g : Graph K}
    (h : updateGraph app det o prev = .ok g) (hs : g.seepsAlert = false) :
    ∃ x, pyGet? o.var app.ds = some x ∧ (g.relativeAlert = true ↔ o.relative = true ∧ app.leads ≠ [] ∧ ∀ l ∈ app.leads, x.val (cell o o.relativeTo l) = .nan) ∧
      (g.relativeAlert = true → g.traces = []) := by
  obtain ⟨x, hx, hg⟩ := curves h hs
  have hwfx := hwf _ _ (pyGet?_mem hx)
  obtain ⟨_, x', _, _, hx', _, _, _, _, _, _, ha⟩ := update_ok h hs
  rw [hx] at hx'
  cases hx'
  have hnan : ∀ v : FV K, v.isnan = true ↔ v = .nan := by intro v; cases v <;> simp [FV.isnan]
  have hiff : g.relativeAlert = true ↔ o.relative = true ∧ app.leads ≠ [] ∧ ∀ l ∈ app.leads, x.val (cell o o.relativeTo l) = .nan := by
    rw [ha]
    unfold allMissing
    simp only [Bool.and_eq_true, List.all_eq_true, hnan, score_eq hwfx, Bool.not_eq_true', List.isEmpty_eq_false_iff]
  refine ⟨x, hx, hiff, ?_⟩
  intro hal
  obtain ⟨hr, _, hall⟩ := hiff.mp hal
  have hempty : (app.models.filter (fun m => app.leads.any (fun l => (value app o (o.labels.foldl atLabel x) m l).isFin))) = [] := by
    rw [List.filter_eq_nil_iff]
    intro m _
    rw [List.any_eq_true]
    rintro ⟨l, hl, hfin⟩
    unfold value at hfin
    simp only [hr, if_true, score_eq hwfx, improvement_nan _ (Or.inr (hall l hl))] at hfin
    have hk : ∀ c : Bool, FV.keepIf (FV.nan : FV K) c = .nan := by intro c; cases c <;> rfl
    rw [hk, hk] at hfin
    split_ifs at hfin <;> cases hfin
  rw [hempty, List.map_nil, List.map_eq_nil_iff] at hg
  exact hg

/-- C84: SEEPS is only shown for precipitation, and not compared to a model that was evaluated against analyses: otherwise there is an alert and no curve. -/
theorem C84_seeps {app : AppData K} {det : Bool} {o : Choice} {prev : Option (List (String × Visible))} {g : Graph K} (h : updateGraph app det o prev = .ok g) :
    (g.seepsAlert = true ↔ o.metric = "SEEPS" ∧ (o.var ∉ ["24h Precipitation", "6h Precipitation"] ∨ o.relative = true ∧ ∃ a b, o.relativeTo = a ++ "vs Analysis" ++ b)) ∧
    (g.seepsAlert = true → g.traces = []) := by
  have hvs : vsAnalysis o.relativeTo = true ↔ ∃ a b, o.relativeTo = a ++ "vs Analysis" ++ b := by
    unfold vsAnalysis
    rw [decide_eq_true_iff]
    constructor
    · rintro ⟨a, b, hab⟩
      refine ⟨String.ofList a, String.ofList b, String.toList_inj.mp ?_⟩
      have ha : (String.ofList a).toList = a := String.toList_ofList
      have hb : (String.ofList b).toList = b := String.toList_ofList
      rw [String.toList_append, String.toList_append, ha, hb]
      exact hab.symm
    · rintro ⟨a, b, hab⟩
      exact ⟨a.toList, b.toList, by rw [hab, String.toList_append, String.toList_append]⟩
  have hal : g.seepsAlert = seepsAlert o ∧ (seepsAlert o = true → g.traces = []) := by
    unfold updateGraph at h
    by_cases hb : seepsAlert o = true
    · rw [if_pos hb] at h
      rw [← Except.ok.inj h]
      exact ⟨hb.symm, fun _ => rfl⟩
    · rw [if_neg hb] at h
      obtain ⟨y, _, h⟩ := bind_ok_iff.mp h
      obtain ⟨_, _, h⟩ := bind_ok_iff.mp h
      obtain ⟨_, _, h⟩ := bind_ok_iff.mp h
      obtain ⟨_, _, h⟩ := bind_ok_iff.mp h
      rw [← Except.ok.inj h]
      exact ⟨by simpa using hb, fun h' => absurd h' hb⟩
  rw [hal.1]
  refine ⟨?_, hal.2⟩
  unfold seepsAlert
  rw [Bool.and_eq_true, Bool.or_eq_true, Bool.and_eq_true, hvs, beq_iff_eq, Bool.not_eq_true', ← Bool.not_eq_true, List.contains_iff_mem]

/-- C84: nothing is missing in the tables: for every variable and every model of the combined results the graph can be drawn. -/
theorem C84_drawn {app : AppData K} (hmodels : ∀ m ∈ app.models, m ∈ (CombineResults.deterministicModels ++ CombineResults.probabilisticModels).map Prod.snd) (det : Bool) {o : Choice}
    {x : DA String (FV K)} (hx : pyGet? o.var app.ds = some x) (hvar : o.var ∈ CombineResults.variableNames.map Prod.snd)
    (hlabels : ∀ dl ∈ o.labels, dl.2 ∈ CombineResults.labelsOf app.ds dl.1) (hbase : o.relative = true → o.relativeTo ∈ x.coords "model") (prev : Option (List (String × Visible))) :
    ∃ g, updateGraph app det o prev = .ok g := by
  have hcs : ∀ m ∈ (CombineResults.deterministicModels ++ CombineResults.probabilisticModels).map Prod.snd, m ∈ colorModels ∧ m ∈ symbolModels := by decide
  have hunits : ∀ v ∈ CombineResults.variableNames.map Prod.snd, (pyGet? v units).isSome := by decide
  unfold updateGraph
  by_cases hb : seepsAlert o = true
  · rw [if_pos hb]; exact ⟨_, rfl⟩
  · rw [if_neg hb]
    have hsel : selection app o = .ok (o.labels.foldl atLabel x) := by
      unfold selection
      rw [if_neg]
      · unfold pyItem; rw [hx]; rfl
      · rw [List.any_eq_true]
        rintro ⟨dl, hdl, hn⟩
        exact absurd (hlabels dl hdl) (by simpa using hn)
    have hc : checkBaseline (o.labels.foldl atLabel x) o = .ok () := by
      unfold checkBaseline
      rw [if_neg]
      rw [foldl_coords, Bool.and_eq_true]
      rintro ⟨hr, hn⟩
      exact absurd (hbase hr) (by simpa using hn)
    obtain ⟨ts, hts⟩ : ∃ ts, app.models.mapM (trace app det o (o.labels.foldl atLabel x)) = .ok ts := by
      refine mapM_ok_of_mem _ _ ?_
      intro m hm
      unfold trace
      split_ifs with h1 h2
      · exact ⟨_, rfl⟩
      · exact absurd (hcs m (hmodels m hm)) h2
      · exact ⟨_, rfl⟩
    obtain ⟨label, hl⟩ : ∃ label, yLabel o = .ok label := by
      unfold yLabel
      split_ifs
      · exact ⟨_, rfl⟩
      · exact ⟨_, rfl⟩
      all_goals
        obtain ⟨u, hu⟩ := Option.isSome_iff_exists.mp (hunits _ hvar)
        unfold pyItem
        rw [hu]
        exact ⟨_, rfl⟩
    refine ⟨{ traces := retained prev (ts.filterMap id), ylabel := some label, relativeAlert := o.relative && allMissing app (o.labels.foldl atLabel x) o.relativeTo, seepsAlert := false }, ?_⟩
    exact bind_ok_iff.mpr ⟨_, hsel, bind_ok_iff.mpr ⟨(), hc, bind_ok_iff.mpr ⟨ts, hts, bind_ok_iff.mpr ⟨label, hl, rfl⟩⟩⟩⟩

/-- C84: the level has no effect for a variable without levels. -/
theorem C84_level {app : AppData K} {det : Bool} {o : Choice} {prev : Option (List (String × Visible))} {x : DA String (FV K)} (hx : pyGet? o.var app.ds = some x) (hl : "level" ∉ x.dims)
    (h1 : o.level ∈ CombineResults.labelsOf app.ds "level") {level : String} (h2 : level ∈ CombineResults.labelsOf app.ds "level") :
    updateGraph app det { o with level := level } prev = updateGraph app det o prev := by
  have herase : ∀ (a : DA String (FV K)) dl, "level" ∉ a.dims → "level" ∉ (atLabel a dl).dims := by
    intro a dl ha
    unfold atLabel
    split_ifs
    · intro h; exact ha (Finset.mem_of_mem_erase h)
    · exact ha
  have hfold : ∀ l, (({ o with level := l } : Choice).labels.foldl atLabel x) = ([("region", o.region), ("metric", o.metric), ("year", o.year), ("resolution", o.resolution)] : List (Dim × String)).foldl atLabel x := by
    intro l
    simp only [Choice.labels, List.foldl_cons, List.foldl_nil]
    congr 2
    unfold atLabel
    rw [if_neg]
    exact herase _ _ (herase _ _ hl)
  have hsel : ∀ l, l ∈ CombineResults.labelsOf app.ds "level" → selection app { o with level := l } =
      (if ([("region", o.region), ("metric", o.metric), ("year", o.year), ("resolution", o.resolution)] : List (Dim × String)).any (fun dl => decide (dl.2 ∉ CombineResults.labelsOf app.ds dl.1)) then .error .keyError
        else .ok (([("region", o.region), ("metric", o.metric), ("year", o.year), ("resolution", o.resolution)] : List (Dim × String)).foldl atLabel x)) := by
    intro l hlm
    unfold selection
    have : ({ o with level := l } : Choice).labels.any (fun dl => decide (dl.2 ∉ CombineResults.labelsOf app.ds dl.1)) =
        ([("region", o.region), ("metric", o.metric), ("year", o.year), ("resolution", o.resolution)] : List (Dim × String)).any (fun dl => decide (dl.2 ∉ CombineResults.labelsOf app.ds dl.1)) := by
      simp only [Choice.labels, List.any_cons, List.any_nil]
      have : decide (l ∉ CombineResults.labelsOf app.ds "level") = false := by simpa using hlm
      rw [this]
      simp
    rw [this]
    unfold pyItem
    simp only [hx]
    split_ifs
    · rfl
    · exact congrArg Except.ok (hfold l)
  have e1 := hsel level h2
  have e2 : selection app o = _ := hsel o.level h1
  unfold updateGraph
  rw [e1, ← e2]
  rfl

/-- C84: a curve that was in the graph before stays drawn or hidden as it was. -/
theorem C84_visibility {app : AppData K} {det : Bool} {o : Choice} {p : List (String × Visible)} {g : Graph K} (h : updateGraph app det o (some p) = .ok g) :
    ∀ t ∈ g.traces, ∀ v, pyGet? t.name p = some v → (t.visible = .legendOnly ↔ v = .legendOnly) := by
  intro t ht v hv
  by_cases hs : g.seepsAlert = true
  · rw [(C84_seeps h).2 hs] at ht
    cases ht
  · obtain ⟨_, _, ts, _, _, _, _, _, _, hg, _, _⟩ := update_ok h (by simpa using hs)
    rw [hg] at ht
    unfold retained at ht
    obtain ⟨t', _, rfl⟩ := List.mem_map.mp ht
    rw [(retain_points p t').1] at hv
    unfold retainVisible
    rw [hv]
    cases v <;> simp

end
end WBX.Dashboard
