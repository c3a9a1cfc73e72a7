import Verif.Props.RelabelClimatology
import Verif.Props.Deterministic

/-!
# C102: examples, and a finding about mixed conventions
-/

set_option linter.unusedSectionVars false

namespace WBX
open DA Aggregator

/-- Longitudes 180, ..., 359 become -180, ..., -1, and back. -/
def turnWest (l : ℤ) : ℤ := if 180 ≤ l ∧ l < 360 then l - 360 else if -180 ≤ l ∧ l < 0 then l + 360 else l

theorem turnWest_turnWest : Function.Involutive turnWest := by
  intro l
  unfold turnWest
  split_ifs <;> omega

/-- Other names for the longitudes only. -/
def westward (d : Dim) : Equiv.Perm ℤ := if d = "longitude" then turnWest_turnWest.toPerm else 1

theorem westward_places : SamePlaces westward (fun l : ℤ => (l : ℝ)) (fun l : ℤ => (l : ℝ)) := by
  refine ⟨fun l => by simp [westward], fun l => ?_⟩
  show ∃ n : ℤ, ((turnWest l : ℤ) : ℝ) = l + 360 * n
  unfold turnWest
  split_ifs
  · exact ⟨-1, by push_cast; ring⟩
  · exact ⟨1, by push_cast; ring⟩
  · exact ⟨0, by push_cast; ring⟩

/-- The root mean squared error of the example evaluation, with longitudes from 0 to 360 or from -180 to 180. -/
example (name : String → ℤ) (order : List ℤ) (f : Example.Flags) (p t : Vars (StatVar ℤ (FV ℝ))) :
    metricAlone rmse (Example.aggregator name order (fun l => (l : ℝ)) f) (relabelVars westward p) (relabelVars westward t) =
      (metricAlone rmse (Example.aggregator name order (fun l => (l : ℝ)) f) p t).map (relabelValues westward) := by
  have h := C102_example westward_places name order f (C102_rmse (L := ℤ)) p t
  rw [show order.map (westward "latitude") = order from by simp [westward], show (fun s => westward "region" (name s)) = name from by funext s; simp [westward]] at h
  exact h

/-- Hours since another date: all times are shifted by one (365-day) year, lead times, days of the year and hours stay. -/
def shiftYear (d : Dim) : Equiv.Perm ℤ := if d = "time" ∨ d = "valid_time" ∨ d = "init_time" then Equiv.addRight 8760 else 1

/-- Hours in years of 365 days. -/
def hourTimes : ClimTimes ℤ := ⟨fun a b => a + b, fun x => (x / 24) % 365, fun x => x % 24⟩

theorem shiftYear_times : TimesRelabel shiftYear hourTimes hourTimes := by
  refine ⟨by simp [shiftYear], fun a b => ?_, fun x => ?_, fun x => ?_⟩
  · simp [shiftYear, hourTimes]; ring
  · simp [shiftYear, hourTimes]; omega
  · simp [shiftYear, hourTimes]; omega

/-- The anomaly correlation of the same days one year later. -/
example (clims : Vars (StatVar ℤ (FV ℝ))) {agg agg' : Aggregator ℤ (FV ℝ)} (hagg : agg.Relabels shiftYear agg') (p t : Vars (StatVar ℤ (FV ℝ))) :
    metricAlone (acc (relabelVars shiftYear clims) (alignClimatology hourTimes)) agg' (relabelVars shiftYear p) (relabelVars shiftYear t) =
      (metricAlone (acc clims (alignClimatology hourTimes)) agg p t).map (relabelValues shiftYear) :=
  C102_relabel hagg (C102_climatology shiftYear_times clims).1 p t

/-- Members numbered from 1 instead of 0: the two dimensions made of the members are relabelled in the same way. -/
def fromOne (d : Dim) : Equiv.Perm ℤ := if d = "number" ∨ d = "number_PSEUDO_FOR_TARGETS" ∨ d = "ensemble_dim_2" then Equiv.addRight 1 else 1

example (fair skipna : Bool) (argsort : List (FV ℚ) → List ℕ) (order : List ℤ) :
    (crpsEnsemble argsort order "number" false fair skipna).Relabels fromOne (crpsEnsemble argsort (order.map (fromOne "number")) "number" false fair skipna) :=
  C102_crps argsort order false fair skipna (by simp [fromOne]) (by simp [fromOne])

/-- An evaluation without weights and bins, and its mean over the longitudes. -/
example : (({ reduceDims := ["longitude"] } : Aggregator ℤ (FV ℚ))).Relabels westward { reduceDims := ["longitude"] } := ⟨rfl, rfl, rfl, .nil, .nil⟩

/-! ### Mixed conventions -/

/-- Forecasts of 1 at longitude 90 and 10 at longitude 270. -/
def lonP : DA ℤ (FV ℚ) := ⟨{"longitude"}, fun _ => {90, 270}, fun e => if e "longitude" = 90 then .fin 1 else .fin 10⟩

/-- The observations are 0. -/
def lonT : DA ℤ (FV ℚ) := ⟨{"longitude"}, fun _ => {90, 270}, fun _ => .fin 0⟩

/-- Average over the longitudes. -/
def lonAgg : Aggregator ℤ (FV ℚ) := { reduceDims := ["longitude"] }

theorem lonAgg_fn (a : DA ℤ (FV ℚ)) (h : "longitude" ∈ a.dims) : lonAgg.aggregationFn a = .ok (some (sumDims ["longitude"] a)) := by
  obtain ⟨-, -, -, k⟩ := aggregationFn_eq lonAgg a
  rw [k (by simpa [lonAgg] using h) (by simp [lonAgg]) (by intro b hb; simp [lonAgg] at hb)]
  simp [lonAgg, DA.dot]

theorem lonAgg_statVar (s : StatVar ℤ (FV ℚ)) (h : "longitude" ∈ s.arr.dims) :
    lonAgg.aggregateStatVar s = .ok (some (sumDims ["longitude"] (lonAgg.applyMask s).1, sumDims ["longitude"] (lonAgg.applyMask s).2)) := by
  obtain ⟨h1, h2⟩ := Aggregator.applyMask_dims lonAgg s h
  rw [aggregateStatVar_eq, lonAgg_fn _ h1, lonAgg_fn _ h2]
  rfl

/-- **C102** (finding) Both datasets must use the same labels. If only the forecasts are relabelled (longitude -90 instead of 270), nothing fails: the evaluation silently uses only the
longitudes that both have. The bias is 11/2 with the same convention in both and 1 with mixed ones. -/
theorem C102_mixed_labels : ∃ (agg : Aggregator ℤ (FV ℚ)) (p t : Vars (StatVar ℤ (FV ℚ))) (x x' : DA ℤ (FV ℚ)) (e : Dim → ℤ),
    ValueOf errorStatistic.toMetric agg p t "v" x ∧ ValueOf errorStatistic.toMetric agg (relabelVars westward p) t "v" x' ∧ x.val e = .fin (11 / 2) ∧ x'.val e = .fin 1 := by
  have v1 := exists_value "Error" error lonAgg "v" (⟨lonP, none⟩ : StatVar ℤ (FV ℚ)) ⟨lonT, none⟩ (lonAgg_statVar _ (by simp [error, StatVar.zipWith, DA.zipWith, lonP]))
  have v2 := exists_value "Error" error lonAgg "v" ((⟨lonP, none⟩ : StatVar ℤ (FV ℚ)).relabel westward) ⟨lonT, none⟩
    (lonAgg_statVar _ (by simp [error, StatVar.zipWith, DA.zipWith, lonT]))
  refine ⟨lonAgg, [("v", ⟨lonP, none⟩)], [("v", ⟨lonT, none⟩)], _, _, fun _ => 0, v1, v2, ?_, ?_⟩
  · clear v1 v2
    simp [lonAgg, applyMask, sumDims, sumDim, DA.zipWith, DA.map, joinCoords, lonP, lonT, error, StatVar.zipWith, combineMask, setLabel, FV.one_def]
    rw [two_smul, FV.fin_add_fin, FV.fin_div_fin_of_ne _ (by norm_num)]
    norm_num
  · clear v1 v2
    have h1 : westward "longitude" 90 = 90 := by simp [westward, turnWest]
    have h2 : westward "longitude" 270 = -90 := by simp [westward, turnWest]
    have h3 : (westward "longitude").symm 90 = 90 := by rw [Equiv.symm_apply_eq, h1]
    have hc : ({90, -90} : Finset ℤ) ∩ {90, 270} = {90} := by decide
    simp [lonAgg, applyMask, sumDims, sumDim, DA.zipWith, DA.map, joinCoords, lonP, lonT, error, StatVar.zipWith, StatVar.relabel, DA.relabel, combineMask, FV.one_def, setLabel, h1, h2, h3, hc]
    rw [FV.fin_div_fin_of_ne _ (by norm_num)]
    norm_num

end WBX
