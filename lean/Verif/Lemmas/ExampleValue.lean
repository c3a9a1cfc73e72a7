import Verif.Lemmas.ExampleStatistic
import Mathlib.Algebra.BigOperators.Field

set_option linter.unusedSectionVars false

/-!
# The example evaluation: the aggregated squared errors are the means over the regions
-/

namespace WBX
namespace Example
open DA
variable {L : Type} [LinearOrder L] [Add L]
variable {is ts order south : List L} {degrees : L → ℝ} {C : Dim → Finset L} {data : List (String × (DA L (FV ℝ) × DA L (FV ℝ)))}

theorem cellAt_init (e : Dim → L) (i la lo : L) : cellAt e i la lo "init_time" = i := rfl
theorem cellAt_lat (e : Dim → L) (i la lo : L) : cellAt e i la lo "latitude" = la := rfl
theorem cellAt_lon (e : Dim → L) (i la lo : L) : cellAt e i la lo "longitude" = lo := rfl
theorem cellAt_other (e : Dim → L) (i la lo : L) {d : Dim} (h : d ∉ ["init_time", "latitude", "longitude"]) : cellAt e i la lo d = e d := by
  simp only [List.mem_cons, List.not_mem_nil, or_false, not_or] at h
  simp [cellAt, h.1, h.2.1, h.2.2]

open Classical in
/-- The cells that are averaged. -/
noncomputable def cellsOf (is south : List L) (lons : Finset L) (e : Dim → L) : Finset (Dim → L) :=
  (is.toFinset ×ˢ south.toFinset ×ˢ lons).image (fun t => cellAt e t.1 t.2.1 t.2.2)

theorem sum_cellsOf (lons : Finset L) (e : Dim → L) (f : (Dim → L) → ℝ) :
    ∑ e' ∈ cellsOf is south lons e, f e' = ∑ i ∈ is.toFinset, ∑ la ∈ south.toFinset, ∑ lo ∈ lons, f (cellAt e i la lo) := by
  unfold cellsOf
  classical
  rw [Finset.sum_image, Finset.sum_product]
  · refine Finset.sum_congr rfl (fun i _ => ?_)
    rw [Finset.sum_product]
  · intro x _ y _ h
    have h1 := congrFun h "init_time"
    have h2 := congrFun h "latitude"
    have h3 := congrFun h "longitude"
    simp only [cellAt_init, cellAt_lat, cellAt_lon] at h1 h2 h3
    exact Prod.ext h1 (Prod.ext h2 h3)

theorem ResultCell.known {name : String → L} {F : DA L (FV ℝ)} {s n : ℝ} {e : Dim → L} (h : ResultCell name ts C F s n e) : (e "region", ((s, n), ((0 : ℝ), (360 : ℝ)))) ∈ regions name := by
  rcases h.region with ⟨h1, rfl, rfl⟩ | ⟨h1, rfl, rfl⟩ <;> rw [h1] <;> simp [regions]

theorem statistic_cell (h : Data is ts order south degrees C data) {v : String} {F O : DA L (FV ℝ)} (hv : (v, (F, O)) ∈ data) {name : String → L} {s n : ℝ}
    {e : Dim → L} (he : ResultCell name ts C F s n e) {i la lo : L} (hi : i ∈ is) (hla : la ∈ south) (hlo : lo ∈ C "longitude") :
    (statisticOf is ts F O).arr.val (cellAt e i la lo) = FV.fin (squaredErrorAt F O e i la lo) := by
  obtain ⟨h1, h2⟩ := h.finite v F O hv (cellAt e i la lo) (by rw [cellAt_init]; exact hi) (by rw [cellAt_other _ _ _ _ (by decide)]; exact he.lead) (by
    intro d hd hd1 hd2
    by_cases hd3 : d = "latitude"
    · subst hd3
      rw [cellAt_lat, h.grid.1]
      exact List.mem_toFinset.mpr hla
    by_cases hd4 : d = "longitude"
    · subst hd4
      rw [cellAt_lon]
      exact hlo
    · rw [cellAt_other _ _ _ _ (by simp [hd1, hd3, hd4])]
      exact he.other d hd (by simp [hd1, hd2, hd3, hd4]))
  rw [cellAt_init, cellAt_other (d := "lead_time") _ _ _ _ (by decide)] at h2
  have hval : (statisticOf is ts F O).arr.val (cellAt e i la lo) = (F.val (cellAt e i la lo) - O.val (setLabel (cellAt e i la lo) "valid_time" (i + e "lead_time"))).sq := rfl
  rw [hval]
  unfold squaredErrorAt
  revert h1 h2
  cases F.val (cellAt e i la lo) with
  | fin x =>
    cases O.val (setLabel (cellAt e i la lo) "valid_time" (i + e "lead_time")) with
    | fin y =>
      intro _ _
      rw [FV.fin_sub_fin]
      simp [FV.sq, FV.num, pow_two]
    | nan => intro _ h; cases h
    | inf b => intro _ h; cases h
  | nan => intro h; cases h
  | inf b => intro h; cases h

theorem evaluated_cells {name : String → L} (hname : name "global" ≠ name "northern-hemisphere") (h : Data is ts order south degrees C data) {v : String} {F O : DA L (FV ℝ)}
    (hv : (v, (F, O)) ∈ data) {s n : ℝ} {e : Dim → L} (he : ResultCell name ts C F s n e) :
    Evaluated (defaultAgg name order degrees) (statisticOf is ts F O) e (cellsOf is south (C "longitude") e) := by
  obtain ⟨extra, hs, hm, hF⟩ := statistic_shaped h hv
  have hlat : "latitude" ∈ (statisticOf is ts F O).arr.dims := (hs.mem_iff _).mpr (by simp)
  have hlon : "longitude" ∈ (statisticOf is ts F O).arr.dims := (hs.mem_iff _).mpr (by simp)
  have clat := hs.other _ hlat (by decide) (by decide)
  have clon := hs.other _ hlon (by decide) (by decide)
  obtain ⟨m, hm', hmd, hmr, hmla, hmlo, hfin, -⟩ := regions_mask name hname degrees (statisticOf is ts F O).arr
  obtain ⟨c, -, hwd, hwc, hwf, -⟩ := grid_weights h.order h.latitudes hlat
  have hfac : (defaultAgg name order degrees).allFactors (statisticOf is ts F O).arr = [gridWeights order degrees (statisticOf is ts F O).arr, m] := by
    rw [← hm']
    rfl
  refine ⟨defaultAgg_coordOnly _ _ _, ?_, ?_, ?_, ?_, ?_⟩
  · rw [hfac]
    intro m' hm2 d hd hd2
    simp only [List.mem_cons, List.not_mem_nil, or_false] at hm2
    rcases hm2 with rfl | rfl
    · rw [hwd, Finset.mem_singleton] at hd
      subst hd
      rw [hwc, clat, h.grid.1]
    · rw [hmd] at hd
      simp only [Finset.mem_insert, Finset.mem_singleton] at hd
      rcases hd with rfl | rfl | rfl
      · exfalso
        rw [hs.mem_iff] at hd2
        rcases hd2 with hh | hh | hh | hh | hh
        · exact absurd hh (by decide)
        · exact absurd hh (by decide)
        · exact absurd hh (by decide)
        · exact absurd hh (by decide)
        · exact (hs.names _ hh).1 (by decide)
      · rw [hmla]
      · rw [hmlo]
  · intro m' hm2
    rw [hm] at hm2
    cases hm2
  · rw [hfac]
    intro m' hm2 e'
    simp only [List.mem_cons, List.not_mem_nil, or_false] at hm2
    rcases hm2 with rfl | rfl
    · exact hwf e'
    · exact (hfin e').1
  · intro e'
    have hc : counted (defaultAgg name order degrees) (statisticOf is ts F O) e' = true := rfl
    rw [hc]
    simp only [cellsOf, Finset.mem_image, Finset.mem_product, Prod.exists, List.mem_toFinset, and_true]
    constructor
    · rintro ⟨i, la, lo, ⟨hi, hla, hlo⟩, rfl⟩
      refine ⟨?_, fun d hd => cellAt_other _ _ _ _ hd⟩
      intro d hd
      simp only [defaultAgg, List.mem_cons, List.not_mem_nil, or_false] at hd
      rcases hd with rfl | rfl | rfl
      · rw [hs.init, cellAt_init]; exact List.mem_toFinset.mpr hi
      · rw [clat, h.grid.1, cellAt_lat]; exact List.mem_toFinset.mpr hla
      · rw [clon, cellAt_lon]; exact hlo
    · rintro ⟨h1, h2⟩
      have a1 := h1 "init_time" (by simp [defaultAgg])
      have a2 := h1 "latitude" (by simp [defaultAgg])
      have a3 := h1 "longitude" (by simp [defaultAgg])
      rw [hs.init, List.mem_toFinset] at a1
      rw [clat, h.grid.1, List.mem_toFinset] at a2
      rw [clon] at a3
      refine ⟨_, _, _, ⟨a1, a2, a3⟩, ?_⟩
      funext d
      by_cases hd : d ∈ (["init_time", "latitude", "longitude"] : List Dim)
      · simp only [List.mem_cons, List.not_mem_nil, or_false] at hd
        rcases hd with rfl | rfl | rfl
        · rfl
        · rfl
        · rfl
      · rw [cellAt_other _ _ _ _ hd]
        exact (h2 d hd).symm
  · intro e' he'
    simp only [cellsOf, Finset.mem_image, Finset.mem_product, Prod.exists, List.mem_toFinset] at he'
    obtain ⟨i, la, lo, ⟨hi, hla, hlo⟩, rfl⟩ := he'
    rw [statistic_cell h hv he hi hla hlo]
    rfl

theorem cell_weight {name : String → L} (hname : name "global" ≠ name "northern-hemisphere") (h : Data is ts order south degrees C data) {v : String} {F O : DA L (FV ℝ)}
    (hv : (v, (F, O)) ∈ data) : ∃ c : ℝ, 0 < c ∧ ∀ {s n : ℝ} {e : Dim → L}, ResultCell name ts C F s n e → ∀ i la lo, la ∈ south →
      cellWeight (defaultAgg name order degrees) (statisticOf is ts F O) (cellAt e i la lo) = (if s ≤ degrees la ∧ degrees la ≤ n then bandArea south degrees la else 0) / c := by
  obtain ⟨extra, hs, hm, hF⟩ := statistic_shaped h hv
  have hlat : "latitude" ∈ (statisticOf is ts F O).arr.dims := (hs.mem_iff _).mpr (by simp)
  obtain ⟨m, hm', -, -, -, -, -, hmv⟩ := regions_mask name hname degrees (statisticOf is ts F O).arr
  obtain ⟨c, hc, -, -, -, hwv⟩ := grid_weights h.order h.latitudes hlat
  refine ⟨c, hc, ?_⟩
  intro s n e he i la lo hla
  have hfac : (defaultAgg name order degrees).allFactors (statisticOf is ts F O).arr = [gridWeights order degrees (statisticOf is ts F O).arr, m] := by
    rw [← hm']
    rfl
  unfold cellWeight
  rw [hfac]
  have h1 := hwv (cellAt e i la lo) (by rw [cellAt_lat]; exact hla)
  have h2 := hmv _ he.known (cellAt e i la lo) (by rw [cellAt_other _ _ _ _ (by decide)])
  rw [cellAt_lat] at h1 h2
  simp only [List.map_cons, List.map_nil, List.prod_cons, List.prod_nil, h1, h2]
  split_ifs <;> simp [FV.num]

/-- The sums over the cells, with the weights of the aggregator. -/
theorem region_sums {name : String → L} (hname : name "global" ≠ name "northern-hemisphere") (h : Data is ts order south degrees C data) {v : String} {F O : DA L (FV ℝ)}
    (hv : (v, (F, O)) ∈ data) {p : DA L (FV ℝ) × DA L (FV ℝ)} (hp : (defaultAgg name order degrees).aggregateStatVar (statisticOf is ts F O) = .ok (some p)) :
    ∃ c : ℝ, 0 < c ∧ ∀ {s n : ℝ} {e : Dim → L}, ResultCell name ts C F s n e →
      p.1.val e = FV.fin ((∑ i ∈ is.toFinset, ∑ la ∈ south.toFinset with s ≤ degrees la ∧ degrees la ≤ n, ∑ lo ∈ C "longitude", bandArea south degrees la * squaredErrorAt F O e i la lo) / c) ∧
      p.2.val e = FV.fin ((∑ _i ∈ is.toFinset, ∑ la ∈ south.toFinset with s ≤ degrees la ∧ degrees la ≤ n, ∑ _lo ∈ C "longitude", bandArea south degrees la) / c) := by
  obtain ⟨c, hc, hw⟩ := cell_weight hname h hv
  refine ⟨c, hc, ?_⟩
  intro s n e he
  obtain ⟨h1, h2⟩ := evaluated_sums (evaluated_cells hname h hv he) hp
  rw [h1, h2, sum_cellsOf, sum_cellsOf]
  constructor
  · congr 1
    rw [Finset.sum_div]
    refine Finset.sum_congr rfl (fun i hi => ?_)
    rw [Finset.sum_filter, Finset.sum_div]
    refine Finset.sum_congr rfl (fun la hla => ?_)
    rw [List.mem_toFinset] at hi hla
    have : ∀ lo ∈ C "longitude", ((statisticOf is ts F O).arr.val (cellAt e i la lo)).num * cellWeight (defaultAgg name order degrees) (statisticOf is ts F O) (cellAt e i la lo) =
        squaredErrorAt F O e i la lo * ((if s ≤ degrees la ∧ degrees la ≤ n then bandArea south degrees la else 0) / c) := by
      intro lo hlo
      rw [statistic_cell h hv he hi hla hlo, hw he i la lo hla]
      rfl
    rw [Finset.sum_congr rfl this]
    split_ifs with hr
    · rw [Finset.sum_div]
      refine Finset.sum_congr rfl (fun lo _ => ?_)
      ring
    · simp
  · congr 1
    rw [Finset.sum_div]
    refine Finset.sum_congr rfl (fun i hi => ?_)
    rw [Finset.sum_filter, Finset.sum_div]
    refine Finset.sum_congr rfl (fun la hla => ?_)
    rw [List.mem_toFinset] at hi hla
    rw [Finset.sum_congr rfl (fun lo _ => hw he i la lo hla)]
    split_ifs with hr
    · rw [Finset.sum_div]
    · simp

theorem area_pos (h : Data is ts order south degrees C data) (hi : is ≠ []) {s n : ℝ} (hr : ∃ la ∈ south, s ≤ degrees la ∧ degrees la ≤ n) :
    0 < ∑ _i ∈ is.toFinset, ∑ la ∈ south.toFinset with s ≤ degrees la ∧ degrees la ≤ n, ∑ _lo ∈ C "longitude", bandArea south degrees la := by
  obtain ⟨i, hi⟩ := List.exists_mem_of_ne_nil _ hi
  obtain ⟨la, hla, hr⟩ := hr
  refine Finset.sum_pos (fun _ _ => Finset.sum_pos (fun la' hla' => Finset.sum_pos (fun _ _ => ?_) h.grid.2) ⟨la, ?_⟩) ⟨i, List.mem_toFinset.mpr hi⟩
  · rw [Finset.mem_filter, List.mem_toFinset] at hla'
    exact bandArea_pos h.latitudes hla'.1
  · rw [Finset.mem_filter, List.mem_toFinset]
    exact ⟨hla, hr⟩

/-- The mean over a region. -/
theorem region_mean {name : String → L} (hname : name "global" ≠ name "northern-hemisphere") (h : Data is ts order south degrees C data) (hi : is ≠ []) {v : String} {F O : DA L (FV ℝ)}
    (hv : (v, (F, O)) ∈ data) {p : DA L (FV ℝ) × DA L (FV ℝ)} (hp : (defaultAgg name order degrees).aggregateStatVar (statisticOf is ts F O) = .ok (some p))
    {s n : ℝ} {e : Dim → L} (he : ResultCell name ts C F s n e) :
    ((∃ la ∈ south, s ≤ degrees la ∧ degrees la ≤ n) →
      (DA.zipWith (· / ·) p.1 p.2).val e = FV.fin (areaMean is.toFinset south (C "longitude") degrees s n (squaredErrorAt F O e))) ∧
    ((¬ ∃ la ∈ south, s ≤ degrees la ∧ degrees la ≤ n) → (DA.zipWith (· / ·) p.1 p.2).val e = FV.nan) := by
  obtain ⟨c, hc, hsum⟩ := region_sums hname h hv hp
  obtain ⟨h1, h2⟩ := hsum he
  have hval : (DA.zipWith (· / ·) p.1 p.2).val e = p.1.val e / p.2.val e := rfl
  rw [hval, h1, h2]
  constructor
  · intro hr
    have hpos := area_pos h hi hr
    rw [FV.fin_div_fin_of_ne _ (div_pos hpos hc).ne', div_div_div_cancel_right₀ hc.ne']
    rfl
  · intro hr
    have hempty : (south.toFinset.filter (fun la => s ≤ degrees la ∧ degrees la ≤ n)) = ∅ := by
      rw [Finset.filter_eq_empty_iff]
      intro la hla hh
      exact hr ⟨la, List.mem_toFinset.mp hla, hh⟩
    rw [hempty]
    simp [FV.fin_div_fin]

end Example
end WBX
