import Verif.Spec.ExampleEvaluation
import Verif.Props.Weighting
import Verif.Props.Regions
import Verif.Props.Benchmark

set_option linter.unusedSectionVars false

namespace WBX
namespace Example
open DA
variable {L : Type} [DecidableEq L]
variable {order south : List L} {degrees : L → ℝ}

theorem south_nodup (h : SouthToNorth (south.map degrees)) : south.Nodup := by
  have h1 : (south.map degrees).Nodup := h.increasing.imp (fun hab => hab.ne)
  exact List.Nodup.of_map _ h1

theorem bandArea_pos (h : SouthToNorth (south.map degrees)) {la : L} (hla : la ∈ south) : 0 < bandArea south degrees la := by
  unfold bandArea
  have := cellArea_pos h (i := south.idxOf la) (by rw [List.length_map]; exact List.idxOf_lt_length_iff.mpr hla)
  rwa [List.length_map] at this

theorem getElem_idxOf' {la : L} (hla : la ∈ south) : ∃ h : south.idxOf la < south.length, south[south.idxOf la] = la :=
  ⟨List.idxOf_lt_length_iff.mpr hla, List.getElem_idxOf _⟩

/-- The weight of a latitude is proportional to its area. -/
theorem latitudeWeights_area (ho : order = south ∨ order = south.reverse) (h : SouthToNorth (south.map degrees)) :
    ∃ w c, 0 < c ∧ latitudeWeights true (order.map degrees) = .ok w ∧ ∀ la ∈ south, lookupLabel order w la = bandArea south degrees la / c := by
  obtain ⟨w, hw, hlen, hval⟩ := C45_cells h
  rw [List.length_map] at hlen hval
  have hn := south_nodup h
  obtain ⟨w', hw', hlen', hpos⟩ := C45_positive (Or.inl h) false
  rw [hw] at hw'
  obtain rfl := Except.ok.inj hw'
  have h2 := h.two
  rw [List.length_map] at h2
  have hne : w ≠ [] := by
    rintro rfl
    simp at hlen
    omega
  have hs : 0 < w.sum := List.sum_pos w hpos hne
  have hl : (0 : ℝ) < w.length := by exact_mod_cast List.length_pos_iff.mpr hne
  have hc : 0 < w.sum / w.length := div_pos hs hl
  have hnorm : latitudeWeights true (south.map degrees) = .ok (normalizeMean w) := by rw [normalized_eq, hw]; rfl
  have hget : ∀ i < south.length, (normalizeMean w).getD i 0 = cellArea south.length (radians (south.map degrees)) i / (w.sum / w.length) := by
    intro i hi
    unfold normalizeMean
    rw [← hval i hi]
    rw [List.getD_eq_getElem?_getD, List.getD_eq_getElem?_getD, List.getElem?_map, List.getElem?_eq_getElem (by omega)]
    rfl
  have hnl : (normalizeMean w).length = south.length := by simp [normalizeMean, hlen]
  rcases ho with rfl | rfl
  · refine ⟨_, _, hc, hnorm, ?_⟩
    intro la hla
    obtain ⟨hi, he⟩ := getElem_idxOf' hla
    have := lookupLabel_get hn (normalizeMean w) hnl _ hi
    rw [he] at this
    rw [this, hget _ hi]
    rfl
  · have hr := C45_reverse true (south.map degrees)
    rw [hnorm] at hr
    rw [List.map_reverse]
    refine ⟨_, _, hc, hr, ?_⟩
    intro la hla
    obtain ⟨hi, he⟩ := getElem_idxOf' hla
    have hj : south.length - 1 - south.idxOf la < south.reverse.length := by rw [List.length_reverse]; omega
    have := lookupLabel_get (List.nodup_reverse.mpr hn) (normalizeMean w).reverse (by simp [hnl]) _ hj
    have hjj : south.reverse[south.length - 1 - south.idxOf la] = la := by
      rw [List.getElem_reverse]
      have : south.length - 1 - (south.length - 1 - south.idxOf la) = south.idxOf la := by omega
      simp only [this]
      exact he
    rw [hjj] at this
    rw [this, List.getD_eq_getElem?_getD, List.getElem?_reverse (by omega), ← List.getD_eq_getElem?_getD]
    have : (normalizeMean w).length - 1 - (south.length - 1 - south.idxOf la) = south.idxOf la := by omega
    rw [this, hget _ hi]
    rfl

theorem all_longitudes (lon : ℝ) : lonMask ((0 : ℝ), (360 : ℝ)) lon = true := by
  have h1 : mod360 (0 : ℝ) = 0 := by simp [mod360]
  have h2 : mod360 (360 : ℝ) = 0 := by simp [mod360]
  unfold lonMask
  simp only [h1, h2, lt_irrefl, if_false]
  have := (mod360_spec lon).1
  simp [this]

/-- The mask of the regions. -/
theorem regions_mask (name : String → L) (hname : name "global" ≠ name "northern-hemisphere") (degrees : L → ℝ) (stat : DA L (FV ℝ)) :
    ∃ m, (regionBinning name degrees).createBinMask stat = m ∧ m.dims = {"region", "latitude", "longitude"} ∧
      m.coords "region" = {name "global", name "northern-hemisphere"} ∧ m.coords "latitude" = stat.coords "latitude" ∧ m.coords "longitude" = stat.coords "longitude" ∧
      (∀ e, (m.val e).isFin = true ∧ 0 ≤ (m.val e).num) ∧
      ∀ q ∈ regions name, ∀ e : Dim → L, e "region" = q.1 → m.val e = if q.2.1.1 ≤ degrees (e "latitude") ∧ degrees (e "latitude") ≤ q.2.1.2 then FV.fin 1 else FV.fin 0 := by
  have hok : ∃ r, regionsMask "region" (regions name) none id (coordArray degrees "latitude" stat) (coordArray degrees "longitude" stat) = .ok r := by
    refine C41_regions_error.1.mpr ⟨by simp [regions], ?_⟩
    intro q hq
    simp only [regions, List.mem_cons, List.not_mem_nil, or_false] at hq
    rcases hq with rfl | rfl <;> norm_num
  obtain ⟨r, hr⟩ := hok
  have hn : ((regions name).map Prod.fst).Nodup := by simpa [regions] using hname
  obtain ⟨hc, hv⟩ := C41_regions hn hr
  have hshape : r.dims = {"region", "latitude", "longitude"} ∧ r.coords "latitude" = stat.coords "latitude" ∧ r.coords "longitude" = stat.coords "longitude" := by
    have e1 : latMask ((-90 : ℝ), (90 : ℝ)) = .ok (fun lat => decide (-90 ≤ lat) && decide (lat ≤ 90)) := if_neg (by norm_num)
    have e2 : latMask ((20 : ℝ), (90 : ℝ)) = .ok (fun lat => decide (20 ≤ lat) && decide (lat ≤ 90)) := if_neg (by norm_num)
    unfold regionsMask regionBins regions at hr
    rw [List.mapM_cons, List.mapM_cons, List.mapM_nil] at hr
    simp only [regionBin, regionToMask, e1, e2] at hr
    have := Except.ok.inj hr
    subst this
    refine ⟨?_, ?_, ?_⟩
    · ext x
      simp [DA.zipWith, DA.map, coordArray]
    · simp [DA.zipWith, DA.map, coordArray, joinCoords]
    · simp [DA.zipWith, DA.map, coordArray, joinCoords]
  refine ⟨r.map FV.ofBool, ?_, hshape.1, ?_, hshape.2.1, hshape.2.2, ?_, ?_⟩
  · simp only [regionBinning, hr]
  · show r.coords "region" = _
    rw [hc]
    ext x
    simp [regions]
  · intro e
    simp only [DA.map, FV.ofBool]
    cases r.val e <;> simp [FV.isFin, FV.num, FV.one_def, FV.zero_def]
  · intro q hq e he
    have h1 := hv q hq e he
    have harc : OnArc q.2.2.1 q.2.2.2 (degrees (e "longitude")) := by
      rw [← C41_longitude]
      simp only [regions, List.mem_cons, List.not_mem_nil, or_false] at hq
      rcases hq with rfl | rfl <;> exact all_longitudes _
    have h2 : r.val e = true ↔ q.2.1.1 ≤ degrees (e "latitude") ∧ degrees (e "latitude") ≤ q.2.1.2 := by
      rw [h1]
      exact ⟨fun h => h.1, fun h => ⟨h, harc⟩⟩
    simp only [DA.map, FV.ofBool]
    by_cases hb : q.2.1.1 ≤ degrees (e "latitude") ∧ degrees (e "latitude") ≤ q.2.1.2
    · rw [if_pos (h2.mpr hb), if_pos hb]; rfl
    · rw [if_neg (fun h => hb (h2.mp h)), if_neg hb]; rfl

/-- The weights of the grid. -/
theorem grid_weights (ho : order = south ∨ order = south.reverse) (h : SouthToNorth (south.map degrees)) {stat : DA L (FV ℝ)} (hd : "latitude" ∈ stat.dims) :
    ∃ c, 0 < c ∧ (gridWeights order degrees stat).dims = {"latitude"} ∧ (gridWeights order degrees stat).coords "latitude" = south.toFinset ∧
      (∀ e, ((gridWeights order degrees stat).val e).isFin = true) ∧
      ∀ e : Dim → L, e "latitude" ∈ south → (gridWeights order degrees stat).val e = FV.fin (bandArea south degrees (e "latitude") / c) := by
  obtain ⟨w, c, hc, hw, hval⟩ := latitudeWeights_area ho h
  have hg : gridAreaWeights "latitude" true order degrees stat = .ok { dims := {"latitude"}, coords := fun k => if k = "latitude" then order.toFinset else ∅, val := fun e => lookupLabel order w (e "latitude") } := by
    unfold gridAreaWeights
    rw [if_neg (by simpa using hd), hw]
    rfl
  have hset : order.toFinset = south.toFinset := by rcases ho with rfl | rfl <;> simp
  refine ⟨c, hc, ?_, ?_, ?_, ?_⟩
  · simp only [gridWeights, hg]; rfl
  · simp only [gridWeights, hg]; exact hset
  · intro e
    simp only [gridWeights, hg]; rfl
  · intro e he
    simp only [gridWeights, hg, DA.map]
    rw [hval _ he]

end Example
end WBX
