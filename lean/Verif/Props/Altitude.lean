import Verif.Props.InterpolationArrays
import Verif.Props.Wrappers
import Verif.Props.Latency
import Verif.Props.Spatial
import Mathlib.Algebra.Order.Group.MinMax

/-!
# C52, C65: altitude adjustment of station values, and empty references
-/

set_option linter.unusedSectionVars false

namespace WBX
open Classical DA
variable {L K : Type} [DecidableEq L] [Field K] [LinearOrder K] [IsStrictOrderedRing K]

/-! ### Specification -/

/-- The factor for the wind speed at a station `dz` metres above the grid: 1 up to 100 m, then 0.2 % per metre, at most 3. -/
def windFactorSpec (dz : K) : K := min 3 (max 1 (1 + (2 / 1000) * (dz - 100)))

theorem windFactorSpec_range (dz : K) : 1 ≤ windFactorSpec dz ∧ windFactorSpec dz ≤ 3 :=
  ⟨le_min (by norm_num) (le_max_left _ _), min_le_left _ _⟩

theorem windFactorSpec_mono {z z' : K} (h : z ≤ z') : windFactorSpec z ≤ windFactorSpec z' :=
  min_le_min le_rfl (max_le_max le_rfl (by linarith))

theorem windFactorSpec_lipschitz (z z' : K) : |windFactorSpec z - windFactorSpec z'| ≤ 2 / 1000 * |z - z'| := by
  unfold windFactorSpec
  refine (abs_min_sub_min_le_max _ _ _ _).trans (max_le (by simp) ((abs_max_sub_max_le_max _ _ _ _).trans (max_le (by simp) ?_)))
  rw [show 1 + 2 / 1000 * (z - 100) - (1 + 2 / 1000 * (z' - 100)) = 2 / 1000 * (z - z') by ring, abs_mul, abs_of_pos (by norm_num : (0 : K) < 2 / 1000)]

/-! ### The two `where`s compute that function -/

theorem windFactor_fin (z : K) : windFactor (FV.fin z) = FV.fin (windFactorSpec z) := by
  unfold windFactor windFactorSpec
  simp only [FV.lt, FV.fin_sub_fin, FV.fin_mul_fin, FV.fin_add_fin, FV.one_def, decide_eq_true_eq]
  by_cases h1 : z < 100
  · rw [if_pos h1, if_pos (by linarith : z < 1100), max_eq_left (by linarith), min_eq_right (by norm_num)]
  · by_cases h2 : z < 1100
    · rw [if_neg h1, if_pos h2, max_eq_right (by linarith), min_eq_right (by linarith)]
    · rw [if_neg h2, min_eq_left (le_max_of_le_right (by linarith))]

theorem heightDifference_small {m z g : K} (h : |z - g| < m) : heightDifference m (FV.fin z) (FV.fin g) = FV.fin (z - g) := by
  unfold heightDifference
  simp only [FV.fin_sub_fin, FV.abs, FV.lt, decide_eq_true_eq, if_pos h]

theorem heightDifference_large {m : K} {el g : FV K} (h : FV.lt (el - g).abs (FV.fin m) = false) : heightDifference m el g = 0 := by
  unfold heightDifference
  simp [h]

/-! ### The interpolated arrays -/

/-- `plain` is what the interpolation without adjustment returns, `el` the elevation of the stations, `grid` the interpolated elevation of the grid. -/
structure Adjusts (deg : L → K) (shift : K → L → L) (dims : Option (List Dim)) (wrap ext : Bool) (dimList : List Dim) (gridElevation : Ordered L (FV K)) (a : Ordered L (FV K)) (ref : Reference L K)
    (plain el grid : DA L (FV K)) : Prop where
  plain : ∃ none', interpolateReference deg shift dims wrap ext dimList none a ref = .ok ⟨plain, none', none⟩
  elevation : pyItem ref.coord "elevation" = .ok el
  grid : ∃ args, interpolateWith deg shift wrap (fillFor ext (referenceDims dims dimList ref).length) args gridElevation = .ok grid ∧
    (∀ c ∈ args, pyItem ref.coord c.1 = .ok c.2) ∧
    (∀ d, d ∈ args.map Prod.fst ↔ d ∈ referenceDims dims dimList ref ∧ d ∈ gridElevation.arr.dims)

theorem dims_maybePad {wrap : Bool} {shift : K → L → L} {a p : Ordered L (FV K)} (h : maybePad wrap shift a = .ok p) : p.arr.dims = a.arr.dims := by
  unfold maybePad padLongitude at h
  split at h
  · split at h
    · injection h with h; rw [← h]
    · simp at h
  · injection h with h; rw [← h]

theorem adjusts_of_ok {deg : L → K} {shift : K → L → L} {dims : Option (List Dim)} {wrap ext : Bool} {dimList : List Dim} {gridElevation : Ordered L (FV K)} {maxDiff : K} {name : String}
    {a : Ordered L (FV K)} {ref : Reference L K} {r : DA L (FV K)} (hname : isAdjusted name = true)
    (h : altitudeAdjusted deg shift dims wrap ext dimList gridElevation maxDiff name a ref = .ok r) :
    ∃ plain el grid, Adjusts deg shift dims wrap ext dimList gridElevation a ref plain el grid ∧
      ∀ e, r.val e = adjustValue name maxDiff (el.val e) (grid.val e) (plain.val e) := by
  unfold altitudeAdjusted at h
  rw [if_pos hname] at h
  obtain ⟨q, hq, h⟩ := bind_ok_iff.mp h
  unfold adjustArray at h
  rw [if_pos hname] at h
  unfold interpolateReference at hq
  obtain ⟨p, hp, hq⟩ := bind_ok_iff.mp hq
  by_cases hc : ¬ hasCells ref.arr
  · simp only [hc, not_false_eq_true, if_true] at hq
    obtain ⟨x, hx, hq⟩ := bind_ok_iff.mp hq
    injection hq with hq
    rw [← hq] at h
    simp at h
  · rw [if_neg hc] at hq
    obtain ⟨args, hargs, hq⟩ := bind_ok_iff.mp hq
    obtain ⟨plain, hplain, hq⟩ := bind_ok_iff.mp hq
    obtain ⟨g, hg, hq⟩ := bind_ok_iff.mp hq
    injection hq with hq
    rw [← hq] at h
    simp only [Option.mapM_some] at hg
    obtain ⟨grid, hgrid, hg⟩ := bind_ok_iff.mp hg
    injection hg with hg
    rw [← hg] at h
    cases hel : pyGet? "elevation" ref.coord with
    | none => rw [hel] at h; simp at h
    | some el =>
      rw [hel] at h
      injection h with h
      refine ⟨plain, el, grid, ⟨⟨some el, ?_⟩, by unfold pyItem; rw [hel], ?_⟩, fun e => by rw [← h]; rfl⟩
      · unfold interpolateReference
        refine bind_ok_iff.mpr ⟨p, hp, ?_⟩
        rw [if_neg hc]
        refine bind_ok_iff.mpr ⟨args, hargs, bind_ok_iff.mpr ⟨plain, hplain, ?_⟩⟩
        rw [hel]
        rfl
      · obtain ⟨pg, hpg, hgrid⟩ := bind_ok_iff.mp hgrid
        have hdims := dims_maybePad hpg
        refine ⟨args.filter (fun c => decide (c.1 ∈ pg.arr.dims)), ?_, ?_, ?_⟩
        · have hlen : args.length = (referenceDims dims dimList ref).length := (mapM_ok_length _ _ _ hargs).symm
          rw [← hlen]
          obtain ⟨pg', hpg', h1, h2⟩ := interpolateWith_ok.mp hgrid
          rw [maybePad_false.mp hpg'] at h1 h2
          exact interpolateWith_ok.mpr ⟨pg, hpg, h1, h2⟩
        · intro c hcm
          obtain ⟨d, hd, hd'⟩ := mapM_out_mem hargs c (List.mem_filter.mp hcm).1
          obtain ⟨y, hy, hd'⟩ := bind_ok_iff.mp hd'
          injection hd' with hd'
          rw [← hd']; exact hy
        · intro d
          constructor
          · intro hd
            obtain ⟨c, hcm, rfl⟩ := List.mem_map.mp hd
            obtain ⟨hcm, hcd⟩ := List.mem_filter.mp hcm
            obtain ⟨d, hd, hd'⟩ := mapM_out_mem hargs c hcm
            obtain ⟨y, hy, hd'⟩ := bind_ok_iff.mp hd'
            injection hd' with hd'
            rw [← hd']
            refine ⟨hd, ?_⟩
            rw [← hd'] at hcd
            rw [← hdims]; simpa using hcd
          · rintro ⟨hd, hd'⟩
            obtain ⟨c, hcm, hcd⟩ := mapM_mem _ _ _ hargs d hd
            obtain ⟨y, hy, hcd⟩ := bind_ok_iff.mp hcd
            injection hcd with hcd
            exact List.mem_map.mpr ⟨c, List.mem_filter.mpr ⟨hcm, by rw [← hcd, hdims]; simpa using hd'⟩, by rw [← hcd]⟩


variable {deg : L → K} {shift : K → L → L} {dims : Option (List Dim)} {wrap ext : Bool} {dimList : List Dim} {gridElevation : Ordered L (FV K)} {maxDiff : K} {name : String}
  {a : Ordered L (FV K)} {ref : Reference L K} {r : DA L (FV K)}

theorem adjustValue_wind {x : K} (z g : K) : adjustValue "10m_wind_speed" maxDiff (FV.fin z) (FV.fin g) (FV.fin x) =
    FV.fin (if |z - g| < maxDiff then x * windFactorSpec (z - g) else x) := by
  unfold adjustValue
  rw [if_neg (by decide), if_pos rfl]
  by_cases h : |z - g| < maxDiff
  · rw [heightDifference_small h, windFactor_fin, if_pos h, FV.fin_mul_fin]
  · rw [heightDifference_large (by simp [FV.abs, FV.lt, h]), FV.zero_def, windFactor_fin, if_neg h, FV.fin_mul_fin]
    congr 1
    unfold windFactorSpec
    rw [max_eq_left (by norm_num), min_eq_right (by norm_num), mul_one]

/-- The temperature at a station is the interpolated one plus the lapse rate (-6.5 K per km) times the height of the station above the grid, unless the difference is too large. -/
theorem C52_temperature (h : altitudeAdjusted deg shift dims wrap ext dimList gridElevation maxDiff "2m_temperature" a ref = .ok r) :
    ∃ plain el grid, Adjusts deg shift dims wrap ext dimList gridElevation a ref plain el grid ∧
      ∀ e x z g, plain.val e = FV.fin x → el.val e = FV.fin z → grid.val e = FV.fin g →
        r.val e = FV.fin (if |z - g| < maxDiff then x - 65 / 10000 * (z - g) else x) := by
  obtain ⟨plain, el, grid, hadj, hval⟩ := adjusts_of_ok (by rfl) h
  refine ⟨plain, el, grid, hadj, fun e x z g hx hz hg => ?_⟩
  rw [hval, hx, hz, hg]
  unfold adjustValue
  rw [if_pos rfl]
  by_cases hd : |z - g| < maxDiff
  · rw [heightDifference_small hd, if_pos hd, FV.fin_mul_fin, FV.fin_add_fin]
    congr 1; unfold lapseRate; ring
  · rw [heightDifference_large (by simp [FV.abs, FV.lt, hd]), FV.zero_def, if_neg hd, FV.fin_mul_fin, FV.fin_add_fin]
    congr 1; ring

/-- The wind speed at a station is the interpolated one times the factor; the factor is within [1, 3], nondecreasing and continuous (it changes by at most 0.2 % per metre) in the height
difference, and 1 where the difference is too large. -/
theorem C52_wind (h : altitudeAdjusted deg shift dims wrap ext dimList gridElevation maxDiff "10m_wind_speed" a ref = .ok r) :
    ∃ plain el grid, Adjusts deg shift dims wrap ext dimList gridElevation a ref plain el grid ∧
      ∃ factor : K → K, (∀ z, factor z = min 3 (max 1 (1 + 2 / 1000 * (z - 100)))) ∧ (∀ z, 1 ≤ factor z ∧ factor z ≤ 3) ∧ (∀ z z', z ≤ z' → factor z ≤ factor z') ∧
        (∀ z z', |factor z - factor z'| ≤ 2 / 1000 * |z - z'|) ∧
      ∀ e x z g, plain.val e = FV.fin x → el.val e = FV.fin z → grid.val e = FV.fin g →
        r.val e = FV.fin (if |z - g| < maxDiff then x * factor (z - g) else x) := by
  obtain ⟨plain, el, grid, hadj, hval⟩ := adjusts_of_ok (by rfl) h
  refine ⟨plain, el, grid, hadj, windFactorSpec, fun _ => rfl, windFactorSpec_range, fun _ _ => windFactorSpec_mono, windFactorSpec_lipschitz, fun e x z g hx hz hg => ?_⟩
  rw [hval, hx, hz, hg, adjustValue_wind]

/-- Where the difference is not smaller in magnitude than the maximum, or NaN (an elevation is missing), the interpolated value is not adjusted. -/
theorem C52_not_adjusted (hname : isAdjusted name = true) (h : altitudeAdjusted deg shift dims wrap ext dimList gridElevation maxDiff name a ref = .ok r) :
    ∃ plain el grid, Adjusts deg shift dims wrap ext dimList gridElevation a ref plain el grid ∧
      ∀ e x, plain.val e = FV.fin x → (el.val e = FV.nan ∨ grid.val e = FV.nan ∨ ∃ z g, el.val e = FV.fin z ∧ grid.val e = FV.fin g ∧ maxDiff ≤ |z - g|) → r.val e = FV.fin x := by
  obtain ⟨plain, el, grid, hadj, hval⟩ := adjusts_of_ok hname h
  refine ⟨plain, el, grid, hadj, fun e x hx hd => ?_⟩
  rw [hval, hx]
  have h0 : heightDifference maxDiff (el.val e) (grid.val e) = 0 := by
    apply heightDifference_large
    rcases hd with h | h | ⟨z, g, hz, hg, h⟩
    · rw [h]; simp [FV.abs, FV.lt]
    · rw [h]; simp [FV.abs, FV.lt]
    · rw [hz, hg]; simp [FV.abs, FV.lt, h]
  unfold adjustValue
  rw [h0, FV.zero_def, windFactor_fin]
  split
  · simp
  · split
    · rw [FV.fin_mul_fin]; congr 1
      unfold windFactorSpec
      rw [max_eq_left (by norm_num), min_eq_right (by norm_num), mul_one]
    · rfl

/-- Variables other than 2m_temperature and 10m_wind_speed get exactly the interpolation without adjustment. -/
theorem C52_other (h1 : name ≠ "2m_temperature") (h2 : name ≠ "10m_wind_speed") :
    altitudeAdjusted deg shift dims wrap ext dimList gridElevation maxDiff name a ref = (interpolateReference deg shift dims wrap ext dimList none a ref).map LikeReference.arr := by
  have hn : isAdjusted name = false := by simp [isAdjusted, h1, h2]
  unfold altitudeAdjusted adjustArray
  simp only [hn, Bool.false_eq_true, if_false]
  cases interpolateReference deg shift dims wrap ext dimList none a ref <;> rfl

/-! ### C65: a reference without data -/

/-- With an empty reference nothing is interpolated: the result is the reference with the dimensions of the data that are not interpolated, and is empty too. -/
theorem C65_empty {grid : Option (Ordered L (FV K))} {q : LikeReference L K} (hc : ¬ ∃ e, ref.arr.InDom e) (hne : Nonempty L)
    (h : interpolateReference deg shift dims wrap ext dimList grid a ref = .ok q) :
    q.arr.dims = ref.arr.dims ∪ (a.arr.dims \ (referenceDims dims dimList ref).toFinset) ∧ (¬ ∃ e, q.arr.InDom e) ∧ ∀ d ∈ ref.arr.dims, q.arr.coords d = ref.arr.coords d := by
  have hc' : ¬ hasCells ref.arr := by
    intro hh
    apply hc
    simp only [hasCells, decide_eq_true_eq] at hh
    choose! f hf using hh
    exact ⟨f, hf⟩
  unfold interpolateReference at h
  obtain ⟨p, hp, h⟩ := bind_ok_iff.mp h
  simp only [hc', not_false_eq_true, if_true] at h
  obtain ⟨x, hx, h⟩ := bind_ok_iff.mp h
  injection h with h
  rw [← h]
  unfold expandReference at hx
  split at hx
  · injection hx with hx
    rw [← hx, dims_maybePad hp]
    refine ⟨rfl, ?_, fun d hd => by simp [hd]⟩
    rintro ⟨e, he⟩
    apply hc
    refine ⟨e, fun d hd => ?_⟩
    have := he d (by simp [hd])
    simpa [hd] using this
  · simp at hx

/-- ★ With an empty reference (e.g. a chunk without observations) the altitude adjustment never succeeds: the result has no grid elevation, a `KeyError`. -/
theorem C65_altitude_empty (hc : ¬ hasCells ref.arr) (hname : isAdjusted name = true) :
    ¬ ∃ r, altitudeAdjusted deg shift dims wrap ext dimList gridElevation maxDiff name a ref = .ok r := by
  rintro ⟨r, h⟩
  unfold altitudeAdjusted at h
  rw [if_pos hname] at h
  obtain ⟨q, hq, h⟩ := bind_ok_iff.mp h
  unfold interpolateReference at hq
  obtain ⟨p, hp, hq⟩ := bind_ok_iff.mp hq
  simp only [hc, not_false_eq_true, if_true] at hq
  obtain ⟨x, hx, hq⟩ := bind_ok_iff.mp hq
  injection hq with hq
  rw [← hq] at h
  unfold adjustArray at h
  simp [hname] at h

/-- ★ With an empty reference that has a dimension of the data which is not interpolated, `expand_dims` is a `ValueError`. -/
theorem C65_shared_dimension {grid : Option (Ordered L (FV K))} (hc : ¬ hasCells ref.arr) (hw : wrap = false) {d : Dim} (hd : d ∈ a.arr.dims) (hd' : d ∈ ref.arr.dims)
    (hds : d ∉ referenceDims dims dimList ref) : interpolateReference deg shift dims wrap ext dimList grid a ref = .error .valueError := by
  unfold interpolateReference maybePad
  subst hw
  simp only [Bool.false_eq_true, if_false, hc, not_false_eq_true, if_true]
  change (expandReference _ _ _ >>= _) = _
  unfold expandReference
  rw [if_neg]
  · rfl
  · intro h0
    have : d ∈ (a.arr.dims \ (referenceDims dims dimList ref).toFinset) ∩ ref.arr.dims := by simp [hd, hd', hds]
    rw [h0] at this
    simp at this

/-! ### The hypotheses can be met -/

/-- Two stations, at latitude 45, 500 m and NaN high. -/
def exStations : Reference ℚ ℚ where
  arr := { dims := {"station"}, coords := fun _ => {1, 2}, val := fun _ => FV.fin 0 }
  coord := [("latitude", { dims := {"station"}, coords := fun _ => {1, 2}, val := fun _ => FV.fin 45 }),
    ("elevation", { dims := {"station"}, coords := fun _ => {1, 2}, val := fun e => if e "station" = 1 then FV.fin 500 else FV.nan })]

/-- No stations. -/
def exNoStations : Reference ℚ ℚ where
  arr := { dims := {"station"}, coords := fun _ => ∅, val := fun _ => FV.fin 0 }
  coord := [("latitude", { dims := {"station"}, coords := fun _ => ∅, val := fun _ => FV.fin 45 }),
    ("elevation", { dims := {"station"}, coords := fun _ => ∅, val := fun _ => FV.fin 500 })]

theorem exStations_ok (name : String) : ∃ r, altitudeAdjusted (id : ℚ → ℚ) (fun c l => l + c) none false true ["latitude"] exLatitudes 1500 name exLatitudes exStations = .ok r := by
  have hcells : hasCells exStations.arr = true := by simp [hasCells, exStations]
  have hds : referenceDims none ["latitude"] exStations = ["latitude"] := by simp [referenceDims, exStations]
  have hfix : ∀ c : DA ℚ (FV ℚ), ∃ r, interpolateFixed (id : ℚ → ℚ) (fun c l => l + c) false true [("latitude", c)] exLatitudes = .ok r := fun c =>
    ⟨_, interpolateWith_ok.mpr ⟨exLatitudes, maybePad_false.mpr rfl, by simp [exLatitudes], rfl⟩⟩
  obtain ⟨lat, hlat⟩ : ∃ lat, pyItem exStations.coord "latitude" = .ok lat := ⟨_, rfl⟩
  obtain ⟨el, hel⟩ : ∃ el, pyGet? "elevation" exStations.coord = some el := ⟨_, rfl⟩
  obtain ⟨plain, hplain⟩ := hfix lat
  have hargs : ["latitude"].mapM (fun d => do
      let c ← pyItem exStations.coord d
      return (d, c)) = (.ok [("latitude", lat)] : Except Err _) := by
    simp only [List.mapM_cons, hlat, List.mapM_nil]; rfl
  by_cases hn : isAdjusted name = true
  · obtain ⟨r, hr⟩ : ∃ r, adjustArray name 1500 ⟨plain, some el, some plain⟩ = .ok r := by unfold adjustArray; rw [if_pos hn]; exact ⟨_, rfl⟩
    refine ⟨r, bind_ok_iff.mpr ⟨⟨plain, some el, some plain⟩, ?_, hr⟩⟩
    · rw [if_pos hn]
      refine bind_ok_iff.mpr ⟨exLatitudes, rfl, ?_⟩
      rw [hds, if_neg (by simp [hcells])]
      refine bind_ok_iff.mpr ⟨_, hargs, bind_ok_iff.mpr ⟨plain, hplain, bind_ok_iff.mpr ⟨some plain, ?_, by rw [hel]; rfl⟩⟩⟩
      simp only [Option.mapM_some]
      have hinner : (do
          let g ← maybePad false (fun c l => l + c) exLatitudes
          interpolateWith (id : ℚ → ℚ) (fun c l => l + c) false (fillFor true [("latitude", lat)].length) ([("latitude", lat)].filter (fun c => decide (c.1 ∈ g.arr.dims))) g) = .ok plain := by
        refine bind_ok_iff.mpr ⟨exLatitudes, rfl, ?_⟩
        rw [show [("latitude", lat)].filter (fun c => decide (c.1 ∈ exLatitudes.arr.dims)) = [("latitude", lat)] by simp [exLatitudes]]
        exact hplain
      rw [hinner]; rfl
  · refine ⟨plain, bind_ok_iff.mpr ⟨⟨plain, some el, none⟩, ?_, ?_⟩⟩
    · rw [if_neg hn]
      refine bind_ok_iff.mpr ⟨exLatitudes, rfl, ?_⟩
      rw [hds, if_neg (by simp [hcells])]
      refine bind_ok_iff.mpr ⟨_, hargs, bind_ok_iff.mpr ⟨plain, hplain, bind_ok_iff.mpr ⟨none, rfl, by rw [hel]; rfl⟩⟩⟩
    · unfold adjustArray; rw [if_neg hn]

example : ∃ r plain el grid, altitudeAdjusted (id : ℚ → ℚ) (fun c l => l + c) none false true ["latitude"] exLatitudes 1500 "2m_temperature" exLatitudes exStations = .ok r ∧
    Adjusts id (fun c l => l + c) none false true ["latitude"] exLatitudes exLatitudes exStations plain el grid := by
  obtain ⟨r, hr⟩ := exStations_ok "2m_temperature"
  obtain ⟨plain, el, grid, hadj, _⟩ := C52_temperature hr
  exact ⟨r, plain, el, grid, hr, hadj⟩

example : ∃ r plain el grid, altitudeAdjusted (id : ℚ → ℚ) (fun c l => l + c) none false true ["latitude"] exLatitudes 1500 "10m_wind_speed" exLatitudes exStations = .ok r ∧
    Adjusts id (fun c l => l + c) none false true ["latitude"] exLatitudes exLatitudes exStations plain el grid ∧ el.val (fun _ => 2) = FV.nan := by
  obtain ⟨r, hr⟩ := exStations_ok "10m_wind_speed"
  obtain ⟨plain, el, grid, hadj, _⟩ := C52_wind hr
  refine ⟨r, plain, el, grid, hr, hadj, ?_⟩
  have := hadj.elevation
  simp [pyItem, exStations, pyGet?] at this
  rw [← this]; simp

example : windFactorSpec (600 : ℚ) = 2 ∧ windFactorSpec (50 : ℚ) = 1 ∧ windFactorSpec (1400 : ℚ) = 3 := by
  unfold windFactorSpec; norm_num

example : ∃ q, interpolateReference (id : ℚ → ℚ) (fun c l => l + c) none false true ["latitude"] none exLatitudes exNoStations = .ok q ∧ (¬ ∃ e, exNoStations.arr.InDom e) ∧ ¬ hasCells exNoStations.arr := by
  have hc : ¬ hasCells exNoStations.arr = true := by simp [hasCells, exNoStations]
  obtain ⟨x, hx⟩ : ∃ x, expandReference (exLatitudes.arr.dims \ (referenceDims none ["latitude"] exNoStations).toFinset) exLatitudes.arr exNoStations.arr = .ok x := by
    unfold expandReference
    rw [if_pos (by simp [exNoStations, exLatitudes, referenceDims])]; exact ⟨_, rfl⟩
  refine ⟨⟨x, pyGet? "elevation" exNoStations.coord, none⟩, bind_ok_iff.mpr ⟨exLatitudes, rfl, ?_⟩, ?_, hc⟩
  · rw [if_pos hc]
    exact bind_ok_iff.mpr ⟨x, hx, rfl⟩
  · rintro ⟨e, he⟩
    have := he "station" (by simp [exNoStations])
    simp [exNoStations] at this

example : ¬ hasCells exNoStations.arr ∧ "latitude" ∈ exLatitudes.arr.dims ∧ ("latitude" : Dim) ∉ referenceDims (some []) ["latitude"] exNoStations := by
  simp [hasCells, exNoStations, exLatitudes, referenceDims]

end WBX
