import Verif.Props.RelabelEnsemble
import Verif.Props.WeightUnits
import Verif.Model.ExampleEvaluation

/-!
# C102: area weights and regions with other labels of the grid
-/

set_option linter.unusedSectionVars false

namespace WBX
open DA Aggregator

section grid
variable {L : Type} [DecidableEq L] {ρ : Dim → Equiv.Perm L}

theorem toFinset_relabel (σ : Equiv.Perm L) (order : List L) : (order.map σ).toFinset = order.toFinset.map σ.toEmbedding := by
  ext l
  simp only [List.mem_toFinset, List.mem_map, Finset.mem_map, Equiv.toEmbedding_apply]

theorem lookupLabel_relabel (σ : Equiv.Perm L) (l : L) : ∀ (labels : List L) (w : List ℝ), lookupLabel (labels.map σ) w l = lookupLabel labels w (σ.symm l)
  | [], w => rfl
  | a :: labels, [] => rfl
  | a :: labels, x :: w => by
    have ih := lookupLabel_relabel σ l labels w
    unfold lookupLabel at ih ⊢
    rw [List.map_cons, List.zip_cons_cons, List.zip_cons_cons, List.find?_cons, List.find?_cons]
    by_cases h : a = σ.symm l
    · subst h
      simp
    · have : σ a ≠ l := fun h' => h (by rw [← h', Equiv.symm_apply_apply])
      simp only [h, this, decide_false]
      exact ih

theorem gridAreaWeights_relabel {V : Type} (name : Dim) (normalized : Bool) (order : List L) {degrees degrees' : L → ℝ} (h : ∀ l ∈ order, degrees' (ρ name l) = degrees l) (stat : DA L V) :
    gridAreaWeights name normalized (order.map (ρ name)) degrees' (stat.relabel ρ) = (gridAreaWeights name normalized order degrees stat).map (DA.relabel ρ) := by
  unfold gridAreaWeights
  rw [relabel_dims]
  split
  · rw [Except.map, relabel_scalar]
  · have : (order.map (ρ name)).map degrees' = order.map degrees := by
      rw [List.map_map]
      exact List.map_congr_left h
    rw [this]
    rcases latitudeWeights normalized (order.map degrees) with e | w
    · rfl
    · show Except.ok _ = Except.ok _
      congr 1
      refine DA.extAll rfl ?_ ?_
      · funext k
        simp only [DA.relabel]
        split
        · rename_i hk; rw [hk, toFinset_relabel]
        · rfl
      · funext e
        simp only [DA.relabel, lookupLabel_relabel]

/-- **C102** Area weights do not depend on what the latitudes are called, only on where they are; they do not look at the other dimensions at all. -/
theorem C102_area (name : Dim) (normalized : Bool) (order : List L) {degrees degrees' : L → ℝ} (h : ∀ l ∈ order, degrees' (ρ name l) = degrees l) (stat : DA L (FV ℝ)) :
    areaWeighting name normalized (order.map (ρ name)) degrees' (stat.relabel ρ) = (areaWeighting name normalized order degrees stat).relabel ρ := by
  unfold areaWeighting
  rw [gridAreaWeights_relabel name normalized order h]
  rcases gridAreaWeights name normalized order degrees stat with e | w
  · exact (relabel_scalar ρ _).symm
  · rfl

theorem gridWeights_eq (order : List L) (degrees : L → ℝ) (stat : DA L (FV ℝ)) : Example.gridWeights order degrees stat = areaWeighting "latitude" true order degrees stat := rfl

/-! ### Regions -/

theorem mask_relabel {lat lat' lon lon' : DA L ℝ} {f : ℝ → Bool} {lims : ℝ × ℝ} (h1 : lat'.map f = (lat.map f).relabel ρ) (h2 : lon'.map (lonMask lims) = (lon.map (lonMask lims)).relabel ρ) :
    DA.zipWith (· && ·) (lat'.map f) (lon'.map (lonMask lims)) = (DA.zipWith (· && ·) (lat.map f) (lon.map (lonMask lims))).relabel ρ := by
  rw [h1, h2, relabel_zip]

/-- The same latitudes and the same longitudes up to whole turns, under other labels. -/
structure SamePlaces (ρ : Dim → Equiv.Perm L) (degrees degrees' : L → ℝ) : Prop where
  latitude : ∀ l, degrees' (ρ "latitude" l) = degrees l
  longitude : ∀ l, ∃ n : ℤ, degrees' (ρ "longitude" l) = degrees l + 360 * n

theorem mod360_turns (x : ℝ) (n : ℤ) : mod360 (x + 360 * n) = mod360 x := by
  unfold mod360
  have : (x + 360 * n) / 360 = x / 360 + n := by field_simp
  rw [this, Int.floor_add_intCast]
  push_cast
  ring

variable {degrees degrees' : L → ℝ}

theorem coordArray_relabel {β : Type} {f : ℝ → β} {d : Dim} (h : ∀ l, f (degrees' (ρ d l)) = f (degrees l)) {V : Type} (stat : DA L V) :
    (Example.coordArray degrees' d (stat.relabel ρ)).map f = ((Example.coordArray degrees d stat).map f).relabel ρ := by
  refine DA.extAll rfl ?_ ?_
  · funext k
    simp only [DA.map, Example.coordArray, DA.relabel]
    split
    · rename_i hk; rw [hk]
    · rfl
  · funext e
    have := h ((ρ d).symm (e d))
    rw [Equiv.apply_symm_apply] at this
    simpa only [DA.map, Example.coordArray, DA.relabel] using this

theorem regionBin_relabel (hp : SamePlaces ρ degrees degrees') {V : Type} (stat : DA L V) (r : L × ((ℝ × ℝ) × (ℝ × ℝ))) (l : L) :
    regionBin (Example.coordArray degrees' "latitude" (stat.relabel ρ)) (Example.coordArray degrees' "longitude" (stat.relabel ρ)) (l, r.2) =
      (regionBin (Example.coordArray degrees "latitude" stat) (Example.coordArray degrees "longitude" stat) r).map (fun q => (l, q.2.relabel ρ)) := by
  unfold regionBin regionToMask
  rcases latMask r.2.1 with e | f
  · rfl
  · show Except.ok _ = Except.ok _
    congr 1
    rw [mask_relabel (ρ := ρ) (coordArray_relabel (fun l => by rw [hp.latitude]) stat) (coordArray_relabel (fun l => ?_) stat)]
    obtain ⟨n, hn⟩ := hp.longitude l
    unfold lonMask
    rw [hn, mod360_turns]

theorem findBin_relabel {B C : Type} (σ : Equiv.Perm L) (g : B → C) (l : L) : ∀ ms : List (L × B), findBin (ms.map (fun q => (σ q.1, g q.2))) l = (findBin ms (σ.symm l)).map g
  | [] => rfl
  | q :: ms => by
    have ih := findBin_relabel σ g l ms
    unfold findBin at ih ⊢
    rw [List.map_cons, List.find?_cons, List.find?_cons]
    by_cases h : q.1 = σ.symm l
    · simp [h]
    · have : σ q.1 ≠ l := fun h' => h (by rw [← h', Equiv.symm_apply_apply])
      simp only [h, this, decide_false]
      exact ih

theorem foldr_dims (g : L → L) (ms : List (L × DA L Bool)) :
    (ms.map (fun q => (g q.1, q.2.relabel ρ))).foldr (fun q s => q.2.dims ∪ s) ∅ = ms.foldr (fun q s => q.2.dims ∪ s) ∅ := by
  induction ms with
  | nil => rfl
  | cons q ms ih => rw [List.map_cons, List.foldr_cons, List.foldr_cons, ih, relabel_dims]

theorem concatBins_relabel (binDim : Dim) (ms : List (L × DA L Bool)) :
    concatBins binDim (ms.map (fun q => (ρ binDim q.1, q.2.relabel ρ))) = (concatBins binDim ms).map (DA.relabel ρ) := by
  cases ms with
  | nil => rfl
  | cons q ms =>
    obtain ⟨l, m⟩ := q
    show Except.ok _ = Except.ok _
    congr 1
    refine DA.extAll ?_ ?_ ?_
    · show insert binDim _ = insert binDim _
      exact congrArg _ (foldr_dims (ρ := ρ) (ρ binDim) ((l, m) :: ms))
    · funext k
      simp only [DA.relabel]
      split
      · rename_i hk
        rw [hk, ← toFinset_relabel, List.map_map]
        congr 1
        simp only [List.map_cons, List.map_map, Function.comp_def]
      · rfl
    · funext e
      have := findBin_relabel (ρ binDim) (DA.relabel ρ) (e binDim) ((l, m) :: ms)
      simp only [List.map_cons] at this
      simp only [DA.relabel] at this ⊢
      rw [this]
      cases findBin ((l, m) :: ms) ((ρ binDim).symm (e binDim)) <;> rfl

theorem regionsMask_relabel (hp : SamePlaces ρ degrees degrees') (binDim : Dim) (regions : List (L × ((ℝ × ℝ) × (ℝ × ℝ)))) (land land' : L → L) {V : Type} (stat : DA L V) :
    regionsMask binDim (regions.map (fun r => (ρ binDim r.1, r.2))) none land' (Example.coordArray degrees' "latitude" (stat.relabel ρ)) (Example.coordArray degrees' "longitude" (stat.relabel ρ)) =
      (regionsMask binDim regions none land (Example.coordArray degrees "latitude" stat) (Example.coordArray degrees "longitude" stat)).map (DA.relabel ρ) := by
  unfold regionsMask regionBins addLandBins
  rw [List.mapM_map, mapM_image (f := regionBin (Example.coordArray degrees "latitude" stat) (Example.coordArray degrees "longitude" stat)) (g := fun q => (ρ binDim q.1, q.2.relabel ρ)) (fun r _ => ?_)]
  · rcases regions.mapM (regionBin (Example.coordArray degrees "latitude" stat) (Example.coordArray degrees "longitude" stat)) with e | ms
    · rfl
    · exact concatBins_relabel binDim ms
  · have := regionBin_relabel hp stat r (ρ binDim r.1)
    refine this.trans ?_
    unfold regionBin
    rcases regionToMask (Example.coordArray degrees "latitude" stat) (Example.coordArray degrees "longitude" stat) r.2.1 r.2.2 with e | m <;> rfl

/-- **C102** Regions do not depend on the longitude convention: longitudes from -180 to 180 and from 0 to 360 are in the same regions, whatever the labels are called. -/
theorem C102_regions (hp : SamePlaces ρ degrees degrees') (name : String → L) (stat : DA L (FV ℝ)) :
    (Example.regionBinning (fun s => ρ "region" (name s)) degrees').createBinMask (stat.relabel ρ) = ((Example.regionBinning name degrees).createBinMask stat).relabel ρ := by
  unfold Example.regionBinning
  dsimp only
  have := regionsMask_relabel hp "region" (Example.regions name) id id stat
  rw [show Example.regions (fun s => ρ "region" (name s)) = (Example.regions name).map (fun r => (ρ "region" r.1, r.2)) from rfl, this]
  rcases regionsMask "region" (Example.regions name) none id (Example.coordArray degrees "latitude" stat) (Example.coordArray degrees "longitude" stat) with e | m
  · exact (relabel_scalar ρ _).symm
  · rfl

theorem example_relabels (hp : SamePlaces ρ degrees degrees') (name : String → L) (order : List L) (f : Example.Flags) :
    (Example.aggregator name order degrees f).Relabels ρ (Example.aggregator (fun s => ρ "region" (name s)) (order.map (ρ "latitude")) degrees' f) :=
  ⟨rfl, rfl, rfl, .cons (fun a => C102_area "latitude" true order (fun l _ => hp.latitude l) a) .nil, .cons ⟨rfl, C102_regions hp name⟩ .nil⟩

/-- **C102** The example evaluation (area weights, regions) does not depend on the labels of the data: with init times, lead times, members or grid points under other names, at the same latitudes
and the same longitudes up to whole turns, every such metric has the same values under the new names. -/
theorem C102_example (hp : SamePlaces ρ degrees degrees') (name : String → L) (order : List L) (f : Example.Flags) {m m' : FMetric L ℝ} (hm : m.Relabels ρ m') (p t : Vars (StatVar L (FV ℝ))) :
    metricAlone m' (Example.aggregator (fun s => ρ "region" (name s)) (order.map (ρ "latitude")) degrees' f) (relabelVars ρ p) (relabelVars ρ t) =
      (metricAlone m (Example.aggregator name order degrees f) p t).map (relabelValues ρ) :=
  C102_relabel (example_relabels hp name order f) hm p t

end grid
end WBX
