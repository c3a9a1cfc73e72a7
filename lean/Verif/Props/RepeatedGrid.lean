import Verif.Props.Repeated
import Verif.Props.Latency
import Verif.Model.BenchmarkRegions

/-!
# C106: area weights, regions and the example evaluation
-/

set_option linter.unusedSectionVars false

namespace WBX
open DA Aggregator

section grid
variable {L : Type} [DecidableEq L] {d : Dim} {C : Finset L} {degrees : L → ℝ}

theorem coordArray_repeated {V : Type} {k : Dim} (h : k ≠ d) (a : DA L V) : Example.coordArray degrees k (a.repeated d C) = Example.coordArray degrees k a := by
  refine DA.same_of rfl ?_ rfl
  funext j
  show (if j = k then (if k = d then C else a.coords k) else ∅) = if j = k then a.coords k else ∅
  rw [if_neg h]

theorem coordArray_without {V : Type} {k : Dim} (h : k ≠ d) (a : DA L V) : (Example.coordArray degrees k a).Without d :=
  ⟨by show d ∉ ({k} : Finset Dim); rw [Finset.mem_singleton]; exact fun hd => h hd.symm, fun e l => by
    show degrees (setLabel e d l k) = degrees (e k)
    rw [setLabel, if_neg h]⟩

theorem regionBin_without {lat lon : DA L ℝ} (hlat : lat.Without d) (hlon : lon.Without d) {r : L × ((ℝ × ℝ) × (ℝ × ℝ))} {q : L × DA L Bool} (hq : regionBin lat lon r = .ok q) : q.2.Without d := by
  unfold regionBin regionToMask at hq
  rcases hf : latMask r.2.1 with e | f
  · rw [hf] at hq; cases hq
  · rw [hf] at hq
    cases hq
    exact (hlat.map _).zip (hlon.map _) _

theorem findBin_some {B : Type} {ms : List (L × B)} {l : L} {m : B} (h : findBin ms l = some m) : ∃ q ∈ ms, q.2 = m := by
  unfold findBin at h
  rcases hf : ms.find? (fun m => decide (m.1 = l)) with _ | q
  · rw [hf] at h; cases h
  · rw [hf] at h
    cases h
    exact ⟨q, List.mem_of_find?_eq_some hf, rfl⟩

theorem foldr_dims_without {ms : List (L × DA L Bool)} (h : ∀ q ∈ ms, q.2.Without d) : d ∉ ms.foldr (fun (q : L × DA L Bool) (s : Finset Dim) => q.2.dims ∪ s) ∅ := by
  induction ms with
  | nil => simp
  | cons q ms ih =>
    rw [List.foldr_cons, Finset.mem_union]
    exact fun hh => hh.elim (h q List.mem_cons_self).1 (ih (fun q hq => h q (List.mem_cons_of_mem _ hq)))

theorem concatBins_without {binDim : Dim} (hb : d ≠ binDim) {ms : List (L × DA L Bool)} (h : ∀ q ∈ ms, q.2.Without d) {m : DA L Bool} (hm : concatBins binDim ms = .ok m) : m.Without d := by
  cases ms with
  | nil => cases hm
  | cons q ms =>
    obtain ⟨l, m₀⟩ := q
    cases hm
    refine ⟨?_, fun e l' => ?_⟩
    · show d ∉ insert binDim _
      rw [Finset.mem_insert]
      exact fun hh => hh.elim hb (foldr_dims_without h)
    · have he : setLabel e d l' binDim = e binDim := by rw [setLabel, if_neg (Ne.symm hb)]
      dsimp only
      rw [he]
      rcases hf : findBin ((l, m₀) :: ms) (e binDim) with _ | m'
      · rfl
      · obtain ⟨q, hq, rfl⟩ := findBin_some hf
        exact (h q hq).2 e l'

theorem addLandBins_without {landMask : Option (DA L Bool)} {land : L → L} {lat lon : DA L ℝ} {ms ms' : List (L × DA L Bool)} (hl : ∀ m, landMask = some m → m.Without d) (h : ∀ q ∈ ms, q.2.Without d)
    (hm : addLandBins landMask land lat lon ms = .ok ms') : ∀ q ∈ ms', q.2.Without d := by
  unfold addLandBins at hm
  rcases landMask with _ | lm
  · cases hm; exact h
  · dsimp only at hm
    split at hm
    · cases hm
    · split at hm
      · cases hm
        intro q hq
        rcases List.mem_append.1 hq with hq | hq
        · exact h q hq
        · obtain ⟨q', hq', rfl⟩ := List.mem_map.1 hq
          exact (h q' hq').zip (hl lm rfl) _
      · cases hm

/-- Masks of regions have latitude, longitude and the bins, and no other dimension. -/
theorem regionsMask_without {binDim : Dim} (hb : d ≠ binDim) {rs : List (L × ((ℝ × ℝ) × (ℝ × ℝ)))} {landMask : Option (DA L Bool)} {land : L → L} {lat lon : DA L ℝ} (hl : ∀ m, landMask = some m → m.Without d)
    (hlat : lat.Without d) (hlon : lon.Without d) {m : DA L Bool} (hm : regionsMask binDim rs landMask land lat lon = .ok m) : m.Without d := by
  unfold regionsMask regionBins at hm
  rcases h1 : rs.mapM (regionBin lat lon) with e | ms
  · rw [h1] at hm; cases hm
  · rw [h1] at hm
    rcases h2 : addLandBins landMask land lat lon ms with e | ms'
    · simp only [bind, Except.bind, h2] at hm; cases hm
    · simp only [bind, Except.bind, h2] at hm
      refine concatBins_without hb (addLandBins_without hl (fun q hq => ?_) h2) hm
      obtain ⟨r, _, hr⟩ := mapM_out_mem h1 q hq
      exact regionBin_without hlat hlon hr

theorem scalar_without {V : Type} (x : V) : (DA.scalar x : DA L V).Without d := ⟨by simp [DA.scalar], fun _ _ => rfl⟩

/-- **C106** Area weights look at latitude alone. -/
theorem C106_area (hlat : "latitude" ≠ d) (order : List L) (a : DA L (FV ℝ)) :
    (Example.gridWeights order degrees a).Without d ∧ Example.gridWeights order degrees (a.repeated d C) = Example.gridWeights order degrees a := by
  have hin : "latitude" ∈ (a.repeated d C).dims ↔ "latitude" ∈ a.dims := by
    show "latitude" ∈ insert d a.dims ↔ _
    rw [Finset.mem_insert]
    exact or_iff_right hlat
  unfold Example.gridWeights gridAreaWeights
  simp only [hin]
  refine ⟨?_, trivial⟩
  split
  · next w h =>
    split at h
    · cases h; exact (scalar_without _).map _
    · rcases hw : latitudeWeights true (order.map degrees) with e | w'
      · rw [hw] at h; cases h
      · rw [hw] at h
        cases h
        refine DA.Without.map ⟨?_, fun e l => ?_⟩ _
        · show d ∉ ({"latitude"} : Finset Dim)
          rw [Finset.mem_singleton]
          exact fun hd => hlat hd.symm
        · show lookupLabel order w' (setLabel e d l "latitude") = _
          rw [setLabel, if_neg hlat]
  · exact scalar_without _

/-- **C106** Regions look at latitude and longitude alone. -/
theorem C106_regions (hlat : "latitude" ≠ d) (hlon : "longitude" ≠ d) (hreg : "region" ≠ d) (name : String → L) (a : DA L (FV ℝ)) :
    ((Example.regionBinning name degrees).createBinMask a).Without d ∧ (Example.regionBinning name degrees).createBinMask (a.repeated d C) = (Example.regionBinning name degrees).createBinMask a := by
  unfold Example.regionBinning
  dsimp only
  rw [coordArray_repeated hlat, coordArray_repeated hlon]
  refine ⟨?_, rfl⟩
  split
  · next m h => exact (regionsMask_without hreg.symm (fun _ h => by cases h) (coordArray_without hlat a) (coordArray_without hlon a) h).map _
  · exact scalar_without _

/-- **C106** Regions with a land-sea mask that does not have the dimension. -/
theorem C106_land_regions (hlat : "latitude" ≠ d) (hlon : "longitude" ≠ d) (hreg : "region" ≠ d) (name : String → L) (land : L → L) {fraction : DA L (FV ℝ)} (hf : fraction.Without d) (a : DA L (FV ℝ)) :
    ((Benchmark.regionBinning name land degrees fraction).createBinMask a).Without d ∧
      (Benchmark.regionBinning name land degrees fraction).createBinMask (a.repeated d C) = (Benchmark.regionBinning name land degrees fraction).createBinMask a := by
  unfold Benchmark.regionBinning
  dsimp only
  rw [coordArray_repeated hlat, coordArray_repeated hlon]
  refine ⟨?_, rfl⟩
  split
  · next m h => exact (regionsMask_without hreg.symm (fun _ h => by cases h; exact hf.map _) (coordArray_without hlat a) (coordArray_without hlon a) h).map _
  · exact scalar_without _

/-- **C106** The example evaluation: data repeated over a dimension that is also averaged over has the same scores. -/
theorem C106_example (hlat : "latitude" ≠ d) (hlon : "longitude" ≠ d) (hreg : "region" ≠ d) (hC : C.Nonempty) (sides : Sides) (name : String → L) (order : List L) (f : Example.Flags) (hf : d ∉ f.reduceDims)
    {m : FMetric L ℝ} (hm : m.Repeats sides d C) {p t : Vars (StatVar L (FV ℝ))} (hp : WithoutDim d p) (ht : WithoutDim d t) :
    metricAlone m (Example.aggregator name order degrees { f with reduceDims := d :: f.reduceDims }) (sides.ofPredictions (repeatVars d C) p) (sides.ofTargets (repeatVars d C) t) =
      (metricAlone m (Example.aggregator name order degrees f) p t).map (sameValuesAs d C) :=
  C106_floats (agg := Example.aggregator name order degrees f)
    ⟨hf, fun _ hw => by rw [List.mem_singleton.1 hw]; exact fun a => C106_area hlat order a, fun _ hb => by rw [List.mem_singleton.1 hb]; exact fun a => C106_regions hlat hlon hreg name a⟩ hm hC hp ht

/-- The root mean squared error of observations that are the same for every forecast center, against forecasts that are repeated over the centers: the score of one of them. -/
example (name : String → L) (order : List L) (f : Example.Flags) (hf : "center" ∉ f.reduceDims) (hC : C.Nonempty) {p t : Vars (StatVar L (FV ℝ))} (hp : WithoutDim "center" p) (ht : WithoutDim "center" t) :
    metricAlone rmse (Example.aggregator name order degrees { f with reduceDims := "center" :: f.reduceDims }) (repeatVars "center" C p) t =
      (metricAlone rmse (Example.aggregator name order degrees f) p t).map (sameValuesAs "center" C) :=
  C106_example (by decide +kernel) (by decide +kernel) (by decide +kernel) hC .predictions name order f hf C106_rmse hp ht

/-- An array on `latitude` that does not have `center`, and the same array repeated over two centers. -/
example : (⟨{"latitude"}, fun _ => {0, 1}, fun e => e "latitude"⟩ : DA ℕ ℕ).Without "center" ∧
    (⟨{"latitude"}, fun _ => {0, 1}, fun e => e "latitude"⟩ : DA ℕ ℕ).repeated "center" {7, 8} = ⟨{"center", "latitude"}, fun d => if d = "center" then {7, 8} else {0, 1}, fun e => e "latitude"⟩ :=
  ⟨⟨by decide +kernel, fun e l => by show setLabel e "center" l "latitude" = e "latitude"; rw [setLabel, if_neg (by decide +kernel)]⟩, rfl⟩

/-- **C106** The set of labels must not be empty: with no label there is nothing to average, and sum and weight are both 0. -/
theorem C106_no_labels : (⟨["center"], [], [], false, false⟩ : Aggregator ℚ (FV ℚ)).aggregateStatVar (StatVar.repeated "center" ∅ ⟨DA.scalar (.fin 3), none⟩) =
    .ok (some ((DA.scalar (.fin 0)).withLabels "center" ∅, (DA.scalar (.fin 0)).withLabels "center" ∅)) := by
  have h := repeated_aggregateStatVar (C := (∅ : Finset ℚ)) (d := "center") (agg := (⟨[], [], [], false, false⟩ : Aggregator ℚ (FV ℚ))) (C106_plain [] false false (by simp)) (stat := ⟨DA.scalar (.fin 3), none⟩)
    ⟨scalar_without _, fun _ h => by cases h⟩
  rw [show (⟨["center"], [], [], false, false⟩ : Aggregator ℚ (FV ℚ)) = (⟨[], [], [], false, false⟩ : Aggregator ℚ (FV ℚ)).averagedOver "center" from rfl, h]
  rfl

end grid
end WBX
