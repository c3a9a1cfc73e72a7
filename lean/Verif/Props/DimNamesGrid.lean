import Verif.Props.DimNamesMore

/-!
# C104: regions, the example evaluation, and names that meet the hypotheses
-/

set_option linter.unusedSectionVars false

namespace WBX
open DA Aggregator

section grid
variable {L : Type} [DecidableEq L] {σ : Equiv.Perm Dim} {degrees : L → ℝ}

theorem coordArray_redim (d : Dim) {V : Type} (stat : DA L V) : Example.coordArray degrees (σ d) (stat.redim σ) = (Example.coordArray degrees d stat).redim σ := by
  refine DA.extAll ?_ ?_ rfl
  · show ({σ d} : Finset Dim) = ({d} : Finset Dim).map σ.toEmbedding
    rw [Finset.map_singleton]; rfl
  · funext k
    show (if k = σ d then (stat.redim σ).coords (σ d) else ∅) = if σ.symm k = d then stat.coords d else ∅
    simp only [Equiv.symm_apply_eq, redim_coords]

theorem regionBin_redim (lat lon : DA L ℝ) (r : L × ((ℝ × ℝ) × (ℝ × ℝ))) :
    regionBin (lat.redim σ) (lon.redim σ) r = (regionBin lat lon r).map (fun q => (q.1, q.2.redim σ)) := by
  unfold regionBin regionToMask
  rcases latMask r.2.1 with e | f
  · rfl
  · show Except.ok _ = Except.ok _
    congr 1
    rw [redim_map, redim_map, redim_zip]

theorem findBin_image {B C : Type} (g : B → C) (l : L) : ∀ ms : List (L × B), findBin (ms.map (fun q => (q.1, g q.2))) l = (findBin ms l).map g
  | [] => rfl
  | q :: ms => by
    have ih := findBin_image g l ms
    unfold findBin at ih ⊢
    rw [List.map_cons, List.find?_cons, List.find?_cons]
    by_cases h : q.1 = l
    · simp [h]
    · simp only [h, decide_false]
      exact ih

theorem foldr_dims_redim (ms : List (L × DA L Bool)) :
    (ms.map (fun q => (q.1, q.2.redim σ))).foldr (fun q s => q.2.dims ∪ s) ∅ = (ms.foldr (fun (q : L × DA L Bool) (s : Finset Dim) => q.2.dims ∪ s) ∅).map σ.toEmbedding := by
  induction ms with
  | nil => rfl
  | cons q ms ih => rw [List.map_cons, List.foldr_cons, List.foldr_cons, ih, redim_dims, Finset.map_union]

theorem concatBins_redim (binDim : Dim) (ms : List (L × DA L Bool)) :
    concatBins (σ binDim) (ms.map (fun q => (q.1, q.2.redim σ))) = (concatBins binDim ms).map (DA.redim σ) := by
  cases ms with
  | nil => rfl
  | cons q ms =>
    obtain ⟨l, m⟩ := q
    show Except.ok _ = Except.ok _
    congr 1
    refine DA.extAll ?_ ?_ ?_
    · have := foldr_dims_redim (σ := σ) ((l, m) :: ms)
      show insert (σ binDim) _ = (insert binDim _ : Finset Dim).map σ.toEmbedding
      rw [Finset.map_insert]
      exact congrArg _ this
    · funext k
      show (if k = σ binDim then _ else (m.redim σ).coords k) = if σ.symm k = binDim then _ else m.coords (σ.symm k)
      simp only [Equiv.symm_apply_eq, List.map_cons, List.map_map, Function.comp_def, DA.redim]
    · funext e
      have := findBin_image (DA.redim σ) (e (σ binDim)) ((l, m) :: ms)
      simp only [List.map_cons] at this
      simp only [DA.redim] at this ⊢
      rw [this]
      cases findBin ((l, m) :: ms) (e (σ binDim)) <;> rfl

/-- **C104** Regions only look at latitude and longitude, and put their bins on a dimension `region`: what the other dimensions are called does not matter. -/
theorem C104_regions (hlat : σ "latitude" = "latitude") (hlon : σ "longitude" = "longitude") (hreg : σ "region" = "region") (name : String → L) (stat : DA L (FV ℝ)) :
    (Example.regionBinning name degrees).createBinMask (stat.redim σ) = ((Example.regionBinning name degrees).createBinMask stat).redim σ := by
  unfold Example.regionBinning
  dsimp only
  have h1 : Example.coordArray degrees "latitude" (stat.redim σ) = (Example.coordArray degrees "latitude" stat).redim σ := by
    have := coordArray_redim (σ := σ) (degrees := degrees) "latitude" stat
    rwa [hlat] at this
  have h2 : Example.coordArray degrees "longitude" (stat.redim σ) = (Example.coordArray degrees "longitude" stat).redim σ := by
    have := coordArray_redim (σ := σ) (degrees := degrees) "longitude" stat
    rwa [hlon] at this
  have key : regionsMask "region" (Example.regions name) none id (Example.coordArray degrees "latitude" (stat.redim σ)) (Example.coordArray degrees "longitude" (stat.redim σ)) =
      (regionsMask "region" (Example.regions name) none id (Example.coordArray degrees "latitude" stat) (Example.coordArray degrees "longitude" stat)).map (DA.redim σ) := by
    rw [h1, h2]
    unfold regionsMask regionBins addLandBins
    have hm := mapM_image (f := regionBin (Example.coordArray degrees "latitude" stat) (Example.coordArray degrees "longitude" stat))
      (f' := regionBin ((Example.coordArray degrees "latitude" stat).redim σ) ((Example.coordArray degrees "longitude" stat).redim σ)) (g := fun q => (q.1, q.2.redim σ)) (l := Example.regions name) (fun r _ => regionBin_redim _ _ r)
    rw [hm]
    rcases (Example.regions name).mapM (regionBin (Example.coordArray degrees "latitude" stat) (Example.coordArray degrees "longitude" stat)) with e | ms
    · rfl
    · have := concatBins_redim (σ := σ) "region" ms
      rw [hreg] at this
      exact this
  rw [key]
  rcases regionsMask "region" (Example.regions name) none id (Example.coordArray degrees "latitude" stat) (Example.coordArray degrees "longitude" stat) with e | m
  · exact (redim_scalar σ _).symm
  · rfl

/-- The area weights and regions of the example evaluation, with reductions over the dimensions under their other names. -/
theorem example_redims (hlat : σ "latitude" = "latitude") (hlon : σ "longitude" = "longitude") (hreg : σ "region" = "region") (name : String → L) (order : List L) (f : Example.Flags) :
    (Example.aggregator name order degrees f).Redims σ (Example.aggregator name order degrees { f with reduceDims := f.reduceDims.map σ }) := by
  refine ⟨rfl, rfl, rfl, .cons (fun a => ?_) .nil, .cons ⟨hreg.symm, C104_regions hlat hlon hreg name⟩ .nil⟩
  have := C104_area (σ := σ) "latitude" true order degrees a
  rw [hlat] at this
  exact this

/-- **C104** The example evaluation (area weights, regions): with init times, lead times, levels or members on dimensions called otherwise, and the flag `reduce_dims` naming them so, every metric
of this kind has the same values. Latitude and longitude must keep their names. -/
theorem C104_example (hlat : σ "latitude" = "latitude") (hlon : σ "longitude" = "longitude") (hreg : σ "region" = "region") (name : String → L) (order : List L) (f : Example.Flags)
    {m m' : FMetric L ℝ} (hm : m.Redims σ m') (p t : Vars (StatVar L (FV ℝ))) :
    metricAlone m' (Example.aggregator name order degrees { f with reduceDims := f.reduceDims.map σ }) (redimVars σ p) (redimVars σ t) =
      (metricAlone m (Example.aggregator name order degrees f) p t).map (redimValues σ) :=
  C104_redim (example_redims hlat hlon hreg name order f) hm p t

end grid

/-! ### Examples -/

/-- Members on `number` instead of `realization`. The name that the code derives from the name of the member dimension follows. -/
def memberNames : Equiv.Perm Dim := Equiv.swap "realization" "number" * Equiv.swap "realization_PSEUDO_FOR_TARGETS" "number_PSEUDO_FOR_TARGETS"

/-- `memberNames` meets the hypotheses of `C104_crps` and `C104_example`. -/
example : memberNames "realization" = "number" ∧ memberNames ("realization" ++ "_PSEUDO_FOR_TARGETS") = memberNames "realization" ++ "_PSEUDO_FOR_TARGETS" ∧
    memberNames "ensemble_dim_2" = "ensemble_dim_2" ∧ memberNames "latitude" = "latitude" ∧ memberNames "longitude" = "longitude" ∧ memberNames "region" = "region" := by
  refine ⟨?_, ?_, ?_, ?_, ?_, ?_⟩ <;> decide +kernel

/-- The CRPS of the example evaluation with members on `number`. -/
example {L : Type} [DecidableEq L] (argsort : List (FV ℝ) → List ℕ) (members : List L) (name : String → L) (order : List L) (degrees : L → ℝ) (f : Example.Flags) (p t : Vars (StatVar L (FV ℝ))) :
    metricAlone (crpsEnsemble argsort members "number" false true false) (Example.aggregator name order degrees { f with reduceDims := f.reduceDims.map memberNames }) (redimVars memberNames p) (redimVars memberNames t) =
      (metricAlone (crpsEnsemble argsort members "realization" false true false) (Example.aggregator name order degrees f) p t).map (redimValues memberNames) := by
  have h : (crpsEnsemble (L := L) (K := ℝ) argsort members "realization" false true false).Redims memberNames (crpsEnsemble argsort members (memberNames "realization") false true false) :=
    C104_crps argsort members false true false (by decide +kernel) (by decide +kernel)
  rw [show memberNames "realization" = "number" from by decide +kernel] at h
  exact C104_example (by decide +kernel) (by decide +kernel) (by decide +kernel) name order f h p t

/-- An array on `realization` and `latitude`, and the same array on `number` and `latitude`. -/
example : (⟨{"realization", "latitude"}, fun d => if d = "realization" then {1, 2} else {0}, fun e => e "realization" + e "latitude"⟩ : DA ℕ ℕ).redim memberNames =
    ⟨{"number", "latitude"}, fun d => if d = "number" then {1, 2} else {0}, fun e => e "number" + e "latitude"⟩ := by
  refine DA.extAll (by decide +kernel) ?_ ?_
  · funext k
    show (if memberNames.symm k = "realization" then ({1, 2} : Finset ℕ) else {0}) = _
    have h : memberNames.symm k = "realization" ↔ k = "number" := by rw [Equiv.symm_apply_eq, show memberNames "realization" = "number" from by decide +kernel]
    exact if_congr h rfl rfl
  · funext e
    show e (memberNames "realization") + e (memberNames "latitude") = _
    rw [show memberNames "realization" = "number" from by decide +kernel, show memberNames "latitude" = "latitude" from by decide +kernel]

/-- An ensemble with a dimension that is called `ensemble_dim_2`. -/
example : crpsSpread (K := ℚ) (fun _ => []) [1, 2] "realization" false true "predictions" false ⟨⟨{"realization", "ensemble_dim_2"}, fun _ => {1, 2}, fun e => .fin (e "realization")⟩, none⟩
    (⟨DA.scalar .nan, none⟩ : StatVar ℚ (FV ℚ)) = .error .valueError :=
  C104_reserved_name _ _ _ _ _ _ _ (by simp) (by simp)

end WBX
