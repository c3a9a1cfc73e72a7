import Verif.Props.CombineAll

set_option linter.unusedSectionVars false

/-!
# C82: combining the results of the public benchmark, end to end
-/

namespace WBX.CombineResults
open WBX DA
variable {V : Type} [IsNull V]

/-- The result files of the benchmark, by model, year and resolution: every existing file is one of the benchmark, not empty, no variable is called like
a display name, no array has a dimension `model`, `resolution` or `year`, and arrays of one variable have the same dimensions in all files. -/
structure BenchmarkResults (models : List (String × String)) (raw : String → String → String → Option (File V)) : Prop where
  files : ∀ k ∈ allKeys models, ∀ ds, raw k.1.1 k.2.1 k.2.2 = some ds → BenchmarkFile ds ∧ ds ≠ []
  display : ∀ k ∈ allKeys models, ∀ ds, raw k.1.1 k.2.1 k.2.2 = some ds → ∀ kv ∈ ds, ∀ m v, vectorName kv.1 = m ++ "." ++ v → NoDot m → v ∉ variableNames.map Prod.snd
  free : ∀ k ∈ allKeys models, ∀ ds, raw k.1.1 k.2.1 k.2.2 = some ds → ∀ kv ∈ ds, "model" ∉ kv.2.dims ∧ "resolution" ∉ kv.2.dims ∧ "year" ∉ kv.2.dims
  sameDims : ∀ k ∈ allKeys models, ∀ k' ∈ allKeys models, ∀ ds ds', raw k.1.1 k.2.1 k.2.2 = some ds → raw k'.1.1 k'.2.1 k'.2.2 = some ds' →
    ∀ kv ∈ ds, ∀ kv' ∈ ds', ∀ m m' v, vectorName kv.1 = m ++ "." ++ v → vectorName kv'.1 = m' ++ "." ++ v → NoDot m → NoDot m' → kv.2.dims = kv'.2.dims

/-- Every metric of every file has a display name. -/
def KnownMetrics (mn models : List (String × String)) (raw : String → String → String → Option (File V)) : Prop :=
  ∀ k ∈ allKeys models, ∀ ds, raw k.1.1 k.2.1 k.2.2 = some ds → ∀ kv ∈ ds, ∀ m v, vectorName kv.1 = m ++ "." ++ v → NoDot m → (pyGet? m mn).isSome

/-- Every array of a processed file comes from arrays of the file. -/
theorem processed_mem (fill : V) {mn : List (String × String)} {ds out : File V} (hb : BenchmarkFile ds) (h : processResults fill mn ds = .ok out) :
    (out.map Prod.fst).Nodup ∧ ∀ w x, (w, x) ∈ out → ∃ name a m v, (name, a) ∈ ds ∧ vectorName name = m ++ "." ++ v ∧ NoDot m ∧ NoDot v ∧ w = variableName v ∧ x.dims = insert "metric" a.dims := by
  obtain ⟨L, he, hL, hn, hreg, hdims⟩ := hb.entries
  obtain ⟨hout, hnd, hmet⟩ := process_arrays fill mn he hL hn h
  constructor
  · rw [hout, List.map_map]
    exact hnd
  · intro w x hx
    rw [hout] at hx
    obtain ⟨v, hv, e⟩ := List.mem_map.mp hx
    obtain ⟨e1, e2⟩ := Prod.mk.inj e
    obtain ⟨m, a, hmv⟩ := mem_variablesIn.mp hv
    obtain ⟨kv, hkv, e3, e4⟩ := entry_of_name he hmv
    refine ⟨kv.1, kv.2, m, v, hkv, e3, (hL _ hmv).1, (hL _ hmv).2, e1.symm, ?_⟩
    rw [← e2, e4]
    unfold processedArray
    rw [relabelArray_dims, relabelArray_dims]
    exact stacked_facts fill hdims hmv

/-- A value of a processed file that is not missing is a value of the file. -/
theorem processed_source (fill : V) {mn : List (String × String)} (hmn : (mn.map Prod.snd).Nodup) {ds out : File V} (hb : BenchmarkFile ds)
    (hshare : ∀ kv ∈ ds, ∀ kv' ∈ ds, ∀ d ∈ kv.2.dims, d ∈ kv'.2.dims → kv.2.coords d = kv'.2.coords d) (h : processResults fill mn ds = .ok out)
    {w : String} {x : DA String V} (hx : (w, x) ∈ out) {e : Dim → String} (hdom : x.InDom e) (hval : x.val e ≠ fill) :
    ∃ name a m v r, (name, a) ∈ ds ∧ vectorName name = m ++ "." ++ v ∧ NoDot m ∧ NoDot v ∧ w = variableName v ∧ pyGet? m mn = some (e "metric") ∧ renameRegion r = some (e "region") ∧
      a.InDom (setLabel e "region" r) := by
  obtain ⟨hnd, hmem⟩ := processed_mem fill hb h
  obtain ⟨name₀, a₀, m₀, v, h₀, hn₀, hm₀, hv, rfl, hxd⟩ := hmem w x hx
  obtain ⟨L, he, hL, hn, hreg, hdims⟩ := hb.entries
  obtain ⟨hout, hnd', hmet⟩ := process_arrays fill mn he hL hn h
  have hmv : (m₀, v, a₀) ∈ L := by
    have : (vectorName name₀, a₀) ∈ fileOf L := by rw [← he]; exact List.mem_map.mpr ⟨(name₀, a₀), h₀, rfl⟩
    obtain ⟨⟨m2, v2, a2⟩, hx2, e'⟩ := List.mem_map.mp this
    obtain ⟨e1, e2⟩ := Prod.mk.inj e'
    dsimp only at e1 e2
    rw [hn₀] at e1
    obtain ⟨rfl, rfl⟩ := dotted_inj (hL _ hx2).1 hm₀ e1
    rw [← e2]
    exact hx2
  have hx' : x = processedArray fill mn L v := by
    have h1 : (variableName v, processedArray fill mn L v) ∈ out := by
      rw [hout]
      exact List.mem_map.mpr ⟨v, mem_variablesIn.mpr ⟨m₀, a₀, hmv⟩, rfl⟩
    exact (Prod.mk.inj (List.inj_on_of_nodup_map hnd hx h1 rfl)).2
  subst hx'
  have hd := stacked_facts fill hdims hmv
  have hdr : "region" ∈ (stacked fill (partsOf L v)).dims := by rw [hd]; exact Finset.mem_insert_of_mem (hreg _ hmv).1
  have hdm : "metric" ∈ (reindexTo fill (labelsOf (allStacks fill L)) (stacked fill (partsOf L v))).dims := by
    show "metric" ∈ (stacked fill (partsOf L v)).dims
    rw [hd]
    exact Finset.mem_insert_self _ _
  have h1 := hdom "region" (by rw [hxd]; exact Finset.mem_insert_of_mem (hreg _ hmv).1)
  have h2 := hdom "metric" (by rw [hxd]; exact Finset.mem_insert_self _ _)
  unfold processedArray at h1 h2
  rw [relabelArray_coords_self (by rw [relabelArray_dims]; exact hdr), relabelArray_coords_other (by decide)] at h1
  rw [relabelArray_coords_other (by decide), relabelArray_coords_self hdm] at h2
  obtain ⟨r, hr, hr'⟩ := Finset.mem_image.mp h1
  obtain ⟨m2, hm2, hm2'⟩ := Finset.mem_image.mp h2
  have hr : r ∈ labelsOf (allStacks fill L) "region" := hr
  have hm2 : m2 ∈ labelsOf (allStacks fill L) "metric" := hm2
  obtain ⟨r', hr2⟩ := region_some (labels_region fill (fun x hx => (hreg x hx).2.2) hr)
  obtain ⟨m3, hm3⟩ := Option.isSome_iff_exists.mp (hmet m2 hm2)
  rw [hr2, Option.getD_some] at hr'
  rw [hm3, Option.getD_some] at hm2'
  rw [processed_val fill hmn hreg hdims hmv hm2 hm3 hr hr2 hm2'.symm hr'.symm] at hval
  unfold reindexTo at hval
  dsimp only at hval
  split_ifs at hval with hin
  · have hmet2 := hin "metric" hdm
    have e1 : setLabel (setLabel e "region" r) "metric" m2 "metric" = m2 := by unfold setLabel; rw [if_pos rfl]
    rw [e1] at hmet2
    have hmet2 : m2 ∈ ((partsOf L v).map Prod.fst).toFinset := hmet2
    rw [List.mem_toFinset, List.mem_map] at hmet2
    obtain ⟨⟨m4, a⟩, h4, rfl⟩ := hmet2
    have h4 := mem_partsOf.mp h4
    obtain ⟨kv, hkv, e3, e4⟩ := entry_of_name he h4
    refine ⟨kv.1, a, m4, v, r, by rw [show a = kv.2 from e4.symm]; exact hkv, e3, (hL _ h4).1, (hL _ h4).2, rfl, by rw [hm3, hm2'], by rw [hr2, hr'], ?_⟩
    intro d hda
    have hdm' : d ≠ "metric" := fun h => (hreg _ h4).2.1 (h ▸ hda)
    have h5 := hin d (by rw [stacked_facts fill hdims h4]; exact Finset.mem_insert_of_mem hda)
    have e5 : setLabel (setLabel e "region" r) "metric" m4 d = setLabel e "region" r d := by
      show (if d = "metric" then m4 else setLabel e "region" r d) = _
      rw [if_neg hdm']
    rw [e5] at h5
    have h6 : setLabel e "region" r d ∈ DA.outerCoords ((partsOf L v).map Prod.snd) d := by
      have : setLabel e "region" r d ∈ if d = "metric" then ((partsOf L v).map Prod.fst).toFinset else DA.outerCoords ((partsOf L v).map Prod.snd) d := h5
      rwa [if_neg hdm'] at this
    obtain ⟨b, hb', hdb, hlb⟩ := mem_outerCoords.mp h6
    obtain ⟨⟨m5, b'⟩, hm5, rfl⟩ := List.mem_map.mp hb'
    obtain ⟨kv2, hkv2, _, e6⟩ := entry_of_name he (mem_partsOf.mp hm5)
    have := hshare kv hkv kv2 hkv2 d (by rw [e4]; exact hda) (by rw [e6]; exact hdb)
    rw [e4, e6] at this
    show setLabel e "region" r d ∈ a.coords d
    rw [this]
    exact hlb
  · exact absurd rfl hval

/-- The processed files. -/
noncomputable def processedFiles (fill : V) (mn : List (String × String)) (raw : String → String → String → Option (File V)) (k : Key) : Option (File V) :=
  (raw k.1.1 k.2.1 k.2.2).bind (fun ds => match processResults fill mn ds with
    | .ok out => some out
    | .error _ => none)

theorem processedFiles_some {fill : V} {mn : List (String × String)} {raw : String → String → String → Option (File V)} {k : Key} {out : File V} :
    processedFiles fill mn raw k = some out ↔ ∃ ds, raw k.1.1 k.2.1 k.2.2 = some ds ∧ processResults fill mn ds = .ok out := by
  unfold processedFiles
  rw [Option.bind_eq_some_iff]
  constructor
  · rintro ⟨ds, h1, h2⟩
    refine ⟨ds, h1, ?_⟩
    cases h : processResults fill mn ds with
    | ok o => rw [h] at h2; rw [Option.some.inj h2]
    | error er => rw [h] at h2; cases h2
  · rintro ⟨ds, h1, h2⟩
    exact ⟨ds, h1, by rw [h2]⟩

theorem mem_placedFiles {files : Key → Option (File V)} {keys : List Key} {s : File V} : s ∈ placedFiles files keys ↔ ∃ k ∈ keys, ∃ ds, files k = some ds ∧ s = placed k ds := by
  unfold placedFiles
  rw [List.mem_filterMap]
  constructor
  · rintro ⟨k, hk, h⟩
    obtain ⟨ds, h1, h2⟩ := Option.map_eq_some_iff.mp h
    exact ⟨k, hk, ds, h1, h2.symm⟩
  · rintro ⟨k, hk, ds, h1, h2⟩
    exact ⟨k, hk, by rw [h1, h2]; rfl⟩

theorem mem_placed {k : Key} {ds : File V} {v : String} {a : DA String V} : (v, a) ∈ placed k ds ↔ ∃ b, (v, b) ∈ ds ∧ a = expandDims k.1.2 k.2.2 k.2.1 b := by
  unfold placed
  rw [List.mem_map]
  constructor
  · rintro ⟨⟨v', b⟩, hb, e⟩
    obtain ⟨e1, e2⟩ := Prod.mk.inj e
    dsimp only at e1 e2
    subst e1
    exact ⟨b, hb, e2.symm⟩
  · rintro ⟨b, hb, rfl⟩
    exact ⟨(v, b), hb, rfl⟩

theorem placedFiles_pairwise {files : Key → Option (File V)} {R : File V → File V → Prop} {Q : Key → Key → Prop} : ∀ (keys : List Key), keys.Pairwise Q →
    (∀ k ∈ keys, ∀ k' ∈ keys, Q k k' → ∀ ds ds', files k = some ds → files k' = some ds' → R (placed k ds) (placed k' ds')) → (placedFiles files keys).Pairwise R
  | [], _, _ => List.Pairwise.nil
  | k :: keys, hp, h => by
    rw [List.pairwise_cons] at hp
    have ih := placedFiles_pairwise keys hp.2 (fun a ha b hb => h a (by simp [ha]) b (by simp [hb]))
    unfold placedFiles at ih ⊢
    rw [List.filterMap_cons]
    cases hk : files k with
    | none => exact ih
    | some ds =>
      rw [Option.map_some]
      refine List.Pairwise.cons ?_ ih
      intro s hs
      obtain ⟨k', hk', ds', h1, rfl⟩ := mem_placedFiles.mp hs
      exact h k (by simp) k' (by simp [hk']) (hp.1 k' hk') ds ds' hk h1

/-- The dimensions of processed arrays. -/
theorem processed_free (fill : V) {mn models : List (String × String)} {raw : String → String → String → Option (File V)} (hb : BenchmarkResults models raw) {k : Key} (hk : k ∈ allKeys models)
    {ds out : File V} (hds : raw k.1.1 k.2.1 k.2.2 = some ds) (h : processResults fill mn ds = .ok out) {w : String} {x : DA String V} (hx : (w, x) ∈ out) :
    "model" ∉ x.dims ∧ "resolution" ∉ x.dims ∧ "year" ∉ x.dims := by
  obtain ⟨name, a, m, v, ha, _, _, _, _, hd⟩ := (processed_mem fill (hb.files k hk ds hds).1 h).2 w x hx
  obtain ⟨h1, h2, h3⟩ := hb.free k hk ds hds _ ha
  rw [hd]
  simp only [Finset.mem_insert, not_or]
  exact ⟨⟨by decide, h1⟩, ⟨by decide, h2⟩, by decide, h3⟩

/-- All existing files merged. -/
theorem combine_merged {fill : V} (hfill : ∀ x : V, IsNull.isnull x = true ↔ x = fill) {mn models : List (String × String)} (hmodels : (models.map Prod.snd).Nodup)
    {raw : String → String → String → Option (File V)} (hb : BenchmarkResults models raw) (hknown : KnownMetrics mn models raw) :
    ∃ out, combine fill models (fun m y r => (raw m y r).map (processResults fill mn)) = .ok out ∧ Merged fill (placedFiles (processedFiles fill mn raw) (allKeys models)) out := by
  have hok : ∀ k ∈ allKeys models, ∀ ds, raw k.1.1 k.2.1 k.2.2 = some ds → ∃ out, processResults fill mn ds = .ok out := by
    intro k hk ds hds
    exact C82_processes fill (hb.files k hk ds hds).1 (hb.files k hk ds hds).2 (hb.display k hk ds hds) (hknown k hk ds hds)
  have he : combine fill models (fun m y r => (raw m y r).map (processResults fill mn)) = (placedFiles (processedFiles fill mn raw) (allKeys models)).foldlM (merge fill) [] := by
    apply combine_eq
    intro k hk
    cases hds : raw k.1.1 k.2.1 k.2.2 with
    | none =>
      unfold processedFiles
      rw [hds]
      rfl
    | some ds =>
      obtain ⟨out, ho⟩ := hok k hk ds hds
      rw [processedFiles_some.mpr ⟨ds, hds, ho⟩, Option.map_some, Option.map_some, ho]
  rw [he]
  have hm := merge_all hfill (placedFiles (processedFiles fill mn raw) (allKeys models)) [] [] (merged_nil fill) ?_ ?_ ?_
  · simpa using hm
  · intro s hs
    obtain ⟨k, hk, p, hp, rfl⟩ := mem_placedFiles.mp hs
    obtain ⟨ds, hds, ho⟩ := processedFiles_some.mp hp
    have := (processed_mem fill (hb.files k hk ds hds).1 ho).1
    unfold placed
    rw [List.map_map]
    exact this
  · rw [List.nil_append]
    refine placedFiles_pairwise _ (allKeys_pairwise hmodels) ?_
    intro k hk k' hk' hQ p p' hp hp' v a a' ha ha' e hae ha'e
    obtain ⟨ds, hds, ho⟩ := processedFiles_some.mp hp
    obtain ⟨ds', hds', ho'⟩ := processedFiles_some.mp hp'
    obtain ⟨b, hbm, rfl⟩ := mem_placed.mp ha
    obtain ⟨b', hbm', rfl⟩ := mem_placed.mp ha'
    obtain ⟨f1, f2, f3⟩ := processed_free fill hb hk hds ho hbm
    obtain ⟨g1, g2, g3⟩ := processed_free fill hb hk' hds' ho' hbm'
    exact hQ e ((expandDims_inDom f1 f2 f3).mp hae).1 ((expandDims_inDom g1 g2 g3).mp ha'e).1
  · rw [List.nil_append]
    refine placedFiles_pairwise _ (allKeys_pairwise hmodels) ?_
    intro k hk k' hk' _ p p' hp hp' v a a' ha ha'
    obtain ⟨ds, hds, ho⟩ := processedFiles_some.mp hp
    obtain ⟨ds', hds', ho'⟩ := processedFiles_some.mp hp'
    obtain ⟨b, hbm, rfl⟩ := mem_placed.mp ha
    obtain ⟨b', hbm', rfl⟩ := mem_placed.mp ha'
    obtain ⟨name, c, m, u, hc, hn, hmd, hud, e1, hd⟩ := (processed_mem fill (hb.files k hk ds hds).1 ho).2 v b hbm
    obtain ⟨name', c', m', u', hc', hn', hmd', hud', e1', hd'⟩ := (processed_mem fill (hb.files k' hk' ds' hds').1 ho').2 v b' hbm'
    have huu : u = u' := C82_display (hb.display k hk ds hds _ hc m u hn hmd) (hb.display k' hk' ds' hds' _ hc' m' u' hn' hmd') (e1.symm.trans e1')
    subst huu
    have := hb.sameDims k hk k' hk' ds ds' hds hds' _ hc _ hc' m m' u hn hn' hmd hmd'
    dsimp only at this
    show insert "model" (insert "resolution" (insert "year" b.dims)) = insert "model" (insert "resolution" (insert "year" b'.dims))
    rw [hd, hd', this]

/-- C82: combining the results. The files of the benchmark that exist are combined without a conflict, and the array `<metric>.<variable>` of every file
is found under the display name of its variable, at the display names of the model, of the metric and of the regions and at the resolution and year of the
file, with all its labels and values. -/
theorem C82_combined {fill : V} (hfill : ∀ x : V, IsNull.isnull x = true ↔ x = fill) {mn models : List (String × String)} (hmn : (mn.map Prod.snd).Nodup) (hmodels : (models.map Prod.snd).Nodup)
    {raw : String → String → String → Option (File V)} (hb : BenchmarkResults models raw) (hknown : KnownMetrics mn models raw) :
    ∃ out, combine fill models (fun m y r => (raw m y r).map (processResults fill mn)) = .ok out ∧ (out.map Prod.fst).Nodup ∧
      ∀ model shown year resolution ds, (model, shown) ∈ models → year ∈ years → resolution ∈ resolutions → raw model year resolution = some ds →
      ∀ name m v a, (name, a) ∈ ds → vectorName name = m ++ "." ++ v → NoDot m → NoDot v →
      ∃ x m', pyGet? (variableName v) out = some x ∧ pyGet? m mn = some m' ∧ x.dims = {"model", "resolution", "year", "metric"} ∪ a.dims ∧
        shown ∈ x.coords "model" ∧ resolution ∈ x.coords "resolution" ∧ year ∈ x.coords "year" ∧ m' ∈ x.coords "metric" ∧
        (∀ d ∈ a.dims, d ≠ "region" → a.coords d ⊆ x.coords d) ∧ (∀ r ∈ a.coords "region", ∃ r' ∈ x.coords "region", renameRegion r = some r') ∧
        ∀ (e : Dim → String) r, e "model" = shown → e "resolution" = resolution → e "year" = year → e "metric" = m' → renameRegion r = some (e "region") → a.InDom (setLabel e "region" r) →
          x.val e = a.val (setLabel (setLabel e "region" r) "metric" m) := by
  obtain ⟨out, ho, hM⟩ := combine_merged hfill hmodels hb hknown
  refine ⟨out, ho, hM.nodup, ?_⟩
  intro model shown year resolution ds hmodel hyear hres hds name m v a ha hname hm hv
  have hk : ((model, shown), year, resolution) ∈ allKeys models := mem_allKeys.mpr ⟨hmodel, hyear, hres⟩
  obtain ⟨p, hp⟩ := C82_processes fill (hb.files _ hk ds hds).1 (hb.files _ hk ds hds).2 (hb.display _ hk ds hds) (hknown _ hk ds hds)
  obtain ⟨x, m', hx, hm', hxd, hml, hlab, hregl, hval⟩ := C82_values fill hmn (hb.files _ hk ds hds).1 hp ha hname hm hv
  have hxp := pyGet?_mem hx
  have hs : placed ((model, shown), year, resolution) p ∈ placedFiles (processedFiles fill mn raw) (allKeys models) :=
    mem_placedFiles.mpr ⟨_, hk, p, processedFiles_some.mpr ⟨ds, hds, hp⟩, rfl⟩
  have hxs : (variableName v, expandDims shown resolution year x) ∈ placed ((model, shown), year, resolution) p := mem_placed.mpr ⟨x, hxp, rfl⟩
  obtain ⟨⟨w, y⟩, hy, e⟩ := List.mem_map.mp ((hM.mem (variableName v)).mpr ⟨_, hs, List.mem_map.mpr ⟨_, hxs, rfl⟩⟩)
  dsimp only at e
  subst e
  obtain ⟨f1, f2, f3⟩ := processed_free fill hb hk hds hp hxp
  have hlabels : ∀ d ∈ (expandDims shown resolution year x).dims, ∀ l ∈ (expandDims shown resolution year x).coords d, l ∈ y.coords d := by
    intro d hd l hl
    exact (hM.labels _ y hy d l).mpr ⟨_, hs, mem_labelsOf.mpr ⟨_, hxs, hd, hl⟩⟩
  have hother : ∀ d ∈ x.dims, (expandDims shown resolution year x).coords d = x.coords d := by
    intro d hd
    have n1 : d ≠ "model" := by rintro rfl; exact f1 hd
    have n2 : d ≠ "resolution" := by rintro rfl; exact f2 hd
    have n3 : d ≠ "year" := by rintro rfl; exact f3 hd
    simp [expandDims, n1, n2, n3]
  have hold : ∀ d ∈ x.dims, ∀ l ∈ x.coords d, l ∈ y.coords d := by
    intro d hd l hl
    exact hlabels d (by simp [expandDims, hd]) l (by rw [hother d hd]; exact hl)
  have hreg : "region" ∈ a.dims := ((hb.files _ hk ds hds).1.regions _ ha).1
  refine ⟨y, m', (pyGet?_eq_some hM.nodup _ _).mpr hy, hm', ?_, ?_, ?_, ?_, ?_, ?_, ?_, ?_⟩
  · rw [hM.dims _ y hy _ hs _ hxs]
    show insert "model" (insert "resolution" (insert "year" x.dims)) = _
    rw [hxd]
    ext d
    simp only [Finset.mem_insert, Finset.mem_union, Finset.mem_singleton]
    tauto
  · exact hlabels "model" (by simp [expandDims]) _ (by simp [expandDims])
  · exact hlabels "resolution" (by simp [expandDims]) _ (by simp [expandDims])
  · exact hlabels "year" (by simp [expandDims]) _ (by simp [expandDims])
  · exact hold "metric" (by rw [hxd]; exact Finset.mem_insert_self _ _) _ hml
  · intro d hd hdr l hl
    exact hold d (by rw [hxd]; exact Finset.mem_insert_of_mem hd) l (hlab d hd hdr hl)
  · intro r hr
    obtain ⟨r', hr', e⟩ := hregl r hr
    exact ⟨r', hold "region" (by rw [hxd]; exact Finset.mem_insert_of_mem hreg) _ hr', e⟩
  · intro e r e1 e2 e3 em er hdom
    have hin : x.InDom e := by
      intro d hd
      rw [hxd, Finset.mem_insert] at hd
      by_cases hdm : d = "metric"
      · subst hdm
        rw [em]
        exact hml
      · have hda := hd.resolve_left hdm
        have h1 := hdom d hda
        by_cases hdr : d = "region"
        · subst hdr
          unfold setLabel at h1
          rw [if_pos rfl] at h1
          obtain ⟨r', hr', e'⟩ := hregl r h1
          rw [er] at e'
          rw [Option.some.inj e']
          exact hr'
        · have e5 : setLabel e "region" r d = e d := by
            show (if d = "region" then r else e d) = _
            rw [if_neg hdr]
          rw [e5] at h1
          exact hlab d hda hdr h1
    have h1 := hM.value _ y hy _ hs _ hxs e ((expandDims_inDom f1 f2 f3).mpr ⟨⟨e1, e2, e3⟩, hin⟩)
    rw [h1]
    exact hval e r _ em rfl er hdom

/-- C82: nothing else is in the combined results. Every value that is not missing comes from the file of that model, resolution and year, from the array of
that metric and variable, and from that region. -/
theorem C82_source {fill : V} (hfill : ∀ x : V, IsNull.isnull x = true ↔ x = fill) {mn models : List (String × String)} (hmn : (mn.map Prod.snd).Nodup) (hmodels : (models.map Prod.snd).Nodup)
    {raw : String → String → String → Option (File V)} (hb : BenchmarkResults models raw) (hknown : KnownMetrics mn models raw)
    (hshare : ∀ k ∈ allKeys models, ∀ ds, raw k.1.1 k.2.1 k.2.2 = some ds → ∀ kv ∈ ds, ∀ kv' ∈ ds, ∀ d ∈ kv.2.dims, d ∈ kv'.2.dims → kv.2.coords d = kv'.2.coords d)
    {out : File V} (h : combine fill models (fun m y r => (raw m y r).map (processResults fill mn)) = .ok out) {w : String} {x : DA String V} (hx : (w, x) ∈ out) {e : Dim → String}
    (hval : x.val e ≠ fill) :
    ∃ model ds name a m v r, (model, e "model") ∈ models ∧ raw model (e "year") (e "resolution") = some ds ∧ (name, a) ∈ ds ∧ vectorName name = m ++ "." ++ v ∧ NoDot m ∧ NoDot v ∧
      w = variableName v ∧ pyGet? m mn = some (e "metric") ∧ renameRegion r = some (e "region") ∧ a.InDom (setLabel e "region" r) := by
  obtain ⟨out', ho, hM⟩ := combine_merged hfill hmodels hb hknown
  have : out' = out := Except.ok.inj (ho.symm.trans h)
  subst this
  have hsrc : ∃ s ∈ placedFiles (processedFiles fill mn raw) (allKeys models), ∃ a, (w, a) ∈ s ∧ a.InDom e := by
    by_contra hcon
    push Not at hcon
    exact hval (hM.empty w x hx e (fun s hs a ha => hcon s hs a ha))
  obtain ⟨s, hs, b, hbs, hin⟩ := hsrc
  have hv := hM.value w x hx s hs b hbs e hin
  obtain ⟨k, hk, p, hp, rfl⟩ := mem_placedFiles.mp hs
  obtain ⟨ds, hds, hpr⟩ := processedFiles_some.mp hp
  obtain ⟨c, hc, rfl⟩ := mem_placed.mp hbs
  obtain ⟨f1, f2, f3⟩ := processed_free fill hb hk hds hpr hc
  obtain ⟨⟨e1, e2, e3⟩, hin'⟩ := (expandDims_inDom f1 f2 f3).mp hin
  have hcv : c.val e ≠ fill := by
    intro hc'
    exact hval (hv.trans hc')
  obtain ⟨name, a, m, v, r, h1, h2, h3, h4, h5, h6, h7, h8⟩ := processed_source fill hmn (hb.files k hk ds hds).1 (hshare k hk ds hds) hpr hc hin' hcv
  refine ⟨k.1.1, ds, name, a, m, v, r, ?_, ?_, h1, h2, h3, h4, h5, h6, h7, h8⟩
  · rw [e1]
    exact (mem_allKeys.mp hk).1
  · rw [e2, e3]
    exact hds

/-- C82: one file that cannot be processed, for instance one with a metric that has no display name, makes the whole combination fail. -/
theorem C82_one_bad_file {fill : V} {mn models : List (String × String)} {raw : String → String → String → Option (File V)} {model shown year resolution : String} (hmodel : (model, shown) ∈ models)
    (hyear : year ∈ years) (hres : resolution ∈ resolutions) {ds : File V} (hds : raw model year resolution = some ds) {er : Err} (h : processResults fill mn ds = .error er) :
    ∃ er', combine fill models (fun m y r => (raw m y r).map (processResults fill mn)) = .error er' := by
  refine combine_error fill (k := ((model, shown), year, resolution)) (mem_allKeys.mpr ⟨hmodel, hyear, hres⟩) (er := er) ?_
  show (raw model year resolution).map _ = _
  rw [hds, Option.map_some, h]

/-- C82: the combined results are written if some array has lead times. -/
theorem C82_main {fill : V} {models : List (String × String)} {files : String → String → String → Option (Except Err (File V))} {out : File V} (h : combine fill models files = .ok out) :
    main fill models files = if ∃ kv ∈ out, "lead_time" ∈ kv.2.dims then .ok out else .error .attributeError := by
  unfold main
  rw [h]
  show (if ∀ kv ∈ out, "lead_time" ∉ kv.2.dims then Except.error Err.attributeError else Except.ok out) = _
  by_cases hc : ∃ kv ∈ out, "lead_time" ∈ kv.2.dims
  · rw [if_pos hc, if_neg (by push Not; exact hc)]
  · rw [if_neg hc, if_pos (by push Not at hc; exact hc)]

/-- C82 (finding): if no file exists, for instance because the directory is wrong, every file is reported as missing and the program then ends with an
`AttributeError` about `lead_time`. -/
theorem C82_no_files (fill : V) (models : List (String × String)) : main fill models (fun _ _ _ => none) = .error .attributeError := by
  have h : combine fill models (fun _ _ _ => none) = .ok ([] : File V) := by
    unfold combine
    generalize models.flatMap _ = l
    induction l with
    | nil => rfl
    | cons k l ih => rw [List.foldlM_cons]; exact ih
  rw [C82_main h, if_neg (by simp)]

/-! ### An example: two models with different variables -/

/-- Errors for one lead time, globally and over land. -/
def exErrors (g l : ℚ) : DA String (FV ℚ) where
  dims := {"region", "lead_time"}
  coords := fun d => if d = "region" then {"global", "global_land"} else if d = "lead_time" then {"6"} else ∅
  val := fun e => if e "region" = "global" then .fin g else .fin l

def exHres : File (FV ℚ) := [("rmse.temperature", exErrors 1 2), ("vector_rmse.wind", exErrors 3 4)]

def exFuxi : File (FV ℚ) := [("rmse.temperature", exErrors 5 6)]

/-- Only two of the files exist. -/
def exRaw (model year resolution : String) : Option (File (FV ℚ)) :=
  if model = "hres_vs_era5" ∧ year = "2020" ∧ resolution = "64x32" then some exHres
  else if model = "fuxi_vs_era5" ∧ year = "2022" ∧ resolution = "240x121" then some exFuxi
  else none

theorem exRaw_some {m y r : String} {ds : File (FV ℚ)} (h : exRaw m y r = some ds) : ds = exHres ∨ ds = exFuxi := by
  unfold exRaw at h
  split_ifs at h
  · exact Or.inl (Option.some.inj h).symm
  · exact Or.inr (Option.some.inj h).symm

theorem exRaw_entry {m y r : String} {ds : File (FV ℚ)} (h : exRaw m y r = some ds) {kv : String × DA String (FV ℚ)} (hkv : kv ∈ ds) :
    (vectorName kv.1 = "rmse" ++ "." ++ "temperature" ∨ vectorName kv.1 = "rmse" ++ "." ++ "wind_vector") ∧ ∃ g l, kv.2 = exErrors g l := by
  rcases exRaw_some h with rfl | rfl
  · rcases List.mem_cons.mp hkv with rfl | hkv
    · exact ⟨Or.inl (by decide), _, _, rfl⟩
    · rw [List.mem_singleton] at hkv
      subst hkv
      exact ⟨Or.inr (by decide), _, _, rfl⟩
  · rw [exFuxi, List.mem_singleton] at hkv
    subst hkv
    exact ⟨Or.inl (by decide), _, _, rfl⟩

theorem exRaw_name {m y r : String} {ds : File (FV ℚ)} (h : exRaw m y r = some ds) {kv : String × DA String (FV ℚ)} (hkv : kv ∈ ds) {m' v : String} (e : vectorName kv.1 = m' ++ "." ++ v)
    (hm : NoDot m') : m' = "rmse" ∧ (v = "temperature" ∨ v = "wind_vector") := by
  have hd : NoDot "rmse" := by unfold NoDot; decide
  rcases (exRaw_entry h hkv).1 with h' | h'
  · obtain ⟨e1, e2⟩ := dotted_inj hm hd (e.symm.trans h')
    exact ⟨e1, Or.inl e2⟩
  · obtain ⟨e1, e2⟩ := dotted_inj hm hd (e.symm.trans h')
    exact ⟨e1, Or.inr e2⟩

theorem exRaw_file {m y r : String} {ds : File (FV ℚ)} (h : exRaw m y r = some ds) : BenchmarkFile ds where
  names := by
    intro kv hkv
    rcases (exRaw_entry h hkv).1 with h' | h'
    · exact ⟨_, _, h', by unfold NoDot; decide, by unfold NoDot; decide⟩
    · exact ⟨_, _, h', by unfold NoDot; decide, by unfold NoDot; decide⟩
  distinct := by
    rcases exRaw_some h with rfl | rfl
    · show (["rmse.temperature", "vector_rmse.wind"].map vectorName).Nodup
      decide
    · show (["rmse.temperature"].map vectorName).Nodup
      decide
  regions := by
    intro kv hkv
    obtain ⟨g, l, e⟩ := (exRaw_entry h hkv).2
    rw [e]
    refine ⟨by simp [exErrors], ?_⟩
    intro r hr
    have hr : r ∈ ({"global", "global_land"} : Finset String) := hr
    simp only [Finset.mem_insert, Finset.mem_singleton] at hr
    exact ⟨"global", by decide, by rcases hr with rfl | rfl <;> decide⟩
  noMetric := by
    intro kv hkv
    obtain ⟨g, l, e⟩ := (exRaw_entry h hkv).2
    rw [e]
    simp [exErrors]
  sameDims := by
    intro kv hkv kv' hkv' _ _ _ _ _ _ _
    obtain ⟨g, l, e⟩ := (exRaw_entry h hkv).2
    obtain ⟨g', l', e'⟩ := (exRaw_entry h hkv').2
    rw [e, e']
    rfl

theorem exRaw_results : BenchmarkResults deterministicModels exRaw where
  files := by
    intro k _ ds h
    refine ⟨exRaw_file h, ?_⟩
    rcases exRaw_some h with rfl | rfl <;> simp [exHres, exFuxi]
  display := by
    intro k _ ds h kv hkv m v e hm
    rcases (exRaw_name h hkv e hm).2 with rfl | rfl <;> decide
  free := by
    intro k _ ds h kv hkv
    obtain ⟨g, l, e⟩ := (exRaw_entry h hkv).2
    rw [e]
    simp [exErrors]
  sameDims := by
    intro k _ k' _ ds ds' h h' kv hkv kv' hkv' _ _ _ _ _ _ _
    obtain ⟨g, l, e⟩ := (exRaw_entry h hkv).2
    obtain ⟨g', l', e'⟩ := (exRaw_entry h' hkv').2
    rw [e, e']
    rfl

theorem exRaw_known : KnownMetrics deterministicMetricNames deterministicModels exRaw := by
  intro k _ ds h kv hkv m v e hm
  obtain ⟨rfl, _⟩ := exRaw_name h hkv e hm
  decide

theorem nan_null (x : FV ℚ) : IsNull.isnull x = true ↔ x = FV.nan := by
  cases x <;> simp [IsNull.isnull, FV.isnan]

/-- The land value of the wind vector of one model is found where it belongs. -/
example : ∃ out x, combine FV.nan deterministicModels (fun m y r => (exRaw m y r).map (processResults FV.nan deterministicMetricNames)) = .ok out ∧ pyGet? "Wind Vector" out = some x ∧
    ∀ e : Dim → String, e "model" = "IFS HRES vs ERA5" → e "resolution" = "64x32" → e "year" = "2020" → e "metric" = "RMSE" → e "region" = "Global (Land)" → e "lead_time" = "6" → x.val e = .fin 4 := by
  obtain ⟨out, ho, _, h⟩ := C82_combined nan_null C82_distinct_names.2.2.2.1 C82_distinct_names.1 exRaw_results exRaw_known
  obtain ⟨x, m', hx, hm', _, _, _, _, _, _, _, hval⟩ := h "hres_vs_era5" "IFS HRES vs ERA5" "2020" "64x32" exHres (by decide) (by decide) (by decide) rfl "vector_rmse.wind" "rmse" "wind_vector"
    (exErrors 3 4) (by simp [exHres]) (by decide) (by unfold NoDot; decide) (by unfold NoDot; decide)
  refine ⟨out, x, ho, hx, ?_⟩
  intro e e1 e2 e3 e4 e5 e6
  have : m' = "RMSE" := (Option.some.inj (hm'.symm.trans (by rfl : pyGet? "rmse" deterministicMetricNames = some "RMSE")))
  rw [hval e "global_land" e1 e2 e3 (by rw [e4, this]) (by rw [e5]; rfl) ?_]
  · show (if (setLabel (setLabel e "region" "global_land") "metric" "rmse") "region" = "global" then FV.fin (3 : ℚ) else FV.fin 4) = _
    rw [if_neg]
    unfold setLabel
    rw [if_neg (by decide), if_pos rfl]
    decide
  · intro d hd
    have hd : d ∈ ({"region", "lead_time"} : Finset Dim) := hd
    simp only [Finset.mem_insert, Finset.mem_singleton] at hd
    rcases hd with rfl | rfl
    · show _ ∈ ({"global", "global_land"} : Finset String)
      unfold setLabel
      rw [if_pos rfl]
      decide
    · show _ ∈ ({"6"} : Finset String)
      unfold setLabel
      rw [if_neg (by decide), e6]
      decide

/-- A probabilistic run over the same directory fails: the metric has no display name there. -/
example : ∃ er, combine FV.nan deterministicModels (fun m y r => (exRaw m y r).map (processResults FV.nan probabilisticMetricNames)) = .error er :=
  C82_one_bad_file (model := "hres_vs_era5") (shown := "IFS HRES vs ERA5") (year := "2020") (resolution := "64x32") (by decide) (by decide) (by decide) (ds := exHres) rfl
    (C82_unknown_metric FV.nan (exRaw_file (m := "hres_vs_era5") (y := "2020") (r := "64x32") rfl) (fun kv hkv m v e hm => by
      rcases (exRaw_name (m := "hres_vs_era5") (y := "2020") (r := "64x32") (ds := exHres) rfl hkv e hm).2 with rfl | rfl <;> decide)
      (kv := ("rmse.temperature", exErrors 1 2)) (by simp [exHres]) (m := "rmse") (v := "temperature") (by decide) (by unfold NoDot; decide) (by unfold NoDot; decide) rfl)

/-- A name with two dots. -/
example : processResults FV.nan deterministicMetricNames [("csi_0.5.temperature", exErrors 1 2)] = .error .valueError :=
  C82_two_dots FV.nan deterministicMetricNames (m := "csi_0") (v := "5") (w := "temperature") (by unfold NoDot; decide) (by unfold NoDot; decide) (by unfold NoDot; decide) (by decide) _ (by decide)

/-- A name without a dot. -/
example : processResults FV.nan deterministicMetricNames (exHres ++ [("temperature", exErrors 1 2)]) = .error .indexError :=
  C82_no_dot FV.nan deterministicMetricNames (by show (["rmse.temperature", "vector_rmse.wind", "temperature"].map vectorName).Nodup; decide) (kv := ("temperature", exErrors 1 2)) (by simp) (by unfold NoDot; decide)

end WBX.CombineResults
