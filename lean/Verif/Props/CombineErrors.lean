import Verif.Props.CombineResults

set_option linter.unusedSectionVars false

/-!
# C82: which result files are processed, and which are refused
-/

namespace WBX.CombineResults
open WBX DA
variable {V : Type}

/-- C82: variables keep distinct names, if none is called like a display name. -/
theorem C82_display {v w : String} (hv : v ∉ variableNames.map Prod.snd) (hw : w ∉ variableNames.map Prod.snd) (h : variableName v = variableName w) : v = w := by
  unfold variableName at h
  cases hv' : pyGet? v variableNames with
  | none =>
    cases hw' : pyGet? w variableNames with
    | none => rw [hv', hw'] at h; exact h
    | some n =>
      rw [hv', hw', Option.getD_none, Option.getD_some] at h
      exact absurd (h ▸ List.mem_map_of_mem (f := Prod.snd) (pyGet?_mem hw')) hv
  | some n =>
    cases hw' : pyGet? w variableNames with
    | none =>
      rw [hv', hw', Option.getD_none, Option.getD_some] at h
      exact absurd (h ▸ List.mem_map_of_mem (f := Prod.snd) (pyGet?_mem hv')) hw
    | some n' =>
      rw [hv', hw', Option.getD_some, Option.getD_some] at h
      subst h
      exact table_inj C82_distinct_names.2.2.1 hv' hw'

theorem renamed_ok (fill : V) {L : Entries V} (hdisp : ∀ x ∈ L, x.2.1 ∉ variableNames.map Prod.snd) :
    renameAll variableName (toDataset fill (allStacks fill L)) = .ok ((toDataset fill (allStacks fill L)).map (fun kv => (variableName kv.1, kv.2))) := by
  unfold renameAll
  rw [if_pos]
  unfold toDataset allStacks
  simp only [List.map_map, Function.comp_def]
  refine List.Nodup.map_on ?_ (List.nodup_dedup _)
  intro v hv w hw h
  obtain ⟨m, a, h1⟩ := mem_variablesIn.mp hv
  obtain ⟨m', a', h2⟩ := mem_variablesIn.mp hw
  exact C82_display (hdisp _ h1) (hdisp _ h2) h

theorem labels_renamed (fill : V) (L : Entries V) (d : Dim) (l : String) :
    l ∈ labelsOf ((toDataset fill (allStacks fill L)).map (fun kv => (variableName kv.1, kv.2))) d → l ∈ labelsOf (allStacks fill L) d := by
  intro h
  obtain ⟨kv, hkv, _, hl⟩ := mem_labelsOf.mp h
  obtain ⟨kv', hkv', rfl⟩ := List.mem_map.mp hkv
  obtain ⟨kv2, _, rfl⟩ := List.mem_map.mp hkv'
  exact hl

theorem entry_of_name {ds : File V} {L : Entries V} (he : ds.map (fun kv => (vectorName kv.1, kv.2)) = fileOf L) {x : String × String × DA String V} (hx : x ∈ L) :
    ∃ kv ∈ ds, vectorName kv.1 = x.1 ++ "." ++ x.2.1 ∧ kv.2 = x.2.2 := by
  have : (x.1 ++ "." ++ x.2.1, x.2.2) ∈ fileOf L := List.mem_map.mpr ⟨x, hx, rfl⟩
  rw [← he] at this
  obtain ⟨kv, hkv, e⟩ := List.mem_map.mp this
  exact ⟨kv, hkv, (Prod.mk.inj e).1, (Prod.mk.inj e).2⟩

/-- The part of a benchmark file behind its stacks. -/
theorem relabel_cases (fill : V) {mn : List (String × String)} {ds : File V} (hb : BenchmarkFile ds) (hne : ds ≠ [])
    (hdisp : ∀ kv ∈ ds, ∀ m v, vectorName kv.1 = m ++ "." ++ v → NoDot m → v ∉ variableNames.map Prod.snd) :
    ((∀ kv ∈ ds, ∀ m v, vectorName kv.1 = m ++ "." ++ v → NoDot m → (pyGet? m mn).isSome) → ∃ out, processResults fill mn ds = .ok out) ∧
    ((∃ kv ∈ ds, ∃ m v, vectorName kv.1 = m ++ "." ++ v ∧ NoDot m ∧ NoDot v ∧ pyGet? m mn = none) → processResults fill mn ds = .error .keyError) := by
  obtain ⟨L, he, hL, hn, hreg, hdims⟩ := hb.entries
  have hdispL : ∀ x ∈ L, x.2.1 ∉ variableNames.map Prod.snd := by
    intro x hx
    obtain ⟨kv, hkv, e, _⟩ := entry_of_name he hx
    exact hdisp kv hkv x.1 x.2.1 e (hL x hx).1
  have hLne : L ≠ [] := by
    rintro rfl
    exact hne (List.map_eq_nil_iff.mp he)
  obtain ⟨⟨m₀, v₀, a₀⟩, h₀⟩ := List.exists_mem_of_ne_nil _ hLne
  rw [process_eq fill mn he hL hn]
  set D := (toDataset fill (allStacks fill L)).map (fun kv => (variableName kv.1, kv.2)) with hD
  have hmemD : (variableName v₀, reindexTo fill (labelsOf (allStacks fill L)) (stacked fill (partsOf L v₀))) ∈ D := by
    rw [hD]
    exact List.mem_map.mpr ⟨(v₀, reindexTo fill (labelsOf (allStacks fill L)) (stacked fill (partsOf L v₀))), List.mem_map.mpr ⟨(v₀, stacked fill (partsOf L v₀)),
      List.mem_map.mpr ⟨v₀, mem_variablesIn.mpr ⟨m₀, a₀, h₀⟩, rfl⟩, rfl⟩, rfl⟩
  have hd := stacked_facts fill hdims h₀
  have hdm : ¬ ∀ kv ∈ D, "metric" ∉ kv.2.dims := by
    intro h
    refine h _ hmemD ?_
    show "metric" ∈ (stacked fill (partsOf L v₀)).dims
    rw [hd]
    exact Finset.mem_insert_self _ _
  constructor
  · intro hmet
    have h1 : relabel "metric" (fun m => pyGet? m mn) D = .ok (D.map (fun kv => (kv.1, relabelArray "metric" (fun m => pyGet? m mn) kv.2))) := by
      unfold relabel
      rw [if_neg hdm, if_pos]
      intro l hl
      obtain ⟨v, a, hmv⟩ := (labels_metric fill).mp (labels_renamed fill L _ _ hl)
      obtain ⟨kv, hkv, e, _⟩ := entry_of_name he hmv
      exact hmet kv hkv l v e (hL _ hmv).1
    refine ⟨_, bind_ok_of (renamed_ok fill hdispL) (bind_ok_of h1 (?_ : relabel _ _ _ = .ok ((D.map (fun kv => (kv.1, relabelArray "metric" (fun m => pyGet? m mn) kv.2))).map (fun kv => (kv.1, relabelArray "region" renameRegion kv.2)))))⟩
    unfold relabel
    rw [if_neg, if_pos]
    · intro l hl
      obtain ⟨kv, hkv, _, hl'⟩ := mem_labelsOf.mp hl
      obtain ⟨kv2, hkv2, rfl⟩ := List.mem_map.mp hkv
      rw [relabelArray_coords_other (by decide)] at hl'
      obtain ⟨kv3, hkv3, rfl⟩ := List.mem_map.mp hkv2
      obtain ⟨kv4, _, rfl⟩ := List.mem_map.mp hkv3
      obtain ⟨r', hr'⟩ := region_some (labels_region fill (fun x hx => (hreg x hx).2.2) hl')
      rw [hr']
      rfl
    · intro h
      refine h _ (List.mem_map_of_mem hmemD) ?_
      rw [relabelArray_dims]
      show "region" ∈ (stacked fill (partsOf L v₀)).dims
      rw [hd]
      exact Finset.mem_insert_of_mem (hreg _ h₀).1
  · rintro ⟨kv, hkv, m, v, e, hm, hv, hnone⟩
    have hmv : ∃ a, (m, v, a) ∈ L := by
      have : (vectorName kv.1, kv.2) ∈ fileOf L := by rw [← he]; exact List.mem_map.mpr ⟨kv, hkv, rfl⟩
      obtain ⟨⟨m2, v2, a2⟩, hx, e'⟩ := List.mem_map.mp this
      have e1 := (Prod.mk.inj e').1
      dsimp only at e1
      rw [e] at e1
      obtain ⟨rfl, rfl⟩ := dotted_inj (hL _ hx).1 hm e1
      exact ⟨a2, hx⟩
    obtain ⟨a, hmv⟩ := hmv
    have h1 : relabel "metric" (fun m => pyGet? m mn) D = .error .keyError := by
      unfold relabel
      rw [if_neg hdm, if_neg]
      intro h
      have := h m (by
        rw [mem_labelsOf]
        refine ⟨_, hmemD, ?_, ?_⟩
        · show "metric" ∈ (stacked fill (partsOf L v₀)).dims
          rw [hd]
          exact Finset.mem_insert_self _ _
        · exact (labels_metric fill).mpr ⟨v, a, hmv⟩)
      simp only [hnone] at this
      cases this
    refine bind_ok_of (renamed_ok fill hdispL) ?_
    show (relabel "metric" (fun m => pyGet? m mn) D >>= fun ds => relabel "region" renameRegion ds) = _
    rw [h1]
    rfl

/-- C82: a benchmark file all of whose metrics are known is processed. -/
theorem C82_processes (fill : V) {mn : List (String × String)} {ds : File V} (hb : BenchmarkFile ds) (hne : ds ≠ [])
    (hdisp : ∀ kv ∈ ds, ∀ m v, vectorName kv.1 = m ++ "." ++ v → NoDot m → v ∉ variableNames.map Prod.snd)
    (hmet : ∀ kv ∈ ds, ∀ m v, vectorName kv.1 = m ++ "." ++ v → NoDot m → (pyGet? m mn).isSome) : ∃ out, processResults fill mn ds = .ok out :=
  (relabel_cases fill hb hne hdisp).1 hmet

/-- C82: a file with a metric that has no display name is refused with a `KeyError`, whatever else it contains. -/
theorem C82_unknown_metric (fill : V) {mn : List (String × String)} {ds : File V} (hb : BenchmarkFile ds)
    (hdisp : ∀ kv ∈ ds, ∀ m v, vectorName kv.1 = m ++ "." ++ v → NoDot m → v ∉ variableNames.map Prod.snd)
    {kv : String × DA String V} (hkv : kv ∈ ds) {m v : String} (e : vectorName kv.1 = m ++ "." ++ v) (hm : NoDot m) (hv : NoDot v) (hno : pyGet? m mn = none) :
    processResults fill mn ds = .error .keyError :=
  (relabel_cases fill hb (List.ne_nil_of_mem hkv) hdisp).2 ⟨kv, hkv, m, v, e, hm, hv, hno⟩

/-- C82: a file with an array whose name has no dot is refused with an `IndexError`. -/
theorem C82_no_dot (fill : V) (mn : List (String × String)) {ds : File V} (hdistinct : (ds.map (fun kv => vectorName kv.1)).Nodup) {kv : String × DA String V} (hkv : kv ∈ ds)
    (hno : NoDot kv.1) : processResults fill mn ds = .error .indexError := by
  have hvec : vectorName kv.1 = kv.1 := by
    unfold vectorName
    rw [if_neg, if_neg]
    · rintro h; rw [h] at hno; exact absurd (by decide) hno
    · rintro h; rw [h] at hno; exact absurd (by decide) hno
  have h1 : renameAll vectorName ds = .ok (ds.map (fun kv => (vectorName kv.1, kv.2))) := by
    unfold renameAll
    rw [if_pos hdistinct]
  have h2 : variablesOf ((ds.map (fun kv => (vectorName kv.1, kv.2))).map Prod.fst) = .error .indexError := by
    unfold variablesOf
    have : ∀ names : List String, kv.1 ∈ names → names.mapM secondPart = (.error .indexError : Except Err (List String)) := by
      intro names
      induction names with
      | nil => intro h; cases h
      | cons n names ih =>
        intro h
        rw [List.mapM_cons]
        rcases List.mem_cons.mp h with h | h
        · have e : dotParts n = [n] := by
            rw [← h]
            unfold dotParts
            rw [splitAtChar_none '.' _ hno]
            simp
          rw [show secondPart n = .error .indexError by unfold secondPart; rw [e]; rfl]
          rfl
        · rw [ih h]
          cases hs : secondPart n with
          | ok v => rfl
          | error er =>
            unfold secondPart at hs
            split at hs
            · cases hs
            · cases hs; rfl
    rw [this]
    · rfl
    · rw [List.map_map]
      exact List.mem_map.mpr ⟨kv, hkv, hvec⟩
  unfold processResults
  refine bind_ok_of h1 ?_
  rw [h2]
  rfl

/-- C82 (finding): a name with two dots, as it results from a threshold in a statistic's name, makes the file unusable unless another variable happens
to be called like its middle part: `ValueError`, from a stack of no arrays. -/
theorem C82_two_dots (fill : V) (mn : List (String × String)) {m v w : String} (hm : NoDot m) (hv : NoDot v) (hw : NoDot w) (hvw : v ≠ w) (a : DA String V)
    (hname : vectorName (m ++ "." ++ v ++ "." ++ w) = m ++ "." ++ v ++ "." ++ w) :
    processResults fill mn [(m ++ "." ++ v ++ "." ++ w, a)] = .error .valueError := by
  have h1 : renameAll vectorName [(m ++ "." ++ v ++ "." ++ w, a)] = .ok [(m ++ "." ++ v ++ "." ++ w, a)] := by
    unfold renameAll
    simp [hname]
  have hparts : dotParts (m ++ "." ++ v ++ "." ++ w) = [m, v, w] := by
    unfold dotParts
    rw [show (m ++ "." ++ v ++ "." ++ w).toList = m.toList ++ '.' :: (v.toList ++ '.' :: w.toList) by simp [String.toList_append]]
    have : ∀ xs : List Char, '.' ∉ xs → Serialize.splitAtChar '.' (xs ++ '.' :: (v.toList ++ '.' :: w.toList)) = [xs, v.toList, w.toList] := by
      intro xs
      induction xs with
      | nil => intro _; rw [List.nil_append, Serialize.splitAtChar, if_pos rfl, splitAtChar_one '.' _ hw _ hv]
      | cons x xs ih =>
        intro h
        rw [List.mem_cons, not_or] at h
        rw [List.cons_append, Serialize.splitAtChar, if_neg (fun e => h.1 e.symm), ih h.2]
    rw [this _ hm]
    simp
  have h2 : variablesOf ([(m ++ "." ++ v ++ "." ++ w, a)].map Prod.fst) = .ok [v] := by
    unfold variablesOf
    refine bind_ok_of (a := [v]) ?_ rfl
    rw [List.map_cons, List.map_nil, List.mapM_cons, show secondPart _ = .ok v by unfold secondPart; rw [hparts]; rfl]
    rfl
  have h3 : stackVariable fill [(m ++ "." ++ v ++ "." ++ w, a)] v = .error .valueError := by
    unfold stackVariable
    have : metricsFor v ([(m ++ "." ++ v ++ "." ++ w, a)].map Prod.fst) = [] := by
      unfold metricsFor
      rw [List.map_cons, List.map_nil, List.filter_cons, if_neg, List.filter_nil, List.map_nil]
      rw [suffix_one hw hv]
      exact fun h => hvw h.symm
    rw [this]
    rfl
  unfold processResults
  refine bind_ok_of h1 (bind_ok_of h2 ?_)
  rw [List.mapM_cons, h3]
  rfl

end WBX.CombineResults
