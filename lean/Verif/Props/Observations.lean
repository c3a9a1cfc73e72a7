import Verif.Props.Parquet

/-!
# C51: one observation per station, the closest one; C59: quality control of METAR observations
-/

set_option linter.unusedSectionVars false

namespace WBX

section
variable {K : Type}

/-- What `sort_values` guarantees: a permutation with ascending keys. Nothing is assumed about rows with equal keys. -/
def SortContract (sort : (ObsRow K → ℤ) → List (ObsRow K) → List (ObsRow K)) : Prop :=
  ∀ key rows, (sort key rows).Perm rows ∧ (sort key rows).Pairwise (fun a b => key a ≤ key b)

theorem dropDuplicated_sublist (col : String) : ∀ (rows : List (ObsRow K)) (seen : List String), (dropDuplicated col seen rows).Sublist rows
  | [], _ => List.Sublist.refl _
  | r :: rs, seen => by
    simp only [dropDuplicated]
    split
    · exact (dropDuplicated_sublist col rs seen).cons _
    · exact (dropDuplicated_sublist col rs _).cons_cons _

theorem dropDuplicated_text (col : String) : ∀ (rows : List (ObsRow K)) (seen : List String),
    ((dropDuplicated col seen rows).map (fun r => r.text col)).Nodup ∧ (∀ r ∈ dropDuplicated col seen rows, r.text col ∉ seen) ∧
    ∀ r ∈ rows, r.text col ∉ seen → ∃ k ∈ dropDuplicated col seen rows, k.text col = r.text col
  | [], seen => by simp [dropDuplicated]
  | r :: rs, seen => by
    simp only [dropDuplicated]
    split
    · next h =>
      obtain ⟨h1, h2, h3⟩ := dropDuplicated_text col rs seen
      refine ⟨h1, h2, fun r' hr' hn => ?_⟩
      rcases List.mem_cons.mp hr' with rfl | hr'
      · exact absurd h hn
      · exact h3 r' hr' hn
    · next h =>
      obtain ⟨h1, h2, h3⟩ := dropDuplicated_text col rs (r.text col :: seen)
      refine ⟨?_, fun r' hr' => ?_, fun r' hr' hn => ?_⟩
      · rw [List.map_cons, List.nodup_cons]
        refine ⟨fun hm => ?_, h1⟩
        obtain ⟨r', hr', he⟩ := List.mem_map.mp hm
        exact h2 r' hr' (by rw [he]; simp)
      · rcases List.mem_cons.mp hr' with rfl | hr'
        · exact h
        · exact fun hm => h2 r' hr' (List.mem_cons_of_mem _ hm)
      · rcases List.mem_cons.mp hr' with rfl | hr'
        · exact ⟨r', by simp, rfl⟩
        · by_cases he : r'.text col = r.text col
          · exact ⟨r, by simp, he.symm⟩
          · obtain ⟨k, hk, hke⟩ := h3 r' hr' (by simp [he, hn])
            exact ⟨k, by simp [hk], hke⟩

/-- A kept row comes before every other row with the same text. -/
theorem dropDuplicated_first (col : String) (R : ObsRow K → ObsRow K → Prop) (hrefl : ∀ r, R r r) : ∀ (rows : List (ObsRow K)) (seen : List String), rows.Pairwise R →
    ∀ k ∈ dropDuplicated col seen rows, ∀ r ∈ rows, r.text col = k.text col → R k r
  | [], seen, _, k, hk, r, hr, _ => by simp at hr
  | r0 :: rs, seen, hp, k, hk, r, hr, he => by
    rw [List.pairwise_cons] at hp
    simp only [dropDuplicated] at hk
    split at hk
    · next h =>
      rcases List.mem_cons.mp hr with rfl | hr
      · have := (dropDuplicated_text col rs seen).2.1 k hk
        rw [← he] at this
        exact absurd h this
      · exact dropDuplicated_first col R hrefl rs seen hp.2 k hk r hr he
    · next h =>
      rcases List.mem_cons.mp hk with rfl | hk
      · rcases List.mem_cons.mp hr with rfl | hr
        · exact hrefl _
        · exact hp.1 r hr
      · rcases List.mem_cons.mp hr with rfl | hr
        · have := (dropDuplicated_text col rs (r.text col :: seen)).2.1 k hk
          rw [← he] at this
          simp at this
        · exact dropDuplicated_first col R hrefl rs _ hp.2 k hk r hr he

/-- **C51** Removing duplicates keeps exactly one row for every station that has one. -/
theorem C51_one_per_station {o : ParquetOptions K} (hs : SortContract o.sort) (rows : List (ObsRow K)) (v : ℤ) :
    ((pickClosest o rows v).map (fun r => r.text o.observationDim)).Nodup ∧ (∀ r ∈ pickClosest o rows v, r ∈ rows) ∧
    ∀ r ∈ rows, ∃ k ∈ pickClosest o rows v, k.text o.observationDim = r.text o.observationDim := by
  unfold pickClosest
  simp only
  cases hc : o.pickClosestDuplicateBy with
  | none =>
    simp only
    refine ⟨(dropDuplicated_text _ _ _).1, fun r hr => (dropDuplicated_sublist _ _ _).subset hr, fun r hr => (dropDuplicated_text _ _ _).2.2 r hr (by simp)⟩
  | some col =>
    simp only
    obtain ⟨hperm, -⟩ := hs (fun r => |r.time col - v|) rows
    exact ⟨(dropDuplicated_text _ _ _).1, fun r hr => hperm.mem_iff.mp ((dropDuplicated_sublist _ _ _).subset hr),
      fun r hr => (dropDuplicated_text _ _ _).2.2 r (hperm.mem_iff.mpr hr) (by simp)⟩

/-- **C51** The row kept is one whose time (in the column asked for) is closest to the valid time: no row of the same station is closer. -/
theorem C51_closest {o : ParquetOptions K} (hs : SortContract o.sort) {col : String} (hc : o.pickClosestDuplicateBy = some col) (rows : List (ObsRow K)) (v : ℤ) :
    ∀ k ∈ pickClosest o rows v, ∀ r ∈ rows, r.text o.observationDim = k.text o.observationDim → |k.time col - v| ≤ |r.time col - v| := by
  intro k hk r hr he
  unfold pickClosest at hk
  rw [hc] at hk
  simp only at hk
  obtain ⟨hperm, hsorted⟩ := hs (fun r => |r.time col - v|) rows
  exact dropDuplicated_first _ (fun a b => |a.time col - v| ≤ |b.time col - v|) (fun _ => le_refl _) _ _ hsorted k hk r (hperm.mem_iff.mpr hr) he

/-- **C51** Without a column to choose by, the first row of each station is kept, in the order of the files. -/
theorem C51_first {o : ParquetOptions K} (hc : o.pickClosestDuplicateBy = none) (rows : List (ObsRow K)) (v : ℤ) : (pickClosest o rows v).Sublist rows ∧
    ∀ (pre post : List (ObsRow K)) (r : ObsRow K), rows = pre ++ r :: post → (∀ p ∈ pre, p.text o.observationDim ≠ r.text o.observationDim) → r ∈ pickClosest o rows v := by
  unfold pickClosest
  rw [hc]
  simp only
  refine ⟨dropDuplicated_sublist _ _ _, fun pre post r he hpre => ?_⟩
  subst he
  have key : ∀ (pre : List (ObsRow K)) (seen : List String), (∀ p ∈ pre, p.text o.observationDim ≠ r.text o.observationDim) → r.text o.observationDim ∉ seen →
      r ∈ dropDuplicated o.observationDim seen (pre ++ r :: post) := by
    intro pre
    induction pre with
    | nil => intro seen _ hn; simp [dropDuplicated, hn]
    | cons p ps ih =>
      intro seen hp hn
      simp only [List.cons_append, dropDuplicated]
      split
      · exact ih seen (fun q hq => hp q (by simp [hq])) hn
      · refine List.mem_cons_of_mem _ (ih _ (fun q hq => hp q (by simp [hq])) ?_)
        simp only [List.mem_cons, not_or]
        exact ⟨(hp p (by simp)).symm, hn⟩
  exact key pre [] hpre (by simp)

/-- **C51** In the loader: with `remove_duplicates` each valid time has every station at most once. -/
theorem C51_loaded {o : ParquetOptions K} (hs : SortContract o.sort) (hd : o.removeDuplicates = true) {store : ℤ → Option (List (ObsRow K))} {v : ℤ} {rows : List (ObsRow K)}
    (h : loadSingleTime o store v none = .ok rows) : (rows.map (fun r => r.text o.observationDim)).Nodup := by
  unfold loadSingleTime at h
  obtain ⟨w, -, h⟩ := bind_ok_iff.mp h
  obtain ⟨r1, -, h⟩ := bind_ok_iff.mp h
  obtain ⟨r2, -, h⟩ := bind_ok_iff.mp h
  rw [hd] at h
  simp only [if_true, Option.isSome_none, Bool.false_eq_true, if_false, Except.ok.injEq] at h
  subst h
  exact (C51_one_per_station hs r2 v).1

/-! ### C59 -/

theorem setBadQuality_foldl (suffix : String) (bad : List String) : ∀ (vars : List String) (rows : List (ObsRow K)),
    setBadQualityToNan vars suffix bad rows = rows.map (fun r => { r with num := fun c => if c ∈ vars ∧ r.text (c ++ suffix) ∈ bad then .nan else r.num c })
  | [], rows => by simp [setBadQualityToNan]
  | v :: vs, rows => by
    show setBadQualityToNan vs suffix bad _ = _
    rw [setBadQuality_foldl suffix bad vs, List.map_map]
    refine List.map_congr_left (fun r _ => ?_)
    simp only [Function.comp_apply]
    congr 1
    funext c
    by_cases hcv : c = v
    · subst hcv
      by_cases hb : r.text (c ++ suffix) ∈ bad
      · simp [hb]
      · simp [hb]
    · simp [hcv]

variable [Field K] [LinearOrder K] [IsStrictOrderedRing K] [FloorRing K]

/-- **C59** What the METAR loader does to the rows it reads (without preprocessing of the user): values of the requested variables with a bad quality flag become NaN; the longitude is the same
point in `[0, 360)`; a longitude that is not a finite number becomes NaN; an elevation of 9999 or more becomes NaN; nothing else changes, and no row is dropped. `raw v` are the METAR names of the requested variables. -/
theorem C59_metar {vars : List String} {rows out : List (ObsRow K)} (h : metarPreprocessing vars none rows = .ok out) :
    ∃ raw, vars.mapM era5ToMetar = .ok raw ∧ out.length = rows.length ∧ ∀ i (hi : i < rows.length) (ho : i < out.length),
      (out[i]).time = (rows[i]).time ∧ (out[i]).text = (rows[i]).text ∧
      (∀ c, c ≠ "longitude" → c ≠ "elevation" → c ∈ raw → (rows[i]).text (c ++ "DD") ∈ ["Z", "B", "X", "Q", "k"] → (out[i]).num c = .nan) ∧
      (∀ c, c ≠ "longitude" → c ≠ "elevation" → (c ∉ raw ∨ (rows[i]).text (c ++ "DD") ∉ ["Z", "B", "X", "Q", "k"]) → (out[i]).num c = (rows[i]).num c) ∧
      ("longitude" ∉ raw → ∀ x, (rows[i]).num "longitude" = .fin x → ∃ y, (out[i]).num "longitude" = .fin y ∧ 0 ≤ y ∧ y < 360 ∧ ∃ n : ℤ, x = y + 360 * n) ∧
      ("longitude" ∉ raw → (∀ x, (rows[i]).num "longitude" ≠ .fin x) → (out[i]).num "longitude" = .nan) ∧
      ("elevation" ∉ raw → ((∀ x, (rows[i]).num "elevation" = .fin x → (out[i]).num "elevation" = if x < 9999 then .fin x else .nan) ∧
        ((rows[i]).num "elevation" = .nan → (out[i]).num "elevation" = .nan))) := by
  unfold metarPreprocessing at h
  obtain ⟨rows0, h0, h⟩ := bind_ok_iff.mp h
  simp only [Except.ok.injEq] at h0
  subst h0
  obtain ⟨raw, hraw, h⟩ := bind_ok_iff.mp h
  simp only [pure, Except.pure, Except.ok.injEq] at h
  subst h
  unfold metarBadFlags
  refine ⟨raw, hraw, by simp [cleanElevation, convertLongitude, setBadQuality_foldl], fun i hi ho => ?_⟩
  simp only [cleanElevation, convertLongitude, setBadQuality_foldl, List.getElem_map]
  refine ⟨trivial, trivial, fun c h1 h2 hc hb => by simp [h1, h2, hc, hb], fun c h1 h2 hc => ?_, fun hl x hx => ?_, fun hl hx => ?_, fun he => ⟨fun x hx => ?_, fun hx => ?_⟩⟩
  · simp only [h1, h2, if_false]
    rw [if_neg (by tauto)]
  · obtain ⟨m0, m1, m2⟩ := mod360_spec x
    refine ⟨mod360 x, ?_, m0, m1, ⌊x / 360⌋, m2⟩
    have hle : ("longitude" : String) ≠ "elevation" := by decide
    simp [hle, hl, hx, fvMod360]
  · have hle : ("longitude" : String) ≠ "elevation" := by decide
    simp only [hle, hl, if_false, if_true, false_and]
    unfold fvMod360
    split
    · next y hy => exact absurd hy (hx y)
    · rfl
  · have hle : ("elevation" : String) ≠ "longitude" := by decide
    simp [hle, he, hx, FV.lt]
  · have hle : ("elevation" : String) ≠ "longitude" := by decide
    simp [hle, he, hx, FV.lt]

omit [LinearOrder K] [IsStrictOrderedRing K] [FloorRing K] [Field K] in
/-- The translation of names is one to one on the names of the table. -/
theorem C59_names : (metarToEra5.map Prod.fst).Nodup ∧ (metarToEra5.map Prod.snd).Nodup ∧ (∀ p ∈ metarToEra5, era5ToMetar p.2 = .ok p.1) ∧
    (∀ v, v ∉ metarToEra5.map Prod.snd → era5ToMetar v = .error .keyError) ∧ ∀ p ∈ metarToEra5, p.1 ≠ "longitude" ∧ p.1 ≠ "elevation" := by
  refine ⟨by decide, by decide, by decide, fun v hv => ?_, by decide⟩
  unfold era5ToMetar
  have : metarToEra5.find? (fun p => p.2 == v) = none := by
    rw [List.find?_eq_none]
    intro p hp he
    exact hv (List.mem_map.mpr ⟨p, hp, by simpa using he⟩)
  rw [this]

omit [LinearOrder K] [IsStrictOrderedRing K] [FloorRing K] [Field K] in
/-- **C59** (finding) The user's `rename_variables` has no effect. -/
theorem C59_rename_ignored (user user' : Option (List (String × String))) : metarRename user = metarRename user' := rfl

/-- **C59** The longitude and the elevation are never among the variables with quality flags. -/
theorem C59_raw {vars raw : List String} (h : vars.mapM era5ToMetar = .ok raw) : "longitude" ∉ raw ∧ "elevation" ∉ raw := by
  have key : ∀ c ∈ raw, c ≠ "longitude" ∧ c ≠ "elevation" := by
    intro c hc
    obtain ⟨v, -, hv⟩ := mapM_out_mem h c hc
    by_cases hm : v ∈ metarToEra5.map Prod.snd
    · obtain ⟨p, hp, rfl⟩ := List.mem_map.mp hm
      rw [C59_names.2.2.1 p hp, Except.ok.injEq] at hv
      rw [← hv]
      exact C59_names.2.2.2.2 p hp
    · rw [C59_names.2.2.2.1 v hm] at hv
      simp at hv
  exact ⟨fun hm => (key _ hm).1 rfl, fun hm => (key _ hm).2 rfl⟩

end

/-! ### The hypotheses are met -/

/-- A sort with the contract. -/
def exSort (key : ObsRow ℚ → ℤ) (rows : List (ObsRow ℚ)) : List (ObsRow ℚ) := rows.insertionSort (fun a b => key a ≤ key b)
theorem exSort_contract : SortContract exSort := fun key rows => by
  have : Std.Total (fun a b : ObsRow ℚ => key a ≤ key b) := ⟨fun a b => le_total _ _⟩
  have : IsTrans (ObsRow ℚ) (fun a b => key a ≤ key b) := ⟨fun a b c => le_trans⟩
  exact ⟨List.perm_insertionSort _ _, List.pairwise_insertionSort _ _⟩
example : ∃ k ∈ pickClosest { exParquet with sort := exSort, pickClosestDuplicateBy := some "timeObs", observationDim := "stationName" } [exRow 115 "a", exRow 118 "a", exRow 150 "b"] 120,
    k.text "stationName" = "a" ∧ |k.time "timeObs" - 120| = 2 := by
  obtain ⟨-, hsub, hex⟩ := C51_one_per_station (o := { exParquet with sort := exSort, pickClosestDuplicateBy := some "timeObs", observationDim := "stationName" }) exSort_contract
    [exRow 115 "a", exRow 118 "a", exRow 150 "b"] 120
  obtain ⟨k, hk, hke⟩ := hex (exRow 118 "a") (by simp)
  refine ⟨k, hk, by simpa [exRow] using hke, ?_⟩
  have hc := C51_closest (o := { exParquet with sort := exSort, pickClosestDuplicateBy := some "timeObs", observationDim := "stationName" }) exSort_contract rfl
    [exRow 115 "a", exRow 118 "a", exRow 150 "b"] 120 k hk (exRow 118 "a") (by simp) hke.symm
  have hm := hsub k hk
  simp only [List.mem_cons, List.not_mem_nil, or_false] at hm
  rcases hm with rfl | rfl | rfl
  · simp [exRow] at hc
  · simp [exRow]
  · simp [exRow] at hke
example : ∃ out, metarPreprocessing ["2m_temperature"] none [exRow 115 "B"] = .ok out := by
  have : ["2m_temperature"].mapM era5ToMetar = .ok ["temperature"] := by decide
  unfold metarPreprocessing
  rw [this]
  exact ⟨_, rfl⟩

end WBX
