import Verif.Props.CoordBins

/-!
# C44: bins by units of time; chunks of the latitude and region bins (C41)
-/

set_option linter.unusedSectionVars false

namespace WBX
open DA
variable {L K V T : Type} [DecidableEq L] [Field K] [LinearOrder K] [IsStrictOrderedRing K] [FloorRing K]

/-! ### Chunks of bins -/

/-- The bins of the chunks are the chunks of the bins. -/
theorem concatBins_chunk (d : Dim) {c : Dim} (hc : c ≠ d) (S : Finset L) (ms : List (L × DA L Bool)) :
    concatBins d (ms.map (fun m => (m.1, m.2.restrict c S))) = (concatBins d ms).map (DA.restrict c S) := by
  cases ms with
  | nil => rfl
  | cons m ms =>
    obtain ⟨l, m⟩ := m
    simp only [List.map_cons, concatBins, Except.map]
    congr 1
    have hfind : ∀ x : L, findBin ((l, m.restrict c S) :: ms.map (fun m => (m.1, m.2.restrict c S))) x = (findBin ((l, m) :: ms) x).map (DA.restrict c S) := by
      intro x
      have : (l, m.restrict c S) :: ms.map (fun m => (m.1, m.2.restrict c S)) = ((l, m) :: ms).map (fun m => (m.1, m.2.restrict c S)) := rfl
      rw [this]
      generalize (l, m) :: ms = gs
      unfold findBin
      rw [List.find?_map, Option.map_map, Option.map_map]
      rfl
    have hdims : ∀ gs : List (L × DA L Bool), ((gs.map (fun m => (m.1, m.2.restrict c S))).foldr (fun q s => q.2.dims ∪ s) ∅) = (gs.foldr (fun q s => q.2.dims ∪ s) ∅) := by
      intro gs
      induction gs with
      | nil => rfl
      | cons q gs ih => simp only [List.map_cons, List.foldr_cons, ih]; rfl
    conv_rhs => unfold DA.restrict
    congr 1
    · have := hdims ((l, m) :: ms)
      simp only [List.map_cons] at this
      rw [← this]
    · funext k
      by_cases h1 : k = d
      · subst h1
        simp [hc.symm, Function.comp_def]
      · simp only [if_neg h1]
        rfl
    · funext e
      rw [hfind (e d)]
      dsimp only
      cases findBin ((l, m) :: ms) (e d) <;> rfl

theorem mapM_chunk {α β : Type} (f g : α → Except Err β) (h : β → β) (hfg : ∀ x, g x = (f x).map h) : ∀ l : List α, l.mapM g = (l.mapM f).map (List.map h)
  | [] => rfl
  | a :: l => by
    rw [List.mapM_cons, List.mapM_cons, hfg, mapM_chunk f g h hfg l]
    cases f a with
    | error err => rfl
    | ok y =>
      cases l.mapM f with
      | error err => rfl
      | ok ys => rfl

theorem regionBin_chunk (c : Dim) (S : Finset L) (lat lon : DA L K) (q : L × ((K × K) × (K × K))) :
    regionBin (lat.restrict c S) (lon.restrict c S) q = (regionBin lat lon q).map (fun m => (m.1, DA.restrict c S m.2)) := by
  unfold regionBin regionToMask
  cases latMask q.2.1 with
  | error err => rfl
  | ok f =>
    simp only [bind, Except.bind, pure, Except.pure, Except.map]
    congr 2
    simp only [DA.map, zipWith, restrict, DA.mk.injEq, true_and, and_true]
    funext k
    simp only [joinCoords]
    by_cases hk : k = c
    · simp only [hk, if_pos]
      split
      · split
        · exact Finset.inter_inter_inter_comm _ _ _ _ |>.trans (by rw [Finset.inter_self])
        · rfl
      · rfl
    · simp only [if_neg hk]

/-- **C41** The masks of `LatitudeBins` and `Regions` on a chunk of the data are the chunk of the masks on all the data. -/
theorem C41_chunks {c binDim : Dim} (hc : c ≠ binDim) (S : Finset L) :
    (∀ (number : K → L) degrees range (lat : DA L K), latitudeBins binDim number degrees range (lat.restrict c S) =
      (latitudeBins binDim number degrees range lat).map (DA.restrict c S)) ∧
    (∀ regions (land : L → L) (lat lon : DA L K), regionsMask binDim regions none land (lat.restrict c S) (lon.restrict c S) =
      (regionsMask binDim regions none land lat lon).map (DA.restrict c S)) := by
  constructor
  · intro number degrees range lat
    unfold latitudeBins
    rw [mapM_chunk (latBand number degrees lat) _ (fun m => (m.1, m.2.restrict c S))]
    · cases (bandStarts range.1 range.2 degrees).mapM (latBand number degrees lat) with
      | error err => rfl
      | ok ms => exact concatBins_chunk binDim hc S ms
    · intro start
      unfold latBand
      cases latMask (start, start + degrees) <;> rfl
  · intro regions land lat lon
    unfold regionsMask regionBins
    rw [mapM_chunk (regionBin lat lon) _ (fun m => (m.1, m.2.restrict c S))]
    · cases regions.mapM (regionBin lat lon) with
      | error err => rfl
      | ok ms => exact concatBins_chunk binDim hc S ms
    · exact regionBin_chunk c S lat lon

/-- **C41** (finding) With a land mask, `Regions` on a proper chunk along latitude or longitude raises an `AssertionError`: the mask has the labels of the whole grid. -/
theorem C41_land_mask_chunk {c binDim : Dim} {regions : List (L × ((K × K) × (K × K)))} {land : L → L} {lat lon : DA L K} {lm : DA L Bool} {r : DA L Bool}
    (h : regionsMask binDim regions (some lm) land lat lon = .ok r) {S : Finset L}
    (hS : c = "latitude" ∧ lat.coords "latitude" ∩ S ≠ lat.coords "latitude" ∨ c = "longitude" ∧ lon.coords "longitude" ∩ S ≠ lon.coords "longitude") :
    regionsMask binDim regions (some lm) land (lat.restrict c S) (lon.restrict c S) = .error .assertionError := by
  unfold regionsMask regionBins at h ⊢
  simp only [bind_ok_iff] at h
  obtain ⟨ms, ⟨ms', h1, h3⟩, -⟩ := h
  rw [mapM_chunk (regionBin lat lon) _ (fun m => (m.1, (DA.restrict c S m.2)))]
  · rw [h1]
    simp only [addLandBins] at h3
    split at h3
    · simp at h3
    · next hne =>
      split at h3
      · next heq =>
        simp only [bind, Except.bind, Except.map, addLandBins]
        rw [if_neg (by simpa using hne), if_neg]
        rintro ⟨e1, e2⟩
        rcases hS with ⟨rfl, hS⟩ | ⟨rfl, hS⟩
        · simp only [restrict, if_pos] at e1
          exact hS (e1.trans heq.1.symm)
        · simp only [restrict, if_pos] at e2
          exact hS (e2.trans heq.2.symm)
      · simp at h3
  · exact regionBin_chunk c S lat lon

/-! ### Specification of the units -/

/-- The seconds in a unit. -/
inductive UnitLength : String → ℕ → Prop
  | second : UnitLength "second" 1
  | minute : UnitLength "minute" 60
  | hour : UnitLength "hour" 3600
  | day : UnitLength "day" 86400
  | week : UnitLength "week" 604800
  | year : UnitLength "year" 31536000

theorem unitSeconds_iff (unit : String) (n : ℕ) : unitSeconds unit = some n ↔ UnitLength unit n := by
  constructor
  · intro h
    unfold unitSeconds at h
    split at h <;> simp only [Option.some.injEq, reduceCtorEq] at h <;> subst h <;> constructor
  · intro h
    cases h <;> rfl

theorem floor_unit {n : ℕ} (hn : 0 < n) (x : K) (q : ℤ) : (⌊x / (n : K)⌋ : ℤ) = q ↔ (q : K) * n ≤ x ∧ x < (q + 1) * n := by
  have hn' : (0 : K) < n := by exact_mod_cast hn
  rw [Int.floor_eq_iff, le_div_iff₀ hn', div_lt_iff₀ hn']

theorem UnitLength.pos {unit : String} {n : ℕ} (h : UnitLength unit n) : 0 < n := by cases h <;> norm_num

section
variable [Inhabited L] {dt : String → Option (T → K)} {number : K → L} {unit : String} {timeDim : Dim} {str : L → L} {r : DA L Bool}

/-- **C44** `ByTimeUnit` on time differences, for units longer than a second: the bins are whole numbers `q` of units, and a cell is in the bin `q` iff its
time difference is at least `q` and less than `q + 1` units. Every cell is in exactly one bin. -/
theorem C44_timedelta (hnum : Function.Injective number) {coord : DA L K} (hwf : coord.WF) (hd : timeDim ++ "_" ++ unit ∉ coord.dims) {n : ℕ}
    (hu : UnitLength unit n) (hn : n ≠ 1) (h : timeUnitMask dt number unit timeDim none str (.timedelta coord) = .ok r) :
    (∀ l ∈ r.coords (timeDim ++ "_" ++ unit), ∃ q : ℤ, l = number q) ∧
    (∀ q : ℤ, ∀ e : Dim → L, e (timeDim ++ "_" ++ unit) = number q → (r.val e = true ↔ (q : K) * n ≤ coord.val e ∧ coord.val e < (q + 1) * n)) ∧
    ∀ e, coord.InDom e → ∃! l, l ∈ r.coords (timeDim ++ "_" ++ unit) ∧ r.val (setLabel e (timeDim ++ "_" ++ unit) l) = true := by
  unfold timeUnitMask extractTimeUnit at h
  rw [(unitSeconds_iff unit n).mpr hu] at h
  simp only [bind, Except.bind, pure, Except.pure, Except.ok.injEq, if_neg hn] at h
  set bd := timeDim ++ "_" ++ unit
  have hwf' : ((coord.map (fun x => (⌊x / (n : K)⌋ : K))).map number).WF := fun e e' hee => by
    simp only [DA.map]
    rw [hwf e e' hee]
  have hlab : r.coords bd = uniqueValues ((coord.map (fun x => (⌊x / (n : K)⌋ : K))).map number) := by subst h; simp [coordMask]
  have hval : ∀ e, r.val e = true ↔ number (⌊coord.val e / (n : K)⌋ : K) = e bd := fun e => by subst h; exact decide_eq_true_iff
  refine ⟨fun l hl => ?_, fun q e he => ?_, fun e he => ?_⟩
  · rw [hlab, mem_uniqueValues hwf'] at hl
    obtain ⟨e, -, rfl⟩ := hl
    exact ⟨_, rfl⟩
  · rw [hval, he, hnum.eq_iff, Int.cast_inj, floor_unit hu.pos]
  · refine ⟨number (⌊coord.val e / (n : K)⌋ : K), ⟨?_, ?_⟩, ?_⟩
    · rw [hlab, mem_uniqueValues hwf']
      exact ⟨e, he, rfl⟩
    · rw [hval, wf_setLabel hwf hd, setLabel_same]
    · rintro l ⟨-, hl⟩
      rw [hval, wf_setLabel hwf hd, setLabel_same] at hl
      exact hl.symm

/-- **C44** `ByTimeUnit` on time differences by seconds: the bins are the numbers of seconds that occur. -/
theorem C44_timedelta_second {coord : DA L K} (h : timeUnitMask dt number "second" timeDim none str (.timedelta coord) = .ok r) (e : Dim → L) :
    r.val e = true ↔ number (coord.val e) = e (timeDim ++ "_" ++ "second") := by
  unfold timeUnitMask extractTimeUnit at h
  simp only [unitSeconds, bind, Except.bind, pure, Except.pure, Except.ok.injEq] at h
  subst h
  exact decide_eq_true_iff

/-- **C44** `ByTimeUnit` on dates: a date is in the bin of the value of its attribute, and in no other. -/
theorem C44_datetime {coord : DA L T} (hwf : coord.WF) (hd : timeDim ++ "_" ++ unit ∉ coord.dims) {f : T → K} (hf : dt unit = some f)
    (h : timeUnitMask dt number unit timeDim none str (.datetime coord) = .ok r) :
    (∀ l, l ∈ r.coords (timeDim ++ "_" ++ unit) ↔ ∃ e, coord.InDom e ∧ number (f (coord.val e)) = l) ∧
    (∀ e, r.val e = true ↔ number (f (coord.val e)) = e (timeDim ++ "_" ++ unit)) ∧
    ∀ e, coord.InDom e → ∃! l, l ∈ r.coords (timeDim ++ "_" ++ unit) ∧ r.val (setLabel e (timeDim ++ "_" ++ unit) l) = true := by
  unfold timeUnitMask extractTimeUnit at h
  rw [hf] at h
  simp only [bind, Except.bind, pure, Except.pure, Except.ok.injEq] at h
  set bd := timeDim ++ "_" ++ unit
  have hwf' : ((coord.map f).map number).WF := fun e e' hee => by
    simp only [DA.map]
    rw [hwf e e' hee]
  have hlab : ∀ l, l ∈ r.coords bd ↔ ∃ e, coord.InDom e ∧ number (f (coord.val e)) = l := fun l => by
    subst h
    simp only [coordMask, if_pos]
    exact mem_uniqueValues hwf'
  have hval : ∀ e, r.val e = true ↔ number (f (coord.val e)) = e bd := fun e => by subst h; exact decide_eq_true_iff
  refine ⟨hlab, hval, fun e he => ⟨number (f (coord.val e)), ⟨(hlab _).mpr ⟨e, he, rfl⟩, ?_⟩, ?_⟩⟩
  · rw [hval, wf_setLabel hwf hd, setLabel_same]
  · rintro l ⟨-, hl⟩
    rw [hval, wf_setLabel hwf hd, setLabel_same] at hl
    exact hl.symm

/-- **C44** Only the units second, minute, hour, day, week and year are supported for time differences (`ValueError` otherwise); for dates the attributes of the
accessor (`AttributeError` otherwise). -/
theorem C44_error (g : Option L) :
    (∀ coord : DA L K, ((∃ r, timeUnitMask dt number unit timeDim g str (.timedelta coord) = .ok r) ↔ ∃ n, UnitLength unit n) ∧
      ((¬ ∃ n, UnitLength unit n) → timeUnitMask dt number unit timeDim g str (.timedelta coord) = .error .valueError)) ∧
    ∀ coord : DA L T, dt unit = none → timeUnitMask dt number unit timeDim g str (.datetime coord) = .error .attributeError := by
  refine ⟨fun coord => ?_, fun coord hdt => by unfold timeUnitMask extractTimeUnit; rw [hdt]; rfl⟩
  unfold timeUnitMask extractTimeUnit
  cases hu : unitSeconds unit with
  | none =>
    have hno : ¬ ∃ n, UnitLength unit n := by
      rintro ⟨n, hn⟩
      rw [(unitSeconds_iff unit n).mpr hn] at hu
      simp at hu
    simp [hno, bind, Except.bind]
  | some n =>
    have := (unitSeconds_iff unit n).mp hu
    refine ⟨⟨fun _ => ⟨n, this⟩, fun _ => ⟨_, rfl⟩⟩, fun h => absurd ⟨n, this⟩ h⟩

end

section
variable {dt : String → Option (T → K)} {number : K → L} {unit : String} {timeDim : Dim} {r : DA L Bool}

/-- **C44** `ByTimeUnitSets`: a date is in the bin of a set of values iff the value of its attribute is in the set; the global bin contains every date. -/
theorem C44_sets (hnum : Function.Injective number) {coord : DA L T} {f : T → K} (hf : dt unit = some f) {binDim : Dim} {sets : List (L × List K)} {g : Option L}
    (hn : (sets.map Prod.fst ++ g.toList).Nodup)
    (h : timeUnitSetsMask dt number unit timeDim (some binDim) (sets.map (fun s => (s.1, s.2.map number))) g (.datetime coord) = .ok r) :
    r.coords binDim = (sets.map Prod.fst ++ g.toList).toFinset ∧ (∀ s ∈ sets, ∀ e : Dim → L, e binDim = s.1 → (r.val e = true ↔ f (coord.val e) ∈ s.2)) ∧
    ∀ g', g = some g' → ∀ e : Dim → L, e binDim = g' → r.val e = true := by
  unfold timeUnitSetsMask extractTimeUnit at h
  rw [hf] at h
  simp only [bind, Except.bind, Option.getD_some] at h
  have hlabs : setLabels (sets.map (fun s => (s.1, s.2.map number))) false id g = sets.map Prod.fst ++ g.toList := by
    unfold setLabels
    congr 1
    clear hn h
    induction sets with
    | nil => rfl
    | cons s ss ih =>
      simp only [List.map_cons, List.flatMap_cons, Bool.false_eq_true, if_false]
      rw [← ih]
      simp
  have hl := setBins_labels (sets := sets.map (fun s => (s.1, s.2.map number))) (notIn := id) (coord := (coord.map f).map number) false g
  rw [hlabs] at hl
  refine ⟨by rw [(concatBins_ok h).2.1, hl], fun s hs e he => ?_, ?_⟩
  · rw [concatBins_val h (by rw [hl]; exact hn) (l := s.1) (m := ((coord.map f).map number).map (fun x => decide (x ∈ s.2.map number)))
      (List.mem_append_left _ (List.mem_flatMap.mpr ⟨_, List.mem_map.mpr ⟨s, hs, rfl⟩, by simp⟩)) he]
    exact decide_eq_true_iff.trans (List.mem_map_of_injective hnum)
  · rintro g' rfl e he
    rw [concatBins_val h (by rw [hl]; exact hn) (l := g') (m := ((coord.map f).map number).map (fun _ => true))
      (List.mem_append_right _ (by simp)) he]
    rfl

/-- The units of `ByTimeUnitFromSeconds`: their length in seconds and how many default bins there are. -/
inductive SecondsUnit : String → ℕ → ℕ → Prop
  | second : SecondsUnit "second" 1 60
  | minute : SecondsUnit "minute" 60 60
  | hour : SecondsUnit "hour" 3600 24

theorem secondsUnit_iff (unit : String) (n count : ℕ) : secondsUnit unit = some (n, count) ↔ SecondsUnit unit n count := by
  constructor
  · intro h
    unfold secondsUnit at h
    split at h <;> simp only [Option.some.injEq, Prod.mk.injEq, reduceCtorEq] at h <;> obtain ⟨rfl, rfl⟩ := h <;> constructor
  · intro h
    cases h <;> rfl

/-- **C44** `ByTimeUnitFromSeconds` with given whole-number bins: for minutes and hours a time is in the bin `q` iff it is at least `q` and less than `q + 1` units;
for seconds iff it is exactly `q`. -/
theorem C44_from_seconds (hnum : Function.Injective number) {coord : DA L K} {bins : List ℤ} {n count : ℕ} (hu : SecondsUnit unit n count)
    (h : fromSecondsMask number unit timeDim (some (bins.map (fun q : ℤ => (q : K)))) coord = .ok r) :
    (∀ l, l ∈ r.coords (timeDim ++ "_" ++ unit) ↔ ∃ q ∈ bins, l = number ((q : ℤ) : K)) ∧
    ∀ q ∈ bins, ∀ e : Dim → L, e (timeDim ++ "_" ++ unit) = number ((q : ℤ) : K) →
      (r.val e = true ↔ if n = 1 then coord.val e = q else (q : K) * n ≤ coord.val e ∧ coord.val e < (q + 1) * n) := by
  unfold fromSecondsMask at h
  rw [(secondsUnit_iff unit n count).mpr hu] at h
  simp only [Option.getD_some, Except.ok.injEq] at h
  subst h
  refine ⟨fun l => ?_, fun q hq e he => ?_⟩
  · simp only [if_pos, List.mem_toFinset, List.map_map, List.mem_map, Function.comp_apply]
    exact ⟨fun ⟨q, hq, h⟩ => ⟨q, hq, h.symm⟩, fun ⟨q, hq, h⟩ => ⟨q, hq, h.symm⟩⟩
  · simp only [he, Bool.and_eq_true, decide_eq_true_iff]
    rw [hnum.eq_iff, and_iff_right (List.mem_map.mpr ⟨_, List.mem_map.mpr ⟨q, hq, rfl⟩, rfl⟩)]
    have hpos : 0 < n := by cases hu <;> norm_num
    split
    · rfl
    · rw [Int.cast_inj, floor_unit hpos]

/-- **C44** With the default bins a time is in exactly one bin if it is non-negative and before the end of the last bin — 24 hours for hours, 60 minutes for minutes. -/
theorem C44_from_seconds_default {coord : DA L K} (hwf : coord.WF) (hd : timeDim ++ "_" ++ unit ∉ coord.dims) {n count : ℕ}
    (hu : SecondsUnit unit n count) (hn : n ≠ 1) (h : fromSecondsMask number unit timeDim none coord = .ok r) {e : Dim → L}
    (h0 : 0 ≤ coord.val e) (h1 : coord.val e < count * n) :
    ∃! l, l ∈ r.coords (timeDim ++ "_" ++ unit) ∧ r.val (setLabel e (timeDim ++ "_" ++ unit) l) = true := by
  have hpos : 0 < n := by cases hu <;> norm_num
  have hn' : (0 : K) < n := by exact_mod_cast hpos
  unfold fromSecondsMask at h
  rw [(secondsUnit_iff unit n count).mpr hu] at h
  simp only [Option.getD_none, Except.ok.injEq, if_neg hn] at h
  set bd := timeDim ++ "_" ++ unit
  have hfl : 0 ≤ ⌊coord.val e / (n : K)⌋ := Int.floor_nonneg.mpr (div_nonneg h0 hn'.le)
  have hlt : ⌊coord.val e / (n : K)⌋ < count := by
    rw [Int.floor_lt, div_lt_iff₀ hn']
    exact_mod_cast h1
  have hmem : number (⌊coord.val e / (n : K)⌋ : K) ∈ ((List.range count).map (fun k : ℕ => (k : K))).map number := by
    refine List.mem_map.mpr ⟨_, List.mem_map.mpr ⟨⌊coord.val e / (n : K)⌋.toNat, List.mem_range.mpr (by omega), rfl⟩, ?_⟩
    congr 1
    rw [← Int.cast_natCast, Int.toNat_of_nonneg hfl]
  have hval : ∀ l, r.val (setLabel e bd l) = true ↔ l ∈ ((List.range count).map (fun k : ℕ => (k : K))).map number ∧ number (⌊coord.val e / (n : K)⌋ : K) = l := by
    intro l
    subst h
    simp only [setLabel_same, Bool.and_eq_true, decide_eq_true_iff, wf_setLabel hwf hd]
  refine ⟨number (⌊coord.val e / (n : K)⌋ : K), ⟨?_, (hval _).mpr ⟨hmem, rfl⟩⟩, ?_⟩
  · subst h
    simp only [if_pos]
    exact List.mem_toFinset.mpr hmem
  · rintro l ⟨-, hl⟩
    exact ((hval l).mp hl).2.symm

/-- **C44** (finding) With the default bins later times are in no bin at all — the hours are not reduced modulo 24 — and nor are negative times. -/
theorem C44_from_seconds_dropped (hnum : Function.Injective number) {coord : DA L K} {n count : ℕ}
    (hu : SecondsUnit unit n count) (h : fromSecondsMask number unit timeDim none coord = .ok r) {e : Dim → L}
    (h1 : coord.val e < 0 ∨ count * n ≤ coord.val e) : r.val e = false := by
  have hpos : 0 < n := by cases hu <;> norm_num
  have hn' : (0 : K) < n := by exact_mod_cast hpos
  unfold fromSecondsMask at h
  rw [(secondsUnit_iff unit n count).mpr hu] at h
  simp only [Option.getD_none, Except.ok.injEq] at h
  subst h
  rw [← Bool.not_eq_true, Bool.and_eq_true, decide_eq_true_iff, decide_eq_true_iff]
  rintro ⟨hm, heq⟩
  rw [← heq, List.map_map, List.mem_map] at hm
  obtain ⟨k, hk, hke⟩ := hm
  have hkc := List.mem_range.mp hk
  have hkeq := hnum hke
  have hk0 : (0 : K) ≤ k := Nat.cast_nonneg k
  have hk1 : (k : K) + 1 ≤ count := by exact_mod_cast hkc
  split at hkeq
  · next hn =>
    subst hn
    rw [← hkeq] at h1
    rcases h1 with h1 | h1
    · linarith
    · push_cast at h1; linarith
  · have h2 : ⌊coord.val e / (n : K)⌋ = (k : ℤ) := by
      have : ((⌊coord.val e / (n : K)⌋ : ℤ) : K) = ((k : ℤ) : K) := by rw [← hkeq]; simp
      exact_mod_cast this
    rw [floor_unit hpos] at h2
    push_cast at h2
    rcases h1 with h1 | h1
    · have := mul_nonneg hk0 hn'.le
      linarith
    · have := mul_le_mul_of_nonneg_right hk1 hn'.le
      linarith

/-- **C44** `ByTimeUnitFromSeconds` supports seconds, minutes and hours only. -/
theorem C44_from_seconds_error {coord : DA L K} {bins : Option (List K)} :
    ((∃ r, fromSecondsMask number unit timeDim bins coord = .ok r) ↔ ∃ n count, SecondsUnit unit n count) ∧
    ((¬ ∃ n count, SecondsUnit unit n count) → fromSecondsMask number unit timeDim bins coord = .error .valueError) := by
  unfold fromSecondsMask
  cases hu : secondsUnit unit with
  | none =>
    have hno : ¬ ∃ n count, SecondsUnit unit n count := by
      rintro ⟨n, count, hn⟩
      rw [(secondsUnit_iff unit n count).mpr hn] at hu
      simp at hu
    simp [hno]
  | some q =>
    have := (secondsUnit_iff unit q.1 q.2).mp hu
    refine ⟨⟨fun _ => ⟨_, _, this⟩, fun _ => ⟨_, rfl⟩⟩, fun h => absurd ⟨_, _, this⟩ h⟩

end

/-! ### The hypotheses are met -/

/-- Lead times of 0, 6, 12, … hours, in seconds; labels are rational numbers. -/
def exLeadSeconds : DA ℚ ℚ := { dims := {"lead_time"}, coords := fun _ => {0, 1, 5}, val := fun e => 21600 * e "lead_time" }
theorem exLeadSeconds_wf : exLeadSeconds.WF := fun e e' h => by simp [exLeadSeconds, h "lead_time" (by simp [exLeadSeconds])]

example : ∃ r, timeUnitMask (T := ℚ) (fun _ => none) (id : ℚ → ℚ) "day" "lead_time" none id (.timedelta exLeadSeconds) = .ok r := ⟨_, rfl⟩
example : UnitLength "day" 86400 := .day
/-- The lead time of 30 hours is in the bin of day 1. -/
example {r : DA ℚ Bool} (h : timeUnitMask (T := ℚ) (fun _ => none) (id : ℚ → ℚ) "day" "lead_time" none id (.timedelta exLeadSeconds) = .ok r) :
    r.val (fun d => if d = "lead_time" then 5 else 1) = true :=
  ((C44_timedelta Function.injective_id exLeadSeconds_wf (by decide) .day (by norm_num) h).2.1 1 _ (by simp)).mpr (by simp [exLeadSeconds]; norm_num)
/-- The same lead time is in no bin of the default hours. -/
example : ∃ r, fromSecondsMask (id : ℚ → ℚ) "hour" "lead_time" none exLeadSeconds = .ok r ∧ ∀ h, r.val (fun d => if d = "lead_time" then 5 else h) = false := by
  obtain ⟨r, hr⟩ := (C44_from_seconds_error (number := (id : ℚ → ℚ)) (unit := "hour") (timeDim := "lead_time") (coord := exLeadSeconds) (bins := none)).1.mpr ⟨_, _, .hour⟩
  refine ⟨r, hr, fun h => C44_from_seconds_dropped Function.injective_id .hour hr (.inr ?_)⟩
  simp [exLeadSeconds]
  norm_num

end WBX
