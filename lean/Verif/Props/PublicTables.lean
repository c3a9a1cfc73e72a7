import Verif.Props.PublicConfigs

set_option linter.unusedSectionVars false
set_option linter.unusedVariables false

/-! # C86: the tables of the public benchmark, and its probabilistic climatology -/

namespace WBX.PublicConfigs
open WBX Benchmark

/-- The resolutions of the benchmark. -/
def resolutions : List String := ["64x32", "240x121", "1440x721"]

/-- The years of the benchmark. -/
def years : List String := ["2018", "2020", "2022"]

/-- The table of the deterministic predictions, with the single members. -/
def deterministicTable : List (String × LoaderConfig) := (withSingleMembers ensemblePrefixes deterministicPredictionConfigs).toOption.getD []

theorem deterministicTable_eq : withSingleMembers ensemblePrefixes deterministicPredictionConfigs = .ok deterministicTable := by
  have h : (withSingleMembers ensemblePrefixes deterministicPredictionConfigs).toOption.isSome = true := by decide +kernel
  unfold deterministicTable
  rcases hx : withSingleMembers ensemblePrefixes deterministicPredictionConfigs with e | x
  · rw [hx] at h
    exact absurd h (by simp [Except.toOption])
  · rfl

/-- Mean, single member and ensemble belong together. -/
def ensembleEntry (base rest : String) : Option Bool := do
  let m ← pyGet? (base ++ "_mean_" ++ rest) deterministicPredictionConfigs
  let m' ← pyGet? (base ++ "_mean_" ++ rest) deterministicTable
  let s ← pyGet? (base ++ "_single_member_" ++ rest) deterministicTable
  let e ← pyGet? (base ++ "_" ++ rest) probabilisticPredictionConfigs
  return decide (m' = m ∧ s.path = e.path ∧ s.names = e.names ∧ s.levels = m.levels ∧ (s.kwargs.map LoaderKwargs.preprocess) = some (some .firstMember) ∧ m.path ≠ s.path)

theorem ensembleEntry_checked : (∀ r ∈ resolutions, ∀ y ∈ years, ensembleEntry "ens" (r ++ "_" ++ y) = some true) ∧
    (∀ r ∈ ["64x32", "240x121"], ensembleEntry "neuralgcm_ens" (r ++ "_" ++ "2020") = some true) := by
  decide +kernel

/-- What `ensembleEntry` says. -/
theorem ensembleEntry_iff {base rest : String} (h : ensembleEntry base rest = some true) :
    ∃ m s e, pyGet? (base ++ "_mean_" ++ rest) deterministicPredictionConfigs = some m ∧ pyGet? (base ++ "_mean_" ++ rest) deterministicTable = some m ∧
      pyGet? (base ++ "_single_member_" ++ rest) deterministicTable = some s ∧ pyGet? (base ++ "_" ++ rest) probabilisticPredictionConfigs = some e ∧
      s.path = e.path ∧ s.names = e.names ∧ s.levels = m.levels ∧ s.kwargs.map LoaderKwargs.preprocess = some (some .firstMember) ∧ m.path ≠ s.path := by
  unfold ensembleEntry at h
  rcases h1 : pyGet? (base ++ "_mean_" ++ rest) deterministicPredictionConfigs with _ | m <;> rw [h1] at h
  · simp at h
  rcases h2 : pyGet? (base ++ "_mean_" ++ rest) deterministicTable with _ | m' <;> rw [h2] at h
  · simp at h
  rcases h3 : pyGet? (base ++ "_single_member_" ++ rest) deterministicTable with _ | s <;> rw [h3] at h
  · simp at h
  rcases h4 : pyGet? (base ++ "_" ++ rest) probabilisticPredictionConfigs with _ | e <;> rw [h4] at h
  · simp at h
  have h := of_decide_eq_true (Option.some.inj h)
  obtain ⟨rfl, h⟩ := h
  exact ⟨m', s, e, rfl, rfl, rfl, rfl, h⟩

/-- C86: in the public tables, for every resolution and year of the ECMWF ensemble (and those of the NeuralGCM ensemble), the mean keeps its configuration and the single member reads the
same data and variables as the ensemble itself, of which it takes the first member. -/
theorem C86_public :
    ∃ d, withSingleMembers ensemblePrefixes deterministicPredictionConfigs = .ok d ∧
      ∀ base rest, (base = "ens" ∧ (∃ r ∈ resolutions, ∃ y ∈ years, rest = r ++ "_" ++ y)) ∨ (base = "neuralgcm_ens" ∧ ∃ r ∈ ["64x32", "240x121"], rest = r ++ "_" ++ "2020") →
        ∃ m s e, pyGet? (base ++ "_mean_" ++ rest) deterministicPredictionConfigs = some m ∧ pyGet? (base ++ "_mean_" ++ rest) d = some m ∧
          pyGet? (base ++ "_single_member_" ++ rest) d = some s ∧ pyGet? (base ++ "_" ++ rest) probabilisticPredictionConfigs = some e ∧
          s.path = e.path ∧ s.names = e.names ∧ s.levels = m.levels ∧ s.kwargs.map LoaderKwargs.preprocess = some (some .firstMember) ∧ m.path ≠ s.path := by
  refine ⟨deterministicTable, deterministicTable_eq, ?_⟩
  rintro base rest (⟨rfl, r, hr, y, hy, rfl⟩ | ⟨rfl, r, hr, rfl⟩)
  · exact ensembleEntry_iff (ensembleEntry_checked.1 r hr y hy)
  · exact ensembleEntry_iff (ensembleEntry_checked.2 r hr)

/-! ### The tables fit together -/

/-- The table that is read by the evaluation. -/
def publicTables : Configs :=
  { targets := toTable targetConfigs, climatologies := toTable climatologyConfigs, deterministic := toTable deterministicTable, probabilistic := toTable probabilisticPredictionConfigs }

theorem publicTables_eq : publicConfigs = .ok publicTables := by
  unfold publicConfigs
  rw [deterministicTable_eq]
  rfl

/-- The three parts of a name: model, resolution and year. -/
def nameParts (name : String) : String × String × String :=
  let year := name.toList.reverse.takeWhile (· ≠ '_')
  let rest := (name.toList.reverse.dropWhile (· ≠ '_')).drop 1
  (String.ofList ((rest.dropWhile (· ≠ '_')).drop 1).reverse, String.ofList (rest.takeWhile (· ≠ '_')).reverse, String.ofList year.reverse)

/-- The entry has a target and a climatology with all its variables. -/
def completeEntry (kv : String × Config) : Bool :=
  let p := nameParts kv.1
  decide (kv.1 = p.1 ++ "_" ++ p.2.1 ++ "_" ++ p.2.2 ∧ '_' ∉ p.2.1.toList ∧ '_' ∉ p.2.2.toList) &&
  (match pyGet? ("era5_" ++ p.2.1) publicTables.targets, pyGet? ("era5_" ++ p.2.1 ++ "_" ++ p.2.2) publicTables.climatologies with
   | some t, some c => decide (kv.2.names ≠ [] ∧ (∀ v ∈ kv.2.names, v ∈ t.names ∧ v ∈ c.names) ∧ ∀ v ∈ precipVariables kv.2.names, (pyGet? v dryThresholds).isSome)
   | _, _ => false)

theorem completeEntry_checked : (publicTables.deterministic ++ publicTables.probabilistic).all completeEntry = true := by
  decide +kernel

theorem digits_noUnderscore (n : ℕ) : NoUnderscore (toString n) := by
  unfold NoUnderscore
  intro h
  have h1 : (toString n).toList = Nat.toDigits 10 n := by
    show (String.ofList (Nat.toDigits 10 n)).toList = _
    exact String.toList_ofList
  rw [h1] at h
  have := Nat.isDigit_of_mem_toDigits (by norm_num) (by norm_num) h
  exact absurd this (by decide)

/-- C86: for every prediction of the public tables there are targets and a climatology of its resolution and year with all its variables, and all metrics can be made: no configuration leads to a
`KeyError`. -/
theorem C86_complete {o : Options} (hb : o.prediction ∉ ["persistence", "climatology", "probabilistic_climatology"]) (hr : NoUnderscore o.resolution) {x : Config} {prob : Bool}
    (h : predictionConfig publicTables o = .ok (x, prob)) :
    ∃ t c ms, pyItem publicTables.targets ("era5_" ++ o.resolution) = .ok t ∧ pyItem publicTables.climatologies ("era5_" ++ o.resolution ++ "_" ++ toString o.year) = .ok c ∧
      x.names ≠ [] ∧ (∀ v ∈ x.names, v ∈ t.names ∧ v ∈ c.names) ∧ allMetrics prob (Benchmark.commonVariables x t) = .ok ms := by
  have hmem : (o.prediction ++ "_" ++ o.resolution ++ "_" ++ toString o.year, x) ∈ publicTables.deterministic ++ publicTables.probabilistic := by
    simp only [List.mem_cons, List.not_mem_nil, or_false, not_or] at hb
    unfold predictionConfig at h
    rw [if_neg hb.1, if_neg hb.2.2, if_neg hb.2.1] at h
    rcases hg : pyGet? (o.prediction ++ "_" ++ o.resolution ++ "_" ++ toString o.year) publicTables.deterministic with _ | y
    · rw [hg] at h
      obtain ⟨y, hy, h⟩ := bind_ok_iff.mp h
      have e : y = x := congrArg Prod.fst (Except.ok.inj h)
      subst e
      exact List.mem_append_right _ (pyItem_mem hy)
    · rw [hg] at h
      have e : y = x := congrArg Prod.fst (Except.ok.inj h)
      subst e
      exact List.mem_append_left _ (pyGet?_mem hg)
  have hc := List.all_eq_true.mp completeEntry_checked _ hmem
  unfold completeEntry at hc
  rw [Bool.and_eq_true] at hc
  obtain ⟨h1, h2⟩ := hc
  dsimp only at h1 h2
  obtain ⟨e1, n1, n2⟩ := of_decide_eq_true h1
  obtain ⟨e2, e3⟩ := text_inj (digits_noUnderscore _) n2 e1
  obtain ⟨-, e4⟩ := text_inj hr n1 e2
  rw [← e3, ← e4] at h2
  rcases ht : pyGet? ("era5_" ++ o.resolution) publicTables.targets with _ | t <;> rw [ht] at h2
  · exact absurd h2 (by simp)
  rcases hcl : pyGet? ("era5_" ++ o.resolution ++ "_" ++ toString o.year) publicTables.climatologies with _ | c <;> rw [hcl] at h2
  · exact absurd h2 (by simp)
  obtain ⟨g1, g2, g3⟩ := of_decide_eq_true h2
  obtain ⟨ms, hms⟩ := (C83_setup prob (Benchmark.commonVariables x t)).1 (by
    intro v hv
    refine g3 v ?_
    unfold precipVariables at hv ⊢
    rw [List.mem_filter] at hv ⊢
    refine ⟨?_, hv.2⟩
    have := hv.1
    unfold Benchmark.commonVariables at this
    exact (List.mem_filter.mp (List.mem_dedup.mp this)).1)
  refine ⟨t, c, ms, ?_, ?_, g1, g2, hms⟩
  · unfold pyItem; rw [ht]
  · unfold pyItem; rw [hcl]

/-! ### The climatologies -/

/-- The path is that of the climatology of the years from 1990 to `last`. -/
def UpTo (c : LoaderConfig) (last : ℕ) : Prop := ∃ rest, c.path = "gs://weatherbench2/datasets/era5-hourly-climatology/1990-" ++ toString last ++ "_6h_" ++ rest

/-- C86: the climatology for every resolution and year of the benchmark is of years before it. Finding: the table also has one for 2016 (at 240x121), which is of the years up to 2017. -/
theorem C86_climatology :
    (∀ r ∈ resolutions, ∀ y ∈ [2018, 2020, 2022], ∃ c last, pyGet? ("era5_" ++ r ++ "_" ++ toString y) climatologyConfigs = some c ∧ UpTo c last ∧ last < y) ∧
    ∃ c, pyGet? "era5_240x121_2016" climatologyConfigs = some c ∧ UpTo c 2017 := by
  have up : ∀ {c : LoaderConfig} {last : ℕ}, startsWith c.path ("gs://weatherbench2/datasets/era5-hourly-climatology/1990-" ++ toString last ++ "_6h_") = true → UpTo c last :=
    fun h => (startsWith_iff _ _).mp h
  have check : ∀ r ∈ resolutions, ∀ y ∈ [(2018, 2017), (2020, 2019), (2022, 2019)],
      (pyGet? ("era5_" ++ r ++ "_" ++ toString y.1) climatologyConfigs).map (fun c => startsWith c.path ("gs://weatherbench2/datasets/era5-hourly-climatology/1990-" ++ toString y.2 ++ "_6h_")) = some true := by
    decide +kernel
  have get : ∀ (n : String) (last : ℕ), (pyGet? n climatologyConfigs).map (fun c => startsWith c.path ("gs://weatherbench2/datasets/era5-hourly-climatology/1990-" ++ toString last ++ "_6h_")) = some true →
      ∃ c, pyGet? n climatologyConfigs = some c ∧ UpTo c last := by
    intro n last h
    rcases hg : pyGet? n climatologyConfigs with _ | c <;> rw [hg] at h
    · exact absurd h (by simp)
    · exact ⟨c, rfl, up (Option.some.inj h)⟩
  constructor
  · intro r hr y hy
    have : ∃ last, (y, last) ∈ [(2018, 2017), (2020, 2019), (2022, 2019)] ∧ last < y := by
      simp only [List.mem_cons, List.not_mem_nil, or_false] at hy
      rcases hy with rfl | rfl | rfl
      · exact ⟨2017, by simp, by norm_num⟩
      · exact ⟨2019, by simp, by norm_num⟩
      · exact ⟨2019, by simp, by norm_num⟩
    obtain ⟨last, hm, hlt⟩ := this
    obtain ⟨c, h1, h2⟩ := get _ _ (check r hr _ hm)
    exact ⟨c, last, h1, h2, hlt⟩
  · exact get _ _ (by decide +kernel)

/-! ### The probabilistic climatology -/

section
variable {V : Type} {hour : ℤ} {m : ℕ → ℤ} {ix : ℤ → ℕ} {ens : Dim} {ds r t : DA ℤ V} {inits leads : List ℤ}

/-- C86: for valid times from 2020 on, every member of the probabilistic climatology is the observation of a time at least 365 days before the valid time. -/
theorem C86_members_past (hp : 0 < hour) (hix : ∀ k, ix (m k) = k) (he : ens ≠ "init_time" ∧ ens ≠ "lead_time")
    (h : probClimatology hour m ix probClimatologyYears.1 probClimatologyYears.2 ens ds inits (.exact leads) = .ok r) {e : Dim → ℤ} (hcell : e ens ∈ r.coords ens)
    (hy : 2020 ≤ yearOf hour (e "init_time" + e "lead_time")) :
    ∃ s, s + 365 * 24 * hour ≤ e "init_time" + e "lead_time" ∧ r.val e = ds.val (DA.setLabel e "valid_time" s) := by
  obtain ⟨-, hc, -, hv⟩ := C48_prob_climatology hix he h
  rw [hc, List.mem_toFinset, List.mem_map] at hcell
  obtain ⟨k, hk, hek⟩ := hcell
  refine ⟨_, ?_, hv e k hek.symm⟩
  have hk' : k < 30 := by
    have := List.mem_range.mp hk
    simpa [probClimatologyYears] using this
  have ht := time_eq hour (e "init_time" + e "lead_time")
  have hrest : 0 ≤ (e "init_time" + e "lead_time") % (24 * hour) % hour := Int.emod_nonneg _ hp.ne'
  have hd : daysBefore (1990 + k) + 365 ≤ daysBefore (yearOf hour (e "init_time" + e "lead_time")) := by
    have h1 : daysBefore (1990 + k) + 365 ≤ daysBefore (1990 + k + 1) := by
      rw [daysBefore_succ]
      unfold yearLength
      split <;> omega
    exact h1.trans (daysBefore_strictMono.monotone (by omega))
  have hs : yearStart hour (1990 + k) + 365 * 24 * hour ≤ yearStart hour (yearOf hour (e "init_time" + e "lead_time")) := by
    unfold yearStart
    nlinarith
  show yearStart hour (1990 + k) + _ + _ ≤ _
  linarith

/-- C86, finding: for valid times of a year from 1990 to 2019 (such as 2018, a year of the benchmark), one member of the probabilistic climatology is the observation that it is compared with. -/
theorem C86_member_is_target (hix : ∀ k, ix (m k) = k) (he : ens ≠ "init_time" ∧ ens ≠ "lead_time")
    (h : probClimatology hour m ix probClimatologyYears.1 probClimatologyYears.2 ens ds inits (.exact leads) = .ok r) (ht : loadTargets ds inits (.exact leads) = .ok t)
    (hds : DA.WF ds) (hens : ens ∉ ds.dims) {e : Dim → ℤ} (hy0 : 1990 ≤ yearOf hour (e "init_time" + e "lead_time")) (hy1 : yearOf hour (e "init_time" + e "lead_time") ≤ 2019)
    (hfull : hour ∣ e "init_time" + e "lead_time") :
    ∃ l ∈ r.coords ens, r.val (DA.setLabel e ens l) = t.val e := by
  obtain ⟨-, hc, -, -⟩ := C48_prob_climatology hix he h
  refine ⟨m (yearOf hour (e "init_time" + e "lead_time") - 1990).toNat, ?_, ?_⟩
  · rw [hc, List.mem_toFinset, List.mem_map]
    refine ⟨_, ?_, rfl⟩
    rw [List.mem_range]
    simp only [probClimatologyYears]
    omega
  · have e1 : DA.setLabel e ens (m (yearOf hour (e "init_time" + e "lead_time") - 1990).toNat) "init_time" = e "init_time" := by simp [DA.setLabel, he.1.symm]
    have e2 : DA.setLabel e ens (m (yearOf hour (e "init_time" + e "lead_time") - 1990).toNat) "lead_time" = e "lead_time" := by simp [DA.setLabel, he.2.symm]
    rw [C48_prob_climatology_own_year hix he h (k := (yearOf hour (e "init_time" + e "lead_time") - 1990).toNat) (by simp [DA.setLabel]) (by rw [e1, e2]; simp only [probClimatologyYears]; omega)
      (by rw [e1, e2]; exact hfull), e1, e2, (C48_targets ht).2.2]
    refine hds _ _ (fun k hk => ?_)
    have hne : k ≠ ens := fun hh => hens (hh ▸ hk)
    simp only [DA.setLabel]
    split_ifs <;> rfl

end

/-! ### Non-vacuity -/

/-- Observations of every hour for more than a hundred years. -/
noncomputable def exLongObs : DA ℤ ℤ := { exObs with coords := fun _ => Finset.Icc 0 1000000 }

theorem exLongObs_ok (t : ℤ) : ∃ r, probClimatology 1 (fun k => k) Int.toNat probClimatologyYears.1 probClimatologyYears.2 "number" exLongObs [t] (.exact [6]) = .ok r := by
  simp only [loadProbClimatology, probClimatologyYears]
  rw [if_neg (by norm_num)]
  unfold selArray
  rw [if_pos]
  · exact ⟨_, rfl⟩
  · simp only [List.all_eq_true, List.mem_singleton, forall_eq, decide_eq_true_eq]
    intro k hk
    have hk' : k < 30 := by
      have := List.mem_range.mp hk
      simpa using this
    obtain ⟨hb1, hb2⟩ := dayOfYear_bounds 1 (t + 6)
    obtain ⟨hh1, hh2⟩ := hourOfDay_bounds (hour := 1) (by norm_num) (t + 6)
    have hle : yearLength (yearOf 1 (t + 6)) ≤ 366 := by unfold yearLength; split <;> omega
    have d0 : daysBefore 1990 ≤ daysBefore (1990 + k) := daysBefore_strictMono.monotone (by omega)
    have d1 : daysBefore (1990 + k) ≤ daysBefore 2020 := daysBefore_strictMono.monotone (by omega)
    have e0 : yearStart 1 1990 = 175320 := by decide
    have e1 : yearStart 1 2020 = 438288 := by decide
    have f : ∀ y, yearStart 1 y = (daysBefore y - daysBefore 1970) * 24 := fun y => by unfold yearStart; ring
    rw [f] at e0 e1
    show _ ∈ Finset.Icc (0 : ℤ) 1000000
    rw [Finset.mem_Icc, f]
    simp only [smul_eq_mul, mul_one]
    omega

/-- A forecast of the beginning of 2022: every member of the probabilistic climatology is more than a year old. -/
example : ∃ r, probClimatology 1 (fun k => k) Int.toNat probClimatologyYears.1 probClimatologyYears.2 "number" exLongObs [455832] (.exact [6]) = .ok r ∧
    yearOf 1 ((455832 : ℤ) + 6) = 2022 := by
  obtain ⟨r, hr⟩ := exLongObs_ok 455832
  exact ⟨r, hr, (yearOf_iff _ _).mpr ⟨by decide, by decide⟩⟩

/-- A forecast of the beginning of 2018: one member is the observation itself. -/
example : ∃ r t, probClimatology 1 (fun k => k) Int.toNat probClimatologyYears.1 probClimatologyYears.2 "number" exLongObs [420768] (.exact [6]) = .ok r ∧
    loadTargets exLongObs [420768] (.exact [6]) = .ok t ∧
    ∃ l ∈ r.coords "number", r.val (DA.setLabel (fun d => if d = "init_time" then 420768 else 6) "number" l) = t.val (fun d => if d = "init_time" then 420768 else 6) := by
  obtain ⟨r, hr⟩ := exLongObs_ok 420768
  obtain ⟨t, ht⟩ := (C48_targets_present exLongObs [420768] [6]).1.mpr (by simp [exLongObs])
  have hy : yearOf 1 ((420768 : ℤ) + 6) = 2018 := (yearOf_iff _ _).mpr ⟨by decide, by decide⟩
  refine ⟨r, t, hr, ht, C86_member_is_target (by simp) (by decide) hr ht ?_ (by simp [exLongObs, exObs]) ?_ ?_ (one_dvd _)⟩
  · intro a b hab
    exact exObs_wf a b hab
  · show 1990 ≤ yearOf 1 ((420768 : ℤ) + 6)
    rw [hy]; norm_num
  · show yearOf 1 ((420768 : ℤ) + 6) ≤ 2019
    rw [hy]; norm_num

/-- The ensemble mean of 2020. -/
example : ∃ x, predictionConfig publicTables ⟨"ens_mean", "era5", "64x32", 2020, none, none, none, none, none, 6, false⟩ = .ok (x, false) := by
  have h : (predictionConfig publicTables ⟨"ens_mean", "era5", "64x32", 2020, none, none, none, none, none, 6, false⟩).toOption.map Prod.snd = some false := by decide +kernel
  rcases hx : predictionConfig publicTables ⟨"ens_mean", "era5", "64x32", 2020, none, none, none, none, none, 6, false⟩ with e | ⟨x, b⟩
  · rw [hx] at h
    exact absurd h (by simp [Except.toOption])
  · rw [hx] at h
    have hb : b = false := by simpa [Except.toOption] using h
    subst hb
    exact ⟨x, rfl⟩

example : ∃ x, predictionConfig publicTables ⟨"ens", "era5", "240x121", 2018, none, none, none, none, none, 6, false⟩ = .ok (x, true) := by
  have h : (predictionConfig publicTables ⟨"ens", "era5", "240x121", 2018, none, none, none, none, none, 6, false⟩).toOption.map Prod.snd = some true := by decide +kernel
  rcases hx : predictionConfig publicTables ⟨"ens", "era5", "240x121", 2018, none, none, none, none, none, 6, false⟩ with e | ⟨x, b⟩
  · rw [hx] at h
    exact absurd h (by simp [Except.toOption])
  · rw [hx] at h
    have hb : b = true := by simpa [Except.toOption] using h
    subst hb
    exact ⟨x, rfl⟩

/-- The ensemble means of the public table have different single members, so that `C86_single_members` applies to each of them. -/
theorem public_distinct : ∀ kv ∈ deterministicPredictionConfigs, ∀ kv' ∈ deterministicPredictionConfigs, IsEnsemble ensemblePrefixes kv.1 → IsEnsemble ensemblePrefixes kv'.1 →
    memberName kv.1 = memberName kv'.1 → kv = kv' := by
  have h : ∀ kv ∈ deterministicPredictionConfigs, ∀ kv' ∈ deterministicPredictionConfigs, ensemblePrefixes.any (fun p => startsWith kv.1 p) = true →
      ensemblePrefixes.any (fun p => startsWith kv'.1 p) = true → memberName kv.1 = memberName kv'.1 → kv = kv' := by
    decide +kernel
  exact fun kv hk kv' hk' he he' => h kv hk kv' hk' ((isEnsemble_iff _ _).mpr he) ((isEnsemble_iff _ _).mpr he')

end WBX.PublicConfigs
