import Verif.Props.Benchmark

set_option linter.unusedSectionVars false

/-!
# C83: the names of the files and arrays of the public benchmark
-/

namespace WBX.Benchmark
open WBX CombineResults

/-! ### File names -/

theorem sep_inj_left {c : Char} : ∀ {p q r s : List Char}, c ∉ p → c ∉ q → p ++ c :: r = q ++ c :: s → p = q ∧ r = s
  | [], [], _, _, _, _, h => by simpa using h
  | [], y :: ys, _, _, _, hq, h => by
    simp only [List.nil_append, List.cons_append, List.cons.injEq] at h
    exact absurd (by rw [h.1]; simp) hq
  | x :: xs, [], _, _, hp, _, h => by
    simp only [List.nil_append, List.cons_append, List.cons.injEq] at h
    exact absurd (by rw [h.1]; simp) hp
  | x :: xs, y :: ys, _, _, hp, hq, h => by
    simp only [List.cons_append, List.cons.injEq] at h
    rw [List.mem_cons, not_or] at hp hq
    obtain ⟨e1, e2⟩ := sep_inj_left hp.2 hq.2 h.2
    exact ⟨by rw [h.1, e1], e2⟩

/-- The part after the last separator is determined. -/
theorem sep_inj {c : Char} {xs ys p q : List Char} (hp : c ∉ p) (hq : c ∉ q) (h : xs ++ c :: p = ys ++ c :: q) : xs = ys ∧ p = q := by
  have h1 := congrArg List.reverse h
  simp only [List.reverse_append, List.reverse_cons, List.append_assoc, List.singleton_append] at h1
  obtain ⟨e1, e2⟩ := sep_inj_left (by simpa using hp) (by simpa using hq) h1
  exact ⟨List.reverse_injective e2, List.reverse_injective e1⟩

/-- A text without an underscore. -/
def NoUnderscore (s : String) : Prop := '_' ∉ s.toList

theorem text_inj {a b p q : String} (hp : NoUnderscore p) (hq : NoUnderscore q) (h : a ++ "_" ++ p = b ++ "_" ++ q) : a = b ∧ p = q := by
  have h1 := congrArg String.toList h
  have e : ∀ x y : String, (x ++ "_" ++ y).toList = x.toList ++ '_' :: y.toList := by
    intro x y
    simp [String.toList_append]
  rw [e, e] at h1
  obtain ⟨e1, e2⟩ := sep_inj hp hq h1
  exact ⟨String.toList_inj.mp e1, String.toList_inj.mp e2⟩

theorem suffix_inj {a b s : String} (h : a ++ s = b ++ s) : a = b := by
  have h1 := congrArg String.toList h
  rw [String.toList_append, String.toList_append] at h1
  exact String.toList_inj.mp (List.append_cancel_right h1)

/-- C83: the results for a year are written to the file that is read for this model, resolution and year when the results are combined. -/
theorem C83_file_name {o : Options} (ha : o.timeStart = none) (hb : o.timeStop = none) (ht : o.temporal = false) :
    fileName o = .ok (resultFile (o.prediction ++ "_vs_" ++ o.target) o.resolution (toString o.year)) := by
  unfold fileName initRange
  rw [ha, hb, ht]
  show Except.ok _ = _
  unfold resultFile
  simp

/-- C83: different models, resolutions or years have different files. -/
theorem C83_distinct_files {m r y m' r' y' : String} (hr : NoUnderscore r) (hy : NoUnderscore y) (hr' : NoUnderscore r') (hy' : NoUnderscore y') (h : resultFile m r y = resultFile m' r' y') :
    m = m' ∧ r = r' ∧ y = y' := by
  unfold resultFile at h
  obtain ⟨e1, e2⟩ := text_inj hy hy' (suffix_inj h)
  obtain ⟨e3, e4⟩ := text_inj hr hr' e1
  exact ⟨e3, e4, e2⟩

theorem known_parts : (∀ r ∈ resolutions, NoUnderscore r) ∧ (∀ y ∈ years, NoUnderscore y) := by
  constructor
  · intro r hr
    simp only [resolutions, List.mem_cons, List.not_mem_nil, or_false] at hr
    unfold NoUnderscore
    rcases hr with rfl | rfl | rfl <;> decide
  · intro r hr
    simp only [years, List.mem_cons, List.not_mem_nil, or_false] at hr
    unfold NoUnderscore
    rcases hr with rfl | rfl | rfl <;> decide

/-- C83: results that are not averaged over the init times, and results for a range of init times, are never taken for those of a year. -/
theorem C83_other_files {o : Options} {name : String} (h : fileName o = .ok name) (hother : o.temporal = true ∨ ∃ a b, o.timeStart = some a ∧ o.timeStop = some b ∧ NoUnderscore a.1 ∧ NoUnderscore b.1 ∧ a.1 ∉ resolutions)
    {model r y : String} (hr : r ∈ resolutions) (hy : y ∈ years) : name ≠ resultFile model r y := by
  rintro rfl
  have hry := known_parts.1 r hr
  have hyy := known_parts.2 y hy
  unfold fileName at h
  obtain ⟨⟨range, text⟩, h1, h2⟩ := bind_ok_iff.mp h
  have h3 := Except.ok.inj h2
  unfold resultFile at h3
  have h4 := suffix_inj h3
  cases ht : o.temporal with
  | true =>
    rw [ht] at h4
    dsimp only at h4
    rw [if_pos rfl, show "_temporal" = "_" ++ "temporal" by decide, ← String.append_assoc] at h4
    obtain ⟨_, e⟩ := text_inj (by unfold NoUnderscore; decide) hyy h4
    rw [← e] at hy
    exact absurd hy (by decide)
  | false =>
    rcases hother with h5 | ⟨a, b, ha, hb, hna, hnb, hno⟩
    · rw [ht] at h5
      cases h5
    · unfold initRange at h1
      rw [ha, hb] at h1
      have e := congrArg Prod.snd (Except.ok.inj h1)
      dsimp only at e
      rw [ht, ← e] at h4
      dsimp only at h4
      rw [if_neg (by decide), String.append_empty, ← String.append_assoc, ← String.append_assoc] at h4
      obtain ⟨e1, _⟩ := text_inj hnb hyy h4
      obtain ⟨_, e2⟩ := text_inj hna hry e1
      rw [e2] at hno
      exact hno hr

/-- C83: every model whose results are combined is named after a prediction and a target of the evaluation. -/
theorem C83_models : ∀ k ∈ (deterministicModels ++ probabilisticModels).map Prod.fst, ∃ p t, t ∈ ["era5", "hres_t0"] ∧ k = p ++ "_vs_" ++ t := by
  have h : ∀ k ∈ (deterministicModels ++ probabilisticModels).map Prod.fst, ∃ t ∈ ["era5", "hres_t0"], ("_vs_" ++ t).toList.isSuffixOf k.toList = true := by decide
  intro k hk
  obtain ⟨t, ht, hs⟩ := h k hk
  obtain ⟨p, hp⟩ := List.isSuffixOf_iff_suffix.mp hs
  refine ⟨String.ofList p, t, ht, String.toList_inj.mp ?_⟩
  rw [String.append_assoc, String.toList_append, String.toList_ofList, hp]

/-! ### Configurations -/

/-- C83: which configuration is used, and which kind of evaluation it is: a deterministic configuration comes before a probabilistic one of the same name. -/
theorem C83_config (c : Configs) (o : Options) (hp : o.prediction ∉ ["persistence", "climatology", "probabilistic_climatology"]) :
    (∀ x, pyGet? (o.prediction ++ "_" ++ o.resolution ++ "_" ++ toString o.year) c.deterministic = some x → predictionConfig c o = .ok (x, false)) ∧
    (pyGet? (o.prediction ++ "_" ++ o.resolution ++ "_" ++ toString o.year) c.deterministic = none →
      (∀ x, pyGet? (o.prediction ++ "_" ++ o.resolution ++ "_" ++ toString o.year) c.probabilistic = some x → predictionConfig c o = .ok (x, true)) ∧
      (pyGet? (o.prediction ++ "_" ++ o.resolution ++ "_" ++ toString o.year) c.probabilistic = none → predictionConfig c o = .error .keyError)) := by
  simp only [List.mem_cons, List.not_mem_nil, or_false, not_or] at hp
  have h : predictionConfig c o = match pyGet? (o.prediction ++ "_" ++ o.resolution ++ "_" ++ toString o.year) c.deterministic with
    | some x => .ok (x, false)
    | none => do
      let x ← pyItem c.probabilistic (o.prediction ++ "_" ++ o.resolution ++ "_" ++ toString o.year)
      return (x, true) := by
    unfold predictionConfig
    rw [if_neg hp.1, if_neg hp.2.2, if_neg hp.2.1]
    rfl
  rw [h]
  refine ⟨?_, ?_⟩
  · intro x hx
    rw [hx]
  · intro hn
    rw [hn]
    refine ⟨?_, ?_⟩
    · intro x hx
      unfold pyItem
      rw [hx]
      rfl
    · intro hx
      unfold pyItem
      rw [hx]
      rfl

/-- C83: the baselines made from the analysis: persistence and the two climatologies. Only the probabilistic climatology is evaluated as a probabilistic forecast. -/
theorem C83_baseline_configs (c : Configs) (o : Options) {x : Config} :
    (o.prediction = "persistence" → pyGet? ("era5_" ++ o.resolution) c.targets = some x → predictionConfig c o = .ok (x, false)) ∧
    (o.prediction = "probabilistic_climatology" → pyGet? ("era5_" ++ o.resolution) c.targets = some x → predictionConfig c o = .ok (x, true)) ∧
    (o.prediction = "climatology" → pyGet? ("era5_" ++ o.resolution ++ "_" ++ toString o.year) c.climatologies = some x → predictionConfig c o = .ok (x, false)) := by
  have n1 : ("probabilistic_climatology" : String) ≠ "persistence" := by decide
  have n2 : ("climatology" : String) ≠ "persistence" := by decide
  have n3 : ("climatology" : String) ≠ "probabilistic_climatology" := by decide
  refine ⟨fun h hx => ?_, fun h hx => ?_, fun h hx => ?_⟩
  · unfold predictionConfig pyItem
    rw [if_pos h, hx]
    rfl
  · unfold predictionConfig pyItem
    rw [if_neg (by rw [h]; exact n1), if_pos h, hx]
    rfl
  · unfold predictionConfig pyItem
    rw [if_neg (by rw [h]; exact n2), if_neg (by rw [h]; exact n3), if_pos h, hx]
    rfl

/-- C83: the evaluated variables are those of both configurations. -/
theorem C83_variables (p t : Config) : (commonVariables p t).Nodup ∧ ∀ v, v ∈ commonVariables p t ↔ v ∈ p.names ∧ v ∈ t.names := by
  refine ⟨List.nodup_dedup _, fun v => ?_⟩
  unfold commonVariables
  rw [List.mem_dedup, List.mem_filter]
  simp

/-! ### Metrics -/

/-- C83: the evaluation is set up unless a precipitation has no dry threshold: then it is a `KeyError`, also if SEEPS is not used. -/
theorem C83_setup (prob : Bool) (vs : List String) :
    ((∀ v ∈ precipVariables vs, (pyGet? v dryThresholds).isSome) → ∃ ms, allMetrics prob vs = .ok ms) ∧
    (∀ v ∈ precipVariables vs, pyGet? v dryThresholds = none → allMetrics prob vs = .error .keyError) := by
  constructor
  · intro h
    have h1 : ∃ ms, deterministicMetrics vs = .ok ms := by
      unfold deterministicMetrics
      by_cases hp : precipVariables vs = []
      · rw [if_pos hp]
        exact ⟨_, rfl⟩
      · rw [if_neg hp]
        obtain ⟨r, hr⟩ := mapM_ok_of_mem (fun v => pyItem dryThresholds v) (precipVariables vs) (by
          intro v hv
          obtain ⟨x, hx⟩ := Option.isSome_iff_exists.mp (h v hv)
          exact ⟨x, by unfold pyItem; rw [hx]⟩)
        rw [hr]
        exact ⟨_, rfl⟩
    obtain ⟨ms, hm⟩ := h1
    unfold allMetrics
    rw [hm]
    exact ⟨_, rfl⟩
  · intro v hv hn
    have h1 : (precipVariables vs).mapM (fun v => pyItem dryThresholds v) = (.error .keyError : Except Err (List String)) := by
      revert hv
      induction precipVariables vs with
      | nil => intro hv; cases hv
      | cons w ws ih =>
        intro hv
        rw [List.mapM_cons]
        cases hw : pyItem dryThresholds w with
        | error er =>
          have : er = .keyError := by
            unfold pyItem at hw
            split at hw
            · cases hw
            · exact (Except.error.inj hw).symm
          rw [this]
          rfl
        | ok x =>
          rcases List.mem_cons.mp hv with rfl | hv
          · unfold pyItem at hw
            rw [hn] at hw
            cases hw
          · rw [ih hv]
            rfl
    unfold allMetrics deterministicMetrics
    rw [if_neg (List.ne_nil_of_mem hv), h1]
    rfl

/-- The metrics and variables of the arrays. -/
def pairs (metrics : List (String × List String)) : List (String × String) := metrics.flatMap (fun mv => mv.2.map (fun v => (mv.1, v)))

theorem arrayNames_eq (metrics : List (String × List String)) : arrayNames metrics = (pairs metrics).map (fun p => p.1 ++ "." ++ p.2) := by
  unfold arrayNames pairs
  rw [List.map_flatMap]
  simp only [List.map_map, Function.comp_def]

theorem mem_pairs {metrics : List (String × List String)} {p : String × String} : p ∈ pairs metrics ↔ ∃ vs, (p.1, vs) ∈ metrics ∧ p.2 ∈ vs := by
  unfold pairs
  simp only [List.mem_flatMap, List.mem_map]
  constructor
  · rintro ⟨⟨m, vs⟩, h, v, hv, rfl⟩
    exact ⟨vs, h, hv⟩
  · rintro ⟨vs, h, hv⟩
    exact ⟨(p.1, vs), h, p.2, hv, rfl⟩

theorem pairs_nodup {metrics : List (String × List String)} (h1 : (metrics.map Prod.fst).Nodup) (h2 : ∀ mv ∈ metrics, mv.2.Nodup) : (pairs metrics).Nodup := by
  unfold pairs
  rw [List.nodup_flatMap]
  refine ⟨?_, ?_⟩
  · intro mv hmv
    exact (h2 mv hmv).map (fun a b h => (Prod.mk.inj h).2)
  · refine (List.pairwise_map.mp h1).imp ?_
    intro a b hab p hp hp'
    obtain ⟨v, _, rfl⟩ := List.mem_map.mp hp
    obtain ⟨v', _, e⟩ := List.mem_map.mp hp'
    exact hab (Prod.mk.inj e).1.symm

theorem mem_vectorNames {vs : List String} {v : String} (h : v ∈ vectorNames vs) : v = "wind" ∨ v = "10m_wind" := by
  unfold vectorNames at h
  rw [List.mem_append] at h
  rcases h with h | h
  · split_ifs at h
    · exact Or.inl (by simpa using h)
    · cases h
  · split_ifs at h
    · exact Or.inr (by simpa using h)
    · cases h

theorem vectorNames_nodup (vs : List String) : (vectorNames vs).Nodup := by
  unfold vectorNames
  split_ifs <;> decide

theorem deterministicMetrics_ok {vs : List String} {ms : List (String × List String)} (h : deterministicMetrics vs = .ok ms) :
    ms = ["rmse", "mse", "bias", "acc", "prediction_activity"].map (fun m => (m, vs)) ++ (if vectorNames vs = [] then [] else [("vector_rmse", vectorNames vs)]) ++
      (if precipVariables vs = [] then [] else [("seeps", precipVariables vs)]) := by
  unfold deterministicMetrics at h
  obtain ⟨seeps, h1, h2⟩ := bind_ok_iff.mp h
  rw [← Except.ok.inj h2]
  congr 1
  by_cases hp : precipVariables vs = []
  · rw [if_pos hp] at h1 ⊢
    exact (Except.ok.inj h1).symm
  · rw [if_neg hp] at h1 ⊢
    obtain ⟨_, _, h3⟩ := bind_ok_iff.mp h1
    exact (Except.ok.inj h3).symm

/-- What the metrics of a deterministic evaluation can be. -/
theorem deterministic_pairs {vs : List String} {ms : List (String × List String)} (h : deterministicMetrics vs = .ok ms) {p : String × String} (hp : p ∈ pairs ms) :
    (p.1 ∈ ["rmse", "mse", "bias", "acc", "prediction_activity", "seeps"] ∧ p.2 ∈ vs) ∨ (p.1 = "vector_rmse" ∧ (p.2 = "wind" ∨ p.2 = "10m_wind")) := by
  obtain ⟨ws, h1, h2⟩ := mem_pairs.mp hp
  rw [deterministicMetrics_ok h, List.mem_append, List.mem_append] at h1
  rcases h1 with (h1 | h1) | h1
  · obtain ⟨m, hm, e⟩ := List.mem_map.mp h1
    obtain ⟨e1, e2⟩ := Prod.mk.inj e
    subst e2
    refine Or.inl ⟨?_, h2⟩
    rw [← e1]
    simp only [List.mem_cons, List.not_mem_nil, or_false] at hm ⊢
    tauto
  · split_ifs at h1
    · cases h1
    · rw [List.mem_singleton] at h1
      obtain ⟨e1, e2⟩ := Prod.mk.inj h1
      subst e2
      exact Or.inr ⟨e1, mem_vectorNames h2⟩
  · split_ifs at h1
    · cases h1
    · rw [List.mem_singleton] at h1
      obtain ⟨e1, e2⟩ := Prod.mk.inj h1
      subst e2
      refine Or.inl ⟨by rw [e1]; decide, ?_⟩
      unfold precipVariables at h2
      exact List.mem_of_mem_filter h2

theorem noDot_metrics : ∀ m ∈ ["rmse", "mse", "bias", "acc", "prediction_activity", "seeps", "crps", "unbiased_spread_skill", "unbiased_mean_rmse", "mean_rmse"], NoDot m := by
  intro m hm
  simp only [List.mem_cons, List.not_mem_nil, or_false] at hm
  unfold NoDot
  rcases hm with rfl | rfl | rfl | rfl | rfl | rfl | rfl | rfl | rfl | rfl <;> decide

theorem vectorName_other {m v : String} (hm : NoDot m) (h : m ≠ "vector_rmse") : vectorName (m ++ "." ++ v) = m ++ "." ++ v := by
  have hd : NoDot "vector_rmse" := by unfold NoDot; decide
  unfold vectorName
  rw [if_neg, if_neg]
  · intro e
    exact h (dotted_inj hm hd (e.trans (show "vector_rmse.10m_wind" = "vector_rmse" ++ "." ++ "10m_wind" by decide))).1
  · intro e
    exact h (dotted_inj hm hd (e.trans (show "vector_rmse.wind" = "vector_rmse" ++ "." ++ "wind" by decide))).1

/-- The metric and variable of a pair after the wind vectors are renamed. -/
def shown (p : String × String) : String × String :=
  if p.1 = "vector_rmse" then ("rmse", p.2 ++ "_vector") else p

theorem shown_name {vs : List String} {ms : List (String × List String)} (h : deterministicMetrics vs = .ok ms) {p : String × String} (hp : p ∈ pairs ms) :
    vectorName (p.1 ++ "." ++ p.2) = (shown p).1 ++ "." ++ (shown p).2 := by
  rcases deterministic_pairs h hp with ⟨h1, _⟩ | ⟨h1, h2⟩
  · have hne : p.1 ≠ "vector_rmse" := by
      intro e
      rw [e] at h1
      exact absurd h1 (by decide)
    unfold shown
    rw [if_neg hne]
    refine vectorName_other (noDot_metrics _ ?_) hne
    simp only [List.mem_cons, List.not_mem_nil, or_false] at h1 ⊢
    tauto
  · unfold shown
    rw [if_pos h1, h1]
    rcases h2 with h2 | h2 <;> rw [h2] <;> decide

/-- The variables that the benchmark has: names without dots, none of them a display name or the name of a wind vector. -/
structure BenchmarkVariables (vs : List String) : Prop where
  distinct : vs.Nodup
  noDot : ∀ v ∈ vs, NoDot v
  noDisplay : ∀ v ∈ vs, v ∉ variableNames.map Prod.snd
  noVector : "wind_vector" ∉ vs ∧ "10m_wind_vector" ∉ vs

/-- C83: the arrays of a deterministic evaluation can be combined in the mode `deterministic`: after the wind vectors are renamed their names are distinct, each is `<metric>.<variable>`, and
each metric has a display name (these are the conditions on names of C82). -/
theorem C83_combinable_deterministic {vs : List String} (hv : BenchmarkVariables vs) {ms : List (String × List String)} (h : allMetrics false vs = .ok ms) :
    ((arrayNames ms).map vectorName).Nodup ∧ ∀ n ∈ arrayNames ms, ∃ m v, vectorName n = m ++ "." ++ v ∧ NoDot m ∧ NoDot v ∧ v ∉ variableNames.map Prod.snd ∧ (pyGet? m deterministicMetricNames).isSome := by
  have h : deterministicMetrics vs = .ok ms := by
    unfold allMetrics at h
    obtain ⟨d, h1, h2⟩ := bind_ok_iff.mp h
    rw [h1, ← Except.ok.inj h2]
    rfl
  have hkeys : (ms.map Prod.fst).Nodup ∧ ∀ mv ∈ ms, mv.2.Nodup := by
    rw [deterministicMetrics_ok h]
    have hpn : (precipVariables vs).Nodup := hv.distinct.filter _
    constructor
    · rw [List.map_append, List.map_append, List.map_map]
      split_ifs <;> simp
    · intro mv hmv
      rw [List.mem_append, List.mem_append] at hmv
      rcases hmv with (hmv | hmv) | hmv
      · obtain ⟨m, _, rfl⟩ := List.mem_map.mp hmv
        exact hv.distinct
      · split_ifs at hmv
        · cases hmv
        · rw [List.mem_singleton] at hmv
          rw [hmv]
          exact vectorNames_nodup vs
      · split_ifs at hmv
        · cases hmv
        · rw [List.mem_singleton] at hmv
          rw [hmv]
          exact hpn
  have hshown : ∀ p ∈ pairs ms, NoDot (shown p).1 ∧ NoDot (shown p).2 ∧ (shown p).2 ∉ variableNames.map Prod.snd ∧ (pyGet? (shown p).1 deterministicMetricNames).isSome := by
    intro p hp
    unfold shown
    rcases deterministic_pairs h hp with ⟨h1, h2⟩ | ⟨h1, h2⟩
    · have hne : p.1 ≠ "vector_rmse" := by
        intro e
        rw [e] at h1
        exact absurd h1 (by decide)
      rw [if_neg hne]
      refine ⟨noDot_metrics _ ?_, hv.noDot _ h2, hv.noDisplay _ h2, ?_⟩
      · simp only [List.mem_cons, List.not_mem_nil, or_false] at h1 ⊢
        tauto
      · simp only [List.mem_cons, List.not_mem_nil, or_false] at h1
        rcases h1 with e | e | e | e | e | e <;> rw [e] <;> decide
    · rw [if_pos h1]
      unfold NoDot
      rcases h2 with h2 | h2 <;> rw [h2] <;> decide
  constructor
  · rw [arrayNames_eq, List.map_map]
    refine List.Nodup.map_on ?_ (pairs_nodup hkeys.1 hkeys.2)
    intro p hp q hq e
    simp only [Function.comp_apply] at e
    rw [shown_name h hp, shown_name h hq] at e
    obtain ⟨e1, e2⟩ := dotted_inj (hshown p hp).1 (hshown q hq).1 e
    unfold shown at e1 e2
    have hvec : ∀ w : String, w = "wind" ∨ w = "10m_wind" → w ++ "_vector" = "wind_vector" ∨ w ++ "_vector" = "10m_wind_vector" := by
      rintro w (rfl | rfl) <;> decide
    rcases deterministic_pairs h hp with ⟨h1, h2⟩ | ⟨h1, h2⟩
    · have hne : p.1 ≠ "vector_rmse" := by
        intro e
        rw [e] at h1
        exact absurd h1 (by decide)
      rw [if_neg hne] at e1 e2
      rcases deterministic_pairs h hq with ⟨h3, h4⟩ | ⟨h3, h4⟩
      · have hne' : q.1 ≠ "vector_rmse" := by
          intro e
          rw [e] at h3
          exact absurd h3 (by decide)
        rw [if_neg hne'] at e1 e2
        exact Prod.ext e1 e2
      · rw [if_pos h3] at e2
        rw [e2] at h2
        rcases hvec _ h4 with h5 | h5
        · rw [h5] at h2; exact absurd h2 hv.noVector.1
        · rw [h5] at h2; exact absurd h2 hv.noVector.2
    · rw [if_pos h1] at e1 e2
      rcases deterministic_pairs h hq with ⟨h3, h4⟩ | ⟨h3, h4⟩
      · have hne' : q.1 ≠ "vector_rmse" := by
          intro e
          rw [e] at h3
          exact absurd h3 (by decide)
        rw [if_neg hne'] at e1 e2
        rw [← e2] at h4
        rcases hvec _ h2 with h5 | h5
        · rw [h5] at h4; exact absurd h4 hv.noVector.1
        · rw [h5] at h4; exact absurd h4 hv.noVector.2
      · rw [if_pos h3] at e2
        exact Prod.ext (h1.trans h3.symm) (suffix_inj e2)
  · intro n hn
    rw [arrayNames_eq] at hn
    obtain ⟨p, hp, rfl⟩ := List.mem_map.mp hn
    obtain ⟨h1, h2, h3, h4⟩ := hshown p hp
    exact ⟨_, _, shown_name h hp, h1, h2, h3, h4⟩

/-- C83: the arrays of a probabilistic evaluation can be combined in the mode `probabilistic`. -/
theorem C83_combinable_probabilistic {vs : List String} (hv : BenchmarkVariables vs) {ms : List (String × List String)} (h : allMetrics true vs = .ok ms) :
    ((arrayNames ms).map vectorName).Nodup ∧ ∀ n ∈ arrayNames ms, ∃ m v, vectorName n = m ++ "." ++ v ∧ NoDot m ∧ NoDot v ∧ v ∉ variableNames.map Prod.snd ∧ (pyGet? m probabilisticMetricNames).isSome := by
  have h : ms = probabilisticMetrics vs := by
    unfold allMetrics at h
    obtain ⟨d, h1, h2⟩ := bind_ok_iff.mp h
    rw [← Except.ok.inj h2]
    rfl
  subst h
  have hp : ∀ p ∈ pairs (probabilisticMetrics vs), p.1 ∈ ["crps", "unbiased_spread_skill", "unbiased_mean_rmse", "mean_rmse"] ∧ p.2 ∈ vs := by
    intro p hp
    obtain ⟨ws, h1, h2⟩ := mem_pairs.mp hp
    obtain ⟨m, hm, e⟩ := List.mem_map.mp h1
    obtain ⟨e1, e2⟩ := Prod.mk.inj e
    subst e2
    rw [← e1]
    exact ⟨hm, h2⟩
  have hname : ∀ p ∈ pairs (probabilisticMetrics vs), NoDot p.1 ∧ vectorName (p.1 ++ "." ++ p.2) = p.1 ++ "." ++ p.2 := by
    intro p hpp
    have h1 := (hp p hpp).1
    have hd : NoDot p.1 := noDot_metrics _ (by
      simp only [List.mem_cons, List.not_mem_nil, or_false] at h1 ⊢
      tauto)
    refine ⟨hd, vectorName_other hd ?_⟩
    intro e
    rw [e] at h1
    exact absurd h1 (by decide)
  constructor
  · rw [arrayNames_eq, List.map_map]
    refine List.Nodup.map_on ?_ (pairs_nodup ?_ ?_)
    · intro p hpp q hq e
      simp only [Function.comp_apply] at e
      rw [(hname p hpp).2, (hname q hq).2] at e
      obtain ⟨e1, e2⟩ := dotted_inj (hname p hpp).1 (hname q hq).1 e
      exact Prod.ext e1 e2
    · unfold probabilisticMetrics
      rw [List.map_map]
      show (["crps", "unbiased_spread_skill", "unbiased_mean_rmse", "mean_rmse"].map id).Nodup
      decide
    · intro mv hmv
      obtain ⟨m, _, rfl⟩ := List.mem_map.mp hmv
      exact hv.distinct
  · intro n hn
    rw [arrayNames_eq] at hn
    obtain ⟨p, hpp, rfl⟩ := List.mem_map.mp hn
    have h1 := hp p hpp
    refine ⟨p.1, p.2, (hname p hpp).2, (hname p hpp).1, hv.noDot _ h1.2, hv.noDisplay _ h1.2, ?_⟩
    have h2 := h1.1
    simp only [List.mem_cons, List.not_mem_nil, or_false] at h2
    rcases h2 with e | e | e | e <;> rw [e] <;> decide

/-- C83: which arrays a deterministic evaluation has: every variable for the five general metrics, wind vectors where both components are evaluated, and SEEPS for precipitation. -/
theorem C83_arrays {vs : List String} {ms : List (String × List String)} (h : allMetrics false vs = .ok ms) (n : String) :
    n ∈ arrayNames ms ↔ (∃ m ∈ ["rmse", "mse", "bias", "acc", "prediction_activity"], ∃ v ∈ vs, n = m ++ "." ++ v) ∨
      ("u_component_of_wind" ∈ vs ∧ "v_component_of_wind" ∈ vs ∧ n = "vector_rmse.wind") ∨ ("10m_u_component_of_wind" ∈ vs ∧ "10m_v_component_of_wind" ∈ vs ∧ n = "vector_rmse.10m_wind") ∨
      ∃ v ∈ vs, "total_precipitation".toList.isPrefixOf v.toList = true ∧ n = "seeps" ++ "." ++ v := by
  have h : deterministicMetrics vs = .ok ms := by
    unfold allMetrics at h
    obtain ⟨d, h1, h2⟩ := bind_ok_iff.mp h
    rw [h1, ← Except.ok.inj h2]
    rfl
  rw [arrayNames_eq, List.mem_map, deterministicMetrics_ok h]
  have hsplit : ∀ p, p ∈ pairs (["rmse", "mse", "bias", "acc", "prediction_activity"].map (fun m => (m, vs)) ++ (if vectorNames vs = [] then [] else [("vector_rmse", vectorNames vs)]) ++
      (if precipVariables vs = [] then [] else [("seeps", precipVariables vs)])) ↔
      (p.1 ∈ ["rmse", "mse", "bias", "acc", "prediction_activity"] ∧ p.2 ∈ vs) ∨ (p.1 = "vector_rmse" ∧ p.2 ∈ vectorNames vs) ∨ (p.1 = "seeps" ∧ p.2 ∈ precipVariables vs) := by
    intro p
    rw [mem_pairs]
    constructor
    · rintro ⟨ws, h1, h2⟩
      rw [List.mem_append, List.mem_append] at h1
      rcases h1 with (h1 | h1) | h1
      · obtain ⟨m, hm, e⟩ := List.mem_map.mp h1
        obtain ⟨e1, e2⟩ := Prod.mk.inj e
        subst e2
        exact Or.inl ⟨e1 ▸ hm, h2⟩
      · split_ifs at h1
        · cases h1
        · rw [List.mem_singleton] at h1
          obtain ⟨e1, e2⟩ := Prod.mk.inj h1
          subst e2
          exact Or.inr (Or.inl ⟨e1, h2⟩)
      · split_ifs at h1
        · cases h1
        · rw [List.mem_singleton] at h1
          obtain ⟨e1, e2⟩ := Prod.mk.inj h1
          subst e2
          exact Or.inr (Or.inr ⟨e1, h2⟩)
    · rintro (⟨h1, h2⟩ | ⟨h1, h2⟩ | ⟨h1, h2⟩)
      · exact ⟨vs, List.mem_append_left _ (List.mem_append_left _ (List.mem_map.mpr ⟨p.1, h1, rfl⟩)), h2⟩
      · refine ⟨vectorNames vs, List.mem_append_left _ (List.mem_append_right _ ?_), h2⟩
        rw [if_neg (List.ne_nil_of_mem h2), h1]
        simp
      · refine ⟨precipVariables vs, List.mem_append_right _ ?_, h2⟩
        rw [if_neg (List.ne_nil_of_mem h2), h1]
        simp
  have hvec : ∀ v, v ∈ vectorNames vs ↔ ("u_component_of_wind" ∈ vs ∧ "v_component_of_wind" ∈ vs ∧ v = "wind") ∨ ("10m_u_component_of_wind" ∈ vs ∧ "10m_v_component_of_wind" ∈ vs ∧ v = "10m_wind") := by
    intro v
    unfold vectorNames
    rw [List.mem_append]
    by_cases h1 : "u_component_of_wind" ∈ vs ∧ "v_component_of_wind" ∈ vs <;> by_cases h2 : "10m_u_component_of_wind" ∈ vs ∧ "10m_v_component_of_wind" ∈ vs
    · rw [if_pos h1, if_pos h2]; simp [h1, h2]
    · rw [if_pos h1, if_neg h2, ← and_assoc, ← and_assoc]; simp [h1, h2]
    · rw [if_neg h1, if_pos h2, ← and_assoc, ← and_assoc]; simp [h1, h2]
    · rw [if_neg h1, if_neg h2, ← and_assoc, ← and_assoc]; simp [h1, h2]
  have hpre : ∀ v, v ∈ precipVariables vs ↔ v ∈ vs ∧ "total_precipitation".toList.isPrefixOf v.toList = true := by
    intro v
    unfold precipVariables
    rw [List.mem_filter]
  constructor
  · rintro ⟨p, hp, rfl⟩
    rcases (hsplit p).mp hp with ⟨h1, h2⟩ | ⟨h1, h2⟩ | ⟨h1, h2⟩
    · exact Or.inl ⟨p.1, h1, p.2, h2, rfl⟩
    · rcases (hvec _).mp h2 with ⟨h3, h4, h5⟩ | ⟨h3, h4, h5⟩
      · exact Or.inr (Or.inl ⟨h3, h4, by rw [h1, h5]; decide⟩)
      · exact Or.inr (Or.inr (Or.inl ⟨h3, h4, by rw [h1, h5]; decide⟩))
    · have h3 := (hpre _).mp h2
      exact Or.inr (Or.inr (Or.inr ⟨p.2, h3.1, h3.2, by rw [h1]⟩))
  · rintro (⟨m, hm, v, hv, rfl⟩ | ⟨h1, h2, rfl⟩ | ⟨h1, h2, rfl⟩ | ⟨v, hv, h1, rfl⟩)
    · exact ⟨(m, v), (hsplit _).mpr (Or.inl ⟨hm, hv⟩), rfl⟩
    · exact ⟨("vector_rmse", "wind"), (hsplit _).mpr (Or.inr (Or.inl ⟨rfl, (hvec _).mpr (Or.inl ⟨h1, h2, rfl⟩)⟩)), by decide⟩
    · exact ⟨("vector_rmse", "10m_wind"), (hsplit _).mpr (Or.inr (Or.inl ⟨rfl, (hvec _).mpr (Or.inr ⟨h1, h2, rfl⟩)⟩)), by decide⟩
    · exact ⟨("seeps", v), (hsplit _).mpr (Or.inr (Or.inr ⟨rfl, (hpre _).mpr ⟨hv, h1⟩⟩)), rfl⟩

/-- The variables of `hres` (public_configs.py:18-40). -/
def exVariables : List String :=
  ["geopotential", "temperature", "u_component_of_wind", "v_component_of_wind", "wind_speed", "specific_humidity", "2m_temperature", "mean_sea_level_pressure", "10m_u_component_of_wind",
   "10m_v_component_of_wind", "10m_wind_speed", "total_precipitation_6hr", "total_precipitation_24hr"]

theorem exVariables_ok : BenchmarkVariables exVariables where
  distinct := by decide
  noDot := by
    have : ∀ v ∈ exVariables, '.' ∉ v.toList := by decide
    exact this
  noDisplay := by decide
  noVector := by decide

example : ∃ ms, allMetrics false exVariables = .ok ms ∧ ((arrayNames ms).map vectorName).Nodup ∧ "vector_rmse.wind" ∈ arrayNames ms ∧ "seeps.total_precipitation_6hr" ∈ arrayNames ms := by
  obtain ⟨ms, h⟩ := (C83_setup false exVariables).1 (by decide)
  exact ⟨ms, h, (C83_combinable_deterministic exVariables_ok h).1, (C83_arrays h _).mpr (Or.inr (Or.inl ⟨by decide, by decide, rfl⟩)),
    (C83_arrays h _).mpr (Or.inr (Or.inr (Or.inr ⟨"total_precipitation_6hr", by decide, by decide, by decide⟩)))⟩

example : ∃ ms, allMetrics true exVariables = .ok ms ∧ ((arrayNames ms).map vectorName).Nodup := by
  obtain ⟨ms, h⟩ := (C83_setup true exVariables).1 (by decide)
  exact ⟨ms, h, (C83_combinable_probabilistic exVariables_ok h).1⟩

/-- A precipitation over 12 hours stops even a probabilistic evaluation. -/
example : allMetrics true ["total_precipitation_12hr"] = .error .keyError := (C83_setup true _).2 "total_precipitation_12hr" (by decide) rfl

/-- The file of HRES against ERA5 is the one that is read for it. -/
example : fileName { prediction := "hres", target := "era5", resolution := "64x32", year := 2020 } = .ok (resultFile "hres_vs_era5" "64x32" "2020") := by
  rw [C83_file_name rfl rfl rfl]
  exact congrArg Except.ok (by decide)

/-- A run over a range of times is not. -/
example (name : String) (h : fileName { prediction := "hres", target := "era5", resolution := "64x32", year := 2020, timeStart := some ("2020-01-01", 438288), timeStop := some ("2020", 438288) } = .ok name) :
    name ≠ resultFile "hres_vs_era5_64x32" "64x32" "2020" :=
  C83_other_files h (Or.inr ⟨_, _, rfl, rfl, by unfold NoUnderscore; decide, by unfold NoUnderscore; decide, by decide⟩) (by decide) (by decide)

end WBX.Benchmark
