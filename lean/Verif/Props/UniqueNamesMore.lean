import Verif.Props.UniqueNames
import Verif.Props.UnitsMore

/-!
# C101: what the unique names do not mention
-/

namespace WBX
set_option linter.unusedSectionVars false

section generic
variable {D S M : Type}

theorem pyInsert_new {β : Type} (k : String) (v : β) : ∀ l : List (String × β), k ∉ l.map Prod.fst → pyInsert k v l = l ++ [(k, v)]
  | [], _ => rfl
  | (k', v') :: l, h => by
    simp only [List.map_cons, List.mem_cons, not_or] at h
    rw [pyInsert, if_neg (Ne.symm h.1), pyInsert_new k v l h.2]
    rfl

theorem pyInsert_over {β : Type} (k : String) (u v : β) (post : List (String × β)) : ∀ pre : List (String × β), k ∉ pre.map Prod.fst →
    pyInsert k v (pre ++ (k, u) :: post) = pre ++ (k, v) :: post
  | [], _ => by simp [pyInsert]
  | (k', v') :: l, h => by
    simp only [List.map_cons, List.mem_cons, not_or] at h
    rw [List.cons_append, pyInsert, if_neg (Ne.symm h.1), pyInsert_over k u v post l h.2]
    rfl

/-- A statistic under its unique name. -/
def named (s : Statistic D S) : String × Statistic D S := (s.uniqueName, s)

theorem inserted_all : ∀ (l : List (Statistic D S)) (pre : List (Statistic D S)), ((pre ++ l).map Statistic.uniqueName).Nodup →
    l.foldl (fun d s => pyInsert s.uniqueName s d) (pre.map named) = (pre ++ l).map named
  | [], pre, _ => by simp
  | s :: l, pre, h => by
    have h' : ((pre ++ [s]) ++ l).map Statistic.uniqueName = (pre ++ s :: l).map Statistic.uniqueName := by simp
    rw [List.foldl_cons, pyInsert_new]
    · have := inserted_all l (pre ++ [s]) (by rw [h']; exact h)
      simpa [named] using this
    · rw [List.map_append, List.nodup_append] at h
      intro hs
      simp only [List.map_map, List.mem_map, Function.comp, named] at hs
      obtain ⟨x, hx, hn⟩ := hs
      exact h.2.2 _ (List.mem_map_of_mem hx) _ (List.mem_map_of_mem List.mem_cons_self) hn

theorem overwritten_all : ∀ (l l' pre : List (Statistic D S)), l.map Statistic.uniqueName = l'.map Statistic.uniqueName →
    ((pre ++ l').map Statistic.uniqueName).Nodup →
    l'.foldl (fun d s => pyInsert s.uniqueName s d) ((pre ++ l).map named) = (pre ++ l').map named
  | [], [], pre, _, _ => by simp
  | [], s' :: l', pre, h, _ => by simp at h
  | s :: l, [], pre, h, _ => by simp at h
  | s :: l, s' :: l', pre, h, hn => by
    simp only [List.map_cons, List.cons.injEq] at h
    obtain ⟨h1, h2⟩ := h
    have h' : ((pre ++ [s']) ++ l').map Statistic.uniqueName = (pre ++ s' :: l').map Statistic.uniqueName := by simp
    have e : (pre ++ s :: l).map named = pre.map named ++ (s'.uniqueName, s) :: l.map named := by simp [named, h1]
    rw [List.foldl_cons, e, pyInsert_over]
    · have := overwritten_all l l' (pre ++ [s']) h2 (by rw [h']; exact hn)
      simpa [named] using this
    · rw [List.map_append, List.nodup_append] at hn
      intro hs
      simp only [List.map_map, List.mem_map, Function.comp, named] at hs
      obtain ⟨x, hx, hxn⟩ := hs
      exact hn.2.2 _ (List.mem_map_of_mem hx) _ (List.mem_map_of_mem List.mem_cons_self) hxn

end generic

section tables
variable {D L V : Type} [DecidableEq L] [AddCommMonoid V] [Mul V] [One V] [Div V] [IsNull V]

theorem unique_of_twins (n n' : String) (m m' : Metric D (Option (StatVar L V)) (DA L V))
    (hnames : m.statistics.map (fun ks => (ks.1, ks.2.uniqueName)) = m'.statistics.map (fun ks => (ks.1, ks.2.uniqueName)))
    (hdistinct : (m'.statistics.map (fun ks => ks.2.uniqueName)).Nodup) :
    uniqueStatistics [(n, m), (n', m')] = uniqueStatistics [(n', m')] := by
  have hu : (m.statistics.map Prod.snd).map Statistic.uniqueName = (m'.statistics.map Prod.snd).map Statistic.uniqueName := by
    have := congrArg (List.map Prod.snd) hnames
    simpa [List.map_map, Function.comp_def] using this
  have hd : ((m'.statistics.map Prod.snd).map Statistic.uniqueName).Nodup := by simpa [List.map_map, Function.comp_def] using hdistinct
  unfold uniqueStatistics
  simp only [List.flatMap_cons, List.flatMap_nil, List.append_nil, List.foldl_append]
  have a1 := inserted_all (m.statistics.map Prod.snd) [] (by simpa [hu] using hd)
  have a2 := inserted_all (m'.statistics.map Prod.snd) [] (by simpa using hd)
  have a3 := overwritten_all (m.statistics.map Prod.snd) (m'.statistics.map Prod.snd) [] hu (by simpa using hd)
  simp only [List.map_nil, List.nil_append] at a1 a2 a3
  rw [a1, a2, a3]

theorem compute_of_twins (m m' : Metric D (Option (StatVar L V)) (DA L V))
    (hnames : m.statistics.map (fun ks => (ks.1, ks.2.uniqueName)) = m'.statistics.map (fun ks => (ks.1, ks.2.uniqueName)))
    (hvalues : m.valuesFromMeanStatistics = m'.valuesFromMeanStatistics) (sv : List (String × Vars (DA L V))) :
    computeMetricFromStatistics m sv = computeMetricFromStatistics m' sv := by
  have key : ∀ l : List (String × Statistic D (Option (StatVar L V))), l.mapM (fun ks => (do
      let v ← pyItem sv ks.2.uniqueName
      return (ks.1, v) : Except Err (String × Vars (DA L V)))) =
      (l.map (fun ks => (ks.1, ks.2.uniqueName))).mapM (fun kn => (do
      let v ← pyItem sv kn.2
      return (kn.1, v) : Except Err (String × Vars (DA L V)))) := by
    intro l
    induction l with
    | nil => rfl
    | cons x l ih => rw [List.mapM_cons, List.map_cons, List.mapM_cons, ih]
  unfold computeMetricFromStatistics
  rw [key, key, hnames, hvalues]

/-- **C101** ★ (finding) What a unique name does not mention is lost when metrics are computed together: of two metrics whose statistics have the
same unique names, both receive the values of the second one — for every aggregation and all data, without any error. -/
theorem C101_last_wins (n n' : String) (m m' : Metric D (Option (StatVar L V)) (DA L V))
    (hnames : m.statistics.map (fun ks => (ks.1, ks.2.uniqueName)) = m'.statistics.map (fun ks => (ks.1, ks.2.uniqueName)))
    (hdistinct : (m'.statistics.map (fun ks => ks.2.uniqueName)).Nodup) (hvalues : m.valuesFromMeanStatistics = m'.valuesFromMeanStatistics)
    (agg : Aggregator L V) (p t : Vars D) (x : Vars (DA L V)) (h : metricTableForSingleChunk [(n', m')] agg p t = .ok [(n', x)]) :
    metricTableForSingleChunk [(n, m), (n', m')] agg p t = .ok [(n, x), (n', x)] := by
  unfold metricTableForSingleChunk computeUniqueStatistics at h ⊢
  rw [unique_of_twins n n' m m' hnames hdistinct]
  obtain ⟨st, hst, h⟩ := bind_pair_ok _ _ _ h
  obtain ⟨state, hstate, h⟩ := bind_pair_ok _ _ _ h
  have key : ∀ metrics : List (String × Metric D (Option (StatVar L V)) (DA L V)), state.metricTable metrics = (do
      let mean ← state.meanStatistics
      let sv ← (match mean with | .dict d => twoLevels d | _ => .error .typeError)
      computeMetricsFromStatistics metrics sv) := by
    intro metrics
    unfold AggState.metricTable
    rcases state.meanStatistics with e | mean
    · rfl
    · cases mean <;> rfl
  rw [key] at h
  obtain ⟨mean, hmean, h⟩ := bind_pair_ok _ _ _ h
  obtain ⟨sv, hsv, h⟩ := bind_pair_ok _ _ _ h
  have hx : computeMetricFromStatistics m' sv = .ok x := by
    unfold computeMetricsFromStatistics at h
    rw [List.mapM_cons, List.mapM_nil] at h
    rcases hc : computeMetricFromStatistics m' sv with e | y
    · simp [hc, bind, Except.bind] at h
    · simp only [hc, bind, Except.bind, pure, Except.pure, Except.ok.injEq, List.cons.injEq, Prod.mk.injEq, true_and, and_true] at h
      rw [h]
  have hfin : computeMetricsFromStatistics [(n, m), (n', m')] sv = .ok [(n, x), (n', x)] := by
    unfold computeMetricsFromStatistics
    rw [List.mapM_cons, List.mapM_cons, List.mapM_nil, compute_of_twins m m' hnames hvalues sv, hx]
    rfl
  have h2 : state.metricTable [(n, m), (n', m')] = .ok [(n, x), (n', x)] := by
    rw [key]
    exact (bind_ok_iff).mpr ⟨mean, hmean, (bind_ok_iff).mpr ⟨sv, hsv, hfin⟩⟩
  exact (bind_ok_iff).mpr ⟨st, hst, (bind_ok_iff).mpr ⟨state, hstate, h2⟩⟩

end tables

section findings
variable {L K : Type} [DecidableEq L] [Field K] [LinearOrder K] [IsStrictOrderedRing K]

theorem metric2_values (k1 k2 : String) (s1 s2 s1' s2' : FStatistic L K) (f : DA L (FV K) → DA L (FV K) → DA L (FV K)) :
    (metric2 (k1, s1) (k2, s2) f).valuesFromMeanStatistics = (metric2 (k1, s1') (k2, s2') f).valuesFromMeanStatistics := rfl

theorem metric2_names (k1 k2 : String) (s1 s2 s1' s2' : FStatistic L K) (f : DA L (FV K) → DA L (FV K) → DA L (FV K))
    (h1 : s1.uniqueName = s1'.uniqueName) (h2 : s2.uniqueName = s2'.uniqueName) :
    (metric2 (k1, s1) (k2, s2) f).statistics.map (fun ks => (ks.1, ks.2.uniqueName)) =
      (metric2 (k1, s1') (k2, s2') f).statistics.map (fun ks => (ks.1, ks.2.uniqueName)) := by
  simp only [metric2, perVariableMetric, List.map_cons, List.map_nil, h1, h2]

theorem metric2_distinct (k1 k2 : String) (s1 s2 : FStatistic L K) (f : DA L (FV K) → DA L (FV K) → DA L (FV K))
    (h : s1.uniqueName ≠ s2.uniqueName) : ((metric2 (k1, s1) (k2, s2) f).statistics.map (fun ks => ks.2.uniqueName)).Nodup := by
  simpa [metric2, perVariableMetric] using h

theorem skill_name (d : Dim) (k : Bool) : (crpsSkillStatistic d k : FStatistic L K).uniqueName = "CRPSSkill_" ++ d := by
  rw [crpsSkillStatistic, statOfE, perVariableStatistic]

theorem spread_name (argsort : List (FV K) → List ℕ) (order : List L) (d : Dim) (u fair k : Bool) :
    (crpsSpreadStatistic argsort order d u fair "predictions" k).uniqueName =
      "CRPSSpread_" ++ d ++ "_" ++ (if fair then "fair" else "unfair") ++ "_" ++ "predictions" := by
  rw [crpsSpreadStatistic, statOfE, perVariableStatistic]

theorem skill_ne_spread (d : Dim) (x : String) : "CRPSSkill_" ++ d ≠ "CRPSSpread_" ++ d ++ "_" ++ x ++ "_" ++ "predictions" := by
  intro h
  have := congrArg String.toList h
  simp at this

/-- **C101** ★ (finding) `CRPSEnsemble` with and without `skipna_ensemble` (or with and without `use_sort`) in one evaluation: both columns are
the CRPS of the second one. -/
theorem C101_crps_settings (n n' : String) (argsort : List (FV K) → List ℕ) (order : List L) (d : Dim) (useSort useSort' fair skipna skipna' : Bool)
    (agg : Aggregator L (FV K)) (p t : Vars (StatVar L (FV K))) (x : Vars (DA L (FV K)))
    (h : metricTableForSingleChunk [(n', crpsEnsemble argsort order d useSort' fair skipna')] agg p t = .ok [(n', x)]) :
    metricTableForSingleChunk [(n, crpsEnsemble argsort order d useSort fair skipna), (n', crpsEnsemble argsort order d useSort' fair skipna')] agg p t =
      .ok [(n, x), (n', x)] := by
  unfold crpsEnsemble at h ⊢
  generalize hs1 : (crpsSkillStatistic d skipna : FStatistic L K) = s1
  generalize hs1' : (crpsSkillStatistic d skipna' : FStatistic L K) = s1' at h ⊢
  generalize hs2 : crpsSpreadStatistic argsort order d useSort fair "predictions" skipna = s2
  generalize hs2' : crpsSpreadStatistic argsort order d useSort' fair "predictions" skipna' = s2' at h ⊢
  have e1 : s1.uniqueName = s1'.uniqueName := by rw [← hs1, ← hs1', skill_name, skill_name]
  have e2 : s2.uniqueName = s2'.uniqueName := by rw [← hs2, ← hs2', spread_name, spread_name]
  have e3 : s1'.uniqueName ≠ s2'.uniqueName := by
    rw [← hs1', ← hs2', skill_name, spread_name]
    exact skill_ne_spread d _
  exact C101_last_wins n n' _ _ (metric2_names _ _ _ _ _ _ _ e1 e2) (metric2_distinct _ _ _ _ _ e3) (metric2_values _ _ _ _ _ _ _) agg p t x h

theorem single_last_wins (n n' : String) (s s' : FStatistic L K) (hs : s.uniqueName = s'.uniqueName) (agg : Aggregator L (FV K))
    (p t : Vars (StatVar L (FV K))) (x : Vars (DA L (FV K))) (h : metricTableForSingleChunk [(n', s'.toMetric)] agg p t = .ok [(n', x)]) :
    metricTableForSingleChunk [(n, s.toMetric), (n', s'.toMetric)] agg p t = .ok [(n, x), (n', x)] := by
  refine C101_last_wins n n' s.toMetric s'.toMetric ?_ ?_ (by rw [Statistic.toMetric, Statistic.toMetric]) agg p t x h
  · simp only [Statistic.toMetric, List.map_cons, List.map_nil, hs]
  · simp [Statistic.toMetric]

theorem exceedance_name (th : DA L (FV K)) : (errorExceedanceStatistic th).uniqueName = "ErrorExceedance" := by
  rw [errorExceedanceStatistic, statOf, perVariableStatistic]

theorem rps_name (d : Dim) : (rpsStatistic d : FStatistic L K).uniqueName = "RankedProbabilityScore" := by
  rw [rpsStatistic, perVariableStatistic]

/-- **C101** ★ (finding) Two `ErrorExceedance` metrics with different thresholds in one evaluation: both columns are those of the second thresholds. -/
theorem C101_thresholds (n n' : String) (th th' : DA L (FV K)) (agg : Aggregator L (FV K)) (p t : Vars (StatVar L (FV K))) (x : Vars (DA L (FV K)))
    (h : metricTableForSingleChunk [(n', (errorExceedanceStatistic th').toMetric)] agg p t = .ok [(n', x)]) :
    metricTableForSingleChunk [(n, (errorExceedanceStatistic th).toMetric), (n', (errorExceedanceStatistic th').toMetric)] agg p t = .ok [(n, x), (n', x)] :=
  single_last_wins n n' _ _ (by rw [exceedance_name, exceedance_name]) agg p t x h

/-- **C101** ★ (finding) Two `RankedProbabilityScore` metrics along different bin dimensions in one evaluation: both columns are those of the second
bin dimension. -/
theorem C101_bin_dimension (n n' : String) (d d' : Dim) (agg : Aggregator L (FV K)) (p t : Vars (StatVar L (FV K))) (x : Vars (DA L (FV K)))
    (h : metricTableForSingleChunk [(n', (rpsStatistic d').toMetric)] agg p t = .ok [(n', x)]) :
    metricTableForSingleChunk [(n, (rpsStatistic d).toMetric), (n', (rpsStatistic d').toMetric)] agg p t = .ok [(n, x), (n', x)] :=
  single_last_wins n n' _ _ (by rw [rps_name, rps_name]) agg p t x h

/-- **C101** A statistic wrapped with transforms: two transforms of the same statistic give the same unique name only if they apply to the same
side and have the same suffix. -/
theorem C101_wrapped (s : FStatistic L K) (which which' suffix suffix' : String) (fn fn' : String → StatVar L (FV K) → Except Err (StatVar L (FV K)))
    (tr tr' : InputTransform L K) (h : mkTransform which suffix fn = .ok tr) (h' : mkTransform which' suffix' fn' = .ok tr')
    (hn : (wrappedStatistic s tr).uniqueName = (wrappedStatistic s tr').uniqueName) : which = which' ∧ suffix = suffix' := by
  have key : ∀ {w u : String} {g : String → StatVar L (FV K) → Except Err (StatVar L (FV K))} {r : InputTransform L K}, mkTransform w u g = .ok r →
      (∃ sd : Side, w = sd.text) ∧ r.which = w ∧ r.suffix = u := by
    intro w u g r hr
    unfold mkTransform at hr
    split at hr
    · rename_i hw
      simp only [Except.ok.injEq] at hr
      subst hr
      rcases hw with rfl | rfl | rfl
      · exact ⟨⟨.predictions, rfl⟩, rfl, rfl⟩
      · exact ⟨⟨.targets, rfl⟩, rfl, rfl⟩
      · exact ⟨⟨.both, rfl⟩, rfl, rfl⟩
    · simp at hr
  obtain ⟨⟨sd, rfl⟩, e1, e2⟩ := key h
  obtain ⟨⟨sd', rfl⟩, e1', e2'⟩ := key h'
  simp only [wrappedStatistic, e1, e2, e1', e2'] at hn
  have : sd.text ++ "_" ++ suffix = sd'.text ++ "_" ++ suffix' := by
    apply WBX.text_inj
    have := congrArg String.toList hn
    simpa using this
  obtain ⟨rfl, rfl⟩ := side_inj this
  exact ⟨rfl, rfl⟩

/-- **C101** ★ (finding) `SubselectVariables` joins the names of the variables with underscores: the selection of `a` and `b` and the selection of
`a_b` have the same unique name, although one keeps two variables and the other one. -/
theorem C101_subselect_ambiguous (a b : String) (s : FStatistic L K) :
    (subselectStatistic [a, b] s).uniqueName = (subselectStatistic [a ++ "_" ++ b] s).uniqueName := by
  simp only [subselectStatistic, pyJoin]

/-- **C101** ★ (finding) The fractions skill score with a neighborhood size `n` and with the list `[n]` have the same suffix, although the second has
an extra dimension. -/
theorem C101_sizes_ambiguous (n : ℤ) (wrap : Bool) : sizesSuffix (.one n) wrap = sizesSuffix (.many [n]) wrap := by
  have : ",".intercalate [toString n] = toString n := by
    apply WBX.text_inj
    simp
  simp only [sizesSuffix, List.map_cons, List.map_nil]
  rw [this]

/-- **C101** ★ (finding) The unique name of `EnsembleRankedProbabilityScore` does not tell the ensemble dimension from the suffix. -/
theorem C101_rps_ambiguous (trP trT : InputTransform L K) (binDim d e : Dim) (suffix : String) :
    (ensembleRPSStatistic trP trT binDim d true true (e ++ "_skipna_ensemble_True_fair_True_" ++ suffix)).uniqueName =
      (ensembleRPSStatistic trP trT binDim (d ++ "_skipna_ensemble_True_fair_True_" ++ e) true true suffix).uniqueName := by
  apply WBX.text_inj
  simp [ensembleRPSStatistic, statOfE, perVariableStatistic]

end findings

/-! ### The hypotheses are met -/

section example_

/-- One threshold. -/
private def exThreshold (c : ℚ) : DA ℕ (FV ℚ) := { dims := ∅, coords := fun _ => {0}, val := fun _ => .fin c }

/-- Errors of 2 everywhere exceed the threshold 1 and do not exceed the threshold 5; evaluated together, the column of the threshold 1 is that of
the threshold 5. -/
example : (errorExceedance (exThreshold 1) (exKelvin 2 2) (exKelvin 0 0)).arr.val (fun _ => 0) = FV.fin 1 ∧
    (errorExceedance (exThreshold 5) (exKelvin 2 2) (exKelvin 0 0)).arr.val (fun _ => 0) = FV.fin 0 ∧ ∃ y : Vars (DA ℕ (FV ℚ)),
    metricTableForSingleChunk [("five", (errorExceedanceStatistic (exThreshold 5)).toMetric)] exPlain [("t2m", exKelvin 2 2)] [("t2m", exKelvin 0 0)] = .ok [("five", y)] ∧
    metricTableForSingleChunk [("one", (errorExceedanceStatistic (exThreshold 1)).toMetric), ("five", (errorExceedanceStatistic (exThreshold 5)).toMetric)] exPlain
      [("t2m", exKelvin 2 2)] [("t2m", exKelvin 0 0)] = .ok [("one", y), ("five", y)] := by
  have h2 : ∃ y, metricTableForSingleChunk [("five", (errorExceedanceStatistic (exThreshold 5)).toMetric)] exPlain [("t2m", exKelvin 2 2)] [("t2m", exKelvin 0 0)] = .ok [("five", y)] := ⟨_, rfl⟩
  obtain ⟨y, hy⟩ := h2
  exact ⟨by decide +kernel, by decide +kernel, y, hy, C101_thresholds _ _ _ _ _ _ _ y hy⟩

/-- Four metrics with different settings in one evaluation. -/
private noncomputable def four (h : Hidden ℕ ℚ) : List (String × FMetric ℕ ℚ) :=
  [("mae", ((Shipped.onMean .absoluteError .predictions "number" true).statistic h).toMetric),
   ("mae_skip", ((Shipped.onMean .absoluteError .predictions "number" false).statistic h).toMetric),
   ("fair", ((Shipped.crpsSpread "number" true false).statistic h).toMetric), ("unfair", ((Shipped.crpsSpread "number" false false).statistic h).toMetric)]

example (h : Hidden ℕ ℚ) : ∀ s ∈ requiredStatistics (four h), ∃ a : Shipped, s = a.statistic h := by
  intro s hs
  simp only [four, requiredStatistics, Statistic.toMetric, List.flatMap_cons, List.flatMap_nil, List.map_cons, List.map_nil,
    List.append_nil, List.mem_append, List.mem_singleton] at hs
  rcases hs with rfl | rfl | rfl | rfl
  exacts [⟨_, rfl⟩, ⟨_, rfl⟩, ⟨_, rfl⟩, ⟨_, rfl⟩]

/-- Their names. -/
example (h : Hidden ℕ ℚ) : ((Shipped.onMean .absoluteError .predictions "number" true).statistic h).uniqueName =
    "AbsoluteError_predictions_ensemble_mean_self._ensemble_dim='number'_self._skipna=True" ∧
    ((Shipped.crpsSpread "number" false false).statistic h).uniqueName = "CRPSSpread_number_unfair_predictions" := by
  constructor
  · apply WBX.text_inj
    rw [Shipped.uniqueName]
    simp [Shipped.head, Pointwise.text, Side.text, boolText]
  · apply WBX.text_inj
    rw [Shipped.uniqueName]
    simp [Shipped.head]

end example_
end WBX
