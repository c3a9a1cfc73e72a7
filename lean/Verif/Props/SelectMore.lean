import Verif.Props.SelectMetrics
import Verif.Props.LocalityClimatology

/-!
# C100: more metrics that work label by label, and wrapped metrics
-/

set_option linter.unusedSectionVars false

namespace WBX
open DA Aggregator

section
variable {L K : Type} [DecidableEq L] [Field K] [LinearOrder K] [IsStrictOrderedRing K] {c d : Dim}

theorem unbiasedMSE_keeps (hd : d ≠ c) {skipna : Bool} {p t s : StatVar L (FV K)} (h : c ∈ p.arr.dims) (hs : unbiasedMSE d skipna p t = .ok s) : c ∈ s.arr.dims := by
  unfold unbiasedMSE at hs
  obtain ⟨pm, hpm, hs⟩ := bind_ok_iff.mp hs
  obtain ⟨pv, _, hs⟩ := bind_ok_iff.mp hs
  obtain ⟨pn, _, hs⟩ := bind_ok_iff.mp hs
  have hc := meanDim_keeps hd h hpm
  dsimp only at hs
  split at hs
  · obtain ⟨tm, _, hs⟩ := bind_ok_iff.mp hs
    obtain ⟨tv, _, hs⟩ := bind_ok_iff.mp hs
    obtain ⟨tn, _, hs⟩ := bind_ok_iff.mp hs
    cases hs
    exact Finset.mem_union_left _ (Finset.mem_union_left _ (Finset.mem_union_left _ hc))
  · cases hs
    exact Finset.mem_union_left _ (Finset.mem_union_left _ hc)

/-- **C100** The unbiased root mean squared error of the ensemble mean and the spread-skill ratio work label by label. -/
theorem C100_spread_skill (hd : d ≠ c) (skipna : Bool) : Selectable c (unbiasedRMSE (L := L) d skipna) ∧ Selectable c (spreadSkillRatio (L := L) d skipna) := by
  refine ⟨⟨extensional_metric1 (by formula_same), selects_metric1 (by formula_selects), fun ks hks => ?_, fun ks hks p t hc => ?_⟩,
    ⟨extensional_metric2 (by formula_same), selects_metric2 (by formula_selects), fun ks hks => ?_, fun ks hks p t hc => ?_⟩⟩
  · simp only [unbiasedRMSE, metric1, perVariableMetric, List.mem_singleton] at hks; subst hks
    exact C74_unbiased_mse hd skipna
  · simp only [unbiasedRMSE, metric1, perVariableMetric, List.mem_singleton] at hks; subst hks
    exact keeps_statOfE (fun a b s h _ hs => unbiasedMSE_keeps hd h hs) hc
  · simp only [spreadSkillRatio, metric2, perVariableMetric, List.mem_cons, List.not_mem_nil, or_false] at hks
    rcases hks with rfl | rfl
    · exact C74_ensemble_variance hd skipna
    · exact C74_unbiased_mse hd skipna
  · simp only [spreadSkillRatio, metric2, perVariableMetric, List.mem_cons, List.not_mem_nil, or_false] at hks
    rcases hks with rfl | rfl
    · exact keeps_statOfE (fun a b s h _ hs => varDim_keeps hd h hs) hc
    · exact keeps_statOfE (fun a b s h _ hs => unbiasedMSE_keeps hd h hs) hc

/-- **C100** … and the extremal dependence index and the error exceedance. -/
theorem C100_sedi : Selectable c (sedi (L := L)) := by
  refine selectable_contingency extensional_sedi (selects_metric4 ?_) ?_
  · intro S a b e g
    unfold sediFormula
    simp only [restrict_add, restrict_sub, restrict_div, restrict_map]
  · intro ks hks
    simp only [sedi, metric4, perVariableMetric, List.mem_cons, List.not_mem_nil, or_false] at hks
    unfold IsContingency
    rcases hks with rfl | rfl | rfl | rfl <;> simp

theorem C100_error_exceedance (name : String) (thresholds : DA L (FV K)) : Selectable c ((statOf name (errorExceedance thresholds)).toMetric (M := DA L (FV K))) :=
  selectable_statistic (C74_error_exceedance name thresholds)
    (fun _ _ => keeps_statOf (fun _ _ h _ => Finset.mem_union_left _ (Finset.mem_union_left _ (Finset.mem_union_left _ (Finset.mem_union_left _ h)))))

/-! ### Anomalies -/

theorem keeps_withClimatology {name : String} {clims : Vars (StatVar L (FV ℝ))} {align : StatVar L (FV ℝ) → StatVar L (FV ℝ) → Except Err (StatVar L (FV ℝ))}
    {f : StatVar L (FV ℝ) → StatVar L (FV ℝ) → StatVar L (FV ℝ) → StatVar L (FV ℝ)} (hf : ∀ a b x, c ∈ a.arr.dims → c ∈ b.arr.dims → c ∈ (f a b x).arr.dims)
    {p t : Vars (StatVar L (FV ℝ))} (h : Chunkable c p t) : KeepsDim c (withClimatology name clims align f) p t := by
  intro out ho v x hx
  obtain ⟨cs, _, ho⟩ := bind_ok_iff.mp ho
  obtain ⟨kv, hkv, he⟩ := mapM_out_mem ho _ hx
  obtain ⟨b, hb, he⟩ := bind_ok_iff.mp he
  obtain ⟨cl, _, he⟩ := bind_ok_iff.mp he
  obtain ⟨al, _, he⟩ := bind_ok_iff.mp he
  simp only [pure, Except.pure, Except.ok.injEq, Prod.mk.injEq, Option.some.injEq] at he
  rw [← he.2]
  exact hf _ _ _ (h.dimP kv.1 kv.2 hkv) (h.dimT kv.1 b (pyItem_mem hb))

/-- **C100** … and the anomaly correlation and the activity of the forecasts, for climatologies without mask whose selection at the valid times works label by label (`C74_align`: as the code does it). -/
theorem C100_anomalies {clims : Vars (StatVar L (FV ℝ))} {align : StatVar L (FV ℝ) → StatVar L (FV ℝ) → Except Err (StatVar L (FV ℝ))}
    (hcl : ∀ v a, (v, a) ∈ clims → a.mask = none) (hal : AlignsChunks c align) : Selectable c (acc clims align) ∧ Selectable c (predictionActivity clims align) := by
  have hs := C74_anomalies (c := c) hcl hal
  have h1 : ∀ a b x : StatVar L (FV ℝ), c ∈ a.arr.dims → c ∈ b.arr.dims → c ∈ (squaredPredictionAnomaly a b x).arr.dims := fun a b x h _ => Finset.mem_union_left _ h
  have h2 : ∀ a b x : StatVar L (FV ℝ), c ∈ a.arr.dims → c ∈ b.arr.dims → c ∈ (squaredTargetAnomaly a b x).arr.dims := fun a b x _ h => Finset.mem_union_left _ h
  have h3 : ∀ a b x : StatVar L (FV ℝ), c ∈ a.arr.dims → c ∈ b.arr.dims → c ∈ (anomalyCovariance a b x).arr.dims := fun a b x h _ => Finset.mem_union_left _ (Finset.mem_union_left _ h)
  refine ⟨⟨extensional_acc, ?_, fun ks hks => hs ks (List.mem_append_left _ hks), fun ks hks p t hc => ?_⟩,
    ⟨?_, ?_, fun ks hks => hs ks (List.mem_append_right _ hks), fun ks hks p t hc => ?_⟩⟩
  · refine selects_perVariable (fun S _ _ h => pyItem_bind_map h (fun x hx => pyItem_bind_map hx (fun y hy => pyItem_bind_map hy (fun z hz => ?_))))
    cases hz
    show _ = _
    unfold accFormula
    simp only [restrict_zipWith, restrict_map]
    rfl
  · simp only [acc, perVariableMetric, List.mem_cons, List.not_mem_nil, or_false] at hks
    rcases hks with rfl | rfl | rfl
    · exact keeps_withClimatology h1 hc
    · exact keeps_withClimatology h2 hc
    · exact keeps_withClimatology h3 hc
  · exact extensional_perVariable (arrayFunction_one (fun _ _ h => same_map h))
  · exact selects_perVariable (fun S _ _ h => pyItem_bind_map h (fun x hx => by cases hx; rfl))
  · simp only [predictionActivity, perVariableMetric, List.mem_singleton] at hks
    subst hks
    exact keeps_withClimatology h1 hc

/-! ### Wrapped metrics -/

theorem keeps_wrapped {s : FStatistic L K} (hs : ∀ p t, Chunkable c p t → KeepsDim c s p t) {tr : InputTransform L K} (htr : tr.ChunkLocal c) {p t : Vars (StatVar L (FV K))}
    (hpt : Chunkable c p t) : KeepsDim c (wrappedStatistic s tr) p t := by
  intro out hout
  obtain ⟨dP, dT, μ, mP, mT⟩ := hpt
  obtain ⟨p', t', hp, ht, hout⟩ := wrappedStatistic_ok.mp hout
  have key : ∀ (side : String) (x x' : Vars (StatVar L (FV K))), (∀ v a, (v, a) ∈ x → c ∈ a.arr.dims) →
      (∀ v a, (v, a) ∈ x → MaskIn (μ v) a) → sideVars side tr x = .ok x' → (∀ v a, (v, a) ∈ x' → c ∈ a.arr.dims) ∧ ∀ v a, (v, a) ∈ x' → MaskIn (μ v) a := by
    intro side x x' d1 m1 h
    unfold sideVars at h
    by_cases hc : touches side tr
    · rw [if_pos hc] at h
      exact (mapVars_chunk htr ∅ d1 m1 h).2
    · rw [if_neg hc, Except.ok.injEq] at h
      subst h
      exact ⟨d1, m1⟩
  obtain ⟨a2, a3⟩ := key _ p p' dP mP hp
  obtain ⟨b2, b3⟩ := key _ t t' dT mT ht
  exact hs p' t' ⟨a2, b2, μ, a3, b3⟩ out hout

theorem keeps_wrapAll {s : FStatistic L K} (hs : ∀ p t, Chunkable c p t → KeepsDim c s p t) {trs : List (InputTransform L K)} (htr : ∀ tr ∈ trs, tr.ChunkLocal c) (suffix : Option String)
    {p t : Vars (StatVar L (FV K))} (hpt : Chunkable c p t) : KeepsDim c (wrapAll trs suffix s) p t := by
  have key : ∀ (l : List (InputTransform L K)) (s : FStatistic L K), (∀ tr ∈ l, tr.ChunkLocal c) → (∀ p t, Chunkable c p t → KeepsDim c s p t) →
      ∀ p t, Chunkable c p t → KeepsDim c (l.foldl wrappedStatistic s) p t := by
    intro l
    induction l with
    | nil => intro s _ hs; exact hs
    | cons tr l ih => intro s h hs; exact ih _ (fun x hx => h x (by simp [hx])) (fun p t => keeps_wrapped hs (h tr (by simp)))
  have h := key trs.reverse s (fun tr htr' => htr tr (List.mem_reverse.mp htr')) hs p t hpt
  unfold wrapAll
  cases suffix with
  | none => exact h
  | some x => exact h

/-- **C100** Wrapping a metric in transforms that work label by label (C74: thresholds, ensemble means, …) gives such a metric. -/
theorem C100_wrapped {m : FMetric L K} (hm : Selectable c m) {trs : List (InputTransform L K)} (htr : ∀ tr ∈ trs, tr.ChunkLocal c) (suffix : Option String) :
    Selectable c (wrappedMetric m trs suffix) where
  extensional := hm.extensional.of_values rfl
  formula := hm.formula
  statistics := fun ks hks => by
    obtain ⟨ks', h, rfl⟩ := List.mem_map.mp hks
    exact C74_wrap_all (hm.statistics ks' h) htr suffix
  dims := fun ks hks p t hpt => by
    obtain ⟨ks', h, rfl⟩ := List.mem_map.mp hks
    exact keeps_wrapAll (hm.dims ks' h) htr suffix hpt

/-- **C100** … and so does selecting variables. -/
theorem C100_subselect {m : FMetric L K} (hm : Selectable c m) (vars : List String) : Selectable c (subselectVariables vars m) where
  extensional := hm.extensional.of_values rfl
  formula := hm.formula
  statistics := fun ks hks => by
    obtain ⟨ks', h, rfl⟩ := List.mem_map.mp hks
    exact C74_subselect (hm.statistics ks' h) vars
  dims := fun ks hks p t hpt => by
    obtain ⟨ks', h, rfl⟩ := List.mem_map.mp hks
    obtain ⟨dP, dT, μ, mP, mT⟩ := hpt
    exact hm.dims ks' h _ _ ⟨fun v a h => dP v a (List.mem_filter.mp h).1, fun v a h => dT v a (List.mem_filter.mp h).1, μ, fun v a h => mP v a (List.mem_filter.mp h).1,
      fun v a h => mT v a (List.mem_filter.mp h).1⟩

/-- The root mean squared error of the ensemble mean, per lead time. -/
example {skipna : Bool} {tr : InputTransform L ℝ} (h : ensembleMean "predictions" "realization" skipna false = .ok tr) : Selectable "lead_time" (wrappedMetric (rmse (L := L)) [tr] none) :=
  C100_wrapped C100_rmse (fun x hx => by rw [List.mem_singleton.mp hx]; exact C74_ensemble_mean (by decide) h) none

/-- The anomaly correlation as the code computes it. -/
example (tm : ClimTimes L) {clims : Vars (StatVar L (FV ℝ))} (hcl : ∀ v a, (v, a) ∈ clims → a.mask = none) : Selectable "lead_time" (acc clims (fun p cl => alignClimatology tm p cl)) :=
  (C100_anomalies hcl (C74_align tm)).1

end
end WBX
