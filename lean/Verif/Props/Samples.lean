import Verif.Lemmas.Samples
import Verif.Props.RepeatedGrid

/-!
# C108: evaluating every case several times changes nothing
-/

set_option linter.unusedSectionVars false

namespace WBX
open DA Aggregator

section pipeline
variable {L V : Type} [DecidableEq L] [AddCommMonoid V] [Mul V] [One V] [Div V] [IsNull V] {d : Dim} {C C' : Finset L} {π : L → L} {n : ℕ}

/-- The pipeline: statistics that list what they list (the second ones may be other statistics), and a formula that does not look at `d`. -/
theorem metricAlone_listed {m m' : Metric (StatVar L V) (Option (StatVar L V)) (DA L V)} {agg : Aggregator L V} (h : Copies n C C' π) (hagg : agg.TreatsAlike d C' π)
    (hdiv : ∀ x y : V, (n • x) / (n • y) = x / y) {p t : Vars (StatVar L V)}
    (hs : List.Forall₂ (fun ks ks' => ks'.1 = ks.1 ∧ ks'.2.compute (listCases d C' π p) (listCases d C' π t) = (ks.2.compute p t).map (listStats d C' π) ∧
      ∀ out, ks.2.compute p t = .ok out → ∀ v a, (v, some a) ∈ out → a.Along d C) m.statistics m'.statistics)
    (hm : ∀ sv : List (String × Vars (DA L V)), m'.valuesFromMeanStatistics (sv.map (fun kv => (kv.1, sameValuesAs d C' kv.2))) = (m.valuesFromMeanStatistics sv).map (sameValuesAs d C')) :
    metricAlone m' agg (listCases d C' π p) (listCases d C' π t) = (metricAlone m agg p t).map (sameValuesAs d C') := by
  unfold metricAlone
  have key := mapM_image₂ (f' := fun ks : String × Statistic (StatVar L V) (Option (StatVar L V)) => (do
        let v ← ks.2.compute (listCases d C' π p) (listCases d C' π t)
        let mean ← meanVars agg v
        return (ks.1, mean) : Except Err (String × Vars (DA L V)))) (f := fun ks : String × Statistic (StatVar L V) (Option (StatVar L V)) => (do
        let v ← ks.2.compute p t
        let mean ← meanVars agg v
        return (ks.1, mean) : Except Err (String × Vars (DA L V)))) (g := fun kv : String × Vars (DA L V) => (kv.1, sameValuesAs d C' kv.2)) (fun ks ks' hks => by
    obtain ⟨h0, h1, h2⟩ := hks
    rw [h1, h0]
    rcases hv : ks.2.compute p t with e | v
    · rfl
    · show (meanVars agg (listStats d C' π v) >>= fun mean => _) = _
      rw [listed_meanVars h hagg hdiv (h2 v hv)]
      show _ = Except.map _ (meanVars agg v >>= fun mean => _)
      rcases meanVars agg v with e | mean <;> rfl) hs
  rw [key]
  exact bind_image (fun means => hm means)

theorem metricAlone_cases {m : Metric (StatVar L V) (Option (StatVar L V)) (DA L V)} {agg : Aggregator L V} (h : Copies n C C' π) (hagg : agg.TreatsAlike d C' π)
    (hdiv : ∀ x y : V, (n • x) / (n • y) = x / y) {p t : Vars (StatVar L V)}
    (hs : ∀ ks ∈ m.statistics, ks.2.compute (listCases d C' π p) (listCases d C' π t) = (ks.2.compute p t).map (listStats d C' π) ∧ ∀ out, ks.2.compute p t = .ok out → ∀ v a, (v, some a) ∈ out → a.Along d C)
    (hm : ∀ sv : List (String × Vars (DA L V)), m.valuesFromMeanStatistics (sv.map (fun kv => (kv.1, sameValuesAs d C' kv.2))) = (m.valuesFromMeanStatistics sv).map (sameValuesAs d C')) :
    metricAlone m agg (listCases d C' π p) (listCases d C' π t) = (metricAlone m agg p t).map (sameValuesAs d C') :=
  metricAlone_listed h hagg hdiv (List.forall₂_same.2 (fun ks hks => ⟨rfl, hs ks hks⟩)) hm

/-- **C108** The cases `C` along an averaged dimension `d`, each listed `n` times under any labels: every metric of this kind has the same values, or the same error. -/
theorem C108_cases {m : Metric (StatVar L V) (Option (StatVar L V)) (DA L V)} {agg : Aggregator L V} (h : Copies n C C' π) (hagg : agg.TreatsAlike d C' π) (hm : m.CaseByCase d C C' π)
    (hdiv : ∀ x y : V, (n • x) / (n • y) = x / y) {p t : Vars (StatVar L V)} (hp : CasesOf d C p) (ht : CasesOf d C t) :
    metricAlone m agg (listCases d C' π p) (listCases d C' π t) = (metricAlone m agg p t).map (sameValuesAs d C') :=
  metricAlone_cases h hagg hdiv (fun ks hks => hm.statistics ks hks p t hp ht) hm.formula

theorem statistic_cases {s : Statistic (StatVar L V) (Option (StatVar L V))} (hs : s.CaseByCase d C C' π) : (s.toMetric (M := DA L V)).CaseByCase d C C' π :=
  ⟨fun ks hks => by rw [List.mem_singleton.1 hks]; exact hs, fun sv => pyItem_image (sameValuesAs d C') sv "self"⟩

/-- A statistic that is computed variable by variable, on arrays of a kind. -/
theorem perVariable_at {name : String} {f : StatVar L V → StatVar L V → Except Err (Option (Option (StatVar L V)))} {P : StatVar L V → Prop}
    (hf : ∀ a b, P a → P b → f (a.listed d C' π) (b.listed d C' π) = (f a b).map (Option.map (Option.map (StatVar.listed d C' π))) ∧ ∀ x, f a b = .ok (some (some x)) → x.Along d C)
    {p t : Vars (StatVar L V)} (hp : ∀ kv ∈ p, P kv.2) (ht : ∀ kv ∈ t, P kv.2) :
    (perVariableStatistic name f).compute (listCases d C' π p) (listCases d C' π t) = ((perVariableStatistic name f).compute p t).map (listStats d C' π) ∧
      ∀ out, (perVariableStatistic name f).compute p t = .ok out → ∀ v a, (v, some a) ∈ out → a.Along d C := by
  have hget : ∀ v, pyGet? v (listCases d C' π t) = (pyGet? v t).map (StatVar.listed d C' π) := fun v => pyGet?_map (StatVar.listed d C' π) t v
  show perVariableLoop f _ _ = (perVariableLoop f t p).map (listStats d C' π) ∧ ∀ out, perVariableLoop f t p = .ok out → _
  induction p with
  | nil =>
    refine ⟨rfl, fun out h => ?_⟩
    cases h
    exact fun v a hm => absurd hm (by simp)
  | cons x p ih =>
    obtain ⟨v, a⟩ := x
    obtain ⟨ih1, ih2⟩ := ih (fun kv hkv => hp kv (List.mem_cons_of_mem _ hkv))
    rw [show listCases d C' π ((v, a) :: p) = (v, a.listed d C' π) :: listCases d C' π p from rfl, perVariableLoop, perVariableLoop, ih1, hget]
    rcases hb : pyGet? v t with _ | b
    · exact ⟨rfl, ih2⟩
    · obtain ⟨h1, h2⟩ := hf a b (hp _ List.mem_cons_self) (ht _ (pyGet?_mem hb))
      simp only [Option.map_some]
      rw [h1]
      rcases hr : f a b with e | r
      · exact ⟨rfl, fun out h => by cases h⟩
      · rcases hrs : perVariableLoop f t p with e | rs
        · exact ⟨rfl, fun out h => by cases h⟩
        · refine ⟨by rcases r with _ | x <;> rfl, fun out h => ?_⟩
          rcases r with _ | x
          · cases h
            exact ih2 _ hrs
          · cases h
            intro w y hm
            rcases List.mem_cons.1 hm with heq | hm
            · obtain ⟨rfl, rfl⟩ := Prod.mk.inj heq
              exact h2 y hr
            · exact ih2 _ hrs w y hm

theorem perVariable_cases {name : String} {f : StatVar L V → StatVar L V → Except Err (Option (Option (StatVar L V)))}
    (hf : ∀ a b, a.Along d C → b.Along d C → f (a.listed d C' π) (b.listed d C' π) = (f a b).map (Option.map (Option.map (StatVar.listed d C' π))) ∧ ∀ x, f a b = .ok (some (some x)) → x.Along d C) :
    (perVariableStatistic name f).CaseByCase d C C' π := fun _ _ hp ht => perVariable_at hf hp ht

end pipeline

section metrics
variable {L K : Type} [DecidableEq L] [Field K] [LinearOrder K] [IsStrictOrderedRing K] {d : Dim} {C C' : Finset L} {π : L → L} {n : ℕ}

theorem statOf_cases {name : String} {f : StatVar L (FV K) → StatVar L (FV K) → StatVar L (FV K)}
    (hf : ∀ a b, a.Along d C → b.Along d C → f (a.listed d C' π) (b.listed d C' π) = (f a b).listed d C' π ∧ (f a b).Along d C) : (statOf name f).CaseByCase d C C' π := by
  refine perVariable_cases (fun a b ha hb => ⟨by rw [(hf a b ha hb).1]; rfl, fun x hx => ?_⟩)
  cases hx
  exact (hf a b ha hb).2

theorem error_cases (h : Lists C C' π) : (errorStatistic (L := L) (K := K)).CaseByCase d C C' π := statOf_cases (fun _ _ ha hb => ⟨listed_sv_zip h _ ha hb, ha.zip hb _⟩)
theorem absoluteError_cases (h : Lists C C' π) : (absoluteErrorStatistic (L := L) (K := K)).CaseByCase d C C' π :=
  statOf_cases (fun _ _ ha hb => ⟨by rw [absoluteError, error, listed_sv_zip h _ ha hb]; rfl, (ha.zip hb _).map _⟩)
theorem squaredError_cases (h : Lists C C' π) : (squaredErrorStatistic (L := L) (K := K)).CaseByCase d C C' π :=
  statOf_cases (fun _ _ ha hb => ⟨by rw [squaredError, listed_sv_zip h _ ha hb]; rfl, (ha.zip hb _).map _⟩)

theorem contingency_cases (h : Lists C C' π) (name : String) (f : Bool → Bool → Bool) : (statOf (L := L) (K := K) name (contingency f)).CaseByCase d C C' π := by
  refine statOf_cases (fun a b ha hb => ⟨?_, ((ha.map _).zip (hb.map _) _).zip ((ha.zip hb _).map _) _⟩)
  unfold contingency
  dsimp only
  rw [listed_sv_map, listed_sv_map, listed_sv_zip h _ (ha.map _) (hb.map _), listed_sv_zip h _ ha hb, listed_sv_map]
  exact listed_sv_zip h _ ((ha.map _).zip (hb.map _) _) ((ha.zip hb _).map _)

/-- Metrics whose formula does not look at labels of `d` (`Metric.Repeats.formula`) work case by case if their statistics do. -/
theorem cases_of {m : FMetric L K} (hm : m.Repeats .both d C') (hs : ∀ ks ∈ m.statistics, ks.2.CaseByCase d C C' π) : m.CaseByCase d C C' π := ⟨hs, hm.formula⟩

/-- **C108** The mean error, mean absolute error and mean squared error. -/
theorem C108_deterministic (h : Lists C C' π) : ((errorStatistic (L := L) (K := K)).toMetric (M := DA L (FV K))).CaseByCase d C C' π ∧ ((absoluteErrorStatistic (L := L) (K := K)).toMetric (M := DA L (FV K))).CaseByCase d C C' π ∧
    ((squaredErrorStatistic (L := L) (K := K)).toMetric (M := DA L (FV K))).CaseByCase d C C' π :=
  ⟨statistic_cases (error_cases h), statistic_cases (absoluteError_cases h), statistic_cases (squaredError_cases h)⟩

/-- **C108** The categorical scores. -/
theorem C108_categorical (h : Lists C C' π) : (csi (L := L) (K := K)).CaseByCase d C C' π ∧ (accuracy (L := L) (K := K)).CaseByCase d C C' π ∧ (recall (L := L) (K := K)).CaseByCase d C C' π ∧
    (falseAlarmRate (L := L) (K := K)).CaseByCase d C C' π ∧ (precision (L := L) (K := K)).CaseByCase d C C' π ∧ (f1Score (L := L) (K := K)).CaseByCase d C C' π ∧ (frequencyBias (L := L) (K := K)).CaseByCase d C C' π ∧
    (hss (L := L) (K := K)).CaseByCase d C C' π ∧ (ets (L := L) (K := K)).CaseByCase d C C' π := by
  obtain ⟨r1, r2, r3, r4, r5, r6, r7, r8, r9⟩ := C106_categorical (L := L) (K := K) (d := d) (C := C') (sides := .both)
  have tp : (tpStatistic (L := L) (K := K)).CaseByCase d C C' π := contingency_cases h _ _
  have fp : (fpStatistic (L := L) (K := K)).CaseByCase d C C' π := contingency_cases h _ _
  have fn : (fnStatistic (L := L) (K := K)).CaseByCase d C C' π := contingency_cases h _ _
  have tn : (tnStatistic (L := L) (K := K)).CaseByCase d C C' π := contingency_cases h _ _
  refine ⟨cases_of r1 ?_, cases_of r2 ?_, cases_of r3 ?_, cases_of r4 ?_, cases_of r5 ?_, cases_of r6 ?_, cases_of r7 ?_, cases_of r8 ?_, cases_of r9 ?_⟩ <;>
  · intro ks hks
    simp only [csi, accuracy, recall, falseAlarmRate, precision, f1Score, frequencyBias, hss, ets, metric2, metric3, metric4, perVariableMetric, List.mem_cons, List.not_mem_nil, or_false] at hks
    rcases hks with rfl | rfl | rfl | rfl <;> assumption

/-- **C108** For floats (NaN and infinities included). -/
theorem C108_floats {m : FMetric L K} {agg : Aggregator L (FV K)} (hn : n ≠ 0) (h : Copies n C C' π) (hagg : agg.TreatsAlike d C' π) (hm : m.CaseByCase d C C' π) {p t : Vars (StatVar L (FV K))} (hp : CasesOf d C p) (ht : CasesOf d C t) :
    metricAlone m agg (listCases d C' π p) (listCases d C' π t) = (metricAlone m agg p t).map (sameValuesAs d C') :=
  C108_cases h hagg hm (FV.nsmul_div n hn) hp ht

end metrics

section roots
variable {L : Type} [DecidableEq L] {d : Dim} {C C' : Finset L} {π : L → L} {n : ℕ} {degrees : L → ℝ}

/-- **C108** The root mean squared error. -/
theorem C108_rmse (h : Lists C C' π) : (rmse (L := L)).CaseByCase d C C' π :=
  cases_of C106_rmse (fun ks hks => by rw [List.mem_singleton.1 (show ks ∈ [_] from hks)]; exact squaredError_cases h)

/-- **C108** The symmetric extremal dependence index. -/
theorem C108_sedi (h : Lists C C' π) : (sedi (L := L)).CaseByCase d C C' π := by
  refine cases_of C106_sedi (fun ks hks => ?_)
  simp only [sedi, metric4, perVariableMetric, List.mem_cons, List.not_mem_nil, or_false] at hks
  rcases hks with rfl | rfl | rfl | rfl <;> exact contingency_cases h _ _

/-- Weights and regions look at latitude and longitude alone. -/
theorem coordArray_listed {V : Type} {k : Dim} (hk : k ≠ d) (a : DA L V) : Example.coordArray degrees k (a.copied d C' π) = Example.coordArray degrees k a := by
  refine DA.same_of rfl ?_ rfl
  funext j
  show (if j = k then (if k = d then C' else a.coords k) else ∅) = if j = k then a.coords k else ∅
  rw [if_neg hk]

/-- The example aggregation (area weights, regions, masks, `skipna`) treats the cases alike. -/
theorem example_treatsAlike (hlat : "latitude" ≠ d) (hlon : "longitude" ≠ d) (hreg : "region" ≠ d) (name : String → L) (order : List L) (f : Example.Flags) (hf : d ∈ f.reduceDims) :
    (Example.aggregator name order degrees f).TreatsAlike d C' π := by
  refine ⟨hf, fun _ hw a => ?_, fun _ hw a => ?_⟩
  · rw [List.mem_singleton.1 hw]
    exact ⟨(C106_area (C := C') hlat order a).1, rfl⟩
  · rw [List.mem_singleton.1 hw]
    refine ⟨(C106_regions (C := C') hlat hlon hreg name a).1, ?_⟩
    unfold Example.regionBinning
    dsimp only
    rw [coordArray_listed hlat, coordArray_listed hlon]

/-- **C108** The example evaluation, with area weights, regions, masks and `skipna`: every forecast (say, every init time) listed `n` times. -/
theorem C108_example (hlat : "latitude" ≠ d) (hlon : "longitude" ≠ d) (hreg : "region" ≠ d) (hn : n ≠ 0) (h : Copies n C C' π) (name : String → L) (order : List L) (f : Example.Flags) (hf : d ∈ f.reduceDims)
    {m : FMetric L ℝ} (hm : m.CaseByCase d C C' π) {p t : Vars (StatVar L (FV ℝ))} (hp : CasesOf d C p) (ht : CasesOf d C t) :
    metricAlone m (Example.aggregator name order degrees f) (listCases d C' π p) (listCases d C' π t) = (metricAlone m (Example.aggregator name order degrees f) p t).map (sameValuesAs d C') :=
  C108_floats hn h (example_treatsAlike hlat hlon hreg name order f hf) hm hp ht

/-- The root mean squared error of forecasts that occur twice each in the data. -/
example (name : String → L) (order : List L) (f : Example.Flags) (hf : "init_time" ∈ f.reduceDims) (h : Copies 2 C C' π) {p t : Vars (StatVar L (FV ℝ))} (hp : CasesOf "init_time" C p) (ht : CasesOf "init_time" C t) :
    metricAlone rmse (Example.aggregator name order degrees f) (listCases "init_time" C' π p) (listCases "init_time" C' π t) = (metricAlone rmse (Example.aggregator name order degrees f) p t).map (sameValuesAs "init_time" C') :=
  C108_example (by decide +kernel) (by decide +kernel) (by decide +kernel) (by decide) h name order f hf (C108_rmse (h.lists (by decide))) hp ht

/-- Two init times, listed twice each. -/
example : Copies 2 ({1, 3} : Finset ℕ) {1, 2, 3, 4} firstOf ∧ CasesOf "init_time" {1, 3} [("t2m", (⟨⟨{"init_time"}, fun _ => {1, 3}, fun e => e "init_time"⟩, none⟩ : StatVar ℕ ℕ))] :=
  ⟨twoMembers_copies, fun kv hkv => by rw [List.mem_singleton.1 hkv]; exact ⟨⟨fun _ => rfl, fun hd => absurd (by decide +kernel) hd⟩, fun _ h => by cases h⟩⟩

end roots

/-- **C108** ★ The number of copies must be the same for all cases: with one init time listed twice and the other once the mean of 1 and 4 is 2, not 5/2. -/
theorem C108_uneven : let a : StatVar ℕ (FV ℚ) := ⟨⟨{"init_time"}, fun _ => {1, 4}, fun e => .fin (e "init_time")⟩, none⟩
    ∃ s w s' w', (⟨["init_time"], [], [], false, false⟩ : Aggregator ℕ (FV ℚ)).aggregateStatVar a = .ok (some (s, w)) ∧
      (⟨["init_time"], [], [], false, false⟩ : Aggregator ℕ (FV ℚ)).aggregateStatVar (a.listed "init_time" {1, 2, 4} (fun l => if l ≤ 2 then 1 else 4)) = .ok (some (s', w')) ∧
      s.val (fun _ => 0) / w.val (fun _ => 0) = .fin (5 / 2) ∧ s'.val (fun _ => 0) / w'.val (fun _ => 0) = .fin 2 :=
  ⟨_, _, _, _, rfl, rfl, by decide +kernel, by decide +kernel⟩

end WBX
