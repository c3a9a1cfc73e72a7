import Verif.Props.DefinePipeline

set_option linter.unusedSectionVars false

/-!
# C81: the files that the pipeline writes, against the direct evaluation
-/

namespace WBX
open DA
variable {K L : Type} [Field K] [LinearOrder K] [IsStrictOrderedRing K] [LinearOrder L]

/-- An evaluation whose statistics are local in time (C74), with the state that the direct evaluation of the whole data gives. -/
structure PipelineSetup (H : Dim → Vars (StatVar L (FV K)) → Vars (StatVar L (FV K)) → Prop)
    (metrics : List (String × Metric (StatVar L (FV K)) (Option (StatVar L (FV K))) (DA L (FV K))))
    (targets : List L → LeadChunk L → Except Err (Vars (StatVar L (FV K))))
    (predictions : List L → LeadChunk L → Vars (StatVar L (FV K)) → Except Err (Vars (StatVar L (FV K))))
    (agg : Aggregator L (FV K)) (is ts : List L) (a b : Option Int)
    (out : List (TimeChunks.Offsets × (List L × LeadChunk L)))
    (p t : Vars (StatVar L (FV K))) (whole : List (String × Vars (Option (StatVar L (FV K))))) (sws sw : Tree (DA L (FV K))) : Prop where
  heritable : Heritable H
  statistics : ∀ c, c = "init_time" ∨ c = "lead_time" → ∀ nm ∈ metrics, ∀ ks ∈ nm.2.statistics, ks.2.LocalOn (H c) c
  initOrder : is.Pairwise (· < ·)
  leadOrder : ts.Pairwise (· < ·)
  times : is ≠ [] ∧ ts ≠ []
  loaders : LoadersOf is ts targets predictions p t
  initData : H "init_time" p t
  leadData : H "lead_time" p t
  computed : computeUniqueStatistics metrics p t = .ok whole
  initLocal : agg.Local "init_time"
  leadLocal : agg.Local "lead_time"
  chunks : ∃ tc : TimeChunks L L, TimeChunks.make is (.arr ts) a b = .ok tc ∧ tc.iterWithOffsets = .ok out
  names : UniqueKeys whole
  present : ∀ st ∈ whole, ∀ vr ∈ st.2, vr.2 ≠ none
  dims : ∀ st ∈ whole, ∀ k s, (k, some s) ∈ st.2 →
      "init_time" ∈ s.arr.dims ∧ s.arr.coords "init_time" = is.toFinset ∧
      "lead_time" ∈ s.arr.dims ∧ s.arr.coords "lead_time" = ts.toFinset
  aggregated : agg.aggregateStatistics whole = .ok (some (sws, sw))
  full : ∀ t, t = sws ∨ t = sw → ∀ s v x, t.get2 s v = some x → (∀ d ∈ x.dims, (x.coords d).Nonempty) ∧
      ("init_time" ∈ x.dims → x.coords "init_time" = is.toFinset) ∧
      ("lead_time" ∈ x.dims → x.coords "lead_time" = ts.toFinset)

section setup
variable {H : Dim → Vars (StatVar L (FV K)) → Vars (StatVar L (FV K)) → Prop}
  {metrics : List (String × Metric (StatVar L (FV K)) (Option (StatVar L (FV K))) (DA L (FV K)))}
  {targets : List L → LeadChunk L → Except Err (Vars (StatVar L (FV K)))}
  {predictions : List L → LeadChunk L → Vars (StatVar L (FV K)) → Except Err (Vars (StatVar L (FV K)))}
  {agg : Aggregator L (FV K)} {is ts : List L} {a b : Option Int} {out : List (TimeChunks.Offsets × (List L × LeadChunk L))}
  {p t : Vars (StatVar L (FV K))} {whole : List (String × Vars (Option (StatVar L (FV K))))} {sws sw : Tree (DA L (FV K))}
  {fill : FV K} {paths : OutPaths} {outputs : List (String × Except Err (List (String × DA L (FV K))))}

/-- C81: without an output path the pipeline is refused when it is defined; with one it is not. -/
theorem C81_no_output : (definePipeline fill paths metrics = .error .valueError ↔ paths.metrics = none ∧ paths.state = none) ∧
    ((paths.metrics ≠ none ∨ paths.state ≠ none) → ∃ steps, definePipeline fill paths metrics = .ok steps) := by
  unfold definePipeline
  constructor
  · split_ifs with h
    · simp [h]
    · simp [h]
  · intro h
    rw [if_neg (by tauto)]
    exact ⟨_, rfl⟩

theorem run_perm {V : Type} [AddCommMonoid V] {fill : V} {emitted combined : List (AggKey × DA L V)} {c c' : List (AggKey × Except Err (DA L V))} (h : PipelineRun fill emitted combined c)
    (hp : c'.Perm c) : PipelineRun fill emitted combined c' where
  combined_nodup := h.combined_nodup
  combined_keys := h.combined_keys
  combined_val := h.combined_val
  concat_nodup := (hp.map Prod.fst).nodup_iff.mpr h.concat_nodup
  concat_keys := fun k => ((hp.map Prod.fst).mem_iff).trans (h.concat_keys k)
  concat_val := fun k r hk => h.concat_val k r (hp.mem_iff.mp hk)

/-- The state that a run of the pipeline ends with. -/
structure FinalState (sws sw : Tree (DA L (FV K))) (n : Nested (DA L (FV K)) × Nested (DA L (FV K))) : Prop where
  tidy : n.1.Tidy
  tidyWeights : n.2.Tidy
  statistics : ∀ s v, Option.Rel DA.Same (n.1.get? s v) (sws.get2 s v)
  weights : ∀ s v, Option.Rel DA.Same (n.2.get? s v) (sw.get2 s v)

theorem runs_state (hs : PipelineSetup H metrics targets predictions agg is ts a b out p t whole sws sw) (hr : RunsTo fill paths metrics agg targets predictions out outputs) :
    (outputs = [] ∧ ∀ s v, sws.get2 s v = none) ∨ ((∃ s v x, sws.get2 s v = some x) ∧ ∃ n, FinalState sws sw n ∧ outputs = outputsOf fill paths metrics (nestedState n)) := by
  obtain ⟨steps, elements, emitted, combined, outs, groups, hsteps, hel, hem, hrun, hgroup, rfl⟩ := hr
  obtain ⟨tc, htc, ho⟩ := hs.chunks
  obtain ⟨elements', emitted', h1, h2, h3⟩ := C74_pipeline hs.heritable hs.statistics hs.initOrder hs.leadOrder hs.times hs.loaders hs.initData hs.leadData hs.computed fill agg
    hs.initLocal hs.leadLocal htc ho hs.names hs.present hs.dims sws sw hs.aggregated hs.full
  rw [hel] at h1
  obtain rfl := Except.ok.inj h1
  rw [hem] at h2
  obtain rfl := Except.ok.inj h2
  unfold definePipeline at hsteps
  split_ifs at hsteps
  obtain rfl := Except.ok.inj hsteps
  have hinj : Function.Injective (fun kv : AggKey × DA L (FV K) => ((kv.1, Except.ok kv.2) : AggKey × Except Err (DA L (FV K)))) := by
    rintro ⟨k, x⟩ ⟨k', x'⟩ h
    simp only [Prod.mk.injEq, Except.ok.injEq] at h
    exact Prod.ext h.1 h.2
  have key : ∀ ys : List (AggKey × DA L (FV K)), ys.Perm outs → ∀ s v, Option.Rel DA.Same ((reconstructAggregationState ys).1.get? s v) (sws.get2 s v) ∧
            Option.Rel DA.Same ((reconstructAggregationState ys).2.get? s v) (sw.get2 s v) := by
    intro ys hys
    obtain ⟨outs', ho', h4⟩ := h3 combined _ (run_perm hrun (hys.map _))
    rw [List.map_injective_iff.mpr hinj ho']
    exact h4
  cases hgroup with
  | empty he =>
    left
    refine ⟨rfl, ?_⟩
    intro s v
    have := (key outs (List.Perm.refl _) s v).1
    rw [he] at this
    revert this
    cases sws.get2 s v with
    | none => intro _; rfl
    | some x => intro h; cases h
  | all ys hne hys =>
    right
    have hk := key ys hys
    obtain ⟨ht1, ht2⟩ := reconstruct_tidy ys
    refine ⟨?_, reconstructAggregationState ys, ⟨ht1, ht2, fun s v => (hk s v).1, fun s v => (hk s v).2⟩, by simp⟩
    -- something was emitted, so the state has an entry
    by_contra hno
    push Not at hno
    obtain ⟨tb, hu, hst, _, hget⟩ := direct_table hs.names hs.aggregated
    have hnone : ∀ s v, sws.get2 s v = none ∧ sw.get2 s v = none := by
      intro s v
      have h5 : sws.get2 s v = none := Option.eq_none_iff_forall_ne_some.mpr (fun x => hno s v x)
      refine ⟨h5, ?_⟩
      have := (hget s v).1
      rw [h5, Option.map_eq_none_iff] at this
      rw [← (hget s v).2, this]
      rfl
    obtain ⟨kv, hkv⟩ := List.exists_mem_of_ne_nil _ hne
    rcases kv with ⟨k, x⟩
    have hkv' : (k, x) ∈ ys := hys.mem_iff.mpr hkv
    have hoff : ∀ kv ∈ ys, kv.1.dropOffsets = kv.1 := by
      intro kv h
      have h6 : kv.1 ∈ (outs.map (fun kv => ((kv.1, Except.ok kv.2) : AggKey × Except Err (DA L (FV K))))).map Prod.fst := by
        rw [List.map_map]
        exact List.mem_map.mpr ⟨kv, hys.mem_iff.mp h, rfl⟩
      rw [hrun.concat_keys] at h6
      obtain ⟨c, _, hc⟩ := List.mem_map.mp h6
      rw [← hc]
      rfl
    have hnd : (ys.map Prod.fst).Nodup := by
      have h6 := hrun.concat_nodup
      rw [List.map_map] at h6
      exact (hys.map Prod.fst).nodup_iff.mpr h6
    rcases k with ⟨ty, s, v, io, lo⟩
    have h7 := hoff _ hkv'
    simp only [AggKey.dropOffsets, AggKey.mk.injEq, true_and] at h7
    obtain ⟨rfl, rfl⟩ := h7
    have h8 := reconstruct_get_some ys hnd hoff ty s v x hkv'
    have h9 := hk s v
    rw [(hnone s v).1, (hnone s v).2] at h9
    cases ty
    · have := h9.2
      simp only [Bool.false_eq_true, if_false] at h8
      rw [h8] at this
      cases this
    · have := h9.1
      simp only [if_true] at h8
      rw [h8] at this
      cases this

theorem FinalState.matching {n : Nested (DA L (FV K)) × Nested (DA L (FV K))} (h : FinalState sws sw n) (hu : ∀ s v, (sws.get2 s v).isSome → (sw.get2 s v).isSome) : Matching n := by
  intro s v hsv
  have h1 := h.statistics s v
  have h2 := h.weights s v
  have h3 := hu s v
  revert h1 h2 h3 hsv
  cases n.1.get? s v <;> cases sws.get2 s v <;> cases sw.get2 s v <;> cases n.2.get? s v <;> intro hsv h1 h2 h3 <;> simp_all <;> first | cases h1 | cases h2

theorem setup_weights (hs : PipelineSetup H metrics targets predictions agg is ts a b out p t whole sws sw) (s v : String) (h : (sws.get2 s v).isSome) : (sw.get2 s v).isSome := by
  obtain ⟨tb, _, _, _, hget⟩ := direct_table hs.names hs.aggregated
  rw [← (hget s v).1, Option.isSome_map] at h
  rw [← (hget s v).2, Option.isSome_map]
  exact h

/-- The entries of the mean statistics of the pipeline and of the direct evaluation. -/
theorem final_entries {n : Nested (DA L (FV K)) × Nested (DA L (FV K))} {tb : StateTable L (FV K)} (hf : FinalState sws sw n)
    (hget : ∀ s v, (entry? tb s v).map Prod.fst = sws.get2 s v ∧ (entry? tb s v).map Prod.snd = sw.get2 s v) (s v : String) :
    Option.Rel DA.Same (entry? ((tableOf n).mapEntries (DA.zipWith (· / ·))) s v) (entry? (tb.mapEntries (DA.zipWith (· / ·))) s v) := by
  rw [entry?_mapEntries, entry?_mapEntries, entry_tableOf]
  obtain ⟨g1, g2⟩ := hget s v
  have h1 := hf.statistics s v
  have h2 := hf.weights s v
  rw [← g1] at h1
  rw [← g2] at h2
  cases he : entry? tb s v with
  | none =>
    rw [he] at h1
    cases hn : n.1.get? s v with
    | none => exact .none
    | some x => rw [hn] at h1; cases h1
  | some q =>
    rw [he] at h1 h2
    cases hn : n.1.get? s v with
    | none => rw [hn] at h1; cases h1
    | some x =>
      cases hm : n.2.get? s v with
      | none => rw [hm] at h2; cases h2
      | some y =>
        rw [hn] at h1
        rw [hm] at h2
        cases h1 with
        | some h1 => cases h2 with
          | some h2 => exact .some (zipWith_congr h1 h2)

theorem tableOf_ne {n : Nested (DA L (FV K)) × Nested (DA L (FV K))} (h : n.1.Tidy) : ∀ sv ∈ (tableOf n).mapEntries (DA.zipWith (· / ·)), sv.2 ≠ [] := by
  intro sv hsv
  unfold StateTable.mapEntries tableOf at hsv
  rw [List.map_map] at hsv
  obtain ⟨sv', hsv', rfl⟩ := List.mem_map.mp hsv
  have := (h.2 sv' hsv').2
  simpa using this

theorem mapEntries_dict {tb : StateTable L (FV K)} (hu : UniqueNames tb) : ∀ sv ∈ tb.mapEntries (DA.zipWith (· / ·)), IsDict sv.2 := by
  intro sv hsv
  obtain ⟨sv', hsv', rfl⟩ := List.mem_map.mp hsv
  have := hu.2 sv' hsv'
  unfold IsDict
  simpa [Function.comp_def] using this

/-- Both evaluations fail, or both give the same values of all metrics. -/
theorem final_metrics (hs : PipelineSetup H metrics targets predictions agg is ts a b out p t whole sws sw) (hext : ∀ nm ∈ metrics, nm.2.Extensional)
    (hall : ∀ st ∈ whole, ∃ v x, sws.get2 st.1 v = some x) {n : Nested (DA L (FV K)) × Nested (DA L (FV K))} (hf : FinalState sws sw n) :
    SameOutcome (fun x y => List.Forall₂ (fun a b => a.1 = b.1 ∧ VarsSame a.2 b.2) x y ∧ ∀ z, z = x ∨ z = y → z.map Prod.fst = metrics.map Prod.fst ∧ ∀ mv ∈ z, IsDict mv.2)
      (AggState.metricTable (some (nestedState n)) metrics) (metricTableForSingleChunk metrics agg p t) := by
  obtain ⟨tb, hu, hst, hkeys, hget⟩ := direct_table hs.names hs.aggregated
  have hd : metricTableForSingleChunk metrics agg p t = computeMetricsFromStatistics metrics (tb.mapEntries (DA.zipWith (· / ·))) := by
    unfold metricTableForSingleChunk
    refine bind_ok_of hs.computed (bind_ok_of hs.aggregated ?_)
    rw [hst, AggState.metricTable_ofTable tb hu]
  rw [hd, metricTable_nested hf.tidy (hf.matching (setup_weights hs))]
  have hsame : TableSame ((tableOf n).mapEntries (DA.zipWith (· / ·))) (tb.mapEntries (DA.zipWith (· / ·))) := by
    refine tableSame_of_entries (final_entries hf hget) (tableOf_ne hf.tidy) ?_
    intro sv hsv
    obtain ⟨sv', hsv', rfl⟩ := List.mem_map.mp hsv
    have hmem : sv'.1 ∈ whole.map Prod.fst := hkeys ▸ List.mem_map_of_mem hsv'
    obtain ⟨st, hst', hst''⟩ := List.mem_map.mp hmem
    obtain ⟨v, x, hx⟩ := hall st hst'
    rw [hst'', ← (hget _ v).1, Option.map_eq_some_iff] at hx
    obtain ⟨q, hq, _⟩ := hx
    unfold entry? at hq
    rw [(pyGet?_eq_some hu.1 sv'.1 sv'.2).mpr hsv', Option.bind_some] at hq
    intro hnil
    rw [List.map_eq_nil_iff] at hnil
    rw [hnil] at hq
    cases hq
  have h := metrics_same hsame metrics hext
  have hd1 := fun r hr => metrics_dict (r := r) (mapEntries_dict (tableOf_unique (n := n) hf.tidy)) hext hr
  have hd2 := fun r hr => metrics_dict (r := r) (mapEntries_dict hu) hext hr
  revert h hd1 hd2
  generalize computeMetricsFromStatistics metrics ((tableOf n).mapEntries (DA.zipWith (· / ·))) = r1
  generalize computeMetricsFromStatistics metrics (tb.mapEntries (DA.zipWith (· / ·))) = r2
  intro h hd1 hd2
  cases h with
  | fails => exact .fails _ _
  | gives h =>
    refine .gives ⟨h, ?_⟩
    rintro z (rfl | rfl)
    · exact hd1 _ rfl
    · exact hd2 _ rfl

theorem metricArrays_same {x y : List (String × Vars (DA L (FV K)))} (h : List.Forall₂ (fun a b => a.1 = b.1 ∧ VarsSame a.2 b.2) x y) (hx : ∀ mv ∈ x, IsDict mv.2) (hy : ∀ mv ∈ y, IsDict mv.2) :
    (∀ k q, (k, q) ∈ metricArrays x → ∃ q', (k, q') ∈ metricArrays y ∧ q.Same q') ∧ (∀ k q, (k, q) ∈ metricArrays y → ∃ q', (k, q') ∈ metricArrays x ∧ q'.Same q) := by
  unfold metricArrays
  constructor
  · intro k q hk
    obtain ⟨mv, hmv, hk⟩ := List.mem_flatMap.mp hk
    obtain ⟨va, hva, he⟩ := List.mem_map.mp hk
    cases he
    obtain ⟨mv', hmv', h1, h2⟩ := forall₂_mem_left h hmv
    have h3 := h2 va.1
    rw [(pyGet?_eq_some (hx mv hmv) va.1 va.2).mpr hva] at h3
    cases hq : pyGet? va.1 mv'.2 with
    | none => rw [hq] at h3; cases h3
    | some q' =>
      rw [hq] at h3
      cases h3 with
      | some h3 => exact ⟨q', List.mem_flatMap.mpr ⟨mv', hmv', List.mem_map.mpr ⟨(va.1, q'), pyGet?_mem hq, by rw [h1]⟩⟩, h3⟩
  · intro k q hk
    obtain ⟨mv, hmv, hk⟩ := List.mem_flatMap.mp hk
    obtain ⟨va, hva, he⟩ := List.mem_map.mp hk
    cases he
    obtain ⟨mv', hmv', h1, h2⟩ := forall₂_mem_right h hmv
    have h3 := h2 va.1
    rw [(pyGet?_eq_some (hy mv hmv) va.1 va.2).mpr hva] at h3
    cases hq : pyGet? va.1 mv'.2 with
    | none => rw [hq] at h3; cases h3
    | some q' =>
      rw [hq] at h3
      cases h3 with
      | some h3 => exact ⟨q', List.mem_flatMap.mpr ⟨mv', hmv', List.mem_map.mpr ⟨(va.1, q'), pyGet?_mem hq, by rw [h1]⟩⟩, h3⟩

/-- C81: the file of metric values. If every statistic has an aggregated variable, metric names are distinct and without dots, and the values agree
on their labels, then every run of the pipeline, whatever the chunks and however Beam orders and groups its elements, writes exactly the values of
the direct evaluation of the whole data. -/
theorem C81_metrics_file (hs : PipelineSetup H metrics targets predictions agg is ts a b out p t whole sws sw) (hext : ∀ nm ∈ metrics, nm.2.Extensional)
    (hnames : (metrics.map Prod.fst).Nodup) (hdot : ∀ nm ∈ metrics, '.' ∉ nm.1.toList) (hsome : whole ≠ []) (hall : ∀ st ∈ whole, ∃ v x, sws.get2 st.1 v = some x)
    {table : List (String × Vars (DA L (FV K)))} (hdirect : metricTableForSingleChunk metrics agg p t = .ok table)
    (hlab : ∀ x ∈ metricArrays table, ∀ y ∈ metricArrays table, x.2.SameLabels y.2)
    (hr : RunsTo fill paths metrics agg targets predictions out outputs) :
    ∃ file state, outputs = (paths.metrics.map (fun path => (path, Except.ok file))).toList ++ (paths.state.map (fun path => (path, state))).toList ∧
      ∀ k, Option.Rel DA.Same (pyGet? k file) (pyGet? k (metricDataset table)) := by
  rcases runs_state hs hr with ⟨_, hno⟩ | ⟨_, n, hf, rfl⟩
  · exfalso
    obtain ⟨st, hst⟩ := List.exists_mem_of_ne_nil _ hsome
    obtain ⟨v, x, hx⟩ := hall st hst
    rw [hno] at hx
    cases hx
  · have h := final_metrics hs hext hall hf
    rw [hdirect] at h
    generalize hm : AggState.metricTable (some (nestedState n)) metrics = r at h
    cases h with
    | @gives x y h =>
      obtain ⟨h1, h2⟩ := h
      refine ⟨(alignedDataset fill x).vars, Serialize.toDataset fill "#" (nestedState n), ?_, ?_⟩
      · unfold outputsOf computeMetrics
        rw [hm]
        rfl
      · have hdict : ∀ z, z = x ∨ z = table → ((metricArrays z).map Prod.fst).Nodup ∧ ∀ mv ∈ z, IsDict mv.2 := by
          intro z hz
          obtain ⟨k1, k2⟩ := h2 z hz
          refine ⟨metricArrays_nodup (by rw [k1]; exact hnames) k2 ?_, k2⟩
          intro mv hmv
          have : mv.1 ∈ metrics.map Prod.fst := k1 ▸ List.mem_map_of_mem hmv
          obtain ⟨nm, hnm, he⟩ := List.mem_map.mp this
          rw [← he]
          exact hdot nm hnm
        obtain ⟨n1, d1⟩ := hdict x (Or.inl rfl)
        obtain ⟨n2, d2⟩ := hdict table (Or.inr rfl)
        obtain ⟨s1, s2⟩ := metricArrays_same h1 d1 d2
        have hlab' : ∀ u ∈ metricArrays x, ∀ w ∈ metricArrays x, u.2.SameLabels w.2 := by
          intro u hu w hw
          obtain ⟨u', hu', e1⟩ := s1 u.1 u.2 hu
          obtain ⟨w', hw', e2⟩ := s1 w.1 w.2 hw
          intro d hd hd'
          rw [e1.coords d hd, e2.coords d hd']
          exact hlab _ hu' _ hw' d (e1.dims ▸ hd) (e2.dims ▸ hd')
        intro k
        have ha := aligned_get fill n1 hlab' k
        have hm2 : pyGet? k (metricDataset table) = pyGet? k (metricArrays table) := by
          show pyGet? k ((metricArrays table).foldl (fun d ka => pyInsert ka.1 ka.2 d) []) = _
          cases hq : pyGet? k (metricArrays table) with
          | some q => exact foldl_insert_get _ [] k q n2 (pyGet?_mem hq)
          | none =>
            have hnk := (pyGet?_none_iff k _).mp hq
            have : ∀ (l : List (String × DA L (FV K))) (d : List (String × DA L (FV K))), k ∉ l.map Prod.fst → pyGet? k (l.foldl (fun d ka => pyInsert ka.1 ka.2 d) d) = pyGet? k d := by
              intro l
              induction l with
              | nil => intro d _; rfl
              | cons u l ih =>
                intro d hk
                simp only [List.map_cons, List.mem_cons, not_or] at hk
                rw [List.foldl_cons, ih _ hk.2, pyGet?_insert, if_neg (fun h => hk.1 h.symm)]
            rw [this _ _ hnk]
            rfl
        rw [hm2]
        show Option.Rel DA.Same (pyGet? k ((metricArrays x).foldl (ValuesDataset.assign fill) ValuesDataset.empty).vars) _
        revert ha
        generalize pyGet? k ((metricArrays x).foldl (ValuesDataset.assign fill) ValuesDataset.empty).vars = stored
        intro ha
        cases hx : pyGet? k (metricArrays x) with
        | none =>
          rw [hx] at ha
          cases ha
          cases hy : pyGet? k (metricArrays table) with
          | none => exact .none
          | some q =>
            obtain ⟨q', hq', _⟩ := s2 k q (pyGet?_mem hy)
            rw [(pyGet?_eq_some n1 k q').mpr hq'] at hx
            cases hx
        | some q =>
          rw [hx] at ha
          obtain ⟨q', hq', hqq⟩ := s1 k q (pyGet?_mem hx)
          rw [(pyGet?_eq_some n2 k q').mpr hq']
          cases ha with
          | some ha => exact .some (ha.trans hqq)

/-- C81: if the direct evaluation raises, so does every run that is asked for metric values (and no such file is written). -/
theorem C81_failure (hs : PipelineSetup H metrics targets predictions agg is ts a b out p t whole sws sw) (hext : ∀ nm ∈ metrics, nm.2.Extensional)
    (hsome : whole ≠ []) (hall : ∀ st ∈ whole, ∃ v x, sws.get2 st.1 v = some x)
    {e : Err} (hdirect : metricTableForSingleChunk metrics agg p t = .error e) {path : String} (hpath : paths.metrics = some path)
    (hr : RunsTo fill paths metrics agg targets predictions out outputs) : ∃ e' rest, outputs = (path, Except.error e') :: rest := by
  rcases runs_state hs hr with ⟨_, hno⟩ | ⟨_, n, hf, rfl⟩
  · exfalso
    obtain ⟨st, hst⟩ := List.exists_mem_of_ne_nil _ hsome
    obtain ⟨v, x, hx⟩ := hall st hst
    rw [hno] at hx
    cases hx
  · have h := final_metrics hs hext hall hf
    rw [hdirect] at h
    generalize hm : AggState.metricTable (some (nestedState n)) metrics = r at h
    cases h with
    | fails e' =>
      refine ⟨e', (paths.state.map (fun p => (p, Serialize.toDataset fill "#" (nestedState n)))).toList, ?_⟩
      unfold outputsOf computeMetrics
      rw [hm, hpath]
      rfl

/-- C81 (finding): if the aggregator keeps no variable at all, every run of the pipeline ends without an error and without writing any file. -/
theorem C81_nothing_written (hs : PipelineSetup H metrics targets predictions agg is ts a b out p t whole sws sw) (hnone : ∀ s v, sws.get2 s v = none)
    (hr : RunsTo fill paths metrics agg targets predictions out outputs) : outputs = [] := by
  rcases runs_state hs hr with ⟨h, _⟩ | ⟨⟨s, v, x, hx⟩, _⟩
  · exact h
  · rw [hnone] at hx
    cases hx

/-- C81 (finding): a statistic that is needed by a metric and none of whose variables is aggregated makes the pipeline fail to compute any metric
(a `KeyError` of the missing statistic), although the direct evaluation just has no value for that metric. -/
theorem C81_statistic_missing (hs : PipelineSetup H metrics targets predictions agg is ts a b out p t whole sws sw)
    {nm : String × Metric (StatVar L (FV K)) (Option (StatVar L (FV K))) (DA L (FV K))} (hnm : nm ∈ metrics) {ks : String × Statistic (StatVar L (FV K)) (Option (StatVar L (FV K)))}
    (hks : ks ∈ nm.2.statistics) (hnone : ∀ v, sws.get2 ks.2.uniqueName v = none)
    (hr : RunsTo fill paths metrics agg targets predictions out outputs) {path : String} (hpath : paths.metrics = some path) :
    outputs = [] ∨ ∃ e rest, outputs = (path, Except.error e) :: rest := by
  rcases runs_state hs hr with ⟨rfl, _⟩ | ⟨_, n, hf, rfl⟩
  · exact Or.inl rfl
  · right
    have hm : ∃ e, AggState.metricTable (some (nestedState n)) metrics = .error e := by
      rw [metricTable_nested hf.tidy (hf.matching (setup_weights hs))]
      cases hc : computeMetricsFromStatistics metrics ((tableOf n).mapEntries (DA.zipWith (· / ·))) with
      | error e => exact ⟨e, rfl⟩
      | ok r =>
        exfalso
        unfold computeMetricsFromStatistics at hc
        obtain ⟨y, _, hy⟩ := mapM_mem _ _ _ hc nm hnm
        obtain ⟨v, hv, _⟩ := bind_ok_iff.mp hy
        unfold computeMetricFromStatistics at hv
        obtain ⟨renamed, hren, _⟩ := bind_ok_iff.mp hv
        obtain ⟨y', _, hy'⟩ := mapM_mem _ _ _ hren ks hks
        obtain ⟨vars, hvars, _⟩ := bind_ok_iff.mp hy'
        have hmem := pyItem_mem hvars
        have hne := tableOf_ne hf.tidy _ hmem
        obtain ⟨va, hva⟩ := List.exists_mem_of_ne_nil _ hne
        have hent : (entry? ((tableOf n).mapEntries (DA.zipWith (· / ·))) ks.2.uniqueName va.1).isSome := by
          unfold entry?
          have h1 := AggState.unique_mapEntries (tableOf n) (tableOf_unique hf.tidy)
          have hu : (((tableOf n).mapEntries (DA.zipWith (· / ·))).map Prod.fst).Nodup := by
            simpa [StateTable.mapEntries, Function.comp_def] using (tableOf_unique (n := n) hf.tidy).1
          rw [(pyGet?_eq_some hu _ _).mpr hmem, Option.bind_some, (pyGet?_eq_some (mapEntries_dict (tableOf_unique hf.tidy) _ hmem) va.1 va.2).mpr hva]
          rfl
        rw [entry?_mapEntries, entry_tableOf] at hent
        have h2 := hf.statistics ks.2.uniqueName va.1
        rw [hnone] at h2
        cases hg : n.1.get? ks.2.uniqueName va.1 with
        | none => rw [hg] at hent; cases hent
        | some x => rw [hg] at h2; cases h2
    obtain ⟨e, he⟩ := hm
    refine ⟨e, (paths.state.map (fun p => (p, Serialize.toDataset fill "#" (nestedState n)))).toList, ?_⟩
    unfold outputsOf computeMetrics
    rw [he, hpath]
    rfl

/-- C81: a run of the pipeline exists whenever an output is asked for. -/
theorem C81_runs (hs : PipelineSetup H metrics targets predictions agg is ts a b out p t whole sws sw) (hp : paths.metrics ≠ none ∨ paths.state ≠ none) :
    ∃ outputs, RunsTo fill paths metrics agg targets predictions out outputs := by
  obtain ⟨steps, hsteps⟩ := C81_no_output (metrics := metrics) (fill := fill).2 hp
  obtain ⟨tc, htc, ho⟩ := hs.chunks
  obtain ⟨elements, emitted, h1, h2, h3⟩ := C74_pipeline hs.heritable hs.statistics hs.initOrder hs.leadOrder hs.times hs.loaders hs.initData hs.leadData hs.computed fill agg
    hs.initLocal hs.leadLocal htc ho hs.names hs.present hs.dims sws sw hs.aggregated hs.full
  obtain ⟨combined, concat, hrun⟩ := C17_run_exists fill emitted
  obtain ⟨outs, rfl, _⟩ := h3 combined concat hrun
  by_cases hne : outs = []
  · exact ⟨_, steps, elements, emitted, combined, outs, [], hsteps, h1, h2, hrun, .empty hne, rfl⟩
  · exact ⟨_, steps, elements, emitted, combined, outs, [outs], hsteps, h1, h2, hrun, .all outs hne (List.Perm.refl _), rfl⟩

end setup
end WBX
