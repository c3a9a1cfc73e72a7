import Verif.Props.AtomicWrite
import Verif.Props.PipelineFilesExample

set_option linter.unusedSectionVars false

/-!
# C87: crashes, retries and redundant attempts of the pipeline

C81 says what each run of the pipeline hands to `atomic_write`; C18 says what a reader of a path sees while any number of calls of `atomic_write` run, fail
and are killed. Together: what the output files hold at any moment.
-/

namespace WBX
open DA AtomicWrite
variable {K L W Byte : Type} [Field K] [LinearOrder K] [IsStrictOrderedRing K] [LinearOrder L] [DecidableEq W]

section setup
variable {H : Dim → Vars (StatVar L (FV K)) → Vars (StatVar L (FV K)) → Prop}
  {metrics : List (String × Metric (StatVar L (FV K)) (Option (StatVar L (FV K))) (DA L (FV K)))}
  {targets : List L → LeadChunk L → Except Err (Vars (StatVar L (FV K)))}
  {predictions : List L → LeadChunk L → Vars (StatVar L (FV K)) → Except Err (Vars (StatVar L (FV K)))}
  {agg : Aggregator L (FV K)} {is ts : List L}
  {p t : Vars (StatVar L (FV K))} {whole : List (String × Vars (Option (StatVar L (FV K))))} {sws sw : Tree (DA L (FV K))}
  {fill : FV K} {paths : OutPaths} {netcdf : List (String × DA L (FV K)) → List Byte} {uuid path : W → List Char} {data : W → List Byte}

/-- Every call of `atomic_write` is made by an attempt to run the pipeline on the same evaluation; the attempts may use different chunk sizes and go through
different schedules, and the same attempt may make the call any number of times. `netcdf` is `Dataset.to_netcdf` (beam_pipeline.py:382, 402). -/
def AttemptsOf (H : Dim → Vars (StatVar L (FV K)) → Vars (StatVar L (FV K)) → Prop)
    (metrics : List (String × Metric (StatVar L (FV K)) (Option (StatVar L (FV K))) (DA L (FV K))))
    (targets : List L → LeadChunk L → Except Err (Vars (StatVar L (FV K))))
    (predictions : List L → LeadChunk L → Vars (StatVar L (FV K)) → Except Err (Vars (StatVar L (FV K))))
    (agg : Aggregator L (FV K)) (is ts : List L) (p t : Vars (StatVar L (FV K))) (whole : List (String × Vars (Option (StatVar L (FV K)))))
    (sws sw : Tree (DA L (FV K))) (fill : FV K) (paths : OutPaths) (netcdf : List (String × DA L (FV K)) → List Byte)
    (path : W → List Char) (data : W → List Byte) : Prop :=
  ∀ w, ∃ a b out outputs target file, PipelineSetup H metrics targets predictions agg is ts a b out p t whole sws sw ∧
    RunsTo fill paths metrics agg targets predictions out outputs ∧ (target, Except.ok file) ∈ outputs ∧ path w = target.toList ∧ data w = netcdf file

/-- The file of metric values of the direct evaluation. -/
def IsMetricsFile (table : List (String × Vars (DA L (FV K)))) (file : List (String × DA L (FV K))) : Prop :=
  ∀ k, Option.Rel DA.Same (pyGet? k file) (pyGet? k (metricDataset table))

/-- A file from which `AggregationState.from_dataset` reads back the state `(sws, sw)`. -/
def IsStateFile (sws sw : Tree (DA L (FV K))) (file : List (String × DA L (FV K))) : Prop :=
  ∃ state, Serialize.fromDataset "#" file = .ok state ∧
    (∀ s v, Option.Rel DA.Same (state.1.getPath [s, v]) (sws.get2 s v) ∧ Option.Rel DA.Same (state.2.getPath [s, v]) (sw.get2 s v)) ∧
    ∀ q, (state.1.getPath q).isSome ∨ (state.2.getPath q).isSome → ∃ s v, q = [s, v]

/-- What a reader of `P` may see: what was there before or a complete file that is good; and only the latter once a call has returned. -/
def ReaderSees (good : List (String × DA L (FV K)) → Prop) (netcdf : List (String × DA L (FV K)) → List Byte) (path : W → List Char) (P : List Char)
    (s0 s : State W (List Char) (List Char) Byte) : Prop :=
  (s.file P = s0.file P ∨ ∃ file, good file ∧ s.file P = some (netcdf file)) ∧
  ((∃ w, path w = P ∧ s.phase w = .done) → ∃ file, good file ∧ s.file P = some (netcdf file))

theorem reader_sees {good : List (String × DA L (FV K)) → Prop} (hu : FreshUuids uuid path) {P : String}
    (hgood : ∀ w, path w = P.toList → ∃ file, good file ∧ data w = netcdf file) {s0 s : State W (List Char) (List Char) Byte}
    (h0 : Initial (callsOf uuid path data) s0) (hr : Reachable (callsOf uuid path data) s0 s)
    (hP : ∀ w, ¬ ("tmp.".toList ++ uuid w ++ ['.'] <+: (pathSplit P.toList).2)) : ReaderSees good netcdf path P.toList s0 s := by
  have hc := (C18_temporary_paths hu data).1
  constructor
  · rcases C18_reader_sees_old_or_complete _ hc s0 s h0 hr P.toList (by
      intro w h
      apply hP w
      rw [← h, show (callsOf uuid path data).tmp w = tmpPath (uuid w) (path w) from rfl, tmpPath, split_join _ _ (tmpName_noSlash (hu.noSlash w))]
      unfold tmpName
      exact List.prefix_append _ _) with h | ⟨w, h1, _, h3⟩
    · exact Or.inl h
    · obtain ⟨file, g1, g2⟩ := hgood w h1
      exact Or.inr ⟨file, g1, by rw [h3]; exact congrArg some g2⟩
  · rintro ⟨w, h1, h2⟩
    obtain ⟨w', h3, _, h5⟩ := C18_returned _ hc s0 s h0 hr w h2
    obtain ⟨file, g1, g2⟩ := hgood w' (h3.trans h1)
    refine ⟨file, g1, ?_⟩
    rw [← h1]
    exact h5.trans (congrArg some g2)

/-- C87: at every moment, whatever attempts were made, with whatever chunk sizes and schedules, wherever they failed or were killed and however often they were
repeated, `out_path` holds what it held before or a complete file with the metric values of the direct evaluation; and once one attempt has returned it
always holds the latter. -/
theorem C87_metrics_path (hatt : AttemptsOf H metrics targets predictions agg is ts p t whole sws sw fill paths netcdf path data)
    (hext : ∀ nm ∈ metrics, nm.2.Extensional)
    (hnames : (metrics.map Prod.fst).Nodup) (hdot : ∀ nm ∈ metrics, '.' ∉ nm.1.toList) (hsome : whole ≠ []) (hall : ∀ st ∈ whole, ∃ v x, sws.get2 st.1 v = some x)
    {table : List (String × Vars (DA L (FV K)))} (hdirect : metricTableForSingleChunk metrics agg p t = .ok table)
    (hlab : ∀ x ∈ metricArrays table, ∀ y ∈ metricArrays table, x.2.SameLabels y.2)
    {P : String} (hP : paths.metrics = some P) (hne : paths.state ≠ some P)
    (hu : FreshUuids uuid path) (hup : ∀ w, ¬ ("tmp.".toList ++ uuid w ++ ['.'] <+: (pathSplit P.toList).2))
    {s0 s : State W (List Char) (List Char) Byte} (h0 : Initial (callsOf uuid path data) s0) (hr : Reachable (callsOf uuid path data) s0 s) :
    ReaderSees (IsMetricsFile table) netcdf path P.toList s0 s := by
  refine reader_sees hu ?_ h0 hr hup
  intro w hw
  obtain ⟨a, b, out, outputs, target, file, hs, hrun, hmem, e1, e2⟩ := hatt w
  obtain rfl : target = P := String.toList_inj.mp (e1.symm.trans hw)
  obtain ⟨f, state, ho, hk⟩ := C81_metrics_file hs hext hnames hdot hsome hall hdirect hlab hrun
  refine ⟨file, ?_, e2⟩
  rw [ho, hP] at hmem
  rcases List.mem_append.mp hmem with h | h
  · simp only [Option.map_some, Option.toList_some, List.mem_singleton, Prod.mk.injEq, Except.ok.injEq, true_and] at h
    rw [h]
    exact hk
  · exfalso
    rcases hst : paths.state with _ | q
    · rw [hst] at h; simp at h
    · rw [hst] at h
      simp only [Option.map_some, Option.toList_some, List.mem_singleton, Prod.mk.injEq] at h
      exact hne (by rw [hst, h.1])

/-- C87: the same for `aggregation_state_out_path` and the state of the direct evaluation. -/
theorem C87_state_path (hatt : AttemptsOf H metrics targets predictions agg is ts p t whole sws sw fill paths netcdf path data)
    (hsome : ∃ s v x, sws.get2 s v = some x)
    (hgood : ∀ s v, (sws.get2 s v).isSome → (GoodName s ∧ '#' ∉ s.toList) ∧ GoodName v ∧ '#' ∉ v.toList)
    (hlab : ∀ s v s' v' x y, (sws.get2 s v = some x ∨ sw.get2 s v = some x) → (sws.get2 s' v' = some y ∨ sw.get2 s' v' = some y) → x.SameLabels y)
    {P : String} (hP : paths.state = some P) (hne : paths.metrics ≠ some P)
    (hu : FreshUuids uuid path) (hup : ∀ w, ¬ ("tmp.".toList ++ uuid w ++ ['.'] <+: (pathSplit P.toList).2))
    {s0 s : State W (List Char) (List Char) Byte} (h0 : Initial (callsOf uuid path data) s0) (hr : Reachable (callsOf uuid path data) s0 s) :
    ReaderSees (IsStateFile sws sw) netcdf path P.toList s0 s := by
  refine reader_sees hu ?_ h0 hr hup
  intro w hw
  obtain ⟨a, b, out, outputs, target, file, hs, hrun, hmem, e1, e2⟩ := hatt w
  obtain rfl : target = P := String.toList_inj.mp (e1.symm.trans hw)
  obtain ⟨before, f, state, ho, hk⟩ := C81_state_file hs hsome hgood hlab hP hrun
  refine ⟨file, ?_, e2⟩
  rcases runs_state hs hrun with ⟨rfl, _⟩ | ⟨_, n, _, rfl⟩
  · cases hmem
  · have hl : before ++ [(target, Except.ok f)] = _ := ho.symm
    unfold outputsOf at hl hmem
    rw [hP] at hl hmem
    simp only [Option.map_some, Option.toList_some] at hl hmem
    have e := (List.append_inj' hl rfl).2
    rw [← e] at hmem
    rcases List.mem_append.mp hmem with h | h
    · exfalso
      rcases hm : paths.metrics with _ | q
      · rw [hm] at h; simp at h
      · rw [hm] at h
        simp only [Option.map_some, Option.toList_some, List.mem_singleton, Prod.mk.injEq] at h
        exact hne (by rw [hm, h.1])
    · simp only [List.mem_singleton, Prod.mk.injEq, Except.ok.injEq, true_and] at h
      rw [h]
      exact ⟨state, hk⟩

/-- C87: nothing that happened before - failures, crashes, temporary files left behind - keeps a new attempt from completing. -/
theorem C87_retry (hu : FreshUuids uuid path) {s0 s : State W (List Char) (List Char) Byte} (h0 : Initial (callsOf uuid path data) s0)
    (hr : Reachable (callsOf uuid path data) s0 s) (w : W) (hw : s.phase w = .start) :
    ∃ s', Reachable (callsOf uuid path data) s0 s' ∧ (∀ w', w' ≠ w → s'.phase w' = s.phase w') ∧ s'.phase w = .done ∧ s'.file (path w) = some (data w) := by
  obtain ⟨s', h1, h2, h3⟩ := C18_completes hu data s0 s h0 hr w hw
  refine ⟨s', ?_, ?_, h2, h3⟩
  · clear h2 h3
    induction h1 with
    | refl => exact hr
    | tail _ hs ih => exact ih.tail ⟨w, hs⟩
  · clear h2 h3
    induction h1 with
    | refl => intros; rfl
    | tail _ hs ih =>
      intro w' hw'
      rw [← ih w' hw']
      cases hs <;> simp [State.setPhase, State.setFile, Function.update_of_ne hw']

/-- C87 (finding): `define_pipeline` accepts the same path for both outputs. Every run then makes two writes to that path, and after both have returned the file
may be the one with the metric values or the one with the state, depending on the order in which they were moved; the other is lost, without an error. -/
theorem C87_same_path {a b : Option Int} {out : List (TimeChunks.Offsets × (List L × LeadChunk L))}
    (hs : PipelineSetup H metrics targets predictions agg is ts a b out p t whole sws sw) (hext : ∀ nm ∈ metrics, nm.2.Extensional)
    (hnames : (metrics.map Prod.fst).Nodup) (hdot : ∀ nm ∈ metrics, '.' ∉ nm.1.toList) (hsome : whole ≠ []) (hall : ∀ st ∈ whole, ∃ v x, sws.get2 st.1 v = some x)
    {table : List (String × Vars (DA L (FV K)))} (hdirect : metricTableForSingleChunk metrics agg p t = .ok table)
    (hlab : ∀ x ∈ metricArrays table, ∀ y ∈ metricArrays table, x.2.SameLabels y.2)
    (hgood : ∀ s v, (sws.get2 s v).isSome → (GoodName s ∧ '#' ∉ s.toList) ∧ GoodName v ∧ '#' ∉ v.toList)
    (hlab' : ∀ s v s' v' x y, (sws.get2 s v = some x ∨ sw.get2 s v = some x) → (sws.get2 s' v' = some y ∨ sw.get2 s' v' = some y) → x.SameLabels y)
    {P : String} {outputs : List (String × Except Err (List (String × DA L (FV K))))}
    (hrun : RunsTo fill ⟨some P, some P⟩ metrics agg targets predictions out outputs) :
    ∃ f g, outputs = [(P, Except.ok f), (P, Except.ok g)] ∧ IsMetricsFile table f ∧ IsStateFile sws sw g ∧
      ∀ uuid : Bool → List Char, FreshUuids uuid (fun _ => P.toList) → ∀ s0 : State Bool (List Char) (List Char) Byte,
        Initial (callsOf uuid (fun _ => P.toList) (fun w => netcdf (if w then f else g))) s0 → ∀ last : Bool,
        ∃ s, Reachable (callsOf uuid (fun _ => P.toList) (fun w => netcdf (if w then f else g))) s0 s ∧ (∀ w, s.phase w = .done) ∧
          s.file P.toList = some (netcdf (if last then f else g)) := by
  obtain ⟨f, state, ho, hk⟩ := C81_metrics_file hs hext hnames hdot hsome hall hdirect hlab hrun
  obtain ⟨st, hst⟩ := List.exists_mem_of_ne_nil _ hsome
  obtain ⟨v, x, hx⟩ := hall st hst
  obtain ⟨before, g, st', ho', hk'⟩ := C81_state_file hs ⟨_, _, _, hx⟩ hgood hlab' (path := P) rfl hrun
  have e : outputs = [(P, Except.ok f), (P, Except.ok g)] := by
    rw [ho] at ho' ⊢
    simp only [Option.map_some, Option.toList_some] at ho' ⊢
    have := (List.append_inj' ho' rfl).2
    rw [this]
    rfl
  refine ⟨f, g, e, hk, ⟨st', hk'⟩, ?_⟩
  intro uuid hu s0 h0 last
  obtain ⟨s1, r1, q1, d1, _⟩ := C87_retry hu h0 Relation.ReflTransGen.refl (!last) (h0.phase _)
  obtain ⟨s2, r2, q2, d2, f2⟩ := C87_retry hu h0 r1 last (by rw [q1 last (by simp)]; exact h0.phase _)
  refine ⟨s2, r2, ?_, f2⟩
  intro w
  by_cases hw : w = last
  · rw [hw]; exact d2
  · rw [q2 w hw, Bool.eq_not_iff.mpr hw]
    exact d1

end setup

/-- A call that is killed after it has opened its temporary file. -/
theorem killed_while_writing {uuid path : W → List Char} {data : W → List Byte} (hu : FreshUuids uuid path) {s0 : State W (List Char) (List Char) Byte}
    (h0 : Initial (callsOf uuid path data) s0) (w : W) :
    ∃ s, Reachable (callsOf uuid path data) s0 s ∧ s.phase w = .crashed ∧ (∀ w', w' ≠ w → s.phase w' = .start) ∧
      ∀ q, q ≠ tmpPath (uuid w) (path w) → s.file q = s0.file q := by
  have r := (((Relation.ReflTransGen.refl (r := Next (callsOf uuid path data)) (a := s0)).tail ⟨w, Step.makedirs (h0.phase w) rfl⟩).tail ⟨w, Step.open_ (by simp [State.setPhase]) (by
      simp only [(C18_temporary_paths hu data).2, Function.update_self])⟩).tail ⟨w, Step.crash (by simp [State.setPhase, State.setFile, Phase.finished])⟩
  refine ⟨_, r, by simp [State.setPhase], ?_, ?_⟩
  · intro w' hw'
    simp [State.setPhase, State.setFile, Function.update_of_ne hw', h0.phase]
  · intro q hq
    have : q ≠ (callsOf uuid path data).tmp w := hq
    simp [State.setPhase, State.setFile, Function.update_of_ne this]

/-! ### A concrete evaluation with two attempts -/

/-- The evaluation of `PipelineFilesExample` meets the hypotheses about the data. -/
theorem exCrash_facts : ∃ out x y, PipelineSetup Chunkable [("mae", exMAE)] exTargetsLoader exPredictionsLoader exInitAgg [0, 1, 2] [1, 2] (some 2) (some 1) out
      [("t2m", exLoadedP)] [("t2m", exLoadedT)] [("AbsoluteError", [("t2m", some exAbs)])]
      (.dict (.cons "AbsoluteError" (.dict (.cons "t2m" (.leaf x) .nil)) .nil)) (.dict (.cons "AbsoluteError" (.dict (.cons "t2m" (.leaf y) .nil)) .nil)) ∧
    metricTableForSingleChunk [("mae", exMAE)] exInitAgg [("t2m", exLoadedP)] [("t2m", exLoadedT)] = .ok [("mae", [("t2m", DA.zipWith (· / ·) x y)])] ∧
    (∀ u ∈ metricArrays [("mae", [("t2m", DA.zipWith (· / ·) x y)])], ∀ v ∈ metricArrays [("mae", [("t2m", DA.zipWith (· / ·) x y)])], u.2.SameLabels v.2) ∧
    (∀ s v, (Tree.get2 (.dict (.cons "AbsoluteError" (.dict (.cons "t2m" (.leaf x) .nil)) .nil)) s v).isSome → (GoodName s ∧ '#' ∉ s.toList) ∧ GoodName v ∧ '#' ∉ v.toList) ∧
    ∀ s v s' v' u w, (Tree.get2 (.dict (.cons "AbsoluteError" (.dict (.cons "t2m" (.leaf x) .nil)) .nil)) s v = some u ∨
        Tree.get2 (.dict (.cons "AbsoluteError" (.dict (.cons "t2m" (.leaf y) .nil)) .nil)) s v = some u) →
      (Tree.get2 (.dict (.cons "AbsoluteError" (.dict (.cons "t2m" (.leaf x) .nil)) .nil)) s' v' = some w ∨
        Tree.get2 (.dict (.cons "AbsoluteError" (.dict (.cons "t2m" (.leaf y) .nil)) .nil)) s' v' = some w) → u.SameLabels w := by
  obtain ⟨out, x, y, -, hxy, hs⟩ := exSetupWith exMAE.valuesFromMeanStatistics
  change PipelineSetup Chunkable [("mae", exMAE)] _ _ _ _ _ _ _ _ _ _ _ _ _ at hs
  have hone : ∀ (z : DA ℕ (FV ℚ)) s v, (Tree.get2 (.dict (.cons "AbsoluteError" (.dict (.cons "t2m" (.leaf z) .nil)) .nil)) s v).isSome → s = "AbsoluteError" ∧ v = "t2m" := by
    intro z s v h
    by_cases h3 : "AbsoluteError" = s <;> by_cases h4 : "t2m" = v <;> simp [Tree.get2, Dict.get, h3, h4] at h
    exact ⟨h3.symm, h4.symm⟩
  refine ⟨out, x, y, hs, ?_, ?_, ?_, ?_⟩
  · unfold metricTableForSingleChunk
    exact bind_ok_of hs.computed (bind_ok_of hs.aggregated rfl)
  · intro u hu w hw d _ _
    simp only [metricArrays, List.flatMap_cons, List.flatMap_nil, List.map_cons, List.map_nil, List.append_nil, List.mem_singleton] at hu hw
    rw [hu, hw]
  · intro s v h
    obtain ⟨rfl, rfl⟩ := hone _ _ _ h
    refine ⟨⟨?_, by decide⟩, ?_, by decide⟩ <;> (unfold GoodName; decide)
  · intro s v s' v' u w hu hw
    have hval : ∀ (s v : String) (u : DA ℕ (FV ℚ)), (Tree.get2 (.dict (.cons "AbsoluteError" (.dict (.cons "t2m" (.leaf x) .nil)) .nil)) s v = some u ∨
        Tree.get2 (.dict (.cons "AbsoluteError" (.dict (.cons "t2m" (.leaf y) .nil)) .nil)) s v = some u) → u = x ∨ u = y := by
      intro s v u h
      rcases h with h | h <;> obtain ⟨rfl, rfl⟩ := hone _ s v (by rw [h]; rfl)
      · exact Or.inl (Option.some.inj h).symm
      · exact Or.inr (Option.some.inj h).symm
    obtain ⟨d1, d2⟩ := hxy u (hval _ _ _ hu)
    obtain ⟨d3, d4⟩ := hxy w (hval _ _ _ hw)
    intro d hd _
    rw [d1, Finset.mem_singleton] at hd
    rw [hd, d2, d4]

/-- The uuids of the two attempts. -/
def exUuid (w : Bool) : List Char := if w then "0a-1".toList else "0b-1".toList

theorem exUuid_fresh : FreshUuids exUuid (fun _ => "/out/metrics.nc".toList) where
  inj := by decide
  length := by decide
  noSlash := by decide
  notTarget := by decide

theorem exStart_initial {Byte : Type} (data : Bool → List Byte) (P : List Char) (old : List Byte) (h : ∀ w, tmpPath (exUuid w) P ≠ P) :
    Initial (callsOf exUuid (fun _ => P) data) ⟨fun q => if q = P then some old else none, fun _ => false, fun _ => .start, []⟩ where
  phase := fun _ => rfl
  moved := rfl
  fresh := fun w => if_neg (h w)

/-- The hypotheses of `C87_metrics_path` and `C87_retry`: an old file is there; the first attempt is killed while it writes its temporary file, and the second
one completes. A reader sees the old file up to that moment, then the metric values. -/
example (netcdf : List (String × DA ℕ (FV ℚ)) → List ℕ) (old : List ℕ) : ∃ data table, ∃ s0 s1 s2 : State Bool (List Char) (List Char) ℕ,
    Initial (callsOf exUuid (fun _ => "/out/metrics.nc".toList) data) s0 ∧ s0.file "/out/metrics.nc".toList = some old ∧
    Reachable (callsOf exUuid (fun _ => "/out/metrics.nc".toList) data) s0 s1 ∧ s1.phase true = .crashed ∧ s1.file "/out/metrics.nc".toList = some old ∧
    Reachable (callsOf exUuid (fun _ => "/out/metrics.nc".toList) data) s0 s2 ∧ s2.phase true = .crashed ∧ s2.phase false = .done ∧
    ReaderSees (IsMetricsFile table) netcdf (fun _ => "/out/metrics.nc".toList) "/out/metrics.nc".toList s0 s1 ∧
    ReaderSees (IsMetricsFile table) netcdf (fun _ => "/out/metrics.nc".toList) "/out/metrics.nc".toList s0 s2 := by
  obtain ⟨out, x, y, hs, hdirect, hlab, hgood, hlab'⟩ := exCrash_facts
  obtain ⟨outputs, hr⟩ := C81_runs (fill := (FV.nan : FV ℚ)) (paths := ⟨some "/out/metrics.nc", none⟩) hs (Or.inl (by simp))
  have hext : ∀ nm ∈ [("mae", exMAE)], nm.2.Extensional := by simpa using exMAE_extensional
  have hall : ∀ st ∈ [("AbsoluteError", [("t2m", some exAbs)])], ∃ v z,
      Tree.get2 (.dict (.cons "AbsoluteError" (.dict (.cons "t2m" (.leaf x) .nil)) .nil)) st.1 v = some z := by
    intro st hst; rw [List.mem_singleton] at hst; subst hst; exact ⟨"t2m", x, rfl⟩
  obtain ⟨file, st, h1, h2⟩ := C81_metrics_file hs hext (by simp) (by simp) (by simp) hall hdirect hlab hr
  let data : Bool → List ℕ := fun _ => netcdf file
  have h0 := exStart_initial data "/out/metrics.nc".toList old (by decide)
  have hatt : AttemptsOf Chunkable [("mae", exMAE)] exTargetsLoader exPredictionsLoader exInitAgg [0, 1, 2] [1, 2]
      [("t2m", exLoadedP)] [("t2m", exLoadedT)] [("AbsoluteError", [("t2m", some exAbs)])]
      (.dict (.cons "AbsoluteError" (.dict (.cons "t2m" (.leaf x) .nil)) .nil)) (.dict (.cons "AbsoluteError" (.dict (.cons "t2m" (.leaf y) .nil)) .nil))
      FV.nan ⟨some "/out/metrics.nc", none⟩ netcdf (fun _ => "/out/metrics.nc".toList) data :=
    fun w => ⟨some 2, some 1, out, outputs, "/out/metrics.nc", file, hs, hr, by rw [h1]; simp, rfl, rfl⟩
  have hsee := fun s hs' => C87_metrics_path (s := s) hatt hext (by simp) (by simp) (by simp) hall hdirect hlab rfl (by simp) exUuid_fresh
    (fun w => exUuid_fresh.notTarget w w) h0 hs'
  obtain ⟨s1, r1, p1, q1, f1⟩ := killed_while_writing exUuid_fresh h0 true
  obtain ⟨s2, r2, q2, d2, f2⟩ := C87_retry exUuid_fresh h0 r1 false (q1 false (by simp))
  have hne : ∀ w, "/out/metrics.nc".toList ≠ tmpPath (exUuid w) "/out/metrics.nc".toList := by decide
  have hold := f1 _ (hne true)
  refine ⟨data, _, _, s1, s2, h0, (by dsimp only; rw [if_pos rfl]), r1, p1, hold.trans (by dsimp only; rw [if_pos rfl]), r2, ?_, d2, hsee _ r1, hsee _ r2⟩
  rw [q2 true (by simp)]
  exact p1

/-- The hypotheses of `C87_state_path`. -/
example (netcdf : List (String × DA ℕ (FV ℚ)) → List ℕ) : ∃ data sws sw, ∃ s0 s : State Bool (List Char) (List Char) ℕ, Tree.get2 sws "AbsoluteError" "t2m" ≠ none ∧
    Reachable (callsOf exUuid (fun _ => "/out/metrics.nc".toList) data) s0 s ∧ s.phase true = .done ∧
    ReaderSees (IsStateFile sws sw) netcdf (fun _ => "/out/metrics.nc".toList) "/out/metrics.nc".toList s0 s := by
  obtain ⟨out, x, y, hs, hdirect, hlab, hgood, hlab'⟩ := exCrash_facts
  obtain ⟨outputs, hr⟩ := C81_runs (fill := (FV.nan : FV ℚ)) (paths := ⟨none, some "/out/metrics.nc"⟩) hs (Or.inr (by simp))
  obtain ⟨before, sf, state, h3, -⟩ := C81_state_file hs ⟨"AbsoluteError", "t2m", x, rfl⟩ hgood hlab' (path := "/out/metrics.nc") rfl hr
  have h0 := exStart_initial (fun _ => netcdf sf) "/out/metrics.nc".toList [] (by decide)
  obtain ⟨s, r, _, d, _⟩ := C87_retry exUuid_fresh h0 Relation.ReflTransGen.refl true (h0.phase _)
  exact ⟨_, _, _, _, s, by simp [Tree.get2, Dict.get], r, d, C87_state_path (H := Chunkable) (metrics := [("mae", exMAE)]) (paths := ⟨none, some "/out/metrics.nc"⟩)
    (fun w => ⟨some 2, some 1, out, outputs, "/out/metrics.nc", sf, hs, hr, by rw [h3]; simp, rfl, rfl⟩) ⟨"AbsoluteError", "t2m", x, rfl⟩ hgood hlab' rfl (by simp)
    exUuid_fresh (fun w => exUuid_fresh.notTarget w w) h0 r⟩

/-- The hypotheses of `C87_same_path`: after both writes the file is the one or the other. -/
example (netcdf : List (String × DA ℕ (FV ℚ)) → List ℕ) : ∃ out f g, ∃ s0 : State Bool (List Char) (List Char) ℕ,
    RunsTo (FV.nan : FV ℚ) ⟨some "/out/metrics.nc", some "/out/metrics.nc"⟩ [("mae", exMAE)] exInitAgg exTargetsLoader exPredictionsLoader out
      [("/out/metrics.nc", .ok f), ("/out/metrics.nc", .ok g)] ∧
    ∀ last : Bool, ∃ s, Reachable (callsOf exUuid (fun _ => "/out/metrics.nc".toList) (fun w => netcdf (if w then f else g))) s0 s ∧ (∀ w, s.phase w = .done) ∧
      s.file "/out/metrics.nc".toList = some (netcdf (if last then f else g)) := by
  obtain ⟨out, x, y, hs, hdirect, hlab, hgood, hlab'⟩ := exCrash_facts
  obtain ⟨outputs, hr⟩ := C81_runs (fill := (FV.nan : FV ℚ)) (paths := ⟨some "/out/metrics.nc", some "/out/metrics.nc"⟩) hs (Or.inl (by simp))
  obtain ⟨f, g, rfl, _, _, h⟩ := C87_same_path (netcdf := netcdf) hs (by simpa using exMAE_extensional) (by simp) (by simp) (by simp)
    (by intro st hst; rw [List.mem_singleton] at hst; subst hst; exact ⟨"t2m", x, rfl⟩) hdirect hlab hgood hlab' hr
  exact ⟨out, f, g, _, hr, h exUuid exUuid_fresh _ (exStart_initial _ _ [] (by decide))⟩

end WBX
