import Verif.Lemmas.Separate
import Verif.Lemmas.Ensemble
import Verif.Lemmas.OneDim
import Verif.Model.Wrappers
import Verif.Model.Opportunism

/-!
# C92 Variables evaluated together do not influence each other
-/

namespace WBX
set_option linter.unusedSectionVars false
open Classical

section general
variable {D L V : Type} [DecidableEq L] [AddCommMonoid V] [Mul V] [One V] [Div V] [IsNull V]

/-! ### The mean statistics and the shared statistics -/

theorem perVar_only (agg : Aggregator L V) (W : String → Bool) : (xs : List (String × Option (StatVar L V))) →
    (r : List (String × (DA L V × DA L V))) → agg.perVar xs = .ok r → agg.perVar (onlyVars W xs) = .ok (onlyVars W r)
  | [], r, h => by
    simp only [Aggregator.perVar, Except.ok.injEq] at h
    subst h; rfl
  | (k, none) :: xs, r, h => by
    simp only [Aggregator.perVar] at h
    have ih := perVar_only agg W xs r h
    rw [onlyVars_cons]
    split_ifs
    · simp only [Aggregator.perVar]; exact ih
    · exact ih
  | (k, some s) :: xs, r, h => by
    simp only [Aggregator.perVar] at h
    obtain ⟨y, hy, h⟩ := bind_pair_ok _ _ _ h
    obtain ⟨rs, hrs, h⟩ := bind_pair_ok _ _ _ h
    have ih := perVar_only agg W xs rs hrs
    rw [onlyVars_cons]
    rcases y with _ | y
    · simp only [pure, Except.pure, Except.ok.injEq] at h
      subst h
      split_ifs
      · simp only [Aggregator.perVar, hy, ih, bind, Except.bind, pure, Except.pure]
      · exact ih
    · simp only [pure, Except.pure, Except.ok.injEq] at h
      subst h
      rw [onlyVars_cons]
      split_ifs
      · simp only [Aggregator.perVar, hy, ih, bind, Except.bind, pure, Except.pure]
      · exact ih

theorem onlyVars_map {α β : Type} (W : String → Bool) (f : α → β) (l : Vars α) :
    onlyVars W (l.map (fun q => (q.1, f q.2))) = (onlyVars W l).map (fun q => (q.1, f q.2)) := by
  induction l with
  | nil => rfl
  | cons a l ih =>
    obtain ⟨k, x⟩ := a
    rw [List.map_cons, onlyVars_cons, onlyVars_cons, ih]
    split_ifs <;> rfl

theorem meanVars_only (agg : Aggregator L V) (W : String → Bool) (xs : List (String × Option (StatVar L V))) (r : Vars (DA L V))
    (h : meanVars agg xs = .ok r) : meanVars agg (onlyVars W xs) = .ok (onlyVars W r) := by
  unfold meanVars at h ⊢
  obtain ⟨pv, hpv, h⟩ := bind_pair_ok _ _ _ h
  simp only [pure, Except.pure, Except.ok.injEq] at h
  subst h
  rw [perVar_only agg W xs pv hpv]
  simp only [bind, Except.bind, pure, Except.pure, Except.ok.injEq]
  exact (onlyVars_map W (fun q : DA L V × DA L V => DA.zipWith (· / ·) q.1 q.2) pv).symm

theorem perVar_ok_iff (agg : Aggregator L V) (xs : List (String × Option (StatVar L V))) :
    (∃ r, agg.perVar xs = .ok r) ↔ ∀ k s, (k, some s) ∈ xs → ∃ y, agg.aggregateStatVar s = .ok y := by
  induction xs with
  | nil => exact ⟨fun _ k s h => by simp at h, fun _ => ⟨[], rfl⟩⟩
  | cons a xs ih =>
    obtain ⟨k, x⟩ := a
    rcases x with _ | s
    · simp only [Aggregator.perVar]
      rw [ih]
      simp
    · simp only [Aggregator.perVar]
      constructor
      · rintro ⟨r, h⟩ k' s' hs
        obtain ⟨y, hy, h⟩ := bind_pair_ok _ _ _ h
        obtain ⟨rs, hrs, h⟩ := bind_pair_ok _ _ _ h
        rcases List.mem_cons.mp hs with hs | hs
        · obtain ⟨-, e⟩ := Prod.mk.inj hs
          rw [Option.some.inj e]; exact ⟨y, hy⟩
        · exact ih.mp ⟨rs, hrs⟩ k' s' hs
      · intro h
        obtain ⟨y, hy⟩ := h k s (by simp)
        obtain ⟨rs, hrs⟩ := ih.mpr (fun k' s' hs => h k' s' (by simp [hs]))
        rcases y with _ | y
        · exact ⟨rs, by simp only [hy, hrs, bind, Except.bind, pure, Except.pure]⟩
        · exact ⟨(k, y) :: rs, by simp only [hy, hrs, bind, Except.bind, pure, Except.pure]⟩

theorem meanVars_ok_iff (agg : Aggregator L V) (xs : List (String × Option (StatVar L V))) :
    (∃ r, meanVars agg xs = .ok r) ↔ ∃ r, agg.perVar xs = .ok r := by
  unfold meanVars
  constructor
  · rintro ⟨r, h⟩
    obtain ⟨pv, hpv, -⟩ := bind_pair_ok _ _ _ h
    exact ⟨pv, hpv⟩
  · rintro ⟨pv, hpv⟩
    exact ⟨_, by rw [hpv]; rfl⟩

theorem meanVars_isolated (agg : Aggregator L V) (xs : List (String × Option (StatVar L V)))
    (h : ∀ v, ∃ r, meanVars agg (justVar v xs) = .ok r) : ∃ r, meanVars agg xs = .ok r := by
  rw [meanVars_ok_iff, perVar_ok_iff]
  intro k s hs
  have := (perVar_ok_iff agg _).mp ((meanVars_ok_iff agg _).mp (h k))
  exact this k s (by unfold justVar; rw [onlyVars_mem]; exact ⟨hs, by simp⟩)

/-! ### A metric alone -/

theorem metricAlone_only (m : Metric D (Option (StatVar L V)) (DA L V)) (hm : m.Separate) (agg : Aggregator L V)
    (W : String → Bool) (p t : Vars D) (r : Vars (DA L V)) (h : metricAlone m agg p t = .ok r) :
    metricAlone m agg (onlyVars W p) (onlyVars W t) = .ok (onlyVars W r) := by
  unfold metricAlone at h ⊢
  obtain ⟨means, hmeans, h⟩ := bind_pair_ok _ _ _ h
  have key : ∀ (l : List (String × Statistic D (Option (StatVar L V)))) (means : List (String × Vars (DA L V))),
      (∀ ks ∈ l, ks.2.Separate) →
      l.mapM (fun ks => do
        let v ← ks.2.compute p t
        let mean ← meanVars agg v
        return (ks.1, mean)) = .ok means →
      l.mapM (fun ks => do
        let v ← ks.2.compute (onlyVars W p) (onlyVars W t)
        let mean ← meanVars agg v
        return (ks.1, mean)) = .ok (means.map (fun kv => (kv.1, onlyVars W kv.2))) := by
    intro l
    induction l with
    | nil =>
      intro means _ h
      simp only [List.mapM_nil, pure, Except.pure, Except.ok.injEq] at h
      subst h; rfl
    | cons ks l ih =>
      intro means hs h
      rw [List.mapM_cons] at h
      obtain ⟨y, hy, h⟩ := bind_pair_ok _ _ _ h
      obtain ⟨ys, hys, h⟩ := bind_pair_ok _ _ _ h
      simp only [pure, Except.pure, Except.ok.injEq] at h
      subst h
      obtain ⟨v, hv, hy⟩ := bind_pair_ok _ _ _ hy
      obtain ⟨mean, hmean, hy⟩ := bind_pair_ok _ _ _ hy
      simp only [pure, Except.pure, Except.ok.injEq] at hy
      subst hy
      rw [List.mapM_cons, hs ks (by simp) W p t v hv, ih ys (fun ks hks => hs ks (by simp [hks])) hys]
      simp only [bind, Except.bind, pure, Except.pure]
      rw [meanVars_only agg W v mean hmean]
      simp only [List.map_cons]
  rw [key m.statistics means hm.1 hmeans]
  simp only [bind, Except.bind]
  exact hm.2 W means r h

/-- **C92** Evaluating a selection of the variables gives, for every metric that treats variables separately, the selection of
what evaluating all of them gives: leaving variables out changes nothing about the others. -/
theorem C92_metric (m : Metric D (Option (StatVar L V)) (DA L V)) (hm : m.Separate) (agg : Aggregator L V)
    (W : String → Bool) (p t : Vars D) (r : Vars (DA L V)) (h : metricAlone m agg p t = .ok r) :
    metricAlone m agg (onlyVars W p) (onlyVars W t) = .ok (onlyVars W r) :=
  metricAlone_only m hm agg W p t r h

theorem computeUnique_mem (metrics : List (String × Metric D (Option (StatVar L V)) (DA L V))) (p t : Vars D)
    (r : List (String × Vars (Option (StatVar L V)))) (h : computeUniqueStatistics metrics p t = .ok r) :
    ∀ x ∈ r, ∃ s ∈ requiredStatistics metrics, s.compute p t = .ok x.2 := by
  obtain ⟨-, h2, -⟩ := uniqueStatistics_spec metrics
  have key : ∀ x ∈ r, ∃ ks ∈ uniqueStatistics metrics, ks.2.compute p t = .ok x.2 := by
    unfold computeUniqueStatistics at h
    clear h2
    generalize uniqueStatistics metrics = l at h
    induction l generalizing r with
    | nil =>
      simp only [List.mapM_nil, pure, Except.pure, Except.ok.injEq] at h
      subst h; simp
    | cons ks l ih =>
      rw [List.mapM_cons] at h
      obtain ⟨y, hy, h⟩ := bind_pair_ok _ _ _ h
      obtain ⟨ys, hys, h⟩ := bind_pair_ok _ _ _ h
      simp only [pure, Except.pure, Except.ok.injEq] at h
      subst h
      intro x hx
      rcases List.mem_cons.mp hx with hx | hx
      · subst hx
        rcases hc : ks.2.compute p t with e | v
        · rw [hc] at hy; cases hy
        · rw [hc] at hy
          simp only [Except.ok.injEq] at hy
          subst hy
          exact ⟨ks, by simp, hc⟩
      · obtain ⟨ks', h1, h2⟩ := ih ys hys x hx
        exact ⟨ks', by simp [h1], h2⟩
  intro x hx
  obtain ⟨ks, h1, h3⟩ := key x hx
  exact ⟨ks.2, (h2 ks h1).2, h3⟩

theorem tableEq' (metrics : List (String × Metric D (Option (StatVar L V)) (DA L V))) (agg : Aggregator L V)
    (p t : Vars D) (hdict : ReturnDicts metrics p t)
    (r : List (String × Vars (Option (StatVar L V)))) (h : computeUniqueStatistics metrics p t = .ok r) :
    metricTableForSingleChunk metrics agg p t = (do
      let sv ← r.mapM (fun st => do let m ← meanVars agg st.2; return (st.1, m))
      computeMetricsFromStatistics metrics sv) := by
  have hk : UniqueKeys r := ⟨(C20_computed_once metrics p t r h).1, fun st hst => by
    obtain ⟨s, hs, hc⟩ := computeUnique_mem metrics p t r h st hst
    exact hdict s hs _ hc⟩
  have := mean_eq agg r hk
  unfold metricTableForSingleChunk AggState.metricTable
  rw [h, ← this]
  simp only [bind, Except.bind]
  rcases agg.aggregateStatistics r with e | st
  · rfl
  · simp only
    rcases st.meanStatistics with e | mean
    · rfl
    · cases mean <;> rfl

theorem mapM_rows {α β : Type} (W : String → Bool) (f : Vars α → Except Err (Vars β))
    (hf : ∀ x y, f x = .ok y → f (onlyVars W x) = .ok (onlyVars W y)) : (l : List (String × Vars α)) → (r : List (String × Vars β)) →
    l.mapM (fun st => do let m ← f st.2; return (st.1, m)) = .ok r →
    (onlyRows W l).mapM (fun st => do let m ← f st.2; return (st.1, m)) = .ok (onlyRows W r)
  | [], r, h => by
    simp only [List.mapM_nil, pure, Except.pure, Except.ok.injEq] at h
    subst h; rfl
  | x :: l, r, h => by
    rw [List.mapM_cons] at h
    obtain ⟨y, hy, h⟩ := bind_pair_ok _ _ _ h
    obtain ⟨ys, hys, h⟩ := bind_pair_ok _ _ _ h
    simp only [pure, Except.pure, Except.ok.injEq] at h
    subst h
    obtain ⟨m, hm, hy⟩ := bind_pair_ok _ _ _ hy
    simp only [pure, Except.pure, Except.ok.injEq] at hy
    subst hy
    have ih := mapM_rows W f hf l ys hys
    unfold onlyRows at ih ⊢
    rw [List.map_cons, List.mapM_cons, ih]
    simp only [hf _ _ hm, bind, Except.bind, pure, Except.pure, List.map_cons]

theorem computeUnique_only (metrics : List (String × Metric D (Option (StatVar L V)) (DA L V))) (W : String → Bool) (p t : Vars D)
    (hs : ∀ nm ∈ metrics, nm.2.Separate) (r : List (String × Vars (Option (StatVar L V))))
    (h : computeUniqueStatistics metrics p t = .ok r) :
    computeUniqueStatistics metrics (onlyVars W p) (onlyVars W t) = .ok (onlyRows W r) := by
  obtain ⟨-, h2, -⟩ := uniqueStatistics_spec metrics
  have hsep : ∀ ks ∈ uniqueStatistics metrics, ks.2.Separate := by
    intro ks hks
    obtain ⟨nm, hnm, hst⟩ := List.mem_flatMap.mp (h2 ks hks).2
    obtain ⟨ks', hks', e⟩ := List.mem_map.mp hst
    rw [← e]
    exact (hs nm hnm).1 ks' hks'
  unfold computeUniqueStatistics at h ⊢
  generalize uniqueStatistics metrics = l at h hsep
  induction l generalizing r with
  | nil =>
    simp only [List.mapM_nil, pure, Except.pure, Except.ok.injEq] at h
    subst h; rfl
  | cons ks l ih =>
    rw [List.mapM_cons] at h
    obtain ⟨y, hy, h⟩ := bind_pair_ok _ _ _ h
    obtain ⟨ys, hys, h⟩ := bind_pair_ok _ _ _ h
    simp only [pure, Except.pure, Except.ok.injEq] at h
    subst h
    rw [List.mapM_cons, ih ys hys (fun ks hks => hsep ks (by simp [hks]))]
    rcases hc : ks.2.compute p t with e | v
    · rw [hc] at hy; cases hy
    · rw [hc] at hy
      simp only [Except.ok.injEq] at hy
      subst hy
      rw [hsep ks (by simp) W p t v hc]
      rfl

theorem metricsFrom_only (W : String → Bool) (sv : List (String × Vars (DA L V))) :
    (metrics : List (String × Metric D (Option (StatVar L V)) (DA L V))) → (∀ nm ∈ metrics, nm.2.Separate) →
    (table : List (String × Vars (DA L V))) → computeMetricsFromStatistics metrics sv = .ok table →
    computeMetricsFromStatistics metrics (onlyRows W sv) = .ok (onlyRows W table)
  | [], _, table, h => by
    simp only [computeMetricsFromStatistics, List.mapM_nil, pure, Except.pure, Except.ok.injEq] at h
    subst h; rfl
  | nm :: metrics, hs, table, h => by
    unfold computeMetricsFromStatistics at h ⊢
    rw [List.mapM_cons] at h
    obtain ⟨y, hy, h⟩ := bind_pair_ok _ _ _ h
    obtain ⟨ys, hys, h⟩ := bind_pair_ok _ _ _ h
    simp only [pure, Except.pure, Except.ok.injEq] at h
    subst h
    obtain ⟨v, hv, hy⟩ := bind_pair_ok _ _ _ hy
    simp only [pure, Except.pure, Except.ok.injEq] at hy
    subst hy
    have ih := metricsFrom_only W sv metrics (fun nm hnm => hs nm (by simp [hnm])) ys hys
    unfold computeMetricsFromStatistics at ih
    rw [List.mapM_cons, ih]
    have e : computeMetricFromStatistics nm.2 (onlyRows W sv) = .ok (onlyVars W v) := by
      unfold computeMetricFromStatistics at hv ⊢
      obtain ⟨renamed, hren, hv⟩ := bind_pair_ok _ _ _ hv
      have : nm.2.statistics.mapM (fun ks => (do
          let v ← pyItem (onlyRows W sv) ks.2.uniqueName
          return (ks.1, v) : Except Err (String × Vars (DA L V)))) = .ok (onlyRows W renamed) := by
        clear hv
        generalize nm.2.statistics = l at hren
        induction l generalizing renamed with
        | nil =>
          simp only [List.mapM_nil, pure, Except.pure, Except.ok.injEq] at hren
          subst hren; rfl
        | cons ks l ihl =>
          rw [List.mapM_cons] at hren
          obtain ⟨z, hz, hren⟩ := bind_pair_ok _ _ _ hren
          obtain ⟨zs, hzs, hren⟩ := bind_pair_ok _ _ _ hren
          simp only [pure, Except.pure, Except.ok.injEq] at hren
          subst hren
          obtain ⟨u, hu, hz⟩ := bind_pair_ok _ _ _ hz
          simp only [pure, Except.pure, Except.ok.injEq] at hz
          subst hz
          rw [List.mapM_cons]
          have hit : pyItem (onlyRows W sv) ks.2.uniqueName = .ok (onlyVars W u) := by
            unfold onlyRows; rw [onlySv_item, hu]; rfl
          rw [hit, ihl zs hzs]; rfl
      rw [this]
      exact (hs nm (by simp)).2 W renamed v hv
    rw [e]; rfl

theorem returnDicts_only (metrics : List (String × Metric D (Option (StatVar L V)) (DA L V))) (W : String → Bool) (p t : Vars D)
    (hs : ∀ nm ∈ metrics, nm.2.Separate) (hdict : ReturnDicts metrics p t)
    (hok : ∀ s ∈ requiredStatistics metrics, ∃ r, s.compute p t = .ok r) : ReturnDicts metrics (onlyVars W p) (onlyVars W t) := by
  intro s hreq r hr
  obtain ⟨nm, hnm, hst⟩ := List.mem_flatMap.mp hreq
  obtain ⟨ks, hks, e⟩ := List.mem_map.mp hst
  have hsep : s.Separate := e ▸ (hs nm hnm).1 ks hks
  obtain ⟨r', hr'⟩ := hok s hreq
  have := hsep W p t r' hr'
  rw [hr] at this
  rw [Except.ok.inj this, onlyVars_keys]
  exact (hdict s hreq r' hr').filter _

theorem tableEq_only (metrics : List (String × Metric D (Option (StatVar L V)) (DA L V))) (agg : Aggregator L V) (W : String → Bool)
    (p t : Vars D) (hs : ∀ nm ∈ metrics, nm.2.Separate) (hdict : ReturnDicts metrics p t)
    (r : List (String × Vars (Option (StatVar L V)))) (h : computeUniqueStatistics metrics p t = .ok r) :
    metricTableForSingleChunk metrics agg (onlyVars W p) (onlyVars W t) = (do
      let sv ← (onlyRows W r).mapM (fun st => do let m ← meanVars agg st.2; return (st.1, m))
      computeMetricsFromStatistics metrics sv) := by
  have hu := computeUnique_only metrics W p t hs r h
  have hk : UniqueKeys (onlyRows W r) := by
    refine ⟨(C20_computed_once metrics _ _ _ hu).1, fun st hst => ?_⟩
    obtain ⟨x, hx, e⟩ := List.mem_map.mp hst
    obtain ⟨s, hs', hc⟩ := computeUnique_mem metrics p t r h x hx
    rw [← e, onlyVars_keys]
    exact (hdict s hs' _ hc).filter _
  have := mean_eq agg (onlyRows W r) hk
  unfold metricTableForSingleChunk AggState.metricTable
  rw [hu, ← this]
  simp only [bind, Except.bind]
  rcases agg.aggregateStatistics (onlyRows W r) with e | st
  · rfl
  · simp only
    rcases st.meanStatistics with e | mean
    · rfl
    · cases mean <;> rfl

/-- **C92** The same for a whole table of metrics computed together, with statistics shared between them: the table of a selection
of the variables is the table of all of them, each row cut down to the selection. -/
theorem C92_table (metrics : List (String × Metric D (Option (StatVar L V)) (DA L V))) (agg : Aggregator L V) (W : String → Bool)
    (p t : Vars D) (hs : ∀ nm ∈ metrics, nm.2.Separate) (hdict : ReturnDicts metrics p t)
    (table : List (String × Vars (DA L V))) (h : metricTableForSingleChunk metrics agg p t = .ok table) :
    metricTableForSingleChunk metrics agg (onlyVars W p) (onlyVars W t) = .ok (onlyRows W table) := by
  rcases hr : computeUniqueStatistics metrics p t with e | r
  · simp [metricTableForSingleChunk, hr, bind, Except.bind] at h
  rw [tableEq_only metrics agg W p t hs hdict r hr]
  rw [tableEq' metrics agg p t hdict r hr] at h
  obtain ⟨sv, hsv, h⟩ := bind_pair_ok _ _ _ h
  rw [mapM_rows W (meanVars agg) (fun x y => meanVars_only agg W x y) r sv hsv]
  exact metricsFrom_only W sv metrics hs table h

/-- **C92** Nothing about the variables outside the selection matters — not their values, not their labels, not whether they are
there: two evaluations whose inputs agree on the selection have the same results for it. -/
theorem C92_untouched (metrics : List (String × Metric D (Option (StatVar L V)) (DA L V))) (agg : Aggregator L V) (W : String → Bool)
    (p t p' t' : Vars D) (hs : ∀ nm ∈ metrics, nm.2.Separate) (hdict : ReturnDicts metrics p t) (hdict' : ReturnDicts metrics p' t')
    (hp : AgreeOn W p p') (ht : AgreeOn W t t')
    (table table' : List (String × Vars (DA L V))) (h : metricTableForSingleChunk metrics agg p t = .ok table)
    (h' : metricTableForSingleChunk metrics agg p' t' = .ok table') : onlyRows W table = onlyRows W table' := by
  have e := C92_table metrics agg W p t hs hdict table h
  have e' := C92_table metrics agg W p' t' hs hdict' table' h'
  unfold AgreeOn at hp ht
  rw [hp, ht, e'] at e
  exact (Except.ok.inj e).symm

theorem metricsFrom_isolated (metrics : List (String × Metric D (Option (StatVar L V)) (DA L V))) (hi : ∀ nm ∈ metrics, nm.2.Isolated)
    (sv : List (String × Vars (DA L V)))
    (h : ∀ v, ∃ table, computeMetricsFromStatistics metrics (onlyRows (fun k => decide (k = v)) sv) = .ok table) :
    ∃ table, computeMetricsFromStatistics metrics sv = .ok table := by
  refine mapM_ok_of_mem _ _ (fun nm hnm => ?_)
  have hren : ∀ v, nm.2.statistics.mapM (fun ks : String × Statistic D (Option (StatVar L V)) => (do
      let v ← pyItem (onlyRows (fun k => decide (k = v)) sv) ks.2.uniqueName
      return (ks.1, v) : Except Err (String × Vars (DA L V)))) = (nm.2.statistics.mapM (fun ks : String × Statistic D (Option (StatVar L V)) => (do
      let v ← pyItem sv ks.2.uniqueName
      return (ks.1, v) : Except Err (String × Vars (DA L V))))).map (onlyRows (fun k => decide (k = v))) := by
    intro v
    generalize nm.2.statistics = l
    induction l with
    | nil => rfl
    | cons ks l ih =>
      rw [List.mapM_cons, List.mapM_cons, ih]
      unfold onlyRows
      rw [onlySv_item]
      rcases pyItem sv ks.2.uniqueName with e | x
      · rfl
      · rcases l.mapM (fun ks : String × Statistic D (Option (StatVar L V)) => (do
          let v ← pyItem sv ks.2.uniqueName
          return (ks.1, v) : Except Err (String × Vars (DA L V)))) with e | y
        · rfl
        · rfl
  have hone : ∀ v, ∃ r, computeMetricFromStatistics nm.2 (onlyRows (fun k => decide (k = v)) sv) = .ok r := by
    intro v
    obtain ⟨table, ht⟩ := h v
    obtain ⟨y, hy⟩ := mapM_ok_mem _ _ _ ht nm hnm
    obtain ⟨r, hr, -⟩ := bind_pair_ok _ _ _ hy
    exact ⟨r, hr⟩
  have hall : ∃ r, computeMetricFromStatistics nm.2 sv = .ok r := by
    unfold computeMetricFromStatistics at hone ⊢
    rcases hm : nm.2.statistics.mapM (fun ks => (do
      let v ← pyItem sv ks.2.uniqueName
      return (ks.1, v) : Except Err (String × Vars (DA L V)))) with e | renamed
    · obtain ⟨r, hr⟩ := hone ""
      rw [hren, hm] at hr
      cases hr
    · obtain ⟨r, hr⟩ := (hi nm hnm).2 renamed (fun v => by
        obtain ⟨r, hr⟩ := hone v
        rw [hren, hm] at hr
        exact ⟨r, hr⟩)
      exact ⟨r, (congrArg (fun z => (do
        let renamed ← z
        nm.2.valuesFromMeanStatistics renamed : Except Err (Vars (DA L V)))) hm).trans hr⟩
  obtain ⟨r, hr⟩ := hall
  exact ⟨(nm.1, r), by rw [hr]; rfl⟩

/-- **C92** Failures do not spread or hide either: the evaluation of all the variables raises exactly if the evaluation of one of
them alone raises. -/
theorem C92_failure (metrics : List (String × Metric D (Option (StatVar L V)) (DA L V))) (agg : Aggregator L V)
    (p t : Vars D) (hs : ∀ nm ∈ metrics, nm.2.Separate) (hi : ∀ nm ∈ metrics, nm.2.Isolated) (hdict : ReturnDicts metrics p t) :
    (∃ table, metricTableForSingleChunk metrics agg p t = .ok table) ↔
      ∀ v, ∃ table, metricTableForSingleChunk metrics agg (justVar v p) (justVar v t) = .ok table := by
  constructor
  · rintro ⟨table, h⟩ v
    exact ⟨_, C92_table metrics agg _ p t hs hdict table h⟩
  intro h
  -- the statistics
  obtain ⟨-, h2, -⟩ := uniqueStatistics_spec metrics
  have hu : ∃ r, computeUniqueStatistics metrics p t = .ok r := by
    refine mapM_ok_of_mem _ _ (fun ks hks => ?_)
    obtain ⟨nm, hnm, hst⟩ := List.mem_flatMap.mp (h2 ks hks).2
    obtain ⟨ks', hks', e⟩ := List.mem_map.mp hst
    have hiso : ks.2.Isolated := e ▸ (hi nm hnm).1 ks' hks'
    obtain ⟨r, hr⟩ := hiso p t (fun v => by
      obtain ⟨table, ht⟩ := h v
      rcases hc : computeUniqueStatistics metrics (justVar v p) (justVar v t) with e | r
      · simp [metricTableForSingleChunk, hc, bind, Except.bind] at ht
      · obtain ⟨y, hy⟩ := mapM_ok_mem _ _ _ hc ks hks
        rcases hk : ks.2.compute (justVar v p) (justVar v t) with e | z
        · rw [hk] at hy; cases hy
        · exact ⟨z, rfl⟩)
    exact ⟨(ks.1, r), by rw [hr]⟩
  obtain ⟨r, hr⟩ := hu
  rw [tableEq' metrics agg p t hdict r hr]
  -- the means
  have hmean : ∃ sv, r.mapM (fun st => (do let m ← meanVars agg st.2; return (st.1, m) : Except Err (String × Vars (DA L V)))) = .ok sv := by
    refine mapM_ok_of_mem _ _ (fun st hst => ?_)
    obtain ⟨m, hm⟩ := meanVars_isolated agg st.2 (fun v => by
      obtain ⟨table, ht⟩ := h v
      unfold justVar at ht
      rw [tableEq_only metrics agg _ p t hs hdict r hr] at ht
      obtain ⟨sv, hsv, -⟩ := bind_pair_ok _ _ _ ht
      obtain ⟨y, hy⟩ := mapM_ok_mem _ _ _ hsv (st.1, onlyVars (fun k => decide (k = v)) st.2) (List.mem_map.mpr ⟨st, hst, rfl⟩)
      obtain ⟨m, hm, -⟩ := bind_pair_ok _ _ _ hy
      exact ⟨m, hm⟩)
    exact ⟨(st.1, m), by rw [hm]; rfl⟩
  obtain ⟨sv, hsv⟩ := hmean
  rw [hsv]
  -- the metrics
  refine metricsFrom_isolated metrics hi sv (fun v => ?_)
  obtain ⟨table, ht⟩ := h v
  unfold justVar at ht
  rw [tableEq_only metrics agg _ p t hs hdict r hr,
    mapM_rows _ (meanVars agg) (fun x y => meanVars_only agg _ x y) r sv hsv] at ht
  exact ⟨table, ht⟩

end general
end WBX
