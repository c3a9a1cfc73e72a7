import Verif.Spec.MetricsBase
import Verif.Lemmas.StateTable
import Verif.Lemmas.PipelineState
import Verif.Lemmas.Mean
import Mathlib.Algebra.Order.Ring.Rat

/-!
# C20 (shared statistics) and C21 (common variables)
-/

namespace WBX
set_option linter.unusedSectionVars false
variable {D S M : Type}

/-! ### Lemmas on dicts -/

theorem pyGet?_none_iff {β : Type} (k : String) : (l : List (String × β)) → pyGet? k l = none ↔ k ∉ l.map Prod.fst
  | [] => by simp [pyGet?]
  | (k', v) :: l => by
    rw [pyGet?]
    by_cases h : k' = k
    · simp [h]
    · rw [if_neg h, pyGet?_none_iff k l]
      simp only [List.map_cons, List.mem_cons, not_or]
      exact ⟨fun h' => ⟨fun he => h he.symm, h'⟩, fun h' => h'.2⟩

theorem pyGet?_mem {β : Type} {k : String} {v : β} : {l : List (String × β)} → pyGet? k l = some v → (k, v) ∈ l
  | [], h => by simp [pyGet?] at h
  | (k', v') :: l, h => by
    rw [pyGet?] at h
    by_cases hk : k' = k
    · rw [if_pos hk] at h
      simp only [Option.some.injEq] at h
      simp [hk, h]
    · rw [if_neg hk] at h
      exact List.mem_cons_of_mem _ (pyGet?_mem h)

theorem pyInsert_keys {β : Type} (k : String) (v : β) : (l : List (String × β)) →
    (pyInsert k v l).map Prod.fst = if k ∈ l.map Prod.fst then l.map Prod.fst else l.map Prod.fst ++ [k]
  | [] => by simp [pyInsert]
  | (k', v') :: l => by
    rw [pyInsert]
    by_cases h : k' = k
    · simp [h]
    · rw [if_neg h, List.map_cons, pyInsert_keys k v l]
      have hk : ¬ k = k' := fun he => h he.symm
      simp only [List.map_cons, List.mem_cons, hk, false_or]
      split <;> simp

theorem pyInsert_mem {β : Type} (k : String) (v : β) : (l : List (String × β)) → ∀ x, x ∈ pyInsert k v l → x = (k, v) ∨ x ∈ l
  | [], x, h => by simp [pyInsert] at h; exact Or.inl h
  | (k', v') :: l, x, h => by
    rw [pyInsert] at h
    by_cases hk : k' = k
    · rw [if_pos hk, List.mem_cons] at h
      rcases h with h | h
      · left; rw [h, hk]
      · right; simp [h]
    · rw [if_neg hk, List.mem_cons] at h
      rcases h with h | h
      · right; simp [h]
      · rcases pyInsert_mem k v l x h with h | h
        · left; exact h
        · right; simp [h]

/-- A dict comprehension `{k: f(v) for k, v in d.items()}` that may raise. -/
theorem mapM_vals_get {β γ : Type} (f : β → Except Err γ) : (l : List (String × β)) → (r : List (String × γ)) →
    l.mapM (fun x => do let y ← f x.2; return (x.1, y)) = .ok r →
    r.map Prod.fst = l.map Prod.fst ∧ ∀ k, (∀ x, pyGet? k l = some x → ∃ y, f x = .ok y ∧ pyGet? k r = some y) ∧
      (pyGet? k l = none → pyGet? k r = none)
  | [], r, h => by
    simp only [List.mapM_nil, pure, Except.pure, Except.ok.injEq] at h
    subst h
    simp [pyGet?]
  | (k0, x0) :: l, r, h => by
    rw [List.mapM_cons] at h
    rcases h1 : f x0 with e | y
    · simp [h1, bind, Except.bind] at h
    rcases h2 : l.mapM (fun x => do let y ← f x.2; return (x.1, y)) with e | r'
    · simp [h1, bind, Except.bind, pure, Except.pure] at h h2
      rw [h2] at h
      simp at h
    · simp [h1, bind, Except.bind, pure, Except.pure] at h h2
      rw [h2] at h
      simp only [Except.ok.injEq] at h
      subst h
      obtain ⟨e1, e2⟩ := mapM_vals_get f l r' (by simpa [bind, Except.bind, pure, Except.pure] using h2)
      refine ⟨by simp [e1], fun k => ⟨?_, ?_⟩⟩
      · intro x hx
        rw [pyGet?] at hx ⊢
        by_cases hk : k0 = k
        · rw [if_pos hk] at hx ⊢
          simp only [Option.some.injEq] at hx
          subst hx
          exact ⟨y, h1, rfl⟩
        · rw [if_neg hk] at hx ⊢
          exact (e2 k).1 x hx
      · intro hx
        rw [pyGet?] at hx ⊢
        by_cases hk : k0 = k
        · simp [hk] at hx
        · rw [if_neg hk] at hx ⊢
          exact (e2 k).2 hx

/-! ### The unique statistics -/

theorem foldl_unique (l : List (Statistic D S)) : (d : List (String × Statistic D S)) → (d.map Prod.fst).Nodup →
    (∀ x ∈ d, x.2.uniqueName = x.1) →
    ((l.foldl (fun d s => pyInsert s.uniqueName s d) d).map Prod.fst).Nodup ∧
    (∀ x ∈ l.foldl (fun d s => pyInsert s.uniqueName s d) d, x.2.uniqueName = x.1 ∧ (x ∈ d ∨ x.2 ∈ l)) ∧
    (∀ k, k ∈ (l.foldl (fun d s => pyInsert s.uniqueName s d) d).map Prod.fst ↔
      k ∈ d.map Prod.fst ∨ k ∈ l.map Statistic.uniqueName) := by
  induction l with
  | nil => intro d hn hd; exact ⟨hn, fun x hx => ⟨hd x hx, Or.inl hx⟩, fun k => by simp⟩
  | cons s l ih =>
    intro d hn hd
    rw [List.foldl_cons]
    have hkeys := pyInsert_keys s.uniqueName s d
    obtain ⟨h1, h2, h3⟩ := ih (pyInsert s.uniqueName s d) (by
        rw [hkeys]
        split
        · exact hn
        · rename_i hni
          exact List.nodup_append.mpr ⟨hn, by simp, by
            intro a ha b hb he
            simp only [List.mem_singleton] at hb
            rw [he, hb] at ha
            exact hni ha⟩) (by
        intro x hx
        rcases pyInsert_mem _ _ _ _ hx with rfl | hx
        · rfl
        · exact hd x hx)
    refine ⟨h1, ?_, ?_⟩
    · intro x hx
      obtain ⟨e1, e2⟩ := h2 x hx
      refine ⟨e1, ?_⟩
      rcases e2 with e2 | e2
      · rcases pyInsert_mem _ _ _ _ e2 with rfl | e2
        · right; simp
        · left; exact e2
      · right; simp [e2]
    · intro k
      rw [h3 k, hkeys]
      split
      · rename_i hi
        simp only [List.map_cons, List.mem_cons]
        constructor
        · rintro (h | h)
          · exact Or.inl h
          · exact Or.inr (Or.inr h)
        · rintro (h | rfl | h)
          · exact Or.inl h
          · exact Or.inl hi
          · exact Or.inr h
      · simp only [List.mem_append, List.map_cons, List.mem_cons, List.not_mem_nil, or_false]
        tauto

theorem uniqueStatistics_spec (metrics : List (String × Metric D S M)) :
    ((uniqueStatistics metrics).map Prod.fst).Nodup ∧
    (∀ x ∈ uniqueStatistics metrics, x.2.uniqueName = x.1 ∧ x.2 ∈ requiredStatistics metrics) ∧
    (∀ k, k ∈ (uniqueStatistics metrics).map Prod.fst ↔ k ∈ (requiredStatistics metrics).map Statistic.uniqueName) := by
  obtain ⟨h1, h2, h3⟩ := foldl_unique (requiredStatistics metrics) [] (by simp) (by simp)
  refine ⟨h1, fun x hx => ?_, fun k => ?_⟩
  · obtain ⟨e1, e2⟩ := h2 x hx
    exact ⟨e1, by simpa using e2⟩
  · have := h3 k
    simp only [List.map_nil, List.not_mem_nil, false_or] at this
    exact this

/-- An exception of a statistic is re-raised as a `ValueError`. -/
def wrapErr {α : Type} : Except Err α → Except Err α
  | .ok v => .ok v
  | .error _ => .error .valueError

/-- The value of the statistic with a unique name, exceptions wrapped. -/
theorem computeUnique_get (metrics : List (String × Metric D S M)) (p t : Vars D) (hid : NamesIdentify metrics p t)
    (r : List (String × Vars S)) (h : computeUniqueStatistics metrics p t = .ok r) :
    (r.map Prod.fst).Nodup ∧ (∀ s ∈ requiredStatistics metrics, ∃ v, s.compute p t = .ok v ∧ pyGet? s.uniqueName r = some v) ∧
    (∀ x ∈ r, ∃ s ∈ requiredStatistics metrics, s.uniqueName = x.1 ∧ s.compute p t = .ok x.2) := by
  obtain ⟨h1, h2, h3⟩ := uniqueStatistics_spec metrics
  have hm : (uniqueStatistics metrics).mapM (fun x => do
      let y ← (fun s : Statistic D S => wrapErr (s.compute p t)) x.2
      return (x.1, y)) = .ok r := by
    rw [← h]
    unfold computeUniqueStatistics
    congr 1
    funext x
    rcases hx : x.2.compute p t with e | v <;> simp [hx, wrapErr, bind, Except.bind, pure, Except.pure]
  obtain ⟨e1, e2⟩ := mapM_vals_get (fun s : Statistic D S => wrapErr (s.compute p t)) _ _ hm
  have hget : ∀ s ∈ requiredStatistics metrics, ∃ v, s.compute p t = .ok v ∧ pyGet? s.uniqueName r = some v := by
    intro s hs
    have hk : s.uniqueName ∈ (uniqueStatistics metrics).map Prod.fst := (h3 _).mpr (List.mem_map_of_mem hs)
    rcases hg : pyGet? s.uniqueName (uniqueStatistics metrics) with _ | s'
    · rw [pyGet?_none_iff] at hg; exact absurd hk hg
    · obtain ⟨y, hy, hr⟩ := (e2 s.uniqueName).1 s' hg
      obtain ⟨g1, g2⟩ := h2 _ (pyGet?_mem hg)
      have := hid s hs s' g2 g1.symm
      refine ⟨y, ?_, hr⟩
      rw [this]
      rcases hc : s'.compute p t with e | v
      · simp [hc, wrapErr] at hy
      · simp only [hc, wrapErr, Except.ok.injEq] at hy
        rw [hy]
  refine ⟨by rw [e1]; exact h1, hget, ?_⟩
  intro x hx
  have hxk : x.1 ∈ (uniqueStatistics metrics).map Prod.fst := by rw [← e1]; exact List.mem_map_of_mem hx
  obtain ⟨s, hs, hsn⟩ := List.mem_map.mp ((h3 _).mp hxk)
  obtain ⟨v, hv, hg⟩ := hget s hs
  refine ⟨s, hs, hsn, ?_⟩
  rw [hsn] at hg
  have hnd : (r.map Prod.fst).Nodup := by rw [e1]; exact h1
  have : pyGet? x.1 r = some x.2 := (pyGet?_eq_some hnd x.1 x.2).mpr hx
  rw [this, Option.some.injEq] at hg
  rw [hv, hg]

/-- All required statistics succeed: then so does the joint computation. -/
theorem computeUnique_ok (metrics : List (String × Metric D S M)) (p t : Vars D)
    (h : ∀ s ∈ requiredStatistics metrics, ∃ v, s.compute p t = .ok v) :
    ∃ r, computeUniqueStatistics metrics p t = .ok r := by
  obtain ⟨-, h2, -⟩ := uniqueStatistics_spec metrics
  unfold computeUniqueStatistics
  have : ∀ l : List (String × Statistic D S), (∀ x ∈ l, x.2 ∈ requiredStatistics metrics) →
      ∃ r, l.mapM (fun ks => match ks.2.compute p t with
        | .ok v => (.ok (ks.1, v) : Except Err (String × Vars S))
        | .error _ => .error .valueError) = .ok r := by
    intro l
    induction l with
    | nil => intro _; exact ⟨[], rfl⟩
    | cons x l ih =>
      intro hl
      obtain ⟨v, hv⟩ := h x.2 (hl x (by simp))
      obtain ⟨r, hr⟩ := ih (fun y hy => hl y (by simp [hy]))
      exact ⟨(x.1, v) :: r, by rw [List.mapM_cons, hr]; simp [hv, bind, Except.bind, pure, Except.pure]⟩
  exact this _ (fun x hx => (h2 x hx).2)

/-! ### The mean statistics -/

section mean
variable {L V : Type} [DecidableEq L] [AddCommMonoid V] [Mul V] [One V] [Div V] [IsNull V]

theorem leafVars_leaves {α : Type} (kvs : List (String × α)) :
    leafVars (Dict.ofList (kvs.map (fun p => (p.1, Tree.leaf p.2)))) = .ok kvs := by
  induction kvs with
  | nil => rfl
  | cons kv kvs ih =>
    simp only [List.map_cons, Dict.ofList, leafVars, Tree.asLeaf, ih, bind, Except.bind, pure, Except.pure]

theorem twoLevels_leaves {α : Type} (kvs : List (String × List (String × α))) :
    twoLevels (Dict.ofList (kvs.map (fun p => (p.1, Aggregator.leaves p.2)))) = .ok kvs := by
  induction kvs with
  | nil => rfl
  | cons kv kvs ih =>
    simp only [List.map_cons, Dict.ofList, twoLevels, Aggregator.leaves, leafVars_leaves, bind, Except.bind, pure,
      Except.pure]
    rw [show (Dict.ofList (kvs.map (fun p => (p.1, Tree.dict (Dict.ofList (p.2.map fun p => (p.1, Tree.leaf p.2)))))))
      = Dict.ofList (kvs.map (fun p => (p.1, Aggregator.leaves p.2))) from rfl, ih]

theorem perVar_keys (agg : Aggregator L V) : (stats : List (String × Option (StatVar L V))) →
    (r : List (String × (DA L V × DA L V))) → agg.perVar stats = .ok r → (r.map Prod.fst).Sublist (stats.map Prod.fst)
  | [], r, h => by
    simp only [Aggregator.perVar, Except.ok.injEq] at h
    subst h; simp
  | (k, none) :: stats, r, h => by
    simp only [Aggregator.perVar] at h
    exact (perVar_keys agg stats r h).cons k
  | (k, some v) :: stats, r, h => by
    simp only [Aggregator.perVar, bind, Except.bind] at h
    rcases e1 : agg.aggregateStatVar v with e | o
    · simp [e1] at h
    rcases e2 : agg.perVar stats with e | rs
    · simp [e1, e2] at h
    have ih := perVar_keys agg stats rs e2
    rcases o with _ | q
    · simp [e1, e2, pure, Except.pure] at h
      subst h
      exact ih.cons k
    · simp [e1, e2, pure, Except.pure] at h
      subst h
      simpa using ih

/-- The state and its mean statistics, as two-level dicts. -/
theorem mean_eq (agg : Aggregator L V) (stats : List (String × List (String × Option (StatVar L V))))
    (hk : UniqueKeys stats) :
    (do
      let state ← agg.aggregateStatistics stats
      let mean ← state.meanStatistics
      match mean with
        | .dict d => twoLevels d
        | _ => .error .typeError)
      = stats.mapM (fun st => do let m ← meanVars agg st.2; return (st.1, m)) := by
  have hstat : ∀ stats : List (String × List (String × Option (StatVar L V))),
      agg.perStat stats = (do
        let pss ← (stats.mapM (fun st => do let pv ← agg.perVar st.2; return (st.1, pv)) : Except Err _)
        return pss.map (fun s => (s.1, (Aggregator.leaves (s.2.map (fun p => (p.1, p.2.1))),
          Aggregator.leaves (s.2.map (fun p => (p.1, p.2.2))))))) := by
    intro stats
    induction stats with
    | nil => rfl
    | cons st stats ih =>
      obtain ⟨k, vars⟩ := st
      rw [Aggregator.perStat, Aggregator.aggregateStatVars, ih, List.mapM_cons]
      generalize (stats.mapM (fun st => do let pv ← agg.perVar st.2; return (st.1, pv)) : Except Err _) = q
      rcases agg.perVar vars with e | pv
      · rfl
      · rcases q with e | pss <;> rfl
  have hmean : (stats.mapM (fun st => do let m ← meanVars agg st.2; return (st.1, m)) : Except Err _) = (do
      let pss ← (stats.mapM (fun st => do let pv ← agg.perVar st.2; return (st.1, pv)) : Except Err _)
      return pss.map (fun s => (s.1, s.2.map (fun q => (q.1, DA.zipWith (· / ·) q.2.1 q.2.2))))) := by
    clear hk
    induction stats with
    | nil => rfl
    | cons st stats ih =>
      rw [List.mapM_cons, List.mapM_cons, ih]
      generalize (stats.mapM (fun st => do let pv ← agg.perVar st.2; return (st.1, pv)) : Except Err _) = q
      unfold meanVars
      rcases agg.perVar st.2 with e | pv
      · rfl
      · rcases q with e | pss <;> rfl
  rw [hmean]
  unfold Aggregator.aggregateStatistics
  rw [hstat]
  generalize hp : (stats.mapM (fun st => do let pv ← agg.perVar st.2; return (st.1, pv)) : Except Err _) = pp
  rcases pp with e | pss
  · rfl
  · simp only [bind, Except.bind, pure, Except.pure]
    obtain ⟨hkeys, hget⟩ := mapM_vals_get (fun vars => agg.perVar vars) stats pss hp
    have hnod : (pss.map Prod.fst).Nodup := by rw [hkeys]; exact hk.1
    -- one table of pairs
    set T : Tree (DA L V × DA L V) := .dict (Dict.ofList (pss.map (fun s => (s.1, Aggregator.leaves s.2)))) with hT
    have hTw : T.WF := by
      rw [hT]
      refine ⟨?_, ?_⟩
      · rw [Aggregator.keys_ofList, List.map_map]; exact hnod
      · rw [Aggregator.wf_ofList]
        intro kv hkv
        obtain ⟨s, hs, rfl⟩ := List.mem_map.mp hkv
        apply Aggregator.leaves_wf
        have hg : pyGet? s.1 pss = some s.2 := (pyGet?_eq_some hnod s.1 s.2).mpr hs
        rcases hst : pyGet? s.1 stats with _ | vars
        · rw [(hget s.1).2 hst] at hg; simp at hg
        · obtain ⟨y, hy, hy'⟩ := (hget s.1).1 vars hst
          rw [hg, Option.some.injEq] at hy'
          subst hy'
          exact (hk.2 _ (pyGet?_mem hst)).sublist (perVar_keys agg vars s.2 hy)
    have h1 : ∀ g : DA L V × DA L V → DA L V, Tree.dict (Dict.ofList (pss.map (fun s =>
        (s.1, Aggregator.leaves (s.2.map (fun p => (p.1, g p.2))))))) = T.map g := by
      intro g
      rw [hT, Tree.map, Aggregator.map_ofList, List.map_map]
      congr 2
      apply List.map_congr_left
      intro s _
      simp only [Function.comp]
      rw [Aggregator.leaves_map]
    have hm : AggState.meanStatistics (some (T.map (fun p => p.1), T.map (fun p => p.2)))
        = .ok (T.map (fun p => DA.zipWith (· / ·) p.1 p.2)) := by
      rw [AggState.meanStatistics]
      have hcols := Tree.mapStructure_cols (fun
        | [s, w] => .ok (DA.zipWith (· / ·) s w)
        | _ => .error Err.typeError) [true, false] (by simp)
        (T.map (fun p => fun b : Bool => if b then p.1 else p.2)) (by rw [Tree.wf_map]; exact hTw)
      simp only [List.map_cons, List.map_nil, Tree.map_map, if_true, Bool.false_eq_true, if_false] at hcols
      refine Eq.trans hcols ?_
      rw [Tree.mapE_ok, Tree.map_map]
      rfl
    have e1 := h1 (fun p => p.1)
    have e2 := h1 (fun p => p.2)
    simp only [List.map_map, Function.comp_def]
    rw [e1, e2, hm]
    rw [← h1 (fun p => DA.zipWith (· / ·) p.1 p.2)]
    have := twoLevels_leaves (pss.map (fun s => (s.1, s.2.map (fun q => (q.1, DA.zipWith (· / ·) q.2.1 q.2.2)))))
    rw [List.map_map] at this
    exact this

theorem mapM_ok_congr {α β : Type} (f g : α → Except Err β) (l : List α) (h : ∀ x ∈ l, f x = g x) :
    l.mapM f = l.mapM g := by
  induction l with
  | nil => rfl
  | cons x l ih =>
    rw [List.mapM_cons, List.mapM_cons, h x (by simp), ih (fun y hy => h y (by simp [hy]))]

theorem mapM_ok_mem {α β : Type} (f : α → Except Err β) : (l : List α) → (r : List β) → l.mapM f = .ok r →
    ∀ x ∈ l, ∃ y, f x = .ok y
  | [], _, _, x, hx => by simp at hx
  | a :: l, r, h, x, hx => by
    rw [List.mapM_cons] at h
    rcases h1 : f a with e | y
    · simp [h1, bind, Except.bind] at h
    rcases h2 : l.mapM f with e | r'
    · simp [h1, h2, bind, Except.bind] at h
    rcases List.mem_cons.mp hx with rfl | hx
    · exact ⟨y, h1⟩
    · exact mapM_ok_mem f l r' h2 x hx

theorem mapM_ok_of_mem {α β : Type} (f : α → Except Err β) (l : List α) (h : ∀ x ∈ l, ∃ y, f x = .ok y) :
    ∃ r, l.mapM f = .ok r := by
  induction l with
  | nil => exact ⟨[], rfl⟩
  | cons a l ih =>
    obtain ⟨y, hy⟩ := h a (by simp)
    obtain ⟨r, hr⟩ := ih (fun x hx => h x (by simp [hx]))
    exact ⟨y :: r, by rw [List.mapM_cons, hy, hr]; rfl⟩

theorem bind_pair_ok {α β : Type} (x : Except Err α) (f : α → Except Err β) (y : β)
    (h : (do let a ← x; f a) = .ok y) : ∃ a, x = .ok a ∧ f a = .ok y := by
  rcases x with e | a
  · simp [bind, Except.bind] at h
  · exact ⟨a, rfl, h⟩

theorem tableEq (metrics : List (String × Metric D (Option (StatVar L V)) (DA L V))) (agg : Aggregator L V)
    (p t : Vars D) (hdict : ReturnDicts metrics p t) (hid : NamesIdentify metrics p t)
    (r : List (String × Vars (Option (StatVar L V)))) (h : computeUniqueStatistics metrics p t = .ok r) :
    metricTableForSingleChunk metrics agg p t = (do
      let sv ← r.mapM (fun st => do let m ← meanVars agg st.2; return (st.1, m))
      computeMetricsFromStatistics metrics sv) := by
  obtain ⟨h1, h2, h3⟩ := computeUnique_get metrics p t hid r h
  have hk : UniqueKeys r := ⟨h1, fun st hst => by
    obtain ⟨s, hs, -, hc⟩ := h3 st hst
    exact hdict s hs _ hc⟩
  have := mean_eq agg r hk
  unfold metricTableForSingleChunk AggState.metricTable
  rw [h, ← this]
  simp only [bind, Except.bind]
  rcases agg.aggregateStatistics r with e | st
  · rfl
  · simp only
    rcases st.meanStatistics with e | mean
    · rfl
    · cases mean <;> rfl

theorem computeMetric_eq (metrics : List (String × Metric D (Option (StatVar L V)) (DA L V))) (agg : Aggregator L V)
    (p t : Vars D) (hid : NamesIdentify metrics p t)
    (r : List (String × Vars (Option (StatVar L V)))) (h : computeUniqueStatistics metrics p t = .ok r)
    (sv : List (String × Vars (DA L V)))
    (hsv : r.mapM (fun st => do let m ← meanVars agg st.2; return (st.1, m)) = .ok sv)
    (nm : String × Metric D (Option (StatVar L V)) (DA L V)) (hnm : nm ∈ metrics) :
    computeMetricFromStatistics nm.2 sv = metricAlone nm.2 agg p t := by
  obtain ⟨h1, h2, h3⟩ := computeUnique_get metrics p t hid r h
  obtain ⟨e1, e2⟩ := mapM_vals_get (fun v => meanVars agg v) r sv hsv
  unfold computeMetricFromStatistics metricAlone
  rw [mapM_ok_congr _ (fun ks : String × Statistic D (Option (StatVar L V)) => do
    let v ← ks.2.compute p t
    let mean ← meanVars agg v
    return (ks.1, mean))]
  intro ks hks
  have hreq : ks.2 ∈ requiredStatistics metrics :=
    List.mem_flatMap.mpr ⟨nm, hnm, List.mem_map_of_mem hks⟩
  obtain ⟨v, hv, hg⟩ := h2 _ hreq
  obtain ⟨y, hy, hyg⟩ := (e2 ks.2.uniqueName).1 v hg
  simp only [pyItem, hyg, hv, hy, bind, Except.bind]

/-- **C20** Metrics computed together — every unique statistic computed once and shared under its unique name — give
exactly the result of computing every metric on its own from its own statistics, for every list of metrics, every
aggregator and every chunk: one succeeds with a table iff the other does with the same table. -/
theorem C20_together_iff_alone (metrics : List (String × Metric D (Option (StatVar L V)) (DA L V))) (agg : Aggregator L V)
    (p t : Vars D) (hdict : ReturnDicts metrics p t) (hid : NamesIdentify metrics p t)
    (table : List (String × Vars (DA L V))) :
    metricTableForSingleChunk metrics agg p t = .ok table ↔
      metrics.mapM (fun nm => do let v ← metricAlone nm.2 agg p t; return (nm.1, v)) = .ok table := by
  constructor
  · intro ht
    rcases hr : computeUniqueStatistics metrics p t with e | r
    · simp [metricTableForSingleChunk, hr, bind, Except.bind] at ht
    · rw [tableEq metrics agg p t hdict hid r hr] at ht
      obtain ⟨sv, hsv, hc⟩ := bind_pair_ok _ _ _ ht
      rw [← hc]
      unfold computeMetricsFromStatistics
      apply mapM_ok_congr
      intro nm hnm
      rw [computeMetric_eq metrics agg p t hid r hr sv hsv nm hnm]
  · intro ht
    have hall : ∀ s ∈ requiredStatistics metrics, ∃ v mv, s.compute p t = .ok v ∧ meanVars agg v = .ok mv := by
      intro s hs
      obtain ⟨nm, hnm, hs⟩ := List.mem_flatMap.mp hs
      obtain ⟨ks, hks, rfl⟩ := List.mem_map.mp hs
      obtain ⟨y, hy⟩ := mapM_ok_mem _ _ _ ht nm hnm
      obtain ⟨w, hw, -⟩ := bind_pair_ok _ _ _ hy
      unfold metricAlone at hw
      obtain ⟨ms, hms, -⟩ := bind_pair_ok _ _ _ hw
      obtain ⟨z, hz⟩ := mapM_ok_mem _ _ _ hms ks hks
      obtain ⟨v, hv, hz⟩ := bind_pair_ok _ _ _ hz
      obtain ⟨mv, hmv, -⟩ := bind_pair_ok _ _ _ hz
      exact ⟨v, mv, hv, hmv⟩
    obtain ⟨r, hr⟩ := computeUnique_ok metrics p t (fun s hs => by
      obtain ⟨v, -, hv, -⟩ := hall s hs; exact ⟨v, hv⟩)
    obtain ⟨h1, h2, h3⟩ := computeUnique_get metrics p t hid r hr
    obtain ⟨sv, hsv⟩ := mapM_ok_of_mem (fun st : String × Vars (Option (StatVar L V)) => do
        let m ← meanVars agg st.2; return (st.1, m)) r (by
      intro st hst
      obtain ⟨s, hs, -, hc⟩ := h3 st hst
      obtain ⟨v, mv, hv, hmv⟩ := hall s hs
      rw [hc, Except.ok.injEq] at hv
      exact ⟨(st.1, mv), by rw [hv, hmv]; rfl⟩)
    rw [tableEq metrics agg p t hdict hid r hr, hsv, ← ht]
    show computeMetricsFromStatistics metrics sv = _
    unfold computeMetricsFromStatistics
    apply mapM_ok_congr
    intro nm hnm
    rw [computeMetric_eq metrics agg p t hid r hr sv hsv nm hnm]

/-- **C20** Adding metrics to the list never changes the value of a metric already in it: if the joint evaluation
succeeds, evaluating the single metric through the same entry point succeeds with the same value. -/
theorem C20_singleton (metrics : List (String × Metric D (Option (StatVar L V)) (DA L V))) (agg : Aggregator L V)
    (p t : Vars D) (hdict : ReturnDicts metrics p t) (hid : NamesIdentify metrics p t)
    (table : List (String × Vars (DA L V))) (h : metricTableForSingleChunk metrics agg p t = .ok table)
    (n : String) (m : Metric D (Option (StatVar L V)) (DA L V)) (hm : (n, m) ∈ metrics) :
    ∃ v, (n, v) ∈ table ∧ metricTableForSingleChunk [(n, m)] agg p t = .ok [(n, v)] := by
  have h' := (C20_together_iff_alone metrics agg p t hdict hid table).mp h
  have hsub : ∀ s ∈ requiredStatistics [(n, m)], s ∈ requiredStatistics metrics := by
    intro s hs
    simp only [requiredStatistics, List.flatMap_cons, List.flatMap_nil, List.append_nil] at hs
    exact List.mem_flatMap.mpr ⟨(n, m), hm, hs⟩
  have hmem : ∀ (l : List (String × Metric D (Option (StatVar L V)) (DA L V))) r,
      l.mapM (fun nm => do let v ← metricAlone nm.2 agg p t; return (nm.1, v)) = .ok r → (n, m) ∈ l →
      ∃ v, (n, v) ∈ r ∧ metricAlone m agg p t = .ok v := by
    intro l
    induction l with
    | nil => intro r _ hx; simp at hx
    | cons a l ih =>
      intro r hr hx
      rw [List.mapM_cons] at hr
      obtain ⟨y, hy, hr⟩ := bind_pair_ok _ _ _ hr
      obtain ⟨r', hr', hr⟩ := bind_pair_ok _ _ _ hr
      simp only [pure, Except.pure, Except.ok.injEq] at hr
      subst hr
      rcases List.mem_cons.mp hx with rfl | hx
      · obtain ⟨v, hv, hy⟩ := bind_pair_ok _ _ _ hy
        simp only [pure, Except.pure, Except.ok.injEq] at hy
        subst hy
        exact ⟨v, by simp, hv⟩
      · obtain ⟨v, hv, h2⟩ := ih r' hr' hx
        exact ⟨v, by simp [hv], h2⟩
  obtain ⟨v, hv, ha⟩ := hmem metrics table h' hm
  refine ⟨v, hv, ?_⟩
  rw [C20_together_iff_alone [(n, m)] agg p t (fun s hs => hdict s (hsub s hs))
    (fun s hs s' hs' => hid s (hsub s hs) s' (hsub s' hs'))]
  rw [List.mapM_cons, List.mapM_nil]
  simp only [ha]
  rfl

end mean

/-- **C20** Every unique statistic is computed exactly once: the computed table has one entry per distinct unique name
among the statistics the metrics require, no more and no less. -/
theorem C20_computed_once (metrics : List (String × Metric D S M)) (p t : Vars D)
    (r : List (String × Vars S)) (h : computeUniqueStatistics metrics p t = .ok r) :
    (r.map Prod.fst).Nodup ∧ (∀ k, k ∈ r.map Prod.fst ↔ ∃ m ∈ metrics, ∃ s ∈ m.2.statistics, s.2.uniqueName = k) ∧
    r.length = (uniqueStatistics metrics).length := by
  obtain ⟨h1, h2, h3⟩ := uniqueStatistics_spec metrics
  have hm : (uniqueStatistics metrics).mapM (fun x => do
      let y ← (fun s : Statistic D S => wrapErr (s.compute p t)) x.2
      return (x.1, y)) = .ok r := by
    rw [← h]
    unfold computeUniqueStatistics
    congr 1
    funext x
    rcases hx : x.2.compute p t with e | v <;> simp [hx, wrapErr, bind, Except.bind, pure, Except.pure]
  obtain ⟨e1, -⟩ := mapM_vals_get (fun s : Statistic D S => wrapErr (s.compute p t)) _ _ hm
  refine ⟨by rw [e1]; exact h1, fun k => ?_, by simpa using congrArg List.length e1⟩
  rw [e1, h3 k]
  simp only [requiredStatistics, List.mem_map, List.mem_flatMap]
  constructor
  · rintro ⟨s, ⟨m, hm, ⟨ks, hks, rfl⟩⟩, rfl⟩
    exact ⟨m, hm, ks, hks, rfl⟩
  · rintro ⟨m, hm, ks, hks, rfl⟩
    exact ⟨ks.2, ⟨m, hm, ks, hks, rfl⟩, rfl⟩

/-- **C20** A statistic that raises, whatever the exception, makes the joint computation raise `ValueError`. -/
theorem C20_failure (metrics : List (String × Metric D S M)) (p t : Vars D) (hid : NamesIdentify metrics p t)
    (s : Statistic D S) (hs : s ∈ requiredStatistics metrics) (e : Err) (he : s.compute p t = .error e) :
    computeUniqueStatistics metrics p t = .error .valueError := by
  rcases h : computeUniqueStatistics metrics p t with e' | r
  · unfold computeUniqueStatistics at h
    have : ∀ l : List (String × Statistic D S), l.mapM (fun ks => match ks.2.compute p t with
        | .ok v => (.ok (ks.1, v) : Except Err (String × Vars S))
        | .error _ => .error .valueError) = .error e' → e' = .valueError := by
      intro l
      induction l with
      | nil => intro h; simp [pure, Except.pure] at h
      | cons x l ih =>
        intro h
        rw [List.mapM_cons] at h
        rcases hx : x.2.compute p t with e2 | v
        · simp [hx, bind, Except.bind] at h; exact h.symm
        · rcases hl : l.mapM (fun ks => match ks.2.compute p t with
            | .ok v => (.ok (ks.1, v) : Except Err (String × Vars S))
            | .error _ => .error .valueError) with e3 | r'
          · rw [hl] at h
            simp [hx, bind, Except.bind] at h
            subst h
            exact ih hl
          · rw [hl] at h
            simp [hx, bind, Except.bind, pure, Except.pure] at h
    rw [this _ h]
  · obtain ⟨-, h2, -⟩ := computeUnique_get metrics p t hid r h
    obtain ⟨v, hv, -⟩ := h2 s hs
    rw [he] at hv
    simp at hv

/-- **C20** (finding) Without the proviso the last statistic silently wins: for two metrics whose statistics share a
unique name but compute different values, the first metric receives the second one's statistic. -/
theorem C20_name_collision (n1 n2 k1 k2 : String) (s1 s2 : Statistic D S) (f1 f2 : List (String × Vars M) → Except Err (Vars M))
    (hname : s1.uniqueName = s2.uniqueName) (p t : Vars D) (v2 : Vars S) (h2 : s2.compute p t = .ok v2) :
    computeUniqueStatistics [(n1, (⟨[(k1, s1)], f1⟩ : Metric D S M)), (n2, ⟨[(k2, s2)], f2⟩)] p t
      = .ok [(s1.uniqueName, v2)] := by
  simp [computeUniqueStatistics, uniqueStatistics, pyInsert, hname, h2, bind, Except.bind, pure, Except.pure]

/-! ### The names of the result -/

theorem name_inj {a b : List Char} {x y : List Char} (ha : '.' ∉ a) (hb : '.' ∉ b) (h : a ++ '.' :: x = b ++ '.' :: y) :
    a = b ∧ x = y := by
  induction a generalizing b with
  | nil =>
    cases b with
    | nil => simpa using h
    | cons c b =>
      simp only [List.nil_append, List.cons_append, List.cons.injEq] at h
      exact absurd (h.1 ▸ List.mem_cons_self) hb
  | cons c a ih =>
    cases b with
    | nil =>
      simp only [List.nil_append, List.cons_append, List.cons.injEq] at h
      exact absurd (h.1 ▸ List.mem_cons_self) ha
    | cons d b =>
      simp only [List.cons_append, List.cons.injEq] at h
      obtain ⟨h1, h2⟩ := ih (by simp at ha; exact ha.2) (b := b) (by simp at hb; exact hb.2) h.2
      exact ⟨by rw [h.1, h1], h2⟩

theorem foldl_insert_get {α : Type} (l : List (String × α)) : (d : List (String × α)) → (k : String) → (x : α) →
    (l.map Prod.fst).Nodup → (k, x) ∈ l → pyGet? k (l.foldl (fun d ka => pyInsert ka.1 ka.2 d) d) = some x := by
  have hkeep : ∀ (l : List (String × α)) (d : List (String × α)) (k : String), k ∉ l.map Prod.fst →
      pyGet? k (l.foldl (fun d ka => pyInsert ka.1 ka.2 d) d) = pyGet? k d := by
    intro l
    induction l with
    | nil => intro d k _; rfl
    | cons a l ih =>
      intro d k hk
      simp only [List.map_cons, List.mem_cons, not_or] at hk
      rw [List.foldl_cons, ih _ _ hk.2, pyGet?_insert, if_neg (fun h => hk.1 h.symm)]
  induction l with
  | nil => intro d k x _ h; simp at h
  | cons a l ih =>
    intro d k x hn h
    simp only [List.map_cons, List.nodup_cons] at hn
    rw [List.foldl_cons]
    rcases List.mem_cons.mp h with rfl | h
    · rw [hkeep l _ _ hn.1, pyGet?_insert, if_pos rfl]
    · exact ih _ k x hn.2 h

/-- **C20** The dataset of metric values has an entry `<metric>.<variable>` with that metric's value for that variable,
for every metric and variable, provided the metrics and each metric's variables have distinct names and no metric name
contains a dot (variable names may). -/
theorem C20_result_names {α : Type} (table : List (String × Vars α)) (hm : (table.map Prod.fst).Nodup)
    (hv : ∀ mv ∈ table, (mv.2.map Prod.fst).Nodup) (hdot : ∀ mv ∈ table, '.' ∉ mv.1.toList)
    (n v : String) (vars : Vars α) (x : α) (h1 : (n, vars) ∈ table) (h2 : (v, x) ∈ vars) :
    pyGet? (n ++ "." ++ v) (metricDataset table) = some x := by
  unfold metricDataset
  apply foldl_insert_get
  · rw [List.map_flatMap]
    simp only [List.map_map]
    have hinj : ∀ a ∈ table, ∀ b ∈ table, ∀ w1 w2 : String, a.1 ++ "." ++ w1 = b.1 ++ "." ++ w2 → a.1 = b.1 ∧ w1 = w2 := by
      intro a ha b hb w1 w2 h
      have := congrArg String.toList h
      simp only [String.toList_append, List.append_assoc] at this
      obtain ⟨e1, e2⟩ := name_inj (hdot a ha) (hdot b hb) this
      exact ⟨String.toList_inj.mp e1, String.toList_inj.mp e2⟩
    clear h1 hdot
    induction table with
    | nil => simp
    | cons a table ih =>
      rw [List.flatMap_cons]
      simp only [List.map_cons, List.nodup_cons] at hm
      refine List.nodup_append.mpr ⟨?_, ih hm.2 (fun mv h => hv mv (by simp [h]))
        (fun b hb c hc => hinj b (by simp [hb]) c (by simp [hc])), ?_⟩
      · have := hv a (by simp)
        have h3 : ∀ l : List (String × α), (l.map Prod.fst).Nodup →
            (l.map (Prod.fst ∘ fun va => (a.1 ++ "." ++ va.1, va.2))).Nodup := by
          intro l
          induction l with
          | nil => simp
          | cons w l ihl =>
            intro hl
            simp only [List.map_cons, List.nodup_cons] at hl ⊢
            refine ⟨?_, ihl hl.2⟩
            intro hin
            obtain ⟨w', hw', he⟩ := List.mem_map.mp hin
            obtain ⟨-, he⟩ := hinj a (by simp) a (by simp) _ _ he
            exact hl.1 (he ▸ List.mem_map_of_mem hw')
        exact h3 _ this
      · intro y hy z hz he
        obtain ⟨w, hw, rfl⟩ := List.mem_map.mp hy
        obtain ⟨b, hb, hz⟩ := List.mem_flatMap.mp hz
        obtain ⟨w', hw', rfl⟩ := List.mem_map.mp hz
        obtain ⟨he, -⟩ := hinj a (by simp) b (by simp [hb]) _ _ he
        exact hm.1 (he ▸ List.mem_map_of_mem hb)
  · exact List.mem_flatMap.mpr ⟨(n, vars), h1, List.mem_map.mpr ⟨(v, x), h2, rfl⟩⟩

/-- **C20** (finding) With a dot in a metric name two different metric values can get the same name, and only the last
survives in the result. -/
theorem C20_result_name_collision :
    metricDataset [("rmse", [("a.b", 1)]), ("rmse.a", [("b", (2 : Nat))])] = [("rmse.a.b", 2)] := by
  simp [metricDataset, pyInsert]

/-! ### C21 -/

/-- **C21** A per-variable statistic returns a value for exactly the variables present in both predictions and targets
whose per-variable computation is not `None`, computed from that variable of the predictions and of the targets. -/
theorem C21_statistic (name : String) (f : D → D → Except Err (Option S)) (p t : Vars D) (hp : (p.map Prod.fst).Nodup)
    (ht : (t.map Prod.fst).Nodup) (r : Vars S) (h : (perVariableStatistic name f).compute p t = .ok r) :
    (r.map Prod.fst).Nodup ∧
    ∀ v x, (v, x) ∈ r ↔ ∃ a b, (v, a) ∈ p ∧ (v, b) ∈ t ∧ f a b = .ok (some x) := by
  have key : ∀ (p : Vars D) (r : Vars S), perVariableLoop f t p = .ok r →
      (r.map Prod.fst).Sublist (p.map Prod.fst) ∧
      ∀ v x, (v, x) ∈ r ↔ ∃ a b, (v, a) ∈ p ∧ (v, b) ∈ t ∧ f a b = .ok (some x) := by
    intro p
    induction p with
    | nil => intro r h; simp [perVariableLoop] at h; subst h; simp
    | cons va p ih =>
      obtain ⟨w, a⟩ := va
      intro r h
      rw [perVariableLoop] at h
      rcases hg : pyGet? w t with _ | b
      · rw [hg] at h
        obtain ⟨h1, h2⟩ := ih r h
        refine ⟨by simpa using h1.cons w, fun v x => ?_⟩
        rw [h2]
        constructor
        · rintro ⟨a', b', h3, h4, h5⟩; exact ⟨a', b', by simp [h3], h4, h5⟩
        · rintro ⟨a', b', h3, h4, h5⟩
          rcases List.mem_cons.mp h3 with h3 | h3
          · rw [Prod.mk.injEq] at h3
            rw [pyGet?_none_iff] at hg
            exact absurd (h3.1 ▸ List.mem_map_of_mem h4) hg
          · exact ⟨a', b', h3, h4, h5⟩
      · rw [hg] at h
        simp only at h
        have hb := pyGet?_mem hg
        have huniq : ∀ b', (w, b') ∈ t → b' = b := by
          intro b' hb'
          rw [(pyGet?_eq_some ht w b').mpr hb', Option.some.injEq] at hg
          exact hg
        rcases hf : f a b with e | o
        · simp [hf, bind, Except.bind] at h
        rcases hl : perVariableLoop f t p with e | rs
        · simp [hf, hl, bind, Except.bind] at h
        obtain ⟨h1, h2⟩ := ih rs hl
        rcases o with _ | y
        · simp only [hf, hl, bind, Except.bind, pure, Except.pure, Except.ok.injEq] at h
          subst h
          refine ⟨by simpa using h1.cons w, fun v x => ?_⟩
          rw [h2]
          constructor
          · rintro ⟨a', b', h3, h4, h5⟩; exact ⟨a', b', by simp [h3], h4, h5⟩
          · rintro ⟨a', b', h3, h4, h5⟩
            rcases List.mem_cons.mp h3 with h3 | h3
            · rw [Prod.mk.injEq] at h3
              obtain ⟨rfl, rfl⟩ := h3
              rw [huniq b' h4, hf] at h5
              simp at h5
            · exact ⟨a', b', h3, h4, h5⟩
        · simp only [hf, hl, bind, Except.bind, pure, Except.pure, Except.ok.injEq] at h
          subst h
          refine ⟨by simpa using h1, fun v x => ?_⟩
          rw [List.mem_cons, h2]
          constructor
          · rintro (h3 | ⟨a', b', h3, h4, h5⟩)
            · rw [Prod.mk.injEq] at h3
              obtain ⟨rfl, rfl⟩ := h3
              exact ⟨a, b, by simp, hb, hf⟩
            · exact ⟨a', b', by simp [h3], h4, h5⟩
          · rintro ⟨a', b', h3, h4, h5⟩
            rcases List.mem_cons.mp h3 with h3 | h3
            · rw [Prod.mk.injEq] at h3
              obtain ⟨rfl, rfl⟩ := h3
              rw [huniq b' h4, hf, Except.ok.injEq, Option.some.injEq] at h5
              left; rw [h5]
            · right; exact ⟨a', b', h3, h4, h5⟩
  obtain ⟨h1, h2⟩ := key p r h
  exact ⟨hp.sublist h1, h2⟩

theorem stats_present {sv : List (String × Vars M)} (hsv : (sv.map Prod.fst).Nodup) {names : List String}
    {vs : List (Vars M)} (h : List.Forall₂ (fun n w => (n, w) ∈ sv) names vs) (v : String) :
    (∀ w ∈ vs, v ∈ w.map Prod.fst) ↔ ∀ n ∈ names, ∃ vars, (n, vars) ∈ sv ∧ v ∈ vars.map Prod.fst := by
  induction h with
  | nil => simp
  | @cons n w ns ws hnw _ ih =>
    rw [List.forall_mem_cons, List.forall_mem_cons, ih]
    constructor
    · rintro ⟨h1, h2⟩; exact ⟨⟨w, hnw, h1⟩, h2⟩
    · rintro ⟨⟨w', h1, h1'⟩, h2⟩
      have e1 := (pyGet?_eq_some hsv n w).mpr hnw
      have e2 := (pyGet?_eq_some hsv n w').mpr h1
      rw [e1, Option.some.injEq] at e2
      exact ⟨e2 ▸ h1', h2⟩

theorem pyItem_mem {β : Type} {d : List (String × β)} {k : String} {x : β} (h : pyItem d k = .ok x) : (k, x) ∈ d := by
  unfold pyItem at h
  rcases hg : pyGet? k d with _ | w'
  · rw [hg] at h; simp at h
  · rw [hg] at h
    simp only [Except.ok.injEq] at h
    exact h ▸ pyGet?_mem hg

theorem statsAt_lookup (sv : List (String × Vars M)) (names : List String) (v : String) (xs : List (String × M))
    (hxs : names.mapM (fun s => do
      let m ← pyItem sv s
      let x ← pyItem m v
      return (s, x)) = .ok xs) : StatsAt sv names v xs := by
  induction names generalizing xs with
  | nil => simp [pure, Except.pure] at hxs; subst hxs; exact .nil
  | cons n ns ihn =>
    rw [List.mapM_cons] at hxs
    obtain ⟨z, hz, hxs⟩ := bind_pair_ok _ _ _ hxs
    obtain ⟨zs, hzs, hxs⟩ := bind_pair_ok _ _ _ hxs
    simp only [pure, Except.pure, Except.ok.injEq] at hxs
    subst hxs
    refine .cons ?_ (ihn _ hzs)
    obtain ⟨m, hm, hz⟩ := bind_pair_ok _ _ _ hz
    obtain ⟨y, hy, hz⟩ := bind_pair_ok _ _ _ hz
    simp only [pure, Except.pure, Except.ok.injEq] at hz
    subst hz
    exact ⟨rfl, m, pyItem_mem hm, pyItem_mem hy⟩

/-- **C21** A per-variable metric returns values for exactly the variables present in all of its statistics, each the
metric's formula applied to that variable's mean statistics under the metric's own statistic names. -/
theorem C21_metric (statistics : List (String × Statistic D S)) (g : List (String × M) → Except Err M)
    (sv : List (String × Vars M)) (hsv : (sv.map Prod.fst).Nodup) (hvars : ∀ x ∈ sv, (x.2.map Prod.fst).Nodup)
    (r : Vars M) (h : (perVariableMetric statistics g).valuesFromMeanStatistics sv = .ok r) :
    (r.map Prod.fst).Nodup ∧
    (∀ v, v ∈ r.map Prod.fst ↔ ∀ n ∈ statistics.map Prod.fst, ∃ vars, (n, vars) ∈ sv ∧ v ∈ vars.map Prod.fst) ∧
    (∀ v x, (v, x) ∈ r → ∃ xs, StatsAt sv (statistics.map Prod.fst) v xs ∧ g xs = .ok x) := by
  set names := statistics.map Prod.fst with hnames
  change perVariableValues names g sv = .ok r at h
  unfold perVariableValues at h
  obtain ⟨vs, hvs, h⟩ := bind_pair_ok _ _ _ h
  obtain ⟨common, hcommon, h⟩ := bind_pair_ok _ _ _ h
  -- the looked up statistics
  have hF : ∀ (ns : List String) (ws : List (Vars M)), ns.mapM (pyItem sv) = .ok ws →
      List.Forall₂ (fun n w => (n, w) ∈ sv) ns ws := by
    intro ns
    induction ns with
    | nil => intro ws hw; simp [pure, Except.pure] at hw; subst hw; exact .nil
    | cons n ns ih =>
      intro ws hw
      rw [List.mapM_cons] at hw
      obtain ⟨w, hw1, hw⟩ := bind_pair_ok _ _ _ hw
      obtain ⟨ws', hw2, hw⟩ := bind_pair_ok _ _ _ hw
      simp only [pure, Except.pure, Except.ok.injEq] at hw
      subst hw
      refine .cons ?_ (ih _ hw2)
      unfold pyItem at hw1
      rcases hg : pyGet? n sv with _ | w'
      · rw [hg] at hw1; simp at hw1
      · rw [hg] at hw1
        simp only [Except.ok.injEq] at hw1
        subst hw1
        exact pyGet?_mem hg
  have hvF := hF _ _ hvs
  have hiff : ∀ v, (∀ w ∈ vs, v ∈ w.map Prod.fst) ↔ ∀ n ∈ names, ∃ vars, (n, vars) ∈ sv ∧ v ∈ vars.map Prod.fst := by
    intro v
    exact stats_present hsv hvF v
  have hc : common.Nodup ∧ ∀ v, v ∈ common ↔ ∀ w ∈ vs, v ∈ w.map Prod.fst := by
    rcases vs with _ | ⟨w, ws⟩
    · simp [commonVariables] at hcommon
    · simp only [commonVariables, Except.ok.injEq] at hcommon
      subst hcommon
      rcases hn : names with _ | ⟨n, ns⟩
      · rw [hn] at hvF; cases hvF
      · rw [hn] at hvF
        cases hvF with
        | cons hnw _ =>
          refine ⟨(hvars _ hnw).filter _, fun v => ?_⟩
          rw [List.mem_filter, List.forall_mem_cons]
          simp
  have hr : ∀ (cs : List String) (r : Vars M), cs.mapM (fun v => do
      let perVar ← names.mapM (fun s => do
        let m ← pyItem sv s
        let x ← pyItem m v
        return (s, x))
      let x ← g perVar
      return (v, x)) = .ok r → r.map Prod.fst = cs ∧
      ∀ v x, (v, x) ∈ r → ∃ xs, StatsAt sv names v xs ∧ g xs = .ok x := by
    intro cs
    induction cs with
    | nil => intro r h; simp [pure, Except.pure] at h; subst h; simp
    | cons c cs ih =>
      intro r h
      rw [List.mapM_cons] at h
      obtain ⟨y, hy, h⟩ := bind_pair_ok _ _ _ h
      obtain ⟨r', hr', h⟩ := bind_pair_ok _ _ _ h
      simp only [pure, Except.pure, Except.ok.injEq] at h
      subst h
      obtain ⟨h1, h2⟩ := ih _ hr'
      obtain ⟨xs, hxs, hy⟩ := bind_pair_ok _ _ _ hy
      obtain ⟨x, hx, hy⟩ := bind_pair_ok _ _ _ hy
      simp only [pure, Except.pure, Except.ok.injEq] at hy
      subst hy
      refine ⟨by simp [h1], fun v x' hm => ?_⟩
      rcases List.mem_cons.mp hm with hm | hm
      · rw [Prod.mk.injEq] at hm
        obtain ⟨rfl, rfl⟩ := hm
        refine ⟨xs, ?_, hx⟩
        exact statsAt_lookup sv names v xs hxs
      · exact h2 v x' hm
  obtain ⟨h1, h2⟩ := hr _ _ h
  refine ⟨h1 ▸ hc.1, fun v => ?_, h2⟩
  rw [h1, hc.2, hiff]

/-- **C21** (finding) A per-variable metric without statistics raises `TypeError` (`set.intersection()` of nothing). -/
theorem C21_no_statistics (g : List (String × M) → Except Err M) (sv : List (String × Vars M)) :
    (perVariableMetric ([] : List (String × Statistic D S)) g).valuesFromMeanStatistics sv = .error .typeError := by
  rfl

/-! ### Non-vacuity -/

section example_
/-- Errors of integers. -/
private def exErr : Statistic Int Int := perVariableStatistic "Error" (fun p t => .ok (if t = 0 then none else some (p - t)))

example : exErr.compute [("t2m", 3), ("u", 4), ("z", 1)] [("z", 0), ("t2m", 1)] = .ok [("t2m", 2)] := by decide

private def exMetric : Metric Int Int Int :=
  perVariableMetric [("e", exErr), ("f", exErr)] (fun xs => .ok ((xs.map Prod.snd).sum))

example : exMetric.valuesFromMeanStatistics [("e", [("a", 1), ("b", 2)]), ("f", [("b", 5), ("c", 6)])] = .ok [("b", 7)] := by
  decide

/-- Two metrics sharing one statistic: it is computed once. -/
example : (computeUniqueStatistics [("m", exMetric), ("n", exErr.toMetric)] [("t2m", 3)] [("t2m", 1)])
    = .ok [("Error", [("t2m", 2)])] := by
  decide

/-- The hypotheses of the theorems above hold for that pair of metrics. -/
example : NamesIdentify [("m", exMetric), ("n", exErr.toMetric)] [("t2m", 3)] [("t2m", 1)] ∧
    ReturnDicts [("m", exMetric), ("n", exErr.toMetric)] [("t2m", 3)] [("t2m", 1)] := by
  refine ⟨fun s hs s' hs' _ => ?_, fun s hs r hr => ?_⟩
  · simp [requiredStatistics, exMetric, perVariableMetric, Statistic.toMetric] at hs hs'
    rw [hs, hs']
  · simp [requiredStatistics, exMetric, perVariableMetric, Statistic.toMetric] at hs
    subst hs
    have : exErr.compute [("t2m", 3)] [("t2m", 1)] = .ok [("t2m", 2)] := by decide
    rw [this, Except.ok.injEq] at hr
    subst hr
    decide

end example_

/-- **C21** When every per-variable computation succeeds so does the metric: missing variables are dropped silently. -/
theorem C21_metric_total (statistics : List (String × Statistic D S)) (hne : statistics ≠ [])
    (g : List (String × M) → Except Err M) (sv : List (String × Vars M))
    (hall : ∀ n ∈ statistics.map Prod.fst, n ∈ sv.map Prod.fst) (hg : ∀ xs, ∃ x, g xs = .ok x) :
    ∃ r, (perVariableMetric statistics g).valuesFromMeanStatistics sv = .ok r := by
  have hlook : ∀ {β : Type} (d : List (String × β)) k, k ∈ d.map Prod.fst → ∃ x, pyItem d k = .ok x := by
    intro β d k hk
    unfold pyItem
    rcases hgk : pyGet? k d with _ | x
    · rw [pyGet?_none_iff] at hgk; exact absurd hk hgk
    · exact ⟨x, rfl⟩
  obtain ⟨vs, hvs⟩ := mapM_ok_of_mem (pyItem sv) (statistics.map Prod.fst) (fun n hn => hlook sv n (hall n hn))
  show ∃ r, perVariableValues (statistics.map Prod.fst) g sv = .ok r
  unfold perVariableValues
  rw [hvs]
  rcases vs with _ | ⟨w, ws⟩
  · rcases statistics with _ | ⟨a, l⟩
    · exact absurd rfl hne
    · rw [List.map_cons, List.mapM_cons] at hvs
      obtain ⟨w, _, hvs⟩ := bind_pair_ok _ _ _ hvs
      obtain ⟨ws, _, hvs⟩ := bind_pair_ok _ _ _ hvs
      simp [pure, Except.pure] at hvs
  · have hmem : ∀ (names : List String) (vs : List (Vars M)), names.mapM (pyItem sv) = .ok vs →
        ∀ n ∈ names, ∃ u ∈ vs, pyItem sv n = .ok u := by
      intro names
      induction names with
      | nil => intro vs _ n hn; simp at hn
      | cons a l ih =>
        intro vs h n hn
        rw [List.mapM_cons] at h
        obtain ⟨u, hu, h⟩ := bind_pair_ok _ _ _ h
        obtain ⟨us, hus, h⟩ := bind_pair_ok _ _ _ h
        simp only [pure, Except.pure, Except.ok.injEq] at h
        subst h
        rcases List.mem_cons.mp hn with rfl | hn
        · exact ⟨u, by simp, hu⟩
        · obtain ⟨x, hx, hx'⟩ := ih us hus n hn
          exact ⟨x, by simp [hx], hx'⟩
    have hm := hmem _ _ hvs
    simp only [commonVariables]
    refine mapM_ok_of_mem _ ((w.map Prod.fst).filter (fun k => ws.all (fun w => k ∈ w.map Prod.fst))) ?_
    intro v hv
    rw [List.mem_filter] at hv
    have hv' : ∀ u ∈ w :: ws, v ∈ u.map Prod.fst := by
      rw [List.forall_mem_cons]
      exact ⟨hv.1, by simpa using hv.2⟩
    obtain ⟨pv, hpv⟩ := mapM_ok_of_mem (fun s => (do
        let m ← pyItem sv s
        let x ← pyItem m v
        return (s, x) : Except Err (String × M))) (statistics.map Prod.fst) (by
      intro n hn
      obtain ⟨u, hu, hu'⟩ := hm n hn
      obtain ⟨x, hx⟩ := hlook u v (hv' u hu)
      exact ⟨(n, x), by rw [hu']; show (do let x ← pyItem u v; return (n, x)) = _; rw [hx]; rfl⟩)
    obtain ⟨x, hx⟩ := hg pv
    exact ⟨(v, x), by rw [hpv]; show (do let x ← g pv; return (v, x)) = _; rw [hx]; rfl⟩

end WBX
