import Verif.Lemmas.TimeChunks
import Verif.Lemmas.Evaluated

/-!
# What a metric value is: the metric's formula applied to the means of the statistics of that variable
-/

set_option linter.unusedSectionVars false

namespace WBX
open DA Aggregator
variable {D L V : Type} [DecidableEq L] [AddCommMonoid V] [Mul V] [One V] [Div V] [IsNull V]

/-- `x` is the value of metric `m` for variable `v` on this chunk. -/
def ValueOf (m : Metric D (Option (StatVar L V)) (DA L V)) (agg : Aggregator L V) (p t : Vars D) (v : String)
    (x : DA L V) : Prop := ∃ r, metricAlone m agg p t = .ok r ∧ (v, x) ∈ r

/-- `y` is the mean of statistic `st` for variable `v`. -/
def IsMeanOf (agg : Aggregator L V) (p t : Vars D) (v : String) (st : Statistic D (Option (StatVar L V)))
    (y : DA L V) : Prop :=
  ∃ vars s q, st.compute p t = .ok vars ∧ (v, some s) ∈ vars ∧ agg.aggregateStatVar s = .ok (some q) ∧
    y = DA.zipWith (· / ·) q.1 q.2

theorem perVar_mem {agg : Aggregator L V} : (vars : List (String × Option (StatVar L V))) → (r : List (String × (DA L V × DA L V))) →
    agg.perVar vars = .ok r → ∀ k q, (k, q) ∈ r → ∃ s, (k, some s) ∈ vars ∧ agg.aggregateStatVar s = .ok (some q)
  | [], r, h, k, q, hq => by
    simp only [perVar, Except.ok.injEq] at h
    subst h; simp at hq
  | (k', none) :: vars, r, h, k, q, hq => by
    simp only [perVar] at h
    obtain ⟨s, h1, h2⟩ := perVar_mem vars r h k q hq
    exact ⟨s, by simp [h1], h2⟩
  | (k', some s') :: vars, r, h, k, q, hq => by
    simp only [perVar, bind, Except.bind] at h
    rcases e1 : agg.aggregateStatVar s' with e | o
    · simp [e1] at h
    rcases e2 : agg.perVar vars with e | rs
    · simp [e1, e2] at h
    rcases o with _ | q'
    · simp [e1, e2, pure, Except.pure] at h
      subst h
      obtain ⟨s, h1, h2⟩ := perVar_mem vars rs e2 k q hq
      exact ⟨s, by simp [h1], h2⟩
    · simp [e1, e2, pure, Except.pure] at h
      subst h
      rcases List.mem_cons.mp hq with hq | hq
      · rw [Prod.mk.injEq] at hq
        obtain ⟨rfl, rfl⟩ := hq
        exact ⟨s', by simp, e1⟩
      · obtain ⟨s, h1, h2⟩ := perVar_mem vars rs e2 k q hq
        exact ⟨s, by simp [h1], h2⟩

theorem meanVars_mem {agg : Aggregator L V} {vars : List (String × Option (StatVar L V))} {ms : Vars (DA L V)}
    (h : meanVars agg vars = .ok ms) {v : String} {y : DA L V} (hy : (v, y) ∈ ms) :
    ∃ s q, (v, some s) ∈ vars ∧ agg.aggregateStatVar s = .ok (some q) ∧ y = DA.zipWith (· / ·) q.1 q.2 := by
  unfold meanVars at h
  obtain ⟨r, hr, h⟩ := bind_pair_ok _ _ _ h
  simp only [pure, Except.pure, Except.ok.injEq] at h
  subst h
  obtain ⟨⟨k, q⟩, hq, he⟩ := List.mem_map.mp hy
  rw [Prod.mk.injEq] at he
  obtain ⟨rfl, rfl⟩ := he
  obtain ⟨s, h1, h2⟩ := perVar_mem vars r hr _ _ hq
  exact ⟨s, q, h1, h2, rfl⟩

/-- The means collected by `metricAlone`. -/
theorem means_forall (agg : Aggregator L V) (p t : Vars D) :
    (stats : List (String × Statistic D (Option (StatVar L V)))) → (means : List (String × Vars (DA L V))) →
    stats.mapM (fun ks => do
      let v ← ks.2.compute p t
      let mean ← meanVars agg v
      return (ks.1, mean)) = .ok means →
    List.Forall₂ (fun ks m => m.1 = ks.1 ∧ ∃ vars, ks.2.compute p t = .ok vars ∧ meanVars agg vars = .ok m.2) stats means
  | [], means, h => by
    simp only [List.mapM_nil, pure, Except.pure, Except.ok.injEq] at h
    subst h; exact .nil
  | ks :: stats, means, h => by
    rw [List.mapM_cons] at h
    obtain ⟨y, hy, h⟩ := bind_pair_ok _ _ _ h
    obtain ⟨ys, hys, h⟩ := bind_pair_ok _ _ _ h
    simp only [pure, Except.pure, Except.ok.injEq] at h
    subst h
    refine .cons ?_ (means_forall agg p t stats ys hys)
    obtain ⟨vars, hv, hy⟩ := bind_pair_ok _ _ _ hy
    obtain ⟨m, hm, hy⟩ := bind_pair_ok _ _ _ hy
    simp only [pure, Except.pure, Except.ok.injEq] at hy
    subst hy
    exact ⟨rfl, vars, hv, hm⟩

/-- `PerVariableMetric`: the value is the formula applied to the means. -/
theorem valueOf_perVariable {stats : List (String × Statistic D (Option (StatVar L V)))} (hn : (stats.map Prod.fst).Nodup)
    {g : List (String × DA L V) → Except Err (DA L V)} {agg : Aggregator L V} {p t : Vars D} {v : String} {x : DA L V}
    (h : ValueOf (perVariableMetric stats g) agg p t v x) :
    ∃ ys, List.Forall₂ (fun ks y => y.1 = ks.1 ∧ IsMeanOf agg p t v ks.2 y.2) stats ys ∧ g ys = .ok x := by
  obtain ⟨r, hr, hx⟩ := h
  unfold metricAlone at hr
  obtain ⟨means, hmeans, hr⟩ := bind_pair_ok _ _ _ hr
  have hF := means_forall agg p t stats means hmeans
  have hkeys : means.map Prod.fst = stats.map Prod.fst := by
    have : ∀ (a : List (String × Statistic D (Option (StatVar L V)))) (b : List (String × Vars (DA L V))),
        List.Forall₂ (fun ks m => m.1 = ks.1 ∧ ∃ vars, ks.2.compute p t = .ok vars ∧ meanVars agg vars = .ok m.2) a b →
        b.map Prod.fst = a.map Prod.fst := by
      intro a b h
      induction h with
      | nil => rfl
      | cons h _ ih => simp [h.1, ih]
    exact this _ _ hF
  change perVariableValues (stats.map Prod.fst) g means = .ok r at hr
  unfold perVariableValues at hr
  obtain ⟨vs, -, hr⟩ := bind_pair_ok _ _ _ hr
  obtain ⟨common, -, hr⟩ := bind_pair_ok _ _ _ hr
  -- the entry of `v`
  have hentry : ∀ (cs : List String) (r : Vars (DA L V)), cs.mapM (fun v => do
      let perVar ← (stats.map Prod.fst).mapM (fun s => do
        let m ← pyItem means s
        let x ← pyItem m v
        return (s, x))
      let x ← g perVar
      return (v, x)) = .ok r → (v, x) ∈ r → ∃ ys, StatsAt means (stats.map Prod.fst) v ys ∧ g ys = .ok x := by
    intro cs
    induction cs with
    | nil =>
      intro r h hx
      simp only [List.mapM_nil, pure, Except.pure, Except.ok.injEq] at h
      subst h; simp at hx
    | cons c cs ih =>
      intro r h hx
      rw [List.mapM_cons] at h
      obtain ⟨y, hy, h⟩ := bind_pair_ok _ _ _ h
      obtain ⟨r', hr', h⟩ := bind_pair_ok _ _ _ h
      simp only [pure, Except.pure, Except.ok.injEq] at h
      subst h
      rcases List.mem_cons.mp hx with hx | hx
      · obtain ⟨ys, hys, hy⟩ := bind_pair_ok _ _ _ hy
        obtain ⟨z, hz, hy⟩ := bind_pair_ok _ _ _ hy
        simp only [pure, Except.pure, Except.ok.injEq] at hy
        subst hy
        rw [Prod.mk.injEq] at hx
        obtain ⟨rfl, rfl⟩ := hx
        exact ⟨ys, statsAt_lookup _ _ _ _ hys, hz⟩
      · exact ih r' hr' hx
  obtain ⟨ys, hys, hg⟩ := hentry common r hr hx
  refine ⟨ys, ?_, hg⟩
  -- combine the two lists position by position
  have hnm : (means.map Prod.fst).Nodup := by rw [hkeys]; exact hn
  have hlook : ∀ ks ∈ stats, ∃ m, (ks.1, m) ∈ means ∧ ∃ vars, ks.2.compute p t = .ok vars ∧ meanVars agg vars = .ok m := by
    intro ks hks
    obtain ⟨i, hi, rfl⟩ := List.getElem_of_mem hks
    have hl := hF.length_eq
    have := hF.get (i := i) hi (hl ▸ hi)
    simp only [List.get_eq_getElem] at this
    obtain ⟨e1, vars, e2, e3⟩ := this
    refine ⟨(means[i]'(hl ▸ hi)).2, ?_, vars, e2, e3⟩
    have : (stats[i].1, (means[i]'(hl ▸ hi)).2) = means[i]'(hl ▸ hi) := by rw [← e1]
    rw [this]
    exact List.getElem_mem _
  unfold StatsAt at hys
  rw [List.forall₂_map_left_iff] at hys
  have hmem : ∀ l : List (String × Statistic D (Option (StatVar L V))), (∀ ks ∈ l, ks ∈ stats) → ∀ ys : List (String × DA L V),
      List.Forall₂ (fun ks y => y.1 = ks.1 ∧ ∃ vars, (ks.1, vars) ∈ means ∧ (v, y.2) ∈ vars) l ys →
      List.Forall₂ (fun ks y => y.1 = ks.1 ∧ IsMeanOf agg p t v ks.2 y.2) l ys := by
    intro l hl ys h
    induction h with
    | nil => exact .nil
    | @cons ks y l ys hky _ ih =>
      refine .cons ⟨hky.1, ?_⟩ (ih (fun k hk => hl k (by simp [hk])))
      obtain ⟨vars, h1, h2⟩ := hky.2
      obtain ⟨m, h3, vs, h4, h5⟩ := hlook ks (hl ks (by simp))
      have e1 := (pyGet?_eq_some hnm ks.1 vars).mpr h1
      have e2 := (pyGet?_eq_some hnm ks.1 m).mpr h3
      rw [e1, Option.some.injEq] at e2
      subst e2
      obtain ⟨s, q, g1, g2, g3⟩ := meanVars_mem h5 h2
      exact ⟨vs, s, q, h4, g1, g2, g3⟩
  exact hmem stats (fun _ h => h) ys hys

/-- A statistic used as metric: its value is its mean. -/
theorem valueOf_statistic {st : Statistic D (Option (StatVar L V))} {agg : Aggregator L V} {p t : Vars D} {v : String}
    {x : DA L V} (h : ValueOf st.toMetric agg p t v x) : IsMeanOf agg p t v st x := by
  obtain ⟨r, hr, hx⟩ := h
  unfold metricAlone at hr
  obtain ⟨means, hmeans, hr⟩ := bind_pair_ok _ _ _ hr
  have hF := means_forall agg p t _ _ hmeans
  change List.Forall₂ _ [("self", st)] means at hF
  rcases hF with _ | ⟨⟨h1, vars, h2, h3⟩, hnil⟩
  cases hnil
  rename_i m
  change pyItem [m] "self" = .ok r at hr
  have := pyItem_mem hr
  simp only [List.mem_singleton] at this
  rw [← this] at h3
  obtain ⟨s, q, g1, g2, g3⟩ := meanVars_mem h3 hx
  exact ⟨vars, s, q, h2, g1, g2, g3⟩

/-- The statistic arrays of a per-variable statistic. -/
theorem statOf_mem {K : Type} [Field K] [LinearOrder K] [IsStrictOrderedRing K]
    {name : String} {f : StatVar L (FV K) → StatVar L (FV K) → StatVar L (FV K)} {p t : Vars (StatVar L (FV K))}
    (hp : (p.map Prod.fst).Nodup) (ht : (t.map Prod.fst).Nodup) {v : String} {a b : StatVar L (FV K)}
    (ha : (v, a) ∈ p) (hb : (v, b) ∈ t) {vars} (hc : (statOf name f).compute p t = .ok vars) {s : StatVar L (FV K)}
    (hs : (v, some s) ∈ vars) : s = f a b := by
  obtain ⟨-, h⟩ := C21_statistic name (fun p t => .ok (some (some (f p t)))) p t hp ht vars hc
  obtain ⟨a', b', h1, h2, h3⟩ := (h v (some s)).mp hs
  have e1 := (pyGet?_eq_some hp v a).mpr ha
  have e2 := (pyGet?_eq_some hp v a').mpr h1
  rw [e1, Option.some.injEq] at e2
  have e3 := (pyGet?_eq_some ht v b).mpr hb
  have e4 := (pyGet?_eq_some ht v b').mpr h2
  rw [e3, Option.some.injEq] at e4
  subst e2 e4
  simp only [Except.ok.injEq, Option.some.injEq] at h3
  exact h3.symm

theorem isMeanOf_statOf {K : Type} [Field K] [LinearOrder K] [IsStrictOrderedRing K]
    {name : String} {f : StatVar L (FV K) → StatVar L (FV K) → StatVar L (FV K)} {p t : Vars (StatVar L (FV K))}
    (hp : (p.map Prod.fst).Nodup) (ht : (t.map Prod.fst).Nodup) {v : String} {a b : StatVar L (FV K)}
    (ha : (v, a) ∈ p) (hb : (v, b) ∈ t) {agg : Aggregator L (FV K)} {y : DA L (FV K)}
    (h : IsMeanOf agg p t v (statOf name f) y) :
    ∃ q, agg.aggregateStatVar (f a b) = .ok (some q) ∧ y = DA.zipWith (· / ·) q.1 q.2 := by
  obtain ⟨vars, s, q, h1, h2, h3, h4⟩ := h
  rw [statOf_mem hp ht ha hb h1 h2] at h3
  exact ⟨q, h3, h4⟩

/-- The statistic is computed for exactly the variable `v`, with mean `y`. -/
def OneMean (agg : Aggregator L V) (p t : Vars D) (v : String) (st : Statistic D (Option (StatVar L V))) (y : DA L V) : Prop :=
  ∃ s q, st.compute p t = .ok [(v, some s)] ∧ agg.aggregateStatVar s = .ok (some q) ∧ y = DA.zipWith (· / ·) q.1 q.2

theorem oneMean_means (agg : Aggregator L V) (p t : Vars D) (v : String) :
    (stats : List (String × Statistic D (Option (StatVar L V)))) → (ys : List (String × DA L V)) →
    List.Forall₂ (fun ks y => y.1 = ks.1 ∧ OneMean agg p t v ks.2 y.2) stats ys →
    stats.mapM (fun ks => do
      let v ← ks.2.compute p t
      let mean ← meanVars agg v
      return (ks.1, mean)) = .ok (ys.map (fun y => (y.1, [(v, y.2)])))
  | [], ys, h => by
    rw [List.forall₂_nil_left_iff] at h
    subst h; rfl
  | ks :: stats, ys, h => by
    rw [List.forall₂_cons_left_iff] at h
    obtain ⟨y, ys', ⟨h1, s, q, g1, g2, g3⟩, h2, rfl⟩ := h
    rw [List.mapM_cons, oneMean_means agg p t v stats ys' h2]
    simp only [g1, bind, Except.bind, meanVars, perVar, g2, pure, Except.pure, List.map_cons, List.map_nil, h1, g3]

/-- Metrics of a single variable exist whenever the aggregations of its statistics and the formula succeed. -/
theorem exists_perVariable {stats : List (String × Statistic D (Option (StatVar L V)))} (hn : (stats.map Prod.fst).Nodup)
    (hne : stats ≠ []) {g : List (String × DA L V) → Except Err (DA L V)} {agg : Aggregator L V} {p t : Vars D} {v : String}
    {ys : List (String × DA L V)} (hys : List.Forall₂ (fun ks y => y.1 = ks.1 ∧ OneMean agg p t v ks.2 y.2) stats ys)
    {x : DA L V} (hg : g ys = .ok x) : ValueOf (perVariableMetric stats g) agg p t v x := by
  refine ⟨[(v, x)], ?_, by simp⟩
  unfold metricAlone
  rw [show (perVariableMetric stats g).statistics = stats from rfl, oneMean_means agg p t v stats ys hys]
  have hnames : stats.map Prod.fst = ys.map Prod.fst := by
    have : ∀ (a : List (String × Statistic D (Option (StatVar L V)))) (b : List (String × DA L V)),
        List.Forall₂ (fun ks y => y.1 = ks.1 ∧ OneMean agg p t v ks.2 y.2) a b → a.map Prod.fst = b.map Prod.fst := by
      intro a
      induction a with
      | nil => intro b h; rw [List.forall₂_nil_left_iff] at h; subst h; rfl
      | cons x a ih =>
        intro b h
        rw [List.forall₂_cons_left_iff] at h
        obtain ⟨y, b', h1, h2, rfl⟩ := h
        simp [h1.1, ih b' h2]
    exact this _ _ hys
  have hyne : ys ≠ [] := by
    rintro rfl
    simp at hnames
    exact hne hnames
  show perVariableValues (stats.map Prod.fst) g (ys.map (fun y => (y.1, [(v, y.2)]))) = _
  rw [hnames] at hn ⊢
  have hitem : ∀ y ∈ ys, pyItem (ys.map (fun y => (y.1, [(v, y.2)]))) y.1 = .ok [(v, y.2)] := by
    intro y hy
    unfold pyItem
    rw [(pyGet?_eq_some (by rw [List.map_map]; exact hn) y.1 [(v, y.2)]).mpr (List.mem_map.mpr ⟨y, hy, rfl⟩)]
  have h1 : (ys.map Prod.fst).mapM (pyItem (ys.map (fun y => (y.1, [(v, y.2)])))) = .ok (ys.map (fun y => [(v, y.2)])) := by
    rw [List.mapM_map]
    exact TimeChunks.mapM_ok_of_forall _ _ _ hitem
  have h2 : (ys.map Prod.fst).mapM (fun s => do
      let m ← pyItem (ys.map (fun y => (y.1, [(v, y.2)]))) s
      let x ← pyItem m v
      return (s, x)) = (.ok ys : Except Err _) := by
    rw [List.mapM_map]
    have := TimeChunks.mapM_ok_of_forall (fun y : String × DA L V => (do
      let m ← pyItem (ys.map (fun y => (y.1, [(v, y.2)]))) y.1
      let x ← pyItem m v
      return (y.1, x) : Except Err _)) id ys (by
        intro y hy
        rw [hitem y hy]
        simp [bind, Except.bind, pyItem, pyGet?, pure, Except.pure])
    rw [List.map_id] at this
    exact this
  unfold perVariableValues
  rw [h1]
  simp only [bind, Except.bind, pure, Except.pure] at h2 ⊢
  have hc : commonVariables (ys.map (fun y => [(v, y.2)])) = .ok [v] := by
    cases ys with
    | nil => exact absurd rfl hyne
    | cons y ys => simp [commonVariables]
  rw [hc]
  simp only [List.mapM_cons, List.mapM_nil, bind, Except.bind, h2, hg, pure, Except.pure]

/-- Per-variable statistics of a single variable. -/
theorem oneMean_statOf {K : Type} [Field K] [LinearOrder K] [IsStrictOrderedRing K] (name : String)
    (f : StatVar L (FV K) → StatVar L (FV K) → StatVar L (FV K)) (agg : Aggregator L (FV K)) (v : String)
    (a b : StatVar L (FV K)) {q} (hq : agg.aggregateStatVar (f a b) = .ok (some q)) :
    OneMean agg [(v, a)] [(v, b)] v (statOf name f) (DA.zipWith (· / ·) q.1 q.2) := by
  refine ⟨f a b, q, ?_, hq, rfl⟩
  simp [statOf, perVariableStatistic, perVariableLoop, pyGet?, bind, Except.bind, pure, Except.pure]

end WBX
