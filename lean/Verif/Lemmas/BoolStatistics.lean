import Verif.Model.BoolStatistics
import Verif.Lemmas.MetricAlone


/-!
# Aggregation of boolean statistics
-/

set_option linter.unusedSectionVars false

namespace WBX
open DA Aggregator
variable {L : Type} [DecidableEq L] {K : Type} [Field K] [LinearOrder K] [IsStrictOrderedRing K]

/-! ### Sums and products of NumPy booleans -/

theorem NPBool.sum_b {ι : Type} [DecidableEq ι] (cs : Finset ι) (f : ι → NPBool) : ((∑ i ∈ cs, f i).b = true) ↔ ∃ i ∈ cs, (f i).b = true := by
  induction cs using Finset.induction_on with
  | empty => simp
  | insert a s ha ih =>
    rw [Finset.sum_insert ha]
    show ((f a).b || (∑ i ∈ s, f i).b) = true ↔ _
    rw [Bool.or_eq_true, ih]
    simp

theorem NPBool.foldl_b (ms : List NPBool) (x : NPBool) : ((ms.foldl (· * ·) x).b = true) ↔ x.b = true ∧ ∀ m ∈ ms, m.b = true := by
  induction ms generalizing x with
  | nil => simp
  | cons m ms ih =>
    rw [List.foldl_cons, ih]
    show (x.b && m.b) = true ∧ _ ↔ _
    rw [Bool.and_eq_true]
    simp [and_assoc]

theorem toBool_iff {x : FV K} (h : x.isFin = true) : x.toBool = true ↔ x.num ≠ 0 := by
  cases x with
  | nan => cases h
  | inf n => cases h
  | fin x => simp [FV.toBool, FV.num]

/-! ### The sums of a boolean statistic -/

theorem aggregateBoolVar_promoted {agg : Aggregator L (FV K)} {ib : Bool} {s : StatVar L (FV K)} (h : agg.promotes ib s = true) :
    agg.aggregateBoolVar ib s = agg.aggregateStatVar s := if_pos h

theorem not_promotes {agg : Aggregator L (FV K)} {ib : Bool} {s : StatVar L (FV K)} (h : agg.promotes ib s = false) :
    agg.weighBy = [] ∧ ib = false ∧ agg.skipna = false ∧ (agg.masked && s.mask.isSome) = false := by
  unfold promotes at h
  simp only [Bool.or_eq_false_iff, Bool.not_eq_false', List.isEmpty_iff] at h
  exact ⟨h.1.1.1, h.1.1.2, h.1.2, h.2⟩

open Classical in
/-- The sums of a boolean statistic without promotion: is there a true cell, is there a cell. -/
theorem bool_sums {agg : Aggregator L (FV K)} {ib : Bool} {s : StatVar L (FV K)} {e : Dim → L} {cs : Finset (Dim → L)} (E : Evaluated agg s e cs) (hb : agg.promotes ib s = false)
    {q : DA L (FV K) × DA L (FV K)} (h : agg.aggregateBoolVar ib s = .ok (some q)) :
    q.1.val e = FV.ofBool (decide (∃ e' ∈ cs, (s.arr.val e').num ≠ 0 ∧ cellWeight agg s e' ≠ 0)) ∧
    q.2.val e = FV.ofBool (decide (∃ e' ∈ cs, cellWeight agg s e' ≠ 0)) := by
  unfold aggregateBoolVar at h
  rw [if_neg (by simp [hb])] at h
  obtain ⟨hw, -, hs, hm⟩ := not_promotes hb
  rcases ho : agg.boolean.aggregateStatVar ⟨s.arr.map NPBool.ofFV, s.mask⟩ with er | o
  · rw [ho] at h; cases h
  rw [ho] at h
  rcases o with _ | q'
  · cases h
  have hq : q = (q'.1.map NPBool.toFV, q'.2.map NPBool.toFV) := by
    have := Option.some.inj (Except.ok.inj h)
    exact this.symm
  subst hq
  obtain ⟨h1, h2⟩ := aggregateStatVar_some ho
  have happ : agg.boolean.applyMask ⟨s.arr.map NPBool.ofFV, s.mask⟩ = (s.arr.map NPBool.ofFV, (s.arr.map (NPBool.ofFV (K := K))).map (fun _ => 1)) := by
    unfold applyMask
    have hs' : agg.boolean.skipna = false := hs
    have hk : agg.boolean.masked = agg.masked := rfl
    rw [hk, hs']
    rcases e1 : agg.masked with _ | _ <;> rcases e2 : s.mask with _ | m
    · rfl
    · rfl
    · rfl
    · simp [e1, e2] at hm
  rw [happ] at h1 h2
  simp only at h1 h2
  have hwb : agg.boolean.weighBy = [] := rfl
  have hfac : ∀ a : DA L NPBool, a.dims = s.arr.dims → a.coords = s.arr.coords →
      agg.boolean.weighBy.map (fun w => w a) ++ agg.boolean.binBy.map (fun b => b.createBinMask a) = (agg.allFactors s.arr).map (fun m => m.map NPBool.ofFV) := by
    intro a hd hc
    unfold allFactors
    rw [hw, hwb]
    simp only [List.map_nil, List.nil_append, boolean, List.map_map]
    refine List.map_congr_left (fun b hb => ?_)
    show (b.createBinMask (a.map NPBool.toFV)).map NPBool.ofFV = (b.createBinMask s.arr).map NPBool.ofFV
    rw [E.coordOnly.2 b hb (a.map NPBool.toFV) s.arr hd hc]
  have hcov : ∀ a : DA L NPBool, a.dims = s.arr.dims → a.coords = s.arr.coords →
      ∀ m ∈ agg.boolean.weighBy.map (fun w => w a) ++ agg.boolean.binBy.map (fun b => b.createBinMask a), CoversLabels m a := by
    intro a hd hc m hm
    rw [hfac a hd hc] at hm
    obtain ⟨m', hm', rfl⟩ := List.mem_map.mp hm
    intro d hdm hda
    rw [hc]
    exact E.covers m' hm' d hdm (hd ▸ hda)
  have hcells : ReducedCells agg.reduceDims s.arr.coords e cs := by
    intro e'
    rw [E.cells]
    have : counted agg s e' = true := by
      unfold counted
      rw [hs]
      rcases e1 : agg.masked with _ | _ <;> rcases e2 : s.mask with _ | m
      · rfl
      · rfl
      · rfl
      · simp [e1, e2] at hm
    simp [this]
  have hnz : ∀ e', cellWeight agg s e' ≠ 0 ↔ ∀ m ∈ agg.allFactors s.arr, (m.val e').toBool = true := by
    intro e'
    unfold cellWeight
    rw [Ne, List.prod_eq_zero_iff]
    constructor
    · intro h m hm
      rw [toBool_iff (E.weightsFinite m hm e')]
      intro h0
      exact h (List.mem_map.mpr ⟨m, hm, h0⟩)
    · intro h h0
      obtain ⟨m, hm, h0⟩ := List.mem_map.mp h0
      exact (toBool_iff (E.weightsFinite m hm e')).mp (h m hm) h0
  constructor
  · show FV.ofBool (q'.1.val e).b = _
    congr 1
    rw [aggregationFn_val h1 (hcov _ rfl rfl) e cs hcells, Bool.eq_iff_iff, NPBool.sum_b, decide_eq_true_iff]
    refine exists_congr (fun e' => and_congr_right (fun he' => ?_))
    rw [hfac _ rfl rfl, NPBool.foldl_b, hnz]
    simp only [List.map_map, List.mem_map, forall_exists_index, and_imp, forall_apply_eq_imp_iff₂]
    exact and_congr (toBool_iff (E.finite e' he')) Iff.rfl
  · show FV.ofBool (q'.2.val e).b = _
    congr 1
    rw [aggregationFn_val h2 (hcov _ rfl rfl) e cs hcells, Bool.eq_iff_iff, NPBool.sum_b, decide_eq_true_iff]
    refine exists_congr (fun e' => and_congr_right (fun he' => ?_))
    rw [hfac _ rfl rfl, NPBool.foldl_b, hnz]
    simp only [List.map_map, List.mem_map, forall_exists_index, and_imp, forall_apply_eq_imp_iff₂]
    constructor
    · exact fun h => h.2
    · exact fun h => ⟨rfl, h⟩

/-! ### Means and values -/

/-- `x` is the value of metric `m`, all of whose statistics are boolean, for variable `v` on this chunk. -/
def BoolValueOf {D : Type} (m : Metric D (Option (StatVar L (FV K))) (DA L (FV K))) (agg : Aggregator L (FV K)) (ib : Bool) (p t : Vars D) (v : String) (x : DA L (FV K)) : Prop :=
  ∃ r, boolMetricAlone m agg ib p t = .ok r ∧ (v, x) ∈ r

/-- `y` is the mean of the boolean statistic `st` for variable `v`. -/
def IsBoolMeanOf {D : Type} (agg : Aggregator L (FV K)) (ib : Bool) (p t : Vars D) (v : String) (st : Statistic D (Option (StatVar L (FV K)))) (y : DA L (FV K)) : Prop :=
  ∃ vars s q, st.compute p t = .ok vars ∧ (v, some s) ∈ vars ∧ agg.aggregateBoolVar ib s = .ok (some q) ∧ y = DA.zipWith (· / ·) q.1 q.2

theorem perVarWith_mem {f : StatVar L (FV K) → Except Err (Option (DA L (FV K) × DA L (FV K)))} : (vars : List (String × Option (StatVar L (FV K)))) →
    (r : List (String × (DA L (FV K) × DA L (FV K)))) → perVarWith f vars = .ok r → ∀ k q, (k, q) ∈ r → ∃ s, (k, some s) ∈ vars ∧ f s = .ok (some q)
  | [], r, h, k, q, hq => by
    simp only [perVarWith, Except.ok.injEq] at h
    subst h; simp at hq
  | (k', none) :: vars, r, h, k, q, hq => by
    simp only [perVarWith] at h
    obtain ⟨s, h1, h2⟩ := perVarWith_mem vars r h k q hq
    exact ⟨s, by simp [h1], h2⟩
  | (k', some s') :: vars, r, h, k, q, hq => by
    simp only [perVarWith, bind, Except.bind] at h
    rcases e1 : f s' with e | o
    · simp [e1] at h
    rcases e2 : perVarWith f vars with e | rs
    · simp [e1, e2] at h
    rcases o with _ | q'
    · simp [e1, e2, pure, Except.pure] at h
      subst h
      obtain ⟨s, h1, h2⟩ := perVarWith_mem vars rs e2 k q hq
      exact ⟨s, by simp [h1], h2⟩
    · simp [e1, e2, pure, Except.pure] at h
      subst h
      rcases List.mem_cons.mp hq with hq | hq
      · rw [Prod.mk.injEq] at hq
        obtain ⟨rfl, rfl⟩ := hq
        exact ⟨s', by simp, e1⟩
      · obtain ⟨s, h1, h2⟩ := perVarWith_mem vars rs e2 k q hq
        exact ⟨s, by simp [h1], h2⟩

theorem perVarWith_eq {agg : Aggregator L (FV K)} {ib : Bool} : (vars : List (String × Option (StatVar L (FV K)))) →
    (∀ k s, (k, some s) ∈ vars → agg.promotes ib s = true) → perVarWith (agg.aggregateBoolVar ib) vars = agg.perVar vars
  | [], _ => rfl
  | (k, none) :: vars, h => perVarWith_eq vars (fun k' s hs => h k' s (by simp [hs]))
  | (k, some s) :: vars, h => by
    simp only [perVarWith, perVar]
    rw [aggregateBoolVar_promoted (h k s (by simp)), perVarWith_eq vars (fun k' s hs => h k' s (by simp [hs]))]
    rcases agg.aggregateStatVar s with _ | _ | _
    · rfl
    · rcases agg.perVar vars with _ | _ <;> rfl
    · rcases agg.perVar vars with _ | _ <;> rfl

/-- With promotion of every array the boolean means are the ordinary ones. -/
theorem boolMeanVars_eq {agg : Aggregator L (FV K)} {ib : Bool} {vars : List (String × Option (StatVar L (FV K)))} (h : ∀ k s, (k, some s) ∈ vars → agg.promotes ib s = true) :
    boolMeanVars agg ib vars = meanVars agg vars := by
  unfold boolMeanVars meanVars
  rw [perVarWith_eq vars h]

theorem boolMeanVars_mem {agg : Aggregator L (FV K)} {ib : Bool} {vars : List (String × Option (StatVar L (FV K)))} {ms : Vars (DA L (FV K))} (h : boolMeanVars agg ib vars = .ok ms)
    {v : String} {y : DA L (FV K)} (hy : (v, y) ∈ ms) : ∃ s q, (v, some s) ∈ vars ∧ agg.aggregateBoolVar ib s = .ok (some q) ∧ y = DA.zipWith (· / ·) q.1 q.2 := by
  unfold boolMeanVars at h
  obtain ⟨r, hr, h⟩ := bind_pair_ok _ _ _ h
  simp only [pure, Except.pure, Except.ok.injEq] at h
  subst h
  obtain ⟨⟨k, q⟩, hq, he⟩ := List.mem_map.mp hy
  rw [Prod.mk.injEq] at he
  obtain ⟨rfl, rfl⟩ := he
  obtain ⟨s, h1, h2⟩ := perVarWith_mem vars r hr _ _ hq
  exact ⟨s, q, h1, h2, rfl⟩

variable {D : Type}

theorem bool_means_forall (agg : Aggregator L (FV K)) (ib : Bool) (p t : Vars D) :
    (stats : List (String × Statistic D (Option (StatVar L (FV K))))) → (means : List (String × Vars (DA L (FV K)))) →
    stats.mapM (fun ks => do
      let v ← ks.2.compute p t
      let mean ← boolMeanVars agg ib v
      return (ks.1, mean)) = .ok means →
    List.Forall₂ (fun ks m => m.1 = ks.1 ∧ ∃ vars, ks.2.compute p t = .ok vars ∧ boolMeanVars agg ib vars = .ok m.2) stats means
  | [], means, h => by
    simp only [List.mapM_nil, pure, Except.pure, Except.ok.injEq] at h
    subst h; exact .nil
  | ks :: stats, means, h => by
    rw [List.mapM_cons] at h
    obtain ⟨y, hy, h⟩ := bind_pair_ok _ _ _ h
    obtain ⟨ys, hys, h⟩ := bind_pair_ok _ _ _ h
    simp only [pure, Except.pure, Except.ok.injEq] at h
    subst h
    refine .cons ?_ (bool_means_forall agg ib p t stats ys hys)
    obtain ⟨vars, hv, hy⟩ := bind_pair_ok _ _ _ hy
    obtain ⟨m, hm, hy⟩ := bind_pair_ok _ _ _ hy
    simp only [pure, Except.pure, Except.ok.injEq] at hy
    subst hy
    exact ⟨rfl, vars, hv, hm⟩

/-- `PerVariableMetric` of boolean statistics: the value is the formula applied to the means. -/
theorem boolValueOf_perVariable {stats : List (String × Statistic D (Option (StatVar L (FV K))))} (hn : (stats.map Prod.fst).Nodup)
    {g : List (String × DA L (FV K)) → Except Err (DA L (FV K))} {agg : Aggregator L (FV K)} {ib : Bool} {p t : Vars D} {v : String} {x : DA L (FV K)}
    (h : BoolValueOf (perVariableMetric stats g) agg ib p t v x) :
    ∃ ys, List.Forall₂ (fun ks y => y.1 = ks.1 ∧ IsBoolMeanOf agg ib p t v ks.2 y.2) stats ys ∧ g ys = .ok x := by
  obtain ⟨r, hr, hx⟩ := h
  unfold boolMetricAlone at hr
  obtain ⟨means, hmeans, hr⟩ := bind_pair_ok _ _ _ hr
  have hF := bool_means_forall agg ib p t stats means hmeans
  have hkeys : means.map Prod.fst = stats.map Prod.fst := by
    have : ∀ (a : List (String × Statistic D (Option (StatVar L (FV K))))) (b : List (String × Vars (DA L (FV K)))),
        List.Forall₂ (fun ks m => m.1 = ks.1 ∧ ∃ vars, ks.2.compute p t = .ok vars ∧ boolMeanVars agg ib vars = .ok m.2) a b →
        b.map Prod.fst = a.map Prod.fst := by
      intro a b h
      induction h with
      | nil => rfl
      | cons h _ ih => simp [h.1, ih]
    exact this _ _ hF
  change perVariableValues (stats.map Prod.fst) g means = .ok r at hr
  unfold perVariableValues at hr
  obtain ⟨vs, -, hr⟩ := bind_pair_ok _ _ _ hr
  obtain ⟨common, -, hr⟩ := bind_pair_ok _ _ _ hr
  have hentry : ∀ (cs : List String) (r : Vars (DA L (FV K))), cs.mapM (fun v => do
      let perVar ← (stats.map Prod.fst).mapM (fun s => do
        let m ← pyItem means s
        let x ← pyItem m v
        return (s, x))
      let x ← g perVar
      return (v, x)) = .ok r → (v, x) ∈ r → ∃ ys, StatsAt means (stats.map Prod.fst) v ys ∧ g ys = .ok x := by
    intro cs
    induction cs with
    | nil =>
      intro r h hx
      simp only [List.mapM_nil, pure, Except.pure, Except.ok.injEq] at h
      subst h; simp at hx
    | cons c cs ih =>
      intro r h hx
      rw [List.mapM_cons] at h
      obtain ⟨y, hy, h⟩ := bind_pair_ok _ _ _ h
      obtain ⟨r', hr', h⟩ := bind_pair_ok _ _ _ h
      simp only [pure, Except.pure, Except.ok.injEq] at h
      subst h
      rcases List.mem_cons.mp hx with hx | hx
      · obtain ⟨ys, hys, hy⟩ := bind_pair_ok _ _ _ hy
        obtain ⟨z, hz, hy⟩ := bind_pair_ok _ _ _ hy
        simp only [pure, Except.pure, Except.ok.injEq] at hy
        subst hy
        rw [Prod.mk.injEq] at hx
        obtain ⟨rfl, rfl⟩ := hx
        exact ⟨ys, statsAt_lookup _ _ _ _ hys, hz⟩
      · exact ih r' hr' hx
  obtain ⟨ys, hys, hg⟩ := hentry common r hr hx
  refine ⟨ys, ?_, hg⟩
  have hnm : (means.map Prod.fst).Nodup := by rw [hkeys]; exact hn
  have hlook : ∀ ks ∈ stats, ∃ m, (ks.1, m) ∈ means ∧ ∃ vars, ks.2.compute p t = .ok vars ∧ boolMeanVars agg ib vars = .ok m := by
    intro ks hks
    obtain ⟨i, hi, rfl⟩ := List.getElem_of_mem hks
    have hl := hF.length_eq
    have := hF.get (i := i) hi (hl ▸ hi)
    simp only [List.get_eq_getElem] at this
    obtain ⟨e1, vars, e2, e3⟩ := this
    refine ⟨(means[i]'(hl ▸ hi)).2, ?_, vars, e2, e3⟩
    have : (stats[i].1, (means[i]'(hl ▸ hi)).2) = means[i]'(hl ▸ hi) := by rw [← e1]
    rw [this]
    exact List.getElem_mem _
  unfold StatsAt at hys
  rw [List.forall₂_map_left_iff] at hys
  have hmem : ∀ l : List (String × Statistic D (Option (StatVar L (FV K)))), (∀ ks ∈ l, ks ∈ stats) → ∀ ys : List (String × DA L (FV K)),
      List.Forall₂ (fun ks y => y.1 = ks.1 ∧ ∃ vars, (ks.1, vars) ∈ means ∧ (v, y.2) ∈ vars) l ys →
      List.Forall₂ (fun ks y => y.1 = ks.1 ∧ IsBoolMeanOf agg ib p t v ks.2 y.2) l ys := by
    intro l hl ys h
    induction h with
    | nil => exact .nil
    | @cons ks y l ys hky _ ih =>
      refine .cons ⟨hky.1, ?_⟩ (ih (fun k hk => hl k (by simp [hk])))
      obtain ⟨vars, h1, h2⟩ := hky.2
      obtain ⟨m, h3, vs, h4, h5⟩ := hlook ks (hl ks (by simp))
      have e1 := (pyGet?_eq_some hnm ks.1 vars).mpr h1
      have e2 := (pyGet?_eq_some hnm ks.1 m).mpr h3
      rw [e1, Option.some.injEq] at e2
      subst e2
      obtain ⟨s, q, g1, g2, g3⟩ := boolMeanVars_mem h5 h2
      exact ⟨vs, s, q, h4, g1, g2, g3⟩
  exact hmem stats (fun _ h => h) ys hys

/-- If the aggregator promotes every statistic, the values of a metric are those of the ordinary aggregation. -/
theorem boolMetricAlone_eq {m : Metric D (Option (StatVar L (FV K))) (DA L (FV K))} {agg : Aggregator L (FV K)} {ib : Bool} {p t : Vars D}
    (h : ∀ s, agg.promotes ib s = true) : boolMetricAlone m agg ib p t = metricAlone m agg p t := by
  unfold boolMetricAlone metricAlone
  have : (fun vars => boolMeanVars agg ib vars) = fun vars => meanVars agg vars := funext (fun vars => boolMeanVars_eq (fun _ s _ => h s))
  simp only [show ∀ vars, boolMeanVars agg ib vars = meanVars agg vars from fun vars => congrFun this vars]

/-- The promotion does not depend on the statistic if there is a weighting, an integer bin mask or `skipna`. -/
theorem promotes_of {agg : Aggregator L (FV K)} {ib : Bool} (h : agg.weighBy ≠ [] ∨ ib = true ∨ agg.skipna = true) (s : StatVar L (FV K)) : agg.promotes ib s = true := by
  unfold promotes
  rcases h with h | h | h
  · have : agg.weighBy.isEmpty = false := by
      rw [List.isEmpty_eq_false_iff]
      exact h
    simp [this]
  · simp [h]
  · simp [h]

theorem isMeanOf_of_bool {agg : Aggregator L (FV K)} {ib : Bool} {p t : Vars D} {v : String} {st : Statistic D (Option (StatVar L (FV K)))} {y : DA L (FV K)}
    (hpr : ∀ vars s, st.compute p t = .ok vars → (v, some s) ∈ vars → agg.promotes ib s = true) (h : IsBoolMeanOf agg ib p t v st y) : IsMeanOf agg p t v st y := by
  obtain ⟨vars, s, q, h1, h2, h3, h4⟩ := h
  rw [aggregateBoolVar_promoted (hpr vars s h1 h2)] at h3
  exact ⟨vars, s, q, h1, h2, h3, h4⟩

open Classical in
/-- The mean of a boolean statistic without promotion: 1 if there is a true cell, 0 if there are only false cells, NaN if there is no cell. -/
theorem bool_mean_any {agg : Aggregator L (FV K)} {ib : Bool} {s : StatVar L (FV K)} {e : Dim → L} {cs : Finset (Dim → L)} (E : Evaluated agg s e cs) (hb : agg.promotes ib s = false)
    {q : DA L (FV K) × DA L (FV K)} (h : agg.aggregateBoolVar ib s = .ok (some q)) :
    (DA.zipWith (· / ·) q.1 q.2).val e = if ∃ e' ∈ cs, cellWeight agg s e' ≠ 0 then
      FV.fin (if ∃ e' ∈ cs, (s.arr.val e').num ≠ 0 ∧ cellWeight agg s e' ≠ 0 then 1 else 0) else .nan := by
  obtain ⟨h1, h2⟩ := bool_sums E hb h
  show q.1.val e / q.2.val e = _
  rw [h1, h2]
  by_cases hw : ∃ e' ∈ cs, cellWeight agg s e' ≠ 0
  · rw [if_pos hw, decide_eq_true hw]
    by_cases ht : ∃ e' ∈ cs, (s.arr.val e').num ≠ 0 ∧ cellWeight agg s e' ≠ 0
    · rw [if_pos ht, decide_eq_true ht]
      show (1 : FV K) / 1 = _
      rw [FV.one_def, FV.fin_div_fin_of_ne _ one_ne_zero, div_one]
    · rw [if_neg ht, decide_eq_false ht]
      show (0 : FV K) / 1 = _
      rw [FV.one_def, FV.zero_def, FV.fin_div_fin_of_ne _ one_ne_zero, div_one]
  · have ht : ¬ ∃ e' ∈ cs, (s.arr.val e').num ≠ 0 ∧ cellWeight agg s e' ≠ 0 := fun ⟨e', a, _, b⟩ => hw ⟨e', a, b⟩
    rw [if_neg hw, decide_eq_false hw, decide_eq_false ht]
    show FV.div _ _ = _
    simp [FV.ofBool, FV.div, FV.zero_def]

theorem combiningSum_indicator {ι : Type} {cs : List ι} {f : ι → DA L (FV K)} {e : Dim → L} {P : ι → Prop} [DecidablePred P] (hdom : ∀ c ∈ cs, (f c).InDom e)
    (h : ∀ c ∈ cs, (f c).val e = FV.ofBool (decide (P c))) : (combiningSum (cs.map f)).val e = FV.fin ((cs.countP (fun c => decide (P c)) : ℕ) : K) := by
  rw [combiningSum_val, List.map_map]
  induction cs with
  | nil => simp [FV.zero_def]
  | cons a as ih =>
    rw [List.map_cons, List.sum_cons, ih (fun a ha => hdom a (by simp [ha])) (fun a ha => h a (by simp [ha])), Function.comp_apply, if_pos (hdom a (by simp)), h a (by simp), List.countP_cons]
    by_cases hp : P a
    · simp [hp, FV.ofBool, FV.one_def, add_comm]
    · simp [hp, FV.ofBool, FV.zero_def]

end WBX
