import Verif.Props.MetricExtensional
import Verif.Props.LocalityPipeline
import Verif.Props.Serialize
import Verif.Lemmas.NestedState

set_option linter.unusedSectionVars false

/-!
# C81: the files that the pipeline writes
-/

namespace WBX
open DA
variable {L V D : Type} [DecidableEq L]

/-! ### From mean statistics to metric values -/

theorem tableSame_forall₂ {x y : List (String × Vars (DA L V))} (h : List.Forall₂ (fun a b => a.1 = b.1 ∧ VarsSame a.2 b.2) x y) : TableSame x y := fun _ => item_forall₂ h

theorem renamed_same {x y : List (String × Vars (DA L V))} (h : TableSame x y) : ∀ statistics : List (String × Statistic D (Option (StatVar L V))),
    SameOutcome (List.Forall₂ (fun a b => a.1 = b.1 ∧ VarsSame a.2 b.2))
      (statistics.mapM (fun ks => do
        let v ← pyItem x ks.2.uniqueName
        return (ks.1, v)))
      (statistics.mapM (fun ks => do
        let v ← pyItem y ks.2.uniqueName
        return (ks.1, v)))
  | [] => .gives .nil
  | ks :: statistics => by
    rw [List.mapM_cons, List.mapM_cons]
    refine SameOutcome.bind (r := fun a b => a.1 = b.1 ∧ VarsSame a.2 b.2) ?_ ?_
    · exact SameOutcome.bind (sameOutcome_item (h _)) (fun a b hab => .gives ⟨rfl, hab⟩)
    · intro a b hab
      exact SameOutcome.bind (renamed_same h statistics) (fun as bs hs => .gives (.cons hab hs))

theorem metrics_same {x y : List (String × Vars (DA L V))} (h : TableSame x y) : ∀ metrics : List (String × Metric D (Option (StatVar L V)) (DA L V)),
    (∀ nm ∈ metrics, nm.2.Extensional) →
    SameOutcome (List.Forall₂ (fun a b => a.1 = b.1 ∧ VarsSame a.2 b.2)) (computeMetricsFromStatistics metrics x) (computeMetricsFromStatistics metrics y)
  | [], _ => .gives .nil
  | nm :: metrics, hm => by
    have ih := metrics_same h metrics (fun nm hnm => hm nm (by simp [hnm]))
    unfold computeMetricsFromStatistics at ih ⊢
    rw [List.mapM_cons, List.mapM_cons]
    refine SameOutcome.bind (r := fun a b => a.1 = b.1 ∧ VarsSame a.2 b.2) ?_ ?_
    · refine SameOutcome.bind (r := VarsSame) ?_ (fun a b hab => .gives ⟨rfl, hab⟩)
      exact SameOutcome.bind (renamed_same h _) (fun a b hab => (hm nm (by simp)).same a b (tableSame_forall₂ hab))
    · intro a b hab
      exact SameOutcome.bind ih (fun as bs hs => .gives (.cons hab hs))

theorem metrics_dict {x : List (String × Vars (DA L V))} (hx : ∀ sv ∈ x, IsDict sv.2) {metrics : List (String × Metric D (Option (StatVar L V)) (DA L V))}
    (hm : ∀ nm ∈ metrics, nm.2.Extensional) {r : List (String × Vars (DA L V))} (hr : computeMetricsFromStatistics metrics x = .ok r) :
    r.map Prod.fst = metrics.map Prod.fst ∧ ∀ mv ∈ r, IsDict mv.2 := by
  unfold computeMetricsFromStatistics at hr
  induction metrics generalizing r with
  | nil => cases hr; simp
  | cons nm metrics ih =>
    rw [List.mapM_cons] at hr
    obtain ⟨a, ha, hr⟩ := bind_ok_iff.mp hr
    obtain ⟨as, has, hr⟩ := bind_ok_iff.mp hr
    cases hr
    obtain ⟨v, hv, ha⟩ := bind_ok_iff.mp ha
    cases ha
    obtain ⟨h1, h2⟩ := ih (fun nm hnm => hm nm (by simp [hnm])) has
    refine ⟨by simp [h1], ?_⟩
    intro mv hmv
    rcases List.mem_cons.mp hmv with rfl | hmv
    · obtain ⟨renamed, hren, hv⟩ := bind_ok_iff.mp hv
      refine (hm nm (by simp)).dict renamed v ?_ hv
      intro sv hsv
      obtain ⟨ks, _, hks⟩ := mapM_out_mem hren sv hsv
      obtain ⟨w, hw, hks⟩ := bind_ok_iff.mp hks
      cases hks
      exact hx (ks.2.uniqueName, w) (pyItem_mem hw)
    · exact h2 mv hmv

/-! ### The dataset of metric values -/

/-- The labels a dataset has along a dimension after some assignments: those of the first array with this dimension. -/
def firstLabels (d : Dim) : List (String × DA L V) → Option (Finset L)
  | [] => none
  | ka :: rest => if d ∈ ka.2.dims then some (ka.2.coords d) else firstLabels d rest

theorem assign_index (fill : V) (l : List (String × DA L V)) (ds : ValuesDataset L V) (d : Dim) :
    (l.foldl (ValuesDataset.assign fill) ds).index d = (ds.index d).or (firstLabels d l) := by
  induction l generalizing ds with
  | nil => simp [firstLabels]
  | cons ka l ih =>
    rw [List.foldl_cons, ih, show firstLabels d (ka :: l) = if d ∈ ka.2.dims then some (ka.2.coords d) else firstLabels d l from rfl]
    unfold ValuesDataset.assign
    dsimp only
    cases ds.index d with
    | some c => rfl
    | none => split_ifs <;> rfl

theorem assign_other (fill : V) (l : List (String × DA L V)) (ds : ValuesDataset L V) {k : String} (hk : k ∉ l.map Prod.fst) :
    pyGet? k (l.foldl (ValuesDataset.assign fill) ds).vars = pyGet? k ds.vars := by
  induction l generalizing ds with
  | nil => rfl
  | cons ka l ih =>
    simp only [List.map_cons, List.mem_cons, not_or] at hk
    rw [List.foldl_cons, ih _ hk.2]
    show pyGet? k (pyInsert ka.1 _ ds.vars) = _
    rw [pyGet?_insert, if_neg (fun h => hk.1 h.symm)]

/-- C81: what a dataset stores when arrays are assigned under distinct names: the array keeps its values, but along a dimension that an earlier
array has too, it is given the labels of the first such array: labels it has in addition are dropped, and labels it lacks are filled with NaN. -/
theorem C81_stored (fill : V) {before after : List (String × DA L V)} {k : String} {a : DA L V} (hn : ((before ++ (k, a) :: after).map Prod.fst).Nodup) :
    ∃ stored, pyGet? k ((before ++ (k, a) :: after).foldl (ValuesDataset.assign fill) ValuesDataset.empty).vars = some stored ∧ stored.dims = a.dims ∧
      (∀ d ∈ a.dims, stored.coords d = (firstLabels d before).getD (a.coords d)) ∧
      ∀ e, stored.val e = if a.InDom e then a.val e else fill := by
  refine ⟨reindexKnown fill (before.foldl (ValuesDataset.assign fill) ValuesDataset.empty).index a, ?_, rfl, ?_, fun e => rfl⟩
  · rw [List.map_append, List.map_cons, List.nodup_append, List.nodup_cons] at hn
    rw [List.foldl_append, List.foldl_cons, assign_other _ _ _ hn.2.1.1]
    show pyGet? k (pyInsert k _ _) = _
    rw [pyGet?_insert, if_pos rfl]
  · intro d hd
    show ((before.foldl (ValuesDataset.assign fill) ValuesDataset.empty).index d).getD _ = _
    rw [assign_index]
    rfl

theorem firstLabels_mem {d : Dim} {l : List (String × DA L V)} {c : Finset L} (h : firstLabels d l = some c) : ∃ ka ∈ l, d ∈ ka.2.dims ∧ ka.2.coords d = c := by
  induction l with
  | nil => cases h
  | cons ka l ih =>
    unfold firstLabels at h
    split_ifs at h with hd
    · exact ⟨ka, by simp, hd, Option.some.inj h⟩
    · obtain ⟨x, hx, h1⟩ := ih h
      exact ⟨x, by simp [hx], h1⟩

theorem aligned_get (fill : V) {l : List (String × DA L V)} (hn : (l.map Prod.fst).Nodup) (hlab : ∀ x ∈ l, ∀ y ∈ l, x.2.SameLabels y.2) (k : String) :
    Option.Rel DA.Same (pyGet? k (l.foldl (ValuesDataset.assign fill) ValuesDataset.empty).vars) (pyGet? k l) := by
  cases hk : pyGet? k l with
  | none =>
    have := (pyGet?_none_iff k l).mp hk
    rw [assign_other _ _ _ this]
    exact .none
  | some a =>
    have hmem := pyGet?_mem hk
    obtain ⟨before, after, rfl⟩ := List.append_of_mem hmem
    obtain ⟨stored, h1, h2, h3, h4⟩ := C81_stored fill hn
    rw [h1]
    have hcoord : ∀ d ∈ a.dims, stored.coords d = a.coords d := by
      intro d hd
      rw [h3 d hd]
      cases hf : firstLabels d before with
      | none => rfl
      | some c =>
        obtain ⟨ka, hka, hd', rfl⟩ := firstLabels_mem hf
        exact hlab ka (by simp [hka]) (k, a) (by simp) d hd' hd
    refine .some ⟨h2, fun d hd => hcoord d (h2 ▸ hd), ?_⟩
    intro e he
    have : a.InDom e := by
      intro d hd
      have := he d (by rw [h2]; exact hd)
      rwa [hcoord d hd] at this
    rw [h4, if_pos this]

theorem metricArrays_nodup {α : Type} {table : List (String × Vars α)} (hm : (table.map Prod.fst).Nodup)
    (hv : ∀ mv ∈ table, IsDict mv.2) (hdot : ∀ mv ∈ table, '.' ∉ mv.1.toList) : ((metricArrays table).map Prod.fst).Nodup := by
  have hinj : ∀ a ∈ table, ∀ b ∈ table, ∀ w1 w2 : String, a.1 ++ "." ++ w1 = b.1 ++ "." ++ w2 → a.1 = b.1 ∧ w1 = w2 := by
    intro a ha b hb w1 w2 h
    have := congrArg String.toList h
    simp only [String.toList_append, List.append_assoc] at this
    obtain ⟨e1, e2⟩ := name_inj (hdot a ha) (hdot b hb) this
    exact ⟨String.toList_inj.mp e1, String.toList_inj.mp e2⟩
  clear hdot
  unfold metricArrays
  rw [List.map_flatMap]
  simp only [List.map_map]
  induction table with
  | nil => simp
  | cons a table ih =>
    rw [List.flatMap_cons]
    simp only [List.map_cons, List.nodup_cons] at hm
    refine List.nodup_append.mpr ⟨?_, ih hm.2 (fun mv h => hv mv (by simp [h])) (fun b hb c hc => hinj b (by simp [hb]) c (by simp [hc])), ?_⟩
    · have := hv a (by simp)
      refine List.Nodup.of_map (fun s => (s.toList.drop (a.1.toList.length + 1))) ?_
      rw [List.map_map]
      have h3 : (fun s : String => s.toList.drop (a.1.toList.length + 1)) ∘ (Prod.fst ∘ fun va : String × α => (a.1 ++ "." ++ va.1, va.2)) = fun va => va.1.toList := by
        funext va
        simp [String.toList_append]
      rw [h3]
      have h4 : a.2.map (fun va => va.1.toList) = (a.2.map Prod.fst).map String.toList := by rw [List.map_map]; rfl
      rw [h4]
      exact List.Nodup.map (fun _ _ h => String.toList_inj.mp h) this
    · intro y hy z hz he
      obtain ⟨w, hw, rfl⟩ := List.mem_map.mp hy
      obtain ⟨b, hb, hz⟩ := List.mem_flatMap.mp hz
      obtain ⟨w', hw', rfl⟩ := List.mem_map.mp hz
      obtain ⟨he, -⟩ := hinj a (by simp) b (by simp [hb]) _ _ he
      exact hm.1 (he ▸ List.mem_map_of_mem hb)

/-! ### States as tables -/

theorem entry_tableOf (n : Nested (DA L V) × Nested (DA L V)) (s v : String) : entry? (tableOf n) s v = (n.1.get? s v).map (fun a => (a, (n.2.get? s v).getD a)) := by
  unfold entry? tableOf
  rw [show n.1.get? s v = (pyGet? s n.1).bind (pyGet? v) from rfl]
  have h : ∀ l : Nested (DA L V), pyGet? s (l.map (fun sv => (sv.1, sv.2.map (fun v => (v.1, (v.2, (n.2.get? sv.1 v.1).getD v.2)))))) =
      (pyGet? s l).map (fun vars => vars.map (fun v => (v.1, (v.2, (n.2.get? s v.1).getD v.2)))) := by
    intro l
    induction l with
    | nil => rfl
    | cons sv l ih =>
      simp only [List.map_cons, pyGet?]
      split_ifs with hs
      · subst hs; rfl
      · exact ih
  rw [h]
  cases pyGet? s n.1 with
  | none => rfl
  | some vars =>
    simp only [Option.map_some, Option.bind_some]
    induction vars with
    | nil => rfl
    | cons w vars ih =>
      simp only [List.map_cons, pyGet?]
      split_ifs with hv
      · subst hv; rfl
      · exact ih

theorem tableSame_of_entries {x y : List (String × Vars (DA L V))} (h : ∀ s v, Option.Rel DA.Same (entry? x s v) (entry? y s v)) (hx : ∀ sv ∈ x, sv.2 ≠ [])
    (hy : ∀ sv ∈ y, sv.2 ≠ []) : TableSame x y := by
  intro s
  have hs := h s
  unfold entry? at hs
  have hne : ∀ (z : List (String × Vars (DA L V))), (∀ sv ∈ z, sv.2 ≠ []) → ∀ vars, pyGet? s z = some vars → ∃ v a, pyGet? v vars = some a := by
    intro z hz vars hv
    have := hz _ (pyGet?_mem hv)
    cases vars with
    | nil => exact absurd rfl this
    | cons w vars => exact ⟨w.1, w.2, by simp [pyGet?]⟩
  cases h1 : pyGet? s x with
  | none =>
    cases h2 : pyGet? s y with
    | none => exact .none
    | some vars =>
      obtain ⟨v, a, ha⟩ := hne y hy vars h2
      have := hs v
      rw [h1, h2, Option.bind_some, ha, Option.bind_none] at this
      cases this
  | some xs =>
    cases h2 : pyGet? s y with
    | none =>
      obtain ⟨v, a, ha⟩ := hne x hx xs h1
      have := hs v
      rw [h1, h2, Option.bind_some, ha, Option.bind_none] at this
      cases this
    | some ys =>
      refine .some ?_
      intro v
      have := hs v
      rwa [h1, h2, Option.bind_some, Option.bind_some] at this

section direct
variable [AddCommMonoid V] [Mul V] [One V] [IsNull V]

/-- The state of the direct evaluation as a table. -/
theorem direct_table {agg : Aggregator L V} {whole : List (String × Vars (Option (StatVar L V)))} (hk : UniqueKeys whole) {sws sw : Tree (DA L V)}
    (hw : agg.aggregateStatistics whole = .ok (some (sws, sw))) :
    ∃ t : StateTable L V, UniqueNames t ∧ some (sws, sw) = AggState.ofTable t ∧ t.map Prod.fst = whole.map Prod.fst ∧
      ∀ s v, (entry? t s v).map Prod.fst = sws.get2 s v ∧ (entry? t s v).map Prod.snd = sw.get2 s v := by
  have hok := Aggregator.aggregateStatistics_ok hw
  let O : StatVar L V → Option (DA L V × DA L V) := fun s => match agg.aggregateStatVar s with | .ok o => o | .error _ => none
  have hO : ∀ x ∈ flatVars whole, agg.aggregateStatVar x.2.2 = .ok (O x.2.2) := by
    intro x hx
    obtain ⟨st, hst, h1, h2⟩ := mem_flatVars.mp hx
    obtain ⟨o, ho⟩ := hok st hst _ _ h2
    simp only [O, ho]
  unfold Aggregator.aggregateStatistics at hw
  rw [whole_eq agg O whole hO] at hw
  simp only [bind, Except.bind, pure, Except.pure, Except.ok.injEq, Option.some.injEq, Prod.mk.injEq, List.map_map, Function.comp_def] at hw
  set t : StateTable L V := whole.map (fun st => (st.1, st.2.filterMap (fun vr => (vr.2.bind O).map (fun p => (vr.1, p))))) with ht
  have hst : some (sws, sw) = AggState.ofTable t := by
    rw [← hw.1, ← hw.2, ht]
    unfold AggState.ofTable
    simp only [List.map_map, Function.comp_def]
  refine ⟨t, ⟨by simpa [ht, Function.comp_def] using hk.1, ?_⟩, hst, by simp [ht, Function.comp_def], ?_⟩
  · intro sv hsv
    obtain ⟨st, hst, rfl⟩ := List.mem_map.mp hsv
    refine List.Sublist.nodup ?_ (hk.2 st hst)
    dsimp only
    generalize st.2 = vars
    clear hst hsv
    induction vars with
    | nil => simp
    | cons vr vars ih =>
      rw [List.filterMap_cons]
      cases (vr.2.bind O) with
      | none => exact ih.cons _
      | some p => exact ih.cons_cons _
  · intro s v
    have := hst
    unfold AggState.ofTable at this
    simp only [Option.some.injEq, Prod.mk.injEq] at this
    obtain ⟨h1, h2⟩ := this
    have g1 := get2_nested (t.map (fun sv => (sv.1, sv.2.map (fun v => (v.1, v.2.1))))) s v
    have g2 := get2_nested (t.map (fun sv => (sv.1, sv.2.map (fun v => (v.1, v.2.2))))) s v
    rw [List.map_map] at g1 g2
    constructor
    · rw [h1]
      refine Eq.trans ?_ g1.symm
      exact (entry?_map Prod.fst t s v).symm
    · rw [h2]
      refine Eq.trans ?_ g2.symm
      exact (entry?_map Prod.snd t s v).symm

end direct

end WBX
