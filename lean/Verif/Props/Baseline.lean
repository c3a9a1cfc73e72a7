import Verif.Model.Baseline
import Verif.Model.Bootstrap
import Verif.Lemmas.Table
import Verif.Props.Serialize
import Verif.Props.Wrappers

set_option linter.unusedSectionVars false

/-!
# C57: comparisons with a baseline
-/

namespace WBX
open DA

/-! ### Names -/

theorem pyDict_nodup {β : Type} (items : List (String × β)) (h : (items.map Prod.fst).Nodup) : pyDict items = items := by
  have := Serialize.foldl_pyInsert items [] (by simpa using h)
  simpa [pyDict] using this

theorem append_right_inj' {p a b : String} : p ++ a = p ++ b ↔ a = b := by
  constructor
  · intro h
    have := congrArg String.toList h
    simp only [String.toList_append] at this
    exact String.toList_inj.mp (List.append_cancel_left this)
  · rintro rfl; rfl

/-- The names of the main side are never names of the baseline side. -/
theorem main_ne_baseline (a b : String) : "main_" ++ a ≠ "baseline_" ++ b := by
  intro h
  have := congrArg String.toList h
  rw [String.toList_append, String.toList_append] at this
  have h1 : "main_".toList = ['m', 'a', 'i', 'n', '_'] := by decide
  have h2 : "baseline_".toList = ['b', 'a', 's', 'e', 'l', 'i', 'n', 'e', '_'] := by decide
  rw [h1, h2] at this
  simp at this

theorem prefix_nodup {β γ : Type} (pre : String) (f : β → γ) (d : List (String × β)) (h : (d.map Prod.fst).Nodup) : ((d.map (fun kv => (pre ++ kv.1, f kv.2))).map Prod.fst).Nodup := by
  rw [List.map_map]
  have : (Prod.fst ∘ fun kv : String × β => (pre ++ kv.1, f kv.2)) = (fun k => pre ++ k) ∘ Prod.fst := rfl
  rw [this, ← List.map_map]
  exact h.map (fun a b hab => append_right_inj'.mp hab)

theorem both_nodup {β γ : Type} (f g : β → γ) (d e : List (String × β)) (h : (d.map Prod.fst).Nodup) (h' : (e.map Prod.fst).Nodup) :
    (((d.map (fun kv => ("main_" ++ kv.1, f kv.2))) ++ (e.map (fun kv => ("baseline_" ++ kv.1, g kv.2)))).map Prod.fst).Nodup := by
  rw [List.map_append, List.nodup_append]
  refine ⟨prefix_nodup _ _ _ h, prefix_nodup _ _ _ h', ?_⟩
  intro a ha b hb hab
  simp only [List.map_map, List.mem_map, Function.comp_apply] at ha hb
  obtain ⟨x, _, rfl⟩ := ha
  obtain ⟨y, _, rfl⟩ := hb
  exact main_ne_baseline _ _ hab

/-- A comparison of `d` and `e` written with both prefixes. -/
def bothSides {β : Type} (d e : List (String × β)) : List (String × β) := d.map (fun kv => ("main_" ++ kv.1, kv.2)) ++ e.map (fun kv => ("baseline_" ++ kv.1, kv.2))

theorem isPrefixOf_append (p k : String) : p.toList.isPrefixOf (p ++ k).toList = true := by
  rw [String.toList_append, List.isPrefixOf_iff_prefix]; exact List.prefix_append _ _

theorem strip_self {β : Type} (p : String) (d : List (String × β)) :
    (d.map (fun kv => (p ++ kv.1, kv.2))).filterMap (fun kv => if p.toList.isPrefixOf kv.1.toList then some (String.ofList (kv.1.toList.drop p.toList.length), kv.2) else none) = d := by
  induction d with
  | nil => rfl
  | cons kv d ih =>
    rw [List.map_cons, List.filterMap_cons]
    simp only [isPrefixOf_append, if_true]
    rw [ih, String.toList_append, List.drop_left, String.ofList_toList]

theorem strip_other {β : Type} {p q : String} (h : ∀ k, p.toList.isPrefixOf (q ++ k).toList = false) (d : List (String × β)) :
    (d.map (fun kv => (q ++ kv.1, kv.2))).filterMap (fun kv => if p.toList.isPrefixOf kv.1.toList then some (String.ofList (kv.1.toList.drop p.toList.length), kv.2) else none) = [] := by
  induction d with
  | nil => rfl
  | cons kv d ih =>
    rw [List.map_cons, List.filterMap_cons]
    simp only [h, Bool.false_eq_true, if_false]
    exact ih

theorem main_not_baseline (k : String) : "main_".toList.isPrefixOf ("baseline_" ++ k).toList = false := by
  rw [String.toList_append]
  have h1 : "main_".toList = ['m', 'a', 'i', 'n', '_'] := by decide
  have h2 : "baseline_".toList = ['b', 'a', 's', 'e', 'l', 'i', 'n', 'e', '_'] := by decide
  rw [h1, h2]
  rfl

theorem baseline_not_main (k : String) : "baseline_".toList.isPrefixOf ("main_" ++ k).toList = false := by
  rw [String.toList_append]
  have h1 : "main_".toList = ['m', 'a', 'i', 'n', '_'] := by decide
  have h2 : "baseline_".toList = ['b', 'a', 's', 'e', 'l', 'i', 'n', 'e', '_'] := by decide
  rw [h1, h2]
  rfl

theorem strip_both {β : Type} (d e : List (String × β)) (h : (d.map Prod.fst).Nodup) (h' : (e.map Prod.fst).Nodup) :
    stripKeys "main_" (bothSides d e) = d ∧ stripKeys "baseline_" (bothSides d e) = e := by
  unfold stripKeys bothSides
  constructor
  · rw [List.filterMap_append, strip_self, strip_other main_not_baseline, List.append_nil, pyDict_nodup _ h]
  · rw [List.filterMap_append, strip_self, strip_other baseline_not_main, List.nil_append, pyDict_nodup _ h']

section metric
variable {D S M : Type}

theorem statistics_both (m b : Metric D S M) (cmp : Vars M → Vars M → Except Err (Vars M)) (hm : (m.statistics.map Prod.fst).Nodup) (hb : (b.statistics.map Prod.fst).Nodup) :
    (baselineComparison m b cmp).statistics
      = m.statistics.map (fun ks => ("main_" ++ ks.1, ks.2.rename ("main_" ++ ks.2.uniqueName)))
        ++ b.statistics.map (fun ks => ("baseline_" ++ ks.1, ks.2.rename ("baseline_" ++ ks.2.uniqueName))) := by
  simp only [baselineComparison, prefixedStatistics]
  rw [pyDict_nodup _ (prefix_nodup "main_" (fun s : Statistic D S => s.rename ("main_" ++ s.uniqueName)) _ hm),
    pyDict_nodup _ (prefix_nodup "baseline_" (fun s : Statistic D S => s.rename ("baseline_" ++ s.uniqueName)) _ hb),
    pyDict_nodup _ (both_nodup (fun s : Statistic D S => s.rename ("main_" ++ s.uniqueName)) (fun s : Statistic D S => s.rename ("baseline_" ++ s.uniqueName)) _ _ hm hb)]

/-- The statistics of a comparison are those of the metric and of the baseline metric, both under prefixed names, computed as before. -/
theorem C57_statistics (m b : Metric D S M) (cmp : Vars M → Vars M → Except Err (Vars M)) (hm : (m.statistics.map Prod.fst).Nodup) (hb : (b.statistics.map Prod.fst).Nodup) :
    (∀ k s, (k, s) ∈ m.statistics → ∃ s', ("main_" ++ k, s') ∈ (baselineComparison m b cmp).statistics ∧ s'.uniqueName = "main_" ++ s.uniqueName ∧ s'.compute = s.compute) ∧
    (∀ k s, (k, s) ∈ b.statistics → ∃ s', ("baseline_" ++ k, s') ∈ (baselineComparison m b cmp).statistics ∧ s'.uniqueName = "baseline_" ++ s.uniqueName ∧ s'.compute = s.compute) ∧
    (baselineComparison m b cmp).statistics.length = m.statistics.length + b.statistics.length ∧
    ∀ x ∈ m.statistics, ∀ y ∈ b.statistics, "main_" ++ x.2.uniqueName ≠ "baseline_" ++ y.2.uniqueName := by
  rw [statistics_both m b cmp hm hb]
  refine ⟨?_, ?_, by simp, fun x _ y _ => main_ne_baseline _ _⟩
  · intro k s h
    exact ⟨_, List.mem_append_left _ (List.mem_map.mpr ⟨(k, s), h, rfl⟩), rfl, rfl⟩
  · intro k s h
    exact ⟨_, List.mem_append_right _ (List.mem_map.mpr ⟨(k, s), h, rfl⟩), rfl, rfl⟩

theorem pyGet?_both {β : Type} (d e : List (String × β)) (k : String) :
    pyGet? ("main_" ++ k) (bothSides d e) = pyGet? k d ∧ pyGet? ("baseline_" ++ k) (bothSides d e) = pyGet? k e := by
  have happ : ∀ (k : String) (a b : List (String × β)), pyGet? k (a ++ b) = (pyGet? k a).or (pyGet? k b) := by
    intro k a b
    induction a with
    | nil => rfl
    | cons x a ih =>
      simp only [List.cons_append, pyGet?]
      by_cases h : x.1 = k
      · simp [h]
      · simp [h, ih]
  have hpre : ∀ (p k : String) (a : List (String × β)), pyGet? (p ++ k) (a.map (fun kv => (p ++ kv.1, kv.2))) = pyGet? k a := by
    intro p k a
    induction a with
    | nil => rfl
    | cons x a ih =>
      simp only [List.map_cons, pyGet?, append_right_inj', ih]
  have hother : ∀ (p q k : String) (a : List (String × β)), (∀ k', q ++ k' ≠ p ++ k) → pyGet? (p ++ k) (a.map (fun kv => (q ++ kv.1, kv.2))) = none := by
    intro p q k a h
    induction a with
    | nil => rfl
    | cons x a ih =>
      simp only [List.map_cons, pyGet?, if_neg (h x.1)]
      exact ih
  unfold bothSides
  constructor
  · rw [happ, hpre, hother _ _ _ _ (fun k' h => main_ne_baseline _ _ h.symm), Option.or_none]
  · rw [happ, hpre, hother _ _ _ _ (fun k' h => main_ne_baseline _ _ h), Option.none_or]

/-- The statistics of a metric by internal name. -/
def renamedValues (m : Metric D S M) (sv : List (String × Vars M)) : Except Err (List (String × Vars M)) :=
  m.statistics.mapM (fun ks => do
    let v ← pyItem sv ks.2.uniqueName
    return (ks.1, v))

theorem mapM_append_ok {α β : Type} {f : α → Except Err β} {xs ys : List α} {r : List β} :
    (xs ++ ys).mapM f = .ok r ↔ ∃ a b, xs.mapM f = .ok a ∧ ys.mapM f = .ok b ∧ r = a ++ b := by
  rw [List.mapM_append, bind_ok_iff]
  constructor
  · rintro ⟨a, ha, h⟩
    obtain ⟨b, hb, h⟩ := bind_ok_iff.mp h
    cases h
    exact ⟨a, b, ha, hb, rfl⟩
  · rintro ⟨a, b, ha, hb, rfl⟩
    exact ⟨a, ha, bind_ok_iff.mpr ⟨b, hb, rfl⟩⟩

theorem mapM_prefixed {pre : String} (sv sv' : List (String × Vars M)) (hsv : ∀ k, pyGet? (pre ++ k) sv' = pyGet? k sv) (stats : List (String × Statistic D S)) (r : List (String × Vars M)) :
    (stats.map (fun ks => (pre ++ ks.1, ks.2.rename (pre ++ ks.2.uniqueName)))).mapM (fun ks => (do
      let v ← pyItem sv' ks.2.uniqueName
      return (ks.1, v) : Except Err (String × Vars M))) = .ok r ↔
    ∃ a, stats.mapM (fun ks => (do
      let v ← pyItem sv ks.2.uniqueName
      return (ks.1, v) : Except Err (String × Vars M))) = .ok a ∧ r = a.map (fun kv => (pre ++ kv.1, kv.2)) := by
  induction stats generalizing r with
  | nil =>
    simp [pure, Except.pure, eq_comm]
  | cons ks stats ih =>
    rw [List.map_cons, List.mapM_cons, List.mapM_cons]
    have hit : pyItem sv' (pre ++ ks.2.uniqueName) = pyItem sv ks.2.uniqueName := by
      unfold pyItem; rw [hsv]
    simp only [Statistic.rename, hit]
    constructor
    · intro h
      obtain ⟨x, hx, h⟩ := bind_ok_iff.mp h
      obtain ⟨v, hv, hx⟩ := bind_ok_iff.mp hx
      cases hx
      obtain ⟨rs, hrs, h⟩ := bind_ok_iff.mp h
      cases h
      obtain ⟨a, ha, rfl⟩ := (ih rs).mp hrs
      exact ⟨(ks.1, v) :: a, bind_ok_iff.mpr ⟨(ks.1, v), bind_ok_iff.mpr ⟨v, hv, rfl⟩, bind_ok_iff.mpr ⟨a, ha, rfl⟩⟩, rfl⟩
    · rintro ⟨a, h, rfl⟩
      obtain ⟨x, hx, h⟩ := bind_ok_iff.mp h
      obtain ⟨v, hv, hx⟩ := bind_ok_iff.mp hx
      cases hx
      obtain ⟨rs, hrs, h⟩ := bind_ok_iff.mp h
      cases h
      exact bind_ok_iff.mpr ⟨(pre ++ ks.1, v), bind_ok_iff.mpr ⟨v, hv, rfl⟩, bind_ok_iff.mpr ⟨rs.map (fun kv => (pre ++ kv.1, kv.2)), (ih _).mpr ⟨rs, hrs, rfl⟩, rfl⟩⟩

theorem mapM_keys {stats : List (String × Statistic D S)} {sv r : List (String × Vars M)} (h : stats.mapM (fun ks => (do
      let v ← pyItem sv ks.2.uniqueName
      return (ks.1, v) : Except Err (String × Vars M))) = .ok r) : r.map Prod.fst = stats.map Prod.fst := by
  induction stats generalizing r with
  | nil => cases h; rfl
  | cons ks stats ih =>
    rw [List.mapM_cons] at h
    obtain ⟨x, hx, h⟩ := bind_ok_iff.mp h
    obtain ⟨v, hv, hx⟩ := bind_ok_iff.mp hx
    cases hx
    obtain ⟨rs, hrs, h⟩ := bind_ok_iff.mp h
    cases h
    simp [ih hrs]

/-- The value of a comparison on statistics of both sides is the comparison of the value of the metric on those of the main side with the value of the baseline metric on those of
the baseline; it exists exactly if those do. -/
theorem C57_values (m b : Metric D S M) (cmp : Vars M → Vars M → Except Err (Vars M)) (hm : (m.statistics.map Prod.fst).Nodup) (hb : (b.statistics.map Prod.fst).Nodup)
    (main base : List (String × Vars M)) (r : Vars M) :
    computeMetricFromStatistics (baselineComparison m b cmp) (bothSides main base) = .ok r ↔
    ∃ x y, computeMetricFromStatistics m main = .ok x ∧ computeMetricFromStatistics b base = .ok y ∧ cmp x y = .ok r := by
  unfold computeMetricFromStatistics
  rw [statistics_both m b cmp hm hb]
  constructor
  · intro h
    obtain ⟨rn, hrn, h⟩ := bind_ok_iff.mp h
    obtain ⟨a1, a2, h1, h2, rfl⟩ := mapM_append_ok.mp hrn
    obtain ⟨c1, hc1, rfl⟩ := (mapM_prefixed main _ (fun k => (pyGet?_both main base k).1) _ _).mp h1
    obtain ⟨c2, hc2, rfl⟩ := (mapM_prefixed base _ (fun k => (pyGet?_both main base k).2) _ _).mp h2
    have hs := strip_both c1 c2 (by rw [mapM_keys hc1]; exact hm) (by rw [mapM_keys hc2]; exact hb)
    unfold bothSides at hs
    simp only [baselineComparison] at h
    rw [hs.1, hs.2] at h
    obtain ⟨x, hx, h⟩ := bind_ok_iff.mp h
    obtain ⟨y, hy, h⟩ := bind_ok_iff.mp h
    exact ⟨x, y, bind_ok_iff.mpr ⟨c1, hc1, hx⟩, bind_ok_iff.mpr ⟨c2, hc2, hy⟩, h⟩
  · rintro ⟨x, y, h1, h2, h⟩
    obtain ⟨c1, hc1, hx⟩ := bind_ok_iff.mp h1
    obtain ⟨c2, hc2, hy⟩ := bind_ok_iff.mp h2
    have hs := strip_both c1 c2 (by rw [mapM_keys hc1]; exact hm) (by rw [mapM_keys hc2]; exact hb)
    refine bind_ok_iff.mpr ⟨bothSides c1 c2, mapM_append_ok.mpr ⟨_, _, (mapM_prefixed main _ (fun k => (pyGet?_both main base k).1) _ _).mpr ⟨c1, hc1, rfl⟩,
      (mapM_prefixed base _ (fun k => (pyGet?_both main base k).2) _ _).mpr ⟨c2, hc2, rfl⟩, rfl⟩, ?_⟩
    simp only [baselineComparison]
    rw [hs.1, hs.2]
    exact bind_ok_iff.mpr ⟨x, hx, bind_ok_iff.mpr ⟨y, hy, h⟩⟩

end metric

/-! ### The difference -/

section difference
variable {L V : Type} [DecidableEq L] [Sub V]

/-- The difference has exactly the variables that both results have, each with the main value minus the baseline value. -/
theorem C57_difference (main base : Vars (DA L V)) : ∃ r, baselineDifference main base = .ok r ∧
    ∀ k, pyGet? k r = match pyGet? k main, pyGet? k base with
      | some x, some y => some (zipWith (· - ·) x y)
      | _, _ => none := by
  refine ⟨_, rfl, ?_⟩
  intro k
  induction main with
  | nil => simp [pyGet?]
  | cons kv main ih =>
    rw [List.filterMap_cons]
    by_cases hk : kv.1 = k
    · subst hk
      simp only [pyGet?, if_true]
      cases hb : pyGet? kv.1 base with
      | none =>
        simp only [Option.map_none]
        rw [ih, hb]
        cases pyGet? kv.1 main <;> rfl
      | some y => simp [pyGet?]
    · simp only [pyGet?, if_neg hk]
      cases hb : pyGet? kv.1 base with
      | none => simpa using ih
      | some y => simpa [pyGet?, if_neg hk] using ih

/-- Pointwise: values of arrays with the same labels are subtracted, and no label is lost. -/
theorem C57_difference_value (x y : DA L V) (hdims : x.dims = y.dims) (hcoords : ∀ d ∈ x.dims, x.coords d = y.coords d) (e : Dim → L) :
    (zipWith (· - ·) x y).val e = x.val e - y.val e ∧ (zipWith (· - ·) x y).dims = x.dims ∧ ∀ d ∈ x.dims, (zipWith (· - ·) x y).coords d = x.coords d := by
  refine ⟨rfl, by simp [zipWith, hdims], ?_⟩
  intro d hd
  simp only [zipWith, joinCoords, if_pos hd, if_pos (hdims ▸ hd), hcoords d hd, Finset.inter_self]

end difference

/-! ### States -/

section states
variable {L V D : Type} [DecidableEq L]

theorem dict_toList_ofList {α : Type} (l : List (String × Tree α)) : (Dict.ofList l).toList = l := by
  induction l with
  | nil => rfl
  | cons x l ih => rcases x with ⟨k, v⟩; simp only [Dict.ofList, Dict.toList, ih]

theorem combine_ofTable (t u : StateTable L V) (ht : UniqueNames t) (hu : UniqueNames u) :
    combineStates (AggState.ofTable t) (AggState.ofTable u) = .ok (AggState.ofTable (bothSides t u)) := by
  have key : ∀ (f : DA L V × DA L V → DA L V), pyDict (prefixKeys "main_" (t.map (fun sv => (sv.1, Aggregator.leaves (sv.2.map (fun v => (v.1, f v.2)))))) ++
      prefixKeys "baseline_" (u.map (fun sv => (sv.1, Aggregator.leaves (sv.2.map (fun v => (v.1, f v.2)))))))
      = (bothSides t u).map (fun sv => (sv.1, Aggregator.leaves (sv.2.map (fun v => (v.1, f v.2))))) := by
    intro f
    have hk : ∀ (w : StateTable L V), UniqueNames w → ((w.map (fun sv => (sv.1, Aggregator.leaves (sv.2.map (fun v => (v.1, f v.2)))))).map Prod.fst).Nodup := by
      intro w hw
      simpa [List.map_map, Function.comp_def] using hw.1
    unfold prefixKeys
    rw [pyDict_nodup _ (prefix_nodup "main_" (fun x => x) _ (hk t ht)), pyDict_nodup _ (prefix_nodup "baseline_" (fun x => x) _ (hk u hu)),
      pyDict_nodup _ (both_nodup (fun x => x) (fun x => x) _ _ (hk t ht) (hk u hu))]
    simp [bothSides, List.map_map, Function.comp_def]
  simp only [AggState.ofTable, combineStates, Tree.items, bind, Except.bind, dict_toList_ofList, pure, Except.pure]
  congr 3
  · congr 2; exact key Prod.fst
  · congr 2; exact key Prod.snd

theorem unique_bothSides {t u : StateTable L V} (ht : UniqueNames t) (hu : UniqueNames u) : UniqueNames (bothSides t u) := by
  refine ⟨both_nodup (fun x => x) (fun x => x) _ _ ht.1 hu.1, ?_⟩
  intro sv hsv
  unfold bothSides at hsv
  rcases List.mem_append.mp hsv with h | h
  · obtain ⟨x, hx, rfl⟩ := List.mem_map.mp h; exact ht.2 x hx
  · obtain ⟨x, hx, rfl⟩ := List.mem_map.mp h; exact hu.2 x hx

theorem mapEntries_bothSides {α : Type} (f : DA L V → DA L V → α) (t u : StateTable L V) : StateTable.mapEntries f (bothSides t u) = bothSides (t.mapEntries f) (u.mapEntries f) := by
  simp [StateTable.mapEntries, bothSides, List.map_map, Function.comp_def]

theorem metricTable_single [Div V] (t : StateTable L V) (ht : UniqueNames t) (n : String) (m : Metric D (Option (StatVar L V)) (DA L V)) (r : Vars (DA L V)) :
    (AggState.ofTable t).metricTable [(n, m)] = .ok [(n, r)] ↔ computeMetricFromStatistics m (t.mapEntries (zipWith (· / ·))) = .ok r := by
  rw [AggState.metricTable_ofTable t ht]
  unfold computeMetricsFromStatistics
  rw [List.mapM_cons, List.mapM_nil]
  constructor
  · intro h
    obtain ⟨x, hx, h⟩ := bind_ok_iff.mp h
    obtain ⟨v, hv, hx⟩ := bind_ok_iff.mp hx
    cases hx
    cases h
    exact hv
  · intro h
    exact bind_ok_iff.mpr ⟨(n, r), bind_ok_iff.mpr ⟨r, h, rfl⟩, rfl⟩

/-- Combined states have the sums of both sides under prefixed names, and a comparison evaluated on the combined state is the comparison of the metric on the main state with the
baseline metric on the state of the baseline. -/
theorem C57_states [Div V] (t u : StateTable L V) (ht : UniqueNames t) (hu : UniqueNames u) (n : String) (m b : Metric D (Option (StatVar L V)) (DA L V))
    (cmp : Vars (DA L V) → Vars (DA L V) → Except Err (Vars (DA L V))) (hm : (m.statistics.map Prod.fst).Nodup) (hb : (b.statistics.map Prod.fst).Nodup) :
    ∃ s, combineStates (AggState.ofTable t) (AggState.ofTable u) = .ok s ∧ ∀ r,
      s.metricTable [(n, baselineComparison m b cmp)] = .ok [(n, r)] ↔
      ∃ x y, (AggState.ofTable t).metricTable [(n, m)] = .ok [(n, x)] ∧ (AggState.ofTable u).metricTable [(n, b)] = .ok [(n, y)] ∧ cmp x y = .ok r := by
  refine ⟨_, combine_ofTable t u ht hu, fun r => ?_⟩
  rw [metricTable_single _ (unique_bothSides ht hu), mapEntries_bothSides, C57_values m b cmp hm hb]
  simp only [metricTable_single _ ht, metricTable_single _ hu]

end states

section paired
variable {L D : Type} [DecidableEq L] {d : Dim} {units : Finset L}

/-- Paired resampling: a replicate of the comparison compares the replicates of both sides for the same draws of experimental units, for the IID and the cluster bootstrap. -/
theorem C57_paired (t u : StateTable L (FV ℝ)) (ht : UniqueNames t) (hu : UniqueNames u) (n : String) (m b : Metric D (Option (StatVar L (FV ℝ))) (DA L (FV ℝ)))
    (cmp : Vars (DA L (FV ℝ)) → Vars (DA L (FV ℝ)) → Except Err (Vars (DA L (FV ℝ)))) (hm : (m.statistics.map Prod.fst).Nodup) (hb : (b.statistics.map Prod.fst).Nodup)
    (counts : DA L (FV ℝ)) :
    ∃ s, combineStates (AggState.ofTable t) (AggState.ofTable u) = .ok s ∧ ∀ r,
      bootstrapReplicates [(n, baselineComparison m b cmp)] d counts s = .ok [(n, r)] ↔
      ∃ x y, bootstrapReplicates [(n, m)] d counts (AggState.ofTable t) = .ok [(n, x)] ∧ bootstrapReplicates [(n, b)] d counts (AggState.ofTable u) = .ok [(n, y)] ∧ cmp x y = .ok r := by
  refine ⟨_, combine_ofTable t u ht hu, fun r => ?_⟩
  have hrep : ∀ (w : StateTable L (FV ℝ)), UniqueNames w → ∀ (mm : Metric D (Option (StatVar L (FV ℝ))) (DA L (FV ℝ))) rr,
      bootstrapReplicates [(n, mm)] d counts (AggState.ofTable w) = .ok [(n, rr)] ↔
      (AggState.ofTable (w.mapEntries (fun a b => (DA.dot a [counts] [d], DA.dot b [counts] [d])))).metricTable [(n, mm)] = .ok [(n, rr)] := by
    intro w hw mm rr
    have : bootstrapReplicates [(n, mm)] d counts (AggState.ofTable w)
        = (AggState.ofTable (w.mapEntries (fun a b => (DA.dot a [counts] [d], DA.dot b [counts] [d])))).metricTable [(n, mm)] :=
      bind_ok_of (AggState.dot_ofTable w hw [counts] [d]) rfl
    rw [this]
  rw [hrep _ (unique_bothSides ht hu), mapEntries_bothSides]
  simp only [hrep t ht, hrep u hu]
  obtain ⟨s, hs, h⟩ := C57_states _ _ (AggState.unique_mapEntries t ht (fun a b => (DA.dot a [counts] [d], DA.dot b [counts] [d])))
    (AggState.unique_mapEntries u hu (fun a b => (DA.dot a [counts] [d], DA.dot b [counts] [d]))) n m b cmp hm hb
  rw [combine_ofTable _ _ (AggState.unique_mapEntries t ht _) (AggState.unique_mapEntries u hu _)] at hs
  cases hs
  exact h r

/-- Likewise for the point estimates. -/
theorem C57_estimates (t u : StateTable L (FV ℝ)) (ht : UniqueNames t) (hu : UniqueNames u) (n : String) (m b : Metric D (Option (StatVar L (FV ℝ))) (DA L (FV ℝ)))
    (cmp : Vars (DA L (FV ℝ)) → Vars (DA L (FV ℝ)) → Except Err (Vars (DA L (FV ℝ)))) (hm : (m.statistics.map Prod.fst).Nodup) (hb : (b.statistics.map Prod.fst).Nodup)
    (hdt : ∀ sv ∈ t, ∀ v ∈ sv.2, d ∈ v.2.1.dims ∧ d ∈ v.2.2.dims) (hdu : ∀ sv ∈ u, ∀ v ∈ sv.2, d ∈ v.2.1.dims ∧ d ∈ v.2.2.dims) :
    ∃ s, combineStates (AggState.ofTable t) (AggState.ofTable u) = .ok s ∧ ∀ r,
      bootstrapEstimates [(n, baselineComparison m b cmp)] d s = .ok [(n, r)] ↔
      ∃ x y, bootstrapEstimates [(n, m)] d (AggState.ofTable t) = .ok [(n, x)] ∧ bootstrapEstimates [(n, b)] d (AggState.ofTable u) = .ok [(n, y)] ∧ cmp x y = .ok r := by
  refine ⟨_, combine_ofTable t u ht hu, fun r => ?_⟩
  have hrep : ∀ (w : StateTable L (FV ℝ)), UniqueNames w → (∀ sv ∈ w, ∀ v ∈ sv.2, d ∈ v.2.1.dims ∧ d ∈ v.2.2.dims) → ∀ (mm : Metric D (Option (StatVar L (FV ℝ))) (DA L (FV ℝ))) rr,
      bootstrapEstimates [(n, mm)] d (AggState.ofTable w) = .ok [(n, rr)] ↔
      (AggState.ofTable (w.mapEntries (fun a b => (DA.sumDims [d] a, DA.sumDims [d] b)))).metricTable [(n, mm)] = .ok [(n, rr)] := by
    intro w hw hdw mm rr
    have : bootstrapEstimates [(n, mm)] d (AggState.ofTable w)
        = (AggState.ofTable (w.mapEntries (fun a b => (DA.sumDims [d] a, DA.sumDims [d] b)))).metricTable [(n, mm)] :=
      bind_ok_of (AggState.sumAlongDims_ofTable w hw [d] (fun sv hsv v hv d' hd' => by
        rw [List.mem_singleton] at hd'; subst hd'; exact hdw sv hsv v hv)) rfl
    rw [this]
  have hboth : ∀ sv ∈ bothSides t u, ∀ v ∈ sv.2, d ∈ v.2.1.dims ∧ d ∈ v.2.2.dims := by
    intro sv hsv
    unfold bothSides at hsv
    rcases List.mem_append.mp hsv with h | h
    · obtain ⟨x, hx, rfl⟩ := List.mem_map.mp h; exact hdt x hx
    · obtain ⟨x, hx, rfl⟩ := List.mem_map.mp h; exact hdu x hx
  rw [hrep _ (unique_bothSides ht hu) hboth, mapEntries_bothSides]
  simp only [hrep t ht hdt, hrep u hu hdu]
  obtain ⟨s, hs, h⟩ := C57_states _ _ (AggState.unique_mapEntries t ht (fun a b => (DA.sumDims [d] a, DA.sumDims [d] b)))
    (AggState.unique_mapEntries u hu (fun a b => (DA.sumDims [d] a, DA.sumDims [d] b))) n m b cmp hm hb
  rw [combine_ofTable _ _ (AggState.unique_mapEntries t ht _) (AggState.unique_mapEntries u hu _)] at hs
  cases hs
  exact h r

end paired

/-! ### Several metrics -/

section forMetrics
variable {D S M : Type}

/-- `for_metrics`: a comparison for exactly the names that both mappings have, of the two metrics of that name; without baseline metrics, every metric is compared with itself. -/
theorem C57_for_metrics (metrics : List (String × Metric D S M)) (hn : (metrics.map Prod.fst).Nodup) (baselines : Option (List (String × Metric D S M)))
    (cmp : Vars M → Vars M → Except Err (Vars M)) (k : String) :
    pyGet? k (baselineForMetrics metrics baselines cmp) = match pyGet? k metrics, pyGet? k (baselines.getD metrics) with
      | some m, some b => some (baselineComparison m b cmp)
      | _, _ => none := by
  unfold baselineForMetrics
  simp only
  generalize baselines.getD metrics = bs
  induction metrics with
  | nil => simp [pyGet?]
  | cons nm metrics ih =>
    rw [List.map_cons, List.nodup_cons] at hn
    have ih := ih hn.2
    rw [List.filterMap_cons]
    by_cases hk : nm.1 = k
    · subst hk
      simp only [pyGet?, if_true]
      cases hb : pyGet? nm.1 bs with
      | none =>
        simp only [Option.map_none]
        rw [ih, hb]
        cases pyGet? nm.1 metrics <;> rfl
      | some y => simp [pyGet?]
    · simp only [pyGet?, if_neg hk]
      cases hb : pyGet? nm.1 bs with
      | none => simpa using ih
      | some y => simpa [pyGet?, if_neg hk] using ih

end forMetrics

/-! ### Instance -/

section instance_
variable {D : Type}

/-- A metric that is the mean of one statistic. -/
def exMean (D : Type) : Metric D (Option (StatVar ℕ (FV ℚ))) (DA ℕ (FV ℚ)) := Statistic.toMetric { uniqueName := "SquaredError", compute := fun _ _ => .ok [] }

def exSide (x w : ℚ) : StateTable ℕ (FV ℚ) := [("SquaredError", [("t", (DA.scalar (.fin x), DA.scalar (.fin w)))])]

theorem exSide_unique (x w : ℚ) : UniqueNames (exSide x w) := by
  refine ⟨by simp [exSide], ?_⟩
  intro sv hsv
  simp only [exSide, List.mem_singleton] at hsv
  subst hsv
  simp

/-- Means 6/2 and 8/4: the difference is 1. -/
example : ∃ s r x, combineStates (AggState.ofTable (exSide 6 2)) (AggState.ofTable (exSide 8 4)) = .ok s ∧
    s.metricTable [("mse", baselineComparison (exMean D) (exMean D) baselineDifference)] = .ok [("mse", r)] ∧ pyGet? "t" r = some x ∧ x.val (fun _ => 0) = .fin 1 := by
  obtain ⟨s, hs, h⟩ := C57_states (exSide 6 2) (exSide 8 4) (exSide_unique 6 2) (exSide_unique 8 4) "mse" (exMean D) (exMean D) baselineDifference
    (by simp [exMean, Statistic.toMetric]) (by simp [exMean, Statistic.toMetric])
  have hside : ∀ x w : ℚ, (AggState.ofTable (exSide x w)).metricTable [("mse", exMean D)] = .ok [("mse", [("t", zipWith (· / ·) (DA.scalar (.fin x)) (DA.scalar (.fin w)))])] := by
    intro x w
    rw [metricTable_single _ (exSide_unique x w)]
    simp [exMean, Statistic.toMetric, computeMetricFromStatistics, exSide, StateTable.mapEntries, pyItem, pyGet?, bind, Except.bind, pure, Except.pure]
  refine ⟨s, [("t", zipWith (· - ·) (zipWith (· / ·) (DA.scalar (.fin 6)) (DA.scalar (.fin 2))) (zipWith (· / ·) (DA.scalar (.fin 8)) (DA.scalar (.fin 4))))],
    zipWith (· - ·) (zipWith (· / ·) (DA.scalar (.fin 6)) (DA.scalar (.fin 2))) (zipWith (· / ·) (DA.scalar (.fin 8)) (DA.scalar (.fin 4))), hs, (h _).mpr
    ⟨_, _, hside 6 2, hside 8 4, ?_⟩, by simp only [pyGet?, if_true], ?_⟩
  · simp [baselineDifference, pyGet?]
  · simp only [zipWith, scalar]
    rw [FV.fin_div_fin_of_ne _ (by norm_num), FV.fin_div_fin_of_ne _ (by norm_num), FV.fin_sub_fin]
    norm_num

end instance_

end WBX
