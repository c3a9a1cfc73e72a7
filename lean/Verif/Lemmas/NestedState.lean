import Verif.Model.DefinePipeline
import Verif.Lemmas.Table
import Verif.Props.MetricsBase

set_option linter.unusedSectionVars false

namespace WBX
open DA
variable {L V D : Type} [DecidableEq L]

/-! ### The keys of a reconstructed state -/

/-- No repeated statistics or variables, and no statistic without a variable. -/
def Nested.Tidy {α : Type} (n : Nested α) : Prop :=
  (n.map Prod.fst).Nodup ∧ ∀ sv ∈ n, (sv.2.map Prod.fst).Nodup ∧ sv.2 ≠ []

theorem pyInsert_nodup {β : Type} {k : String} {v : β} {l : List (String × β)} (h : (l.map Prod.fst).Nodup) : ((pyInsert k v l).map Prod.fst).Nodup := by
  rw [pyInsert_keys]
  split_ifs with hk
  · exact h
  · rw [List.nodup_append]
    refine ⟨h, by simp, ?_⟩
    intro a ha b hb
    rw [List.mem_singleton] at hb
    rintro rfl
    exact hk (hb ▸ ha)

theorem pyInsert_ne_nil {β : Type} {k : String} {v : β} {l : List (String × β)} : pyInsert k v l ≠ [] := by
  cases l with
  | nil => simp [pyInsert]
  | cons p l => unfold pyInsert; split_ifs <;> simp

theorem Nested.tidy_put {α : Type} {n : Nested α} (h : n.Tidy) (s v : String) (x : α) : (n.put s v x).Tidy := by
  refine ⟨pyInsert_nodup h.1, ?_⟩
  intro sv hsv
  rcases pyInsert_mem _ _ _ _ hsv with rfl | hsv
  · refine ⟨pyInsert_nodup ?_, pyInsert_ne_nil⟩
    cases hg : pyGet? s n with
    | none => simp
    | some l => exact (h.2 _ (pyGet?_mem hg)).1
  · exact h.2 sv hsv

theorem reconstruct_tidy {α : Type} (kvs : List (AggKey × α)) : (reconstructAggregationState kvs).1.Tidy ∧ (reconstructAggregationState kvs).2.Tidy := by
  unfold reconstructAggregationState
  have : ∀ st0 : Nested α × Nested α, st0.1.Tidy → st0.2.Tidy → (kvs.foldl (fun st kv =>
    if kv.1.isStat then (st.1.put kv.1.stat kv.1.var kv.2, st.2)
    else (st.1, st.2.put kv.1.stat kv.1.var kv.2)) st0).1.Tidy ∧ (kvs.foldl (fun st kv =>
    if kv.1.isStat then (st.1.put kv.1.stat kv.1.var kv.2, st.2)
    else (st.1, st.2.put kv.1.stat kv.1.var kv.2)) st0).2.Tidy := by
    induction kvs with
    | nil => intro st0 h1 h2; exact ⟨h1, h2⟩
    | cons kv kvs ih =>
      intro st0 h1 h2
      rw [List.foldl_cons]
      apply ih
      · split_ifs
        · exact Nested.tidy_put h1 _ _ _
        · exact h1
      · split_ifs
        · exact h2
        · exact Nested.tidy_put h2 _ _ _
  exact this ([], []) ⟨by simp, by simp⟩ ⟨by simp, by simp⟩

/-! ### The two dicts of a state may list their keys in different orders -/

/-- The state with the entries of both dicts side by side, in the order of the first. -/
def tableOf (n : Nested (DA L V) × Nested (DA L V)) : StateTable L V :=
  n.1.map (fun sv => (sv.1, sv.2.map (fun v => (v.1, (v.2, (n.2.get? sv.1 v.1).getD v.2)))))

/-- Everything in the first dict is also in the second. -/
def Matching (n : Nested (DA L V) × Nested (DA L V)) : Prop := ∀ s v, (n.1.get? s v).isSome → (n.2.get? s v).isSome

theorem tableOf_unique {n : Nested (DA L V) × Nested (DA L V)} (h : n.1.Tidy) : UniqueNames (tableOf n) := by
  refine ⟨by simpa [tableOf, Function.comp_def] using h.1, ?_⟩
  intro sv hsv
  obtain ⟨sv', hsv', rfl⟩ := List.mem_map.mp hsv
  simpa [Function.comp_def] using (h.2 sv' hsv').1

theorem Nested.get?_mem {α : Type} {n : Nested α} (h : n.Tidy) {s v : String} {vars : Vars α} {x : α} (hs : (s, vars) ∈ n) (hv : (v, x) ∈ vars) : n.get? s v = some x := by
  unfold Nested.get?
  rw [(pyGet?_eq_some h.1 s vars).mpr hs]
  exact (pyGet?_eq_some (h.2 _ hs).1 v x).mpr hv

theorem mapWithDict_congr {α β : Type} (f : List α → Except Err β) (w w' : Tree α) : ∀ kvs : List (String × Tree α),
    (∀ kv ∈ kvs, (do
      let o ← w.item kv.1
      Tree.mapWith f kv.2 [o]) = (do
      let o ← w'.item kv.1
      Tree.mapWith f kv.2 [o])) →
    Tree.mapWithDict f (Dict.ofList kvs) [w] = Tree.mapWithDict f (Dict.ofList kvs) [w'] := by
  intro kvs h
  have step : ∀ (w : Tree α) (k : String) (v : Tree α) (rest : Dict α), Tree.mapWithDict f (.cons k v rest) [w] = (do
      let b ← (do
        let o ← w.item k
        Tree.mapWith f v [o])
      let r ← Tree.mapWithDict f rest [w]
      return .cons k b r) := by
    intro w k v rest
    simp only [Tree.mapWithDict, List.mapM_cons, List.mapM_nil]
    cases w.item k <;> rfl
  induction kvs with
  | nil => rfl
  | cons kv kvs ih =>
    simp only [Dict.ofList]
    rw [step, step, h kv (by simp), ih (fun kv hkv => h kv (by simp [hkv]))]

theorem item_nested {α : Type} (l : List (String × Tree α)) (k : String) : (Tree.dict (Dict.ofList l)).item k = match pyGet? k l with | some t => .ok t | none => .error .keyError :=
  dictGet_ofList l k

/-- What is in the second dict, in the order of the first. -/
def reordered (n : Nested (DA L V) × Nested (DA L V)) : Nested (DA L V) := n.1.map (fun sv => (sv.1, sv.2.map (fun v => (v.1, (n.2.get? sv.1 v.1).getD v.2))))

theorem ofTable_tableOf (n : Nested (DA L V) × Nested (DA L V)) : AggState.ofTable (tableOf n) = some (nestedTree n.1, nestedTree (reordered n)) := by
  unfold AggState.ofTable tableOf nestedTree reordered
  simp only [List.map_map, Function.comp_def, Prod.mk.eta, List.map_id']

theorem item_leaves {α : Type} (l : Vars α) (k : String) : (Aggregator.leaves l).item k = (pyItem l k).map Tree.leaf := by
  unfold Aggregator.leaves
  rw [item_nested, pyGet?_map]
  unfold pyItem
  cases pyGet? k l <;> rfl

theorem item_nestedTree {α : Type} (n : Nested α) (s : String) : (nestedTree n).item s = (pyItem n s).map Aggregator.leaves := by
  unfold nestedTree
  rw [item_nested, pyGet?_map]
  unfold pyItem
  cases pyGet? s n <;> rfl

/-- A statistic of the first dict: its variables in the second, and in the reordered second. -/
theorem reordered_item {n : Nested (DA L V) × Nested (DA L V)} (h1 : n.1.Tidy) (hm : Matching n) {s : String} {vars : Vars (DA L V)} (hs : (s, vars) ∈ n.1) :
    ∃ w w', pyItem n.2 s = .ok w ∧ pyItem (reordered n) s = .ok w' ∧ ∀ v ∈ vars, ∃ y, pyItem w v.1 = .ok y ∧ pyItem w' v.1 = .ok y := by
  have hget : ∀ v ∈ vars, ∃ y, n.2.get? s v.1 = some y := by
    intro v hv
    have := hm s v.1 (by rw [Nested.get?_mem h1 hs (x := v.2) hv]; rfl)
    exact Option.isSome_iff_exists.mp this
  obtain ⟨v0, hv0⟩ := List.exists_mem_of_ne_nil _ (h1.2 _ hs).2
  obtain ⟨y0, hy0⟩ := hget v0 hv0
  have : ∃ w, pyGet? s n.2 = some w := by
    unfold Nested.get? at hy0
    cases hg : pyGet? s n.2 with
    | none => rw [hg] at hy0; cases hy0
    | some w => exact ⟨w, rfl⟩
  obtain ⟨w, hw⟩ := this
  refine ⟨w, vars.map (fun v => (v.1, (n.2.get? s v.1).getD v.2)), by simp [pyItem, hw], ?_, ?_⟩
  · have hn : ((reordered n).map Prod.fst).Nodup := by simpa [reordered, Function.comp_def] using h1.1
    unfold pyItem
    rw [(pyGet?_eq_some hn s _).mpr (List.mem_map.mpr ⟨_, hs, rfl⟩)]
  · intro v hv
    obtain ⟨y, hy⟩ := hget v hv
    refine ⟨y, ?_, ?_⟩
    · unfold Nested.get? at hy
      rw [hw] at hy
      unfold pyItem
      rw [show pyGet? v.1 w = some y from hy]
    · unfold pyItem
      have hn : ((vars.map (fun v => (v.1, (n.2.get? s v.1).getD v.2))).map Prod.fst).Nodup := by simpa [Function.comp_def] using (h1.2 _ hs).1
      rw [(pyGet?_eq_some hn v.1 y).mpr (List.mem_map.mpr ⟨v, hv, by rw [hy]; rfl⟩)]

/-- The mean statistics do not depend on the order of the keys of the second dict. -/
theorem mapStructure_reordered {β : Type} (f : List (DA L V) → Except Err β) {n : Nested (DA L V) × Nested (DA L V)} (h1 : n.1.Tidy) (hm : Matching n) :
    Tree.mapStructure f [nestedTree n.1, nestedTree n.2] = Tree.mapStructure f [nestedTree n.1, nestedTree (reordered n)] := by
  show Tree.mapWith f (nestedTree n.1) [nestedTree n.2] = Tree.mapWith f (nestedTree n.1) [nestedTree (reordered n)]
  have : Tree.mapWithDict f (Dict.ofList (n.1.map (fun p => (p.1, Aggregator.leaves p.2)))) [nestedTree n.2] =
      Tree.mapWithDict f (Dict.ofList (n.1.map (fun p => (p.1, Aggregator.leaves p.2)))) [nestedTree (reordered n)] := by
    apply mapWithDict_congr
    intro kv hkv
    obtain ⟨⟨s, vars⟩, hs, rfl⟩ := List.mem_map.mp hkv
    obtain ⟨w, w', e1, e2, e3⟩ := reordered_item h1 hm hs
    rw [item_nestedTree, item_nestedTree, e1, e2]
    show Tree.mapWith f (Aggregator.leaves vars) [Aggregator.leaves w] = Tree.mapWith f (Aggregator.leaves vars) [Aggregator.leaves w']
    have : Tree.mapWithDict f (Dict.ofList (vars.map (fun p => (p.1, Tree.leaf p.2)))) [Aggregator.leaves w] =
        Tree.mapWithDict f (Dict.ofList (vars.map (fun p => (p.1, Tree.leaf p.2)))) [Aggregator.leaves w'] := by
      apply mapWithDict_congr
      intro kv hkv
      obtain ⟨v, hv, rfl⟩ := List.mem_map.mp hkv
      obtain ⟨y, y1, y2⟩ := e3 v hv
      rw [item_leaves, item_leaves, y1, y2]
    unfold Aggregator.leaves at this ⊢
    unfold Tree.mapWith
    rw [this]
  unfold nestedTree at this ⊢
  unfold Tree.mapWith
  rw [this]

theorem metricTable_nested [Div V] {n : Nested (DA L V) × Nested (DA L V)} (h1 : n.1.Tidy) (hm : Matching n) (metrics : List (String × Metric D (Option (StatVar L V)) (DA L V))) :
    AggState.metricTable (some (nestedState n)) metrics = computeMetricsFromStatistics metrics ((tableOf n).mapEntries (DA.zipWith (· / ·))) := by
  rw [← AggState.metricTable_ofTable _ (tableOf_unique h1), ofTable_tableOf]
  unfold AggState.metricTable AggState.meanStatistics
  rw [show nestedState n = (nestedTree n.1, nestedTree n.2) from rfl]
  dsimp only
  rw [mapStructure_reordered _ h1 hm]

/-! ### The file of the state -/

theorem toDataTrees_congr (fill : V) (w w' : Tree (DA L V)) : ∀ kvs : List (String × Tree (DA L V)),
    (∀ kv ∈ kvs, (do
      let o ← w.item kv.1
      Serialize.toDataTree fill kv.2 o) = (do
      let o ← w'.item kv.1
      Serialize.toDataTree fill kv.2 o)) →
    Serialize.toDataTrees fill (Dict.ofList kvs) w = Serialize.toDataTrees fill (Dict.ofList kvs) w' := by
  intro kvs h
  have step : ∀ (w : Tree (DA L V)) (k : String) (v : Tree (DA L V)) (rest : Dict (DA L V)), Serialize.toDataTrees fill (.cons k v rest) w = (do
      let t ← (do
        let o ← w.item k
        Serialize.toDataTree fill v o)
      let ts ← Serialize.toDataTrees fill rest w
      if '/' ∈ k.toList then .error .valueError else return .cons k t ts) := by
    intro w k v rest
    simp only [Serialize.toDataTrees]
    cases w.item k <;> rfl
  induction kvs with
  | nil => rfl
  | cons kv kvs ih =>
    simp only [Dict.ofList]
    rw [step, step, h kv (by simp), ih (fun kv hkv => h kv (by simp [hkv]))]

theorem toDataset_reordered (fill : V) (sep : String) {n : Nested (DA L V) × Nested (DA L V)} (h1 : n.1.Tidy) (hm : Matching n) :
    Serialize.toDataset fill sep (nestedState n) = Serialize.toDataset fill sep (nestedTree n.1, nestedTree (reordered n)) := by
  unfold Serialize.toDataset
  have : Serialize.toDataTree fill (nestedState n).1 (nestedState n).2 = Serialize.toDataTree fill (nestedTree n.1) (nestedTree (reordered n)) := by
    show Serialize.toDataTree fill (nestedTree n.1) (nestedTree n.2) = _
    have : Serialize.toDataTrees fill (Dict.ofList (n.1.map (fun p => (p.1, Aggregator.leaves p.2)))) (nestedTree n.2) =
        Serialize.toDataTrees fill (Dict.ofList (n.1.map (fun p => (p.1, Aggregator.leaves p.2)))) (nestedTree (reordered n)) := by
      apply toDataTrees_congr
      intro kv hkv
      obtain ⟨⟨s, vars⟩, hs, rfl⟩ := List.mem_map.mp hkv
      obtain ⟨w, w', e1, e2, e3⟩ := reordered_item h1 hm hs
      rw [item_nestedTree, item_nestedTree, e1, e2]
      show Serialize.toDataTree fill (Aggregator.leaves vars) (Aggregator.leaves w) = Serialize.toDataTree fill (Aggregator.leaves vars) (Aggregator.leaves w')
      have : Serialize.toDataTrees fill (Dict.ofList (vars.map (fun p => (p.1, Tree.leaf p.2)))) (Aggregator.leaves w) =
          Serialize.toDataTrees fill (Dict.ofList (vars.map (fun p => (p.1, Tree.leaf p.2)))) (Aggregator.leaves w') := by
        apply toDataTrees_congr
        intro kv hkv
        obtain ⟨v, hv, rfl⟩ := List.mem_map.mp hkv
        obtain ⟨y, y1, y2⟩ := e3 v hv
        rw [item_leaves, item_leaves, y1, y2]
      unfold Aggregator.leaves at this ⊢
      unfold Serialize.toDataTree
      rw [this]
    unfold nestedTree at this ⊢
    unfold Serialize.toDataTree
    rw [this]
  rw [this]

end WBX
