import Verif.Props.PipelineFiles
import Verif.Props.Serialize

set_option linter.unusedSectionVars false

/-!
# C81: the file of the aggregation state that the pipeline writes
-/

namespace WBX
open DA

section nested
variable {α : Type}

theorem getPath_ofList (kvs : List (String × Tree α)) (k : String) (p : List String) : Dict.getPath (Dict.ofList kvs) k p = (pyGet? k kvs).bind (fun t => t.getPath p) := by
  induction kvs with
  | nil => rfl
  | cons kv kvs ih =>
    rcases kv with ⟨k', t⟩
    simp only [Dict.ofList, Dict.getPath, pyGet?]
    by_cases h : k' = k
    · rw [if_pos h, if_pos h]; rfl
    · rw [if_neg h, if_neg h, ih]

theorem getPath_leaves (l : Vars α) (p : List String) : (Aggregator.leaves l).getPath p = match p with | [v] => pyGet? v l | _ => none := by
  cases p with
  | nil => rfl
  | cons v p =>
    show Dict.getPath (Dict.ofList _) v p = _
    rw [getPath_ofList, pyGet?_map]
    cases hv : pyGet? v l with
    | none => cases p <;> simp [hv]
    | some x => cases p <;> simp [Tree.getPath, hv]

theorem getPath_nestedTree (n : Nested α) (p : List String) : (nestedTree n).getPath p = match p with | [s, v] => n.get? s v | _ => none := by
  cases p with
  | nil => rfl
  | cons s p =>
    show Dict.getPath (Dict.ofList _) s p = _
    rw [getPath_ofList, pyGet?_map]
    cases hs : pyGet? s n with
    | none => rcases p with _ | ⟨v, _ | ⟨w, p⟩⟩ <;> simp [Nested.get?, hs]
    | some l => rcases p with _ | ⟨v, _ | ⟨w, p⟩⟩ <;> simp [Nested.get?, hs, getPath_leaves]

theorem allKeys_ofList (P : String → Prop) (kvs : List (String × Tree α)) (h : ∀ p ∈ kvs, P p.1 ∧ p.2.AllKeys P) : (Dict.ofList kvs).AllKeys P := by
  induction kvs with
  | nil => simp [Dict.ofList, Dict.AllKeys]
  | cons kv kvs ih =>
    simp only [Dict.ofList, Dict.AllKeys]
    exact ⟨(h kv (by simp)).1, (h kv (by simp)).2, ih (fun p hp => h p (by simp [hp]))⟩

theorem dictsOnly_ofList (kvs : List (String × Tree α)) (h : ∀ p ∈ kvs, p.2.DictsOnly) : (Dict.ofList kvs).DictsOnly := by
  induction kvs with
  | nil => simp [Dict.ofList, Dict.DictsOnly]
  | cons kv kvs ih =>
    simp only [Dict.ofList, Dict.DictsOnly]
    exact ⟨h kv (by simp), ih (fun p hp => h p (by simp [hp]))⟩

theorem nested_allKeys (P : String → Prop) (n : Nested α) (h : ∀ sv ∈ n, P sv.1 ∧ ∀ v ∈ sv.2, P v.1) : (nestedTree n).AllKeys P := by
  apply allKeys_ofList
  intro q hq
  obtain ⟨sv, hsv, rfl⟩ := List.mem_map.mp hq
  refine ⟨(h sv hsv).1, allKeys_ofList P _ ?_⟩
  intro r hr
  obtain ⟨v, hv, rfl⟩ := List.mem_map.mp hr
  exact ⟨(h sv hsv).2 v hv, trivial⟩

theorem nested_dictsOnly (n : Nested α) : (nestedTree n).DictsOnly := by
  apply dictsOnly_ofList
  intro q hq
  obtain ⟨sv, hsv, rfl⟩ := List.mem_map.mp hq
  apply dictsOnly_ofList
  intro r hr
  obtain ⟨v, hv, rfl⟩ := List.mem_map.mp hr
  trivial

theorem nested_wf {n : Nested α} (h : n.Tidy) : (nestedTree n).WF := by
  refine ⟨?_, ?_⟩
  · rw [Aggregator.keys_ofList]
    simpa [Function.comp_def] using h.1
  · rw [Aggregator.wf_ofList]
    intro q hq
    obtain ⟨sv, hsv, rfl⟩ := List.mem_map.mp hq
    exact Aggregator.leaves_wf _ (h.2 sv hsv).1

theorem nested_shape {L V : Type} [DecidableEq L] (n : Nested (DA L V) × Nested (DA L V)) : (nestedTree n.1).shape = (nestedTree (reordered n)).shape := by
  unfold Tree.shape nestedTree reordered
  simp only [Tree.map, Aggregator.map_ofList, List.map_map]
  congr 2
  apply List.map_congr_left
  intro sv _
  simp only [Function.comp_def, Aggregator.leaves_map, List.map_map]

theorem reordered_get {L V : Type} [DecidableEq L] (n : Nested (DA L V) × Nested (DA L V)) (hm : Matching n) (s v : String) :
    (reordered n).get? s v = if (n.1.get? s v).isSome then n.2.get? s v else none := by
  unfold reordered
  rw [show ∀ m : Nested (DA L V), m.get? s v = (pyGet? s m).bind (pyGet? v) from fun _ => rfl]
  have h : ∀ l : Nested (DA L V), pyGet? s (l.map (fun sv => (sv.1, sv.2.map (fun v => (v.1, (n.2.get? sv.1 v.1).getD v.2))))) =
      (pyGet? s l).map (fun vars => vars.map (fun v => (v.1, (n.2.get? s v.1).getD v.2))) := by
    intro l
    induction l with
    | nil => rfl
    | cons sv l ih =>
      simp only [List.map_cons, pyGet?]
      by_cases h : sv.1 = s
      · rw [if_pos h, if_pos h, h]; rfl
      · rw [if_neg h, if_neg h, ih]
  have h' : ∀ l : Vars (DA L V), pyGet? v (l.map (fun v => (v.1, (n.2.get? s v.1).getD v.2))) = (pyGet? v l).map (fun a => (n.2.get? s v).getD a) := by
    intro l
    induction l with
    | nil => rfl
    | cons x l ih =>
      simp only [List.map_cons, pyGet?]
      by_cases h : x.1 = v
      · rw [if_pos h, if_pos h, h]; rfl
      · rw [if_neg h, if_neg h, ih]
  have hmsv := hm s v
  rw [show n.1.get? s v = (pyGet? s n.1).bind (pyGet? v) from rfl] at hmsv ⊢
  rw [h]
  cases hs : pyGet? s n.1 with
  | none => simp
  | some vars =>
    rw [hs, Option.bind_some] at hmsv
    rw [Option.map_some, Option.bind_some, Option.bind_some, h']
    cases hv : pyGet? v vars with
    | none => simp
    | some x =>
      rw [hv] at hmsv
      obtain ⟨y, hy⟩ := Option.isSome_iff_exists.mp (hmsv rfl)
      simp [hy]

end nested

variable {K L : Type} [Field K] [LinearOrder K] [IsStrictOrderedRing K] [LinearOrder L]

section setup
variable {H : Dim → Vars (StatVar L (FV K)) → Vars (StatVar L (FV K)) → Prop}
  {metrics : List (String × Metric (StatVar L (FV K)) (Option (StatVar L (FV K))) (DA L (FV K)))}
  {targets : List L → LeadChunk L → Except Err (Vars (StatVar L (FV K)))}
  {predictions : List L → LeadChunk L → Vars (StatVar L (FV K)) → Except Err (Vars (StatVar L (FV K)))}
  {agg : Aggregator L (FV K)} {is ts : List L} {a b : Option Int} {out : List (TimeChunks.Offsets × (List L × LeadChunk L))}
  {p t : Vars (StatVar L (FV K))} {whole : List (String × Vars (Option (StatVar L (FV K))))} {sws sw : Tree (DA L (FV K))}
  {fill : FV K} {paths : OutPaths} {outputs : List (String × Except Err (List (String × DA L (FV K))))}

/-- C81: the file of the aggregation state. If the state has an entry, its names are usable in paths and do not contain `#`, and its arrays agree on their
labels, then every run of the pipeline writes a file from which `AggregationState.from_dataset` reads back the state of the direct evaluation. -/
theorem C81_state_file (hs : PipelineSetup H metrics targets predictions agg is ts a b out p t whole sws sw)
    (hsome : ∃ s v x, sws.get2 s v = some x)
    (hgood : ∀ s v, (sws.get2 s v).isSome → (GoodName s ∧ '#' ∉ s.toList) ∧ GoodName v ∧ '#' ∉ v.toList)
    (hlab : ∀ s v s' v' x y, (sws.get2 s v = some x ∨ sw.get2 s v = some x) → (sws.get2 s' v' = some y ∨ sw.get2 s' v' = some y) → x.SameLabels y)
    {path : String} (hpath : paths.state = some path) (hr : RunsTo fill paths metrics agg targets predictions out outputs) :
    ∃ before file state, outputs = before ++ [(path, Except.ok file)] ∧ Serialize.fromDataset "#" file = .ok state ∧
      (∀ s v, Option.Rel DA.Same (state.1.getPath [s, v]) (sws.get2 s v) ∧ Option.Rel DA.Same (state.2.getPath [s, v]) (sw.get2 s v)) ∧
      ∀ q, (state.1.getPath q).isSome ∨ (state.2.getPath q).isSome → ∃ s v, q = [s, v] := by
  rcases runs_state hs hr with ⟨_, hno⟩ | ⟨_, n, hf, rfl⟩
  · obtain ⟨s, v, x, hx⟩ := hsome
    rw [hno] at hx
    cases hx
  · have hm := hf.matching (setup_weights hs)
    have hnc : ∀ k : String, '#' ∉ k.toList → NoCommonChar k "#" := by
      intro k hk c hc hc'
      have h1 : c = '#' := by simpa using hc'
      exact hk (h1 ▸ hc)
    have rel_some : ∀ {o o' : Option (DA L (FV K))} {x}, Option.Rel DA.Same o o' → o = some x → ∃ y, o' = some y ∧ x.Same y := by
      intro o o' x h hx
      subst hx
      cases h with
      | some h => exact ⟨_, rfl, h⟩
    have hkeys : (nestedTree n.1).AllKeys (fun k => GoodName k ∧ NoCommonChar k "#") := by
      apply nested_allKeys
      intro sv hsv
      have hv : ∀ v ∈ sv.2, (GoodName sv.1 ∧ '#' ∉ sv.1.toList) ∧ GoodName v.1 ∧ '#' ∉ v.1.toList := by
        intro v hv
        have h1 := Nested.get?_mem hf.tidy (s := sv.1) (vars := sv.2) (v := v.1) (x := v.2) hsv hv
        obtain ⟨y, hy, _⟩ := rel_some (hf.statistics sv.1 v.1) h1
        exact hgood sv.1 v.1 (by rw [hy]; rfl)
      obtain ⟨v, hv0⟩ := List.exists_mem_of_ne_nil _ (hf.tidy.2 sv hsv).2
      exact ⟨⟨(hv v hv0).1.1, hnc _ (hv v hv0).1.2⟩, fun v hv' => ⟨(hv v hv').2.1, hnc _ (hv v hv').2.2⟩⟩
    have hentry : ∀ x ∈ stateArrays (nestedTree n.1, nestedTree (reordered n)), ∃ s v, ∃ y, (sws.get2 s v = some y ∨ sw.get2 s v = some y) ∧ x.Same y := by
      intro x hx
      rcases List.mem_append.mp hx with hx | hx
      · obtain ⟨⟨q, x'⟩, hq, rfl⟩ := List.mem_map.mp hx
        rw [← Tree.getPath_iff _ (nested_wf hf.tidy), getPath_nestedTree] at hq
        rcases q with _ | ⟨s, _ | ⟨v, _ | ⟨w, q⟩⟩⟩
        · cases hq
        · cases hq
        · obtain ⟨y, hy, h1⟩ := rel_some (hf.statistics s v) hq
          exact ⟨s, v, y, Or.inl hy, h1⟩
        · cases hq
      · obtain ⟨⟨q, x'⟩, hq, rfl⟩ := List.mem_map.mp hx
        have hwf : (nestedTree (reordered n)).WF := by
          rw [← Tree.wf_shape, ← nested_shape, Tree.wf_shape]
          exact nested_wf hf.tidy
        rw [← Tree.getPath_iff _ hwf, getPath_nestedTree] at hq
        rcases q with _ | ⟨s, _ | ⟨v, _ | ⟨w, q⟩⟩⟩
        · cases hq
        · cases hq
        · dsimp only at hq
          rw [reordered_get n hm] at hq
          split_ifs at hq
          obtain ⟨y, hy, h1⟩ := rel_some (hf.weights s v) hq
          exact ⟨s, v, y, Or.inr hy, h1⟩
        · cases hq
    obtain ⟨ds, r, e1, e2, e3⟩ := C14_dataset_roundtrip fill "#" (nestedTree n.1, nestedTree (reordered n)) (nested_shape n) (nested_wf hf.tidy) (nested_dictsOnly n.1)
      hkeys (by decide) (by unfold NoCommonChar; decide) (by unfold NoCommonChar; decide) (by
        intro x hx y hy
        obtain ⟨s, v, x', hx', sx⟩ := hentry x hx
        obtain ⟨s', v', y', hy', sy⟩ := hentry y hy
        intro d hd hd'
        rw [sx.coords d hd, sy.coords d hd']
        exact hlab s v s' v' x' y' hx' hy' d (sx.dims ▸ hd) (sy.dims ▸ hd'))
    refine ⟨(paths.metrics.map (fun p => (p, computeMetrics fill metrics (nestedState n)))).toList, ds, r, ?_, e2, ?_, ?_⟩
    · unfold outputsOf
      rw [hpath, toDataset_reordered fill "#" hf.tidy hm, e1]
      rfl
    · intro s v
      obtain ⟨g1, g2⟩ := e3 [s, v]
      dsimp only at g1 g2
      rw [getPath_nestedTree] at g1 g2
      dsimp only at g1 g2
      have trans : ∀ {o o' o'' : Option (DA L (FV K))}, Option.Rel DA.Same o o' → Option.Rel DA.Same o' o'' → Option.Rel DA.Same o o'' := by
        intro o o' o'' h h'
        cases h with
        | none => exact h'
        | some h => cases h' with
          | some h' => exact .some (h.trans h')
      refine ⟨trans g1 (hf.statistics s v), trans g2 ?_⟩
      rw [reordered_get n hm]
      split_ifs with h
      · exact hf.weights s v
      · have h1 := hf.statistics s v
        rw [Option.not_isSome_iff_eq_none.mp h] at h1
        have h2 : sws.get2 s v = none := by
          revert h1
          cases sws.get2 s v with
          | none => intro _; rfl
          | some x => intro h1; cases h1
        obtain ⟨tb, _, _, _, hget⟩ := direct_table hs.names hs.aggregated
        have h3 := (hget s v).1
        rw [h2, Option.map_eq_none_iff] at h3
        rw [← (hget s v).2, h3]
        exact .none
    · intro q hq
      obtain ⟨g1, g2⟩ := e3 q
      dsimp only at g1 g2
      rw [getPath_nestedTree] at g1 g2
      rcases q with _ | ⟨s, _ | ⟨v, _ | ⟨w, q⟩⟩⟩
      · exfalso
        dsimp only at g1 g2
        rcases hq with hq | hq <;> obtain ⟨x, hx⟩ := Option.isSome_iff_exists.mp hq
        · rw [hx] at g1; cases g1
        · rw [hx] at g2; cases g2
      · exfalso
        dsimp only at g1 g2
        rcases hq with hq | hq <;> obtain ⟨x, hx⟩ := Option.isSome_iff_exists.mp hq
        · rw [hx] at g1; cases g1
        · rw [hx] at g2; cases g2
      · exact ⟨s, v, rfl⟩
      · exfalso
        dsimp only at g1 g2
        rcases hq with hq | hq <;> obtain ⟨x, hx⟩ := Option.isSome_iff_exists.mp hq
        · rw [hx] at g1; cases g1
        · rw [hx] at g2; cases g2

end setup
end WBX
