import Verif.Lemmas.Pipeline
import Verif.Spec.Pipeline

set_option linter.unusedSectionVars false

namespace WBX
open DA
variable {L V : Type} [DecidableEq L]

/-! ### Python dicts -/

theorem pyGet?_insert {β : Type} (k k' : String) (v : β) (l : List (String × β)) :
    pyGet? k' (pyInsert k v l) = if k = k' then some v else pyGet? k' l := by
  induction l with
  | nil => simp only [pyInsert, pyGet?]
  | cons p l ih =>
    rcases p with ⟨k0, v0⟩
    by_cases h : k0 = k
    · subst h
      simp only [pyInsert, if_true, pyGet?]
      by_cases h' : k0 = k' <;> simp [h']
    · simp only [pyInsert, if_neg h, pyGet?, ih]
      by_cases h' : k0 = k'
      · subst h'; simp [Ne.symm h]
      · simp [h']

theorem Nested.get?_put {α : Type} (d : Nested α) (s v s' v' : String) (x : α) :
    (d.put s v x).get? s' v' = if s = s' ∧ v = v' then some x else d.get? s' v' := by
  unfold Nested.put Nested.get?
  rw [pyGet?_insert]
  by_cases hs : s = s'
  · subst hs
    simp only [if_true, Option.bind_some, pyGet?_insert, true_and]
    by_cases hv : v = v'
    · simp [hv]
    · simp only [hv, if_false]
      cases pyGet? s d <;> simp [pyGet?]
  · simp [hs]

theorem pyGet?_eq_some {β : Type} {l : List (String × β)} (hn : (l.map Prod.fst).Nodup) (k : String) (x : β) :
    pyGet? k l = some x ↔ (k, x) ∈ l := by
  induction l with
  | nil => simp [pyGet?]
  | cons p l ih =>
    rcases p with ⟨k0, v0⟩
    rw [List.map_cons, List.nodup_cons] at hn
    simp only [pyGet?, List.mem_cons, Prod.mk.injEq]
    by_cases h : k0 = k
    · subst h
      rw [if_pos rfl]
      constructor
      · intro h; left; exact ⟨rfl, (Option.some.inj h).symm⟩
      · rintro (⟨-, rfl⟩ | h)
        · rfl
        · exact absurd (List.mem_map.mpr ⟨_, h, rfl⟩) hn.1
    · rw [if_neg h, ih hn.2]
      constructor
      · exact Or.inr
      · rintro (⟨rfl, -⟩ | h')
        · exact absurd rfl h
        · exact h'

theorem dictGet_ofList {α : Type} (l : List (String × Tree α)) (k : String) :
    (Dict.ofList l).get k = match pyGet? k l with | some t => .ok t | none => .error .keyError := by
  induction l with
  | nil => rfl
  | cons p l ih =>
    rcases p with ⟨k0, v0⟩
    simp only [Dict.ofList, Dict.get, pyGet?]
    by_cases h : k0 = k
    · simp [h]
    · simp [h, ih]

theorem pyGet?_map {β γ : Type} (f : β → γ) (l : List (String × β)) (k : String) :
    pyGet? k (l.map (fun p => (p.1, f p.2))) = (pyGet? k l).map f := by
  induction l with
  | nil => rfl
  | cons p l ih =>
    rcases p with ⟨k0, v0⟩
    simp only [List.map_cons, pyGet?, ih]
    by_cases h : k0 = k <;> simp [h]

theorem get2_nested {α : Type} (d : Nested α) (s v : String) :
    (Tree.dict (Dict.ofList (d.map (fun p => (p.1, Aggregator.leaves p.2))))).get2 s v = d.get? s v := by
  unfold Tree.get2 Nested.get?
  simp only [dictGet_ofList]
  have h := pyGet?_map (fun l : List (String × α) => Aggregator.leaves l) d s
  rw [h]
  cases pyGet? s d with
  | none => rfl
  | some l =>
    have h2 := pyGet?_map (fun a : α => Tree.leaf a) l v
    simp only [Option.map_some, Option.bind_some, Aggregator.leaves, dictGet_ofList]
    rw [h2]
    cases pyGet? v l <;> rfl

/-! ### Reconstruction -/

theorem reconstruct_get {α : Type} (kvs : List (AggKey × α)) (ty : Bool) (s v : String) (st0 : Nested α × Nested α)
    (hnd : (kvs.map Prod.fst).Nodup) (hoff : ∀ kv ∈ kvs, kv.1.dropOffsets = kv.1) :
    let st := kvs.foldl (fun st kv =>
      if kv.1.isStat then (st.1.put kv.1.stat kv.1.var kv.2, st.2)
      else (st.1, st.2.put kv.1.stat kv.1.var kv.2)) st0
    (∀ x, (⟨ty, s, v, none, none⟩, x) ∈ kvs → (if ty then st.1 else st.2).get? s v = some x) ∧
    ((∀ x, (⟨ty, s, v, none, none⟩, x) ∉ kvs) →
      (if ty then st.1 else st.2).get? s v = (if ty then st0.1 else st0.2).get? s v) := by
  induction kvs generalizing st0 with
  | nil => simp
  | cons kv kvs ih =>
    rcases kv with ⟨k, x0⟩
    rw [List.map_cons, List.nodup_cons] at hnd
    simp only [List.foldl_cons]
    obtain ⟨i1, i2⟩ := ih (if k.isStat then (st0.1.put k.stat k.var x0, st0.2) else (st0.1, st0.2.put k.stat k.var x0))
      hnd.2 (fun kv h => hoff kv (by simp [h]))
    have hko : k.dropOffsets = k := hoff (k, x0) (by simp)
    have hone : (if ty then (if k.isStat then (st0.1.put k.stat k.var x0, st0.2) else (st0.1, st0.2.put k.stat k.var x0)).1
        else (if k.isStat then (st0.1.put k.stat k.var x0, st0.2) else (st0.1, st0.2.put k.stat k.var x0)).2).get? s v
        = if k = ⟨ty, s, v, none, none⟩ then some x0 else (if ty then st0.1 else st0.2).get? s v := by
      rcases k with ⟨b, ks, kv, io, lo⟩
      simp only [AggKey.dropOffsets, AggKey.mk.injEq, true_and] at hko
      obtain ⟨rfl, rfl⟩ := hko
      cases ty <;> cases b <;> simp [Nested.get?_put]
    constructor
    · intro x hx
      rcases List.mem_cons.mp hx with h | h
      · simp only [Prod.mk.injEq] at h
        obtain ⟨rfl, rfl⟩ := h
        have hno : ∀ y, ((⟨ty, s, v, none, none⟩ : AggKey), y) ∉ kvs :=
          fun y hy => hnd.1 (List.mem_map.mpr ⟨_, hy, rfl⟩)
        rw [i2 hno, hone]
        simp
      · exact i1 x h
    · intro hno
      rw [i2 (fun y hy => hno y (by simp [hy])), hone, if_neg]
      rintro rfl
      exact hno x0 (by simp)

theorem reconstruct_get_some {α : Type} (kvs : List (AggKey × α)) (hnd : (kvs.map Prod.fst).Nodup)
    (hoff : ∀ kv ∈ kvs, kv.1.dropOffsets = kv.1) (ty : Bool) (s v : String) (x : α)
    (h : (⟨ty, s, v, none, none⟩, x) ∈ kvs) :
    (if ty then (reconstructAggregationState kvs).1 else (reconstructAggregationState kvs).2).get? s v = some x :=
  (reconstruct_get kvs ty s v ([], []) hnd hoff).1 x h

theorem reconstruct_get_none {α : Type} (kvs : List (AggKey × α)) (hnd : (kvs.map Prod.fst).Nodup)
    (hoff : ∀ kv ∈ kvs, kv.1.dropOffsets = kv.1) (ty : Bool) (s v : String)
    (h : ∀ x, (⟨ty, s, v, none, none⟩, x) ∉ kvs) :
    (if ty then (reconstructAggregationState kvs).1 else (reconstructAggregationState kvs).2).get? s v = none := by
  have := (reconstruct_get kvs ty s v ([], []) hnd hoff).2 h
  unfold reconstructAggregationState
  rw [this]
  cases ty <;> rfl

/-! ### What the chunks emit -/

/-- All (statistic, variable, value) triples. -/
def flatVars (statistics : List (String × List (String × Option (StatVar L V)))) : List (String × String × StatVar L V) :=
  statistics.flatMap (fun st => st.2.filterMap (fun vr => vr.2.map (fun s => (st.1, vr.1, s))))

theorem mem_flatVars {statistics : List (String × List (String × Option (StatVar L V)))} {x : String × String × StatVar L V} :
    x ∈ flatVars statistics ↔ ∃ st ∈ statistics, st.1 = x.1 ∧ (x.2.1, some x.2.2) ∈ st.2 := by
  rcases x with ⟨a, b, s⟩
  unfold flatVars
  simp only [List.mem_flatMap, List.mem_filterMap, Option.map_eq_some_iff, Prod.mk.injEq]
  constructor
  · rintro ⟨st, hst, ⟨k, o⟩, hvr, s', hs, rfl, rfl, rfl⟩
    simp only at hs
    subst hs
    exact ⟨st, hst, rfl, hvr⟩
  · rintro ⟨st, hst, rfl, hvr⟩
    exact ⟨st, hst, _, hvr, s, rfl, rfl, rfl, rfl⟩

theorem flatVars_nodup {statistics : List (String × List (String × Option (StatVar L V)))} (hk : UniqueKeys statistics) :
    ((flatVars statistics).map (fun x => (x.1, x.2.1))).Nodup := by
  obtain ⟨h1, h2⟩ := hk
  induction statistics with
  | nil => simp [flatVars]
  | cons st statistics ih =>
    rw [List.map_cons, List.nodup_cons] at h1
    have ih := ih h1.2 (fun s hs => h2 s (by simp [hs]))
    have : flatVars (st :: statistics) = (st.2.filterMap (fun vr => vr.2.map (fun s => (st.1, vr.1, s)))) ++ flatVars statistics := by
      simp [flatVars]
    rw [this, List.map_append, List.nodup_append]
    refine ⟨?_, ih, ?_⟩
    · have hn := h2 st (by simp)
      rcases st with ⟨name, vars⟩
      simp only at hn ⊢
      clear h2 h1 this ih
      induction vars with
      | nil => simp
      | cons vr vars ih =>
        rw [List.map_cons, List.nodup_cons] at hn
        rcases vr with ⟨k, _ | s⟩
        · simpa using ih hn.2
        · rw [List.filterMap_cons]
          simp only [Option.map_some, List.map_cons, List.nodup_cons]
          refine ⟨?_, ih hn.2⟩
          intro hmem
          rw [List.mem_map] at hmem
          obtain ⟨⟨a, b, s'⟩, hx, he⟩ := hmem
          simp only [Prod.mk.injEq, List.mem_filterMap, Option.map_eq_some_iff] at he hx
          obtain ⟨⟨k', o⟩, hvr, s'', hs, -, rfl, -⟩ := hx
          apply hn.1
          rw [← he.2]
          exact List.mem_map.mpr ⟨_, hvr, rfl⟩
    · intro a ha b hb hab
      subst hab
      rw [List.mem_map] at ha hb
      obtain ⟨⟨p, q, s⟩, hx, rfl⟩ := ha
      obtain ⟨⟨p', q', s'⟩, hy, he⟩ := hb
      simp only [Prod.mk.injEq] at he
      simp only [List.mem_filterMap, Option.map_eq_some_iff, Prod.mk.injEq] at hx
      obtain ⟨vr, -, s'', -, rfl, -⟩ := hx
      rw [mem_flatVars] at hy
      obtain ⟨st', hst', h', -⟩ := hy
      apply h1.1
      rw [List.mem_map]
      exact ⟨st', hst', h'.trans he.1⟩

section Emit
variable [AddCommMonoid V] [Mul V] [One V] [IsNull V]

theorem processVars_eq (agg : Aggregator L V) (off : ℕ × ℕ) (st : String) (tr : StatVar L V → StatVar L V)
    (O : StatVar L V → Option (DA L V × DA L V)) (vars : List (String × Option (StatVar L V)))
    (hsome : ∀ vr ∈ vars, vr.2 ≠ none)
    (h : ∀ k s, (k, some s) ∈ vars → agg.aggregateStatVar (tr s) = .ok (O s)) :
    processVars agg off st (Aggregator.trVars tr vars) =
      .ok ((vars.filterMap (fun vr => vr.2.map (fun s => (st, vr.1, s)))).flatMap
        (fun x => emitVar off x.1 x.2.1 (O x.2.2))) := by
  induction vars with
  | nil => rfl
  | cons vr vars ih =>
    have ih := ih (fun vr hvr => hsome vr (by simp [hvr])) (fun k s hs => h k s (by simp [hs]))
    rcases vr with ⟨k, _ | s⟩
    · exact absurd rfl (hsome (k, none) (by simp))
    · unfold Aggregator.trVars at ih ⊢
      simp only [List.map_cons, Option.map_some, processVars, h k s (by simp), ih, bind, Except.bind]
      rfl

theorem processChunk_eq (agg : Aggregator L V) (off : ℕ × ℕ) (tr : StatVar L V → StatVar L V)
    (O : StatVar L V → Option (DA L V × DA L V))
    (statistics : List (String × List (String × Option (StatVar L V))))
    (hsome : ∀ st ∈ statistics, ∀ vr ∈ st.2, vr.2 ≠ none)
    (h : ∀ x ∈ flatVars statistics, agg.aggregateStatVar (tr x.2.2) = .ok (O x.2.2)) :
    processChunk agg off (Aggregator.trStats tr statistics) =
      .ok ((flatVars statistics).flatMap (fun x => emitVar off x.1 x.2.1 (O x.2.2))) := by
  induction statistics with
  | nil => rfl
  | cons st statistics ih =>
    have hfl : flatVars (st :: statistics) = (st.2.filterMap (fun vr => vr.2.map (fun s => (st.1, vr.1, s)))) ++ flatVars statistics := by
      simp [flatVars]
    have ih := ih (fun s hs => hsome s (by simp [hs])) (fun x hx => h x (by rw [hfl]; exact List.mem_append_right _ hx))
    have hv := processVars_eq agg off st.1 tr O st.2 (hsome st (by simp)) (by
      intro k s hs
      exact h (st.1, k, s) (mem_flatVars.mpr ⟨st, by simp, rfl, hs⟩))
    unfold Aggregator.trStats at ih ⊢
    simp only [List.map_cons, processChunk, hv, ih, bind, Except.bind, hfl, List.flatMap_append]
    rfl

theorem processChunks_eq {Q : Type} (agg : Aggregator L V) (qs : List Q) (off : Q → ℕ × ℕ)
    (tr : Q → StatVar L V → StatVar L V) (O : Q → StatVar L V → Option (DA L V × DA L V))
    (statistics : List (String × List (String × Option (StatVar L V))))
    (hsome : ∀ st ∈ statistics, ∀ vr ∈ st.2, vr.2 ≠ none)
    (h : ∀ q ∈ qs, ∀ x ∈ flatVars statistics, agg.aggregateStatVar (tr q x.2.2) = .ok (O q x.2.2)) :
    processChunks agg (qs.map (fun q => (off q, Aggregator.trStats (tr q) statistics))) =
      .ok (qs.flatMap (fun q => (flatVars statistics).flatMap (fun x => emitVar (off q) x.1 x.2.1 (O q x.2.2)))) := by
  induction qs with
  | nil => rfl
  | cons q qs ih =>
    have ih := ih (fun q' hq' => h q' (by simp [hq']))
    simp only [List.map_cons, processChunks, processChunk_eq agg (off q) (tr q) (O q) statistics hsome (h q (by simp)),
      ih, bind, Except.bind, List.flatMap_cons]
    rfl

theorem flatMap_single {α β κ : Type} (f : α → κ) (g : α → List β) (l : List α) (hn : (l.map f).Nodup) (x : α)
    (hx : x ∈ l) (hg : ∀ y ∈ l, f y ≠ f x → g y = []) : l.flatMap g = g x := by
  induction l with
  | nil => simp at hx
  | cons y l ih =>
    rw [List.map_cons, List.nodup_cons] at hn
    rw [List.flatMap_cons]
    rcases List.mem_cons.mp hx with rfl | hx'
    · have : l.flatMap g = [] := by
        rw [List.flatMap_eq_nil_iff]
        intro z hz
        apply hg z (by simp [hz])
        intro he
        exact hn.1 (he ▸ List.mem_map.mpr ⟨z, hz, rfl⟩)
      rw [this, List.append_nil]
    · have : f y ≠ f x := fun he => hn.1 (he ▸ List.mem_map.mpr ⟨x, hx', rfl⟩)
      rw [hg y (by simp) this, List.nil_append]
      exact ih hn.2 hx' (fun z hz => hg z (by simp [hz]))

theorem emitVar_filter_other (off : ℕ × ℕ) (a b : String) (o : Option (DA L V × DA L V)) (ty : Bool) (s v : String)
    (h : (a, b) ≠ (s, v)) :
    (emitVar off a b o).filter (fun kv => kv.1.dropOffsets = ⟨ty, s, v, none, none⟩) = [] := by
  rcases o with _ | ⟨x, y⟩
  · rfl
  · rw [List.filter_eq_nil_iff]
    intro kv hkv
    simp only [emitVar, List.mem_cons, List.not_mem_nil, or_false] at hkv
    rcases hkv with rfl | rfl <;>
      · simp only [AggKey.dropOffsets, decide_eq_true_eq, AggKey.mk.injEq, and_true]
        rintro ⟨-, rfl, rfl⟩
        exact h rfl

theorem emitVar_filter_same (off : ℕ × ℕ) (p : DA L V × DA L V) (ty : Bool) (s v : String) :
    (emitVar off s v (some p)).filter (fun kv => kv.1.dropOffsets = ⟨ty, s, v, none, none⟩) =
      [(⟨ty, s, v, if "init_time" ∈ p.1.dims then some off.1 else none,
        if "lead_time" ∈ p.1.dims then some off.2 else none⟩, if ty then p.1 else p.2)] := by
  rcases p with ⟨x, y⟩
  cases ty <;> simp [emitVar, AggKey.dropOffsets]

/-- What is emitted for one variable. -/
theorem emitted_filter {Q : Type} (qs : List Q) (off : Q → ℕ × ℕ)
    (O : Q → StatVar L V → Option (DA L V × DA L V))
    {statistics : List (String × List (String × Option (StatVar L V)))} (hk : UniqueKeys statistics)
    (ty : Bool) (s v : String) (sv : StatVar L V) (hx : (s, v, sv) ∈ flatVars statistics) :
    (qs.flatMap (fun q => (flatVars statistics).flatMap (fun x => emitVar (off q) x.1 x.2.1 (O q x.2.2)))).filter
      (fun kv => kv.1.dropOffsets = ⟨ty, s, v, none, none⟩)
    = qs.flatMap (fun q => (emitVar (off q) s v (O q sv)).filter
        (fun kv => kv.1.dropOffsets = ⟨ty, s, v, none, none⟩)) := by
  rw [List.filter_flatMap]
  congr 1
  funext q
  rw [List.filter_flatMap]
  exact flatMap_single (fun x : String × String × StatVar L V => (x.1, x.2.1)) _ _ (flatVars_nodup hk) (s, v, sv) hx (by
    intro y _ hy
    exact emitVar_filter_other _ _ _ _ _ _ _ hy)

theorem emitted_filter_absent {Q : Type} (qs : List Q) (off : Q → ℕ × ℕ)
    (O : Q → StatVar L V → Option (DA L V × DA L V))
    {statistics : List (String × List (String × Option (StatVar L V)))}
    (ty : Bool) (s v : String) (hx : ∀ sv, (s, v, sv) ∉ flatVars statistics) :
    (qs.flatMap (fun q => (flatVars statistics).flatMap (fun x => emitVar (off q) x.1 x.2.1 (O q x.2.2)))).filter
      (fun kv => kv.1.dropOffsets = ⟨ty, s, v, none, none⟩) = [] := by
  rw [List.filter_flatMap, List.flatMap_eq_nil_iff]
  intro q _
  rw [List.filter_flatMap, List.flatMap_eq_nil_iff]
  intro y hy
  apply emitVar_filter_other
  rintro h
  simp only [Prod.mk.injEq] at h
  rcases y with ⟨a, b, c⟩
  simp only at h
  obtain ⟨rfl, rfl⟩ := h
  exact hx c hy

/-! ### The whole state -/

theorem perVar_eq (agg : Aggregator L V) (O : StatVar L V → Option (DA L V × DA L V))
    (vars : List (String × Option (StatVar L V)))
    (h : ∀ k s, (k, some s) ∈ vars → agg.aggregateStatVar s = .ok (O s)) :
    agg.perVar vars = .ok (vars.filterMap (fun vr => (vr.2.bind O).map (fun p => (vr.1, p)))) := by
  induction vars with
  | nil => rfl
  | cons vr vars ih =>
    have ih := ih (fun k s hs => h k s (by simp [hs]))
    rcases vr with ⟨k, _ | s⟩
    · simpa [Aggregator.perVar] using ih
    · have h0 := h k s (by simp)
      simp only [Aggregator.perVar, h0, ih, bind, Except.bind]
      cases hO : O s with
      | none => simp [hO]; rfl
      | some p => simp [hO]; rfl

theorem whole_eq (agg : Aggregator L V) (O : StatVar L V → Option (DA L V × DA L V))
    (statistics : List (String × List (String × Option (StatVar L V))))
    (h : ∀ x ∈ flatVars statistics, agg.aggregateStatVar x.2.2 = .ok (O x.2.2)) :
    agg.perStat statistics = .ok (statistics.map (fun st =>
      (st.1, (Aggregator.leaves ((st.2.filterMap (fun vr => (vr.2.bind O).map (fun p => (vr.1, p)))).map (fun p => (p.1, p.2.1))),
        Aggregator.leaves ((st.2.filterMap (fun vr => (vr.2.bind O).map (fun p => (vr.1, p)))).map (fun p => (p.1, p.2.2))))))) := by
  induction statistics with
  | nil => rfl
  | cons st statistics ih =>
    have hfl : flatVars (st :: statistics) = (st.2.filterMap (fun vr => vr.2.map (fun s => (st.1, vr.1, s)))) ++ flatVars statistics := by
      simp [flatVars]
    have ih := ih (fun x hx => h x (by rw [hfl]; exact List.mem_append_right _ hx))
    have hv := perVar_eq agg O st.2 (by
      intro k s hs
      exact h (st.1, k, s) (mem_flatVars.mpr ⟨st, by simp, rfl, hs⟩))
    simp only [Aggregator.perStat, Aggregator.aggregateStatVars, hv, ih, bind, Except.bind, pure, Except.pure, List.map_cons]

theorem nested_get_eq {statistics : List (String × List (String × Option (StatVar L V)))} (hk : UniqueKeys statistics)
    (O : StatVar L V → Option (DA L V × DA L V)) (f : DA L V × DA L V → DA L V) (s v : String) :
    (∀ sv, (s, v, sv) ∈ flatVars statistics → Nested.get? (statistics.map (fun st =>
      (st.1, (st.2.filterMap (fun vr => (vr.2.bind O).map (fun p => (vr.1, p)))).map (fun p => (p.1, f p.2))))) s v
        = (O sv).map f) ∧
    ((∀ sv, (s, v, sv) ∉ flatVars statistics) → Nested.get? (statistics.map (fun st =>
      (st.1, (st.2.filterMap (fun vr => (vr.2.bind O).map (fun p => (vr.1, p)))).map (fun p => (p.1, f p.2))))) s v = none) := by
  have hn1 : ((statistics.map (fun st => (st.1, (st.2.filterMap
      (fun vr => (vr.2.bind O).map (fun p => (vr.1, p)))).map (fun p => (p.1, f p.2))))).map Prod.fst).Nodup := by
    rw [List.map_map]
    exact hk.1
  have hn2 : ∀ st ∈ statistics, (((st.2.filterMap
      (fun vr => (vr.2.bind O).map (fun p => (vr.1, p)))).map (fun p => (p.1, f p.2))).map Prod.fst).Nodup := by
    intro st hst
    have h0 := hk.2 st hst
    refine List.Sublist.nodup ?_ h0
    clear hk h0 hn1
    generalize st.2 = vars
    clear hst
    induction vars with
    | nil => simp
    | cons vr vars ih =>
      rw [List.filterMap_cons]
      cases (vr.2.bind O) with
      | none => exact ih.cons _
      | some p => exact ih.cons_cons _
  have hin : ∀ st ∈ statistics, ∀ x, (v, x) ∈ ((st.2.filterMap
      (fun vr => (vr.2.bind O).map (fun p => (vr.1, p)))).map (fun p => (p.1, f p.2))) ↔
      ∃ sv, (v, some sv) ∈ st.2 ∧ (O sv).map f = some x := by
    intro st hst x
    simp only [List.mem_map, List.mem_filterMap, Prod.mk.injEq, Option.map_eq_some_iff, Option.bind_eq_some_iff]
    constructor
    · rintro ⟨p, ⟨⟨k, o⟩, hvr, q, ⟨sv, rfl, hO⟩, rfl⟩, rfl, rfl⟩
      exact ⟨sv, hvr, q, hO, rfl⟩
    · rintro ⟨sv, hvr, q, hO, rfl⟩
      exact ⟨(v, q), ⟨_, hvr, q, ⟨sv, rfl, hO⟩, rfl⟩, rfl, rfl⟩
  constructor
  · intro sv hsv
    obtain ⟨st, hst, h1, h2⟩ := mem_flatVars.mp hsv
    simp only at h1 h2
    subst h1
    unfold Nested.get?
    rw [(pyGet?_eq_some hn1 _ _).mpr (List.mem_map.mpr ⟨st, hst, rfl⟩), Option.bind_some]
    apply Option.ext
    intro x
    rw [pyGet?_eq_some (hn2 st hst), hin st hst]
    constructor
    · rintro ⟨sv', hm, hx⟩
      have hnd := hk.2 st hst
      have := List.inj_on_of_nodup_map hnd hm h2 rfl
      simp only [Prod.mk.injEq, Option.some.injEq, true_and] at this
      rw [← this]; exact hx
    · intro hx; exact ⟨sv, h2, hx⟩
  · intro hno
    unfold Nested.get?
    rw [Option.eq_none_iff_forall_not_mem]
    intro x hx
    rw [Option.mem_def, Option.bind_eq_some_iff] at hx
    obtain ⟨l, hl, hx⟩ := hx
    rw [pyGet?_eq_some hn1, List.mem_map] at hl
    obtain ⟨st, hst, he⟩ := hl
    simp only [Prod.mk.injEq] at he
    obtain ⟨rfl, rfl⟩ := he
    rw [pyGet?_eq_some (hn2 st hst), hin st hst] at hx
    obtain ⟨sv, hsv, -⟩ := hx
    exact hno sv (mem_flatVars.mpr ⟨st, hst, rfl, hsv⟩)

/-- Looking up a variable in the state of the whole. -/
theorem whole_get {agg : Aggregator L V} {O : StatVar L V → Option (DA L V × DA L V)}
    {statistics : List (String × List (String × Option (StatVar L V)))} (hk : UniqueKeys statistics)
    (h : ∀ x ∈ flatVars statistics, agg.aggregateStatVar x.2.2 = .ok (O x.2.2))
    {sws sw : Tree (DA L V)} (hw : agg.aggregateStatistics statistics = .ok (some (sws, sw))) (ty : Bool) (s v : String) :
    (∀ sv, (s, v, sv) ∈ flatVars statistics → (if ty then sws else sw).get2 s v = (O sv).map (fun p => if ty then p.1 else p.2)) ∧
    ((∀ sv, (s, v, sv) ∉ flatVars statistics) → (if ty then sws else sw).get2 s v = none) := by
  unfold Aggregator.aggregateStatistics at hw
  rw [whole_eq agg O statistics h] at hw
  simp only [bind, Except.bind, pure, Except.pure, Except.ok.injEq, Option.some.injEq, Prod.mk.injEq, List.map_map,
    Function.comp_def] at hw
  obtain ⟨rfl, rfl⟩ := hw
  have e : ∀ f : DA L V × DA L V → DA L V, (Tree.dict (Dict.ofList (statistics.map (fun st => (st.1, Aggregator.leaves ((st.2.filterMap
      (fun vr => (vr.2.bind O).map (fun p => (vr.1, p)))).map (fun p => (p.1, f p.2)))))))).get2 s v
      = Nested.get? (statistics.map (fun st => (st.1, (st.2.filterMap
      (fun vr => (vr.2.bind O).map (fun p => (vr.1, p)))).map (fun p => (p.1, f p.2))))) s v := by
    intro f
    rw [← get2_nested, List.map_map]
    rfl
  cases ty
  · obtain ⟨h1, h2⟩ := nested_get_eq hk O Prod.snd s v
    constructor
    · intro sv hsv
      exact (e Prod.snd).trans (h1 sv hsv)
    · intro hno
      exact (e Prod.snd).trans (h2 hno)
  · obtain ⟨h1, h2⟩ := nested_get_eq hk O Prod.fst s v
    constructor
    · intro sv hsv
      exact (e Prod.fst).trans (h1 sv hsv)
    · intro hno
      exact (e Prod.fst).trans (h2 hno)

end Emit
end WBX
