import Verif.Lemmas.AggState

set_option linter.unusedSectionVars false

namespace WBX
open DA
variable {L V J : Type} [DecidableEq L]

namespace Aggregator
variable [AddCommMonoid V] [Mul V] [One V] [IsNull V]

/-- Apply a transformation to every (present) variable of one statistic. -/
def trVars (f : StatVar L V → StatVar L V) (stats : List (String × Option (StatVar L V))) :
    List (String × Option (StatVar L V)) := stats.map (fun vr => (vr.1, vr.2.map f))

/-- Outcome of a family of aggregations of one variable: uniformly dropped, or all present and related. -/
def Outcome (agg : J → Aggregator L V) (tr : J → StatVar L V → StatVar L V)
    (Q1 Q2 : (J → DA L V) → Prop) (s : StatVar L V) : Prop :=
  (∀ j, (agg j).aggregateStatVar (tr j s) = .ok none) ∨
  ∃ v1 v2 : J → DA L V, (∀ j, (agg j).aggregateStatVar (tr j s) = .ok (some (v1 j, v2 j))) ∧ Q1 v1 ∧ Q2 v2

theorem perVar_table (agg : J → Aggregator L V) (tr : J → StatVar L V → StatVar L V)
    (Q1 Q2 : (J → DA L V) → Prop) (stats : List (String × Option (StatVar L V)))
    (h : ∀ k s, (k, some s) ∈ stats → Outcome agg tr Q1 Q2 s) :
    ∃ tb : List (String × ((J → DA L V) × (J → DA L V))),
      (∀ j, perVar (agg j) (trVars (tr j) stats) = .ok (tb.map (fun p => (p.1, (p.2.1 j, p.2.2 j))))) ∧
      (∀ q ∈ tb, Q1 q.2.1 ∧ Q2 q.2.2) ∧ (tb.map Prod.fst).Sublist (stats.map Prod.fst) := by
  induction stats with
  | nil => exact ⟨[], fun j => rfl, by simp, by simp⟩
  | cons kv stats ih =>
    obtain ⟨tb, h1, h2, h3⟩ := ih (fun k s hs => h k s (by simp [hs]))
    rcases kv with ⟨k, _ | s⟩
    · refine ⟨tb, fun j => ?_, h2, ?_⟩
      · rw [← h1 j]; rfl
      · simpa using h3.cons k
    · rcases h k s (by simp) with hnone | ⟨v1, v2, hv, q1, q2⟩
      · refine ⟨tb, fun j => ?_, h2, ?_⟩
        · have hn := hnone j
          have h1j := h1 j
          simp only [trVars] at h1j
          simp only [trVars, List.map_cons, Option.map_some, perVar, hn, h1j]
          rfl
        · simpa using h3.cons k
      · refine ⟨(k, (v1, v2)) :: tb, fun j => ?_, ?_, ?_⟩
        · have hn := hv j
          have h1j := h1 j
          simp only [trVars] at h1j
          simp only [trVars, List.map_cons, Option.map_some, perVar, hn, h1j]
          rfl
        · intro q hq
          rcases List.mem_cons.mp hq with rfl | hq
          · exact ⟨q1, q2⟩
          · exact h2 q hq
        · simpa using h3

/-- Apply a transformation to every variable of every statistic. -/
def trStats (f : StatVar L V → StatVar L V)
    (statistics : List (String × List (String × Option (StatVar L V)))) :
    List (String × List (String × Option (StatVar L V))) :=
  statistics.map (fun st => (st.1, trVars f st.2))

theorem leaves_map {α β : Type} (g : α → β) (kvs : List (String × α)) :
    (leaves kvs).map g = leaves (kvs.map (fun p => (p.1, g p.2))) := by
  simp only [leaves, Tree.map]
  congr 1
  induction kvs with
  | nil => rfl
  | cons kv kvs ih => simp only [List.map_cons, Dict.ofList, Dict.map, Tree.map, ih]

theorem keys_ofList {α : Type} (kvs : List (String × Tree α)) : (Dict.ofList kvs).keys = kvs.map Prod.fst := by
  induction kvs with
  | nil => rfl
  | cons kv kvs ih => simp [Dict.ofList, Dict.keys, ih]

theorem wf_ofList {α : Type} (kvs : List (String × Tree α)) :
    (Dict.ofList kvs).WF ↔ ∀ p ∈ kvs, p.2.WF := by
  induction kvs with
  | nil => simp [Dict.ofList, Dict.WF]
  | cons kv kvs ih => rcases kv with ⟨k, t⟩; simp [Dict.ofList, Dict.WF, ih]

theorem all_ofList {α : Type} (P : α → Prop) (kvs : List (String × Tree α)) :
    (Dict.ofList kvs).All P ↔ ∀ p ∈ kvs, p.2.All P := by
  induction kvs with
  | nil => simp [Dict.ofList, Dict.All]
  | cons kv kvs ih => rcases kv with ⟨k, t⟩; simp [Dict.ofList, Dict.All, ih]

theorem map_ofList {α β : Type} (g : α → β) (kvs : List (String × Tree α)) :
    (Dict.ofList kvs).map g = Dict.ofList (kvs.map (fun p => (p.1, p.2.map g))) := by
  induction kvs with
  | nil => rfl
  | cons kv kvs ih => rcases kv with ⟨k, t⟩; simp [Dict.ofList, Dict.map, ih]

theorem leaves_wf {α : Type} (kvs : List (String × α)) (h : (kvs.map Prod.fst).Nodup) : (leaves kvs).WF := by
  simp only [leaves, Tree.WF, keys_ofList, wf_ofList, List.map_map]
  refine ⟨by simpa [Function.comp_def] using h, ?_⟩
  intro p hp
  rw [List.mem_map] at hp
  obtain ⟨q, _, rfl⟩ := hp
  trivial

theorem leaves_all {α : Type} (P : α → Prop) (kvs : List (String × α)) :
    (leaves kvs).All P ↔ ∀ p ∈ kvs, P p.2 := by
  simp only [leaves, Tree.All, all_ofList, List.mem_map]
  constructor
  · intro h p hp; exact h _ ⟨p, hp, rfl⟩
  · rintro h _ ⟨q, hq, rfl⟩; exact h q hq

theorem perStat_table (agg : J → Aggregator L V) (tr : J → StatVar L V → StatVar L V)
    (Q1 Q2 : (J → DA L V) → Prop) (statistics : List (String × List (String × Option (StatVar L V))))
    (hk : ∀ st ∈ statistics, (st.2.map Prod.fst).Nodup)
    (h : ∀ st ∈ statistics, ∀ k s, (k, some s) ∈ st.2 → Outcome agg tr Q1 Q2 s) :
    ∃ tb : List (String × (Tree (J → DA L V) × Tree (J → DA L V))),
      (∀ j, perStat (agg j) (trStats (tr j) statistics) = .ok (tb.map (fun p =>
        (p.1, (p.2.1.map (fun v => v j), p.2.2.map (fun v => v j)))))) ∧
      (∀ q ∈ tb, q.2.1.WF ∧ q.2.2.WF ∧ q.2.1.All Q1 ∧ q.2.2.All Q2) ∧
      tb.map Prod.fst = statistics.map Prod.fst := by
  induction statistics with
  | nil => exact ⟨[], fun j => rfl, by simp, by simp⟩
  | cons st statistics ih =>
    obtain ⟨tb, h1, h2, h3⟩ := ih (fun st hst => hk st (by simp [hst])) (fun st hst => h st (by simp [hst]))
    obtain ⟨vt, v1, v2, v3⟩ := perVar_table agg tr Q1 Q2 st.2 (h st (by simp))
    have hnd : (vt.map Prod.fst).Nodup := v3.nodup (hk st (by simp))
    refine ⟨(st.1, (leaves (vt.map (fun p => (p.1, p.2.1))), leaves (vt.map (fun p => (p.1, p.2.2))))) :: tb,
      fun j => ?_, ?_, ?_⟩
    · have h1j := h1 j
      have v1j := v1 j
      simp only [trStats] at h1j
      simp only [trStats, List.map_cons, perStat, aggregateStatVars, v1j, h1j, bind, Except.bind, pure,
        Except.pure, leaves_map, List.map_map]
      rfl
    · intro q hq
      rcases List.mem_cons.mp hq with rfl | hq
      · refine ⟨leaves_wf _ (by simpa [List.map_map, Function.comp_def] using hnd),
          leaves_wf _ (by simpa [List.map_map, Function.comp_def] using hnd), ?_, ?_⟩
        · rw [leaves_all]
          intro p hp
          rw [List.mem_map] at hp
          obtain ⟨q, hq, rfl⟩ := hp
          exact (v2 q hq).1
        · rw [leaves_all]
          intro p hp
          rw [List.mem_map] at hp
          obtain ⟨q, hq, rfl⟩ := hp
          exact (v2 q hq).2
      · exact h2 q hq
    · simp [h3]

/-- The states of a family of aggregations of the same statistics are the columns of two tables. -/
theorem state_table (agg : J → Aggregator L V) (tr : J → StatVar L V → StatVar L V)
    (Q1 Q2 : (J → DA L V) → Prop) (statistics : List (String × List (String × Option (StatVar L V))))
    (hk : UniqueKeys statistics)
    (h : ∀ st ∈ statistics, ∀ k s, (k, some s) ∈ st.2 → Outcome agg tr Q1 Q2 s) :
    ∃ T1 T2 : Tree (J → DA L V), T1.WF ∧ T2.WF ∧ T1.All Q1 ∧ T2.All Q2 ∧
      ∀ j, (agg j).aggregateStatistics (trStats (tr j) statistics) =
        .ok (some (T1.map (fun v => v j), T2.map (fun v => v j))) := by
  obtain ⟨tb, h1, h2, h3⟩ := perStat_table agg tr Q1 Q2 statistics hk.2 h
  refine ⟨.dict (Dict.ofList (tb.map (fun p => (p.1, p.2.1)))), .dict (Dict.ofList (tb.map (fun p => (p.1, p.2.2)))),
    ?_, ?_, ?_, ?_, fun j => ?_⟩
  · simp only [Tree.WF, keys_ofList, wf_ofList, List.map_map]
    refine ⟨(show (tb.map Prod.fst).Nodup from h3 ▸ hk.1), ?_⟩
    intro p hp
    rw [List.mem_map] at hp
    obtain ⟨q, hq, rfl⟩ := hp
    exact (h2 q hq).1
  · simp only [Tree.WF, keys_ofList, wf_ofList, List.map_map]
    refine ⟨(show (tb.map Prod.fst).Nodup from h3 ▸ hk.1), ?_⟩
    intro p hp
    rw [List.mem_map] at hp
    obtain ⟨q, hq, rfl⟩ := hp
    exact (h2 q hq).2.1
  · simp only [Tree.All, all_ofList]
    intro p hp
    rw [List.mem_map] at hp
    obtain ⟨q, hq, rfl⟩ := hp
    exact (h2 q hq).2.2.1
  · simp only [Tree.All, all_ofList]
    intro p hp
    rw [List.mem_map] at hp
    obtain ⟨q, hq, rfl⟩ := hp
    exact (h2 q hq).2.2.2
  · simp only [aggregateStatistics, h1 j, bind, Except.bind, pure, Except.pure, Tree.map, map_ofList, List.map_map]
    rfl

end Aggregator
end WBX

namespace WBX
open DA
variable {L V : Type} [DecidableEq L]
namespace Aggregator
variable [AddCommMonoid V] [Mul V] [One V] [IsNull V]

/-- If aggregating a dictionary succeeds, every variable was aggregated or dropped without an error. -/
theorem perVar_ok {agg : Aggregator L V} {stats : List (String × Option (StatVar L V))}
    {r} (h : agg.perVar stats = .ok r) : ∀ k s, (k, some s) ∈ stats → ∃ o, agg.aggregateStatVar s = .ok o := by
  induction stats generalizing r with
  | nil => simp
  | cons kv stats ih =>
    rcases kv with ⟨k, _ | s⟩
    · intro k' s' hm
      simp only [perVar] at h
      exact ih h k' s' (by simpa using hm)
    · simp only [perVar, bind, Except.bind] at h
      cases h1 : agg.aggregateStatVar s with
      | error e => simp [h1] at h
      | ok o =>
        cases h2 : agg.perVar stats with
        | error e => simp [h1, h2] at h
        | ok rs =>
          intro k' s' hm
          rcases List.mem_cons.mp hm with heq | hm
          · injection heq with _ heq
            injection heq with heq
            exact ⟨o, heq ▸ h1⟩
          · exact ih h2 k' s' hm

theorem perStat_ok {agg : Aggregator L V} {statistics : List (String × List (String × Option (StatVar L V)))}
    {r} (h : agg.perStat statistics = .ok r) :
    ∀ st ∈ statistics, ∀ k s, (k, some s) ∈ st.2 → ∃ o, agg.aggregateStatVar s = .ok o := by
  induction statistics generalizing r with
  | nil => simp
  | cons st statistics ih =>
    simp only [perStat, aggregateStatVars, bind, Except.bind] at h
    cases h1 : agg.perVar st.2 with
    | error e => simp [h1] at h
    | ok o =>
      cases h2 : agg.perStat statistics with
      | error e => simp [h1, h2, pure, Except.pure] at h
      | ok rs =>
        intro st' hst'
        rcases List.mem_cons.mp hst' with rfl | hst'
        · exact perVar_ok h1
        · exact ih h2 st' hst'

theorem aggregateStatistics_ok {agg : Aggregator L V}
    {statistics : List (String × List (String × Option (StatVar L V)))}
    {r} (h : agg.aggregateStatistics statistics = .ok r) :
    ∀ st ∈ statistics, ∀ k s, (k, some s) ∈ st.2 → ∃ o, agg.aggregateStatVar s = .ok o := by
  simp only [aggregateStatistics, bind, Except.bind] at h
  cases h1 : agg.perStat statistics with
  | error e => simp [h1] at h
  | ok o => exact perStat_ok h1

theorem trVars_id (stats : List (String × Option (StatVar L V))) : trVars id stats = stats := by
  unfold trVars
  conv_rhs => rw [← List.map_id stats]
  apply List.map_congr_left
  rintro ⟨k, o⟩ _
  cases o <;> rfl

theorem trStats_id (statistics : List (String × List (String × Option (StatVar L V)))) :
    trStats id statistics = statistics := by
  unfold trStats
  conv_rhs => rw [← List.map_id statistics]
  apply List.map_congr_left
  rintro ⟨k, o⟩ _
  simp [trVars_id]

theorem trStats_restrict (c : Dim) (S : Finset L)
    (statistics : List (String × List (String × Option (StatVar L V)))) :
    trStats (StatVar.restrict c S) statistics = chunkOf c S statistics := rfl

theorem trVars_trVars (f g : StatVar L V → StatVar L V) (stats : List (String × Option (StatVar L V))) :
    trVars f (trVars g stats) = trVars (fun s => f (g s)) stats := by
  simp only [trVars, List.map_map]
  apply List.map_congr_left
  rintro ⟨k, o⟩ _
  cases o <;> rfl

theorem trStats_trStats (f g : StatVar L V → StatVar L V)
    (statistics : List (String × List (String × Option (StatVar L V)))) :
    trStats f (trStats g statistics) = trStats (fun s => f (g s)) statistics := by
  simp only [trStats, List.map_map]
  apply List.map_congr_left
  rintro ⟨k, o⟩ _
  simp [trVars_trVars]

end Aggregator

/-- Reading a table of families at two indices that agree leafwise up to `Same`. -/
theorem Tree.rel_columns {α β γ : Type} (r : β → γ → Prop) (f : α → β) (g : α → γ) (T : Tree α)
    (h : T.All (fun v => r (f v) (g v))) : Tree.Rel r (T.map f) (T.map g) :=
  Tree.rel_map r f g T h

namespace Aggregator
variable [AddCommMonoid V] [Mul V] [One V] [IsNull V]

/-- Generic principle: if for every variable the aggregate over the whole (index `none`) is the combining sum of the
aggregates at the indices `is`, then the same holds for states. -/
theorem states_sum {ι : Type} (agg : Aggregator L V) (tr : Option ι → StatVar L V → StatVar L V)
    (is : List ι) (hne : is ≠ [])
    (statistics : List (String × List (String × Option (StatVar L V)))) (hk : UniqueKeys statistics)
    (h : ∀ st ∈ statistics, ∀ k s, (k, some s) ∈ st.2 →
      Outcome (fun _ => agg) tr (fun v => (combiningSum (is.map (fun i => v (some i)))).Same (v none))
        (fun v => (combiningSum (is.map (fun i => v (some i)))).Same (v none)) s) :
    ∃ (parts : ι → AggState L V) (whole r : AggState L V),
      (∀ i, agg.aggregateStatistics (trStats (tr (some i)) statistics) = .ok (parts i)) ∧
      agg.aggregateStatistics (trStats (tr none) statistics) = .ok whole ∧
      AggState.sum (is.map parts) = .ok r ∧ r.Same whole := by
  obtain ⟨T1, T2, w1, w2, a1, a2, hT⟩ := state_table (fun _ => agg) tr _ _ statistics hk h
  refine ⟨fun i => some (T1.map (fun v => v (some i)), T2.map (fun v => v (some i))), _,
    some (T1.map (fun v => combiningSum (is.map (fun i => v (some i)))),
      T2.map (fun v => combiningSum (is.map (fun i => v (some i))))), fun i => hT (some i), hT none, ?_, ?_⟩
  · have := AggState.sum_of_table (σ := (.leaf ∅, .leaf ∅)) w1 w2 (is.map some) (by simpa using hne)
      (is.map (fun i => some (T1.map (fun v => v (some i)), T2.map (fun v => v (some i)))))
      (by rw [List.filterMap_map]; simp [Function.comp_def])
    rw [this]
    simp [List.map_map, Function.comp_def]
  · exact ⟨Tree.rel_columns _ _ _ _ a1, Tree.rel_columns _ _ _ _ a2⟩

end Aggregator
end WBX
