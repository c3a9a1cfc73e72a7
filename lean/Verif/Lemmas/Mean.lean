import Verif.Lemmas.Cells
import Verif.Lemmas.Chunking
import Verif.Model.FV

set_option linter.unusedSectionVars false

namespace WBX
open DA
variable {L V : Type} [DecidableEq L]

namespace Aggregator
section
variable [AddCommMonoid V] [Mul V] [One V] [IsNull V]

theorem state_pairs {agg : Aggregator L V} {statistics : List (String × List (String × Option (StatVar L V)))}
    (hk : UniqueKeys statistics) {s : AggState L V} (h : agg.aggregateStatistics statistics = .ok s) :
    ∃ T : Tree (DA L V × DA L V), T.WF ∧ s = some (T.map Prod.fst, T.map Prod.snd) ∧
      T.All (fun p => ∃ st ∈ statistics, ∃ k v, (k, some v) ∈ st.2 ∧ agg.aggregateStatVar v = .ok (some p)) := by
  have hok := aggregateStatistics_ok h
  have hv : ∀ stats : List (String × Option (StatVar L V)), (stats.map Prod.fst).Nodup →
      ∀ r, agg.perVar stats = .ok r →
      (r.map Prod.fst).Nodup ∧ (r.map Prod.fst).Sublist (stats.map Prod.fst) ∧
      ∀ q ∈ r, ∃ k v, (k, some v) ∈ stats ∧ agg.aggregateStatVar v = .ok (some q.2) := by
    intro stats
    induction stats with
    | nil =>
      intro _ r hr
      simp only [perVar, Except.ok.injEq] at hr
      subst hr
      simp
    | cons kv stats ih =>
      intro hn r hr
      simp only [List.map_cons, List.nodup_cons] at hn
      rcases kv with ⟨k, _ | v⟩
      · simp only [perVar] at hr
        obtain ⟨h1, h2, h3⟩ := ih hn.2 r hr
        refine ⟨h1, by simpa using h2.cons k, fun q hq => ?_⟩
        obtain ⟨k', v', hm, ho⟩ := h3 q hq
        exact ⟨k', v', by simp [hm], ho⟩
      · simp only [perVar, bind, Except.bind] at hr
        cases e1 : agg.aggregateStatVar v with
        | error e => simp [e1] at hr
        | ok o =>
          cases e2 : agg.perVar stats with
          | error e => simp [e1, e2] at hr
          | ok rs =>
            obtain ⟨h1, h2, h3⟩ := ih hn.2 rs e2
            rcases o with _ | p
            · simp [e1, e2, pure, Except.pure] at hr
              subst hr
              refine ⟨h1, by simpa using h2.cons k, fun q hq => ?_⟩
              obtain ⟨k', v', hm, ho⟩ := h3 q hq
              exact ⟨k', v', by simp [hm], ho⟩
            · simp [e1, e2, pure, Except.pure] at hr
              subst hr
              refine ⟨?_, by simpa using h2, ?_⟩
              · simp only [List.map_cons, List.nodup_cons]
                exact ⟨fun hh => hn.1 (h2.subset hh), h1⟩
              · intro q hq
                rcases List.mem_cons.mp hq with rfl | hq
                · exact ⟨k, v, by simp, e1⟩
                · obtain ⟨k', v', hm, ho⟩ := h3 q hq
                  exact ⟨k', v', by simp [hm], ho⟩
  have hs : ∀ sts : List (String × List (String × Option (StatVar L V))), UniqueKeys sts →
      ∀ r, agg.perStat sts = .ok r →
      ∃ tb : List (String × Tree (DA L V × DA L V)), r = tb.map (fun p => (p.1, (p.2.map Prod.fst, p.2.map Prod.snd))) ∧
        tb.map Prod.fst = sts.map Prod.fst ∧ ∀ q ∈ tb, q.2.WF ∧
        q.2.All (fun p => ∃ st ∈ sts, ∃ k v, (k, some v) ∈ st.2 ∧ agg.aggregateStatVar v = .ok (some p)) := by
    intro sts
    induction sts with
    | nil =>
      intro _ r hr
      simp only [perStat, Except.ok.injEq] at hr
      subst hr
      exact ⟨[], rfl, rfl, by simp⟩
    | cons st sts ih =>
      intro hn r hr
      have hn' : UniqueKeys sts := by
        obtain ⟨g1, g2⟩ := hn
        simp only [List.map_cons, List.nodup_cons] at g1
        exact ⟨g1.2, fun st hst => g2 st (by simp [hst])⟩
      simp only [perStat, aggregateStatVars, bind, Except.bind] at hr
      cases e1 : agg.perVar st.2 with
      | error e => simp [e1] at hr
      | ok pv =>
        cases e2 : agg.perStat sts with
        | error e => simp [e1, e2, pure, Except.pure] at hr
        | ok rs =>
          obtain ⟨tb, rfl, t2, t3⟩ := ih hn' rs e2
          obtain ⟨v1, v2, v3⟩ := hv st.2 (hn.2 st (by simp)) pv e1
          simp [e1, e2, pure, Except.pure] at hr
          subst hr
          refine ⟨(st.1, leaves pv) :: tb, ?_, by simp [t2], ?_⟩
          · simp only [List.map_cons, leaves_map]
          · intro q hq
            rcases List.mem_cons.mp hq with rfl | hq
            · refine ⟨leaves_wf _ v1, ?_⟩
              rw [leaves_all]
              intro p hp
              obtain ⟨k, v, hm, ho⟩ := v3 p hp
              exact ⟨st, by simp, k, v, hm, ho⟩
            · refine ⟨(t3 q hq).1, Tree.all_imp ?_ _ (t3 q hq).2⟩
              rintro p ⟨st', hst', hh⟩
              exact ⟨st', by simp [hst'], hh⟩
  simp only [aggregateStatistics, bind, Except.bind] at h
  cases e1 : agg.perStat statistics with
  | error e => simp [e1] at h
  | ok ps =>
    obtain ⟨tb, rfl, t2, t3⟩ := hs statistics hk ps e1
    simp [e1, pure, Except.pure] at h
    subst h
    refine ⟨.dict (Dict.ofList tb), ?_, ?_, ?_⟩
    · simp only [Tree.WF, keys_ofList, wf_ofList]
      exact ⟨t2 ▸ hk.1, fun p hp => (t3 p hp).1⟩
    · simp [Tree.map, map_ofList, Function.comp_def]
    · simp only [Tree.All, all_ofList]
      exact fun p hp => (t3 p hp).2

end

theorem applyMask_plain [AddCommMonoid V] [One V] [IsNull V] {agg : Aggregator L V}
    (hm : agg.masked = false) (hs : agg.skipna = false) (s : StatVar L V) :
    agg.applyMask s = (s.arr, s.arr.map (fun _ => 1)) := by
  simp [applyMask, hm, hs]

theorem CoordOnly.allFactors_eq {agg : Aggregator L V} (h : agg.CoordOnly) {a a' : DA L V} (hd : a.dims = a'.dims)
    (hc : a.coords = a'.coords) : agg.allFactors a = agg.allFactors a' := by
  unfold allFactors
  congr 1
  · exact List.map_congr_left (fun w hw => h.1 w hw a a' hd hc)
  · exact List.map_congr_left (fun b hb => h.2 b hb a a' hd hc)

end Aggregator

theorem foldl_mul_prod {K : Type} [Monoid K] (l : List K) (x : K) : l.foldl (· * ·) x = x * l.prod := by
  induction l generalizing x with
  | nil => simp
  | cons y l ih => simp only [List.foldl_cons, ih, List.prod_cons, mul_assoc]

end WBX
