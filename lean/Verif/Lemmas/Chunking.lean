import Verif.Lemmas.VaryingAgg

set_option linter.unusedSectionVars false

namespace WBX
open DA
variable {L V : Type} [DecidableEq L]

namespace Aggregator
section
variable [AddCommMonoid V] [Mul V] [One V] [IsNull V]

/-- The aggregation function splits over chunks along `c`. -/
def Splits (agg : Aggregator L V) (c : Dim) : Prop :=
  (∀ stat : DA L V, c ∈ stat.dims → ∀ S, agg.aggregationFn stat = .ok none →
    agg.aggregationFn (stat.restrict c S) = .ok none) ∧
  (∀ (stat r : DA L V), c ∈ stat.dims → ∀ Ss : List (Finset L), Ss ≠ [] → Partition Ss (stat.coords c) →
    agg.aggregationFn stat = .ok (some r) →
    ∃ rs : Finset L → DA L V, (∀ S, agg.aggregationFn (stat.restrict c S) = .ok (some (rs S))) ∧
      (combiningSum (Ss.map rs)).Same r ∧ ∀ S, (rs S).dims = r.dims)

theorem aggregationFn_dims {agg : Aggregator L V} {stat stat' r r' : DA L V}
    (h : agg.aggregationFn stat = .ok (some r)) (h' : agg.aggregationFn stat' = .ok (some r'))
    (hd : stat'.dims = stat.dims) (hw : ∀ w ∈ agg.weighBy, (w stat').dims = (w stat).dims)
    (hb : ∀ b ∈ agg.binBy, (b.createBinMask stat').dims = (b.createBinMask stat).dims) : r'.dims = r.dims := by
  obtain ⟨-, -, -, rfl⟩ := aggregationFn_some h
  obtain ⟨-, -, -, rfl⟩ := aggregationFn_some h'
  unfold DA.dot
  rw [sumDims_eq, sumDims_eq]
  simp only
  congr 1
  ext d
  simp only [mem_foldl_zipWith_dims, List.mem_append, List.mem_map, hd]
  constructor
  · rintro (h | ⟨m, (⟨w, hw', rfl⟩ | ⟨b, hb', rfl⟩), hm⟩)
    · exact Or.inl h
    · exact Or.inr ⟨_, Or.inl ⟨w, hw', rfl⟩, hw w hw' ▸ hm⟩
    · exact Or.inr ⟨_, Or.inr ⟨b, hb', rfl⟩, hb b hb' ▸ hm⟩
  · rintro (h | ⟨m, (⟨w, hw', rfl⟩ | ⟨b, hb', rfl⟩), hm⟩)
    · exact Or.inl h
    · exact Or.inr ⟨_, Or.inl ⟨w, hw', rfl⟩, (hw w hw').symm ▸ hm⟩
    · exact Or.inr ⟨_, Or.inr ⟨b, hb', rfl⟩, (hb b hb').symm ▸ hm⟩

theorem Local.splits {agg : Aggregator L V} {c : Dim} (h : agg.Local c) : agg.Splits c := by
  refine ⟨fun _ hc S hn => aggregationFn_restrict_none h hc S hn, fun stat r hc Ss hne hP hr => ?_⟩
  obtain ⟨rs, h1, h2⟩ := aggregationFn_chunks h hc hne hP hr
  exact ⟨rs, h1, h2, fun S => aggregationFn_dims hr (h1 S) rfl (fun w hw => (h.1 w hw stat S hc).dims)
    (fun b hb => (h.2 b hb stat S hc).dims)⟩

/-- Result of one variable on every chunk, given its result on the whole. -/
theorem Splits.statVar {agg : Aggregator L V} {c : Dim} (h : agg.Splits c) {s : StatVar L V} (hc : c ∈ s.arr.dims)
    {Ss : List (Finset L)} (hne : Ss ≠ []) (hP : Partition Ss (s.arr.coords c))
    {o : Option (DA L V × DA L V)} (ho : agg.aggregateStatVar s = .ok o) :
    (o = none ∧ ∀ S, agg.aggregateStatVar (s.restrict c S) = .ok none) ∨
    ∃ p, o = some p ∧ ∃ rs : Finset L → DA L V × DA L V,
      (∀ S, agg.aggregateStatVar (s.restrict c S) = .ok (some (rs S))) ∧
      (combiningSum (Ss.map (fun S => (rs S).1))).Same p.1 ∧
      (combiningSum (Ss.map (fun S => (rs S).2))).Same p.2 ∧
      ∀ S, (rs S).1.dims = p.1.dims ∧ (rs S).2.dims = p.2.dims := by
  obtain ⟨d1, d2⟩ := applyMask_dims agg s hc
  obtain ⟨c1, c2⟩ := applyMask_coords agg s hc
  rw [aggregateStatVar_eq] at ho
  simp only [aggregateStatVar_eq, applyMask_restrict]
  cases h1 : agg.aggregationFn (agg.applyMask s).1 with
  | error e => simp [h1, Except.bind] at ho
  | ok a =>
    cases h2 : agg.aggregationFn (agg.applyMask s).2 with
    | error e => simp [h1, h2, Except.bind] at ho
    | ok b =>
      cases a with
      | none =>
        left
        have k1 := fun S => h.1 _ d1 S h1
        refine ⟨by simp [h1, h2, Except.bind] at ho; exact ho.symm, fun S => ?_⟩
        cases b with
        | none => simp [k1 S, h.1 _ d2 S h2, Except.bind]
        | some b =>
          obtain ⟨r2, hr2, -⟩ := h.2 _ _ d2 Ss hne (hP.mono c2) h2
          simp [k1 S, hr2 S, Except.bind]
      | some a =>
        obtain ⟨r1, hr1, hs1, hd1⟩ := h.2 _ _ d1 Ss hne (hP.mono c1) h1
        cases b with
        | none =>
          left
          refine ⟨by simp [h1, h2, Except.bind] at ho; exact ho.symm, fun S => ?_⟩
          simp [hr1 S, h.1 _ d2 S h2, Except.bind]
        | some b =>
          right
          obtain ⟨r2, hr2, hs2, hd2⟩ := h.2 _ _ d2 Ss hne (hP.mono c2) h2
          refine ⟨(a, b), by simp [h1, h2, Except.bind] at ho; exact ho.symm, fun S => (r1 S, r2 S), fun S => ?_, hs1, hs2, fun S => ⟨hd1 S, hd2 S⟩⟩
          simp [hr1, hr2, Except.bind]

theorem Splits.chunked {agg : Aggregator L V} {c : Dim} (hs : agg.Splits c)
    (statistics : List (String × List (String × Option (StatVar L V)))) (hk : UniqueKeys statistics)
    (Ss : List (Finset L)) (hne : Ss ≠ [])
    (hdim : ∀ st ∈ statistics, ∀ k s, (k, some s) ∈ st.2 → c ∈ s.arr.dims ∧ Partition Ss (s.arr.coords c))
    (whole : AggState L V) (hw : agg.aggregateStatistics statistics = .ok whole) :
    ∃ parts : Finset L → AggState L V, ∃ r,
      (∀ S, agg.aggregateStatistics (chunkOf c S statistics) = .ok (parts S)) ∧
      AggState.sum (Ss.map parts) = .ok r ∧ r.Same whole := by
  have hok := aggregateStatistics_ok hw
  obtain ⟨parts, whole', r, h1, h2, h3, h4⟩ := states_sum (ι := Finset L) agg
    (fun o => match o with | none => id | some S => StatVar.restrict c S) Ss hne statistics hk (by
      intro st hst k s hsm
      obtain ⟨o, ho⟩ := hok st hst k s hsm
      obtain ⟨hc, hP⟩ := hdim st hst k s hsm
      rcases hs.statVar hc hne hP ho with ⟨rfl, hn⟩ | ⟨p, rfl, rs, hrs, q1, q2, qd⟩
      · left
        intro j
        cases j with
        | none => exact ho
        | some S => exact hn S
      · right
        refine ⟨fun j => match j with | none => p.1 | some S => (rs S).1,
          fun j => match j with | none => p.2 | some S => (rs S).2, fun j => ?_, q1, q2⟩
        cases j with
        | none => exact ho
        | some S => exact hrs S)
  simp only [trStats_id, trStats_restrict] at h1 h2
  rw [hw] at h2
  injection h2 with h2
  exact ⟨parts, r, h1, h3, h2 ▸ h4⟩

theorem Splits.grid {agg : Aggregator L V} {c c' : Dim} (hcc : c ≠ c') (hs : agg.Splits c) (hs' : agg.Splits c')
    (statistics : List (String × List (String × Option (StatVar L V)))) (hk : UniqueKeys statistics)
    (Ss Ts : List (Finset L)) (hne : Ss ≠ []) (hne' : Ts ≠ [])
    (hdim : ∀ st ∈ statistics, ∀ k s, (k, some s) ∈ st.2 → c ∈ s.arr.dims ∧ Partition Ss (s.arr.coords c) ∧
      c' ∈ s.arr.dims ∧ Partition Ts (s.arr.coords c'))
    (whole : AggState L V) (hw : agg.aggregateStatistics statistics = .ok whole) :
    ∃ parts : Finset L × Finset L → AggState L V, ∃ r,
      (∀ p, agg.aggregateStatistics (chunkOf c' p.2 (chunkOf c p.1 statistics)) = .ok (parts p)) ∧
      AggState.sum ((Ss ×ˢ Ts).map parts) = .ok r ∧ r.Same whole := by
  have hok := aggregateStatistics_ok hw
  have hprod : Ss ×ˢ Ts ≠ [] := by
    obtain ⟨a, ha⟩ := List.exists_mem_of_ne_nil _ hne
    obtain ⟨b, hb⟩ := List.exists_mem_of_ne_nil _ hne'
    exact List.ne_nil_of_mem (List.mem_product.mpr ⟨ha, hb⟩ : (a, b) ∈ _)
  obtain ⟨parts, whole', r, h1, h2, h3, h4⟩ := states_sum (ι := Finset L × Finset L) agg
    (fun o => match o with | none => id | some p => fun s => StatVar.restrict c' p.2 (StatVar.restrict c p.1 s))
    (Ss ×ˢ Ts) hprod statistics hk (by
      intro st hst k s hsm
      obtain ⟨o, ho⟩ := hok st hst k s hsm
      obtain ⟨hc, hP, hc', hP'⟩ := hdim st hst k s hsm
      have hPS : ∀ S, Partition Ts ((s.restrict c S).arr.coords c') := by
        intro S
        simp only [StatVar.restrict, DA.restrict, if_neg (Ne.symm hcc)]
        exact hP'
      rcases hs.statVar hc hne hP ho with ⟨rfl, hn⟩ | ⟨p, rfl, rs, hrs, q1, q2, qd⟩
      · left
        intro j
        cases j with
        | none => exact ho
        | some p =>
          rcases hs'.statVar (s := s.restrict c p.1) hc' hne' (hPS p.1) (hn p.1) with ⟨-, hn'⟩ | ⟨_, hh, _⟩
          · exact hn' p.2
          · simp at hh
      · right
        have hex : ∀ S, ∃ rs' : Finset L → DA L V × DA L V,
            (∀ T, agg.aggregateStatVar ((s.restrict c S).restrict c' T) = .ok (some (rs' T))) ∧
            (combiningSum (Ts.map (fun T => (rs' T).1))).Same (rs S).1 ∧
            (combiningSum (Ts.map (fun T => (rs' T).2))).Same (rs S).2 ∧
            ∀ T, (rs' T).1.dims = (rs S).1.dims ∧ (rs' T).2.dims = (rs S).2.dims := by
          intro S
          rcases hs'.statVar (s := s.restrict c S) hc' hne' (hPS S) (hrs S) with ⟨hh, -⟩ | ⟨p, hp, rs', g1, g2, g3, g4⟩
          · simp at hh
          · injection hp with hp
            exact ⟨rs', g1, hp ▸ g2, hp ▸ g3, hp ▸ g4⟩
        choose rs' g1 g2 g3 g4 using hex
        have key : ∀ (f : DA L V × DA L V → DA L V) (x : DA L V),
            (∀ S, (combiningSum (Ts.map (fun T => f (rs' S T)))).Same (f (rs S))) →
            (combiningSum (Ss.map (fun S => f (rs S)))).Same x →
            (∃ D, ∀ S T, (f (rs' S T)).dims = D) →
            (combiningSum ((Ss ×ˢ Ts).map (fun p => f (rs' p.1 p.2)))).Same x := by
          rintro f x hf hx ⟨D, hD⟩
          have hfl : (Ss ×ˢ Ts).map (fun p => f (rs' p.1 p.2))
              = (Ss.map (fun S => Ts.map (fun T => f (rs' S T)))).flatten := by
            simp only [SProd.sprod, List.product, List.flatMap, List.map_flatten, List.map_map, Function.comp_def]
          rw [hfl]
          have h5 := combiningSum_flatten (D := D) (Ss.map (fun S => Ts.map (fun T => f (rs' S T))))
            (by
              intro as has
              rw [List.mem_map] at has
              obtain ⟨S, _, rfl⟩ := has
              simpa using hne')
            (by
              intro as has a ha
              rw [List.mem_map] at has
              obtain ⟨S, _, rfl⟩ := has
              rw [List.mem_map] at ha
              obtain ⟨T, _, rfl⟩ := ha
              exact hD S T)
          refine Same.trans h5.symm ?_
          rw [List.map_map]
          refine Same.trans (combiningSum_congr Ss _ _ (fun S _ => hf S)) hx
        refine ⟨fun j => match j with | none => p.1 | some q => (rs' q.1 q.2).1,
          fun j => match j with | none => p.2 | some q => (rs' q.1 q.2).2, fun j => ?_, ?_, ?_⟩
        · cases j with
          | none => exact ho
          | some q => exact g1 q.1 q.2
        · exact key Prod.fst p.1 g2 q1 ⟨_, fun S T => (g4 S T).1.trans (qd S).1⟩
        · exact key Prod.snd p.2 g3 q2 ⟨_, fun S T => (g4 S T).2.trans (qd S).2⟩)
  simp only [trStats_id] at h2
  rw [hw] at h2
  injection h2 with h2
  refine ⟨parts, r, fun p => ?_, h3, h2 ▸ h4⟩
  rw [← h1 p, ← trStats_restrict, ← trStats_restrict, trStats_trStats]

end

theorem VaryingLocal.splits [Semiring V] [IsNull V] {agg : Aggregator L V} {c : Dim} (h : agg.VaryingLocal c) : agg.Splits c := by
  refine ⟨fun _ hc S hn => aggregationFn_restrict_none_varying h hc S hn, fun stat r hc Ss hne hP hr => ?_⟩
  obtain ⟨rs, h1, h2⟩ := aggregationFn_chunks_varying h hc hne hP hr
  refine ⟨rs, h1, h2, fun S => aggregationFn_dims hr (h1 S) rfl (fun w hw => (h.1 w hw stat S hc).dims)
    (fun b hb => ?_)⟩
  obtain ⟨_, T, h1, _⟩ := (h.2 b hb).1 stat hc
  exact (h1 S).dims

end Aggregator
end WBX

namespace WBX
open DA
variable {L V : Type} [DecidableEq L]

/-- `sum_along_dims` of a column of a table whose arrays all have the dimensions. -/
theorem AggState.sumAlongDims_table [AddCommMonoid V] (B : List Dim) {T1 T2 : Tree (Bool → DA L V)}
    (w1 : T1.WF) (w2 : T2.WF) (h1 : T1.All (fun v => ∀ d ∈ B, d ∈ (v false).dims))
    (h2 : T2.All (fun v => ∀ d ∈ B, d ∈ (v false).dims)) :
    AggState.sumAlongDims B (some (T1.map (fun v => v false), T2.map (fun v => v false)))
      = .ok (some (T1.map (fun v => sumDims B.dedup (v false)), T2.map (fun v => sumDims B.dedup (v false)))) := by
  have hcheck : ∀ (f : List (DA L V) → Except Err (DA L V)), (∀ a, f [a] = AggState.sumChecked B a) →
      ∀ (T : Tree (Bool → DA L V)), T.WF → T.All (fun v => ∀ d ∈ B, d ∈ (v false).dims) →
      Tree.mapStructure f [T.map (fun v => v false)] = .ok (T.map (fun v => sumDims B.dedup (v false))) := by
    intro f hf T hw hq
    rw [Tree.mapStructure_one_of_all _ (fun a => sumDims B.dedup a) _ ((Tree.wf_map _ _).mpr hw)]
    · rw [Tree.map_map]
    · rw [Tree.all_map]
      refine Tree.all_imp (fun v h => ?_) T hq
      rw [hf, AggState.sumChecked, if_pos]
      simpa using h
  simp only [AggState.sumAlongDims, AggState.map, AggState.mapMulti]
  simp only [List.any_cons, Option.isNone_some, List.any_nil, Bool.or_false, Bool.false_eq_true, if_false,
    List.filterMap_cons, id, List.filterMap_nil, List.map_cons, List.map_nil]
  rw [hcheck _ (fun _ => rfl) T1 w1 h1, hcheck _ (fun _ => rfl) T2 w2 h2]
  rfl

end WBX
