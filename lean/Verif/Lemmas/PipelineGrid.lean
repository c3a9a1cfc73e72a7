import Verif.Lemmas.PipelineState

set_option linter.unusedSectionVars false

namespace WBX
open DA
variable {L V : Type} [DecidableEq L]

theorem foldl_coords_congr {ι : Type} (f : V → V → V) (c : Dim) (is : List ι) (g h : ι → DA L V) {a a' : DA L V}
    (hd : c ∈ a.dims) (hd' : c ∈ a'.dims) (hc : a.coords c = a'.coords c)
    (hi : ∀ i ∈ is, (c ∈ (g i).dims ↔ c ∈ (h i).dims) ∧ (c ∈ (g i).dims → (g i).coords c = (h i).coords c)) :
    ((is.map g).foldl (zipWith f) a).coords c = ((is.map h).foldl (zipWith f) a').coords c := by
  induction is generalizing a a' with
  | nil => exact hc
  | cons i is ih =>
    simp only [List.map_cons, List.foldl_cons]
    apply ih
    · simp [zipWith, hd]
    · simp [zipWith, hd']
    · obtain ⟨h1, h2⟩ := hi i (by simp)
      simp only [zipWith, joinCoords, hd, hd', if_true]
      by_cases hg : c ∈ (g i).dims
      · rw [if_pos hg, if_pos (h1.mp hg), hc, h2 hg]
      · rw [if_neg hg, if_neg (fun h => hg (h1.mpr h)), hc]
    · exact fun j hj => hi j (by simp [hj])

namespace Aggregator
variable [AddCommMonoid V] [Mul V] [One V] [IsNull V]

/-- Chunking along `c'` leaves the labels of the aggregate along `c` alone. -/
def KeepsCoords (agg : Aggregator L V) (c c' : Dim) : Prop :=
  ∀ (stat r r' : DA L V) (S : Finset L), c ∈ stat.dims → c' ∈ stat.dims → agg.aggregationFn stat = .ok (some r) →
    agg.aggregationFn (stat.restrict c' S) = .ok (some r') → r'.coords c = r.coords c

theorem keepsCoords_of {agg : Aggregator L V} {c c' : Dim} (hcc : c ≠ c')
    (h : ∀ (stat : DA L V) (S : Finset L), c' ∈ stat.dims → ∀ w ∈ agg.factors,
      (c ∈ (w (stat.restrict c' S)).dims ↔ c ∈ (w stat).dims) ∧
      (c ∈ (w (stat.restrict c' S)).dims → (w (stat.restrict c' S)).coords c = (w stat).coords c)) :
    agg.KeepsCoords c c' := by
  intro stat r r' S hc hc' hr hr'
  obtain ⟨-, -, -, rfl⟩ := aggregationFn_some hr
  obtain ⟨-, -, -, rfl⟩ := aggregationFn_some hr'
  unfold DA.dot
  rw [sumDims_eq, sumDims_eq]
  simp only
  rw [factors_eq, factors_eq]
  apply foldl_coords_congr
  · exact hc
  · exact hc
  · simp [DA.restrict, hcc]
  · intro w hw; exact h stat S hc' w hw

theorem Local.keepsCoords {agg : Aggregator L V} {c c' : Dim} (hcc : c ≠ c') (h : agg.Local c') :
    agg.KeepsCoords c c' := by
  apply keepsCoords_of hcc
  intro stat S hc' w hw
  have hs := h.factors w hw stat S hc'
  refine ⟨by rw [hs.dims]; rfl, fun hd => ?_⟩
  rw [hs.coords c hd]
  simp [DA.restrict, hcc]

theorem VaryingLocal.keepsCoords {agg : Aggregator L V} {c c' : Dim} (hcc : c ≠ c') (h : agg.VaryingLocal c')
    (hb : ∀ b ∈ agg.binBy, b.binDim ≠ c) : agg.KeepsCoords c c' := by
  apply keepsCoords_of hcc
  intro stat S hc' w hw
  simp only [Aggregator.factors, List.mem_append, List.mem_map] at hw
  rcases hw with hw | ⟨b, hbm, rfl⟩
  · have hs := h.1 w hw stat S hc'
    refine ⟨by rw [hs.dims]; rfl, fun hd => ?_⟩
    rw [hs.coords c hd]
    simp [DA.restrict, hcc]
  · obtain ⟨-, T, hT, -⟩ := (h.2 b hbm).1 stat hc'
    have hs := hT S
    refine ⟨by rw [hs.dims]; rfl, fun hd => ?_⟩
    rw [hs.coords c hd]
    simp [DA.restrict, hcc, Ne.symm (hb b hbm)]

theorem aggregationFn_coords_subset {agg : Aggregator L V} {stat r : DA L V} {c : Dim} (hc : c ∈ stat.dims)
    (hr : agg.aggregationFn stat = .ok (some r)) : r.coords c ⊆ stat.coords c := by
  obtain ⟨-, -, -, rfl⟩ := aggregationFn_some hr
  unfold DA.dot
  rw [sumDims_eq]
  exact foldl_coords_subset _ _ _ hc

theorem aggregationFn_mem_dims {agg : Aggregator L V} {stat r : DA L V} {c : Dim} (hc : c ∈ stat.dims)
    (hr : agg.aggregationFn stat = .ok (some r)) : c ∈ r.dims ↔ c ∉ agg.reduceDims := by
  obtain ⟨-, -, -, rfl⟩ := aggregationFn_some hr
  unfold DA.dot
  rw [sumDims_eq]
  simp only [Finset.mem_sdiff, List.mem_toFinset, List.mem_dedup, mem_foldl_zipWith_dims, hc, true_or, true_and]

/-- Chunk grids: the aggregation splits along both dimensions and keeps the labels of the other one. -/
structure SplitsGrid (agg : Aggregator L V) (c c' : Dim) : Prop where
  ne : c ≠ c'
  left : agg.Splits c
  right : agg.Splits c'
  keepL : agg.KeepsCoords c c'
  keepR : agg.KeepsCoords c' c

/-- Labels along a kept chunked dimension are those of the whole within the chunk. -/
theorem coords_inter {c : Dim} {Ss : List (Finset L)} {x : DA L V} {r : Finset L → DA L V}
    (hs : (combiningSum (Ss.map r)).Same x) (hd : ∀ S, (r S).dims = x.dims) (hc : c ∈ x.dims)
    (hsub : ∀ S ∈ Ss, (r S).coords c ⊆ S) {C : Finset L} (hC : x.coords c ⊆ C) (hP : Partition Ss C) :
    ∀ S ∈ Ss, (r S).coords c = x.coords c ∩ S := by
  have hu : ∀ l, l ∈ x.coords c ↔ ∃ S ∈ Ss, l ∈ (r S).coords c := by
    intro l
    have h1 : c ∈ (combiningSum (Ss.map r)).dims := hs.dims ▸ hc
    rw [← hs.coords c h1, combiningSum_coords _ _ h1, mem_outerCoords]
    simp only [List.mem_map, exists_exists_and_eq_and]
    exact ⟨fun ⟨S, hS, _, h⟩ => ⟨S, hS, h⟩, fun ⟨S, hS, h⟩ => ⟨S, hS, by rw [hd]; exact hc, h⟩⟩
  have hpw : ∀ S ∈ Ss, ∀ T ∈ Ss, ∀ l, l ∈ S → l ∈ T → S = T := by
    have hpw := hP.1
    clear hu hs hsub hP
    induction Ss with
    | nil => simp
    | cons A Ss ih =>
      rw [List.pairwise_cons] at hpw
      intro S hS T hT l hlS hlT
      rcases List.mem_cons.mp hS with h1 | h1 <;> rcases List.mem_cons.mp hT with h2 | h2
      · rw [h1, h2]
      · exact absurd hlT (hpw.1 T h2 l (h1 ▸ hlS))
      · exact absurd hlS (hpw.1 S h1 l (h2 ▸ hlT))
      · exact ih hpw.2 S h1 T h2 l hlS hlT
  intro S hS
  ext l
  rw [Finset.mem_inter, hu]
  constructor
  · intro h; exact ⟨⟨S, hS, h⟩, hsub S hS h⟩
  · rintro ⟨⟨T, hT, h⟩, hl⟩
    have := hpw S hS T hT l hl (hsub T hT h)
    rw [this]; exact h

theorem SplitsGrid.var {agg : Aggregator L V} {c c' : Dim} (h : agg.SplitsGrid c c') {s : StatVar L V}
    (hc : c ∈ s.arr.dims) (hc' : c' ∈ s.arr.dims) {Ss Ts : List (Finset L)} (hne : Ss ≠ []) (hne' : Ts ≠ [])
    (hP : Partition Ss (s.arr.coords c)) (hP' : Partition Ts (s.arr.coords c'))
    {o : Option (DA L V × DA L V)} (ho : agg.aggregateStatVar s = .ok o) :
    (o = none ∧ ∀ S T, agg.aggregateStatVar ((s.restrict c S).restrict c' T) = .ok none) ∨
    ∃ p, o = some p ∧ ∃ R : Finset L → Finset L → DA L V × DA L V,
      (∀ S T, agg.aggregateStatVar ((s.restrict c S).restrict c' T) = .ok (some (R S T))) ∧
      ∀ ty : Bool, let f : DA L V × DA L V → DA L V := fun p => if ty then p.1 else p.2
        (combiningSum ((Ss ×ˢ Ts).map (fun q => f (R q.1 q.2)))).Same (f p) ∧
        (∀ S T, (f (R S T)).dims = (f p).dims) ∧
        (c ∈ (f p).dims ↔ c ∉ agg.reduceDims) ∧ (c' ∈ (f p).dims ↔ c' ∉ agg.reduceDims) ∧
        (c ∈ (f p).dims → ∀ S ∈ Ss, ∀ T ∈ Ts, (f (R S T)).coords c = (f p).coords c ∩ S) ∧
        (c' ∈ (f p).dims → ∀ S ∈ Ss, ∀ T ∈ Ts, (f (R S T)).coords c' = (f p).coords c' ∩ T) := by
  have hPS : ∀ S, Partition Ts ((s.restrict c S).arr.coords c') := by
    intro S
    simp only [StatVar.restrict, DA.restrict, if_neg (Ne.symm h.ne)]
    exact hP'
  rcases h.left.statVar hc hne hP ho with ⟨rfl, hn⟩ | ⟨p, rfl, rs, hrs, q1, q2, qd⟩
  · left
    refine ⟨rfl, fun S T => ?_⟩
    rcases h.right.statVar (s := s.restrict c S) hc' hne' (hPS S) (hn S) with ⟨-, hn'⟩ | ⟨_, hh, _⟩
    · exact hn' T
    · simp at hh
  · right
    have hex : ∀ S, ∃ rs' : Finset L → DA L V × DA L V,
        (∀ T, agg.aggregateStatVar ((s.restrict c S).restrict c' T) = .ok (some (rs' T))) ∧
        (combiningSum (Ts.map (fun T => (rs' T).1))).Same (rs S).1 ∧
        (combiningSum (Ts.map (fun T => (rs' T).2))).Same (rs S).2 ∧
        ∀ T, (rs' T).1.dims = (rs S).1.dims ∧ (rs' T).2.dims = (rs S).2.dims := by
      intro S
      rcases h.right.statVar (s := s.restrict c S) hc' hne' (hPS S) (hrs S) with ⟨hh, -⟩ | ⟨p, hp, rs', g1, g2, g3, g4⟩
      · simp at hh
      · injection hp with hp
        exact ⟨rs', g1, hp ▸ g2, hp ▸ g3, hp ▸ g4⟩
    choose R g1 g2 g3 g4 using hex
    refine ⟨p, rfl, R, g1, ?_⟩
    intro ty
    -- uniform facts
    let f : DA L V × DA L V → DA L V := fun p => if ty then p.1 else p.2
    let sel : DA L V := if ty then (agg.applyMask s).1 else (agg.applyMask s).2
    have hsel : c ∈ sel.dims ∧ c' ∈ sel.dims := by
      have a1 := applyMask_dims agg s hc
      have a2 := applyMask_dims agg s hc'
      cases ty
      · exact ⟨a1.2, a2.2⟩
      · exact ⟨a1.1, a2.1⟩
    have hselc : sel.coords c ⊆ s.arr.coords c ∧ sel.coords c' ⊆ s.arr.coords c' := by
      have a1 := applyMask_coords agg s hc
      have a2 := applyMask_coords agg s hc'
      cases ty
      · exact ⟨a1.2, a2.2⟩
      · exact ⟨a1.1, a2.1⟩
    have hfp : agg.aggregationFn sel = .ok (some (f p)) := by
      have := aggregateStatVar_some ho
      cases ty
      · exact this.2
      · exact this.1
    have hfS : ∀ S, agg.aggregationFn (sel.restrict c S) = .ok (some (f (rs S))) := by
      intro S
      have := aggregateStatVar_some (hrs S)
      rw [applyMask_restrict] at this
      cases ty
      · exact this.2
      · exact this.1
    have hfST : ∀ S T, agg.aggregationFn ((sel.restrict c S).restrict c' T) = .ok (some (f (R S T))) := by
      intro S T
      have := aggregateStatVar_some (g1 S T)
      rw [applyMask_restrict, applyMask_restrict] at this
      cases ty
      · exact this.2
      · exact this.1
    have hg : ∀ S, (combiningSum (Ts.map (fun T => f (R S T)))).Same (f (rs S)) := by
      intro S
      cases ty
      · exact g3 S
      · exact g2 S
    have hq : (combiningSum (Ss.map (fun S => f (rs S)))).Same (f p) := by
      cases ty
      · exact q2
      · exact q1
    have hdS : ∀ S, (f (rs S)).dims = (f p).dims := by
      intro S
      cases ty
      · exact (qd S).2
      · exact (qd S).1
    have hdST : ∀ S T, (f (R S T)).dims = (f (rs S)).dims := by
      intro S T
      cases ty
      · exact (g4 S T).2
      · exact (g4 S T).1
    refine ⟨?_, fun S T => (hdST S T).trans (hdS S), aggregationFn_mem_dims hsel.1 hfp,
      aggregationFn_mem_dims hsel.2 hfp, ?_, ?_⟩
    · have hfl : (Ss ×ˢ Ts).map (fun p => f (R p.1 p.2))
          = (Ss.map (fun S => Ts.map (fun T => f (R S T)))).flatten := by
        simp only [SProd.sprod, List.product, List.flatMap, List.map_flatten, List.map_map, Function.comp_def]
      change (combiningSum ((Ss ×ˢ Ts).map (fun p => f (R p.1 p.2)))).Same (f p)
      rw [hfl]
      have h5 := combiningSum_flatten (D := (f p).dims) (Ss.map (fun S => Ts.map (fun T => f (R S T))))
        (by
          intro as has
          rw [List.mem_map] at has
          obtain ⟨S, _, rfl⟩ := has
          simpa using hne')
        (by
          intro as has a ha
          rw [List.mem_map] at has
          obtain ⟨S, _, rfl⟩ := has
          rw [List.mem_map] at ha
          obtain ⟨T, _, rfl⟩ := ha
          exact (hdST S T).trans (hdS S))
      refine Same.trans h5.symm ?_
      rw [List.map_map]
      exact Same.trans (combiningSum_congr Ss _ _ (fun S _ => hg S)) hq
    · intro hcd S hS T _
      have k1 : (f (R S T)).coords c = (f (rs S)).coords c :=
        h.keepL _ _ _ T (by exact hsel.1) (by exact hsel.2) (hfS S) (hfST S T)
      have k2 := coords_inter (c := c) (r := fun S => f (rs S)) hq hdS hcd (by
        intro S _
        refine (aggregationFn_coords_subset (by exact hsel.1) (hfS S)).trans ?_
        simp only [DA.restrict, if_true]
        exact Finset.inter_subset_right) (aggregationFn_coords_subset hsel.1 hfp) (hP.mono hselc.1) S hS
      exact k1.trans k2
    · intro hcd S hS T hT
      have k1 : (f (rs S)).coords c' = (f p).coords c' :=
        h.keepR _ _ _ S hsel.2 hsel.1 hfp (hfS S)
      have k2 := coords_inter (c := c') (r := fun T => f (R S T)) (hg S) (hdST S) (by rw [hdS]; exact hcd) (by
        intro T _
        refine (aggregationFn_coords_subset (by exact hsel.2) (hfST S T)).trans ?_
        simp only [DA.restrict, if_true]
        exact Finset.inter_subset_right) (C := sel.coords c') (by
          rw [k1]; exact aggregationFn_coords_subset hsel.2 hfp) (hP'.mono hselc.2) T hT
      exact k2.trans (by rw [k1])

end Aggregator

section Final
variable [AddCommMonoid V] [Mul V] [One V] [IsNull V] [LinearOrder L]

theorem pipeline_correct (fill : V) {agg : Aggregator L V} (hs : agg.SplitsGrid "init_time" "lead_time")
    (statistics : List (String × List (String × Option (StatVar L V)))) (hk : UniqueKeys statistics)
    (hsome : ∀ st ∈ statistics, ∀ vr ∈ st.2, vr.2 ≠ none) (Is Js : List (ℕ × Finset L)) (hneI : Is ≠ []) (hneJ : Js ≠ [])
    (hI : (Is.map Prod.fst).Nodup) (hJ : (Js.map Prod.fst).Nodup)
    (oi : OrderedBlocks (Is.map Prod.snd)) (ol : OrderedBlocks (Js.map Prod.snd))
    (hdim : ∀ st ∈ statistics, ∀ k s, (k, some s) ∈ st.2 →
      "init_time" ∈ s.arr.dims ∧ Partition (Is.map Prod.snd) (s.arr.coords "init_time") ∧
      "lead_time" ∈ s.arr.dims ∧ Partition (Js.map Prod.snd) (s.arr.coords "lead_time"))
    (sws sw : Tree (DA L V)) (hw : agg.aggregateStatistics statistics = .ok (some (sws, sw)))
    (hpop : Populated Is Js sws ∧ Populated Is Js sw) :
    ∃ emitted, processChunks agg (gridChunks Is Js statistics) = .ok emitted ∧
      ∀ combined concat, PipelineRun fill emitted combined concat →
        ∃ outs : List (AggKey × DA L V), concat = outs.map (fun kv => (kv.1, Except.ok kv.2)) ∧
          ∀ s v, Option.Rel DA.Same ((reconstructAggregationState outs).1.get? s v) (sws.get2 s v) ∧
            Option.Rel DA.Same ((reconstructAggregationState outs).2.get? s v) (sw.get2 s v) := by
  have hneI' : Is.map Prod.snd ≠ [] := by simpa using hneI
  have hneJ' : Js.map Prod.snd ≠ [] := by simpa using hneJ
  have hok := Aggregator.aggregateStatistics_ok hw
  -- outcomes
  have hvar : ∀ x ∈ flatVars statistics, ∃ o, agg.aggregateStatVar x.2.2 = .ok o := by
    intro x hx
    obtain ⟨st, hst, h1, h2⟩ := mem_flatVars.mp hx
    exact hok st hst _ _ h2
  let O : StatVar L V → Option (DA L V × DA L V) := fun s =>
    match agg.aggregateStatVar s with | .ok o => o | .error _ => none
  have hO : ∀ x ∈ flatVars statistics, agg.aggregateStatVar x.2.2 = .ok (O x.2.2) := by
    intro x hx
    obtain ⟨o, ho⟩ := hvar x hx
    simp only [O, ho]
  let tr : (ℕ × Finset L) × (ℕ × Finset L) → StatVar L V → StatVar L V :=
    fun q s => (s.restrict "init_time" q.1.2).restrict "lead_time" q.2.2
  have hdim' : ∀ x ∈ flatVars statistics,
      "init_time" ∈ x.2.2.arr.dims ∧ Partition (Is.map Prod.snd) (x.2.2.arr.coords "init_time") ∧
      "lead_time" ∈ x.2.2.arr.dims ∧ Partition (Js.map Prod.snd) (x.2.2.arr.coords "lead_time") := by
    intro x hx
    obtain ⟨st, hst, h1, h2⟩ := mem_flatVars.mp hx
    exact hdim st hst _ _ h2
  have hout := fun x (hx : x ∈ flatVars statistics) => hs.var (hdim' x hx).1 (hdim' x hx).2.2.1 hneI' hneJ'
    (hdim' x hx).2.1 (hdim' x hx).2.2.2 (hO x hx)
  let OQ : (ℕ × Finset L) × (ℕ × Finset L) → StatVar L V → Option (DA L V × DA L V) := fun q s => O (tr q s)
  have hOQ : ∀ q ∈ Is ×ˢ Js, ∀ x ∈ flatVars statistics, agg.aggregateStatVar (tr q x.2.2) = .ok (OQ q x.2.2) := by
    intro q _ x hx
    rcases hout x hx with ⟨-, hn⟩ | ⟨p, -, R, hR, -⟩
    · have := hn q.1.2 q.2.2
      simp only [OQ, O, tr, this]
    · have := hR q.1.2 q.2.2
      simp only [OQ, O, tr, this]
  have hproc := processChunks_eq agg (Is ×ˢ Js) (fun q => (q.1.1, q.2.1)) tr OQ statistics hsome hOQ
  have hchunks : gridChunks Is Js statistics
      = (Is ×ˢ Js).map (fun q => ((q.1.1, q.2.1), Aggregator.trStats (tr q) statistics)) := by
    unfold gridChunks
    apply List.map_congr_left
    intro q _
    rw [← Aggregator.trStats_restrict, ← Aggregator.trStats_restrict, Aggregator.trStats_trStats]
  rw [hchunks]
  refine ⟨_, hproc, ?_⟩
  generalize hE : (Is ×ˢ Js).flatMap (fun q => (flatVars statistics).flatMap
    (fun x => emitVar (q.1.1, q.2.1) x.1 x.2.1 (OQ q x.2.2))) = emitted
  intro combined concat hrun
  -- keys of the run, per dropped key
  have hkeysub : ∀ κ, ((combined.filter (fun kv => kv.1.dropOffsets = κ)).map Prod.fst).Nodup := fun κ =>
    List.Sublist.nodup ((List.filter_sublist).map Prod.fst) hrun.combined_nodup
  have hkeyiff : ∀ κ k, k ∈ (combined.filter (fun kv => kv.1.dropOffsets = κ)).map Prod.fst ↔
      k ∈ (emitted.filter (fun kv => kv.1.dropOffsets = κ)).map Prod.fst := by
    intro κ k
    have h1 : ∀ l : List (AggKey × DA L V), k ∈ (l.filter (fun kv => kv.1.dropOffsets = κ)).map Prod.fst ↔
        k ∈ l.map Prod.fst ∧ k.dropOffsets = κ := by
      intro l
      simp only [List.mem_map, List.mem_filter, decide_eq_true_eq]
      constructor
      · rintro ⟨kv, ⟨h1, h2⟩, rfl⟩; exact ⟨⟨kv, h1, rfl⟩, h2⟩
      · rintro ⟨⟨kv, h1, rfl⟩, h2⟩; exact ⟨kv, ⟨h1, h2⟩, rfl⟩
    rw [h1, h1, hrun.combined_keys]
  have hvals : ∀ κ k x, (k, x) ∈ combined.filter (fun kv => kv.1.dropOffsets = κ) → ∃ inputs acc,
      inputs.Perm (((emitted.filter (fun kv => kv.1.dropOffsets = κ)).filter (fun kv => kv.1 = k)).map Prod.snd) ∧
      CombineRun inputs acc ∧ CombiningSum.extractOutput acc = some x := by
    intro κ k x hkx
    rw [List.mem_filter, decide_eq_true_eq] at hkx
    obtain ⟨inputs, acc, hp, hr, ho⟩ := hrun.combined_val k x hkx.1
    refine ⟨inputs, acc, ?_, hr, ho⟩
    rw [List.filter_filter]
    have : emitted.filter (fun kv => decide (kv.1 = k) && decide (kv.1.dropOffsets = κ)) = emitted.filter (fun kv => kv.1 = k) := by
      apply List.filter_congr
      intro kv _
      by_cases h : kv.1 = k
      · simp [h, hkx.2]
      · simp [h]
    rw [this]
    exact hp
  -- one variable
  have hone : ∀ (ty : Bool) s v, (∀ r, (⟨ty, s, v, none, none⟩, r) ∈ concat →
      ∃ x a, r = .ok x ∧ (if ty then sws else sw).get2 s v = some a ∧ x.Same a) ∧
      ((∀ r, (⟨ty, s, v, none, none⟩, r) ∉ concat) → (if ty then sws else sw).get2 s v = none) := by
    intro ty s v
    have hmem : (∃ r, ((⟨ty, s, v, none, none⟩ : AggKey), r) ∈ concat) ↔
        emitted.filter (fun kv => kv.1.dropOffsets = ⟨ty, s, v, none, none⟩) ≠ [] := by
      have h1 : (∃ r, ((⟨ty, s, v, none, none⟩ : AggKey), r) ∈ concat) ↔ (⟨ty, s, v, none, none⟩ : AggKey) ∈ concat.map Prod.fst := by
        simp [List.mem_map]
      rw [h1, hrun.concat_keys]
      constructor
      · intro h
        rw [List.mem_map] at h
        obtain ⟨kv, hkv, he⟩ := h
        have := (hkeyiff ⟨ty, s, v, none, none⟩ kv.1).mp (List.mem_map.mpr ⟨kv, by simp [hkv, he], rfl⟩)
        intro hnil
        simp [hnil] at this
      · intro h
        obtain ⟨kv, hkv⟩ := List.exists_mem_of_ne_nil _ h
        have := (hkeyiff ⟨ty, s, v, none, none⟩ kv.1).mpr (List.mem_map.mpr ⟨kv, hkv, rfl⟩)
        rw [List.mem_map] at this ⊢
        obtain ⟨kw, hkw, he⟩ := this
        rw [List.mem_filter, decide_eq_true_eq] at hkw
        exact ⟨kw, hkw.1, hkw.2⟩
    obtain ⟨wg1, wg2⟩ := whole_get hk hO hw ty s v
    by_cases hx : ∃ sv, (s, v, sv) ∈ flatVars statistics
    · obtain ⟨sv, hx⟩ := hx
      have hflt := emitted_filter (Is ×ˢ Js) (fun q => (q.1.1, q.2.1)) OQ hk ty s v sv hx
      rw [hE] at hflt
      have hget := wg1 sv hx
      obtain ⟨st0, hst0, h10, h20⟩ := mem_flatVars.mp hx
      rcases hout (s, v, sv) hx with ⟨hno, hn⟩ | ⟨p, hp, R, hR, hty⟩
      · -- dropped
        have hnil : emitted.filter (fun kv => kv.1.dropOffsets = ⟨ty, s, v, none, none⟩) = [] := by
          rw [hflt, List.flatMap_eq_nil_iff]
          intro q _
          have : OQ q sv = none := by simp only [OQ, O, tr, hn q.1.2 q.2.2]
          rw [this]
          rfl
        have hn' : O sv = none := hno
        rw [hn'] at hget
        refine ⟨?_, fun _ => hget⟩
        intro r hr
        exact absurd hnil (hmem.mp ⟨r, hr⟩)
      · obtain ⟨t1, t2, t3, t4, t5, t6⟩ := hty ty
        obtain ⟨-, u2, u3, u4, -⟩ := hty true
        simp only [if_true] at u2 u3 u4
        have hp' : O sv = some p := hp
        rw [hp', Option.map_some] at hget
        -- what is emitted
        let D := (if ty then p.1 else p.2).dims
        let A : (ℕ × Finset L) × (ℕ × Finset L) → DA L V := fun q => if ty then (R q.1.2 q.2.2).1 else (R q.1.2 q.2.2).2
        have hDi : "init_time" ∈ p.1.dims ↔ "init_time" ∈ D := u3.trans t3.symm
        have hDl : "lead_time" ∈ p.1.dims ↔ "lead_time" ∈ D := u4.trans t4.symm
        have hem : emitted.filter (fun kv => kv.1.dropOffsets = ⟨ty, s, v, none, none⟩)
            = (Is ×ˢ Js).map (fun q => (gridKey D ty s v q, A q)) := by
          rw [hflt]
          have : ∀ q, (emitVar (q.1.1, q.2.1) s v (OQ q sv)).filter
              (fun kv => kv.1.dropOffsets = ⟨ty, s, v, none, none⟩) = [(gridKey D ty s v q, A q)] := by
            intro q
            have hq : OQ q sv = some (R q.1.2 q.2.2) := by simp only [OQ, O, tr, hR q.1.2 q.2.2]
            rw [hq, emitVar_filter_same]
            simp only [gridKey, A, u2, hDi, hDl]
          simp only [this]
          exact List.flatMap_pure_eq_map _ _
        have hpop' : Populated Is Js (if ty then sws else sw) := by
          cases ty
          · exact hpop.2
          · exact hpop.1
        obtain ⟨pp1, pp2, pp3⟩ := hpop' s v _ hget
        have hprod : ((Is ×ˢ Js).map A) = (((Is.map Prod.snd) ×ˢ (Js.map Prod.snd)).map
            (fun q => if ty then (R q.1 q.2).1 else (R q.1 q.2).2)) := by
          simp only [SProd.sprod, List.product, List.flatMap, List.map_flatten, List.map_map, Function.comp_def, A]
        have hsame : (combiningSum ((Is ×ˢ Js).map A)).Same (if ty then p.1 else p.2) := by
          rw [hprod]; exact t1
        refine ⟨?_, ?_⟩
        · intro r hr
          obtain ⟨arrays, hperm, rfl⟩ := hrun.concat_val _ _ hr
          obtain ⟨x, hx1, hx2⟩ := pipeline_var fill (D := D) ty s v hI hJ hneI hneJ A
            (fun q => t2 q.1.2 q.2.2) (Ci := (if ty then p.1 else p.2).coords "init_time")
            (Cl := (if ty then p.1 else p.2).coords "lead_time")
            (fun hd q hq => t5 hd q.1.2 (List.mem_map.mpr ⟨_, (List.mem_product.mp hq).1, rfl⟩) q.2.2
              (List.mem_map.mpr ⟨_, (List.mem_product.mp hq).2, rfl⟩))
            (fun hd q hq => t6 hd q.1.2 (List.mem_map.mpr ⟨_, (List.mem_product.mp hq).1, rfl⟩) q.2.2
              (List.mem_map.mpr ⟨_, (List.mem_product.mp hq).2, rfl⟩))
            pp2 pp3 oi ol (by
              intro d hd
              have e1 : d ∈ (combiningSum ((Is ×ˢ Js).map A)).dims := by rw [hsame.dims]; exact hd
              have := hsame.coords d e1
              rw [combiningSum_coords _ _ e1] at this
              rw [this]
              exact pp1 d hd)
            _ (hkeysub ⟨ty, s, v, none, none⟩) (by
              intro k
              rw [hkeyiff, hem, List.map_map]
              rfl) (by
              intro k y hky
              have := hvals _ k y hky
              rw [hem] at this
              exact this) arrays hperm
          exact ⟨x, _, hx1, hget, hx2.trans hsame⟩
        · intro hno
          exfalso
          have : emitted.filter (fun kv => kv.1.dropOffsets = ⟨ty, s, v, none, none⟩) ≠ [] := by
            rw [hem]
            obtain ⟨i, hi⟩ := List.exists_mem_of_ne_nil _ hneI
            obtain ⟨j, hj⟩ := List.exists_mem_of_ne_nil _ hneJ
            exact List.ne_nil_of_mem (List.mem_map.mpr ⟨_, List.mem_product.mpr ⟨hi, hj⟩, rfl⟩ :
              (gridKey D ty s v (i, j), A (i, j)) ∈ _)
          obtain ⟨r, hr⟩ := hmem.mpr this
          exact hno r hr
    · push Not at hx
      have hflt := emitted_filter_absent (Is ×ˢ Js) (fun q => (q.1.1, q.2.1)) OQ (statistics := statistics) ty s v hx
      rw [hE] at hflt
      refine ⟨?_, fun _ => wg2 hx⟩
      intro r hr
      exact absurd hflt (hmem.mp ⟨r, hr⟩)
  -- all concatenations succeed
  have hdrop : ∀ kr ∈ concat, kr.1.dropOffsets = kr.1 := by
    intro kr hkr
    have : kr.1 ∈ concat.map Prod.fst := List.mem_map.mpr ⟨kr, hkr, rfl⟩
    rw [hrun.concat_keys, List.mem_map] at this
    obtain ⟨kv, -, he⟩ := this
    rw [← he]
    rfl
  have hkform : ∀ kr ∈ concat, kr.1 = ⟨kr.1.isStat, kr.1.stat, kr.1.var, none, none⟩ := by
    intro kr hkr
    have := hdrop kr hkr
    rw [← this]
    rfl
  have hallok : ∀ kr ∈ concat, ∃ x, kr.2 = .ok x := by
    rintro ⟨k, r⟩ hkr
    have hf := hkform _ hkr
    simp only at hf
    obtain ⟨x, a, h1, -⟩ := (hone k.isStat k.stat k.var).1 r (hf ▸ hkr)
    exact ⟨x, h1⟩
  have houts : ∃ outs : List (AggKey × DA L V), concat = outs.map (fun kv => (kv.1, Except.ok kv.2)) := by
    clear hrun hone hdrop hkform
    induction concat with
    | nil => exact ⟨[], rfl⟩
    | cons kr concat ih =>
      obtain ⟨outs, ho⟩ := ih (fun kr h => hallok kr (by simp [h]))
      obtain ⟨x, hx⟩ := hallok kr (by simp)
      refine ⟨(kr.1, x) :: outs, ?_⟩
      rw [List.map_cons, ← ho]
      rcases kr with ⟨k, r⟩
      simp only at hx
      rw [hx]
  obtain ⟨outs, houts⟩ := houts
  refine ⟨outs, houts, ?_⟩
  have hkeq : outs.map Prod.fst = concat.map Prod.fst := by
    rw [houts, List.map_map]; rfl
  have hnd : (outs.map Prod.fst).Nodup := hkeq ▸ hrun.concat_nodup
  have hoff : ∀ kv ∈ outs, kv.1.dropOffsets = kv.1 := by
    intro kv hkv
    exact hdrop (kv.1, .ok kv.2) (by rw [houts]; exact List.mem_map.mpr ⟨kv, hkv, rfl⟩)
  have hmemo : ∀ k x, (k, x) ∈ outs ↔ (k, Except.ok x) ∈ concat := by
    intro k x
    rw [houts, List.mem_map]
    constructor
    · intro h; exact ⟨(k, x), h, rfl⟩
    · rintro ⟨⟨k', x'⟩, h, he⟩
      simp only [Prod.mk.injEq, Except.ok.injEq] at he
      obtain ⟨rfl, rfl⟩ := he
      exact h
  have hfin : ∀ (ty : Bool) s v, Option.Rel DA.Same
      ((if ty then (reconstructAggregationState outs).1 else (reconstructAggregationState outs).2).get? s v)
      ((if ty then sws else sw).get2 s v) := by
    intro ty s v
    by_cases hx : ∃ x, ((⟨ty, s, v, none, none⟩ : AggKey), x) ∈ outs
    · obtain ⟨x, hx⟩ := hx
      rw [reconstruct_get_some outs hnd hoff ty s v x hx]
      obtain ⟨y, a, h1, h2, h3⟩ := (hone ty s v).1 _ ((hmemo _ _).mp hx)
      injection h1 with h1
      subst h1
      rw [h2]
      exact Option.Rel.some h3
    · push Not at hx
      rw [reconstruct_get_none outs hnd hoff ty s v hx, (hone ty s v).2]
      · exact Option.Rel.none
      · intro r hr
        obtain ⟨x, hrx⟩ := hallok _ hr
        simp only at hrx
        subst hrx
        exact hx x ((hmemo _ _).mpr hr)
  intro s v
  exact ⟨hfin true s v, hfin false s v⟩

end Final
end WBX
