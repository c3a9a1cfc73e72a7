import Verif.Spec.HiddenCases
import Verif.Props.SampleWeights
import Verif.Props.Locality

/-!
# C109: cases that are masked everywhere might as well be absent
-/

set_option linter.unusedSectionVars false

namespace WBX
open DA Aggregator

section sums
variable {L V : Type} [DecidableEq L] [AddCommMonoid V] {d : Dim} {C S : Finset L}

/-- Zero at the cases outside `S`. -/
def ZeroOutside (d : Dim) (C S : Finset L) (a : DA L V) : Prop := ∀ e : Dim → L, e d ∈ C → e d ∉ S → a.val e = 0

theorem sum_hidden (hS : S ⊆ C) {a : DA L V} (ha : a.coords d = C) (hz : ZeroOutside d C S a) : (a.copied d S id).sumDim d = (a.sumDim d).withLabels d S := by
  refine DA.same_of rfl rfl ?_
  funext e
  show ∑ l ∈ (if d = d then S else _), a.val (setLabel (setLabel e d l) d (setLabel e d l d)) = ∑ l ∈ a.coords d, a.val (setLabel e d l)
  simp only [if_pos, setLabel_twice, setLabel_same, ha]
  exact Finset.sum_subset hS (fun l hC hl => hz _ (by rw [setLabel_same]; exact hC) (by rw [setLabel_same]; exact hl))

theorem ZeroOutside.sumDim {k : Dim} (hk : k ≠ d) {a : DA L V} (hz : ZeroOutside d C S a) : ZeroOutside d C S (a.sumDim k) := by
  intro e h1 h2
  exact Finset.sum_eq_zero (fun l _ => hz _ (by rw [show setLabel e k l d = e d from if_neg hk.symm]; exact h1) (by rw [show setLabel e k l d = e d from if_neg hk.symm]; exact h2))

theorem sumDims_hidden (hS : S ⊆ C) : ∀ (ds : List Dim) {a : DA L V}, ds.Nodup → d ∈ ds → a.coords d = C → ZeroOutside d C S a → DA.sumDims ds (a.copied d S id) = (DA.sumDims ds a).withLabels d S
  | [], _, _, hd, _, _ => absurd hd (by simp)
  | k :: ds, a, hn, hd, ha, hz => by
    rw [DA.sumDims, DA.sumDims]
    by_cases hk : k = d
    · subst hk
      rw [sum_hidden hS ha hz, sumDims_withLabels _ _ (List.nodup_cons.1 hn).1]
    · rw [sumDim_listed hk]
      exact sumDims_hidden hS ds (a := a.sumDim k) (List.nodup_cons.1 hn).2 ((List.mem_cons.1 hd).resolve_left (Ne.symm hk)) ha (hz.sumDim hk)

variable [Mul V]

theorem ZeroOutside.foldl : ∀ (bs : List (DA L V)) {a : DA L V}, (∀ b ∈ bs, ∀ e, 0 * b.val e = 0) → ZeroOutside d C S a → ZeroOutside d C S (bs.foldl (DA.zipWith (· * ·)) a)
  | [], _, _, hz => hz
  | b :: bs, a, hb, hz => by
    rw [List.foldl_cons]
    refine ZeroOutside.foldl bs (fun c hc => hb c (List.mem_cons_of_mem _ hc)) (fun e h1 h2 => ?_)
    show a.val e * b.val e = 0
    rw [hz e h1 h2]
    exact hb b List.mem_cons_self e

theorem binMasks_zero {stat : DA L V} : ∀ {bs : List (BinBy L V)} {ms : List (DA L V)}, (∀ b ∈ bs, ∀ e, 0 * (b.createBinMask stat).val e = 0) → binMasks stat bs = some ms → ∀ m ∈ ms, ∀ e, 0 * m.val e = 0
  | [], ms, _, h => by
    rw [binMasks] at h; cases h
    exact fun m hm => absurd hm (by simp)
  | b :: bs, ms, hb, h => by
    rw [binMasks] at h
    split at h
    · rcases hm : binMasks stat bs with _ | ms'
      · rw [hm] at h; cases h
      · rw [hm] at h
        cases h
        intro m hmem
        rcases List.mem_cons.1 hmem with rfl | hmem
        · exact hb b List.mem_cons_self
        · exact binMasks_zero (fun c hc => hb c (List.mem_cons_of_mem _ hc)) hm m hmem
    · cases h

end sums

section pipeline
variable {L V : Type} [DecidableEq L] [AddCommMonoid V] [Mul V] [One V] [Div V] [IsNull V] {d : Dim} {C S : Finset L}

theorem hidden_aggregationFn {agg : Aggregator L V} (hS : S ⊆ C) (hagg : agg.TreatsAlike d S id) (h0 : agg.KeepsZero) {stat : DA L V} (hs : stat.coords d = C) (hz : ZeroOutside d C S stat) :
    agg.aggregationFn (stat.copied d S id) = (agg.aggregationFn stat).map (Option.map (DA.withLabels d S)) := by
  have hw : agg.weighBy.map (fun w => w (stat.copied d S id)) = agg.weighBy.map (fun w => w stat) := List.map_congr_left (fun w hw => (hagg.weights w hw stat).2)
  unfold aggregationFn
  dsimp only
  rw [show (stat.copied d S id).dims = stat.dims from rfl, hw, listed_binMasks hagg.bins]
  split
  · rfl
  · next hall =>
    have hd : d ∈ stat.dims := of_decide_eq_true (List.all_eq_true.1 (not_not.1 hall) d hagg.dims)
    split
    · rfl
    · rcases hm : binMasks stat agg.binBy with _ | masks
      · rfl
      · show Except.ok (some _) = Except.ok (some _)
        congr 2
        have hb : ∀ b ∈ agg.weighBy.map (fun w => w stat) ++ masks, b.Without d := fun b hb => by
          rcases List.mem_append.1 hb with hb | hb
          · obtain ⟨w, hw, rfl⟩ := List.mem_map.1 hb
            exact (hagg.weights w hw stat).1
          · exact binMasks_without (fun b hb => (hagg.bins b hb stat).1) hm b hb
        have hb0 : ∀ b ∈ agg.weighBy.map (fun w => w stat) ++ masks, ∀ e, 0 * b.val e = 0 := fun b hb => by
          rcases List.mem_append.1 hb with hb | hb
          · obtain ⟨w, hw, rfl⟩ := List.mem_map.1 hb
            exact h0.weights w hw stat
          · exact binMasks_zero (fun b hb => h0.bins b hb stat) hm b hb
        rw [DA.dot, DA.dot, listed_foldl _ hd hb]
        exact sumDims_hidden hS _ (List.nodup_dedup _) (by rw [List.mem_dedup]; exact hagg.dims) (by rw [foldl_coords _ hd hb, hs]) (ZeroOutside.foldl _ hb0 hz)

theorem chunk_hidden (hS : S ⊆ C) {stat : StatVar L V} (h : stat.HiddenOutside d C S) : stat.chunk d S = stat.listed d S id := by
  obtain ⟨a, m⟩ := stat
  obtain ⟨mk, hm, h1, h2, h3⟩ := h.hidden
  have hr : ∀ {W : Type} {x : DA L W}, x.coords d = C → x.restrict d S = x.copied d S id := by
    intro W x hx
    refine DA.same_of rfl ?_ ?_
    · funext k
      show (if k = d then x.coords k ∩ S else x.coords k) = if k = d then S else x.coords k
      by_cases hk : k = d
      · rw [if_pos hk, if_pos hk, hk, hx, Finset.inter_eq_right.2 hS]
      · rw [if_neg hk, if_neg hk]
    · funext e
      show x.val e = x.val (setLabel e d (e d))
      congr 1
      funext k
      unfold setLabel
      split_ifs with hk
      · rw [hk]
      · rfl
  cases hm
  show (⟨_, some _⟩ : StatVar L V) = ⟨_, some _⟩
  rw [hr h.labels, hr h2]

theorem hidden_aggregateStatVar {agg : Aggregator L V} (hS : S ⊆ C) (hagg : agg.TreatsAlike d S id) (h0 : agg.KeepsZero) (hmask : agg.masked = true) {stat : StatVar L V} (h : stat.HiddenOutside d C S) :
    agg.aggregateStatVar (stat.chunk d S) = (agg.aggregateStatVar stat).map (Option.map (fun q => (q.1.withLabels d S, q.2.withLabels d S))) := by
  have hz : ZeroOutside d C S (agg.applyMask stat).1 ∧ ZeroOutside d C S (agg.applyMask stat).2 ∧ (agg.applyMask stat).1.coords d = C ∧ (agg.applyMask stat).2.coords d = C := by
    obtain ⟨a, m⟩ := stat
    obtain ⟨mk, hm, h1, h2, h3⟩ := h.hidden
    cases hm
    have ha : a.Along d C := ⟨fun _ => h.labels, fun hd => absurd h.has hd⟩
    have hmk : mk.Along d C := ⟨fun _ => h2, fun hd => absurd h1 hd⟩
    have hal := applyMask_along agg (stat := ⟨a, some mk⟩) (d := d) (C := C) ⟨ha, fun x hx => by cases hx; exact hmk⟩
    have hval : ∀ e : Dim → L, e d ∈ C → e d ∉ S → (agg.applyMask ⟨a, some mk⟩).1.val e = 0 ∧ (agg.applyMask ⟨a, some mk⟩).2.val e = 0 := by
      intro e he1 he2
      have hf := h3 e he1 he2
      unfold applyMask
      rw [hmask]
      cases agg.skipna <;>
        simp [DA.where_, DA.broadcastLike, DA.zipWith, DA.map, hf, boolToV]
    have hd1 : d ∈ (agg.applyMask ⟨a, some mk⟩).1.dims ∧ d ∈ (agg.applyMask ⟨a, some mk⟩).2.dims := by
      have had : d ∈ a.dims := h.has
      unfold applyMask
      rw [hmask]
      cases agg.skipna <;>
        simp [DA.where_, DA.broadcastLike, DA.zipWith, DA.map, had]
    exact ⟨fun e h1 h2 => (hval e h1 h2).1, fun e h1 h2 => (hval e h1 h2).2, hal.1.1 hd1.1, hal.2.1 hd1.2⟩
  obtain ⟨z1, z2, c1, c2⟩ := hz
  rw [chunk_hidden hS h]
  unfold aggregateStatVar
  rw [listed_applyMask agg stat]
  dsimp only
  rw [hidden_aggregationFn hS hagg h0 c1 z1, hidden_aggregationFn hS hagg h0 c2 z2]
  rcases agg.aggregationFn (agg.applyMask stat).1 with e | o
  · rfl
  · rcases agg.aggregationFn (agg.applyMask stat).2 with e | o'
    · cases o <;> rfl
    · cases o <;> cases o' <;> rfl

theorem hidden_perVar {agg : Aggregator L V} (hS : S ⊆ C) (hagg : agg.TreatsAlike d S id) (h0 : agg.KeepsZero) (hmask : agg.masked = true) : ∀ vars : Vars (Option (StatVar L V)), (∀ v a, (v, some a) ∈ vars → a.HiddenOutside d C S) →
    agg.perVar (chunkStats d S vars) = (agg.perVar vars).map (List.map (fun kq => (kq.1, (kq.2.1.withLabels d S, kq.2.2.withLabels d S))))
  | [], _ => rfl
  | (k, none) :: vars, hv => by
    have := hidden_perVar hS hagg h0 hmask vars (fun v a hm => hv v a (List.mem_cons_of_mem _ hm))
    unfold chunkStats at this ⊢
    rw [List.map_cons, perVar]
    simp only [Option.map_none]
    rw [perVar, this]
  | (k, some s) :: vars, hv => by
    have ih := hidden_perVar hS hagg h0 hmask vars (fun v a hm => hv v a (List.mem_cons_of_mem _ hm))
    unfold chunkStats at ih ⊢
    rw [List.map_cons, perVar]
    simp only [Option.map_some]
    rw [perVar, ih, hidden_aggregateStatVar hS hagg h0 hmask (hv k s List.mem_cons_self)]
    rcases agg.aggregateStatVar s with e | o
    · rfl
    · rcases agg.perVar vars with e | rs
      · cases o <;> rfl
      · cases o <;> rfl

/-- **C109** The mean of a statistic over the data without the hidden cases. -/
theorem C109_mean {agg : Aggregator L V} (hS : S ⊆ C) (hagg : agg.TreatsAlike d S id) (h0 : agg.KeepsZero) (hmask : agg.masked = true) {vars : Vars (Option (StatVar L V))} (hv : ∀ v a, (v, some a) ∈ vars → a.HiddenOutside d C S) :
    meanVars agg (chunkStats d S vars) = (meanVars agg vars).map (sameValuesAs d S) := by
  unfold meanVars
  rw [hidden_perVar hS hagg h0 hmask vars hv]
  rcases agg.perVar vars with e | r
  · rfl
  · simp only [Except.map, bind, Except.bind, pure, Except.pure, List.map_map, sameValuesAs, Except.ok.injEq]
    refine List.map_congr_left (fun q _ => ?_)
    simp only [Function.comp_apply, withLabels_zip]

/-- **C109** The whole evaluation: for every metric whose statistics are local to the cases (`ChunkLocal`, C74), evaluating the data without the hidden cases gives the same values. -/
theorem C109_hidden {mt : Metric (StatVar L V) (Option (StatVar L V)) (DA L V)} {agg : Aggregator L V} (hS : S ⊆ C) (hagg : agg.TreatsAlike d S id) (h0 : agg.KeepsZero) (hmask : agg.masked = true) {p t : Vars (StatVar L V)}
    (hpt : Chunkable d p t) (hlocal : ∀ ks ∈ mt.statistics, ks.2.ChunkLocal d) (hhid : ∀ ks ∈ mt.statistics, ∀ out, ks.2.compute p t = .ok out → ∀ v a, (v, some a) ∈ out → a.HiddenOutside d C S)
    (hm : ∀ sv : List (String × Vars (DA L V)), mt.valuesFromMeanStatistics (sv.map (fun kv => (kv.1, sameValuesAs d S kv.2))) = (mt.valuesFromMeanStatistics sv).map (sameValuesAs d S))
    (hok : ∀ ks ∈ mt.statistics, ∃ out, ks.2.compute p t = .ok out) :
    metricAlone mt agg (chunkVars d S p) (chunkVars d S t) = (metricAlone mt agg p t).map (sameValuesAs d S) := by
  unfold metricAlone
  have key := mapM_image (f' := fun ks : String × Statistic (StatVar L V) (Option (StatVar L V)) => (do
        let v ← ks.2.compute (chunkVars d S p) (chunkVars d S t)
        let mean ← meanVars agg v
        return (ks.1, mean) : Except Err (String × Vars (DA L V)))) (f := fun ks => (do
        let v ← ks.2.compute p t
        let mean ← meanVars agg v
        return (ks.1, mean) : Except Err (String × Vars (DA L V)))) (g := fun kv : String × Vars (DA L V) => (kv.1, sameValuesAs d S kv.2)) (l := mt.statistics) (fun ks hks => by
    obtain ⟨v, hv⟩ := hok ks hks
    rw [hlocal ks hks S p t v hpt hv, hv]
    show (meanVars agg (chunkStats d S v) >>= fun mean => _) = _
    rw [C109_mean hS hagg h0 hmask (hhid ks hks v hv)]
    show _ = Except.map _ (meanVars agg v >>= fun mean => _)
    rcases meanVars agg v with e | mean <;> rfl)
  rw [key]
  exact bind_image (fun means => hm means)

end pipeline

section floats
variable {L K : Type} [DecidableEq L] [Field K] [LinearOrder K] [IsStrictOrderedRing K] {d : Dim} {C S : Finset L}

/-- Values with the cases `C`, and the mask `mk`. -/
private structure MaskedBy (d : Dim) (C : Finset L) (mk : DA L Bool) {V : Type} (a : StatVar L V) : Prop where
  has : d ∈ a.arr.dims
  labels : a.arr.coords d = C
  mask : a.mask = some mk

private theorem zip_coords {U V W : Type} {a : DA L V} {b : DA L W} (f : V → W → U) (ha : d ∈ a.dims) (hb : d ∈ b.dims) (ca : a.coords d = C) (cb : b.coords d = C) : (DA.zipWith f a b).coords d = C := by
  show joinCoords a b d = C
  rw [joinCoords, if_pos ha, if_pos hb, ca, cb, Finset.inter_self]

private theorem MaskedBy.zip_left {U V W : Type} {mk : DA L Bool} {a : StatVar L V} {b : StatVar L W} (f : V → W → U) (ha : d ∈ a.arr.dims ∧ a.arr.coords d = C ∧ a.mask = none) (hb : MaskedBy d C mk b) : MaskedBy d C mk (a.zipWith f b) :=
  ⟨Finset.mem_union_left _ ha.1, zip_coords f ha.1 hb.has ha.2.1 hb.labels, by show combineMask a.mask b.mask = _; rw [ha.2.2, hb.mask]; rfl⟩

private theorem MaskedBy.zip {U V W : Type} {mk : DA L Bool} {a : StatVar L V} {b : StatVar L W} (f : V → W → U) (ha : MaskedBy d C mk a) (hb : MaskedBy d C mk b) : MaskedBy d C mk (a.zipWith f b) :=
  ⟨Finset.mem_union_left _ ha.has, zip_coords f ha.has hb.has ha.labels hb.labels, by show combineMask a.mask b.mask = _; rw [ha.mask, hb.mask]; simp [combineMask]⟩

private theorem MaskedBy.map {V W : Type} {mk : DA L Bool} {a : StatVar L V} (f : V → W) (ha : MaskedBy d C mk a) : MaskedBy d C mk (a.map f) := ⟨ha.has, ha.labels, ha.mask⟩

private theorem statOf_loop {f : StatVar L (FV K) → StatVar L (FV K) → StatVar L (FV K)} {t : Vars (StatVar L (FV K))} : ∀ p : Vars (StatVar L (FV K)), ∃ out, perVariableLoop (fun p t => .ok (some (some (f p t)))) t p = .ok out ∧
    ∀ v s, (v, some s) ∈ out → ∃ a b, (v, a) ∈ p ∧ (v, b) ∈ t ∧ s = f a b
  | [] => ⟨[], rfl, fun _ _ h => absurd h (by simp)⟩
  | (v, a) :: p => by
    obtain ⟨out, h1, h2⟩ := statOf_loop (f := f) (t := t) p
    rw [perVariableLoop, h1]
    rcases hb : pyGet? v t with _ | b
    · exact ⟨out, rfl, fun w s hm => by obtain ⟨x, y, hx, hy⟩ := h2 w s hm; exact ⟨x, y, List.mem_cons_of_mem _ hx, hy⟩⟩
    · refine ⟨(v, some (f a b)) :: out, rfl, fun w s hm => ?_⟩
      rcases List.mem_cons.1 hm with heq | hm
      · obtain ⟨rfl, h⟩ := Prod.mk.inj heq
        cases h
        exact ⟨a, b, List.mem_cons_self, pyGet?_mem hb, rfl⟩
      · obtain ⟨x, y, hx, hy⟩ := h2 w s hm
        exact ⟨x, y, List.mem_cons_of_mem _ hx, hy⟩

/-- What the theorem asks of the statistics of a metric. -/
private def Good (d : Dim) (C S : Finset L) (p t : Vars (StatVar L (FV K))) (s : FStatistic L K) : Prop :=
  s.ChunkLocal d ∧ ∃ out, s.compute p t = .ok out ∧ ∀ v a, (v, some a) ∈ out → a.HiddenOutside d C S

private theorem statOf_good {name : String} {f : StatVar L (FV K) → StatVar L (FV K) → StatVar L (FV K)} {p t : Vars (StatVar L (FV K))} (h : HidesCases d C S p t) (hl : (statOf name f).ChunkLocal d)
    (hf : ∀ a b, d ∈ a.arr.dims ∧ a.arr.coords d = C ∧ a.mask = none → ∀ mk, MaskedBy d C mk b → MaskedBy d C mk (f a b)) (hd : ∀ v a, (v, a) ∈ t → d ∈ a.arr.dims ∧ a.arr.coords d = C) : Good d C S p t (statOf name f) := by
  obtain ⟨out, h1, h2⟩ := statOf_loop (f := f) (t := t) p
  refine ⟨hl, out, h1, fun v s hm => ?_⟩
  obtain ⟨a, b, ha, hb, rfl⟩ := h2 v s hm
  obtain ⟨mk, hmk, hrest⟩ := (h.targets v b hb).hidden
  have := hf a b (h.predictions v a ha) mk ⟨(hd v b hb).1, (hd v b hb).2, hmk⟩
  exact ⟨this.has, this.labels, mk, this.mask, hrest⟩

private theorem contingency_masked (g : Bool → Bool → Bool) {mk : DA L Bool} (a b : StatVar L (FV K)) (ha : d ∈ a.arr.dims ∧ a.arr.coords d = C ∧ a.mask = none) (hb : MaskedBy d C mk b) : MaskedBy d C mk (contingency g a b) :=
  MaskedBy.zip _ (MaskedBy.zip_left _ (a := a.map FV.toBool) ha (hb.map _)) ((MaskedBy.zip_left _ ha hb).map _)

private theorem hidden_chunkable {p t : Vars (StatVar L (FV K))} (ht : IsDict t) (h : HidesCases d C S p t) : Chunkable d p t := by
  classical
  refine ⟨fun v a ha => (h.predictions v a ha).1, fun v a ha => (h.targets v a ha).has, fun v => ((pyGet? v t).bind StatVar.mask).getD ⟨∅, fun _ => ∅, fun _ => false⟩, fun v a ha => Or.inl (h.predictions v a ha).2.2, fun v a ha => Or.inr ?_⟩
  obtain ⟨mk, hm, -⟩ := (h.targets v a ha).hidden
  show a.mask = some (((pyGet? v t).bind StatVar.mask).getD _)
  rw [(pyGet?_eq_some ht v a).mpr ha, Option.bind_some, hm]
  rfl

private theorem hidden_of_good {mt : FMetric L K} {agg : Aggregator L (FV K)} (hS : S ⊆ C) (hagg : agg.TreatsAlike d S id) (h0 : agg.KeepsZero) (hmask : agg.masked = true) {p t : Vars (StatVar L (FV K))} (ht : IsDict t) (h : HidesCases d C S p t)
    (hg : ∀ ks ∈ mt.statistics, Good d C S p t ks.2) (hm : ∀ sv : List (String × Vars (DA L (FV K))), mt.valuesFromMeanStatistics (sv.map (fun kv => (kv.1, sameValuesAs d S kv.2))) = (mt.valuesFromMeanStatistics sv).map (sameValuesAs d S)) :
    metricAlone mt agg (chunkVars d S p) (chunkVars d S t) = (metricAlone mt agg p t).map (sameValuesAs d S) := by
  refine C109_hidden hS hagg h0 hmask (hidden_chunkable ht h) (fun ks hks => (hg ks hks).1) (fun ks hks out hout => ?_) hm (fun ks hks => (hg ks hks).2.imp fun _ h => h.1)
  obtain ⟨out', h1, h2⟩ := (hg ks hks).2
  rw [h1] at hout
  cases hout
  exact h2

private theorem labels_of {p t : Vars (StatVar L (FV K))} (h : HidesCases d C S p t) : ∀ v a, (v, a) ∈ t → d ∈ a.arr.dims ∧ a.arr.coords d = C := fun v a ha => ⟨(h.targets v a ha).has, (h.targets v a ha).labels⟩

/-- **C109** The mean error, mean absolute error and mean squared error of unmasked predictions against observations whose masks hide all outside `S`: those of the data with only the cases `S`. -/
theorem C109_deterministic {agg : Aggregator L (FV K)} (hS : S ⊆ C) (hagg : agg.TreatsAlike d S id) (h0 : agg.KeepsZero) (hmask : agg.masked = true) {p t : Vars (StatVar L (FV K))} (ht : IsDict t) (h : HidesCases d C S p t) :
    ∀ s ∈ [errorStatistic (L := L) (K := K), absoluteErrorStatistic, squaredErrorStatistic],
      metricAlone s.toMetric agg (chunkVars d S p) (chunkVars d S t) = (metricAlone s.toMetric agg p t).map (sameValuesAs d S) := by
  intro s hs
  refine hidden_of_good hS hagg h0 hmask ht h (fun ks hks => ?_) (fun sv => pyItem_image (sameValuesAs d S) sv "self")
  rw [List.mem_singleton.1 (show ks ∈ [_] from hks)]
  simp only [List.mem_cons, List.not_mem_nil, or_false] at hs
  rcases hs with rfl | rfl | rfl
  · exact statOf_good h C74_error (fun a b ha mk hb => MaskedBy.zip_left _ ha hb) (labels_of h)
  · exact statOf_good h C74_absolute_error (fun a b ha mk hb => (MaskedBy.zip_left _ ha hb).map _) (labels_of h)
  · exact statOf_good h C74_squared_error (fun a b ha mk hb => (MaskedBy.zip_left _ ha hb).map _) (labels_of h)

/-- **C109** The categorical scores. -/
theorem C109_categorical {agg : Aggregator L (FV K)} (hS : S ⊆ C) (hagg : agg.TreatsAlike d S id) (h0 : agg.KeepsZero) (hmask : agg.masked = true) {p t : Vars (StatVar L (FV K))} (ht : IsDict t) (h : HidesCases d C S p t) :
    ∀ m ∈ [csi (L := L) (K := K), accuracy, recall, falseAlarmRate, precision, f1Score, frequencyBias, hss, ets],
      metricAlone m agg (chunkVars d S p) (chunkVars d S t) = (metricAlone m agg p t).map (sameValuesAs d S) := by
  obtain ⟨r1, r2, r3, r4, r5, r6, r7, r8, r9⟩ := C106_categorical (L := L) (K := K) (d := d) (C := S) (sides := .both)
  obtain ⟨l1, l2, l3, l4⟩ := C74_contingency (L := L) (K := K) (c := d)
  have tp : Good d C S p t (tpStatistic (L := L) (K := K)) := statOf_good h l1 (fun a b ha mk hb => contingency_masked _ a b ha hb) (labels_of h)
  have tn : Good d C S p t (tnStatistic (L := L) (K := K)) := statOf_good h l2 (fun a b ha mk hb => contingency_masked _ a b ha hb) (labels_of h)
  have fp : Good d C S p t (fpStatistic (L := L) (K := K)) := statOf_good h l3 (fun a b ha mk hb => contingency_masked _ a b ha hb) (labels_of h)
  have fn : Good d C S p t (fnStatistic (L := L) (K := K)) := statOf_good h l4 (fun a b ha mk hb => contingency_masked _ a b ha hb) (labels_of h)
  intro m hm
  have hr : m.Repeats .both d S := by
    simp only [List.mem_cons, List.not_mem_nil, or_false] at hm
    rcases hm with rfl | rfl | rfl | rfl | rfl | rfl | rfl | rfl | rfl
    exacts [r1, r2, r3, r4, r5, r6, r7, r8, r9]
  refine hidden_of_good hS hagg h0 hmask ht h (fun ks hks => ?_) hr.formula
  simp only [List.mem_cons, List.not_mem_nil, or_false] at hm
  rcases hm with rfl | rfl | rfl | rfl | rfl | rfl | rfl | rfl | rfl <;>
  · simp only [csi, accuracy, recall, falseAlarmRate, precision, f1Score, frequencyBias, hss, ets, metric2, metric3, metric4, perVariableMetric, List.mem_cons, List.not_mem_nil, or_false] at hks
    rcases hks with rfl | rfl | rfl | rfl <;> assumption

/-- Finite weights keep zero. -/
theorem FV.fin_keepsZero (x : K) : (0 : FV K) * FV.fin x = 0 := by
  show FV.fin (0 * x) = FV.fin 0
  rw [zero_mul]

/-- ★ An infinite weight makes the hidden cases visible: zero times infinity is NaN. -/
theorem C109_infinite : (0 : FV K) * FV.inf false = FV.nan := by
  show (if (0 : K) = 0 then (FV.nan : FV K) else _) = _
  rw [if_pos rfl]

/-- The assumptions can be met: case 1 is hidden, cases 0 and 2 are not. -/
example : HidesCases "time" ({0, 1, 2} : Finset ℕ) {0, 2} [("t2m", (⟨⟨{"time"}, fun _ => {0, 1, 2}, fun e => FV.fin (e "time" : ℚ)⟩, none⟩ : StatVar ℕ (FV ℚ)))]
    [("t2m", ⟨⟨{"time"}, fun _ => {0, 1, 2}, fun e => if e "time" = 1 then .nan else .fin 5⟩, some ⟨{"time"}, fun _ => {0, 1, 2}, fun e => decide (e "time" ≠ 1)⟩⟩)] := by
  refine ⟨fun v a ha => ?_, fun v a ha => ?_⟩
  · obtain ⟨rfl, rfl⟩ := Prod.mk.inj (List.mem_singleton.1 ha)
    exact ⟨by simp, rfl, rfl⟩
  · obtain ⟨rfl, rfl⟩ := Prod.mk.inj (List.mem_singleton.1 ha)
    refine ⟨by simp, rfl, _, rfl, by simp, rfl, fun e h1 h2 => ?_⟩
    simp only [Finset.mem_insert, Finset.mem_singleton] at h1 h2
    simp only [decide_eq_false_iff_not, not_not]
    omega

end floats

section roots
variable {L : Type} [DecidableEq L] {d : Dim} {C S : Finset L}

/-- **C109** The root mean squared error. -/
theorem C109_rmse {agg : Aggregator L (FV ℝ)} (hS : S ⊆ C) (hagg : agg.TreatsAlike d S id) (h0 : agg.KeepsZero) (hmask : agg.masked = true) {p t : Vars (StatVar L (FV ℝ))} (ht : IsDict t) (h : HidesCases d C S p t) :
    metricAlone rmse agg (chunkVars d S p) (chunkVars d S t) = (metricAlone rmse agg p t).map (sameValuesAs d S) :=
  hidden_of_good hS hagg h0 hmask ht h (fun ks hks => by
    rw [List.mem_singleton.1 (show ks ∈ [_] from hks)]
    exact statOf_good h C74_squared_error (fun a b ha mk hb => (MaskedBy.zip_left _ ha hb).map _) (labels_of h)) (C106_rmse (sides := .both)).formula

/-- Averaging over time, with masks: the assumptions on the aggregation can be met. -/
example : (({ reduceDims := ["time"], masked := true } : Aggregator ℕ (FV ℚ))).TreatsAlike "time" {0, 2} id ∧ (({ reduceDims := ["time"], masked := true } : Aggregator ℕ (FV ℚ))).KeepsZero :=
  ⟨⟨by simp, fun w hw => absurd hw (by simp), fun b hb => absurd hb (by simp)⟩, fun w hw => absurd hw (by simp), fun b hb => absurd hb (by simp)⟩

end roots
end WBX
