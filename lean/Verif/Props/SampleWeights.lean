import Verif.Props.SamplesMore

/-!
# C108: uneven copies are weights
-/

set_option linter.unusedSectionVars false

namespace WBX
open DA Aggregator

section sums
variable {L V : Type} [DecidableEq L] [AddCommMonoid V] {d : Dim} {C C' : Finset L} {π : L → L} {m : L → ℕ}

/-- Every value as often as its case is listed. -/
def DA.counted (m : L → ℕ) (d : Dim) (a : DA L V) : DA L V := { a with val := fun e => m (e d) • a.val e }

theorem ListedTimes.sum (h : ListedTimes m C C' π) (f : L → V) : ∑ l ∈ C', f (π l) = ∑ l ∈ C, m l • f l := by
  rw [← Finset.sum_fiberwise_of_maps_to h.maps]
  refine Finset.sum_congr rfl (fun l hl => ?_)
  rw [Finset.sum_congr rfl (fun l' hl' => by rw [(Finset.mem_filter.1 hl').2]), Finset.sum_const, h.fibres l hl]

theorem sum_counted (h : ListedTimes m C C' π) {a : DA L V} (ha : a.coords d = C) : (a.copied d C' π).sumDim d = ((a.counted m d).sumDim d).withLabels d C' := by
  refine DA.same_of rfl rfl ?_
  funext e
  show ∑ l ∈ (if d = d then C' else _), a.val (setLabel (setLabel e d l) d (π (setLabel e d l d))) = ∑ l ∈ a.coords d, m (setLabel e d l d) • a.val (setLabel e d l)
  simp only [if_pos, setLabel_twice, setLabel_same, ha]
  exact h.sum (fun l => a.val (setLabel e d l))

theorem sumDim_counted {k : Dim} (hk : k ≠ d) (a : DA L V) : (a.counted m d).sumDim k = (a.sumDim k).counted m d := by
  refine DA.same_of rfl rfl ?_
  funext e
  show ∑ l ∈ a.coords k, m (setLabel e k l d) • a.val (setLabel e k l) = m (e d) • ∑ l ∈ a.coords k, a.val (setLabel e k l)
  rw [Finset.smul_sum]
  exact Finset.sum_congr rfl (fun l _ => by rw [show setLabel e k l d = e d from if_neg hk.symm])

theorem sumDims_withLabels : ∀ (ds : List Dim) (a : DA L V), d ∉ ds → DA.sumDims ds (a.withLabels d C') = (DA.sumDims ds a).withLabels d C'
  | [], _, _ => rfl
  | k :: ds, a, h => by
    have hk : k ≠ d := fun hk => h (by rw [hk]; exact List.mem_cons_self)
    rw [DA.sumDims, DA.sumDims, ← sumDims_withLabels ds _ (fun hd => h (List.mem_cons_of_mem _ hd))]
    congr 1
    refine DA.same_of rfl rfl ?_
    funext e
    show ∑ l ∈ (if k = d then C' else a.coords k), _ = ∑ l ∈ a.coords k, _
    rw [if_neg hk]; rfl

theorem sumDims_counted (h : ListedTimes m C C' π) : ∀ (ds : List Dim) {a : DA L V}, ds.Nodup → d ∈ ds → a.coords d = C → DA.sumDims ds (a.copied d C' π) = (DA.sumDims ds (a.counted m d)).withLabels d C'
  | [], _, _, hd, _ => absurd hd (by simp)
  | k :: ds, a, hn, hd, ha => by
    rw [DA.sumDims, DA.sumDims]
    by_cases hk : k = d
    · subst hk
      rw [sum_counted h ha, sumDims_withLabels _ _ (List.nodup_cons.1 hn).1]
    · rw [sumDim_listed hk, sumDim_counted hk]
      exact sumDims_counted h ds (a := a.sumDim k) (List.nodup_cons.1 hn).2 ((List.mem_cons.1 hd).resolve_left (Ne.symm hk)) ha

variable [Mul V]

/-- Multiplication with the weight `number n` adds `n` times. -/
structure Counts (number : ℕ → V) : Prop where
  times : ∀ n ≠ 0, ∀ x : V, x * number n = n • x
  assoc : ∀ n ≠ 0, ∀ x y : V, (n • x) * y = n • (x * y)

theorem weights_counted {number : ℕ → V} (hc : Counts number) (hm : ∀ l, m l ≠ 0) {a : DA L V} (ha : d ∈ a.dims) : DA.zipWith (· * ·) a (caseWeights number m d a) = a.counted m d := by
  refine DA.same_of ?_ ?_ ?_
  · show a.dims ∪ {d} = a.dims
    rw [Finset.union_eq_left, Finset.singleton_subset_iff]
    exact ha
  · funext j
    show (if j ∈ a.dims then (if j ∈ ({d} : Finset Dim) then a.coords j ∩ a.coords j else a.coords j) else a.coords j) = a.coords j
    rw [Finset.inter_self]
    split_ifs <;> rfl
  · funext e
    exact hc.times _ (hm _) _

theorem foldl_counted {number : ℕ → V} (hc : Counts number) (hm : ∀ l, m l ≠ 0) : ∀ (bs : List (DA L V)) (a : DA L V), bs.foldl (DA.zipWith (· * ·)) (a.counted m d) = (bs.foldl (DA.zipWith (· * ·)) a).counted m d
  | [], _ => rfl
  | b :: bs, a => by
    rw [List.foldl_cons, List.foldl_cons, ← foldl_counted hc hm bs]
    congr 1
    refine DA.same_of rfl rfl ?_
    funext e
    exact hc.assoc _ (hm _) _ _

theorem dot_counted {number : ℕ → V} (hc : Counts number) (h : ListedTimes m C C' π) {a : DA L V} (hda : d ∈ a.dims) (ha : a.coords d = C) {bs : List (DA L V)} (hb : ∀ b ∈ bs, b.Without d) {ds : List Dim} (hn : ds.Nodup) (hd : d ∈ ds) :
    DA.dot (a.copied d C' π) bs ds = (DA.dot a (caseWeights number m d a :: bs) ds).withLabels d C' := by
  rw [DA.dot, DA.dot, List.foldl_cons, weights_counted hc h.positive hda, foldl_counted hc h.positive, listed_foldl bs hda hb, sumDims_counted h ds hn hd (by rw [foldl_coords bs hda hb, ha])]

end sums

section pipeline
variable {L V : Type} [DecidableEq L] [AddCommMonoid V] [Mul V] [One V] [Div V] [IsNull V] {d : Dim} {C C' : Finset L} {π : L → L} {m : L → ℕ} {number : ℕ → V}

theorem counted_aggregationFn {agg : Aggregator L V} (hc : Counts number) (h : ListedTimes m C C' π) (hagg : agg.TreatsAlike d C' π) {stat : DA L V} (hs : stat.Along d C) :
    agg.aggregationFn (stat.copied d C' π) = ((agg.countingCopies number m d).aggregationFn stat).map (Option.map (DA.withLabels d C')) := by
  have hw : agg.weighBy.map (fun w => w (stat.copied d C' π)) = agg.weighBy.map (fun w => w stat) := List.map_congr_left (fun w hw => (hagg.weights w hw stat).2)
  have hr : (agg.countingCopies number m d).aggregationFn stat = if ¬ (agg.reduceDims.all (fun d => decide (d ∈ stat.dims))) = true then .ok none
      else if (agg.binBy.map (·.binDim)).dedup.length ≠ agg.binBy.length then .error .valueError
      else match binMasks stat agg.binBy with
        | none => .ok none
        | some masks => .ok (some (DA.dot stat (caseWeights number m d stat :: (agg.weighBy.map (fun w => w stat) ++ masks)) agg.reduceDims.dedup)) := rfl
  rw [hr]
  unfold aggregationFn
  dsimp only
  rw [show (stat.copied d C' π).dims = stat.dims from rfl, hw, listed_binMasks hagg.bins]
  by_cases hall : ¬ (agg.reduceDims.all (fun d => decide (d ∈ stat.dims))) = true
  · rw [if_pos hall, if_pos hall]; rfl
  · rw [if_neg hall, if_neg hall]
    have hd : d ∈ stat.dims := of_decide_eq_true (List.all_eq_true.1 (not_not.1 hall) d hagg.dims)
    by_cases hn : (agg.binBy.map (·.binDim)).dedup.length ≠ agg.binBy.length
    · rw [if_pos hn, if_pos hn]; rfl
    · rw [if_neg hn, if_neg hn]
      rcases hm : binMasks stat agg.binBy with _ | masks
      · rfl
      · show Except.ok (some _) = Except.ok (some _)
        congr 2
        refine dot_counted hc h hd (hs.1 hd) (fun b hb => ?_) (List.nodup_dedup _) (by rw [List.mem_dedup]; exact hagg.dims)
        rcases List.mem_append.1 hb with hb | hb
        · obtain ⟨w, hw, rfl⟩ := List.mem_map.1 hb
          exact (hagg.weights w hw stat).1
        · exact binMasks_without (fun b hb => (hagg.bins b hb stat).1) hm b hb

theorem counted_aggregateStatVar {agg : Aggregator L V} (hc : Counts number) (h : ListedTimes m C C' π) (hagg : agg.TreatsAlike d C' π) {stat : StatVar L V} (hs : stat.Along d C) :
    agg.aggregateStatVar (stat.listed d C' π) = ((agg.countingCopies number m d).aggregateStatVar stat).map (Option.map (fun q => (q.1.withLabels d C', q.2.withLabels d C'))) := by
  unfold aggregateStatVar
  rw [listed_applyMask agg stat, show (agg.countingCopies number m d).applyMask stat = agg.applyMask stat from rfl]
  dsimp only
  rw [counted_aggregationFn hc h hagg (applyMask_along agg hs).1, counted_aggregationFn hc h hagg (applyMask_along agg hs).2]
  rcases (agg.countingCopies number m d).aggregationFn (agg.applyMask stat).1 with e | o
  · rfl
  · rcases (agg.countingCopies number m d).aggregationFn (agg.applyMask stat).2 with e | o'
    · cases o <;> rfl
    · cases o <;> cases o' <;> rfl

theorem counted_perVar {agg : Aggregator L V} (hc : Counts number) (h : ListedTimes m C C' π) (hagg : agg.TreatsAlike d C' π) : ∀ vars : Vars (Option (StatVar L V)), (∀ v a, (v, some a) ∈ vars → a.Along d C) →
    agg.perVar (listStats d C' π vars) = ((agg.countingCopies number m d).perVar vars).map (List.map (fun kq => (kq.1, (kq.2.1.withLabels d C', kq.2.2.withLabels d C'))))
  | [], _ => rfl
  | (k, none) :: vars, hv => by
    have := counted_perVar hc h hagg vars (fun v a hm => hv v a (List.mem_cons_of_mem _ hm))
    unfold listStats at this ⊢
    rw [List.map_cons, perVar]
    simp only [Option.map_none]
    rw [perVar, this]
  | (k, some s) :: vars, hv => by
    have ih := counted_perVar hc h hagg vars (fun v a hm => hv v a (List.mem_cons_of_mem _ hm))
    unfold listStats at ih ⊢
    rw [List.map_cons, perVar]
    simp only [Option.map_some]
    rw [perVar, ih, counted_aggregateStatVar hc h hagg (hv k s List.mem_cons_self)]
    rcases (agg.countingCopies number m d).aggregateStatVar s with e | o
    · rfl
    · rcases (agg.countingCopies number m d).perVar vars with e | rs
      · cases o <;> rfl
      · cases o <;> rfl

theorem counted_meanVars {agg : Aggregator L V} (hc : Counts number) (h : ListedTimes m C C' π) (hagg : agg.TreatsAlike d C' π) {vars : Vars (Option (StatVar L V))} (hv : ∀ v a, (v, some a) ∈ vars → a.Along d C) :
    meanVars agg (listStats d C' π vars) = (meanVars (agg.countingCopies number m d) vars).map (sameValuesAs d C') := by
  unfold meanVars
  rw [counted_perVar hc h hagg vars hv]
  rcases (agg.countingCopies number m d).perVar vars with e | r
  · rfl
  · simp only [Except.map, bind, Except.bind, pure, Except.pure, List.map_map, sameValuesAs, Except.ok.injEq]
    refine List.map_congr_left (fun q _ => ?_)
    simp only [Function.comp_apply, withLabels_zip]

theorem metricAlone_counted {mt : Metric (StatVar L V) (Option (StatVar L V)) (DA L V)} {agg : Aggregator L V} (hc : Counts number) (h : ListedTimes m C C' π) (hagg : agg.TreatsAlike d C' π) {p t : Vars (StatVar L V)}
    (hs : ∀ ks ∈ mt.statistics, ks.2.compute (listCases d C' π p) (listCases d C' π t) = (ks.2.compute p t).map (listStats d C' π) ∧ ∀ out, ks.2.compute p t = .ok out → ∀ v a, (v, some a) ∈ out → a.Along d C)
    (hm : ∀ sv : List (String × Vars (DA L V)), mt.valuesFromMeanStatistics (sv.map (fun kv => (kv.1, sameValuesAs d C' kv.2))) = (mt.valuesFromMeanStatistics sv).map (sameValuesAs d C')) :
    metricAlone mt agg (listCases d C' π p) (listCases d C' π t) = (metricAlone mt (agg.countingCopies number m d) p t).map (sameValuesAs d C') := by
  unfold metricAlone
  have key := mapM_image (f' := fun ks : String × Statistic (StatVar L V) (Option (StatVar L V)) => (do
        let v ← ks.2.compute (listCases d C' π p) (listCases d C' π t)
        let mean ← meanVars agg v
        return (ks.1, mean) : Except Err (String × Vars (DA L V)))) (f := fun ks => (do
        let v ← ks.2.compute p t
        let mean ← meanVars (agg.countingCopies number m d) v
        return (ks.1, mean) : Except Err (String × Vars (DA L V)))) (g := fun kv : String × Vars (DA L V) => (kv.1, sameValuesAs d C' kv.2)) (l := mt.statistics) (fun ks hks => by
    obtain ⟨h1, h2⟩ := hs ks hks
    rw [h1]
    rcases hv : ks.2.compute p t with e | v
    · rfl
    · show (meanVars agg (listStats d C' π v) >>= fun mean => _) = _
      rw [counted_meanVars hc h hagg (h2 v hv)]
      show _ = Except.map _ (meanVars (agg.countingCopies number m d) v >>= fun mean => _)
      rcases meanVars (agg.countingCopies number m d) v with e | mean <;> rfl)
  rw [key]
  exact bind_image (fun means => hm means)

/-- **C108** The cases `C` listed any numbers of times, at least once each: the metric is that of the cases with these numbers as further weights, or the same error. -/
theorem C108_weights {mt : Metric (StatVar L V) (Option (StatVar L V)) (DA L V)} {agg : Aggregator L V} (hc : Counts number) (h : ListedTimes m C C' π) (hagg : agg.TreatsAlike d C' π) (hm : mt.CaseByCase d C C' π) {p t : Vars (StatVar L V)}
    (hp : CasesOf d C p) (ht : CasesOf d C t) : metricAlone mt agg (listCases d C' π p) (listCases d C' π t) = (metricAlone mt (agg.countingCopies number m d) p t).map (sameValuesAs d C') :=
  metricAlone_counted hc h hagg (fun ks hks => hm.statistics ks hks p t hp ht) hm.formula

end pipeline

section floats
variable {L K : Type} [DecidableEq L] [Field K] [LinearOrder K] [IsStrictOrderedRing K] {d : Dim} {C C' : Finset L} {π : L → L} {m : L → ℕ}

/-- Floats count: NaN and infinities included, since no count is zero. -/
theorem FV.counts : Counts (FV.ofNat : ℕ → FV K) := by
  refine ⟨fun n hn x => ?_, fun n hn x y => ?_⟩
  · obtain ⟨n, rfl⟩ := Nat.exists_eq_succ_of_ne_zero hn
    have hp : (0 : K) < ((n + 1 : ℕ) : K) := by positivity
    show x * FV.ofNat (n + 1) = (n + 1) • x
    rcases x with _ | b | x
    · rw [FV.nsmul_nan]; rfl
    · rw [FV.nsmul_inf]
      show (if ((n + 1 : ℕ) : K) = 0 then FV.nan else FV.inf (xor b (decide (((n + 1 : ℕ) : K) < 0)))) = FV.inf b
      rw [if_neg hp.ne', decide_eq_false (not_lt.2 hp.le), Bool.xor_false]
    · rw [FV.nsmul_fin]
      show FV.fin (x * ((n + 1 : ℕ) : K)) = _
      rw [mul_comm]
  · obtain ⟨n, rfl⟩ := Nat.exists_eq_succ_of_ne_zero hn
    have hp : (0 : K) < ((n + 1 : ℕ) : K) := by positivity
    have h0 : ∀ z : K, ((n + 1 : ℕ) : K) * z = 0 ↔ z = 0 := fun z => by rw [mul_eq_zero]; exact or_iff_right hp.ne'
    have h1 : ∀ z : K, ((n + 1 : ℕ) : K) * z < 0 ↔ z < 0 := fun z => neg_times hp z
    show ((n + 1) • x) * y = (n + 1) • (x * y)
    have hnan : ∀ z : FV K, FV.nan * z = FV.nan := fun z => by cases z <;> rfl
    have hnan' : ∀ z : FV K, z * FV.nan = FV.nan := fun z => by cases z <;> rfl
    rcases x with _ | b | x <;> rcases y with _ | b' | y <;> simp only [FV.nsmul_nan, FV.nsmul_inf, FV.nsmul_fin, hnan, hnan']
    · rw [show (FV.inf b : FV K) * FV.inf b' = FV.inf (xor b b') from rfl, FV.nsmul_inf]
    · rw [show (FV.inf b : FV K) * FV.fin y = if y = 0 then FV.nan else FV.inf (xor b (decide (y < 0))) from rfl]
      split
      · rw [FV.nsmul_nan]
      · rw [FV.nsmul_inf]
    · show (if ((n + 1 : ℕ) : K) * x = 0 then (FV.nan : FV K) else FV.inf (xor (decide (((n + 1 : ℕ) : K) * x < 0)) b')) = (n + 1) • (if x = 0 then (FV.nan : FV K) else FV.inf (xor (decide (x < 0)) b'))
      simp only [h0, h1]
      split
      · rw [FV.nsmul_nan]
      · rw [FV.nsmul_inf]
    · show FV.fin (((n + 1 : ℕ) : K) * x * y) = (n + 1) • FV.fin (x * y)
      rw [FV.nsmul_fin, mul_assoc]

/-- **C108** For floats: forecasts that occur several times are forecasts with a larger weight. -/
theorem C108_weights_floats {mt : FMetric L K} {agg : Aggregator L (FV K)} (h : ListedTimes m C C' π) (hagg : agg.TreatsAlike d C' π) (hm : mt.CaseByCase d C C' π) {p t : Vars (StatVar L (FV K))} (hp : CasesOf d C p) (ht : CasesOf d C t) :
    metricAlone mt agg (listCases d C' π p) (listCases d C' π t) = (metricAlone mt (agg.countingCopies FV.ofNat m d) p t).map (sameValuesAs d C') := C108_weights FV.counts h hagg hm hp ht

/-- **C108** The same for the scores of ensembles. -/
theorem C108_weights_ensembles {mt : FMetric L K} {agg : Aggregator L (FV K)} (h : ListedTimes m C C' π) (hagg : agg.TreatsAlike d C' π) (hm : mt.EachCase d C C' π) {p t : Vars (StatVar L (FV K))} (hp : AllHaveCases d C p)
    (ht : AllHaveCases d C t) : metricAlone mt agg (listCases d C' π p) (listCases d C' π t) = (metricAlone mt (agg.countingCopies FV.ofNat m d) p t).map (sameValuesAs d C') :=
  metricAlone_counted FV.counts h hagg (fun ks hks => hm.statistics ks hks p t hp ht) hm.formula

/-- The mean squared error of forecasts, some of which occur several times. -/
example {agg : Aggregator L (FV K)} (h : ListedTimes m C C' π) (hagg : agg.TreatsAlike d C' π) {p t : Vars (StatVar L (FV K))} (hp : CasesOf d C p) (ht : CasesOf d C t) :
    metricAlone (squaredErrorStatistic.toMetric) agg (listCases d C' π p) (listCases d C' π t) = (metricAlone (squaredErrorStatistic.toMetric) (agg.countingCopies FV.ofNat m d) p t).map (sameValuesAs d C') :=
  C108_weights_floats h hagg (C108_deterministic h.lists).2.2 hp ht

/-- The case 1 occurs twice, the case 4 once (as in `C108_uneven`). -/
example : ListedTimes (fun l => if l = 1 then 2 else 1) ({1, 4} : Finset ℕ) {1, 2, 4} (fun l => if l ≤ 2 then 1 else 4) := by
  refine ⟨by decide, by decide, fun l => ?_⟩
  split <;> decide

end floats
end WBX
