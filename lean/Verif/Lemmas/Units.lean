import Verif.Spec.Units
import Verif.Model.Ensemble
import Verif.Lemmas.Aggregation

/-!
# Lemmas for C88: multiplication by a nonzero number commutes with everything the aggregation does
-/

namespace WBX
set_option linter.unusedSectionVars false
variable {L K : Type} [DecidableEq L] [Field K] [LinearOrder K] [IsStrictOrderedRing K]

namespace FV

theorem times_fin (k x : K) : times k (fin x) = fin (k * x) := rfl
theorem times_nan (k : K) : times k (nan : FV K) = nan := rfl
theorem times_inf {k : K} (hk : k ≠ 0) (a : Bool) : times k (inf a : FV K) = inf (xor (decide (k < 0)) a) := by
  simp [times, fin_mul_inf, hk]

theorem times_zero (k : K) : times k (0 : FV K) = 0 := by
  rw [zero_def, times_fin, mul_zero]

theorem times_add {k : K} (hk : k ≠ 0) (a b : FV K) : times k (a + b) = times k a + times k b := by
  rcases a with _ | a | a <;> rcases b with _ | b | b <;>
    simp [times_nan, times_fin, times_inf hk, inf_add_inf, mul_add]
  by_cases h : a = b
  · simp [h, times_inf hk]
  · rw [if_neg h, if_neg h]; rfl

theorem sign_mul {k a : K} (hk : k ≠ 0) (ha : a ≠ 0) : decide (k * a < 0) = xor (decide (k < 0)) (decide (a < 0)) := by
  rcases lt_or_gt_of_ne hk with h1 | h1 <;> rcases lt_or_gt_of_ne ha with h2 | h2
  · simp [h1, h2, (mul_pos_of_neg_of_neg h1 h2).le]
  · simp [h1, h2.le, mul_neg_of_neg_of_pos h1 h2]
  · simp [h1.le, h2, mul_neg_of_pos_of_neg h1 h2]
  · have e1 : ¬ k < 0 := not_lt.mpr (le_of_lt h1)
    have e2 : ¬ a < 0 := not_lt.mpr (le_of_lt h2)
    have e3 : ¬ k * a < 0 := not_lt.mpr (le_of_lt (mul_pos h1 h2))
    rw [decide_eq_false e1, decide_eq_false e2, decide_eq_false e3]; rfl

theorem times_mul {k : K} (hk : k ≠ 0) (a b : FV K) : times k a * b = times k (a * b) := by
  rcases a with _ | a | a <;> rcases b with _ | b | b
  · rfl
  · rfl
  · rfl
  · rw [times_inf hk, mul_nan, mul_nan, times_nan]
  · rw [times_inf hk, inf_mul_inf, inf_mul_inf, times_inf hk, Bool.xor_assoc]
  · rw [times_inf hk, inf_mul_fin, inf_mul_fin]
    by_cases h : b = 0
    · rw [if_pos h, if_pos h]; rfl
    · rw [if_neg h, if_neg h, times_inf hk, Bool.xor_assoc]
  · rfl
  · rw [times_fin, fin_mul_inf, fin_mul_inf]
    by_cases h : a = 0
    · rw [if_pos h, if_pos (by rw [h, mul_zero])]; rfl
    · rw [if_neg h, if_neg (mul_ne_zero hk h), times_inf hk, ← Bool.xor_assoc]
      rw [sign_mul hk h]
  · simp [times_fin, mul_assoc]

theorem times_div {k : K} (hk : k ≠ 0) (a b : FV K) : times k a / b = times k (a / b) := by
  rcases a with _ | a | a <;> rcases b with _ | b | b
  · rfl
  · rfl
  · rfl
  · rw [times_inf hk, div_nan, div_nan, times_nan]
  · rw [times_inf hk]; rfl
  · rw [times_inf hk]
    show (if b = 0 then _ else _) = times k (if b = 0 then _ else _)
    by_cases h : b = 0
    · rw [if_pos h, if_pos h, times_inf hk]
    · rw [if_neg h, if_neg h, times_inf hk, Bool.xor_assoc]
  · rfl
  · show (fin 0 : FV K) = times k (fin 0)
    rw [times_fin, mul_zero]
  · rw [times_fin, fin_div_fin, fin_div_fin]
    by_cases h : b = 0
    · rw [if_pos h, if_pos h]
      by_cases h0 : a = 0
      · rw [if_pos h0, if_pos (by rw [h0, mul_zero])]; rfl
      · rw [if_neg h0, if_neg (mul_ne_zero hk h0), times_inf hk]
        rw [sign_mul hk h0]
    · rw [if_neg h, if_neg h, times_fin, mul_div_assoc]

theorem times_isnan {k : K} (hk : k ≠ 0) (a : FV K) : (times k a).isnan = a.isnan := by
  rcases a with _ | a | a
  · rfl
  · rw [times_inf hk]; rfl
  · rfl

theorem times_neg {k : K} (hk : k ≠ 0) (a : FV K) : times k (-a) = -(times k a) := by
  rcases a with _ | a | a
  · rfl
  · show times k (inf (!a)) = _
    rw [times_inf hk, times_inf hk]
    show _ = (inf (!_) : FV K)
    congr 1
    cases a <;> simp
  · simp [times_fin]

theorem times_sub {k : K} (hk : k ≠ 0) (a b : FV K) : times k a - times k b = times k (a - b) := by
  rw [sub_def, sub_def, times_add hk, times_neg hk]

theorem times_one' (a : FV K) : times 1 a = a := by
  rcases a with _ | a | a
  · rfl
  · rw [times_inf one_ne_zero]
    simp [not_lt.mpr zero_le_one]
  · simp [times_fin]

theorem times_times {k l : K} (hk : k ≠ 0) (a : FV K) : times k (times l a) = times (k * l) a := by
  have := times_mul hk (fin l) a
  rw [times_fin] at this
  exact this.symm

theorem affine_def (c d : K) (x : FV K) : affine c d x = times c x + fin d := rfl

/-- Differences do not see the offset. -/
theorem affine_sub {c : K} (hc : c ≠ 0) (d : K) (x y : FV K) : affine c d x - affine c d y = times c (x - y) := by
  rcases x with _ | a | a <;> rcases y with _ | b | b
  · rfl
  · rfl
  · rfl
  · simp [affine_def, times_nan]
  · simp [affine_def, times_inf hc, sub_def, Neg.neg, FV.neg, inf_add_inf]
    cases a <;> cases b <;> by_cases h : c < 0 <;> simp [h, times_inf hc, times_nan]
  · simp [affine_def, times_inf hc, sub_def, times_fin]
  · simp [affine_def, times_nan]
  · simp [affine_def, times_inf hc, sub_def, times_fin, Neg.neg, FV.neg]
  · simp [affine_def, times_fin]
    ring

theorem affine_isnan {c : K} (hc : c ≠ 0) (d : K) (x : FV K) : (affine c d x).isnan = x.isnan := by
  rcases x with _ | a | a
  · rfl
  · simp [affine_def, times_inf hc, isnan]
  · rfl

theorem abs_times {k : K} (hk : k ≠ 0) (a : FV K) : abs (times k a) = times |k| (abs a) := by
  rcases a with _ | a | a
  · rfl
  · rw [times_inf hk]
    show (inf false : FV K) = times |k| (inf false)
    rw [times_inf (abs_ne_zero.mpr hk)]
    simp [not_lt.mpr (abs_nonneg k)]
  · simp [times_fin, abs, abs_mul]

theorem sq_times {k : K} (hk : k ≠ 0) (a : FV K) : sq (times k a) = times (k * k) (sq a) := by
  unfold sq
  rw [times_mul hk, mul_comm' a, times_mul hk, times_times hk]

end FV

theorem FV.sqrt_times {k : ℝ} (hk : k ≠ 0) (a : FV ℝ) : FV.sqrt (FV.times (k * k) a) = FV.times |k| (FV.sqrt a) := by
  have hkk : k * k ≠ 0 := mul_ne_zero hk hk
  have h0 : 0 < k * k := lt_of_le_of_ne (mul_self_nonneg k) (Ne.symm hkk)
  have ha : |k| ≠ 0 := abs_ne_zero.mpr hk
  rcases a with _ | a | a
  · rfl
  · rw [FV.times_inf hkk]
    cases a
    · simp [FV.sqrt, not_lt.mpr h0.le, FV.times_inf ha, not_lt.mpr (abs_nonneg k)]
    · simp [FV.sqrt, not_lt.mpr h0.le, FV.times_nan]
  · rw [FV.times_fin]
    by_cases h : a < 0
    · simp [FV.sqrt, h, mul_neg_of_pos_of_neg h0 h, FV.times_nan]
    · have h' : ¬ k * k * a < 0 := not_lt.mpr (mul_nonneg h0.le (not_lt.mp h))
      simp only [FV.sqrt, if_neg h, if_neg h', FV.times_fin]
      rw [Real.sqrt_mul h0.le, Real.sqrt_mul_self_eq_abs]

/-! ### Aggregation -/

/-- Multiplication by a nonzero number, as a homomorphism. -/
def FV.timesHom {k : K} (hk : k ≠ 0) : FV K →+ FV K :=
  { toFun := FV.times k, map_zero' := FV.times_zero k, map_add' := FV.times_add hk }

theorem FV.times_sum {ι : Type} {k : K} (hk : k ≠ 0) (s : Finset ι) (f : ι → FV K) :
    ∑ i ∈ s, FV.times k (f i) = FV.times k (∑ i ∈ s, f i) := (map_sum (FV.timesHom hk) f s).symm

theorem DA.sumDim_times {k : K} (hk : k ≠ 0) (d : Dim) (a : DA L (FV K)) :
    DA.sumDim d (a.map (FV.times k)) = (DA.sumDim d a).map (FV.times k) := by
  simp only [DA.sumDim, DA.map, DA.mk.injEq, true_and]
  funext e
  exact FV.times_sum hk _ _

theorem DA.sumDims_times {k : K} (hk : k ≠ 0) (ds : List Dim) (a : DA L (FV K)) :
    DA.sumDims ds (a.map (FV.times k)) = (DA.sumDims ds a).map (FV.times k) := by
  induction ds generalizing a with
  | nil => rfl
  | cons d ds ih => rw [DA.sumDims, DA.sumDim_times hk, ih]; rfl

theorem DA.mul_times {k : K} (hk : k ≠ 0) (a b : DA L (FV K)) :
    DA.zipWith (· * ·) (a.map (FV.times k)) b = (DA.zipWith (· * ·) a b).map (FV.times k) := by
  simp only [DA.zipWith, DA.map, DA.mk.injEq]
  refine ⟨trivial, rfl, ?_⟩
  funext e
  exact FV.times_mul hk _ _

theorem DA.div_times {k : K} (hk : k ≠ 0) (a b : DA L (FV K)) :
    DA.zipWith (· / ·) (a.map (FV.times k)) b = (DA.zipWith (· / ·) a b).map (FV.times k) := by
  simp only [DA.zipWith, DA.map, DA.mk.injEq]
  refine ⟨trivial, rfl, ?_⟩
  funext e
  exact FV.times_div hk _ _

theorem DA.dot_times {k : K} (hk : k ≠ 0) (a : DA L (FV K)) (bs : List (DA L (FV K))) (ds : List Dim) :
    DA.dot (a.map (FV.times k)) bs ds = (DA.dot a bs ds).map (FV.times k) := by
  unfold DA.dot
  rw [← DA.sumDims_times hk]
  congr 1
  induction bs generalizing a with
  | nil => rfl
  | cons b bs ih => rw [List.foldl_cons, DA.mul_times hk, ih]; rfl

namespace Aggregator
variable {agg : Aggregator L (FV K)}

theorem binMasks_same {a a' : DA L (FV K)} (hd : a.dims = a'.dims) (hc : a.coords = a'.coords) (bs : List (BinBy L (FV K)))
    (hb : ∀ b ∈ bs, ∀ a a' : DA L (FV K), a.dims = a'.dims → a.coords = a'.coords → b.createBinMask a = b.createBinMask a') :
    binMasks a bs = binMasks a' bs := by
  induction bs with
  | nil => rfl
  | cons b bs ih =>
    simp only [binMasks]
    rw [hb b (List.mem_cons_self ..) a a' hd hc, hd, ih (fun b' h => hb b' (List.mem_cons_of_mem _ h))]

theorem aggregationFn_times (h : agg.CoordOnly) {k : K} (hk : k ≠ 0) (a : DA L (FV K)) :
    agg.aggregationFn (a.map (FV.times k)) = (agg.aggregationFn a).map (Option.map (DA.map (FV.times k))) := by
  unfold aggregationFn
  have hw : agg.weighBy.map (fun w => w (a.map (FV.times k))) = agg.weighBy.map (fun w => w a) :=
    List.map_congr_left (fun w hw => h.1 w hw _ _ rfl rfl)
  have hb : binMasks (a.map (FV.times k)) agg.binBy = binMasks a agg.binBy := 
    binMasks_same (a := a.map (FV.times k)) (a' := a) rfl rfl _ h.2
  have hd : (a.map (FV.times k)).dims = a.dims := rfl
  rw [hd]
  by_cases h1 : ¬ (agg.reduceDims.all (fun d => d ∈ a.dims))
  · rw [if_pos h1, if_pos h1]; rfl
  · rw [if_neg h1, if_neg h1]
    simp only []
    rw [hw, hb]
    by_cases h2 : ((agg.binBy.map (·.binDim)).dedup).length ≠ agg.binBy.length
    · rw [if_pos h2, if_pos h2]; rfl
    · rw [if_neg h2, if_neg h2]
      rcases binMasks a agg.binBy with _ | masks
      · rfl
      · simp only []
        rw [DA.dot_times hk]; rfl

theorem applyMask_times {k : K} (hk : k ≠ 0) (s : StatVar L (FV K)) :
    agg.applyMask (s.map (FV.times k)) = ((agg.applyMask s).1.map (FV.times k), (agg.applyMask s).2) := by
  have hn : (s.arr.map (FV.times k)).map (fun v => !IsNull.isnull v) = s.arr.map (fun v => !IsNull.isnull v) := by
    simp only [DA.map, DA.mk.injEq, true_and]
    funext e
    exact congrArg _ (FV.times_isnan hk _)
  have hw : ∀ (a : DA L (FV K)) (m : DA L Bool), (a.map (FV.times k)).where_ m 0 = (a.where_ m 0).map (FV.times k) := by
    intro a m
    simp only [DA.where_, DA.zipWith, DA.map, DA.mk.injEq]
    refine ⟨trivial, rfl, ?_⟩
    funext e
    by_cases h : m.val e = true
    · rw [if_pos h, if_pos h]
    · rw [if_neg h, if_neg h, FV.times_zero]
  rcases s with ⟨arr, mask⟩
  unfold applyMask
  dsimp only [StatVar.map]
  dsimp only at hn
  rcases agg.masked with _ | _ <;> rcases mask with _ | m <;> by_cases hs : agg.skipna = true <;>
    simp only [hs, if_true, hn, hw] <;> rfl

theorem aggregateStatVar_times (h : agg.CoordOnly) {k : K} (hk : k ≠ 0) (s : StatVar L (FV K)) :
    agg.aggregateStatVar (s.map (FV.times k)) =
      (agg.aggregateStatVar s).map (Option.map (fun q => (q.1.map (FV.times k), q.2))) := by
  unfold aggregateStatVar
  rw [applyMask_times hk]
  generalize agg.applyMask s = sm
  obtain ⟨a, m⟩ := sm
  dsimp only
  rw [aggregationFn_times h hk]
  rcases agg.aggregationFn a with e | _ | x <;> rcases agg.aggregationFn m with e' | _ | y <;> rfl

end Aggregator

/-- A statistic of every variable multiplied by a factor per variable. -/
def scaleStats (k : String → K) (vs : Vars (Option (StatVar L (FV K)))) : Vars (Option (StatVar L (FV K))) :=
  vs.map (fun kv => (kv.1, kv.2.map (fun s => s.map (FV.times (k kv.1)))))

theorem perVar_times {agg : Aggregator L (FV K)} (h : agg.CoordOnly) {k : String → K} (hk : ∀ v, k v ≠ 0)
    (vs : Vars (Option (StatVar L (FV K)))) :
    agg.perVar (scaleStats k vs) = (agg.perVar vs).map (fun l => l.map (fun q => (q.1, (q.2.1.map (FV.times (k q.1)), q.2.2)))) := by
  induction vs with
  | nil => rfl
  | cons x vs ih =>
    obtain ⟨v, _ | s⟩ := x
    · exact ih
    · show agg.perVar ((v, some (s.map (FV.times (k v)))) :: scaleStats k vs) = _
      unfold Aggregator.perVar
      rw [Aggregator.aggregateStatVar_times h (hk v), ih]
      rcases agg.aggregateStatVar s with e | _ | q <;> rcases agg.perVar vs with e' | l <;> rfl

theorem meanVars_times {agg : Aggregator L (FV K)} (h : agg.CoordOnly) {k : String → K} (hk : ∀ v, k v ≠ 0)
    (vs : Vars (Option (StatVar L (FV K)))) : meanVars agg (scaleStats k vs) = (meanVars agg vs).map (scaleValues k) := by
  unfold meanVars
  rw [perVar_times h hk]
  rcases agg.perVar vs with e | l
  · rfl
  · show Except.ok _ = Except.ok _
    congr 1
    unfold scaleValues
    rw [List.map_map, List.map_map]
    refine List.map_congr_left (fun q _ => ?_)
    simp only [Function.comp]
    rw [DA.div_times (hk q.1)]

/-- A statistic that is multiplied by a factor per variable under a change of units. -/
def Statistic.ScalesBy (s : FStatistic L K) (c d k : String → K) : Prop :=
  ∀ p t, s.compute (changeUnits c d p) (changeUnits c d t) = (s.compute p t).map (scaleStats k)

/-- Mean statistics by internal name, each multiplied by its factor. -/
def scaleMeans (kk : String → String → K) (sv : List (String × Vars (DA L (FV K)))) : List (String × Vars (DA L (FV K))) :=
  sv.map (fun nv => (nv.1, scaleValues (kk nv.1) nv.2))

/-- `m'` is the metric in the new units (the same metric, except that it may contain data of its own, such as a climatology). -/
theorem metricAlone_times' {agg : Aggregator L (FV K)} (h : agg.CoordOnly) {m m' : FMetric L K} {c d k : String → K}
    {kk : String → String → K} (hkk : ∀ n v, kk n v ≠ 0) {p t : Vars (StatVar L (FV K))}
    (hs : List.Forall₂ (fun ks ks' => ks'.1 = ks.1 ∧
      ks'.2.compute (changeUnits c d p) (changeUnits c d t) = (ks.2.compute p t).map (scaleStats (kk ks.1))) m.statistics m'.statistics)
    (hv : ∀ sv, m'.valuesFromMeanStatistics (scaleMeans kk sv) = (m.valuesFromMeanStatistics sv).map (scaleValues k)) :
    metricAlone m' agg (changeUnits c d p) (changeUnits c d t) = (metricAlone m agg p t).map (scaleValues k) := by
  unfold metricAlone
  have hm : m'.statistics.mapM (fun ks => do
        let v ← ks.2.compute (changeUnits c d p) (changeUnits c d t)
        let mean ← meanVars agg v
        return (ks.1, mean)) =
      (m.statistics.mapM (fun ks => do
        let v ← ks.2.compute p t
        let mean ← meanVars agg v
        return (ks.1, mean)) : Except Err _).map (scaleMeans kk) := by
    generalize m.statistics = l at hs
    generalize m'.statistics = l' at hs
    induction hs with
    | nil => rfl
    | @cons x x' l l' hx _ ih =>
      rw [List.mapM_cons, List.mapM_cons, ih, hx.2]
      rcases x.2.compute p t with e | v
      · rfl
      · show ((do
          let mean ← meanVars agg (scaleStats (kk x.1) v)
          return (x'.1, mean)) >>= _) = _
        rw [meanVars_times h (hkk x.1)]
        show _ = Except.map _ (((do
          let mean ← meanVars agg v
          return (x.1, mean)) >>= _) : Except Err _)
        rcases meanVars agg v with e | mean
        · rfl
        · generalize (List.mapM _ l : Except Err _) = r
          rcases r with e | r
          · rfl
          · show Except.ok _ = Except.ok _
            rw [hx.1]; rfl
  rw [hm]
  generalize (List.mapM _ m.statistics : Except Err _) = r
  rcases r with e | r
  · rfl
  · exact hv r

theorem metricAlone_times {agg : Aggregator L (FV K)} (h : agg.CoordOnly) {m : FMetric L K} {c d k : String → K}
    {kk : String → String → K} (hkk : ∀ n v, kk n v ≠ 0) (hs : ∀ ks ∈ m.statistics, ks.2.ScalesBy c d (kk ks.1))
    (hv : ∀ sv, m.valuesFromMeanStatistics (scaleMeans kk sv) = (m.valuesFromMeanStatistics sv).map (scaleValues k)) :
    m.ScalesBy agg c d k := by
  intro p t
  refine metricAlone_times' h hkk ?_ hv
  generalize m.statistics = l at hs
  induction l with
  | nil => exact List.Forall₂.nil
  | cons x l ih =>
    exact List.Forall₂.cons ⟨rfl, hs x (List.mem_cons_self ..) p t⟩ (ih (fun ks h' => hs ks (List.mem_cons_of_mem _ h')))

theorem pyGet?_scaleValues (k : String → K) (vs : Vars (DA L (FV K))) (v : String) :
    pyGet? v (scaleValues k vs) = (pyGet? v vs).map (DA.map (FV.times (k v))) := by
  induction vs with
  | nil => rfl
  | cons x vs ih =>
    by_cases h : x.1 = v
    · subst h; simp [scaleValues, pyGet?]
    · simp only [scaleValues, List.map_cons, pyGet?] at ih ⊢
      rw [if_neg h, if_neg h, ih]

end WBX
