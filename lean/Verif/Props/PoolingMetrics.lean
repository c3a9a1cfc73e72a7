import Verif.Props.Pooling
import Verif.Props.EnsembleMoments
import Verif.Model.Spatial

/-!
# Property C99: roots and quotients of averages
-/

set_option linter.unusedSectionVars false

namespace WBX
open DA Aggregator
variable {L : Type} [DecidableEq L]

section General
variable {K : Type} [Field K] [LinearOrder K] [IsStrictOrderedRing K]
variable {agg agg' : Aggregator L (FV K)} {s s1 s2 s3 : StatVar L (FV K)} {d : Dim} {C : Finset L} {e : Dim → L} {cs : L → Finset (Dim → L)} {cs' : Finset (Dim → L)}
variable {p t : Vars (StatVar L (FV K))} {v : String} {x x' : DA L (FV K)}

theorem wmean_of_weights {A : Aggregator L (FV K)} {s s' : StatVar L (FV K)} {cs : Finset (Dim → L)} (h : ∀ e' ∈ cs, cellWeight A s' e' = cellWeight A s e') (f : (Dim → L) → K) :
    wmean A s' cs f = wmean A s cs f := by
  unfold wmean
  rw [Finset.sum_congr rfl h, Finset.sum_congr rfl (fun e' he' => by rw [h e' he'])]

theorem wmean_lincomb {A : Aggregator L (FV K)} {s : StatVar L (FV K)} {cs : Finset (Dim → L)} (c : K) (f g : (Dim → L) → K) :
    wmean A s cs (fun e' => f e' + c * g e') = wmean A s cs f + c * wmean A s cs g := by
  unfold wmean
  rw [mul_div_assoc', ← add_div, Finset.mul_sum, ← Finset.sum_add_distrib]
  congr 1
  refine Finset.sum_congr rfl (fun e' _ => by ring)

theorem PooledTogether.ofCells (P : PooledTogether agg agg' s1 s2 d C e cs cs') (hwf : s2.arr.WF) : OfCells s1 d (fun e' => (s2.arr.val e').num) :=
  fun hd => ofCells_num hwf (fun h => hd (P.dims h))

/-- The averages of the second statistic. -/
theorem PooledTogether.means (P : PooledTogether agg agg' s1 s2 d C e cs cs') {st : FStatistic L K} (hs : IsStatistic st p t v s2) {y y' : DA L (FV K)} (h : IsMeanOf agg p t v st y)
    (h' : IsMeanOf agg' p t v st y') : (∀ l ∈ C, y.val (setLabel e d l) = FV.fin (wmean agg s1 (cs l) (fun e' => (s2.arr.val e').num))) ∧
      y'.val e = FV.fin (wmean agg' s1 cs' (fun e' => (s2.arr.val e').num)) := by
  refine ⟨fun l hl => ?_, ?_⟩
  · rw [hs.mean h (P.pooled'.parts l hl) (P.pooled'.weights l hl), wmean_of_weights (P.parts l hl)]
  · rw [hs.mean h' P.pooled'.whole P.pooled'.weight, wmean_of_weights P.whole]

/-- **C99** CRPS of ensembles (skill minus half of the spread). -/
theorem C99_crps {argsort : List (FV K) → List ℕ} {order : List L} {ens : Dim} {useSort fair sk : Bool} (h1 : IsStatistic (crpsSkillStatistic ens sk) p t v s1)
    (h2 : IsStatistic (crpsSpreadStatistic argsort order ens useSort fair "predictions" sk) p t v s2) (w1 : s1.arr.WF) (w2 : s2.arr.WF) (P : PooledTogether agg agg' s1 s2 d C e cs cs')
    (h : ValueOf (crpsEnsemble argsort order ens useSort fair sk) agg p t v x) (h' : ValueOf (crpsEnsemble argsort order ens useSort fair sk) agg' p t v x') : Between x x' d C e := by
  obtain ⟨y1, y2, m1, m2, rfl⟩ := valueOf_metric2 (by simp) h
  obtain ⟨z1, z2, n1, n2, rfl⟩ := valueOf_metric2 (by simp) h'
  obtain ⟨g, g'⟩ := P.means h2 m2 n2
  have hf : OfCells s1 d (fun e' => (s1.arr.val e').num + -(1 / 2) * (s2.arr.val e').num) := fun hd e' l => by
    have e1 := ofCells_num w1 hd e' l
    have e2 := P.ofCells w2 hd e' l
    simp only at e1 e2 ⊢
    rw [e1, e2]
  refine P.pooled.between hf id monotone_id (fun l hl => ?_) ?_
  · show y1.val _ - FV.fin (1 / 2) * y2.val _ = _
    rw [h1.mean m1 (P.pooled.parts l hl) (P.pooled.weights l hl), g l hl, FV.fin_mul_fin, FV.fin_sub_fin, id, wmean_lincomb]
    congr 1; ring
  · show z1.val _ - FV.fin (1 / 2) * z2.val _ = _
    rw [h1.mean n1 P.pooled.whole P.pooled.weight, g', FV.fin_mul_fin, FV.fin_sub_fin, id, wmean_lincomb]
    congr 1; ring

/-- **C99** Fractions skill score, when there are events in each part. -/
theorem C99_fss {g : Grid L} {number : ℤ → L} {wrap : Bool} {sizes : Sizes}
    (h1 : IsStatistic (statOfE ("SquaredFractionsError_" ++ sizesSuffix sizes wrap) (squaredFractionsError g number wrap sizes)) p t v s1)
    (h2 : IsStatistic (statOfE ("SquaredPredictionFraction_" ++ sizesSuffix sizes wrap) (squaredPredictionFraction g number wrap sizes)) p t v s2)
    (h3 : IsStatistic (statOfE ("SquaredTargetFraction_" ++ sizesSuffix sizes wrap) (squaredTargetFraction g number wrap sizes)) p t v s3)
    (w1 : s1.arr.WF) (w2 : s2.arr.WF) (w3 : s3.arr.WF) (P : PooledTogether agg agg' s1 s2 d C e cs cs') (P' : PooledTogether agg agg' s1 s3 d C e cs cs')
    (hpos : ∀ l ∈ C, 0 < wmean agg s1 (cs l) (fun e' => (s2.arr.val e').num + (s3.arr.val e').num))
    (h : ValueOf (fss g number wrap sizes) agg p t v x) (h' : ValueOf (fss g number wrap sizes) agg' p t v x') : Between x x' d C e := by
  obtain ⟨y1, y2, y3, m1, m2, m3, rfl⟩ := valueOf_metric3 (by simp) (by simp) (by simp) h
  obtain ⟨z1, z2, z3, n1, n2, n3, rfl⟩ := valueOf_metric3 (by simp) (by simp) (by simp) h'
  obtain ⟨g2, g2'⟩ := P.means h2 m2 n2
  obtain ⟨g3, g3'⟩ := P'.means h3 m3 n3
  have hneg : OfCells s1 d (fun e' => -(s1.arr.val e').num) := fun hd e' l => by
    have e1 := ofCells_num w1 hd e' l
    simp only at e1 ⊢
    rw [e1]
  have hg : OfCells s1 d (fun e' => (s2.arr.val e').num + (s3.arr.val e').num) := fun hd e' l => by
    have e1 := P.ofCells w2 hd e' l
    have e2 := P'.ofCells w3 hd e' l
    simp only at e1 e2 ⊢
    rw [e1, e2]
  have hpos' := (P.pooled.ratio hneg hg hpos).1
  have hsum : ∀ (A : Aggregator L (FV K)) (cs : Finset (Dim → L)), wmean A s1 cs (fun e' => (s2.arr.val e').num + (s3.arr.val e').num) =
      wmean A s1 cs (fun e' => (s2.arr.val e').num) + wmean A s1 cs (fun e' => (s3.arr.val e').num) := fun A cs => by
    have := wmean_lincomb (A := A) (s := s1) (cs := cs) 1 (fun e' => (s2.arr.val e').num) (fun e' => (s3.arr.val e').num)
    simpa using this
  have hn : ∀ (A : Aggregator L (FV K)) (cs : Finset (Dim → L)), wmean A s1 cs (fun e' => -(s1.arr.val e').num) = -wmean A s1 cs (fun e' => (s1.arr.val e').num) := fun A cs => by
    unfold wmean
    rw [← neg_div, ← Finset.sum_neg_distrib]
    congr 1
    exact Finset.sum_congr rfl (fun e' _ => by ring)
  refine P.pooled.between_ratio hneg hg hpos (fun z => 1 + z) (fun u w huw => by simpa using huw) (fun l hl => ?_) ?_
  · show 1 - y1.val _ / (y2.val _ + y3.val _) = _
    have hne := (hpos l hl).ne'
    rw [hsum] at hne ⊢
    rw [h1.mean m1 (P.pooled.parts l hl) (P.pooled.weights l hl), g2 l hl, g3 l hl, FV.fin_add_fin, FV.fin_div_fin_of_ne _ hne, hn]
    show FV.fin 1 - _ = _
    rw [FV.fin_sub_fin]
    congr 1; ring
  · show 1 - z1.val _ / (z2.val _ + z3.val _) = _
    have hne := hpos'.ne'
    rw [hsum] at hne ⊢
    rw [h1.mean n1 P.pooled.whole P.pooled.weight, g2', g3', FV.fin_add_fin, FV.fin_div_fin_of_ne _ hne, hn]
    show FV.fin 1 - _ = _
    rw [FV.fin_sub_fin]
    congr 1; ring

end General

/-! ## Roots -/
section Roots
variable {agg agg' : Aggregator L (FV ℝ)} {s s1 s2 : StatVar L (FV ℝ)} {d : Dim} {C : Finset L} {e : Dim → L} {cs : L → Finset (Dim → L)} {cs' : Finset (Dim → L)}
variable {p t : Vars (StatVar L (FV ℝ))} {v : String} {x x' : DA L (FV ℝ)}

theorem sqrt_fin {r : ℝ} (h : 0 ≤ r) : FV.sqrt (FV.fin r) = FV.fin (Real.sqrt r) := by
  rw [FV.sqrt, if_neg (not_lt.mpr h)]

/-- **C99** The root of an average of values that are not negative (`RMSE` of any forecast, also of an ensemble mean, and `EnsembleRootMeanVariance`). -/
theorem C99_root {k : String} {st : FStatistic L ℝ} (hs : IsStatistic st p t v s) (hwf : s.arr.WF) (P : Pooled agg agg' s d C e cs cs') (h0 : ∀ e', 0 ≤ (s.arr.val e').num)
    (h : ValueOf (metric1 (k, st) (fun x => x.map FV.sqrt)) agg p t v x) (h' : ValueOf (metric1 (k, st) (fun x => x.map FV.sqrt)) agg' p t v x') : Between x x' d C e := by
  obtain ⟨y, m, rfl⟩ := valueOf_metric1 h
  obtain ⟨y', m', rfl⟩ := valueOf_metric1 h'
  refine P.between (ofCells_num hwf) Real.sqrt (fun _ _ h => Real.sqrt_le_sqrt h) (fun l hl => ?_) ?_
  · show FV.sqrt (y.val _) = _
    rw [hs.mean m (P.parts l hl) (P.weights l hl), sqrt_fin]
    exact wmean_nonneg (P.weights l hl) (fun e' _ => h0 e')
  · show FV.sqrt (y'.val _) = _
    rw [hs.mean m' P.whole P.weight, sqrt_fin]
    exact wmean_nonneg P.weight (fun e' _ => h0 e')

/-- **C99** `RMSE`. -/
theorem C99_rmse (hp : (p.map Prod.fst).Nodup) (ht : (t.map Prod.fst).Nodup) {a b : StatVar L (FV ℝ)} (ha : (v, a) ∈ p) (hb : (v, b) ∈ t) (wa : a.arr.WF) (wb : b.arr.WF)
    (P : Pooled agg agg' (error a b) d C e cs cs') (h : ValueOf rmse agg p t v x) (h' : ValueOf rmse agg' p t v x') : Between x x' d C e := by
  have hf : OfCells (error a b) d (fun e' => errAt a b e' ^ 2) := fun hd e' l => by
    have hda : d ∉ a.arr.dims := fun h => hd (Finset.mem_union_left _ h)
    have hdb : d ∉ b.arr.dims := fun h => hd (Finset.mem_union_right _ h)
    show errAt a b (setLabel e' d l) ^ 2 = _
    unfold errAt
    rw [wa _ e' (fun k hk => setLabel_other e' (fun h : k = d => hda (h ▸ hk)) l), wb _ e' (fun k hk => setLabel_other e' (fun h : k = d => hdb (h ▸ hk)) l)]
  exact P.between hf Real.sqrt (fun _ _ h => Real.sqrt_le_sqrt h) (fun l hl => C22_rmse_value hp ht ha hb (P.parts l hl) (P.weights l hl) h) (C22_rmse_value hp ht ha hb P.whole P.weight h')

/-- **C99** The spread/skill ratio, when the unbiased squared error of each part is positive. -/
theorem C99_spread_skill {ens : Dim} {sk : Bool} (h1 : IsStatistic (unbiasedMSEStatistic ens sk) p t v s1) (h2 : IsStatistic (ensembleVarianceStatistic ens sk) p t v s2)
    (w1 : s1.arr.WF) (w2 : s2.arr.WF) (h0 : ∀ e', 0 ≤ (s2.arr.val e').num) (P : PooledTogether agg agg' s1 s2 d C e cs cs')
    (hpos : ∀ l ∈ C, 0 < wmean agg s1 (cs l) (fun e' => (s1.arr.val e').num))
    (h : ValueOf (spreadSkillRatio ens sk) agg p t v x) (h' : ValueOf (spreadSkillRatio ens sk) agg' p t v x') : Between x x' d C e := by
  obtain ⟨y2, y1, m2, m1, rfl⟩ := valueOf_metric2 (by simp) h
  obtain ⟨z2, z1, n2, n1, rfl⟩ := valueOf_metric2 (by simp) h'
  obtain ⟨g2, g2'⟩ := P.means h2 m2 n2
  have hpos' := (P.pooled.ratio (P.ofCells w2) (ofCells_num w1) hpos).1
  refine P.pooled.between_ratio (P.ofCells w2) (ofCells_num w1) hpos Real.sqrt (fun _ _ h => Real.sqrt_le_sqrt h) (fun l hl => ?_) ?_
  · show FV.sqrt (y2.val _ / y1.val _) = _
    rw [h1.mean m1 (P.pooled.parts l hl) (P.pooled.weights l hl), g2 l hl, FV.fin_div_fin_of_ne _ (hpos l hl).ne', sqrt_fin]
    exact div_nonneg (wmean_nonneg (P.pooled.weights l hl) (fun e' _ => h0 e')) (hpos l hl).le
  · show FV.sqrt (z2.val _ / z1.val _) = _
    rw [h1.mean n1 P.pooled.whole P.pooled.weight, g2', FV.fin_div_fin_of_ne _ hpos'.ne', sqrt_fin]
    exact div_nonneg (wmean_nonneg P.pooled.weight (fun e' _ => h0 e')) hpos'.le

end Roots

/-! ## Categorical scores -/
section Categories
variable {K : Type} [Field K] [LinearOrder K] [IsStrictOrderedRing K]
variable {agg agg' : Aggregator L (FV K)} {a b : StatVar L (FV K)} {d : Dim} {C : Finset L} {e : Dim → L} {cs : L → Finset (Dim → L)} {cs' : Finset (Dim → L)}
variable {p t : Vars (StatVar L (FV K))} {v : String} {x x' : DA L (FV K)}

/-- 1 at the cells where prediction and target are as given. -/
noncomputable def caseAt (a b : StatVar L (FV K)) (pred targ : Bool) (e' : Dim → L) : K := if (a.arr.val e').toBool = pred ∧ (b.arr.val e').toBool = targ then 1 else 0

theorem share_eq_wmean (A : Aggregator L (FV K)) (cs : Finset (Dim → L)) (pred targ : Bool) : share A a b cs pred targ = wmean A (truePositives a b) cs (caseAt a b pred targ) := by
  unfold share wmean caseAt
  rw [Finset.sum_filter]
  congr 1
  exact Finset.sum_congr rfl (fun e' _ => by split <;> simp)

theorem ofCells_case (wa : a.arr.WF) (wb : b.arr.WF) (pred targ : Bool) : OfCells (truePositives a b) d (caseAt a b pred targ) := fun hd e' l => by
  have hda : d ∉ a.arr.dims := fun h => hd (Finset.mem_union_left _ (Finset.mem_union_left _ h))
  have hdb : d ∉ b.arr.dims := fun h => hd (Finset.mem_union_left _ (Finset.mem_union_right _ h))
  unfold caseAt
  rw [wa _ e' (fun k hk => setLabel_other e' (fun h : k = d => hda (h ▸ hk)) l), wb _ e' (fun k hk => setLabel_other e' (fun h : k = d => hdb (h ▸ hk)) l)]

theorem OfCells.lin {s : StatVar L (FV K)} {f g : (Dim → L) → K} (hf : OfCells s d f) (hg : OfCells s d g) (c : K) : OfCells s d (fun e' => f e' + c * g e') := fun hd e' l => by
  show f _ + c * g _ = _
  rw [hf hd e' l, hg hd e' l]

theorem Pooled.between_quot {s : StatVar L (FV K)} (P : Pooled agg agg' s d C e cs cs') {f g : (Dim → L) → K} (hf : OfCells s d f) (hg : OfCells s d g)
    (h0 : ∀ e', 0 ≤ g e') (hpos : ∀ l ∈ C, WBX.wmean agg s (cs l) g ≠ 0)
    (hx : ∀ l ∈ C, x.val (setLabel e d l) = FV.fin (WBX.wmean agg s (cs l) f) / FV.fin (WBX.wmean agg s (cs l) g))
    (hx' : x'.val e = FV.fin (WBX.wmean agg' s cs' f) / FV.fin (WBX.wmean agg' s cs' g)) : Between x x' d C e := by
  have hpos' : ∀ l ∈ C, 0 < WBX.wmean agg s (cs l) g := fun l hl => lt_of_le_of_ne (wmean_nonneg (P.weights l hl) (fun e' _ => h0 e')) (hpos l hl).symm
  refine P.between_ratio hf hg hpos' id monotone_id (fun l hl => ?_) ?_
  · rw [hx l hl, FV.fin_div_fin_of_ne _ (hpos l hl)]; rfl
  · rw [hx', FV.fin_div_fin_of_ne _ (P.ratio hf hg hpos').1.ne']; rfl

theorem caseAt_nonneg (pred targ : Bool) (e' : Dim → L) : (0 : K) ≤ caseAt a b pred targ e' := by
  unfold caseAt
  split
  · exact zero_le_one
  · exact le_refl _

variable (hp : (p.map Prod.fst).Nodup) (ht : (t.map Prod.fst).Nodup) (ha : (v, a) ∈ p) (hb : (v, b) ∈ t) (wa : a.arr.WF) (wb : b.arr.WF)
  (P : Pooled agg agg' (truePositives a b) d C e cs cs')
include hp ht ha hb wa wb P

local notation "TP" A ", " c => share A a b c true true
local notation "TN" A ", " c => share A a b c false false
local notation "FP" A ", " c => share A a b c true false
local notation "FN" A ", " c => share A a b c false true

/-- **C99** Accuracy. -/
theorem C99_accuracy (h : ValueOf accuracy agg p t v x) (h' : ValueOf accuracy agg' p t v x') : Between x x' d C e := by
  have key : ∀ (A : Aggregator L (FV K)) (c : Finset (Dim → L)), (TP A, c) + (TN A, c) = wmean A (truePositives a b) c (fun e' => caseAt a b true true e' + 1 * caseAt a b false false e') := fun A c => by
    rw [wmean_lincomb, share_eq_wmean, share_eq_wmean, one_mul]
  refine P.between (.lin (ofCells_case wa wb true true) (ofCells_case wa wb false false) 1) id monotone_id (fun l hl => ?_) ?_
  · rw [C27_accuracy_value hp ht ha hb (P.parts l hl) (P.weights l hl) h, key]; rfl
  · rw [C27_accuracy_value hp ht ha hb P.whole P.weight h', key]; rfl

/-- **C99** Critical success index (its denominator is not 0 in any part). -/
theorem C99_csi (hd : ∀ l ∈ C, share agg a b (cs l) true true + share agg a b (cs l) true false + share agg a b (cs l) false true ≠ 0) (h : ValueOf csi agg p t v x) (h' : ValueOf csi agg' p t v x') : Between x x' d C e := by
  have kn : ∀ (A : Aggregator L (FV K)) (c : Finset (Dim → L)), share A a b c true true = wmean A (truePositives a b) c (fun e' => caseAt a b true true e') := fun A c => by
    repeat rw [wmean_lincomb]
    simp only [share_eq_wmean, one_mul, two_mul]
  have kd : ∀ (A : Aggregator L (FV K)) (c : Finset (Dim → L)), share A a b c true true + share A a b c true false + share A a b c false true = wmean A (truePositives a b) c (fun e' => ((caseAt a b true true e') + 1 * caseAt a b true false e') + 1 * caseAt a b false true e') := fun A c => by
    repeat rw [wmean_lincomb]
    simp only [share_eq_wmean, one_mul, two_mul]
  refine P.between_quot (ofCells_case wa wb true true) (.lin (.lin (ofCells_case wa wb true true) (ofCells_case wa wb true false) 1) (ofCells_case wa wb false true) 1) (fun e' => ?_) (fun l hl => ?_) (fun l hl => ?_) ?_
  · have h1 := caseAt_nonneg (a := a) (b := b) (K := K) true true e'
    have h2 := caseAt_nonneg (a := a) (b := b) (K := K) true false e'
    have h3 := caseAt_nonneg (a := a) (b := b) (K := K) false true e'
    linarith
  · rw [← kd]; exact hd l hl
  · rw [C27_csi_value hp ht ha hb (P.parts l hl) (P.weights l hl) h, ← kn, ← kd]
  · rw [C27_csi_value hp ht ha hb P.whole P.weight h', ← kn, ← kd]

/-- **C99** Recall (its denominator is not 0 in any part). -/
theorem C99_recall (hd : ∀ l ∈ C, share agg a b (cs l) true true + share agg a b (cs l) false true ≠ 0) (h : ValueOf recall agg p t v x) (h' : ValueOf recall agg' p t v x') : Between x x' d C e := by
  have kn : ∀ (A : Aggregator L (FV K)) (c : Finset (Dim → L)), share A a b c true true = wmean A (truePositives a b) c (fun e' => caseAt a b true true e') := fun A c => by
    repeat rw [wmean_lincomb]
    simp only [share_eq_wmean, one_mul, two_mul]
  have kd : ∀ (A : Aggregator L (FV K)) (c : Finset (Dim → L)), share A a b c true true + share A a b c false true = wmean A (truePositives a b) c (fun e' => (caseAt a b true true e') + 1 * caseAt a b false true e') := fun A c => by
    repeat rw [wmean_lincomb]
    simp only [share_eq_wmean, one_mul, two_mul]
  refine P.between_quot (ofCells_case wa wb true true) (.lin (ofCells_case wa wb true true) (ofCells_case wa wb false true) 1) (fun e' => ?_) (fun l hl => ?_) (fun l hl => ?_) ?_
  · have h1 := caseAt_nonneg (a := a) (b := b) (K := K) true true e'
    have h2 := caseAt_nonneg (a := a) (b := b) (K := K) true false e'
    have h3 := caseAt_nonneg (a := a) (b := b) (K := K) false true e'
    linarith
  · rw [← kd]; exact hd l hl
  · rw [C27_recall_value hp ht ha hb (P.parts l hl) (P.weights l hl) h, ← kn, ← kd]
  · rw [C27_recall_value hp ht ha hb P.whole P.weight h', ← kn, ← kd]

/-- **C99** Precision (its denominator is not 0 in any part). -/
theorem C99_precision (hd : ∀ l ∈ C, share agg a b (cs l) true true + share agg a b (cs l) true false ≠ 0) (h : ValueOf precision agg p t v x) (h' : ValueOf precision agg' p t v x') : Between x x' d C e := by
  have kn : ∀ (A : Aggregator L (FV K)) (c : Finset (Dim → L)), share A a b c true true = wmean A (truePositives a b) c (fun e' => caseAt a b true true e') := fun A c => by
    repeat rw [wmean_lincomb]
    simp only [share_eq_wmean, one_mul, two_mul]
  have kd : ∀ (A : Aggregator L (FV K)) (c : Finset (Dim → L)), share A a b c true true + share A a b c true false = wmean A (truePositives a b) c (fun e' => (caseAt a b true true e') + 1 * caseAt a b true false e') := fun A c => by
    repeat rw [wmean_lincomb]
    simp only [share_eq_wmean, one_mul, two_mul]
  refine P.between_quot (ofCells_case wa wb true true) (.lin (ofCells_case wa wb true true) (ofCells_case wa wb true false) 1) (fun e' => ?_) (fun l hl => ?_) (fun l hl => ?_) ?_
  · have h1 := caseAt_nonneg (a := a) (b := b) (K := K) true true e'
    have h2 := caseAt_nonneg (a := a) (b := b) (K := K) true false e'
    have h3 := caseAt_nonneg (a := a) (b := b) (K := K) false true e'
    linarith
  · rw [← kd]; exact hd l hl
  · rw [C27_precision_value hp ht ha hb (P.parts l hl) (P.weights l hl) h, ← kn, ← kd]
  · rw [C27_precision_value hp ht ha hb P.whole P.weight h', ← kn, ← kd]

/-- **C99** False alarm ratio (its denominator is not 0 in any part). -/
theorem C99_false_alarm (hd : ∀ l ∈ C, share agg a b (cs l) true true + share agg a b (cs l) true false ≠ 0) (h : ValueOf falseAlarmRate agg p t v x) (h' : ValueOf falseAlarmRate agg' p t v x') : Between x x' d C e := by
  have kn : ∀ (A : Aggregator L (FV K)) (c : Finset (Dim → L)), share A a b c true false = wmean A (truePositives a b) c (fun e' => caseAt a b true false e') := fun A c => by
    repeat rw [wmean_lincomb]
    simp only [share_eq_wmean, one_mul, two_mul]
  have kd : ∀ (A : Aggregator L (FV K)) (c : Finset (Dim → L)), share A a b c true true + share A a b c true false = wmean A (truePositives a b) c (fun e' => (caseAt a b true true e') + 1 * caseAt a b true false e') := fun A c => by
    repeat rw [wmean_lincomb]
    simp only [share_eq_wmean, one_mul, two_mul]
  refine P.between_quot (ofCells_case wa wb true false) (.lin (ofCells_case wa wb true true) (ofCells_case wa wb true false) 1) (fun e' => ?_) (fun l hl => ?_) (fun l hl => ?_) ?_
  · have h1 := caseAt_nonneg (a := a) (b := b) (K := K) true true e'
    have h2 := caseAt_nonneg (a := a) (b := b) (K := K) true false e'
    have h3 := caseAt_nonneg (a := a) (b := b) (K := K) false true e'
    linarith
  · rw [← kd]; exact hd l hl
  · rw [C27_far_value hp ht ha hb (P.parts l hl) (P.weights l hl) h, ← kn, ← kd]
  · rw [C27_far_value hp ht ha hb P.whole P.weight h', ← kn, ← kd]

/-- **C99** F1 score (its denominator is not 0 in any part). -/
theorem C99_f1 (hd : ∀ l ∈ C, 2 * share agg a b (cs l) true true + share agg a b (cs l) true false + share agg a b (cs l) false true ≠ 0) (h : ValueOf f1Score agg p t v x) (h' : ValueOf f1Score agg' p t v x') : Between x x' d C e := by
  have kn : ∀ (A : Aggregator L (FV K)) (c : Finset (Dim → L)), 2 * share A a b c true true = wmean A (truePositives a b) c (fun e' => caseAt a b true true e' + 1 * caseAt a b true true e') := fun A c => by
    repeat rw [wmean_lincomb]
    simp only [share_eq_wmean, one_mul, two_mul]
  have kd : ∀ (A : Aggregator L (FV K)) (c : Finset (Dim → L)), 2 * share A a b c true true + share A a b c true false + share A a b c false true = wmean A (truePositives a b) c (fun e' => ((caseAt a b true true e' + 1 * caseAt a b true true e') + 1 * caseAt a b true false e') + 1 * caseAt a b false true e') := fun A c => by
    repeat rw [wmean_lincomb]
    simp only [share_eq_wmean, one_mul, two_mul]
  refine P.between_quot (.lin (ofCells_case wa wb true true) (ofCells_case wa wb true true) 1) (.lin (.lin (.lin (ofCells_case wa wb true true) (ofCells_case wa wb true true) 1) (ofCells_case wa wb true false) 1) (ofCells_case wa wb false true) 1) (fun e' => ?_) (fun l hl => ?_) (fun l hl => ?_) ?_
  · have h1 := caseAt_nonneg (a := a) (b := b) (K := K) true true e'
    have h2 := caseAt_nonneg (a := a) (b := b) (K := K) true false e'
    have h3 := caseAt_nonneg (a := a) (b := b) (K := K) false true e'
    linarith
  · rw [← kd]; exact hd l hl
  · rw [C27_f1_value hp ht ha hb (P.parts l hl) (P.weights l hl) h, ← kn, ← kd]
  · rw [C27_f1_value hp ht ha hb P.whole P.weight h', ← kn, ← kd]

/-- **C99** Frequency bias (its denominator is not 0 in any part). -/
theorem C99_frequency_bias (hd : ∀ l ∈ C, share agg a b (cs l) true true + share agg a b (cs l) false true ≠ 0) (h : ValueOf frequencyBias agg p t v x) (h' : ValueOf frequencyBias agg' p t v x') : Between x x' d C e := by
  have kn : ∀ (A : Aggregator L (FV K)) (c : Finset (Dim → L)), share A a b c true true + share A a b c true false = wmean A (truePositives a b) c (fun e' => (caseAt a b true true e') + 1 * caseAt a b true false e') := fun A c => by
    repeat rw [wmean_lincomb]
    simp only [share_eq_wmean, one_mul, two_mul]
  have kd : ∀ (A : Aggregator L (FV K)) (c : Finset (Dim → L)), share A a b c true true + share A a b c false true = wmean A (truePositives a b) c (fun e' => (caseAt a b true true e') + 1 * caseAt a b false true e') := fun A c => by
    repeat rw [wmean_lincomb]
    simp only [share_eq_wmean, one_mul, two_mul]
  refine P.between_quot (.lin (ofCells_case wa wb true true) (ofCells_case wa wb true false) 1) (.lin (ofCells_case wa wb true true) (ofCells_case wa wb false true) 1) (fun e' => ?_) (fun l hl => ?_) (fun l hl => ?_) ?_
  · have h1 := caseAt_nonneg (a := a) (b := b) (K := K) true true e'
    have h2 := caseAt_nonneg (a := a) (b := b) (K := K) true false e'
    have h3 := caseAt_nonneg (a := a) (b := b) (K := K) false true e'
    linarith
  · rw [← kd]; exact hd l hl
  · rw [C27_frequency_bias_value hp ht ha hb (P.parts l hl) (P.weights l hl) h, ← kn, ← kd]
  · rw [C27_frequency_bias_value hp ht ha hb P.whole P.weight h', ← kn, ← kd]

end Categories
end WBX
