import Verif.Props.CRPSSpread
import Verif.Lemmas.Energy
import Verif.Lemmas.OneDim

/-!
# C31: the ensemble CRPS
-/

set_option linter.unusedSectionVars false

namespace WBX
open DA Classical MeasureTheory
variable {L K : Type} [DecidableEq L] [Field K] [LinearOrder K] [IsStrictOrderedRing K]

/-! ### The skill term -/

theorem ensembleAt_skipna {sk : Bool} {a : StatVar L (FV K)} {d : Dim} {e : Dim → L} {M : Finset L} {x : L → K}
    (h : EnsembleAt sk a d e M x) {f : FV K → FV K} {g : K → K} (hf : ∀ z, f (.fin z) = .fin (g z)) (hn : f .nan = .nan) (hM : M.Nonempty) :
    npMean sk (a.arr.coords d) (fun l => f (a.arr.val (setLabel e d l))) = FV.fin (eMean M (fun l => g (x l))) := by
  cases sk with
  | false =>
    obtain ⟨hC, hx⟩ := h
    rw [hC]
    exact npMean_fin (fun l hl => by rw [hx l hl, hf]) hM
  | true =>
    obtain ⟨hC, hx, hnan⟩ := h
    exact npMean_present hC (fun l hl => by rw [hx l hl, hf]) (fun l hl hl' => by rw [hnan l hl hl', hn]) hM

/-- **C31** The skill term, for targets without ensemble: the mean absolute error of the members. -/
theorem C31_skill {d : Dim} {sk : Bool} {p t s : StatVar L (FV K)} (hd : d ∉ t.arr.dims) (ht : t.arr.WF)
    (h : crpsSkill d sk p t = .ok s) {e : Dim → L} {M : Finset L} {x : L → K} {y : K} (hM : EnsembleAt sk p d e M x)
    (hne : M.Nonempty) (hy : t.arr.val e = .fin y) : s.arr.val e = FV.fin (eSkill M x y) := by
  unfold crpsSkill StatVar.meanDim at h
  rw [if_neg hd] at h
  split at h
  · rename_i hdp
    rw [Except.ok.injEq] at h
    have hdp' : d ∈ p.arr.dims := by
      simp only [StatVar.map, StatVar.zipWith, map, zipWith, Finset.mem_union] at hdp
      exact hdp.resolve_right hd
    subst h
    have hty : ∀ l, t.arr.val (setLabel e d l) = .fin y := by
      intro l
      rw [← hy]
      apply ht
      intro k hk
      rw [setLabel_other _ (fun hkd => hd (by rw [← hkd]; exact hk))]
    simp only [StatVar.reduce, StatVar.map, StatVar.zipWith, map, zipWith, hty]
    rw [show joinCoords p.arr t.arr d = p.arr.coords d by simp [joinCoords, hdp', hd]]
    rw [ensembleAt_skipna hM (f := fun v => FV.abs (v - .fin y)) (g := fun z => |z - y|) (by simp [FV.abs]) (by simp [FV.abs]) hne]
    rfl
  · simp at h

/-- **C31** The spread term of either form, with missing members skipped if asked for. -/
theorem C31_spread {argsort : List (FV K) → List ℕ} (harg : IsArgsort argsort) {order : List L} (ho : order.Nodup) {d : Dim}
    {useSort fair sk : Bool} {p t s : StatVar L (FV K)} (hp : p.arr.WF)
    (h : crpsSpread argsort order d useSort fair "predictions" sk p t = .ok s) (hord : order.toFinset = p.arr.coords d)
    {e : Dim → L} {M : Finset L} {x : L → K} (hM : EnsembleAt sk p d e M x) (hn : 2 ≤ M.card) :
    s.arr.val e = FV.fin (eSpread fair M x) := by
  cases useSort with
  | true =>
    obtain ⟨rfl, -⟩ := spread_sorted_ok (whichArray_eq (.inl ⟨rfl, rfl⟩)) h
    have hM' : Members p d e M x := hM
    exact C30_sorted (.inl ⟨rfl, rfl⟩) harg h hM' ho (hord.trans hM'.1)
  | false =>
    cases sk with
    | true => exact C30_skipna (.inl ⟨rfl, rfl⟩) hp h hM hn
    | false => exact C30_pairwise (.inl ⟨rfl, rfl⟩) hp h hM hn

/-- **C31** The CRPS of an ensemble forecast is the weighted mean over the counted cells of the CRPS of each cell,
`mean |x_i - y| - ½ mean |x_i - x_j|`, for the sorted and the pairwise form, fair and unfair. -/
theorem C31_value {argsort : List (FV K) → List ℕ} (harg : IsArgsort argsort) {order : List L} (ho : order.Nodup) {d : Dim}
    {useSort fair sk : Bool} {agg : Aggregator L (FV K)} {p t : Vars (StatVar L (FV K))} (hp : (p.map Prod.fst).Nodup)
    (ht : (t.map Prod.fst).Nodup) {v : String} {a b s1 s2 : StatVar L (FV K)} (ha : (v, a) ∈ p) (hb : (v, b) ∈ t)
    (hwa : a.arr.WF) (hwb : b.arr.WF) (hd : d ∉ b.arr.dims) (hord : order.toFinset = a.arr.coords d)
    (h1 : crpsSkill d sk a b = .ok s1) (h2 : crpsSpread argsort order d useSort fair "predictions" sk a b = .ok s2)
    {e : Dim → L} {cs : Finset (Dim → L)} (E1 : Evaluated agg s1 e cs) (E2 : Evaluated agg s2 e cs) (hW : GoodWeights agg s1 cs)
    (hw : ∀ e' ∈ cs, cellWeight agg s2 e' = cellWeight agg s1 e') {M : (Dim → L) → Finset L} {x : (Dim → L) → L → K} {y : (Dim → L) → K}
    (hM : ∀ e' ∈ cs, EnsembleAt sk a d e' (M e') (x e')) (hn : ∀ e' ∈ cs, 2 ≤ (M e').card) (hy : ∀ e' ∈ cs, b.arr.val e' = .fin (y e'))
    {X : DA L (FV K)} (hX : ValueOf (crpsEnsemble argsort order d useSort fair sk) agg p t v X) :
    X.val e = FV.fin (wmean agg s1 cs (fun e' => eCRPS fair (M e') (x e') (y e'))) := by
  obtain ⟨y1, y2, m1, m2, rfl⟩ := valueOf_metric2 (show "CRPSSkill" ≠ "CRPSSpread" by decide) hX
  have hW2 : GoodWeights agg s2 cs := by
    refine ⟨fun e' he' => by rw [hw e' he']; exact hW.1 e' he', ?_⟩
    rw [Finset.sum_congr rfl hw]
    exact hW.2
  have v1 := mean_statOfE hp ht ha hb m1 h1 E1 hW (g := fun e' => eSkill (M e') (x e') (y e'))
    (fun e' he' => C31_skill hd hwb h1 (hM e' he') (Finset.card_pos.mp (by have := hn e' he'; omega)) (hy e' he'))
  have v2 := mean_statOfE hp ht ha hb m2 h2 E2 hW2 (g := fun e' => eSpread fair (M e') (x e'))
    (fun e' he' => C31_spread harg ho hwa h2 hord (hM e' he') (hn e' he'))
  have hwm : wmean agg s2 cs (fun e' => eSpread fair (M e') (x e')) = wmean agg s1 cs (fun e' => eSpread fair (M e') (x e')) := by
    unfold wmean
    rw [Finset.sum_congr rfl hw, Finset.sum_congr rfl (fun e' he' => by rw [hw e' he'])]
  simp only [sub, smul, zipWith, map]
  rw [v1, v2, FV.fin_mul_fin, FV.fin_sub_fin, hwm, ← wmean_smul, ← wmean_sub]
  rfl

/-! ### What the CRPS of a cell is -/

theorem eSpread_le {M : Finset L} (fair : Bool) (hn : 2 ≤ M.card) (x : L → K) (y : K) : 1 / 2 * eSpread fair M x ≤ eSkill M x y := by
  have h0 : (0 : K) < M.card := by exact_mod_cast (show 0 < M.card by omega)
  have h1 : (0 : K) < M.card - 1 := by
    have : (1 : K) < M.card := by exact_mod_cast (show 1 < M.card by omega)
    linarith
  have htri : ∀ i ∈ M, ∀ j ∈ M, |x i - x j| ≤ if j = i then 0 else |x i - y| + |x j - y| := by
    intro i _ j _
    split
    · subst_vars; simp
    · calc |x i - x j| = |(x i - y) - (x j - y)| := by ring_nf
        _ ≤ _ := abs_sub _ _
  have hsum : ∑ i ∈ M, ∑ j ∈ M, |x i - x j| ≤ 2 * (M.card - 1) * ∑ i ∈ M, |x i - y| := by
    calc ∑ i ∈ M, ∑ j ∈ M, |x i - x j| ≤ ∑ i ∈ M, ∑ j ∈ M, (if j = i then 0 else |x i - y| + |x j - y|) :=
          Finset.sum_le_sum (fun i hi => Finset.sum_le_sum (fun j hj => htri i hi j hj))
      _ = ∑ i ∈ M, (∑ j ∈ M, (|x i - y| + |x j - y|) - 2 * |x i - y|) := by
          refine Finset.sum_congr rfl (fun i hi => ?_)
          rw [← Finset.add_sum_erase M _ hi, ← Finset.add_sum_erase M (fun j => |x i - y| + |x j - y|) hi]
          rw [if_pos rfl, Finset.sum_congr rfl (fun j hj => if_neg (Finset.ne_of_mem_erase hj))]
          ring
      _ = 2 * (M.card - 1) * ∑ i ∈ M, |x i - y| := by
          simp only [Finset.sum_add_distrib, Finset.sum_sub_distrib, Finset.sum_const, nsmul_eq_mul, ← Finset.mul_sum]
          ring
  have hpos : 0 ≤ ∑ i ∈ M, |x i - y| := Finset.sum_nonneg (fun _ _ => abs_nonneg _)
  unfold eSpread eSkill
  cases fair with
  | true =>
    simp only [if_true]
    rw [← mul_div_assoc, div_le_div_iff₀ (mul_pos h0 h1) h0]
    have := mul_le_mul_of_nonneg_left hsum h0.le
    linarith
  | false =>
    simp only [Bool.false_eq_true, if_false, sub_zero]
    rw [← mul_div_assoc, div_le_div_iff₀ (mul_pos h0 h0) h0]
    have := mul_le_mul_of_nonneg_left hsum h0.le
    have h3 := mul_nonneg h0.le hpos
    linarith

/-- **C31** The CRPS of a cell is never negative, fair or not. -/
theorem C31_cell_nonneg {M : Finset L} (fair : Bool) (hn : 2 ≤ M.card) (x : L → K) (y : K) : 0 ≤ eCRPS fair M x y :=
  sub_nonneg.mpr (eSpread_le fair hn x y)

/-- **C31** If all members agree, the CRPS is the absolute error. -/
theorem C31_degenerate {M : Finset L} (fair : Bool) (hn : M.Nonempty) {x : L → K} {z : K} (hz : ∀ l ∈ M, x l = z) (y : K) :
    eCRPS fair M x y = |z - y| := by
  have h0 : (M.card : K) ≠ 0 := by exact_mod_cast hn.card_pos.ne'
  have e1 : ∑ l ∈ M, |x l - y| = M.card * |z - y| := by
    rw [Finset.sum_congr rfl (fun l hl => by rw [hz l hl])]; simp
  have e2 : ∑ i ∈ M, ∑ j ∈ M, |x i - x j| = 0 :=
    Finset.sum_eq_zero (fun i hi => Finset.sum_eq_zero (fun j hj => by rw [hz i hi, hz j hj]; simp))
  unfold eCRPS eSkill eSpread
  rw [e1, e2, zero_div, mul_zero, sub_zero, mul_div_cancel_left₀ _ h0]

/-- **C31** Translation invariance. -/
theorem C31_translate (fair : Bool) (M : Finset L) (x : L → K) (y c : K) :
    eCRPS fair M (fun l => x l + c) (y + c) = eCRPS fair M x y := by
  simp [eCRPS, eSkill, eSpread]

/-- **C31** Homogeneity, also for a change of sign. -/
theorem C31_scale (fair : Bool) (M : Finset L) (x : L → K) (y c : K) :
    eCRPS fair M (fun l => c * x l) (c * y) = |c| * eCRPS fair M x y := by
  simp only [eCRPS, eSkill, eSpread, ← mul_sub, abs_mul, ← Finset.mul_sum]
  ring

/-- **C31** The members may come in any order, under any labels. -/
theorem C31_permute {L' : Type} [DecidableEq L'] (fair : Bool) (M : Finset L) (x : L → K) (y : K) (σ : L' → L) (M' : Finset L')
    (hσ : Set.InjOn σ M') (hM : M'.image σ = M) : eCRPS fair M' (fun l => x (σ l)) y = eCRPS fair M x y := by
  have hc : M.card = M'.card := by rw [← hM, Finset.card_image_of_injOn hσ]
  have hs : ∀ f : L → K, ∑ l ∈ M, f l = ∑ l ∈ M', f (σ l) := fun f => by rw [← hM, Finset.sum_image hσ]
  simp only [eCRPS, eSkill, eSpread, hs, hc]

/-- **C31** The unfair CRPS is the integral of the squared difference between the distribution function of the ensemble and
the step function of the observation: the definition of the continuous ranked probability score. -/
theorem C31_integral {M : Finset L} (hM : M.Nonempty) (x : L → ℝ) (y : ℝ) :
    eCRPS false M x y = ∫ z, (eCDF M x z - if y ≤ z then 1 else 0) ^ 2 := by
  have h := energy_integral hM (Finset.singleton_nonempty ()) x (fun _ => y)
  have e1 : eSkill2 M {()} x (fun _ => y) = eSkill M x y := by simp [eSkill2, eSkill]
  have e2 : eSpread false {()} (fun _ => y) = 0 := by simp [eSpread]
  rw [e1, e2, mul_zero, sub_zero] at h
  rw [eCRPS, h]
  congr 1
  funext z
  simp [eCDF, eMean]

/-- **C31** End to end: nonnegative, for every aggregation with nonnegative weights. -/
theorem C31_nonneg {agg : Aggregator L (FV K)} {s : StatVar L (FV K)} {cs : Finset (Dim → L)} (hW : GoodWeights agg s cs) (fair : Bool)
    {M : (Dim → L) → Finset L} (hn : ∀ e' ∈ cs, 2 ≤ (M e').card) (x : (Dim → L) → L → K) (y : (Dim → L) → K) :
    0 ≤ wmean agg s cs (fun e' => eCRPS fair (M e') (x e') (y e')) :=
  wmean_nonneg hW (fun e' he' => C31_cell_nonneg fair (hn e' he') _ _)

/-- **C31** An ensemble target: the skill is the mean over all pairs of a predicted and a target member. -/
theorem C31_skill_ensemble_target {d : Dim} {p t s : StatVar L (FV K)} (hwp : p.arr.WF) (hwt : t.arr.WF) (hd : d ∈ t.arr.dims)
    (hps : (d ++ "_PSEUDO_FOR_TARGETS") ∉ p.arr.dims) (h : crpsSkill d false p t = .ok s) {e : Dim → L} {M N : Finset L}
    {x y : L → K} (hM : Members p d e M x) (hN : Members t d e N y) (hMne : M.Nonempty) (hNne : N.Nonempty) :
    s.arr.val e = FV.fin (eSkill2 M N x y) := by
  set ps := d ++ "_PSEUDO_FOR_TARGETS" with hpsdef
  have hne : ps ≠ d := by
    intro h
    have := congrArg String.length h
    rw [hpsdef, String.length_append] at this
    have h2 : "_PSEUDO_FOR_TARGETS".length = 19 := by decide
    omega
  unfold crpsSkill at h
  rw [if_pos hd] at h
  simp only [bind, Except.bind, ← hpsdef] at h
  unfold StatVar.rename at h
  by_cases hr : d ∈ t.arr.dims ∧ ps ∉ t.arr.dims
  · rw [if_pos hr] at h
    simp only at h
    split at h
    · rename_i hdp
      simp only [pure, Except.pure, Except.ok.injEq] at h
      have hdp' : d ∈ p.arr.dims := by
        simp only [StatVar.map, StatVar.zipWith, map, zipWith, Finset.mem_union, DA.rename, if_pos hd] at hdp
        rcases hdp with h | h
        · exact h
        · simp [hne.symm] at h
      subst h
      have j1 : joinCoords p.arr (t.arr.rename d ps) d = M := by
        simp [joinCoords, DA.rename, hd, hdp', hne.symm, hM.1]
      have j2 : joinCoords p.arr (t.arr.rename d ps) ps = N := by
        simp [joinCoords, DA.rename, hd, hps, hN.1]
      have kp : ∀ l' l, l ∈ M → p.arr.val (setLabel (setLabel e ps l') d l) = .fin (x l) := by
        intro l' l hl
        rw [← hM.2 l hl]
        apply hwp
        intro k hk
        have : k ≠ ps := fun h => hps (h ▸ hk)
        by_cases hkd : k = d <;> simp [setLabel, hkd, this]
      have kt : ∀ l' l, l' ∈ N → (t.arr.rename d ps).val (setLabel (setLabel e ps l') d l) = .fin (y l') := by
        intro l' l hl'
        rw [DA.rename, if_pos hd]
        simp only
        rw [setLabel_other _ hne, setLabel_same, setLabel_twice, ← hN.2 l' hl']
        apply hwt
        intro k hk
        have : k ≠ ps := fun h => hr.2 (h ▸ hk)
        by_cases hkd : k = d <;> simp [setLabel, hkd, this]
      simp only [StatVar.zipWith, zipWith, StatVar.reduce, StatVar.map, map, j1, j2]
      have hin : ∀ l' ∈ N, ∀ l ∈ M, FV.abs (p.arr.val (setLabel (setLabel e ps l') d l) - (t.arr.rename d ps).val (setLabel (setLabel e ps l') d l)) =
          FV.fin |x l - y l'| := by
        intro l' hl' l hl
        rw [kp l' l hl, kt l' l hl', FV.fin_sub_fin]; rfl
      rw [npSum_fin (y := fun l' => ∑ l ∈ M, |x l - y l'|) (fun l' hl' => npSum_fin (hin l' hl')),
        npSum_fin (y := fun _ => (M.card : K)) (fun l' hl' => by rw [present_of_fin (hin l' hl')]; rfl)]
      have h1 : (M.card : K) ≠ 0 := by exact_mod_cast hMne.card_pos.ne'
      have h2 : (N.card : K) ≠ 0 := by exact_mod_cast hNne.card_pos.ne'
      rw [FV.fin_div_fin_of_ne _ (by simp [h1, h2]), eSkill2, Finset.sum_comm]
      simp [mul_comm]
    · simp at h
  · rw [if_neg hr] at h
    simp at h

/-- **C31** The CRPS distance between an ensemble forecast and an ensemble of targets, no missing members. -/
theorem C31_distance {argsort : List (FV K) → List ℕ} (harg : IsArgsort argsort) {order order' : List L} (ho : order.Nodup)
    (ho' : order'.Nodup) {d : Dim} {useSort fair sk : Bool} {agg : Aggregator L (FV K)} {p t : Vars (StatVar L (FV K))}
    (hp : (p.map Prod.fst).Nodup) (ht : (t.map Prod.fst).Nodup) {v : String} {a b s1 s2 s3 : StatVar L (FV K)} (ha : (v, a) ∈ p)
    (hb : (v, b) ∈ t) (hwa : a.arr.WF) (hwb : b.arr.WF) (hd : d ∈ b.arr.dims) (hps : (d ++ "_PSEUDO_FOR_TARGETS") ∉ a.arr.dims)
    (h1 : crpsSkill d false a b = .ok s1) (h2 : crpsSpread argsort order d useSort fair "predictions" sk a b = .ok s2)
    (h3 : crpsSpread argsort order' d useSort fair "targets" false a b = .ok s3)
    {e : Dim → L} {cs : Finset (Dim → L)} (E1 : Evaluated agg s1 e cs) (E2 : Evaluated agg s2 e cs) (E3 : Evaluated agg s3 e cs)
    (hW : GoodWeights agg s1 cs) (hw2 : ∀ e' ∈ cs, cellWeight agg s2 e' = cellWeight agg s1 e')
    (hw3 : ∀ e' ∈ cs, cellWeight agg s3 e' = cellWeight agg s1 e') {M N : Finset L} {x y : (Dim → L) → L → K}
    (hM : ∀ e' ∈ cs, Members a d e' M (x e')) (hN : ∀ e' ∈ cs, Members b d e' N (y e')) (hord : order.toFinset = M)
    (hord' : order'.toFinset = N) (hm : 2 ≤ M.card) (hn : 2 ≤ N.card)
    {X : DA L (FV K)} (hX : ValueOf (crpsEnsembleDistance argsort order order' d useSort fair sk) agg p t v X) :
    X.val e = FV.fin (wmean agg s1 cs (fun e' => eSkill2 M N (x e') (y e') - 1 / 2 * eSpread fair M (x e') - 1 / 2 * eSpread fair N (y e'))) := by
  obtain ⟨y1, y2, y3, m1, m2, m3, rfl⟩ := valueOf_metric3 (show "CRPSSkill" ≠ "CRPSSpread" by decide)
    (show "CRPSSkill" ≠ "CRPSTargetSpread" by decide) (show "CRPSSpread" ≠ "CRPSTargetSpread" by decide) hX
  have hMne : M.Nonempty := Finset.card_pos.mp (by omega)
  have hNne : N.Nonempty := Finset.card_pos.mp (by omega)
  have good : ∀ s', (∀ e' ∈ cs, cellWeight agg s' e' = cellWeight agg s1 e') → GoodWeights agg s' cs := fun s' hw =>
    ⟨fun e' he' => by rw [hw e' he']; exact hW.1 e' he', by rw [Finset.sum_congr rfl hw]; exact hW.2⟩
  have same : ∀ s', (∀ e' ∈ cs, cellWeight agg s' e' = cellWeight agg s1 e') → ∀ f, wmean agg s' cs f = wmean agg s1 cs f := fun s' hw f => by
    unfold wmean
    rw [Finset.sum_congr rfl hw, Finset.sum_congr rfl (fun e' he' => by rw [hw e' he'])]
  have v1 := mean_statOfE hp ht ha hb m1 h1 E1 hW (g := fun e' => eSkill2 M N (x e') (y e'))
    (fun e' he' => C31_skill_ensemble_target hwa hwb hd hps h1 (hM e' he') (hN e' he') hMne hNne)
  have v2 := mean_statOfE hp ht ha hb m2 h2 E2 (good s2 hw2) (g := fun e' => eSpread fair M (x e')) (fun e' he' => by
    cases useSort with
    | true => exact C30_sorted (.inl ⟨rfl, rfl⟩) harg h2 (hM e' he') ho hord
    | false => exact C30_pairwise (.inl ⟨rfl, rfl⟩) hwa h2 (hM e' he') hm)
  have v3 := mean_statOfE hp ht ha hb m3 h3 E3 (good s3 hw3) (g := fun e' => eSpread fair N (y e')) (fun e' he' => by
    cases useSort with
    | true => exact C30_sorted (.inr ⟨rfl, rfl⟩) harg h3 (hN e' he') ho' hord'
    | false => exact C30_pairwise (.inr ⟨rfl, rfl⟩) hwb h3 (hN e' he') hn)
  simp only [sub, smul, zipWith, map]
  rw [v1, v2, v3, same s2 hw2, same s3 hw3, FV.fin_mul_fin, FV.fin_mul_fin, FV.fin_sub_fin, FV.fin_sub_fin, ← wmean_smul, ← wmean_sub,
    ← wmean_smul, ← wmean_sub]

/-- **C31** The unfair CRPS distance of a cell is the integral of the squared difference of the two distribution functions, so it is
nonnegative and 0 for equal ensembles; the fair one can be negative. -/
theorem C31_distance_integral {L' : Type} [DecidableEq L'] {M : Finset L} {N : Finset L'} (hM : M.Nonempty) (hN : N.Nonempty) (x : L → ℝ) (y : L' → ℝ) :
    eSkill2 M N x y - 1 / 2 * eSpread false M x - 1 / 2 * eSpread false N y = ∫ z, (eCDF M x z - eCDF N y z) ^ 2 ∧
    0 ≤ eSkill2 M N x y - 1 / 2 * eSpread false M x - 1 / 2 * eSpread false N y :=
  ⟨energy_integral hM hN x y, by rw [energy_integral hM hN x y]; exact integral_nonneg (fun _ => sq_nonneg _)⟩

example : eSkill2 (Finset.range 2) (Finset.range 2) (fun l => (l : ℚ)) (fun l => (l : ℚ)) - 1 / 2 * eSpread true (Finset.range 2) (fun l => (l : ℚ))
    - 1 / 2 * eSpread true (Finset.range 2) (fun l => (l : ℚ)) = -1 / 2 := by
  norm_num [eSkill2, eSpread, Finset.sum_range_succ]

/-- **C31** The skill of a forecast with a missing member is NaN without `skipna_ensemble`. -/
theorem C31_skill_nan {d : Dim} {p t s : StatVar L (FV K)} (hd : d ∉ t.arr.dims) (h : crpsSkill d false p t = .ok s) {e : Dim → L} {l : L}
    (hl : l ∈ p.arr.coords d) (hnan : p.arr.val (setLabel e d l) = .nan) : s.arr.val e = FV.nan := by
  unfold crpsSkill StatVar.meanDim at h
  rw [if_neg hd] at h
  split at h
  · rename_i hdp
    rw [Except.ok.injEq] at h
    have hdp' : d ∈ p.arr.dims := by
      simp only [StatVar.map, StatVar.zipWith, map, zipWith, Finset.mem_union] at hdp
      exact hdp.resolve_right hd
    subst h
    simp only [StatVar.reduce, StatVar.map, StatVar.zipWith, map, zipWith]
    rw [show joinCoords p.arr t.arr d = p.arr.coords d by simp [joinCoords, hdp', hd]]
    unfold npMean
    rw [npSum_nan hl (by rw [hnan]; simp [FV.abs])]
    simp
  · simp at h

/-- **C31** (found) The distance ignores `skipna_ensemble` for its skill term: the statistic is the one without it. -/
theorem C31_distance_skipna_ignored (argsort : List (FV K) → List ℕ) (order order' : List L) (d : Dim) (useSort fair skipna : Bool) :
    ∃ rest, (crpsEnsembleDistance argsort order order' d useSort fair skipna).statistics = ("CRPSSkill", crpsSkillStatistic d false) :: rest :=
  ⟨_, rfl⟩

/-! ### A concrete evaluation -/

/-- Three members `l + x` along `number`, at the points 0 and 1 along `x`. -/
noncomputable def crpsPred : StatVar ℕ (FV ℝ) :=
  ⟨{ dims := {"number", "x"}, coords := fun k => if k = "number" then Finset.range 3 else {0, 1}, val := fun e => FV.fin (e "number" + e "x") }, none⟩
noncomputable def crpsTarget : StatVar ℕ (FV ℝ) := ⟨{ dims := {"x"}, coords := fun _ => {0, 1}, val := fun _ => FV.fin 1 }, none⟩

theorem crpsPred_wf : crpsPred.arr.WF := by
  intro e e' h
  simp only [crpsPred]
  rw [h "number" (by simp [crpsPred]), h "x" (by simp [crpsPred])]

theorem crps_plain (s : StatVar ℕ (FV ℝ)) (hc : s.arr.coords "x" = {0, 1}) (hm : s.mask = none)
    (hf : ∀ n, (s.arr.val (exCell n)).isFin = true) : Evaluated mAgg s (exCell 0) (({0, 1} : Finset ℕ).image exCell) :=
  evaluated1 s {0, 1} hc (by rw [hm]; simp) {0, 1} (by intro n; simp [counted, mAgg, hm]) (fun n _ => hf n)

theorem crps_hyps (useSort fair : Bool) : ∃ s1 s2 X, crpsSkill "number" false crpsPred crpsTarget = .ok s1 ∧
    crpsSpread npArgsort [0, 1, 2] "number" useSort fair "predictions" false crpsPred crpsTarget = .ok s2 ∧
    Evaluated mAgg s1 (exCell 0) (({0, 1} : Finset ℕ).image exCell) ∧ Evaluated mAgg s2 (exCell 0) (({0, 1} : Finset ℕ).image exCell) ∧
    GoodWeights mAgg s1 (({0, 1} : Finset ℕ).image exCell) ∧ (∀ e', cellWeight mAgg s2 e' = cellWeight mAgg s1 e') ∧
    ValueOf (crpsEnsemble npArgsort [0, 1, 2] "number" useSort fair false) mAgg [("t", crpsPred)] [("t", crpsTarget)] "t" X := by
  have hM : ∀ n, EnsembleAt false crpsPred "number" (exCell n) (Finset.range 3) (fun l => (l : ℝ) + n) := fun n =>
    ⟨rfl, fun l _ => by simp [crpsPred, setLabel, exCell]⟩
  obtain ⟨s2, h2⟩ := C30_ok (argsort := npArgsort) (order := [0, 1, 2]) (d := "number") (fair := fair) (sk := false)
    (which := "predictions") (p := crpsPred) (t := crpsTarget) (a := crpsPred) useSort (by simp [crpsPred]) (by simp [crpsPred]) (.inl ⟨rfl, rfl⟩)
    (by simp [crpsPred]) (by simp)
  obtain ⟨d2, c2, k2⟩ := C30_shape (.inl ⟨rfl, rfl⟩) h2
  have hx2 : "x" ∈ s2.arr.dims := by rw [d2]; simp [crpsPred]
  obtain ⟨s1, h1, hx1, c1, k1⟩ : ∃ s1, crpsSkill "number" false crpsPred crpsTarget = .ok s1 ∧ "x" ∈ s1.arr.dims ∧ s1.arr.coords "x" = {0, 1} ∧
      s1.mask = none := by
    refine ⟨((crpsPred.zipWith (· - ·) crpsTarget).map FV.abs).reduce "number" (npMean false), ?_, ?_, ?_, ?_⟩
    · unfold crpsSkill
      rw [if_neg (by simp [crpsTarget])]
      unfold StatVar.meanDim
      rw [if_pos (by simp [StatVar.map, map, StatVar.zipWith, zipWith, crpsPred])]
    · simp [StatVar.reduce, StatVar.map, map, StatVar.zipWith, zipWith, crpsPred]
    · simp [StatVar.reduce, StatVar.map, map, StatVar.zipWith, zipWith, crpsPred, crpsTarget, joinCoords]
    · simp [StatVar.reduce, StatVar.map, StatVar.zipWith, crpsPred, crpsTarget, combineMask, dropMask]
  obtain ⟨q1, hq1⟩ := exists_aggregate mAgg rfl s1 (by simp [mAgg, hx1])
  obtain ⟨q2, hq2⟩ := exists_aggregate mAgg rfl s2 (by simp [mAgg, hx2])
  refine ⟨s1, s2, _, h1, h2, crps_plain s1 c1 k1 (fun n => ?_), crps_plain s2 (by rw [c2 _ hx2]; simp [crpsPred]) (k2 rfl) (fun n => ?_),
    mAgg_good _ _ (by decide), fun e' => by simp [cellWeight, Aggregator.allFactors, mAgg],
    exists_metric2 (show "CRPSSkill" ≠ "CRPSSpread" by decide) (oneMean_statOfE _ h1 hq1) (oneMean_statOfE _ h2 hq2)⟩
  · rw [C31_skill (by simp [crpsTarget]) (fun _ _ _ => rfl) h1 (hM n) (by simp) (y := 1) rfl]; rfl
  · rw [C31_spread npArgsort_ok (by decide) crpsPred_wf h2 (by simp [crpsPred]; rfl) (hM n) (by simp)]; rfl

/-- All hypotheses of `C31_value` hold here; members 0,1,2 and 1,2,3 against 1 give the mean of 2/9 and 5/9 (unfair). -/
example (useSort : Bool) : ∃ X, ValueOf (crpsEnsemble npArgsort [0, 1, 2] "number" useSort false false) mAgg [("t", crpsPred)] [("t", crpsTarget)] "t" X ∧
    X.val (exCell 0) = FV.fin (7 / 18) := by
  obtain ⟨s1, s2, X, h1, h2, E1, E2, hW, hw, hX⟩ := crps_hyps useSort false
  refine ⟨X, hX, ?_⟩
  rw [C31_value npArgsort_ok (by decide) (by simp) (by simp) (by simp) (by simp) crpsPred_wf (fun _ _ _ => rfl) (by simp [crpsTarget])
    (by simp [crpsPred]; rfl) h1 h2 E1 E2 hW (fun e' _ => hw e') (M := fun _ => Finset.range 3) (x := fun e' l => (l : ℝ) + e' "x") (y := fun _ => 1)
    (fun e' _ => ⟨rfl, fun l _ => by simp [crpsPred, setLabel]⟩) (fun _ _ => by simp) (fun _ _ => rfl) hX]
  congr 1
  have hc : ∀ e', cellWeight mAgg s1 e' = 1 := fun e' => by simp [cellWeight, Aggregator.allFactors, mAgg]
  unfold wmean
  simp only [hc, mul_one]
  rw [Finset.sum_image (fun _ _ _ _ h => exCell_inj h), Finset.sum_const, Finset.card_image_of_injective _ exCell_inj]
  norm_num [eCRPS, eSkill, eSpread, Finset.sum_range_succ, exCell]

end WBX
