import Verif.Props.Deterministic
import Verif.Lemmas.OneDim

/-!
# C23 (anomaly correlation)
-/

set_option linter.unusedSectionVars false

namespace WBX
open DA Aggregator
variable {L : Type} [DecidableEq L]

theorem withClimatology_mem {name : String} {clims : Vars (StatVar L (FV ℝ))}
    {align : StatVar L (FV ℝ) → StatVar L (FV ℝ) → Except Err (StatVar L (FV ℝ))}
    {f : StatVar L (FV ℝ) → StatVar L (FV ℝ) → StatVar L (FV ℝ) → StatVar L (FV ℝ)} {p t : Vars (StatVar L (FV ℝ))}
    (hp : (p.map Prod.fst).Nodup) (ht : (t.map Prod.fst).Nodup) (hcl : (clims.map Prod.fst).Nodup)
    {v : String} {a b c al : StatVar L (FV ℝ)}
    (ha : (v, a) ∈ p) (hb : (v, b) ∈ t) (hc : (v, c) ∈ clims) (hal : align a c = .ok al)
    {vars} (h : (withClimatology name clims align f).compute p t = .ok vars) {s : StatVar L (FV ℝ)}
    (hs : (v, some s) ∈ vars) : s = f a b al := by
  unfold withClimatology at h
  obtain ⟨cs, hcs, h⟩ := bind_pair_ok _ _ _ h
  have h1 : ∀ (l : Vars (StatVar L (FV ℝ))) cs, l.mapM (fun kv => do let x ← pyItem clims kv.1; return (kv.1, x)) = .ok cs →
      ∀ k x, (k, x) ∈ cs → (k, x) ∈ clims := by
    intro l
    induction l with
    | nil =>
      intro cs h k x hx
      simp only [List.mapM_nil, pure, Except.pure, Except.ok.injEq] at h
      subst h; simp at hx
    | cons kv l ih =>
      intro cs h k x hx
      rw [List.mapM_cons] at h
      obtain ⟨y, hy, h⟩ := bind_pair_ok _ _ _ h
      obtain ⟨ys, hys, h⟩ := bind_pair_ok _ _ _ h
      simp only [pure, Except.pure, Except.ok.injEq] at h
      subst h
      rcases List.mem_cons.mp hx with hx | hx
      · obtain ⟨z, hz, hy⟩ := bind_pair_ok _ _ _ hy
        simp only [pure, Except.pure, Except.ok.injEq] at hy
        subst hy
        rw [Prod.mk.injEq] at hx
        obtain ⟨rfl, rfl⟩ := hx
        exact pyItem_mem hz
      · exact ih ys hys k x hx
  have h2 : ∀ (l : Vars (StatVar L (FV ℝ))) vars, l.mapM (fun kv => do
        let b ← pyItem t kv.1
        let c ← pyItem cs kv.1
        let al ← align kv.2 c
        return (kv.1, some (f kv.2 b al))) = .ok vars → (v, some s) ∈ vars →
      ∃ a b c al, (v, a) ∈ l ∧ (v, b) ∈ t ∧ (v, c) ∈ cs ∧ align a c = .ok al ∧ s = f a b al := by
    intro l
    induction l with
    | nil =>
      intro vars h hx
      simp only [List.mapM_nil, pure, Except.pure, Except.ok.injEq] at h
      subst h; simp at hx
    | cons kv l ih =>
      intro vars h hx
      rw [List.mapM_cons] at h
      obtain ⟨y, hy, h⟩ := bind_pair_ok _ _ _ h
      obtain ⟨ys, hys, h⟩ := bind_pair_ok _ _ _ h
      simp only [pure, Except.pure, Except.ok.injEq] at h
      subst h
      rcases List.mem_cons.mp hx with hx | hx
      · obtain ⟨b', hb', hy⟩ := bind_pair_ok _ _ _ hy
        obtain ⟨c', hc', hy⟩ := bind_pair_ok _ _ _ hy
        obtain ⟨al', hal', hy⟩ := bind_pair_ok _ _ _ hy
        simp only [pure, Except.pure, Except.ok.injEq] at hy
        subst hy
        rw [Prod.mk.injEq, Option.some.injEq] at hx
        obtain ⟨rfl, rfl⟩ := hx
        exact ⟨kv.2, b', c', al', by simp, pyItem_mem hb', pyItem_mem hc', hal', rfl⟩
      · obtain ⟨a', b', c', al', g1, g2⟩ := ih ys hys hx
        exact ⟨a', b', c', al', by simp [g1], g2⟩
  obtain ⟨a', b', c', al', g1, g2, g3, g4, g5⟩ := h2 p vars h hs
  have g3 := h1 p cs hcs _ _ g3
  have uniq : ∀ {β : Type} {l : List (String × β)} (_ : (l.map Prod.fst).Nodup) {x y : β}, (v, x) ∈ l → (v, y) ∈ l → x = y := by
    intro β l hl x y hx hy
    have e1 := (pyGet?_eq_some hl v x).mpr hx
    have e2 := (pyGet?_eq_some hl v y).mpr hy
    rw [e1, Option.some.injEq] at e2
    exact e2
  obtain rfl := uniq hp ha g1
  obtain rfl := uniq ht hb g2
  obtain rfl := uniq hcl hc g3
  rw [hal, Except.ok.injEq] at g4
  rw [g5, g4]

/-! ### Specification -/

/-- The weighted correlation of two fields over the counted cells. -/
noncomputable def correlation (w : (Dim → L) → ℝ) (cs : Finset (Dim → L)) (x y : (Dim → L) → ℝ) : ℝ :=
  (∑ e ∈ cs, x e * y e * w e) / (Real.sqrt (∑ e ∈ cs, x e ^ 2 * w e) * Real.sqrt (∑ e ∈ cs, y e ^ 2 * w e))

/-- The three statistics of ACC are evaluated on the same cells with the same weights. -/
structure AccEvaluated (agg : Aggregator L (FV ℝ)) (a b al : StatVar L (FV ℝ)) (e : Dim → L) (cs : Finset (Dim → L)) :
    Prop where
  pred : Evaluated agg (squaredPredictionAnomaly a b al) e cs
  target : Evaluated agg (squaredTargetAnomaly a b al) e cs
  cov : Evaluated agg (anomalyCovariance a b al) e cs
  predWeight : cellWeight agg (squaredPredictionAnomaly a b al) = cellWeight agg (anomalyCovariance a b al)
  targetWeight : cellWeight agg (squaredTargetAnomaly a b al) = cellWeight agg (anomalyCovariance a b al)

theorem FV.of_sq_isFin {x : FV ℝ} (h : x.sq.isFin = true) : x.isFin = true := by
  cases x <;> simp [FV.sq, FV.isFin, FV.inf_mul_inf] at h ⊢

theorem acc_lookup {z1 z2 z3 x : DA L (FV ℝ)} (h : (do
    let cov ← pyItem [("SquaredPredictionAnomaly", z1), ("SquaredTargetAnomaly", z2), ("AnomalyCovariance", z3)] "AnomalyCovariance"
    let pp ← pyItem [("SquaredPredictionAnomaly", z1), ("SquaredTargetAnomaly", z2), ("AnomalyCovariance", z3)] "SquaredPredictionAnomaly"
    let tt ← pyItem [("SquaredPredictionAnomaly", z1), ("SquaredTargetAnomaly", z2), ("AnomalyCovariance", z3)] "SquaredTargetAnomaly"
    return accFormula cov pp tt : Except Err (DA L (FV ℝ))) = .ok x) : x = accFormula z3 z1 z2 := by
  have e1 : pyItem [("SquaredPredictionAnomaly", z1), ("SquaredTargetAnomaly", z2), ("AnomalyCovariance", z3)]
    "AnomalyCovariance" = .ok z3 := by simp [pyItem, pyGet?]
  have e2 : pyItem [("SquaredPredictionAnomaly", z1), ("SquaredTargetAnomaly", z2), ("AnomalyCovariance", z3)]
    "SquaredPredictionAnomaly" = .ok z1 := by simp [pyItem, pyGet?]
  have e3 : pyItem [("SquaredPredictionAnomaly", z1), ("SquaredTargetAnomaly", z2), ("AnomalyCovariance", z3)]
    "SquaredTargetAnomaly" = .ok z2 := by simp [pyItem, pyGet?]
  rw [e1, e2, e3] at h
  exact (Except.ok.inj h).symm

theorem acc_aggregates {agg : Aggregator L (FV ℝ)} {p t clims : Vars (StatVar L (FV ℝ))}
    {align : StatVar L (FV ℝ) → StatVar L (FV ℝ) → Except Err (StatVar L (FV ℝ))}
    (hp : (p.map Prod.fst).Nodup) (ht : (t.map Prod.fst).Nodup) (hcl : (clims.map Prod.fst).Nodup)
    {v : String} {a b c al : StatVar L (FV ℝ)} (ha : (v, a) ∈ p) (hb : (v, b) ∈ t) (hc : (v, c) ∈ clims)
    (hal : align a c = .ok al) {x : DA L (FV ℝ)} (h : ValueOf (acc clims align) agg p t v x) :
    ∃ q1 q2 q3, agg.aggregateStatVar (squaredPredictionAnomaly a b al) = .ok (some q1) ∧
      agg.aggregateStatVar (squaredTargetAnomaly a b al) = .ok (some q2) ∧
      agg.aggregateStatVar (anomalyCovariance a b al) = .ok (some q3) ∧
      x = accFormula (DA.zipWith (· / ·) q3.1 q3.2) (DA.zipWith (· / ·) q1.1 q1.2) (DA.zipWith (· / ·) q2.1 q2.2) := by
  unfold acc at h
  have hn : ([("SquaredPredictionAnomaly", withClimatology "SquaredPredictionAnomaly" clims align squaredPredictionAnomaly),
    ("SquaredTargetAnomaly", withClimatology "SquaredTargetAnomaly" clims align squaredTargetAnomaly),
    ("AnomalyCovariance", withClimatology "AnomalyCovariance" clims align anomalyCovariance)].map Prod.fst).Nodup := by
    simp
  obtain ⟨ys, hys, hg⟩ := valueOf_perVariable hn h
  rw [List.forall₂_cons_left_iff] at hys
  obtain ⟨y1, ys1, ⟨h1, h2⟩, hys, rfl⟩ := hys
  rw [List.forall₂_cons_left_iff] at hys
  obtain ⟨y2, ys2, ⟨h3, h4⟩, hys, rfl⟩ := hys
  rw [List.forall₂_cons_left_iff] at hys
  obtain ⟨y3, ys3, ⟨h5, h6⟩, hys, rfl⟩ := hys
  rw [List.forall₂_nil_left_iff] at hys
  subst hys
  obtain ⟨k1, y1⟩ := y1
  obtain ⟨k2, y2⟩ := y2
  obtain ⟨k3, y3⟩ := y3
  simp only at h1 h2 h3 h4 h5 h6
  subst h1 h3 h5
  obtain ⟨v1, s1, q1, a1, b1, c1, rfl⟩ := h2
  obtain ⟨v2, s2, q2, a2, b2, c2, rfl⟩ := h4
  obtain ⟨v3, s3, q3, a3, b3, c3, rfl⟩ := h6
  rw [withClimatology_mem hp ht hcl ha hb hc hal a1 b1] at c1
  rw [withClimatology_mem hp ht hcl ha hb hc hal a2 b2] at c2
  rw [withClimatology_mem hp ht hcl ha hb hc hal a3 b3] at c3
  refine ⟨q1, q2, q3, c1, c2, c3, ?_⟩
  clear h hp ht hcl ha hb hc hal
  generalize DA.zipWith (· / ·) q1.1 q1.2 = z1 at hg ⊢
  generalize DA.zipWith (· / ·) q2.1 q2.2 = z2 at hg ⊢
  generalize DA.zipWith (· / ·) q3.1 q3.2 = z3 at hg ⊢
  exact acc_lookup hg

section C23
variable {agg : Aggregator L (FV ℝ)} {p t clims : Vars (StatVar L (FV ℝ))}
  {align : StatVar L (FV ℝ) → StatVar L (FV ℝ) → Except Err (StatVar L (FV ℝ))}
  (hp : (p.map Prod.fst).Nodup) (ht : (t.map Prod.fst).Nodup) (hcl : (clims.map Prod.fst).Nodup)
  {v : String} {a b c al : StatVar L (FV ℝ)} (ha : (v, a) ∈ p) (hb : (v, b) ∈ t) (hc : (v, c) ∈ clims)
  (hal : align a c = .ok al)
  {e : Dim → L} {cs : Finset (Dim → L)} (E : AccEvaluated agg a b al e cs)
  (hW : GoodWeights agg (anomalyCovariance a b al) cs)
include hp ht hcl ha hb hc hal E hW

theorem acc_means {x : DA L (FV ℝ)} (h : ValueOf (acc clims align) agg p t v x) :
    x.val e = FV.fin (wmean agg (anomalyCovariance a b al) cs (fun e' => errAt a al e' * errAt b al e')) /
      (FV.fin (Real.sqrt (wmean agg (anomalyCovariance a b al) cs (fun e' => errAt a al e' ^ 2))) *
       FV.fin (Real.sqrt (wmean agg (anomalyCovariance a b al) cs (fun e' => errAt b al e' ^ 2)))) := by
  obtain ⟨q1, q2, q3, c1, c2, c3, rfl⟩ := acc_aggregates hp ht hcl ha hb hc hal h
  have m1 := evaluated_mean E.pred c1 (by rw [E.predWeight]; exact hW.2.ne')
  have m2 := evaluated_mean E.target c2 (by rw [E.targetWeight]; exact hW.2.ne')
  have m3 := evaluated_mean E.cov c3 hW.2.ne'
  have n1 : wmean agg (squaredPredictionAnomaly a b al) cs (fun e' => ((squaredPredictionAnomaly a b al).arr.val e').num)
      = wmean agg (anomalyCovariance a b al) cs (fun e' => errAt a al e' ^ 2) := by
    refine wmean_congr E.predWeight (fun e' he' => ?_)
    have hf := FV.of_sq_isFin (x := (a.zipWith (· - ·) al).arr.val e') (E.pred.finite e' he')
    exact ((FV.sq_isFin hf).2).trans (by
      rw [show (a.zipWith (· - ·) al).arr.val e' = a.arr.val e' - al.arr.val e' from rfl, (FV.sub_isFin hf).2.2]; rfl)
  have n2 : wmean agg (squaredTargetAnomaly a b al) cs (fun e' => ((squaredTargetAnomaly a b al).arr.val e').num)
      = wmean agg (anomalyCovariance a b al) cs (fun e' => errAt b al e' ^ 2) := by
    refine wmean_congr E.targetWeight (fun e' he' => ?_)
    have hf := FV.of_sq_isFin (x := (b.zipWith (· - ·) al).arr.val e') (E.target.finite e' he')
    exact ((FV.sq_isFin hf).2).trans (by
      rw [show (b.zipWith (· - ·) al).arr.val e' = b.arr.val e' - al.arr.val e' from rfl, (FV.sub_isFin hf).2.2]; rfl)
  have n3 : wmean agg (anomalyCovariance a b al) cs (fun e' => ((anomalyCovariance a b al).arr.val e').num)
      = wmean agg (anomalyCovariance a b al) cs (fun e' => errAt a al e' * errAt b al e') := by
    refine wmean_congr rfl (fun e' he' => ?_)
    have hf := FV.of_sq_isFin (x := (a.zipWith (· - ·) al).arr.val e') (E.pred.finite e' he')
    have hf' := FV.of_sq_isFin (x := (b.zipWith (· - ·) al).arr.val e') (E.target.finite e' he')
    exact ((FV.mul_isFin hf hf').2).trans (by
      rw [show (a.zipWith (· - ·) al).arr.val e' = a.arr.val e' - al.arr.val e' from rfl, (FV.sub_isFin hf).2.2,
        show (b.zipWith (· - ·) al).arr.val e' = b.arr.val e' - al.arr.val e' from rfl, (FV.sub_isFin hf').2.2]; rfl)
  have hnn : ∀ f : (Dim → L) → ℝ, ¬ wmean agg (anomalyCovariance a b al) cs (fun e' => f e' ^ 2) < 0 := by
    intro f
    unfold wmean
    exact not_lt.mpr (div_nonneg (Finset.sum_nonneg (fun e' he' => mul_nonneg (sq_nonneg _) (hW.1 e' he'))) hW.2.le)
  rw [n1] at m1
  rw [n2] at m2
  rw [n3] at m3
  change (DA.zipWith (· / ·) q3.1 q3.2).val e / (FV.sqrt ((DA.zipWith (· / ·) q1.1 q1.2).val e)
    * FV.sqrt ((DA.zipWith (· / ·) q2.1 q2.2).val e)) = _
  rw [m1, m2, m3, FV.sqrt, FV.sqrt, if_neg (hnn _), if_neg (hnn _)]

/-- **C23** When both anomaly fields are non-zero on the counted cells (positive activity), the value of ACC is the
weighted correlation of the prediction and target anomalies. -/
theorem C23_value {x : DA L (FV ℝ)} (h : ValueOf (acc clims align) agg p t v x)
    (h1 : 0 < ∑ e' ∈ cs, errAt a al e' ^ 2 * cellWeight agg (anomalyCovariance a b al) e')
    (h2 : 0 < ∑ e' ∈ cs, errAt b al e' ^ 2 * cellWeight agg (anomalyCovariance a b al) e') :
    x.val e = FV.fin (correlation (cellWeight agg (anomalyCovariance a b al)) cs (errAt a al) (errAt b al)) := by
  rw [acc_means hp ht hcl ha hb hc hal E hW h, FV.fin_mul_fin]
  have p1 : 0 < wmean agg (anomalyCovariance a b al) cs (fun e' => errAt a al e' ^ 2) := div_pos h1 hW.2
  have p2 : 0 < wmean agg (anomalyCovariance a b al) cs (fun e' => errAt b al e' ^ 2) := div_pos h2 hW.2
  rw [FV.fin_div_fin_of_ne _ (mul_pos (Real.sqrt_pos.mpr p1) (Real.sqrt_pos.mpr p2)).ne']
  congr 1
  unfold wmean correlation
  set S := ∑ e' ∈ cs, cellWeight agg (anomalyCovariance a b al) e' with hS
  have hSp : 0 < S := hW.2
  rw [Real.sqrt_div h1.le, Real.sqrt_div h2.le]
  have hsq : Real.sqrt S * Real.sqrt S = S := Real.mul_self_sqrt hSp.le
  rw [div_mul_div_comm, hsq, div_div_div_cancel_right₀ hSp.ne']

/-- **C23** If one of the two activities is zero, ACC is NaN. -/
theorem C23_zero_activity {x : DA L (FV ℝ)} (h : ValueOf (acc clims align) agg p t v x)
    (h0 : ∑ e' ∈ cs, errAt a al e' ^ 2 * cellWeight agg (anomalyCovariance a b al) e' = 0 ∨
      ∑ e' ∈ cs, errAt b al e' ^ 2 * cellWeight agg (anomalyCovariance a b al) e' = 0) : x.val e = FV.nan := by
  rw [acc_means hp ht hcl ha hb hc hal E hW h, FV.fin_mul_fin]
  have hcov : ∑ e' ∈ cs, errAt a al e' * errAt b al e' * cellWeight agg (anomalyCovariance a b al) e' = 0 := by
    apply Finset.sum_eq_zero
    intro e' he'
    have key : ∀ f : (Dim → L) → ℝ, ∑ e' ∈ cs, f e' ^ 2 * cellWeight agg (anomalyCovariance a b al) e' = 0 →
        f e' = 0 ∨ cellWeight agg (anomalyCovariance a b al) e' = 0 := by
      intro f hf
      rw [Finset.sum_eq_zero_iff_of_nonneg (fun e' he' => mul_nonneg (sq_nonneg _) (hW.1 e' he'))] at hf
      rcases mul_eq_zero.mp (hf e' he') with h | h
      · exact Or.inl (pow_eq_zero_iff (by norm_num) |>.mp h)
      · exact Or.inr h
    rcases h0 with h0 | h0
    · rcases key _ h0 with h | h <;> simp [h]
    · rcases key _ h0 with h | h <;> simp [h]
  have hden : Real.sqrt (wmean agg (anomalyCovariance a b al) cs (fun e' => errAt a al e' ^ 2)) *
      Real.sqrt (wmean agg (anomalyCovariance a b al) cs (fun e' => errAt b al e' ^ 2)) = 0 := by
    unfold wmean
    rcases h0 with h0 | h0 <;> simp [h0]
  rw [hden, show wmean agg (anomalyCovariance a b al) cs (fun e' => errAt a al e' * errAt b al e') = 0 from by
    unfold wmean; rw [hcov, zero_div]]
  simp [FV.fin_div_fin]

/-- **C23** ACC lies in [-1, 1] whenever both activities are positive. -/
theorem C23_range {x : DA L (FV ℝ)} (h : ValueOf (acc clims align) agg p t v x)
    (h1 : 0 < ∑ e' ∈ cs, errAt a al e' ^ 2 * cellWeight agg (anomalyCovariance a b al) e')
    (h2 : 0 < ∑ e' ∈ cs, errAt b al e' ^ 2 * cellWeight agg (anomalyCovariance a b al) e') :
    ∃ r : ℝ, x.val e = FV.fin r ∧ -1 ≤ r ∧ r ≤ 1 := by
  refine ⟨_, C23_value hp ht hcl ha hb hc hal E hW h h1 h2, ?_⟩
  rw [← abs_le]
  unfold correlation
  have hd := mul_pos (Real.sqrt_pos.mpr h1) (Real.sqrt_pos.mpr h2)
  rw [abs_div, abs_of_pos hd, div_le_one hd, ← Real.sqrt_mul h1.le]
  apply Real.abs_le_sqrt
  apply Finset.sum_sq_le_sum_mul_sum_of_sq_le_mul cs
  · exact fun e' he' => mul_nonneg (sq_nonneg _) (hW.1 e' he')
  · exact fun e' he' => mul_nonneg (sq_nonneg _) (hW.1 e' he')
  · intro e' _
    apply le_of_eq
    ring

/-- **C23** A forecast equal to the target at every counted cell has ACC 1 (with positive activity). -/
theorem C23_perfect {x : DA L (FV ℝ)} (h : ValueOf (acc clims align) agg p t v x)
    (h2 : 0 < ∑ e' ∈ cs, errAt b al e' ^ 2 * cellWeight agg (anomalyCovariance a b al) e')
    (hperf : ∀ e' ∈ cs, a.arr.val e' = b.arr.val e') : x.val e = FV.fin 1 := by
  have hab : ∀ e' ∈ cs, errAt a al e' = errAt b al e' := fun e' he' => by unfold errAt; rw [hperf e' he']
  have hs : ∑ e' ∈ cs, errAt a al e' ^ 2 * cellWeight agg (anomalyCovariance a b al) e'
      = ∑ e' ∈ cs, errAt b al e' ^ 2 * cellWeight agg (anomalyCovariance a b al) e' :=
    Finset.sum_congr rfl (fun e' he' => by rw [hab e' he'])
  rw [C23_value hp ht hcl ha hb hc hal E hW h (hs ▸ h2) h2]
  unfold correlation
  rw [hs, Real.mul_self_sqrt h2.le, Finset.sum_congr rfl (g := fun e' => errAt b al e' ^ 2 *
    cellWeight agg (anomalyCovariance a b al) e') (fun e' he' => by rw [hab e' he']; ring), div_self h2.ne']

end C23

/-- **C23** The correlation, hence ACC, does not change when the forecast anomalies are scaled by a positive factor, and
changes sign for a negative one. -/
theorem C23_rescale (w : (Dim → L) → ℝ) (cs : Finset (Dim → L)) (x y : (Dim → L) → ℝ) (k : ℝ) :
    (0 < k → correlation w cs (fun e => k * x e) y = correlation w cs x y) ∧
    (k < 0 → correlation w cs (fun e => k * x e) y = - correlation w cs x y) := by
  have h1 : ∑ e ∈ cs, k * x e * y e * w e = k * ∑ e ∈ cs, x e * y e * w e := by
    rw [Finset.mul_sum]; exact Finset.sum_congr rfl (fun e _ => by ring)
  have h2 : ∑ e ∈ cs, (k * x e) ^ 2 * w e = k ^ 2 * ∑ e ∈ cs, x e ^ 2 * w e := by
    rw [Finset.mul_sum]; exact Finset.sum_congr rfl (fun e _ => by ring)
  unfold correlation
  rw [h1, h2, Real.sqrt_mul (sq_nonneg k), Real.sqrt_sq_eq_abs, mul_assoc]
  refine ⟨fun hk => ?_, fun hk => ?_⟩
  · rw [abs_of_pos hk, mul_div_mul_left _ _ hk.ne']
  · rw [abs_of_neg hk, neg_mul, div_neg, mul_div_mul_left _ _ hk.ne]

/-- **C23** The correlation is symmetric in forecast and truth. -/
theorem C23_symmetric (w : (Dim → L) → ℝ) (cs : Finset (Dim → L)) (x y : (Dim → L) → ℝ) :
    correlation w cs x y = correlation w cs y x := by
  unfold correlation
  rw [mul_comm (Real.sqrt _), Finset.sum_congr rfl (fun e _ => by rw [mul_comm (x e) (y e)])]

/-- **C23** The evaluation cells and weights of the three statistics do agree if the predictions, targets and aligned
climatology have the same labels, none carries a mask and NaN are not skipped. -/
theorem C23_consistent (agg : Aggregator L (FV ℝ)) (a b al : StatVar L (FV ℝ)) (e : Dim → L) (cs : Finset (Dim → L))
    (hs : agg.skipna = false) (ma : a.mask = none) (mb : b.mask = none) (mc : al.mask = none)
    (hdb : b.arr.dims = a.arr.dims) (hcb : b.arr.coords = a.arr.coords)
    (hdc : al.arr.dims = a.arr.dims) (hcc : al.arr.coords = a.arr.coords)
    (E : Evaluated agg (error a b) e cs) (hfin : ∀ e' ∈ cs, (al.arr.val e').isFin = true) :
    AccEvaluated agg a b al e cs := by
  have hfa : ∀ e' ∈ cs, (a.arr.val e').isFin = true ∧ (b.arr.val e').isFin = true := fun e' he' =>
    ⟨(FV.sub_isFin (E.finite e' he')).1, (FV.sub_isFin (E.finite e' he')).2.1⟩
  have hsub : ∀ {x y : FV ℝ}, x.isFin = true → y.isFin = true → (x - y).isFin = true := by
    intro x y hx hy
    rcases x with _ | _ | x <;> rcases y with _ | _ | y <;> simp [FV.isFin] at hx hy ⊢
  have hj : ∀ (x y : DA L (FV ℝ)), x.dims = a.arr.dims → y.dims = a.arr.dims → x.coords = a.arr.coords →
      y.coords = a.arr.coords → ∀ f : FV ℝ → FV ℝ → FV ℝ, (DA.zipWith f x y).dims = a.arr.dims ∧ (DA.zipWith f x y).coords = a.arr.coords := by
    intro x y h1 h2 h3 h4 f
    refine ⟨by simp [DA.zipWith, h1, h2], ?_⟩
    funext d
    simp [DA.zipWith, joinCoords, h1, h2, h3, h4]
  have hE := hj a.arr b.arr rfl hdb rfl hcb (· - ·)
  have hA := hj a.arr al.arr rfl hdc rfl hcc (· - ·)
  have hB := hj b.arr al.arr hdb hdc hcb hcc (· - ·)
  have hC := hj _ _ hA.1 hB.1 hA.2 hB.2 (· * ·)
  have hme : (error a b).mask = none := by simp [error, StatVar.zipWith, ma, mb, combineMask]
  obtain ⟨E1, w1⟩ := E.transfer (s' := squaredPredictionAnomaly a b al) (hA.1.trans hE.1.symm) (hA.2.trans hE.2.symm)
    (by rw [hme]; simp [squaredPredictionAnomaly, StatVar.map, StatVar.zipWith, ma, mc, combineMask])
    (fun h => by rw [hs] at h; simp at h)
    (fun e' he' _ => (FV.sq_isFin (hsub (hfa e' he').1 (hfin e' he'))).1)
  obtain ⟨E2, w2⟩ := E.transfer (s' := squaredTargetAnomaly a b al) (hB.1.trans hE.1.symm) (hB.2.trans hE.2.symm)
    (by rw [hme]; simp [squaredTargetAnomaly, StatVar.map, StatVar.zipWith, mb, mc, combineMask])
    (fun h => by rw [hs] at h; simp at h)
    (fun e' he' _ => (FV.sq_isFin (hsub (hfa e' he').2 (hfin e' he'))).1)
  obtain ⟨E3, w3⟩ := E.transfer (s' := anomalyCovariance a b al) (hC.1.trans hE.1.symm) (hC.2.trans hE.2.symm)
    (by rw [hme]; simp [anomalyCovariance, StatVar.zipWith, ma, mb, mc, combineMask])
    (fun h => by rw [hs] at h; simp at h)
    (fun e' he' _ => (FV.mul_isFin (hsub (hfa e' he').1 (hfin e' he')) (hsub (hfa e' he').2 (hfin e' he'))).1)
  exact ⟨E1, E2, E3, w1.trans w3.symm, w2.trans w3.symm⟩

/-! ### The mask of the targets does not reach the prediction activity -/
section maskMismatch

/-- Prediction 1, 0; target 1, 5 with the second value masked out; climatology 0. -/
noncomputable def mPred : StatVar ℕ (FV ℝ) :=
  ⟨{ dims := {"x"}, coords := fun _ => {0, 1}, val := fun e => if e "x" = 0 then .fin 1 else .fin 0 }, none⟩
noncomputable def mTarget : StatVar ℕ (FV ℝ) :=
  ⟨{ dims := {"x"}, coords := fun _ => {0, 1}, val := fun e => if e "x" = 0 then .fin 1 else .fin 5 },
    some { dims := {"x"}, coords := fun _ => {0, 1}, val := fun e => decide (e "x" = 0) }⟩
noncomputable def mClim : StatVar ℕ (FV ℝ) :=
  ⟨{ dims := {"x"}, coords := fun _ => {0, 1}, val := fun _ => .fin 0 }, none⟩

theorem acc_items (x y z : DA ℕ (FV ℝ)) : (do
    let cov ← pyItem [("SquaredPredictionAnomaly", x), ("SquaredTargetAnomaly", y), ("AnomalyCovariance", z)] "AnomalyCovariance"
    let pp ← pyItem [("SquaredPredictionAnomaly", x), ("SquaredTargetAnomaly", y), ("AnomalyCovariance", z)] "SquaredPredictionAnomaly"
    let tt ← pyItem [("SquaredPredictionAnomaly", x), ("SquaredTargetAnomaly", y), ("AnomalyCovariance", z)] "SquaredTargetAnomaly"
    return accFormula cov pp tt : Except Err _) = .ok (accFormula z x y) := by
  simp [pyItem, pyGet?, bind, Except.bind, pure, Except.pure]

/-- **C23** (finding) With `masked=True` and a mask on the targets only, the prediction activity is averaged over all cells
but the covariance and target activity over the unmasked ones, and ACC can leave [-1, 1]: here a forecast that is exact at
every unmasked cell gets ACC = √2. -/
theorem C23_mask_mismatch :
    ∃ x, ValueOf (acc [("z", mClim)] (fun _ c => .ok c)) mAgg [("z", mPred)] [("z", mTarget)] "z" x ∧
      x.val (exCell 0) = FV.fin (Real.sqrt 2) := by
  have hr : ∀ s : StatVar ℕ (FV ℝ), s.arr.dims = {"x"} → ∀ d ∈ mAgg.reduceDims, d ∈ s.arr.dims := by
    intro s hs; simp [mAgg, hs]
  have d1 : (squaredPredictionAnomaly mPred mTarget mClim).arr.dims = {"x"} := by
    simp [squaredPredictionAnomaly, StatVar.map, StatVar.zipWith, DA.map, DA.zipWith, mPred, mClim]
  have d2 : (squaredTargetAnomaly mPred mTarget mClim).arr.dims = {"x"} := by
    simp [squaredTargetAnomaly, StatVar.map, StatVar.zipWith, DA.map, DA.zipWith, mTarget, mClim]
  have d3 : (anomalyCovariance mPred mTarget mClim).arr.dims = {"x"} := by
    simp [anomalyCovariance, StatVar.zipWith, DA.zipWith, mPred, mTarget, mClim]
  have c1 : (squaredPredictionAnomaly mPred mTarget mClim).arr.coords = fun _ => {0, 1} := by
    funext d; simp [squaredPredictionAnomaly, StatVar.map, StatVar.zipWith, DA.map, DA.zipWith, joinCoords, mPred, mClim]
  have c2 : (squaredTargetAnomaly mPred mTarget mClim).arr.coords = fun _ => {0, 1} := by
    funext d; simp [squaredTargetAnomaly, StatVar.map, StatVar.zipWith, DA.map, DA.zipWith, joinCoords, mTarget, mClim]
  have c3 : (anomalyCovariance mPred mTarget mClim).arr.coords = fun _ => {0, 1} := by
    funext d; simp [anomalyCovariance, StatVar.zipWith, DA.zipWith, joinCoords, mPred, mTarget, mClim]
  have k1 : (squaredPredictionAnomaly mPred mTarget mClim).mask = none := by
    simp [squaredPredictionAnomaly, StatVar.map, StatVar.zipWith, combineMask, mPred, mClim]
  have k2 : (squaredTargetAnomaly mPred mTarget mClim).mask = mTarget.mask := by
    simp [squaredTargetAnomaly, StatVar.map, StatVar.zipWith, combineMask, mTarget, mClim]
  have k3 : (anomalyCovariance mPred mTarget mClim).mask = mTarget.mask := by
    simp [anomalyCovariance, StatVar.zipWith, combineMask, mPred, mTarget, mClim]
  have v1 : ∀ n, (squaredPredictionAnomaly mPred mTarget mClim).arr.val (exCell n) = FV.fin (if n = 0 then 1 else 0) := by
    intro n
    show FV.sq (_ - _) = _
    by_cases hn : n = 0 <;> simp [mPred, mClim, exCell, FV.sq, hn]
  have v2 : ∀ n, (squaredTargetAnomaly mPred mTarget mClim).arr.val (exCell n) = FV.fin (if n = 0 then 1 else 25) := by
    intro n
    show FV.sq (_ - _) = _
    by_cases hn : n = 0 <;> simp [mTarget, mClim, exCell, FV.sq, hn]
    norm_num
  have v3 : ∀ n, (anomalyCovariance mPred mTarget mClim).arr.val (exCell n) = FV.fin (if n = 0 then 1 else 0) := by
    intro n
    show (_ - _) * (_ - _) = _
    by_cases hn : n = 0 <;> simp [mPred, mTarget, mClim, exCell, hn]
  obtain ⟨q1, a1⟩ := exists_aggregate mAgg rfl _ (hr _ d1)
  obtain ⟨q2, a2⟩ := exists_aggregate mAgg rfl _ (hr _ d2)
  obtain ⟨q3, a3⟩ := exists_aggregate mAgg rfl _ (hr _ d3)
  have hmask : ∀ m, mTarget.mask = some m → m.dims ⊆ {"x"} ∧ m.coords = fun _ => {0, 1} := by
    intro m hm
    simp only [mTarget, Option.some.injEq] at hm
    subst hm
    simp
  have E1 := evaluated1 _ {0, 1} (by rw [c1]) (by rw [k1]; simp) {0, 1} (by
    intro n; simp [counted, mAgg, k1]) (by intro n _; rw [v1]; rfl)
  have E2 := evaluated1 _ {0, 1} (by rw [c2]) (by rw [k2, d2, c2]; exact hmask) {0} (by
    intro n
    have hcn : counted mAgg (squaredTargetAnomaly mPred mTarget mClim) (exCell n) = decide (n = 0) := by
      unfold counted; rw [k2]; simp [mAgg, mTarget, exCell]
    rw [hcn]; simp; intro h; exact .inl h) (by intro n _; rw [v2]; rfl)
  have E3 := evaluated1 _ {0, 1} (by rw [c3]) (by rw [k3, d3, c3]; exact hmask) {0} (by
    intro n
    have hcn : counted mAgg (anomalyCovariance mPred mTarget mClim) (exCell n) = decide (n = 0) := by
      unfold counted; rw [k3]; simp [mAgg, mTarget, exCell]
    rw [hcn]; simp; intro h; exact .inl h) (by intro n _; rw [v3]; rfl)
  have m1 := mAgg_mean _ _ (by simp) E1 a1
  have m2 := mAgg_mean _ _ (by simp) E2 a2
  have m3 := mAgg_mean _ _ (by simp) E3 a3
  simp only [v1, v2, v3, FV.num] at m1 m2 m3
  have one : ∀ (name : String) (f : StatVar ℕ (FV ℝ) → StatVar ℕ (FV ℝ) → StatVar ℕ (FV ℝ) → StatVar ℕ (FV ℝ)) q,
      mAgg.aggregateStatVar (f mPred mTarget mClim) = .ok (some q) →
      OneMean mAgg [("z", mPred)] [("z", mTarget)] "z" (withClimatology name [("z", mClim)] (fun _ c => .ok c) f)
        (DA.zipWith (· / ·) q.1 q.2) := by
    intro name f q hq
    refine ⟨_, q, ?_, hq, rfl⟩
    simp [withClimatology, pyItem, pyGet?, bind, Except.bind, pure, Except.pure]
  refine ⟨_, exists_perVariable (by simp) (by simp) (.cons ⟨rfl, one _ _ q1 a1⟩ (.cons ⟨rfl, one _ _ q2 a2⟩
    (.cons ⟨rfl, one _ _ q3 a3⟩ .nil))) (acc_items _ _ _), ?_⟩
  show (DA.zipWith (· / ·) q3.1 q3.2).val (exCell 0) / (FV.sqrt ((DA.zipWith (· / ·) q1.1 q1.2).val (exCell 0)) *
    FV.sqrt ((DA.zipWith (· / ·) q2.1 q2.2).val (exCell 0))) = _
  rw [m1, m2, m3]
  norm_num [FV.sqrt, FV.fin_div_fin]

end maskMismatch
end WBX
