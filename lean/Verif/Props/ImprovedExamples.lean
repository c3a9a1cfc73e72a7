import Verif.Props.ImprovedEnsemble
import Verif.Props.ACC

/-!
# C97: the hypotheses are met, and scores for which nearer is not better
-/

set_option linter.unusedSectionVars false

namespace WBX
open DA Aggregator Classical

/-! ### MAE, MSE, RMSE, exceedance -/

/-- Forecast 3, 3, 3, 3 and forecast 3, 2, 1, 0 of 0, 0, 0, 0. -/
noncomputable def impFar : StatVar ℕ (FV ℝ) := catEx (fun _ => 3)
noncomputable def impNear : StatVar ℕ (FV ℝ) := catEx (fun n => 3 - n)
noncomputable def impTruth : StatVar ℕ (FV ℝ) := catEx (fun _ => 0)

theorem imp_same (f g : ℕ → ℝ) : SameCells (catEx f) (catEx g) := ⟨rfl, rfl, rfl, fun _ => .inl ⟨rfl, rfl⟩⟩

theorem imp_evaluated (s : StatVar ℕ (FV ℝ)) (hc : s.arr.coords "x" = {0, 1, 2, 3}) (hm : s.mask = none) (hf : ∀ n, (s.arr.val (exCell n)).isFin = true) :
    Evaluated mAgg s (exCell 0) (({0, 1, 2, 3} : Finset ℕ).image exCell) :=
  evaluated1 s {0, 1, 2, 3} hc (by rw [hm]; simp) {0, 1, 2, 3} (by intro n; simp [counted, mAgg, hm]) (fun n _ => hf n)

theorem imp_close : ∀ e' ∈ ({0, 1, 2, 3} : Finset ℕ).image exCell, AsClose impFar impNear impTruth e' := by
  intro e' he'
  obtain ⟨n, hn, rfl⟩ := Finset.mem_image.mp he'
  have hx : exCell n "x" = n := by simp [exCell]
  show |((3 : ℝ) - (exCell n "x" : ℕ)) - 0| ≤ |(3 : ℝ) - 0|
  rw [hx]
  simp only [Finset.mem_insert, Finset.mem_singleton] at hn
  rcases hn with rfl | rfl | rfl | rfl <;> norm_num

/-- The MAE falls from 3 to less than 3. -/
example : ∃ x x' : DA ℕ (FV ℝ), ValueOf absoluteErrorStatistic.toMetric mAgg [("z", impFar)] [("z", impTruth)] "z" x ∧
    ValueOf absoluteErrorStatistic.toMetric mAgg [("z", impNear)] [("z", impTruth)] "z" x' ∧ ∃ r r', x.val (exCell 0) = FV.fin r ∧ x'.val (exCell 0) = FV.fin r' ∧ r' < r := by
  obtain ⟨q, hq⟩ := exists_aggregate mAgg rfl (absoluteError impFar impTruth) (by simp [mAgg, absoluteError, error, StatVar.map, StatVar.zipWith, DA.map, DA.zipWith, impFar, catEx])
  obtain ⟨q', hq'⟩ := exists_aggregate mAgg rfl (absoluteError impNear impTruth) (by simp [mAgg, absoluteError, error, StatVar.map, StatVar.zipWith, DA.map, DA.zipWith, impNear, catEx])
  have v1 := exists_value "AbsoluteError" absoluteError mAgg "z" impFar impTruth hq
  have v2 := exists_value "AbsoluteError" absoluteError mAgg "z" impNear impTruth hq'
  have E := imp_evaluated (error impFar impTruth) (by simp [error, StatVar.zipWith, DA.zipWith, joinCoords, impFar, impTruth, catEx]) rfl (fun n => by
    show (FV.fin (3 : ℝ) - FV.fin 0).isFin = true
    rw [FV.fin_sub_fin]; rfl)
  obtain ⟨r, r', h1, h2, -, h4⟩ := C97_mae (by simp) (by simp) (by simp) (a := impFar) (a' := impNear) (b := impTruth) (by simp) (by simp) (by simp) E (mAgg_good _ _ (by simp))
    (imp_same _ _) imp_close v1 v2
  refine ⟨_, _, v1, v2, r, r', h1, h2, h4 ⟨exCell 3, Finset.mem_image.mpr ⟨3, by simp, rfl⟩, by simp [cellWeight, allFactors, mAgg], ?_⟩⟩
  show |((3 : ℝ) - (exCell 3 "x" : ℕ)) - 0| < |(3 : ℝ) - 0|
  rw [show exCell 3 "x" = 3 by simp [exCell]]
  norm_num

/-- The share of errors above 2 does not grow. -/
example : ∃ x x' : DA ℕ (FV ℝ), ValueOf (errorExceedanceStatistic (.scalar (.fin 2))).toMetric mAgg [("z", impFar)] [("z", impTruth)] "z" x ∧
    ValueOf (errorExceedanceStatistic (.scalar (.fin 2))).toMetric mAgg [("z", impNear)] [("z", impTruth)] "z" x' ∧ ∃ r r', x.val (exCell 0) = FV.fin r ∧ x'.val (exCell 0) = FV.fin r' ∧ r' ≤ r := by
  obtain ⟨q, hq⟩ := exists_aggregate mAgg rfl (errorExceedance (.scalar (.fin 2)) impFar impTruth) (by
    simp [mAgg, errorExceedance, StatVar.map, StatVar.zipWith, DA.map, DA.zipWith, impFar, catEx])
  obtain ⟨q', hq'⟩ := exists_aggregate mAgg rfl (errorExceedance (.scalar (.fin 2)) impNear impTruth) (by
    simp [mAgg, errorExceedance, StatVar.map, StatVar.zipWith, DA.map, DA.zipWith, impNear, catEx])
  have v1 := exists_value "ErrorExceedance" (errorExceedance (.scalar (.fin 2))) mAgg "z" impFar impTruth hq
  have v2 := exists_value "ErrorExceedance" (errorExceedance (.scalar (.fin 2))) mAgg "z" impNear impTruth hq'
  have E := imp_evaluated (errorExceedance (.scalar (.fin 2)) impFar impTruth) (by
    simp [errorExceedance, StatVar.map, StatVar.zipWith, DA.map, DA.zipWith, joinCoords, impFar, impTruth, catEx, DA.scalar]) (by
    simp [errorExceedance, StatVar.map, StatVar.zipWith, combineMask, impFar, impTruth, catEx]) (fun n => by
    rw [C25_finite _ _ _ _ (h := 2) (x := 3) (y := 0) rfl rfl rfl]; rfl)
  obtain ⟨r, r', h1, h2, h3, -⟩ := C97_exceedance (by simp) (by simp) (by simp) (a := impFar) (a' := impNear) (b := impTruth) (by simp) (by simp) (by simp) E (mAgg_good _ _ (by simp))
    (imp_same _ _) imp_close v1 v2
  exact ⟨_, _, v1, v2, r, r', h1, h2, h3⟩

/-! ### Yes/no forecasts -/

/-- `catP` with the false alarm at cell 1 corrected. -/
noncomputable def catBetter : StatVar ℕ (FV ℝ) := catEx (fun n => if n = 0 then 1 else 0)

theorem catCorrected : Corrected catP catBetter catT := ⟨rfl, rfl, rfl, fun e => by
  have h : ∀ n : ℕ, (FV.fin (if n = 0 then (1 : ℝ) else 0) : FV ℝ) = FV.fin (if n < 2 then (1 : ℝ) else 0) ∨ (FV.fin (if n = 0 then (1 : ℝ) else 0) : FV ℝ) = FV.fin (if n = 0 ∨ n = 2 then (1 : ℝ) else 0) := by
    intro n
    by_cases h0 : n = 0
    · left; simp [h0]
    by_cases h1 : n = 1
    · right; simp [h1]
    · left; rw [if_neg h0, if_neg (by omega)]
  rcases h (e "x") with h | h
  · exact .inl h
  · exact .inr ⟨h, rfl, rfl⟩⟩

/-- Its accuracy does not fall. -/
example : ∃ x x' : DA ℕ (FV ℝ), ValueOf accuracy mAgg [("z", catP)] [("z", catT)] "z" x ∧ ValueOf accuracy mAgg [("z", catBetter)] [("z", catT)] "z" x' ∧
    ∃ r r', x.val (exCell 0) = FV.fin r ∧ x'.val (exCell 0) = FV.fin r' ∧ r ≤ r' := by
  have hq : ∀ f c, c = catP ∨ c = catBetter → ∃ q, mAgg.aggregateStatVar (contingency f c catT) = .ok (some q) := fun f c hc =>
    exists_aggregate mAgg rfl _ (by
      rcases hc with rfl | rfl <;> simp [mAgg, contingency, StatVar.map, StatVar.zipWith, DA.map, DA.zipWith, catP, catBetter, catEx])
  have all : ∀ c, c = catP ∨ c = catBetter → ∃ x, ValueOf accuracy mAgg [("z", c)] [("z", catT)] "z" x := fun c hc => by
    obtain ⟨q1, h1⟩ := hq (fun p t => p && t) c hc
    obtain ⟨q2, h2⟩ := hq (fun p t => p && !t) c hc
    obtain ⟨q3, h3⟩ := hq (fun p t => !p && t) c hc
    obtain ⟨q4, h4⟩ := hq (fun p t => !p && !t) c hc
    have m1 := oneMean_statOf "TruePositives" truePositives mAgg "z" c catT h1
    have m2 := oneMean_statOf "FalsePositives" falsePositives mAgg "z" c catT h2
    have m3 := oneMean_statOf "FalseNegatives" falseNegatives mAgg "z" c catT h3
    have m4 := oneMean_statOf "TrueNegatives" trueNegatives mAgg "z" c catT h4
    exact ⟨_, exists_metric4 (by simp) (by simp) (by simp) (by simp) (by simp) (by simp) m1 m2 m3 m4⟩
  obtain ⟨x, hx⟩ := all catP (.inl rfl)
  obtain ⟨x', hx'⟩ := all catBetter (.inr rfl)
  obtain ⟨r, r', h1, h2, h3⟩ := C97_accuracy (by simp) (by simp) (by simp) (by simp) (by simp) (by simp) catEvaluated (mAgg_good _ _ (by simp)) catCorrected hx hx'
  exact ⟨x, x', hx, hx', r, r', h1, h2, h3⟩

/-- The shares that the other scores divide by are not zero here. -/
example : share mAgg catP catT (({0, 1, 2, 3} : Finset ℕ).image exCell) true true ≠ 0 :=
  catShare_ne _ _ (n := 0) (by simp) (by simp [catP, catEx, exCell, FV.toBool]) (by simp [catT, catEx, exCell, FV.toBool])

/-- Moving 3, 3, 3, 3 to 3, 2, 1, 0 moves the forecast towards 0. -/
example (T : DA ℕ (FV ℝ)) : Corrected (binarize T impFar) (binarize T (catEx (fun n => max (3 - n) 0))) (binarize T impTruth) :=
  corrected_binarize (imp_same _ _) (fun e' _ => ⟨rfl, .inr ⟨by show (0 : ℝ) ≤ max _ _; simp, by show max ((3 : ℝ) - _) 0 ≤ 3; simp⟩⟩) T

/-! ### Correlation -/

/-- **C97 ★** The anomaly correlation does not reward being nearer: anomalies 10 and -10 have correlation 1 with the observed anomalies 1 and -1, the nearer anomalies 2 and -1 less than 1. -/
theorem C97_acc_nearer : ∃ (w : (Dim → ℕ) → ℝ) (cs : Finset (Dim → ℕ)) (far near truth : (Dim → ℕ) → ℝ), (∀ e ∈ cs, 0 < w e) ∧ (∀ e ∈ cs, |near e - truth e| < |far e - truth e| ∨ near e = truth e) ∧
    correlation w cs far truth = 1 ∧ correlation w cs near truth < 1 := by
  have hsum : ∀ f : (Dim → ℕ) → ℝ, ∑ e ∈ (({0, 1} : Finset ℕ).image exCell), f e = f (exCell 0) + f (exCell 1) := fun f => by
    rw [Finset.sum_image (fun _ _ _ _ h => exCell_inj h)]
    simp
  have x0 : exCell 0 "x" = 0 := by simp [exCell]
  have x1 : exCell 1 "x" = 1 := by simp [exCell]
  refine ⟨fun _ => 1, ({0, 1} : Finset ℕ).image exCell, fun e => if e "x" = 0 then 10 else -10, fun e => if e "x" = 0 then 2 else -1, fun e => if e "x" = 0 then 1 else -1, by simp, ?_, ?_, ?_⟩
  · intro e he
    obtain ⟨n, hn, rfl⟩ := Finset.mem_image.mp he
    simp only [Finset.mem_insert, Finset.mem_singleton] at hn
    rcases hn with rfl | rfl
    · left; simp only [x0]; norm_num
    · right; simp only [x1]; norm_num
  · unfold correlation
    simp only [hsum, x0, x1]
    norm_num
    rw [show (200 : ℝ) = 10 ^ 2 * 2 by norm_num, Real.sqrt_mul (by positivity), Real.sqrt_sq (by norm_num), mul_assoc, Real.mul_self_sqrt (by norm_num)]
    norm_num
  · unfold correlation
    simp only [hsum, x0, x1]
    norm_num
    rw [← Real.sqrt_mul (by norm_num), div_lt_one (by positivity)]
    exact Real.lt_sqrt_of_sq_lt (by norm_num)

/-! ### SEEPS -/

theorem seepsImp_stat (g : ℕ → ℝ) : ∃ s : StatVar ℕ (FV ℝ), seepsPerVariable 1000 (1 / 10) (17 / 20) seepsWet seepsP1 ⟨seepsArr g, none⟩ seepsObs = .ok s ∧
    Evaluated mAgg s (exCell 0) (({0, 1, 2, 3} : Finset ℕ).image exCell) ∧ ∃ q, mAgg.aggregateStatVar s = .ok (some q) := by
  obtain ⟨s, m, hs, hm, hval⟩ := (C28_per_variable (1000 : ℝ) (1 / 10) (17 / 20) seepsWet seepsP1 ⟨seepsArr g, none⟩ seepsObs).2 (.inl rfl)
  have hs' := hs
  simp only [seepsPerVariable, seepsObs, Except.ok.injEq] at hs'
  have hin : ∀ e : Dim → ℕ, FV.le (.fin (1 / 10 : ℝ)) (seepsP1.val e) = true ∧ FV.le (seepsP1.val e) (.fin (17 / 20 : ℝ)) = true := by
    intro e; simp [seepsP1, seepsArr, FV.le]; norm_num
  have hmv : ∀ e, m.val e = true := fun e => (hval e).2.2.mpr ⟨hin e, by simp, by simp [seepsObs]⟩
  have hd : s.arr.dims = {"x"} := by rw [← hs']; simp [DA.zipWith, DA.map, seepsArr, seepsWet, seepsP1]
  have hc : s.arr.coords = fun _ => {0, 1, 2, 3} := by
    rw [← hs']; funext d; simp [DA.zipWith, DA.map, joinCoords, seepsArr, seepsWet, seepsP1]
  have hmd : m.dims = {"x"} ∧ m.coords = fun _ => {0, 1, 2, 3} := by
    rw [← hs'] at hm
    simp only [Option.some.injEq] at hm
    rw [← hm]; exact ⟨rfl, rfl⟩
  have hv : ∀ e, (s.arr.val e).isFin = true := by
    intro e
    rw [(hval e).1 (hin e)]
    show (seepsScore 1000 (.fin (1 / 4)) (.fin 5) (.fin (g (e "x"))) (.fin (seepsY (e "x")))).isFin = true
    rw [C28_score (K := ℝ) 1000 (by norm_num) (by norm_num) (by norm_num)]
    rfl
  refine ⟨s, hs, evaluated1 s {0, 1, 2, 3} (by rw [hc]) (by
    intro m' hm'
    rw [hm, Option.some.injEq] at hm'
    subst hm'
    rw [hmd.1, hmd.2, hd, hc]
    simp) {0, 1, 2, 3} (by
      intro n
      have : counted mAgg s (exCell n) = true := by
        unfold counted; rw [hm]; simp [mAgg, hmv]
      simp [this]) (fun n _ => hv _), exists_aggregate mAgg rfl s (by simp [mAgg, hd])⟩

theorem seepsY_nonneg (n : ℕ) : 0 ≤ seepsY n := by
  unfold seepsY
  split_ifs <;> norm_num

/-- The always dry forecast, and the forecast of half the rain that was observed. -/
example (v : String) : ∃ st, seeps (L := ℕ) (K := ℝ) "SEEPS" [v] [1000] [1 / 10] [17 / 20] [(v, ⟨seepsWet, seepsP1⟩)]
      (fun _ w => .ok w) (fun q => .ok q) = .ok st ∧
    ∃ x x', ValueOf st.toMetric mAgg [(v, ⟨seepsArr 0, none⟩)] [(v, seepsObs)] v x ∧ ValueOf st.toMetric mAgg [(v, ⟨seepsArr (fun n => seepsY n / 2), none⟩)] [(v, seepsObs)] v x' ∧
      ∃ r r', x.val (exCell 0) = FV.fin r ∧ x'.val (exCell 0) = FV.fin r' ∧ r' ≤ r := by
  obtain ⟨st, hst⟩ := ((C28_construct (L := ℕ) (K := ℝ) "SEEPS" [v] [1000] [1 / 10] [17 / 20]
    [(v, ⟨seepsWet, seepsP1⟩)] (fun _ w => .ok w) (fun q => .ok q)).1).mpr (by simp)
  obtain ⟨s, hs, E, q, hq⟩ := seepsImp_stat 0
  obtain ⟨s', hs', E', q', hq'⟩ := seepsImp_stat (fun n => seepsY n / 2)
  have hx := seeps_exists hst (a := ⟨seepsArr 0, none⟩) (b := seepsObs) rfl rfl hs hq
  have hx' := seeps_exists hst (a := ⟨seepsArr (fun n => seepsY n / 2), none⟩) (b := seepsObs) rfl rfl hs' hq'
  obtain ⟨r, r', h1, h2, h3, -⟩ := C97_seeps (by simp) (c := ⟨seepsWet, seepsP1⟩) (by simp) hst (by simp) (by simp) (by simp) (a := ⟨seepsArr 0, none⟩)
    (a' := ⟨seepsArr (fun n => seepsY n / 2), none⟩) (b := seepsObs) (by simp) (by simp) (by simp) ⟨rfl, rfl, rfl, fun _ => .inl ⟨rfl, rfl⟩⟩ rfl rfl rfl hs hs' E E'
    (mAgg_good s {0, 1, 2, 3} (by simp)) (fun _ => 0) (fun e' => seepsY (e' "x") / 2) (fun e' => seepsY (e' "x")) (fun _ => 5) (fun _ => 1 / 4) (fun _ _ => by norm_num) (fun _ _ => by norm_num)
    (fun e' _ => rfl) (fun e' _ => rfl) (fun e' _ => rfl) (fun e' _ => rfl) (fun e' _ => rfl) (fun e' _ => by norm_num)
    (fun e' _ => .inl ⟨by have := seepsY_nonneg (e' "x"); linarith, by have := seepsY_nonneg (e' "x"); linarith⟩) hx hx'
  exact ⟨st, hst, _, _, hx, hx', r, r', h1, h2, h3⟩

/-! ### CRPS -/

/-- Three members `f (l, x)` along `number`, at the points 0 and 1 along `x`. -/
noncomputable def impMembers (f : ℕ → ℕ → ℝ) : StatVar ℕ (FV ℝ) :=
  ⟨{ dims := {"number", "x"}, coords := fun k => if k = "number" then Finset.range 3 else {0, 1}, val := fun e => FV.fin (f (e "number") (e "x")) }, none⟩

theorem impMembers_wf (f : ℕ → ℕ → ℝ) : (impMembers f).arr.WF := by
  intro e e' h
  simp only [impMembers]
  rw [h "number" (by simp [impMembers]), h "x" (by simp [impMembers])]

theorem impMembers_at (f : ℕ → ℕ → ℝ) (e : Dim → ℕ) : EnsembleAt false (impMembers f) "number" e (Finset.range 3) (fun l => f l (e "x")) :=
  ⟨rfl, fun l _ => by simp [impMembers, setLabel]⟩

theorem impCrps (f : ℕ → ℕ → ℝ) (useSort fair : Bool) : ∃ s1 s2 X, crpsSkill "number" false (impMembers f) crpsTarget = .ok s1 ∧
    crpsSpread npArgsort [0, 1, 2] "number" useSort fair "predictions" false (impMembers f) crpsTarget = .ok s2 ∧
    Evaluated mAgg s1 (exCell 0) (({0, 1} : Finset ℕ).image exCell) ∧ Evaluated mAgg s2 (exCell 0) (({0, 1} : Finset ℕ).image exCell) ∧
    ValueOf (crpsEnsemble npArgsort [0, 1, 2] "number" useSort fair false) mAgg [("t", impMembers f)] [("t", crpsTarget)] "t" X := by
  obtain ⟨s2, h2⟩ := C30_ok (argsort := npArgsort) (order := [0, 1, 2]) (d := "number") (fair := fair) (sk := false)
    (which := "predictions") (p := impMembers f) (t := crpsTarget) (a := impMembers f) useSort (by simp [impMembers]) (by simp [impMembers]) (.inl ⟨rfl, rfl⟩)
    (by simp [impMembers]) (by simp)
  obtain ⟨d2, c2, k2⟩ := C30_shape (.inl ⟨rfl, rfl⟩) h2
  have hx2 : "x" ∈ s2.arr.dims := by rw [d2]; simp [impMembers]
  obtain ⟨s1, h1, hx1, c1, k1⟩ : ∃ s1, crpsSkill "number" false (impMembers f) crpsTarget = .ok s1 ∧ "x" ∈ s1.arr.dims ∧ s1.arr.coords "x" = {0, 1} ∧
      s1.mask = none := by
    refine ⟨(((impMembers f).zipWith (· - ·) crpsTarget).map FV.abs).reduce "number" (npMean false), ?_, ?_, ?_, ?_⟩
    · unfold crpsSkill
      rw [if_neg (by simp [crpsTarget])]
      unfold StatVar.meanDim
      rw [if_pos (by simp [StatVar.map, map, StatVar.zipWith, zipWith, impMembers])]
    · simp [StatVar.reduce, StatVar.map, map, StatVar.zipWith, zipWith, impMembers]
    · simp [StatVar.reduce, StatVar.map, map, StatVar.zipWith, zipWith, impMembers, crpsTarget, joinCoords]
    · simp [StatVar.reduce, StatVar.map, StatVar.zipWith, impMembers, crpsTarget, combineMask, dropMask]
  obtain ⟨q1, hq1⟩ := exists_aggregate mAgg rfl s1 (by simp [mAgg, hx1])
  obtain ⟨q2, hq2⟩ := exists_aggregate mAgg rfl s2 (by simp [mAgg, hx2])
  refine ⟨s1, s2, _, h1, h2, crps_plain s1 c1 k1 (fun n => ?_), crps_plain s2 (by rw [c2 _ hx2]; simp [impMembers]) (k2 rfl) (fun n => ?_),
    exists_metric2 (show "CRPSSkill" ≠ "CRPSSpread" by decide) (oneMean_statOfE _ h1 hq1) (oneMean_statOfE _ h2 hq2)⟩
  · rw [C31_skill (by simp [crpsTarget]) (fun _ _ _ => rfl) h1 (impMembers_at f _) (by simp) (y := 1) rfl]; rfl
  · rw [C31_spread npArgsort_ok (by decide) (impMembers_wf f) h2 (by simp [impMembers]; rfl) (impMembers_at f _) (by simp)]; rfl

theorem impMembers_same (f g : ℕ → ℕ → ℝ) : SameCells (impMembers f) (impMembers g) := ⟨rfl, rfl, rfl, fun _ => .inl ⟨rfl, rfl⟩⟩

/-- Members 2, 3, 4 and members 1, 2, 3 of the observation 1: the second ensemble is not worse. -/
example (useSort fair : Bool) : ∃ x x', ValueOf (crpsEnsemble npArgsort [0, 1, 2] "number" useSort fair false) mAgg [("t", impMembers (fun l _ => (l : ℝ) + 2))] [("t", crpsTarget)] "t" x ∧
    ValueOf (crpsEnsemble npArgsort [0, 1, 2] "number" useSort fair false) mAgg [("t", impMembers (fun l _ => (l : ℝ) + 1))] [("t", crpsTarget)] "t" x' ∧
    ∃ r r', x.val (exCell 0) = FV.fin r ∧ x'.val (exCell 0) = FV.fin r' ∧ r' ≤ r := by
  have key : ∀ f g : ℕ → ℕ → ℝ, (∀ l n, 1 ≤ g l n ∧ g l n ≤ f l n) →
      ∃ x x', ValueOf (crpsEnsemble npArgsort [0, 1, 2] "number" useSort fair false) mAgg [("t", impMembers f)] [("t", crpsTarget)] "t" x ∧
        ValueOf (crpsEnsemble npArgsort [0, 1, 2] "number" useSort fair false) mAgg [("t", impMembers g)] [("t", crpsTarget)] "t" x' ∧
        ∃ r r', x.val (exCell 0) = FV.fin r ∧ x'.val (exCell 0) = FV.fin r' ∧ r' ≤ r := by
    intro f g hfg
    obtain ⟨s1, s2, x, h1, h2, E1, E2, hx⟩ := impCrps f useSort fair
    obtain ⟨s1', s2', x', h1', h2', E1', E2', hx'⟩ := impCrps g useSort fair
    have hc : ∀ (s : StatVar ℕ (FV ℝ)) e', cellWeight mAgg s e' = 1 := fun s e' => by simp [cellWeight, Aggregator.allFactors, mAgg]
    have hord : [0, 1, 2].toFinset = (impMembers f).arr.coords "number" := by simp [impMembers]; rfl
    have hbt : ∀ (e' : Dim → ℕ) (l : ℕ), InBetween (f l (e' "x")) (g l (e' "x")) (1 : ℝ) := fun e' l => .inr ⟨(hfg l (e' "x")).1, (hfg l (e' "x")).2⟩
    exact ⟨x, x', hx, hx', C97_crps (a := impMembers f) (a' := impMembers g) (b := crpsTarget) npArgsort_ok (by decide) (by simp) (by simp) (by simp) (by simp) (by simp) (by simp) (impMembers_wf f)
      (impMembers_wf g) (fun _ _ _ => rfl) (by simp [crpsTarget]) hord (impMembers_same f g) h1 h2 h1' h2' E1 E2 E1' E2' (mAgg_good _ _ (by decide)) (fun e' _ => by simp [hc])
      (M := fun _ => Finset.range 3) (m := fun e' l => f l (e' "x")) (m' := fun e' l => g l (e' "x")) (y := fun _ => 1) (fun e' _ => impMembers_at f e') (fun e' _ => impMembers_at g e')
      (fun _ _ => by simp) (fun _ _ => rfl) (fun e' _ l _ => hbt e' l) hx hx'⟩
  exact key _ _ (fun l _ => ⟨by have : (0 : ℝ) ≤ l := Nat.cast_nonneg l; linarith, by linarith⟩)

end WBX
