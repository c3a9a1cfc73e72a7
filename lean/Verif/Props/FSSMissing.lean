import Verif.Props.FSS

set_option linter.unusedSectionVars false

/-!
# C40: the fractions skill score of observations with missing values, with `skipna`
-/

namespace WBX
open DA

/-- The mean, leaving out NaN, of a statistic on the three latitudes. -/
theorem skipna_mean (s : StatVar ℕ (FV ℚ)) (S : Finset ℕ) (hne : S.Nonempty) (hd : s.arr.dims = {"latitude", "longitude"})
    (hcs : s.arr.coords "latitude" = Finset.range 3) (hm : s.mask = none) (hS : ∀ n < 3, (s.arr.val (latCell n) = .nan ↔ n ∉ S)) (hlt : ∀ n ∈ S, n < 3)
    (hfin : ∀ n ∈ S, (s.arr.val (latCell n)).isFin = true) :
    ∃ q, (lineAgg "latitude" false true).aggregateStatVar s = .ok (some q) ∧
      (DA.zipWith (· / ·) q.1 q.2).val (fun _ => 0) = .fin ((∑ n ∈ S, (s.arr.val (latCell n)).num) / S.card) := by
  obtain ⟨q, hq⟩ := exists_aggregate (lineAgg "latitude" false true) rfl s (by simp [lineAgg, hd])
  refine ⟨q, hq, lineAgg_mean (e := fun _ => 0) hne ?_ hq⟩
  refine evaluated_line _ _ _ _ _ _ (fun m h => by rw [hm] at h; cases h) (fun n => ?_) (fun n hn => hfin n hn)
  rw [hcs, Finset.mem_range]
  have hc : counted (lineAgg "latitude" false true) s (latCell n) = true ↔ s.arr.val (latCell n) ≠ .nan := by
    simp only [counted, hm, lineAgg, Bool.not_true, Bool.false_or, Bool.true_and]
    cases s.arr.val (latCell n) <;> simp [FV.isnan]
  constructor
  · intro hn
    exact ⟨hlt n hn, hc.mpr (fun h => (hS n (hlt n hn)).mp h hn)⟩
  · rintro ⟨h1, h2⟩
    by_contra hn
    exact hc.mp h2 ((hS n h1).mpr hn)

/-- **C40** (finding) With `skipna=True` and a missing observation, the statistics of the score are averaged over different cells: the numerator and the target
term over the cells with an observation, the prediction term over all cells. The score can then be negative although the documentation says it lies in
[0,1]: here it is -1/2, for windows of a single cell. -/
theorem C40_skipna_mismatch : ∃ X, ValueOf (fss (exGrid 3 1) Int.toNat true (.one 1)) (lineAgg "latitude" false true)
    [("r", rainField (fun n => .fin (if n = 2 then 1 else 0)) none)] [("r", rainField (fun n => if n = 0 then .nan else .fin 0) none)] "r" X ∧
    X.val (fun _ => 0) = .fin (-1 / 2) := by
  obtain ⟨A, hA⟩ := rain_ok (fun n => .fin (if n = 2 then 1 else 0)) none 0
  obtain ⟨B, hB⟩ := rain_ok (fun n => if n = 0 then .nan else .fin 0) none 0
  have hlen : (exGrid 3 1).lat.length = 3 ∧ (exGrid 3 1).lon.length = 1 := by simp [exGrid]
  have same : ∀ {f : ℕ → FV ℚ} {R : StatVar ℕ (FV ℚ)}, neighborhoodAveraging (exGrid 3 1) Int.toNat true (.one 1) (rainField f none) = .ok R → ∀ n < 3, R.arr.val (latCell n) = f n := by
    intro f R h n hn
    have := C39_identity (e := fun _ => 0) (exGrid_nodup 3 1) h (i := n) (j := 0) (by omega) (by omega)
    rw [latCell_point hn] at this
    rw [this]
    simp only [rainField, latCell_lat]
  have hA' : neighborhoodAveraging (exGrid 3 1) Int.toNat true (.one 1) _ = .ok A := hA
  have hB' : neighborhoodAveraging (exGrid 3 1) Int.toNat true (.one 1) _ = .ok B := hB
  have vA := same hA'
  have vB := same hB'
  have mA : A.mask = none := (average_labels hA rfl).1
  have mB : B.mask = none := (average_labels hB rfl).1
  obtain ⟨dA, cA⟩ := C39_labels hA
  obtain ⟨dB, cB⟩ := C39_labels hB
  generalize hP : rainField (fun n => .fin (if n = 2 then 1 else 0)) none = P at *
  generalize hT : rainField (fun n => if n = 0 then .nan else .fin 0) none = T at *
  have pd : P.arr.dims = {"latitude", "longitude"} ∧ P.arr.coords "latitude" = Finset.range 3 ∧ P.mask = none := by rw [← hP]; exact ⟨rfl, rfl, rfl⟩
  have td : T.arr.dims = {"latitude", "longitude"} ∧ T.arr.coords "latitude" = Finset.range 3 ∧ T.mask = none := by rw [← hT]; exact ⟨rfl, rfl, rfl⟩
  have r1 : squaredFractionsError (exGrid 3 1) Int.toNat true (.one 1) P T = .ok (fractionsError A B) := by
    simp only [squaredFractionsError, hA', hB']; rfl
  have r2 : squaredPredictionFraction (exGrid 3 1) Int.toNat true (.one 1) P T = .ok ((A.map FV.sq).zipWith (· + ·) (T.map (fun _ => 0))) := by
    simp only [squaredPredictionFraction, hA']; rfl
  have r3 : squaredTargetFraction (exGrid 3 1) Int.toNat true (.one 1) P T = .ok ((B.map FV.sq).zipWith (· + ·) (P.map (fun _ => 0))) := by
    simp only [squaredTargetFraction, hB']; rfl
  have x1 : ∀ n < 3, (fractionsError A B).arr.val (latCell n) = if n = 0 then .nan else .fin (if n = 2 then 1 else 0) := by
    intro n hn
    simp only [fractionsError, StatVar.map, StatVar.zipWith, DA.map, DA.zipWith, vA n hn, vB n hn]
    by_cases h0 : n = 0
    · simp only [h0, if_true]; rfl
    · simp only [h0, if_false, FV.fin_sub_fin, FV.sq, FV.fin_mul_fin]
      split <;> norm_num
  have x2 : ∀ n < 3, ((A.map FV.sq).zipWith (· + ·) (T.map (fun _ => 0))).arr.val (latCell n) = .fin (if n = 2 then 1 else 0) := by
    intro n hn
    simp only [StatVar.map, StatVar.zipWith, DA.map, DA.zipWith, vA n hn, FV.sq, FV.fin_mul_fin]
    rw [FV.zero_def, FV.fin_add_fin]
    split <;> norm_num
  have x3 : ∀ n < 3, ((B.map FV.sq).zipWith (· + ·) (P.map (fun _ => 0))).arr.val (latCell n) = if n = 0 then .nan else .fin 0 := by
    intro n hn
    simp only [StatVar.map, StatVar.zipWith, DA.map, DA.zipWith, vB n hn]
    by_cases h0 : n = 0
    · simp only [h0, if_true]; rfl
    · simp only [h0, if_false, FV.sq, FV.fin_mul_fin]
      rw [FV.zero_def, FV.fin_add_fin]
      norm_num
  have cAB : ∀ X Y : StatVar ℕ (FV ℚ), X.arr.dims = {"latitude", "longitude"} → Y.arr.dims = {"latitude", "longitude"} →
      X.arr.coords "latitude" = Finset.range 3 → Y.arr.coords "latitude" = Finset.range 3 → ∀ f : FV ℚ → FV ℚ → FV ℚ,
      (X.zipWith f Y).arr.dims = {"latitude", "longitude"} ∧ (X.zipWith f Y).arr.coords "latitude" = Finset.range 3 := by
    intro X Y h1 h2 h3 h4 f
    constructor
    · simp only [StatVar.zipWith, DA.zipWith, h1, h2, Finset.union_self]
    · simp only [StatVar.zipWith, DA.zipWith, joinCoords, h1, h2, h3, h4, Finset.inter_self, ite_self]
  have cA' : A.arr.coords "latitude" = Finset.range 3 := by rw [cA]; exact pd.2.1
  have cB' : B.arr.coords "latitude" = Finset.range 3 := by rw [cB]; exact td.2.1
  have dA' := dA.trans pd.1
  have dB' := dB.trans td.1
  obtain ⟨q1, a1, w1⟩ := skipna_mean (fractionsError A B) {1, 2} (by simp) (cAB A B dA' dB' cA' cB' (· - ·)).1 (cAB A B dA' dB' cA' cB' (· - ·)).2
    (by simp only [fractionsError, StatVar.map, StatVar.zipWith, mA, mB, combineMask])
    (by intro n hn; rw [x1 n hn]; by_cases h0 : n = 0 <;> simp [h0]; omega) (by simp)
    (by intro n hn; rw [x1 n (by simp at hn; omega), if_neg (by simp at hn; omega)]; rfl)
  obtain ⟨q2, a2, w2⟩ := skipna_mean ((A.map FV.sq).zipWith (· + ·) (T.map (fun _ => 0))) (Finset.range 3) (by simp)
    (cAB (A.map FV.sq) (T.map (fun _ => 0)) dA' td.1 cA' td.2.1 (· + ·)).1 (cAB (A.map FV.sq) (T.map (fun _ => 0)) dA' td.1 cA' td.2.1 (· + ·)).2
    (by simp only [StatVar.map, StatVar.zipWith, mA, td.2.2, combineMask])
    (by intro n hn; rw [x2 n hn]; simp [hn]) (by simp)
    (by intro n hn; rw [x2 n (Finset.mem_range.mp hn)]; rfl)
  obtain ⟨q3, a3, w3⟩ := skipna_mean ((B.map FV.sq).zipWith (· + ·) (P.map (fun _ => 0))) {1, 2} (by simp)
    (cAB (B.map FV.sq) (P.map (fun _ => 0)) dB' pd.1 cB' pd.2.1 (· + ·)).1 (cAB (B.map FV.sq) (P.map (fun _ => 0)) dB' pd.1 cB' pd.2.1 (· + ·)).2
    (by simp only [StatVar.map, StatVar.zipWith, mB, pd.2.2, combineMask])
    (by intro n hn; rw [x3 n hn]; by_cases h0 : n = 0 <;> simp [h0]; omega) (by simp)
    (by intro n hn; rw [x3 n (by simp at hn; omega), if_neg (by simp at hn; omega)]; rfl)
  refine ⟨_, exists_metric3 (show "SquaredFractionsError" ≠ "SquaredPredictionFraction" by decide)
    (show "SquaredFractionsError" ≠ "SquaredTargetFraction" by decide) (show "SquaredPredictionFraction" ≠ "SquaredTargetFraction" by decide)
    (oneMean_statOfE _ r1 a1) (oneMean_statOfE _ r2 a2) (oneMean_statOfE _ r3 a3), ?_⟩
  show 1 - (DA.zipWith (· / ·) q1.1 q1.2).val (fun _ => 0) / ((DA.zipWith (· / ·) q2.1 q2.2).val (fun _ => 0) + (DA.zipWith (· / ·) q3.1 q3.2).val (fun _ => 0)) = _
  have hr : (Finset.range 3) = {0, 1, 2} := by decide
  rw [w1, w2, w3, hr, Finset.sum_pair (by norm_num), Finset.sum_pair (by norm_num), Finset.sum_insert (by simp), Finset.sum_pair (by norm_num),
    x1 1 (by norm_num), x1 2 (by norm_num), x2 0 (by norm_num), x2 1 (by norm_num), x2 2 (by norm_num), x3 1 (by norm_num), x3 2 (by norm_num)]
  simp only [FV.num]
  norm_num
  rw [FV.fin_div_fin_of_ne _ (by norm_num), FV.one_def, FV.fin_sub_fin]
  norm_num

end WBX
