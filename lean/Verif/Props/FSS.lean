import Verif.Props.Spatial

/-!
# C40: the fractions skill score
-/

set_option linter.unusedSectionVars false

namespace WBX
open DA Classical
variable {L K : Type} [DecidableEq L] [Field K] [LinearOrder K] [IsStrictOrderedRing K]

/-! ### Specification -/

/-- The statistic that is averaged in the numerator. -/
noncomputable def fractionsError (A B : StatVar L (FV K)) : StatVar L (FV K) := (A.zipWith (· - ·) B).map FV.sq

/-- The setting: the forecast `a` and the observation `b` are unmasked fields on the same labels, with neighbourhood fractions `A` and `B`; the
value at `e` is taken over the cells `cs` with weights `cellWeight`; the fractions are the numbers `x` and `y` there. -/
structure Fractions (g : Grid L) (number : ℤ → L) (wrap : Bool) (sizes : Sizes) (agg : Aggregator L (FV K)) (a b A B : StatVar L (FV K)) (e : Dim → L)
    (cs : Finset (Dim → L)) (x y : (Dim → L) → K) : Prop where
  forecast : neighborhoodAveraging g number wrap sizes a = .ok A
  observed : neighborhoodAveraging g number wrap sizes b = .ok B
  labels : b.arr.dims = a.arr.dims ∧ b.arr.coords = a.arr.coords
  newDim : "neighborhood_size" ∉ a.arr.dims
  unmasked : a.mask = none ∧ b.mask = none
  cells : Evaluated agg (fractionsError A B) e cs
  weights : GoodWeights agg (fractionsError A B) cs
  values : ∀ e', (∀ d ∈ agg.reduceDims, e' d ∈ A.arr.coords d) → (∀ d, d ∉ agg.reduceDims → e' d = e d) → A.arr.val e' = .fin (x e') ∧ B.arr.val e' = .fin (y e')

/-! ### Labels -/

/-- `Evaluated.transfer` with the NaN pattern compared at the labelled cells only. -/
theorem Evaluated.transfer_cells {agg : Aggregator L (FV K)} {s s' : StatVar L (FV K)} {e : Dim → L} {cs : Finset (Dim → L)}
    (E : Evaluated agg s e cs) (hd : s'.arr.dims = s.arr.dims) (hc : s'.arr.coords = s.arr.coords) (hm : s'.mask = s.mask)
    (hn : agg.skipna = true → ∀ e', (∀ d ∈ agg.reduceDims, e' d ∈ s.arr.coords d) → (∀ d, d ∉ agg.reduceDims → e' d = e d) →
      (s'.arr.val e').isnan = (s.arr.val e').isnan)
    (hf : ∀ e' ∈ cs, (s.arr.val e').isFin = true → (s'.arr.val e').isFin = true) :
    Evaluated agg s' e cs ∧ cellWeight agg s' = cellWeight agg s := by
  have hfac := E.coordOnly.allFactors_eq hd hc
  refine ⟨⟨E.coordOnly, ?_, ?_, ?_, ?_, fun e' he' => hf e' he' (E.finite e' he')⟩, ?_⟩
  · rw [hfac]
    intro m hm d hd' hda
    rw [hc]
    exact E.covers m hm d hd' (hd ▸ hda)
  · rw [hm, hd, hc]; exact E.maskOk
  · rw [hfac]; exact E.weightsFinite
  · intro e'
    rw [E.cells, hc]
    refine and_congr_right (fun hl => ?_)
    unfold counted
    rw [hm]
    rcases hs : agg.skipna with _ | _
    · simp
    · rw [hn hs e' hl.1 hl.2]
  · funext e'
    unfold cellWeight
    rw [hfac]

theorem average_labels {g : Grid L} {number : ℤ → L} {wrap : Bool} {sizes : Sizes} {a A : StatVar L (FV K)}
    (h : neighborhoodAveraging g number wrap sizes a = .ok A) (hm : a.mask = none) : A.mask = none ∧
    ((A.arr.dims = a.arr.dims ∧ A.arr.coords = a.arr.coords ∧ ∃ n, sizes = .one n) ∨ ∃ ns, sizes = .many ns ∧ A.arr.dims = insert "neighborhood_size" a.arr.dims ∧
      ∀ k, A.arr.coords k = if k = "neighborhood_size" then (ns.map number).toFinset else a.arr.coords k) := by
  cases sizes with
  | one n =>
    obtain ⟨-, f, m, -, h2, rfl⟩ := averageOne_ok h
    rw [hm] at h2
    simp only [averageMask?, Except.ok.injEq] at h2
    exact ⟨h2.symm, .inl ⟨rfl, rfl, n, rfl⟩⟩
  | many ns =>
    simp only [neighborhoodAveraging, bind_ok_iff] at h
    obtain ⟨rs, h1, h2⟩ := h
    by_cases hne : ns = []
    · rw [if_pos hne] at h2
      simp at h2
    · rw [if_neg hne] at h2
      simp only [pure, Except.pure, Except.ok.injEq] at h2
      subst h2
      refine ⟨by simp [concatSizes, hm], .inr ⟨ns, rfl, rfl, fun k => ?_⟩⟩
      have hlen : ns.length = rs.length := mapM_ok_length _ _ _ h1
      have : (ns.zip rs).map (fun r => number r.1) = ns.map number := by
        rw [← Function.comp_def number Prod.fst, ← List.map_map, List.map_fst_zip hlen.le]
      simp only [concatSizes, this]

section
variable {g : Grid L} {number : ℤ → L} {wrap : Bool} {sizes : Sizes} {agg : Aggregator L (FV K)} {a b A B : StatVar L (FV K)} {e : Dim → L}
  {cs : Finset (Dim → L)} {x y : (Dim → L) → K}

/-- The three statistics are on the same labels and have no mask. -/
theorem Fractions.sameLabels (F : Fractions g number wrap sizes agg a b A B e cs x y) :
    (A.mask = none ∧ B.mask = none) ∧ A.arr.dims = B.arr.dims ∧ A.arr.coords = B.arr.coords ∧
    A.arr.dims ∪ b.arr.dims = A.arr.dims ∧ joinCoords A.arr b.arr = A.arr.coords := by
  obtain ⟨ld, lc⟩ := F.labels
  obtain ⟨m1, hA⟩ := average_labels F.forecast F.unmasked.1
  obtain ⟨m2, hB⟩ := average_labels F.observed F.unmasked.2
  refine ⟨⟨m1, m2⟩, ?_⟩
  rcases hA with ⟨hA1, hA2, n, hn⟩ | ⟨ns, hns, hA1, hA2⟩
  · rcases hB with ⟨hB1, hB2, -⟩ | ⟨ns, hns, -⟩
    · refine ⟨by rw [hA1, hB1, ld], by rw [hA2, hB2, lc], by rw [hA1, ld, Finset.union_self], ?_⟩
      funext k
      simp only [joinCoords, hA1, hA2, ld, lc, Finset.inter_self, ite_self]
    · simp [hn] at hns
  · rcases hB with ⟨-, -, n, hn⟩ | ⟨ns', hns', hB1, hB2⟩
    · simp [hn] at hns
    · rw [hns, Sizes.many.injEq] at hns'
      subst hns'
      refine ⟨by rw [hA1, hB1, ld], by funext k; rw [hA2, hB2, lc], ?_, ?_⟩
      · rw [hA1, ld]; simp
      · funext k
        simp only [joinCoords, hA1, ld, lc, Finset.mem_insert]
        by_cases hk : k = "neighborhood_size"
        · subst hk
          simp [F.newDim, hA2]
        · simp [hk, hA2]

theorem Fractions.symm_and (F : Fractions g number wrap sizes agg a b A B e cs x y) : Fractions g number wrap sizes agg b a B A e cs y x ∧
    cellWeight agg (fractionsError B A) = cellWeight agg (fractionsError A B) := by
  obtain ⟨⟨m1, m2⟩, h1, h2, -, -⟩ := F.sameLabels
  have hd : (fractionsError B A).arr.dims = (fractionsError A B).arr.dims := by
    simp only [fractionsError, StatVar.map, StatVar.zipWith, DA.map, zipWith, h1]
  have hc : (fractionsError B A).arr.coords = (fractionsError A B).arr.coords := by
    funext k
    simp only [fractionsError, StatVar.map, StatVar.zipWith, DA.map, zipWith, joinCoords, h1, h2]
  have hv : ∀ e', (fractionsError B A).arr.val e' = (fractionsError A B).arr.val e' := by
    intro e'
    simp only [fractionsError, StatVar.map, StatVar.zipWith, DA.map, zipWith]
    rcases A.arr.val e' with _ | s | u <;> rcases B.arr.val e' with _ | s' | u'
    all_goals first | rfl | skip
    · cases s <;> cases s' <;> rfl
    · cases s <;> rfl
    · cases s' <;> rfl
    · simp only [FV.fin_sub_fin, FV.sq, FV.fin_mul_fin]
      congr 1
      ring
  obtain ⟨E, w⟩ := F.cells.transfer (s' := fractionsError B A) hd hc (by simp [fractionsError, StatVar.map, StatVar.zipWith, m1, m2, combineMask])
    (fun _ e' => by rw [hv]) (fun e' _ h => by rw [hv]; exact h)
  refine ⟨?_, w⟩
  exact ⟨F.observed, F.forecast, ⟨F.labels.1.symm, F.labels.2.symm⟩, by rw [F.labels.1]; exact F.newDim, ⟨F.unmasked.2, F.unmasked.1⟩, E,
    by unfold GoodWeights; rw [w]; exact F.weights, fun e' h3 h4 => by
      rw [← h2] at h3
      exact ⟨(F.values e' h3 h4).2, (F.values e' h3 h4).1⟩⟩

theorem Fractions.symm (F : Fractions g number wrap sizes agg a b A B e cs x y) : Fractions g number wrap sizes agg b a B A e cs y x := F.symm_and.1

theorem Fractions.weight_symm (F : Fractions g number wrap sizes agg a b A B e cs x y) :
    cellWeight agg (fractionsError B A) = cellWeight agg (fractionsError A B) := F.symm_and.2

theorem Fractions.mem (F : Fractions g number wrap sizes agg a b A B e cs x y) (e' : Dim → L) :
    e' ∈ cs → A.arr.val e' = .fin (x e') ∧ B.arr.val e' = .fin (y e') := by
  intro he'
  obtain ⟨-, h1, h2, -, -⟩ := F.sameLabels
  obtain ⟨⟨h3, h4⟩, -⟩ := (F.cells.cells e').mp he'
  refine F.values e' (fun d hd => ?_) h4
  have := h3 d hd
  simpa only [fractionsError, StatVar.map, StatVar.zipWith, DA.map, zipWith, joinCoords, h1, h2, Finset.inter_self, ite_self] using this

/-- The mean of the squared fractions of the forecast. -/
theorem Fractions.square (F : Fractions g number wrap sizes agg a b A B e cs x y) :
    ∃ s, Evaluated agg s e cs ∧ cellWeight agg s = cellWeight agg (fractionsError A B) ∧ squaredPredictionFraction g number wrap sizes a b = .ok s ∧
      squaredTargetFraction g number wrap sizes b a = .ok s ∧ ∀ e' ∈ cs, s.arr.val e' = .fin (x e' ^ 2) := by
  obtain ⟨⟨m1, m2⟩, h1, h2, h3, h4⟩ := F.sameLabels
  have hjoin : joinCoords A.arr B.arr = A.arr.coords := by
    funext k
    simp only [joinCoords, h1, h2, Finset.inter_self, ite_self]
  set s : StatVar L (FV K) := (A.map FV.sq).zipWith (· + ·) (b.map (fun _ => 0)) with hs
  have hd : s.arr.dims = (fractionsError A B).arr.dims := by
    simp only [hs, fractionsError, StatVar.map, StatVar.zipWith, DA.map, zipWith, h3]
    rw [← h1, Finset.union_self]
  have hc : s.arr.coords = (fractionsError A B).arr.coords := by
    have : s.arr.coords = joinCoords A.arr b.arr := rfl
    rw [this, h4]
    exact hjoin.symm
  have hval : ∀ e', A.arr.val e' = .fin (x e') → s.arr.val e' = .fin (x e' ^ 2) := by
    intro e' h
    simp only [hs, StatVar.map, StatVar.zipWith, DA.map, zipWith, h, FV.sq, FV.fin_mul_fin]
    rw [FV.zero_def, FV.fin_add_fin, add_zero, pow_two]
  have hcells : ∀ e', (∀ d ∈ agg.reduceDims, e' d ∈ (fractionsError A B).arr.coords d) → (∀ d, d ∉ agg.reduceDims → e' d = e d) →
      A.arr.val e' = .fin (x e') ∧ B.arr.val e' = .fin (y e') := by
    intro e' h5 h6
    refine F.values e' (fun d hd' => ?_) h6
    have := h5 d hd'
    rwa [show (fractionsError A B).arr.coords = A.arr.coords from hjoin] at this
  obtain ⟨E, w⟩ := F.cells.transfer_cells (s' := s) hd hc (by
      simp only [hs, fractionsError, StatVar.map, StatVar.zipWith, m1, m2, F.unmasked.2])
    (fun _ e' h5 h6 => by
      obtain ⟨h7, h8⟩ := hcells e' h5 h6
      rw [hval e' h7]
      simp only [fractionsError, StatVar.map, StatVar.zipWith, DA.map, zipWith, h7, h8]
      rfl)
    (fun e' he' _ => by rw [hval e' (F.mem e' he').1]; rfl)
  refine ⟨s, E, w, ?_, ?_, fun e' he' => hval e' (F.mem e' he').1⟩
  · simp only [squaredPredictionFraction, F.forecast]; rfl
  · simp only [squaredTargetFraction, F.forecast]; rfl

/-! ### The score -/

variable {P T : Vars (StatVar L (FV K))} {v : String} {X : DA L (FV K)}

theorem fss_means (hP : (P.map Prod.fst).Nodup) (hT : (T.map Prod.fst).Nodup) (ha : (v, a) ∈ P) (hb : (v, b) ∈ T)
    (F : Fractions g number wrap sizes agg a b A B e cs x y) (hX : ValueOf (fss g number wrap sizes) agg P T v X) :
    X.val e = 1 - FV.fin (wmean agg (fractionsError A B) cs (fun e' => (x e' - y e') ^ 2)) /
      FV.fin (wmean agg (fractionsError A B) cs (fun e' => x e' ^ 2) + wmean agg (fractionsError A B) cs (fun e' => y e' ^ 2)) := by
  obtain ⟨y1, y2, y3, m1, m2, m3, rfl⟩ := valueOf_metric3 (show "SquaredFractionsError" ≠ "SquaredPredictionFraction" by decide)
    (show "SquaredFractionsError" ≠ "SquaredTargetFraction" by decide) (show "SquaredPredictionFraction" ≠ "SquaredTargetFraction" by decide) hX
  obtain ⟨s2, E2, w2, e2, -, v2⟩ := F.square
  obtain ⟨s3, E3, w3, -, e3, v3⟩ := F.symm.square
  have hwm : ∀ s : StatVar L (FV K), cellWeight agg s = cellWeight agg (fractionsError A B) → ∀ f, wmean agg s cs f = wmean agg (fractionsError A B) cs f := by
    intro s h f
    unfold wmean
    rw [h]
  have w3' : cellWeight agg s3 = cellWeight agg (fractionsError A B) := w3.trans F.weight_symm
  have r1 : y1.val e = .fin (wmean agg (fractionsError A B) cs (fun e' => (x e' - y e') ^ 2)) := by
    refine mean_statOfE hP hT ha hb m1 (by simp only [squaredFractionsError, F.forecast, F.observed]; rfl) F.cells F.weights (fun c hc => ?_)
    obtain ⟨h1, h2⟩ := F.mem c hc
    simp only [fractionsError, StatVar.map, StatVar.zipWith, DA.map, zipWith, h1, h2, FV.fin_sub_fin, FV.sq, FV.fin_mul_fin]
    rw [pow_two]
  have r2 : y2.val e = .fin (wmean agg (fractionsError A B) cs (fun e' => x e' ^ 2)) := by
    rw [← hwm s2 w2]
    exact mean_statOfE hP hT ha hb m2 e2 E2 (by unfold GoodWeights; rw [w2]; exact F.weights) v2
  have r3 : y3.val e = .fin (wmean agg (fractionsError A B) cs (fun e' => y e' ^ 2)) := by
    rw [← hwm s3 w3']
    exact mean_statOfE hP hT ha hb m3 e3 E3 (by unfold GoodWeights; rw [w3']; exact F.weights) v3
  show 1 - y1.val e / (y2.val e + y3.val e) = _
  rw [r1, r2, r3, FV.fin_add_fin]

/-- **C40** The score is one minus the weighted mean of the squared differences of the fractions over the sum of the weighted means of their
squares; it is NaN if both fields of fractions vanish on all cells with nonzero weight. -/
theorem C40_value (hP : (P.map Prod.fst).Nodup) (hT : (T.map Prod.fst).Nodup) (ha : (v, a) ∈ P) (hb : (v, b) ∈ T)
    (F : Fractions g number wrap sizes agg a b A B e cs x y) (hX : ValueOf (fss g number wrap sizes) agg P T v X) :
    X.val e = if ∀ e' ∈ cs, cellWeight agg (fractionsError A B) e' ≠ 0 → x e' = 0 ∧ y e' = 0 then .nan else
      .fin (1 - wmean agg (fractionsError A B) cs (fun e' => (x e' - y e') ^ 2) /
        (wmean agg (fractionsError A B) cs (fun e' => x e' ^ 2) + wmean agg (fractionsError A B) cs (fun e' => y e' ^ 2))) := by
  rw [fss_means hP hT ha hb F hX]
  have hz := wmean_eq_zero_iff F.weights (f := fun e' => x e' ^ 2 + y e' ^ 2) (fun e' _ => by positivity)
  rw [wmean_add] at hz
  split
  · next h =>
    have h1 : wmean agg (fractionsError A B) cs (fun e' => x e' ^ 2) + wmean agg (fractionsError A B) cs (fun e' => y e' ^ 2) = 0 :=
      hz.mpr (fun e' he' hw => by rw [(h e' he' hw).1, (h e' he' hw).2]; simp)
    have h2 : wmean agg (fractionsError A B) cs (fun e' => (x e' - y e') ^ 2) = 0 :=
      (wmean_eq_zero_iff F.weights (fun e' _ => sq_nonneg _)).mpr (fun e' he' hw => by rw [(h e' he' hw).1, (h e' he' hw).2]; simp)
    rw [h1, h2, FV.fin_div_fin]
    simp
  · next h =>
    have h1 : wmean agg (fractionsError A B) cs (fun e' => x e' ^ 2) + wmean agg (fractionsError A B) cs (fun e' => y e' ^ 2) ≠ 0 := by
      intro h0
      refine h (fun e' he' hw => ?_)
      have := hz.mp h0 e' he' hw
      have hx := sq_nonneg (x e')
      have hy := sq_nonneg (y e')
      exact ⟨pow_eq_zero_iff two_ne_zero |>.mp (by linarith), pow_eq_zero_iff two_ne_zero |>.mp (by linarith)⟩
    rw [FV.fin_div_fin_of_ne _ h1, FV.one_def, FV.fin_sub_fin]

/-- **C40** If the fractions are not negative the score lies between 0 and 1 (or is undefined). It is 1 iff the fractions agree on all cells with nonzero
weight, and 0 iff no such cell has positive fractions of both. -/
theorem C40_range (hP : (P.map Prod.fst).Nodup) (hT : (T.map Prod.fst).Nodup) (ha : (v, a) ∈ P) (hb : (v, b) ∈ T)
    (F : Fractions g number wrap sizes agg a b A B e cs x y) (hX : ValueOf (fss g number wrap sizes) agg P T v X)
    (hx : ∀ e' ∈ cs, 0 ≤ x e') (hy : ∀ e' ∈ cs, 0 ≤ y e') {c : Dim → L} (hc : c ∈ cs) (hw : cellWeight agg (fractionsError A B) c ≠ 0) (hpos : x c ≠ 0 ∨ y c ≠ 0) :
    ∃ q, X.val e = .fin q ∧ 0 ≤ q ∧ q ≤ 1 ∧
      (q = 1 ↔ ∀ e' ∈ cs, cellWeight agg (fractionsError A B) e' ≠ 0 → x e' = y e') ∧
      (q = 0 ↔ ∀ e' ∈ cs, cellWeight agg (fractionsError A B) e' ≠ 0 → x e' = 0 ∨ y e' = 0) := by
  have hval := C40_value hP hT ha hb F hX
  rw [if_neg (by push Not; exact ⟨c, hc, hw, fun h0 => hpos.resolve_left (fun h => h h0)⟩)] at hval
  set D := wmean agg (fractionsError A B) cs (fun e' => x e' ^ 2) + wmean agg (fractionsError A B) cs (fun e' => y e' ^ 2) with hD
  set N := wmean agg (fractionsError A B) cs (fun e' => (x e' - y e') ^ 2) with hN
  have hD0 : 0 ≤ D := add_nonneg (wmean_nonneg F.weights (fun _ _ => sq_nonneg _)) (wmean_nonneg F.weights (fun _ _ => sq_nonneg _))
  have hDne : D ≠ 0 := by
    intro h0
    rw [hD, ← wmean_add] at h0
    have := (wmean_eq_zero_iff F.weights (f := fun e' => x e' ^ 2 + y e' ^ 2) (fun e' _ => by positivity)).mp h0 c hc hw
    have h1 := sq_nonneg (x c)
    have h2 := sq_nonneg (y c)
    rcases hpos with hp | hp
    · exact hp (pow_eq_zero_iff two_ne_zero |>.mp (by linarith))
    · exact hp (pow_eq_zero_iff two_ne_zero |>.mp (by linarith))
  have hDpos : 0 < D := lt_of_le_of_ne hD0 hDne.symm
  have hN0 : 0 ≤ N := wmean_nonneg F.weights (fun _ _ => sq_nonneg _)
  have hdiff : D - N = wmean agg (fractionsError A B) cs (fun e' => 2 * (x e' * y e')) := by
    rw [hD, hN, ← wmean_add, ← wmean_sub]
    exact wmean_congr' (fun e' _ => by ring)
  have hprod : ∀ e' ∈ cs, 0 ≤ 2 * (x e' * y e') := fun e' he' => by
    have := mul_nonneg (hx e' he') (hy e' he')
    linarith
  have hdiff0 : 0 ≤ D - N := by rw [hdiff]; exact wmean_nonneg F.weights hprod
  refine ⟨1 - N / D, hval, ?_, ?_, ?_, ?_⟩
  · rw [sub_nonneg, div_le_one hDpos]; linarith
  · have := div_nonneg hN0 hD0; linarith
  · rw [sub_eq_self, div_eq_zero_iff, or_iff_left hDne, hN, wmean_eq_zero_iff F.weights (fun _ _ => sq_nonneg _)]
    refine forall_congr' (fun e' => forall_congr' (fun _ => forall_congr' (fun _ => ?_)))
    rw [sq_eq_zero_iff, sub_eq_zero]
  · rw [sub_eq_zero, eq_comm, div_eq_one_iff_eq hDne, eq_comm, ← sub_eq_zero, hdiff, wmean_eq_zero_iff F.weights hprod]
    refine forall_congr' (fun e' => forall_congr' (fun _ => forall_congr' (fun _ => ?_)))
    simp

/-- **C40** The score is symmetric in forecast and observation. -/
theorem C40_symmetric (hP : (P.map Prod.fst).Nodup) (hT : (T.map Prod.fst).Nodup) (ha : (v, a) ∈ P) (hb : (v, b) ∈ T)
    (F : Fractions g number wrap sizes agg a b A B e cs x y) (hX : ValueOf (fss g number wrap sizes) agg P T v X) {X' : DA L (FV K)}
    (hX' : ValueOf (fss g number wrap sizes) agg T P v X') : X.val e = X'.val e := by
  have hwm : ∀ f, wmean agg (fractionsError B A) cs f = wmean agg (fractionsError A B) cs f := by
    intro f
    unfold wmean
    rw [F.weight_symm]
  rw [fss_means hP hT ha hb F hX, fss_means hT hP hb ha F.symm hX', hwm, hwm, hwm, add_comm]
  congr 3
  exact wmean_congr' (fun e' _ => by ring)

theorem gridPoint_exists {g : Grid L} {e : Dim → L} (h1 : e "latitude" ∈ g.lat) (h2 : e "longitude" ∈ g.lon) :
    ∃ i j, i < g.lat.length ∧ j < g.lon.length ∧ gridPoint g e i j = e := by
  obtain ⟨i, hi, h1⟩ := List.getElem_of_mem h1
  obtain ⟨j, hj, h2⟩ := List.getElem_of_mem h2
  refine ⟨i, j, hi, hj, ?_⟩
  funext k
  unfold gridPoint setLabel
  by_cases hk : k = "longitude"
  · subst hk; simp [hj, h2]
  · by_cases hk' : k = "latitude"
    · subst hk'; simp [hi, h1]
    · simp [hk, hk']

/-- **C40** The fractions of a field that is not negative (such as a 0/1 field) are not negative, so `C40_range` applies to every such pair of fields. -/
theorem C40_fractions_nonneg {h : ℕ} (hg : g.lat.Nodup ∧ g.lon.Nodup) (F : Fractions g number wrap (.one (2 * h + 1)) agg a b A B e cs x y)
    (hgrid : ∀ e' ∈ cs, e' "latitude" ∈ g.lat ∧ e' "longitude" ∈ g.lon)
    (hpos : ∀ e' ∈ cs, ∀ i < g.lat.length, ∀ j < g.lon.length, ∃ u, 0 ≤ u ∧ a.arr.val (gridPoint g e' i j) = .fin u) : ∀ e' ∈ cs, 0 ≤ x e' := by
  intro e' he'
  obtain ⟨i, j, hi, hj, hp⟩ := gridPoint_exists (hgrid e' he').1 (hgrid e' he').2
  choose! u hu0 hu using hpos e' he'
  have h1 := C39_window (e := e') hg F.forecast (x := u) (fun i hi j hj => hu i hi j hj) hi hj
  rw [hp, (F.mem e' he').1, FV.fin.injEq] at h1
  rw [h1]
  split
  · next hint =>
    unfold boxMean
    refine div_nonneg (Finset.sum_nonneg (fun i' hi' => Finset.sum_nonneg (fun d _ => hu0 _ ?_ _ (onRing_lt (by omega) _ _)))) (by positivity)
    rw [Finset.mem_Icc] at hi'
    have := hint.1.2
    omega
  · exact le_refl _

end

/-! ### Concrete evaluations -/

/-- Unweighted mean over one dimension. -/
def lineAgg (d : Dim) (masked skipna : Bool) : Aggregator ℕ (FV ℚ) := { reduceDims := [d], masked := masked, skipna := skipna }

open Aggregator in
theorem evaluated_line (d : Dim) (masked skipna : Bool) (s : StatVar ℕ (FV ℚ)) (e : Dim → ℕ) (S : Finset ℕ)
    (hm : ∀ m, s.mask = some m → m.dims ⊆ s.arr.dims ∧ m.coords = s.arr.coords)
    (hS : ∀ n, n ∈ S ↔ n ∈ s.arr.coords d ∧ counted (lineAgg d masked skipna) s (setLabel e d n) = true)
    (hf : ∀ n ∈ S, (s.arr.val (setLabel e d n)).isFin = true) : Evaluated (lineAgg d masked skipna) s e (S.image (setLabel e d)) := by
  refine ⟨⟨by simp [lineAgg], by simp [lineAgg]⟩, by simp [allFactors, lineAgg], hm, by simp [allFactors, lineAgg], ?_, ?_⟩
  · intro e'
    have hr : (lineAgg d masked skipna).reduceDims = [d] := rfl
    rw [hr]
    simp only [List.mem_singleton, forall_eq, Finset.mem_image]
    constructor
    · rintro ⟨n, hn, rfl⟩
      obtain ⟨h1, h2⟩ := (hS n).mp hn
      exact ⟨⟨by simpa [setLabel] using h1, fun d' hd => by simp [setLabel, hd]⟩, h2⟩
    · rintro ⟨⟨h1, h2⟩, h3⟩
      have he : setLabel e d (e' d) = e' := by
        funext k
        by_cases hk : k = d
        · subst hk; simp [setLabel]
        · simp [setLabel, hk, h2 k hk]
      exact ⟨e' d, (hS _).mpr ⟨h1, by rw [he]; exact h3⟩, he⟩
  · intro e' he'
    obtain ⟨n, hn, rfl⟩ := Finset.mem_image.mp he'
    exact hf n hn

theorem setLabel_injective (e : Dim → ℕ) (d : Dim) : Function.Injective (setLabel e d) := fun m n h => by
  have := congrFun h d
  simpa [setLabel] using this

theorem lineAgg_weight (d : Dim) (masked skipna : Bool) (s : StatVar ℕ (FV ℚ)) (e : Dim → ℕ) : cellWeight (lineAgg d masked skipna) s e = 1 := by
  simp [cellWeight, Aggregator.allFactors, lineAgg]

theorem lineAgg_good (d : Dim) (masked skipna : Bool) (s : StatVar ℕ (FV ℚ)) (e : Dim → ℕ) {S : Finset ℕ} (hS : S.Nonempty) :
    GoodWeights (lineAgg d masked skipna) s (S.image (setLabel e d)) := by
  refine ⟨fun e' _ => by simp [lineAgg_weight], ?_⟩
  simp only [lineAgg_weight, Finset.sum_const, nsmul_eq_mul, mul_one]
  rw [Finset.card_image_of_injective _ (setLabel_injective e d)]
  exact_mod_cast hS.card_pos

theorem lineAgg_wmean (d : Dim) (masked skipna : Bool) (s : StatVar ℕ (FV ℚ)) (e : Dim → ℕ) (S : Finset ℕ) (f : (Dim → ℕ) → ℚ) :
    wmean (lineAgg d masked skipna) s (S.image (setLabel e d)) f = (∑ n ∈ S, f (setLabel e d n)) / S.card := by
  unfold wmean
  simp only [lineAgg_weight, mul_one, Finset.sum_const, nsmul_eq_mul]
  rw [Finset.card_image_of_injective _ (setLabel_injective e d), Finset.sum_image (fun _ _ _ _ h => setLabel_injective e d h)]

/-- The mean of a statistic along one dimension. -/
theorem lineAgg_mean {d : Dim} {masked skipna : Bool} {s : StatVar ℕ (FV ℚ)} {e : Dim → ℕ} {S : Finset ℕ} (hne : S.Nonempty)
    (E : Evaluated (lineAgg d masked skipna) s e (S.image (setLabel e d))) {q} (hq : (lineAgg d masked skipna).aggregateStatVar s = .ok (some q)) :
    (DA.zipWith (· / ·) q.1 q.2).val e = .fin ((∑ n ∈ S, (s.arr.val (setLabel e d n)).num) / S.card) := by
  rw [evaluated_mean E hq (lineAgg_good d masked skipna s e hne).2.ne', lineAgg_wmean]

/-- A field on three latitudes and one longitude. -/
def rainField (f : ℕ → FV ℚ) (mask : Option (ℕ → Bool)) : StatVar ℕ (FV ℚ) :=
  ⟨{ dims := {"latitude", "longitude"}, coords := fun k => Finset.range (if k = "latitude" then 3 else 1), val := fun e => f (e "latitude") },
   mask.map (fun m => { dims := {"latitude", "longitude"}, coords := fun k => Finset.range (if k = "latitude" then 3 else 1), val := fun e => m (e "latitude") })⟩

theorem rain_ok (f : ℕ → FV ℚ) (mask : Option (ℕ → Bool)) (h : ℕ) :
    ∃ A, neighborhoodAveraging (exGrid 3 1) Int.toNat true (.one (2 * h + 1)) (rainField f mask) = .ok A :=
  (C39_error _ _ _ _ _).1.mpr ⟨by omega, by simp [rainField], fun m hm => by
    rcases mask with _ | mk
    · simp [rainField] at hm
    · simp only [rainField, Option.map_some, Option.some.injEq] at hm
      subst hm
      simp⟩

/-- The cells of the examples. -/
def latCell (n : ℕ) : Dim → ℕ := setLabel (fun _ => 0) "latitude" n

theorem latCell_point {n : ℕ} (hn : n < 3) : gridPoint (exGrid 3 1) (fun _ => 0) n 0 = latCell n := by
  funext k
  unfold gridPoint latCell setLabel
  by_cases h1 : k = "longitude" <;> by_cases h2 : k = "latitude" <;> simp [h1, h2, exGrid, hn]

theorem latCell_lat (n : ℕ) : latCell n "latitude" = n := by simp [latCell, setLabel]

/-- Averages over windows of size 3. -/
theorem rain_three {u : ℕ → ℚ} {mask : Option (ℕ → Bool)} {A : StatVar ℕ (FV ℚ)}
    (hA : neighborhoodAveraging (exGrid 3 1) Int.toNat true (.one 3) (rainField (fun n => .fin (u n)) mask) = .ok A) {n : ℕ} (hn : n < 3) :
    A.arr.val (latCell n) = .fin (if n = 1 then (u 0 + u 1 + u 2) / 3 else 0) := by
  have hx : ∀ i < (exGrid 3 1).lat.length, ∀ j < (exGrid 3 1).lon.length, (rainField (fun n => .fin (u n)) mask).arr.val (gridPoint (exGrid 3 1) (fun _ => 0) i j) = .fin (u i) := by
    intro i hi j hj
    have hi' : i < 3 := by simpa [exGrid] using hi
    have hj' : j = 0 := by simpa [exGrid] using hj
    subst hj'
    rw [latCell_point hi']
    simp only [rainField, latCell_lat]
  have := C39_window (h := 1) (x := fun i _ => u i) (exGrid_nodup 3 1) hA hx (i := n) (j := 0) (by simpa [exGrid] using hn) (by simp [exGrid])
  rw [← latCell_point hn, this]
  have hN : (exGrid 3 1).lat.length = 3 ∧ (exGrid 3 1).lon.length = 1 := by simp [exGrid]
  rw [hN.1, hN.2]
  by_cases h1 : n = 1
  · subst h1
    rw [if_pos (by unfold Interior; simp), if_pos rfl]
    unfold boxMean
    rw [show Finset.Icc (1 - 1) (1 + 1) = {0, 1, 2} by decide, show Finset.Icc (-((1 : ℕ) : ℤ)) (1 : ℕ) = {-1, 0, 1} by decide]
    simp
    ring
  · rw [if_neg (by unfold Interior; omega), if_neg h1]

theorem rain_mask {f : ℕ → FV ℚ} {mask : ℕ → Bool} {A : StatVar ℕ (FV ℚ)}
    (hA : neighborhoodAveraging (exGrid 3 1) Int.toNat true (.one 3) (rainField f (some mask)) = .ok A) (hmask : ∀ n, mask n = true) :
    ∃ m, A.mask = some m ∧ m.dims = {"latitude", "longitude"} ∧ (m.coords = fun k => Finset.range (if k = "latitude" then 3 else 1)) ∧
      ∀ n < 3, m.val (latCell n) = decide (n = 1) := by
  obtain ⟨-, f', o, h1, h2, hAeq⟩ := averageOne_ok hA
  have hmk : (rainField f (some mask)).mask = some { dims := {"latitude", "longitude"}, coords := fun k => Finset.range (if k = "latitude" then 3 else 1), val := fun e => mask (e "latitude") } := rfl
  rw [hmk] at h2
  obtain ⟨ho, -⟩ := averageMask?_ok h2
  refine ⟨_, by rw [hAeq, ho], rfl, rfl, fun n hn => ?_⟩
  obtain ⟨m', h3, h4⟩ := C39_mask (h := 1) (e := fun _ => 0) (i := n) (j := 0) (exGrid_nodup 3 1) hA hmk (by norm_num) (by simpa [exGrid] using hn) (by simp [exGrid])
  have h5 : A.mask = some ((gridApply (exGrid 3 1) f' (DA.map FV.ofBool { dims := {"latitude", "longitude"}, coords := fun k => Finset.range (if k = "latitude" then 3 else 1), val := fun e => mask (e "latitude") })).map isclose1) := by
    rw [hAeq]; exact ho
  rw [h5, Option.some.injEq] at h3
  rw [h3, Bool.eq_iff_iff, ← latCell_point hn, h4]
  have hN : (exGrid 3 1).lat.length = 3 ∧ (exGrid 3 1).lon.length = 1 := by simp [exGrid]
  simp only [hmask, hN.1, hN.2, decide_eq_true_eq]
  constructor
  · rintro ⟨hi, -⟩
    unfold Interior at hi
    omega
  · rintro rfl
    exact ⟨by unfold Interior; simp, fun _ _ _ _ => trivial⟩

theorem rain_join : ∀ f mask f' mask', joinCoords (rainField f mask).arr (rainField f' mask').arr = (rainField f mask).arr.coords := by
  intro f mask f' mask'
  funext k
  simp only [joinCoords, rainField, Finset.inter_self, ite_self]

/-- **C40** (finding) With `masked=True` and a mask on the targets only, the statistics of the score are averaged over different cells: the numerator and the
target term over the cells with a valid window, the prediction term over all unmasked cells. The score can then be negative although the
documentation says it lies in [0,1]: here it is -2, for a mask that masks nothing. -/
theorem C40_mask_mismatch : ∃ X, ValueOf (fss (exGrid 3 1) Int.toNat true (.one 3)) (lineAgg "latitude" true false)
    [("r", rainField (fun _ => .fin 1) none)] [("r", rainField (fun _ => .fin 0) (some (fun _ => true)))] "r" X ∧ X.val (fun _ => 0) = .fin (-2) := by
  obtain ⟨A, hA⟩ := rain_ok (fun _ => .fin 1) none 1
  obtain ⟨B, hB⟩ := rain_ok (fun _ => .fin 0) (some (fun _ => true)) 1
  have vA : ∀ n < 3, A.arr.val (latCell n) = .fin (if n = 1 then 1 else 0) := by
    intro n hn
    rw [rain_three (u := fun _ => 1) hA hn]
    norm_num
  have vB : ∀ n < 3, B.arr.val (latCell n) = .fin 0 := by
    intro n hn
    rw [rain_three (u := fun _ => 0) hB hn]
    norm_num
  obtain ⟨m, hm, md, mc, mv⟩ := rain_mask hB (fun _ => rfl)
  have mA : A.mask = none := (average_labels hA rfl).1
  obtain ⟨dA, cA⟩ := C39_labels hA
  obtain ⟨dB, cB⟩ := C39_labels hB
  have r1 : squaredFractionsError (exGrid 3 1) Int.toNat true (.one 3) (rainField (fun _ => .fin 1) none) (rainField (fun _ => .fin 0) (some (fun _ => true))) =
      .ok (fractionsError A B) := by
    have hA' : neighborhoodAveraging (exGrid 3 1) Int.toNat true (.one 3) _ = .ok A := hA
    have hB' : neighborhoodAveraging (exGrid 3 1) Int.toNat true (.one 3) _ = .ok B := hB
    simp only [squaredFractionsError, hA', hB']; rfl
  have r2 : squaredPredictionFraction (exGrid 3 1) Int.toNat true (.one 3) (rainField (fun _ => .fin 1) none) (rainField (fun _ => .fin 0) (some (fun _ => true))) =
      .ok ((A.map FV.sq).zipWith (· + ·) ((rainField (fun _ => .fin 0) (some (fun _ => true))).map (fun _ => 0))) := by
    have hA' : neighborhoodAveraging (exGrid 3 1) Int.toNat true (.one 3) _ = .ok A := hA
    simp only [squaredPredictionFraction, hA']; rfl
  have r3 : squaredTargetFraction (exGrid 3 1) Int.toNat true (.one 3) (rainField (fun _ => .fin 1) none) (rainField (fun _ => .fin 0) (some (fun _ => true))) =
      .ok ((B.map FV.sq).zipWith (· + ·) ((rainField (fun _ => .fin 1) none).map (fun _ => 0))) := by
    have hB' : neighborhoodAveraging (exGrid 3 1) Int.toNat true (.one 3) _ = .ok B := hB
    simp only [squaredTargetFraction, hB']; rfl
  have hc : (Finset.range 3) = {0, 1, 2} := by decide
  -- the mean of a statistic with these labels
  have key : ∀ (s : StatVar ℕ (FV ℚ)) (S : Finset ℕ), S.Nonempty → s.arr.dims = {"latitude", "longitude"} →
      (s.arr.coords = fun k => Finset.range (if k = "latitude" then 3 else 1)) →
      (∃ mk, s.mask = some mk ∧ mk.dims = {"latitude", "longitude"} ∧ (mk.coords = fun k => Finset.range (if k = "latitude" then 3 else 1)) ∧
        ∀ n < 3, (mk.val (latCell n) = true ↔ n ∈ S)) → (∀ n ∈ S, n < 3) → (∀ n < 3, (s.arr.val (latCell n)).isFin = true) →
      ∃ q, (lineAgg "latitude" true false).aggregateStatVar s = .ok (some q) ∧
        (DA.zipWith (· / ·) q.1 q.2).val (fun _ => 0) = .fin ((∑ n ∈ S, (s.arr.val (latCell n)).num) / S.card) := by
    intro s S hne hd hcs hmk hS hfin
    obtain ⟨mk', k1, k2, k3, k4⟩ := hmk
    obtain ⟨q, hq⟩ := exists_aggregate (lineAgg "latitude" true false) rfl s (by simp [lineAgg, hd])
    refine ⟨q, hq, lineAgg_mean (e := fun _ => 0) hne ?_ hq⟩
    refine evaluated_line _ _ _ _ _ _ (fun mk'' h => ?_) (fun n => ?_) (fun n hn => hfin n (hS n hn))
    · rw [k1, Option.some.injEq] at h
      subst h
      rw [k2, k3, hd, hcs]
      exact ⟨le_refl _, rfl⟩
    · rw [hcs]
      simp only [if_true, Finset.mem_range, counted, k1, lineAgg, Bool.not_false, Bool.true_or, Bool.and_true]
      constructor
      · exact fun hn => ⟨hS n hn, (k4 n (hS n hn)).mpr hn⟩
      · exact fun hn => (k4 n hn.1).mp hn.2
  have cu : ∀ X Y : StatVar ℕ (FV ℚ), X.arr.dims = {"latitude", "longitude"} → Y.arr.dims = {"latitude", "longitude"} →
      (X.arr.coords = fun k => Finset.range (if k = "latitude" then 3 else 1)) → (Y.arr.coords = fun k => Finset.range (if k = "latitude" then 3 else 1)) →
      ∀ f : FV ℚ → FV ℚ → FV ℚ, (X.zipWith f Y).arr.dims = {"latitude", "longitude"} ∧ ((X.zipWith f Y).arr.coords = fun k => Finset.range (if k = "latitude" then 3 else 1)) := by
    intro X Y h1 h2 h3 h4 f
    constructor
    · simp only [StatVar.zipWith, zipWith, h1, h2, Finset.union_self]
    · funext k
      simp only [StatVar.zipWith, zipWith, joinCoords, h1, h2, h3, h4, Finset.inter_self, ite_self]
  have cB' := cB.trans (show (rainField (fun _ => .fin 0) (some (fun _ => true))).arr.coords = fun k => Finset.range (if k = "latitude" then 3 else 1) from rfl)
  have cA' := cA.trans (show (rainField (fun _ => .fin 1) none).arr.coords = fun k => Finset.range (if k = "latitude" then 3 else 1) from rfl)
  obtain ⟨q1, a1, w1⟩ := key (fractionsError A B) {1} (by simp) (cu A B dA dB cA' cB' (· - ·)).1 (cu A B dA dB cA' cB' (· - ·)).2
    ⟨m, by simp only [fractionsError, StatVar.map, StatVar.zipWith, mA, hm, combineMask], md, mc, fun n hn => by rw [mv n hn]; simp⟩ (by simp)
    (fun n hn => by simp only [fractionsError, StatVar.map, StatVar.zipWith, DA.map, zipWith, vA n hn, vB n hn, FV.fin_sub_fin, FV.sq, FV.fin_mul_fin]; rfl)
  obtain ⟨q2, a2, w2⟩ := key ((A.map FV.sq).zipWith (· + ·) ((rainField (fun _ => .fin 0) (some (fun _ => true))).map (fun _ => 0))) (Finset.range 3) (by simp)
    (cu (A.map FV.sq) ((rainField (fun _ => .fin 0) (some (fun _ => true))).map (fun _ => 0)) dA rfl cA' rfl (· + ·)).1
    (cu (A.map FV.sq) ((rainField (fun _ => .fin 0) (some (fun _ => true))).map (fun _ => 0)) dA rfl cA' rfl (· + ·)).2
    ⟨{ dims := {"latitude", "longitude"}, coords := fun k => Finset.range (if k = "latitude" then 3 else 1), val := fun _ => true },
      by simp only [StatVar.map, StatVar.zipWith, mA, combineMask]; rfl, rfl, rfl, fun n hn => by simp [hn]⟩ (by simp)
    (fun n hn => by simp only [StatVar.map, StatVar.zipWith, DA.map, zipWith, vA n hn, FV.sq, FV.fin_mul_fin]; rfl)
  obtain ⟨q3, a3, w3⟩ := key ((B.map FV.sq).zipWith (· + ·) ((rainField (fun _ => .fin 1) none).map (fun _ => 0))) {1} (by simp)
    (cu (B.map FV.sq) ((rainField (fun _ => .fin 1) none).map (fun _ => 0)) dB rfl cB' rfl (· + ·)).1
    (cu (B.map FV.sq) ((rainField (fun _ => .fin 1) none).map (fun _ => 0)) dB rfl cB' rfl (· + ·)).2
    ⟨m, by simp only [StatVar.map, StatVar.zipWith, hm, combineMask, rainField, Option.map_none], md, mc, fun n hn => by rw [mv n hn]; simp⟩ (by simp)
    (fun n hn => by simp only [StatVar.map, StatVar.zipWith, DA.map, zipWith, vB n hn, FV.sq, FV.fin_mul_fin]; rfl)
  refine ⟨_, exists_metric3 (show "SquaredFractionsError" ≠ "SquaredPredictionFraction" by decide)
    (show "SquaredFractionsError" ≠ "SquaredTargetFraction" by decide) (show "SquaredPredictionFraction" ≠ "SquaredTargetFraction" by decide)
    (oneMean_statOfE _ r1 a1) (oneMean_statOfE _ r2 a2) (oneMean_statOfE _ r3 a3), ?_⟩
  have x1 : ∀ n < 3, ((fractionsError A B).arr.val (latCell n)).num = if n = 1 then 1 else 0 := by
    intro n hn
    simp only [fractionsError, StatVar.map, StatVar.zipWith, DA.map, zipWith, vA n hn, vB n hn, FV.fin_sub_fin, FV.sq, FV.fin_mul_fin, FV.num]
    split <;> norm_num
  have x2 : ∀ n < 3, (((A.map FV.sq).zipWith (· + ·) ((rainField (fun _ => .fin 0) (some (fun _ => true))).map (fun _ => 0))).arr.val (latCell n)).num = if n = 1 then 1 else 0 := by
    intro n hn
    simp only [StatVar.map, StatVar.zipWith, DA.map, zipWith, vA n hn, FV.sq, FV.fin_mul_fin]
    rw [FV.zero_def, FV.fin_add_fin, FV.num]
    split <;> norm_num
  have x3 : ∀ n < 3, (((B.map FV.sq).zipWith (· + ·) ((rainField (fun _ => .fin 1) none).map (fun _ => 0))).arr.val (latCell n)).num = 0 := by
    intro n hn
    simp only [StatVar.map, StatVar.zipWith, DA.map, zipWith, vB n hn, FV.sq, FV.fin_mul_fin]
    rw [FV.zero_def, FV.fin_add_fin, FV.num]
    norm_num
  show 1 - (DA.zipWith (· / ·) q1.1 q1.2).val (fun _ => 0) / ((DA.zipWith (· / ·) q2.1 q2.2).val (fun _ => 0) + (DA.zipWith (· / ·) q3.1 q3.2).val (fun _ => 0)) = _
  rw [w1, w2, w3, Finset.sum_singleton, Finset.sum_singleton, x1 1 (by norm_num), x3 1 (by norm_num),
    Finset.sum_congr rfl (fun n hn => x2 n (Finset.mem_range.mp hn)), FV.fin_add_fin, FV.fin_div_fin_of_ne, FV.one_def, FV.fin_sub_fin]
  · congr 1
    simp
    norm_num
  · simp

/-- The hypotheses of the theorems are met: rain everywhere forecast, observed at one of three latitudes. -/
theorem rain_fractions : ∃ A B, Fractions (exGrid 3 1) Int.toNat true (.one (2 * (1 : ℕ) + 1)) (lineAgg "latitude" false false) (rainField (fun _ => .fin 1) none)
    (rainField (fun n => .fin (if n = 0 then 1 else 0)) none) A B (fun _ => 0) ((Finset.range 3).image latCell)
    (fun e => if e "latitude" = 1 then 1 else 0) (fun e => if e "latitude" = 1 then 1 / 3 else 0) := by
  obtain ⟨A, hA⟩ := rain_ok (fun _ => .fin 1) none 1
  obtain ⟨B, hB⟩ := rain_ok (fun n => .fin (if n = 0 then 1 else 0)) none 1
  have vA : ∀ n < 3, A.arr.val (latCell n) = .fin (if n = 1 then 1 else 0) := by
    intro n hn
    rw [rain_three (u := fun _ => 1) hA hn]
    norm_num
  have vB : ∀ n < 3, B.arr.val (latCell n) = .fin (if n = 1 then 1 / 3 else 0) := by
    intro n hn
    rw [rain_three (u := fun n => if n = 0 then 1 else 0) hB hn]
    norm_num
  obtain ⟨dA, cA⟩ := C39_labels hA
  obtain ⟨dB, cB⟩ := C39_labels hB
  have mA : A.mask = none := (average_labels hA rfl).1
  have mB : B.mask = none := (average_labels hB rfl).1
  have hmask : (fractionsError A B).mask = none := by simp only [fractionsError, StatVar.map, StatVar.zipWith, mA, mB, combineMask]
  have hco : (fractionsError A B).arr.coords "latitude" = Finset.range 3 := by
    simp only [fractionsError, StatVar.map, StatVar.zipWith, DA.map, zipWith, joinCoords, cA, cB, rainField, Finset.inter_self, ite_self, if_true]
  refine ⟨A, B, hA, hB, ⟨rfl, rfl⟩, by simp [rainField], ⟨rfl, rfl⟩, ?_, ?_, ?_⟩
  · refine evaluated_line _ _ _ _ _ _ (fun m h => by rw [hmask] at h; simp at h) (fun n => ?_) (fun n hn => ?_)
    · rw [hco]
      simp [counted, lineAgg]
    · have hn' := Finset.mem_range.mp hn
      have e1 := vA n hn'
      have e2 := vB n hn'
      unfold latCell at e1 e2
      simp only [fractionsError, StatVar.map, StatVar.zipWith, DA.map, zipWith, e1, e2, FV.fin_sub_fin, FV.sq, FV.fin_mul_fin]
      rfl
  · exact lineAgg_good _ _ _ _ _ (by simp)
  · intro e' h1 h2
    have h3 := h1 "latitude" (by simp [lineAgg])
    rw [cA] at h3
    simp only [rainField, if_true, Finset.mem_range] at h3
    have he : e' = latCell (e' "latitude") := by
      funext k
      by_cases hk : k = "latitude"
      · subst hk; simp [latCell, setLabel]
      · rw [h2 k (by simp [lineAgg, hk])]; simp [latCell, setLabel, hk]
    constructor
    · rw [he, vA _ h3, latCell_lat]
    · rw [he, vB _ h3, latCell_lat]

example : ∃ X, ValueOf (fss (exGrid 3 1) Int.toNat true (.one (2 * (1 : ℕ) + 1))) (lineAgg "latitude" false false) [("r", rainField (fun _ => .fin 1) none)]
    [("r", rainField (fun n => .fin (if n = 0 then 1 else 0)) none)] "r" X ∧ X.val (fun _ => 0) = .fin (3 / 5) := by
  obtain ⟨A, B, F⟩ := rain_fractions
  obtain ⟨s2, E2, -, e2, -, v2⟩ := F.square
  obtain ⟨s3, E3, -, -, e3, v3⟩ := F.symm.square
  have e1 : squaredFractionsError (exGrid 3 1) Int.toNat true (.one (2 * (1 : ℕ) + 1)) (rainField (fun _ => .fin 1) none)
      (rainField (fun n => .fin (if n = 0 then 1 else 0)) none) = .ok (fractionsError A B) := by
    simp only [squaredFractionsError, F.forecast, F.observed]; rfl
  obtain ⟨dA, cA⟩ := C39_labels F.forecast
  obtain ⟨dB, cB⟩ := C39_labels F.observed
  obtain ⟨q1, a1⟩ := exists_aggregate (lineAgg "latitude" false false) rfl (fractionsError A B) (by
    simp [lineAgg, fractionsError, StatVar.map, StatVar.zipWith, DA.map, zipWith, dA, rainField])
  obtain ⟨q2, a2⟩ := exists_aggregate (lineAgg "latitude" false false) rfl s2 (by
    simp only [squaredPredictionFraction, F.forecast, bind, Except.bind, pure, Except.pure, Except.ok.injEq] at e2
    subst e2
    simp [lineAgg, StatVar.map, StatVar.zipWith, DA.map, zipWith, dA, rainField])
  obtain ⟨q3, a3⟩ := exists_aggregate (lineAgg "latitude" false false) rfl s3 (by
    simp only [squaredTargetFraction, F.observed, bind, Except.bind, pure, Except.pure, Except.ok.injEq] at e3
    subst e3
    simp [lineAgg, StatVar.map, StatVar.zipWith, DA.map, zipWith, dB, rainField])
  have hX : ValueOf (fss (exGrid 3 1) Int.toNat true (.one (2 * (1 : ℕ) + 1))) (lineAgg "latitude" false false) [("r", rainField (fun _ => .fin 1) none)]
    [("r", rainField (fun n => .fin (if n = 0 then 1 else 0)) none)] "r" _ := exists_metric3 (show "SquaredFractionsError" ≠ "SquaredPredictionFraction" by decide)
    (show "SquaredFractionsError" ≠ "SquaredTargetFraction" by decide) (show "SquaredPredictionFraction" ≠ "SquaredTargetFraction" by decide)
    (oneMean_statOfE (v := "r") ("SquaredFractionsError_" ++ sizesSuffix (.one (2 * (1 : ℕ) + 1)) true) e1 a1)
    (oneMean_statOfE ("SquaredPredictionFraction_" ++ sizesSuffix (.one (2 * (1 : ℕ) + 1)) true) e2 a2)
    (oneMean_statOfE ("SquaredTargetFraction_" ++ sizesSuffix (.one (2 * (1 : ℕ) + 1)) true) e3 a3)
  refine ⟨_, hX, ?_⟩
  rw [C40_value (by simp) (by simp) (List.mem_singleton.mpr rfl) (List.mem_singleton.mpr rfl) F hX, if_neg]
  · congr 1
    have hl : latCell = setLabel (fun _ => 0) "latitude" := rfl
    rw [hl, lineAgg_wmean, lineAgg_wmean, lineAgg_wmean, ← hl]
    simp only [latCell_lat]
    simp [Finset.sum_range_succ]
    norm_num
  · push Not
    exact ⟨latCell 1, Finset.mem_image_of_mem _ (by simp), by simp [lineAgg_weight], fun h => by simp [latCell_lat] at h⟩

end WBX
