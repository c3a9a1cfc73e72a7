import Verif.Props.ImprovedMore

/-!
# C97: ensembles and SEDI
-/

set_option linter.unusedSectionVars false

namespace WBX
open DA Aggregator
variable {L K : Type} [DecidableEq L] [Field K] [LinearOrder K] [IsStrictOrderedRing K] {agg : Aggregator L (FV K)} {p p' t : Vars (StatVar L (FV K))} {v : String}
  {a a' b : StatVar L (FV K)} {x x' : DA L (FV K)} {e : Dim → L} {cs : Finset (Dim → L)}

theorem inBetween_abs {u u' y : K} (h : InBetween u u' y) : |u - u'| = |u - y| - |u' - y| := by
  rcases h with ⟨h1, h2⟩ | ⟨h1, h2⟩
  · rw [abs_of_nonpos (by linarith), abs_of_nonpos (by linarith), abs_of_nonpos (by linarith)]; ring
  · rw [abs_of_nonneg (by linarith), abs_of_nonneg (by linarith), abs_of_nonneg (by linarith)]; ring

/-- How much two members agree on the side of the observation. -/
theorem pair_mono {u u' w w' y : K} (hu : InBetween u u' y) (hw : InBetween w w' y) :
    |u' - y| + |w' - y| - |u' - w'| ≤ |u - y| + |w - y| - |u - w| := by
  have h1 := inBetween_abs hu
  have h2 := inBetween_abs hw
  have h3 : |u - w| ≤ |u - u'| + |u' - w'| + |w - w'| := by
    calc |u - w| = |(u - u') + (u' - w') + (w' - w)| := by ring_nf
      _ ≤ |u - u'| + |u' - w'| + |w' - w| := abs_add_three _ _ _
      _ = _ := by rw [abs_sub_comm w' w]
  linarith

/-- The CRPS of one ensemble as a sum over pairs of members. -/
theorem eCRPS_pairs {M : Finset L} (fair : Bool) (hn : 2 ≤ M.card) (x : L → K) (y : K) :
    eCRPS fair M x y = (∑ i ∈ M, ∑ j ∈ M, (if fair = true ∧ i = j then 0 else |x i - y| + |x j - y| - |x i - x j|)) / (2 * (M.card * (M.card - if fair then 1 else 0))) := by
  have c0 : (0 : K) < M.card := by exact_mod_cast (show 0 < M.card by omega)
  have c1 : (0 : K) < (M.card : K) - 1 := by
    have : (1 : K) < M.card := by exact_mod_cast (show 1 < M.card by omega)
    linarith
  have all : ∑ i ∈ M, ∑ j ∈ M, (|x i - y| + |x j - y| - |x i - x j|) = 2 * M.card * (∑ i ∈ M, |x i - y|) - ∑ i ∈ M, ∑ j ∈ M, |x i - x j| := by
    simp only [Finset.sum_sub_distrib, Finset.sum_add_distrib, Finset.sum_const, nsmul_eq_mul, ← Finset.mul_sum]
    ring
  unfold eCRPS eSkill eSpread
  cases fair with
  | false =>
    simp only [Bool.false_eq_true, false_and, if_false, sub_zero]
    rw [all]
    field_simp
  | true =>
    have diag : ∑ i ∈ M, ∑ j ∈ M, (if true = true ∧ i = j then 0 else |x i - y| + |x j - y| - |x i - x j|) =
        (∑ i ∈ M, ∑ j ∈ M, (|x i - y| + |x j - y| - |x i - x j|)) - 2 * ∑ i ∈ M, |x i - y| := by
      rw [Finset.mul_sum, ← Finset.sum_sub_distrib]
      refine Finset.sum_congr rfl (fun i hi => ?_)
      rw [eq_sub_iff_add_eq]
      have : ∑ j ∈ M, (if i = j then 2 * |x i - y| else 0) = 2 * |x i - y| := by rw [Finset.sum_ite_eq]; simp [hi]
      rw [← this, ← Finset.sum_add_distrib]
      refine Finset.sum_congr rfl (fun j _ => ?_)
      by_cases hij : i = j
      · subst hij; simp; ring
      · simp [hij]
    rw [diag, all]
    simp only [if_true]
    field_simp
    ring

/-- Members moved towards the observation: the CRPS of the cell does not grow. -/
theorem eCRPS_mono {M : Finset L} (fair : Bool) (hn : 2 ≤ M.card) {x x' : L → K} {y : K} (h : ∀ l ∈ M, InBetween (x l) (x' l) y) : eCRPS fair M x' y ≤ eCRPS fair M x y := by
  have c0 : (0 : K) < M.card := by exact_mod_cast (show 0 < M.card by omega)
  have c1 : (0 : K) < (M.card : K) - if fair then 1 else 0 := by
    have : (1 : K) < M.card := by exact_mod_cast (show 1 < M.card by omega)
    split <;> linarith
  rw [eCRPS_pairs fair hn, eCRPS_pairs fair hn]
  refine div_le_div_of_nonneg_right (Finset.sum_le_sum (fun i hi => Finset.sum_le_sum (fun j hj => ?_))) (by positivity)
  split
  · exact le_rfl
  · exact pair_mono (h i hi) (h j hj)

/-- **C97** CRPS, fair or not, from sorted members or from pairs: members moved towards the observation (each staying on its side) never score worse. -/
theorem C97_crps {argsort : List (FV K) → List ℕ} (harg : IsArgsort argsort) {order : List L} (ho : order.Nodup) {d : Dim} {useSort fair sk : Bool} (hp : (p.map Prod.fst).Nodup)
    (hp' : (p'.map Prod.fst).Nodup) (ht : (t.map Prod.fst).Nodup) {s1 s2 s1' s2' : StatVar L (FV K)} (ha : (v, a) ∈ p) (ha' : (v, a') ∈ p') (hb : (v, b) ∈ t) (hwa : a.arr.WF) (hwa' : a'.arr.WF)
    (hwb : b.arr.WF) (hd : d ∉ b.arr.dims) (hord : order.toFinset = a.arr.coords d) (hS : SameCells a a')
    (h1 : crpsSkill d sk a b = .ok s1) (h2 : crpsSpread argsort order d useSort fair "predictions" sk a b = .ok s2)
    (h1' : crpsSkill d sk a' b = .ok s1') (h2' : crpsSpread argsort order d useSort fair "predictions" sk a' b = .ok s2')
    (E1 : Evaluated agg s1 e cs) (E2 : Evaluated agg s2 e cs) (E1' : Evaluated agg s1' e cs) (E2' : Evaluated agg s2' e cs) (hW : GoodWeights agg s1 cs)
    (hw : ∀ e' ∈ cs, cellWeight agg s2 e' = cellWeight agg s1 e' ∧ cellWeight agg s1' e' = cellWeight agg s1 e' ∧ cellWeight agg s2' e' = cellWeight agg s1 e')
    {M : (Dim → L) → Finset L} {m m' : (Dim → L) → L → K} {y : (Dim → L) → K} (hM : ∀ e' ∈ cs, EnsembleAt sk a d e' (M e') (m e')) (hM' : ∀ e' ∈ cs, EnsembleAt sk a' d e' (M e') (m' e'))
    (hn : ∀ e' ∈ cs, 2 ≤ (M e').card) (hy : ∀ e' ∈ cs, b.arr.val e' = .fin (y e')) (hbt : ∀ e' ∈ cs, ∀ l ∈ M e', InBetween (m e' l) (m' e' l) (y e'))
    (hx : ValueOf (crpsEnsemble argsort order d useSort fair sk) agg p t v x) (hx' : ValueOf (crpsEnsemble argsort order d useSort fair sk) agg p' t v x') :
    ∃ r r', x.val e = FV.fin r ∧ x'.val e = FV.fin r' ∧ r' ≤ r := by
  have hsum : ∀ f : (Dim → L) → K, wmean agg s1' cs f = wmean agg s1 cs f := fun f => by
    unfold wmean
    rw [Finset.sum_congr rfl (fun e' he' => by rw [(hw e' he').2.1]), Finset.sum_congr rfl (fun e' he' => (hw e' he').2.1)]
  have hW' : GoodWeights agg s1' cs := ⟨fun e' he' => by rw [(hw e' he').2.1]; exact hW.1 e' he', by rw [Finset.sum_congr rfl (fun e' he' => (hw e' he').2.1)]; exact hW.2⟩
  refine ⟨_, _, C31_value harg ho hp ht ha hb hwa hwb hd hord h1 h2 E1 E2 hW (fun e' he' => (hw e' he').1) hM hn hy hx,
    C31_value harg ho hp' ht ha' hb hwa' hwb hd (by rw [hS.coords]; exact hord) h1' h2' E1' E2' hW' (fun e' he' => by rw [(hw e' he').2.2, (hw e' he').2.1]) hM' hn hy hx', ?_⟩
  rw [hsum]
  exact wmean_mono hW (fun e' he' => eCRPS_mono fair (hn e' he') (hbt e' he'))

/-- **C97 ★** Being nearer is not enough for an ensemble: the members -1 and 2 around the observation 0 are better than -1 and -1, although no member of the second ensemble is farther away and one
is nearer. -/
theorem C97_crps_side (fair : Bool) : let near : ℕ → ℚ := fun _ => -1
    let far : ℕ → ℚ := fun l => if l = 0 then -1 else 2
    (∀ l, |near l - 0| ≤ |far l - 0|) ∧ eCRPS fair (Finset.range 2) far 0 < eCRPS fair (Finset.range 2) near 0 := by
  refine ⟨fun l => ?_, ?_⟩
  · by_cases h : l = 0 <;> norm_num [h]
  · cases fair <;> norm_num [eCRPS, eSkill, eSpread, Finset.sum_range_succ]

/-! ### SEDI -/

theorem sedi_mono {F H F' H' : ℝ} (hF' : 0 < F') (hFF : F' ≤ F) (hF : F < 1) (hH : 0 < H) (hHH : H ≤ H') (hH' : H' < 1) :
    (Real.log F - Real.log H + Real.log (1 - H) - Real.log (1 - F)) / (Real.log H + Real.log F + Real.log (1 - H) + Real.log (1 - F)) ≤
      (Real.log F' - Real.log H' + Real.log (1 - H') - Real.log (1 - F')) / (Real.log H' + Real.log F' + Real.log (1 - H') + Real.log (1 - F')) := by
  have l1 := Real.log_le_log hF' hFF
  have l2 := Real.log_le_log hH hHH
  have l3 := Real.log_le_log (show 0 < 1 - H' by linarith) (show 1 - H' ≤ 1 - H by linarith)
  have l4 := Real.log_le_log (show 0 < 1 - F by linarith) (show 1 - F ≤ 1 - F' by linarith)
  have n1 := Real.log_neg (show 0 < F by linarith) hF
  have n2 := Real.log_neg hH (by linarith)
  have n3 := Real.log_neg (show 0 < 1 - H by linarith) (by linarith)
  have n4 := Real.log_neg (show 0 < 1 - F by linarith) (by linarith)
  have n1' := Real.log_neg hF' (by linarith)
  have n2' := Real.log_neg (show 0 < H' by linarith) hH'
  have n3' := Real.log_neg (show 0 < 1 - H' by linarith) (by linarith)
  have n4' := Real.log_neg (show 0 < 1 - F' by linarith) (by linarith)
  generalize Real.log F = A at *
  generalize Real.log H = B at *
  generalize Real.log (1 - H) = C at *
  generalize Real.log (1 - F) = D at *
  generalize Real.log F' = A' at *
  generalize Real.log H' = B' at *
  generalize Real.log (1 - H') = C' at *
  generalize Real.log (1 - F') = D' at *
  rw [← neg_div_neg_eq, ← neg_div_neg_eq (A' - B' + C' - D'), div_le_div_iff₀ (by linarith) (by linarith)]
  have : 0 ≤ (A + C) * (B' + D') := mul_nonneg_of_nonpos_of_nonpos (by linarith) (by linarith)
  have h1 : (A + C) * (B' + D') ≤ (A' + C') * (B + D) := by
    have := mul_le_mul (show -(A + C) ≤ -(A' + C') by linarith) (show -(B' + D') ≤ -(B + D) by linarith) (by linarith) (by linarith)
    nlinarith
  nlinarith

theorem clipRate_mono {r r' : ℝ} (h : r ≤ r') : clipRate r ≤ clipRate r' := min_le_min_right _ (max_le_max_right _ h)

/-- **C97** SEDI, where the event and its opposite are both observed. -/
theorem C97_sedi {agg : Aggregator L (FV ℝ)} {p p' t : Vars (StatVar L (FV ℝ))} (hp : (p.map Prod.fst).Nodup) (hp' : (p'.map Prod.fst).Nodup)
    (ht : (t.map Prod.fst).Nodup) {a a' b : StatVar L (FV ℝ)} (ha : (v, a) ∈ p) (ha' : (v, a') ∈ p') (hb : (v, b) ∈ t) (E : Evaluated agg (truePositives a b) e cs)
    (hW : GoodWeights agg (truePositives a b) cs) (hC : Corrected a a' b) (hP : share agg a b cs true true + share agg a b cs false true ≠ 0)
    (hN : share agg a b cs true false + share agg a b cs false false ≠ 0) {x x' : DA L (FV ℝ)} (hx : ValueOf sedi agg p t v x) (hx' : ValueOf sedi agg p' t v x') : NotBelow (x.val e) (x'.val e) := by
  obtain ⟨s1, s2, s3, s4⟩ := hC.shares E hW
  obtain ⟨n, n'⟩ := signs hp hp' ht ha ha' hb E hW hC
  obtain ⟨r, e1, e2, -⟩ := C27_sedi hp ht ha hb E hW hx hP hN
  obtain ⟨r', e1', e2', -⟩ := C27_sedi hp' ht ha' hb (hC.evaluated E).1 (hC.good E hW) hx' (by rw [s3]; exact hP) (by rw [s4]; exact hN)
  refine ⟨r, r', e1, e1', ?_⟩
  rw [e2, e2', s3, s4]
  have c1 := clipRate_bounds (share agg a b cs true true / (share agg a b cs true true + share agg a b cs false true))
  have c2 := clipRate_bounds (share agg a b cs true false / (share agg a b cs true false + share agg a b cs false false))
  have c3 := clipRate_bounds (share agg a' b cs true true / (share agg a b cs true true + share agg a b cs false true))
  have c4 := clipRate_bounds (share agg a' b cs true false / (share agg a b cs true false + share agg a b cs false false))
  exact sedi_mono (by linarith) (clipRate_mono (div_le_div_of_nonneg_right s2 (add_nonneg (n _ _) (n _ _)))) (by linarith) (by linarith)
    (clipRate_mono (div_le_div_of_nonneg_right s1 (add_nonneg (n _ _) (n _ _)))) (by linarith)

end WBX
