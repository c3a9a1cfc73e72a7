import Verif.Props.PoolingMetrics

/-!
# Property C99: concrete cases, and scores for which it fails

Four cells (hit, false alarm, miss, correct rejection) in each of two parts, with the weights 4, 2, 2, 1 in the first and 1, 2, 2, 4 in the second.
-/

set_option linter.unusedSectionVars false

namespace WBX
open DA Aggregator

noncomputable def poolArr (f : ℕ → ℝ) : StatVar ℕ (FV ℝ) :=
  ⟨{ dims := {"x", "y"}, coords := fun d => if d = "x" then {0, 1, 2, 3} else {0, 1}, val := fun e => .fin (f (e "x")) }, none⟩
/-- Events predicted at cells 0 and 1, observed at cells 0 and 2. -/
noncomputable def poolP : StatVar ℕ (FV ℝ) := poolArr (fun n => if n < 2 then 1 else 0)
noncomputable def poolT : StatVar ℕ (FV ℝ) := poolArr (fun n => if n = 0 ∨ n = 2 then 1 else 0)
noncomputable def poolWeight (x y : ℕ) : ℝ := if x = 0 then (if y = 0 then 4 else 1) else if x = 3 then (if y = 0 then 1 else 4) else 2
noncomputable def poolAgg : Aggregator ℕ (FV ℝ) :=
  { reduceDims := ["x"], weighBy := [fun _ => { dims := {"x", "y"}, coords := fun d => if d = "x" then {0, 1, 2, 3} else {0, 1}, val := fun e => .fin (poolWeight (e "x") (e "y")) }],
    masked := false, skipna := false }
theorem poolArr_wf (f : ℕ → ℝ) : (poolArr f).arr.WF := fun e e' h => by
  have := h "x" (by simp [poolArr])
  simp [poolArr, this]

theorem poolP_wf : poolP.arr.WF := poolArr_wf _
theorem poolT_wf : poolT.arr.WF := poolArr_wf _

/-- The cell at `x`, `y`. -/
def poolCell (y x : ℕ) : Dim → ℕ := setLabel (setLabel (fun _ => 0) "y" y) "x" x

theorem poolCell_inj (y : ℕ) : Function.Injective (poolCell y) := fun m n h => by
  have := congrFun h "x"
  simpa [poolCell, setLabel] using this

open Classical in
noncomputable def poolCells (y : ℕ) : Finset (Dim → ℕ) := ({0, 1, 2, 3} : Finset ℕ).image (poolCell y)

/-- A statistic with these labels, finite, without mask. -/
structure PoolStat (s : StatVar ℕ (FV ℝ)) : Prop where
  dims : s.arr.dims = {"x", "y"}
  coords : s.arr.coords "x" = {0, 1, 2, 3}
  coords' : s.arr.coords "y" = {0, 1}
  mask : s.mask = none
  finite : ∀ e, (s.arr.val e).isFin = true

theorem pool_weight (s : StatVar ℕ (FV ℝ)) (x y : ℕ) : cellWeight poolAgg s (poolCell y x) = poolWeight x y := by
  simp [cellWeight, allFactors, poolAgg, poolCell, setLabel, FV.num]

theorem pool_sum (y : ℕ) (f : (Dim → ℕ) → ℝ) : ∑ e' ∈ poolCells y, f e' = f (poolCell y 0) + f (poolCell y 1) + f (poolCell y 2) + f (poolCell y 3) := by
  classical
  unfold poolCells
  rw [Finset.sum_image (fun _ _ _ _ h => poolCell_inj y h)]
  simp [add_assoc]

theorem pool_evaluated {s : StatVar ℕ (FV ℝ)} (h : PoolStat s) (l : ℕ) : Evaluated poolAgg s (setLabel (fun _ => 0) "y" l) (poolCells l) := by
  classical
  refine ⟨⟨by simp [poolAgg], by simp [poolAgg]⟩, ?_, by simp [h.mask], ?_, ?_, fun e' _ => h.finite e'⟩
  · intro m hm d hd _
    simp only [allFactors, poolAgg, List.map_cons, List.map_nil, List.append_nil, List.mem_singleton] at hm
    subst hm
    simp only [Finset.mem_insert, Finset.mem_singleton] at hd
    rcases hd with rfl | rfl
    · rw [h.coords]; simp
    · rw [h.coords']; simp
  · intro m hm e'
    simp only [allFactors, poolAgg, List.map_cons, List.map_nil, List.append_nil, List.mem_singleton] at hm
    subst hm
    rfl
  · intro e'
    have hr : poolAgg.reduceDims = ["x"] := rfl
    have hcount : counted poolAgg s e' = true := by simp [counted, poolAgg]
    rw [hr, hcount]
    simp only [List.mem_singleton, forall_eq, h.coords, poolCells, Finset.mem_image, and_true]
    constructor
    · rintro ⟨n, hn, rfl⟩
      exact ⟨by simpa [poolCell, setLabel] using hn, fun d hd => by simp [poolCell, setLabel, hd]⟩
    · rintro ⟨h1, h2⟩
      refine ⟨e' "x", h1, ?_⟩
      funext d
      by_cases hd : d = "x"
      · simp [poolCell, setLabel, hd]
      · rw [h2 d hd]; simp [poolCell, setLabel, hd]

theorem pool_good (s : StatVar ℕ (FV ℝ)) {l : ℕ} (hl : l ∈ ({0, 1} : Finset ℕ)) : GoodWeights poolAgg s (poolCells l) ∧ ∑ e' ∈ poolCells l, cellWeight poolAgg s e' = 9 := by
  classical
  have h9 : ∑ e' ∈ poolCells l, cellWeight poolAgg s e' = 9 := by
    rw [pool_sum]
    simp only [pool_weight]
    simp only [Finset.mem_insert, Finset.mem_singleton] at hl
    rcases hl with rfl | rfl <;> norm_num [poolWeight]
  refine ⟨⟨fun e' he' => ?_, by rw [h9]; norm_num⟩, h9⟩
  obtain ⟨n, -, rfl⟩ := Finset.mem_image.mp he'
  rw [pool_weight]
  unfold poolWeight
  split_ifs <;> norm_num

theorem pool_pooled {s : StatVar ℕ (FV ℝ)} (h : PoolStat s) : ∃ cs', Pooled poolAgg (poolAgg.alsoOver "y") s "y" {0, 1} (fun _ => 0) poolCells cs' := by
  have := C99_dimension (agg := poolAgg) (s := s) (d := "y") (e := fun _ => 0) (cs := poolCells) (by decide) (by rw [h.coords']; simp)
    (fun l _ => pool_evaluated h l) (fun l hl => (pool_good s (by rw [← h.coords']; exact hl)).1)
  rwa [h.coords'] at this

theorem pool_contingency (f : Bool → Bool → Bool) : PoolStat (contingency f poolP poolT) := by
  refine ⟨?_, ?_, ?_, ?_, fun e => ?_⟩
  · simp [contingency, StatVar.map, StatVar.zipWith, DA.map, DA.zipWith, poolP, poolT, poolArr]
  · simp [contingency, StatVar.map, StatVar.zipWith, DA.map, DA.zipWith, joinCoords, poolP, poolT, poolArr]
  · simp [contingency, StatVar.map, StatVar.zipWith, DA.map, DA.zipWith, joinCoords, poolP, poolT, poolArr]
  · simp [contingency, StatVar.map, StatVar.zipWith, combineMask, poolP, poolT, poolArr]
  · rw [contingency_val]
    have hn : (poolP.arr.val e * poolT.arr.val e).isnan = false := rfl
    rw [hn]
    simp only [Bool.false_eq_true, if_false]
    generalize f _ _ = c
    cases c <;> rfl

theorem pool_error : PoolStat (error poolP poolT) := by
  refine ⟨?_, ?_, ?_, ?_, fun e => rfl⟩
  · simp [error, StatVar.zipWith, DA.zipWith, poolP, poolT, poolArr]
  · simp [error, StatVar.zipWith, DA.zipWith, joinCoords, poolP, poolT, poolArr]
  · simp [error, StatVar.zipWith, DA.zipWith, joinCoords, poolP, poolT, poolArr]
  · simp [error, StatVar.zipWith, combineMask, poolP, poolT, poolArr]

theorem pool_squared : PoolStat (squaredError poolP poolT) := by
  refine ⟨?_, ?_, ?_, ?_, fun e => rfl⟩
  · simp [squaredError, error, StatVar.map, StatVar.zipWith, DA.map, DA.zipWith, poolP, poolT, poolArr]
  · simp [squaredError, error, StatVar.map, StatVar.zipWith, DA.map, DA.zipWith, joinCoords, poolP, poolT, poolArr]
  · simp [squaredError, error, StatVar.map, StatVar.zipWith, DA.map, DA.zipWith, joinCoords, poolP, poolT, poolArr]
  · simp [squaredError, error, StatVar.map, StatVar.zipWith, combineMask, poolP, poolT, poolArr]

theorem pool_case (pred targ : Bool) (y x : ℕ) : caseAt poolP poolT pred targ (poolCell y x) = if decide (x < 2) = pred ∧ decide (x = 0 ∨ x = 2) = targ then 1 else 0 := by
  unfold caseAt
  have h1 : (poolP.arr.val (poolCell y x)).toBool = decide (x < 2) := by
    by_cases h : x < 2 <;> simp [poolP, poolArr, poolCell, setLabel, FV.toBool, h] <;> omega
  have h2 : (poolT.arr.val (poolCell y x)).toBool = decide (x = 0 ∨ x = 2) := by
    by_cases h : x = 0 ∨ x = 2 <;> simp [poolT, poolArr, poolCell, setLabel, FV.toBool, h]
  rw [h1, h2]

theorem pool_share (pred targ : Bool) {y : ℕ} (hy : y ∈ ({0, 1} : Finset ℕ)) : share poolAgg poolP poolT (poolCells y) pred targ =
    poolWeight (if pred then (if targ then 0 else 1) else if targ then 2 else 3) y / 9 := by
  rw [share_eq_wmean, wmean, (pool_good _ hy).2, pool_sum]
  simp only [pool_weight, pool_case]
  cases pred <;> cases targ <;> simp

theorem pool_share_whole {cs'} (P : Pooled poolAgg (poolAgg.alsoOver "y") (truePositives poolP poolT) "y" {0, 1} (fun _ => 0) poolCells cs') (pred targ : Bool) :
    share (poolAgg.alsoOver "y") poolP poolT cs' pred targ = if pred = targ then 5 / 18 else 4 / 18 := by
  have h0 := pool_share pred targ (y := 0) (by simp)
  have h1 := pool_share pred targ (y := 1) (by simp)
  rw [share_eq_wmean] at h0 h1
  rw [share_eq_wmean, P.wmean (ofCells_case poolP_wf poolT_wf pred targ), Finset.sum_pair (by decide), Finset.sum_pair (by decide), (pool_good _ (by simp)).2, (pool_good _ (by simp)).2, h0, h1]
  cases pred <;> cases targ <;> norm_num [poolWeight]

theorem pool_exists (A : Aggregator ℕ (FV ℝ)) (hA : A = poolAgg ∨ A = poolAgg.alsoOver "y") {s : StatVar ℕ (FV ℝ)} (hs : PoolStat s) : ∃ q, A.aggregateStatVar s = .ok (some q) := by
  refine exists_aggregate A ?_ s ?_
  · rcases hA with rfl | rfl <;> rfl
  · rcases hA with rfl | rfl <;> intro d hd <;> rw [hs.dims] <;> simp [poolAgg, alsoOver] at hd ⊢ <;> tauto

theorem pool_values (A : Aggregator ℕ (FV ℝ)) (hA : A = poolAgg ∨ A = poolAgg.alsoOver "y") : (∃ x, ValueOf hss A [("z", poolP)] [("z", poolT)] "z" x) ∧
    (∃ x, ValueOf ets A [("z", poolP)] [("z", poolT)] "z" x) ∧ ∃ x, ValueOf csi A [("z", poolP)] [("z", poolT)] "z" x := by
  obtain ⟨q1, h1⟩ := pool_exists A hA (pool_contingency (fun p t => p && t))
  obtain ⟨q2, h2⟩ := pool_exists A hA (pool_contingency (fun p t => p && !t))
  obtain ⟨q3, h3⟩ := pool_exists A hA (pool_contingency (fun p t => !p && t))
  obtain ⟨q4, h4⟩ := pool_exists A hA (pool_contingency (fun p t => !p && !t))
  have m1 := oneMean_statOf "TruePositives" truePositives A "z" poolP poolT h1
  have m2 := oneMean_statOf "FalsePositives" falsePositives A "z" poolP poolT h2
  have m3 := oneMean_statOf "FalseNegatives" falseNegatives A "z" poolP poolT h3
  have m4 := oneMean_statOf "TrueNegatives" trueNegatives A "z" poolP poolT h4
  exact ⟨⟨_, exists_metric4 (by simp) (by simp) (by simp) (by simp) (by simp) (by simp) m1 m2 m3 m4⟩,
    ⟨_, exists_metric4 (by simp) (by simp) (by simp) (by simp) (by simp) (by simp) m1 m2 m3 m4⟩, ⟨_, exists_metric3 (by simp) (by simp) (by simp) m1 m2 m3⟩⟩

/-- The hypotheses of the theorems are met: the CSI of the whole is between those of the parts. -/
example : ∃ x x', ValueOf csi poolAgg [("z", poolP)] [("z", poolT)] "z" x ∧ ValueOf csi (poolAgg.alsoOver "y") [("z", poolP)] [("z", poolT)] "z" x' ∧ Between x x' "y" {0, 1} (fun _ => 0) := by
  obtain ⟨-, -, x, hx⟩ := pool_values poolAgg (.inl rfl)
  obtain ⟨-, -, x', hx'⟩ := pool_values _ (.inr rfl)
  obtain ⟨cs', P⟩ := pool_pooled (pool_contingency (fun p t => p && t))
  rw [show contingency (fun p t => p && t) poolP poolT = truePositives poolP poolT from rfl] at P
  refine ⟨x, x', hx, hx', C99_csi (by simp) (by simp) (by simp) (by simp) poolP_wf poolT_wf P (fun l hl => ?_) hx hx'⟩
  rw [pool_share _ _ hl, pool_share _ _ hl, pool_share _ _ hl]
  simp only [Finset.mem_insert, Finset.mem_singleton] at hl
  rcases hl with rfl | rfl <;> norm_num [poolWeight]

/-- The same for the RMSE. -/
example : ∃ x x', ValueOf rmse poolAgg [("z", poolP)] [("z", poolT)] "z" x ∧ ValueOf rmse (poolAgg.alsoOver "y") [("z", poolP)] [("z", poolT)] "z" x' ∧ Between x x' "y" {0, 1} (fun _ => 0) := by
  obtain ⟨q, hq⟩ := pool_exists poolAgg (.inl rfl) (s := squaredError poolP poolT) pool_squared
  obtain ⟨q', hq'⟩ := pool_exists _ (.inr rfl) (s := squaredError poolP poolT) pool_squared
  have hx := exists_rmse poolAgg "z" poolP poolT hq
  have hx' := exists_rmse (poolAgg.alsoOver "y") "z" poolP poolT hq'
  obtain ⟨cs', P⟩ := pool_pooled pool_error
  exact ⟨_, _, hx, hx', C99_rmse (by simp) (by simp) (by simp) (by simp) poolP_wf poolT_wf P hx hx'⟩

/-- Bins of the even and the odd labels of `x`. -/
noncomputable def poolParity : BinBy ℕ (FV ℝ) :=
  ⟨"bin", fun _ => { dims := {"x", "bin"}, coords := fun d => if d = "x" then {0, 1, 2, 3} else {0, 1}, val := fun e => .fin (if e "x" % 2 = e "bin" then 1 else 0) }⟩

/-- The hypotheses of the theorem on bins are met. -/
example : ∃ cs, Pooled { poolAgg with binBy := [poolParity] } poolAgg (error poolP poolT) "bin" {0, 1} (fun _ => 0) cs (poolCells 0) := by
  classical
  have E : Evaluated poolAgg (error poolP poolT) (fun _ => 0) (poolCells 0) := by
    have := pool_evaluated pool_error 0
    rwa [show setLabel (fun _ : Dim => (0 : ℕ)) "y" 0 = fun _ => 0 from by funext d; simp [setLabel]] at this
  refine ⟨_, C99_bins (agg := { poolAgg with binBy := [poolParity] }) (pre := []) (post := []) (b := poolParity) rfl (by decide) ?_ ?_ ?_ ?_ ?_ ?_ ?_ E (pool_good _ (by simp)).1 ?_ ?_⟩
  · rw [pool_error.dims]; decide
  · intro e e' h
    have := h "x" (by rw [pool_error.dims]; simp)
    show poolP.arr.val e - poolT.arr.val e = poolP.arr.val e' - poolT.arr.val e'
    simp [poolP, poolT, poolArr, this]
  · intro m hm
    rw [pool_error.mask] at hm
    simp at hm
  · exact ⟨by simp [poolAgg], by simp [poolParity]⟩
  · intro d hd hd'
    simp only [poolParity, Finset.mem_insert, Finset.mem_singleton] at hd
    rcases hd with rfl | rfl
    · rw [pool_error.coords]; simp [poolParity]
    · rw [pool_error.dims] at hd'; simp at hd'
  · intro e'; rfl
  · intro m hm
    simp only [allFactors, poolAgg, List.map_cons, List.map_nil, List.append_nil, List.mem_singleton] at hm
    subst hm
    refine ⟨fun e e' h => ?_, by simp [poolParity]⟩
    have h1 := h "x" (by simp)
    have h2 := h "y" (by simp)
    simp [h1, h2]
  · intro e' _
    have hc : (poolParity.createBinMask (error poolP poolT).arr).coords poolParity.binDim = {0, 1} := by simp [poolParity]
    rw [hc, Finset.sum_pair (by decide)]
    rcases Nat.mod_two_eq_zero_or_one (e' "x") with h | h <;> simp [poolParity, setLabel, h, FV.num]
  · intro l hl
    have hc : (poolParity.createBinMask (error poolP poolT).arr).coords poolParity.binDim = {0, 1} := by simp [poolParity]
    rw [hc] at hl
    have hw : ∀ x : ℕ, cellWeight { poolAgg with binBy := [poolParity] } (error poolP poolT) (setLabel (poolCell 0 x) "bin" l) = poolWeight x 0 * (if x % 2 = l then 1 else 0) := fun x => by
      simp [cellWeight, allFactors, poolAgg, poolCell, setLabel, FV.num, poolParity]
    have h0 : ∀ x, 0 ≤ poolWeight x 0 * (if x % 2 = l then 1 else 0) := fun x => by
      refine mul_nonneg ?_ ?_
      · unfold poolWeight; split_ifs <;> norm_num
      · split_ifs <;> norm_num
    constructor
    · intro e'' he''
      obtain ⟨e', he', rfl⟩ := Finset.mem_image.mp he''
      obtain ⟨x, -, rfl⟩ := Finset.mem_image.mp he'
      exact (hw x).symm ▸ h0 x
    · have hmem : setLabel (poolCell 0 l) "bin" l ∈ (poolCells 0).image (fun e' => setLabel e' poolParity.binDim l) := by
        refine Finset.mem_image.mpr ⟨poolCell 0 l, Finset.mem_image.mpr ⟨l, ?_, rfl⟩, rfl⟩
        simp only [Finset.mem_insert, Finset.mem_singleton] at hl ⊢
        tauto
      refine lt_of_lt_of_le ?_ (Finset.single_le_sum (f := fun e' => cellWeight { poolAgg with binBy := [poolParity] } (error poolP poolT) e') (fun e'' he'' => ?_) hmem)
      · show 0 < cellWeight _ _ _
        rw [hw]
        simp only [Finset.mem_insert, Finset.mem_singleton] at hl
        rcases hl with rfl | rfl <;> norm_num [poolWeight]
      · obtain ⟨e', he', rfl⟩ := Finset.mem_image.mp he''
        obtain ⟨x, -, rfl⟩ := Finset.mem_image.mp he'
        exact (hw x).symm ▸ h0 x

/-- **C99** (finding) The Heidke and Gilbert (equitable threat) skill scores are not like this: they can be 0 (no skill) in every part and positive for the whole, because the pooled climatology
makes part of the difference between the parts look like skill. -/
theorem C99_skill_appears : ∃ x1 x1' x2 x2', ValueOf hss poolAgg [("z", poolP)] [("z", poolT)] "z" x1 ∧ ValueOf hss (poolAgg.alsoOver "y") [("z", poolP)] [("z", poolT)] "z" x1' ∧
    ValueOf ets poolAgg [("z", poolP)] [("z", poolT)] "z" x2 ∧ ValueOf ets (poolAgg.alsoOver "y") [("z", poolP)] [("z", poolT)] "z" x2' ∧
    (∀ l ∈ ({0, 1} : Finset ℕ), x1.val (setLabel (fun _ => 0) "y" l) = .fin 0 ∧ x2.val (setLabel (fun _ => 0) "y" l) = .fin 0) ∧
    x1'.val (fun _ => 0) = .fin (1 / 9) ∧ x2'.val (fun _ => 0) = .fin (1 / 17) := by
  obtain ⟨⟨x1, h1⟩, ⟨x2, h2⟩, -⟩ := pool_values poolAgg (.inl rfl)
  obtain ⟨⟨x1', h1'⟩, ⟨x2', h2'⟩, -⟩ := pool_values _ (.inr rfl)
  obtain ⟨cs', P⟩ := pool_pooled (pool_contingency (fun p t => p && t))
  rw [show contingency (fun p t => p && t) poolP poolT = truePositives poolP poolT from rfl] at P
  refine ⟨x1, x1', x2, x2', h1, h1', h2, h2', fun l hl => ⟨?_, ?_⟩, ?_, ?_⟩
  · rw [C27_hss_value (by simp) (by simp) (by simp) (by simp) (P.parts l hl) (P.weights l hl) h1]
    simp only [pool_share _ _ hl]
    simp only [Finset.mem_insert, Finset.mem_singleton] at hl
    rw [FV.fin_div_fin_of_ne]
    · congr 1; rcases hl with rfl | rfl <;> norm_num [poolWeight]
    · rcases hl with rfl | rfl <;> norm_num [poolWeight]
  · rw [C27_ets_value (by simp) (by simp) (by simp) (by simp) (P.parts l hl) (P.weights l hl) h2]
    simp only [pool_share _ _ hl]
    simp only [Finset.mem_insert, Finset.mem_singleton] at hl
    rw [FV.fin_div_fin_of_ne]
    · congr 1; rcases hl with rfl | rfl <;> norm_num [poolWeight]
    · rcases hl with rfl | rfl <;> norm_num [poolWeight]
  · rw [C27_hss_value (by simp) (by simp) (by simp) (by simp) P.whole P.weight h1']
    have := pool_share_whole P
    simp only [this]
    rw [FV.fin_div_fin_of_ne]
    · congr 1; norm_num
    · norm_num
  · rw [C27_ets_value (by simp) (by simp) (by simp) (by simp) P.whole P.weight h2']
    have := pool_share_whole P
    simp only [this]
    rw [FV.fin_div_fin_of_ne]
    · congr 1; norm_num
    · norm_num

end WBX
