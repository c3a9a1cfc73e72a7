import Verif.Spec.WeightUnits
import Verif.Lemmas.Roles
import Verif.Lemmas.Units
import Verif.Props.Weighting
import Verif.Props.UnitsMore
import Verif.Model.ExampleEvaluation

/-!
# C95: weights matter only up to a factor
-/

set_option linter.unusedSectionVars false

namespace WBX
open DA Aggregator

section core
variable {L K : Type} [DecidableEq L] [Field K] [LinearOrder K] [IsStrictOrderedRing K]

/-- Every cell multiplied by its own factor. -/
def DA.scaleBy (g : (Dim → L) → K) (x : DA L (FV K)) : DA L (FV K) := { dims := x.dims, coords := x.coords, val := fun e => FV.times (g e) (x.val e) }

theorem scaleBy_mul {g : (Dim → L) → K} (hg : ∀ e, 0 < g e) (x b : DA L (FV K)) : zipWith (· * ·) (x.scaleBy g) b = (zipWith (· * ·) x b).scaleBy g := by
  unfold DA.scaleBy zipWith
  congr 1
  funext e
  exact FV.times_mul (hg e).ne' _ _

theorem scaleBy_foldl {g : (Dim → L) → K} (hg : ∀ e, 0 < g e) (bs : List (DA L (FV K))) : ∀ x : DA L (FV K), bs.foldl (zipWith (· * ·)) (x.scaleBy g) = (bs.foldl (zipWith (· * ·)) x).scaleBy g := by
  induction bs with
  | nil => exact fun x => rfl
  | cons b bs ih =>
    intro x
    rw [List.foldl_cons, scaleBy_mul hg, ih, List.foldl_cons]

theorem scaleBy_sumDims {g : (Dim → L) → K} (hg : ∀ e, 0 < g e) : ∀ (ds : List Dim) (x : DA L (FV K)), (∀ e, ∀ d ∈ ds, ∀ l, g (setLabel e d l) = g e) →
    sumDims ds (x.scaleBy g) = (sumDims ds x).scaleBy g
  | [], _, _ => rfl
  | d :: ds, x, h => by
    unfold sumDims
    have : sumDim d (x.scaleBy g) = (sumDim d x).scaleBy g := by
      unfold sumDim DA.scaleBy
      congr 1
      funext e
      rw [← FV.times_sum (hg e).ne']
      refine Finset.sum_congr rfl (fun l _ => ?_)
      show FV.times (g (setLabel e d l)) _ = _
      rw [h e d (by simp) l]
    rw [this]
    exact scaleBy_sumDims hg ds _ (fun e d' hd' l => h e d' (by simp [hd']) l)

theorem scaleBy_congr {g : (Dim → L) → K} {x y : DA L (FV K)} (h : x.Same y) : (x.scaleBy g).Same (y.scaleBy g) :=
  ⟨h.dims, h.coords, fun e he => congrArg (FV.times (g e)) (h.val e he)⟩

theorem FV.times_ratio' {k : K} (h0 : 0 < k) (a b : FV K) : FV.times k a / FV.times k b = a / b := by
  have hk := h0.ne'
  have hn : ¬ k < 0 := not_lt.mpr h0.le
  rcases b with _ | b | b
  · rw [FV.times_nan, FV.div_nan, FV.div_nan]
  · rw [FV.times_inf hk]
    rcases a with _ | a | a
    · rfl
    · rw [FV.times_inf hk]; rfl
    · rfl
  · rw [FV.times_fin]
    rcases a with _ | a | a
    · rfl
    · rw [FV.times_inf hk]
      show (if k * b = 0 then _ else _) = (if b = 0 then _ else _)
      by_cases hb : b = 0
      · simp [hb, hn]
      · rw [if_neg hb, if_neg (mul_ne_zero hk hb), FV.sign_mul hk hb]; simp [hn]
    · rw [FV.times_fin, FV.fin_div_fin, FV.fin_div_fin]
      by_cases hb : b = 0
      · by_cases ha : a = 0
        · simp [hb, ha]
        · simp only [hb, mul_zero, if_true, if_neg ha, if_neg (mul_ne_zero hk ha), FV.sign_mul hk ha]; simp [hn]
      · rw [if_neg hb, if_neg (mul_ne_zero hk hb)]
        congr 1
        field_simp

theorem scaleBy_ratio {g : (Dim → L) → K} (hg : ∀ e, 0 < g e) (x y : DA L (FV K)) : zipWith (· / ·) (x.scaleBy g) (y.scaleBy g) = zipWith (· / ·) x y := by
  unfold DA.scaleBy zipWith
  congr 1
  funext e
  exact FV.times_ratio' (hg e) _ _

/-- Two aggregations that differ in their weights only, the total weight of a cell being multiplied by a factor that is the same for all cells that are averaged. -/
structure Reweighted (agg agg' : Aggregator L (FV K)) (g : Finset Dim → (Dim → L) → K) : Prop where
  dims : agg'.reduceDims = agg.reduceDims
  bins : agg'.binBy = agg.binBy
  masked : agg'.masked = agg.masked
  skipna : agg'.skipna = agg.skipna
  positive : ∀ D e, 0 < g D e
  constant : ∀ D e, ∀ d ∈ agg.reduceDims, ∀ l, g D (setLabel e d l) = g D e
  weights : ∀ a : DA L (FV K), (∀ d ∈ agg.reduceDims, d ∈ a.dims) →
    ((agg'.weighBy.map (fun w => w a)).foldl (zipWith (· * ·)) a).Same (((agg.weighBy.map (fun w => w a)).foldl (zipWith (· * ·)) a).scaleBy (g a.dims))

variable {agg agg' : Aggregator L (FV K)} {g : Finset Dim → (Dim → L) → K}

theorem aggregationFn_rescaled (h : Reweighted agg agg' g) (a : DA L (FV K)) :
    SameOutcome (Option.Rel (fun x y => x.Same (y.scaleBy (g a.dims)))) (agg'.aggregationFn a) (agg.aggregationFn a) := by
  unfold aggregationFn
  rw [h.dims, h.bins]
  by_cases hd : agg.reduceDims.all (fun d => decide (d ∈ a.dims)) = true
  · rw [if_neg (not_not.mpr hd), if_neg (not_not.mpr hd)]
    have hall : ∀ d ∈ agg.reduceDims, d ∈ a.dims := fun d h' => by simpa using List.all_eq_true.mp hd d h'
    dsimp only
    by_cases hn : (agg.binBy.map (·.binDim)).dedup.length ≠ agg.binBy.length
    · rw [if_pos hn, if_pos hn]; exact .fails _ _
    · rw [if_neg hn, if_neg hn]
      cases binMasks a agg.binBy with
      | none => exact .gives .none
      | some ms =>
        refine .gives (.some ?_)
        unfold DA.dot
        rw [← scaleBy_sumDims (h.positive a.dims) _ _ (fun e d hd l => h.constant a.dims e d (List.mem_dedup.mp hd) l)]
        refine sumDims_congr ?_ (List.nodup_dedup _) ?_
        · rw [List.foldl_append, List.foldl_append, ← scaleBy_foldl (h.positive a.dims)]
          exact forall₂_foldl (List.forall₂_same.mpr (fun _ _ => .refl _)) (h.weights a hall)
        · intro d hd'
          rw [mem_foldl_zipWith_dims]
          exact .inl (hall d (List.mem_dedup.mp hd'))
  · rw [if_pos hd, if_pos hd]
    exact .gives .none

theorem applyMask_dims (agg : Aggregator L (FV K)) (s : StatVar L (FV K)) : (agg.applyMask s).1.dims = (agg.applyMask s).2.dims := by
  have plain : (if agg.skipna then
        (s.arr.where_ (s.arr.map (fun v => !IsNull.isnull v)) 0, (s.arr.map (fun v => !IsNull.isnull v)).map boolToV)
      else (s.arr, s.arr.map (fun _ => (1 : FV K)))).1.dims = (if agg.skipna then
        (s.arr.where_ (s.arr.map (fun v => !IsNull.isnull v)) 0, (s.arr.map (fun v => !IsNull.isnull v)).map boolToV)
      else (s.arr, s.arr.map (fun _ => (1 : FV K)))).2.dims := by
    split_ifs
    · show s.arr.dims ∪ s.arr.dims = s.arr.dims
      exact Finset.union_self _
    · rfl
  unfold applyMask
  cases agg.masked with
  | false => exact plain
  | true =>
    cases s.mask with
    | none => exact plain
    | some m =>
      dsimp only
      have h : ∀ m' : DA L Bool, (s.arr.where_ m' (0 : FV K)).dims = ((m'.broadcastLike (s.arr.where_ m' (0 : FV K))).map (boolToV (V := FV K))).dims := by
        intro m'
        show s.arr.dims ∪ m'.dims = m'.dims ∪ (s.arr.dims ∪ m'.dims)
        ext d
        simp only [Finset.mem_union]
        tauto
      exact h _

/-- The mean of an aggregated pair. -/
theorem aggregateStatVar_rescaled (h : Reweighted agg agg' g) (s : StatVar L (FV K)) :
    SameOutcome (Option.Rel (fun x y => (DA.zipWith (· / ·) x.1 x.2).Same (DA.zipWith (· / ·) y.1 y.2))) (agg'.aggregateStatVar s) (agg.aggregateStatVar s) := by
  have hm : agg'.applyMask s = agg.applyMask s := by
    unfold applyMask
    rw [h.masked, h.skipna]
  unfold aggregateStatVar
  rw [hm]
  have hd := applyMask_dims agg s
  refine SameOutcome.bind (aggregationFn_rescaled h (agg.applyMask s).1) (fun x y hxy => SameOutcome.bind (aggregationFn_rescaled h (agg.applyMask s).2) (fun x' y' hxy' => ?_))
  rw [← hd] at hxy'
  cases hxy with
  | none => exact .gives .none
  | some hxy => cases hxy' with
    | none => exact .gives .none
    | some hxy' =>
      refine .gives (Option.Rel.some ?_)
      have := zipWith_congr (f := fun x y : FV K => x / y) hxy hxy'
      rw [scaleBy_ratio (h.positive _)] at this
      exact this

theorem perVar_rescaled (h : Reweighted agg agg' g) : ∀ xs : Vars (Option (StatVar L (FV K))),
    SameOutcome (List.Forall₂ (fun x y => x.1 = y.1 ∧ (DA.zipWith (· / ·) x.2.1 x.2.2).Same (DA.zipWith (· / ·) y.2.1 y.2.2))) (agg'.perVar xs) (agg.perVar xs)
  | [] => .gives .nil
  | (k, none) :: xs => perVar_rescaled h xs
  | (k, some s) :: xs => by
    unfold perVar
    refine SameOutcome.bind (aggregateStatVar_rescaled h s) (fun x y hxy => SameOutcome.bind (perVar_rescaled h xs) (fun r r' hr => ?_))
    cases hxy with
    | none => exact .gives hr
    | some hxy => exact .gives (.cons ⟨rfl, hxy⟩ hr)

theorem meanVars_rescaled (h : Reweighted agg agg' g) (xs : Vars (Option (StatVar L (FV K)))) : SameOutcome VarsSame (meanVars agg' xs) (meanVars agg xs) := by
  unfold meanVars
  refine SameOutcome.bind (perVar_rescaled h xs) (fun x y hxy => .gives (fun v => item_forall₂ ?_))
  rw [List.forall₂_map_left_iff, List.forall₂_map_right_iff]
  exact hxy

theorem metricAlone_rescaled (h : Reweighted agg agg' g) {m : FMetric L K} (hm : m.Extensional) (p t : Vars (StatVar L (FV K))) :
    SameValues (metricAlone m agg' p t) (metricAlone m agg p t) := by
  have key : ∀ l : List (String × FStatistic L K), SameOutcome (List.Forall₂ (fun a b => a.1 = b.1 ∧ VarsSame a.2 b.2))
      (l.mapM (fun ks => do
        let v ← ks.2.compute p t
        let mean ← meanVars agg' v
        return (ks.1, mean)))
      (l.mapM (fun ks => do
        let v ← ks.2.compute p t
        let mean ← meanVars agg v
        return (ks.1, mean))) := by
    intro l
    induction l with
    | nil => exact .gives .nil
    | cons ks l ih =>
      rw [List.mapM_cons, List.mapM_cons]
      refine SameOutcome.bind (r := fun a b => a.1 = b.1 ∧ VarsSame a.2 b.2) ?_ ?_
      · refine SameOutcome.bind (r := Eq) (SameOutcome.refl (fun _ => rfl) (ks.2.compute p t)) (fun v v' hv => ?_)
        subst hv
        refine SameOutcome.bind (meanVars_rescaled h v) (fun x y hxy => ?_)
        exact .gives (r := fun a b : String × Vars (DA L (FV K)) => a.1 = b.1 ∧ VarsSame a.2 b.2) ⟨rfl, hxy⟩
      · intro a b hab
        exact SameOutcome.bind ih (fun as bs h => .gives (.cons hab h))
  exact SameOutcome.bind (key m.statistics) (fun x y hxy => hm.same x y (fun s => item_forall₂ hxy))

/-! ### Weights in other units -/

theorem product_units {a : DA L (FV K)} : ∀ {ws ws' : List (DA L (FV K) → DA L (FV K))}, List.Forall₂ OtherUnit ws ws' → ∃ c : Finset Dim → K, (∀ D, 0 < c D) ∧
    ∀ (a x x' : DA L (FV K)) (k : Finset Dim → K), (∀ D, 0 < k D) → x'.Same (x.scaleBy (fun _ => k a.dims)) →
      ((ws'.map (fun w => w a)).foldl (zipWith (· * ·)) x').Same (((ws.map (fun w => w a)).foldl (zipWith (· * ·)) x).scaleBy (fun _ => k a.dims * c a.dims))
  | _, _, .nil => ⟨fun _ => 1, fun _ => one_pos, fun a x x' k hk h => by simpa using h⟩
  | _, _, .cons (a := w) (b := w') (l₁ := ws) (l₂ := ws') ⟨c, hc, hw⟩ hs => by
    obtain ⟨c', hc', ih⟩ := product_units (a := a) hs
    refine ⟨fun D => c D * c' D, fun D => mul_pos (hc D) (hc' D), fun a x x' k hk h => ?_⟩
    rw [List.map_cons, List.map_cons, List.foldl_cons, List.foldl_cons]
    have := ih a (zipWith (· * ·) x (w a)) (zipWith (· * ·) x' (w' a)) (fun D => k D * c D) (fun D => mul_pos (hk D) (hc D)) (by
      refine (zipWith_congr h (hw a)).trans ?_
      refine ⟨rfl, fun _ _ => rfl, fun e _ => ?_⟩
      show FV.times (k a.dims) (x.val e) * FV.times (c a.dims) ((w a).val e) = FV.times (k a.dims * c a.dims) (x.val e * (w a).val e)
      rw [FV.times_mul (hk _).ne', FV.mul_comm' (x.val e), FV.times_mul (hc _).ne', FV.times_times (hk _).ne', FV.mul_comm' (x.val e)])
    simpa only [mul_assoc] using this

theorem FV.times_one'' (x : FV K) : FV.times 1 x = x := by
  rcases x with _ | s | x
  · rfl
  · rw [FV.times_inf one_ne_zero, decide_eq_false (not_lt.mpr zero_le_one)]; cases s <;> rfl
  · rw [FV.times_fin, one_mul]

/-- **C95** The unit of the weights does not matter: if every weighting is replaced by itself times a positive factor, all metrics keep their values. -/
theorem C95_units {ws : List (DA L (FV K) → DA L (FV K))} (h : List.Forall₂ OtherUnit agg.weighBy ws) {m : FMetric L K} (hm : m.Extensional) (p t : Vars (StatVar L (FV K))) :
    SameValues (metricAlone m { agg with weighBy := ws } p t) (metricAlone m agg p t) := by
  obtain ⟨c, hc, hp⟩ := product_units (a := DA.scalar 0) h
  refine metricAlone_rescaled (agg := agg) (agg' := { agg with weighBy := ws }) (g := fun D _ => c D) ⟨rfl, rfl, rfl, rfl, fun D _ => hc D, fun _ _ _ _ _ => rfl, fun a _ => ?_⟩ hm p t
  have := hp a a a (fun _ => 1) (fun _ => one_pos) ⟨rfl, fun _ _ => rfl, fun e _ => (FV.times_one'' _).symm⟩
  simpa only [one_mul] using this

/-- **C95** A further weighting that is the same for all cells that are averaged (a constant, or weights along dimensions that are kept) changes nothing. -/
theorem C95_even {u : DA L (FV K) → DA L (FV K)} (h : EvenOver agg.reduceDims u) {m : FMetric L K} (hm : m.Extensional) (p t : Vars (StatVar L (FV K))) :
    SameValues (metricAlone m { agg with weighBy := agg.weighBy ++ [u] } p t) (metricAlone m agg p t) := by
  obtain ⟨h, hc, hu⟩ := h
  refine metricAlone_rescaled (agg := agg) (agg' := { agg with weighBy := agg.weighBy ++ [u] }) (g := fun D e => if 0 < h D e then h D e else 1) ⟨rfl, rfl, rfl, rfl, fun D e => ?_, fun D e d hd l => ?_, fun a ha => ?_⟩ hm p t
  · show 0 < (if 0 < h D e then h D e else 1)
    split_ifs with hh
    · exact hh
    · exact one_pos
  · rw [hc D e d hd l]
  · obtain ⟨u1, u2, u3⟩ := hu a ha
    rw [List.map_append, List.foldl_append]
    show (zipWith (· * ·) _ (u a)).Same _
    have hsub : ∀ d ∈ a.dims, d ∈ ((agg.weighBy.map (fun w => w a)).foldl (zipWith (· * ·)) a).dims := fun d hd => by rw [mem_foldl_zipWith_dims]; exact .inl hd
    have hcoord : ∀ (bs : List (DA L (FV K))) (x : DA L (FV K)), ∀ d ∈ x.dims, (bs.foldl (zipWith (· * ·)) x).coords d ⊆ x.coords d := by
      intro bs
      induction bs with
      | nil => exact fun x d _ => Finset.Subset.refl _
      | cons b bs ih =>
        intro x d hd
        rw [List.foldl_cons]
        refine (ih (zipWith (· * ·) x b) d (Finset.mem_union_left _ hd)).trans ?_
        show joinCoords x b d ⊆ x.coords d
        unfold joinCoords
        rw [if_pos hd]
        split_ifs
        · exact Finset.inter_subset_left
        · exact Finset.Subset.refl _
    have hcs := hcoord (agg.weighBy.map (fun w => w a)) a
    generalize (agg.weighBy.map (fun w => w a)).foldl (zipWith (· * ·)) a = X at hsub hcs ⊢
    refine ⟨?_, ?_, ?_⟩
    · show X.dims ∪ (u a).dims = X.dims
      exact Finset.union_eq_left.mpr (fun d hd => hsub d (u1 hd))
    · intro d hd
      show joinCoords X (u a) d = X.coords d
      have hX : d ∈ X.dims := by
        rcases Finset.mem_union.mp hd with hd | hd
        · exact hd
        · exact hsub d (u1 hd)
      unfold joinCoords
      rw [if_pos hX]
      split_ifs with hd'
      · exact Finset.inter_eq_left.mpr ((hcs d (u1 hd')).trans (u2 d hd'))
      · rfl
    · intro e he
      have hin : a.InDom e := by
        intro d hd
        have h1 := he d (Finset.mem_union_left _ (hsub d hd))
        have h2 : joinCoords X (u a) d ⊆ X.coords d := by
          unfold joinCoords
          rw [if_pos (hsub d hd)]
          split_ifs
          · exact Finset.inter_subset_left
          · exact Finset.Subset.refl _
        exact hcs d hd (h2 h1)
      obtain ⟨h0, hv⟩ := u3 e hin
      show X.val e * (u a).val e = FV.times (if 0 < h a.dims e then h a.dims e else 1) (X.val e)
      rw [if_pos h0, hv, FV.mul_comm']
      rfl

/-- **C95** In particular, a constant weight is no weight. -/
theorem C95_constant {c : K} (hc : 0 < c) (h0 : agg.weighBy = []) {m : FMetric L K} (hm : m.Extensional) (p t : Vars (StatVar L (FV K))) :
    SameValues (metricAlone m { agg with weighBy := [fun _ => DA.scalar (.fin c)] } p t) (metricAlone m agg p t) := by
  have h := C95_even (agg := agg) (u := fun _ => DA.scalar (.fin c)) ⟨fun _ _ => c, fun _ _ _ _ _ => rfl, fun a _ => ⟨by simp [DA.scalar], by simp [DA.scalar], fun e _ => ⟨hc, rfl⟩⟩⟩ hm p t
  rw [h0] at h
  exact h

end core

/-! ### Area weights -/

section area
variable {L : Type} [DecidableEq L]

/-- `GridAreaWeighting(return_normalized=...)` (weighting.py:91-129) as a weighting of the aggregator; where the computation of the weights raises, so does the aggregation (not used: the theorem is for good latitudes). -/
noncomputable def areaWeighting (latitudeName : Dim) (normalized : Bool) (order : List L) (degrees : L → ℝ) (stat : DA L (FV ℝ)) : DA L (FV ℝ) :=
  match gridAreaWeights latitudeName normalized order degrees stat with
  | .ok w => w.map FV.fin
  | .error _ => DA.scalar FV.nan

theorem lookupLabel_map (c : ℝ) (l : L) : ∀ (labels : List L) (w : List ℝ), lookupLabel labels (w.map (fun x => c * x)) l = c * lookupLabel labels w l
  | [], w => by simp [lookupLabel]
  | a :: labels, [] => by simp [lookupLabel]
  | a :: labels, x :: w => by
    have ih := lookupLabel_map c l labels w
    unfold lookupLabel at ih ⊢
    rw [List.map_cons, List.zip_cons_cons, List.zip_cons_cons, List.find?_cons, List.find?_cons]
    by_cases h : a = l
    · simp [h]
    · simp only [h, decide_false]
      exact ih

/-- **C95** Normalised area weights give the same metrics as the areas themselves. -/
theorem C95_area {agg : Aggregator L (FV ℝ)} {latitudeName : Dim} {order : List L} {degrees : L → ℝ} (hlat : GoodLatitudes (order.map degrees)) {m : FMetric L ℝ} (hm : m.Extensional)
    (hw : agg.weighBy = [areaWeighting latitudeName false order degrees]) (p t : Vars (StatVar L (FV ℝ))) :
    SameValues (metricAlone m { agg with weighBy := [areaWeighting latitudeName true order degrees] } p t) (metricAlone m agg p t) := by
  refine C95_units ?_ hm p t
  rw [hw]
  refine .cons ?_ .nil
  obtain ⟨w, h1, hlen, hpos⟩ := C45_positive hlat false
  have h2 : latitudeWeights true (order.map degrees) = .ok (normalizeMean w) := by rw [normalized_eq, h1]; rfl
  have hne : w ≠ [] := by
    obtain ⟨w', hw', hmean⟩ := C45_mean_one hlat
    rw [h2] at hw'
    cases hw'
    intro h0
    subst h0
    simp [normalizeMean] at hmean
  have hs : 0 < w.sum := List.sum_pos _ hpos hne
  have hl : (0 : ℝ) < w.length := by exact_mod_cast List.length_pos_iff.mpr hne
  have hc : 0 < (w.sum / w.length)⁻¹ := inv_pos.mpr (div_pos hs hl)
  refine ⟨fun D => if latitudeName ∈ D then (w.sum / w.length)⁻¹ else 1, fun D => ?_, fun a => ?_⟩
  · dsimp only; split_ifs
    · exact hc
    · exact one_pos
  · unfold areaWeighting gridAreaWeights
    dsimp only
    by_cases hd : latitudeName ∈ a.dims
    · rw [if_neg (not_not.mpr hd), if_neg (not_not.mpr hd), h1, h2, if_pos hd]
      refine ⟨rfl, fun _ _ => rfl, fun e _ => ?_⟩
      show FV.fin (lookupLabel order (normalizeMean w) (e latitudeName)) = FV.times _ (FV.fin (lookupLabel order w (e latitudeName)))
      rw [FV.times_fin, ← lookupLabel_map]
      unfold normalizeMean
      congr 3
      funext x
      rw [div_eq_mul_inv, mul_comm]
    · rw [if_pos hd, if_pos hd, if_neg hd]
      refine ⟨rfl, fun _ _ => rfl, fun e _ => ?_⟩
      show FV.fin 1 = FV.times 1 (FV.fin 1)
      rw [FV.times_one'']

end area

/-! ### Examples -/

section examples

/-- A constant weight of 7 does not change the mean absolute error of 3. -/
example : ∃ y b, metricAlone (absoluteErrorStatistic.toMetric : FMetric ℕ ℚ) { exPlain with weighBy := [fun _ => DA.scalar (.fin 7)] } [("t", exKelvin 273 275)] [("t", exKelvin 274 280)] = .ok y ∧
    pyGet? "t" y = some b ∧ b.dims = ∅ ∧ ∀ e, b.val e = .fin 3 := by
  obtain ⟨r, h1, h2⟩ := exPlain_mae
  have h := C95_constant (agg := exPlain) (c := 7) (by norm_num) rfl (extensional_statistic absoluteErrorStatistic) [("t", exKelvin 273 275)] [("t", exKelvin 274 280)]
  have hd : r.dims = ∅ := by
    have : (Except.ok [("t", r)] : Except Err (Vars (DA ℕ (FV ℚ)))) = _ := h1.symm.trans rfl
    cases this
    simp [exPlain, exKelvin, DA.zipWith, DA.dot, DA.sumDims, DA.sumDim, DA.map, absoluteError, error, StatVar.map, StatVar.zipWith]
    try decide
  rcases hy : metricAlone (absoluteErrorStatistic.toMetric : FMetric ℕ ℚ) { exPlain with weighBy := [fun _ => DA.scalar (.fin 7)] } [("t", exKelvin 273 275)] [("t", exKelvin 274 280)] with e | y
  · obtain ⟨e', he⟩ := h.error_left hy
    rw [h1] at he
    cases he
  · obtain ⟨r', hr', hs⟩ := h.ok_left hy
    rw [h1] at hr'
    cases hr'
    have ht := hs "t"
    rw [show pyGet? "t" [("t", r)] = some r from rfl] at ht
    cases hb : pyGet? "t" y with
    | none => rw [hb] at ht; cases ht
    | some b =>
      rw [hb] at ht
      have hab : b.Same r := by cases ht; assumption
      refine ⟨y, b, rfl, hb, hab.dims.trans hd, fun e => ?_⟩
      rw [hab.val e (fun d hd' => by rw [hab.dims, hd] at hd'; simp at hd')]
      exact h2 e

/-- Weights along the lead time do not matter for averages over `x`. -/
example : EvenOver ["x"] (fun a : DA ℕ (FV ℚ) => if "lead" ∈ a.dims then { dims := {"lead"}, coords := a.coords, val := fun e => .fin ((e "lead" : ℚ) + 1) } else DA.scalar (.fin 1)) := by
  refine ⟨fun D e => if "lead" ∈ D then (e "lead" : ℚ) + 1 else 1, fun D e d hd l => ?_, fun a _ => ?_⟩
  · simp only [List.mem_singleton] at hd
    subst hd
    rfl
  · by_cases h : "lead" ∈ a.dims
    · simp only [h, if_true]
      exact ⟨by simpa using h, fun _ _ => Finset.Subset.refl _, fun e _ => ⟨by positivity, trivial⟩⟩
    · simp only [h, if_false]
      exact ⟨by simp [DA.scalar], by simp [DA.scalar], fun e _ => ⟨one_pos, rfl⟩⟩

/-- Area weights of three latitudes. -/
example {m : FMetric ℕ ℝ} (hm : m.Extensional) (p t : Vars (StatVar ℕ (FV ℝ))) :
    SameValues (metricAlone m { reduceDims := ["latitude"], weighBy := [areaWeighting "latitude" true [0, 1, 2] (fun l => (l : ℝ) * 60 - 60)] } p t)
      (metricAlone m { reduceDims := ["latitude"], weighBy := [areaWeighting "latitude" false [0, 1, 2] (fun l => (l : ℝ) * 60 - 60)] } p t) :=
  C95_area (L := ℕ) (degrees := fun l => (l : ℝ) * 60 - 60) (agg := { reduceDims := ["latitude"], weighBy := [areaWeighting "latitude" false [0, 1, 2] (fun l => (l : ℝ) * 60 - 60)] }) (by
    refine .inl ⟨by simp, ?_, ?_⟩
    · norm_num
    · norm_num) hm rfl p t

end examples
end WBX
