import Verif.Lemmas.Perfect
import Verif.Model.Spatial
import Verif.Model.Wasserstein
import Verif.Spec.DefinePipeline
import Mathlib.Tactic.NormNum

/-!
# C96: a perfect forecast gets the best score or NaN, never another number

Nothing is assumed of the values (NaN and infinities included), of the masks, or of the aggregation: any weights, bins and reduced dimensions, NaN weights and negative weights included. Forecast and
target need only agree at the cells where both have a value.
-/

set_option linter.unusedSectionVars false

namespace WBX
open DA Aggregator

section cells
variable {L K : Type} [DecidableEq L] [Field K] [LinearOrder K] [IsStrictOrderedRing K] {a b : StatVar L (FV K)}

theorem error_only (h : Perfect a b) : OnlyOrNaN 0 (error a b).arr := fun e he => by
  have hv : (error a b).arr.val e = a.arr.val e - b.arr.val e := rfl
  rw [hv]
  rcases h e (inDom_zipLeft he) (inDom_zipRight he) with h | h | h <;> rw [h]
  · simp
  · simp
  · exact NanOr.sub_self _

theorem absoluteError_only (h : Perfect a b) : OnlyOrNaN 0 (absoluteError a b).arr := (error_only h).map (fun _ => NanOr.abs)

theorem squaredError_only (h : Perfect a b) : OnlyOrNaN 0 (squaredError a b).arr := (error_only h).map (fun _ => NanOr.sq)

theorem errorExceedance_only {th : DA L (FV K)} (hth : ∀ e, th.InDom e → FV.lt (th.val e) (FV.fin 0) = false) (h : Perfect a b) :
    OnlyOrNaN 0 (errorExceedance th a b).arr := fun e he => by
  have h1 := inDom_zipLeft he
  have h2 := inDom_zipLeft h1
  have hv : (errorExceedance th a b).arr.val e =
      FV.keepIf (FV.keepIf (FV.ofBool (FV.lt (th.val e) ((absoluteError a b).arr.val e))) (!((absoluteError a b).arr.val e).isnan)) (!(th.val e).isnan) := rfl
  rw [hv]
  refine NanOr.keepIf ?_ _
  rcases absoluteError_only h e (inDom_zipLeft h2) with h0 | h0
  · rw [h0]; exact .inl rfl
  · rw [h0, hth e (inDom_zipRight h2)]
    exact NanOr.keepIf (.inr rfl) _

theorem contingency_off {f : Bool → Bool → Bool} (hf : ∀ x, f x x = false) (h : Perfect a b) : OnlyOrNaN 0 (contingency f a b).arr := fun e he => by
  have h1 := inDom_zipLeft he
  have hv : (contingency f a b).arr.val e = FV.keepIf (FV.ofBool (f (a.arr.val e).toBool (b.arr.val e).toBool)) (!(a.arr.val e * b.arr.val e).isnan) := rfl
  have h2 : (a.map FV.toBool).arr.InDom e := inDom_zipLeft h1
  have h3 : (b.map FV.toBool).arr.InDom e := inDom_zipRight h1
  rw [hv]
  rcases h e h2 h3 with h | h | h <;> rw [h]
  · rw [FV.nan_mul]; exact .inl rfl
  · rw [FV.mul_nan]; exact .inl rfl
  · rw [hf]; exact NanOr.keepIf (.inr rfl) _

end cells

section metrics
variable {L K : Type} [DecidableEq L] [Field K] [LinearOrder K] [IsStrictOrderedRing K]
variable {agg : Aggregator L (FV K)} {p t : Vars (StatVar L (FV K))} {v : String} {a b : StatVar L (FV K)} {x : DA L (FV K)}

theorem mean_only {name : String} {f : StatVar L (FV K) → StatVar L (FV K) → StatVar L (FV K)} (hp : IsDict p) (ht : IsDict t) (ha : (v, a) ∈ p) (hb : (v, b) ∈ t)
    (hf : OnlyOrNaN 0 (f a b).arr) {y : DA L (FV K)} (hy : IsMeanOf agg p t v (statOf name f) y) : OnlyOrNaN 0 y :=
  isMeanOf_only (fun _ _ hc hs => by rw [statOf_mem hp ht ha hb hc hs]; exact hf) hy

theorem meanE_only {name : String} {f : StatVar L (FV K) → StatVar L (FV K) → Except Err (StatVar L (FV K))} (hp : IsDict p) (ht : IsDict t) (ha : (v, a) ∈ p) (hb : (v, b) ∈ t)
    (hf : ∀ s, f a b = .ok s → OnlyOrNaN 0 s.arr) {y : DA L (FV K)} (hy : IsMeanOf agg p t v (statOfE name f) y) : OnlyOrNaN 0 y :=
  isMeanOf_only (fun _ s hc hs => hf s (statOfE_mem hp ht ha hb hc hs)) hy

variable (hp : IsDict p) (ht : IsDict t) (ha : (v, a) ∈ p) (hb : (v, b) ∈ t) (h : Perfect a b)
include hp ht ha hb h

/-- **C96** `Bias` of a perfect forecast. -/
theorem C96_bias (hx : ValueOf errorStatistic.toMetric agg p t v x) : OnlyOrNaN 0 x :=
  mean_only hp ht ha hb (error_only h) (valueOf_statistic hx)

/-- **C96** `MAE`. -/
theorem C96_mae (hx : ValueOf absoluteErrorStatistic.toMetric agg p t v x) : OnlyOrNaN 0 x :=
  mean_only hp ht ha hb (absoluteError_only h) (valueOf_statistic hx)

/-- **C96** `MSE`. -/
theorem C96_mse (hx : ValueOf squaredErrorStatistic.toMetric agg p t v x) : OnlyOrNaN 0 x :=
  mean_only hp ht ha hb (squaredError_only h) (valueOf_statistic hx)

/-- **C96** The error exceedance at thresholds that are not negative. -/
theorem C96_exceedance {th : DA L (FV K)} (hth : ∀ e, th.InDom e → FV.lt (th.val e) (FV.fin 0) = false)
    (hx : ValueOf (errorExceedanceStatistic th).toMetric agg p t v x) : OnlyOrNaN 0 x :=
  mean_only hp ht ha hb (errorExceedance_only hth h) (valueOf_statistic hx)

/-- **C96** The ranked probability score (`RankedProbabilityScore` of probability vectors along `binDim`). -/
theorem C96_rps {binDim : Dim} (hx : ValueOf (rpsStatistic binDim).toMetric agg p t v x) : OnlyOrNaN 0 x := by
  refine isMeanOf_only (fun vars s hc hs => ?_) (valueOf_statistic hx)
  obtain ⟨-, hm⟩ := C21_statistic _ _ p t hp ht vars hc
  obtain ⟨a', b', h1, h2, h3⟩ := (hm v (some s)).mp hs
  have e1 := (pyGet?_eq_some hp v a).mpr ha
  rw [(pyGet?_eq_some hp v a').mpr h1, Option.some.injEq] at e1
  have e2 := (pyGet?_eq_some ht v b).mpr hb
  rw [(pyGet?_eq_some ht v b').mpr h2, Option.some.injEq] at e2
  subst e1 e2
  unfold rankedProbabilityScore at h3
  dsimp only at h3
  split_ifs at h3
  simp only [Except.ok.injEq, Option.some.injEq] at h3
  subst h3
  exact ((squaredError_only h).map (fun y hy => by
    rcases hy with rfl | rfl
    · exact .inr rfl
    · exact .inr rfl)).sumDim

/-- **C96** False positives and false negatives. -/
theorem fp_only {y : DA L (FV K)} (hy : IsMeanOf agg p t v fpStatistic y) : OnlyOrNaN 0 y :=
  mean_only hp ht ha hb (contingency_off (fun x => by cases x <;> rfl) h) hy

theorem fn_only {y : DA L (FV K)} (hy : IsMeanOf agg p t v fnStatistic y) : OnlyOrNaN 0 y :=
  mean_only hp ht ha hb (contingency_off (fun x => by cases x <;> rfl) h) hy

/-- **C96** `CSI`. -/
theorem C96_csi (hx : ValueOf csi agg p t v x) : OnlyOrNaN 1 x := by
  obtain ⟨y1, y2, y3, h1, h2, h3, rfl⟩ := valueOf_metric3 (by simp) (by simp) (by simp) hx
  intro e he
  have z2 := fp_only hp ht ha hb h h2 e (inDom_zipRight (inDom_zipLeft (inDom_zipRight he)))
  have z3 := fn_only hp ht ha hb h h3 e (inDom_zipRight (inDom_zipRight he))
  show NanOr 1 (y1.val e / (y1.val e + y2.val e + y3.val e))
  rcases z2 with z2 | z2 <;> rcases z3 with z3 | z3 <;> rw [z2, z3]
  · simp [NanOr]
  · simp [NanOr]
  · simp [NanOr]
  · rw [← FV.zero_def, add_zero, add_zero]; exact NanOr.div_self _

/-- **C96** `Accuracy`. -/
theorem C96_accuracy (hx : ValueOf accuracy agg p t v x) : OnlyOrNaN 1 x := by
  obtain ⟨y1, y2, y3, y4, h1, h2, h3, h4, rfl⟩ := valueOf_metric4 (by simp) (by simp) (by simp) (by simp) (by simp) (by simp) hx
  intro e he
  have z2 := fp_only hp ht ha hb h h2 e (inDom_zipRight (inDom_zipLeft (inDom_zipLeft (inDom_zipRight he))))
  have z3 := fn_only hp ht ha hb h h3 e (inDom_zipRight (inDom_zipLeft (inDom_zipRight he)))
  show NanOr 1 ((y1.val e + y4.val e) / (y1.val e + y2.val e + y3.val e + y4.val e))
  rcases z2 with z2 | z2 <;> rcases z3 with z3 | z3 <;> rw [z2, z3]
  · simp [NanOr]
  · simp [NanOr]
  · simp [NanOr]
  · rw [← FV.zero_def, add_zero, add_zero]; exact NanOr.div_self _

/-- **C96** `Recall`. -/
theorem C96_recall (hx : ValueOf recall agg p t v x) : OnlyOrNaN 1 x := by
  obtain ⟨y1, y2, h1, h2, rfl⟩ := valueOf_metric2 (by simp) hx
  intro e he
  have z2 := fn_only hp ht ha hb h h2 e (inDom_zipRight (inDom_zipRight he))
  show NanOr 1 (y1.val e / (y1.val e + y2.val e))
  rcases z2 with z2 | z2 <;> rw [z2]
  · simp [NanOr]
  · rw [← FV.zero_def, add_zero]; exact NanOr.div_self _

/-- **C96** `Precision`. -/
theorem C96_precision (hx : ValueOf precision agg p t v x) : OnlyOrNaN 1 x := by
  obtain ⟨y1, y2, h1, h2, rfl⟩ := valueOf_metric2 (by simp) hx
  intro e he
  have z2 := fp_only hp ht ha hb h h2 e (inDom_zipRight (inDom_zipRight he))
  show NanOr 1 (y1.val e / (y1.val e + y2.val e))
  rcases z2 with z2 | z2 <;> rw [z2]
  · simp [NanOr]
  · rw [← FV.zero_def, add_zero]; exact NanOr.div_self _

/-- **C96** `FalseAlarmRate`. -/
theorem C96_far (hx : ValueOf falseAlarmRate agg p t v x) : OnlyOrNaN 0 x := by
  obtain ⟨y1, y2, h1, h2, rfl⟩ := valueOf_metric2 (by simp) hx
  exact (fp_only hp ht ha hb h h2).left (fun _ y hx => hx.zero_div y) _

/-- **C96** `F1Score`. -/
theorem C96_f1 (hx : ValueOf f1Score agg p t v x) : OnlyOrNaN 1 x := by
  obtain ⟨y1, y2, y3, h1, h2, h3, rfl⟩ := valueOf_metric3 (by simp) (by simp) (by simp) hx
  intro e he
  have z2 := fp_only hp ht ha hb h h2 e (inDom_zipRight (inDom_zipLeft (inDom_zipRight he)))
  have z3 := fn_only hp ht ha hb h h3 e (inDom_zipRight (inDom_zipRight he))
  show NanOr 1 (FV.fin 2 * y1.val e / (FV.fin 2 * y1.val e + y2.val e + y3.val e))
  rcases z2 with z2 | z2 <;> rcases z3 with z3 | z3 <;> rw [z2, z3]
  · simp [NanOr]
  · simp [NanOr]
  · simp [NanOr]
  · rw [← FV.zero_def, add_zero, add_zero]; exact NanOr.div_self _

/-- **C96** `FrequencyBias`. -/
theorem C96_frequency_bias (hx : ValueOf frequencyBias agg p t v x) : OnlyOrNaN 1 x := by
  obtain ⟨y1, y2, y3, h1, h2, h3, rfl⟩ := valueOf_metric3 (by simp) (by simp) (by simp) hx
  intro e he
  have z2 := fp_only hp ht ha hb h h2 e (inDom_zipRight (inDom_zipLeft he))
  have z3 := fn_only hp ht ha hb h h3 e (inDom_zipRight (inDom_zipRight he))
  show NanOr 1 ((y1.val e + y2.val e) / (y1.val e + y3.val e))
  rcases z2 with z2 | z2 <;> rcases z3 with z3 | z3 <;> rw [z2, z3]
  · simp [NanOr]
  · simp [NanOr]
  · simp [NanOr]
  · rw [← FV.zero_def, add_zero]; exact NanOr.div_self _

theorem hss_value (x : FV K) : NanOr 1 (FV.fin 2 * x / (x + x)) := by
  rcases x with _ | s | x
  · simp [NanOr]
  · left
    have h2 : (FV.fin 2 * FV.inf s : FV K) = FV.inf s := by
      rw [FV.fin_mul_inf, if_neg (by norm_num), decide_eq_false (by norm_num), Bool.false_xor]
    rw [h2, FV.inf_add_inf, if_pos rfl]; rfl
  · rw [FV.fin_mul_fin, FV.fin_add_fin, ← two_mul]
    exact NanOr.div_self _

/-- **C96** `HSS`. -/
theorem C96_hss (hx : ValueOf hss agg p t v x) : OnlyOrNaN 1 x := by
  obtain ⟨y1, y2, y3, y4, h1, h2, h3, h4, rfl⟩ := valueOf_metric4 (by simp) (by simp) (by simp) (by simp) (by simp) (by simp) hx
  intro e he
  have hm : ((y1.mul y4).sub (y2.mul y3)).InDom e := inDom_zipLeft (b := ((y1.add y3).mul (y3.add y4)).add ((y1.add y2).mul (y2.add y4))) (f := fun x y : FV K => x / y) he
  have hn : (y2.mul y3).InDom e := inDom_zipRight hm
  have z2 := fp_only hp ht ha hb h h2 e (inDom_zipLeft hn)
  have z3 := fn_only hp ht ha hb h h3 e (inDom_zipRight hn)
  show NanOr 1 (FV.fin 2 * (y1.val e * y4.val e - y2.val e * y3.val e) / ((y1.val e + y3.val e) * (y3.val e + y4.val e) + (y1.val e + y2.val e) * (y2.val e + y4.val e)))
  rcases z2 with z2 | z2 <;> rcases z3 with z3 | z3 <;> rw [z2, z3]
  · simp [NanOr]
  · simp [NanOr]
  · simp [NanOr]
  · have h0 : (FV.fin 0 * FV.fin 0 : FV K) = FV.fin 0 := by simp
    have hs : ∀ z : FV K, z - FV.fin 0 = z := fun z => by
      rw [FV.sub_def, FV.neg_fin, neg_zero, ← FV.zero_def, add_zero]
    rw [h0, hs, ← FV.zero_def, add_zero, zero_add]
    exact hss_value hp ht ha hb h _

/-- **C96** `ETS`. -/
theorem C96_ets (hx : ValueOf ets agg p t v x) : OnlyOrNaN 1 x := by
  obtain ⟨y1, y2, y3, y4, h1, h2, h3, h4, rfl⟩ := valueOf_metric4 (by simp) (by simp) (by simp) (by simp) (by simp) (by simp) hx
  intro e he
  have hn := inDom_zipLeft (inDom_zipRight he)
  have z2 := fp_only hp ht ha hb h h2 e (inDom_zipRight (inDom_zipLeft hn))
  have z3 := fn_only hp ht ha hb h h3 e (inDom_zipRight hn)
  show NanOr 1 ((y1.val e - (y1.val e + y2.val e) * (y1.val e + y3.val e) / (y1.val e + y2.val e + y3.val e + y4.val e)) /
    (y1.val e + y2.val e + y3.val e - (y1.val e + y2.val e) * (y1.val e + y3.val e) / (y1.val e + y2.val e + y3.val e + y4.val e)))
  rcases z2 with z2 | z2 <;> rcases z3 with z3 | z3 <;> rw [z2, z3]
  · simp [NanOr]
  · simp [NanOr]
  · simp [NanOr]
  · rw [← FV.zero_def, add_zero, add_zero]; exact NanOr.div_self _

end metrics

section spatial
variable {L K : Type} [DecidableEq L] [Field K] [LinearOrder K] [IsStrictOrderedRing K]
variable {agg : Aggregator L (FV K)} {p t : Vars (StatVar L (FV K))} {v : String} {a b : StatVar L (FV K)} {x : DA L (FV K)}

theorem averageOne_arr {g : Grid L} {wrap : Bool} {n : ℤ} {A B : StatVar L (FV K)} (hab : a.arr = b.arr) (hA : averageOne g wrap a n = .ok A) (hB : averageOne g wrap b n = .ok B) :
    A.arr = B.arr := by
  unfold averageOne at hA hB
  rw [hab] at hA
  split_ifs at hA hB
  obtain ⟨f, hf, hA⟩ := bind_pair_ok _ _ _ hA
  obtain ⟨f', hf', hB⟩ := bind_pair_ok _ _ _ hB
  rw [hf] at hf'; cases hf'
  obtain ⟨m, -, hA⟩ := bind_pair_ok _ _ _ hA
  obtain ⟨m', -, hB⟩ := bind_pair_ok _ _ _ hB
  cases hA; cases hB; rfl

theorem averages_arr {g : Grid L} {wrap : Bool} (hab : a.arr = b.arr) : (ns : List ℤ) → {A B : List (StatVar L (FV K))} → ns.mapM (averageOne g wrap a) = .ok A →
    ns.mapM (averageOne g wrap b) = .ok B → List.Forall₂ (fun s s' => s.arr = s'.arr) A B
  | [], A, B, hA, hB => by
    cases hA; cases hB; exact .nil
  | n :: ns, A, B, hA, hB => by
    rw [List.mapM_cons] at hA hB
    obtain ⟨s, hs, hA⟩ := bind_pair_ok _ _ _ hA
    obtain ⟨ss, hss, hA⟩ := bind_pair_ok _ _ _ hA
    obtain ⟨s', hs', hB⟩ := bind_pair_ok _ _ _ hB
    obtain ⟨ss', hss', hB⟩ := bind_pair_ok _ _ _ hB
    cases hA; cases hB
    exact .cons (averageOne_arr hab hs hs') (averages_arr hab ns hss hss')

theorem pick_arr {number : ℤ → L} (l : L) : (ns : List ℤ) → {A B : List (StatVar L (FV K))} → List.Forall₂ (fun s s' => s.arr = s'.arr) A B →
    (pick number (ns.zip A) l).map StatVar.arr = (pick number (ns.zip B) l).map StatVar.arr
  | [], _, _, _ => rfl
  | _ :: _, _, _, .nil => rfl
  | n :: ns, _, _, .cons (a := s) (b := s') hs hAB => by
    unfold pick
    rw [List.zip_cons_cons, List.zip_cons_cons, List.find?_cons, List.find?_cons]
    by_cases hn : number n = l
    · simp [hn, hs]
    · have := pick_arr (number := number) l ns hAB
      unfold pick at this
      simpa [hn] using this

theorem neighborhood_arr {g : Grid L} {number : ℤ → L} {wrap : Bool} {sizes : Sizes} {A B : StatVar L (FV K)} (hab : a.arr = b.arr)
    (hA : neighborhoodAveraging g number wrap sizes a = .ok A) (hB : neighborhoodAveraging g number wrap sizes b = .ok B) : A.arr = B.arr := by
  cases sizes with
  | one n => exact averageOne_arr hab hA hB
  | many ns =>
    unfold neighborhoodAveraging at hA hB
    dsimp only at hA hB
    obtain ⟨rs, hrs, hA⟩ := bind_pair_ok _ _ _ hA
    obtain ⟨rs', hrs', hB⟩ := bind_pair_ok _ _ _ hB
    have hF := averages_arr hab ns hrs hrs'
    have hl : rs.length = rs'.length := hF.length_eq
    have hz : (ns.zip rs).map (fun r => number r.1) = (ns.zip rs').map (fun r => number r.1) := by
      have : ∀ l : List (StatVar L (FV K)), (ns.zip l).map (fun r => number r.1) = ((ns.take l.length).map number) := fun l => by
        clear * -
        induction ns generalizing l with
        | nil => simp
        | cons n ns ih => cases l with
          | nil => simp
          | cons s l => simpa using ih l
      rw [this, this, hl]
    split_ifs at hA hB
    cases hA; cases hB
    unfold concatSizes
    simp only [DA.mk.injEq]
    refine ⟨by rw [hab], by rw [hab, hz], ?_⟩
    funext e
    have := pick_arr (number := number) (e "neighborhood_size") ns hF
    revert this
    generalize pick number (ns.zip rs) (e "neighborhood_size") = o
    generalize pick number (ns.zip rs') (e "neighborhood_size") = o'
    intro ho
    cases o <;> cases o' <;> simp at ho
    · rfl
    · exact congrArg (fun r : DA L (FV K) => r.val e) ho

/-- **C96** `FSS` of a forecast with the same values on the same grid, for every neighborhood size. -/
theorem C96_fss (hp : IsDict p) (ht : IsDict t) (ha : (v, a) ∈ p) (hb : (v, b) ∈ t) (hab : a.arr = b.arr) {g : Grid L} {number : ℤ → L} {wrap : Bool} {sizes : Sizes}
    (hx : ValueOf (fss g number wrap sizes) agg p t v x) : OnlyOrNaN 1 x := by
  obtain ⟨y1, y2, y3, h1, h2, h3, rfl⟩ := valueOf_metric3 (by simp) (by simp) (by simp) hx
  have z1 : OnlyOrNaN 0 y1 := meanE_only hp ht ha hb (fun s hs => by
    unfold squaredFractionsError at hs
    obtain ⟨P, hP, hs⟩ := bind_pair_ok _ _ _ hs
    obtain ⟨T, hT, hs⟩ := bind_pair_ok _ _ _ hs
    cases hs
    have hPT := neighborhood_arr hab hP hT
    exact squaredError_only (fun e _ _ => .inr (.inr (by rw [hPT])))) h1
  refine OnlyOrNaN.map (c := 0) (fun y hy => ?_) (z1.left (fun _ y hx => hx.zero_div y) (y2.add y3))
  rcases hy with rfl | rfl
  · left; simp
  · right; rw [FV.one_def, FV.fin_sub_fin, sub_zero]

theorem stepSum_only {g : FV K → FV K} (hg : ∀ z, NanOr 0 (g z)) : (zs : List (FV K)) → NanOr 0 (stepSum g zs)
  | [] => .inr rfl
  | [_] => .inr rfl
  | z :: z' :: zs => (hg z |>.zero_mul _).zero_add (stepSum_only hg (z' :: zs))

/-- **C96** The Wasserstein distance of two ensembles with the same members. -/
theorem C96_wasserstein (hp : IsDict p) (ht : IsDict t) (ha : (v, a) ∈ p) (hb : (v, b) ∈ t) {d : Dim} (hc : a.arr.coords d = b.arr.coords d) (hd : d ∈ a.arr.dims) (hab : ∀ e, a.arr.InDom e → b.arr.InDom e → a.arr.val e = b.arr.val e)
    (hx : ValueOf (wassersteinStatistic d).toMetric agg p t v x) : OnlyOrNaN 0 x := by
  refine meanE_only hp ht ha hb (fun s hs => ?_) (valueOf_statistic hx)
  unfold wasserstein at hs
  split_ifs at hs with g1 g2 g3 g4
  cases hs
  intro e he
  have hdb : d ∈ b.arr.dims := by simpa using g1
  have hA : ∀ l ∈ a.arr.coords d, a.arr.InDom (setLabel e d l) := fun l hl => inDom_setLabel_mem (fun k hk => by
    have := he k (by simp only [Finset.mem_erase, Finset.mem_union] at hk ⊢; exact ⟨hk.1, .inl hk.2⟩)
    simp only [joinCoords] at this
    rw [if_pos (Finset.mem_erase.mp hk).2] at this
    split_ifs at this
    · exact (Finset.mem_inter.mp this).1
    · exact this) hl
  have hB : ∀ l ∈ b.arr.coords d, b.arr.InDom (setLabel e d l) := fun l hl => inDom_setLabel_mem (fun k hk => by
    have := he k (by simp only [Finset.mem_erase, Finset.mem_union] at hk ⊢; exact ⟨hk.1, .inr hk.2⟩)
    simp only [joinCoords] at this
    by_cases hka : k ∈ a.arr.dims
    · rw [if_pos hka, if_pos (Finset.mem_erase.mp hk).2] at this
      exact (Finset.mem_inter.mp this).2
    · rwa [if_neg hka] at this) hl
  have hm : memberValues d a.arr e = memberValues d b.arr e := by
    unfold memberValues
    rw [hc]
    refine List.map_congr_left (fun l hl => ?_)
    have hl' : l ∈ b.arr.coords d := Finset.mem_toList.mp hl
    exact hab _ (hA l (hc ▸ hl')) (hB l hl')
  dsimp only
  rw [hm]
  unfold scipyWasserstein
  split_ifs
  · exact .inl rfl
  · exact stepSum_only (fun z => (NanOr.sub_self _).abs) _

end spatial

section real
variable {L : Type} [DecidableEq L] {agg : Aggregator L (FV ℝ)} {p t : Vars (StatVar L (FV ℝ))} {v : String} {a b : StatVar L (FV ℝ)} {x : DA L (FV ℝ)}

/-- **C96** `RMSE`. -/
theorem C96_rmse (hp : IsDict p) (ht : IsDict t) (ha : (v, a) ∈ p) (hb : (v, b) ∈ t) (h : Perfect a b) (hx : ValueOf rmse agg p t v x) : OnlyOrNaN 0 x := by
  obtain ⟨ys, hys, hg⟩ := valueOf_perVariable (by simp) hx
  rw [List.forall₂_cons_left_iff] at hys
  obtain ⟨⟨k, y⟩, l, ⟨e1, m1⟩, hys, rfl⟩ := hys
  rw [List.forall₂_nil_left_iff] at hys
  subst hys
  simp only at e1
  subst e1
  rw [item_hd] at hg
  simp only [bind, Except.bind, pure, Except.pure, Except.ok.injEq] at hg
  subst hg
  exact (mean_only hp ht ha hb (squaredError_only h) m1).map (fun _ => NanOr.sqrt)

end real
end WBX
