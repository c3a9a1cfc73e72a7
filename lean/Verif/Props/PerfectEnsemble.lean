import Verif.Props.PerfectMore
import Verif.Props.Wrappers

/-!
# C96: thresholded fields and ensembles all of whose members are the target
-/

set_option linter.unusedSectionVars false

namespace WBX
open DA Aggregator
variable {L K : Type} [DecidableEq L] [Field K] [LinearOrder K] [IsStrictOrderedRing K] {agg : Aggregator L (FV K)} {p t : Vars (StatVar L (FV K))} {v : String} {a b : StatVar L (FV K)}
  {x : DA L (FV K)} {d : Dim}

/-- For a perfect forecast the metric gives `c` or NaN. -/
def NeverElse (agg : Aggregator L (FV K)) (m : FMetric L K) (c : K) : Prop :=
  ∀ p t v a b x, IsDict p → IsDict t → (v, a) ∈ p → (v, b) ∈ t → Perfect a b → ValueOf m agg p t v x → OnlyOrNaN c x

theorem transformedVars_item {side : String} {trs : List (InputTransform L K)} {p p' : Vars (StatVar L (FV K))} (h : TransformedVars side trs p p') (ha : (v, a) ∈ p) :
    ∃ a', transformed side v trs a = .ok a' ∧ (v, a') ∈ p' := by
  unfold TransformedVars at h
  induction h with
  | nil => simp at ha
  | @cons kv kv' l l' hkv _ ih =>
    rcases List.mem_cons.mp ha with rfl | ha
    · obtain ⟨e1, e2⟩ := hkv
      obtain ⟨k', a'⟩ := kv'
      simp only at e1 e2
      subst e1
      exact ⟨a', e2, by simp⟩
    · obtain ⟨a', h1, h2⟩ := ih ha
      exact ⟨a', h1, by simp [h2]⟩

theorem transformedVars_keys {side : String} {trs : List (InputTransform L K)} {p p' : Vars (StatVar L (FV K))} (h : TransformedVars side trs p p') :
    p'.map Prod.fst = p.map Prod.fst := by
  unfold TransformedVars at h
  induction h with
  | nil => rfl
  | cons hkv _ ih => simp [hkv.1, ih]

/-- **C96** Any list of transforms that keeps the forecast of the variable perfect keeps the score. -/
theorem C96_wrapped {m : FMetric L K} {c : K} (hm : NeverElse agg m c) (hne : m.statistics ≠ []) {trs : List (InputTransform L K)} {suffix : Option String} (hp : IsDict p) (ht : IsDict t)
    (ha : (v, a) ∈ p) (hb : (v, b) ∈ t)
    (h : ∀ a' b', transformed "predictions" v trs a = .ok a' → transformed "targets" v trs b = .ok b' → Perfect a' b')
    (hx : ValueOf (wrappedMetric m trs suffix) agg p t v x) : OnlyOrNaN c x := by
  obtain ⟨r, hr, hv⟩ := hx
  have hex : ∃ p' t', TransformedVars "predictions" trs p p' ∧ TransformedVars "targets" trs t t' := by
    obtain ⟨ks, l, hl⟩ := List.exists_cons_of_ne_nil hne
    have hr' := hr
    unfold metricAlone at hr'
    obtain ⟨means, hmeans, -⟩ := bind_pair_ok _ _ _ hr'
    have hF := means_forall agg p t _ _ hmeans
    unfold wrappedMetric at hF
    rw [hl, List.map_cons, List.forall₂_cons_left_iff] at hF
    obtain ⟨_, _, ⟨-, vars, hvars, -⟩, -⟩ := hF
    obtain ⟨p', t', h1, h2, -⟩ := (C38_compute trs suffix ks.2 p t vars).mp hvars
    exact ⟨p', t', h1, h2⟩
  obtain ⟨p', t', h1, h2⟩ := hex
  obtain ⟨a', ga, ma⟩ := transformedVars_item h1 ha
  obtain ⟨b', gb, mb⟩ := transformedVars_item h2 hb
  exact hm p' t' v a' b' x (by unfold IsDict; rw [transformedVars_keys h1]; exact hp) (by unfold IsDict; rw [transformedVars_keys h2]; exact ht) ma mb (h a' b' ga gb)
    ⟨r, (C38_values m trs suffix agg h1 h2 r).mp hr, hv⟩

theorem perfect_binarize (h : Perfect a b) (th : DA L (FV K)) : Perfect (binarize th a) (binarize th b) := by
  intro e h1 h2
  have va : ∀ s : StatVar L (FV K), (binarize th s).arr.val e = FV.keepIf (FV.ofBool (FV.lt (th.val e) (s.arr.val e))) (!(s.arr.val e).isnan) := fun _ => rfl
  have da : a.arr.InDom e := (inDom_zipWith.mp (inDom_zipWith.mp h1).1).1
  have db : b.arr.InDom e := (inDom_zipWith.mp (inDom_zipWith.mp h2).1).1
  rw [va, va]
  rcases h e da db with h | h | h <;> rw [h]
  · exact .inl rfl
  · exact .inr (.inl rfl)
  · exact .inr (.inr rfl)

/-- **C96** Metrics of thresholded fields (`ContinuousToBinary` on both sides), for any kind of thresholds. -/
theorem C96_thresholds {m : FMetric L K} {c : K} (hm : NeverElse agg m c) (hne : m.statistics ≠ []) {label : FV K → L} {th : Thresholds L K} {str : FV K → String} {s suffix : Option String}
    {tr : InputTransform L K} (htr : continuousToBinary label "both" th d str s = .ok tr) (hp : IsDict p) (ht : IsDict t) (ha : (v, a) ∈ p) (hb : (v, b) ∈ t) (h : Perfect a b)
    (hx : ValueOf (wrappedMetric m [tr] suffix) agg p t v x) : OnlyOrNaN c x := by
  unfold continuousToBinary at htr
  obtain ⟨text, -, htr⟩ := bind_pair_ok _ _ _ htr
  unfold mkTransform at htr
  rw [if_pos (by simp)] at htr
  cases htr
  refine C96_wrapped hm hne hp ht ha hb (fun a' b' h1 h2 => ?_) hx
  simp only [transformed, touches, or_true, if_true, bind_ok_iff, Except.ok.injEq, exists_eq_right] at h1 h2
  obtain ⟨t1, g1, h1⟩ := h1
  obtain ⟨t2, g2, h2⟩ := h2
  rw [g1] at g2
  cases g2; cases h1; cases h2
  exact perfect_binarize h _

/-! ### Ensembles -/

theorem sum_fin_or {y : L → FV K} {z : K} (P : Finset L) (h : ∀ l ∈ P, y l = FV.nan ∨ y l = FV.fin z) : ∑ l ∈ P, y l = FV.nan ∨ ∑ l ∈ P, y l = FV.fin ((P.card : K) * z) := by
  induction P using Finset.induction_on with
  | empty => right; simp [FV.zero_def]
  | insert l P hl ih =>
    rw [Finset.sum_insert hl, Finset.card_insert_of_notMem hl]
    rcases h l (Finset.mem_insert_self _ _) with e | e
    · left; rw [e, FV.nan_add]
    · rcases ih (fun j hj => h j (Finset.mem_insert_of_mem hj)) with e' | e'
      · left; rw [e', FV.add_nan]
      · right; rw [e, e', FV.fin_add_fin]; congr 1; push_cast; ring

theorem sum_inf_or {y : L → FV K} {s : Bool} (P : Finset L) (hP : P.Nonempty) (h : ∀ l ∈ P, y l = FV.nan ∨ y l = FV.inf s) : ∑ l ∈ P, y l = FV.nan ∨ ∑ l ∈ P, y l = FV.inf s := by
  induction hP using Finset.Nonempty.cons_induction with
  | singleton l => simpa using h l (by simp)
  | cons l P hl _ ih =>
    rw [Finset.sum_cons]
    rcases h l (by simp) with e | e
    · left; rw [e, FV.nan_add]
    · rcases ih (fun j hj => h j (by simp [hj])) with e' | e'
      · left; rw [e', FV.add_nan]
      · right; rw [e, e', FV.inf_add_inf, if_pos rfl]

/-- The mean of members that are all the same number (or NaN) is this number or NaN. -/
theorem npMean_const {C : Finset L} {y : L → FV K} {c : FV K} (h : ∀ l ∈ C, y l = FV.nan ∨ y l = c) (skipna : Bool) : npMean skipna C y = FV.nan ∨ npMean skipna C y = c := by
  have hP : ∀ l ∈ present skipna C y, y l = FV.nan ∨ y l = c := fun l hl => h l (by
    unfold present at hl
    split_ifs at hl
    · exact (Finset.mem_filter.mp hl).1
    · exact hl)
  unfold npMean npSum FV.ofNat
  generalize present skipna C y = P at hP
  rcases P.eq_empty_or_nonempty with rfl | hne
  · left; simp [FV.zero_def, FV.fin_div_fin]
  have hc : ((P.card : ℕ) : K) ≠ 0 := Nat.cast_ne_zero.mpr hne.card_pos.ne'
  have hc0 : (0 : K) ≤ ((P.card : ℕ) : K) := Nat.cast_nonneg _
  rcases c with _ | s | z
  · left
    have : ∑ l ∈ P, y l = FV.nan := by
      obtain ⟨l, hl⟩ := hne
      rw [← Finset.add_sum_erase P y hl, (hP l hl).elim id id, FV.nan_add]
    rw [this, FV.nan_div]
  · rcases sum_inf_or P hne hP with e | e <;> rw [e]
    · left; simp
    · right
      show FV.div (FV.inf s) (FV.fin _) = _
      simp only [FV.div, if_neg hc, decide_eq_false (not_lt.mpr hc0), Bool.xor_false]
  · rcases sum_fin_or P hP with e | e <;> rw [e]
    · left; simp
    · right
      rw [FV.fin_div_fin_of_ne _ hc, mul_div_cancel_left₀ _ hc]

/-- The label of a dimension the array does not have is irrelevant. -/
theorem wf_setLabel_off {V : Type} {b : DA L V} (hb : b.WF) (hd : d ∉ b.dims) (e : Dim → L) (l : L) : b.val (setLabel e d l) = b.val e :=
  hb _ _ (fun k hk => by
    have : k ≠ d := fun h => hd (h ▸ hk)
    simp [setLabel, this])

theorem inDom_setLabel_iff {V : Type} {b : DA L V} (hd : d ∉ b.dims) {e : Dim → L} {l : L} : b.InDom (setLabel e d l) ↔ b.InDom e := by
  have : ∀ k ∈ b.dims, setLabel e d l k = e k := fun k hk => by
    have : k ≠ d := fun h => hd (h ▸ hk)
    simp [setLabel, this]
  constructor
  · intro h k hk; rw [← this k hk]; exact h k hk
  · intro h k hk; rw [this k hk]; exact h k hk

/-- The members at one cell are the target's value or NaN, if the target is not NaN. -/
theorem members_const (h : Perfect a b) (hb : b.arr.WF) (hd : d ∉ b.arr.dims) {e : Dim → L} (ha : ∀ k ∈ a.arr.dims.erase d, e k ∈ a.arr.coords k) (hbe : b.arr.InDom e)
    (hn : b.arr.val e ≠ FV.nan) : ∀ l ∈ a.arr.coords d, a.arr.val (setLabel e d l) = FV.nan ∨ a.arr.val (setLabel e d l) = b.arr.val e := fun l hl => by
  rcases h (setLabel e d l) (inDom_setLabel_mem ha hl) ((inDom_setLabel_iff hd).mpr hbe) with g | g | g
  · exact .inl g
  · rw [wf_setLabel_off hb hd] at g; exact absurd g hn
  · rw [wf_setLabel_off hb hd] at g; exact .inr g

/-- The mean of an ensemble all of whose members are perfect is perfect. -/
theorem perfect_mean (h : Perfect a b) (hb : b.arr.WF) (hd : d ∉ b.arr.dims) (skipna : Bool) : Perfect (a.reduce d (npMean skipna)) b := fun e h1 h2 => by
  by_cases hn : b.arr.val e = FV.nan
  · exact .inr (.inl hn)
  · rcases npMean_const (members_const h hb hd h1 h2 hn) skipna with g | g
    · exact .inl g
    · exact .inr (.inr g)

/-- **C96** Metrics of the ensemble mean (`EnsembleMean` on the predictions) of an ensemble all of whose members are the target. -/
theorem C96_ensemble_mean {m : FMetric L K} {c : K} (hm : NeverElse agg m c) (hne : m.statistics ≠ []) {skipna skip : Bool} {suffix : Option String}
    {tr : InputTransform L K} (htr : ensembleMean "predictions" d skipna skip = .ok tr) (hp : IsDict p) (ht : IsDict t) (ha : (v, a) ∈ p) (hb : (v, b) ∈ t) (h : Perfect a b)
    (hwf : b.arr.WF) (hd : d ∉ b.arr.dims) (hx : ValueOf (wrappedMetric m [tr] suffix) agg p t v x) : OnlyOrNaN c x := by
  unfold ensembleMean mkTransform at htr
  rw [if_pos (by simp)] at htr
  cases htr
  refine C96_wrapped hm hne hp ht ha hb (fun a' b' h1 h2 => ?_) hx
  simp only [transformed, touches, true_or, if_true, bind_ok_iff, Except.ok.injEq, exists_eq_right] at h1
  have e2 : b = b' := by
    simpa [transformed, touches] using h2
  subst e2
  unfold ensembleMeanFn StatVar.meanDim at h1
  split_ifs at h1
  · cases h1; exact h
  · cases h1; exact perfect_mean h hwf hd skipna

theorem npSum_only {C : Finset L} {y : L → FV K} (h : ∀ l ∈ C, NanOr 0 (y l)) (skipna : Bool) : NanOr 0 (npSum skipna C y) :=
  NanOr.sum _ _ (fun l hl => h l (by
    unfold present at hl
    split_ifs at hl
    · exact (Finset.mem_filter.mp hl).1
    · exact hl))

theorem reduce_sum_only {s : StatVar L (FV K)} (h : OnlyOrNaN 0 s.arr) (skipna : Bool) : OnlyOrNaN 0 (s.reduce d (npSum skipna)).arr := fun _ he =>
  npSum_only (fun _ hl => h _ (inDom_setLabel_mem he hl)) skipna

theorem reduce_mean_only {s : StatVar L (FV K)} (h : OnlyOrNaN 0 s.arr) (skipna : Bool) : OnlyOrNaN 0 (s.reduce d (npMean skipna)).arr := fun _ he =>
  (npSum_only (fun _ hl => h _ (inDom_setLabel_mem he hl)) skipna).zero_div _

theorem meanDim_only {s r : StatVar L (FV K)} (h : OnlyOrNaN 0 s.arr) {skipna : Bool} (hr : s.meanDim skipna d = .ok r) : OnlyOrNaN 0 r.arr := by
  unfold StatVar.meanDim at hr
  split_ifs at hr
  cases hr
  exact reduce_mean_only h skipna

/-- **C96** The error exceedance of the members (`EnsembleErrorExceedance`). -/
theorem C96_ensemble_exceedance {th : DA L (FV K)} (hth : ∀ e, th.InDom e → FV.lt (th.val e) (FV.fin 0) = false) {name : String} (hp : IsDict p) (ht : IsDict t) (ha : (v, a) ∈ p)
    (hb : (v, b) ∈ t) (h : Perfect a b) (hx : ValueOf (statOfE name (ensembleErrorExceedance th d)).toMetric agg p t v x) : OnlyOrNaN 0 x :=
  meanE_only hp ht ha hb (fun _ hs => meanDim_only (errorExceedance_only hth h) hs) (valueOf_statistic hx)

theorem crpsSkill_only (h : Perfect a b) (hd : d ∉ b.arr.dims) {skipna : Bool} {s : StatVar L (FV K)} (hs : crpsSkill d skipna a b = .ok s) : OnlyOrNaN 0 s.arr := by
  unfold crpsSkill at hs
  rw [if_neg hd] at hs
  exact meanDim_only (absoluteError_only h) hs

/-- The members have one value at each cell, NaN apart. -/
def Collapsed (d : Dim) (a : StatVar L (FV K)) : Prop :=
  ∀ e l l', a.arr.InDom (setLabel e d l) → a.arr.InDom (setLabel e d l') →
    a.arr.val (setLabel e d l) = FV.nan ∨ a.arr.val (setLabel e d l') = FV.nan ∨ a.arr.val (setLabel e d l) = a.arr.val (setLabel e d l')

theorem setLabel_self (e : Dim → L) (d : Dim) : setLabel e d (e d) = e := by
  funext k
  unfold setLabel
  split_ifs with h
  · rw [h]
  · rfl

theorem crpsSpread_only (h : Collapsed d a) {argsort : List (FV K) → List ℕ} {order : List L} {fair skipna : Bool} {s : StatVar L (FV K)}
    (hs : crpsSpread argsort order d false fair "predictions" skipna a b = .ok s) : OnlyOrNaN 0 s.arr := by
  unfold crpsSpread at hs
  obtain ⟨da, h1, hs⟩ := bind_pair_ok _ _ _ hs
  simp only [whichArray, if_true, Except.ok.injEq] at h1
  subst h1
  obtain ⟨n, -, hs⟩ := bind_pair_ok _ _ _ hs
  simp only [Bool.false_eq_true, if_false] at hs
  split at hs
  · cases hs
  obtain ⟨a2, ha2, hs⟩ := bind_pair_ok _ _ _ hs
  cases hs
  unfold StatVar.rename at ha2
  split_ifs at ha2 with h3
  cases ha2
  have hd2 : ∀ e, (a.arr.rename d "ensemble_dim_2").val e = a.arr.val (setLabel e d (e "ensemble_dim_2")) := fun e => by
    unfold DA.rename; rw [if_pos h3.1]
  have key : OnlyOrNaN 0 ((a.zipWith (· - ·) ⟨a.arr.rename d "ensemble_dim_2", a.mask.map (fun m => m.rename d "ensemble_dim_2")⟩).map FV.abs).arr := by
    intro e he
    obtain ⟨g1, g2⟩ := inDom_zipWith.mp (show (DA.zipWith (· - ·) a.arr (a.arr.rename d "ensemble_dim_2")).InDom e from he)
    have g3 : a.arr.InDom (setLabel e d (e "ensemble_dim_2")) := by
      unfold DA.rename at g2
      rw [if_pos h3.1] at g2
      refine inDom_setLabel_mem (fun k hk => g1 k (Finset.mem_erase.mp hk).2) ?_
      have := g2 "ensemble_dim_2" (by simp)
      simpa using this
    show NanOr 0 (a.arr.val e - (a.arr.rename d "ensemble_dim_2").val e).abs
    refine NanOr.abs ?_
    rw [hd2]
    have hc := h e (e d) (e "ensemble_dim_2") (by rw [setLabel_self]; exact g1) g3
    rw [setLabel_self] at hc
    rcases hc with g | g | g
    · rw [g]; left; simp
    · rw [g]; left; simp
    · rw [← g]; exact NanOr.sub_self _
  exact (reduce_sum_only (reduce_sum_only key skipna) false).left (fun _ y hx => hx.zero_div y) _

/-- **C96** The CRPS (computed from all pairs of members), fair or not, of an ensemble all of whose members are the target. -/
theorem C96_crps {argsort : List (FV K) → List ℕ} {order : List L} {fair skipna : Bool} (hp : IsDict p) (ht : IsDict t) (ha : (v, a) ∈ p) (hb : (v, b) ∈ t) (h : Perfect a b) (hc : Collapsed d a)
    (hd : d ∉ b.arr.dims) (hx : ValueOf (crpsEnsemble argsort order d false fair skipna) agg p t v x) : OnlyOrNaN 0 x := by
  obtain ⟨y1, y2, h1, h2, rfl⟩ := valueOf_metric2 (by simp) hx
  have z1 : OnlyOrNaN 0 y1 := meanE_only hp ht ha hb (fun _ hs => crpsSkill_only h hd hs) h1
  have z2 : OnlyOrNaN 0 y2 := meanE_only hp ht ha hb (fun _ hs => crpsSpread_only hc hs) h2
  exact z1.both (fun _ _ => NanOr.zero_sub) (z2.map (fun y hy => by rw [FV.mul_comm']; exact hy.zero_mul _))

/-- **C96** The unbiased ensemble mean squared error. -/
theorem C96_unbiased_mse {skipna : Bool} (hp : IsDict p) (ht : IsDict t) (ha : (v, a) ∈ p) (hb : (v, b) ∈ t) (h : Perfect a b) (hwf : b.arr.WF) (hd : d ∉ b.arr.dims)
    (hx : ValueOf (unbiasedMSEStatistic d skipna).toMetric agg p t v x) : OnlyOrNaN 0 x := by
  refine meanE_only hp ht ha hb (fun s hs => ?_) (valueOf_statistic hx)
  unfold unbiasedMSE at hs
  obtain ⟨pm, h1, hs⟩ := bind_pair_ok _ _ _ hs
  obtain ⟨pv, h2, hs⟩ := bind_pair_ok _ _ _ hs
  obtain ⟨pn, h3, hs⟩ := bind_pair_ok _ _ _ hs
  rw [if_neg hd] at hs
  cases hs
  unfold StatVar.meanDim at h1
  unfold StatVar.varDim at h2
  split_ifs at h1 h2
  cases h1; cases h2
  intro e he
  have he' := inDom_zipWith.mp (show (DA.zipWith (· - ·) ((DA.zipWith (· - ·) (a.reduce d (npMean skipna)).arr b.arr).map FV.sq) (DA.zipWith (· / ·) (a.reduce d (npVar1 skipna)).arr pn.arr)).InDom e
    from he)
  have g1 := inDom_zipWith.mp (show (DA.zipWith (· - ·) (a.reduce d (npMean skipna)).arr b.arr).InDom e from he'.1)
  have hmean := perfect_mean h hwf hd skipna e g1.1 g1.2
  show NanOr 0 ((FV.sq ((a.reduce d (npMean skipna)).arr.val e - b.arr.val e) - (a.reduce d (npVar1 skipna)).arr.val e / pn.arr.val e) - 0)
  have hsub : ∀ z : FV K, NanOr 0 z → NanOr 0 (z - 0) := fun z hz => hz.zero_sub (.inr rfl)
  refine hsub _ ?_
  by_cases hn : b.arr.val e = FV.nan
  · rw [hn]; left; simp [FV.sq]
  refine NanOr.zero_sub (NanOr.sq ?_) (NanOr.zero_div ?_ _)
  · rcases hmean with g | g | g
    · rw [g]; left; simp
    · exact absurd g hn
    · rw [g]; exact NanOr.sub_self _
  · have hmem := members_const h hwf hd g1.1 g1.2 hn
    refine NanOr.zero_div (npSum_only (fun l hl => NanOr.sq ?_) skipna) _
    show NanOr 0 (a.arr.val (setLabel e d l) - npMean skipna (a.arr.coords d) fun l => a.arr.val (setLabel e d l))
    rcases hmem l hl with g | g
    · rw [g]; left; simp
    · rcases npMean_const hmem skipna with g' | g'
      · rw [g']; left; simp
      · rw [g, g']; exact NanOr.sub_self _

/-! ### Examples -/

/-- A forecast for three cells, NaN at the second. -/
def exPerfectForecast : StatVar ℕ (FV ℚ) :=
  ⟨{ dims := {"x"}, coords := fun _ => {0, 1, 2}, val := fun e => if e "x" = 1 then .nan else .fin (e "x") }, none⟩

/-- A target for the cells 0, 1, 7, which is masked. -/
def exPerfectTarget : StatVar ℕ (FV ℚ) :=
  ⟨{ dims := {"x"}, coords := fun _ => {0, 1, 7}, val := fun e => .fin (e "x") }, some { dims := {"x"}, coords := fun _ => {0, 1, 7}, val := fun e => e "x" = 0 }⟩

theorem exPerfect : Perfect exPerfectForecast exPerfectTarget := fun e _ _ => by
  by_cases h : e "x" = 1
  · left; simp [exPerfectForecast, h]
  · right; right; simp [exPerfectForecast, exPerfectTarget, h]

/-- A mean over `x` of the cells that are not masked. -/
def exMaskedMean : Aggregator ℕ (FV ℚ) := { reduceDims := ["x"], masked := true }

/-- The value exists, and it is 0 and not NaN. -/
example : ∃ r, metricAlone (absoluteErrorStatistic.toMetric : FMetric ℕ ℚ) exMaskedMean [("z", exPerfectForecast)] [("z", exPerfectTarget)] = .ok [("z", r)] ∧ OnlyOrNaN 0 r ∧
    ∀ e, r.val e = .fin 0 := by
  refine ⟨_, rfl, C96_mae (p := [("z", exPerfectForecast)]) (t := [("z", exPerfectTarget)]) (agg := exMaskedMean) (v := "z") (by simp [IsDict]) (by simp [IsDict]) List.mem_cons_self
    List.mem_cons_self exPerfect ⟨_, rfl, List.mem_cons_self⟩, fun e => ?_⟩
  simp [exMaskedMean, exPerfectForecast, exPerfectTarget, DA.zipWith, DA.dot, DA.sumDims, DA.sumDim, DA.map, absoluteError, error, StatVar.map, StatVar.zipWith, combineMask, Aggregator.applyMask,
    DA.where_, DA.broadcastLike, DA.joinCoords, DA.setLabel, FV.abs, FV.one_def, Aggregator.boolToV]
  rw [FV.fin_div_fin_of_ne _ (by norm_num), _root_.zero_div]

/-- Three members of a forecast for two cells; the members have the value of the target, one is missing at a cell. -/
def exPerfectMembers : StatVar ℕ (FV ℚ) :=
  ⟨{ dims := {"x", "number"}, coords := fun k => if k = "x" then {0, 1} else {0, 1, 2}, val := fun e => if e "x" = 1 ∧ e "number" = 2 then .nan else .fin (e "x") }, none⟩

theorem exPerfectMembers_ok : Perfect exPerfectMembers exPerfectTarget ∧ Collapsed "number" exPerfectMembers ∧ exPerfectTarget.arr.WF ∧ "number" ∉ exPerfectTarget.arr.dims := by
  have hv : ∀ e, exPerfectMembers.arr.val e = .nan ∨ exPerfectMembers.arr.val e = .fin (e "x" : ℚ) := fun e => by
    by_cases h : e "x" = 1 ∧ e "number" = 2
    · left; simp [exPerfectMembers, h]
    · right; exact if_neg h
  refine ⟨fun e _ _ => ?_, fun e l l' _ _ => ?_, fun e e' h => ?_, by simp [exPerfectTarget]⟩
  · rcases hv e with h | h
    · exact .inl h
    · exact .inr (.inr h)
  · rcases hv (setLabel e "number" l) with h | h
    · exact .inl h
    · rcases hv (setLabel e "number" l') with h' | h'
      · exact .inr (.inl h')
      · right; right; rw [h, h']; rfl
  · have := h "x" (by simp [exPerfectTarget])
    simp [exPerfectTarget, this]

/-- The metrics covered, for the wrappers. -/
theorem neverElse_mae : NeverElse agg (absoluteErrorStatistic.toMetric : FMetric L K) 0 := fun _ _ _ _ _ _ hp ht ha hb h hx => C96_mae hp ht ha hb h hx
theorem neverElse_mse : NeverElse agg (squaredErrorStatistic.toMetric : FMetric L K) 0 := fun _ _ _ _ _ _ hp ht ha hb h hx => C96_mse hp ht ha hb h hx
theorem neverElse_csi : NeverElse agg (csi : FMetric L K) 1 := fun _ _ _ _ _ _ hp ht ha hb h hx => C96_csi hp ht ha hb h hx
theorem neverElse_ets : NeverElse agg (ets : FMetric L K) 1 := fun _ _ _ _ _ _ hp ht ha hb h hx => C96_ets hp ht ha hb h hx
theorem neverElse_rmse {agg : Aggregator L (FV ℝ)} : NeverElse agg (rmse : FMetric L ℝ) 0 := fun _ _ _ _ _ _ hp ht ha hb h hx => C96_rmse hp ht ha hb h hx

/-- The fair CRPS and the MSE of the ensemble mean of these members, and the equitable threat score above thresholds. -/
example {x : DA ℕ (FV ℚ)} (hx : ValueOf (crpsEnsemble (fun _ => []) [0, 1, 2] "number" false true true) exMaskedMean [("z", exPerfectMembers)] [("z", exPerfectTarget)] "z" x) : OnlyOrNaN 0 x :=
  C96_crps (by simp [IsDict]) (by simp [IsDict]) List.mem_cons_self List.mem_cons_self exPerfectMembers_ok.1 exPerfectMembers_ok.2.1 exPerfectMembers_ok.2.2.2 hx

example {x : DA ℕ (FV ℚ)} {tr : InputTransform ℕ ℚ} (htr : ensembleMean "predictions" "number" true false = .ok tr)
    (hx : ValueOf (wrappedMetric squaredErrorStatistic.toMetric [tr] none) exMaskedMean [("z", exPerfectMembers)] [("z", exPerfectTarget)] "z" x) : OnlyOrNaN 0 x :=
  C96_ensemble_mean neverElse_mse (by simp [Statistic.toMetric]) htr (by simp [IsDict]) (by simp [IsDict]) List.mem_cons_self List.mem_cons_self exPerfectMembers_ok.1 exPerfectMembers_ok.2.2.1
    exPerfectMembers_ok.2.2.2 hx

example {x : DA ℕ (FV ℚ)} {tr : InputTransform ℕ ℚ} {label} (htr : continuousToBinary label "both" (.list [.fin 0, .fin 1]) "threshold" (fun _ => "") none = .ok tr)
    (hx : ValueOf (wrappedMetric ets [tr] none) exMaskedMean [("z", exPerfectForecast)] [("z", exPerfectTarget)] "z" x) : OnlyOrNaN 1 x :=
  C96_thresholds neverElse_ets (by simp [ets, metric4, perVariableMetric]) htr (by simp [IsDict]) (by simp [IsDict]) List.mem_cons_self List.mem_cons_self exPerfect hx

/-- A dry threshold of 1 mm and a wet threshold of 0.5 mm: a perfect forecast of 0.7 mm, with a quarter of the days dry, scores 16/3. -/
example : seepsScore (1 : ℚ) (.fin (1 / 4)) (.fin (1 / 2000)) (.fin (7 / 10000)) (.fin (7 / 10000)) = .fin (16 / 3) := by
  rw [(C96_seeps_inverted (d := (1 : ℚ)) (by norm_num) (by norm_num) (by norm_num) (by norm_num)).1]
  norm_num

end WBX
