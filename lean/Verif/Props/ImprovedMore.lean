import Verif.Props.Improved
import Verif.Props.Exceedance
import Verif.Props.Seeps
import Verif.Props.RPS
import Verif.Props.PerfectEnsemble

/-!
# C97: exceedance, thresholded fields, SEEPS, RPS and ensembles
-/

set_option linter.unusedSectionVars false

namespace WBX
open DA Aggregator
variable {L K : Type} [DecidableEq L] [Field K] [LinearOrder K] [IsStrictOrderedRing K] {agg : Aggregator L (FV K)} {p p' t : Vars (StatVar L (FV K))} {v : String}
  {a a' b : StatVar L (FV K)} {x x' : DA L (FV K)} {e : Dim → L} {cs : Finset (Dim → L)}

/-- Two statistics evaluated on the same cells with the same weights, the second one not above the first. -/
theorem notAbove_means {s s' : StatVar L (FV K)} (E : Evaluated agg s e cs) (E' : Evaluated agg s' e cs) (hW : GoodWeights agg s cs) (hw : cellWeight agg s' = cellWeight agg s)
    {q q' : DA L (FV K) × DA L (FV K)} (h : agg.aggregateStatVar s = .ok (some q)) (h' : agg.aggregateStatVar s' = .ok (some q'))
    (hle : ∀ e' ∈ cs, (s'.arr.val e').num ≤ (s.arr.val e').num) :
    NotAbove ((DA.zipWith (· / ·) q.1 q.2).val e) ((DA.zipWith (· / ·) q'.1 q'.2).val e) (Somewhere agg s cs (fun c => (s'.arr.val c).num < (s.arr.val c).num)) := by
  rw [evaluated_mean E h hW.2.ne', evaluated_mean E' h' (by rw [hw]; exact hW.2.ne'), wmean_congr hw (fun _ _ => rfl)]
  exact notAbove_wmean hW hle

theorem exceed_isnan (r h : FV K) : (FV.keepIf (FV.keepIf ((FV.ofBool (FV.lt h r) : FV K)) (!r.isnan)) (!h.isnan)).isnan = (r.isnan || h.isnan) := by
  generalize FV.lt h r = i0
  rcases hr : r.isnan <;> rcases hh : h.isnan <;> cases i0 <;> simp [FV.keepIf, FV.ofBool, FV.isnan, FV.one_def, FV.zero_def]

theorem exceed_isFin (r h : FV K) : (FV.keepIf (FV.keepIf ((FV.ofBool (FV.lt h r) : FV K)) (!r.isnan)) (!h.isnan)).isFin =
    !(FV.keepIf (FV.keepIf ((FV.ofBool (FV.lt h r) : FV K)) (!r.isnan)) (!h.isnan)).isnan := by
  generalize FV.lt h r = i0
  rcases hr : r.isnan <;> rcases hh : h.isnan <;> cases i0 <;> simp [FV.keepIf, FV.ofBool, FV.isnan, FV.isFin, FV.one_def, FV.zero_def]

theorem exceed_mono {r r' : K} (hr : r' ≤ r) (h : FV K) : (FV.keepIf (FV.keepIf (FV.ofBool (FV.lt h (FV.fin r')) : FV K) (!(FV.fin r').isnan)) (!h.isnan)).num ≤
    (FV.keepIf (FV.keepIf (FV.ofBool (FV.lt h (FV.fin r)) : FV K) (!(FV.fin r).isnan)) (!h.isnan)).num := by
  rcases h with _ | i | h
  · simp [FV.keepIf, FV.isnan, FV.num]
  · simp [FV.keepIf, FV.isnan, FV.lt]
  · by_cases h1 : h < r'
    · have h2 := lt_of_lt_of_le h1 hr
      simp [FV.keepIf, FV.isnan, FV.lt, h1, h2]
    · by_cases h2 : h < r <;> simp [FV.keepIf, FV.isnan, FV.lt, h1, h2, FV.ofBool, FV.num, FV.one_def, FV.zero_def]

/-- **C97** The share of errors above a threshold, for any thresholds. -/
theorem C97_exceedance {th : DA L (FV K)} (hp : (p.map Prod.fst).Nodup) (hp' : (p'.map Prod.fst).Nodup) (ht : (t.map Prod.fst).Nodup) (ha : (v, a) ∈ p) (ha' : (v, a') ∈ p') (hb : (v, b) ∈ t)
    (E : Evaluated agg (errorExceedance th a b) e cs) (hW : GoodWeights agg (errorExceedance th a b) cs) (hS : SameCells a a')
    (hc : ∀ e' ∈ cs, AsClose a a' b e') (hx : ValueOf (errorExceedanceStatistic th).toMetric agg p t v x) (hx' : ValueOf (errorExceedanceStatistic th).toMetric agg p' t v x') :
    NotAbove (x.val e) (x'.val e) (Somewhere agg (errorExceedance th a b) cs
      (fun c => ((errorExceedance th a' b).arr.val c).num < ((errorExceedance th a b).arr.val c).num)) := by
  have val : ∀ (f : StatVar L (FV K)) e', (errorExceedance th f b).arr.val e' = FV.keepIf (FV.keepIf (FV.ofBool (FV.lt (th.val e') (f.arr.val e' - b.arr.val e').abs))
        (!(f.arr.val e' - b.arr.val e').abs.isnan)) (!(th.val e').isnan) := fun _ _ => rfl
  have hn : ∀ e', ((errorExceedance th a' b).arr.val e').isnan = ((errorExceedance th a b).arr.val e').isnan := fun e' => by
    rw [val, val, exceed_isnan, exceed_isnan, FV.abs_isnan, FV.abs_isnan, (FV.sub_patterns (hS.values e') _).1]
  have hf : ∀ (f : StatVar L (FV K)) e', ((errorExceedance th f b).arr.val e').isFin = !((errorExceedance th f b).arr.val e').isnan := fun f e' => by
    rw [val]; exact exceed_isFin _ _
  obtain ⟨E', hw⟩ := E.transfer (s' := errorExceedance th a' b)
    (by simp only [errorExceedance, StatVar.zipWith, StatVar.map, DA.zipWith, DA.map, hS.dims])
    (by funext d; simp only [errorExceedance, StatVar.zipWith, StatVar.map, DA.zipWith, DA.map, DA.joinCoords, hS.dims, hS.coords])
    (by simp only [errorExceedance, StatVar.zipWith, StatVar.map, hS.mask]) (fun _ => hn) (fun e' _ h => by rw [hf] at h ⊢; rw [hn]; exact h)
  obtain ⟨q, hq, rfl⟩ := isMeanOf_statOf hp ht ha hb (valueOf_statistic hx)
  obtain ⟨q', hq', rfl⟩ := isMeanOf_statOf hp' ht ha' hb (valueOf_statistic hx')
  refine notAbove_means E E' hW hw hq hq' (fun e' he' => ?_)
  rcases hS.values e' with ⟨f1, f2⟩ | h
  · have hcl := hc e' he'
    unfold AsClose at hcl
    rw [val, val]
    rw [FV.eq_fin_num f1, FV.eq_fin_num f2]
    rcases hy : b.arr.val e' with _ | i | y
    · simp
    · simp [FV.sub_def, Neg.neg, FV.neg]
    · rw [hy] at hcl
      rw [FV.fin_sub_fin, FV.fin_sub_fin]
      exact exceed_mono hcl _
  · rw [val, val, h]

/-! ### Thresholded fields -/

/-- A forecast moved towards the target, thresholded, is the thresholded forecast with some values replaced by those of the thresholded target. -/
theorem corrected_binarize (hS : SameCells a a') (hbt : ∀ e', a'.arr.val e' ≠ a.arr.val e' → (b.arr.val e').isFin = true ∧ InBetween (a.arr.val e').num (a'.arr.val e').num (b.arr.val e').num)
    (th : DA L (FV K)) : Corrected (binarize th a) (binarize th a') (binarize th b) := by
  refine ⟨by simp only [binarize, StatVar.zipWith, StatVar.map, DA.zipWith, DA.map, hS.dims], by
    funext d; simp only [binarize, StatVar.zipWith, StatVar.map, DA.zipWith, DA.map, DA.joinCoords, hS.dims, hS.coords], by
    simp only [binarize, StatVar.zipWith, StatVar.map, hS.mask], fun e' => ?_⟩
  have val : ∀ s : StatVar L (FV K), (binarize th s).arr.val e' = FV.keepIf (FV.ofBool (FV.lt (th.val e') (s.arr.val e'))) (!(s.arr.val e').isnan) := fun _ => rfl
  by_cases h : a'.arr.val e' = a.arr.val e'
  · exact .inl (by rw [val, val, h])
  · rcases hS.values e' with ⟨f1, f2⟩ | h'
    · obtain ⟨f3, hb⟩ := hbt e' h
      rw [val, val, val, FV.eq_fin_num f1, FV.eq_fin_num f2, FV.eq_fin_num f3]
      generalize (a.arr.val e').num = y at hb ⊢
      generalize (a'.arr.val e').num = y' at hb ⊢
      generalize (b.arr.val e').num = z at hb ⊢
      have hfin : ∀ i : Bool, (FV.ofBool i : FV K).isFin = true := fun i => by cases i <;> rfl
      simp only [FV.keepIf, FV.isnan, Bool.not_false, if_true, hfin, and_true]
      rcases th.val e' with _ | i | h
      · exact .inl rfl
      · exact .inl rfl
      · unfold FV.lt
        rcases hb with ⟨h1, h2⟩ | ⟨h1, h2⟩
        · by_cases g : h < y
          · exact .inl (by simp [g, lt_of_lt_of_le g h1])
          · by_cases g' : h < y'
            · exact .inr (by simp [g', lt_of_lt_of_le g' h2])
            · exact .inl (by simp [g, g'])
        · by_cases g : h < y'
          · exact .inl (by simp [g, lt_of_lt_of_le g h2])
          · have : ¬ h < z := fun g' => g (lt_of_lt_of_le g' h1)
            exact .inr (by simp [g, this])
    · exact absurd h' h

theorem transformedVars_unique {side : String} {trs : List (InputTransform L K)} {u u1 u2 : Vars (StatVar L (FV K))} (h1 : TransformedVars side trs u u1) (h2 : TransformedVars side trs u u2) : u1 = u2 := by
  unfold TransformedVars at h1 h2
  induction h1 generalizing u2 with
  | nil => cases h2; rfl
  | @cons kv kv' l l' hkv _ ih =>
    cases h2 with
    | @cons _ kv'' _ l'' hkv'' h2 =>
      rw [ih h2]
      obtain ⟨e1, e2⟩ := hkv
      obtain ⟨e3, e4⟩ := hkv''
      rw [e2] at e4
      exact congrArg (· :: l'') (Prod.ext (e1.trans e3.symm) (Except.ok.inj e4))

theorem wrapped_split {m : FMetric L K} (hne : m.statistics ≠ []) {trs : List (InputTransform L K)} {suffix : Option String} (hx : ValueOf (wrappedMetric m trs suffix) agg p t v x) :
    ∃ u w, TransformedVars "predictions" trs p u ∧ TransformedVars "targets" trs t w ∧ ValueOf m agg u w v x := by
  obtain ⟨r, hr, hv⟩ := hx
  obtain ⟨ks, l, hl⟩ := List.exists_cons_of_ne_nil hne
  have hr' := hr
  unfold metricAlone at hr'
  obtain ⟨means, hmeans, -⟩ := bind_pair_ok _ _ _ hr'
  have hF := means_forall agg p t _ _ hmeans
  unfold wrappedMetric at hF
  rw [hl, List.map_cons, List.forall₂_cons_left_iff] at hF
  obtain ⟨_, _, ⟨-, vars, hvars, -⟩, -⟩ := hF
  obtain ⟨u, w, h1, h2, -⟩ := (C38_compute trs suffix ks.2 p t vars).mp hvars
  exact ⟨u, w, h1, h2, r, (C38_values m trs suffix agg h1 h2 r).mp hr, hv⟩

/-- **C97** Metrics of thresholded fields (`ContinuousToBinary` on both sides): moving the forecast towards the target corrects the thresholded forecast, for every threshold at once, and the wrapped
metric is the metric of the thresholded fields; so the theorems about yes/no forecasts above apply. -/
theorem C97_thresholds {m : FMetric L K} (hne : m.statistics ≠ []) {label : FV K → L} {th : Thresholds L K} {d : Dim} {str : FV K → String} {s suffix : Option String} {tr : InputTransform L K}
    (htr : continuousToBinary label "both" th d str s = .ok tr) (hp : IsDict p) (hp' : IsDict p') (ht : IsDict t) (ha : (v, a) ∈ p) (ha' : (v, a') ∈ p') (hb : (v, b) ∈ t) (hS : SameCells a a')
    (hbt : ∀ e', a'.arr.val e' ≠ a.arr.val e' → (b.arr.val e').isFin = true ∧ InBetween (a.arr.val e').num (a'.arr.val e').num (b.arr.val e').num)
    (hx : ValueOf (wrappedMetric m [tr] suffix) agg p t v x) (hx' : ValueOf (wrappedMetric m [tr] suffix) agg p' t v x') :
    ∃ q q' w T, IsDict q ∧ IsDict q' ∧ IsDict w ∧ (v, binarize T a) ∈ q ∧ (v, binarize T a') ∈ q' ∧ (v, binarize T b) ∈ w ∧
      Corrected (binarize T a) (binarize T a') (binarize T b) ∧ ValueOf m agg q w v x ∧ ValueOf m agg q' w v x' := by
  obtain ⟨q, w, h1, h2, h3⟩ := wrapped_split hne hx
  obtain ⟨q', w', h1', h2', h3'⟩ := wrapped_split hne hx'
  cases transformedVars_unique h2 h2'
  unfold continuousToBinary at htr
  obtain ⟨text, -, htr⟩ := bind_pair_ok _ _ _ htr
  unfold mkTransform at htr
  rw [if_pos (by simp)] at htr
  cases htr
  obtain ⟨A, ga, ma⟩ := transformedVars_item h1 ha
  obtain ⟨A', ga', ma'⟩ := transformedVars_item h1' ha'
  obtain ⟨B, gb, mb⟩ := transformedVars_item h2 hb
  simp only [transformed, touches, or_true, if_true, bind_ok_iff, Except.ok.injEq, exists_eq_right] at ga ga' gb
  obtain ⟨T, g1, ga⟩ := ga
  obtain ⟨T', g2, ga'⟩ := ga'
  obtain ⟨T'', g3, gb⟩ := gb
  rw [g1] at g2 g3
  cases g2; cases g3; cases ga; cases ga'; cases gb
  exact ⟨q, q', w, T, by unfold IsDict; rw [transformedVars_keys h1]; exact hp, by unfold IsDict; rw [transformedVars_keys h1']; exact hp', by
    unfold IsDict; rw [transformedVars_keys h2]; exact ht, ma, ma', mb, corrected_binarize hS hbt T, h3, h3'⟩

/-! ### SEEPS -/

theorem seepsTable_mono {pr : K} (h0 : 0 < pr) (h1 : pr < 1) {d w y y' z : K} (hdw : d < w) (h : InBetween y y' z) :
    seepsTable pr (seepsClass d w y') (seepsClass d w z) ≤ seepsTable pr (seepsClass d w y) (seepsClass d w z) := by
  have a : (0 : K) < 1 - pr := sub_pos.mpr h1
  have b : (0 : K) < 2 + pr := by positivity
  have t1 : (3 : K) / (2 * (1 - pr)) ≤ 2 / (1 - pr) := by
    rw [div_le_div_iff₀ (by positivity) a]; nlinarith
  have t2 : (0 : K) ≤ 1 / (2 * pr) := by positivity
  have t3 : (0 : K) ≤ 3 / (2 * (2 + pr)) := by positivity
  have t4 : (0 : K) ≤ 1 / (2 * (1 - pr)) := by positivity
  have t5 : (0 : K) ≤ 3 / (2 * (1 - pr)) := by positivity
  unfold seepsClass
  rcases h with ⟨g1, g2⟩ | ⟨g1, g2⟩ <;> split_ifs <;> simp only [seepsTable] <;> first | linarith | (exfalso; linarith)

/-- **C97** SEEPS: rain amounts moved towards the observed ones never score worse, whatever the climatology (dry threshold below the wet one, dry fraction between 0 and 1). -/
theorem C97_seeps {name : String} {dryMm minP1 maxP1 : K} {clim : Vars (SeepsClimatology L K)} (hclim : (clim.map Prod.fst).Nodup) {c : SeepsClimatology L K} (hc : (v, c) ∈ clim)
    {select meanP1} {st} (hst : seeps name [v] [dryMm] [minP1] [maxP1] clim select meanP1 = .ok st) (hp : (p.map Prod.fst).Nodup) (hp' : (p'.map Prod.fst).Nodup) (ht : (t.map Prod.fst).Nodup)
    (ha : (v, a) ∈ p) (ha' : (v, a') ∈ p') (hb : (v, b) ∈ t) (hS : SameCells a a') {wet p1 : DA L (FV K)} (hwet : select a c.threshold = .ok wet) (hwet' : select a' c.threshold = .ok wet)
    (hp1 : meanP1 c.dryFraction = .ok p1) {s s' : StatVar L (FV K)} (hs : seepsPerVariable dryMm minP1 maxP1 wet p1 a b = .ok s) (hs' : seepsPerVariable dryMm minP1 maxP1 wet p1 a' b = .ok s')
    (E : Evaluated agg s e cs) (E' : Evaluated agg s' e cs) (hW : GoodWeights agg s cs) (y y' z w pr : (Dim → L) → K) (h0 : ∀ e' ∈ cs, 0 < pr e') (h1 : ∀ e' ∈ cs, pr e' < 1)
    (hpr : ∀ e' ∈ cs, p1.val e' = FV.fin (pr e')) (hy : ∀ e' ∈ cs, a.arr.val e' = FV.fin (y e')) (hy' : ∀ e' ∈ cs, a'.arr.val e' = FV.fin (y' e')) (hz : ∀ e' ∈ cs, b.arr.val e' = FV.fin (z e'))
    (hwv : ∀ e' ∈ cs, wet.val e' = FV.fin (w e')) (hdw : ∀ e' ∈ cs, dryMm / 1000 < w e') (hbt : ∀ e' ∈ cs, InBetween (y e') (y' e') (z e'))
    (hx : ValueOf st.toMetric agg p t v x) (hx' : ValueOf st.toMetric agg p' t v x') : NotAbove (x.val e) (x'.val e) (Somewhere agg s cs (fun c => (s'.arr.val c).num < (s.arr.val c).num)) := by
  have one : ∀ {p : Vars (StatVar L (FV K))} {a s : StatVar L (FV K)} {x : DA L (FV K)}, (p.map Prod.fst).Nodup → (v, a) ∈ p → select a c.threshold = .ok wet →
      seepsPerVariable dryMm minP1 maxP1 wet p1 a b = .ok s → ValueOf st.toMetric agg p t v x → ∃ q, agg.aggregateStatVar s = .ok (some q) ∧ x = DA.zipWith (· / ·) q.1 q.2 := by
    intro p a s x hp ha hwet hs h
    clear hx hx'
    unfold seeps at hst
    simp only [List.length_singleton, and_self, if_true, Except.ok.injEq] at hst
    subst hst
    obtain ⟨vars, s', q, g1, g2, g3, rfl⟩ := valueOf_statistic h
    have hss : s' = s := by
      rcases seepsLoop_mem clim select meanP1 p t _ [] vars g1 v (some s') g2 with h | ⟨d, lo, hi, a', b', c', w', p', s'', m, ma, mb, mc, k1, k2, k3, k4⟩
      · simp at h
      · simp only [List.zip_cons_cons, List.zip_nil_right, List.mem_singleton, Prod.mk.injEq, true_and] at m
        obtain ⟨rfl, rfl, rfl⟩ := m
        have e1 := (pyItem_ok_iff hp).mpr ma; rw [(pyItem_ok_iff hp).mpr ha] at e1
        have e2 := (pyItem_ok_iff ht).mpr mb; rw [(pyItem_ok_iff ht).mpr hb] at e2
        have e3 := (pyItem_ok_iff hclim).mpr mc; rw [(pyItem_ok_iff hclim).mpr hc] at e3
        simp only [Except.ok.injEq] at e1 e2 e3
        subst e1 e2 e3
        rw [hwet] at k1; rw [hp1] at k2
        simp only [Except.ok.injEq] at k1 k2
        subst k1 k2
        rw [hs] at k3
        simp only [Except.ok.injEq] at k3
        simp only [Option.some.injEq] at k4
        rw [k4, k3]
    subst hss
    exact ⟨q, g3, rfl⟩
  obtain ⟨q, hq, rfl⟩ := one hp ha hwet hs hx
  obtain ⟨q', hq', rfl⟩ := one hp' ha' hwet' hs' hx'
  have shape : ∀ {a s : StatVar L (FV K)}, seepsPerVariable dryMm minP1 maxP1 wet p1 a b = .ok s → s.arr = (DA.zipWith FV.keepIf
      ((DA.zipWith (fun (x : FV K × FV K) (y : FV K × FV K) => (x.1, x.2, y.1, y.2)) (DA.zipWith Prod.mk a.arr b.arr) (DA.zipWith Prod.mk wet p1)).map
        (fun x => seepsScore dryMm x.2.2.2 x.2.2.1 x.1 x.2.1)) (p1.map (fun x => FV.le (FV.fin minP1) x && FV.le x (FV.fin maxP1)))) := by
    intro a s h
    unfold seepsPerVariable at h
    dsimp only at h
    split at h <;> cases h <;> rfl
  have hw : cellWeight agg s' = cellWeight agg s := by
    funext e'
    unfold cellWeight
    rw [E.coordOnly.allFactors_eq (a := s'.arr) (a' := s.arr) ?_ ?_]
    · rw [shape hs, shape hs']
      simp only [DA.zipWith, DA.map, hS.dims]
    · rw [shape hs, shape hs']
      funext d
      simp only [DA.zipWith, DA.map, DA.joinCoords, hS.dims, hS.coords]
  have num : ∀ {a s : StatVar L (FV K)} {y : (Dim → L) → K}, seepsPerVariable dryMm minP1 maxP1 wet p1 a b = .ok s → Evaluated agg s e cs → (∀ e' ∈ cs, a.arr.val e' = FV.fin (y e')) →
      ∀ e' ∈ cs, (s.arr.val e').num = seepsTable (pr e') (seepsClass (dryMm / 1000) (w e') (y e')) (seepsClass (dryMm / 1000) (w e') (z e')) := by
    intro a s y hs E hy e' he'
    have hf := E.finite e' he'
    have hv : s.arr.val e' = FV.keepIf (seepsScore dryMm (p1.val e') (wet.val e') (a.arr.val e') (b.arr.val e')) (FV.le (FV.fin minP1) (p1.val e') && FV.le (p1.val e') (FV.fin maxP1)) := by
      rw [shape hs]; rfl
    rw [hv] at hf ⊢
    unfold FV.keepIf at hf ⊢
    split_ifs at hf ⊢
    · rw [hpr e' he', hy e' he', hz e' he', hwv e' he', C28_score dryMm (hdw e' he') (h0 e' he') (h1 e' he')]
      rfl
    · simp [FV.isFin] at hf
  refine notAbove_means E E' hW hw hq hq' (fun e' he' => ?_)
  rw [num hs E hy e' he', num hs' E' hy' e' he']
  exact seepsTable_mono (h0 e' he') (h1 e' he') (hdw e' he') (hbt e' he')

/-! ### RPS and CRPS -/

/-- **C97** RPS: cumulative probabilities at most as far from those of the target in every bin. -/
theorem C97_rps {binDim : Dim} (hp : (p.map Prod.fst).Nodup) (hp' : (p'.map Prod.fst).Nodup) (ht : (t.map Prod.fst).Nodup) (ha : (v, a) ∈ p) (ha' : (v, a') ∈ p') (hb : (v, b) ∈ t)
    {s s' : StatVar L (FV K)} (h : rankedProbabilityScore binDim a b = .ok (some (some s))) (h' : rankedProbabilityScore binDim a' b = .ok (some (some s'))) (E : Evaluated agg s e cs)
    (hW : GoodWeights agg s cs) (E' : Evaluated agg s' e cs) (hS : SameCells a a') (F F' G : (Dim → L) → L → K)
    (hF : ∀ e' ∈ cs, ∀ l ∈ rpsBins binDim a b, a.arr.val (setLabel e' binDim l) = .fin (F e' l)) (hF' : ∀ e' ∈ cs, ∀ l ∈ rpsBins binDim a b, a'.arr.val (setLabel e' binDim l) = .fin (F' e' l))
    (hG : ∀ e' ∈ cs, ∀ l ∈ rpsBins binDim a b, b.arr.val (setLabel e' binDim l) = .fin (G e' l)) (hc : ∀ e' ∈ cs, ∀ l ∈ rpsBins binDim a b, |F' e' l - G e' l| ≤ |F e' l - G e' l|)
    (hx : ValueOf (rpsStatistic binDim).toMetric agg p t v x) (hx' : ValueOf (rpsStatistic binDim).toMetric agg p' t v x') :
    NotAbove (x.val e) (x'.val e) (Somewhere agg s cs (fun c => ∃ l ∈ rpsBins binDim a b, |F' c l - G c l| < |F c l - G c l|)) := by
  have hbins : rpsBins binDim a' b = rpsBins binDim a b := by unfold rpsBins DA.joinCoords; rw [hS.dims, hS.coords]
  have shape : ∀ {a s : StatVar L (FV K)}, rankedProbabilityScore binDim a b = .ok (some (some s)) → s.arr = DA.sumDim binDim ((((a.zipWith (· - ·) b).map FV.sq).arr).map (fun x => if x.isnan then 0 else x)) := by
    intro a s h
    unfold rankedProbabilityScore at h
    dsimp only at h
    split_ifs at h
    cases h
    rfl
  have hw : cellWeight agg s' = cellWeight agg s := by
    funext e'
    unfold cellWeight
    rw [E.coordOnly.allFactors_eq (a := s'.arr) (a' := s.arr) ?_ ?_]
    · rw [shape h, shape h']
      simp only [StatVar.zipWith, StatVar.map, DA.sumDim, DA.zipWith, DA.map, hS.dims]
    · rw [shape h, shape h']
      funext d
      simp only [StatVar.zipWith, StatVar.map, DA.sumDim, DA.zipWith, DA.map, DA.joinCoords, hS.dims, hS.coords]
  have hW' : GoodWeights agg s' cs := by unfold GoodWeights; rw [hw]; exact hW
  obtain ⟨r, e1, e2, -⟩ := C29_mean hp ht ha hb h E hW F G hF hG hx
  obtain ⟨r', e1', e2', -⟩ := C29_mean hp' ht ha' hb h' E' hW' F' G (by rw [hbins]; exact hF') (by rw [hbins]; exact hG) hx'
  rw [hbins, wmean_congr hw (fun _ _ => rfl)] at e2'
  rw [e1, e1', e2, e2']
  refine (notAbove_wmean hW (fun e' he' => Finset.sum_le_sum (fun l hl => sq_le_sq.mpr (hc e' he' l hl)))).imp ?_
  rintro ⟨c, h1, h2, l, hl, h3⟩
  exact ⟨c, h1, h2, Finset.sum_lt_sum (fun l hl => sq_le_sq.mpr (hc c h1 l hl)) ⟨l, hl, sq_lt_sq.mpr h3⟩⟩

end WBX
