import Verif.Props.Perfect
import Verif.Props.Wind
import Verif.Props.ACC
import Verif.Props.Seeps
import Verif.Props.Reliability
import Verif.Model.Wrappers
import Verif.Spec.Array

/-!
# C96: wind vectors, SEDI, SEEPS, ACC, thresholds and ensembles
-/

set_option linter.unusedSectionVars false

namespace WBX
open DA Aggregator

section wind
variable {L K : Type} [DecidableEq L] [Field K] [LinearOrder K] [IsStrictOrderedRing K] {agg : Aggregator L (FV K)} {p t : Vars (StatVar L (FV K))} {x : DA L (FV K)}

/-- Every variable that both sides have is perfect. -/
def PerfectVars (p t : Vars (StatVar L (FV K))) : Prop := ∀ v a b, (v, a) ∈ p → (v, b) ∈ t → Perfect a b

theorem windLoop_perfect (h : PerfectVars p t) : (l : List (String × String × String)) → (out r : Vars (Option (StatVar L (FV K)))) →
    (∀ w s, (w, some s) ∈ out → OnlyOrNaN 0 s.arr) → windLoop p t l out = .ok r → ∀ w s, (w, some s) ∈ r → OnlyOrNaN 0 s.arr
  | [], out, r, ho, hr, w, s, hs => by
    simp only [windLoop, Except.ok.injEq] at hr
    subst hr; exact ho w s hs
  | (u, v, vec) :: l, out, r, ho, hr, w, s, hs => by
    rw [windLoop] at hr
    obtain ⟨pu, h1, hr⟩ := bind_pair_ok _ _ _ hr
    obtain ⟨pv, h2, hr⟩ := bind_pair_ok _ _ _ hr
    obtain ⟨tu, h3, hr⟩ := bind_pair_ok _ _ _ hr
    obtain ⟨tv, h4, hr⟩ := bind_pair_ok _ _ _ hr
    refine windLoop_perfect h l _ r (fun w' s' hs' => ?_) hr w s hs
    rcases pyInsert_mem_iff _ _ hs' with ⟨-, he⟩ | hin
    · simp only [Option.some.injEq] at he
      subst he
      exact (squaredError_only (h _ _ _ (pyItem_mem h1) (pyItem_mem h3))).both (fun _ _ => NanOr.zero_add) (squaredError_only (h _ _ _ (pyItem_mem h2) (pyItem_mem h4)))
    · exact ho w' s' hin

theorem wind_only (h : PerfectVars p t) {u v vector : List String} {st : FStatistic L K} (hst : windVectorSquaredError u v vector = .ok st) {r} (hr : st.compute p t = .ok r) {w : String}
    {s : StatVar L (FV K)} (hs : (w, some s) ∈ r) : OnlyOrNaN 0 s.arr := by
  unfold windVectorSquaredError at hst
  obtain ⟨vs, -, hst⟩ := bind_pair_ok _ _ _ hst
  cases hst
  exact windLoop_perfect h vs [] r (fun _ _ h => by simp at h) hr w s hs

/-- **C96** The wind vector squared error. -/
theorem C96_wind (h : PerfectVars p t) {u v vector : List String} {st : FStatistic L K} (hst : windVectorSquaredError u v vector = .ok st) {w : String}
    (hx : ValueOf st.toMetric agg p t w x) : OnlyOrNaN 0 x :=
  isMeanOf_only (fun _ _ hr hs => wind_only h hst hr hs) (valueOf_statistic hx)

/-- **C96** The wind vector RMSE. -/
theorem C96_wind_rmse {agg : Aggregator L (FV ℝ)} {p t : Vars (StatVar L (FV ℝ))} {x : DA L (FV ℝ)} (h : PerfectVars p t) {u v vector : List String}
    {m : FMetric L ℝ} (hm : windVectorRMSE u v vector = .ok m) {w : String} (hx : ValueOf m agg p t w x) : OnlyOrNaN 0 x := by
  have hm' := hm
  unfold windVectorRMSE at hm'
  obtain ⟨st, hst, -⟩ := bind_pair_ok _ _ _ hm'
  obtain ⟨vars, s, q, h1, h2, h3, rfl⟩ := windVectorRMSE_value hst hm hx
  exact (aggregate_only (wind_only h hst h1 h2) h3).map (fun _ => NanOr.sqrt)

end wind

section seeps
variable {L K : Type} [DecidableEq L] [Field K] [LinearOrder K] [IsStrictOrderedRing K] {agg : Aggregator L (FV K)} {p t : Vars (StatVar L (FV K))} {x : DA L (FV K)}

theorem NanOr.list_sum : (l : List (FV K)) → (∀ y ∈ l, NanOr 0 y) → NanOr 0 l.sum
  | [], _ => .inr rfl
  | y :: l, h => by
    rw [List.sum_cons]
    exact (h y (by simp)).zero_add (NanOr.list_sum l (fun z hz => h z (by simp [hz])))

theorem cat_or (d : K) (w x : FV K) (c : SeepsCat) : seepsCat d w x c = FV.nan ∨ seepsCat d w x c = FV.fin 0 ∨ seepsCat d w x c = FV.fin 1 := by
  unfold seepsCat FV.keepIf FV.ofBool
  dsimp only
  split_ifs
  · exact .inr (.inr rfl)
  · exact .inr (.inl rfl)
  · exact .inl rfl

/-- The two categories of one value exclude each other if the wet threshold is not below the dry one. -/
theorem cat_excl {d : K} {w : FV K} (hw : FV.le w (FV.fin (d / 1000)) = false) (x : FV K) {f c : SeepsCat} (hfc : f ≠ c) : NanOr 0 (seepsCat d w x f * seepsCat d w x c) := by
  have hex : ∀ u u' : Bool, (u && u') = false → NanOr 0 (FV.keepIf (FV.ofBool u) (!x.isnan) * FV.keepIf (FV.ofBool u') (!x.isnan) : FV K) := by
    intro u u' huu
    unfold FV.keepIf FV.ofBool
    split_ifs with h1 h2 h3
    · rw [h2, h3] at huu; cases huu
    · right; simp [FV.one_def, FV.zero_def]
    · right; simp [FV.one_def, FV.zero_def]
    · right; simp [FV.zero_def]
    · left; simp
  unfold seepsCat
  cases f <;> cases c <;> first | exact absurd rfl hfc | (refine hex _ _ ?_)
  all_goals (rcases x with _ | s | x <;> rcases w with _ | s' | w <;> simp [FV.le, FV.lt] at hw ⊢)
  all_goals first
    | (intros; linarith)
    | (intros; simp_all; done)
    | (intros; order)

theorem score_only {d : K} {w : FV K} (hw : FV.le w (FV.fin (d / 1000)) = false) (p1 x : FV K) : NanOr 0 (seepsScore d p1 w x x) := by
  unfold seepsScore
  refine NanOr.list_sum _ (fun y hy => ?_)
  obtain ⟨f, -, hy⟩ := List.mem_flatMap.mp hy
  obtain ⟨c, -, rfl⟩ := List.mem_map.mp hy
  by_cases hfc : f = c
  · subst hfc
    have hm : seepsMatrix p1 f f = FV.fin 0 := by
      unfold seepsMatrix
      cases f <;> simp [FV.zero_def]
    rw [hm, FV.mul_comm']
    exact NanOr.zero_mul .self _
  · exact (cat_excl hw x hfc).zero_mul _

theorem score_nan (d : K) (p1 w x y : FV K) (h : x = FV.nan ∨ y = FV.nan) : seepsScore d p1 w x y = FV.nan := by
  have hc : ∀ c, seepsCat d w FV.nan c = FV.nan := fun c => C28_category_nan d w c
  unfold seepsScore seepsCats
  rcases h with rfl | rfl <;> simp [hc]

/-- **C96** SEEPS, if no wet threshold of the climatology is at or below the dry threshold: for the variable `v` of the lists given to the constructor. -/
theorem C96_seeps (hp : IsDict p) (ht : IsDict t) {v : String} {a b : StatVar L (FV K)} (ha : (v, a) ∈ p) (hb : (v, b) ∈ t) (h : Perfect a b) {name : String} {names : List String}
    {dryMm minP1 maxP1 : List K} {clim : Vars (SeepsClimatology L K)} {select meanP1} {st : FStatistic L K} (hst : seeps name names dryMm minP1 maxP1 clim select meanP1 = .ok st)
    (hw : ∀ d ∈ dryMm, ∀ c ∈ clim, ∀ wet, select a c.2.threshold = .ok wet → ∀ e, wet.InDom e → FV.le (wet.val e) (FV.fin (d / 1000)) = false)
    (hx : ValueOf st.toMetric agg p t v x) : OnlyOrNaN 0 x := by
  refine isMeanOf_only (fun vars s hc hs => ?_) (valueOf_statistic hx)
  unfold seeps at hst
  split_ifs at hst
  cases hst
  rcases seepsLoop_mem clim select meanP1 p t _ [] vars hc v (some s) hs with hin | ⟨d, lo, hi, a', b', c, wet, p1, s', m, ma, mb, mc, k1, k2, k3, k4⟩
  · simp at hin
  have e1 := (pyItem_ok_iff hp).mpr ma; rw [(pyItem_ok_iff hp).mpr ha] at e1
  have e2 := (pyItem_ok_iff ht).mpr mb; rw [(pyItem_ok_iff ht).mpr hb] at e2
  cases e1; cases e2
  simp only [Option.some.injEq] at k4
  subst k4
  have hd : d ∈ dryMm := (List.of_mem_zip (List.of_mem_zip m).2).1
  have hmain : ∀ arr : DA L (FV K), arr = DA.zipWith FV.keepIf
      ((DA.zipWith (fun (x : FV K × FV K) (y : FV K × FV K) => (x.1, x.2, y.1, y.2)) (DA.zipWith Prod.mk a.arr b.arr) (DA.zipWith Prod.mk wet p1)).map
        (fun x => seepsScore d x.2.2.2 x.2.2.1 x.1 x.2.1)) (p1.map (fun x => FV.le (FV.fin lo) x && FV.le x (FV.fin hi))) → OnlyOrNaN 0 arr := by
    rintro arr rfl e he
    have h1 : (DA.zipWith (fun (x : FV K × FV K) (y : FV K × FV K) => (x.1, x.2, y.1, y.2)) (DA.zipWith Prod.mk a.arr b.arr) (DA.zipWith Prod.mk wet p1)).InDom e :=
      fun k hk => (inDom_zipWith.mp he).1 k hk
    have h2 : (DA.zipWith Prod.mk a.arr b.arr).InDom e := inDom_zipLeft h1
    have h3 : (DA.zipWith Prod.mk wet p1).InDom e := inDom_zipRight h1
    show NanOr 0 (FV.keepIf (seepsScore d (p1.val e) (wet.val e) (a.arr.val e) (b.arr.val e)) _)
    refine NanOr.keepIf ?_ _
    have hwe := hw d hd (v, c) mc wet k1 e (inDom_zipLeft h3)
    rcases h e (inDom_zipLeft h2) (inDom_zipRight h2) with h | h | h
    · exact .inl (score_nan _ _ _ _ _ (.inl h))
    · exact .inl (score_nan _ _ _ _ _ (.inr h))
    · rw [h]; exact score_only hwe _ _
  unfold seepsPerVariable at k3
  dsimp only at k3
  refine hmain _ ?_
  split at k3
  · cases k3
  · cases k3; rfl
  · cases k3; rfl
  · cases k3; rfl

/-- **C96 ★** With a wet threshold at or below the dry threshold (a `dry_threshold_mm` above the one of the climatology), rain between the two is at once dry and heavy, and a perfect forecast of it is
scored worse than 0. -/
theorem C96_seeps_inverted {d w pr x : K} (h0 : 0 < pr) (h1 : pr < 1) (hwx : w ≤ x) (hxd : x ≤ d / 1000) :
    seepsScore d (FV.fin pr) (FV.fin w) (FV.fin x) (FV.fin x) = FV.fin (1 / 2 * (4 / (1 - pr)) + 1 / 2 * (1 / pr + 3 / (2 + pr))) ∧
      0 < 1 / 2 * (4 / (1 - pr)) + 1 / 2 * (1 / pr + 3 / (2 + pr)) := by
  have g1 : 0 < 1 - pr := by linarith
  have g2 : 0 < 2 + pr := by linarith
  refine ⟨?_, by positivity⟩
  have c1 : seepsCat d (FV.fin w) (FV.fin x) .dry = FV.fin 1 := by simp [seepsCat, FV.keepIf, FV.ofBool, FV.isnan, FV.le, hxd, FV.one_def]
  have c2 : seepsCat d (FV.fin w) (FV.fin x) .light = FV.fin 0 := by simp [seepsCat, FV.keepIf, FV.ofBool, FV.isnan, FV.lt, not_lt.mpr hxd, FV.zero_def]
  have c3 : seepsCat d (FV.fin w) (FV.fin x) .heavy = FV.fin 1 := by simp [seepsCat, FV.keepIf, FV.ofBool, FV.isnan, FV.le, hwx, FV.one_def]
  unfold seepsScore seepsCats
  have m : ∀ f c, seepsMatrix (FV.fin pr) f c = FV.fin (seepsTable pr f c) := fun f c => seepsMatrix_fin h0 h1 f c
  simp only [List.flatMap_cons, List.flatMap_nil, List.map_cons, List.map_nil, List.append_nil, List.cons_append, List.nil_append, List.sum_cons, List.sum_nil, c1, c2, c3, m,
    FV.fin_mul_fin, FV.fin_add_fin, FV.zero_def]
  congr 1
  simp only [seepsTable]
  field_simp
  ring

end seeps

section real
variable {L : Type} [DecidableEq L] {agg : Aggregator L (FV ℝ)} {p t clims : Vars (StatVar L (FV ℝ))} {v : String} {a c al : StatVar L (FV ℝ)} {x : DA L (FV ℝ)}
  {align : StatVar L (FV ℝ) → StatVar L (FV ℝ) → Except Err (StatVar L (FV ℝ))}

theorem zipWith_self_eq {V W : Type} (f : V → V → W) (s : StatVar L V) : s.zipWith f s = s.map (fun y => f y y) := by
  obtain ⟨⟨dims, coords, val⟩, mask⟩ := s
  have h1 : combineMask mask mask = mask := by
    cases mask with
    | none => rfl
    | some m => simp [combineMask]
  have h2 : joinCoords (⟨dims, coords, val⟩ : DA L V) ⟨dims, coords, val⟩ = coords := by
    funext k
    simp [joinCoords]
  unfold StatVar.zipWith StatVar.map DA.zipWith DA.map
  rw [h1, h2]
  simp

/-- **C96** `ACC` of a forecast that is the target, mask included. -/
theorem C96_acc (hp : IsDict p) (ht : IsDict t) (hcl : IsDict clims) (ha : (v, a) ∈ p) (hb : (v, a) ∈ t) (hc : (v, c) ∈ clims) (hal : align a c = .ok al)
    (hx : ValueOf (acc clims align) agg p t v x) : OnlyOrNaN 1 x := by
  obtain ⟨q1, q2, q3, c1, c2, c3, rfl⟩ := acc_aggregates hp ht hcl ha hb hc hal hx
  have e2 : squaredTargetAnomaly a a al = squaredPredictionAnomaly a a al := rfl
  have e3 : anomalyCovariance a a al = squaredPredictionAnomaly a a al := zipWith_self_eq _ _
  rw [e2, c1] at c2
  rw [e3, c1] at c3
  cases c2; cases c3
  intro e _
  show NanOr 1 ((DA.zipWith (· / ·) q1.1 q1.2).val e / (FV.sqrt ((DA.zipWith (· / ·) q1.1 q1.2).val e) * FV.sqrt ((DA.zipWith (· / ·) q1.1 q1.2).val e)))
  generalize (DA.zipWith (· / ·) q1.1 q1.2).val e = y
  rcases y with _ | s | y
  · simp [NanOr]
  · cases s
    · exact .inl rfl
    · left; simp [FV.sqrt]
  · by_cases hy : y < 0
    · left; simp [FV.sqrt, hy]
    · have hy' : 0 ≤ y := not_lt.mp hy
      rw [FV.sqrt, if_neg hy, FV.fin_mul_fin, Real.mul_self_sqrt hy']
      exact NanOr.div_self _

/-- The largest value `SEDI` can take (hit rate `1 - 1e-6`, false alarm rate `1e-6`). -/
noncomputable def sediBest : ℝ := (Real.log (1 / 1000000) - Real.log (1 - 1 / 1000000)) / (Real.log (1 / 1000000) + Real.log (1 - 1 / 1000000))

theorem sedi_value {H F : FV ℝ} (hH : NanOr 1 H) (hF : NanOr 0 F) :
    let h := FV.clip (1 / 1000000) (1 - 1 / 1000000) H
    let f := FV.clip (1 / 1000000) (1 - 1 / 1000000) F
    NanOr sediBest ((f.log - h.log + (FV.fin 1 - h).log - (FV.fin 1 - f).log) / (h.log + f.log + (FV.fin 1 - h).log + (FV.fin 1 - f).log)) := by
  intro h f
  rcases hH with rfl | rfl
  · left; simp [h, FV.clip, FV.log]
  rcases hF with rfl | rfl
  · left; simp [f, FV.clip, FV.log]
  have e1 : h = FV.fin (1 - 1 / 1000000) := by simp only [h, FV.clip]; congr 1; norm_num
  have e2 : f = FV.fin (1 / 1000000) := by simp only [f, FV.clip]; congr 1; norm_num
  have e3 : (FV.fin 1 - h : FV ℝ) = FV.fin (1 / 1000000) := by rw [e1, FV.fin_sub_fin]; congr 1; norm_num
  have e4 : (FV.fin 1 - f : FV ℝ) = FV.fin (1 - 1 / 1000000) := by rw [e2, FV.fin_sub_fin]
  have l1 : FV.log (FV.fin (1 / 1000000)) = FV.fin (Real.log (1 / 1000000)) := by
    unfold FV.log; dsimp only; rw [if_neg (by norm_num), if_neg (by norm_num)]
  have l2 : FV.log (FV.fin (1 - 1 / 1000000)) = FV.fin (Real.log (1 - 1 / 1000000)) := by
    unfold FV.log; dsimp only; rw [if_neg (by norm_num), if_neg (by norm_num)]
  have lA : Real.log (1 / 1000000) < 0 := Real.log_neg (by norm_num) (by norm_num)
  have lB : Real.log (1 - 1 / 1000000) < 0 := Real.log_neg (by norm_num) (by norm_num)
  right
  rw [e3, e4, e1, e2, l1, l2]
  unfold sediBest
  generalize Real.log (1 / 1000000) = A at *
  generalize Real.log (1 - 1 / 1000000) = B at *
  rw [FV.fin_sub_fin, FV.fin_add_fin, FV.fin_sub_fin, FV.fin_add_fin, FV.fin_add_fin, FV.fin_add_fin, FV.fin_div_fin_of_ne _ (by linarith)]
  congr 1
  rw [div_eq_div_iff (by linarith) (by linarith)]
  ring

/-- **C96 ★** `SEDI` of a perfect forecast is NaN or one number, which is below 1. -/
theorem C96_sedi {b : StatVar L (FV ℝ)} (hp : IsDict p) (ht : IsDict t) (ha : (v, a) ∈ p) (hb : (v, b) ∈ t) (h : Perfect a b) (hx : ValueOf sedi agg p t v x) :
    OnlyOrNaN sediBest x ∧ 0 < sediBest ∧ sediBest < 1 := by
  have lA : Real.log (1 / 1000000) < 0 := Real.log_neg (by norm_num) (by norm_num)
  have lB : Real.log (1 - 1 / 1000000) < 0 := Real.log_neg (by norm_num) (by norm_num)
  have lAB : Real.log (1 / 1000000) < Real.log (1 - 1 / 1000000) := Real.log_lt_log (by norm_num) (by norm_num)
  have hden : Real.log (1 / 1000000) + Real.log (1 - 1 / 1000000) < 0 := by linarith
  refine ⟨?_, div_pos_of_neg_of_neg (by linarith) hden, by
    unfold sediBest
    rw [div_lt_one_of_neg hden]; linarith⟩
  obtain ⟨y1, y2, y3, y4, h1, h2, h3, h4, rfl⟩ := valueOf_metric4 (by simp) (by simp) (by simp) (by simp) (by simp) (by simp) hx
  have hH : OnlyOrNaN 1 (y1.div (y1.add y3)) := fun e he => by
    show NanOr 1 (y1.val e / (y1.val e + y3.val e))
    rcases fn_only hp ht ha hb h h3 e (inDom_zipRight (inDom_zipRight he)) with z | z <;> rw [z]
    · simp [NanOr]
    · rw [← FV.zero_def, add_zero]; exact NanOr.div_self _
  have hF : OnlyOrNaN 0 (y2.div (y2.add y4)) := (fp_only hp ht ha hb h h2).left (fun _ y hx => hx.zero_div y) _
  intro e he
  have he' := he
  simp only [sediFormula, DA.sub, DA.add] at he'
  unfold DA.div at he'
  have g1 := (inDom_zipWith.mp (inDom_zipWith.mp (inDom_zipWith.mp (inDom_zipWith.mp he').1).1).1)
  exact sedi_value (hH e g1.2) (hF e g1.1)

end real

end WBX
