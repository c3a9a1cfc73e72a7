import Verif.Model.Reliability
import Verif.Props.Encodings
import Verif.Props.Categorical

/-!
# C72 (reliability curve)
-/

set_option linter.unusedSectionVars false

namespace WBX
open DA Classical
variable {L K : Type} [DecidableEq L] [Field K] [LinearOrder K] [IsStrictOrderedRing K]

/-- The bin transform of `Reliability`. -/
theorem reliability_ok {tm : TimeLabels L} {label : FV K → L} {binName : L → L → L} {ts : List (FV K)} {d : Dim} {str : FV K → String} {suffix : Option String} {m : FMetric L K}
    (h : reliability tm label binName ts d str suffix = .ok m) : ∃ tr : InputTransform L K, tr.which = "predictions" ∧
      tr.fn = binsFn tm label binName (.list ts) (ts.map label) d true ∧
      m = metric2 ("TruePositives", wrappedStatistic tpStatistic tr) ("FalsePositives", wrappedStatistic fpStatistic tr) (fun tp fp => tp.div (tp.add fp)) := by
  unfold reliability continuousToBins mkTransform at h
  obtain ⟨tr, h1, h2⟩ := bind_ok_iff.mp h
  obtain ⟨s, -, h1⟩ := bind_ok_iff.mp h1
  rw [if_pos (Or.inl rfl), Except.ok.injEq] at h1
  simp only [pure, Except.pure, Except.ok.injEq] at h2
  exact ⟨tr, by rw [← h1], by rw [← h1], h2.symm⟩

/-- The mean of a wrapped statistic is the mean of the statistic of the transformed predictions. -/
theorem isMeanOf_wrapped_predictions {tr : InputTransform L K} (hw : tr.which = "predictions") {s : FStatistic L K} {agg : Aggregator L (FV K)} {p t : Vars (StatVar L (FV K))} {v : String}
    {y : DA L (FV K)} (h : IsMeanOf agg p t v (wrappedStatistic s tr) y) : ∃ p', tr.mapVars p = .ok p' ∧ IsMeanOf agg p' t v s y := by
  obtain ⟨vars, s', q, h1, h2, h3, h4⟩ := h
  obtain ⟨p', t', g1, g2, g3⟩ := wrappedStatistic_ok.mp h1
  have e1 : sideVars "predictions" tr p = tr.mapVars p := if_pos (by simp [touches, hw])
  have e2 : sideVars "targets" tr t = .ok t := if_neg (by simp [touches, hw])
  rw [e1] at g1
  rw [e2, Except.ok.injEq] at g2
  subst g2
  exact ⟨p', g1, vars, s', q, g3, h2, h3, h4⟩

theorem mapVars_mem {tr : InputTransform L K} {p p' : Vars (StatVar L (FV K))} (h : tr.mapVars p = .ok p') {v : String} {a : StatVar L (FV K)} (ha : (v, a) ∈ p) :
    ∃ s, tr.fn v a = .ok s ∧ (v, s) ∈ p' := by
  replace h := mapVars_ok_iff.mp h
  induction h with
  | nil => simp at ha
  | @cons kv kv' l l' hkv _ ih =>
    rcases List.mem_cons.mp ha with h | ha
    · obtain ⟨h1, h2⟩ := hkv
      rw [← h] at h1 h2
      exact ⟨kv'.2, h2, List.mem_cons.mpr (Or.inl (Prod.ext h1.symm rfl))⟩
    · obtain ⟨s, h1, h2⟩ := ih ha
      exact ⟨s, h1, List.mem_cons_of_mem _ h2⟩

theorem mapVars_keys {tr : InputTransform L K} {p p' : Vars (StatVar L (FV K))} (h : tr.mapVars p = .ok p') : p'.map Prod.fst = p.map Prod.fst := by
  replace h := mapVars_ok_iff.mp h
  induction h with
  | nil => rfl
  | cons hkv _ ih => simp [hkv.1, ih]

/-- In the bin `(lo, hi]`: is the prediction in the bin? -/
def InBin (q : FV K × FV K) (x : FV K) : Prop := FV.lt q.1 x = true ∧ FV.le x q.2 = true

section value
variable {tm : TimeLabels L} {label : FV K → L} {binName : L → L → L} {ts : List (FV K)} {d : Dim} {str : FV K → String} {suffix : Option String} {m : FMetric L K}
  {agg : Aggregator L (FV K)} {p t : Vars (StatVar L (FV K))} {v : String} {a b s : StatVar L (FV K)} {e : Dim → L} {cs : Finset (Dim → L)} {q : FV K × FV K} {x : DA L (FV K)}
  (hl : Function.Injective label) (hb : Function.Injective2 binName) (hts : ts.Pairwise (fun a b => FV.lt a b = true))
  (hm : reliability tm label binName ts d str suffix = .ok m)
  (hp : (p.map Prod.fst).Nodup) (ht : (t.map Prod.fst).Nodup) (ha : (v, a) ∈ p) (hbt : (v, b) ∈ t)
  (hd : ∀ e l, a.arr.val (setLabel e d l) = a.arr.val e) (hr : d ∉ agg.reduceDims)
  (hq : q ∈ ts.zip ts.tail) (he : e d = binName (label q.1) (label q.2))
  (hs : binsFn tm label binName (.list ts) (ts.map label) d true v a = .ok s)
  (E : Evaluated agg (truePositives s b) e cs) (hW : GoodWeights agg (truePositives s b) cs)
include hl hb hts hm hp ht ha hbt hd hr hq he hs E hW

theorem binned_toBool {e' : Dim → L} (he' : e' ∈ cs) : (s.arr.val e').toBool = true ↔ InBin q (a.arr.val e') := by
  have hcell := ((E.cells e').mp he').1.2 d hr
  have hval := C36_bin_value hl hb hts hs (e := e') (x := a.arr.val e') (fun l => hd e' l) hq (by rw [hcell, he])
  have hfin := E.finite e' he'
  have hnn : (a.arr.val e').isnan = false := by
    by_contra hn
    simp only [Bool.not_eq_false] at hn
    rw [if_pos hn] at hval
    have hnan := (C26_nan s b e' (Or.inl (by rw [hval]; rfl))).1
    rw [hnan] at hfin
    simp [FV.isFin] at hfin
  rw [hnn] at hval
  simp only [Bool.false_eq_true, if_false] at hval
  rw [hval]
  unfold InBin
  by_cases h : FV.lt q.1 (a.arr.val e') = true ∧ FV.le (a.arr.val e') q.2 = true
  · simp [h, FV.toBool, FV.one_def]
  · rw [if_neg h]
    simp [h, FV.toBool, FV.zero_def]

/-- **C72** In the bin `(lo, hi]` the value is the weight of the evaluated cells whose prediction is in the bin and whose target is an event, divided by the weight of the evaluated cells
whose prediction is in the bin. -/
theorem C72_value (h : ValueOf m agg p t v x) :
    x.val e = FV.fin (∑ e' ∈ cs.filter (fun e' => InBin q (a.arr.val e') ∧ (b.arr.val e').toBool = true), cellWeight agg (truePositives s b) e') /
      FV.fin (∑ e' ∈ cs.filter (fun e' => InBin q (a.arr.val e')), cellWeight agg (truePositives s b) e') := by
  obtain ⟨tr, hw, hfn, rfl⟩ := reliability_ok hm
  obtain ⟨y1, y2, m1, m2, rfl⟩ := valueOf_metric2 (by simp) h
  obtain ⟨p', g1, m1⟩ := isMeanOf_wrapped_predictions hw m1
  obtain ⟨p'', g2, m2⟩ := isMeanOf_wrapped_predictions hw m2
  rw [g1, Except.ok.injEq] at g2
  subst g2
  obtain ⟨s', hs', ha'⟩ := mapVars_mem g1 ha
  rw [hfn, hs, Except.ok.injEq] at hs'
  subst hs'
  have hp' : (p'.map Prod.fst).Nodup := by rw [mapVars_keys g1]; exact hp
  have v1 := mean_tp hp' ht ha' hbt E hW m1
  have v2 := mean_fp hp' ht ha' hbt E hW m2
  have hb' : ∀ e' ∈ cs, ((s.arr.val e').toBool = true ↔ InBin q (a.arr.val e')) := fun e' he' => binned_toBool hl hb hts hm hp ht ha hbt hd hr hq he hs E hW he'
  show y1.val e / (y1.val e + y2.val e) = _
  rw [v1, v2, FV.fin_add_fin]
  unfold share
  have f1 : cs.filter (fun e' => (s.arr.val e').toBool = true ∧ (b.arr.val e').toBool = true) = cs.filter (fun e' => InBin q (a.arr.val e') ∧ (b.arr.val e').toBool = true) :=
    Finset.filter_congr (fun e' he' => by rw [hb' e' he'])
  have f2 : cs.filter (fun e' => (s.arr.val e').toBool = true ∧ (b.arr.val e').toBool = false) = cs.filter (fun e' => InBin q (a.arr.val e') ∧ ¬ (b.arr.val e').toBool = true) :=
    Finset.filter_congr (fun e' he' => by rw [hb' e' he', Bool.not_eq_true])
  rw [f1, f2, ← add_div, ← Finset.filter_filter, ← Finset.filter_filter, Finset.sum_filter_add_sum_filter_not]
  have hW0 := hW.2.ne'
  by_cases hB : ∑ e' ∈ cs.filter (fun e' => InBin q (a.arr.val e')), cellWeight agg (truePositives s b) e' = 0
  · have hA : ∑ e' ∈ (cs.filter (fun e' => InBin q (a.arr.val e'))).filter (fun e' => (b.arr.val e').toBool = true), cellWeight agg (truePositives s b) e' = 0 := by
      refine Finset.sum_eq_zero (fun e' he' => ?_)
      exact (Finset.sum_eq_zero_iff_of_nonneg (fun i hi => hW.1 i (Finset.mem_of_mem_filter i hi))).mp hB e' (Finset.mem_of_mem_filter e' he')
    rw [hA, hB]
    simp
  · rw [FV.fin_div_fin_of_ne _ (div_ne_zero hB hW0), FV.fin_div_fin_of_ne _ hB, div_div_div_cancel_right₀ hW0]

/-- **C72** Without (weight on) predictions in the bin the value is NaN. -/
theorem C72_empty_bin (h : ValueOf m agg p t v x) (hempty : ∀ e' ∈ cs, ¬ InBin q (a.arr.val e')) : x.val e = FV.nan := by
  rw [C72_value hl hb hts hm hp ht ha hbt hd hr hq he hs E hW h]
  have f1 : cs.filter (fun e' => InBin q (a.arr.val e') ∧ (b.arr.val e').toBool = true) = ∅ := Finset.filter_eq_empty_iff.mpr (fun e' he' h => hempty e' he' h.1)
  have f2 : cs.filter (fun e' => InBin q (a.arr.val e')) = ∅ := Finset.filter_eq_empty_iff.mpr (fun e' he' h => hempty e' he' h)
  rw [f1, f2]
  simp [HDiv.hDiv, Div.div, FV.div]

/-- **C72** With weight on the bin the value is a number in `[0, 1]`; it is 1 if all targets in the bin are events and 0 if none is. -/
theorem C72_range (h : ValueOf m agg p t v x) (hpos : 0 < ∑ e' ∈ cs.filter (fun e' => InBin q (a.arr.val e')), cellWeight agg (truePositives s b) e') :
    (∃ r, x.val e = FV.fin r ∧ 0 ≤ r ∧ r ≤ 1) ∧ ((∀ e' ∈ cs, InBin q (a.arr.val e') → (b.arr.val e').toBool = true) → x.val e = 1) ∧
      ((∀ e' ∈ cs, InBin q (a.arr.val e') → (b.arr.val e').toBool = false) → x.val e = 0) := by
  have hv := C72_value hl hb hts hm hp ht ha hbt hd hr hq he hs E hW h
  rw [FV.fin_div_fin_of_ne _ hpos.ne'] at hv
  refine ⟨⟨_, hv, div_nonneg (Finset.sum_nonneg (fun e' he' => hW.1 e' (Finset.mem_of_mem_filter e' he'))) hpos.le, ?_⟩, fun hall => ?_, fun hall => ?_⟩
  · rw [div_le_one hpos]
    refine Finset.sum_le_sum_of_subset_of_nonneg (fun e' he' => ?_) (fun e' he' _ => hW.1 e' (Finset.mem_of_mem_filter e' he'))
    rw [Finset.mem_filter] at he' ⊢
    exact ⟨he'.1, he'.2.1⟩
  · rw [hv, FV.one_def, FV.fin.injEq, div_eq_one_iff_eq hpos.ne']
    congr 1
    exact Finset.filter_congr (fun e' he' => ⟨fun h => h.1, fun h => ⟨h, hall e' he' h⟩⟩)
  · rw [hv, FV.zero_def, FV.fin.injEq, div_eq_zero_iff]
    left
    rw [Finset.filter_eq_empty_iff.mpr, Finset.sum_empty]
    rintro e' he' ⟨h1, h2⟩
    rw [hall e' he' h1] at h2
    simp at h2

end value

/-- **C72** A prediction that is not NaN is in exactly one bin if it is above the first and not above the last edge, and in no bin otherwise; with `-∞` as the first edge (the default), the
values in no bin are those above the last edge. -/
theorem C72_one_bin {ts : List (FV K)} (hts : ts.Pairwise (fun a b => FV.lt a b = true)) {lo hi : FV K} (hlo : ts.head? = some lo) (hhi : ts.getLast? = some hi) {x : FV K}
    (hx : x.isnan = false) : (∃ q ∈ ts.zip ts.tail, InBin q x) ↔ FV.lt lo x = true ∧ FV.le x hi = true := by
  rw [show (∃ q ∈ ts.zip ts.tail, InBin q x) ↔ _ from (exists_interval ts hts x hx).1]
  constructor
  · rintro ⟨lo', hi', h1, h2, h3⟩
    rw [hlo, Option.some.injEq] at h1
    rw [hhi, Option.some.injEq] at h2
    subst h1 h2
    exact h3
  · exact fun h => ⟨lo, hi, hlo, hhi, h⟩

theorem C72_bins_disjoint {ts : List (FV K)} (hts : ts.Pairwise (fun a b => FV.lt a b = true)) {x : FV K} (hx : x.isnan = false) {q q' : FV K × FV K} (h : q ∈ ts.zip ts.tail)
    (h' : q' ∈ ts.zip ts.tail) (hq : InBin q x) (hq' : InBin q' x) : q = q' :=
  (exists_interval ts hts x hx).2 q h q' h' hq.1 hq.2 hq'.1 hq'.2

/-! ### A concrete evaluation -/

/-- Unweighted masked mean over `x`. -/
noncomputable def ratAgg : Aggregator ℕ (FV ℚ) := { reduceDims := ["x"], masked := true }

/-- Evaluation cells of a statistic without mask and without NaN. -/
theorem evaluatedX (s : StatVar ℕ (FV ℚ)) (e : Dim → ℕ) (S : Finset ℕ) (hc : s.arr.coords "x" = S) (hm : s.mask = none)
    (hf : ∀ n ∈ S, (s.arr.val (setLabel e "x" n)).isFin = true) : Evaluated ratAgg s e (S.image (setLabel e "x")) := by
  have hnn : ∀ n ∈ S, counted ratAgg s (setLabel e "x" n) = true := by
    intro n hn
    have := hf n hn
    unfold counted
    rw [hm]
    cases h : s.arr.val (setLabel e "x" n) <;> simp_all [FV.isnan, FV.isFin]
  refine ⟨⟨by simp [ratAgg], by simp [ratAgg]⟩, by simp [Aggregator.allFactors, ratAgg], by simp [hm], by simp [Aggregator.allFactors, ratAgg], ?_, ?_⟩
  · intro e'
    have hr : ratAgg.reduceDims = ["x"] := rfl
    rw [hr]
    simp only [List.mem_singleton, forall_eq, hc, Finset.mem_image]
    constructor
    · rintro ⟨n, hn, rfl⟩
      exact ⟨⟨by simpa [setLabel] using hn, fun d hd => by simp [setLabel, hd]⟩, hnn n hn⟩
    · rintro ⟨⟨h1, h2⟩, -⟩
      refine ⟨e' "x", h1, ?_⟩
      funext k
      by_cases hk : k = "x"
      · subst hk; simp [setLabel]
      · simp [setLabel, hk, h2 k hk]
  · intro e' he'
    obtain ⟨n, hn, rfl⟩ := Finset.mem_image.mp he'
    exact hf n hn

theorem goodX (s : StatVar ℕ (FV ℚ)) (e : Dim → ℕ) (S : Finset ℕ) (hS : S.Nonempty) : GoodWeights ratAgg s (S.image (setLabel e "x")) := by
  have hw : ∀ e', cellWeight ratAgg s e' = 1 := by intro e'; simp [cellWeight, Aggregator.allFactors, ratAgg]
  refine ⟨fun e' _ => by simp [hw], ?_⟩
  simp only [hw, Finset.sum_const, nsmul_eq_mul, mul_one]
  exact_mod_cast (hS.image _).card_pos

/-- Predictions 1/5, 2/5, 2/5, 9/10. -/
def relP : StatVar ℕ (FV ℚ) := ⟨{ dims := {"x"}, coords := fun _ => {0, 1, 2, 3}, val := fun e => .fin (if e "x" = 0 then 1 / 5 else if e "x" = 3 then 9 / 10 else 2 / 5) }, none⟩
/-- Targets 0, 1, 0, 1. -/
def relT : StatVar ℕ (FV ℚ) := ⟨{ dims := {"x"}, coords := fun _ => {0, 1, 2, 3}, val := fun e => .fin (if e "x" = 1 ∨ e "x" = 3 then 1 else 0) }, none⟩
/-- The edges. -/
def relEdges : List (FV ℚ) := [.inf true, .fin (1 / 2), .fin 1]

/-- Three predictions in `(-∞, 1/2]`, one of them with an event: 1/3. -/
example (tm : TimeLabels ℕ) : ∃ m x, reliability tm exLabel exBinName relEdges "bin" (fun _ => "") none = .ok m ∧
    ValueOf m ratAgg [("p", relP)] [("p", relT)] "p" x ∧ x.val (fun _ => exBinName (exLabel (.inf true)) (exLabel (.fin (1 / 2)))) = .fin (1 / 3) := by
  set e : Dim → ℕ := fun _ => exBinName (exLabel (.inf true)) (exLabel (.fin (1 / 2))) with he
  have hts : relEdges.Pairwise (fun a b => FV.lt a b = true) := by simp [relEdges, FV.lt]; norm_num
  obtain ⟨c, hc⟩ := (C36_monotonicity exLabel_inj tm _ "bin" true "p" relP).1 hts
  have hc' := hc
  unfold cdfFn computeCdf Thresholds.forCdf at hc'
  simp only [bind, Except.bind] at hc'
  split at hc'
  · simp at hc'
  rw [Except.ok.injEq] at hc'
  set s := diffBins exBinName (relEdges.map exLabel) "bin" c with hsdef
  have hs : binsFn tm exLabel exBinName (.list relEdges) (relEdges.map exLabel) "bin" true "p" relP = .ok s := by
    unfold binsFn; rw [hc]; rfl
  have hsx : (truePositives s relT).arr.coords "x" = {0, 1, 2, 3} := by
    rw [hsdef, ← hc']
    simp [truePositives, contingency, diffBins, StatVar.zipWith, StatVar.map, zipWith, DA.map, joinCoords, relP, relT, thresholdArray]
  have hdims : "x" ∈ (truePositives s relT).arr.dims := by
    simp [truePositives, contingency, StatVar.zipWith, StatVar.map, zipWith, DA.map, relT]
  have hmask : (truePositives s relT).mask = none := by
    rw [hsdef, ← hc']
    simp [truePositives, contingency, diffBins, StatVar.zipWith, StatVar.map, combineMask, relP, relT]
  have hd : ∀ (e : Dim → ℕ) (l : ℕ), relP.arr.val (setLabel e "bin" l) = relP.arr.val e := by
    intro e l; simp [relP, setLabel]
  have hval : ∀ n, s.arr.val (setLabel e "x" n) = if InBin (.inf true, .fin (1 / 2)) (relP.arr.val (setLabel e "x" n)) then 1 else 0 := by
    intro n
    rw [C36_bin_value exLabel_inj exBinName_inj hts hs (fun l => hd _ l) (p := (.inf true, .fin (1 / 2))) (by simp [relEdges]) (by simp [setLabel, he])]
    rw [if_neg (by simp [relP, FV.isnan])]
    unfold InBin
    congr
  have hfin : ∀ n ∈ ({0, 1, 2, 3} : Finset ℕ), ((truePositives s relT).arr.val (setLabel e "x" n)).isFin = true := by
    intro n _
    have : ∃ z, s.arr.val (setLabel e "x" n) = .fin z := by
      rw [hval]; split
      · exact ⟨1, rfl⟩
      · exact ⟨0, rfl⟩
    obtain ⟨z, hz⟩ := this
    rw [(C26_finite s relT _ hz rfl).1]
    have hi : ∀ c : Prop, ∀ _ : Decidable c, (if c then (1 : FV ℚ) else 0).isFin = true := by intro c _; split <;> rfl
    exact hi _ _
  have E := evaluatedX (truePositives s relT) e {0, 1, 2, 3} hsx hmask hfin
  have hW := goodX (truePositives s relT) e {0, 1, 2, 3} (by simp)
  obtain ⟨m, hm⟩ : ∃ m, reliability tm exLabel exBinName relEdges "bin" (fun _ => "") none = .ok m := ⟨_, rfl⟩
  obtain ⟨tr, hw, hfn, hmeq⟩ := reliability_ok hm
  obtain ⟨q1, hq1⟩ := exists_aggregate ratAgg rfl (truePositives s relT) (by simpa [ratAgg] using hdims)
  obtain ⟨q2, hq2⟩ := exists_aggregate ratAgg rfl (falsePositives s relT) (by simpa [ratAgg] using show "x" ∈ (falsePositives s relT).arr.dims from hdims)
  have hone : ∀ {name : String} {f q}, ratAgg.aggregateStatVar (f s relT) = .ok (some q) →
      OneMean ratAgg [("p", relP)] [("p", relT)] "p" (wrappedStatistic (statOf name f) tr) (DA.zipWith (· / ·) q.1 q.2) := by
    intro name f q hq
    refine ⟨f s relT, q, ?_, hq, rfl⟩
    refine wrappedStatistic_ok.mpr ⟨[("p", s)], [("p", relT)], ?_, if_neg (by simp [touches, hw]), ?_⟩
    · rw [show sideVars "predictions" tr [("p", relP)] = tr.mapVars [("p", relP)] from if_pos (by simp [touches, hw])]
      exact mapVars_ok_iff.mpr (.cons ⟨rfl, by rw [hfn]; exact hs⟩ .nil)
    · simp [statOf, perVariableStatistic, perVariableLoop, pyGet?, bind, Except.bind, pure, Except.pure]
  obtain ⟨x, hv⟩ : ∃ x, ValueOf m ratAgg [("p", relP)] [("p", relT)] "p" x := by
    rw [hmeq]
    exact ⟨_, exists_metric2 (by simp) (hone hq1) (hone hq2)⟩
  refine ⟨m, x, hm, hv, ?_⟩
  rw [C72_value exLabel_inj exBinName_inj hts hm (by simp) (by simp) (by simp) (by simp) hd (by simp [ratAgg]) (q := (.inf true, .fin (1 / 2))) (by simp [relEdges]) (by simp [he]) hs E hW hv]
  have hw1 : ∀ e', cellWeight ratAgg (truePositives s relT) e' = 1 := by intro e'; simp [cellWeight, Aggregator.allFactors, ratAgg]
  simp only [hw1, Finset.sum_const, nsmul_eq_mul, mul_one]
  have hinj : Function.Injective (setLabel e "x") := fun a b h => by simpa [setLabel] using congrFun h "x"
  have c1 : (({0, 1, 2, 3} : Finset ℕ).image (setLabel e "x")).filter (fun e' => InBin (.inf true, .fin (1 / 2)) (relP.arr.val e')) = ({0, 1, 2} : Finset ℕ).image (setLabel e "x") := by
    rw [Finset.filter_image]
    congr 1
    ext n
    simp only [InBin, relP, setLabel, if_true, FV.lt, FV.le, Finset.mem_filter, Finset.mem_insert, Finset.mem_singleton, true_and, decide_eq_true_eq]
    constructor
    · rintro ⟨rfl | rfl | rfl | rfl, h⟩
      · simp
      · simp
      · simp
      · norm_num at h
    · rintro (rfl | rfl | rfl) <;> norm_num
  have c2 : (({0, 1, 2, 3} : Finset ℕ).image (setLabel e "x")).filter (fun e' => InBin (.inf true, .fin (1 / 2)) (relP.arr.val e') ∧ (relT.arr.val e').toBool = true) =
      ({1} : Finset ℕ).image (setLabel e "x") := by
    rw [← Finset.filter_filter, c1, Finset.filter_image]
    congr 1
  rw [c1, c2, Finset.card_image_of_injective _ hinj, Finset.card_image_of_injective _ hinj]
  have h3 : ((({0, 1, 2} : Finset ℕ).card : ℕ) : ℚ) = 3 := by norm_num
  rw [h3, FV.fin_div_fin_of_ne _ (by norm_num)]
  simp

end WBX
