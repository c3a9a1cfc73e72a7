import Verif.Props.EnsembleRPS
import Verif.Props.Categorical

/-!
# C34: the relative economic value
-/

set_option linter.unusedSectionVars false

namespace WBX
open DA Classical
variable {L K : Type} [DecidableEq L] [Field K] [LinearOrder K] [IsStrictOrderedRing K]

/-! ### Specification: the cost-loss decision problem -/

/-- The expense of a user who can pay the cost `r` to act and otherwise suffers the loss 1 if the event occurs. -/
def expense (r : K) (act event : Bool) : K := if act then r else if event then 1 else 0

/-- The mean expense of acting by the rule `act`. -/
def meanExpense (agg : Aggregator L (FV K)) (s : StatVar L (FV K)) (cs : Finset (Dim → L)) (r : K) (act event : (Dim → L) → Bool) : K :=
  wmean agg s cs (fun c => expense r (act c) (event c))

/-- The better of always acting and never acting. -/
def climatologyExpense (agg : Aggregator L (FV K)) (s : StatVar L (FV K)) (cs : Finset (Dim → L)) (r : K) (event : (Dim → L) → Bool) : K :=
  min (meanExpense agg s cs r (fun _ => true) event) (meanExpense agg s cs r (fun _ => false) event)

/-- The share of the events. -/
def eventRate (agg : Aggregator L (FV K)) (s : StatVar L (FV K)) (cs : Finset (Dim → L)) (event : (Dim → L) → Bool) : K :=
  wmean agg s cs (fun c => if event c then 1 else 0)

section algebra
variable {agg : Aggregator L (FV K)} {s : StatVar L (FV K)} {cs : Finset (Dim → L)} (hW : GoodWeights agg s cs) {r : K}
  {act event : (Dim → L) → Bool}
include hW

theorem meanExpense_always : meanExpense agg s cs r (fun _ => true) event = r := wmean_const hW r

omit hW in
theorem meanExpense_never : meanExpense agg s cs r (fun _ => false) event = eventRate agg s cs event := rfl

theorem meanExpense_perfect : meanExpense agg s cs r event event = r * eventRate agg s cs event := by
  unfold meanExpense eventRate
  rw [← wmean_smul]
  exact wmean_congr' (fun c _ => by cases event c <;> simp [expense])

theorem perfect_le (h0 : 0 ≤ r) (h1 : r ≤ 1) : meanExpense agg s cs r event event ≤ meanExpense agg s cs r act event := by
  refine wmean_mono hW (fun c _ => ?_)
  cases act c <;> cases event c <;> simp [expense, h0, h1]

theorem climatology_pos (h0 : 0 < r) (h1 : r < 1) (hs : 0 < eventRate agg s cs event) (hs1 : eventRate agg s cs event < 1) :
    0 < climatologyExpense agg s cs r event - meanExpense agg s cs r event event := by
  unfold climatologyExpense
  rw [meanExpense_always hW, meanExpense_never, meanExpense_perfect hW, sub_pos, lt_min_iff]
  constructor <;> nlinarith

end algebra

/-! ### From the metric to its means -/

theorem isMeanOf_wrapped {s : FStatistic L K} {tr : InputTransform L K} {agg : Aggregator L (FV K)} {p t p' t' : Vars (StatVar L (FV K))} {v : String}
    {y : DA L (FV K)} (hp : sideVars "predictions" tr p = .ok p') (ht : sideVars "targets" tr t = .ok t')
    (h : IsMeanOf agg p t v (wrappedStatistic s tr) y) : IsMeanOf agg p' t' v s y := by
  obtain ⟨vars, a, q, h1, h2, h3, h4⟩ := h
  obtain ⟨p1, t1, e1, e2, h5⟩ := wrappedStatistic_ok.mp h1
  rw [hp, Except.ok.injEq] at e1
  rw [ht, Except.ok.injEq] at e2
  subst e1 e2
  exact ⟨vars, a, q, h5, h2, h3, h4⟩

theorem oneMean_wrapped {s : FStatistic L K} {tr : InputTransform L K} {agg : Aggregator L (FV K)} {p t p' t' : Vars (StatVar L (FV K))} {v : String}
    {y : DA L (FV K)} (hp : sideVars "predictions" tr p = .ok p') (ht : sideVars "targets" tr t = .ok t')
    (h : OneMean agg p' t' v s y) : OneMean agg p t v (wrappedStatistic s tr) y := by
  obtain ⟨a, q, h1, h2, h3⟩ := h
  exact ⟨a, q, wrappedStatistic_ok.mpr ⟨p', t', hp, ht, h1⟩, h2, h3⟩

/-- The binarised predictions. -/
noncomputable def binarizedVars (label : FV K → L) (ts : List (FV K)) (p : Vars (StatVar L (FV K))) : Vars (StatVar L (FV K)) :=
  p.map (fun kv => (kv.1, binarize (thresholdArray label "threshold" ts) kv.2))

theorem sideVars_rev (label : FV K → L) (ts : List (FV K)) (suffix : String) (p : Vars (StatVar L (FV K))) :
    sideVars "predictions" (revBinarize label ts suffix) p = .ok (binarizedVars label ts p) ∧
    sideVars "targets" (revBinarize label ts suffix) p = .ok p := by
  unfold sideVars
  rw [if_pos (by simp [touches, revBinarize]), if_neg (by simp [touches, revBinarize]), mapVars_ok_iff]
  refine ⟨?_, rfl⟩
  unfold binarizedVars
  induction p with
  | nil => exact .nil
  | cons a p ih => exact .cons ⟨rfl, rfl⟩ ih

theorem valueOf_rev {label : FV K → L} {ts : List (FV K)} {suffix : String} {ratio : DA L (FV K)} {opt : Option (DA L L)}
    {agg : Aggregator L (FV K)} {p t : Vars (StatVar L (FV K))} {v : String} {X : DA L (FV K)}
    (h : ValueOf (relativeEconomicValue label ts suffix ratio opt) agg p t v X) :
    ∃ first rest tp fp fn, ts = first :: rest ∧ IsMeanOf agg (binarizedVars label ts p) t v tpStatistic tp ∧
      IsMeanOf agg (binarizedVars label ts p) t v fpStatistic fp ∧ IsMeanOf agg (binarizedVars label ts p) t v fnStatistic fn ∧
      revValues label (label first) ratio opt tp fp fn = .ok X := by
  have hm : ∀ {s : FStatistic L K} {y}, IsMeanOf agg p t v (wrappedStatistic s (revBinarize label ts suffix)) y →
      IsMeanOf agg (binarizedVars label ts p) t v s y := fun h =>
    isMeanOf_wrapped (sideVars_rev label ts suffix p).1 (sideVars_rev label ts suffix t).2 h
  have h12 : "TruePositives" ≠ "TrueNegatives" := by decide
  have h13 : "TruePositives" ≠ "FalsePositives" := by decide
  have h14 : "TruePositives" ≠ "FalseNegatives" := by decide
  have h23 : "TrueNegatives" ≠ "FalsePositives" := by decide
  have h24 : "TrueNegatives" ≠ "FalseNegatives" := by decide
  have h34 : "FalsePositives" ≠ "FalseNegatives" := by decide
  obtain ⟨ys, hys, hg⟩ := valueOf_perVariable (by simp) h
  rw [List.forall₂_cons_left_iff] at hys
  obtain ⟨⟨k1, y1⟩, l1, ⟨e1, m1⟩, hys, rfl⟩ := hys
  rw [List.forall₂_cons_left_iff] at hys
  obtain ⟨⟨k2, y2⟩, l2, ⟨e2, m2⟩, hys, rfl⟩ := hys
  rw [List.forall₂_cons_left_iff] at hys
  obtain ⟨⟨k3, y3⟩, l3, ⟨e3, m3⟩, hys, rfl⟩ := hys
  rw [List.forall₂_cons_left_iff] at hys
  obtain ⟨⟨k4, y4⟩, l4, ⟨e4, m4⟩, hys, rfl⟩ := hys
  rw [List.forall₂_nil_left_iff] at hys
  subst hys
  simp only at e1 e2 e3 e4
  subst e1 e2 e3 e4
  rw [item_hd, item_tl h13.symm, item_tl h23.symm, item_hd, item_tl h14.symm, item_tl h24.symm, item_tl h34.symm, item_hd] at hg
  cases ts with
  | nil => simp [bind, Except.bind] at hg
  | cons first rest => exact ⟨first, rest, y1, y3, y4, rfl, hm m1, hm m3, hm m4, hg⟩

theorem exists_rev {label : FV K → L} {first : FV K} {rest : List (FV K)} {suffix : String} {ratio : DA L (FV K)} {opt : Option (DA L L)}
    {agg : Aggregator L (FV K)} {p t : Vars (StatVar L (FV K))} {v : String} {X tp tn fp fn : DA L (FV K)}
    (m1 : OneMean agg (binarizedVars label (first :: rest) p) t v tpStatistic tp) (m2 : OneMean agg (binarizedVars label (first :: rest) p) t v tnStatistic tn)
    (m3 : OneMean agg (binarizedVars label (first :: rest) p) t v fpStatistic fp) (m4 : OneMean agg (binarizedVars label (first :: rest) p) t v fnStatistic fn)
    (h : revValues label (label first) ratio opt tp fp fn = .ok X) :
    ValueOf (relativeEconomicValue label (first :: rest) suffix ratio opt) agg p t v X := by
  have hm : ∀ {s : FStatistic L K} {y}, OneMean agg (binarizedVars label (first :: rest) p) t v s y →
      OneMean agg p t v (wrappedStatistic s (revBinarize label (first :: rest) suffix)) y := fun h =>
    oneMean_wrapped (sideVars_rev label _ suffix p).1 (sideVars_rev label _ suffix t).2 h
  have h13 : "TruePositives" ≠ "FalsePositives" := by decide
  have h14 : "TruePositives" ≠ "FalseNegatives" := by decide
  have h23 : "TrueNegatives" ≠ "FalsePositives" := by decide
  have h24 : "TrueNegatives" ≠ "FalseNegatives" := by decide
  have h34 : "FalsePositives" ≠ "FalseNegatives" := by decide
  refine exists_perVariable (by simp) (by simp) (ys := [("TruePositives", tp), ("TrueNegatives", tn), ("FalsePositives", fp), ("FalseNegatives", fn)])
    (.cons ⟨rfl, hm m1⟩ (.cons ⟨rfl, hm m2⟩ (.cons ⟨rfl, hm m3⟩ (.cons ⟨rfl, hm m4⟩ .nil)))) ?_
  rw [item_hd, item_tl h13.symm, item_tl h23.symm, item_hd, item_tl h14.symm, item_tl h24.symm, item_tl h34.symm, item_hd]
  exact h

theorem binarizedVars_nodup {label : FV K → L} {ts : List (FV K)} {p : Vars (StatVar L (FV K))} (h : (p.map Prod.fst).Nodup) :
    ((binarizedVars label ts p).map Prod.fst).Nodup := by
  unfold binarizedVars
  rw [List.map_map]
  exact h

/-! ### The values -/

/-- The thresholds, 0 and 1 have different labels. -/
def DistinctLabels (label : FV K → L) (ts : List (FV K)) : Prop := Set.InjOn label {t | t ∈ ts ∨ t = 0 ∨ t = 1}

theorem thresholdArray_val' {label : FV K → L} {d : Dim} {ts : List (FV K)} {t : FV K} (hl : ∀ u ∈ ts, label u = label t → u = t) (ht : t ∈ ts)
    {e : Dim → L} (he : e d = label t) : (thresholdArray label d ts).val e = t := by
  unfold thresholdArray
  simp only [he]
  have : ts.find? (fun u => decide (label u = label t)) = some t := by
    cases h : ts.find? (fun u => decide (label u = label t)) with
    | none => exact absurd (List.find?_eq_none.mp h t ht) (by simp)
    | some u =>
      have := List.find?_some h
      simp only [decide_eq_true_eq] at this
      rw [hl u (List.mem_of_find?_eq_some h) this]
  rw [this]

/-- Acting when the probability exceeds the threshold. -/
def actAbove (τ : FV K) (a : StatVar L (FV K)) (c : Dim → L) : Bool := FV.lt τ (a.arr.val c)

/-- The event occurs: the target is not zero. -/
def eventOf (b : StatVar L (FV K)) (c : Dim → L) : Bool := (b.arr.val c).toBool

/-- The statistic whose evaluated cells are used: the true positives of the binarised forecast. -/
noncomputable def revStat (label : FV K → L) (ts : List (FV K)) (a b : StatVar L (FV K)) : StatVar L (FV K) :=
  truePositives (binarize (thresholdArray label "threshold" ts) a) b

section
variable {label : FV K → L} {ts : List (FV K)} (hl : DistinctLabels label ts) {suffix : String} {ratio : DA L (FV K)}
  {agg : Aggregator L (FV K)} {p t : Vars (StatVar L (FV K))} (hp : (p.map Prod.fst).Nodup) (ht : (t.map Prod.fst).Nodup) {v : String}
  {a b : StatVar L (FV K)} (ha : (v, a) ∈ p) (hb : (v, b) ∈ t) {X : DA L (FV K)} {e : Dim → L} {cs : Finset (Dim → L)}

theorem contingency_cell {a b : StatVar L (FV K)} {e : Dim → L} {cs : Finset (Dim → L)} {agg : Aggregator L (FV K)}
    (hl : DistinctLabels label ts) (E : Evaluated agg (revStat label ts a b) e cs) (hr : "threshold" ∉ agg.reduceDims) {τ : FV K} (hτ : τ ∈ ts)
    (he : e "threshold" = label τ) {c : Dim → L} (hc : c ∈ cs) :
    ((binarize (thresholdArray label "threshold" ts) a).arr.val c).toBool = actAbove τ a c := by
  have hcl : c "threshold" = label τ := by rw [((E.cells c).mp hc).1.2 _ hr, he]
  have hf := E.finite c hc
  unfold revStat truePositives at hf
  rw [contingency_val] at hf
  rw [C37_value, thresholdArray_val' (fun u hu h => hl (.inl hu) (.inl hτ) h) hτ hcl] at hf ⊢
  unfold actAbove
  by_cases hn : (a.arr.val c).isnan = true
  · rw [if_pos hn] at hf
    cases hbv : b.arr.val c <;> simp [FV.isnan, FV.isFin] at hf
  · rw [if_neg hn]
    cases FV.lt τ (a.arr.val c)
    · simp [FV.toBool, FV.zero_def]
    · simp [FV.toBool, FV.one_def]

theorem share_eq {label : FV K → L} {ts : List (FV K)} {agg : Aggregator L (FV K)} {a b : StatVar L (FV K)} {cs : Finset (Dim → L)} {act : (Dim → L) → Bool}
    (h : ∀ c ∈ cs, ((binarize (thresholdArray label "threshold" ts) a).arr.val c).toBool = act c) (x y : Bool) :
    share agg (binarize (thresholdArray label "threshold" ts) a) b cs x y =
      wmean agg (revStat label ts a b) cs (fun c => if act c = x ∧ eventOf b c = y then 1 else 0) := by
  unfold share
  rw [← wmean_indicator]
  exact wmean_congr' (fun c hc => by rw [h c hc]; rfl)

include hl hp ht ha hb

/-- The means at one of the given thresholds. -/
theorem rev_means {tp fp fn : DA L (FV K)} (m1 : IsMeanOf agg (binarizedVars label ts p) t v tpStatistic tp)
    (m2 : IsMeanOf agg (binarizedVars label ts p) t v fpStatistic fp) (m3 : IsMeanOf agg (binarizedVars label ts p) t v fnStatistic fn)
    (E : Evaluated agg (revStat label ts a b) e cs) (hW : GoodWeights agg (revStat label ts a b) cs) (hr : "threshold" ∉ agg.reduceDims)
    {τ : FV K} (hτ : τ ∈ ts) (he : e "threshold" = label τ) :
    ∃ TP FP FN : K, tp.val e = .fin TP ∧ fp.val e = .fin FP ∧ fn.val e = .fin FN ∧ TP + FN = eventRate agg (revStat label ts a b) cs (eventOf b) ∧
      ∀ r, r * (TP + FP) + FN = meanExpense agg (revStat label ts a b) cs r (actAbove τ a) (eventOf b) := by
  have hp' := binarizedVars_nodup (label := label) (ts := ts) hp
  have ha' : (v, binarize (thresholdArray label "threshold" ts) a) ∈ binarizedVars label ts p := List.mem_map.mpr ⟨_, ha, rfl⟩
  have hact := fun c hc => contingency_cell hl E hr hτ he (c := c) hc
  refine ⟨_, _, _, mean_tp hp' ht ha' hb E hW m1, mean_fp hp' ht ha' hb E hW m2, mean_fn hp' ht ha' hb E hW m3, ?_, fun r => ?_⟩
  · rw [share_eq hact, share_eq hact, ← wmean_add]
    unfold eventRate
    exact wmean_congr' (fun c _ => by cases actAbove τ a c <;> cases eventOf b c <;> simp)
  · rw [share_eq hact, share_eq hact, share_eq hact, ← wmean_add, ← wmean_smul, ← wmean_add]
    unfold meanExpense
    exact wmean_congr' (fun c _ => by cases actAbove τ a c <;> cases eventOf b c <;> simp [expense])

omit hl hp ht ha hb in
theorem revFormula_val {tp fp fn : DA L (FV K)} {TP FP FN r : K} (h1 : tp.val e = .fin TP) (h2 : fp.val e = .fin FP) (h3 : fn.val e = .fin FN)
    (hr : ratio.val e = .fin r) :
    (revFormula ratio tp fp fn).val e = .fin (min r (TP + FN) - (r * (TP + FP) + FN)) / .fin (min r (TP + FN) - r * (TP + FN)) := by
  have hmin : FV.minimum (FV.fin r) (FV.fin (TP + FN)) = .fin (min r (TP + FN)) := by
    simp only [FV.minimum, FV.isnan, Bool.false_eq_true, if_false, FV.le, decide_eq_true_eq]
    rcases le_total r (TP + FN) with h | h
    · simp [h]
    · by_cases h' : r ≤ TP + FN
      · simp [h']
      · simp [h', h]
  show (FV.minimum (ratio.val e) (tp.val e + fn.val e) - (ratio.val e * (tp.val e + fp.val e) + fn.val e)) /
    (FV.minimum (ratio.val e) (tp.val e + fn.val e) - ratio.val e * (tp.val e + fn.val e)) = _
  rw [h1, h2, h3, hr]
  simp only [FV.fin_add_fin, FV.fin_mul_fin, hmin, FV.fin_sub_fin]

/-- **C34** The value at a threshold `τ` and a cost-loss ratio `r` is the reduction of the mean expense, relative to the better of always
and never acting, obtained by acting when the forecast probability exceeds `τ`, as a fraction of the reduction obtained by a perfect
forecast. -/
theorem C34_value (hX : ValueOf (relativeEconomicValue label ts suffix ratio none) agg p t v X)
    (E : Evaluated agg (revStat label ts a b) e cs) (hW : GoodWeights agg (revStat label ts a b) cs) (hr : "threshold" ∉ agg.reduceDims)
    {τ : FV K} (hτ : τ ∈ ts) (h0 : τ ≠ 0) (h1 : τ ≠ 1) (he : e "threshold" = label τ) {r : K} (hc : ratio.val e = .fin r) :
    X.val e = .fin (climatologyExpense agg (revStat label ts a b) cs r (eventOf b) - meanExpense agg (revStat label ts a b) cs r (actAbove τ a) (eventOf b)) /
      .fin (climatologyExpense agg (revStat label ts a b) cs r (eventOf b) - meanExpense agg (revStat label ts a b) cs r (eventOf b) (eventOf b)) := by
  obtain ⟨first, rest, tp, fp, fn, hts, m1, m2, m3, hv⟩ := valueOf_rev hX
  obtain ⟨TP, FP, FN, v1, v2, v3, hs, hx⟩ := rev_means hl hp ht ha hb m1 m2 m3 E hW hr hτ he
  simp only [revValues, addConstants, Except.ok.injEq] at hv
  subst hv
  have n0 : e "threshold" ≠ label 0 := by rw [he]; exact fun h => h0 (hl (.inl hτ) (.inr (.inl rfl)) h)
  have n1 : e "threshold" ≠ label 1 := by rw [he]; exact fun h => h1 (hl (.inl hτ) (.inr (.inr rfl)) h)
  rw [revFormula_val (TP := TP) (FP := FP) (FN := FN) (r := r) ?_ ?_ ?_ hc, hx, hs]
  · unfold climatologyExpense
    rw [meanExpense_always hW, meanExpense_never, meanExpense_perfect hW]
  · simp only [addConstant, if_neg n0, if_neg n1, v1]
  · simp only [addConstant, if_neg n0, if_neg n1, v2]
  · simp only [addConstant, if_neg n0, if_neg n1, v3]

/-- **C34** If events sometimes but not always occur and `0 < r < 1`, the value is at most 1, and it is 1 iff the forecast has the event
exactly when it occurs, on all cells of nonzero weight. -/
theorem C34_at_most_one (hX : ValueOf (relativeEconomicValue label ts suffix ratio none) agg p t v X)
    (E : Evaluated agg (revStat label ts a b) e cs) (hW : GoodWeights agg (revStat label ts a b) cs) (hr : "threshold" ∉ agg.reduceDims)
    {τ : FV K} (hτ : τ ∈ ts) (h0 : τ ≠ 0) (h1 : τ ≠ 1) (he : e "threshold" = label τ) {r : K} (hc : ratio.val e = .fin r)
    (hr0 : 0 < r) (hr1 : r < 1) (hs0 : 0 < eventRate agg (revStat label ts a b) cs (eventOf b))
    (hs1 : eventRate agg (revStat label ts a b) cs (eventOf b) < 1) :
    ∃ x, X.val e = .fin x ∧ x ≤ 1 ∧
      (x = 1 ↔ ∀ c ∈ cs, cellWeight agg (revStat label ts a b) c ≠ 0 → actAbove τ a c = eventOf b c) := by
  have hpos := climatology_pos hW hr0 hr1 hs0 hs1
  rw [C34_value hl hp ht ha hb hX E hW hr hτ h0 h1 he hc, FV.fin_div_fin_of_ne _ hpos.ne']
  refine ⟨_, rfl, ?_, ?_⟩
  · rw [div_le_one hpos]
    have := perfect_le hW (act := actAbove τ a) (event := eventOf b) hr0.le hr1.le
    linarith
  · rw [div_eq_one_iff_eq hpos.ne', sub_right_inj, ← sub_eq_zero]
    unfold meanExpense
    rw [← wmean_sub, wmean_eq_zero_iff hW (fun c _ => by cases actAbove τ a c <;> cases eventOf b c <;> simp [expense, hr0.le, hr1.le])]
    refine forall₂_congr (fun c _ => imp_congr_right (fun _ => ?_))
    cases actAbove τ a c <;> cases eventOf b c <;> simp [expense, hr0.ne', sub_eq_zero, hr1.ne, hr1.ne']

/-- **C34** At the added thresholds 0 and 1 the value is that of always and of never acting; the larger of the two is 0, so the best
value over the thresholds is never negative. -/
theorem C34_constant (hX : ValueOf (relativeEconomicValue label ts suffix ratio none) agg p t v X) {first : FV K} (hf : ts.head? = some first)
    (E : Evaluated agg (revStat label ts a b) (setLabel e "threshold" (label first)) cs) (hW : GoodWeights agg (revStat label ts a b) cs)
    (hr : "threshold" ∉ agg.reduceDims) {r : K} (hc : ∀ l, ratio.val (setLabel e "threshold" l) = .fin r)
    (hr0 : 0 < r) (hr1 : r < 1) (hs0 : 0 < eventRate agg (revStat label ts a b) cs (eventOf b))
    (hs1 : eventRate agg (revStat label ts a b) cs (eventOf b) < 1) :
    ∃ x0 x1, X.val (setLabel e "threshold" (label 0)) = .fin x0 ∧ X.val (setLabel e "threshold" (label 1)) = .fin x1 ∧
      x0 = (climatologyExpense agg (revStat label ts a b) cs r (eventOf b) - meanExpense agg (revStat label ts a b) cs r (fun _ => true) (eventOf b)) /
        (climatologyExpense agg (revStat label ts a b) cs r (eventOf b) - meanExpense agg (revStat label ts a b) cs r (eventOf b) (eventOf b)) ∧
      x1 = (climatologyExpense agg (revStat label ts a b) cs r (eventOf b) - meanExpense agg (revStat label ts a b) cs r (fun _ => false) (eventOf b)) /
        (climatologyExpense agg (revStat label ts a b) cs r (eventOf b) - meanExpense agg (revStat label ts a b) cs r (eventOf b) (eventOf b)) ∧
      max x0 x1 = 0 := by
  obtain ⟨first', rest, tp, fp, fn, hts, m1, m2, m3, hv⟩ := valueOf_rev hX
  have hff : first' = first := by rw [hts] at hf; simpa using hf
  subst hff
  obtain ⟨TP, FP, FN, v1, v2, v3, hs, hx⟩ := rev_means hl hp ht ha hb m1 m2 m3 E hW hr (τ := first') (by rw [hts]; simp) (setLabel_same _ _ _)
  simp only [revValues, addConstants, Except.ok.injEq] at hv
  have hpos := climatology_pos hW hr0 hr1 hs0 hs1
  have h01 : label (1 : FV K) ≠ label 0 := fun h => by have := hl (.inr (.inr rfl)) (.inr (.inl rfl)) h; simp [FV.one_def, FV.zero_def] at this
  have hbase : ∀ l, ((firstThreshold (label first') tp).add (firstThreshold (label first') fn)).val (setLabel e "threshold" l) =
      .fin (eventRate agg (revStat label ts a b) cs (eventOf b)) := by
    intro l
    show tp.val (setLabel (setLabel e "threshold" l) "threshold" (label first')) + fn.val (setLabel (setLabel e "threshold" l) "threshold" (label first')) = _
    rw [setLabel_twice, v1, v3, ← hs]
    rfl
  refine ⟨_, _, ?_, ?_, rfl, rfl, ?_⟩
  · rw [← hv, revFormula_val (TP := eventRate agg (revStat label ts a b) cs (eventOf b)) (FP := 1 - eventRate agg (revStat label ts a b) cs (eventOf b))
      (FN := 0) (r := r) ?_ ?_ ?_ (hc _)]
    · unfold climatologyExpense at hpos ⊢
      rw [meanExpense_always hW, meanExpense_never, meanExpense_perfect hW] at hpos
      rw [meanExpense_always hW, meanExpense_never, meanExpense_perfect hW, add_zero, FV.fin_div_fin_of_ne _ hpos.ne']
      congr 3
      ring
    · simp only [addConstant, setLabel_same, if_true, hbase]
    · simp only [addConstant, setLabel_same, if_true, DA.map, hbase, FV.one_def, FV.fin_sub_fin]
    · simp only [addConstant, setLabel_same, if_true, DA.map, FV.zero_def]
  · rw [← hv, revFormula_val (TP := 0) (FP := 0) (FN := eventRate agg (revStat label ts a b) cs (eventOf b)) (r := r) ?_ ?_ ?_ (hc _)]
    · unfold climatologyExpense at hpos ⊢
      rw [meanExpense_always hW, meanExpense_never, meanExpense_perfect hW] at hpos
      rw [meanExpense_always hW, meanExpense_never, meanExpense_perfect hW, zero_add, FV.fin_div_fin_of_ne _ hpos.ne']
      congr 3
      ring
    · simp only [addConstant, setLabel_same, DA.map]
      rw [if_neg h01, if_pos trivial]
      rfl
    · simp only [addConstant, setLabel_same, DA.map]
      rw [if_neg h01, if_pos trivial]
      rfl
    · simp only [addConstant, setLabel_same]
      rw [if_neg h01, if_pos trivial, hbase]
  · unfold climatologyExpense at hpos ⊢
    set A := meanExpense agg (revStat label ts a b) cs r (fun _ => true) (eventOf b)
    set N := meanExpense agg (revStat label ts a b) cs r (fun _ => false) (eventOf b)
    rcases le_total A N with h | h
    · rw [min_eq_left h] at hpos ⊢
      rw [sub_self, zero_div]
      exact max_eq_left (div_nonpos_of_nonpos_of_nonneg (by linarith) hpos.le)
    · rw [min_eq_right h] at hpos ⊢
      rw [sub_self, zero_div]
      exact max_eq_right (div_nonpos_of_nonpos_of_nonneg (by linarith) hpos.le)

/-- **C34** If the event never occurs the value is NaN or minus infinity, never a number. -/
theorem C34_no_events (hX : ValueOf (relativeEconomicValue label ts suffix ratio none) agg p t v X)
    (E : Evaluated agg (revStat label ts a b) e cs) (hW : GoodWeights agg (revStat label ts a b) cs) (hr : "threshold" ∉ agg.reduceDims)
    {τ : FV K} (hτ : τ ∈ ts) (h0 : τ ≠ 0) (h1 : τ ≠ 1) (he : e "threshold" = label τ) {r : K} (hc : ratio.val e = .fin r)
    (hr0 : 0 < r) (hs0 : eventRate agg (revStat label ts a b) cs (eventOf b) = 0) :
    X.val e = .nan ∨ X.val e = .inf true := by
  rw [C34_value hl hp ht ha hb hX E hW hr hτ h0 h1 he hc]
  unfold climatologyExpense
  rw [meanExpense_always hW, meanExpense_never, meanExpense_perfect hW, hs0, min_eq_right hr0.le, mul_zero, sub_zero, zero_sub]
  have hn : 0 ≤ meanExpense agg (revStat label ts a b) cs r (actAbove τ a) (eventOf b) :=
    wmean_nonneg hW (fun c _ => by cases actAbove τ a c <;> cases eventOf b c <;> simp [expense, hr0.le])
  rcases hn.eq_or_lt with h | h
  · left; rw [← h]; simp [FV.fin_div_fin]
  · right
    rw [FV.fin_div_fin]
    simp [h.ne', h]

end

/-! ### Optimal thresholds, and the choice of the thresholds -/

/-- **C34** With `optimal_thresholds` given, the result at a cell is the result without them at the threshold given for that cell; the
thresholds given must be among those evaluated, else `KeyError`. -/
theorem C34_optimal (label : FV K → L) (first : L) (ratio : DA L (FV K)) (o : DA L L) (tp fp fn : DA L (FV K)) {Y : DA L (FV K)}
    (hY : revValues label first ratio none tp fp fn = .ok Y) :
    (∀ X, revValues label first ratio (some o) tp fp fn = .ok X → ∀ e, (∀ l, ratio.val (setLabel e "threshold" l) = ratio.val e) →
      X.val e = Y.val (setLabel e "threshold" (o.val e))) ∧
    ((∃ e, o.InDom e ∧ o.val e ∉ insert (label 0) (insert (label 1) (tp.coords "threshold"))) →
      revValues label first ratio (some o) tp fp fn = .error .keyError) := by
  simp only [revValues, addConstants, Except.ok.injEq] at hY
  subst hY
  constructor
  · intro X hX e hc
    simp only [revValues] at hX
    obtain ⟨t', h1, hX⟩ := bind_ok_iff.mp hX
    obtain ⟨f', h2, hX⟩ := bind_ok_iff.mp hX
    obtain ⟨n', h3, hX⟩ := bind_ok_iff.mp hX
    have sel : ∀ {x y : DA L (FV K)}, selectOptimal o x = .ok y → y.val e = x.val (setLabel e "threshold" (o.val e)) := by
      intro x y h
      unfold selectOptimal at h
      split at h
      · rw [Except.ok.injEq] at h; subst h; rfl
      · simp at h
    simp only [pure, Except.pure, Except.ok.injEq] at hX
    subst hX
    simp only [revFormula, DA.add, DA.sub, DA.mul, DA.div, zipWith, hc, sel h1, sel h2, sel h3]
    rfl
  · rintro ⟨e, h1, h2⟩
    have : selectOptimal o (addConstants label first tp fp fn).1 = .error .keyError := by
      unfold selectOptimal
      rw [if_neg]
      intro h
      refine h2 ?_
      have := h e h1
      simpa [addConstants, addConstant] using this
    simp only [revValues]
    rw [this]
    rfl

/-- **C34** Exactly one of `ensemble_size` and `probability_thresholds` must be given, the latter with a suffix and within [0, 1]. -/
theorem C34_arguments (n : Option ℕ) (ts : Option (List (FV K))) (suffix : Option String) :
    (∃ r, revThresholds n ts suffix = .ok r) ↔
      (n.isSome = true ∧ ts = none) ∨ (n = none ∧ suffix.isSome = true ∧ ∃ l, ts = some l ∧ ∀ t ∈ l, FV.le 0 t = true ∧ FV.le t 1 = true) := by
  cases n with
  | none =>
    cases ts with
    | none => simp [revThresholds]
    | some l =>
      cases suffix with
      | none => simp [revThresholds]
      | some x =>
        simp only [revThresholds, Option.isSome_none, Bool.false_eq_true, false_and, Option.isSome_some, true_and, Option.some.injEq, exists_eq_left', false_or]
        by_cases h : (l.all (fun t => FV.le 0 t) && l.all (fun t => FV.le t 1)) = true
        · simp only [h, if_true, Except.ok.injEq, exists_eq', true_iff]
          rw [Bool.and_eq_true, List.all_eq_true, List.all_eq_true] at h
          exact fun t ht => ⟨h.1 t ht, h.2 t ht⟩
        · simp only [h, Bool.false_eq_true, if_false, reduceCtorEq, exists_false, false_iff]
          intro h'
          exact h (by rw [Bool.and_eq_true, List.all_eq_true, List.all_eq_true]; exact ⟨fun t ht => (h' t ht).1, fun t ht => (h' t ht).2⟩)
  | some n =>
    cases ts with
    | some l => simp [revThresholds]
    | none =>
      simp only [Option.isSome_some, and_self, reduceCtorEq, false_and, or_false, iff_true, revThresholds]
      rw [if_pos]
      · exact ⟨_, rfl⟩
      · rw [Bool.and_eq_true, List.all_eq_true, List.all_eq_true]
        have hpos : ∀ i ∈ List.range n, (0 : K) < n ∧ (i : K) + 1 ≤ n := by
          intro i hi
          have : i < n := List.mem_range.mp hi
          exact ⟨by exact_mod_cast (by omega : 0 < n), by exact_mod_cast this⟩
        constructor
        · intro t ht
          obtain ⟨i, hi, rfl⟩ := List.mem_map.mp ht
          have := hpos i hi
          simp only [FV.le, FV.zero_def, decide_eq_true_eq]
          positivity
        · intro t ht
          obtain ⟨i, hi, rfl⟩ := List.mem_map.mp ht
          have := hpos i hi
          simp only [FV.le, FV.one_def, decide_eq_true_eq]
          rw [div_le_one this.1]
          linarith [this.2]

/-- **C34** With `ensemble_size = n` the thresholds are `(i + 1/2)/n`: a forecast probability `k/n` exceeds exactly `k` of them. -/
theorem C34_ensemble_thresholds {n : ℕ} {suffix : Option String} {ts : List (FV K)} {s : String} (hn : 0 < n)
    (h : revThresholds (some n) none suffix = .ok (ts, s)) {k : ℕ} (hk : k ≤ n) :
    ts.length = n ∧ (ts.filter (fun t => FV.lt t (FV.fin ((k : K) / n)))).length = k := by
  simp only [revThresholds] at h
  split at h
  · simp only [Except.ok.injEq, Prod.mk.injEq] at h
    obtain ⟨rfl, -⟩ := h
    have hn' : (0 : K) < n := by exact_mod_cast hn
    refine ⟨by simp, ?_⟩
    rw [List.filter_map, List.length_map]
    have : ∀ i, ((fun t => FV.lt t (FV.fin ((k : K) / n))) ∘ fun i : ℕ => FV.fin (((i : K) + 1 / 2) / n)) i = decide (i < k) := by
      intro i
      simp only [Function.comp, FV.lt, decide_eq_decide]
      rw [div_lt_div_iff_of_pos_right hn']
      constructor
      · intro h
        by_contra hc
        have : (k : K) ≤ i := by exact_mod_cast not_lt.mp hc
        linarith
      · intro h
        have : (i : K) + 1 ≤ k := by exact_mod_cast h
        linarith
    rw [List.filter_congr (fun i _ => this i)]
    have hlen : ∀ m, ((List.range m).filter (fun i => decide (i < k))).length = min m k := by
      intro m
      induction m with
      | zero => simp
      | succ m ih =>
        rw [List.range_succ, List.filter_append, List.length_append, ih]
        by_cases hm : m < k
        · simp [hm]; omega
        · simp [hm]; omega
    rw [hlen]
    omega
  · simp at h

/-- **C34** (finding) The default suffix does not contain the ensemble size: metrics for different ensemble sizes have statistics of the
same unique name, although their thresholds differ. -/
theorem C34_name_collision (label : FV K → L) (m n : ℕ) (hmn : m ≠ n) :
    ∃ (ts ts' : List (FV K)) (s : String), revThresholds (some m) none none = .ok (ts, s) ∧ revThresholds (some n) none none = .ok (ts', s) ∧
      ts.length ≠ ts'.length ∧ ∀ st : FStatistic L K, (wrappedStatistic st (revBinarize label ts s)).uniqueName = (wrappedStatistic st (revBinarize label ts' s)).uniqueName := by
  obtain ⟨⟨ts, s⟩, h⟩ := (C34_arguments (K := K) (some m) none none).mpr (.inl ⟨rfl, rfl⟩)
  obtain ⟨⟨ts', s'⟩, h'⟩ := (C34_arguments (K := K) (some n) none none).mpr (.inl ⟨rfl, rfl⟩)
  have key : ∀ {n : ℕ} {ts : List (FV K)} {s : String}, revThresholds (some n) none none = .ok (ts, s) → ts.length = n ∧ s = "all_thresholds_for_ensemble_size" := by
    intro n ts s h
    simp only [revThresholds] at h
    split at h
    · simp only [Except.ok.injEq, Prod.mk.injEq] at h
      obtain ⟨rfl, rfl⟩ := h
      simp
    · simp at h
  obtain ⟨l1, s1⟩ := key h
  obtain ⟨l2, s2⟩ := key h'
  exact ⟨ts, ts', s, h, by rw [h', s1, s2], by omega, fun st => rfl⟩

/-! ### The hypotheses are met -/

/-- Probabilities 1/4 and 3/4 at the two points; the event occurs at the second. -/
noncomputable def revPred : StatVar ℕ (FV ℝ) := ⟨{ dims := {"x"}, coords := fun _ => {0, 1}, val := fun e => FV.fin (if e "x" = 0 then 1 / 4 else 3 / 4) }, none⟩
noncomputable def revTarget : StatVar ℕ (FV ℝ) := ⟨{ dims := {"x"}, coords := fun _ => {0, 1}, val := fun e => FV.fin (if e "x" = 0 then 0 else 1) }, none⟩

noncomputable def revLabel (t : FV ℝ) : ℕ := if t = 0 then 10 else if t = 1 then 11 else 12
noncomputable def revRatio : DA ℕ (FV ℝ) := { dims := {"cost_loss_ratio"}, coords := fun _ => {0}, val := fun _ => FV.fin (1 / 3) }

theorem revLabel_inj : DistinctLabels revLabel [FV.fin (1 / 2)] := by
  have h1 : (FV.fin (1 / 2) : FV ℝ) ≠ 0 := by simp [FV.zero_def]
  have h2 : (FV.fin (1 / 2) : FV ℝ) ≠ 1 := by simp [FV.one_def]
  have h3 : (0 : FV ℝ) ≠ 1 := by simp [FV.zero_def, FV.one_def]
  have a1 : revLabel (FV.fin (1 / 2)) = 12 := by unfold revLabel; rw [if_neg h1, if_neg h2]
  have a2 : revLabel 0 = 10 := by unfold revLabel; rw [if_pos rfl]
  have a3 : revLabel 1 = 11 := by unfold revLabel; rw [if_neg h3.symm, if_pos rfl]
  rintro a ha b hb h
  simp only [List.mem_singleton, Set.mem_setOf_eq] at ha hb
  rcases ha with rfl | rfl | rfl <;> rcases hb with rfl | rfl | rfl <;> simp only [a1, a2, a3] at h ⊢ <;> omega

theorem revLabel_half : revLabel (FV.fin (1 / 2)) = 12 := by
  unfold revLabel
  rw [if_neg (by simp [FV.zero_def]), if_neg (by simp [FV.one_def])]

theorem rev_cells : Evaluated mAgg (revStat revLabel [FV.fin (1 / 2)] revPred revTarget) (setLabel (exCell 0) "threshold" 12)
    (({0, 1} : Finset ℕ).image (fun n => setLabel (setLabel (exCell 0) "threshold" 12) "x" n)) := by
  refine evaluated_x _ _ ?_ ?_ _ (fun n _ => ?_)
  · simp [revStat, truePositives, contingency, binarize, StatVar.zipWith, StatVar.map, zipWith, DA.map, joinCoords, thresholdArray, revPred, revTarget]
  · simp [revStat, truePositives, contingency, binarize, StatVar.zipWith, StatVar.map, combineMask, revPred, revTarget]
  · unfold revStat truePositives
    rw [contingency_val, C37_value, thresholdArray_val' (t := FV.fin (1 / 2)) (by simp) (by simp) (by rw [revLabel_half]; simp [setLabel])]
    have hc : ∀ (x y : ℝ) (c : Bool), (if (FV.fin x * FV.fin y).isnan = true then FV.nan else FV.ofBool c : FV ℝ).isFin = true := by
      intro x y c
      rw [FV.fin_mul_fin]
      cases c <;> rfl
    have hn : ¬ (revPred.arr.val (setLabel (setLabel (exCell 0) "threshold" 12) "x" n)).isnan = true := by simp [revPred, FV.isnan]
    rw [if_neg hn, cdfInd_fin]
    exact hc _ _ _

theorem rev_event : eventRate mAgg (revStat revLabel [FV.fin (1 / 2)] revPred revTarget)
    (({0, 1} : Finset ℕ).image (fun n => setLabel (setLabel (exCell 0) "threshold" 12) "x" n)) (eventOf revTarget) = 1 / 2 := by
  have hw : ∀ e', cellWeight mAgg (revStat revLabel [FV.fin (1 / 2)] revPred revTarget) e' = 1 := by
    intro e'; simp [cellWeight, Aggregator.allFactors, mAgg]
  have hinj : Function.Injective (fun n => setLabel (setLabel (exCell 0) "threshold" 12) "x" n) := fun m n h => by
    have := congrFun h "x"
    simpa [setLabel] using this
  unfold eventRate wmean
  simp only [hw, mul_one]
  rw [Finset.sum_image (fun _ _ _ _ h => hinj h), Finset.sum_image (fun _ _ _ _ h => hinj h), Finset.sum_pair (by decide), Finset.sum_pair (by decide)]
  have e0 : eventOf revTarget (setLabel (setLabel (exCell 0) "threshold" 12) "x" 0) = false := by
    simp [eventOf, revTarget, setLabel, FV.toBool]
  have e1 : eventOf revTarget (setLabel (setLabel (exCell 0) "threshold" 12) "x" 1) = true := by
    simp [eventOf, revTarget, setLabel, FV.toBool]
  rw [e0, e1]
  norm_num

theorem rev_good : GoodWeights mAgg (revStat revLabel [FV.fin (1 / 2)] revPred revTarget)
    (({0, 1} : Finset ℕ).image (fun n => setLabel (setLabel (exCell 0) "threshold" 12) "x" n)) := by
  have hw : ∀ e', cellWeight mAgg (revStat revLabel [FV.fin (1 / 2)] revPred revTarget) e' = 1 := by
    intro e'; simp [cellWeight, Aggregator.allFactors, mAgg]
  refine ⟨fun e' _ => by rw [hw]; exact zero_le_one, ?_⟩
  simp only [hw, Finset.sum_const, nsmul_eq_mul, mul_one]
  exact_mod_cast Finset.card_pos.mpr ⟨_, Finset.mem_image_of_mem _ (by simp : (0 : ℕ) ∈ ({0, 1} : Finset ℕ))⟩

/-- A perfect forecast at the threshold 1/2: the hypotheses of the theorems are met, and the value is 1. -/
example : ∃ X, ValueOf (relativeEconomicValue revLabel [FV.fin (1 / 2)] "s" revRatio none) mAgg [("t", revPred)] [("t", revTarget)] "t" X ∧
    X.val (setLabel (exCell 0) "threshold" 12) = FV.fin 1 := by
  have hagg : ∀ f, ∃ q, mAgg.aggregateStatVar (contingency f (binarize (thresholdArray revLabel "threshold" [FV.fin (1 / 2)]) revPred) revTarget) = .ok (some q) :=
    fun f => exists_aggregate mAgg rfl _ (by simp [mAgg, contingency, StatVar.zipWith, zipWith, revTarget, StatVar.map, DA.map])
  have hone : ∀ (name : String) f, ∃ y, OneMean mAgg (binarizedVars revLabel [FV.fin (1 / 2)] [("t", revPred)]) [("t", revTarget)] "t" (statOf name (contingency f)) y := by
    intro name f
    obtain ⟨q, hq⟩ := hagg f
    exact ⟨_, oneMean_statOf _ _ _ _ _ _ hq⟩
  obtain ⟨tp, m1⟩ := hone "TruePositives" (fun p t => p && t)
  obtain ⟨tn, m2⟩ := hone "TrueNegatives" (fun p t => !p && !t)
  obtain ⟨fp, m3⟩ := hone "FalsePositives" (fun p t => p && !t)
  obtain ⟨fn, m4⟩ := hone "FalseNegatives" (fun p t => !p && t)
  obtain ⟨X, hX⟩ : ∃ X, revValues revLabel (revLabel (FV.fin (1 / 2))) revRatio none tp fp fn = .ok X := ⟨_, rfl⟩
  have hV := exists_rev (suffix := "s") m1 m2 m3 m4 hX
  refine ⟨X, hV, ?_⟩
  obtain ⟨x, hx, -, h1⟩ := C34_at_most_one revLabel_inj (by simp) (by simp) (List.mem_singleton.mpr rfl) (List.mem_singleton.mpr rfl) hV rev_cells rev_good
    (by simp [mAgg]) (τ := FV.fin (1 / 2)) (by simp) (by simp [FV.zero_def]) (by simp [FV.one_def]) (by rw [revLabel_half]; simp [setLabel]) (r := 1 / 3)
    (by simp [revRatio]) (by norm_num) (by norm_num) (by rw [rev_event]; norm_num) (by rw [rev_event]; norm_num)
  rw [hx, h1.mpr]
  intro c hc _
  obtain ⟨n, hn, rfl⟩ := Finset.mem_image.mp hc
  rcases (by simpa using hn : n = 0 ∨ n = 1) with rfl | rfl
  · simp [actAbove, eventOf, revPred, revTarget, setLabel, FV.lt, FV.toBool]; norm_num
  · simp [actAbove, eventOf, revPred, revTarget, setLabel, FV.lt, FV.toBool]; norm_num

end WBX
