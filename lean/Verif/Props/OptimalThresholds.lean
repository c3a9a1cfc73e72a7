import Verif.Model.OptimalThresholds
import Verif.Props.EconomicValue
import Verif.Props.StationaryCellwise
import Verif.Props.Slices
import Verif.Props.Transforms
import Verif.Lemmas.Table

set_option linter.unusedSectionVars false

/-!
# C34, optimal thresholds: per variable, exact or nearest
-/

namespace WBX
open DA Classical
variable {L K : Type} [DecidableEq L] [Field K] [LinearOrder K] [IsStrictOrderedRing K]

/-! ### Specification -/

/-- `τ` is the threshold that is used for the optimum `x`: `x` itself, or, with `optimal_thresholds_select_nearest`, the nearest one (the larger one of two equally near). -/
def UsedThreshold (nearest : Bool) (index : List K) (x τ : K) : Prop :=
  (nearest = false → τ = x) ∧ (nearest = true → τ ∈ index ∧ ∀ σ ∈ index, |τ - x| ≤ |σ - x| ∧ (|σ - x| = |τ - x| → σ ≤ τ))

/-- The optimal thresholds of a variable. -/
def OptimalArg.IsFor (opt : OptimalArg L K) (v : String) (o : DA L K) : Prop := opt = .shared o ∨ ∃ m, opt = .perVariable m ∧ pyGet? v m = some o

/-- The thresholds can be looked up: none is repeated, and for the nearest one they must be increasing. -/
def Searchable (nearest : Bool) (index : List K) : Prop := index.Nodup ∧ (nearest = true → index.Pairwise (· ≤ ·))

/-! ### The nearest entry -/

theorem le_getLast {l : List K} (h : l.Pairwise (· ≤ ·)) {a : K} (ha : l.getLast? = some a) : a ∈ l ∧ ∀ y ∈ l, y ≤ a := by
  refine ⟨List.mem_of_getLast? ha, fun y hy => ?_⟩
  obtain ⟨l', rfl⟩ : ∃ l', l = l' ++ [a] := by
    rw [List.getLast?_eq_some_iff] at ha
    exact ha
  rcases List.mem_append.mp hy with hy | hy
  · exact (List.pairwise_append.mp h).2.2 y hy a (by simp)
  · simp at hy; exact hy.le

theorem head_le {l : List K} (h : l.Pairwise (· ≤ ·)) {a : K} (ha : l.head? = some a) : a ∈ l ∧ ∀ y ∈ l, a ≤ y := by
  refine ⟨List.mem_of_head? ha, fun y hy => ?_⟩
  cases l with
  | nil => cases ha
  | cons b l =>
    obtain rfl := Option.some.inj ha
    rcases List.mem_cons.mp hy with rfl | hy
    · exact le_rfl
    · exact (List.pairwise_cons.mp h).1 y hy

theorem nearestEntry_spec {index : List K} (hs : index.Pairwise (· ≤ ·)) (hne : index ≠ []) (x : K) :
    ∃ τ, nearestEntry index x = some τ ∧ UsedThreshold true index x τ := by
  have key : ∀ τ, τ ∈ index → (∀ σ ∈ index, |τ - x| ≤ |σ - x| ∧ (|σ - x| = |τ - x| → σ ≤ τ)) → UsedThreshold true index x τ :=
    fun τ h1 h2 => ⟨fun h => (by cases h), fun _ => ⟨h1, h2⟩⟩
  have hp : ∀ l, padEntry index x = some l → l ∈ index ∧ l ≤ x ∧ ∀ σ ∈ index, σ ≤ x → σ ≤ l := by
    intro l hl
    obtain ⟨h1, h2⟩ := le_getLast (hs.filter _) hl
    rw [List.mem_filter, decide_eq_true_eq] at h1
    exact ⟨h1.1, h1.2, fun σ hσ hx => h2 σ (List.mem_filter.mpr ⟨hσ, by simpa using hx⟩)⟩
  have hb : ∀ r, backfillEntry index x = some r → r ∈ index ∧ x ≤ r ∧ ∀ σ ∈ index, x ≤ σ → r ≤ σ := by
    intro r hr
    obtain ⟨h1, h2⟩ := head_le (hs.filter _) hr
    rw [List.mem_filter, decide_eq_true_eq] at h1
    exact ⟨h1.1, h1.2, fun σ hσ hx => h2 σ (List.mem_filter.mpr ⟨hσ, by simpa using hx⟩)⟩
  have hp0 : padEntry index x = none → ∀ σ ∈ index, x < σ := by
    intro h σ hσ
    unfold padEntry at h
    rw [List.getLast?_eq_none_iff, List.filter_eq_nil_iff] at h
    simpa using h σ hσ
  have hb0 : backfillEntry index x = none → ∀ σ ∈ index, σ < x := by
    intro h σ hσ
    unfold backfillEntry at h
    rw [List.head?_eq_none_iff, List.filter_eq_nil_iff] at h
    simpa using h σ hσ
  unfold nearestEntry
  cases h1 : padEntry index x with
  | none =>
    cases h2 : backfillEntry index x with
    | none =>
      obtain ⟨a, ha⟩ := List.exists_mem_of_ne_nil _ hne
      exact absurd (hp0 h1 a ha) (hb0 h2 a ha).not_gt
    | some r =>
      obtain ⟨hr, hxr, hmin⟩ := hb r h2
      refine ⟨r, rfl, key r hr (fun σ hσ => ?_)⟩
      have := hp0 h1 σ hσ
      have := hmin σ hσ this.le
      rw [abs_of_nonneg (by linarith), abs_of_nonneg (by linarith)]
      exact ⟨by linarith, fun h => by linarith⟩
  | some l =>
    obtain ⟨hl, hlx, hmax⟩ := hp l h1
    cases h2 : backfillEntry index x with
    | none =>
      refine ⟨l, rfl, key l hl (fun σ hσ => ?_)⟩
      have := hb0 h2 σ hσ
      have := hmax σ hσ this.le
      rw [abs_of_nonpos (by linarith), abs_of_nonpos (by linarith)]
      exact ⟨by linarith, fun h => by linarith⟩
    | some r =>
      obtain ⟨hr, hxr, hmin⟩ := hb r h2
      have el : |l - x| = x - l := by rw [abs_of_nonpos (by linarith)]; ring
      have er : |r - x| = r - x := abs_of_nonneg (by linarith)
      dsimp only
      by_cases hlt : |l - x| < |r - x|
      · rw [if_pos hlt]
        refine ⟨l, rfl, key l hl (fun σ hσ => ?_)⟩
        rw [el, er] at hlt
        rw [el]
        rcases le_total σ x with hx | hx
        · have := hmax σ hσ hx
          rw [abs_of_nonpos (by linarith)]
          exact ⟨by linarith, fun _ => this⟩
        · have := hmin σ hσ hx
          rw [abs_of_nonneg (by linarith)]
          exact ⟨by linarith, fun h => by linarith⟩
      · rw [if_neg hlt]
        refine ⟨r, rfl, key r hr (fun σ hσ => ?_)⟩
        rw [el, er, not_lt] at hlt
        rw [er]
        rcases le_total σ x with hx | hx
        · have := hmax σ hσ hx
          rw [abs_of_nonpos (by linarith)]
          exact ⟨by linarith, fun h => by linarith⟩
        · have := hmin σ hσ hx
          rw [abs_of_nonneg (by linarith)]
          exact ⟨by linarith, fun h => by linarith⟩

/-! ### One variable -/

/-- The threshold used for an optimum. -/
def usedEntry (nearest : Bool) (index : List K) (x : K) : K := if nearest then (nearestEntry index x).getD x else x

theorem usedEntry_spec {nearest : Bool} {index : List K} (hs : nearest = true → index.Pairwise (· ≤ ·)) (hne : index ≠ []) (x : K) : UsedThreshold nearest index x (usedEntry nearest index x) := by
  cases nearest with
  | false => exact ⟨fun _ => rfl, fun h => by cases h⟩
  | true =>
    obtain ⟨τ, h1, h2⟩ := nearestEntry_spec (hs rfl) hne x
    unfold usedEntry
    rw [if_pos rfl, h1]
    exact h2

/-- What `_select_optimal_thresholds` does: it is the selection of the used thresholds if these can be looked up. -/
theorem selectThresholds_eq {label : FV K → L} {nearest : Bool} {index : List K} {o : DA L K} {x : DA L (FV K)} :
    (index.Nodup ∧ (nearest = true → index.Pairwise (· ≤ ·) ∨ ¬ ∃ e, o.InDom e) → selectThresholds label nearest index o x = selectOptimal (o.map (fun y => label (.fin (usedEntry nearest index y)))) x) ∧
    (¬ index.Nodup → selectThresholds label nearest index o x = .error .indexError) ∧
    (index.Nodup → nearest = true → ¬ index.Pairwise (· ≤ ·) → (∃ e, o.InDom e) → selectThresholds label nearest index o x = .error .valueError) := by
  refine ⟨?_, ?_, ?_⟩
  · rintro ⟨hn, hs⟩
    unfold selectThresholds
    rw [if_neg (not_not.mpr hn)]
    cases nearest with
    | false => rw [if_neg (by simp)]; rfl
    | true =>
      rw [if_pos rfl, if_neg]
      · rfl
      · rintro ⟨h1, h2⟩
        rcases hs rfl with h | h
        · exact h1 h
        · exact h h2
  · intro hn
    unfold selectThresholds
    rw [if_pos hn]
  · intro hn h h1 h2
    subst h
    unfold selectThresholds
    rw [if_neg (not_not.mpr hn), if_pos rfl, if_pos ⟨h1, h2⟩]

/-- The thresholds of the result are those that all three statistics have. -/
theorem mem_rev_coords {ratio tp fp fn : DA L (FV K)} (hr : "threshold" ∉ ratio.dims) (h1 : "threshold" ∈ tp.dims) (h2 : "threshold" ∈ fp.dims) (h3 : "threshold" ∈ fn.dims) (l : L) :
    l ∈ (revFormula ratio tp fp fn).coords "threshold" ↔ l ∈ tp.coords "threshold" ∧ l ∈ fp.coords "threshold" ∧ l ∈ fn.coords "threshold" := by
  simp only [revFormula, DA.add, DA.sub, DA.mul, DA.div, zipWith, joinCoords, Finset.mem_union, h1, h2, h3, hr, or_true, true_or, false_or, if_true, if_false, Finset.mem_inter]
  tauto

section one
variable {label : FV K → L} {ts : List K} {ratio : DA L (FV K)} {opt : OptimalArg L K} {nearest : Bool} {v : String} {first : L} {tp fp fn : DA L (FV K)}

theorem forVariable_eq {o : DA L K} (h : opt.IsFor v o) : opt.forVariable v = .ok (some o) := by
  rcases h with rfl | ⟨m, rfl, hm⟩
  · rfl
  · unfold OptimalArg.forVariable pyItem
    simp only [hm]
    rfl

theorem selectOptimal_ok_iff {o : DA L L} {x y : DA L (FV K)} : selectOptimal o x = .ok y ↔ (∀ e, o.InDom e → o.val e ∈ x.coords "threshold") ∧
    y = { dims := x.dims.erase "threshold" ∪ o.dims, coords := fun k => if k ∈ o.dims then o.coords k else x.coords k, val := fun e => x.val (DA.setLabel e "threshold" (o.val e)) } := by
  unfold selectOptimal
  split_ifs with h
  · rw [Except.ok.injEq]
    exact ⟨fun hy => ⟨h, hy.symm⟩, fun hy => hy.2.symm⟩
  · exact ⟨fun hy => (by cases hy), fun hy => absurd hy.1 h⟩

/-- One variable: the value with optimal thresholds is the value without them at the thresholds that are used. -/
theorem rev_one {o : DA L K} (ho : opt.IsFor v o) (hr : "threshold" ∉ ratio.dims) {X Y : DA L (FV K)} (hY : revValues label first ratio none tp fp fn = .ok Y)
    (hX : revValuesFor label ts ratio opt nearest v first tp fp fn = .ok X) :
    (thresholdIndex ts).Nodup ∧ ∀ e, o.InDom e → (∀ l, ratio.val (setLabel e "threshold" l) = ratio.val e) →
      ∃ τ, UsedThreshold nearest (thresholdIndex ts) (o.val e) τ ∧ label (.fin τ) ∈ Y.coords "threshold" ∧ X.val e = Y.val (setLabel e "threshold" (label (.fin τ))) := by
  simp only [revValues, Except.ok.injEq] at hY
  unfold revValuesFor at hX
  rw [forVariable_eq ho] at hX
  change (do
    let tp' ← selectThresholds label nearest (thresholdIndex ts) o (addConstants label first tp fp fn).1
    let fp' ← selectThresholds label nearest (thresholdIndex ts) o (addConstants label first tp fp fn).2.1
    let fn' ← selectThresholds label nearest (thresholdIndex ts) o (addConstants label first tp fp fn).2.2
    return revFormula ratio tp' fp' fn' : Except Err _) = .ok X at hX
  by_cases hn : (thresholdIndex ts).Nodup
  swap
  · rw [(selectThresholds_eq (label := label) (nearest := nearest) (o := o) (x := (addConstants label first tp fp fn).1)).2.1 hn] at hX
    cases hX
  refine ⟨hn, ?_⟩
  intro e he hc
  have hs : nearest = true → (thresholdIndex ts).Pairwise (· ≤ ·) := by
    intro h
    by_contra hs
    rw [(selectThresholds_eq (label := label) (nearest := nearest) (o := o) (x := (addConstants label first tp fp fn).1)).2.2 hn h hs ⟨e, he⟩] at hX
    cases hX
  have heq : ∀ x, selectThresholds label nearest (thresholdIndex ts) o x = selectOptimal (o.map (fun y => label (.fin (usedEntry nearest (thresholdIndex ts) y)))) x :=
    fun x => (selectThresholds_eq (label := label) (nearest := nearest) (o := o) (x := x)).1 ⟨hn, fun h => .inl (hs h)⟩
  rw [heq, heq, heq] at hX
  obtain ⟨t', h1, hX⟩ := bind_ok_iff.mp hX
  obtain ⟨f', h2, hX⟩ := bind_ok_iff.mp hX
  obtain ⟨n', h3, hX⟩ := bind_ok_iff.mp hX
  obtain ⟨c1, rfl⟩ := selectOptimal_ok_iff.mp h1
  obtain ⟨c2, rfl⟩ := selectOptimal_ok_iff.mp h2
  obtain ⟨c3, rfl⟩ := selectOptimal_ok_iff.mp h3
  cases hX
  subst hY
  refine ⟨usedEntry nearest (thresholdIndex ts) (o.val e), usedEntry_spec hs (by simp [thresholdIndex]) _, ?_, ?_⟩
  · rw [mem_rev_coords hr (by simp [addConstants, addConstant]) (by simp [addConstants, addConstant]) (by simp [addConstants, addConstant])]
    exact ⟨c1 e he, c2 e he, c3 e he⟩
  · simp only [revFormula, DA.add, DA.sub, DA.mul, DA.div, zipWith, hc, DA.map]

/-- Conversely there is a value if the thresholds can be looked up and are among those evaluated. -/
theorem rev_one_exists {o : DA L K} (ho : opt.IsFor v o) (hr : "threshold" ∉ ratio.dims) {Y : DA L (FV K)} (hY : revValues label first ratio none tp fp fn = .ok Y)
    (hs : Searchable nearest (thresholdIndex ts)) (hm : ∀ e, o.InDom e → ∀ τ, UsedThreshold nearest (thresholdIndex ts) (o.val e) τ → label (.fin τ) ∈ Y.coords "threshold") :
    ∃ X, revValuesFor label ts ratio opt nearest v first tp fp fn = .ok X := by
  simp only [revValues, Except.ok.injEq] at hY
  subst hY
  have heq : ∀ x, selectThresholds label nearest (thresholdIndex ts) o x = selectOptimal (o.map (fun y => label (.fin (usedEntry nearest (thresholdIndex ts) y)))) x :=
    fun x => (selectThresholds_eq (label := label) (nearest := nearest) (o := o) (x := x)).1 ⟨hs.1, fun h => .inl (hs.2 h)⟩
  have hc := fun e he => (mem_rev_coords hr (by simp [addConstants, addConstant]) (by simp [addConstants, addConstant]) (by simp [addConstants, addConstant]) _).mp
    (hm e he _ (usedEntry_spec hs.2 (by simp [thresholdIndex]) (o.val e)))
  unfold revValuesFor
  rw [forVariable_eq ho]
  change ∃ X, (do
    let tp' ← selectThresholds label nearest (thresholdIndex ts) o (addConstants label first tp fp fn).1
    let fp' ← selectThresholds label nearest (thresholdIndex ts) o (addConstants label first tp fp fn).2.1
    let fn' ← selectThresholds label nearest (thresholdIndex ts) o (addConstants label first tp fp fn).2.2
    return revFormula ratio tp' fp' fn' : Except Err _) = .ok X
  rw [heq, heq, heq]
  exact ⟨_, bind_ok_iff.mpr ⟨_, selectOptimal_ok_iff.mpr ⟨fun e he => (hc e he).1, rfl⟩, bind_ok_iff.mpr ⟨_, selectOptimal_ok_iff.mpr ⟨fun e he => (hc e he).2.1, rfl⟩,
    bind_ok_iff.mpr ⟨_, selectOptimal_ok_iff.mpr ⟨fun e he => (hc e he).2.2, rfl⟩, rfl⟩⟩⟩⟩

end one

/-! ### The metric -/

theorem mapM_rel {α β γ : Type} {F : α → Except Err β} {F' : α → Except Err γ} {R : β → γ → Prop} : {l : List α} → {r : List β} → l.mapM F = .ok r →
    (∀ a ∈ l, ∀ b ∈ r, F a = .ok b → ∃ b', F' a = .ok b' ∧ R b b') → ∃ r', l.mapM F' = .ok r' ∧ List.Forall₂ R r r'
  | [], r, h, _ => by
    cases h
    exact ⟨[], rfl, .nil⟩
  | a :: l, r, h, hF => by
    rw [List.mapM_cons] at h
    obtain ⟨y, hy, h⟩ := bind_ok_iff.mp h
    obtain ⟨ys, hys, h⟩ := bind_ok_iff.mp h
    cases h
    obtain ⟨b', hb, hR⟩ := hF a (by simp) y (by simp) hy
    obtain ⟨r', hr', hR'⟩ := mapM_rel hys (fun a ha b hb => hF a (by simp [ha]) b (by simp [hb]))
    refine ⟨b' :: r', ?_, .cons hR hR'⟩
    rw [List.mapM_cons, hb, hr']
    rfl

theorem named_rel {M : Type} {names : List String} {g g' : String → List (String × M) → Except Err M} {sv : List (String × Vars M)} {r : Vars M} {R : String → M → M → Prop}
    (h : perVariableNamedValues names g sv = .ok r) (hg : ∀ v xs x, (v, x) ∈ r → g v xs = .ok x → ∃ y, g' v xs = .ok y ∧ R v x y) :
    ∃ r', perVariableNamedValues names g' sv = .ok r' ∧ List.Forall₂ (fun a b => a.1 = b.1 ∧ R a.1 a.2 b.2) r r' := by
  unfold perVariableNamedValues at h ⊢
  obtain ⟨vs, hvs, h⟩ := bind_ok_iff.mp h
  obtain ⟨common, hc, h⟩ := bind_ok_iff.mp h
  obtain ⟨r', hr', hR⟩ := mapM_rel (R := fun a b : String × M => a.1 = b.1 ∧ R a.1 a.2 b.2) h (F' := fun v => do
    let perVar ← names.mapM (fun s => do
      let m ← pyItem sv s
      let x ← pyItem m v
      return (s, x))
    let x ← g' v perVar
    return (v, x)) (by
    intro v _ b hb hv
    obtain ⟨xs, hxs, hv⟩ := bind_ok_iff.mp hv
    obtain ⟨x, hx, hv⟩ := bind_ok_iff.mp hv
    cases hv
    obtain ⟨y, hy, hR⟩ := hg v xs x hb hx
    exact ⟨(v, y), bind_ok_iff.mpr ⟨xs, hxs, bind_ok_iff.mpr ⟨y, hy, rfl⟩⟩, rfl, hR⟩)
  exact ⟨r', bind_ok_iff.mpr ⟨vs, hvs, bind_ok_iff.mpr ⟨common, hc, hr'⟩⟩, hR⟩

section metric
variable {label : FV K → L} {ts : List K} {suffix : String} {ratio : DA L (FV K)} {opt : OptimalArg L K} {nearest : Bool}
  {agg : Aggregator L (FV K)} {p t : Vars (StatVar L (FV K))}

/-- Without optimal thresholds this is the metric of the other theorems. -/
theorem notGiven_eq (label : FV K → L) (ts : List K) (suffix : String) (ratio : DA L (FV K)) (nearest : Bool) :
    economicValueMetric label ts suffix ratio .notGiven nearest = relativeEconomicValue label (ts.map FV.fin) suffix ratio none := by
  unfold economicValueMetric relativeEconomicValue perVariableMetric
  congr 1
  funext sv
  change perVariableNamedValues _ _ sv = perVariableNamedValues _ (fun _ => _) sv
  congr 1
  funext v xs
  unfold revFromStatistics
  cases ts <;> rfl

theorem revFrom_ok {v : String} {xs : List (String × DA L (FV K))} {x : DA L (FV K)} : revFromStatistics label ts ratio opt nearest v xs = .ok x ↔
    ∃ first tp fp fn, ts.head? = some first ∧ pyItem xs "TruePositives" = .ok tp ∧ pyItem xs "FalsePositives" = .ok fp ∧ pyItem xs "FalseNegatives" = .ok fn ∧
      revValuesFor label ts ratio opt nearest v (label (.fin first)) tp fp fn = .ok x := by
  unfold revFromStatistics
  constructor
  · intro hv
    obtain ⟨tp, h1, hv⟩ := bind_ok_iff.mp hv
    obtain ⟨fp, h2, hv⟩ := bind_ok_iff.mp hv
    obtain ⟨fn, h3, hv⟩ := bind_ok_iff.mp hv
    cases ts with
    | nil => cases hv
    | cons first ts => exact ⟨first, tp, fp, fn, rfl, h1, h2, h3, hv⟩
  · rintro ⟨first, tp, fp, fn, h0, h1, h2, h3, hv⟩
    rw [h1, h2, h3]
    cases ts with
    | nil => cases h0
    | cons first' ts =>
      obtain rfl := Option.some.inj h0
      exact hv

/-- The results for two choices of the optimal thresholds, from the same statistics. -/
theorem metric_rel {opt' : OptimalArg L K} {nearest' : Bool} {R : String → DA L (FV K) → DA L (FV K) → Prop} {r : Vars (DA L (FV K))}
    (h : metricAlone (economicValueMetric label ts suffix ratio opt nearest) agg p t = .ok r)
    (hg : ∀ v first tp fp fn x, (v, x) ∈ r → revValuesFor label ts ratio opt nearest v first tp fp fn = .ok x →
      ∃ y, revValuesFor label ts ratio opt' nearest' v first tp fp fn = .ok y ∧ R v x y) :
    ∃ r', metricAlone (economicValueMetric label ts suffix ratio opt' nearest') agg p t = .ok r' ∧ List.Forall₂ (fun a b => a.1 = b.1 ∧ R a.1 a.2 b.2) r r' := by
  unfold metricAlone at h ⊢
  obtain ⟨means, hm, h⟩ := bind_ok_iff.mp h
  obtain ⟨r', hr', hR⟩ := named_rel (g' := revFromStatistics label ts ratio opt' nearest') h (by
    intro v xs x hx hv
    obtain ⟨first, tp, fp, fn, h1, h2, h3, h4, hv⟩ := revFrom_ok.mp hv
    obtain ⟨y, hy, hR⟩ := hg v _ tp fp fn x hx hv
    exact ⟨y, revFrom_ok.mpr ⟨first, tp, fp, fn, h1, h2, h3, h4, hy⟩, hR⟩)
  exact ⟨r', bind_ok_iff.mpr ⟨means, hm, hr'⟩, hR⟩

theorem revValuesFor_given {v : String} {first : L} {tp fp fn X : DA L (FV K)} (hopt : opt ≠ .notGiven) (h : revValuesFor label ts ratio opt nearest v first tp fp fn = .ok X) :
    ∃ o, opt.IsFor v o := by
  cases opt with
  | notGiven => exact absurd rfl hopt
  | shared o => exact ⟨o, .inl rfl⟩
  | perVariable m =>
    unfold revValuesFor at h
    obtain ⟨o, ho, -⟩ := bind_ok_iff.mp h
    obtain ⟨o', ho', -⟩ := bind_ok_iff.mp ho
    unfold pyItem at ho'
    cases hm : pyGet? v m with
    | none => rw [hm] at ho'; cases ho'
    | some a => exact ⟨a, .inr ⟨m, rfl, hm⟩⟩

/-- **C34** With optimal thresholds, for all variables or for each variable, the value is the value without optimal thresholds at the threshold that is used: the optimum itself, which must be
among the thresholds that are evaluated, or the nearest one. -/
theorem C34_optimal_values (hopt : opt ≠ .notGiven) (hr : "threshold" ∉ ratio.dims) {v : String} {X : DA L (FV K)}
    (hX : ValueOf (economicValueMetric label ts suffix ratio opt nearest) agg p t v X) :
    ∃ o Y, opt.IsFor v o ∧ ValueOf (relativeEconomicValue label (ts.map FV.fin) suffix ratio none) agg p t v Y ∧
      ∀ e, o.InDom e → (∀ l, ratio.val (setLabel e "threshold" l) = ratio.val e) →
        ∃ τ, UsedThreshold nearest (thresholdIndex ts) (o.val e) τ ∧ label (.fin τ) ∈ Y.coords "threshold" ∧ X.val e = Y.val (setLabel e "threshold" (label (.fin τ))) := by
  obtain ⟨r, hr', hx⟩ := hX
  obtain ⟨r', hr'', hR⟩ := metric_rel (opt' := .notGiven) (nearest' := nearest) (R := fun v X Y => ∃ o, opt.IsFor v o ∧
      ∀ e, o.InDom e → (∀ l, ratio.val (setLabel e "threshold" l) = ratio.val e) →
        ∃ τ, UsedThreshold nearest (thresholdIndex ts) (o.val e) τ ∧ label (.fin τ) ∈ Y.coords "threshold" ∧ X.val e = Y.val (setLabel e "threshold" (label (.fin τ)))) hr' (by
    intro v first tp fp fn x _ hv
    obtain ⟨o, ho⟩ := revValuesFor_given hopt hv
    refine ⟨_, rfl, o, ho, (rev_one ho hr rfl hv).2⟩)
  rw [notGiven_eq] at hr''
  obtain ⟨⟨w, Y⟩, hY, h1, o, ho, h2⟩ := forall₂_mem_left hR hx
  dsimp only at h1 h2 ho
  subst h1
  exact ⟨o, Y, ho, ⟨r', hr'', hY⟩, h2⟩

/-- **C34** There is such a value if every variable has optimal thresholds, the thresholds can be looked up, and those used are among those evaluated. -/
theorem C34_optimal_exists (hr : "threshold" ∉ ratio.dims) (hs : Searchable nearest (thresholdIndex ts))
    (hall : ∀ v Y, ValueOf (relativeEconomicValue label (ts.map FV.fin) suffix ratio none) agg p t v Y → ∃ o, opt.IsFor v o ∧
      ∀ e, o.InDom e → ∀ τ, UsedThreshold nearest (thresholdIndex ts) (o.val e) τ → label (.fin τ) ∈ Y.coords "threshold")
    {v : String} {Y : DA L (FV K)} (hY : ValueOf (relativeEconomicValue label (ts.map FV.fin) suffix ratio none) agg p t v Y) :
    ∃ X, ValueOf (economicValueMetric label ts suffix ratio opt nearest) agg p t v X := by
  obtain ⟨r, hr', hx⟩ := hY
  have hr0 := hr'
  rw [← notGiven_eq label ts suffix ratio nearest] at hr0
  obtain ⟨r', hr'', hR⟩ := metric_rel (opt' := opt) (nearest' := nearest) (R := fun _ _ _ => True) hr0 (by
    intro v first tp fp fn y hy hv
    obtain ⟨o, ho, hm⟩ := hall v y ⟨r, hr', hy⟩
    obtain ⟨X, hX⟩ := rev_one_exists ho hr hv hs hm
    exact ⟨X, hX, trivial⟩)
  obtain ⟨⟨w, X⟩, hX, h1, -⟩ := forall₂_mem_left hR hx
  dsimp only at h1
  subst h1
  exact ⟨X, r', hr'', hX⟩

/-- **C34** (finding) Probability thresholds 0 and 1 are accepted, but the constant forecasts are added with the same labels: with optimal thresholds no value can be computed, whatever
they are. -/
theorem C34_repeated_threshold (hopt : opt ≠ .notGiven) (hr : "threshold" ∉ ratio.dims) (hts : 0 ∈ ts ∨ 1 ∈ ts) (v : String) (X : DA L (FV K)) :
    ¬ ValueOf (economicValueMetric label ts suffix ratio opt nearest) agg p t v X := by
  rintro ⟨r, hr', hx⟩
  obtain ⟨r', -, hR⟩ := metric_rel (opt' := .notGiven) (nearest' := nearest) (R := fun _ _ _ => (thresholdIndex ts).Nodup) hr' (by
    intro v first tp fp fn x _ hv
    obtain ⟨o, ho⟩ := revValuesFor_given hopt hv
    exact ⟨_, rfl, (rev_one ho hr rfl hv).1⟩)
  obtain ⟨-, -, -, hn⟩ := forall₂_mem_left hR hx
  unfold thresholdIndex at hn
  rw [List.nodup_cons, List.nodup_append, List.mem_append] at hn
  rcases hts with h | h
  · exact hn.1 (.inl h)
  · exact hn.2.2.2 1 h 1 (by simp) rfl

/-- **C34** A mapping must have optimal thresholds for every variable for which there are values. -/
theorem C34_missing_variable {m : Vars (DA L K)} {v : String} {Y : DA L (FV K)} (hv : v ∉ m.map Prod.fst)
    (hY : ValueOf (relativeEconomicValue label (ts.map FV.fin) suffix ratio none) agg p t v Y) (w : String) (X : DA L (FV K)) :
    ¬ ValueOf (economicValueMetric label ts suffix ratio (.perVariable m) nearest) agg p t w X := by
  rintro ⟨r, hr', -⟩
  obtain ⟨r', hr'', hR⟩ := metric_rel (opt' := .notGiven) (nearest' := nearest) (R := fun v _ _ => v ∈ m.map Prod.fst) hr' (by
    intro v first tp fp fn x _ hv
    obtain ⟨o, ho⟩ := revValuesFor_given (by simp) hv
    refine ⟨_, rfl, ?_⟩
    rcases ho with ho | ⟨m', ho, hm⟩
    · cases ho
    · obtain rfl := OptimalArg.perVariable.inj ho
      exact List.mem_map.mpr ⟨_, pyGet?_mem hm, rfl⟩)
  obtain ⟨r0, h0, hy⟩ := hY
  rw [notGiven_eq, h0] at hr''
  obtain rfl := Except.ok.inj hr''
  obtain ⟨a, -, h1, h2⟩ := forall₂_mem_right hR hy
  rw [h1] at h2
  exact hv h2

/-- **C34** With `optimal_thresholds_select_nearest` the thresholds must be given in increasing order. -/
theorem C34_nearest_order {o : DA L K} (hr : "threshold" ∉ ratio.dims) (hs : ¬ ts.Pairwise (· ≤ ·)) (hcells : ∃ e, o.InDom e ∧ ∀ l, ratio.val (setLabel e "threshold" l) = ratio.val e)
    (v : String) (X : DA L (FV K)) : ¬ ValueOf (economicValueMetric label ts suffix ratio (.shared o) true) agg p t v X := by
  rintro ⟨r, hr', hx⟩
  obtain ⟨e, he, hc⟩ := hcells
  have hs' : ¬ (thresholdIndex ts).Pairwise (· ≤ ·) := by
    intro h
    refine hs ?_
    unfold thresholdIndex at h
    exact (List.pairwise_append.mp (List.pairwise_cons.mp h).2).1
  obtain ⟨r', -, hR⟩ := metric_rel (opt' := .notGiven) (nearest' := true) (R := fun _ _ _ => False) hr' (by
    intro v first tp fp fn x _ hv
    exfalso
    have hn := (rev_one (.inl rfl) hr rfl hv).1
    unfold revValuesFor at hv
    rw [forVariable_eq (.inl rfl)] at hv
    obtain ⟨a, ha, hv⟩ := bind_ok_iff.mp hv
    cases ha
    obtain ⟨b, hb, -⟩ := bind_ok_iff.mp hv
    rw [(selectThresholds_eq (label := label) (nearest := true) (o := o)).2.2 hn rfl hs' ⟨e, he⟩] at hb
    cases hb)
  obtain ⟨-, -, -, h⟩ := forall₂_mem_left hR hx
  exact h

/-- **C34** The optimal thresholds are accepted iff all of them are given per cost/loss ratio, for the cost/loss ratios of the metric; else it is a `ValueError`. -/
theorem C34_optimal_arguments (ratios : Finset L) (opt : OptimalArg L K) :
    (checkOptimal ratios opt = .ok ⟨⟩ ↔ ∀ v o, (opt = .shared o ∨ ∃ m, opt = .perVariable m ∧ (v, o) ∈ m) → "cost_loss_ratio" ∈ o.dims ∧ o.coords "cost_loss_ratio" = ratios) ∧
    (checkOptimal ratios opt = .ok ⟨⟩ ∨ checkOptimal ratios opt = .error .valueError) := by
  have key : ∀ os : List (DA L K), let c := os.foldlM (fun _ o => if "cost_loss_ratio" ∉ o.dims then .error .valueError else
      if o.coords "cost_loss_ratio" ≠ ratios then .error .valueError else .ok ⟨⟩ : Unit → DA L K → Except Err Unit) ⟨⟩
      (c = .ok ⟨⟩ ↔ ∀ o ∈ os, "cost_loss_ratio" ∈ o.dims ∧ o.coords "cost_loss_ratio" = ratios) ∧ (c = .ok ⟨⟩ ∨ c = .error .valueError) := by
    intro os
    induction os with
    | nil => exact ⟨⟨fun _ => by simp, fun _ => rfl⟩, .inl rfl⟩
    | cons o os ih =>
      dsimp only at ih ⊢
      rw [List.foldlM_cons]
      by_cases h1 : "cost_loss_ratio" ∈ o.dims
      · by_cases h2 : o.coords "cost_loss_ratio" = ratios
        · rw [if_neg (not_not.mpr h1), if_neg (not_not.mpr h2)]
          refine ⟨?_, ih.2⟩
          rw [List.forall_mem_cons]
          exact ⟨fun h => ⟨⟨h1, h2⟩, ih.1.mp h⟩, fun h => ih.1.mpr h.2⟩
        · rw [if_neg (not_not.mpr h1), if_pos h2]
          refine ⟨⟨fun h => (by cases h), fun h => absurd (h o (by simp)).2 h2⟩, .inr rfl⟩
      · rw [if_pos h1]
        refine ⟨⟨fun h => (by cases h), fun h => absurd (h o (by simp)).1 h1⟩, .inr rfl⟩
  refine ⟨(key opt.arrays).1.trans ?_, (key opt.arrays).2⟩
  cases opt with
  | notGiven => simp [OptimalArg.arrays]
  | shared o => simp [OptimalArg.arrays]
  | perVariable m =>
    constructor
    · rintro h v o (ho | ⟨m', ho, hm⟩)
      · cases ho
      · obtain rfl := OptimalArg.perVariable.inj ho
        exact h o (List.mem_map.mpr ⟨_, hm, rfl⟩)
    · intro h o ho
      obtain ⟨⟨v, o'⟩, hm, rfl⟩ := List.mem_map.mp ho
      exact h v o' (.inr ⟨m, rfl, hm⟩)

end metric

/-! ### The hypotheses are met -/

/-- A contingency statistic of the example, averaged: its thresholds. -/
theorem rev_mean_coords {name : String} {f : Bool → Bool → Bool} {y : DA ℕ (FV ℝ)} (h : OneMean mAgg (binarizedVars revLabel [FV.fin (1 / 2)] [("t", revPred)]) [("t", revTarget)] "t" (statOf name (contingency f)) y) :
    12 ∈ y.coords "threshold" := by
  obtain ⟨s, q, h1, h2, rfl⟩ := h
  have hs : s = contingency f (binarize (thresholdArray revLabel "threshold" [FV.fin (1 / 2)]) revPred) revTarget := by
    exact statOf_mem (by simp [binarizedVars]) (by simp) (List.mem_singleton.mpr rfl) (List.mem_singleton.mpr rfl) h1 (List.mem_singleton.mpr rfl)
  subst hs
  obtain ⟨q1, q2⟩ := Aggregator.aggregateStatVar_some h2
  have ha : mAgg.applyMask (contingency f (binarize (thresholdArray revLabel "threshold" [FV.fin (1 / 2)]) revPred) revTarget) =
      ((contingency f (binarize (thresholdArray revLabel "threshold" [FV.fin (1 / 2)]) revPred) revTarget).arr,
        (contingency f (binarize (thresholdArray revLabel "threshold" [FV.fin (1 / 2)]) revPred) revTarget).arr.map (fun _ => 1)) := rfl
  rw [ha] at q1 q2
  have hd : ∀ d ∈ mAgg.reduceDims, d ∈ (contingency f (binarize (thresholdArray revLabel "threshold" [FV.fin (1 / 2)]) revPred) revTarget).arr.dims := by
    simp [mAgg, contingency, StatVar.zipWith, zipWith, revTarget, StatVar.map, DA.map]
  rw [(Aggregator.aggregationFn_eq mAgg _).2.2.2 hd (by simp [mAgg]) (by intro b hb; simp [mAgg] at hb)] at q1
  rw [(Aggregator.aggregationFn_eq mAgg ((contingency f (binarize (thresholdArray revLabel "threshold" [FV.fin (1 / 2)]) revPred) revTarget).arr.map (fun _ => 1))).2.2.2 hd (by simp [mAgg])
    (by intro b hb; simp [mAgg] at hb)] at q2
  rw [← Option.some.inj (Except.ok.inj q1), ← Option.some.inj (Except.ok.inj q2)]
  have h12 : revLabel (FV.fin 2⁻¹) = 12 := by rw [← one_div]; exact revLabel_half
  simp [mAgg, DA.dot, DA.sumDims, DA.sumDim, zipWith, joinCoords, contingency, binarize, StatVar.zipWith, StatVar.map, DA.map, thresholdArray, revPred, revTarget, h12]

/-- The metric of the example without optimal thresholds has a value, also at the threshold 1/2. -/
theorem rev_example : ∃ r, metricAlone (relativeEconomicValue revLabel ([(1 / 2 : ℝ)].map FV.fin) "s" revRatio none) mAgg [("t", revPred)] [("t", revTarget)] = .ok r ∧
    (∃ Y, ("t", Y) ∈ r) ∧ ∀ v Y, (v, Y) ∈ r → v = "t" ∧ 12 ∈ Y.coords "threshold" := by
  have hagg : ∀ f, ∃ q, mAgg.aggregateStatVar (contingency f (binarize (thresholdArray revLabel "threshold" [FV.fin (1 / 2)]) revPred) revTarget) = .ok (some q) :=
    fun f => exists_aggregate mAgg rfl _ (by simp [mAgg, contingency, StatVar.zipWith, zipWith, revTarget, StatVar.map, DA.map])
  have hone : ∀ (name : String) f, ∃ y, OneMean mAgg (binarizedVars revLabel [FV.fin (1 / 2)] [("t", revPred)]) [("t", revTarget)] "t" (statOf name (contingency f)) y := by
    intro name f
    obtain ⟨q, hq⟩ := hagg f
    exact ⟨_, oneMean_statOf _ _ _ _ _ _ hq⟩
  obtain ⟨tp, m1⟩ := hone "TruePositives" (fun p t => p && t)
  obtain ⟨tn, m2⟩ := hone "TrueNegatives" (fun p t => !p && !t)
  obtain ⟨fp, m3⟩ := hone "FalsePositives" (fun p t => p && !t)
  obtain ⟨fn, m4⟩ := hone "FalseNegatives" (fun p t => !p && t)
  have hV := exists_rev (ratio := revRatio) (opt := none) (suffix := "s") m1 m2 m3 m4 rfl
  obtain ⟨r, hr, hx⟩ := hV
  refine ⟨r, hr, ⟨_, hx⟩, ?_⟩
  intro v Y hY
  have same : ∀ {st : FStatistic ℕ ℝ} {y y' : DA ℕ (FV ℝ)}, OneMean mAgg (binarizedVars revLabel [FV.fin (1 / 2)] [("t", revPred)]) [("t", revTarget)] "t" st y →
      IsMeanOf mAgg (binarizedVars revLabel [FV.fin (1 / 2)] [("t", revPred)]) [("t", revTarget)] v st y' →
      v = "t" ∧ OneMean mAgg (binarizedVars revLabel [FV.fin (1 / 2)] [("t", revPred)]) [("t", revTarget)] "t" st y' := by
    rintro st y y' ⟨s, q, h1, -, -⟩ ⟨vars, s', q', g1, g2, g3, g4⟩
    rw [h1] at g1
    obtain rfl := Except.ok.inj g1
    rw [List.mem_singleton, Prod.mk.injEq] at g2
    obtain ⟨rfl, g2⟩ := g2
    obtain rfl := Option.some.inj g2
    exact ⟨rfl, s', q', h1, g3, g4⟩
  obtain ⟨first, rest, tp', fp', fn', -, i1, i2, i3, hval⟩ := valueOf_rev (⟨r, hr, hY⟩ : ValueOf _ _ _ _ v Y)
  obtain ⟨hv, j1⟩ := same m1 i1
  have c1 := rev_mean_coords j1
  have c2 := rev_mean_coords (same m3 i2).2
  have c3 := rev_mean_coords (same m4 i3).2
  refine ⟨hv, ?_⟩
  simp only [revValues, Except.ok.injEq] at hval
  subst hval
  rw [mem_rev_coords (by simp [revRatio]) (by simp [addConstants, addConstant]) (by simp [addConstants, addConstant]) (by simp [addConstants, addConstant])]
  simp [addConstants, addConstant, c1, c2, c3]

theorem rev_searchable (nearest : Bool) : Searchable nearest (thresholdIndex [(1 / 2 : ℝ)]) := by
  unfold Searchable thresholdIndex
  norm_num

/-- The optimal threshold 2/3 for the only cost/loss ratio. -/
noncomputable def revOptimal : DA ℕ ℝ := { dims := {"cost_loss_ratio"}, coords := fun _ => {0}, val := fun _ => 2 / 3 }

theorem rev_used {τ : ℝ} (h : UsedThreshold true (thresholdIndex [(1 / 2 : ℝ)]) (2 / 3) τ) : τ = 1 / 2 := by
  obtain ⟨h1, h2⟩ := h.2 rfl
  have h3 := (h2 (1 / 2) (by simp [thresholdIndex])).1
  simp only [thresholdIndex, List.cons_append, List.nil_append, List.mem_cons, List.not_mem_nil, or_false] at h1
  rcases h1 with rfl | rfl | rfl
  · norm_num [abs_of_nonpos] at h3
  · rfl
  · norm_num [abs_of_nonpos, abs_of_nonneg] at h3

/-- The optimum 2/3 is not among the thresholds 0, 1/2 and 1: the value is that at 1/2. -/
example : ∃ X Y, ValueOf (economicValueMetric revLabel [(1 / 2 : ℝ)] "s" revRatio (.perVariable [("t", revOptimal)]) true) mAgg [("t", revPred)] [("t", revTarget)] "t" X ∧
    ValueOf (relativeEconomicValue revLabel ([(1 / 2 : ℝ)].map FV.fin) "s" revRatio none) mAgg [("t", revPred)] [("t", revTarget)] "t" Y ∧
    ∀ e, e "cost_loss_ratio" = 0 → X.val e = Y.val (setLabel e "threshold" 12) := by
  obtain ⟨r, hr, ⟨Y, hY⟩, hall⟩ := rev_example
  obtain ⟨X, hX⟩ := C34_optimal_exists (opt := .perVariable [("t", revOptimal)]) (nearest := true) (by simp [revRatio]) (rev_searchable true) (by
    rintro v Z ⟨r', hr', hZ⟩
    rw [hr] at hr'
    obtain rfl := Except.ok.inj hr'
    obtain ⟨rfl, hc⟩ := hall v Z hZ
    refine ⟨revOptimal, .inr ⟨_, rfl, rfl⟩, ?_⟩
    intro e _ τ hτ
    rw [rev_used hτ, revLabel_half]
    exact hc) ⟨r, hr, hY⟩
  obtain ⟨o, Y', ho, hY', h⟩ := C34_optimal_values (by simp) (by simp [revRatio]) hX
  refine ⟨X, Y', hX, hY', ?_⟩
  intro e he
  have : o = revOptimal := by
    rcases ho with ho | ⟨m, ho, hm⟩
    · cases ho
    · obtain rfl := OptimalArg.perVariable.inj ho
      exact (Option.some.inj hm).symm
  subst this
  obtain ⟨τ, hτ, -, hval⟩ := h e (by intro d hd; simp [revOptimal] at hd ⊢; subst hd; exact he) (fun _ => rfl)
  rw [rev_used hτ, revLabel_half] at hval
  exact hval

end WBX
