import Verif.Spec.UniqueNames
import Verif.Props.MetricsBase
import Verif.Props.Reliability

/-!
# C101: unique names identify the statistics of an evaluation
-/

namespace WBX
set_option linter.unusedSectionVars false
variable {L K : Type} [DecidableEq L] [Field K] [LinearOrder K] [IsStrictOrderedRing K]

/-! ### The texts -/

/-- `str` of a Python bool. -/
def boolText (b : Bool) : String := if b then "True" else "False"

def Pointwise.text : Pointwise → String
  | .error => "Error"
  | .absoluteError => "AbsoluteError"
  | .squaredError => "SquaredError"
  | .truePositives => "TruePositives"
  | .trueNegatives => "TrueNegatives"
  | .falsePositives => "FalsePositives"
  | .falseNegatives => "FalseNegatives"

theorem Pointwise.uniqueName (b : Pointwise) : (b.statistic : FStatistic L K).uniqueName = b.text := by cases b <;> rfl

/-- The part of a unique name before the first underscore, and what follows (empty or from the underscore on). -/
def Shipped.head (h : Hidden L K) : Shipped → String × String
  | .pointwise b => (b.text, "")
  | .each b d => (b.text, "_each_" ++ d)
  | .onMean b side d skipna => (b.text, "_" ++ side.text ++ "_ensemble_mean_self._ensemble_dim='" ++ d ++ "'_self._skipna=" ++ boolText skipna)
  | .exceedance => ("ErrorExceedance", "")
  | .rps => ("RankedProbabilityScore", "")
  | .ensembleRPS skipna fair suffix => ("RankedProbabilityScore", "_" ++ h.rpsDim ++ "_skipna_ensemble_" ++ boolText skipna ++ "_fair_" ++ boolText fair ++ "_" ++ suffix)
  | .crpsSkill d => ("CRPSSkill", "_" ++ d)
  | .crpsSpread d fair ofTargets => ("CRPSSpread", "_" ++ d ++ "_" ++ (if fair then "fair" else "unfair") ++ "_" ++ (if ofTargets then "targets" else "predictions"))
  | .variance d skipna => ("EnsembleVariance", "_" ++ d ++ "_skipna_ensemble_" ++ boolText skipna)
  | .unbiasedMSE d skipna => ("UnbiasedEnsembleMeanSquaredError", "_" ++ d ++ "_skipna_ensemble_" ++ boolText skipna)
  | .wasserstein d => ("WassersteinDistance", "_" ++ d)
  | .rankHistogram d => ("RankHistogram", "_" ++ d)

theorem Shipped.uniqueName (h : Hidden L K) (a : Shipped) : ((a.statistic h).uniqueName).toList = (a.head h).1.toList ++ (a.head h).2.toList := by
  cases a with
  | pointwise b => simp [Shipped.statistic, Shipped.head, Pointwise.uniqueName]
  | each b d => simp [Shipped.statistic, Shipped.head, ensembleAveragedStatistic, Pointwise.uniqueName]
  | onMean b side d skipna =>
    cases side <;> simp [Shipped.statistic, Shipped.head, ensembleMean, mkTransform, Side.text, wrappedStatistic, Pointwise.uniqueName, boolText]
  | exceedance => simp [Shipped.statistic, Shipped.head, errorExceedanceStatistic, statOf, perVariableStatistic]
  | rps => simp [Shipped.statistic, Shipped.head, rpsStatistic, perVariableStatistic]
  | ensembleRPS skipna fair suffix => simp [Shipped.statistic, Shipped.head, ensembleRPSStatistic, statOfE, perVariableStatistic, boolText]
  | crpsSkill d => simp [Shipped.statistic, Shipped.head, crpsSkillStatistic, statOfE, perVariableStatistic]
  | crpsSpread d fair ofTargets => simp [Shipped.statistic, Shipped.head, crpsSpreadStatistic, statOfE, perVariableStatistic]
  | variance d skipna => simp [Shipped.statistic, Shipped.head, ensembleVarianceStatistic, statOfE, perVariableStatistic, boolText]
  | unbiasedMSE d skipna => simp [Shipped.statistic, Shipped.head, unbiasedMSEStatistic, statOfE, perVariableStatistic, boolText]
  | wasserstein d => simp [Shipped.statistic, Shipped.head, wassersteinStatistic, statOfE, perVariableStatistic]
  | rankHistogram d => simp [Shipped.statistic, Shipped.head, rankHistogramStatistic, statOfE, perVariableStatistic]

/-- Splitting at the first underscore. -/
theorem split_underscore : ∀ {a b x y : List Char}, '_' ∉ a → '_' ∉ b → (x = [] ∨ ∃ x', x = '_' :: x') → (y = [] ∨ ∃ y', y = '_' :: y') →
    a ++ x = b ++ y → a = b ∧ x = y
  | [], [], _, _, _, _, _, _, h => ⟨rfl, h⟩
  | [], c :: b, x, y, _, hb, hx, _, h => by
    rcases hx with rfl | ⟨x', rfl⟩
    · simp at h
    · simp only [List.nil_append, List.cons_append, List.cons.injEq] at h
      exact absurd (h.1 ▸ List.mem_cons_self) hb
  | c :: a, [], x, y, ha, _, _, hy, h => by
    rcases hy with rfl | ⟨y', rfl⟩
    · simp at h
    · simp only [List.nil_append, List.cons_append, List.cons.injEq] at h
      exact absurd (h.1 ▸ List.mem_cons_self) ha
  | c :: a, c' :: b, x, y, ha, hb, hx, hy, h => by
    simp only [List.cons_append, List.cons.injEq] at h
    obtain ⟨rfl, h⟩ := h
    obtain ⟨rfl, rfl⟩ := split_underscore (fun hm => ha (List.mem_cons_of_mem _ hm)) (fun hm => hb (List.mem_cons_of_mem _ hm)) hx hy h
    exact ⟨rfl, rfl⟩

theorem Shipped.head_class (h : Hidden L K) (a : Shipped) : '_' ∉ (a.head h).1.toList ∧
    ((a.head h).2.toList = [] ∨ ∃ x, (a.head h).2.toList = '_' :: x) := by
  cases a with
  | pointwise b => cases b <;> simp [Shipped.head, Pointwise.text]
  | each b d => cases b <;> simp [Shipped.head, Pointwise.text]
  | onMean b side d skipna => cases b <;> simp [Shipped.head, Pointwise.text]
  | exceedance => simp [Shipped.head]
  | rps => simp [Shipped.head]
  | ensembleRPS skipna fair suffix => simp [Shipped.head]
  | crpsSkill d => simp [Shipped.head]
  | crpsSpread d fair ofTargets => simp [Shipped.head]
  | variance d skipna => simp [Shipped.head]
  | unbiasedMSE d skipna => simp [Shipped.head]
  | wasserstein d => simp [Shipped.head]
  | rankHistogram d => simp [Shipped.head]

theorem text_inj {x y : String} (h : x.toList = y.toList) : x = y := String.toList_inj.mp h

theorem Pointwise.text_inj {b b' : Pointwise} (h : b.text = b'.text) : b = b' := by
  cases b <;> cases b' <;> first | rfl | (exact absurd h (by decide))

theorem boolText_inj {x : String} {y : String} {a b : Bool} (h : x ++ boolText a = y ++ boolText b) : x = y ∧ a = b := by
  have := congrArg (fun s => s.toList.reverse) h
  cases a <;> cases b <;> simp [boolText] at this ⊢ <;> exact WBX.text_inj this

theorem cancel_left {x y z : String} (h : x ++ y = x ++ z) : y = z := by
  have := congrArg String.toList h
  simp only [String.toList_append, List.append_cancel_left_eq] at this
  exact WBX.text_inj this

theorem cancel_right {x y z : String} (h : y ++ x = z ++ x) : y = z := by
  have := congrArg String.toList h
  simp only [String.toList_append, List.append_cancel_right_eq] at this
  exact WBX.text_inj this

theorem Pointwise.text_ne (b : Pointwise) : b.text ≠ "ErrorExceedance" ∧ b.text ≠ "RankedProbabilityScore" ∧ b.text ≠ "CRPSSkill" ∧
    b.text ≠ "CRPSSpread" ∧ b.text ≠ "EnsembleVariance" ∧ b.text ≠ "UnbiasedEnsembleMeanSquaredError" ∧ b.text ≠ "WassersteinDistance" ∧
    b.text ≠ "RankHistogram" := by
  cases b <;> decide

theorem side_inj {s s' : Side} {x y : String} (h : s.text ++ "_" ++ x = s'.text ++ "_" ++ y) : s = s' ∧ x = y := by
  have := congrArg String.toList h
  cases s <;> cases s' <;> simp [Side.text] at this ⊢ <;> exact WBX.text_inj this

/-- The settings can be read off the unique name. -/
theorem Shipped.head_inj (h : Hidden L K) {a b : Shipped} (h1 : (a.head h).1 = (b.head h).1) (h2 : (a.head h).2 = (b.head h).2) : a = b := by
  cases a with
  | pointwise p =>
    obtain ⟨n1, n2, n3, n4, n5, n6, n7, n8⟩ := p.text_ne
    have h3 := congrArg String.toList h2
    cases b <;> simp only [Shipped.head] at h1 <;> first | exact absurd h1 ‹_› | skip
    · rw [Pointwise.text_inj h1]
    · simp [Shipped.head] at h3
    · simp [Shipped.head] at h3
  | each p d =>
    obtain ⟨n1, n2, n3, n4, n5, n6, n7, n8⟩ := p.text_ne
    have h3 := congrArg String.toList h2
    cases b <;> simp only [Shipped.head] at h1 <;> first | exact absurd h1 ‹_› | skip
    · simp [Shipped.head] at h3
    · rw [Pointwise.text_inj h1, cancel_left h2]
    · rename_i s _ _
      cases s <;> simp [Shipped.head, Side.text] at h3
  | onMean p s d k =>
    obtain ⟨n1, n2, n3, n4, n5, n6, n7, n8⟩ := p.text_ne
    have h3 := congrArg String.toList h2
    cases b <;> simp only [Shipped.head] at h1 <;> first | exact absurd h1 ‹_› | skip
    · simp [Shipped.head] at h3
    · cases s <;> simp [Shipped.head, Side.text] at h3
    · rename_i s' d' k'
      obtain ⟨h4, rfl⟩ := boolText_inj h2
      have h5 : s.text ++ "_" ++ ("ensemble_mean_self._ensemble_dim='" ++ d) = s'.text ++ "_" ++ ("ensemble_mean_self._ensemble_dim='" ++ d') := by
        apply WBX.text_inj
        have := congrArg String.toList (cancel_right h4)
        simpa using this
      obtain ⟨rfl, h6⟩ := side_inj h5
      rw [Pointwise.text_inj h1, cancel_left h6]
  | exceedance =>
    cases b <;> simp only [Shipped.head] at h1 <;> first | rfl | exact absurd h1.symm (Pointwise.text_ne _).1 | exact absurd h1 (by decide)
  | rps =>
    have h3 := congrArg String.toList h2
    cases b <;> simp only [Shipped.head] at h1 <;> first | rfl | exact absurd h1.symm (Pointwise.text_ne _).2.1 | exact absurd h1 (by decide) | skip
    simp [Shipped.head] at h3
  | ensembleRPS k f s =>
    have h3 := congrArg String.toList h2
    cases b <;> simp only [Shipped.head] at h1 <;> first | exact absurd h1.symm (Pointwise.text_ne _).2.1 | exact absurd h1 (by decide) | skip
    · simp [Shipped.head] at h3
    · rename_i k' f' s'
      simp only [Shipped.head, String.toList_append, List.append_assoc, List.append_cancel_left_eq] at h3
      cases k <;> cases k' <;> cases f <;> cases f' <;> simp [boolText] at h3 ⊢ <;> exact WBX.text_inj h3
  | crpsSkill d =>
    cases b <;> simp only [Shipped.head] at h1 <;> first | exact absurd h1.symm (Pointwise.text_ne _).2.2.1 | exact absurd h1 (by decide) | skip
    rw [cancel_left h2]
  | crpsSpread d f k =>
    have h3 := congrArg (fun s => s.toList.reverse) h2
    cases b <;> simp only [Shipped.head] at h1 <;> first | exact absurd h1.symm (Pointwise.text_ne _).2.2.2.1 | exact absurd h1 (by decide) | skip
    rename_i d' f' k'
    cases f <;> cases f' <;> cases k <;> cases k' <;> simp [Shipped.head] at h3 ⊢ <;> exact WBX.text_inj h3
  | variance d k =>
    cases b <;> simp only [Shipped.head] at h1 <;> first | exact absurd h1.symm (Pointwise.text_ne _).2.2.2.2.1 | exact absurd h1 (by decide) | skip
    obtain ⟨h4, rfl⟩ := boolText_inj h2
    rw [cancel_left (cancel_right h4)]
  | unbiasedMSE d k =>
    cases b <;> simp only [Shipped.head] at h1 <;> first | exact absurd h1.symm (Pointwise.text_ne _).2.2.2.2.2.1 | exact absurd h1 (by decide) | skip
    obtain ⟨h4, rfl⟩ := boolText_inj h2
    rw [cancel_left (cancel_right h4)]
  | wasserstein d =>
    cases b <;> simp only [Shipped.head] at h1 <;> first | exact absurd h1.symm (Pointwise.text_ne _).2.2.2.2.2.2.1 | exact absurd h1 (by decide) | skip
    rw [cancel_left h2]
  | rankHistogram d =>
    cases b <;> simp only [Shipped.head] at h1 <;> first | exact absurd h1.symm (Pointwise.text_ne _).2.2.2.2.2.2.2 | exact absurd h1 (by decide) | skip
    rw [cancel_left h2]

/-- **C101** Two statistics of an evaluation have the same unique name only if they are the same statistic: the class and every
argument the name mentions (ensemble dimension, `skipna`, `fair`, which ensemble, the wrapped transform and the side it applies to)
can be read off the name. -/
theorem C101_identify (h : Hidden L K) (a b : Shipped) (hab : (a.statistic h).uniqueName = (b.statistic h).uniqueName) : a = b := by
  have e := congrArg String.toList hab
  rw [Shipped.uniqueName, Shipped.uniqueName] at e
  obtain ⟨a1, a2⟩ := a.head_class h
  obtain ⟨b1, b2⟩ := b.head_class h
  obtain ⟨e1, e2⟩ := split_underscore a1 b1 a2 b2 e
  exact a.head_inj h (text_inj e1) (text_inj e2)

/-! ### The statistics return dicts -/

theorem loop_dict {D S : Type} (f : D → D → Except Err (Option S)) (t : Vars D) : ∀ (p : Vars D) (r : Vars S), perVariableLoop f t p = .ok r →
    (r.map Prod.fst).Sublist (p.map Prod.fst)
  | [], r, h => by
    simp only [perVariableLoop, Except.ok.injEq] at h
    subst h
    exact List.Sublist.refl _
  | (v, a) :: p, r, h => by
    rw [perVariableLoop] at h
    split at h
    · exact (loop_dict f t p r h).trans (List.sublist_cons_self _ _)
    · obtain ⟨o, ho, h⟩ := bind_pair_ok _ _ _ h
      obtain ⟨rs, hrs, h⟩ := bind_pair_ok _ _ _ h
      have ih := loop_dict f t p rs hrs
      cases o with
      | none =>
        simp only [pure, Except.pure, Except.ok.injEq] at h
        subst h
        exact ih.trans (List.sublist_cons_self _ _)
      | some x =>
        simp only [pure, Except.pure, Except.ok.injEq] at h
        subst h
        exact ih.cons_cons v

/-- The variables of the result are among those of the predictions. -/
def Dicts (s : FStatistic L K) : Prop := ∀ p t r, s.compute p t = .ok r → (r.map Prod.fst).Sublist (p.map Prod.fst)

theorem dicts_perVariable (n : String) (f : StatVar L (FV K) → StatVar L (FV K) → Except Err (Option (Option (StatVar L (FV K))))) :
    Dicts (perVariableStatistic n f) := fun p t r h => loop_dict f t p r h

theorem dicts_pointwise (b : Pointwise) : Dicts (b.statistic : FStatistic L K) := by cases b <;> exact dicts_perVariable _ _

theorem mapM_fst_eq {α β : Type} {f : String × α → Except Err (String × β)} (hf : ∀ x y, f x = .ok y → y.1 = x.1) :
    ∀ {l : List (String × α)} {r : List (String × β)}, l.mapM f = .ok r → r.map Prod.fst = l.map Prod.fst
  | [], r, h => by
    simp only [List.mapM_nil, pure, Except.pure, Except.ok.injEq] at h
    subst h
    rfl
  | x :: l, r, h => by
    rw [List.mapM_cons] at h
    obtain ⟨y, hy, h⟩ := bind_pair_ok _ _ _ h
    obtain ⟨r', hr', h⟩ := bind_pair_ok _ _ _ h
    simp only [pure, Except.pure, Except.ok.injEq] at h
    subst h
    simp [hf x y hy, mapM_fst_eq hf hr']

theorem dicts_each (d : Dim) (k : Bool) (s : FStatistic L K) (hs : Dicts s) : Dicts (ensembleAveragedStatistic d k s) := by
  intro p t r h
  obtain ⟨r', hr', h⟩ := bind_pair_ok _ _ _ h
  have : r.map Prod.fst = r'.map Prod.fst := by
    refine mapM_fst_eq ?_ h
    rintro ⟨v, o⟩ y hy
    dsimp only at hy
    cases o with
    | none =>
      simp only [Except.ok.injEq] at hy
      rw [← hy]
    | some a =>
      obtain ⟨a', -, hy⟩ := bind_pair_ok _ _ _ hy
      simp only [pure, Except.pure, Except.ok.injEq] at hy
      rw [← hy]
  rw [this]
  exact hs p t r' hr'

theorem dicts_wrapped (s : FStatistic L K) (tr : InputTransform L K) (hs : Dicts s) : Dicts (wrappedStatistic s tr) := by
  intro p t r h
  obtain ⟨p', t', g1, -, g3⟩ := wrappedStatistic_ok.mp h
  have : p'.map Prod.fst = p.map Prod.fst := by
    unfold sideVars at g1
    split at g1
    · exact mapVars_keys g1
    · simp only [Except.ok.injEq] at g1
      rw [g1]
  rw [← this]
  exact hs p' t' r g3

theorem Shipped.dicts (h : Hidden L K) (a : Shipped) : Dicts (a.statistic h) := by
  cases a with
  | pointwise b => exact dicts_pointwise b
  | each b d => exact dicts_each d _ _ (dicts_pointwise b)
  | onMean b side d skipna =>
    simp only [Shipped.statistic]
    split
    · exact dicts_wrapped _ _ (dicts_pointwise b)
    · exact dicts_pointwise b
  | exceedance => exact dicts_perVariable _ _
  | rps => exact dicts_perVariable _ _
  | ensembleRPS skipna fair suffix => exact dicts_perVariable _ _
  | crpsSkill d => exact dicts_perVariable _ _
  | crpsSpread d fair ofTargets => exact dicts_perVariable _ _
  | variance d skipna => exact dicts_perVariable _ _
  | unbiasedMSE d skipna => exact dicts_perVariable _ _
  | wasserstein d => exact dicts_perVariable _ _
  | rankHistogram d => exact dicts_perVariable _ _

/-- **C101** So metrics built from these statistics never disturb each other: whatever their number, their settings, the aggregation and
the data, computing them together (each unique name once) gives what each of them gives alone — provided the arguments that no unique
name mentions are the same for all of them. -/
theorem C101_together (h : Hidden L K) (metrics : List (String × FMetric L K)) (hm : ∀ s ∈ requiredStatistics metrics, ∃ a : Shipped, s = a.statistic h)
    (agg : Aggregator L (FV K)) (p t : Vars (StatVar L (FV K))) (hp : (p.map Prod.fst).Nodup) (table : List (String × Vars (DA L (FV K)))) :
    metricTableForSingleChunk metrics agg p t = .ok table ↔
      metrics.mapM (fun nm => do let v ← metricAlone nm.2 agg p t; return (nm.1, v)) = .ok table := by
  refine C20_together_iff_alone metrics agg p t ?_ ?_ table
  · intro s hs r hr
    obtain ⟨a, rfl⟩ := hm s hs
    exact (a.dicts h p t r hr).nodup hp
  · intro s hs s' hs' hn
    obtain ⟨a, rfl⟩ := hm s hs
    obtain ⟨b, rfl⟩ := hm s' hs'
    rw [C101_identify h a b hn]

end WBX
