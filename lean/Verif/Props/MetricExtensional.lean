import Verif.Spec.DefinePipeline
import Verif.Props.StationaryCellwise
import Verif.Model.Categorical
import Verif.Model.Ensemble
import Verif.Model.EconomicValue
import Verif.Model.Spatial
import Verif.Model.Baseline
import Verif.Model.Wrappers

set_option linter.unusedSectionVars false

/-!
# C81, part 1: metrics do not depend on the order of dicts
-/

namespace WBX
open DA
variable {L V D : Type} [DecidableEq L]

theorem SameOutcome.bind {α β : Type} {r : α → α → Prop} {q : β → β → Prop} {x y : Except Err α} {f g : α → Except Err β} (h : SameOutcome r x y)
    (hf : ∀ a b, r a b → SameOutcome q (f a) (g b)) : SameOutcome q (x >>= f) (y >>= g) := by
  cases h with
  | fails e e' => exact .fails _ _
  | gives h => exact hf _ _ h

theorem SameOutcome.ok_left {α : Type} {r : α → α → Prop} {x y : Except Err α} (h : SameOutcome r x y) {a : α} (ha : x = .ok a) : ∃ b, y = .ok b ∧ r a b := by
  cases h with
  | fails => cases ha
  | gives h => cases ha; exact ⟨_, rfl, h⟩

theorem SameOutcome.error_left {α : Type} {r : α → α → Prop} {x y : Except Err α} (h : SameOutcome r x y) {e : Err} (ha : x = .error e) : ∃ e', y = .error e' := by
  cases h with
  | fails => exact ⟨_, rfl⟩
  | gives h => cases ha

theorem SameOutcome.intro {α : Type} {r : α → α → Prop} {x y : Except Err α} (h1 : ∀ a, x = .ok a → ∃ b, y = .ok b ∧ r a b) (h2 : ∀ b, y = .ok b → ∃ a, x = .ok a) : SameOutcome r x y := by
  cases hx : x with
  | ok a =>
    obtain ⟨b, hb, hr⟩ := h1 a hx
    rw [hb]
    exact .gives hr
  | error e =>
    cases hy : y with
    | ok b => obtain ⟨a, ha⟩ := h2 b hy; rw [hx] at ha; cases ha
    | error e' => exact .fails _ _

theorem VarsSame.symm {x y : Vars (DA L V)} (h : VarsSame x y) : VarsSame y x := by
  intro v
  have := h v
  revert this
  cases pyGet? v x <;> cases pyGet? v y <;> intro this <;> cases this
  · exact .none
  · rename_i h; exact .some h.symm

theorem TableSame.symm {x y : List (String × Vars (DA L V))} (h : TableSame x y) : TableSame y x := by
  intro v
  have := h v
  revert this
  cases pyGet? v x <;> cases pyGet? v y <;> intro this <;> cases this
  · exact .none
  · rename_i h; exact .some h.symm

theorem sameOutcome_item {β : Type} {r : β → β → Prop} {x y : List (String × β)} {k : String} (h : Option.Rel r (pyGet? k x) (pyGet? k y)) : SameOutcome r (pyItem x k) (pyItem y k) := by
  unfold pyItem
  revert h
  cases pyGet? k x <;> cases pyGet? k y <;> intro h <;> cases h
  · exact .fails _ _
  · rename_i h; exact .gives h

theorem rel_of_items {β : Type} {r : β → β → Prop} {x y : List (String × β)} {k : String} (h1 : ∀ a, pyItem x k = .ok a → ∃ b, pyItem y k = .ok b ∧ r a b)
    (h2 : ∀ b, pyItem y k = .ok b → ∃ a, pyItem x k = .ok a) : Option.Rel r (pyGet? k x) (pyGet? k y) := by
  unfold pyItem at h1 h2
  revert h1 h2
  cases pyGet? k x with
  | none =>
    cases pyGet? k y with
    | none => intro _ _; exact .none
    | some b => intro _ h2; obtain ⟨a, ha⟩ := h2 b rfl; cases ha
  | some a =>
    intro h1 _
    obtain ⟨b, hb, hr⟩ := h1 a rfl
    revert hb
    cases pyGet? k y with
    | none => intro hb; cases hb
    | some b' => intro hb; cases hb; exact .some hr

/-- The per-variable function depends on the arrays only. -/
def ArrayFunction (g : List (String × DA L V) → Except Err (DA L V)) : Prop :=
  ∀ xs ys, List.Forall₂ (fun x y => x.1 = y.1 ∧ x.2.Same y.2) xs ys → SameOutcome DA.Same (g xs) (g ys)

theorem item_forall₂ {β : Type} {r : β → β → Prop} {k : String} : ∀ {xs ys : List (String × β)}, List.Forall₂ (fun x y => x.1 = y.1 ∧ r x.2 y.2) xs ys → Option.Rel r (pyGet? k xs) (pyGet? k ys)
  | _, _, .nil => .none
  | _, _, .cons (a := a) (b := b) h hs => by
    unfold pyGet?
    rw [h.1]
    split_ifs
    · exact .some h.2
    · exact item_forall₂ hs

section perVariable
variable {statistics : List (String × Statistic D (Option (StatVar L V)))} {g : List (String × DA L V) → Except Err (DA L V)} {names : List String}
  {x y : List (String × Vars (DA L V))}

theorem CommonVar.same (h : TableSame x y) {v : String} (hv : CommonVar names x v) : CommonVar names y v := by
  intro s hs
  obtain ⟨m, a, hm, ha⟩ := hv s hs
  obtain ⟨m', hm', hmm⟩ := (sameOutcome_item (h s)).ok_left hm
  obtain ⟨b, hb, _⟩ := (sameOutcome_item (hmm v)).ok_left ha
  exact ⟨m', b, hm', hb⟩

theorem perVar_same (h : TableSame x y) (v : String) : ∀ names : List String, SameOutcome (List.Forall₂ (fun a b => a.1 = b.1 ∧ DA.Same a.2 b.2))
    (names.mapM (fun s => do
      let m ← pyItem x s
      let a ← pyItem m v
      return (s, a)))
    (names.mapM (fun s => do
      let m ← pyItem y s
      let a ← pyItem m v
      return (s, a)))
  | [] => .gives .nil
  | s :: names => by
    rw [List.mapM_cons, List.mapM_cons]
    refine SameOutcome.bind (r := fun a b => a.1 = b.1 ∧ DA.Same a.2 b.2) ?_ ?_
    · refine SameOutcome.bind (sameOutcome_item (h s)) ?_
      intro m m' hm
      refine SameOutcome.bind (sameOutcome_item (hm v)) ?_
      intro a b hab
      exact .gives ⟨rfl, hab⟩
    · intro a b hab
      refine SameOutcome.bind (perVar_same h v names) ?_
      intro as bs h
      exact .gives (.cons hab h)

theorem valueOfVar_same (hg : ArrayFunction g) (h : TableSame x y) (v : String) : SameOutcome DA.Same (valueOfVar names g x v) (valueOfVar names g y v) :=
  SameOutcome.bind (perVar_same h v names) (fun as bs hab => hg as bs hab)

theorem perVariable_names {values : Vars (DA L V)} (h : perVariableValues names g x = .ok values) : names ≠ [] ∧ ∀ s ∈ names, ∃ m, pyItem x s = .ok m := by
  rw [perVariableValues_eq] at h
  obtain ⟨vs, hvs, h⟩ := bind_ok_iff.mp h
  obtain ⟨common, hc, h⟩ := bind_ok_iff.mp h
  constructor
  · rintro rfl
    cases hvs
    cases hc
  · intro s hs
    obtain ⟨m, _, hm⟩ := mapM_mem _ _ _ hvs s hs
    exact ⟨m, hm⟩

theorem perVariable_same_ok (hg : ArrayFunction g) (h : TableSame x y) {a : Vars (DA L V)} (ha : perVariableValues names g x = .ok a) : ∃ b, perVariableValues names g y = .ok b ∧ VarsSame a b := by
  obtain ⟨hne, hall⟩ := perVariable_names ha
  obtain ⟨b, hb⟩ := perVariable_ok (g := g) (sv := y) hne (fun s hs => by
    obtain ⟨m, hm⟩ := hall s hs
    obtain ⟨m', hm', _⟩ := (sameOutcome_item (h s)).ok_left hm
    exact ⟨m', hm'⟩) (by
    intro v hv
    have hv' := CommonVar.same h.symm hv
    obtain ⟨z, hz⟩ := (perVariable_item ha).mpr hv'
    rw [perVariable_value ha hv'] at hz
    obtain ⟨z', hz', _⟩ := (valueOfVar_same hg h v).ok_left hz
    exact ⟨z', hz'⟩)
  refine ⟨b, hb, ?_⟩
  intro v
  apply rel_of_items
  · intro z hz
    have hv := (perVariable_item ha).mp ⟨z, hz⟩
    rw [perVariable_value ha hv] at hz
    rw [perVariable_value hb (CommonVar.same h hv)]
    exact (valueOfVar_same hg h v).ok_left hz
  · intro z hz
    exact (perVariable_item ha).mpr (CommonVar.same h.symm ((perVariable_item hb).mp ⟨z, hz⟩))

theorem perVariable_dict {a : Vars (DA L V)} (hx : ∀ sv ∈ x, IsDict sv.2) (ha : perVariableValues names g x = .ok a) : IsDict a := by
  rw [perVariableValues_eq] at ha
  obtain ⟨vs, hvs, ha⟩ := bind_ok_iff.mp ha
  obtain ⟨common, hc, ha⟩ := bind_ok_iff.mp ha
  have h2 := (pyItem_mapM ha).2
  unfold IsDict
  rw [h2]
  cases vs with
  | nil => cases hc
  | cons m ms =>
    cases hc
    apply List.Nodup.filter
    obtain ⟨s, _, hs⟩ := mapM_out_mem hvs m (by simp)
    exact hx (s, m) (pyItem_mem hs)

/-- C81: a per-variable metric whose formula is a function of the arrays. -/
theorem extensional_perVariable (hg : ArrayFunction g) : (perVariableMetric statistics g).Extensional where
  same := fun x y h => SameOutcome.intro (fun a ha => perVariable_same_ok hg h ha) (fun b hb => by
    obtain ⟨a, ha, _⟩ := perVariable_same_ok hg h.symm hb
    exact ⟨a, ha⟩)
  dict := fun x r hx hr => perVariable_dict hx hr

end perVariable

/-- C81: a statistic used as a metric. -/
theorem extensional_statistic (s : Statistic D (Option (StatVar L V))) : (s.toMetric (M := DA L V)).Extensional where
  same := fun x y h => sameOutcome_item (h "self")
  dict := fun x r hx hr => hx ("self", r) (pyItem_mem hr)

/-- A metric with other statistics but the same formula (wrapped metrics, ensemble averages). -/
theorem Metric.Extensional.of_values {m m' : Metric D (Option (StatVar L V)) (DA L V)} (h : m.Extensional) (he : m'.valuesFromMeanStatistics = m.valuesFromMeanStatistics) : m'.Extensional where
  same := by rw [he]; exact h.same
  dict := by rw [he]; exact h.dict

theorem same_map {W : Type} {f : V → W} {a b : DA L V} (h : a.Same b) : (a.map f).Same (b.map f) :=
  ⟨h.dims, h.coords, fun e he => congrArg f (h.val e he)⟩

theorem arrayFunction_one {k : String} {f : DA L V → DA L V} (hf : ∀ a b, a.Same b → (f a).Same (f b)) :
    ArrayFunction (fun xs => do
      let x ← pyItem xs k
      return f x : List (String × DA L V) → Except Err (DA L V)) :=
  fun _ _ h => SameOutcome.bind (sameOutcome_item (item_forall₂ h)) (fun a b hab => .gives (hf a b hab))

section numbers
variable {K : Type} [Field K] [LinearOrder K] [IsStrictOrderedRing K]

theorem extensional_metric1 {s1 : String × FStatistic L K} {f : DA L (FV K) → DA L (FV K)} (hf : ∀ a b, a.Same b → (f a).Same (f b)) : (metric1 s1 f).Extensional :=
  extensional_perVariable (arrayFunction_one hf)

theorem extensional_metric2 {s1 s2 : String × FStatistic L K} {f : DA L (FV K) → DA L (FV K) → DA L (FV K)} (hf : ∀ a a' b b', a.Same a' → b.Same b' → (f a b).Same (f a' b')) :
    (metric2 s1 s2 f).Extensional :=
  extensional_perVariable (fun _ _ h => SameOutcome.bind (sameOutcome_item (item_forall₂ h)) (fun a a' ha =>
    SameOutcome.bind (sameOutcome_item (item_forall₂ h)) (fun b b' hb => .gives (hf a a' b b' ha hb))))

theorem extensional_metric3 {s1 s2 s3 : String × FStatistic L K} {f : DA L (FV K) → DA L (FV K) → DA L (FV K) → DA L (FV K)}
    (hf : ∀ a a' b b' c c', a.Same a' → b.Same b' → c.Same c' → (f a b c).Same (f a' b' c')) : (metric3 s1 s2 s3 f).Extensional :=
  extensional_perVariable (fun _ _ h => SameOutcome.bind (sameOutcome_item (item_forall₂ h)) (fun a a' ha =>
    SameOutcome.bind (sameOutcome_item (item_forall₂ h)) (fun b b' hb => SameOutcome.bind (sameOutcome_item (item_forall₂ h)) (fun c c' hc => .gives (hf a a' b b' c c' ha hb hc)))))

theorem extensional_metric4 {s1 s2 s3 s4 : String × FStatistic L K} {f : DA L (FV K) → DA L (FV K) → DA L (FV K) → DA L (FV K) → DA L (FV K)}
    (hf : ∀ a a' b b' c c' d d', a.Same a' → b.Same b' → c.Same c' → d.Same d' → (f a b c d).Same (f a' b' c' d')) : (metric4 s1 s2 s3 s4 f).Extensional :=
  extensional_perVariable (fun _ _ h => SameOutcome.bind (sameOutcome_item (item_forall₂ h)) (fun a a' ha =>
    SameOutcome.bind (sameOutcome_item (item_forall₂ h)) (fun b b' hb => SameOutcome.bind (sameOutcome_item (item_forall₂ h)) (fun c c' hc =>
      SameOutcome.bind (sameOutcome_item (item_forall₂ h)) (fun d d' hd => .gives (hf a a' b b' c c' d d' ha hb hc hd))))))

theorem extensional_rmse : (rmse (L := L)).Extensional := extensional_perVariable (arrayFunction_one (fun _ _ h => same_map h))

theorem extensional_windVectorRMSE {u v vector : List String} {m : FMetric L ℝ} (h : windVectorRMSE u v vector = .ok m) : m.Extensional := by
  obtain ⟨st, _, h⟩ := bind_ok_iff.mp h
  cases h
  refine ⟨?_, ?_⟩
  · intro x y h
    refine SameOutcome.bind (sameOutcome_item (h "WindVectorSquaredError")) ?_
    intro a b hab
    refine .gives ?_
    intro v
    rw [pyGet?_map (fun z : DA L (FV ℝ) => z.map FV.sqrt), pyGet?_map (fun z : DA L (FV ℝ) => z.map FV.sqrt)]
    have := hab v
    revert this
    cases pyGet? v a <;> cases pyGet? v b <;> intro this <;> cases this
    · exact .none
    · rename_i h; exact .some (same_map h)
  · intro x r hx hr
    obtain ⟨m, hm, hr⟩ := bind_ok_iff.mp hr
    cases hr
    have := hx _ (pyItem_mem hm)
    unfold IsDict at this ⊢
    simpa [Function.comp_def] using this

theorem extensional_acc {clims : Vars (StatVar L (FV ℝ))} {align : StatVar L (FV ℝ) → StatVar L (FV ℝ) → Except Err (StatVar L (FV ℝ))} : (acc clims align).Extensional :=
  extensional_perVariable (fun _ _ h => SameOutcome.bind (sameOutcome_item (item_forall₂ h)) (fun _ _ ha =>
    SameOutcome.bind (sameOutcome_item (item_forall₂ h)) (fun _ _ hb => SameOutcome.bind (sameOutcome_item (item_forall₂ h)) (fun _ _ hc =>
      .gives (zipWith_congr ha (zipWith_congr (same_map hb) (same_map hc)))))))

/-- Formulas built from elementwise operations. -/
macro "formula_same" : tactic => `(tactic| (intros; repeat first | assumption | apply zipWith_congr | apply same_map))

/-- C81: the categorical metrics. -/
theorem extensional_categorical : (csi (L := L) (K := K)).Extensional ∧ (accuracy (L := L) (K := K)).Extensional ∧ (recall (L := L) (K := K)).Extensional ∧
    (falseAlarmRate (L := L) (K := K)).Extensional ∧ (precision (L := L) (K := K)).Extensional ∧ (f1Score (L := L) (K := K)).Extensional ∧
    (frequencyBias (L := L) (K := K)).Extensional ∧ (hss (L := L) (K := K)).Extensional ∧ (ets (L := L) (K := K)).Extensional := by
  refine ⟨extensional_metric3 ?_, extensional_metric4 ?_, extensional_metric2 ?_, extensional_metric2 ?_, extensional_metric2 ?_, extensional_metric3 ?_,
    extensional_metric3 ?_, extensional_metric4 ?_, extensional_metric4 ?_⟩ <;> formula_same

/-- C81: the ensemble metrics. -/
theorem extensional_ensemble (argsort : List (FV K) → List ℕ) (order order' : List L) (d : Dim) (useSort fair skipna : Bool) :
    (crpsEnsemble argsort order d useSort fair skipna).Extensional ∧ (crpsEnsembleDistance argsort order order' d useSort fair skipna).Extensional ∧
    (unbiasedRMSE (L := L) d skipna).Extensional ∧ (spreadSkillRatio (L := L) d skipna).Extensional ∧ (ensembleRootMeanVariance (L := L) d skipna).Extensional := by
  refine ⟨extensional_metric2 ?_, extensional_metric3 ?_, extensional_metric1 ?_, extensional_metric2 ?_, extensional_metric1 ?_⟩ <;> formula_same

theorem extensional_sedi : (sedi (L := L)).Extensional := extensional_metric4 (by formula_same)

theorem extensional_fss {g : Grid L} {number : ℤ → L} {wrap : Bool} {sizes : Sizes} : (fss (K := K) g number wrap sizes).Extensional := extensional_metric3 (by formula_same)

theorem extensional_wrapped {m : FMetric L K} (h : m.Extensional) (d : Dim) (skipna : Bool) : (ensembleAveragedMetric d skipna m).Extensional := h.of_values rfl

end numbers
end WBX
