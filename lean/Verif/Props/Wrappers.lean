import Verif.Model.Wrappers
import Verif.Spec.MetricsBase
import Verif.Lemmas.TimeChunks
import Mathlib.Algebra.Order.Ring.Rat

/-!
# C38: wrapped statistics and metrics see the transformed inputs
-/

set_option linter.unusedSectionVars false

namespace WBX
open Classical
variable {L K : Type} [DecidableEq L] [Field K] [LinearOrder K] [IsStrictOrderedRing K]

/-- Does the transform apply to this side (`"predictions"` or `"targets"`)? -/
def touches (side : String) (tr : InputTransform L K) : Prop := tr.which = side ∨ tr.which = "both"

/-- The result of applying to one array, in list order, the transforms of the list that concern `side`. -/
noncomputable def transformed (side : String) (name : String) : List (InputTransform L K) → StatVar L (FV K) → Except Err (StatVar L (FV K))
  | [], x => .ok x
  | tr :: trs, x => if touches side tr then do
      let y ← tr.fn name x
      transformed side name trs y
    else transformed side name trs x

/-- `vs'` has the same variables as `vs`, each one transformed. -/
def TransformedVars (side : String) (trs : List (InputTransform L K)) (vs vs' : Vars (StatVar L (FV K))) : Prop :=
  List.Forall₂ (fun kv kv' => kv'.1 = kv.1 ∧ transformed side kv.1 trs kv.2 = .ok kv'.2) vs vs'

/-! ### Lemmas -/

theorem bind_ok_iff {α β : Type} {x : Except Err α} {f : α → Except Err β} {b : β} :
    (x >>= f) = .ok b ↔ ∃ a, x = .ok a ∧ f a = .ok b := by
  cases x with
  | error e => simp [bind, Except.bind]
  | ok a => simp [bind, Except.bind]

theorem mapVars_ok_iff {tr : InputTransform L K} : {vs vs' : Vars (StatVar L (FV K))} →
    (tr.mapVars vs = .ok vs' ↔ List.Forall₂ (fun kv kv' => kv'.1 = kv.1 ∧ tr.fn kv.1 kv.2 = .ok kv'.2) vs vs')
  | [], vs' => by
    simp only [InputTransform.mapVars, List.mapM_nil, pure, Except.pure, Except.ok.injEq, List.forall₂_nil_left_iff]
    exact eq_comm
  | (k, a) :: vs, vs' => by
    unfold InputTransform.mapVars
    rw [List.mapM_cons, bind_ok_iff, List.forall₂_cons_left_iff]
    constructor
    · rintro ⟨kv, h1, h2⟩
      obtain ⟨b, hb, h1⟩ := bind_ok_iff.mp h1
      obtain ⟨r, hr, h2⟩ := bind_ok_iff.mp h2
      simp only [pure, Except.pure, Except.ok.injEq] at h1 h2
      subst h1 h2
      exact ⟨(k, b), r, ⟨rfl, hb⟩, mapVars_ok_iff.mp hr, rfl⟩
    · rintro ⟨⟨k', b⟩, r, ⟨h1, h2⟩, h3, rfl⟩
      simp only at h1 h2
      subst h1
      refine ⟨(k', b), by rw [h2]; rfl, ?_⟩
      have h4 : List.mapM (fun kv => do let a ← tr.fn kv.1 kv.2; return (kv.1, a)) vs = (.ok r : Except Err _) := mapVars_ok_iff.mpr h3
      rw [h4]
      rfl

/-- One transform applied to the side it concerns. -/
noncomputable def sideVars (side : String) (tr : InputTransform L K) (vs : Vars (StatVar L (FV K))) : Except Err (Vars (StatVar L (FV K))) :=
  if touches side tr then tr.mapVars vs else .ok vs

theorem transformedVars_nil {side : String} {vs vs' : Vars (StatVar L (FV K))} : TransformedVars side [] vs vs' ↔ vs' = vs := by
  unfold TransformedVars
  constructor
  · intro h
    induction h with
    | nil => rfl
    | @cons a b _ _ h1 _ ih =>
      obtain ⟨e1, e2⟩ := h1
      simp only [transformed, Except.ok.injEq] at e2
      rw [ih]
      congr 1
      exact Prod.ext e1 e2.symm
  · rintro rfl
    induction vs' with
    | nil => exact .nil
    | cons a l ih => exact .cons ⟨rfl, rfl⟩ ih

theorem transformedVars_cons {side : String} {tr : InputTransform L K} {trs} : {vs vs' : Vars (StatVar L (FV K))} →
    (TransformedVars side (tr :: trs) vs vs' ↔ ∃ u, sideVars side tr vs = .ok u ∧ TransformedVars side trs u vs')
  | vs, vs' => by
    unfold sideVars
    by_cases ht : touches side tr
    · rw [if_pos ht]
      simp only [mapVars_ok_iff]
      unfold TransformedVars
      constructor
      · intro h
        induction h with
        | nil => exact ⟨[], .nil, .nil⟩
        | @cons a b _ _ h1 _ ih =>
          obtain ⟨u, hu1, hu2⟩ := ih
          obtain ⟨e1, e2⟩ := h1
          rw [transformed, if_pos ht] at e2
          obtain ⟨y, hy1, hy2⟩ := bind_ok_iff.mp e2
          exact ⟨(a.1, y) :: u, .cons ⟨rfl, hy1⟩ hu1, .cons ⟨e1, hy2⟩ hu2⟩
      · rintro ⟨u, h1, h2⟩
        induction h1 generalizing vs' with
        | nil => rw [List.forall₂_nil_left_iff] at h2; subst h2; exact .nil
        | @cons a b _ _ e1 _ ih =>
          rw [List.forall₂_cons_left_iff] at h2
          obtain ⟨c, l, hc, hl, rfl⟩ := h2
          refine .cons ⟨hc.1.trans e1.1, ?_⟩ (ih _ hl)
          rw [transformed, if_pos ht, e1.2]
          rw [e1.1] at hc
          exact hc.2
    · rw [if_neg ht]
      have : ∀ kv kv' : String × StatVar L (FV K), (kv'.1 = kv.1 ∧ transformed side kv.1 (tr :: trs) kv.2 = .ok kv'.2) ↔
          (kv'.1 = kv.1 ∧ transformed side kv.1 trs kv.2 = .ok kv'.2) := fun kv kv' => by rw [transformed, if_neg ht]
      unfold TransformedVars
      simp only [this, Except.ok.injEq]
      exact ⟨fun h => ⟨vs, rfl, h⟩, fun ⟨u, hu, h⟩ => by rw [hu]; exact h⟩

theorem wrappedStatistic_ok {s : FStatistic L K} {tr : InputTransform L K} {p t : Vars (StatVar L (FV K))} {r} :
    (wrappedStatistic s tr).compute p t = .ok r ↔
      ∃ p' t', sideVars "predictions" tr p = .ok p' ∧ sideVars "targets" tr t = .ok t' ∧ s.compute p' t' = .ok r := by
  have e : (wrappedStatistic s tr).compute p t = (do
      let p' ← sideVars "predictions" tr p
      let t' ← sideVars "targets" tr t
      s.compute p' t') := by
    unfold wrappedStatistic sideVars
    by_cases h1 : touches "predictions" tr <;> by_cases h2 : touches "targets" tr <;> unfold touches at h1 h2 <;>
      simp only [h1, h2, touches, if_true, if_false]
  rw [e, bind_ok_iff]
  simp only [bind_ok_iff]
  constructor
  · rintro ⟨p', h1, t', h2, h3⟩; exact ⟨p', t', h1, h2, h3⟩
  · rintro ⟨p', t', h1, h2, h3⟩; exact ⟨p', h1, t', h2, h3⟩

theorem foldl_wrapped_ok : (trs : List (InputTransform L K)) → {s : FStatistic L K} → {p t : Vars (StatVar L (FV K))} → {r : _} →
    ((trs.reverse.foldl wrappedStatistic s).compute p t = .ok r ↔
      ∃ p' t', TransformedVars "predictions" trs p p' ∧ TransformedVars "targets" trs t t' ∧ s.compute p' t' = .ok r)
  | [], s, p, t, r => by
    simp only [transformedVars_nil, List.reverse_nil, List.foldl_nil]
    constructor
    · intro h; exact ⟨p, t, rfl, rfl, h⟩
    · rintro ⟨p', t', rfl, rfl, h⟩; exact h
  | tr :: trs, s, p, t, r => by
    rw [List.reverse_cons, List.foldl_append, List.foldl_cons, List.foldl_nil, wrappedStatistic_ok]
    simp only [foldl_wrapped_ok trs, transformedVars_cons]
    constructor
    · rintro ⟨p1, t1, h1, h2, p', t', h3, h4, h5⟩
      exact ⟨p', t', ⟨p1, h1, h3⟩, ⟨t1, h2, h4⟩, h5⟩
    · rintro ⟨p', t', ⟨p1, h1, h3⟩, ⟨t1, h2, h4⟩, h5⟩
      exact ⟨p1, t1, h1, h2, p', t', h3, h4, h5⟩

/-! ### The property -/

/-- **C38** Only `which ∈ {'predictions', 'targets', 'both'}` is accepted. -/
theorem C38_which (which suffix : String) (fn : String → StatVar L (FV K) → Except Err (StatVar L (FV K))) :
    (which ∈ ["predictions", "targets", "both"] → mkTransform which suffix fn = .ok ⟨which, suffix, fn⟩) ∧
    (which ∉ ["predictions", "targets", "both"] → mkTransform which suffix fn = .error .valueError) := by
  unfold mkTransform
  simp only [List.mem_cons, List.not_mem_nil, or_false]
  exact ⟨fun h => if_pos h, fun h => if_neg h⟩

/-- **C38** A statistic wrapped by a list of transforms succeeds with `r` exactly when the transforms, applied in list order to each
variable of the side(s) they name, succeed and the inner statistic of the transformed inputs gives `r`. -/
theorem C38_compute (trs : List (InputTransform L K)) (suffix : Option String) (s : FStatistic L K) (p t : Vars (StatVar L (FV K))) (r) :
    (wrapAll trs suffix s).compute p t = .ok r ↔
      ∃ p' t', TransformedVars "predictions" trs p p' ∧ TransformedVars "targets" trs t t' ∧ s.compute p' t' = .ok r := by
  rw [← foldl_wrapped_ok]
  unfold wrapAll renamedStatistic
  cases suffix <;> rfl

/-- **C38** The inputs of the inner statistic are determined by the outer ones. -/
theorem C38_unique {side : String} {trs : List (InputTransform L K)} {vs u w : Vars (StatVar L (FV K))}
    (h : TransformedVars side trs vs u) (h' : TransformedVars side trs vs w) : u = w := by
  unfold TransformedVars at h h'
  induction h generalizing w with
  | nil => rw [List.forall₂_nil_left_iff] at h'; exact h'.symm
  | @cons a b _ _ h1 _ ih =>
    rw [List.forall₂_cons_left_iff] at h'
    obtain ⟨c, l, hc, hl, rfl⟩ := h'
    rw [ih hl]
    congr 1
    have := h1.2.symm.trans hc.2
    rw [Except.ok.injEq] at this
    exact Prod.ext (h1.1.trans hc.1.symm) this

/-- **C38** With `[f, g, h]` on `both`, each array `x` becomes `h(g(f(x)))`. -/
theorem C38_order (side name s1 s2 s3 : String) (f g h : StatVar L (FV K) → StatVar L (FV K)) (x : StatVar L (FV K)) :
    transformed side name [⟨"both", s1, fun _ a => .ok (f a)⟩, ⟨"both", s2, fun _ a => .ok (g a)⟩, ⟨"both", s3, fun _ a => .ok (h a)⟩] x
      = .ok (h (g (f x))) := by
  simp [transformed, touches, bind, Except.bind]

/-- **C38** Transforms of the other side leave a side untouched. -/
theorem C38_untouched {side : String} {trs : List (InputTransform L K)} (h : ∀ tr ∈ trs, ¬ touches side tr) (vs : Vars (StatVar L (FV K))) :
    TransformedVars side trs vs vs := by
  induction trs with
  | nil => exact transformedVars_nil.mpr rfl
  | cons tr trs ih =>
    rw [transformedVars_cons]
    exact ⟨vs, by unfold sideVars; rw [if_neg (h tr (by simp))], ih (fun tr' h' => h tr' (by simp [h']))⟩

/-- **C38** The value of a wrapped metric is the value of the inner metric on the transformed inputs, if the transforms succeed. -/
theorem C38_values (m : FMetric L K) (trs : List (InputTransform L K)) (suffix : Option String) (agg : Aggregator L (FV K))
    {p t p' t' : Vars (StatVar L (FV K))} (hp : TransformedVars "predictions" trs p p') (ht : TransformedVars "targets" trs t t') (r) :
    metricAlone (wrappedMetric m trs suffix) agg p t = .ok r ↔ metricAlone m agg p' t' = .ok r := by
  have key : ∀ s : FStatistic L K, ∀ v, (wrapAll trs suffix s).compute p t = .ok v ↔ s.compute p' t' = .ok v := by
    intro s v
    rw [C38_compute]
    constructor
    · rintro ⟨p1, t1, h1, h2, h3⟩
      rw [C38_unique hp h1, C38_unique ht h2]; exact h3
    · intro h; exact ⟨p', t', hp, ht, h⟩
  have hm : ∀ (l : List (String × FStatistic L K)) (v), (l.map (fun ks => (ks.1, wrapAll trs suffix ks.2))).mapM (fun ks => do
      let v ← ks.2.compute p t
      let mean ← meanVars agg v
      return (ks.1, mean)) = .ok v ↔ l.mapM (fun ks => do
      let v ← ks.2.compute p' t'
      let mean ← meanVars agg v
      return (ks.1, mean)) = (.ok v : Except Err _) := by
    intro l
    induction l with
    | nil => intro v; rfl
    | cons a l ih =>
      intro v
      rw [List.map_cons, List.mapM_cons, List.mapM_cons]
      simp only [bind_ok_iff, key, ih]
  simp only [metricAlone, bind_ok_iff, wrappedMetric, hm]

/-- **C38** The statistics of a wrapped metric have the same internal names, and its formula is that of the inner metric. -/
theorem C38_metric (m : FMetric L K) (trs : List (InputTransform L K)) (suffix : Option String) :
    (wrappedMetric m trs suffix).statistics.map Prod.fst = m.statistics.map Prod.fst ∧
    (wrappedMetric m trs suffix).valuesFromMeanStatistics = m.valuesFromMeanStatistics := by
  simp [wrappedMetric, Function.comp_def]

/-- The part of the unique name one transform adds. -/
def transformTag (tr : InputTransform L K) : String := "_" ++ tr.which ++ "_" ++ tr.suffix

/-- **C38** The unique name is the name of the inner statistic followed by side and suffix of each transform, the last transform
first; an explicit suffix replaces these. -/
theorem C38_name (trs : List (InputTransform L K)) (s : FStatistic L K) :
    (wrapAll trs none s).uniqueName = s.uniqueName ++ String.join (trs.reverse.map transformTag) ∧
    ∀ x, (wrapAll trs (some x) s).uniqueName = s.uniqueName ++ "_" ++ x := by
  refine ⟨?_, fun x => rfl⟩
  unfold wrapAll
  generalize trs.reverse = l
  simp only
  induction l generalizing s with
  | nil => simp [String.join]
  | cons tr l ih =>
    rw [List.foldl_cons, ih]
    simp only [wrappedStatistic, transformTag, List.map_cons]
    have hj : ∀ (a : String) (xs : List String), String.join (a :: xs) = a ++ String.join xs := by
      intro a xs
      exact String.join_cons
    rw [hj]
    simp only [String.append_assoc]

/-- **C38** `SubselectVariables` computes the inner metric on the selected variables only. -/
theorem C38_subselect (vars : List String) (m : FMetric L K) (agg : Aggregator L (FV K)) (p t : Vars (StatVar L (FV K))) :
    metricAlone (subselectVariables vars m) agg p t =
      metricAlone m agg (p.filter (fun kv => decide (kv.1 ∈ vars))) (t.filter (fun kv => decide (kv.1 ∈ vars))) := by
  unfold metricAlone subselectVariables subselectStatistic
  rw [List.mapM_map]
  rfl

/-! ### Findings and concrete cases -/

/-- A two-member ensemble: NaN and 1. -/
def wrapEx : StatVar ℕ (FV ℚ) :=
  ⟨{ dims := {"number"}, coords := fun _ => {0, 1}, val := fun e => if e "number" = 0 then FV.nan else FV.fin 1 }, none⟩

/-- **C38** (finding) Unique names do not always record the transform: two `WeibullEnsembleToProbabilistic` transforms that differ in
`skipna` give every statistic the same unique name although they transform the same input differently. -/
theorem C38_name_collision : ∃ w1 w2 : InputTransform ℕ ℚ, weibull "predictions" "number" false = .ok w1 ∧
    weibull "predictions" "number" true = .ok w2 ∧
    (∀ s : FStatistic ℕ ℚ, (wrapAll [w1] none s).uniqueName = (wrapAll [w2] none s).uniqueName) ∧
    ∃ a1 a2, w1.fn "v" wrapEx = .ok a1 ∧ w2.fn "v" wrapEx = .ok a2 ∧ a1.arr.val (fun _ => 0) = FV.nan ∧ a2.arr.val (fun _ => 0) = FV.fin (1 / 3) := by
  have h : "number" ∈ wrapEx.arr.dims := by simp [wrapEx]
  refine ⟨⟨"predictions", "ensemble_to_probabilistic_by_weibull_plotting_position", fun _ => weibullFn "number" false⟩,
    ⟨"predictions", "ensemble_to_probabilistic_by_weibull_plotting_position", fun _ => weibullFn "number" true⟩,
    by simp [weibull, mkTransform], by simp [weibull, mkTransform], fun s => rfl, _, _,
    by simp only [weibullFn, h, if_true]; rfl, by simp only [weibullFn, h, if_true]; rfl, ?_, ?_⟩
  · simp [StatVar.map, StatVar.reduce, DA.map, npSum, present, wrapEx, DA.setLabel]
  · have : present true ({0, 1} : Finset ℕ) (fun l => if l = 0 then FV.nan else FV.fin (1 : ℚ)) = {1} := by
      ext l
      simp only [present, if_true, Finset.mem_filter, Finset.mem_insert, Finset.mem_singleton]
      constructor
      · rintro ⟨rfl | rfl, h⟩
        · simp [FV.isnan] at h
        · rfl
      · rintro rfl; simp [FV.isnan]
    simp only [StatVar.map, StatVar.reduce, DA.map, npSum, wrapEx, DA.setLabel, if_true, this, Finset.sum_singleton, one_ne_zero, if_false, FV.ofNat]
    rw [FV.fin_div_fin_of_ne _ (by norm_num)]
    norm_num

/-- Non-vacuity: `ReLU` on the predictions then a shift on both, for a concrete array. -/
example : ∃ tr : InputTransform ℕ ℚ, relu "predictions" = .ok tr ∧
    TransformedVars "predictions" [tr, ⟨"both", "plus", fun _ x => .ok (x.map (· + FV.fin 1))⟩] [("v", ⟨DA.scalar (FV.fin (-3)), none⟩)]
      [("v", ⟨DA.scalar (FV.fin 1), none⟩)] ∧
    TransformedVars "targets" [tr, ⟨"both", "plus", fun _ x => .ok (x.map (· + FV.fin 1))⟩] [("v", ⟨DA.scalar (FV.fin (-3)), none⟩)]
      [("v", ⟨DA.scalar (FV.fin (-2)), none⟩)] := by
  refine ⟨_, by simp [relu, mkTransform]; rfl, ?_, ?_⟩
  · refine .cons ⟨rfl, ?_⟩ .nil
    simp [transformed, touches, bind, Except.bind, reluFn, StatVar.map, DA.map, DA.scalar, FV.keepIf, FV.isnan, FV.lt, FV.zero_def]
    rw [if_neg (by norm_num)]
    simp
  · refine .cons ⟨rfl, ?_⟩ .nil
    simp [transformed, touches, StatVar.map, DA.map, DA.scalar, bind, Except.bind]
    norm_num

end WBX
