import Verif.Props.Rename
import Verif.Props.SelectEnsemble
import Verif.Props.MetricExtensional
import Verif.Model.Spatial
import Verif.Model.Wasserstein
import Verif.Model.EconomicValue
import Verif.Model.Opportunism
import Verif.Model.SeepsClimatology

/-!
# C103: the shipped metrics
-/

set_option linter.unusedSectionVars false

namespace WBX
open DA Aggregator

section plain
variable {L K : Type} [DecidableEq L] [Field K] [LinearOrder K] [IsStrictOrderedRing K] {f : String → String}

theorem statOf_per (name : String) (g : StatVar L (FV K) → StatVar L (FV K) → StatVar L (FV K)) : ∃ n c, statOf name g = perVariableStatistic n c := ⟨_, _, rfl⟩
theorem statOfE_per (name : String) (g : StatVar L (FV K) → StatVar L (FV K) → Except Err (StatVar L (FV K))) : ∃ n c, statOfE name g = perVariableStatistic n c := ⟨_, _, rfl⟩

theorem metric1_blind {n1 : String} {s1 : FStatistic L K} {g : DA L (FV K) → DA L (FV K)} (h1 : ∃ n c, s1 = perVariableStatistic n c) : (metric1 (n1, s1) g).NameBlind :=
  C103_per_variable _ _ (by simpa using h1)
theorem metric2_blind {n1 n2 : String} {s1 s2 : FStatistic L K} {g : DA L (FV K) → DA L (FV K) → DA L (FV K)} (h1 : ∃ n c, s1 = perVariableStatistic n c)
    (h2 : ∃ n c, s2 = perVariableStatistic n c) : (metric2 (n1, s1) (n2, s2) g).NameBlind :=
  C103_per_variable _ _ (by simpa using ⟨h1, h2⟩)
theorem metric3_blind {n1 n2 n3 : String} {s1 s2 s3 : FStatistic L K} {g : DA L (FV K) → DA L (FV K) → DA L (FV K) → DA L (FV K)} (h1 : ∃ n c, s1 = perVariableStatistic n c)
    (h2 : ∃ n c, s2 = perVariableStatistic n c) (h3 : ∃ n c, s3 = perVariableStatistic n c) : (metric3 (n1, s1) (n2, s2) (n3, s3) g).NameBlind :=
  C103_per_variable _ _ (by simpa using ⟨h1, h2, h3⟩)
theorem metric4_blind {n1 n2 n3 n4 : String} {s1 s2 s3 s4 : FStatistic L K} {g : DA L (FV K) → DA L (FV K) → DA L (FV K) → DA L (FV K) → DA L (FV K)}
    (h1 : ∃ n c, s1 = perVariableStatistic n c) (h2 : ∃ n c, s2 = perVariableStatistic n c) (h3 : ∃ n c, s3 = perVariableStatistic n c) (h4 : ∃ n c, s4 = perVariableStatistic n c) :
    (metric4 (n1, s1) (n2, s2) (n3, s3) (n4, s4) g).NameBlind :=
  C103_per_variable _ _ (by simpa using ⟨h1, h2, h3, h4⟩)

/-- **C103** The deterministic metrics. -/
theorem C103_deterministic (thresholds : DA L (FV K)) : ((errorStatistic (L := L) (K := K)).toMetric (M := DA L (FV K))).NameBlind ∧ ((absoluteErrorStatistic (L := L) (K := K)).toMetric (M := DA L (FV K))).NameBlind ∧
    ((squaredErrorStatistic (L := L) (K := K)).toMetric (M := DA L (FV K))).NameBlind ∧ ((errorExceedanceStatistic thresholds).toMetric (M := DA L (FV K))).NameBlind ∧ (rmse (L := L)).NameBlind :=
  ⟨C103_statistic _ _, C103_statistic _ _, C103_statistic _ _, C103_statistic _ _, metric1_blind (n1 := "SquaredError") (g := fun x => x.map FV.sqrt) (statOf_per _ _)⟩

/-- **C103** The categorical metrics. -/
theorem C103_categorical : (csi (L := L) (K := K)).NameBlind ∧ (accuracy (L := L) (K := K)).NameBlind ∧ (recall (L := L) (K := K)).NameBlind ∧ (falseAlarmRate (L := L) (K := K)).NameBlind ∧
    (precision (L := L) (K := K)).NameBlind ∧ (f1Score (L := L) (K := K)).NameBlind ∧ (frequencyBias (L := L) (K := K)).NameBlind ∧ (hss (L := L) (K := K)).NameBlind ∧ (ets (L := L) (K := K)).NameBlind ∧
    (sedi (L := L)).NameBlind := by
  have h : ∀ name (g : Bool → Bool → Bool), ∃ n c, statOf (L := L) (K := K) name (contingency g) = perVariableStatistic n c := fun _ _ => statOf_per _ _
  refine ⟨metric3_blind (h _ _) (h _ _) (h _ _), metric4_blind (h _ _) (h _ _) (h _ _) (h _ _), metric2_blind (h _ _) (h _ _), metric2_blind (h _ _) (h _ _),
    metric2_blind (h _ _) (h _ _), metric3_blind (h _ _) (h _ _) (h _ _), metric3_blind (h _ _) (h _ _) (h _ _), metric4_blind (h _ _) (h _ _) (h _ _) (h _ _),
    metric4_blind (h _ _) (h _ _) (h _ _) (h _ _), ?_⟩
  exact metric4_blind (statOf_per _ _) (statOf_per _ _) (statOf_per _ _) (statOf_per _ _)

/-- **C103** The ensemble metrics. -/
theorem C103_ensemble (argsort : List (FV K) → List ℕ) (order order' : List L) (d : Dim) (useSort fair skipna : Bool) : (crpsEnsemble argsort order d useSort fair skipna).NameBlind ∧
    (crpsEnsembleDistance argsort order order' d useSort fair skipna).NameBlind ∧ (spreadSkillRatio (L := L) d skipna).NameBlind ∧ (unbiasedRMSE (L := L) d skipna).NameBlind ∧
    (ensembleRootMeanVariance (L := L) d skipna).NameBlind :=
  ⟨metric2_blind (statOfE_per _ _) (statOfE_per _ _), metric3_blind (statOfE_per _ _) (statOfE_per _ _) (statOfE_per _ _), metric2_blind (statOfE_per _ _) (statOfE_per _ _),
    metric1_blind (statOfE_per _ _), metric1_blind (statOfE_per _ _)⟩

/-- **C103** The fractions skill score. -/
theorem C103_fss (g : Grid L) (number : ℤ → L) (wrap : Bool) (sizes : Sizes) : (fss (K := K) g number wrap sizes).NameBlind :=
  metric3_blind (statOfE_per _ _) (statOfE_per _ _) (statOfE_per _ _)

/-! ### Settings that name variables are renamed too -/

theorem filter_rename (hf : Function.Injective f) {α : Type} (vars : List String) (p : Vars α) :
    (renameVars f p).filter (fun kv => decide (kv.1 ∈ vars.map f)) = renameVars f (p.filter (fun kv => decide (kv.1 ∈ vars))) := by
  unfold renameVars
  rw [List.filter_map]
  refine congrArg _ (List.filter_congr (fun kv _ => ?_))
  exact decide_eq_decide.mpr (List.mem_map_of_injective hf)

/-- **C103** Metrics on a selection of the variables. -/
theorem C103_subselect (hf : Function.Injective f) {m m' : FMetric L K} (hm : m.Renames f m') (vars : List String) : (subselectVariables vars m).Renames f (subselectVariables (vars.map f) m') := by
  refine ⟨?_, hm.formula⟩
  show List.Forall₂ _ (m.statistics.map _) (m'.statistics.map _)
  rw [List.forall₂_map_left_iff, List.forall₂_map_right_iff]
  refine hm.statistics.imp (fun ks ks' hk => ⟨hk.1, fun p t => ?_⟩)
  show ks'.2.compute ((renameVars f p).filter _) ((renameVars f t).filter _) = Except.map _ (ks.2.compute _ _)
  rw [filter_rename hf, filter_rename hf, hk.2]

/-- `tr'` does to a renamed variable what `tr` does to the variable. -/
structure InputTransform.Renames (f : String → String) (tr tr' : InputTransform L K) : Prop where
  which : tr'.which = tr.which
  fn : ∀ name a, tr'.fn (f name) a = tr.fn name a

theorem mapVars_rename {tr tr' : InputTransform L K} (h : tr.Renames f tr') (vs : Vars (StatVar L (FV K))) : tr'.mapVars (renameVars f vs) = (tr.mapVars vs).map (renameVars f) := by
  unfold InputTransform.mapVars
  conv_lhs => unfold renameVars
  rw [List.mapM_map]
  refine mapM_image (fun kv _ => ?_)
  rw [Function.comp_apply, h.fn]
  rcases tr.fn kv.1 kv.2 with e | a <;> rfl

theorem wrapped_renames {s s' : FStatistic L K} (hs : s.Renames f s') {tr tr' : InputTransform L K} (h : tr.Renames f tr') : (wrappedStatistic s tr).Renames f (wrappedStatistic s' tr') := by
  intro p t
  unfold wrappedStatistic
  dsimp only
  rw [h.which]
  split
  · split
    · rw [mapVars_rename h, mapVars_rename h]
      exact bind_image (fun p' => bind_image (fun t' => hs p' t'))
    · rw [mapVars_rename h]
      exact bind_image (fun p' => hs p' t)
  · split
    · rw [mapVars_rename h]
      exact bind_image (k := fun t' => s.compute p t') (fun t' => hs p t')
    · exact hs p t

theorem foldl_renames {trs trs' : List (InputTransform L K)} (h : List.Forall₂ (InputTransform.Renames f) trs trs') :
    ∀ {s s' : FStatistic L K}, s.Renames f s' → (trs.foldl wrappedStatistic s).Renames f (trs'.foldl wrappedStatistic s') := by
  induction h with
  | nil => exact fun hs => hs
  | cons h1 _ ih => exact fun hs => ih (wrapped_renames hs h1)

/-- **C103** Wrapped metrics, if what the transforms do to a variable does not depend on its name (or their settings are renamed too). -/
theorem C103_wrapped {m m' : FMetric L K} (hm : m.Renames f m') {trs trs' : List (InputTransform L K)} (h : List.Forall₂ (InputTransform.Renames f) trs trs') (suffix suffix' : Option String) :
    (wrappedMetric m trs suffix).Renames f (wrappedMetric m' trs' suffix') := by
  refine ⟨?_, hm.formula⟩
  show List.Forall₂ _ (m.statistics.map _) (m'.statistics.map _)
  rw [List.forall₂_map_left_iff, List.forall₂_map_right_iff]
  refine hm.statistics.imp (fun ks ks' hk => ⟨hk.1, ?_⟩)
  have := foldl_renames (forall₂_backwards h) hk.2
  unfold wrapAll
  cases suffix <;> cases suffix' <;> exact this

/-- **C103** Every member scored on its own. -/
theorem C103_each_member {m m' : FMetric L K} (hm : m.Renames f m') (d : Dim) (skipna : Bool) : (ensembleAveragedMetric d skipna m).Renames f (ensembleAveragedMetric d skipna m') := by
  refine ⟨?_, hm.formula⟩
  show List.Forall₂ _ (m.statistics.map _) (m'.statistics.map _)
  rw [List.forall₂_map_left_iff, List.forall₂_map_right_iff]
  refine hm.statistics.imp (fun ks ks' hk => ⟨hk.1, fun p t => ?_⟩)
  show (ks'.2.compute (renameVars f p) (renameVars f t) >>= fun r => _) = Except.map _ (ks.2.compute p t >>= fun r => _)
  rw [hk.2]
  refine bind_image (fun r => ?_)
  conv_lhs => unfold renameVars
  rw [List.mapM_map]
  refine mapM_image (fun kv _ => ?_)
  obtain ⟨k, o⟩ := kv
  rw [Function.comp_apply]
  rcases o with _ | a
  · rfl
  · dsimp only
    rcases a.meanDim skipna d with e | b <;> rfl

theorem pyInsert_rename {β : Type} (hf : Function.Injective f) (k : String) (x : β) : ∀ l : Vars β, pyInsert (f k) x (renameVars f l) = renameVars f (pyInsert k x l)
  | [] => rfl
  | kv :: l => by
    have ih := pyInsert_rename hf k x l
    show pyInsert (f k) x ((f kv.1, kv.2) :: renameVars f l) = _
    rw [pyInsert, pyInsert, ih]
    simp only [hf.eq_iff]
    split <;> rfl

theorem windLoop_rename (hf : Function.Injective f) (p t : Vars (StatVar L (FV K))) : ∀ (vs : List (String × String × String)) (out : Vars (Option (StatVar L (FV K)))),
    windLoop (renameVars f p) (renameVars f t) (vs.map (fun x => (f x.1, f x.2.1, f x.2.2))) (renameVars f out) = (windLoop p t vs out).map (renameVars f)
  | [], _ => rfl
  | (u, v, vector) :: rest, out => by
    rw [List.map_cons, windLoop, windLoop, pyItem_rename hf, pyItem_rename hf, pyItem_rename hf, pyItem_rename hf]
    rcases pyItem p u with e | pu
    · rfl
    rcases pyItem p v with e | pv
    · rfl
    rcases pyItem t u with e | tu
    · rfl
    rcases pyItem t v with e | tv
    · rfl
    have ih := windLoop_rename hf p t rest (pyInsert vector (some (((pu.zipWith (· - ·) tu).map FV.sq).zipWith (· + ·) ((pv.zipWith (· - ·) tv).map FV.sq))) out)
    rw [← pyInsert_rename hf] at ih
    exact ih

theorem windVectors_rename {u v vector : List String} {vs : List (String × String × String)} (h : windVectors u v vector = .ok vs) :
    windVectors (u.map f) (v.map f) (vector.map f) = .ok (vs.map (fun x => (f x.1, f x.2.1, f x.2.2))) := by
  unfold windVectors at h ⊢
  simp only [List.length_map]
  split at h
  · cases h
    rename_i hl
    rw [if_pos hl, List.zip_map, List.zip_map]
    rfl
  · cases h

/-- **C103** The wind vector error, if the names of the components and of the vector are renamed in its settings. -/
theorem C103_wind (hf : Function.Injective f) {u v vector : List String} {s : FStatistic L K} (h : windVectorSquaredError u v vector = .ok s) :
    ∃ s', windVectorSquaredError (u.map f) (v.map f) (vector.map f) = .ok s' ∧ (s.toMetric (M := DA L (FV K))).Renames f s'.toMetric := by
  unfold windVectorSquaredError at h ⊢
  rcases hw : windVectors u v vector with e | vs
  · rw [hw] at h; cases h
  · rw [hw] at h
    cases h
    rw [windVectors_rename hw]
    exact ⟨_, rfl, statistic_renames (fun p t => windLoop_rename hf p t vs [])⟩

theorem bind_same {α β β' : Type} {x : Except Err α} {k : α → Except Err β} {k' : α → Except Err β'} {g : β → β'} (h : ∀ y, k' y = (k y).map g) : (x >>= k') = (x >>= k).map g := by
  rcases x with e | y
  · rfl
  · exact h y

theorem seepsLoop_rename (hf : Function.Injective f) (clim : Vars (SeepsClimatology L K)) (select : StatVar L (FV K) → DA L (FV K) → Except Err (DA L (FV K)))
    (meanP1 : DA L (FV K) → Except Err (DA L (FV K))) (p t : Vars (StatVar L (FV K))) : ∀ (vs : List (String × K × K × K)) (out : Vars (Option (StatVar L (FV K)))),
    seepsLoop (renameVars f clim) select meanP1 (renameVars f p) (renameVars f t) (vs.map (fun x => (f x.1, x.2))) (renameVars f out) = (seepsLoop clim select meanP1 p t vs out).map (renameVars f)
  | [], _ => rfl
  | (v, a1, a2, a3) :: rest, out => by
    rw [List.map_cons, seepsLoop, seepsLoop, pyItem_rename hf, pyItem_rename hf, pyItem_rename hf]
    refine bind_same (fun a => bind_same (fun b => bind_same (fun c => bind_same (fun wet => bind_same (fun p1 => bind_same (fun r => ?_))))))
    rw [← seepsLoop_rename hf clim select meanP1 p t rest (pyInsert v (some r) out), pyInsert_rename hf]

theorem zip_rename {β : Type} (names : List String) (l : List β) : (names.map f).zip l = (names.zip l).map (fun x => (f x.1, x.2)) := by
  rw [List.zip_map_left]
  rfl

/-- **C103** SEEPS, if its variables and the variables of its climatology are renamed too. -/
theorem C103_seeps (hf : Function.Injective f) (tm : ClimTimes L) (name : String) {names : List String} {dryMm minP1 maxP1 : List K} {clim : Vars (SeepsClimatology L K)} {s : FStatistic L K}
    (h : seepsStatistic tm name names dryMm minP1 maxP1 clim = .ok s) :
    ∃ s', seepsStatistic tm name (names.map f) dryMm minP1 maxP1 (renameVars f clim) = .ok s' ∧ (s.toMetric (M := DA L (FV K))).Renames f s'.toMetric := by
  unfold seepsStatistic seeps at h ⊢
  rw [List.length_map]
  split at h
  · cases h
    rename_i hl
    rw [if_pos hl]
    refine ⟨_, rfl, statistic_renames (fun p t => ?_)⟩
    dsimp only
    rw [zip_rename]
    exact seepsLoop_rename hf clim _ _ p t _ []
  · cases h

/-- Renamed thresholds: only a Dataset names variables. -/
def Thresholds.rename (f : String → String) : Thresholds L K → Thresholds L K
  | .list ts => .list ts
  | .array a => .array a
  | .dataset vs => .dataset (renameVars f vs)

theorem forCdf_rename (hf : Function.Injective f) (tm : TimeLabels L) (label : FV K → L) (d : Dim) (name : String) (x : StatVar L (FV K)) (th : Thresholds L K) :
    (th.rename f).forCdf tm label d (f name) x = th.forCdf tm label d name x := by
  cases th with
  | list ts => rfl
  | array a => rfl
  | dataset vs =>
    show (pyItem (renameVars f vs) (f name) >>= fun a => _) = _
    rw [pyItem_rename hf]
    rfl

theorem forBinary_rename (hf : Function.Injective f) (label : FV K → L) (d : Dim) (name : String) (th : Thresholds L K) :
    (th.rename f).forBinary label d (f name) = th.forBinary label d name := by
  cases th with
  | list ts => rfl
  | array a => rfl
  | dataset vs =>
    have : (∃ va ∈ renameVars f vs, d ∈ va.2.dims) ↔ ∃ va ∈ vs, d ∈ va.2.dims := by
      simp only [renameVars, List.mem_map]
      exact ⟨fun ⟨_, ⟨kv, hkv, rfl⟩, h⟩ => ⟨kv, hkv, h⟩, fun ⟨kv, hkv, h⟩ => ⟨_, ⟨kv, hkv, rfl⟩, h⟩⟩
    simp only [Thresholds.rename, Thresholds.forBinary, this, pyGet?_rename hf]

/-- **C103** The transforms: an ensemble mean and Weibull probabilities do not look at the name of the variable; exceedance of thresholds, bins and cumulative distributions only to find its thresholds. -/
theorem C103_transforms (hf : Function.Injective f) (tm : TimeLabels L) (label : FV K → L) (binName : L → L → L) (order : List L) (which suffix suffix' : String) (d : Dim) (skipna skip enforce right : Bool)
    (th : Thresholds L K) :
    InputTransform.Renames f (⟨which, suffix, fun _ => ensembleMeanFn d skipna skip⟩ : InputTransform L K) ⟨which, suffix', fun _ => ensembleMeanFn d skipna skip⟩ ∧
    InputTransform.Renames f (⟨which, suffix, fun _ => weibullFn d skipna⟩ : InputTransform L K) ⟨which, suffix', fun _ => weibullFn d skipna⟩ ∧
    InputTransform.Renames f (⟨which, suffix, fun name x => (th.forBinary label d name).map (fun t => binarize t x)⟩ : InputTransform L K)
      ⟨which, suffix', fun name x => ((th.rename f).forBinary label d name).map (fun t => binarize t x)⟩ ∧
    InputTransform.Renames f (⟨which, suffix, cdfFn tm label th order d enforce right⟩ : InputTransform L K) ⟨which, suffix', cdfFn tm label (th.rename f) order d enforce right⟩ ∧
    InputTransform.Renames f (⟨which, suffix, binsFn tm label binName th order d enforce⟩ : InputTransform L K) ⟨which, suffix', binsFn tm label binName (th.rename f) order d enforce⟩ := by
  have hcdf : ∀ r name x, cdfFn tm label (th.rename f) order d enforce r (f name) x = cdfFn tm label th order d enforce r name x := by
    intro r name x
    unfold cdfFn
    rw [forCdf_rename hf]
  refine ⟨⟨rfl, fun _ _ => rfl⟩, ⟨rfl, fun _ _ => rfl⟩, ⟨rfl, fun name x => ?_⟩, ⟨rfl, hcdf right⟩, ⟨rfl, fun name x => ?_⟩⟩
  · dsimp only
    rw [forBinary_rename hf]
  · dsimp only
    unfold binsFn
    rw [hcdf]

end plain

section climatology
variable {L : Type} [DecidableEq L] {f : String → String}

theorem withClimatology_renames (hf : Function.Injective f) {name name' : String} {clims : Vars (StatVar L (FV ℝ))} {align : StatVar L (FV ℝ) → StatVar L (FV ℝ) → Except Err (StatVar L (FV ℝ))}
    {g : StatVar L (FV ℝ) → StatVar L (FV ℝ) → StatVar L (FV ℝ) → StatVar L (FV ℝ)} : (withClimatology name clims align g).Renames f (withClimatology name' (renameVars f clims) align g) := by
  intro p t
  show ((renameVars f p).mapM (fun kv => do let x ← pyItem (renameVars f clims) kv.1; return (kv.1, x)) >>= fun cs => (renameVars f p).mapM (fun kv => do
      let b ← pyItem (renameVars f t) kv.1
      let c ← pyItem cs kv.1
      let al ← align kv.2 c
      return (kv.1, some (g kv.2 b al)))) = _
  have h1 : (renameVars f p).mapM (fun kv => (do let x ← pyItem (renameVars f clims) kv.1; return (kv.1, x) : Except Err (String × StatVar L (FV ℝ)))) =
      (p.mapM (fun kv => (do let x ← pyItem clims kv.1; return (kv.1, x) : Except Err (String × StatVar L (FV ℝ))))).map (renameVars f) := by
    rw [show renameVars f p = p.map (fun kv => (f kv.1, kv.2)) from rfl, List.mapM_map]
    refine mapM_image (fun kv _ => ?_)
    rw [Function.comp_apply, pyItem_rename hf]
    exact bind_same (fun x => rfl)
  rw [h1]
  refine bind_image (fun cs => ?_)
  rw [show renameVars f p = p.map (fun kv => (f kv.1, kv.2)) from rfl, List.mapM_map]
  refine mapM_image (fun kv _ => ?_)
  rw [Function.comp_apply, pyItem_rename hf, pyItem_rename hf]
  exact bind_same (fun b => bind_same (fun c => bind_same (fun al => rfl)))

/-- **C103** Anomaly correlation and activity, if the variables of the climatology are renamed too. -/
theorem C103_anomalies (hf : Function.Injective f) (clims : Vars (StatVar L (FV ℝ))) (align : StatVar L (FV ℝ) → StatVar L (FV ℝ) → Except Err (StatVar L (FV ℝ))) :
    (acc clims align).Renames f (acc (renameVars f clims) align) ∧ (predictionActivity clims align).Renames f (predictionActivity (renameVars f clims) align) := by
  have h : ∀ n g, (withClimatology n clims align g).Renames f (withClimatology n (renameVars f clims) align g) := fun _ _ => withClimatology_renames hf
  constructor
  · unfold acc
    refine perVariableMetric_renames hf ?_ _
    exact .cons ⟨rfl, h _ _⟩ (.cons ⟨rfl, h _ _⟩ (.cons ⟨rfl, h _ _⟩ .nil))
  · unfold predictionActivity
    refine perVariableMetric_renames hf ?_ _
    exact .cons ⟨rfl, h _ _⟩ .nil

end climatology

section order
variable {L : Type} [DecidableEq L]

/-- **C103** The order of the variables does not matter to the deterministic and categorical metrics. -/
theorem C103_order_deterministic {K : Type} [Field K] [LinearOrder K] [IsStrictOrderedRing K] {agg : Aggregator L (FV K)} (hagg : agg.RespectsSame) {p t p' t' : Vars (StatVar L (FV K))} (hp : IsDict p) (ht : IsDict t)
    (h1 : p.Perm p') (h2 : t.Perm t') :
    SameValues (metricAlone errorStatistic.toMetric agg p t) (metricAlone errorStatistic.toMetric agg p' t') ∧ SameValues (metricAlone absoluteErrorStatistic.toMetric agg p t) (metricAlone absoluteErrorStatistic.toMetric agg p' t') ∧
    SameValues (metricAlone squaredErrorStatistic.toMetric agg p t) (metricAlone squaredErrorStatistic.toMetric agg p' t') ∧ SameValues (metricAlone csi agg p t) (metricAlone csi agg p' t') ∧
    SameValues (metricAlone ets agg p t) (metricAlone ets agg p' t') := by
  have one : ∀ s : FStatistic L K, RespectsArrays s → SameValues (metricAlone s.toMetric agg p t) (metricAlone s.toMetric agg p' t') := by
    intro s hs
    refine C103_order hagg (extensional_statistic s) (fun ks hks => ?_) hp ht h1 h2
    simp only [Statistic.toMetric, List.mem_singleton] at hks
    subst hks
    exact hs
  have cont : ∀ name g, RespectsArrays (statOf (L := L) (K := K) name (contingency g)) := fun name g =>
    respects_perVariable (fun _ _ _ _ h h' => .gives (.some (.some (StatVar.zipWith_same (StatVar.zipWith_same (StatVar.map_same _ h) (StatVar.map_same _ h')) (StatVar.map_same _ (StatVar.zipWith_same h h'))))))
  have ext := extensional_categorical (L := L) (K := K)
  refine ⟨one _ respects_deterministic.1, one _ respects_deterministic.2.1, one _ respects_deterministic.2.2, C103_order hagg ext.1 (fun ks hks => ?_) hp ht h1 h2,
    C103_order hagg ext.2.2.2.2.2.2.2.2 (fun ks hks => ?_) hp ht h1 h2⟩
  · simp only [csi, metric3, perVariableMetric, List.mem_cons, List.not_mem_nil, or_false] at hks
    rcases hks with rfl | rfl | rfl <;> exact cont _ _
  · simp only [ets, metric4, perVariableMetric, List.mem_cons, List.not_mem_nil, or_false] at hks
    rcases hks with rfl | rfl | rfl | rfl <;> exact cont _ _

/-- **C103** Nor to the root mean squared error and the spread-skill ratio. -/
theorem C103_order_roots {agg : Aggregator L (FV ℝ)} (hagg : agg.RespectsSame) {p t p' t' : Vars (StatVar L (FV ℝ))} (hp : IsDict p) (ht : IsDict t) (h1 : p.Perm p') (h2 : t.Perm t') (d : Dim) (skipna : Bool) :
    SameValues (metricAlone rmse agg p t) (metricAlone rmse agg p' t') ∧ SameValues (metricAlone (spreadSkillRatio d skipna) agg p t) (metricAlone (spreadSkillRatio d skipna) agg p' t') := by
  refine ⟨C103_order hagg extensional_rmse (fun ks hks => ?_) hp ht h1 h2, C103_order hagg (extensional_metric2 (by formula_same)) (fun ks hks => ?_) hp ht h1 h2⟩
  · simp only [rmse, perVariableMetric, List.mem_singleton] at hks
    subst hks
    exact respects_deterministic.2.2
  · simp only [spreadSkillRatio, metric2, perVariableMetric, List.mem_cons, List.not_mem_nil, or_false] at hks
    rcases hks with rfl | rfl
    · exact (respects_moments d skipna).1
    · exact (respects_moments d skipna).2

end order

section silent
variable {L : Type} [DecidableEq L]

theorem perVariableLoop_disjoint {D S : Type} {g : D → D → Except Err (Option S)} : ∀ {p t : Vars D}, (∀ kv ∈ p, pyGet? kv.1 t = none) → perVariableLoop g t p = .ok []
  | [], _, _ => rfl
  | (v, a) :: p, t, h => by
    rw [perVariableLoop, h (v, a) (by simp)]
    exact perVariableLoop_disjoint (fun kv hkv => h kv (by simp [hkv]))

/-- **C103** ★ If only one side is renamed nothing fails: when no variable of the predictions is called as a variable of the targets, a per-variable metric silently has no values. -/
theorem C103_silently_empty {K : Type} [Field K] [LinearOrder K] [IsStrictOrderedRing K] (agg : Aggregator L (FV K)) (aggR : Aggregator L (FV ℝ)) (p t : Vars (StatVar L (FV K))) (p' t' : Vars (StatVar L (FV ℝ)))
    (h : ∀ kv ∈ p, pyGet? kv.1 t = none) (h' : ∀ kv ∈ p', pyGet? kv.1 t' = none) (name : String) (g : StatVar L (FV K) → StatVar L (FV K) → Except Err (Option (Option (StatVar L (FV K))))) :
    metricAlone (perVariableStatistic name g).toMetric agg p t = .ok [] ∧ metricAlone rmse aggR p' t' = .ok [] := by
  have h1 : (perVariableStatistic name g).compute p t = .ok [] := perVariableLoop_disjoint h
  have h2 : (squaredErrorStatistic (L := L) (K := ℝ)).compute p' t' = .ok [] := perVariableLoop_disjoint h'
  constructor
  · simp only [metricAlone, Statistic.toMetric, List.mapM_cons, List.mapM_nil, h1]
    rfl
  · simp only [metricAlone, rmse, perVariableMetric, List.mapM_cons, List.mapM_nil, h2]
    rfl

example (a b : StatVar ℤ (FV ℚ)) : ∀ kv ∈ [("2m_temperature", a)], pyGet? kv.1 [("t2m", b)] = none := by simp [pyGet?]

end silent

section examples

/-- An injective renaming that really renames. -/
def shortName (k : String) : String := "era5_" ++ k

theorem shortName_injective : Function.Injective shortName := by
  intro a b h
  have := congrArg String.toList h
  simp only [shortName, String.toList_append, List.append_cancel_left_eq] at this
  exact String.toList_injective this

/-- The hypotheses are met: a real renaming and a real reordering of two variables. -/
example (a b : StatVar ℤ (FV ℚ)) : renameVars shortName [("t2m", a), ("z500", b)] = [("era5_t2m", a), ("era5_z500", b)] ∧ IsDict [("t2m", a), ("z500", b)] ∧
    List.Perm [("t2m", a), ("z500", b)] [("z500", b), ("t2m", a)] :=
  ⟨by simp [renameVars, shortName], by simp [IsDict], List.Perm.swap _ _ _⟩

example (agg : Aggregator ℤ (FV ℚ)) (p t : Vars (StatVar ℤ (FV ℚ))) :
    metricAlone csi agg (renameVars shortName p) (renameVars shortName t) = (metricAlone csi agg p t).map (renameVars shortName) :=
  C103_rename agg (C103_categorical.1 shortName shortName_injective) p t

end examples
end WBX
