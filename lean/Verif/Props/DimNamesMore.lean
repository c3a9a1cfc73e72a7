import Verif.Props.DimNamesEnsemble

/-!
# C104: wrapped metrics, climatologies, wind, area weights, several metrics at once
-/

set_option linter.unusedSectionVars false

namespace WBX
open DA Aggregator

section tables
variable {L V : Type} [DecidableEq L] [AddCommMonoid V] [Mul V] [One V] [Div V] [IsNull V] {σ : Equiv.Perm Dim}

/-- **C104** All metrics of an evaluation at once. -/
theorem C104_table {metrics metrics' : List (String × Metric (StatVar L V) (Option (StatVar L V)) (DA L V))} {agg agg' : Aggregator L V} (hagg : agg.Redims σ agg')
    (hm : List.Forall₂ (fun nm nm' => nm'.1 = nm.1 ∧ nm.2.Redims σ nm'.2) metrics metrics') {p t : Vars (StatVar L V)} (hdict : ReturnDicts metrics p t) (hid : NamesIdentify metrics p t)
    (hdict' : ReturnDicts metrics' (redimVars σ p) (redimVars σ t)) (hid' : NamesIdentify metrics' (redimVars σ p) (redimVars σ t)) {table : List (String × Vars (DA L V))}
    (h : metricTableForSingleChunk metrics agg p t = .ok table) :
    metricTableForSingleChunk metrics' agg' (redimVars σ p) (redimVars σ t) = .ok (table.map (fun kv => (kv.1, redimValues σ kv.2))) := by
  rw [C20_together_iff_alone metrics agg p t hdict hid] at h
  rw [C20_together_iff_alone metrics' agg' _ _ hdict' hid']
  have := mapM_image₂ (R := fun (nm nm' : String × Metric (StatVar L V) (Option (StatVar L V)) (DA L V)) => nm'.1 = nm.1 ∧ nm.2.Redims σ nm'.2)
    (f := fun nm : String × Metric (StatVar L V) (Option (StatVar L V)) (DA L V) => (do let v ← metricAlone nm.2 agg p t; return (nm.1, v) : Except Err (String × Vars (DA L V))))
    (f' := fun nm : String × Metric (StatVar L V) (Option (StatVar L V)) (DA L V) => (do let v ← metricAlone nm.2 agg' (redimVars σ p) (redimVars σ t); return (nm.1, v) : Except Err (String × Vars (DA L V))))
    (g := fun kv : String × Vars (DA L V) => (kv.1, redimValues σ kv.2)) (fun nm nm' hn => by
      rw [C104_redim hagg hn.2, hn.1]
      exact bind_image (fun v => rfl)) hm
  rw [this, h]
  rfl

end tables

section wrapped
variable {L K : Type} [DecidableEq L] [Field K] [LinearOrder K] [IsStrictOrderedRing K] {σ : Equiv.Perm Dim}

/-- `tr'` does to data with other names of the dimensions what `tr` does to the data. -/
structure InputTransform.Redims (σ : Equiv.Perm Dim) (tr tr' : InputTransform L K) : Prop where
  which : tr'.which = tr.which
  fn : ∀ name a, tr'.fn name (a.redim σ) = (tr.fn name a).map (StatVar.redim σ)

theorem mapVars_redim {tr tr' : InputTransform L K} (h : tr.Redims σ tr') (vs : Vars (StatVar L (FV K))) : tr'.mapVars (redimVars σ vs) = (tr.mapVars vs).map (redimVars σ) := by
  unfold InputTransform.mapVars
  conv_lhs => unfold redimVars
  rw [List.mapM_map]
  refine mapM_image (fun kv _ => ?_)
  rw [Function.comp_apply, h.fn]
  exact bind_image (fun a => rfl)

theorem wrapped_redims {s s' : FStatistic L K} (hs : s.Redims σ s') {tr tr' : InputTransform L K} (h : tr.Redims σ tr') : (wrappedStatistic s tr).Redims σ (wrappedStatistic s' tr') := by
  intro p t
  unfold wrappedStatistic
  dsimp only
  rw [h.which]
  split
  · split
    · rw [mapVars_redim h, mapVars_redim h]
      exact bind_image (fun p' => bind_image (fun t' => hs p' t'))
    · rw [mapVars_redim h]
      exact bind_image (fun p' => hs p' t)
  · split
    · rw [mapVars_redim h]
      exact bind_image (k := fun t' => s.compute p t') (fun t' => hs p t')
    · exact hs p t

theorem foldl_redims {trs trs' : List (InputTransform L K)} (h : List.Forall₂ (InputTransform.Redims σ) trs trs') :
    ∀ {s s' : FStatistic L K}, s.Redims σ s' → (trs.foldl wrappedStatistic s).Redims σ (trs'.foldl wrappedStatistic s') := by
  induction h with
  | nil => exact fun hs => hs
  | cons h1 _ ih => exact fun hs => ih (wrapped_redims hs h1)

/-- **C104** Wrapping a metric with input transforms. -/
theorem C104_wrapped {m m' : FMetric L K} (hm : m.Redims σ m') {trs trs' : List (InputTransform L K)} (h : List.Forall₂ (InputTransform.Redims σ) trs trs') (suffix suffix' : Option String) :
    (wrappedMetric m trs suffix).Redims σ (wrappedMetric m' trs' suffix') := by
  refine ⟨?_, hm.formula⟩
  show List.Forall₂ _ (m.statistics.map _) (m'.statistics.map _)
  rw [List.forall₂_map_left_iff, List.forall₂_map_right_iff]
  refine hm.statistics.imp (fun ks ks' hk => ⟨hk.1, ?_⟩)
  have := foldl_redims (forall₂_backwards h) hk.2
  unfold wrapAll
  cases suffix <;> cases suffix' <;> exact this

/-- **C104** `EnsembleMean` only looks at the name of the dimension it averages, `ContinuousToBinary` only at the names of the dimensions of its thresholds. -/
theorem C104_transforms (which suffix suffix' : String) (d : Dim) (skipna skip : Bool) (thresholds : DA L (FV K)) :
    InputTransform.Redims σ (⟨which, suffix, fun _ => ensembleMeanFn d skipna skip⟩ : InputTransform L K) ⟨which, suffix', fun _ => ensembleMeanFn (σ d) skipna skip⟩ ∧
    InputTransform.Redims σ (⟨which, suffix, fun _ x => .ok (binarize thresholds x)⟩ : InputTransform L K) ⟨which, suffix', fun _ x => .ok (binarize (thresholds.redim σ) x)⟩ := by
  refine ⟨⟨rfl, fun _ a => ?_⟩, ⟨rfl, fun _ a => ?_⟩⟩
  · dsimp only
    unfold ensembleMeanFn
    simp only [redim_meanDim, redim_sv_dims]
    split <;> rfl
  · dsimp only
    unfold binarize
    rw [redim_sv_bare, redim_sv_zip, redim_sv_map, redim_sv_zip]
    rfl

/-! ### Wind -/

theorem windLoop_redim (p t : Vars (StatVar L (FV K))) : ∀ (vs : List (String × String × String)) (out : Vars (Option (StatVar L (FV K)))),
    windLoop (redimVars σ p) (redimVars σ t) vs (redimStats σ out) = (windLoop p t vs out).map (redimStats σ)
  | [], _ => rfl
  | (u, v, vector) :: rest, out => by
    rw [windLoop, windLoop]
    have item : ∀ (q : Vars (StatVar L (FV K))) (k : String), pyItem (redimVars σ q) k = (pyItem q k).map (StatVar.redim σ) := fun q k => pyItem_image _ q k
    rw [item, item, item, item]
    refine bind_image (fun pu => bind_image (fun pv => bind_image (fun tu => bind_image (fun tv => ?_))))
    rw [redim_sv_zip, redim_sv_map, redim_sv_zip, redim_sv_map, redim_sv_zip, ← windLoop_redim p t rest]
    congr 1
    exact pyInsert_image (Option.map (StatVar.redim σ)) vector (some _) out

/-- **C104** The wind vector error does not look at the names of the dimensions. -/
theorem C104_wind {u v vector : List String} {s : FStatistic L K} (h : windVectorSquaredError u v vector = .ok s) : (s.toMetric (M := DA L (FV K))).DimBlind σ := by
  refine statistic_redims (fun p t => ?_)
  unfold windVectorSquaredError at h
  rcases hw : windVectors u v vector with e | vs
  · rw [hw] at h; cases h
  · rw [hw] at h
    cases h
    exact windLoop_redim p t vs []

end wrapped

section climatology
variable {L : Type} [DecidableEq L] {σ : Equiv.Perm Dim}

/-- `align'` selects from the climatology with other names of the dimensions what `align` selects from the climatology. (The code itself looks for `init_time`, `lead_time` and `valid_time`: `σ` must keep these names.) -/
def AlignRedims (σ : Equiv.Perm Dim) (align align' : StatVar L (FV ℝ) → StatVar L (FV ℝ) → Except Err (StatVar L (FV ℝ))) : Prop :=
  ∀ a c, align' (a.redim σ) (c.redim σ) = (align a c).map (StatVar.redim σ)

theorem withClimatology_redims {name name' : String} {clims : Vars (StatVar L (FV ℝ))} {align align' : StatVar L (FV ℝ) → StatVar L (FV ℝ) → Except Err (StatVar L (FV ℝ))}
    {f : StatVar L (FV ℝ) → StatVar L (FV ℝ) → StatVar L (FV ℝ) → StatVar L (FV ℝ)} (ha : AlignRedims σ align align')
    (hf : ∀ a b c, f (a.redim σ) (b.redim σ) (c.redim σ) = (f a b c).redim σ) : (withClimatology name clims align f).Redims σ (withClimatology name' (redimVars σ clims) align' f) := by
  intro p t
  have item : ∀ (q : Vars (StatVar L (FV ℝ))) (k : String), pyItem (redimVars σ q) k = (pyItem q k).map (StatVar.redim σ) := fun q k => pyItem_image _ q k
  show ((redimVars σ p).mapM (fun kv => do let x ← pyItem (redimVars σ clims) kv.1; return (kv.1, x)) >>= fun cs => (redimVars σ p).mapM (fun kv => do
      let b ← pyItem (redimVars σ t) kv.1
      let c ← pyItem cs kv.1
      let al ← align' kv.2 c
      return (kv.1, some (f kv.2 b al)))) = _
  have h1 : (redimVars σ p).mapM (fun kv => (do let x ← pyItem (redimVars σ clims) kv.1; return (kv.1, x) : Except Err (String × StatVar L (FV ℝ)))) =
      (p.mapM (fun kv => (do let x ← pyItem clims kv.1; return (kv.1, x) : Except Err (String × StatVar L (FV ℝ))))).map (redimVars σ) := by
    conv_lhs => unfold redimVars
    rw [List.mapM_map]
    refine mapM_image (fun kv _ => ?_)
    have := item clims kv.1
    unfold redimVars at this
    rw [Function.comp_apply, this]
    exact bind_image (fun x => rfl)
  rw [h1]
  refine bind_image (fun cs => ?_)
  rw [show redimVars σ p = p.map (fun kv => (kv.1, kv.2.redim σ)) from rfl, List.mapM_map]
  refine mapM_image (fun kv _ => ?_)
  rw [Function.comp_apply, item t, item cs]
  refine bind_image (fun b => bind_image (fun c => ?_))
  rw [ha]
  exact bind_image (fun al => by rw [hf]; rfl)

/-- **C104** Anomaly correlation and activity. -/
theorem C104_anomalies {clims : Vars (StatVar L (FV ℝ))} {align align' : StatVar L (FV ℝ) → StatVar L (FV ℝ) → Except Err (StatVar L (FV ℝ))} (ha : AlignRedims σ align align') :
    (acc clims align).Redims σ (acc (redimVars σ clims) align') ∧ (predictionActivity clims align).Redims σ (predictionActivity (redimVars σ clims) align') := by
  have h1 : (withClimatology "SquaredPredictionAnomaly" clims align squaredPredictionAnomaly).Redims σ (withClimatology "SquaredPredictionAnomaly" (redimVars σ clims) align' squaredPredictionAnomaly) :=
    withClimatology_redims ha (fun a b c => by rw [squaredPredictionAnomaly, redim_sv_zip, redim_sv_map]; rfl)
  have h2 : (withClimatology "SquaredTargetAnomaly" clims align squaredTargetAnomaly).Redims σ (withClimatology "SquaredTargetAnomaly" (redimVars σ clims) align' squaredTargetAnomaly) :=
    withClimatology_redims ha (fun a b c => by rw [squaredTargetAnomaly, redim_sv_zip, redim_sv_map]; rfl)
  have h3 : (withClimatology "AnomalyCovariance" clims align anomalyCovariance).Redims σ (withClimatology "AnomalyCovariance" (redimVars σ clims) align' anomalyCovariance) :=
    withClimatology_redims ha (fun a b c => by rw [anomalyCovariance, redim_sv_zip, redim_sv_zip, redim_sv_zip]; rfl)
  refine ⟨perVariableMetric_redims (.cons ⟨rfl, h1⟩ (.cons ⟨rfl, h2⟩ (.cons ⟨rfl, h3⟩ .nil))) (fun xs => ?_), perVariableMetric_redims (.cons ⟨rfl, h1⟩ .nil) (fun xs => ?_)⟩
  · refine item_redim (fun x => item_redim (fun y => item_redim (fun z => ?_)))
    rw [accFormula, redim_map, redim_map, redim_zip, redim_zip]
    rfl
  · exact item_redim (fun x => rfl)

/-! ### Area weights -/

theorem gridAreaWeights_redim {V : Type} (name : Dim) (normalized : Bool) (order : List L) (degrees : L → ℝ) (stat : DA L V) :
    gridAreaWeights (σ name) normalized order degrees (stat.redim σ) = (gridAreaWeights name normalized order degrees stat).map (DA.redim σ) := by
  unfold gridAreaWeights
  simp only [mem_redim]
  split
  · rw [Except.map, redim_scalar]
  · rcases latitudeWeights normalized (order.map degrees) with e | w
    · rfl
    · show Except.ok _ = Except.ok _
      congr 1
      refine DA.extAll ?_ ?_ rfl
      · show ({σ name} : Finset Dim) = ({name} : Finset Dim).map σ.toEmbedding
        rw [Finset.map_singleton]; rfl
      · funext k
        show (if k = σ name then order.toFinset else ∅) = if σ.symm k = name then order.toFinset else ∅
        simp only [Equiv.symm_apply_eq]

/-- **C104** Area weights only look at the dimension that their setting `latitude_name` names. -/
theorem C104_area (name : Dim) (normalized : Bool) (order : List L) (degrees : L → ℝ) (stat : DA L (FV ℝ)) :
    areaWeighting (σ name) normalized order degrees (stat.redim σ) = (areaWeighting name normalized order degrees stat).redim σ := by
  unfold areaWeighting
  rw [gridAreaWeights_redim]
  rcases gridAreaWeights name normalized order degrees stat with e | w
  · exact (redim_scalar σ _).symm
  · rfl

end climatology

/-! ### Names that are taken -/

section taken
variable {L K : Type} [DecidableEq L] [Field K] [LinearOrder K] [IsStrictOrderedRing K]

/-- ★ **C104** The names the code itself uses cannot be used: an ensemble with a dimension called `ensemble_dim_2` has no CRPS spread. (`rename` refuses, whatever the data.) -/
theorem C104_reserved_name (argsort : List (FV K) → List ℕ) (order : List L) (d : Dim) (fair skipna : Bool) (p t : StatVar L (FV K)) (hd : d ∈ p.arr.dims) (h2 : "ensemble_dim_2" ∈ p.arr.dims) :
    crpsSpread argsort order d false fair "predictions" skipna p t = .error .valueError := by
  unfold crpsSpread whichArray StatVar.sizeDim StatVar.rename
  simp [hd, h2, bind, Except.bind]

end taken
end WBX
