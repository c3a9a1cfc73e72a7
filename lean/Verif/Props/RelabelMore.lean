import Verif.Props.RelabelGrid
import Verif.Props.Wrappers

/-!
# C102: wrapped metrics, climatologies, wind, several metrics at once
-/

set_option linter.unusedSectionVars false

namespace WBX
open DA Aggregator

section tables
variable {L V : Type} [DecidableEq L] [AddCommMonoid V] [Mul V] [One V] [Div V] [IsNull V] {ρ : Dim → Equiv.Perm L}

/-- **C102** All metrics of an evaluation at once: the table of the relabelled data is the relabelled table. -/
theorem C102_table {metrics metrics' : List (String × Metric (StatVar L V) (Option (StatVar L V)) (DA L V))} {agg agg' : Aggregator L V} (hagg : agg.Relabels ρ agg')
    (hm : List.Forall₂ (fun nm nm' => nm'.1 = nm.1 ∧ nm.2.Relabels ρ nm'.2) metrics metrics') {p t : Vars (StatVar L V)} (hdict : ReturnDicts metrics p t) (hid : NamesIdentify metrics p t)
    (hdict' : ReturnDicts metrics' (relabelVars ρ p) (relabelVars ρ t)) (hid' : NamesIdentify metrics' (relabelVars ρ p) (relabelVars ρ t)) {table : List (String × Vars (DA L V))}
    (h : metricTableForSingleChunk metrics agg p t = .ok table) : metricTableForSingleChunk metrics' agg' (relabelVars ρ p) (relabelVars ρ t) = .ok (relabelTable ρ table) := by
  rw [C20_together_iff_alone metrics agg p t hdict hid] at h
  rw [C20_together_iff_alone metrics' agg' _ _ hdict' hid']
  have := mapM_image₂ (R := fun (nm nm' : String × Metric (StatVar L V) (Option (StatVar L V)) (DA L V)) => nm'.1 = nm.1 ∧ nm.2.Relabels ρ nm'.2)
    (f := fun nm : String × Metric (StatVar L V) (Option (StatVar L V)) (DA L V) => (do let v ← metricAlone nm.2 agg p t; return (nm.1, v) : Except Err (String × Vars (DA L V))))
    (f' := fun nm : String × Metric (StatVar L V) (Option (StatVar L V)) (DA L V) => (do let v ← metricAlone nm.2 agg' (relabelVars ρ p) (relabelVars ρ t); return (nm.1, v) : Except Err (String × Vars (DA L V))))
    (g := fun kv : String × Vars (DA L V) => (kv.1, relabelValues ρ kv.2)) (fun nm nm' hn => by
      rw [C102_relabel hagg hn.2, hn.1]
      exact bind_image (fun v => rfl)) hm
  rw [this, h]
  rfl

end tables

section wrapped
variable {L K : Type} [DecidableEq L] [Field K] [LinearOrder K] [IsStrictOrderedRing K] {ρ : Dim → Equiv.Perm L}

/-- `tr'` does to relabelled data what `tr` does to the data. -/
structure InputTransform.Relabels (ρ : Dim → Equiv.Perm L) (tr tr' : InputTransform L K) : Prop where
  which : tr'.which = tr.which
  fn : ∀ name a, tr'.fn name (a.relabel ρ) = (tr.fn name a).map (StatVar.relabel ρ)

theorem mapVars_relabel {tr tr' : InputTransform L K} (h : tr.Relabels ρ tr') (vs : Vars (StatVar L (FV K))) : tr'.mapVars (relabelVars ρ vs) = (tr.mapVars vs).map (relabelVars ρ) := by
  unfold InputTransform.mapVars
  conv_lhs => unfold relabelVars
  rw [List.mapM_map]
  refine mapM_image (fun kv _ => ?_)
  rw [Function.comp_apply, h.fn]
  exact bind_image (fun a => rfl)

theorem wrapped_relabels {s s' : FStatistic L K} (hs : s.Relabels ρ s') {tr tr' : InputTransform L K} (h : tr.Relabels ρ tr') : (wrappedStatistic s tr).Relabels ρ (wrappedStatistic s' tr') := by
  intro p t
  unfold wrappedStatistic
  dsimp only
  rw [h.which]
  split
  · split
    · rw [mapVars_relabel h, mapVars_relabel h]
      exact bind_image (fun p' => bind_image (fun t' => hs p' t'))
    · rw [mapVars_relabel h]
      exact bind_image (fun p' => hs p' t)
  · split
    · rw [mapVars_relabel h]
      exact bind_image (k := fun t' => s.compute p t') (fun t' => hs p t')
    · exact hs p t

theorem foldl_relabels {trs trs' : List (InputTransform L K)} (h : List.Forall₂ (InputTransform.Relabels ρ) trs trs') :
    ∀ {s s' : FStatistic L K}, s.Relabels ρ s' → (trs.foldl wrappedStatistic s).Relabels ρ (trs'.foldl wrappedStatistic s') := by
  induction h with
  | nil => exact fun hs => hs
  | cons h1 _ ih => exact fun hs => ih (wrapped_relabels hs h1)

theorem forall₂_append_one {α β : Type} {R : α → β → Prop} {l : List α} {l' : List β} (h : List.Forall₂ R l l') {x : α} {y : β} (hxy : R x y) : List.Forall₂ R (l ++ [x]) (l' ++ [y]) := by
  induction h with
  | nil => exact .cons hxy .nil
  | cons h _ ih => exact .cons h ih

theorem forall₂_backwards {α β : Type} {R : α → β → Prop} {l : List α} {l' : List β} (h : List.Forall₂ R l l') : List.Forall₂ R l.reverse l'.reverse := by
  induction h with
  | nil => exact .nil
  | cons h _ ih => rw [List.reverse_cons, List.reverse_cons]; exact forall₂_append_one ih h

/-- **C102** Wrapping a metric with input transforms that do not look at labels. -/
theorem C102_wrapped {m m' : FMetric L K} (hm : m.Relabels ρ m') {trs trs' : List (InputTransform L K)} (h : List.Forall₂ (InputTransform.Relabels ρ) trs trs') (suffix suffix' : Option String) :
    (wrappedMetric m trs suffix).Relabels ρ (wrappedMetric m' trs' suffix') := by
  refine ⟨?_, hm.formula⟩
  show List.Forall₂ _ (m.statistics.map _) (m'.statistics.map _)
  rw [List.forall₂_map_left_iff, List.forall₂_map_right_iff]
  refine hm.statistics.imp (fun ks ks' hk => ⟨hk.1, ?_⟩)
  have := foldl_relabels (forall₂_backwards h) hk.2
  unfold wrapAll
  cases suffix <;> cases suffix' <;> exact this

/-- **C102** `EnsembleMean` does not look at labels; `ContinuousToBinary` only looks at the labels of its thresholds. -/
theorem C102_transforms (which suffix : String) (d : Dim) (skipna skip : Bool) (thresholds : DA L (FV K)) :
    InputTransform.Relabels ρ (⟨which, suffix, fun _ => ensembleMeanFn d skipna skip⟩ : InputTransform L K) ⟨which, suffix, fun _ => ensembleMeanFn d skipna skip⟩ ∧
    InputTransform.Relabels ρ (⟨which, suffix, fun _ x => .ok (binarize thresholds x)⟩ : InputTransform L K) ⟨which, suffix, fun _ x => .ok (binarize (thresholds.relabel ρ) x)⟩ := by
  refine ⟨⟨rfl, fun _ a => ?_⟩, ⟨rfl, fun _ a => ?_⟩⟩
  · dsimp only
    unfold ensembleMeanFn
    rw [sv_meanDim]
    show (if d ∉ a.arr.dims ∧ skip = true then _ else _) = Except.map _ (if d ∉ a.arr.dims ∧ skip = true then _ else _)
    split <;> rfl
  · dsimp only
    unfold binarize
    rw [sv_bare, sv_zip, sv_map, sv_zip]
    rfl

/-! ### Wind -/

theorem pyInsert_image {β γ : Type} (g : β → γ) (k : String) (x : β) : ∀ l : List (String × β), pyInsert k (g x) (l.map (fun kv => (kv.1, g kv.2))) = (pyInsert k x l).map (fun kv => (kv.1, g kv.2))
  | [] => rfl
  | kv :: l => by
    have ih := pyInsert_image g k x l
    rw [List.map_cons, pyInsert, pyInsert]
    split
    · rfl
    · rw [ih]; rfl

theorem windLoop_relabel (p t : Vars (StatVar L (FV K))) : ∀ (vs : List (String × String × String)) (out : Vars (Option (StatVar L (FV K)))),
    windLoop (relabelVars ρ p) (relabelVars ρ t) vs (relabelStats ρ out) = (windLoop p t vs out).map (relabelStats ρ)
  | [], _ => rfl
  | (u, v, vector) :: rest, out => by
    rw [windLoop, windLoop]
    have item : ∀ (q : Vars (StatVar L (FV K))) (k : String), pyItem (relabelVars ρ q) k = (pyItem q k).map (StatVar.relabel ρ) := fun q k => pyItem_image _ q k
    rw [item, item, item, item]
    refine bind_image (fun pu => bind_image (fun pv => bind_image (fun tu => bind_image (fun tv => ?_))))
    rw [sv_zip, sv_map, sv_zip, sv_map, sv_zip, ← windLoop_relabel p t rest]
    congr 1
    exact pyInsert_image (Option.map (StatVar.relabel ρ)) vector (some _) out

/-- **C102** The wind vector error does not look at labels. -/
theorem C102_wind {u v vector : List String} {s : FStatistic L K} (h : windVectorSquaredError u v vector = .ok s) : (s.toMetric (M := DA L (FV K))).Blind ρ := by
  refine statistic_relabels (fun p t => ?_)
  unfold windVectorSquaredError at h
  rcases hw : windVectors u v vector with e | vs
  · rw [hw] at h; cases h
  · rw [hw] at h
    cases h
    exact windLoop_relabel p t vs []

end wrapped

section climatology
variable {L : Type} [DecidableEq L] {ρ : Dim → Equiv.Perm L}

/-- `align'` selects from the relabelled climatology what `align` selects from the climatology. -/
def AlignRelabels (ρ : Dim → Equiv.Perm L) (align align' : StatVar L (FV ℝ) → StatVar L (FV ℝ) → Except Err (StatVar L (FV ℝ))) : Prop :=
  ∀ a c, align' (a.relabel ρ) (c.relabel ρ) = (align a c).map (StatVar.relabel ρ)

theorem withClimatology_relabels {name name' : String} {clims : Vars (StatVar L (FV ℝ))} {align align' : StatVar L (FV ℝ) → StatVar L (FV ℝ) → Except Err (StatVar L (FV ℝ))}
    {f : StatVar L (FV ℝ) → StatVar L (FV ℝ) → StatVar L (FV ℝ) → StatVar L (FV ℝ)} (ha : AlignRelabels ρ align align')
    (hf : ∀ a b c, f (a.relabel ρ) (b.relabel ρ) (c.relabel ρ) = (f a b c).relabel ρ) : (withClimatology name clims align f).Relabels ρ (withClimatology name' (relabelVars ρ clims) align' f) := by
  intro p t
  have item : ∀ (q : Vars (StatVar L (FV ℝ))) (k : String), pyItem (relabelVars ρ q) k = (pyItem q k).map (StatVar.relabel ρ) := fun q k => pyItem_image _ q k
  show ((relabelVars ρ p).mapM (fun kv => do let x ← pyItem (relabelVars ρ clims) kv.1; return (kv.1, x)) >>= fun cs => (relabelVars ρ p).mapM (fun kv => do
      let b ← pyItem (relabelVars ρ t) kv.1
      let c ← pyItem cs kv.1
      let al ← align' kv.2 c
      return (kv.1, some (f kv.2 b al)))) = _
  have h1 : (relabelVars ρ p).mapM (fun kv => (do let x ← pyItem (relabelVars ρ clims) kv.1; return (kv.1, x) : Except Err (String × StatVar L (FV ℝ)))) =
      (p.mapM (fun kv => (do let x ← pyItem clims kv.1; return (kv.1, x) : Except Err (String × StatVar L (FV ℝ))))).map (relabelVars ρ) := by
    conv_lhs => unfold relabelVars
    rw [List.mapM_map]
    refine mapM_image (fun kv _ => ?_)
    have := item clims kv.1
    unfold relabelVars at this
    rw [Function.comp_apply, this]
    exact bind_image (fun x => rfl)
  rw [h1]
  refine bind_image (fun cs => ?_)
  rw [show relabelVars ρ p = p.map (fun kv => (kv.1, kv.2.relabel ρ)) from rfl, List.mapM_map]
  refine mapM_image (fun kv _ => ?_)
  rw [Function.comp_apply, item t, item cs]
  refine bind_image (fun b => bind_image (fun c => ?_))
  rw [ha]
  exact bind_image (fun al => by rw [hf]; rfl)

/-- **C102** Anomaly correlation and activity do not look at labels, if the climatology is relabelled too and its selection at the valid times follows the labels. -/
theorem C102_anomalies {clims : Vars (StatVar L (FV ℝ))} {align align' : StatVar L (FV ℝ) → StatVar L (FV ℝ) → Except Err (StatVar L (FV ℝ))} (ha : AlignRelabels ρ align align') :
    (acc clims align).Relabels ρ (acc (relabelVars ρ clims) align') ∧ (predictionActivity clims align).Relabels ρ (predictionActivity (relabelVars ρ clims) align') := by
  have h1 : (withClimatology "SquaredPredictionAnomaly" clims align squaredPredictionAnomaly).Relabels ρ (withClimatology "SquaredPredictionAnomaly" (relabelVars ρ clims) align' squaredPredictionAnomaly) :=
    withClimatology_relabels ha (fun a b c => by rw [squaredPredictionAnomaly, sv_zip, sv_map]; rfl)
  have h2 : (withClimatology "SquaredTargetAnomaly" clims align squaredTargetAnomaly).Relabels ρ (withClimatology "SquaredTargetAnomaly" (relabelVars ρ clims) align' squaredTargetAnomaly) :=
    withClimatology_relabels ha (fun a b c => by rw [squaredTargetAnomaly, sv_zip, sv_map]; rfl)
  have h3 : (withClimatology "AnomalyCovariance" clims align anomalyCovariance).Relabels ρ (withClimatology "AnomalyCovariance" (relabelVars ρ clims) align' anomalyCovariance) :=
    withClimatology_relabels ha (fun a b c => by rw [anomalyCovariance, sv_zip, sv_zip, sv_zip]; rfl)
  refine ⟨perVariableMetric_relabels (.cons ⟨rfl, h1⟩ (.cons ⟨rfl, h2⟩ (.cons ⟨rfl, h3⟩ .nil))) (fun xs => ?_), perVariableMetric_relabels (.cons ⟨rfl, h1⟩ .nil) (fun xs => ?_)⟩
  · refine item_bind (fun x => item_bind (fun y => item_bind (fun z => ?_)))
    rw [accFormula, relabel_map, relabel_map, relabel_zip, relabel_zip]
    rfl
  · exact item_bind (fun x => rfl)

end climatology
end WBX
