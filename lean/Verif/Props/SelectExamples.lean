import Verif.Props.SelectThresholds
import Verif.Props.LocalityPipeline
import Verif.Props.Deterministic

/-!
# C100: examples, and a finding about masks
-/

set_option linter.unusedSectionVars false

namespace WBX
open DA Aggregator

/-! ### Masks that disagree -/

/-- Forecasts 0 and 1 at two points, at the lead times 1 and 2. -/
def selP : DA ℕ (FV ℚ) := ⟨{"x", "lead_time"}, fun d => if d = "x" then {0, 1} else {1, 2}, fun e => .fin (e "x")⟩

/-- The observations are 0. -/
def selT : DA ℕ (FV ℚ) := ⟨{"x", "lead_time"}, fun d => if d = "x" then {0, 1} else {1, 2}, fun _ => .fin 0⟩

/-- The second point is masked. -/
def selMask : DA ℕ Bool := ⟨{"x", "lead_time"}, fun d => if d = "x" then {0, 1} else {1, 2}, fun e => decide (e "x" = 0)⟩

/-- The second point is masked at the first lead time only. -/
def selMask' : DA ℕ Bool := ⟨{"x", "lead_time"}, fun d => if d = "x" then {0, 1} else {1, 2}, fun e => decide (e "x" = 0 ∨ e "lead_time" = 2)⟩

/-- Average over the points, without masked cells. -/
def selAgg : Aggregator ℕ (FV ℚ) := { reduceDims := ["x"], masked := true }

theorem selAgg_fn (a : DA ℕ (FV ℚ)) (h : "x" ∈ a.dims) : selAgg.aggregationFn a = .ok (some (sumDims ["x"] a)) := by
  obtain ⟨-, -, -, k⟩ := aggregationFn_eq selAgg a
  rw [k (by simpa [selAgg] using h) (by simp [selAgg]) (by intro b hb; simp [selAgg] at hb)]
  simp [selAgg, DA.dot]

theorem selAgg_statVar (s : StatVar ℕ (FV ℚ)) (h : "x" ∈ s.arr.dims) :
    selAgg.aggregateStatVar s = .ok (some (sumDims ["x"] (selAgg.applyMask s).1, sumDims ["x"] (selAgg.applyMask s).2)) := by
  obtain ⟨h1, h2⟩ := applyMask_dims selAgg s h
  rw [aggregateStatVar_eq, selAgg_fn _ h1, selAgg_fn _ h2]
  rfl

theorem selMask_ne : ¬ selMask.Equals selMask' := by
  intro h
  have := h.2.2 (fun d => if d = "x" then 1 else 2) (by
    intro d hd
    simp only [selMask, Finset.mem_insert, Finset.mem_singleton] at hd ⊢
    rcases hd with rfl | rfl <;> simp)
  simp [selMask, selMask'] at this

theorem sel_agree : AgreeAtLabels "lead_time" {1} [("v", (⟨selT, some selMask⟩ : StatVar ℕ (FV ℚ)))] [("v", ⟨selT, some selMask'⟩)] := by
  intro v
  apply item_forall₂
  refine .cons ⟨rfl, ⟨.refl _, .some ⟨rfl, fun _ _ => rfl, ?_⟩⟩⟩ .nil
  intro e he
  have h := he "lead_time" (by simp [selMask, DA.restrict])
  simp [selMask, DA.restrict] at h
  simp [selMask, selMask', DA.restrict, h]

/-- **C100** (finding) Masks that disagree at *another* lead time change the score: the mask coordinate of the statistic is dropped everywhere when the masks of
predictions and targets differ anywhere. Here two target datasets agree, values and masks, at lead time 1; the bias at lead time 1 is 0 with the one and 1/2 with
the other. -/
theorem C100_mask_conflict : ∃ (agg : Aggregator ℕ (FV ℚ)) (p t t' : Vars (StatVar ℕ (FV ℚ))) (x x' : DA ℕ (FV ℚ)) (e : Dim → ℕ),
    agg.Local "lead_time" ∧ "lead_time" ∉ agg.reduceDims ∧ AgreeAtLabels "lead_time" {1} t t' ∧ ValueOf errorStatistic.toMetric agg p t "v" x ∧ ValueOf errorStatistic.toMetric agg p t' "v" x' ∧
    e "lead_time" = 1 ∧ x.val e = .fin 0 ∧ x'.val e = .fin (1 / 2) := by
  have hd : ∀ m : DA ℕ Bool, "x" ∈ (error (⟨selP, some selMask⟩ : StatVar ℕ (FV ℚ)) ⟨selT, some m⟩).arr.dims := by
    intro m; simp [error, StatVar.zipWith, DA.zipWith, selP]
  have e1 : error (⟨selP, some selMask⟩ : StatVar ℕ (FV ℚ)) ⟨selT, some selMask⟩ = ⟨DA.zipWith (· - ·) selP selT, some selMask⟩ := by
    simp only [error, StatVar.zipWith, combineMask, if_pos (equals_iff.mpr (DA.Same.refl selMask))]
  have e2 : error (⟨selP, some selMask⟩ : StatVar ℕ (FV ℚ)) ⟨selT, some selMask'⟩ = ⟨DA.zipWith (· - ·) selP selT, none⟩ := by
    simp only [error, StatVar.zipWith, combineMask, if_neg selMask_ne]
  have v1 := exists_value "Error" error selAgg "v" (⟨selP, some selMask⟩ : StatVar ℕ (FV ℚ)) ⟨selT, some selMask⟩ (selAgg_statVar _ (hd _))
  have v2 := exists_value "Error" error selAgg "v" (⟨selP, some selMask⟩ : StatVar ℕ (FV ℚ)) ⟨selT, some selMask'⟩ (selAgg_statVar _ (hd _))
  refine ⟨selAgg, _, _, _, _, _, fun _ => 1, ⟨by simp [selAgg], by simp [selAgg]⟩, by simp [selAgg], sel_agree, v1, v2, rfl, ?_, ?_⟩
  · clear v1 v2
    rw [e1]
    simp [selAgg, applyMask, sumDims, sumDim, DA.zipWith, DA.where_, DA.map, DA.broadcastLike, joinCoords, selP, selT, selMask, setLabel, boolToV, FV.zero_def, FV.one_def]
    rw [FV.fin_div_fin_of_ne _ one_ne_zero, div_one]
  · clear v1 v2
    rw [e2]
    simp [selAgg, applyMask, sumDims, sumDim, DA.zipWith, DA.map, joinCoords, selP, selT, setLabel, FV.one_def, two_smul]
    rw [FV.fin_div_fin_of_ne _ (by norm_num)]
    norm_num

/-! ### The theorems apply -/

/-- The example evaluation (area weights, regions): the root mean squared error of some lead times only is these lead times' part of the root mean squared error. -/
example {L : Type} [LinearOrder L] [AddCommGroup L] [IsOrderedAddMonoid L] {name : String → L} (hname : name "global" ≠ name "northern-hemisphere") (order : List L) (degrees : L → ℝ)
    {p t : Vars (StatVar L (FV ℝ))} (hc : Chunkable "lead_time" p t) (S : Finset L) {out : Vars (DA L (FV ℝ))} (h : metricAlone rmse (Example.defaultAgg name order degrees) p t = .ok out) :
    ∃ out', metricAlone rmse (Example.defaultAgg name order degrees) (chunkVars "lead_time" S p) (chunkVars "lead_time" S t) = .ok out' ∧
      VarsSame out' (selectLabels "lead_time" S out) :=
  C100_select (Example.defaultAgg_local hname order degrees (Or.inr rfl)) (by simp [Example.defaultAgg]) C100_rmse hc S h

/-- Loaded data, with a missing observation: the data that the selection theorem needs. -/
example : Chunkable "lead_time" [("t2m", exLoadedP)] [("t2m", exLoadedT)] ∧ exInitAgg.Local "lead_time" ∧ exInitAgg.RespectsSame ∧ "lead_time" ∉ exInitAgg.reduceDims ∧
    ∃ x, ValueOf absoluteErrorStatistic.toMetric exInitAgg [("t2m", exLoadedP)] [("t2m", exLoadedT)] "t2m" x := by
  refine ⟨exChunkable _ (Or.inr rfl), ⟨by simp [exInitAgg], by simp [exInitAgg]⟩, ⟨by simp [exInitAgg], by simp [exInitAgg]⟩, by simp [exInitAgg], ?_⟩
  obtain ⟨q, hq⟩ := exists_aggregate exInitAgg rfl (absoluteError exLoadedP exLoadedT) (by
    intro d hd
    have := exAbs_dims
    unfold exAbs at this
    rw [this]
    simp [exInitAgg] at hd
    simp [hd])
  exact ⟨_, exists_value "AbsoluteError" absoluteError exInitAgg "t2m" exLoadedP exLoadedT hq⟩

/-- Two target datasets that agree at lead time 1: the mean absolute error at lead time 1 is the same. -/
example {p t t' : Vars (StatVar ℕ (FV ℚ))} (hc : Chunkable "lead_time" p t) (hc' : Chunkable "lead_time" p t') (hp : IsDict p) (ht : IsDict t) (ht' : IsDict t')
    (h : AgreeAtLabels "lead_time" {1} t t') {out out' : Vars (DA ℕ (FV ℚ))} (ho : metricAlone absoluteErrorStatistic.toMetric exInitAgg p t = .ok out)
    (ho' : metricAlone absoluteErrorStatistic.toMetric exInitAgg p t' = .ok out') : ScoresAgree "lead_time" {1} out out' := by
  refine C100_no_leakage ⟨by simp [exInitAgg], by simp [exInitAgg]⟩ ⟨by simp [exInitAgg], by simp [exInitAgg]⟩ (by simp [exInitAgg]) C100_deterministic.2.1 ?_ hc hc' hp hp ht ht' ?_ h ho ho'
  · intro ks hks
    simp only [Statistic.toMetric, List.mem_singleton] at hks
    subst hks
    exact respects_deterministic.2.1
  · intro v
    cases pyGet? v (chunkVars "lead_time" {1} p) with
    | none => exact .none
    | some a => exact .some (.refl a)

/-- Such datasets exist: another observation at lead time 2. -/
example : ∃ t t' : DA ℕ (FV ℚ), AgreeAtLabels "lead_time" {1} [("v", (⟨t, none⟩ : StatVar ℕ (FV ℚ)))] [("v", ⟨t', none⟩)] ∧ t.val (fun _ => 2) ≠ t'.val (fun _ => 2) := by
  refine ⟨selT, { selT with val := fun e => if e "lead_time" = 2 then .fin 7 else .fin 0 }, ?_, by simp [selT]⟩
  intro v
  apply item_forall₂
  refine .cons ⟨rfl, ⟨⟨rfl, fun _ _ => rfl, ?_⟩, .none⟩⟩ .nil
  intro e he
  have h := he "lead_time" (by simp [selT, StatVar.chunk, DA.restrict])
  simp [selT, StatVar.chunk, DA.restrict] at h
  simp [selT, StatVar.chunk, DA.restrict, h]

/-- The critical success index of three thresholds, looked at for one of them. -/
example {L K : Type} [DecidableEq L] [Field K] [LinearOrder K] [IsStrictOrderedRing K] {label : FV K → L} (hl : Function.Injective label) {p t : Vars (StatVar L (FV K))} (hp : IsDict p) (ht : IsDict t)
    (hnp : ∀ v x, (v, x) ∈ p → NewDim "threshold" x ∧ x.mask = none) (hnt : ∀ v x, (v, x) ∈ t → NewDim "threshold" x ∧ x.mask = none) {str : FV K → String} {tr tr' : InputTransform L K}
    (h : continuousToBinary label "both" (.list [.fin 1, .fin 5, .fin 10]) "threshold" str none = .ok tr) (h' : continuousToBinary label "both" (.list [.fin 5]) "threshold" str none = .ok tr')
    {out : Vars (DA L (FV K))} (hout : metricAlone (wrappedMetric csi [tr] none) { reduceDims := ["latitude", "longitude"] } p t = .ok out) :
    ∃ out', metricAlone (wrappedMetric csi [tr'] none) { reduceDims := ["latitude", "longitude"] } p t = .ok out' ∧ VarsSame out' (selectLabels "threshold" {label (.fin 5)} out) := by
  have := C100_thresholds (agg := { reduceDims := ["latitude", "longitude"] }) (d := "threshold") ⟨by simp, by simp⟩ ⟨by simp, by simp⟩ (by simp) C100_categorical.1 (fun ks hks => (ofContingency_all.1 ks hks).respects)
    hp ht (fun v x hx => (hnp v x hx).1) (fun v x hx => (hnt v x hx).1) ⟨fun _ => ⟨∅, fun _ => ∅, fun _ => true⟩, fun v a ha => Or.inl (hnp v a ha).2, fun v a ha => Or.inl (hnt v a ha).2⟩ hl
    (ts' := [.fin 5]) (by simp) (o' := none) h h' hout
  simpa using this

end WBX
