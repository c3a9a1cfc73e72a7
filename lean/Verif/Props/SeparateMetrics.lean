import Verif.Props.Separate
import Verif.Model.Spatial
import Verif.Model.Wasserstein
import Verif.Model.RelativeIntensity
import Verif.Model.Reliability
import Verif.Model.DefinePipeline
import Verif.Props.UnitsMore

/-!
# C92 for the metrics of the library and for the wrappers
-/

namespace WBX
set_option linter.unusedSectionVars false
open Classical

section wrappers
variable {L K : Type} [DecidableEq L] [Field K] [LinearOrder K] [IsStrictOrderedRing K]

theorem mapVars_only (tr : InputTransform L K) (W : String → Bool) (xs r : Vars (StatVar L (FV K))) (h : tr.mapVars xs = .ok r) :
    tr.mapVars (onlyVars W xs) = .ok (onlyVars W r) := by
  unfold InputTransform.mapVars at h ⊢
  refine onlyVars_mapM W _ _ xs r (fun x _ y hy => ?_) (fun x _ _ => rfl) h
  obtain ⟨a, -, hy⟩ := bind_pair_ok _ _ _ hy
  simp only [pure, Except.pure, Except.ok.injEq] at hy
  rw [← hy]

theorem mapVars_isolated (tr : InputTransform L K) (xs : Vars (StatVar L (FV K))) (h : ∀ v, ∃ r, tr.mapVars (justVar v xs) = .ok r) :
    ∃ r, tr.mapVars xs = .ok r := by
  unfold InputTransform.mapVars at h ⊢
  refine mapM_ok_of_mem _ _ (fun x hx => ?_)
  obtain ⟨r, hr⟩ := h x.1
  exact mapM_ok_mem _ _ _ hr x (by unfold justVar; exact onlyVars_mem.mpr ⟨hx, by simp⟩)

/-- One side of the inputs of a wrapped statistic. -/
def sideOf (b : Bool) (tr : InputTransform L K) (xs : Vars (StatVar L (FV K))) : Except Err (Vars (StatVar L (FV K))) :=
  if b then tr.mapVars xs else .ok xs

theorem wrapped_eq (s : FStatistic L K) (tr : InputTransform L K) (p t : Vars (StatVar L (FV K))) :
    (wrappedStatistic s tr).compute p t = (do
      let p' ← sideOf (decide (tr.which = "predictions" ∨ tr.which = "both")) tr p
      let t' ← sideOf (decide (tr.which = "targets" ∨ tr.which = "both")) tr t
      s.compute p' t') := by
  unfold wrappedStatistic sideOf
  by_cases h1 : tr.which = "predictions" ∨ tr.which = "both" <;> by_cases h2 : tr.which = "targets" ∨ tr.which = "both" <;>
    simp only [h1, h2, decide_true, decide_false, if_true, if_false, Bool.false_eq_true]

theorem sideOf_only (b : Bool) (tr : InputTransform L K) (W : String → Bool) (xs r : Vars (StatVar L (FV K)))
    (h : sideOf b tr xs = .ok r) : sideOf b tr (onlyVars W xs) = .ok (onlyVars W r) := by
  unfold sideOf at h ⊢
  cases b
  · simp only [Bool.false_eq_true, if_false, Except.ok.injEq] at h ⊢
    rw [h]
  · simp only [if_true] at h ⊢
    exact mapVars_only tr W xs r h

theorem sideOf_isolated (b : Bool) (tr : InputTransform L K) (xs : Vars (StatVar L (FV K))) (h : ∀ v, ∃ r, sideOf b tr (justVar v xs) = .ok r) :
    ∃ r, sideOf b tr xs = .ok r := by
  unfold sideOf at h ⊢
  cases b
  · exact ⟨xs, rfl⟩
  · simp only [if_true] at h ⊢
    exact mapVars_isolated tr xs h

theorem separate_wrapped (s : FStatistic L K) (tr : InputTransform L K) (h : s.Separate) : (wrappedStatistic s tr).Separate := by
  intro W p t r hr
  rw [wrapped_eq] at hr ⊢
  obtain ⟨p', hp, hr⟩ := bind_pair_ok _ _ _ hr
  obtain ⟨t', ht, hr⟩ := bind_pair_ok _ _ _ hr
  rw [sideOf_only _ tr W p p' hp]
  simp only [bind, Except.bind]
  rw [sideOf_only _ tr W t t' ht]
  exact h W p' t' r hr

theorem isolated_wrapped (s : FStatistic L K) (tr : InputTransform L K) (h : s.Isolated) : (wrappedStatistic s tr).Isolated := by
  intro p t hv
  have hp : ∃ p', sideOf (decide (tr.which = "predictions" ∨ tr.which = "both")) tr p = .ok p' := by
    refine sideOf_isolated _ tr p (fun v => ?_)
    obtain ⟨r, hr⟩ := hv v
    rw [wrapped_eq] at hr
    obtain ⟨p', hp, -⟩ := bind_pair_ok _ _ _ hr
    exact ⟨p', hp⟩
  have ht : ∃ t', sideOf (decide (tr.which = "targets" ∨ tr.which = "both")) tr t = .ok t' := by
    refine sideOf_isolated _ tr t (fun v => ?_)
    obtain ⟨r, hr⟩ := hv v
    rw [wrapped_eq] at hr
    obtain ⟨p', -, hr⟩ := bind_pair_ok _ _ _ hr
    obtain ⟨t', ht, -⟩ := bind_pair_ok _ _ _ hr
    exact ⟨t', ht⟩
  obtain ⟨p', hp⟩ := hp
  obtain ⟨t', ht⟩ := ht
  rw [wrapped_eq, hp]
  simp only [bind, Except.bind]
  rw [ht]
  refine h p' t' (fun v => ?_)
  obtain ⟨r, hr⟩ := hv v
  rw [wrapped_eq] at hr
  unfold justVar at hr
  rw [sideOf_only _ tr _ p p' hp] at hr
  simp only [bind, Except.bind] at hr
  rw [sideOf_only _ tr _ t t' ht] at hr
  exact ⟨r, hr⟩

theorem separate_renamed (s : FStatistic L K) (n : String) (h : s.Separate) : (renamedStatistic s n).Separate := h
theorem isolated_renamed (s : FStatistic L K) (n : String) (h : s.Isolated) : (renamedStatistic s n).Isolated := h

theorem separate_wrapAll (trs : List (InputTransform L K)) (suffix : Option String) (s : FStatistic L K) (h : s.Separate) :
    (wrapAll trs suffix s).Separate := by
  have key : ∀ (l : List (InputTransform L K)) (s : FStatistic L K), s.Separate → (l.foldl wrappedStatistic s).Separate := by
    intro l
    induction l with
    | nil => intro s h; exact h
    | cons tr l ih => intro s h; exact ih _ (separate_wrapped s tr h)
  unfold wrapAll
  cases suffix with
  | none => exact key _ s h
  | some x => exact separate_renamed _ _ (key _ s h)

theorem isolated_wrapAll (trs : List (InputTransform L K)) (suffix : Option String) (s : FStatistic L K) (h : s.Isolated) :
    (wrapAll trs suffix s).Isolated := by
  have key : ∀ (l : List (InputTransform L K)) (s : FStatistic L K), s.Isolated → (l.foldl wrappedStatistic s).Isolated := by
    intro l
    induction l with
    | nil => intro s h; exact h
    | cons tr l ih => intro s h; exact ih _ (isolated_wrapped s tr h)
  unfold wrapAll
  cases suffix with
  | none => exact key _ s h
  | some x => exact isolated_renamed _ _ (key _ s h)

/-- **C92** Wrapping a metric in transforms of its inputs keeps variables separate: each transform maps every variable on its own. -/
theorem C92_wrapped (m : FMetric L K) (trs : List (InputTransform L K)) (suffix : Option String) (h : m.Apart) :
    (wrappedMetric m trs suffix).Apart := by
  obtain ⟨hs, hi⟩ := h
  refine ⟨⟨fun ks hks => ?_, hs.2⟩, ⟨fun ks hks => ?_, hi.2⟩⟩
  · obtain ⟨ks', h', rfl⟩ := List.mem_map.mp hks
    exact separate_wrapAll trs suffix _ (hs.1 ks' h')
  · obtain ⟨ks', h', rfl⟩ := List.mem_map.mp hks
    exact isolated_wrapAll trs suffix _ (hi.1 ks' h')

theorem onlyVars_comm {α : Type} (W U : String → Bool) (xs : Vars α) : onlyVars U (onlyVars W xs) = onlyVars W (onlyVars U xs) := by
  unfold onlyVars
  rw [List.filter_filter, List.filter_filter]
  exact List.filter_congr (fun x _ => Bool.and_comm _ _)

theorem subselect_eq (vars : List String) (s : FStatistic L K) (p t : Vars (StatVar L (FV K))) :
    (subselectStatistic vars s).compute p t = s.compute (onlyVars (fun k => decide (k ∈ vars)) p) (onlyVars (fun k => decide (k ∈ vars)) t) := rfl

/-- **C92** Selecting variables for a metric keeps them separate. -/
theorem C92_subselect (vars : List String) (m : FMetric L K) (h : m.Apart) :
    (subselectVariables vars m).Apart := by
  obtain ⟨hs, hi⟩ := h
  refine ⟨⟨fun ks hks => ?_, hs.2⟩, ⟨fun ks hks => ?_, hi.2⟩⟩
  · obtain ⟨ks', h', rfl⟩ := List.mem_map.mp hks
    intro W p t r hr
    rw [subselect_eq] at hr ⊢
    rw [onlyVars_comm W, onlyVars_comm W]
    exact hs.1 ks' h' W _ _ r hr
  · obtain ⟨ks', h', rfl⟩ := List.mem_map.mp hks
    intro p t hv
    rw [subselect_eq]
    refine hi.1 ks' h' _ _ (fun v => ?_)
    obtain ⟨r, hr⟩ := hv v
    rw [subselect_eq] at hr
    unfold justVar at hr ⊢
    rw [onlyVars_comm, onlyVars_comm _ _ t] at hr
    exact ⟨r, hr⟩

theorem each_name (d : Dim) (skipna : Bool) (x y : String × Option (StatVar L (FV K)))
    (h : (match x.2 with
        | none => (.ok (x.1, none) : Except Err (String × Option (StatVar L (FV K))))
        | some a => do
          let a' ← a.meanDim skipna d
          return (x.1, some a')) = .ok y) : y.1 = x.1 := by
  obtain ⟨k, x⟩ := x
  rcases x with _ | a
  · simp only [Except.ok.injEq] at h; rw [← h]
  · obtain ⟨a', -, h⟩ := bind_pair_ok _ _ _ h
    simp only [pure, Except.pure, Except.ok.injEq] at h
    rw [← h]

/-- **C92** Averaging a metric's statistics over the members keeps variables separate. -/
theorem C92_each_member (d : Dim) (skipna : Bool) (m : FMetric L K) (h : m.Apart) :
    (ensembleAveragedMetric d skipna m).Apart := by
  obtain ⟨hs, hi⟩ := h
  refine ⟨⟨fun ks hks => ?_, hs.2⟩, ⟨fun ks hks => ?_, hi.2⟩⟩
  · obtain ⟨ks', h', rfl⟩ := List.mem_map.mp hks
    intro W p t r hr
    unfold ensembleAveragedStatistic at hr ⊢
    obtain ⟨y, hy, hr⟩ := bind_pair_ok _ _ _ hr
    simp only [hs.1 ks' h' W p t y hy, bind, Except.bind]
    exact onlyVars_mapM W _ _ y r (fun x _ z hz => each_name d skipna x z hz) (fun x _ _ => rfl) hr
  · obtain ⟨ks', h', rfl⟩ := List.mem_map.mp hks
    intro p t hv
    unfold ensembleAveragedStatistic at hv ⊢
    obtain ⟨y, hy⟩ := hi.1 ks' h' p t (fun v => by
      obtain ⟨r, hr⟩ := hv v
      obtain ⟨y, hy, -⟩ := bind_pair_ok _ _ _ hr
      exact ⟨y, hy⟩)
    simp only [hy, bind, Except.bind]
    refine mapM_ok_of_mem _ _ (fun x hx => ?_)
    obtain ⟨r, hr⟩ := hv x.1
    unfold justVar at hr
    simp only [hs.1 ks' h' _ p t y hy, bind, Except.bind] at hr
    exact mapM_ok_mem _ _ _ hr x (onlyVars_mem.mpr ⟨hx, by simp⟩)

/-! ### The kinds of statistics -/

theorem separate_statOf (name : String) (f : StatVar L (FV K) → StatVar L (FV K) → StatVar L (FV K)) :
    (statOf name f).Apart := ⟨separate_perVariable _ _, isolated_perVariable _ _⟩

theorem separate_statOfE (name : String) (f : StatVar L (FV K) → StatVar L (FV K) → Except Err (StatVar L (FV K))) :
    (statOfE name f).Apart := ⟨separate_perVariable _ _, isolated_perVariable _ _⟩

theorem climLoop_name (align : StatVar L (FV K) → StatVar L (FV K) → Except Err (StatVar L (FV K)))
    (f : StatVar L (FV K) → StatVar L (FV K) → StatVar L (FV K) → Except Err (StatVar L (FV K))) (t cs : Vars (StatVar L (FV K)))
    (x : String × StatVar L (FV K)) (y : String × Option (StatVar L (FV K)))
    (h : (do
      let b ← pyItem t x.1
      let c ← pyItem cs x.1
      let al ← align x.2 c
      let s ← f x.2 b al
      return (x.1, some s) : Except Err (String × Option (StatVar L (FV K)))) = .ok y) : y.1 = x.1 := by
  obtain ⟨_, -, h⟩ := bind_pair_ok _ _ _ h
  obtain ⟨_, -, h⟩ := bind_pair_ok _ _ _ h
  obtain ⟨_, -, h⟩ := bind_pair_ok _ _ _ h
  obtain ⟨_, -, h⟩ := bind_pair_ok _ _ _ h
  simp only [pure, Except.pure, Except.ok.injEq] at h
  rw [← h]

theorem climItems_name (clims : Vars (StatVar L (FV K))) (x y : String × StatVar L (FV K))
    (h : (do let c ← pyItem clims x.1; return (x.1, c) : Except Err (String × StatVar L (FV K))) = .ok y) : y.1 = x.1 := by
  obtain ⟨_, -, h⟩ := bind_pair_ok _ _ _ h
  simp only [pure, Except.pure, Except.ok.injEq] at h
  rw [← h]

theorem separate_withClimatologyE (name : String) (clims : Vars (StatVar L (FV K)))
    (align : StatVar L (FV K) → StatVar L (FV K) → Except Err (StatVar L (FV K)))
    (f : StatVar L (FV K) → StatVar L (FV K) → StatVar L (FV K) → Except Err (StatVar L (FV K))) :
    (withClimatologyE name clims align f).Apart := by
  have hsep : ∀ (W : String → Bool) (p : Vars (StatVar L (FV K))) (cs : Vars (StatVar L (FV K))),
      p.mapM (fun kv => (do let x ← pyItem clims kv.1; return (kv.1, x) : Except Err (String × StatVar L (FV K)))) = .ok cs →
      (onlyVars W p).mapM (fun kv => (do let x ← pyItem clims kv.1; return (kv.1, x) : Except Err (String × StatVar L (FV K)))) = .ok (onlyVars W cs) :=
    fun W p cs h => onlyVars_mapM W _ _ p cs (fun x _ y hy => climItems_name clims x y hy) (fun _ _ _ => rfl) h
  constructor
  · intro W p t r hr
    unfold withClimatologyE at hr ⊢
    obtain ⟨cs, hcs, hr⟩ := bind_pair_ok _ _ _ hr
    simp only [bind, Except.bind] at hsep ⊢
    rw [hsep W p cs hcs]
    refine onlyVars_mapM W _ _ p r (fun x _ y hy => climLoop_name align f t cs x y hy) (fun x _ hW => ?_) hr
    rw [onlyVars_item_in W x.1 hW, onlyVars_item_in W x.1 hW]
    rfl
  · intro p t hv
    unfold withClimatologyE at hv ⊢
    have hcs : ∃ cs, p.mapM (fun kv => (do let x ← pyItem clims kv.1; return (kv.1, x) : Except Err (String × StatVar L (FV K)))) = .ok cs := by
      refine mapM_ok_of_mem _ _ (fun x hx => ?_)
      obtain ⟨r, hr⟩ := hv x.1
      obtain ⟨cs, hcs, -⟩ := bind_pair_ok _ _ _ hr
      exact mapM_ok_mem _ _ _ hcs x (by unfold justVar; exact onlyVars_mem.mpr ⟨hx, by simp⟩)
    obtain ⟨cs, hcs⟩ := hcs
    have hex : ∃ r, p.mapM (fun kv => (do
      let b ← pyItem t kv.1
      let c ← pyItem cs kv.1
      let al ← align kv.2 c
      let s ← f kv.2 b al
      return (kv.1, some s) : Except Err (String × Option (StatVar L (FV K))))) = .ok r := by
      refine mapM_ok_of_mem _ _ (fun x hx => ?_)
      obtain ⟨r, hr⟩ := hv x.1
      obtain ⟨cs', hcs', hr⟩ := bind_pair_ok _ _ _ hr
      unfold justVar at hcs' hr
      rw [hsep _ p cs hcs] at hcs'
      rw [← Except.ok.inj hcs'] at hr
      obtain ⟨y, hy⟩ := mapM_ok_mem _ _ _ hr x (onlyVars_mem.mpr ⟨hx, by simp⟩)
      rw [onlyVars_item_in _ x.1 (by simp), onlyVars_item_in _ x.1 (by simp)] at hy
      exact ⟨y, hy⟩
    obtain ⟨r, hr⟩ := hex
    refine ⟨r, ?_⟩
    dsimp only
    rw [hcs]
    exact hr

/-! ### The metrics of the library -/

theorem apart_perVariableMetric (statistics : List (String × FStatistic L K)) (g : List (String × DA L (FV K)) → Except Err (DA L (FV K)))
    (h : ∀ ks ∈ statistics, ks.2.Apart) : (perVariableMetric statistics g : FMetric L K).Apart :=
  ⟨separate_perVariableMetric _ g (fun ks hks => (h ks hks).1), isolated_perVariableMetric _ g (fun ks hks => (h ks hks).2)⟩

theorem apart_toMetric (s : FStatistic L K) (h : s.Apart) : (s.toMetric : FMetric L K).Apart :=
  ⟨separate_toMetric s h.1, isolated_toMetric s h.2⟩

theorem apart_wrapped (s : FStatistic L K) (tr : InputTransform L K) (h : s.Apart) : (wrappedStatistic s tr).Apart :=
  ⟨separate_wrapped s tr h.1, isolated_wrapped s tr h.2⟩

theorem apart_metric1 (s1 : String × FStatistic L K) (f : DA L (FV K) → DA L (FV K)) (h1 : s1.2.Apart) : (metric1 s1 f).Apart :=
  apart_perVariableMetric _ _ (fun ks hks => by
    simp only [List.mem_singleton] at hks
    subst hks; exact h1)

theorem apart_metric2 (s1 s2 : String × FStatistic L K) (f : DA L (FV K) → DA L (FV K) → DA L (FV K)) (h1 : s1.2.Apart) (h2 : s2.2.Apart) :
    (metric2 s1 s2 f).Apart :=
  apart_perVariableMetric _ _ (fun ks hks => by
    simp only [List.mem_cons, List.not_mem_nil, or_false] at hks
    rcases hks with rfl | rfl <;> assumption)

theorem apart_metric3 (s1 s2 s3 : String × FStatistic L K) (f : DA L (FV K) → DA L (FV K) → DA L (FV K) → DA L (FV K))
    (h1 : s1.2.Apart) (h2 : s2.2.Apart) (h3 : s3.2.Apart) : (metric3 s1 s2 s3 f).Apart :=
  apart_perVariableMetric _ _ (fun ks hks => by
    simp only [List.mem_cons, List.not_mem_nil, or_false] at hks
    rcases hks with rfl | rfl | rfl <;> assumption)

theorem apart_metric4 (s1 s2 s3 s4 : String × FStatistic L K)
    (f : DA L (FV K) → DA L (FV K) → DA L (FV K) → DA L (FV K) → DA L (FV K))
    (h1 : s1.2.Apart) (h2 : s2.2.Apart) (h3 : s3.2.Apart) (h4 : s4.2.Apart) : (metric4 s1 s2 s3 s4 f).Apart :=
  apart_perVariableMetric _ _ (fun ks hks => by
    simp only [List.mem_cons, List.not_mem_nil, or_false] at hks
    rcases hks with rfl | rfl | rfl | rfl <;> assumption)

/-- **C92** The contingency-table metrics treat variables separately. -/
theorem C92_categorical : (csi : FMetric L K).Apart ∧ (accuracy : FMetric L K).Apart ∧ (recall : FMetric L K).Apart ∧
    (falseAlarmRate : FMetric L K).Apart ∧ (precision : FMetric L K).Apart ∧ (f1Score : FMetric L K).Apart ∧
    (frequencyBias : FMetric L K).Apart ∧ (hss : FMetric L K).Apart ∧ (ets : FMetric L K).Apart ∧
    ∀ binDim, ((rpsStatistic binDim).toMetric : FMetric L K).Apart := by
  have h1 : (tpStatistic : FStatistic L K).Apart := separate_statOf _ _
  have h2 : (tnStatistic : FStatistic L K).Apart := separate_statOf _ _
  have h3 : (fpStatistic : FStatistic L K).Apart := separate_statOf _ _
  have h4 : (fnStatistic : FStatistic L K).Apart := separate_statOf _ _
  refine ⟨?_, ?_, ?_, ?_, ?_, ?_, ?_, ?_, ?_, fun binDim => apart_toMetric _ ⟨separate_perVariable _ _, isolated_perVariable _ _⟩⟩
  · exact apart_metric3 _ _ _ _ h1 h3 h4
  · unfold accuracy; first | exact apart_metric4 _ _ _ _ _ h1 h3 h4 h2 | exact apart_metric4 _ _ _ _ _ (by assumption) (by assumption) (by assumption) (by assumption)
  · exact apart_metric2 _ _ _ h1 h4
  · unfold falseAlarmRate; exact apart_metric2 _ _ _ (by assumption) (by assumption)
  · unfold precision; exact apart_metric2 _ _ _ (by assumption) (by assumption)
  · unfold f1Score; exact apart_metric3 _ _ _ _ (by assumption) (by assumption) (by assumption)
  · unfold frequencyBias; exact apart_metric3 _ _ _ _ (by assumption) (by assumption) (by assumption)
  · unfold hss; exact apart_metric4 _ _ _ _ _ (by assumption) (by assumption) (by assumption) (by assumption)
  · unfold ets; exact apart_metric4 _ _ _ _ _ (by assumption) (by assumption) (by assumption) (by assumption)

/-- **C92** The deterministic statistics, the fractions skill score and the ensemble metrics treat variables separately. -/
theorem C92_ensemble (argsort : List (FV K) → List ℕ) (order order' : List L) (d : Dim) (useSort fair skipna : Bool) (number : ℕ → L)
    (th : DA L (FV K)) (g : Grid L) (int : ℤ → L) (wrap : Bool) (sizes : Sizes) :
    (errorStatistic.toMetric : FMetric L K).Apart ∧ (absoluteErrorStatistic.toMetric : FMetric L K).Apart ∧
    (squaredErrorStatistic.toMetric : FMetric L K).Apart ∧ ((errorExceedanceStatistic th).toMetric : FMetric L K).Apart ∧
    (crpsEnsemble argsort order d useSort fair skipna : FMetric L K).Apart ∧
    (crpsEnsembleDistance argsort order order' d useSort fair skipna : FMetric L K).Apart ∧
    ((ensembleVarianceStatistic d skipna).toMetric : FMetric L K).Apart ∧ ((unbiasedMSEStatistic d skipna).toMetric : FMetric L K).Apart ∧
    ((rankHistogramStatistic number d).toMetric : FMetric L K).Apart ∧ ((wassersteinStatistic d).toMetric : FMetric L K).Apart ∧
    (fss g int wrap sizes : FMetric L K).Apart := by
  have hE : ∀ (name : String) (f : StatVar L (FV K) → StatVar L (FV K) → Except Err (StatVar L (FV K))), (statOfE name f).Apart :=
    separate_statOfE
  exact ⟨apart_toMetric _ (separate_statOf _ _), apart_toMetric _ (separate_statOf _ _), apart_toMetric _ (separate_statOf _ _),
    apart_toMetric _ (separate_statOf _ _), apart_metric2 _ _ _ (hE _ _) (hE _ _), apart_metric3 _ _ _ _ (hE _ _) (hE _ _) (hE _ _),
    apart_toMetric _ (hE _ _), apart_toMetric _ (hE _ _), apart_toMetric _ (hE _ _), apart_toMetric _ (hE _ _),
    apart_metric3 _ _ _ _ (hE _ _) (hE _ _) (hE _ _)⟩

/-- **C92** The relative economic value, with optimal thresholds looked up under the name of each variable, treats them separately. -/
theorem C92_economic_value (label : FV K → L) (ts : List K) (suffix : String) (ratio : DA L (FV K)) (opt : OptimalArg L K) (nearest : Bool) :
    (economicValueMetric label ts suffix ratio opt nearest).Apart := by
  have h : ∀ ks ∈ (economicValueMetric label ts suffix ratio opt nearest).statistics, ks.2.Apart := by
    intro ks hks
    simp only [economicValueMetric, relativeEconomicValue, perVariableMetric, List.mem_cons, List.not_mem_nil, or_false] at hks
    rcases hks with rfl | rfl | rfl | rfl <;> exact apart_wrapped _ _ (separate_statOf _ _)
  exact ⟨⟨fun ks hks => (h ks hks).1, fun W sv r hr => perVariableNamedValues_only _ _ W sv r hr⟩,
    ⟨fun ks hks => (h ks hks).2, fun sv hsv => perVariableNamedValues_isolated _ _ sv hsv⟩⟩

/-! ### Metrics that read several variables -/

theorem windLoop_only (W : String → Bool) (p t : Vars (StatVar L (FV K))) : (vs : List (String × String × String)) →
    (∀ x ∈ vs, W x.1 = true ∧ W x.2.1 = true) → ∀ out, windLoop (onlyVars W p) (onlyVars W t) vs out = windLoop p t vs out
  | [], _, out => rfl
  | (u, v, vector) :: vs, h, out => by
    obtain ⟨hu, hv⟩ := h (u, v, vector) (by simp)
    have ih := windLoop_only W p t vs (fun x hx => h x (by simp [hx]))
    simp only at hu hv
    simp only [windLoop, onlyVars_item_in W u hu, onlyVars_item_in W v hv, ih]

/-- **C92** A wind vector metric reads the components it is configured with and nothing else: with any selection of the variables
that contains them its statistic is the same, and raises the same. -/
theorem C92_wind (u v vector : List String) (s : FStatistic L K) (hs : windVectorSquaredError u v vector = .ok s) (W : String → Bool)
    (hW : ∀ n ∈ u ++ v, W n = true) (p t : Vars (StatVar L (FV K))) : s.compute (onlyVars W p) (onlyVars W t) = s.compute p t := by
  unfold windVectorSquaredError at hs
  obtain ⟨vs, hvs, hs⟩ := bind_pair_ok _ _ _ hs
  simp only [pure, Except.pure, Except.ok.injEq] at hs
  subst hs
  unfold windVectors at hvs
  split_ifs at hvs
  simp only [Except.ok.injEq] at hvs
  subst hvs
  refine windLoop_only W p t _ (fun x hx => ?_) []
  obtain ⟨a, b, c⟩ := x
  have h1 := List.of_mem_zip hx
  have h2 := List.of_mem_zip h1.2
  exact ⟨hW a (by simp [h1.1]), hW b (by simp [h2.1])⟩

/-- **C92** ★ Variables are therefore not separate in a wind vector metric: leaving out one component of a configured vector raises
a `KeyError`, whatever else there is. -/
theorem C92_wind_component (u v vector : String) (s : FStatistic L K) (hs : windVectorSquaredError [u] [v] [vector] = .ok s)
    (p t : Vars (StatVar L (FV K))) (hv : v ∉ p.map Prod.fst) : s.compute p t = .error .keyError := by
  have : s.compute p t = windLoop p t [(u, v, vector)] [] := by
    unfold windVectorSquaredError windVectors at hs
    rw [if_pos ⟨rfl, rfl⟩] at hs
    simp only [bind, Except.bind, pure, Except.pure, Except.ok.injEq] at hs
    subst hs; rfl
  rw [this, windLoop]
  have hn : pyGet? v p = none := (pyGet?_none_iff v p).mpr hv
  unfold pyItem
  rcases pyGet? u p with _ | x
  · rfl
  · rw [hn]; rfl

theorem onlyVars_insert {α : Type} (W : String → Bool) (k : String) (x : α) : (l : Vars α) →
    onlyVars W (pyInsert k x l) = if W k then pyInsert k x (onlyVars W l) else onlyVars W l
  | [] => by
    simp only [pyInsert, onlyVars_cons, onlyVars_nil]
  | (k', y) :: l => by
    rw [pyInsert]
    by_cases hk : k' = k
    · subst hk
      rw [if_pos rfl, onlyVars_cons, onlyVars_cons]
      split_ifs with hW
      · rw [pyInsert, if_pos rfl]
      · rfl
    · rw [if_neg hk, onlyVars_cons, onlyVars_cons, onlyVars_insert W k x l]
      by_cases hW : W k = true <;> by_cases hW' : W k' = true
      · rw [if_pos hW, if_pos hW, if_pos hW', if_pos hW', pyInsert, if_neg hk]
      · rw [if_pos hW, if_pos hW, if_neg hW', if_neg hW']
      · rw [if_neg hW, if_neg hW]
      · rw [if_neg hW, if_neg hW]

theorem seepsLoop_agree (clim : Vars (SeepsClimatology L K)) (select : StatVar L (FV K) → DA L (FV K) → Except Err (DA L (FV K)))
    (meanP1 : DA L (FV K) → Except Err (DA L (FV K))) (W : String → Bool) (p t p' t' : Vars (StatVar L (FV K)))
    (hp : AgreeOn W p p') (ht : AgreeOn W t t') : (vs : List (String × K × K × K)) → ∀ out out' r r',
    AgreeOn W out out' → seepsLoop clim select meanP1 p t vs out = .ok r → seepsLoop clim select meanP1 p' t' vs out' = .ok r' →
    AgreeOn W r r'
  | [], out, out', r, r', h, hr, hr' => by
    simp only [seepsLoop, Except.ok.injEq] at hr hr'
    rw [← hr, ← hr']; exact h
  | (v, a, b, c) :: vs, out, out', r, r', h, hr, hr' => by
    rw [seepsLoop] at hr hr'
    obtain ⟨x1, e1, hr⟩ := bind_pair_ok _ _ _ hr
    obtain ⟨x2, e2, hr⟩ := bind_pair_ok _ _ _ hr
    obtain ⟨x3, e3, hr⟩ := bind_pair_ok _ _ _ hr
    obtain ⟨x4, e4, hr⟩ := bind_pair_ok _ _ _ hr
    obtain ⟨x5, e5, hr⟩ := bind_pair_ok _ _ _ hr
    obtain ⟨x6, e6, hr⟩ := bind_pair_ok _ _ _ hr
    obtain ⟨y1, f1, hr'⟩ := bind_pair_ok _ _ _ hr'
    obtain ⟨y2, f2, hr'⟩ := bind_pair_ok _ _ _ hr'
    obtain ⟨y3, f3, hr'⟩ := bind_pair_ok _ _ _ hr'
    obtain ⟨y4, f4, hr'⟩ := bind_pair_ok _ _ _ hr'
    obtain ⟨y5, f5, hr'⟩ := bind_pair_ok _ _ _ hr'
    obtain ⟨y6, f6, hr'⟩ := bind_pair_ok _ _ _ hr'
    refine seepsLoop_agree clim select meanP1 W p t p' t' hp ht vs _ _ r r' ?_ hr hr'
    unfold AgreeOn
    rw [onlyVars_insert, onlyVars_insert]
    by_cases hW : W v = true
    · have g1 : x1 = y1 := by
        rw [← onlyVars_item_in W v hW, hp, onlyVars_item_in W v hW, f1] at e1
        exact (Except.ok.inj e1).symm
      have g2 : x2 = y2 := by
        rw [← onlyVars_item_in W v hW, ht, onlyVars_item_in W v hW, f2] at e2
        exact (Except.ok.inj e2).symm
      have g3 : x3 = y3 := Except.ok.inj (e3.symm.trans f3)
      subst g1 g2 g3
      have g4 : x4 = y4 := Except.ok.inj (e4.symm.trans f4)
      have g5 : x5 = y5 := Except.ok.inj (e5.symm.trans f5)
      subst g4 g5
      have g6 : x6 = y6 := Except.ok.inj (e6.symm.trans f6)
      subst g6
      rw [if_pos hW, if_pos hW, h]
    · rw [if_neg hW, if_neg hW, h]

/-- **C92** SEEPS needs all the variables it is configured with, but the score of each depends on that variable alone. -/
theorem C92_seeps (name : String) (names : List String) (dryMm minP1 maxP1 : List K) (clim : Vars (SeepsClimatology L K))
    (select : StatVar L (FV K) → DA L (FV K) → Except Err (DA L (FV K))) (meanP1 : DA L (FV K) → Except Err (DA L (FV K)))
    (s : FStatistic L K) (hs : seeps name names dryMm minP1 maxP1 clim select meanP1 = .ok s) (W : String → Bool)
    (p t p' t' : Vars (StatVar L (FV K))) (hp : AgreeOn W p p') (ht : AgreeOn W t t') (r r' : Vars (Option (StatVar L (FV K))))
    (hr : s.compute p t = .ok r) (hr' : s.compute p' t' = .ok r') : AgreeOn W r r' := by
  unfold seeps at hs
  split_ifs at hs
  simp only [Except.ok.injEq] at hs
  subst hs
  exact seepsLoop_agree clim select meanP1 W p t p' t' hp ht _ [] [] r r' rfl hr hr'

end wrappers
section real
variable {L : Type} [DecidableEq L]

/-- **C92** The metrics with roots, logarithms and climatologies treat variables separately. -/
theorem C92_roots (clims : Vars (StatVar L (FV ℝ))) (align : StatVar L (FV ℝ) → StatVar L (FV ℝ) → Except Err (StatVar L (FV ℝ)))
    (d : Dim) (skipna : Bool) (label : ℝ → L) (fmt : ℝ → String) (o : OpportunismArgs) :
    (rmse : FMetric L ℝ).Apart ∧ (sedi : FMetric L ℝ).Apart ∧ (acc clims align).Apart ∧ (predictionActivity clims align).Apart ∧
    (unbiasedRMSE d skipna : FMetric L ℝ).Apart ∧ (spreadSkillRatio d skipna : FMetric L ℝ).Apart ∧
    (ensembleRootMeanVariance d skipna : FMetric L ℝ).Apart ∧ (opportunism label fmt clims align o).Apart := by
  have hE : ∀ (name : String) (f : StatVar L (FV ℝ) → StatVar L (FV ℝ) → Except Err (StatVar L (FV ℝ))), (statOfE name f).Apart :=
    separate_statOfE
  have hO : ∀ (name : String) (f : StatVar L (FV ℝ) → StatVar L (FV ℝ) → StatVar L (FV ℝ)), (statOf name f).Apart :=
    separate_statOf
  have hC : ∀ (name : String) f, (withClimatology name clims align f).Apart := fun name f =>
    separate_withClimatologyE name clims align (fun a b c => .ok (f a b c))
  refine ⟨?_, ?_, ?_, ?_, ?_, ?_, ?_, ?_⟩
  · exact apart_perVariableMetric _ _ (fun ks hks => by
      simp only [List.mem_singleton] at hks
      subst hks; exact hO _ _)
  · exact apart_metric4 _ _ _ _ _ (hO _ _) (hO _ _) (hO _ _) (hO _ _)
  · exact apart_perVariableMetric _ _ (fun ks hks => by
      simp only [List.mem_cons, List.not_mem_nil, or_false] at hks
      rcases hks with rfl | rfl | rfl <;> exact hC _ _)
  · exact apart_perVariableMetric _ _ (fun ks hks => by
      simp only [List.mem_singleton] at hks
      subst hks; exact hC _ _)
  · exact apart_metric1 _ _ (hE _ _)
  · exact apart_metric2 _ _ _ (hE _ _) (hE _ _)
  · exact apart_metric1 _ _ (hE _ _)
  · refine apart_perVariableMetric _ _ (fun ks hks => ?_)
    unfold opportunismStatistics at hks
    rcases List.mem_cons.mp hks with rfl | hks
    · exact separate_withClimatologyE _ _ _ _
    rcases List.mem_append.mp hks with hks | hks
    · split_ifs at hks
      · simp only [List.mem_singleton] at hks
        subst hks; exact hE _ _
      · simp at hks
    · split_ifs at hks
      · simp only [List.mem_singleton] at hks
        subst hks; exact separate_withClimatologyE _ _ _ _
      · simp at hks

end real

section dataset
variable {L V : Type} [DecidableEq L]

/-- **C92** ★ The table of results is separate, but the dataset it is written to is not: all arrays of one xarray dataset share their
labels, and an array assigned later is cut (or filled) to the labels an earlier one brought for a dimension. -/
theorem C92_dataset_labels (fill : V) (m v w : String) (hvw : v ≠ w) (a b : DA L V) (d : Dim) (hd : d ∈ a.dims) :
    ∃ x, pyGet? (m ++ "." ++ w) (alignedDataset fill [(m, [(v, a), (w, b)])]).vars = some x ∧ x.coords d = a.coords d := by
  have hne : m ++ "." ++ v ≠ m ++ "." ++ w := by
    intro h
    apply hvw
    have := congrArg String.toList h
    simp only [String.toList_append] at this
    exact String.ext (List.append_cancel_left this)
  have e : pyInsert (m ++ "." ++ v) (reindexKnown fill (fun _ => none) a) ([] : List (String × DA L V)) =
      [(m ++ "." ++ v, reindexKnown fill (fun _ => none) a)] := rfl
  refine ⟨reindexKnown fill (fun d => if d ∈ a.dims then some (a.coords d) else none) b, ?_, ?_⟩
  · simp only [alignedDataset, metricArrays, List.flatMap_cons, List.flatMap_nil, List.append_nil, List.map_cons, List.map_nil,
      List.foldl_cons, List.foldl_nil, ValuesDataset.assign, ValuesDataset.empty, e]
    rw [pyInsert, if_neg hne, pyInsert, pyGet?, if_neg hne, pyGet?, if_pos rfl]
  · simp only [reindexKnown, if_pos hd, Option.getD_some]

end dataset

/-! ### Non-vacuity -/

section example_

/-- The mean absolute error and the bias of two variables. -/
private noncomputable def two : List (String × FMetric ℕ ℚ) := [("mae", absoluteErrorStatistic.toMetric), ("bias", errorStatistic.toMetric)]

private theorem two_apart : ∀ nm ∈ two, nm.2.Apart := by
  intro nm hnm
  simp only [two, List.mem_cons, List.not_mem_nil, or_false] at hnm
  rcases hnm with rfl | rfl <;> exact apart_toMetric _ (separate_statOf _ _)

private theorem two_dicts (p t : Vars (StatVar ℕ (FV ℚ))) (hp : (p.map Prod.fst).Nodup) (ht : (t.map Prod.fst).Nodup) : ReturnDicts two p t := by
  intro s hs r hr
  simp only [two, requiredStatistics, Statistic.toMetric, List.flatMap_cons, List.flatMap_nil, List.map_cons, List.map_nil,
    List.append_nil, List.mem_append, List.mem_singleton] at hs
  rcases hs with rfl | rfl
  · exact (C21_statistic _ _ p t hp ht r hr).1
  · exact (C21_statistic _ _ p t hp ht r hr).1

/-- The table of `t2m` alone is cut out of the table of both variables. -/
example : ∃ table, metricTableForSingleChunk two exPlain [("t2m", exKelvin 1 2), ("z", exKelvin 3 4)] [("z", exKelvin 5 5), ("t2m", exKelvin 0 0)] = .ok table ∧
    table.map (fun kv => (kv.1, kv.2.map Prod.fst)) = [("mae", ["t2m", "z"]), ("bias", ["t2m", "z"])] ∧
    metricTableForSingleChunk two exPlain [("t2m", exKelvin 1 2)] [("t2m", exKelvin 0 0)] = .ok (onlyRows (fun k => decide (k = "t2m")) table) := by
  have h : ∃ table, metricTableForSingleChunk two exPlain [("t2m", exKelvin 1 2), ("z", exKelvin 3 4)] [("z", exKelvin 5 5), ("t2m", exKelvin 0 0)] = .ok table ∧
    table.map (fun kv => (kv.1, kv.2.map Prod.fst)) = [("mae", ["t2m", "z"]), ("bias", ["t2m", "z"])] := ⟨_, rfl, rfl⟩
  obtain ⟨table, h1, h2⟩ := h
  exact ⟨table, h1, h2, C92_table two exPlain (fun k => decide (k = "t2m")) _ _ (fun nm hnm => (two_apart nm hnm).1)
    (two_dicts _ _ (by decide) (by decide)) table h1⟩

end example_
end WBX
