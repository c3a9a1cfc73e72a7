import Verif.Props.UnitsMore
import Verif.Model.Wrappers

/-!
# C88: thresholded metrics under a change of units
-/

namespace WBX
set_option linter.unusedSectionVars false
open Classical

section thresholds
variable {L K : Type} [DecidableEq L] [Field K] [LinearOrder K] [IsStrictOrderedRing K]

/-- Thresholds of each variable in new units. -/
def changeThresholds (c d : String → K) (vs : Vars (DA L (FV K))) : Vars (DA L (FV K)) :=
  vs.map (fun kv => (kv.1, kv.2.map (FV.affine (c kv.1) (d kv.1))))

theorem affine_le {c : K} (hc : 0 < c) (d : K) (x y : FV K) : FV.le (FV.affine c d x) (FV.affine c d y) = FV.le x y := by
  have hn : ¬ c < 0 := not_lt.mpr hc.le
  rcases x with _ | a | a <;> rcases y with _ | b | b <;>
    simp [FV.affine_def, FV.times_nan, FV.times_inf hc.ne', FV.times_fin, FV.le, hn, hc]

theorem times_pos_iff {c : K} (hc : 0 < c) (x : FV K) : FV.lt 0 (FV.times c x) = FV.lt 0 x := by
  have hn : ¬ c < 0 := not_lt.mpr hc.le
  rcases x with _ | a | a
  · rfl
  · rw [FV.times_inf hc.ne', FV.zero_def]; simp [FV.lt, hn]
  · rw [FV.times_fin, FV.zero_def]; simp [FV.lt, hc]

theorem pyGet?_changeThresholds (c d : String → K) (vs : Vars (DA L (FV K))) (v : String) :
    pyGet? v (changeThresholds c d vs) = (pyGet? v vs).map (DA.map (FV.affine (c v) (d v))) := by
  induction vs with
  | nil => rfl
  | cons x vs ih =>
    by_cases h : x.1 = v
    · subst h; simp [changeThresholds, pyGet?]
    · simp only [changeThresholds, List.map_cons, pyGet?] at ih ⊢
      rw [if_neg h, if_neg h, ih]

/-- `x > threshold` does not depend on the unit. -/
theorem binarize_affine {c : K} (hc : 0 < c) (d : K) (th : DA L (FV K)) (x : StatVar L (FV K)) :
    binarize (th.map (FV.affine c d)) (x.map (FV.affine c d)) = binarize th x := by
  unfold binarize
  have e1 : (x.map (FV.affine c d)).zipWith (fun v h => (FV.ofBool (FV.lt h v) : FV K)) ⟨th.map (FV.affine c d), none⟩ =
      x.zipWith (fun v h => FV.ofBool (FV.lt h v)) ⟨th, none⟩ := by
    simp only [StatVar.zipWith, StatVar.map, DA.zipWith, DA.map, StatVar.mk.injEq, DA.mk.injEq, affine_lt hc]
    exact ⟨⟨trivial, rfl, trivial⟩, trivial⟩
  have e2 : (x.map (FV.affine c d)).map (fun v => !v.isnan) = x.map (fun v => !v.isnan) := by
    rw [StatVar.map_map]
    exact StatVar.map_congr' (fun v => by rw [FV.affine_isnan hc.ne']) x
  rw [e1, e2]

theorem selectThresholds_map (g g' : FV K → FV K) (tm : TimeLabels L) (th : DA L (FV K)) (x : StatVar L (FV K)) :
    selectThresholdsByTime tm (th.map g) (x.map g') = (selectThresholdsByTime tm th x).map (DA.map g) := by
  have h1 : ∀ (a : DA L (FV K)) k ds C f, (a.map g).selBy k ds C f = (a.selBy k ds C f).map (DA.map g) := fun a => DA.selBy_map g a
  unfold selectThresholdsByTime
  have hx : (x.map g').arr.dims = x.arr.dims := rfl
  have hc : (x.map g').arr.coords = x.arr.coords := rfl
  have ht : (th.map g).dims = th.dims := rfl
  simp only [hx, hc, ht, h1]
  split_ifs
  · rfl
  · rcases th.selBy "init_time" ["init_time"] x.arr.coords (fun e => e "init_time") with e | a
    · rfl
    · exact h1 a _ _ _ _
  · rcases th.selBy "lead_time" ["lead_time"] x.arr.coords (fun e => e "lead_time") with e | a
    · rfl
    · exact h1 a _ _ _ _
  · rfl
  · rfl
  · rfl
  · rfl
  · rfl

theorem computeCdf_affine {c : K} (hc : 0 < c) (o : K) (th : DA L (FV K)) (order : List L) (d : Dim) (enforce right : Bool) (x : StatVar L (FV K)) :
    computeCdf (th.map (FV.affine c o)) order d enforce right (x.map (FV.affine c o)) = computeCdf th order d enforce right x := by
  unfold computeCdf
  have hinc : increasingAlong d order (th.map (FV.affine c o)) ↔ increasingAlong d order th := by
    unfold increasingAlong
    have : ∀ a b : FV K, FV.lt 0 (FV.affine c o a - FV.affine c o b) = FV.lt 0 (a - b) := by
      intro a b
      rw [FV.affine_sub hc.ne', times_pos_iff hc]
    constructor
    · intro h e he q hq
      rw [← this]; exact h e he q hq
    · intro h e he q hq
      exact (this _ _).trans (h e he q hq)
  have e1 : (x.map (FV.affine c o)).zipWith (fun v h => (FV.ofBool (if right then FV.le v h else FV.lt v h) : FV K)) ⟨th.map (FV.affine c o), none⟩ =
      x.zipWith (fun v h => FV.ofBool (if right then FV.le v h else FV.lt v h)) ⟨th, none⟩ := by
    simp only [StatVar.zipWith, StatVar.map, DA.zipWith, DA.map, StatVar.mk.injEq, DA.mk.injEq, affine_lt hc, affine_le hc]
    exact ⟨⟨trivial, rfl, trivial⟩, trivial⟩
  have e2 : ∀ y : StatVar L (FV K), (y.map (FV.affine c o)).map (fun v => !v.isnan) = y.map (fun v => !v.isnan) := by
    intro y
    rw [StatVar.map_map]
    exact StatVar.map_congr' (fun v => by rw [FV.affine_isnan hc.ne']) y
  have e3 : (⟨th.map (FV.affine c o), none⟩ : StatVar L (FV K)) = (⟨th, none⟩ : StatVar L (FV K)).map (FV.affine c o) := rfl
  by_cases h : enforce = true ∧ ¬ increasingAlong d order th
  · rw [if_pos h, if_pos ⟨h.1, fun hh => h.2 (hinc.mp hh)⟩]
  · rw [if_neg h, if_neg (fun hh => h ⟨hh.1, fun h3 => hh.2 (hinc.mpr h3)⟩)]
    dsimp only
    rw [e1, e2, e3, e2]

theorem wrapped_both {tr : InputTransform L K} (hw : tr.which = "both") (s : FStatistic L K) (p t : Vars (StatVar L (FV K))) :
    (wrappedStatistic s tr).compute p t = (do
      let p' ← tr.mapVars p
      let t' ← tr.mapVars t
      s.compute p' t') := by
  have h1 : tr.which = "predictions" ∨ tr.which = "both" := Or.inr hw
  have h2 : tr.which = "targets" ∨ tr.which = "both" := Or.inr hw
  unfold wrappedStatistic
  dsimp only
  rw [if_pos h1]
  simp only [if_pos h2]

/-- A transformation of both sides that gives the same in new units. -/
theorem wrapped_invariant {c o : String → K} {tr tr' : InputTransform L K} (hw : tr.which = "both") (hw' : tr'.which = "both")
    (hfn : ∀ v x, tr'.fn v (x.map (FV.affine (c v) (o v))) = tr.fn v x) (m : FMetric L K) (trs : List (InputTransform L K)) (suffix : Option String)
    (agg : Aggregator L (FV K)) (p t : Vars (StatVar L (FV K))) :
    metricAlone (wrappedMetric m (tr' :: trs) suffix) agg (changeUnits c o p) (changeUnits c o t) = metricAlone (wrappedMetric m (tr :: trs) suffix) agg p t := by
  have hv : ∀ vs : Vars (StatVar L (FV K)), tr'.mapVars (changeUnits c o vs) = tr.mapVars vs := by
    intro vs
    unfold InputTransform.mapVars
    induction vs with
    | nil => rfl
    | cons x vs ih =>
      show (List.mapM _ ((x.1, x.2.map (FV.affine (c x.1) (o x.1))) :: changeUnits c o vs) : Except Err _) = _
      rw [List.mapM_cons, List.mapM_cons, ih]
      dsimp only
      rw [hfn]
  have hc : ∀ s : FStatistic L K, (wrapAll (tr' :: trs) suffix s).compute (changeUnits c o p) (changeUnits c o t) = (wrapAll (tr :: trs) suffix s).compute p t := by
    intro s
    have hcomp : ∀ (q : InputTransform L K) p t, (wrapAll (q :: trs) suffix s).compute p t = (wrappedStatistic (trs.reverse.foldl wrappedStatistic s) q).compute p t := by
      intro q p t
      unfold wrapAll
      rw [List.reverse_cons, List.foldl_append]
      cases suffix <;> rfl
    rw [hcomp, hcomp]
    rw [wrapped_both hw, wrapped_both hw', hv, hv]
  unfold metricAlone wrappedMetric
  dsimp only
  rw [List.mapM_map, List.mapM_map]
  have : ∀ l : List (String × FStatistic L K), (l.mapM ((fun ks : String × FStatistic L K => do
        let v ← ks.2.compute (changeUnits c o p) (changeUnits c o t)
        let mean ← meanVars agg v
        return (ks.1, mean)) ∘ fun ks => (ks.1, wrapAll (tr' :: trs) suffix ks.2)) : Except Err _) =
      l.mapM ((fun ks : String × FStatistic L K => do
        let v ← ks.2.compute p t
        let mean ← meanVars agg v
        return (ks.1, mean)) ∘ fun ks => (ks.1, wrapAll (tr :: trs) suffix ks.2)) := by
    intro l
    congr 1
    funext ks
    simp only [Function.comp, hc]
  rw [this]

theorem mkTransform_ok {which suffix : String} {fn : String → StatVar L (FV K) → Except Err (StatVar L (FV K))} {tr : InputTransform L K}
    (h : mkTransform which suffix fn = .ok tr) : tr.which = which ∧ tr.fn = fn := by
  unfold mkTransform at h
  split_ifs at h
  cases h
  exact ⟨rfl, rfl⟩

/-- C88: a metric of exceedances (contingency tables, Brier score, FSS, ...) does not depend on the unit if the thresholds, given per variable,
are converted too (and the factor is positive: otherwise exceedance becomes non-exceedance). `trs` are further transformations applied after it. -/
theorem C88_binary {c o : String → K} (hc : ∀ v, 0 < c v) (label : FV K → L) (vs : Vars (DA L (FV K))) (d : Dim) (str : FV K → String) (sfx : Option String)
    {tr tr' : InputTransform L K} (htr : continuousToBinary label "both" (.dataset vs) d str sfx = .ok tr)
    (htr' : continuousToBinary label "both" (.dataset (changeThresholds c o vs)) d str sfx = .ok tr')
    (m : FMetric L K) (trs : List (InputTransform L K)) (suffix : Option String) (agg : Aggregator L (FV K)) (p t : Vars (StatVar L (FV K))) :
    metricAlone (wrappedMetric m (tr' :: trs) suffix) agg (changeUnits c o p) (changeUnits c o t) = metricAlone (wrappedMetric m (tr :: trs) suffix) agg p t := by
  unfold continuousToBinary at htr htr'
  obtain ⟨s, _, h1⟩ := bind_ok_iff.mp htr
  obtain ⟨s', _, h2⟩ := bind_ok_iff.mp htr'
  obtain ⟨hw, hf⟩ := mkTransform_ok h1
  obtain ⟨hw', hf'⟩ := mkTransform_ok h2
  refine wrapped_invariant hw hw' (fun v x => ?_) m trs suffix agg p t
  rw [hf, hf']
  have hfor : (Thresholds.dataset (changeThresholds c o vs)).forBinary label d v =
      ((Thresholds.dataset vs).forBinary label d v).map (DA.map (FV.affine (c v) (o v))) := by
    unfold Thresholds.forBinary
    dsimp only
    have hex : (∃ va ∈ changeThresholds c o vs, d ∈ va.2.dims) ↔ ∃ va ∈ vs, d ∈ va.2.dims := by
      unfold changeThresholds
      constructor
      · rintro ⟨va, hva, hd⟩
        obtain ⟨x, hx, rfl⟩ := List.mem_map.mp hva
        exact ⟨x, hx, hd⟩
      · rintro ⟨x, hx, hd⟩
        exact ⟨_, List.mem_map.mpr ⟨x, hx, rfl⟩, hd⟩
    by_cases h : ∃ va ∈ vs, d ∈ va.2.dims
    · rw [if_pos h, if_pos (hex.mpr h), pyGet?_changeThresholds]
      rcases pyGet? v vs with _ | a <;> rfl
    · rw [if_neg h, if_neg (fun hh => h (hex.mp hh))]; rfl
  dsimp only
  rw [hfor]
  rcases (Thresholds.dataset vs).forBinary label d v with e | a
  · rfl
  · exact congrArg Except.ok (binarize_affine (hc v) (o v) a x)

theorem cdfFn_affine {c o : String → K} (hc : ∀ v, 0 < c v) (tm : TimeLabels L) (label : FV K → L) (vs : Vars (DA L (FV K))) (order : List L) (d : Dim)
    (enforce right : Bool) (v : String) (x : StatVar L (FV K)) :
    cdfFn tm label (.dataset (changeThresholds c o vs)) order d enforce right v (x.map (FV.affine (c v) (o v))) =
      cdfFn tm label (.dataset vs) order d enforce right v x := by
  unfold cdfFn Thresholds.forCdf
  dsimp only
  have hitem : pyItem (changeThresholds c o vs) v = (pyItem vs v).map (DA.map (FV.affine (c v) (o v))) := by
    unfold pyItem
    rw [pyGet?_changeThresholds]
    rcases pyGet? v vs with _ | a <;> rfl
  rw [hitem]
  rcases pyItem vs v with e | a
  · rfl
  · show (selectThresholdsByTime tm (a.map (FV.affine (c v) (o v))) (x.map (FV.affine (c v) (o v))) >>= _) = (selectThresholdsByTime tm a x >>= _)
    rw [selectThresholds_map]
    rcases selectThresholdsByTime tm a x with e | b
    · rfl
    · exact computeCdf_affine (hc v) (o v) b order d enforce right x

/-- C88: the same for the discrete distribution functions of `ContinuousToCDF` (the ranked probability score). -/
theorem C88_cdf {c o : String → K} (hc : ∀ v, 0 < c v) (tm : TimeLabels L) (label : FV K → L) (vs : Vars (DA L (FV K))) (order : List L) (d : Dim)
    (enforce right : Bool) (str : FV K → String) (sfx : Option String)
    {tr tr' : InputTransform L K} (htr : continuousToCDF tm label "both" (.dataset vs) order d enforce right str sfx = .ok tr)
    (htr' : continuousToCDF tm label "both" (.dataset (changeThresholds c o vs)) order d enforce right str sfx = .ok tr')
    (m : FMetric L K) (trs : List (InputTransform L K)) (suffix : Option String) (agg : Aggregator L (FV K)) (p t : Vars (StatVar L (FV K))) :
    metricAlone (wrappedMetric m (tr' :: trs) suffix) agg (changeUnits c o p) (changeUnits c o t) = metricAlone (wrappedMetric m (tr :: trs) suffix) agg p t := by
  unfold continuousToCDF at htr htr'
  obtain ⟨s, _, h1⟩ := bind_ok_iff.mp htr
  obtain ⟨s', _, h2⟩ := bind_ok_iff.mp htr'
  obtain ⟨hw, hf⟩ := mkTransform_ok h1
  obtain ⟨hw', hf'⟩ := mkTransform_ok h2
  refine wrapped_invariant hw hw' (fun v x => ?_) m trs suffix agg p t
  rw [hf, hf']
  exact cdfFn_affine hc tm label vs order d enforce right v x

/-- C88: the same for the bins of `ContinuousToBins`. -/
theorem C88_bins {c o : String → K} (hc : ∀ v, 0 < c v) (tm : TimeLabels L) (label : FV K → L) (binName : L → L → L) (vs : Vars (DA L (FV K))) (order : List L)
    (d : Dim) (enforce : Bool) (str : FV K → String) (sfx : Option String)
    {tr tr' : InputTransform L K} (htr : continuousToBins tm label binName "both" (.dataset vs) order d enforce str sfx = .ok tr)
    (htr' : continuousToBins tm label binName "both" (.dataset (changeThresholds c o vs)) order d enforce str sfx = .ok tr')
    (m : FMetric L K) (trs : List (InputTransform L K)) (suffix : Option String) (agg : Aggregator L (FV K)) (p t : Vars (StatVar L (FV K))) :
    metricAlone (wrappedMetric m (tr' :: trs) suffix) agg (changeUnits c o p) (changeUnits c o t) = metricAlone (wrappedMetric m (tr :: trs) suffix) agg p t := by
  unfold continuousToBins at htr htr'
  obtain ⟨s, _, h1⟩ := bind_ok_iff.mp htr
  obtain ⟨s', _, h2⟩ := bind_ok_iff.mp htr'
  obtain ⟨hw, hf⟩ := mkTransform_ok h1
  obtain ⟨hw', hf'⟩ := mkTransform_ok h2
  refine wrapped_invariant hw hw' (fun v x => ?_) m trs suffix agg p t
  rw [hf, hf']
  unfold binsFn
  rw [cdfFn_affine hc]

/-- The hypotheses are met: a threshold of 20 degrees Celsius, and the same in Fahrenheit. -/
example (label : FV ℚ → ℕ) (str : FV ℚ → String) :
    ∃ vs : Vars (DA ℕ (FV ℚ)), ∃ tr tr', continuousToBinary label "both" (.dataset vs) "threshold" str (some "warm") = .ok tr ∧
      continuousToBinary label "both" (.dataset (changeThresholds (fun _ => 9 / 5) (fun _ => 32) vs)) "threshold" str (some "warm") = .ok tr' ∧
      (changeThresholds (fun _ => 9 / 5) (fun _ => 32) vs).map (fun kv => (kv.1, kv.2.val (fun _ => 0))) = [("t", .fin 68)] ∧
      (tr.fn "t" (exKelvin 19 21)).toOption.isSome := by
  refine ⟨[("t", { dims := {"threshold"}, coords := fun _ => {0}, val := fun _ => .fin 20 })], _, _, rfl, rfl, ?_, rfl⟩
  simp [changeThresholds, DA.map, FV.affine]
  norm_num

end thresholds
end WBX
