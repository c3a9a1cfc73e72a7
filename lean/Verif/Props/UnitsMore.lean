import Verif.Props.UnitsEnsemble
import Verif.Model.Opportunism
import Verif.Props.MetricsBase
import Verif.Lemmas.ExampleStatistic

/-!
# C88: wind vectors, anomaly correlation and rank histograms under a change of units
-/

namespace WBX
set_option linter.unusedSectionVars false

section lemmas
variable {L K : Type} [DecidableEq L] [Field K] [LinearOrder K] [IsStrictOrderedRing K]

theorem pyGet?_changeUnits (c d : String → K) (vs : Vars (StatVar L (FV K))) (v : String) :
    pyGet? v (changeUnits c d vs) = (pyGet? v vs).map (fun x => x.map (FV.affine (c v) (d v))) := by
  induction vs with
  | nil => rfl
  | cons x vs ih =>
    by_cases h : x.1 = v
    · subst h; simp [changeUnits, pyGet?]
    · simp only [changeUnits, List.map_cons, pyGet?] at ih ⊢
      rw [if_neg h, if_neg h, ih]

theorem pyItem_changeUnits (c d : String → K) (vs : Vars (StatVar L (FV K))) (v : String) :
    pyItem (changeUnits c d vs) v = (pyItem vs v).map (fun x => x.map (FV.affine (c v) (d v))) := by
  unfold pyItem
  rw [pyGet?_changeUnits]
  rcases pyGet? v vs with _ | x <;> rfl

theorem scaleStats_insert (k : String → K) (v : String) (x : StatVar L (FV K)) (out : Vars (Option (StatVar L (FV K)))) :
    pyInsert v (some (x.map (FV.times (k v)))) (scaleStats k out) = scaleStats k (pyInsert v (some x) out) := by
  induction out with
  | nil => rfl
  | cons y out ih =>
    obtain ⟨w, y⟩ := y
    by_cases h : w = v
    · subst h
      simp [scaleStats, pyInsert]
    · simp only [scaleStats, List.map_cons, pyInsert] at ih ⊢
      rw [if_neg h, if_neg h, ih]; rfl

theorem StatVar.add_times {k : K} (hk : k ≠ 0) (a b : StatVar L (FV K)) :
    (a.map (FV.times k)).zipWith (· + ·) (b.map (FV.times k)) = (a.zipWith (· + ·) b).map (FV.times k) := by
  simp only [StatVar.zipWith, StatVar.map, DA.zipWith, DA.map, StatVar.mk.injEq, DA.mk.injEq]
  refine ⟨⟨trivial, rfl, ?_⟩, trivial⟩
  funext e
  exact (FV.times_add hk _ _).symm

theorem windLoop_times {c d k : String → K} (hc : ∀ v, c v ≠ 0) (p t : Vars (StatVar L (FV K))) (vs : List (String × String × String))
    (hvs : ∀ w ∈ vs, c w.1 = c w.2.1 ∧ k w.2.2 = c w.1 * c w.1) (out : Vars (Option (StatVar L (FV K)))) :
    windLoop (changeUnits c d p) (changeUnits c d t) vs (scaleStats k out) = (windLoop p t vs out).map (scaleStats k) := by
  induction vs generalizing out with
  | nil => rfl
  | cons w vs ih =>
    obtain ⟨u, v, vec⟩ := w
    obtain ⟨h1, h2⟩ := hvs (u, v, vec) (List.mem_cons_self ..)
    dsimp only at h1 h2
    unfold windLoop
    rw [pyItem_changeUnits, pyItem_changeUnits, pyItem_changeUnits, pyItem_changeUnits]
    rcases pyItem p u with e | pu
    · rfl
    rcases pyItem p v with e | pv
    · rfl
    rcases pyItem t u with e | tu
    · rfl
    rcases pyItem t v with e | tv
    · rfl
    show windLoop _ _ vs (pyInsert vec (some _) (scaleStats k out)) = Except.map _ (windLoop p t vs (pyInsert vec (some _) out))
    rw [← ih (fun w hw => hvs w (List.mem_cons_of_mem _ hw)), ← scaleStats_insert]
    rw [StatVar.sub_affine (hc u), StatVar.sub_affine (hc v), StatVar.sq_times (hc u), StatVar.sq_times (hc v), ← h1,
      StatVar.add_times (mul_ne_zero (hc u) (hc u)), ← h2]

end lemmas

section wind
variable {L : Type} [DecidableEq L] {agg : Aggregator L (FV ℝ)} (hagg : agg.CoordOnly) {c : String → ℝ} (hc : ∀ v, c v ≠ 0) (d : String → ℝ)
include hagg hc

/-- C88: if both components of each wind vector change their unit by the same factor, the vector RMSE is multiplied by its
absolute value. (The values of a metric are named after the vectors.) -/
theorem C88_wind_vector_rmse {us vs names : List String} {m : FMetric L ℝ} (hm : windVectorRMSE us vs names = .ok m) (k : String → ℝ)
    (hk : ∀ v, 0 < k v) (hvs : ∀ w ∈ us.zip (vs.zip names), c w.1 = c w.2.1 ∧ k w.2.2 = |c w.1|) : m.ScalesBy agg c d k := by
  unfold windVectorRMSE at hm
  unfold windVectorSquaredError windVectors at hm
  by_cases hl : us.length = vs.length ∧ vs.length = names.length
  · rw [if_pos hl] at hm
    cases hm
    have hk0 : ∀ v, k v * k v ≠ 0 := fun v => mul_ne_zero (hk v).ne' (hk v).ne'
    refine metricAlone_times hagg (kk := fun _ v => k v * k v) (fun _ => hk0) ?_ ?_
    · intro ks hks
      rw [List.mem_singleton.mp hks]
      intro p t
      refine windLoop_times (k := fun v => k v * k v) hc p t _ ?_ []
      intro w hw
      obtain ⟨h1, h2⟩ := hvs w hw
      refine ⟨h1, ?_⟩
      rw [h2, abs_mul_abs_self]
    · intro sv
      dsimp only
      rw [pyItem_scaleMeans]
      rcases pyItem sv "WindVectorSquaredError" with e | x
      · rfl
      · show Except.ok _ = Except.ok _
        congr 1
        unfold scaleValues
        rw [List.map_map, List.map_map]
        refine List.map_congr_left (fun q _ => ?_)
        simp only [Function.comp]
        rw [DA.sqrt_times (hk q.1).ne', abs_of_pos (hk q.1)]
  · rw [if_neg hl] at hm
    cases hm

end wind

/-! ### Anomaly correlation -/

section acc
variable {L : Type} [DecidableEq L]

theorem DA.selBy_map {V W : Type} (g : V → W) (a : DA L V) (d : Dim) (ds : List Dim) (C : Dim → Finset L) (f : (Dim → L) → L) :
    (a.map g).selBy d ds C f = (a.selBy d ds C f).map (DA.map g) := by
  unfold DA.selBy
  by_cases h : ∀ e : Dim → L, (∀ k ∈ ds, e k ∈ C k) → f e ∈ a.coords d
  · rw [if_pos h, if_pos (by exact h)]; rfl
  · rw [if_neg h, if_neg (by exact h)]; rfl

theorem StatVar.selBy_map {V W : Type} (g : V → W) (d : Dim) (ds : List Dim) (C : Dim → Finset L) (f : (Dim → L) → L) (a : StatVar L V) :
    (a.map g).selBy d ds C f = (a.selBy d ds C f).map (fun s => s.map g) := by
  unfold StatVar.selBy
  show (if d ∈ a.arr.dims then _ else _) = _
  by_cases h : d ∈ a.arr.dims
  · rw [if_pos h, if_pos h]
    show ((a.arr.map g).selBy d ds C f >>= _) = _
    rw [DA.selBy_map]
    rcases a.arr.selBy d ds C f with e | arr
    · rfl
    · rcases a with ⟨arr', _ | m⟩
      · rfl
      · show (if d ∈ m.dims then _ else _) = Except.map _ (if d ∈ m.dims then _ else _)
        by_cases h2 : d ∈ m.dims
        · rw [if_pos h2, if_pos h2]
          show (m.selBy d ds C f >>= _) = Except.map _ (m.selBy d ds C f >>= _)
          rcases m.selBy d ds C f with e | m' <;> rfl
        · rw [if_neg h2, if_neg h2]; rfl
  · rw [if_neg h, if_neg h]; rfl

theorem selClimatology_map {V W : Type} (g : V → W) (tm : ClimTimes L) (ds : List Dim) (C : Dim → Finset L) (vt : (Dim → L) → L) (c : StatVar L V) :
    selClimatology tm ds C vt (c.map g) = (selClimatology tm ds C vt c).map (fun s => s.map g) := by
  unfold selClimatology
  show (if "time" ∈ c.arr.dims then _ else if "hour" ∈ c.arr.dims then _ else _) = _
  split_ifs
  · exact StatVar.selBy_map ..
  · rw [StatVar.selBy_map]
    rcases StatVar.selBy "dayofyear" ds C (fun e => tm.dayofyear (vt e)) c with e | c'
    · rfl
    · exact StatVar.selBy_map ..
  · exact StatVar.selBy_map ..

/-- The climatology is aligned by labels only. -/
theorem alignClimatology_map {U V W X : Type} (g : V → W) (g' : U → X) (tm : ClimTimes L) (p : StatVar L U) (c : StatVar L V) :
    alignClimatology tm (p.map g') (c.map g) = (alignClimatology tm p c).map (fun s => s.map g) := by
  unfold alignClimatology
  show (if "valid_time" ∈ p.arr.dims then _ else if "init_time" ∈ p.arr.dims ∧ "lead_time" ∈ p.arr.dims then _ else _) = _
  split_ifs
  · exact selClimatology_map ..
  · exact selClimatology_map ..
  · rfl

variable {c d : String → ℝ}

theorem withClimatology_times {name : String} {k : String → ℝ} (tm : ClimTimes L) (clims : Vars (StatVar L (FV ℝ)))
    {f : StatVar L (FV ℝ) → StatVar L (FV ℝ) → StatVar L (FV ℝ) → StatVar L (FV ℝ)}
    (hf : ∀ v p t cl, f (p.map (FV.affine (c v) (d v))) (t.map (FV.affine (c v) (d v))) (cl.map (FV.affine (c v) (d v))) =
      (f p t cl).map (FV.times (k v))) (p t : Vars (StatVar L (FV ℝ))) :
    (withClimatology name (changeUnits c d clims) (alignClimatology tm) f).compute (changeUnits c d p) (changeUnits c d t) =
      ((withClimatology name clims (alignClimatology tm) f).compute p t).map (scaleStats k) := by
  unfold withClimatology
  dsimp only
  have h1 : ((changeUnits c d p).mapM (fun kv => do let x ← pyItem (changeUnits c d clims) kv.1; return (kv.1, x)) : Except Err _) =
      (p.mapM (fun kv => do let x ← pyItem clims kv.1; return (kv.1, x)) : Except Err _).map (changeUnits c d) := by
    induction p with
    | nil => rfl
    | cons x p ih =>
      show (List.mapM _ ((x.1, x.2.map (FV.affine (c x.1) (d x.1))) :: changeUnits c d p) : Except Err _) = _
      rw [List.mapM_cons, List.mapM_cons, ih]
      dsimp only
      rw [pyItem_changeUnits]
      rcases pyItem clims x.1 with e | y
      · rfl
      · generalize (List.mapM _ p : Except Err _) = r
        rcases r with e | r <;> rfl
  rw [h1]
  clear h1
  generalize (List.mapM _ p : Except Err _) = cs
  rcases cs with e | cs
  · rfl
  · show (List.mapM _ (changeUnits c d p) : Except Err _) = Except.map _ (List.mapM _ p : Except Err _)
    induction p with
    | nil => rfl
    | cons x p ih =>
      show (List.mapM _ ((x.1, x.2.map (FV.affine (c x.1) (d x.1))) :: changeUnits c d p) : Except Err _) = _
      rw [List.mapM_cons, List.mapM_cons, ih]
      dsimp only
      rw [pyItem_changeUnits, pyItem_changeUnits]
      rcases pyItem t x.1 with e | b
      · rfl
      rcases pyItem cs x.1 with e | y
      · rfl
      show ((do
        let al ← alignClimatology tm (x.2.map (FV.affine (c x.1) (d x.1))) (y.map (FV.affine (c x.1) (d x.1)))
        return (x.1, some (f _ _ al))) >>= _) = Except.map _ (((do
        let al ← alignClimatology tm x.2 y
        return (x.1, some (f x.2 b al))) >>= _) : Except Err _)
      rw [alignClimatology_map]
      rcases alignClimatology tm x.2 y with e | al
      · rfl
      · show ((Except.ok (x.1, some (f (x.2.map (FV.affine (c x.1) (d x.1))) (b.map (FV.affine (c x.1) (d x.1)))
            (al.map (FV.affine (c x.1) (d x.1))))) : Except Err _) >>= _) = _
        rw [hf]
        generalize (List.mapM _ p : Except Err _) = r
        rcases r with e | r <;> rfl

theorem FV.mul_times_times {k l : ℝ} (hk : k ≠ 0) (hl : l ≠ 0) (a b : FV ℝ) : FV.times k a * FV.times l b = FV.times (k * l) (a * b) := by
  rw [FV.times_mul hk, FV.mul_comm' a, FV.times_mul hl, FV.times_times hk, FV.mul_comm' b]

theorem scaleValues_one (vs : Vars (DA L (FV ℝ))) : scaleValues (fun _ => 1) vs = vs := by
  unfold scaleValues
  conv_rhs => rw [← List.map_id vs]
  refine List.map_congr_left (fun q _ => ?_)
  show (q.1, q.2.map (FV.times 1)) = q
  have : (FV.times 1 : FV ℝ → FV ℝ) = id := funext FV.times_one'
  rw [this]; rfl

/-- C88: the anomaly correlation coefficient does not depend on the unit, if the climatology is given in it too. -/
theorem C88_acc {agg : Aggregator L (FV ℝ)} (hagg : agg.CoordOnly) (hc : ∀ v, c v ≠ 0) (tm : ClimTimes L) (clims p t : Vars (StatVar L (FV ℝ))) :
    metricAlone (acc (changeUnits c d clims) (alignClimatology tm)) agg (changeUnits c d p) (changeUnits c d t) =
      metricAlone (acc clims (alignClimatology tm)) agg p t := by
  have h2 : ∀ v, c v * c v ≠ 0 := fun v => mul_ne_zero (hc v) (hc v)
  have h := metricAlone_times' hagg (m := acc clims (alignClimatology tm)) (m' := acc (changeUnits c d clims) (alignClimatology tm))
    (c := c) (d := d) (k := fun _ => 1) (kk := fun _ v => c v * c v) (fun _ => h2) (p := p) (t := t) ?_ ?_
  · rw [h]
    rcases metricAlone (acc clims (alignClimatology tm)) agg p t with e | r
    · rfl
    · exact congrArg Except.ok (scaleValues_one r)
  · refine List.Forall₂.cons ⟨rfl, withClimatology_times tm clims (fun v a b cl => ?_) p t⟩ (List.Forall₂.cons ⟨rfl, withClimatology_times tm clims (fun v a b cl => ?_) p t⟩
      (List.Forall₂.cons ⟨rfl, withClimatology_times tm clims (fun v a b cl => ?_) p t⟩ List.Forall₂.nil))
    · unfold squaredPredictionAnomaly
      rw [StatVar.sub_affine (hc v), StatVar.sq_times (hc v)]
    · unfold squaredTargetAnomaly
      rw [StatVar.sub_affine (hc v), StatVar.sq_times (hc v)]
    · unfold anomalyCovariance
      rw [StatVar.sub_affine (hc v), StatVar.sub_affine (hc v)]
      simp only [StatVar.zipWith, StatVar.map, DA.zipWith, DA.map, StatVar.mk.injEq, DA.mk.injEq]
      refine ⟨⟨trivial, rfl, ?_⟩, trivial⟩
      funext e
      exact FV.mul_times_times (hc v) (hc v) _ _
  · refine perVariableValues_times (fun v xs => ?_)
    have hp := fun n => pyItem_pairs (kk := fun _ v => c v * c v) (v := v) xs n
    rw [hp, hp, hp]
    rcases pyItem xs "AnomalyCovariance" with e | cov
    · rfl
    rcases pyItem xs "SquaredPredictionAnomaly" with e | pp
    · rfl
    rcases pyItem xs "SquaredTargetAnomaly" with e | tt
    · rfl
    refine congrArg Except.ok ?_
    have ha : |c v| ≠ 0 := abs_ne_zero.mpr (hc v)
    have h0 : 0 < c v * c v := lt_of_le_of_ne (mul_self_nonneg _) (Ne.symm (h2 v))
    unfold accFormula
    simp only [DA.zipWith, DA.map, DA.mk.injEq]
    refine ⟨trivial, rfl, ?_⟩
    funext e
    rw [FV.sqrt_times (hc v), FV.sqrt_times (hc v), FV.mul_times_times ha ha, abs_mul_abs_self, FV.times_ratio (h2 v) h0, FV.times_one']

end acc

/-! ### Rank histograms -/

section rank
variable {L K : Type} [DecidableEq L] [Field K] [LinearOrder K] [IsStrictOrderedRing K]

/-- All variables of one side with their values replaced. -/
def replaceValues (φ : String → FV K → FV K) (vs : Vars (StatVar L (FV K))) : Vars (StatVar L (FV K)) :=
  vs.map (fun kv => (kv.1, kv.2.map (φ kv.1)))

/-- C88: the rank histogram only depends on the order of the values: it does not change if all values of a variable are replaced in a way
that keeps `<` (such as a change of units with a positive factor, or a logarithm). -/
theorem C88_rank_histogram (agg : Aggregator L (FV K)) (number : ℕ → L) (d : Dim) (φ : String → FV K → FV K)
    (hφ : ∀ v x y, FV.lt (φ v x) (φ v y) = FV.lt x y) (p t : Vars (StatVar L (FV K))) :
    metricAlone (rankHistogramStatistic number d).toMetric agg (replaceValues φ p) (replaceValues φ t) =
      metricAlone (rankHistogramStatistic number d).toMetric agg p t := by
  have hr : ∀ v (a b : StatVar L (FV K)), rankHistogram number d (a.map (φ v)) (b.map (φ v)) = rankHistogram number d a b := by
    intro v a b
    unfold rankHistogram
    show (if d ∈ a.arr.dims then _ else _) = _
    by_cases h : d ∈ a.arr.dims
    · rw [if_pos h, if_pos h]
      have : (a.map (φ v)).zipWith (fun x y => (FV.ofBool (FV.lt x y) : FV K)) (b.map (φ v)) = a.zipWith (fun x y => FV.ofBool (FV.lt x y)) b := by
        simp only [StatVar.zipWith, StatVar.map, DA.zipWith, DA.map, StatVar.mk.injEq, DA.mk.injEq, hφ]
        exact ⟨⟨trivial, rfl, trivial⟩, trivial⟩
      dsimp only
      rw [this]; rfl
    · rw [if_neg h, if_neg h]
  have hs : (rankHistogramStatistic number d).compute (replaceValues φ p) (replaceValues φ t) = (rankHistogramStatistic number d : FStatistic L K).compute p t := by
    show perVariableLoop _ (replaceValues φ t) (replaceValues φ p) = perVariableLoop _ t p
    have hget : ∀ v, pyGet? v (replaceValues φ t) = (pyGet? v t).map (fun x => x.map (φ v)) := by
      intro v
      induction t with
      | nil => rfl
      | cons x t ih =>
        by_cases h : x.1 = v
        · subst h; simp [replaceValues, pyGet?]
        · simp only [replaceValues, List.map_cons, pyGet?] at ih ⊢
          rw [if_neg h, if_neg h, ih]
    induction p with
    | nil => rfl
    | cons x p ih =>
      obtain ⟨v, a⟩ := x
      show perVariableLoop _ (replaceValues φ t) ((v, a.map (φ v)) :: replaceValues φ p) = _
      unfold perVariableLoop
      rw [hget v]
      rcases pyGet? v t with _ | b
      · exact ih
      · simp only [Option.map_some]
        rw [hr v a b, ih]
  unfold metricAlone Statistic.toMetric
  simp only [List.mapM_cons, List.mapM_nil]
  rw [hs]

/-- A change of units with a positive factor keeps the order. -/
theorem affine_lt {c : K} (hc : 0 < c) (d : K) (x y : FV K) : FV.lt (FV.affine c d x) (FV.affine c d y) = FV.lt x y := by
  have hn : ¬ c < 0 := not_lt.mpr hc.le
  rcases x with _ | a | a <;> rcases y with _ | b | b <;>
    simp [FV.affine_def, FV.times_nan, FV.times_inf hc.ne', FV.times_fin, FV.lt, hn, hc]

end rank

/-! ### The whole table -/

section table
variable {L K : Type} [DecidableEq L] [Field K] [LinearOrder K] [IsStrictOrderedRing K]

/-- C88: the table of all metric values of one chunk in the new units: every value is multiplied by the factor of its metric and variable. -/
theorem C88_table (metrics : List (String × FMetric L K)) (agg : Aggregator L (FV K)) (c d : String → K) (k : String → String → K)
    (hs : ∀ nm ∈ metrics, nm.2.ScalesBy agg c d (k nm.1)) (p t : Vars (StatVar L (FV K)))
    (hdict : ReturnDicts metrics p t) (hid : NamesIdentify metrics p t)
    (hdict' : ReturnDicts metrics (changeUnits c d p) (changeUnits c d t)) (hid' : NamesIdentify metrics (changeUnits c d p) (changeUnits c d t))
    {table : List (String × Vars (DA L (FV K)))} (h : metricTableForSingleChunk metrics agg p t = .ok table) :
    metricTableForSingleChunk metrics agg (changeUnits c d p) (changeUnits c d t) =
      .ok (table.map (fun mv => (mv.1, scaleValues (k mv.1) mv.2))) := by
  rw [C20_together_iff_alone metrics agg _ _ hdict' hid']
  rw [C20_together_iff_alone metrics agg p t hdict hid] at h
  clear hdict hid hdict' hid'
  induction metrics generalizing table with
  | nil => cases h; rfl
  | cons nm metrics ih =>
    rw [List.mapM_cons] at h ⊢
    obtain ⟨x, hx, h⟩ := bind_ok_iff.mp h
    obtain ⟨xs, hxs, h⟩ := bind_ok_iff.mp h
    cases h
    obtain ⟨v, hv, hx⟩ := bind_ok_iff.mp hx
    cases hx
    rw [hs nm (List.mem_cons_self ..) p t, hv, ih (fun nm' h' => hs nm' (List.mem_cons_of_mem _ h')) hxs]
    rfl

end table

/-! ### The hypotheses are met -/

/-- The aggregator of the example script (latitude weights, regions) only looks at coordinates, and Kelvin to Fahrenheit is such a change
of units. -/
example {L : Type} [LinearOrder L] [Add L] (name : String → L) (order : List L) (degrees : L → ℝ) :
    Metric.ScalesBy rmse (Example.defaultAgg name order degrees) (fun _ => 9 / 5) (fun _ => -459.67) (fun _ => 9 / 5) := by
  have h := C88_rmse (Example.defaultAgg_coordOnly name order degrees) (c := fun _ => 9 / 5) (fun _ => by norm_num) (fun _ => -459.67)
  simpa [abs_of_pos] using h

/-- Two temperatures in Kelvin. -/
def exKelvin (a b : ℚ) : StatVar ℕ (FV ℚ) := ⟨{ dims := {"x"}, coords := fun _ => {0, 1}, val := fun e => if e "x" = 0 then .fin a else .fin b }, none⟩

/-- Their mean over `x`. -/
def exPlain : Aggregator ℕ (FV ℚ) := { reduceDims := ["x"] }

theorem exPlain_coordOnly : exPlain.CoordOnly := ⟨by simp [exPlain], by simp [exPlain]⟩

theorem exPlain_mae : ∃ r, metricAlone (absoluteErrorStatistic.toMetric : FMetric ℕ ℚ) exPlain [("t", exKelvin 273 275)] [("t", exKelvin 274 280)] =
    .ok [("t", r)] ∧ ∀ e, r.val e = .fin 3 := by
  refine ⟨_, rfl, fun e => ?_⟩
  simp [exPlain, exKelvin, DA.zipWith, DA.dot, DA.sumDims, DA.sumDim, DA.map, absoluteError, error, StatVar.map, StatVar.zipWith,
    DA.joinCoords, DA.setLabel, FV.abs, FV.one_def]
  rw [two_nsmul, FV.fin_add_fin, FV.fin_div_fin_of_ne _ (by norm_num)]
  norm_num [abs_of_neg]

/-- In Fahrenheit the mean absolute error is 27/5. -/
example : ∃ r, metricAlone (absoluteErrorStatistic.toMetric : FMetric ℕ ℚ) exPlain
      (changeUnits (fun _ => 9 / 5) (fun _ => -459.67) [("t", exKelvin 273 275)]) (changeUnits (fun _ => 9 / 5) (fun _ => -459.67) [("t", exKelvin 274 280)]) =
    .ok [("t", r)] ∧ ∀ e, r.val e = .fin (27 / 5) := by
  obtain ⟨r, h1, h2⟩ := exPlain_mae
  refine ⟨r.map (FV.times (9 / 5)), ?_, fun e => ?_⟩
  · have h := C88_mae exPlain_coordOnly (c := fun _ => 9 / 5) (fun _ => by norm_num) (fun _ => -459.67) [("t", exKelvin 273 275)] [("t", exKelvin 274 280)]
    rw [h, h1]
    have : |(9 / 5 : ℚ)| = 9 / 5 := by norm_num
    show Except.ok [("t", r.map (FV.times |(9 / 5 : ℚ)|))] = _
    rw [this]
  · show FV.times (9 / 5) (r.val e) = _
    rw [h2 e, FV.times_fin]; norm_num

/-- A change of units for two metrics together. -/
example : ∀ nm ∈ ([("bias", errorStatistic.toMetric), ("mse", squaredErrorStatistic.toMetric)] : List (String × FMetric ℕ ℚ)),
    nm.2.ScalesBy exPlain (fun _ => -2) (fun _ => 7) ((fun m _ => if m = "bias" then -2 else -2 * -2) nm.1) := by
  intro nm hnm
  rcases List.mem_cons.mp hnm with rfl | hnm
  · exact C88_bias exPlain_coordOnly (fun _ => by norm_num) _
  · rw [List.mem_singleton.mp hnm]
    exact C88_mse exPlain_coordOnly (fun _ => by norm_num) _

/-- Both components of the 10 m wind in knots. -/
example {agg : Aggregator ℕ (FV ℝ)} (hagg : agg.CoordOnly) : ∃ m, windVectorRMSE ["u"] ["v"] ["wind"] = .ok m ∧
    m.ScalesBy agg (fun _ => 1.94) (fun _ => 0) (fun _ => 1.94) := by
  refine ⟨_, rfl, C88_wind_vector_rmse (us := ["u"]) (vs := ["v"]) (names := ["wind"]) hagg (fun _ => by norm_num) _ rfl _ (fun _ => by norm_num) ?_⟩
  intro w hw
  exact ⟨rfl, by norm_num⟩

/-- Fahrenheit to Celsius keeps the order. -/
example (x y : FV ℚ) : FV.lt (FV.affine (5 / 9) (-160 / 9) x) (FV.affine (5 / 9) (-160 / 9) y) = FV.lt x y := affine_lt (by norm_num) _ x y

end WBX
