import Verif.Model.Bootstrap
import Verif.Model.Wrappers

/-!
# Model of the alignment of climatologies (`/repo/weatherbenchX/metrics/base.py:338-415`) and of the skill-of-opportunity
statistics (`/repo/weatherbenchX/metrics/categorical.py:700-970`)

Time coordinates are dimensions here (a scalar or non-index `valid_time`, `init_time`, `lead_time` or `time` coordinate is not modelled). Infinite values in
quantiles are not modelled (see `quantile`).
-/

namespace WBX
open DA

section climatology
variable {L V : Type} [DecidableEq L]

/-- How labels are read as times: `init_time + lead_time`, `.dt.dayofyear`, `.dt.hour`. -/
structure ClimTimes (L : Type) where
  /-- `init_time + lead_time`. -/
  add : L → L → L
  /-- `.dt.dayofyear`. -/
  dayofyear : L → L
  /-- `.dt.hour`. -/
  hour : L → L

/-- `c.sel({d: f})` of an array and its mask coordinate, if that has the dimension; a missing dimension is a `KeyError`. -/
noncomputable def StatVar.selBy (d : Dim) (ds : List Dim) (C : Dim → Finset L) (f : (Dim → L) → L) (c : StatVar L V) : Except Err (StatVar L V) :=
  if d ∈ c.arr.dims then do
    let arr ← c.arr.selBy d ds C f
    match c.mask with
    | none => return ⟨arr, none⟩
    | some m =>
      if d ∈ m.dims then do
        let m ← m.selBy d ds C f
        return ⟨arr, some m⟩
      else return ⟨arr, some m⟩
  else .error .keyError

/-- `climatology.sel(**sel_kwargs)` (metrics/base.py:393-400): by `time`, or by `dayofyear` and, if there is such a dimension, `hour`. -/
noncomputable def selClimatology (tm : ClimTimes L) (ds : List Dim) (C : Dim → Finset L) (validTime : (Dim → L) → L) (c : StatVar L V) : Except Err (StatVar L V) :=
  if "time" ∈ c.arr.dims then c.selBy "time" ds C validTime
  else if "hour" ∈ c.arr.dims then do
    let c ← c.selBy "dayofyear" ds C (fun e => tm.dayofyear (validTime e))
    c.selBy "hour" ds C (fun e => tm.hour (validTime e))
  else c.selBy "dayofyear" ds C (fun e => tm.dayofyear (validTime e))

/-- The alignment of `PerVariableStatisticWithClimatology._compute_per_variable` (metrics/base.py:378-400). -/
noncomputable def alignClimatology {W : Type} (tm : ClimTimes L) (p : StatVar L W) (c : StatVar L V) : Except Err (StatVar L V) :=
  if "valid_time" ∈ p.arr.dims then selClimatology tm ["valid_time"] p.arr.coords (fun e => e "valid_time") c
  else if "init_time" ∈ p.arr.dims ∧ "lead_time" ∈ p.arr.dims then
    selClimatology tm ["init_time", "lead_time"] p.arr.coords (fun e => tm.add (e "init_time") (e "lead_time")) c
  else .error .valueError

/-- `PerVariableStatisticWithClimatology` (metrics/base.py:338-403) for statistics that may raise: see `withClimatology`. -/
noncomputable def withClimatologyE {K : Type} [Field K] [LinearOrder K] [IsStrictOrderedRing K] (name : String) (clims : Vars (StatVar L (FV K)))
    (align : StatVar L (FV K) → StatVar L (FV K) → Except Err (StatVar L (FV K)))
    (f : StatVar L (FV K) → StatVar L (FV K) → StatVar L (FV K) → Except Err (StatVar L (FV K))) : FStatistic L K where
  uniqueName := name
  compute := fun p t => do
    let cs ← p.mapM (fun kv => do let x ← pyItem clims kv.1; return (kv.1, x))
    p.mapM (fun kv => do
      let b ← pyItem t kv.1
      let c ← pyItem cs kv.1
      let al ← align kv.2 c
      let s ← f kv.2 b al
      return (kv.1, some s))

end climatology

section opportunism
variable {L : Type} [DecidableEq L]

/-- `np.maximum`: NaN if either side is. -/
def FV.npMaximum {K : Type} [Field K] [LinearOrder K] [IsStrictOrderedRing K] (a b : FV K) : FV K := if a.isnan || b.isnan then .nan else if FV.lt a b then b else a

/-- `np.minimum`: NaN if either side is. -/
def FV.npMinimum {K : Type} [Field K] [LinearOrder K] [IsStrictOrderedRing K] (a b : FV K) : FV K := if a.isnan || b.isnan then .nan else if FV.lt b a then b else a

/-- `a.quantile(q, dim=d)`: NaN members are skipped (the default for floats), all NaN gives NaN; `ValueError` for a missing dimension. -/
noncomputable def StatVar.quantileDim (q : ℝ) (d : Dim) (a : StatVar L (FV ℝ)) : Except Err (StatVar L (FV ℝ)) :=
  if d ∈ a.arr.dims then .ok (a.reduce d (fun C x => quantile q (C.toList.map x))) else .error .valueError

/-- `c.sel(quantile=l)`: `KeyError` for a missing dimension or label. -/
def StatVar.selQuantile {V : Type} (l : L) (c : StatVar L V) : Except Err (StatVar L V) :=
  if "quantile" ∈ c.arr.dims ∧ l ∈ c.arr.coords "quantile" then
    .ok ⟨{ dims := c.arr.dims.erase "quantile", coords := c.arr.coords, val := fun e => c.arr.val (setLabel e "quantile" l) },
      c.mask.map (fun m => { dims := m.dims.erase "quantile", coords := m.coords, val := fun e => m.val (setLabel e "quantile" l) })⟩
  else .error .keyError

/-- `Confident._compute_per_variable_with_aligned_climatology` (categorical.py:728-746); `label` turns a quantile level into a label of the climatology. -/
noncomputable def confident (label : ℝ → L) (d : Dim) (low high threshold : ℝ) (p _t c : StatVar L (FV ℝ)) : Except Err (StatVar L (FV ℝ)) := do
  let ph ← p.quantileDim high d
  let pl ← p.quantileDim low d
  let ch ← c.selQuantile (label high)
  let cl ← c.selQuantile (label low)
  return (ph.zipWith (· - ·) pl).zipWith (fun a b => FV.ofBool (FV.lt a b)) ((ch.zipWith (· - ·) cl).map (fun x => FV.fin threshold * x))

/-- `Covered._compute_per_variable` (categorical.py:772-784). -/
noncomputable def covered (d : Dim) (low high : ℝ) (p t : StatVar L (FV ℝ)) : Except Err (StatVar L (FV ℝ)) := do
  let pl ← p.quantileDim low d
  let ph ← p.quantileDim high d
  return (pl.zipWith FV.le t).zipWith (fun a b => FV.ofBool (a && b)) (t.zipWith FV.le ph)

/-- The Jaccard distance of the intervals `[a, b]` and `[c, d]` as computed in categorical.py:837-861. -/
noncomputable def jaccardDistance (a b c d : FV ℝ) : FV ℝ :=
  let intersection := FV.npMaximum 0 (FV.npMinimum b d - FV.npMaximum a c)
  let union := ((b - a) + (d - c)) - intersection
  1 - (if FV.lt 0 union then intersection / union else 1)

/-- `JaccardDistant._compute_per_variable_with_aligned_climatology` (categorical.py:818-862). The arrays are combined pairwise in the code; here `zipWith` combines the two
bounds of the predictions with the two bounds of the climatology. -/
noncomputable def jaccardDistant (label : ℝ → L) (dim : Dim) (low high threshold : ℝ) (p _t c : StatVar L (FV ℝ)) : Except Err (StatVar L (FV ℝ)) := do
  let pl ← p.quantileDim low dim
  let ph ← p.quantileDim high dim
  let cl ← c.selQuantile (label low)
  let ch ← c.selQuantile (label high)
  return ((pl.zipWith Prod.mk ph).zipWith Prod.mk (cl.zipWith Prod.mk ch)).map
    (fun x => FV.ofBool (FV.lt (FV.fin threshold) (jaccardDistance x.1.1 x.1.2 x.2.1 x.2.2)))

/-- The arguments of `Opportunism` (categorical.py:872-915). -/
structure OpportunismArgs where
  /-- `ensemble_dim` -/
  dim : Dim
  /-- `is_confident` -/
  isConfident : Bool
  /-- `is_covered` -/
  isCovered : Option Bool
  /-- `is_jaccard_distant` -/
  isDistant : Option Bool
  /-- `confidence_quantile_boundaries` -/
  confidence : ℝ × ℝ
  /-- `coverage_quantile_boundaries` -/
  coverage : ℝ × ℝ
  /-- `jaccard_distance_quantile_boundaries` -/
  distance : ℝ × ℝ
  /-- `confidence_threshold` -/
  confidenceThreshold : ℝ
  /-- `jaccard_distance_threshold` -/
  distanceThreshold : ℝ

/-- `1 - x` or `x`. -/
noncomputable def orComplement (is : Bool) (x : DA L (FV ℝ)) : DA L (FV ℝ) := if is then x else x.map (fun v => 1 - v)

/-- `if self._is_... is not None: statistics_values *= ...` (categorical.py:955-967). -/
noncomputable def timesOptional (is : Option Bool) (name : String) (xs : Vars (DA L (FV ℝ))) (y : DA L (FV ℝ)) : Except Err (DA L (FV ℝ)) :=
  match is with
  | none => .ok y
  | some b => do
    let x ← pyItem xs name
    return zipWith (· * ·) y (orComplement b x)

variable (label : ℝ → L) (fmt : ℝ → String) (clims : Vars (StatVar L (FV ℝ))) (align : StatVar L (FV ℝ) → StatVar L (FV ℝ) → Except Err (StatVar L (FV ℝ)))

/-- `Confident` (categorical.py:700-746); `fmt` formats a number. -/
noncomputable def confidentStatistic (d : Dim) (low high threshold : ℝ) : FStatistic L ℝ :=
  withClimatologyE ("Confident_conf_thres=" ++ fmt threshold ++ "_spread_low=" ++ fmt low ++ "_spread_high=" ++ fmt high) clims align (confident label d low high threshold)

/-- `Covered` (categorical.py:749-784). -/
noncomputable def coveredStatistic (d : Dim) (low high : ℝ) : FStatistic L ℝ :=
  statOfE ("Covered_interval_low=" ++ fmt low ++ "_interval_high=" ++ fmt high) (covered d low high)

/-- `JaccardDistant` (categorical.py:787-862). -/
noncomputable def distantStatistic (d : Dim) (low high threshold : ℝ) : FStatistic L ℝ :=
  withClimatologyE ("JaccardDistant_threshold=" ++ fmt threshold ++ "_interval_low=" ++ fmt low ++ "_interval_high=" ++ fmt high) clims align (jaccardDistant label d low high threshold)

/-- `Opportunism.statistics` (categorical.py:917-942). -/
noncomputable def opportunismStatistics (o : OpportunismArgs) : List (String × FStatistic L ℝ) :=
  ("Confident", confidentStatistic label fmt clims align o.dim o.confidence.1 o.confidence.2 o.confidenceThreshold) ::
    ((if o.isCovered.isSome then [("Covered", coveredStatistic fmt o.dim o.coverage.1 o.coverage.2)] else []) ++
     (if o.isDistant.isSome then [("JaccardDistant", distantStatistic label fmt clims align o.dim o.distance.1 o.distance.2 o.distanceThreshold)] else []))

/-- `Opportunism._values_from_mean_statistics_per_variable` (categorical.py:944-970). -/
noncomputable def opportunismValues (o : OpportunismArgs) (xs : Vars (DA L (FV ℝ))) : Except Err (DA L (FV ℝ)) := do
  let c ← pyItem xs "Confident"
  let y ← timesOptional o.isCovered "Covered" xs (orComplement o.isConfident c)
  timesOptional o.isDistant "JaccardDistant" xs y

/-- `Opportunism` (categorical.py:865-970). -/
noncomputable def opportunism (o : OpportunismArgs) : FMetric L ℝ := perVariableMetric (opportunismStatistics label fmt clims align o) (opportunismValues o)

end opportunism
end WBX
