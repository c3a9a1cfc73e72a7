import Verif.Model.Categorical
import Mathlib.Data.List.Sort

/-!
# Reductions over one dimension, and the ensemble statistics and metrics of `/repo/weatherbenchX/metrics/probabilistic.py`

xarray reductions drop a coordinate that has the reduced dimension, and keep the others; `mask` is such a coordinate.
-/

namespace WBX
open Classical

section reductions
variable {L K : Type} [DecidableEq L] [Field K] [LinearOrder K] [IsStrictOrderedRing K]

/-- A Python int in float arithmetic. -/
def FV.ofNat (n : ℕ) : FV K := FV.fin (n : K)

/-- The `mask` coordinate after a reduction over `d`. -/
def dropMask (d : Dim) : Option (DA L Bool) → Option (DA L Bool)
  | none => none
  | some m => if d ∈ m.dims then none else some m

/-- A reduction over `d`: the value at a cell is computed from the labels of `d` and the values at these labels. -/
def StatVar.reduce {V W : Type} (d : Dim) (f : Finset L → (L → V) → W) (a : StatVar L V) : StatVar L W :=
  ⟨{ dims := a.arr.dims.erase d, coords := a.arr.coords, val := fun e => f (a.arr.coords d) (fun l => a.arr.val (DA.setLabel e d l)) },
   dropMask d a.mask⟩

/-- The labels whose value counts: with `skipna` only those that are not NaN. -/
def present (skipna : Bool) (C : Finset L) (x : L → FV K) : Finset L := if skipna then C.filter (fun l => (x l).isnan = false) else C

/-- `x.sum(skipna=...)`: the empty sum is 0. -/
def npSum (skipna : Bool) (C : Finset L) (x : L → FV K) : FV K := ∑ l ∈ present skipna C x, x l

/-- `x.mean(skipna=...)`: `0 / 0 = NaN` for no values. -/
def npMean (skipna : Bool) (C : Finset L) (x : L → FV K) : FV K := npSum skipna C x / FV.ofNat (present skipna C x).card

/-- `x.var(ddof=1, skipna=...)`: NaN for fewer than two values. -/
def npVar1 (skipna : Bool) (C : Finset L) (x : L → FV K) : FV K :=
  npSum skipna C (fun l => (x l - npMean skipna C x).sq) / FV.ofNat ((present skipna C x).card - 1)

/-- `a.mean(d, skipna=...)`; a missing dimension is a `ValueError`. -/
def StatVar.meanDim (skipna : Bool) (d : Dim) (a : StatVar L (FV K)) : Except Err (StatVar L (FV K)) :=
  if d ∈ a.arr.dims then .ok (a.reduce d (npMean skipna)) else .error .valueError

/-- `a.var(d, ddof=1, skipna=...)`. -/
def StatVar.varDim (skipna : Bool) (d : Dim) (a : StatVar L (FV K)) : Except Err (StatVar L (FV K)) :=
  if d ∈ a.arr.dims then .ok (a.reduce d (npVar1 skipna)) else .error .valueError

/-- `a.sum(d, skipna=...)`. -/
def StatVar.nansumDim (skipna : Bool) (d : Dim) (a : StatVar L (FV K)) : Except Err (StatVar L (FV K)) :=
  if d ∈ a.arr.dims then .ok (a.reduce d (npSum skipna)) else .error .valueError

/-- `a.count(d)` with `skipna_ensemble`, and `a.sizes[d]` without it (an int broadcasts as an array without dimensions):
the ensemble size used by the statistics. -/
def StatVar.sizeDim (skipna : Bool) (d : Dim) (a : StatVar L (FV K)) : Except Err (StatVar L (FV K)) :=
  if d ∈ a.arr.dims then
    .ok (if skipna then a.reduce d (fun C x => FV.ofNat (present true C x).card) else ⟨DA.scalar (FV.ofNat (a.arr.coords d).card), none⟩)
  else .error (if skipna then .valueError else .keyError)

/-- `a.rename({d: d'})` of a dimension. -/
def DA.rename {V : Type} (d d' : Dim) (a : DA L V) : DA L V :=
  if d ∈ a.dims then
    { dims := insert d' (a.dims.erase d), coords := fun k => if k = d' then a.coords d else a.coords k,
      val := fun e => a.val (DA.setLabel e d (e d')) }
  else a

/-- `a.rename({d: d'})`: `ValueError` if there is no dimension `d` or there already is a dimension `d'`. -/
def StatVar.rename {V : Type} (d d' : Dim) (a : StatVar L V) : Except Err (StatVar L V) :=
  if d ∈ a.arr.dims ∧ d' ∉ a.arr.dims then .ok ⟨a.arr.rename d d', a.mask.map (fun m => m.rename d d')⟩ else .error .valueError

/-- A per-variable statistic whose `_compute_per_variable` may raise. -/
def statOfE (name : String) (f : StatVar L (FV K) → StatVar L (FV K) → Except Err (StatVar L (FV K))) : FStatistic L K :=
  perVariableStatistic name (fun p t => do
    let s ← f p t
    return some (some s))

end reductions

section crps
variable {L K : Type} [DecidableEq L] [Field K] [LinearOrder K] [IsStrictOrderedRing K]

/-- `CRPSSkill._compute_per_variable` (probabilistic.py:129-145). -/
noncomputable def crpsSkill (d : Dim) (skipna : Bool) (p t : StatVar L (FV K)) : Except Err (StatVar L (FV K)) :=
  if d ∈ t.arr.dims then do
    let pseudo := d ++ "_PSEUDO_FOR_TARGETS"
    let t' ← t.rename d pseudo
    let a := (p.zipWith (· - ·) t').map FV.abs
    -- `mean` over both dimensions at once
    if d ∈ a.arr.dims then
      let s1 := a.reduce d (fun C x => FV.ofNat (present skipna C x).card)
      let s2 := a.reduce d (npSum skipna)
      return ((s2.reduce pseudo (npSum false)).zipWith (· / ·) (s1.reduce pseudo (npSum false)))
    else .error .valueError
  else ((p.zipWith (· - ·) t).map FV.abs).meanDim skipna d

/-- `_rankdata` (probabilistic.py:148-158) along one dimension: position `i` gets its place in the argsort, from 1. -/
def rankdata (argsort : List (FV K) → List ℕ) (x : List (FV K)) (i : ℕ) : ℕ := (argsort x).idxOf i + 1

/-- `_rank_da` (probabilistic.py:161-162); `order` lists the labels of dimension `d` in their order in the array. -/
def rankDA (argsort : List (FV K) → List ℕ) (order : List L) (d : Dim) (a : StatVar L (FV K)) : StatVar L (FV K) :=
  ⟨{ dims := a.arr.dims, coords := a.arr.coords,
     val := fun e => FV.ofNat (rankdata argsort (order.map (fun l => a.arr.val (DA.setLabel e d l))) (order.idxOf (e d))) }, a.mask⟩

/-- The `which` argument of `CRPSSpread` (probabilistic.py:197-202): any string is accepted by `__init__`. -/
def whichArray (which : String) (p t : StatVar L (FV K)) : Except Err (StatVar L (FV K)) :=
  if which = "predictions" then .ok p else if which = "targets" then .ok t else .error .valueError

/-- `CRPSSpread._compute_per_variable` (probabilistic.py:194-247). -/
noncomputable def crpsSpread (argsort : List (FV K) → List ℕ) (order : List L) (d : Dim) (useSort fair : Bool) (which : String)
    (skipna : Bool) (p t : StatVar L (FV K)) : Except Err (StatVar L (FV K)) := do
  let da ← whichArray which p t
  let n ← da.sizeDim skipna d
  if !skipna && decide ((da.arr.coords d).card < 2) then .error .valueError
  else
    let f : FV K := FV.ofNat (if fair then 1 else 0)
    if useSort then
      if skipna then .error .valueError
      else do
        let rank := rankDA argsort order d da
        let c : StatVar L (FV K) := ((rank.map (fun r => FV.ofNat 2 * r)).zipWith (· - ·) n).map (fun x => x - FV.ofNat 1)
        let m ← (c.zipWith (· * ·) da).meanDim false d
        return (m.map (fun x => FV.ofNat 2 * x)).zipWith (· / ·) (n.map (fun x => x - f))
    else do
      let da2 ← da.rename d "ensemble_dim_2"
      let a := (da.zipWith (· - ·) da2).map FV.abs
      let s := (a.reduce d (npSum skipna)).reduce "ensemble_dim_2" (npSum false)
      return s.zipWith (· / ·) (n.zipWith (fun x y => x * y) (n.map (fun x => x - f)))

/-- `CRPSSkill` (probabilistic.py:116-145). -/
noncomputable def crpsSkillStatistic (d : Dim) (skipna : Bool) : FStatistic L K := statOfE ("CRPSSkill_" ++ d) (crpsSkill d skipna)

/-- `CRPSSpread` (probabilistic.py:165-247). -/
noncomputable def crpsSpreadStatistic (argsort : List (FV K) → List ℕ) (order : List L) (d : Dim) (useSort fair : Bool)
    (which : String) (skipna : Bool) : FStatistic L K :=
  statOfE ("CRPSSpread_" ++ d ++ "_" ++ (if fair then "fair" else "unfair") ++ "_" ++ which)
    (crpsSpread argsort order d useSort fair which skipna)

/-- `CRPSEnsemble` (probabilistic.py:483-565). -/
noncomputable def crpsEnsemble (argsort : List (FV K) → List ℕ) (order : List L) (d : Dim) (useSort fair skipna : Bool) : FMetric L K :=
  metric2 ("CRPSSkill", crpsSkillStatistic d skipna)
    ("CRPSSpread", crpsSpreadStatistic argsort order d useSort fair "predictions" skipna)
    (fun skill spread => skill.sub (spread.smul (1 / 2)))

/-- `CRPSEnsembleDistance` (probabilistic.py:568-650): `skipna` is only used for the spread of the predictions. -/
noncomputable def crpsEnsembleDistance (argsort : List (FV K) → List ℕ) (order order' : List L) (d : Dim) (useSort fair skipna : Bool) :
    FMetric L K :=
  metric3 ("CRPSSkill", crpsSkillStatistic d false)
    ("CRPSSpread", crpsSpreadStatistic argsort order d useSort fair "predictions" skipna)
    ("CRPSTargetSpread", crpsSpreadStatistic argsort order' d useSort fair "targets" false)
    (fun skill spread tspread => (skill.sub (spread.smul (1 / 2))).sub (tspread.smul (1 / 2)))

end crps

section moments
variable {L K : Type} [DecidableEq L] [Field K] [LinearOrder K] [IsStrictOrderedRing K]

/-- `EnsembleVariance._compute_per_variable` (probabilistic.py:266-273). -/
def ensembleVariance (d : Dim) (skipna : Bool) (p _t : StatVar L (FV K)) : Except Err (StatVar L (FV K)) := p.varDim skipna d

/-- `UnbiasedEnsembleMeanSquaredError._compute_per_variable` (probabilistic.py:298-336). -/
noncomputable def unbiasedMSE (d : Dim) (skipna : Bool) (p t : StatVar L (FV K)) : Except Err (StatVar L (FV K)) := do
  let pm ← p.meanDim skipna d
  let pv ← p.varDim skipna d
  let pn ← p.sizeDim skipna d
  let pb := pv.zipWith (· / ·) pn
  if d ∈ t.arr.dims then do
    let tm ← t.meanDim skipna d
    let tv ← t.varDim skipna d
    let tn ← t.sizeDim skipna d
    let tb := tv.zipWith (· / ·) tn
    return (((pm.zipWith (· - ·) tm).map FV.sq).zipWith (· - ·) pb).zipWith (· - ·) tb
  else
    return (((pm.zipWith (· - ·) t).map FV.sq).zipWith (· - ·) pb).map (fun x => x - 0)

/-- `EnsembleVariance` (probabilistic.py:250-273); `repr` of a Python bool. -/
def ensembleVarianceStatistic (d : Dim) (skipna : Bool) : FStatistic L K :=
  statOfE ("EnsembleVariance_" ++ d ++ "_skipna_ensemble_" ++ (if skipna then "True" else "False")) (ensembleVariance d skipna)

/-- `UnbiasedEnsembleMeanSquaredError` (probabilistic.py:276-336). -/
noncomputable def unbiasedMSEStatistic (d : Dim) (skipna : Bool) : FStatistic L K :=
  statOfE ("UnbiasedEnsembleMeanSquaredError_" ++ d ++ "_skipna_ensemble_" ++ (if skipna then "True" else "False")) (unbiasedMSE d skipna)

/-- A `PerVariableMetric` with one statistic. -/
def metric1 (s1 : String × FStatistic L K) (f : DA L (FV K) → DA L (FV K)) : FMetric L K :=
  perVariableMetric [s1] (fun xs => do
    let x ← pyItem xs s1.1
    return f x)

/-- `RankHistogram._compute_per_variable` (probabilistic.py:1204-1220). `number` gives the label of a rank along the new
dimension `rank`. -/
noncomputable def rankHistogram (number : ℕ → L) (d : Dim) (p t : StatVar L (FV K)) : Except Err (StatVar L (FV K)) :=
  if d ∈ p.arr.dims then
    let numBins := (p.arr.coords d).card + 1
    let below : StatVar L (FV K) := p.zipWith (fun x y => FV.ofBool (FV.lt x y)) t
    let ranks := below.reduce d (npSum false)
    let categories : StatVar L (FV K) :=
      ⟨{ dims := {"rank"}, coords := fun _ => (Finset.range numBins).image number,
         val := fun e => match (List.range numBins).find? (fun k => decide (number k = e "rank")) with
           | some k => FV.ofNat k
           | none => FV.nan }, none⟩
    .ok (ranks.zipWith (fun x y => FV.ofBool (FV.beq x y)) categories)
  else .error .keyError

/-- `RankHistogram` (probabilistic.py:1183-1220). -/
noncomputable def rankHistogramStatistic (number : ℕ → L) (d : Dim) : FStatistic L K :=
  statOfE ("RankHistogram_" ++ d) (rankHistogram number d)

/-- `EnsembleAveragedStatistic` (probabilistic.py:35-69); the statistics are leaves (`None` leaves not modelled by the caller are
passed through, as `map_structure` does not call the function on `None`). -/
def ensembleAveragedStatistic (d : Dim) (skipna : Bool) (s : FStatistic L K) : FStatistic L K :=
  { uniqueName := s.uniqueName ++ "_each_" ++ d,
    compute := fun p t => do
      let r ← s.compute p t
      r.mapM (fun kv => match kv.2 with
        | none => .ok (kv.1, none)
        | some a => do
          let a' ← a.meanDim skipna d
          return (kv.1, some a')) }

/-- `EnsembleAveragedMetric` (probabilistic.py:72-113). -/
def ensembleAveragedMetric (d : Dim) (skipna : Bool) (m : FMetric L K) : FMetric L K :=
  { statistics := m.statistics.map (fun ks => (ks.1, ensembleAveragedStatistic d skipna ks.2)),
    valuesFromMeanStatistics := m.valuesFromMeanStatistics }

/-- `EnsembleErrorExceedance._compute_per_variable` (probabilistic.py:732-738): the mean over members uses the default
`skipna=None`, i.e. True for floats. -/
noncomputable def ensembleErrorExceedance (thresholds : DA L (FV K)) (d : Dim) (p t : StatVar L (FV K)) : Except Err (StatVar L (FV K)) :=
  (errorExceedance thresholds p t).meanDim true d

end moments

section roots
variable {L : Type} [DecidableEq L]

/-- `UnbiasedEnsembleMeanRMSE` (probabilistic.py:741-769). -/
noncomputable def unbiasedRMSE (d : Dim) (skipna : Bool) : FMetric L ℝ :=
  metric1 ("UnbiasedEnsembleMeanSquaredError", unbiasedMSEStatistic d skipna) (fun x => x.map FV.sqrt)

/-- `UnbiasedSpreadSkillRatio` (probabilistic.py:782-844). -/
noncomputable def spreadSkillRatio (d : Dim) (skipna : Bool) : FMetric L ℝ :=
  metric2 ("EnsembleVariance", ensembleVarianceStatistic d skipna)
    ("UnbiasedEnsembleMeanSquaredError", unbiasedMSEStatistic d skipna) (fun v m => (v.div m).map FV.sqrt)

/-- `EnsembleRootMeanVariance` (probabilistic.py:847-878). -/
noncomputable def ensembleRootMeanVariance (d : Dim) (skipna : Bool) : FMetric L ℝ :=
  metric1 ("EnsembleVariance", ensembleVarianceStatistic d skipna) (fun x => x.map FV.sqrt)

end roots
end WBX
