import Verif.Model.MetricsBase
import Verif.Model.FV
import Mathlib.Analysis.SpecialFunctions.Sqrt
import Mathlib.Data.Real.Basic

/-!
# Model of `/repo/weatherbenchX/metrics/deterministic.py`

A predictions/targets array is a `StatVar`: float values with an optional boolean `mask` coordinate. Statistics are
elementwise xarray expressions. Names and attrs are not modelled.
-/

namespace WBX
open Classical

section
variable {L : Type} [DecidableEq L]

/-- `equals` of xarray: the same dimensions, labels and values. -/
def DA.Equals {V : Type} (a b : DA L V) : Prop := a.dims = b.dims ∧ (∀ d ∈ a.dims, a.coords d = b.coords d) ∧ ∀ e, a.InDom e → a.val e = b.val e

@[simp] theorem DA.equals_self {V : Type} (a : DA L V) : a.Equals a := ⟨rfl, fun _ _ => rfl, fun _ _ => rfl⟩

/-- The `mask` coordinate of the result of xarray arithmetic on two arrays: kept if only one has it or both agree;
conflicting coordinates are dropped. Simplification: the masks are compared before the arrays are aligned. -/
noncomputable def combineMask : Option (DA L Bool) → Option (DA L Bool) → Option (DA L Bool)
  | none, m => m
  | m, none => m
  | some m, some m' => if m.Equals m' then some m else none

/-- Elementwise function of one array; coordinates are kept. -/
def StatVar.map {V W : Type} (f : V → W) (a : StatVar L V) : StatVar L W := ⟨a.arr.map f, a.mask⟩

/-- Elementwise binary arithmetic. -/
noncomputable def StatVar.zipWith {U V W : Type} (f : V → W → U) (a : StatVar L V) (b : StatVar L W) : StatVar L U :=
  ⟨DA.zipWith f a.arr b.arr, combineMask a.mask b.mask⟩

end

namespace FV
variable {K : Type} [Field K] [LinearOrder K] [IsStrictOrderedRing K]

/-- `x ** 2`. -/
def sq (x : FV K) : FV K := x * x

/-- `np.sqrt`: NaN for negative numbers. -/
noncomputable def sqrt : FV ℝ → FV ℝ
  | nan => nan
  | inf true => nan
  | inf false => inf false
  | fin x => if x < 0 then nan else fin (Real.sqrt x)

/-- `x.where(c)`: NaN where the condition is False. -/
def keepIf (x : FV K) (c : Bool) : FV K := if c then x else nan

end FV

section statistics
variable {L K : Type} [DecidableEq L] [Field K] [LinearOrder K] [IsStrictOrderedRing K]

/-- `Error._compute_per_variable` (deterministic.py:94-100). -/
noncomputable def error (p t : StatVar L (FV K)) : StatVar L (FV K) := p.zipWith (· - ·) t

/-- `AbsoluteError._compute_per_variable` (deterministic.py:106-112). -/
noncomputable def absoluteError (p t : StatVar L (FV K)) : StatVar L (FV K) := (error p t).map FV.abs

/-- `SquaredError._compute_per_variable` (deterministic.py:118-123). -/
noncomputable def squaredError (p t : StatVar L (FV K)) : StatVar L (FV K) := (p.zipWith (· - ·) t).map FV.sq

/-- `PredictionPassthrough._compute_per_variable` (deterministic.py:138-147). `xr.zeros_like(targets)` is 0 also where
the targets are NaN. -/
noncomputable def predictionPassthrough (copyNans : Bool) (p t : StatVar L (FV K)) : StatVar L (FV K) :=
  let result := p.zipWith (· + ·) (t.map (fun _ => (0 : FV K)))
  if copyNans then result.zipWith FV.keepIf (t.map (fun v => !v.isnan)) else result

/-- `TargetPassthrough._compute_per_variable` (deterministic.py:162-171). -/
noncomputable def targetPassthrough (copyNans : Bool) (p t : StatVar L (FV K)) : StatVar L (FV K) :=
  predictionPassthrough copyNans t p

/-- `SquaredPredictionAnomaly` (deterministic.py:222-232), given the aligned climatology. -/
noncomputable def squaredPredictionAnomaly (p _t c : StatVar L (FV K)) : StatVar L (FV K) := (p.zipWith (· - ·) c).map FV.sq

/-- `SquaredTargetAnomaly` (deterministic.py:235-245). -/
noncomputable def squaredTargetAnomaly (_p t c : StatVar L (FV K)) : StatVar L (FV K) := (t.zipWith (· - ·) c).map FV.sq

/-- `AnomalyCovariance` (deterministic.py:248-259). -/
noncomputable def anomalyCovariance (p t c : StatVar L (FV K)) : StatVar L (FV K) :=
  (p.zipWith (· - ·) c).zipWith (· * ·) (t.zipWith (· - ·) c)

/-- `ErrorExceedance._compute_per_variable` (deterministic.py:281-295) for thresholds given as an array. -/
noncomputable def errorExceedance (thresholds : DA L (FV K)) (p t : StatVar L (FV K)) : StatVar L (FV K) :=
  let absError := (p.zipWith (· - ·) t).map FV.abs
  let th : StatVar L (FV K) := ⟨thresholds, none⟩
  let out := absError.zipWith (fun a h => FV.ofBool (FV.lt h a)) th
  let out := out.zipWith FV.keepIf (absError.map (fun v => !v.isnan))
  out.zipWith FV.keepIf (th.map (fun v => !v.isnan))

/-- `WindVectorSquaredError.__init__` (deterministic.py:180-199): the configured vectors. -/
def windVectors (u v vector : List String) : Except Err (List (String × String × String)) :=
  if u.length = v.length ∧ v.length = vector.length then .ok (u.zip (v.zip vector)) else .error .valueError

/-- `'_'.join(names)`. -/
def pyJoin (sep : String) : List String → String
  | [] => ""
  | [a] => a
  | a :: b :: l => a ++ sep ++ pyJoin sep (b :: l)

/-- The loop of `WindVectorSquaredError.compute` (deterministic.py:206-219). -/
noncomputable def windLoop (p t : Vars (StatVar L (FV K))) :
    List (String × String × String) → Vars (Option (StatVar L (FV K))) → Except Err (Vars (Option (StatVar L (FV K))))
  | [], out => .ok out
  | (u, v, vector) :: rest, out => do
    let pu ← pyItem p u
    let pv ← pyItem p v
    let tu ← pyItem t u
    let tv ← pyItem t v
    windLoop p t rest (pyInsert vector
      (some (((pu.zipWith (· - ·) tu).map FV.sq).zipWith (· + ·) ((pv.zipWith (· - ·) tv).map FV.sq))) out)

/-- `WindVectorSquaredError` (deterministic.py:174-219). -/
noncomputable def windVectorSquaredError (u v vector : List String) :
    Except Err (Statistic (StatVar L (FV K)) (Option (StatVar L (FV K)))) := do
  let vs ← windVectors u v vector
  return { uniqueName := "WindVectorSquaredError_" ++ pyJoin "_" vector, compute := fun p t => windLoop p t vs [] }

/-- A statistic from its `_compute_per_variable`. -/
def statOf (name : String) (f : StatVar L (FV K) → StatVar L (FV K) → StatVar L (FV K)) :
    Statistic (StatVar L (FV K)) (Option (StatVar L (FV K))) :=
  perVariableStatistic name (fun p t => .ok (some (some (f p t))))

/-- `Error` = `Bias`. -/
noncomputable def errorStatistic : Statistic (StatVar L (FV K)) (Option (StatVar L (FV K))) := statOf "Error" error
/-- `AbsoluteError` = `MAE`. -/
noncomputable def absoluteErrorStatistic : Statistic (StatVar L (FV K)) (Option (StatVar L (FV K))) :=
  statOf "AbsoluteError" absoluteError
/-- `SquaredError` = `MSE`. -/
noncomputable def squaredErrorStatistic : Statistic (StatVar L (FV K)) (Option (StatVar L (FV K))) :=
  statOf "SquaredError" squaredError
/-- `ErrorExceedance`. -/
noncomputable def errorExceedanceStatistic (thresholds : DA L (FV K)) : Statistic (StatVar L (FV K)) (Option (StatVar L (FV K))) :=
  statOf "ErrorExceedance" (errorExceedance thresholds)

/-- The type of the metrics modelled here. -/
abbrev FMetric (L K : Type) := Metric (StatVar L (FV K)) (Option (StatVar L (FV K))) (DA L (FV K))

end statistics

section metrics
variable {L : Type} [DecidableEq L]

/-- `RMSE` (deterministic.py:312-324). -/
noncomputable def rmse : FMetric L ℝ :=
  perVariableMetric [("SquaredError", squaredErrorStatistic)] (fun xs => do
    let x ← pyItem xs "SquaredError"
    return x.map FV.sqrt)

/-- `WindVectorRMSE` (deterministic.py:327-371). -/
noncomputable def windVectorRMSE (u v vector : List String) : Except Err (FMetric L ℝ) := do
  let st ← windVectorSquaredError u v vector
  return { statistics := [("WindVectorSquaredError", st)]
           valuesFromMeanStatistics := fun sv => do
             let x ← pyItem sv "WindVectorSquaredError"
             return x.map (fun kv => (kv.1, kv.2.map FV.sqrt)) }

/-- `PerVariableStatisticWithClimatology` (metrics/base.py:338-403) on dicts of arrays: unlike `PerVariableStatistic`, every
predicted variable must be in the climatology and in the targets (`KeyError`). `align` selects the climatology at the valid
times of a predictions array (metrics/base.py:375-400). -/
noncomputable def withClimatology (name : String) (clims : Vars (StatVar L (FV ℝ)))
    (align : StatVar L (FV ℝ) → StatVar L (FV ℝ) → Except Err (StatVar L (FV ℝ)))
    (f : StatVar L (FV ℝ) → StatVar L (FV ℝ) → StatVar L (FV ℝ) → StatVar L (FV ℝ)) :
    Statistic (StatVar L (FV ℝ)) (Option (StatVar L (FV ℝ))) :=
  { uniqueName := name
    compute := fun p t => do
      let cs ← p.mapM (fun kv => do let x ← pyItem clims kv.1; return (kv.1, x))
      p.mapM (fun kv => do
        let b ← pyItem t kv.1
        let c ← pyItem cs kv.1
        let al ← align kv.2 c
        return (kv.1, some (f kv.2 b al))) }

/-- The formula of `ACC` (deterministic.py:374-400). -/
noncomputable def accFormula (cov pp tt : DA L (FV ℝ)) : DA L (FV ℝ) :=
  DA.zipWith (· / ·) cov (DA.zipWith (· * ·) (pp.map FV.sqrt) (tt.map FV.sqrt))

/-- `ACC` (deterministic.py:374-400). -/
noncomputable def acc (clims : Vars (StatVar L (FV ℝ)))
    (align : StatVar L (FV ℝ) → StatVar L (FV ℝ) → Except Err (StatVar L (FV ℝ))) : FMetric L ℝ :=
  perVariableMetric [("SquaredPredictionAnomaly", withClimatology "SquaredPredictionAnomaly" clims align squaredPredictionAnomaly),
    ("SquaredTargetAnomaly", withClimatology "SquaredTargetAnomaly" clims align squaredTargetAnomaly),
    ("AnomalyCovariance", withClimatology "AnomalyCovariance" clims align anomalyCovariance)] (fun xs => do
    let cov ← pyItem xs "AnomalyCovariance"
    let pp ← pyItem xs "SquaredPredictionAnomaly"
    let tt ← pyItem xs "SquaredTargetAnomaly"
    return accFormula cov pp tt)

/-- `PredictionActivity` (deterministic.py:403-425). -/
noncomputable def predictionActivity (clims : Vars (StatVar L (FV ℝ)))
    (align : StatVar L (FV ℝ) → StatVar L (FV ℝ) → Except Err (StatVar L (FV ℝ))) : FMetric L ℝ :=
  perVariableMetric [("SquaredPredictionAnomaly", withClimatology "SquaredPredictionAnomaly" clims align squaredPredictionAnomaly)]
    (fun xs => do
      let x ← pyItem xs "SquaredPredictionAnomaly"
      return x.map FV.sqrt)

end metrics
end WBX
