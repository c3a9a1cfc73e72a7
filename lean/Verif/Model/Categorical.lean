import Verif.Model.Deterministic
import Mathlib.Analysis.SpecialFunctions.Log.Basic

/-!
# Model of `/repo/weatherbenchX/metrics/categorical.py`

`float32` casts are the identity here. The skill-of-opportunity statistics (`Confident`, `Covered`, `JaccardDistant`) are in
`Verif.Model.Opportunism`.
-/

namespace WBX
open Classical

namespace FV
variable {K : Type} [Field K] [LinearOrder K] [IsStrictOrderedRing K]

/-- `x.astype(bool)`: everything but 0 is True, also NaN. -/
def toBool : FV K → Bool
  | fin x => decide (x ≠ 0)
  | _ => true

/-- `np.log`: `-∞` at 0, NaN for negative numbers. -/
noncomputable def log : FV ℝ → FV ℝ
  | nan => nan
  | inf true => nan
  | inf false => inf false
  | fin x => if x < 0 then nan else if x = 0 then inf true else fin (Real.log x)

/-- `x.clip(lo, hi)` with finite bounds; NaN is kept. -/
def clip (lo hi : K) : FV K → FV K
  | nan => nan
  | inf true => fin lo
  | inf false => fin hi
  | fin x => fin (min (max x lo) hi)

end FV

section
variable {L K : Type} [DecidableEq L] [Field K] [LinearOrder K] [IsStrictOrderedRing K]

/-- Common form of the four contingency statistics: a boolean function of both sides, NaN where the product of
predictions and targets is NaN. -/
noncomputable def contingency (f : Bool → Bool → Bool) (p t : StatVar L (FV K)) : StatVar L (FV K) :=
  let b : StatVar L (FV K) := (p.map FV.toBool).zipWith (fun x y => FV.ofBool (f x y)) (t.map FV.toBool)
  b.zipWith FV.keepIf ((p.zipWith (· * ·) t).map (fun v => !v.isnan))

/-- `TruePositives._compute_per_variable` (categorical.py:31-41). -/
noncomputable def truePositives : StatVar L (FV K) → StatVar L (FV K) → StatVar L (FV K) := contingency (fun p t => p && t)
/-- `TrueNegatives._compute_per_variable` (categorical.py:51-61). -/
noncomputable def trueNegatives : StatVar L (FV K) → StatVar L (FV K) → StatVar L (FV K) := contingency (fun p t => !p && !t)
/-- `FalsePositives._compute_per_variable` (categorical.py:71-81). -/
noncomputable def falsePositives : StatVar L (FV K) → StatVar L (FV K) → StatVar L (FV K) := contingency (fun p t => p && !t)
/-- `FalseNegatives._compute_per_variable` (categorical.py:91-100). -/
noncomputable def falseNegatives : StatVar L (FV K) → StatVar L (FV K) → StatVar L (FV K) := contingency (fun p t => !p && t)

/-- The type of the statistics modelled here. -/
abbrev FStatistic (L K : Type) := Statistic (StatVar L (FV K)) (Option (StatVar L (FV K)))

/-- `TruePositives` (categorical.py:24-41). -/
noncomputable def tpStatistic : FStatistic L K := statOf "TruePositives" truePositives
/-- `TrueNegatives` (categorical.py:44-61). -/
noncomputable def tnStatistic : FStatistic L K := statOf "TrueNegatives" trueNegatives
/-- `FalsePositives` (categorical.py:64-81). -/
noncomputable def fpStatistic : FStatistic L K := statOf "FalsePositives" falsePositives
/-- `FalseNegatives` (categorical.py:84-100). -/
noncomputable def fnStatistic : FStatistic L K := statOf "FalseNegatives" falseNegatives

/-- A `PerVariableMetric` with two statistics. -/
def metric2 (s1 s2 : String × FStatistic L K) (f : DA L (FV K) → DA L (FV K) → DA L (FV K)) : FMetric L K :=
  perVariableMetric [s1, s2] (fun xs => do
    let x ← pyItem xs s1.1
    let y ← pyItem xs s2.1
    return f x y)

/-- A `PerVariableMetric` with three statistics. -/
def metric3 (s1 s2 s3 : String × FStatistic L K)
    (f : DA L (FV K) → DA L (FV K) → DA L (FV K) → DA L (FV K)) : FMetric L K :=
  perVariableMetric [s1, s2, s3] (fun xs => do
    let x ← pyItem xs s1.1
    let y ← pyItem xs s2.1
    let z ← pyItem xs s3.1
    return f x y z)

/-- A `PerVariableMetric` with four statistics. -/
def metric4 (s1 s2 s3 s4 : String × FStatistic L K)
    (f : DA L (FV K) → DA L (FV K) → DA L (FV K) → DA L (FV K) → DA L (FV K)) : FMetric L K :=
  perVariableMetric [s1, s2, s3, s4] (fun xs => do
    let x ← pyItem xs s1.1
    let y ← pyItem xs s2.1
    let z ← pyItem xs s3.1
    let w ← pyItem xs s4.1
    return f x y z w)

namespace DA
/-- Elementwise `+`. -/
def add (a b : DA L (FV K)) : DA L (FV K) := zipWith (· + ·) a b
/-- Elementwise `-`. -/
def sub (a b : DA L (FV K)) : DA L (FV K) := zipWith (· - ·) a b
/-- Elementwise `*`. -/
def mul (a b : DA L (FV K)) : DA L (FV K) := zipWith (· * ·) a b
/-- Elementwise `/`. -/
def div (a b : DA L (FV K)) : DA L (FV K) := zipWith (· / ·) a b
/-- `c * a` for a Python number. -/
def smul (c : K) (a : DA L (FV K)) : DA L (FV K) := a.map (fun x => FV.fin c * x)
end DA

/-- `CSI` (categorical.py:344-369). -/
noncomputable def csi : FMetric L K :=
  metric3 ("TruePositives", tpStatistic) ("FalsePositives", fpStatistic) ("FalseNegatives", fnStatistic)
    (fun tp fp fn => tp.div ((tp.add fp).add fn))

/-- `Accuracy` (categorical.py:372-399). -/
noncomputable def accuracy : FMetric L K :=
  metric4 ("TruePositives", tpStatistic) ("FalsePositives", fpStatistic) ("FalseNegatives", fnStatistic)
    ("TrueNegatives", tnStatistic) (fun tp fp fn tn => (tp.add tn).div (((tp.add fp).add fn).add tn))

/-- `Recall` (categorical.py:402-422). -/
noncomputable def recall : FMetric L K :=
  metric2 ("TruePositives", tpStatistic) ("FalseNegatives", fnStatistic) (fun tp fn => tp.div (tp.add fn))

/-- `FalseAlarmRate` (categorical.py:425-445). -/
noncomputable def falseAlarmRate : FMetric L K :=
  metric2 ("TruePositives", tpStatistic) ("FalsePositives", fpStatistic) (fun tp fp => fp.div (tp.add fp))

/-- `Precision` (categorical.py:448-468). -/
noncomputable def precision : FMetric L K :=
  metric2 ("TruePositives", tpStatistic) ("FalsePositives", fpStatistic) (fun tp fp => tp.div (tp.add fp))

/-- `F1Score` (categorical.py:471-499). -/
noncomputable def f1Score : FMetric L K :=
  metric3 ("TruePositives", tpStatistic) ("FalsePositives", fpStatistic) ("FalseNegatives", fnStatistic)
    (fun tp fp fn => (tp.smul 2).div (((tp.smul 2).add fp).add fn))

/-- `FrequencyBias` (categorical.py:502-523). -/
noncomputable def frequencyBias : FMetric L K :=
  metric3 ("TruePositives", tpStatistic) ("FalsePositives", fpStatistic) ("FalseNegatives", fnStatistic)
    (fun tp fp fn => (tp.add fp).div (tp.add fn))

/-- `HSS` (categorical.py:526-552). -/
noncomputable def hss : FMetric L K :=
  metric4 ("TruePositives", tpStatistic) ("FalsePositives", fpStatistic) ("FalseNegatives", fnStatistic)
    ("TrueNegatives", tnStatistic) (fun tp fp fn tn =>
      let numerator := ((tp.mul tn).sub (fp.mul fn)).smul 2
      let denominator := ((tp.add fn).mul (fn.add tn)).add ((tp.add fp).mul (fp.add tn))
      numerator.div denominator)

/-- `ETS` (categorical.py:555-586). -/
noncomputable def ets : FMetric L K :=
  metric4 ("TruePositives", tpStatistic) ("FalsePositives", fpStatistic) ("FalseNegatives", fnStatistic)
    ("TrueNegatives", tnStatistic) (fun tp fp fn tn =>
      let allSum := ((tp.add fp).add fn).add tn
      let tpRandom := ((tp.add fp).mul (tp.add fn)).div allSum
      (tp.sub tpRandom).div (((tp.add fp).add fn).sub tpRandom))

/-- `RankedProbabilityScore._compute_per_variable` (categorical.py:335-340). `DataArray.sum` skips NaN by default; a missing
dimension is a `ValueError`. -/
noncomputable def rankedProbabilityScore (binDim : Dim) (p t : StatVar L (FV K)) : Except Err (Option (Option (StatVar L (FV K)))) :=
  let sq := (p.zipWith (· - ·) t).map FV.sq
  if binDim ∈ sq.arr.dims then
    .ok (some (some ⟨DA.sumDim binDim (sq.arr.map (fun x => if x.isnan then 0 else x)), sq.mask⟩))
  else .error .valueError

/-- `RankedProbabilityScore` (categorical.py:306-340). -/
noncomputable def rpsStatistic (binDim : Dim) : FStatistic L K :=
  perVariableStatistic "RankedProbabilityScore" (rankedProbabilityScore binDim)

/-! ### SEEPS -/

/-- The categories 'dry', 'light', 'heavy'. -/
inductive SeepsCat where
  | dry | light | heavy
  deriving DecidableEq

/-- `SEEPS._convert_precip_to_seeps_cat` (categorical.py:208-231): the component `c` of the category vector of `x`. -/
def seepsCat (dryThresholdMm : K) (wet x : FV K) (c : SeepsCat) : FV K :=
  let dryThreshold : FV K := FV.fin (dryThresholdMm / 1000)
  let v : Bool := match c with
    | .dry => FV.le x dryThreshold
    | .light => FV.lt dryThreshold x && FV.lt x wet
    | .heavy => FV.le wet x
  FV.keepIf (FV.ofBool v) (!x.isnan)

/-- The scoring matrix (categorical.py:269-282), including the factor 0.5. -/
def seepsMatrix (p1 : FV K) (forecast truth : SeepsCat) : FV K :=
  let one : FV K := FV.fin 1
  let e : FV K := match forecast, truth with
    | .dry, .dry => 0
    | .dry, .light => one / (one - p1)
    | .dry, .heavy => FV.fin 4 / (one - p1)
    | .light, .dry => one / p1
    | .light, .light => 0
    | .light, .heavy => FV.fin 3 / (one - p1)
    | .heavy, .dry => one / p1 + FV.fin 3 / (FV.fin 2 + p1)
    | .heavy, .light => FV.fin 3 / (FV.fin 2 + p1)
    | .heavy, .heavy => 0
  FV.fin (1 / 2) * e

/-- All categories. -/
def seepsCats : List SeepsCat := [.dry, .light, .heavy]

/-- The dot product of contingency table and scoring matrix at one cell (categorical.py:255-259, 285, 288). -/
def seepsScore (dryThresholdMm : K) (p1 wet forecast truth : FV K) : FV K :=
  (seepsCats.flatMap (fun f => seepsCats.map (fun t =>
    (seepsCat dryThresholdMm wet forecast f * seepsCat dryThresholdMm wet truth t) * seepsMatrix p1 f t))).sum

/-- The part of `SEEPS._compute_seeps_per_variable` (categorical.py:236-300) after the climatology has been selected: `wet` is
the wet threshold at the valid times and `p1` the mean dry fraction. -/
noncomputable def seepsPerVariable (dryThresholdMm minP1 maxP1 : K) (wet p1 : DA L (FV K)) (p t : StatVar L (FV K)) :
    Except Err (StatVar L (FV K)) :=
  let quad : DA L (FV K × FV K × FV K × FV K) :=
    DA.zipWith (fun (x : FV K × FV K) (y : FV K × FV K) => (x.1, x.2, y.1, y.2))
      (DA.zipWith Prod.mk p.arr t.arr) (DA.zipWith Prod.mk wet p1)
  let result := quad.map (fun x => seepsScore dryThresholdMm x.2.2.2 x.2.2.1 x.1 x.2.1)
  let inRange := p1.map (fun x => FV.le (FV.fin minP1) x && FV.le x (FV.fin maxP1))
  let masked := DA.zipWith FV.keepIf result inRange
  match p.mask, t.mask with
  | some _, some _ => .error .valueError
  | some m, none => .ok ⟨masked, some (DA.zipWith (· && ·) inRange m)⟩
  | none, some m => .ok ⟨masked, some (DA.zipWith (· && ·) inRange m)⟩
  | none, none => .ok ⟨masked, some inRange⟩

/-- The climatology for one variable: wet threshold and dry fraction. -/
structure SeepsClimatology (L K : Type) where
  threshold : DA L (FV K)
  dryFraction : DA L (FV K)

/-- The loop of `SEEPS.compute` (categorical.py:190-206). `select` is the selection of the wet threshold at the valid times of
the predictions (237-242) and `meanP1` the mean of the dry fraction over the year (257-261). -/
noncomputable def seepsLoop (clim : Vars (SeepsClimatology L K))
    (select : StatVar L (FV K) → DA L (FV K) → Except Err (DA L (FV K))) (meanP1 : DA L (FV K) → Except Err (DA L (FV K)))
    (p t : Vars (StatVar L (FV K))) :
    List (String × K × K × K) → Vars (Option (StatVar L (FV K))) → Except Err (Vars (Option (StatVar L (FV K))))
  | [], out => .ok out
  | (v, dryMm, minP1, maxP1) :: rest, out => do
    let a ← pyItem p v
    let b ← pyItem t v
    let c ← pyItem clim v
    let wet ← select a c.threshold
    let p1 ← meanP1 c.dryFraction
    let r ← seepsPerVariable dryMm minP1 maxP1 wet p1 a b
    seepsLoop clim select meanP1 p t rest (pyInsert v (some r) out)

/-- `SEEPS` (categorical.py:104-206): lists of different lengths fail an assertion. `name` is the unique name. -/
noncomputable def seeps (name : String) (names : List String) (dryMm minP1 maxP1 : List K)
    (clim : Vars (SeepsClimatology L K)) (select : StatVar L (FV K) → DA L (FV K) → Except Err (DA L (FV K)))
    (meanP1 : DA L (FV K) → Except Err (DA L (FV K))) : Except Err (FStatistic L K) :=
  if names.length = dryMm.length ∧ dryMm.length = minP1.length ∧ minP1.length = maxP1.length then
    .ok { uniqueName := name
          compute := fun p t => seepsLoop clim select meanP1 p t (names.zip (dryMm.zip (minP1.zip maxP1))) [] }
  else .error .assertionError

end

section
variable {L : Type} [DecidableEq L]

/-- The formula of `SEDI` (categorical.py:609-634). -/
noncomputable def sediFormula (tp fp fn tn : DA L (FV ℝ)) : DA L (FV ℝ) :=
  let h := (tp.div (tp.add fn)).map (FV.clip (1 / 1000000) (1 - 1 / 1000000))
  let f := (fp.div (fp.add tn)).map (FV.clip (1 / 1000000) (1 - 1 / 1000000))
  let logH := h.map FV.log
  let logF := f.map FV.log
  let logH' := (h.map (fun x => FV.fin 1 - x)).map FV.log
  let logF' := (f.map (fun x => FV.fin 1 - x)).map FV.log
  (((logF.sub logH).add logH').sub logF').div (((logH.add logF).add logH').add logF')

/-- `SEDI` as a metric (categorical.py:589-634). -/
noncomputable def sedi : FMetric L ℝ :=
  metric4 ("TruePositives", tpStatistic) ("FalsePositives", fpStatistic) ("FalseNegatives", fnStatistic)
    ("TrueNegatives", tnStatistic) sediFormula

end
end WBX
