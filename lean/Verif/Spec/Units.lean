import Verif.Spec.MetricsBase
import Verif.Spec.Aggregation
import Verif.Model.Deterministic

/-!
# Specification for C88: a change of units

The unit of variable `v` is changed by `x ↦ c v * x + d v` (Kelvin to Celsius: `1`, `-273.15`; Pascal to hectopascal:
`1/100`, `0`). NaN stays NaN, an infinity stays an infinity.
-/

namespace WBX
variable {L K : Type} [DecidableEq L] [Field K] [LinearOrder K] [IsStrictOrderedRing K]

/-- One number in the new unit. -/
def FV.affine (c d : K) (x : FV K) : FV K := FV.fin c * x + FV.fin d

/-- One number multiplied by a factor. -/
def FV.times (k : K) (x : FV K) : FV K := FV.fin k * x

/-- All variables of one side in new units; names, dimensions, labels and masks are kept. -/
def changeUnits (c d : String → K) (vs : Vars (StatVar L (FV K))) : Vars (StatVar L (FV K)) :=
  vs.map (fun kv => (kv.1, kv.2.map (FV.affine (c kv.1) (d kv.1))))

/-- Values of a metric multiplied by a factor per variable. -/
def scaleValues (k : String → K) (vs : Vars (DA L (FV K))) : Vars (DA L (FV K)) :=
  vs.map (fun kv => (kv.1, kv.2.map (FV.times (k kv.1))))

/-- A change of units of the inputs multiplies every value of the metric by the factor of its variable, and changes neither
names, dimensions nor labels, nor which errors are raised. -/
def Metric.ScalesBy (m : FMetric L K) (agg : Aggregator L (FV K)) (c d k : String → K) : Prop :=
  ∀ p t, metricAlone m agg (changeUnits c d p) (changeUnits c d t) = (metricAlone m agg p t).map (scaleValues k)

end WBX
