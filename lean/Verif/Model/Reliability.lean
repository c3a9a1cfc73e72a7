import Verif.Model.Wrappers

/-!
# Model of the reliability curve (`/repo/weatherbenchX/metrics/categorical.py:637-697`)
-/

namespace WBX
open DA
variable {L K : Type} [DecidableEq L] [Field K] [LinearOrder K] [IsStrictOrderedRing K]

/-- `Reliability` (categorical.py:637-697) for a sequence of bin edges. -/
noncomputable def reliability (tm : TimeLabels L) (label : FV K → L) (binName : L → L → L) (ts : List (FV K)) (d : Dim) (str : FV K → String)
    (suffix : Option String) : Except Err (FMetric L K) := do
  let tr ← continuousToBins tm label binName "predictions" (.list ts) (ts.map label) d true str suffix
  return metric2 ("TruePositives", wrappedStatistic tpStatistic tr) ("FalsePositives", wrappedStatistic fpStatistic tr) (fun tp fp => tp.div (tp.add fp))

end WBX
