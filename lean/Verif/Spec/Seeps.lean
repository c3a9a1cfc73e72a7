import Verif.Model.Categorical

/-!
# Specification of SEEPS (Rodwell et al. 2010)
-/

namespace WBX
variable {K : Type} [Field K] [LinearOrder K] [IsStrictOrderedRing K]

/-- The precipitation category of an amount. -/
def seepsClass (dry wet x : K) : SeepsCat := if x ≤ dry then .dry else if x < wet then .light else .heavy

/-- The SEEPS error matrix for a climatological dry probability `p`, rows = forecast, columns = observation. -/
def seepsTable (p : K) : SeepsCat → SeepsCat → K
  | .dry, .dry => 0
  | .dry, .light => 1 / (2 * (1 - p))
  | .dry, .heavy => 2 / (1 - p)
  | .light, .dry => 1 / (2 * p)
  | .light, .light => 0
  | .light, .heavy => 3 / (2 * (1 - p))
  | .heavy, .dry => 1 / (2 * p) + 3 / (2 * (2 + p))
  | .heavy, .light => 3 / (2 * (2 + p))
  | .heavy, .heavy => 0

/-- The climatological category probabilities: light precipitation is twice as likely as heavy. -/
def seepsClimProb (p : K) : SeepsCat → K
  | .dry => p
  | .light => 2 * (1 - p) / 3
  | .heavy => (1 - p) / 3

end WBX
