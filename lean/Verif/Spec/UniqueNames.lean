import Verif.Model.Wrappers
import Verif.Model.EconomicValue
import Verif.Model.Wasserstein
import Verif.Model.Spatial

/-!
# Specification for C101: the statistics of an evaluation and their settings

`Shipped` lists statistics of the package together with those arguments of their constructors that the unique name mentions;
`Hidden` holds the arguments the unique name does *not* mention.
-/

namespace WBX

/-- Which of the inputs a transform applies to. -/
inductive Side
  | predictions
  | targets
  | both
  deriving DecidableEq

/-- The argument `which` of `InputTransform` for a side. -/
def Side.text : Side → String
  | .predictions => "predictions"
  | .targets => "targets"
  | .both => "both"

/-- The statistics without any argument. -/
inductive Pointwise
  | error
  | absoluteError
  | squaredError
  | truePositives
  | trueNegatives
  | falsePositives
  | falseNegatives
  deriving DecidableEq

/-- A statistic of an evaluation: its class and the arguments that its unique name mentions. -/
inductive Shipped
  /-- one of the pointwise statistics -/
  | pointwise (b : Pointwise)
  /-- `EnsembleAveragedStatistic` of a pointwise statistic -/
  | each (b : Pointwise) (d : Dim)
  /-- a pointwise statistic wrapped with `EnsembleMean` -/
  | onMean (b : Pointwise) (side : Side) (d : Dim) (skipna : Bool)
  /-- `ErrorExceedance` -/
  | exceedance
  /-- `RankedProbabilityScore` -/
  | rps
  /-- `EnsembleRankedProbabilityScore` of one ensemble dimension -/
  | ensembleRPS (skipna fair : Bool) (suffix : String)
  /-- `CRPSSkill` -/
  | crpsSkill (d : Dim)
  /-- `CRPSSpread` of the predictions or of the targets -/
  | crpsSpread (d : Dim) (fair ofTargets : Bool)
  /-- `EnsembleVariance` -/
  | variance (d : Dim) (skipna : Bool)
  /-- `UnbiasedEnsembleMeanSquaredError` -/
  | unbiasedMSE (d : Dim) (skipna : Bool)
  /-- `WassersteinDistance` -/
  | wasserstein (d : Dim)
  /-- `RankHistogram` -/
  | rankHistogram (d : Dim)
  deriving DecidableEq

/-- The arguments of the constructors that no unique name mentions, and the ensemble dimension of
`EnsembleRankedProbabilityScore`, which its unique name cannot tell from the suffix (`C101_rps_ambiguous`). -/
structure Hidden (L K : Type) where
  /-- thresholds of `ErrorExceedance` -/
  thresholds : DA L (FV K)
  /-- bin dimension of `RankedProbabilityScore` -/
  binDim : Dim
  /-- the transforms of `EnsembleRankedProbabilityScore` behind a suffix, for predictions and targets -/
  encodeP : String → InputTransform L K
  encodeT : String → InputTransform L K
  /-- bin dimension of `EnsembleRankedProbabilityScore` -/
  binDim' : Dim
  /-- ensemble dimension of `EnsembleRankedProbabilityScore` -/
  rpsDim : Dim
  /-- `skipna_ensemble` of `CRPSSkill` and `CRPSSpread` -/
  skipnaSkill : Bool
  skipnaSpread : Bool
  /-- `use_sort` of `CRPSSpread` -/
  useSort : Bool
  /-- `skip_if_ensemble_dim_missing` of `EnsembleMean` -/
  skipIfMissing : Bool
  /-- `skipna` of `EnsembleAveragedStatistic` -/
  skipnaEach : Bool
  /-- numpy's sort, the order of the members, the label of a rank -/
  argsort : List (FV K) → List ℕ
  order : List L
  number : ℕ → L

section
variable {L K : Type} [DecidableEq L] [Field K] [LinearOrder K] [IsStrictOrderedRing K]

/-- The statistic object of the package. -/
noncomputable def Pointwise.statistic : Pointwise → FStatistic L K
  | .error => errorStatistic
  | .absoluteError => absoluteErrorStatistic
  | .squaredError => squaredErrorStatistic
  | .truePositives => tpStatistic
  | .trueNegatives => tnStatistic
  | .falsePositives => fpStatistic
  | .falseNegatives => fnStatistic

/-- The statistic object of the package. -/
noncomputable def Shipped.statistic (h : Hidden L K) : Shipped → FStatistic L K
  | .pointwise b => b.statistic
  | .each b d => ensembleAveragedStatistic d h.skipnaEach b.statistic
  | .onMean b side d skipna => match ensembleMean side.text d skipna h.skipIfMissing with
    | .ok tr => wrappedStatistic b.statistic tr
    | .error _ => b.statistic
  | .exceedance => errorExceedanceStatistic h.thresholds
  | .rps => rpsStatistic h.binDim
  | .ensembleRPS skipna fair suffix => ensembleRPSStatistic (h.encodeP suffix) (h.encodeT suffix) h.binDim' h.rpsDim skipna fair suffix
  | .crpsSkill d => crpsSkillStatistic d h.skipnaSkill
  | .crpsSpread d fair ofTargets => crpsSpreadStatistic h.argsort h.order d h.useSort fair (if ofTargets then "targets" else "predictions") h.skipnaSpread
  | .variance d skipna => ensembleVarianceStatistic d skipna
  | .unbiasedMSE d skipna => unbiasedMSEStatistic d skipna
  | .wasserstein d => wassersteinStatistic d
  | .rankHistogram d => rankHistogramStatistic h.number d

end
end WBX
