import Verif.Props.HiddenCases
import Verif.Props.SamplesEnsemble

/-!
# C109: the CRPS does not leave out masked cases
-/

set_option linter.unusedSectionVars false

namespace WBX
open DA Aggregator

section general
variable {L V : Type} [DecidableEq L] [AddCommMonoid V] [Mul V] [One V] [IsNull V]

/-- **C109** ★ Statistics without a mask are aggregated over all cases also in an evaluation with masks. -/
theorem C109_unmasked_statistic (agg : Aggregator L V) {s : StatVar L V} (hs : s.mask = none) : agg.aggregateStatVar s = Aggregator.aggregateStatVar { agg with masked := false } s := by
  obtain ⟨a, m⟩ := s
  cases hs
  have h : agg.applyMask ⟨a, none⟩ = Aggregator.applyMask { agg with masked := false } ⟨a, none⟩ := by
    unfold applyMask
    cases agg.masked <;> rfl
  unfold aggregateStatVar
  rw [h]
  rfl

end general

section spread
variable {L K : Type} [DecidableEq L] [Field K] [LinearOrder K] [IsStrictOrderedRing K] {d : Dim}

private theorem sizeDim_unmasked {skipna : Bool} {a n : StatVar L (FV K)} (ha : a.mask = none) (h : a.sizeDim skipna d = .ok n) : n.mask = none := by
  unfold StatVar.sizeDim at h
  split at h
  · cases skipna
    · cases h; rfl
    · cases h
      show dropMask d a.mask = none
      rw [ha]; rfl
  · cases h

/-- **C109** ★ The spread of unmasked forecasts has no mask, whatever the observations hide: it is averaged over the hidden cases, too. -/
theorem C109_spread_unmasked (argsort : List (FV K) → List ℕ) (order : List L) (useSort fair skipna : Bool) {p t s : StatVar L (FV K)} (hp : p.mask = none)
    (h : crpsSpread argsort order d useSort fair "predictions" skipna p t = .ok s) : s.mask = none := by
  unfold crpsSpread at h
  obtain ⟨da, h1, h⟩ := bind_ok_iff.mp h
  cases h1
  obtain ⟨n, hn, h⟩ := bind_ok_iff.mp h
  have hnm := sizeDim_unmasked hp hn
  split at h
  · cases h
  · dsimp only at h
    by_cases hu : useSort = true
    · rw [if_pos hu] at h
      by_cases hk : skipna = true
      · rw [if_pos hk] at h
        cases h
      · rw [if_neg hk] at h
        obtain ⟨m, hm, h⟩ := bind_ok_iff.mp h
        have hmm : m.mask = none := by
          unfold StatVar.meanDim at hm
          split at hm
          · cases hm
            show dropMask d (combineMask (combineMask p.mask n.mask) p.mask) = none
            rw [hp, hnm]; rfl
          · cases hm
        cases h
        show combineMask m.mask n.mask = none
        rw [hmm, hnm]; rfl
    · rw [if_neg hu] at h
      obtain ⟨da2, h2, h⟩ := bind_ok_iff.mp h
      have h2m : da2.mask = none := by
        unfold StatVar.rename at h2
        split at h2
        · cases h2
          show p.mask.map _ = none
          rw [hp]; rfl
        · cases h2
      cases h
      show combineMask (dropMask _ (dropMask _ (combineMask p.mask da2.mask))) (combineMask n.mask n.mask) = none
      rw [hp, h2m, hnm]; rfl

/-- **C109** ★ So has the variance of unmasked forecasts: the spread-skill ratio compares the variance of all cases with the error of those that are not hidden. -/
theorem C109_variance_unmasked {skipna : Bool} {p s : StatVar L (FV K)} (hp : p.mask = none) (h : p.varDim skipna d = .ok s) : s.mask = none := by
  unfold StatVar.varDim at h
  split at h
  · cases h
    show dropMask d p.mask = none
    rw [hp]; rfl
  · cases h

end spread

section witness

/-- Two forecasts with two members each: 0 and 0 at time 0, 0 and 2 at time 1. -/
def spreadForecast : StatVar ℕ (FV ℚ) := ⟨⟨{"time", "realization"}, fun _ => {0, 1}, fun e => if e "time" = 1 ∧ e "realization" = 1 then .fin 2 else .fin 0⟩, none⟩

/-- The observation is 0 at time 0 and missing at time 1. -/
def missingObservation : StatVar ℕ (FV ℚ) := ⟨⟨{"time"}, fun _ => {0, 1}, fun e => if e "time" = 1 then .nan else .fin 0⟩, some ⟨{"time"}, fun _ => {0, 1}, fun e => decide (e "time" ≠ 1)⟩⟩

/-- The masked evaluation averages over time. -/
def overTime : Aggregator ℕ (FV ℚ) := ⟨["time"], [], [], false, true⟩

/-- **C109** ★ The hidden case is not left out of the CRPS: the forecast at time 0 is perfect and the observation at time 1 is missing, but the CRPS is -1/4 (less than the least possible one, zero), since the spread at time 1 is still subtracted.
Without the hidden case it is 0. -/
theorem C109_crps_negative : ∃ r r', metricAlone (crpsEnsemble (fun _ => []) [] "realization" false false false) overTime [("t2m", spreadForecast)] [("t2m", missingObservation)] = .ok [("t2m", r)] ∧
    metricAlone (crpsEnsemble (fun _ => []) [] "realization" false false false) overTime (chunkVars "time" {0} [("t2m", spreadForecast)]) (chunkVars "time" {0} [("t2m", missingObservation)]) = .ok [("t2m", r')] ∧
    r.val (fun _ => 0) = .fin (-1 / 4) ∧ r'.val (fun _ => 0) = .fin 0 :=
  ⟨_, _, rfl, rfl, by decide +kernel, by decide +kernel⟩

/-- The data are as in `C109_deterministic`. -/
example : HidesCases "time" ({0, 1} : Finset ℕ) {0} [("t2m", spreadForecast)] [("t2m", missingObservation)] := by
  refine ⟨fun v a ha => ?_, fun v a ha => ?_⟩
  · obtain ⟨rfl, rfl⟩ := Prod.mk.inj (List.mem_singleton.1 ha)
    exact ⟨by simp [spreadForecast], rfl, rfl⟩
  · obtain ⟨rfl, rfl⟩ := Prod.mk.inj (List.mem_singleton.1 ha)
    refine ⟨by simp [missingObservation], rfl, _, rfl, by simp, rfl, fun e h1 h2 => ?_⟩
    simp only [Finset.mem_insert, Finset.mem_singleton] at h1 h2
    simp only [decide_eq_false_iff_not, not_not]
    omega

end witness
end WBX
