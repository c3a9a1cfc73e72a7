import Verif.Props.HiddenEnsemble

/-!
# C109: the CRPS of forecasts that carry the mask of the observations
-/

set_option linter.unusedSectionVars false

namespace WBX
open DA Aggregator

/-- Forecasts and observations of a variable carry the same mask, which does not depend on the ensemble dimension `k` and hides everything at the cases outside `S`; the observations have no members. -/
structure CarriesMasks {L V : Type} [DecidableEq L] (d k : Dim) (C S : Finset L) (μ : String → DA L Bool) (p t : Vars (StatVar L V)) : Prop where
  predictions : ∀ v a, (v, a) ∈ p → d ∈ a.arr.dims ∧ a.arr.coords d = C ∧ a.mask = some (μ v) ∧ k ∉ (μ v).dims
  targets : ∀ v a, (v, a) ∈ t → d ∈ a.arr.dims ∧ a.arr.coords d = C ∧ a.mask = some (μ v) ∧ k ∉ a.arr.dims
  masks : ∀ v, d ∈ (μ v).dims ∧ (μ v).coords d = C ∧ ∀ e : Dim → L, e d ∈ C → e d ∉ S → (μ v).val e = false

section
variable {L : Type} [DecidableEq L] {d k k' : Dim} {C S : Finset L} {mk : DA L Bool}

/-- Values with the cases, and the mask `mk`. -/
private structure With (d : Dim) (C : Finset L) (mk : DA L Bool) {V : Type} (a : StatVar L V) : Prop where
  has : d ∈ a.arr.dims
  labels : a.arr.coords d = C
  mask : a.mask = some mk

/-- Values that go with such values. -/
private structure Fits (d : Dim) (C : Finset L) (mk : DA L Bool) {V : Type} (a : StatVar L V) : Prop where
  labels : d ∈ a.arr.dims → a.arr.coords d = C
  mask : a.mask = none ∨ a.mask = some mk

variable {U V W : Type}

private theorem With.fits {a : StatVar L V} (h : With d C mk a) : Fits d C mk a := ⟨fun _ => h.labels, .inr h.mask⟩

private theorem With.map {a : StatVar L V} (f : V → W) (h : With d C mk a) : With d C mk (a.map f) := ⟨h.has, h.labels, h.mask⟩

private theorem Fits.map {a : StatVar L V} (f : V → W) (h : Fits d C mk a) : Fits d C mk (a.map f) := ⟨h.labels, h.mask⟩

private theorem With.zip {a : StatVar L V} {b : StatVar L W} (f : V → W → U) (ha : With d C mk a) (hb : Fits d C mk b) : With d C mk (a.zipWith f b) := by
  refine ⟨Finset.mem_union_left _ ha.has, ?_, ?_⟩
  · show joinCoords a.arr b.arr d = C
    unfold joinCoords
    rw [if_pos ha.has, ha.labels]
    split
    · next h => rw [hb.labels h, Finset.inter_self]
    · rfl
  · show combineMask a.mask b.mask = _
    rw [ha.mask]
    rcases hb.mask with h | h <;> rw [h] <;> simp [combineMask]

private theorem Fits.zip {a : StatVar L V} {b : StatVar L W} (f : V → W → U) (ha : Fits d C mk a) (hb : Fits d C mk b) : Fits d C mk (a.zipWith f b) := by
  refine ⟨fun hd => ?_, ?_⟩
  · show joinCoords a.arr b.arr d = C
    unfold joinCoords
    split
    · next h =>
      rw [ha.labels h]
      split
      · next h' => rw [hb.labels h', Finset.inter_self]
      · rfl
    · next h => exact hb.labels ((Finset.mem_union.1 hd).resolve_left h)
  · exact combineMask_in ha.mask hb.mask

private theorem With.reduce {a : StatVar L V} (f : Finset L → (L → V) → W) (hk : k ≠ d) (hm : k ∉ mk.dims) (ha : With d C mk a) : With d C mk (a.reduce k f) := by
  refine ⟨Finset.mem_erase.2 ⟨hk.symm, ha.has⟩, ha.labels, ?_⟩
  show dropMask k a.mask = _
  rw [ha.mask]
  show (if k ∈ mk.dims then none else some mk) = _
  rw [if_neg hm]

private theorem With.rename {a b : StatVar L V} (hk : k ≠ d) (hk' : k' ≠ d) (hm : k ∉ mk.dims) (ha : With d C mk a) (h : a.rename k k' = .ok b) : With d C mk b := by
  unfold StatVar.rename at h
  split at h
  · next hc =>
    cases h
    refine ⟨?_, ?_, ?_⟩
    · show d ∈ (a.arr.rename k k').dims
      unfold DA.rename
      rw [if_pos hc.1]
      exact Finset.mem_insert_of_mem (Finset.mem_erase.2 ⟨hk.symm, ha.has⟩)
    · show (a.arr.rename k k').coords d = C
      unfold DA.rename
      rw [if_pos hc.1]
      show (if d = k' then a.arr.coords k else a.arr.coords d) = C
      rw [if_neg hk'.symm, ha.labels]
    · show a.mask.map _ = _
      rw [ha.mask]
      show some (mk.rename k k') = some mk
      unfold DA.rename
      rw [if_neg hm]
  · cases h

variable {K : Type} [Field K] [LinearOrder K] [IsStrictOrderedRing K]

private theorem With.meanDim {skipna : Bool} {a b : StatVar L (FV K)} (hk : k ≠ d) (hm : k ∉ mk.dims) (ha : With d C mk a) (h : a.meanDim skipna k = .ok b) : With d C mk b := by
  unfold StatVar.meanDim at h
  split at h
  · cases h
    exact ha.reduce _ hk hm
  · cases h

private theorem With.sizeDim {skipna : Bool} {a b : StatVar L (FV K)} (hk : k ≠ d) (hm : k ∉ mk.dims) (ha : With d C mk a) (h : a.sizeDim skipna k = .ok b) : Fits d C mk b := by
  unfold StatVar.sizeDim at h
  split at h
  · cases skipna
    · cases h
      exact ⟨fun hd => absurd hd (by simp [DA.scalar]), .inl rfl⟩
    · cases h
      rw [if_pos rfl]
      exact (ha.reduce _ hk hm).fits
  · cases h

private theorem spread_with {argsort : List (FV K) → List ℕ} {order : List L} {useSort fair skipna : Bool} {p t s : StatVar L (FV K)} (hk : k ≠ d) (hk2 : "ensemble_dim_2" ≠ d) (hm : k ∉ mk.dims) (hm2 : "ensemble_dim_2" ∉ mk.dims)
    (hp : With d C mk p) (h : crpsSpread argsort order k useSort fair "predictions" skipna p t = .ok s) : With d C mk s := by
  unfold crpsSpread at h
  obtain ⟨da, h1, h⟩ := bind_ok_iff.mp h
  cases h1
  obtain ⟨n, hn, h⟩ := bind_ok_iff.mp h
  have hnf := hp.sizeDim hk hm hn
  split at h
  · cases h
  · dsimp only at h
    by_cases hu : useSort = true
    · rw [if_pos hu] at h
      by_cases hs : skipna = true
      · rw [if_pos hs] at h
        cases h
      · rw [if_neg hs] at h
        obtain ⟨m, hmean, h⟩ := bind_ok_iff.mp h
        have hr : With d C mk (rankDA argsort order k p) := ⟨hp.has, hp.labels, hp.mask⟩
        have hmw := With.meanDim hk hm ((((hr.map _).zip _ hnf).map _).zip _ hp.fits) hmean
        cases h
        exact (hmw.map _).zip _ (hnf.map _)
    · rw [if_neg hu] at h
      obtain ⟨da2, h2, h⟩ := bind_ok_iff.mp h
      have h2w := hp.rename hk hk2 hm h2
      cases h
      exact ((((hp.zip _ h2w.fits).map _).reduce _ hk hm).reduce _ hk2 hm2).zip _ (hnf.zip _ (hnf.map _))

private theorem skill_with {skipna : Bool} {p t s : StatVar L (FV K)} (hk : k ≠ d) (hm : k ∉ mk.dims) (hp : With d C mk p) (ht : With d C mk t) (hkt : k ∉ t.arr.dims) (h : crpsSkill k skipna p t = .ok s) : With d C mk s := by
  unfold crpsSkill at h
  rw [if_neg hkt] at h
  exact ((hp.zip _ ht.fits).map _).meanDim hk hm h

/-- **C109** If the forecasts carry the masks of the observations, too, then hidden cases might as well be absent also for the CRPS (of observations without members; computed with or without sorting, fair or not). -/
theorem C109_crps (argsort : List (FV K) → List ℕ) (order : List L) (useSort fair skipna : Bool) {agg : Aggregator L (FV K)} (hS : S ⊆ C) (hagg : agg.TreatsAlike d S id) (h0 : agg.KeepsZero) (hmask : agg.masked = true) (hk : k ≠ d)
    (hk' : k ++ "_PSEUDO_FOR_TARGETS" ≠ d) (hk2 : "ensemble_dim_2" ≠ d) (hkk : k ≠ "ensemble_dim_2") {μ : String → DA L Bool} (hμ : ∀ v, "ensemble_dim_2" ∉ (μ v).dims) {p t : Vars (StatVar L (FV K))} (hp : IsDict p) (ht : IsDict t)
    (h : CarriesMasks d k C S μ p t) (hok : ∀ ks ∈ (crpsEnsemble argsort order k useSort fair skipna).statistics, ∃ out, ks.2.compute p t = .ok out) :
    metricAlone (crpsEnsemble argsort order k useSort fair skipna) agg (chunkVars d S p) (chunkVars d S t) = (metricAlone (crpsEnsemble argsort order k useSort fair skipna) agg p t).map (sameValuesAs d S) := by
  have hst : (crpsEnsemble argsort order k useSort fair skipna).statistics = [("CRPSSkill", crpsSkillStatistic (L := L) (K := K) k skipna), ("CRPSSpread", crpsSpreadStatistic argsort order k useSort fair "predictions" skipna)] := rfl
  have hidden : ∀ (v : String) {s : StatVar L (FV K)}, With d C (μ v) s → s.HiddenOutside d C S := fun v s hs => ⟨hs.has, hs.labels, μ v, hs.mask, h.masks v⟩
  have hP : ∀ v a, (v, a) ∈ p → With d C (μ v) a := fun v a ha => ⟨(h.predictions v a ha).1, (h.predictions v a ha).2.1, (h.predictions v a ha).2.2.1⟩
  have hT : ∀ v a, (v, a) ∈ t → With d C (μ v) a := fun v a ha => ⟨(h.targets v a ha).1, (h.targets v a ha).2.1, (h.targets v a ha).2.2.1⟩
  have out_of : ∀ {name : String} {f : StatVar L (FV K) → StatVar L (FV K) → Except Err (StatVar L (FV K))} {out}, (statOfE name f).compute p t = .ok out → ∀ v s, (v, some s) ∈ out → ∃ a b, (v, a) ∈ p ∧ (v, b) ∈ t ∧ f a b = .ok s := by
    intro name f out hout v s hs
    obtain ⟨-, hh⟩ := C21_statistic name (fun p t => (do let s ← f p t; return some (some s) : Except Err _)) p t hp ht out hout
    obtain ⟨a, b, h1, h2, h3⟩ := (hh v (some s)).mp hs
    obtain ⟨x, hx, h3⟩ := bind_ok_iff.mp h3
    cases h3
    exact ⟨a, b, h1, h2, hx⟩
  refine C109_hidden hS hagg h0 hmask ⟨fun v a ha => (hP v a ha).has, fun v a ha => (hT v a ha).has, μ, fun v a ha => .inr (hP v a ha).mask, fun v a ha => .inr (hT v a ha).mask⟩ (fun ks hks => ?_) (fun ks hks out hout v s hs => ?_)
    (C106_crps (sides := .both) (d := d) (C := S) argsort order hk hk' hk2 useSort fair skipna (by simp)).formula hok
  · rw [hst] at hks
    rcases List.mem_cons.1 hks with rfl | hks
    · exact C74_crps_skill hk hk' skipna
    · rw [List.mem_singleton.1 hks]
      exact C74_crps_spread hk hk2 hkk argsort order useSort fair "predictions" skipna
  · rw [hst] at hks
    rcases List.mem_cons.1 hks with rfl | hks
    · obtain ⟨a, b, ha, hb, hf⟩ := out_of hout v s hs
      exact hidden v (skill_with hk (h.predictions v a ha).2.2.2 (hP v a ha) (hT v b hb) (h.targets v b hb).2.2.2 hf)
    · rw [List.mem_singleton.1 hks] at hout
      obtain ⟨a, b, ha, hb, hf⟩ := out_of hout v s hs
      exact hidden v (spread_with hk hk2 (h.predictions v a ha).2.2.2 (hμ v) (hP v a ha) hf)

end

/-- The assumptions can be met: the data of `C109_crps_negative`, with the mask also on the forecasts. -/
example : CarriesMasks "time" "realization" ({0, 1} : Finset ℕ) {0} (fun _ => ⟨{"time"}, fun _ => {0, 1}, fun e => decide (e "time" ≠ 1)⟩) [("t2m", ⟨spreadForecast.arr, missingObservation.mask⟩)] [("t2m", missingObservation)] ∧
    ∀ ks ∈ (crpsEnsemble (K := ℚ) (fun _ => []) [] "realization" false false false).statistics, ∃ out, ks.2.compute [("t2m", ⟨spreadForecast.arr, missingObservation.mask⟩)] [("t2m", missingObservation)] = .ok out := by
  refine ⟨⟨fun v a ha => ?_, fun v a ha => ?_, fun v => ⟨by simp, rfl, fun e h1 h2 => ?_⟩⟩, fun ks hks => ?_⟩
  · obtain ⟨rfl, rfl⟩ := Prod.mk.inj (List.mem_singleton.1 ha)
    exact ⟨by simp [spreadForecast], rfl, rfl, by simp⟩
  · obtain ⟨rfl, rfl⟩ := Prod.mk.inj (List.mem_singleton.1 ha)
    exact ⟨by simp [missingObservation], rfl, rfl, by simp [missingObservation]⟩
  · simp only [Finset.mem_insert, Finset.mem_singleton] at h1 h2
    simp only [decide_eq_false_iff_not, not_not]
    omega
  · rcases List.mem_cons.1 (show ks ∈ [_, _] from hks) with rfl | hks
    · exact ⟨_, rfl⟩
    · rw [List.mem_singleton.1 hks]
      exact ⟨_, rfl⟩

end WBX
