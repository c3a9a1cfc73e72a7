import Verif.Props.LocalityWrappers
import Verif.Props.LocalityClimatology
import Verif.Model.Wasserstein
import Verif.Model.RelativeIntensity
import Verif.Model.EconomicValue

set_option linter.unusedSectionVars false
set_option linter.unusedVariables false

/-! # C74: Wasserstein distance, relative intensity and the ranked probability score of ensembles -/

namespace WBX
open DA
variable {L K : Type} [DecidableEq L] [Field K] [LinearOrder K] [IsStrictOrderedRing K]
variable {c d : Dim}

/-- C74: the Wasserstein distance, over any other dimension. -/
theorem C74_wasserstein (hd : d ≠ c) : (wassersteinStatistic (L := L) (K := K) d).ChunkLocal c := by
  refine statOfE_local ?_
  intro S m p t s hp ht dp dt h
  unfold wasserstein at h ⊢
  by_cases h1 : d ∉ p.arr.dims
  · rw [if_pos h1] at h
    exact absurd h (by simp)
  rw [if_neg h1] at h
  rw [if_neg (by exact h1)]
  by_cases h2 : d ∉ t.arr.dims
  · rw [if_pos h2] at h
    exact absurd h (by simp)
  rw [if_neg h2] at h
  rw [if_neg (by exact h2)]
  by_cases h3 : ∃ k ∈ p.arr.dims ∩ t.arr.dims, k ≠ d ∧ p.arr.coords k ≠ t.arr.coords k
  · rw [if_pos h3] at h
    exact absurd h (by simp)
  rw [if_neg h3] at h
  have h3' : ¬ ∃ k ∈ (p.chunk c S).arr.dims ∩ (t.chunk c S).arr.dims, k ≠ d ∧ (p.chunk c S).arr.coords k ≠ (t.chunk c S).arr.coords k := by
    rintro ⟨k, hk, hkd, hne⟩
    refine h3 ⟨k, hk, hkd, fun heq => hne ?_⟩
    simp only [StatVar.chunk, DA.restrict, heq]
  rw [if_neg h3']
  by_cases h4 : p.arr.coords d = ∅ ∨ t.arr.coords d = ∅
  · rw [if_pos h4] at h
    exact absurd h (by simp)
  rw [if_neg h4] at h
  rw [if_neg (by simpa [StatVar.chunk, DA.restrict, hd] using h4)]
  injection h with h
  subst h
  congr 1
  rw [StatVar.chunk, StatVar.mk.injEq]
  refine ⟨DA.ext' rfl ?_ ?_, ?_⟩
  · intro k
    exact (congrFun (congrArg DA.coords (zip_restrict (c := c) (S := S) (fun (a _ : FV K) => a) p.arr t.arr)) k).symm
  · funext e
    simp only [StatVar.chunk, DA.restrict, memberValues, if_neg hd]
  · have drop : ∀ {x : StatVar L (FV K)}, MaskIn m x → dropMask d x.mask = none ∨ dropMask d x.mask = some m := by
      intro x hx
      rcases hx with hx | hx
      · left; simp [hx, dropMask]
      · by_cases hm : d ∈ m.dims
        · left; simp [hx, dropMask, hm]
        · right; simp [hx, dropMask, hm]
    simp only [StatVar.chunk]
    rw [combineMask_restrict (drop hp) (drop ht), dropMask_restrict, dropMask_restrict]

/-! ### Relative intensity -/

theorem sumDims_restrict {ds : List Dim} (hc : c ∉ ds) {S : Finset L} (a : DA L (FV K)) : DA.sumDims ds (a.restrict c S) = (DA.sumDims ds a).restrict c S := by
  induction ds generalizing a with
  | nil => rfl
  | cons d ds ih =>
    have hd : d ≠ c := fun h => hc (by simp [h])
    have h1 : (a.restrict c S).sumDim d = (a.sumDim d).restrict c S := by
      refine DA.ext' rfl (fun _ => rfl) ?_
      funext e
      simp only [DA.sumDim, DA.restrict, if_neg hd]
    rw [DA.sumDims, h1, ih (fun h => hc (List.mem_cons_of_mem _ h))]
    rfl

theorem sumChecked_restrict {ds : List Dim} (hc : c ∉ ds) {S : Finset L} {a s : DA L (FV K)} (h : AggState.sumChecked ds a = .ok s) :
    AggState.sumChecked ds (a.restrict c S) = .ok (s.restrict c S) := by
  unfold AggState.sumChecked at h ⊢
  by_cases h1 : ds.all (fun d => d ∈ a.dims)
  · rw [if_pos h1, Except.ok.injEq] at h
    subst h
    rw [if_pos (by exact h1), sumDims_restrict (fun h => hc (List.mem_dedup.mp h))]
  · rw [if_neg h1] at h
    exact absurd h (by simp)

theorem meanOverDims_restrict {ds : List Dim} (hc : c ∉ ds) {S : Finset L} {a s : DA L (FV K)} (h : meanOverDims ds a = .ok s) :
    meanOverDims ds (a.restrict c S) = .ok (s.restrict c S) := by
  unfold meanOverDims at h ⊢
  obtain ⟨x, hx, h⟩ := bind_ok_iff.mp h
  injection h with h
  subst h
  refine bind_ok_iff.mpr ⟨_, sumChecked_restrict hc hx, ?_⟩
  have : ∏ d ∈ ds.toFinset, ((a.restrict c S).coords d).card = ∏ d ∈ ds.toFinset, (a.coords d).card := by
    refine Finset.prod_congr rfl (fun d hd => ?_)
    have : d ≠ c := fun h => hc (by rw [← h]; exact List.mem_toFinset.mp hd)
    simp only [DA.restrict, if_neg this]
  rw [this]
  rfl

theorem where_restrict (a : DA L (FV K)) (m : DA L Bool) (x : FV K) {S : Finset L} : (a.restrict c S).where_ (m.restrict c S) x = (a.where_ m x).restrict c S :=
  (zip_restrict _ _ _).symm

/-- C74: the relative intensity, over spatial dimensions that are not the time dimension. -/
theorem C74_relative_intensity (name : String) {ds : List Dim} (hc : c ∉ ds) (eps : K) : (statOfE (L := L) name (relativeIntensity ds eps)).ChunkLocal c := by
  refine statOfE_local ?_
  intro S m p t s hp ht dp dt h
  unfold relativeIntensity at h ⊢
  rcases hm : t.mask with _ | mk
  · rw [hm] at h
    simp only [StatVar.chunk, hm, Option.map_none] at h ⊢
    obtain ⟨pm, h1, h⟩ := bind_ok_iff.mp h
    obtain ⟨tm, h2, h⟩ := bind_ok_iff.mp h
    injection h with h
    subst h
    refine bind_ok_iff.mpr ⟨_, meanOverDims_restrict hc h1, bind_ok_iff.mpr ⟨_, meanOverDims_restrict hc h2, ?_⟩⟩
    show Except.ok _ = Except.ok _
    congr 1
    rw [StatVar.mk.injEq]
    refine ⟨(zip_restrict _ _ _).symm, ?_⟩
    rcases p.mask with _ | pk
    · rfl
    · simp only [Option.map_some, Option.bind_some]
      by_cases hk : ds.any (fun d => d ∈ pk.dims)
      · rw [if_pos hk, if_pos (by exact hk)]
        rfl
      · rw [if_neg hk, if_neg (by exact hk)]
        rfl
  · rw [hm] at h
    simp only [StatVar.chunk, hm, Option.map_some] at h ⊢
    obtain ⟨n, h1, h⟩ := bind_ok_iff.mp h
    obtain ⟨ps, h2, h⟩ := bind_ok_iff.mp h
    obtain ⟨ts, h3, h⟩ := bind_ok_iff.mp h
    injection h with h
    subst h
    refine bind_ok_iff.mpr ⟨_, sumChecked_restrict (S := S) hc h1, bind_ok_iff.mpr ⟨ps.restrict c S, ?_, bind_ok_iff.mpr ⟨ts.restrict c S, ?_, ?_⟩⟩⟩
    · rw [where_restrict]
      exact sumChecked_restrict hc h2
    · rw [where_restrict]
      exact sumChecked_restrict hc h3
    · show Except.ok _ = Except.ok _
      congr 1
      rw [StatVar.mk.injEq]
      refine ⟨?_, rfl⟩
      rw [zip_restrict]
      unfold countedMean
      rw [zip_restrict, zip_restrict, zip_restrict, zip_restrict]

/-! ### The ranked probability score of an ensemble -/

theorem nansumDim_chunk (hd : d ≠ c) {skipna : Bool} {a s : StatVar L (FV K)} {S : Finset L} (h : a.nansumDim skipna d = .ok s) :
    (a.chunk c S).nansumDim skipna d = .ok (s.chunk c S) := by
  unfold StatVar.nansumDim at *
  by_cases hm : d ∈ a.arr.dims
  · rw [if_pos hm, Except.ok.injEq] at h
    subst h
    rw [if_pos (by exact hm), chunk_reduce hd]
  · rw [if_neg hm] at h
    exact absurd h (by simp)

/-- C74: the ranked probability score of an ensemble, for any two transforms to distribution functions that are local, such as those of `C74_continuous_to_cdf`. -/
theorem C74_ensemble_rps {trP trT : InputTransform L K} (hP : trP.ChunkLocal c) (hT : trT.ChunkLocal c) {binDim : Dim} (hb : binDim ≠ c) (hd : d ≠ c) (skipna fair : Bool) (suffix : String) :
    (ensembleRPSStatistic trP trT binDim d skipna fair suffix).ChunkLocal c := by
  refine statOfE_local ?_
  intro S m p t s hp ht dp dt h
  unfold ensembleRPS at h ⊢
  obtain ⟨r, h1, h⟩ := bind_ok_iff.mp h
  obtain ⟨so, h2, h⟩ := bind_ok_iff.mp h
  have hl : (wrappedStatistic (wrappedStatistic (if fair then unbiasedMSEStatistic d skipna
      else wrappedStatistic squaredErrorStatistic ⟨"both", "ensemble_mean", fun _ => ensembleMeanFn d skipna true⟩) trT) trP).ChunkLocal c := by
    refine C74_wrapped (C74_wrapped ?_ hT) hP
    cases fair with
    | true => exact C74_unbiased_mse hd skipna
    | false =>
      refine C74_wrapped C74_squared_error ?_
      have h0 : ∃ sfx, ensembleMean (L := L) (K := K) "both" d skipna true = .ok ⟨"both", sfx, fun _ => ensembleMeanFn d skipna true⟩ := by
        unfold ensembleMean mkTransform
        exact ⟨_, if_pos (by simp)⟩
      obtain ⟨sfx, h0⟩ := h0
      have h4 := C74_ensemble_mean hd h0
      exact h4
  have hch : Chunkable c [("tmp", p)] [("tmp", t)] := by
    refine ⟨?_, ?_, fun _ => m, ?_, ?_⟩ <;> intro v a hv <;> simp only [List.mem_singleton, Prod.mk.injEq] at hv <;> obtain ⟨-, rfl⟩ := hv <;> assumption
  have h3 := hl S _ _ _ hch h1
  refine bind_ok_iff.mpr ⟨_, h3, bind_ok_iff.mpr ⟨so.map (StatVar.chunk c S), ?_, ?_⟩⟩
  · unfold pyItem at h2 ⊢
    unfold chunkStats
    rw [pyGet?_map]
    rcases hg : pyGet? "tmp" r with _ | x
    · rw [hg] at h2
      exact absurd h2 (by simp)
    · rw [hg] at h2
      injection h2 with h2
      subst h2
      rfl
  · rcases so with _ | x
    · exact absurd h (by simp)
    · exact nansumDim_chunk hb h

/-! ### Instances -/

example : (wassersteinStatistic (L := ℕ) (K := ℚ) "number").ChunkLocal "init_time" := C74_wasserstein (by simp)

example : (statOfE (L := ℕ) "RelativeIntensity" (relativeIntensity ["latitude", "longitude"] (1 / 1000000 : ℚ))).ChunkLocal "init_time" := C74_relative_intensity _ (by simp) _

example {th : Thresholds ℕ ℚ} {label : FV ℚ → ℕ} {trP trT : InputTransform ℕ ℚ} (hP : trP.ChunkLocal "init_time") (hT : trT.ChunkLocal "init_time") :
    (ensembleRPSStatistic trP trT "threshold_bin" "number" true false "x").ChunkLocal "init_time" := C74_ensemble_rps hP hT (by simp) (by simp) _ _ _

end WBX
