import Verif.Lemmas.Locality
import Verif.Model.Opportunism

set_option linter.unusedSectionVars false
set_option linter.unusedVariables false

/-! # C74: statistics of a chunk are the chunk of the statistics -/

namespace WBX
open DA
variable {L K : Type} [DecidableEq L] [Field K] [LinearOrder K] [IsStrictOrderedRing K]
variable {c d : Dim}

section pointwise

theorem C74_error : (errorStatistic (L := L) (K := K)).ChunkLocal c :=
  statOf_local (fun _ _ _ _ hp ht _ _ => (chunk_zip hp ht _).symm)

theorem C74_absolute_error : (absoluteErrorStatistic (L := L) (K := K)).ChunkLocal c :=
  statOf_local (fun S m p t hp ht _ _ => by
    unfold absoluteError error
    rw [chunk_map, chunk_zip hp ht])

theorem C74_squared_error : (squaredErrorStatistic (L := L) (K := K)).ChunkLocal c :=
  statOf_local (fun S m p t hp ht _ _ => by
    unfold squaredError
    rw [chunk_map, chunk_zip hp ht])

theorem passthrough_chunk (copy : Bool) {S : Finset L} {m : DA L Bool} {p t : StatVar L (FV K)} (hp : MaskIn m p) (ht : MaskIn m t) :
    predictionPassthrough copy (p.chunk c S) (t.chunk c S) = (predictionPassthrough copy p t).chunk c S := by
  unfold predictionPassthrough
  cases copy
  · simp only [Bool.false_eq_true, if_false]
    rw [chunk_zip hp (maskIn_map ht _), chunk_map]
  · simp only [if_true]
    rw [chunk_zip (maskIn_zip hp (maskIn_map ht _) _) (maskIn_map ht _), chunk_zip hp (maskIn_map ht _), chunk_map, chunk_map]

theorem C74_passthrough (name : String) (copy : Bool) :
    (statOf name (predictionPassthrough (L := L) (K := K) copy)).ChunkLocal c ∧ (statOf name (targetPassthrough (L := L) (K := K) copy)).ChunkLocal c :=
  ⟨statOf_local (fun _ _ _ _ hp ht _ _ => passthrough_chunk copy hp ht), statOf_local (fun _ _ _ _ hp ht _ _ => passthrough_chunk copy ht hp)⟩

theorem exceedance_chunk {thresholds : DA L (FV K)} {S : Finset L} {m : DA L Bool} {p t : StatVar L (FV K)}
    (hp : MaskIn m p) (ht : MaskIn m t) (dp : c ∈ p.arr.dims) :
    errorExceedance thresholds (p.chunk c S) (t.chunk c S) = (errorExceedance thresholds p t).chunk c S := by
  unfold errorExceedance
  have h1 : c ∈ ((p.zipWith (· - ·) t).map FV.abs).arr.dims := Finset.mem_union_left _ dp
  have e1 : ((p.zipWith (· - ·) t).map FV.abs).chunk c S = ((p.chunk c S).zipWith (· - ·) (t.chunk c S)).map FV.abs := by
    rw [chunk_map, chunk_zip hp ht]
  have m1 : MaskIn m ((p.zipWith (· - ·) t).map FV.abs) := maskIn_map (maskIn_zip hp ht _) _
  dsimp only
  rw [← e1]
  generalize ((p.zipWith (· - ·) t).map FV.abs) = a at h1 m1
  have hfix : ∀ g : FV K → Bool, StatVar.map g (⟨thresholds, none⟩ : StatVar L (FV K)) = ⟨thresholds.map g, none⟩ := fun _ => rfl
  have hdim : c ∈ ((a.zipWith (fun a h : FV K => (FV.ofBool (FV.lt h a) : FV K)) ⟨thresholds, none⟩).zipWith FV.keepIf (a.map (fun v => !v.isnan))).arr.dims :=
    Finset.mem_union_left _ (Finset.mem_union_left _ h1)
  rw [hfix, chunk_zipFixed hdim,
    chunk_zip (maskIn_zip m1 (maskIn_none _) _) (maskIn_map m1 _), chunk_zipFixed h1, chunk_map]

theorem C74_error_exceedance (name : String) (thresholds : DA L (FV K)) :
    (statOf name (errorExceedance thresholds)).ChunkLocal c :=
  statOf_local (fun _ _ _ _ hp ht dp _ => exceedance_chunk hp ht dp)

theorem contingency_chunk (f : Bool → Bool → Bool) {S : Finset L} {m : DA L Bool} {p t : StatVar L (FV K)} (hp : MaskIn m p) (ht : MaskIn m t) :
    contingency f (p.chunk c S) (t.chunk c S) = (contingency f p t).chunk c S := by
  unfold contingency
  dsimp only
  rw [chunk_zip (maskIn_zip (maskIn_map hp _) (maskIn_map ht _) _) (maskIn_map (maskIn_zip hp ht _) _), chunk_map, chunk_zip hp ht,
    chunk_zip (maskIn_map hp _) (maskIn_map ht _), chunk_map, chunk_map]

theorem C74_contingency : (tpStatistic (L := L) (K := K)).ChunkLocal c ∧ (tnStatistic (L := L) (K := K)).ChunkLocal c ∧
    (fpStatistic (L := L) (K := K)).ChunkLocal c ∧ (fnStatistic (L := L) (K := K)).ChunkLocal c :=
  ⟨statOf_local (fun _ _ _ _ hp ht _ _ => contingency_chunk _ hp ht), statOf_local (fun _ _ _ _ hp ht _ _ => contingency_chunk _ hp ht),
    statOf_local (fun _ _ _ _ hp ht _ _ => contingency_chunk _ hp ht), statOf_local (fun _ _ _ _ hp ht _ _ => contingency_chunk _ hp ht)⟩

theorem C74_rps {binDim : Dim} (hb : binDim ≠ c) : (rpsStatistic (L := L) (K := K) binDim).ChunkLocal c := by
  refine perVariable_local ?_
  intro S m p t s hp ht dp dt hs
  unfold rankedProbabilityScore at hs ⊢
  dsimp only at hs ⊢
  by_cases h : binDim ∈ ((p.zipWith (· - ·) t).map FV.sq).arr.dims
  · rw [if_pos h, Except.ok.injEq] at hs
    subst hs
    rw [if_pos (by exact h)]
    have e1 : ((p.zipWith (· - ·) t).map FV.sq).chunk c S = ((p.chunk c S).zipWith (· - ·) (t.chunk c S)).map FV.sq := by
      rw [chunk_map, chunk_zip hp ht]
    rw [← e1]
    simp only [Option.map_some, StatVar.chunk, Except.ok.injEq, Option.some.injEq, StatVar.mk.injEq]
    refine ⟨DA.ext' rfl (fun _ => rfl) ?_, trivial⟩
    funext e
    simp only [DA.sumDim, DA.map, DA.restrict, if_neg hb]
    rfl
  · rw [if_neg h] at hs
    exact absurd hs (by simp)

end pointwise

section ensemble

theorem meanDim_chunk (hd : d ≠ c) {skipna : Bool} {a s : StatVar L (FV K)} {S : Finset L} (h : a.meanDim skipna d = .ok s) :
    (a.chunk c S).meanDim skipna d = .ok (s.chunk c S) := by
  unfold StatVar.meanDim at *
  by_cases hm : d ∈ a.arr.dims
  · rw [if_pos hm, Except.ok.injEq] at h
    subst h
    rw [if_pos (by exact hm), chunk_reduce hd]
  · rw [if_neg hm] at h
    exact absurd h (by simp)

theorem varDim_chunk (hd : d ≠ c) {skipna : Bool} {a s : StatVar L (FV K)} {S : Finset L} (h : a.varDim skipna d = .ok s) :
    (a.chunk c S).varDim skipna d = .ok (s.chunk c S) := by
  unfold StatVar.varDim at *
  by_cases hm : d ∈ a.arr.dims
  · rw [if_pos hm, Except.ok.injEq] at h
    subst h
    rw [if_pos (by exact hm), chunk_reduce hd]
  · rw [if_neg hm] at h
    exact absurd h (by simp)

theorem sizeDim_chunk (hd : d ≠ c) {skipna : Bool} {a s : StatVar L (FV K)} {S : Finset L} (h : a.sizeDim skipna d = .ok s) :
    (a.chunk c S).sizeDim skipna d = .ok (s.chunk c S) := by
  unfold StatVar.sizeDim at *
  by_cases hm : d ∈ a.arr.dims
  · rw [if_pos hm, Except.ok.injEq] at h
    subst h
    rw [if_pos (by exact hm)]
    cases skipna
    · simp only [Bool.false_eq_true, if_false, Except.ok.injEq]
      unfold StatVar.chunk
      rw [StatVar.mk.injEq]
      refine ⟨DA.ext' rfl ?_ ?_, rfl⟩
      · intro k
        simp [DA.scalar, DA.restrict]
      · funext e
        simp only [DA.scalar, DA.restrict, if_neg hd]
    · simp only [if_true, Except.ok.injEq]
      rw [chunk_reduce hd]
  · rw [if_neg hm] at h
    exact absurd h (by simp)

theorem maskIn_meanDim {m : DA L Bool} {skipna : Bool} {a s : StatVar L (FV K)} (ha : MaskIn m a) (h : a.meanDim skipna d = .ok s) : MaskIn m s := by
  unfold StatVar.meanDim at h
  split at h
  · injection h with h; subst h; exact maskIn_reduce ha _ _
  · exact absurd h (by simp)

theorem maskIn_varDim {m : DA L Bool} {skipna : Bool} {a s : StatVar L (FV K)} (ha : MaskIn m a) (h : a.varDim skipna d = .ok s) : MaskIn m s := by
  unfold StatVar.varDim at h
  split at h
  · injection h with h; subst h; exact maskIn_reduce ha _ _
  · exact absurd h (by simp)

theorem maskIn_sizeDim {m : DA L Bool} {skipna : Bool} {a s : StatVar L (FV K)} (ha : MaskIn m a) (h : a.sizeDim skipna d = .ok s) : MaskIn m s := by
  unfold StatVar.sizeDim at h
  split at h
  · injection h with h
    subst h
    cases skipna
    · exact Or.inl rfl
    · simp only [if_true]
      exact maskIn_reduce ha _ _
  · exact absurd h (by simp)

theorem C74_ensemble_variance (hd : d ≠ c) (skipna : Bool) : (ensembleVarianceStatistic (L := L) (K := K) d skipna).ChunkLocal c :=
  statOfE_local (fun _ _ _ _ _ _ _ _ _ h => varDim_chunk hd h)

theorem C74_unbiased_mse (hd : d ≠ c) (skipna : Bool) : (unbiasedMSEStatistic (L := L) (K := K) d skipna).ChunkLocal c := by
  refine statOfE_local ?_
  intro S m p t s hp ht dp dt h
  unfold unbiasedMSE at h ⊢
  obtain ⟨pm, h1, h⟩ := bind_ok_iff.mp h
  obtain ⟨pv, h2, h⟩ := bind_ok_iff.mp h
  obtain ⟨pn, h3, h⟩ := bind_ok_iff.mp h
  refine bind_ok_iff.mpr ⟨_, meanDim_chunk hd h1, bind_ok_iff.mpr ⟨_, varDim_chunk hd h2, bind_ok_iff.mpr ⟨_, sizeDim_chunk hd h3, ?_⟩⟩⟩
  have m1 := maskIn_meanDim hp h1
  have m2 := maskIn_varDim hp h2
  have m3 := maskIn_sizeDim hp h3
  by_cases htd : d ∈ t.arr.dims
  · rw [if_pos htd] at h
    rw [if_pos (by exact htd)]
    obtain ⟨tm, h4, h⟩ := bind_ok_iff.mp h
    obtain ⟨tv, h5, h⟩ := bind_ok_iff.mp h
    obtain ⟨tn, h6, h⟩ := bind_ok_iff.mp h
    have m4 := maskIn_meanDim ht h4
    have m5 := maskIn_varDim ht h5
    have m6 := maskIn_sizeDim ht h6
    refine bind_ok_iff.mpr ⟨_, meanDim_chunk hd h4, bind_ok_iff.mpr ⟨_, varDim_chunk hd h5, bind_ok_iff.mpr ⟨_, sizeDim_chunk hd h6, ?_⟩⟩⟩
    simp only [pure, Except.pure, Except.ok.injEq] at h ⊢
    subst h
    rw [chunk_zip (maskIn_zip (maskIn_map (maskIn_zip m1 m4 _) _) (maskIn_zip m2 m3 _) _) (maskIn_zip m5 m6 _),
      chunk_zip (maskIn_map (maskIn_zip m1 m4 _) _) (maskIn_zip m2 m3 _), chunk_map, chunk_zip m1 m4, chunk_zip m2 m3, chunk_zip m5 m6]
  · rw [if_neg htd] at h
    rw [if_neg (by exact htd)]
    simp only [pure, Except.pure, Except.ok.injEq] at h ⊢
    subst h
    rw [chunk_map, chunk_zip (maskIn_map (maskIn_zip m1 ht _) _) (maskIn_zip m2 m3 _), chunk_map, chunk_zip m1 ht, chunk_zip m2 m3]

/-- Averaging any local statistic over the members is local. -/
theorem C74_ensemble_averaged (hd : d ≠ c) (skipna : Bool) {s : FStatistic L K} (hs : s.ChunkLocal c) :
    (ensembleAveragedStatistic d skipna s).ChunkLocal c := by
  intro S p t out hpt hout
  have h0 := bind_ok_iff.mp hout
  clear hout
  obtain ⟨r, hr, hout⟩ := h0
  refine bind_ok_iff.mpr ⟨_, hs S p t r hpt hr, ?_⟩
  clear hr
  unfold chunkStats
  induction r generalizing out with
  | nil =>
    simp only [List.mapM_nil, pure, Except.pure, Except.ok.injEq] at hout
    subst hout
    rfl
  | cons kv r ih =>
    rw [List.mapM_cons] at hout
    obtain ⟨y, hy, hout⟩ := bind_ok_iff.mp hout
    obtain ⟨ys, hys, hout⟩ := bind_ok_iff.mp hout
    injection hout with hout
    subst hout
    rw [List.map_cons, List.mapM_cons, ih _ hys]
    obtain ⟨k, v⟩ := kv
    cases v with
    | none =>
      injection hy with hy
      subst hy
      rfl
    | some a =>
      dsimp only at hy
      obtain ⟨a', ha, hy⟩ := bind_ok_iff.mp hy
      injection hy with hy
      subst hy
      refine bind_ok_iff.mpr ⟨(k, some (a'.chunk c S)), ?_, rfl⟩
      exact bind_ok_iff.mpr ⟨_, meanDim_chunk hd ha, rfl⟩

theorem C74_ensemble_error_exceedance (name : String) (hd : d ≠ c) (thresholds : DA L (FV K)) :
    (statOfE name (ensembleErrorExceedance thresholds d)).ChunkLocal c := by
  refine statOfE_local ?_
  intro S m p t s hp ht dp dt h
  unfold ensembleErrorExceedance at h ⊢
  rw [exceedance_chunk hp ht dp]
  exact meanDim_chunk hd h

theorem chunk_rename {d d' : Dim} (h1 : d ≠ c) (h2 : d' ≠ c) (S : Finset L) {V : Type} (a : DA L V) :
    (a.rename d d').restrict c S = (a.restrict c S).rename d d' := by
  unfold DA.rename
  by_cases h : d ∈ a.dims
  · rw [if_pos h, if_pos (by exact h)]
    refine DA.ext' rfl ?_ rfl
    intro k
    simp only [DA.restrict]
    by_cases hk : k = d'
    · subst hk
      simp [h1, h2]
    · simp [hk]
  · rw [if_neg h, if_neg (by exact h)]

theorem rename_chunk {d d' : Dim} (h1 : d ≠ c) (h2 : d' ≠ c) {S : Finset L} {V : Type} {a s : StatVar L V} (h : a.rename d d' = .ok s) :
    (a.chunk c S).rename d d' = .ok (s.chunk c S) := by
  unfold StatVar.rename at *
  by_cases hm : d ∈ a.arr.dims ∧ d' ∉ a.arr.dims
  · rw [if_pos hm, Except.ok.injEq] at h
    subst h
    rw [if_pos (by exact hm), Except.ok.injEq]
    unfold StatVar.chunk
    rw [StatVar.mk.injEq]
    refine ⟨(chunk_rename h1 h2 S _).symm, ?_⟩
    cases a.mask with
    | none => rfl
    | some m => exact congrArg some (chunk_rename h1 h2 S m).symm
  · rw [if_neg hm] at h
    exact absurd h (by simp)

/-- Two masks one of which is a renamed version of the other: they agree on a chunk exactly if they agree. -/
theorem combineMask_rename {d d' : Dim} (hdd : d ≠ d') (h1 : d ≠ c) (h2 : d' ≠ c) (S : Finset L) {m : DA L Bool} {m1 m2 : Option (DA L Bool)}
    (hm1 : m1 = none ∨ m1 = some m) (hm2 : m2 = none ∨ m2 = some (m.rename d d')) :
    (combineMask m1 m2).map (DA.restrict c S) = combineMask (m1.map (DA.restrict c S)) (m2.map (DA.restrict c S)) := by
  rcases hm1 with rfl | rfl <;> rcases hm2 with rfl | rfl
  · rfl
  · rfl
  · rfl
  · simp only [combineMask, Option.map_some]
    by_cases h : d ∈ m.dims
    · have hne : ∀ x y : DA L Bool, d ∈ x.dims → d ∉ y.dims → ¬ x.Equals y := by
        intro x y hx hy he
        exact hy (he.1 ▸ hx)
      have hnot : d ∉ (m.rename d d').dims := by
        unfold DA.rename
        rw [if_pos h]
        simp [hdd]
      rw [if_neg (hne _ _ h hnot), if_neg (hne _ _ (by exact h) (by exact hnot))]
      rfl
    · have : m.rename d d' = m := by
        unfold DA.rename
        rw [if_neg h]
      rw [this, if_pos (DA.equals_self _), if_pos (DA.equals_self _)]
      rfl

theorem chunk_zip' {V W U : Type} {S : Finset L} {a : StatVar L V} {b : StatVar L W}
    (h : (combineMask a.mask b.mask).map (DA.restrict c S) = combineMask (a.mask.map (DA.restrict c S)) (b.mask.map (DA.restrict c S)))
    (f : V → W → U) : (a.zipWith f b).chunk c S = (a.chunk c S).zipWith f (b.chunk c S) := by
  unfold StatVar.chunk StatVar.zipWith
  rw [StatVar.mk.injEq]
  exact ⟨zip_restrict f _ _, h⟩

theorem append_ne (d s : String) (hs : s ≠ "") : d ≠ d ++ s := by
  intro h
  have := congrArg String.length h
  rw [String.length_append] at this
  have : s.length = 0 := by omega
  exact hs (String.length_eq_zero_iff.mp this)

theorem C74_crps_skill (hd : d ≠ c) (hd' : d ++ "_PSEUDO_FOR_TARGETS" ≠ c) (skipna : Bool) :
    (crpsSkillStatistic (L := L) (K := K) d skipna).ChunkLocal c := by
  refine statOfE_local ?_
  intro S m p t s hp ht dp dt h
  unfold crpsSkill at h ⊢
  by_cases htd : d ∈ t.arr.dims
  · rw [if_pos htd] at h
    rw [if_pos (by exact htd)]
    dsimp only at h ⊢
    obtain ⟨t', h1, h⟩ := bind_ok_iff.mp h
    refine bind_ok_iff.mpr ⟨_, rename_chunk hd hd' h1, ?_⟩
    have ht' : t'.mask = none ∨ t'.mask = some (m.rename d (d ++ "_PSEUDO_FOR_TARGETS")) := by
      unfold StatVar.rename at h1
      split at h1
      · injection h1 with h1
        subst h1
        rcases ht with h | h <;> simp [h]
      · exact absurd h1 (by simp)
    have e1 : ((p.zipWith (· - ·) t').map FV.abs).chunk c S = ((p.chunk c S).zipWith (· - ·) (t'.chunk c S)).map FV.abs := by
      rw [chunk_map, chunk_zip' (combineMask_rename (append_ne _ _ (by decide)) hd hd' S hp ht')]
    rw [← e1]
    by_cases hda : d ∈ ((p.zipWith (· - ·) t').map FV.abs).arr.dims
    · rw [if_pos hda] at h
      rw [if_pos (by exact hda)]
      generalize ((p.zipWith (· - ·) t').map FV.abs) = a at h
      simp only [pure, Except.pure, Except.ok.injEq] at h ⊢
      subst h
      obtain ⟨ma, hma⟩ : ∃ ma, MaskIn ma a := by
        unfold MaskIn
        cases a.mask with
        | none => exact ⟨m, Or.inl rfl⟩
        | some x => exact ⟨x, Or.inr rfl⟩
      rw [chunk_zip (maskIn_reduce (maskIn_reduce hma _ _) _ _) (maskIn_reduce (maskIn_reduce hma _ _) _ _), chunk_reduce hd', chunk_reduce hd,
        chunk_reduce hd', chunk_reduce hd]
    · rw [if_neg hda] at h
      exact absurd h (by simp)
  · rw [if_neg htd] at h
    rw [if_neg (by exact htd)]
    rw [← chunk_zip hp ht, ← chunk_map]
    exact meanDim_chunk hd h

theorem rankDA_chunk (hd : d ≠ c) (argsort : List (FV K) → List ℕ) (order : List L) (S : Finset L) (a : StatVar L (FV K)) :
    (rankDA argsort order d a).chunk c S = rankDA argsort order d (a.chunk c S) := rfl

theorem C74_crps_spread (hd : d ≠ c) (hd' : "ensemble_dim_2" ≠ c) (hdd : d ≠ "ensemble_dim_2") (argsort : List (FV K) → List ℕ) (order : List L) (useSort fair : Bool) (which : String) (skipna : Bool) :
    (crpsSpreadStatistic (L := L) (K := K) argsort order d useSort fair which skipna).ChunkLocal c := by
  refine statOfE_local ?_
  intro S m p t s hp ht dp dt h
  unfold crpsSpread at h ⊢
  obtain ⟨da, h1, h⟩ := bind_ok_iff.mp h
  obtain ⟨n, h2, h⟩ := bind_ok_iff.mp h
  have hda : MaskIn m da := by
    unfold whichArray at h1
    split at h1
    · injection h1 with h1; subst h1; exact hp
    · split at h1
      · injection h1 with h1; subst h1; exact ht
      · exact absurd h1 (by simp)
  have h1' : whichArray which (p.chunk c S) (t.chunk c S) = .ok (da.chunk c S) := by
    unfold whichArray at h1 ⊢
    split at h1
    · rename_i hw; injection h1 with h1; subst h1; rw [if_pos hw]
    · rename_i hw
      split at h1
      · rename_i hw'; injection h1 with h1; subst h1; rw [if_neg hw, if_pos hw']
      · exact absurd h1 (by simp)
  refine bind_ok_iff.mpr ⟨_, h1', bind_ok_iff.mpr ⟨_, sizeDim_chunk hd h2, ?_⟩⟩
  have hn := maskIn_sizeDim hda h2
  have hcoords : (da.chunk c S).arr.coords d = da.arr.coords d := by
    simp only [StatVar.chunk, DA.restrict, if_neg hd]
  rw [hcoords]
  by_cases hs : (!skipna && decide ((da.arr.coords d).card < 2)) = true
  · rw [if_pos hs] at h
    exact absurd h (by simp)
  · rw [if_neg hs] at h
    rw [if_neg hs]
    dsimp only at h ⊢
    cases useSort
    · simp only [Bool.false_eq_true, if_false] at h ⊢
      obtain ⟨da2, h3, h⟩ := bind_ok_iff.mp h
      refine bind_ok_iff.mpr ⟨_, rename_chunk hd hd' h3, ?_⟩
      have h3' : da2.mask = none ∨ da2.mask = some (m.rename d "ensemble_dim_2") := by
        unfold StatVar.rename at h3
        split at h3
        · injection h3 with h3
          subst h3
          rcases hda with h | h <;> simp [h]
        · exact absurd h3 (by simp)
      have e1 : ((da.zipWith (· - ·) da2).map FV.abs).chunk c S = ((da.chunk c S).zipWith (· - ·) (da2.chunk c S)).map FV.abs := by
        rw [chunk_map, chunk_zip' (combineMask_rename hdd hd hd' S hda h3')]
      rw [← e1]
      simp only [pure, Except.pure, Except.ok.injEq] at h ⊢
      subst h
      rw [← chunk_reduce hd, ← chunk_reduce hd', ← chunk_map, ← chunk_zip hn (maskIn_map hn _)]
      refine (chunk_zip' ?_ _).symm
      have hn' : (n.zipWith (fun x y => x * y) (n.map fun x => x - FV.ofNat (if fair = true then 1 else 0))).mask = dropMask d da.mask ∨
          (n.zipWith (fun x y => x * y) (n.map fun x => x - FV.ofNat (if fair = true then 1 else 0))).mask = none := by
        unfold StatVar.sizeDim at h2
        split at h2
        · injection h2 with h2
          subst h2
          cases skipna
          · right; rfl
          · left
            simp only [StatVar.zipWith, StatVar.map, StatVar.reduce, if_true]
            cases dropMask d da.mask <;> simp [combineMask]
        · exact absurd h2 (by simp)
      -- the mask of the differences: dropped, or the mask of the array
      have hs' : ((((da.zipWith (· - ·) da2).map FV.abs).reduce d (npSum skipna)).reduce "ensemble_dim_2" (npSum false)).mask = none ∨
          ((((da.zipWith (· - ·) da2).map FV.abs).reduce d (npSum skipna)).reduce "ensemble_dim_2" (npSum false)).mask = some m := by
        simp only [StatVar.zipWith, StatVar.map, StatVar.reduce]
        by_cases hdm : d ∈ m.dims
        · left
          have hd2 : "ensemble_dim_2" ∈ (m.rename d "ensemble_dim_2").dims := by
            unfold DA.rename
            rw [if_pos hdm]
            simp
          rcases hda with h | h <;> rcases h3' with h' | h' <;> rw [h, h'] <;> simp only [combineMask, dropMask]
          · split_ifs
            · rfl
            · simp only [dropMask, if_pos hd2]
          · simp [hdm]
          · split_ifs <;> simp [hdm, dropMask]
        · have hr : m.rename d "ensemble_dim_2" = m := by
            unfold DA.rename
            rw [if_neg hdm]
          rw [hr] at h3'
          have := combineMask_in hda h3'
          rcases this with h | h
          · left; rw [h]; rfl
          · rw [h]
            simp only [dropMask, if_neg hdm]
            split_ifs <;> simp
      refine combineMask_restrict hs' ?_
      rcases hn' with h | h
      · rw [h]
        rcases hda with h' | h'
        · left; rw [h']; rfl
        · rw [h']; simp only [dropMask]; split_ifs <;> simp
      · left; exact h
    · simp only [if_true] at h ⊢
      cases skipna
      · simp only [Bool.false_eq_true, if_false] at h ⊢
        obtain ⟨mm, h3, h⟩ := bind_ok_iff.mp h
        have mr : MaskIn m (rankDA argsort order d da) := hda
        have mc : MaskIn m ((((rankDA argsort order d da).map (fun r => FV.ofNat 2 * r)).zipWith (· - ·) n).map (fun x => x - FV.ofNat 1)) :=
          maskIn_map (maskIn_zip (maskIn_map mr _) hn _) _
        have h3' := meanDim_chunk (c := c) (S := S) hd h3
        rw [chunk_zip mc hda, chunk_map, chunk_zip (maskIn_map mr _) hn, chunk_map, rankDA_chunk hd] at h3'
        refine bind_ok_iff.mpr ⟨_, h3', ?_⟩
        simp only [pure, Except.pure, Except.ok.injEq] at h ⊢
        subst h
        have mm' := maskIn_meanDim (maskIn_zip mc hda _) h3
        rw [chunk_zip (maskIn_map mm' _) (maskIn_map hn _), chunk_map, chunk_map]
      · simp only [if_true] at h
        exact absurd h (by simp)

theorem C74_rank_histogram (hd : d ≠ c) (number : ℕ → L) : (rankHistogramStatistic (L := L) (K := K) number d).ChunkLocal c := by
  refine statOfE_local ?_
  intro S m p t s hp ht dp dt h
  unfold rankHistogram at h ⊢
  by_cases hm : d ∈ p.arr.dims
  · rw [if_pos hm] at h
    rw [if_pos (by exact hm)]
    have hcoords : (p.chunk c S).arr.coords d = p.arr.coords d := by simp only [StatVar.chunk, DA.restrict, if_neg hd]
    dsimp only at h ⊢
    rw [hcoords]
    injection h with h
    subst h
    rw [Except.ok.injEq, ← chunk_zip hp ht, ← chunk_reduce hd]
    exact (chunk_zipFixed (Finset.mem_erase.mpr ⟨hd.symm, Finset.mem_union_left _ dp⟩) _).symm
  · rw [if_neg hm] at h
    exact absurd h (by simp)

end ensemble

end WBX
