import Verif.Props.Locality
import Verif.Model.Spatial

set_option linter.unusedSectionVars false
set_option linter.unusedVariables false

/-! # C74: wrappers, multivariate statistics, neighborhoods -/

namespace WBX
open DA
variable {L K : Type} [DecidableEq L] [Field K] [LinearOrder K] [IsStrictOrderedRing K]
variable {c d : Dim}

/-- A transform of a named array that commutes with cutting. -/
def InputTransform.ChunkLocal (c : Dim) (tr : InputTransform L K) : Prop :=
  ∀ (S : Finset L) (m : DA L Bool) (name : String) (x y : StatVar L (FV K)), MaskIn m x → c ∈ x.arr.dims → tr.fn name x = .ok y →
    tr.fn name (x.chunk c S) = .ok (y.chunk c S) ∧ MaskIn m y ∧ c ∈ y.arr.dims

theorem mkTransform_local {which suffix : String} {fn : String → StatVar L (FV K) → Except Err (StatVar L (FV K))} {tr : InputTransform L K}
    (h : mkTransform which suffix fn = .ok tr)
    (hfn : ∀ (S : Finset L) (m : DA L Bool) (name : String) (x y : StatVar L (FV K)), MaskIn m x → c ∈ x.arr.dims → fn name x = .ok y →
      fn name (x.chunk c S) = .ok (y.chunk c S) ∧ MaskIn m y ∧ c ∈ y.arr.dims) : tr.ChunkLocal c := by
  unfold mkTransform at h
  split at h
  · injection h with h
    subst h
    exact hfn
  · exact absurd h (by simp)

theorem binarize_chunk {th : DA L (FV K)} {S : Finset L} {m : DA L Bool} {x : StatVar L (FV K)} (hx : MaskIn m x) (dx : c ∈ x.arr.dims) :
    binarize th (x.chunk c S) = (binarize th x).chunk c S ∧ MaskIn m (binarize th x) ∧ c ∈ (binarize th x).arr.dims := by
  unfold binarize
  refine ⟨?_, maskIn_zip (maskIn_zip hx (maskIn_none _) _) (maskIn_map hx _) _, Finset.mem_union_left _ (Finset.mem_union_left _ dx)⟩
  rw [chunk_zip (maskIn_zip hx (maskIn_none _) _) (maskIn_map hx _), chunk_zipFixed dx, chunk_map]

theorem C74_continuous_to_binary {label : FV K → L} {which : String} {th : Thresholds L K} {str : FV K → String} {suffix : Option String}
    {tr : InputTransform L K} (h : continuousToBinary label which th d str suffix = .ok tr) : tr.ChunkLocal c := by
  obtain ⟨text, -, h⟩ := bind_ok_iff.mp h
  refine mkTransform_local h ?_
  intro S m name x y hx dx hy
  obtain ⟨t, ht, hy⟩ := bind_ok_iff.mp hy
  injection hy with hy
  subst hy
  obtain ⟨e1, e2, e3⟩ := binarize_chunk (S := S) (th := t) hx dx
  refine ⟨bind_ok_iff.mpr ⟨t, ht, ?_⟩, e2, e3⟩
  rw [e1]
  rfl

theorem C74_ensemble_mean {which : String} (hd : d ≠ c) {skipna skip : Bool} {tr : InputTransform L K} (h : ensembleMean which d skipna skip = .ok tr) :
    tr.ChunkLocal c := by
  refine mkTransform_local h ?_
  intro S m name x y hx dx hy
  unfold ensembleMeanFn at hy ⊢
  by_cases hs : d ∉ x.arr.dims ∧ skip = true
  · rw [if_pos hs, Except.ok.injEq] at hy
    subst hy
    rw [if_pos (by exact hs)]
    exact ⟨rfl, hx, dx⟩
  · rw [if_neg hs] at hy
    rw [if_neg (by exact hs)]
    refine ⟨meanDim_chunk hd hy, maskIn_meanDim hx hy, ?_⟩
    unfold StatVar.meanDim at hy
    split at hy
    · injection hy with hy
      subst hy
      exact Finset.mem_erase.mpr ⟨hd.symm, dx⟩
    · exact absurd hy (by simp)

theorem C74_weibull {which : String} (hd : d ≠ c) {skipna : Bool} {tr : InputTransform L K} (h : weibull which d skipna = .ok tr) : tr.ChunkLocal c := by
  unfold weibull at h
  split at h
  swap
  · exact absurd h (by simp)
  refine mkTransform_local h ?_
  intro S m name x y hx dx hy
  unfold weibullFn at hy ⊢
  by_cases hm : d ∈ x.arr.dims
  · rw [if_pos hm, Except.ok.injEq] at hy
    subst hy
    rw [if_pos (by exact hm)]
    have hcoords : (x.chunk c S).arr.coords d = x.arr.coords d := by simp only [StatVar.chunk, DA.restrict, if_neg hd]
    rw [hcoords, chunk_map, chunk_reduce hd]
    exact ⟨rfl, maskIn_map (maskIn_reduce hx _ _) _, Finset.mem_erase.mpr ⟨hd.symm, dx⟩⟩
  · rw [if_neg hm] at hy
    exact absurd hy (by simp)

theorem C74_relu {which : String} {tr : InputTransform L K} (h : relu which = .ok tr) : tr.ChunkLocal c := by
  refine mkTransform_local h ?_
  intro S m name x y hx dx hy
  injection hy with hy
  subst hy
  exact ⟨rfl, maskIn_map hx _, dx⟩

theorem C74_shift {label : FV K → L} {which : String} {th : Thresholds L K} {suffix : String} {tr : InputTransform L K}
    (h : shiftAlongNewDim label which th d suffix = .ok tr) : tr.ChunkLocal c := by
  refine mkTransform_local h ?_
  have key : ∀ (S : Finset L) (m : DA L Bool) (x : StatVar L (FV K)) (a : DA L (FV K)), MaskIn m x → c ∈ x.arr.dims →
      shiftFn a (x.chunk c S) = (shiftFn a x).chunk c S ∧ MaskIn m (shiftFn a x) ∧ c ∈ (shiftFn a x).arr.dims := by
    intro S m x a hx dx
    unfold shiftFn
    exact ⟨(chunk_zipFixed dx _).symm, maskIn_zip hx (maskIn_none _) _, Finset.mem_union_left _ dx⟩
  intro S m name x y hx dx hy
  cases th with
  | list ts =>
    injection hy with hy
    subst hy
    obtain ⟨e1, e2⟩ := key S m x (thresholdArray label d ts) hx dx
    exact ⟨by dsimp only; rw [e1], e2⟩
  | array a =>
    injection hy with hy
    subst hy
    obtain ⟨e1, e2⟩ := key S m x a hx dx
    exact ⟨by dsimp only; rw [e1], e2⟩
  | dataset vs =>
    dsimp only at hy ⊢
    obtain ⟨a, ha, hy⟩ := bind_ok_iff.mp hy
    by_cases hda : d ∈ a.dims
    · rw [if_pos hda, Except.ok.injEq] at hy
      subst hy
      obtain ⟨e1, e2⟩ := key S m x a hx dx
      refine ⟨bind_ok_iff.mpr ⟨a, ha, ?_⟩, e2⟩
      rw [if_pos hda, e1]
    · rw [if_neg hda] at hy
      exact absurd hy (by simp)

/-- Thresholds that are cut along with the data: the distribution functions are cut. -/
theorem cdf_chunk {S : Finset L} {x y : StatVar L (FV K)} {th th' : DA L (FV K)} (H : CutOf c S th th') {order : List L} {enforce right : Bool}
    {m : DA L Bool} (hx : MaskIn m x) (dx : c ∈ x.arr.dims) (h : computeCdf th order d enforce right x = .ok y) :
    computeCdf th' order d enforce right (x.chunk c S) = .ok (y.chunk c S) ∧ MaskIn m y ∧ c ∈ y.arr.dims := by
  unfold computeCdf at h ⊢
  split at h
  · exact absurd h (by simp)
  · rename_i hinc
    injection h with h
    subst h
    have hinc' : ¬ (enforce = true ∧ ¬ increasingAlong d order th') := by
      rintro ⟨h1, h2⟩
      refine hinc ⟨h1, fun h3 => h2 ?_⟩
      intro e he p hp
      rw [H.val]
      refine h3 e ?_ p hp
      intro k hk
      have := he k (by rw [H.dims]; exact hk)
      by_cases hkc : k = c
      · subst hkc
        exact H.sub _ this
      · rwa [H.coords k hkc] at this
    rw [if_neg hinc']
    dsimp only
    have m1 : MaskIn m (x.zipWith (fun v h : FV K => (FV.ofBool (if right then FV.le v h else FV.lt v h) : FV K)) ⟨th, none⟩) := maskIn_zip hx (maskIn_none _) _
    have hfix : ∀ (g : FV K → Bool) (th : DA L (FV K)), StatVar.map g (⟨th, none⟩ : StatVar L (FV K)) = ⟨th.map g, none⟩ := fun _ _ => rfl
    have hdim : c ∈ ((x.zipWith (fun v h : FV K => (FV.ofBool (if right then FV.le v h else FV.lt v h) : FV K)) ⟨th, none⟩).zipWith FV.keepIf (x.map (fun v => !v.isnan))).arr.dims :=
      Finset.mem_union_left _ (Finset.mem_union_left _ dx)
    refine ⟨?_, maskIn_zip (maskIn_zip m1 (maskIn_map hx _) _) (maskIn_none _) _, Finset.mem_union_left _ hdim⟩
    rw [hfix, hfix, chunk_zipCut hdim (H.map _), chunk_zip m1 (maskIn_map hx _), chunk_zipCut dx H, chunk_map]

/-- Selecting labels for a chunk only. -/
theorem selBy_cut {V : Type} {S : Finset L} {h h' t : DA L V} (H : CutOf c S h h') {k : Dim} {ds : List Dim} {C : Dim → Finset L} {f : (Dim → L) → L}
    (hk : ∀ l, l ∈ h.coords k → l ∈ h'.coords k) (ht : h.selBy k ds C f = .ok t) :
    ∃ t', h'.selBy k ds (fun j => if j = c then C j ∩ S else C j) f = .ok t' ∧ CutOf c S t t' := by
  unfold DA.selBy at ht ⊢
  split at ht
  swap
  · exact absurd ht (by simp)
  rename_i hall
  injection ht with ht
  subst ht
  have hsub : ∀ e : Dim → L, (∀ j ∈ ds, e j ∈ (if j = c then C j ∩ S else C j)) → ∀ j ∈ ds, e j ∈ C j := by
    intro e he j hj
    have := he j hj
    split_ifs at this with h1
    · exact (Finset.mem_inter.mp this).1
    · exact this
  rw [if_pos (fun e he => hk _ (hall e (hsub e he)))]
  refine ⟨_, rfl, ?_⟩
  refine ⟨by dsimp only; rw [H.dims], by dsimp only; rw [H.val], ?_, ?_, ?_⟩
  · intro j hj
    dsimp only
    rw [if_neg hj, H.coords j hj]
  · intro l hS
    dsimp only
    by_cases hc : c ∈ ds
    · simp [hc, hS]
    · simp only [if_neg hc]
      exact H.chunk l hS
  · intro l hl
    dsimp only at hl ⊢
    by_cases hc : c ∈ ds
    · simp only [hc, if_true] at hl ⊢
      exact (Finset.mem_inter.mp hl).1
    · simp only [if_neg hc] at hl ⊢
      exact H.sub l hl

theorem selBy_coords {V : Type} {h t : DA L V} {k : Dim} {ds : List Dim} {C : Dim → Finset L} {f : (Dim → L) → L} (ht : h.selBy k ds C f = .ok t) {j : Dim} (hj : j ∉ ds) :
    t.coords j = h.coords j := by
  unfold DA.selBy at ht
  split at ht
  · injection ht with ht
    subst ht
    dsimp only
    rw [if_neg hj]
  · exact absurd ht (by simp)

/-- Two selections, one after the other. -/
theorem selBy_twice {V : Type} {S : Finset L} {h t t2 : DA L V} {k k2 : Dim} {ds ds2 : List Dim} {C : Dim → Finset L} {f f2 : (Dim → L) → L}
    (ht : h.selBy k ds C f = .ok t) (ht2 : t.selBy k2 ds2 C f2 = .ok t2) (hk : k2 ∉ ds) :
    ∃ u, h.selBy k ds (fun j => if j = c then C j ∩ S else C j) f = .ok u ∧
      ∃ u2, u.selBy k2 ds2 (fun j => if j = c then C j ∩ S else C j) f2 = .ok u2 ∧ CutOf c S t2 u2 := by
  obtain ⟨u, hu, H⟩ := selBy_cut (CutOf.refl (c := c) S h) (fun _ h => h) ht
  obtain ⟨u2, hu2, H2⟩ := selBy_cut H (k := k2) (fun l hl => by rw [selBy_coords ht hk] at hl; rw [selBy_coords hu hk]; exact hl) ht2
  exact ⟨u, hu, u2, hu2, H2⟩

/-- The thresholds selected for a chunk are those selected for the whole array, at the times of the chunk. -/
theorem selectThresholds_chunk {tm : TimeLabels L} {S : Finset L} {th t : DA L (FV K)} {x : StatVar L (FV K)} (h : selectThresholdsByTime tm th x = .ok t) :
    ∃ t', selectThresholdsByTime tm th (x.chunk c S) = .ok t' ∧ CutOf c S t t' := by
  have one : ∀ {k : Dim} {ds : List Dim} {f : (Dim → L) → L}, th.selBy k ds x.arr.coords f = .ok t →
      ∃ t', th.selBy k ds (x.chunk c S).arr.coords f = .ok t' ∧ CutOf c S t t' := fun ht => selBy_cut (CutOf.refl S th) (fun _ h => h) ht
  have two : ∀ {k k2 : Dim} {ds ds2 : List Dim} {f f2 : (Dim → L) → L}, k2 ∉ ds → (do let a ← th.selBy k ds x.arr.coords f; a.selBy k2 ds2 x.arr.coords f2) = .ok t →
      ∃ t', (do let a ← th.selBy k ds (x.chunk c S).arr.coords f; a.selBy k2 ds2 (x.chunk c S).arr.coords f2) = .ok t' ∧ CutOf c S t t' := by
    intro k k2 ds ds2 f f2 hk ht
    obtain ⟨a, ha, ht⟩ := bind_ok_iff.mp ht
    obtain ⟨u, hu, u2, hu2, H⟩ := selBy_twice (c := c) (S := S) ha ht hk
    exact ⟨u2, bind_ok_iff.mpr ⟨u, hu, hu2⟩, H⟩
  have same : (.ok th : Except Err (DA L (FV K))) = .ok t → ∃ t', (.ok th : Except Err (DA L (FV K))) = .ok t' ∧ CutOf c S t t' := by
    intro ht
    injection ht with ht
    subst ht
    exact ⟨th, rfl, CutOf.refl S th⟩
  unfold selectThresholdsByTime at h ⊢
  dsimp only at h ⊢
  rw [chunk_dims]
  by_cases h1 : "init_time" ∈ x.arr.dims ∧ "lead_time" ∈ x.arr.dims
  · rw [if_pos h1] at h ⊢
    by_cases h2 : "valid_time" ∈ th.dims
    · rw [if_pos h2] at h ⊢
      exact one h
    · rw [if_neg h2] at h ⊢
      by_cases h3 : "init_time" ∈ th.dims ∧ "lead_time" ∈ th.dims
      · rw [if_pos h3] at h ⊢
        exact two (by decide) h
      · rw [if_neg h3] at h ⊢
        by_cases h4 : "dayofyear" ∈ th.dims ∧ "lead_time" ∈ th.dims
        · rw [if_pos h4] at h ⊢
          exact two (by decide) h
        · rw [if_neg h4] at h ⊢
          exact same h
  · rw [if_neg h1] at h ⊢
    by_cases h2 : "valid_time" ∈ x.arr.dims
    · rw [if_pos h2] at h ⊢
      by_cases h3 : "valid_time" ∈ th.dims
      · rw [if_pos h3] at h ⊢
        exact one h
      · rw [if_neg h3] at h ⊢
        by_cases h4 : "dayofyear" ∈ th.dims
        · rw [if_pos h4] at h ⊢
          exact one h
        · rw [if_neg h4] at h ⊢
          exact same h
    · rw [if_neg h2] at h ⊢
      exact same h

theorem forCdf_chunk {tm : TimeLabels L} {label : FV K → L} {th : Thresholds L K} {name : String} {S : Finset L} {x : StatVar L (FV K)} {t : DA L (FV K)}
    (h : th.forCdf tm label d name x = .ok t) : ∃ t', th.forCdf tm label d name (x.chunk c S) = .ok t' ∧ CutOf c S t t' := by
  cases th with
  | list ts =>
    injection h with h
    subst h
    exact ⟨_, rfl, CutOf.refl S _⟩
  | array a => exact selectThresholds_chunk h
  | dataset vs =>
    obtain ⟨a, ha, h⟩ := bind_ok_iff.mp h
    obtain ⟨t', h1, h2⟩ := selectThresholds_chunk (c := c) (S := S) h
    exact ⟨t', bind_ok_iff.mpr ⟨a, ha, h1⟩, h2⟩

theorem cdfFn_chunk {tm : TimeLabels L} {label : FV K → L} {th : Thresholds L K} {order : List L} {enforce right : Bool}
    {S : Finset L} {m : DA L Bool} {name : String} {x y : StatVar L (FV K)} (hx : MaskIn m x) (dx : c ∈ x.arr.dims)
    (h : cdfFn tm label th order d enforce right name x = .ok y) :
    cdfFn tm label th order d enforce right name (x.chunk c S) = .ok (y.chunk c S) ∧ MaskIn m y ∧ c ∈ y.arr.dims := by
  obtain ⟨t, ht, h⟩ := bind_ok_iff.mp h
  obtain ⟨t', ht', H⟩ := forCdf_chunk (c := c) (S := S) ht
  obtain ⟨e1, e2⟩ := cdf_chunk H hx dx h
  exact ⟨bind_ok_iff.mpr ⟨t', ht', e1⟩, e2⟩

theorem C74_continuous_to_cdf {tm : TimeLabels L} {label : FV K → L} {which : String} {th : Thresholds L K} {order : List L} {enforce right : Bool}
    {str : FV K → String} {suffix : Option String} {tr : InputTransform L K}
    (h : continuousToCDF tm label which th order d enforce right str suffix = .ok tr) : tr.ChunkLocal c := by
  obtain ⟨text, -, h⟩ := bind_ok_iff.mp h
  exact mkTransform_local h (fun S m name x y hx dx hy => cdfFn_chunk hx dx hy)

theorem C74_continuous_to_bins {tm : TimeLabels L} {label : FV K → L} {binName : L → L → L} {which : String} {th : Thresholds L K} {order : List L}
    {enforce : Bool} {str : FV K → String} {suffix : Option String} (hd : d ≠ c) {tr : InputTransform L K}
    (h : continuousToBins tm label binName which th order d enforce str suffix = .ok tr) : tr.ChunkLocal c := by
  obtain ⟨text, -, h⟩ := bind_ok_iff.mp h
  refine mkTransform_local h ?_
  intro S m name x y hx dx hy
  obtain ⟨cdf, hcdf, hy⟩ := bind_ok_iff.mp hy
  injection hy with hy
  subst hy
  obtain ⟨e1, e2, e3⟩ := cdfFn_chunk (S := S) hx dx hcdf
  refine ⟨bind_ok_iff.mpr ⟨_, e1, ?_⟩, e2, e3⟩
  simp only [pure, Except.pure, Except.ok.injEq]
  unfold diffBins StatVar.chunk
  dsimp only
  rw [StatVar.mk.injEq]
  refine ⟨DA.ext' rfl ?_ rfl, rfl⟩
  intro k
  simp only [DA.restrict]
  by_cases hk : k = d
  · subst hk
    simp [hd]
  · simp [hk]

/-- A function given by the user is local if it commutes with cutting. -/
theorem C74_inline {which suffix : String} {f : StatVar L (FV K) → Except Err (StatVar L (FV K))} {tr : InputTransform L K}
    (h : inline which f suffix = .ok tr)
    (hf : ∀ (S : Finset L) (m : DA L Bool) (x y : StatVar L (FV K)), MaskIn m x → c ∈ x.arr.dims → f x = .ok y →
      f (x.chunk c S) = .ok (y.chunk c S) ∧ MaskIn m y ∧ c ∈ y.arr.dims) : tr.ChunkLocal c :=
  mkTransform_local h (fun S m name x y hx dx hy => hf S m x y hx dx hy)

section wrapping

theorem mapVars_chunk {tr : InputTransform L K} (htr : tr.ChunkLocal c) (S : Finset L) {μ : String → DA L Bool} {p p' : Vars (StatVar L (FV K))}
    (dp : ∀ v a, (v, a) ∈ p → c ∈ a.arr.dims) (mp : ∀ v a, (v, a) ∈ p → MaskIn (μ v) a) (h : tr.mapVars p = .ok p') :
    tr.mapVars (chunkVars c S p) = .ok (chunkVars c S p') ∧ (∀ v a, (v, a) ∈ p' → c ∈ a.arr.dims) ∧ ∀ v a, (v, a) ∈ p' → MaskIn (μ v) a := by
  unfold InputTransform.mapVars at h ⊢
  induction p generalizing p' with
  | nil =>
    simp only [List.mapM_nil, pure, Except.pure, Except.ok.injEq] at h
    subst h
    exact ⟨rfl, by simp, by simp⟩
  | cons kv p ih =>
    obtain ⟨k, x⟩ := kv
    rw [List.mapM_cons] at h
    obtain ⟨y, hy, h⟩ := bind_ok_iff.mp h
    obtain ⟨ys, hys, h⟩ := bind_ok_iff.mp h
    injection h with h
    subst h
    obtain ⟨a, ha, hy⟩ := bind_ok_iff.mp hy
    injection hy with hy
    subst hy
    obtain ⟨i1, i2, i3⟩ := ih (fun v a h => dp v a (List.mem_cons_of_mem _ h)) (fun v a h => mp v a (List.mem_cons_of_mem _ h)) hys
    obtain ⟨e1, e2, e3⟩ := htr S (μ k) k x a (mp k x (by simp)) (dp k x (by simp)) ha
    refine ⟨?_, ?_, ?_⟩
    · change List.mapM _ ((k, x.chunk c S) :: chunkVars c S p) = _
      rw [List.mapM_cons]
      refine bind_ok_iff.mpr ⟨(k, a.chunk c S), bind_ok_iff.mpr ⟨_, e1, rfl⟩, ?_⟩
      rw [i1]
      rfl
    · intro v b hb
      rcases List.mem_cons.mp hb with hb | hb
      · rw [Prod.mk.injEq] at hb
        rw [hb.2]
        exact e3
      · exact i2 v b hb
    · intro v b hb
      rcases List.mem_cons.mp hb with hb | hb
      · rw [Prod.mk.injEq] at hb
        rw [hb.1, hb.2]
        exact e2
      · exact i3 v b hb

/-- C74: wrapping a local statistic in local transforms of the inputs is local. -/
theorem C74_wrapped {s : FStatistic L K} (hs : s.ChunkLocal c) {tr : InputTransform L K} (htr : tr.ChunkLocal c) :
    (wrappedStatistic s tr).ChunkLocal c := by
  intro S p t out hpt hout
  obtain ⟨dP, dT, μ, mP, mT⟩ := hpt
  obtain ⟨p', t', hp, ht, hout⟩ := wrappedStatistic_ok.mp hout
  have key : ∀ (side : String) (x x' : Vars (StatVar L (FV K))), (∀ v a, (v, a) ∈ x → c ∈ a.arr.dims) →
      (∀ v a, (v, a) ∈ x → MaskIn (μ v) a) → sideVars side tr x = .ok x' →
      sideVars side tr (chunkVars c S x) = .ok (chunkVars c S x') ∧
        (∀ v a, (v, a) ∈ x' → c ∈ a.arr.dims) ∧ ∀ v a, (v, a) ∈ x' → MaskIn (μ v) a := by
    intro side x x' d1 m1 h
    unfold sideVars at h ⊢
    by_cases hc : touches side tr
    · rw [if_pos hc] at h
      rw [if_pos hc]
      exact mapVars_chunk htr S d1 m1 h
    · rw [if_neg hc, Except.ok.injEq] at h
      subst h
      rw [if_neg hc]
      exact ⟨rfl, d1, m1⟩
  obtain ⟨a1, a2, a3⟩ := key _ p p' dP mP hp
  obtain ⟨b1, b2, b3⟩ := key _ t t' dT mT ht
  exact wrappedStatistic_ok.mpr ⟨_, _, a1, b1, hs S p' t' out ⟨a2, b2, μ, a3, b3⟩ hout⟩

theorem C74_wrap_all {s : FStatistic L K} (hs : s.ChunkLocal c) {trs : List (InputTransform L K)} (htr : ∀ tr ∈ trs, tr.ChunkLocal c)
    (suffix : Option String) : (wrapAll trs suffix s).ChunkLocal c := by
  have key : ∀ (l : List (InputTransform L K)) (s : FStatistic L K), (∀ tr ∈ l, tr.ChunkLocal c) → s.ChunkLocal c →
      (l.foldl wrappedStatistic s).ChunkLocal c := by
    intro l
    induction l with
    | nil => intro s _ hs; exact hs
    | cons tr l ih => intro s h hs; exact ih _ (fun x hx => h x (by simp [hx])) (C74_wrapped hs (h tr (by simp)))
  have h := key trs.reverse s (fun tr htr' => htr tr (List.mem_reverse.mp htr')) hs
  unfold wrapAll
  cases suffix with
  | none => exact h
  | some x => exact h

theorem C74_subselect {s : FStatistic L K} (hs : s.ChunkLocal c) (vars : List String) : (subselectStatistic vars s).ChunkLocal c := by
  intro S p t out hpt hout
  have hf : ∀ x : Vars (StatVar L (FV K)), (chunkVars c S x).filter (fun kv => decide (kv.1 ∈ vars)) = chunkVars c S (x.filter (fun kv => decide (kv.1 ∈ vars))) := by
    intro x
    unfold chunkVars
    rw [List.filter_map]
    rfl
  obtain ⟨dP, dT, μ, mP, mT⟩ := hpt
  change s.compute ((chunkVars c S p).filter _) ((chunkVars c S t).filter _) = _
  rw [hf, hf]
  exact hs S _ _ out ⟨fun v a h => dP v a (List.mem_of_mem_filter h), fun v a h => dT v a (List.mem_of_mem_filter h), μ,
    fun v a h => mP v a (List.mem_of_mem_filter h), fun v a h => mT v a (List.mem_of_mem_filter h)⟩ hout

end wrapping

section unmasked

/-- Data along `c` without masks. -/
def ChunkableUnmasked (c : Dim) (p t : Vars (StatVar L (FV K))) : Prop := Chunkable c p t ∧ Unmasked p t

theorem chunk_none {S : Finset L} {V : Type} {a : StatVar L V} (h : a.mask = none) : (a.chunk c S).mask = none := by
  unfold StatVar.chunk
  rw [h]
  rfl

theorem maskIn_of_none {V : Type} {m : DA L Bool} {a : StatVar L V} (h : a.mask = none) : MaskIn m a := Or.inl h

theorem pyItem_chunk (S : Finset L) {p : Vars (StatVar L (FV K))} {k : String} {a : StatVar L (FV K)} (h : pyItem p k = .ok a) :
    pyItem (chunkVars c S p) k = .ok (a.chunk c S) := by
  unfold pyItem at *
  rw [pyGet?_chunkVars]
  cases hg : pyGet? k p with
  | none => rw [hg] at h; exact absurd h (by simp)
  | some x =>
    rw [hg] at h
    injection h with h
    subst h
    rfl

theorem pyInsert_map {β γ : Type} (f : β → γ) (k : String) (v : β) : (l : List (String × β)) →
    pyInsert k (f v) (l.map (fun kv => (kv.1, f kv.2))) = (pyInsert k v l).map (fun kv => (kv.1, f kv.2))
  | [] => rfl
  | (k', v') :: l => by
    simp only [List.map_cons, pyInsert]
    by_cases h : k' = k
    · rw [if_pos h, if_pos h]; rfl
    · rw [if_neg h, if_neg h, List.map_cons, pyInsert_map f k v l]

theorem windLoop_chunk (S : Finset L) {m : DA L Bool} {p t : Vars (StatVar L (FV K))} (mp : ∀ v a, (v, a) ∈ p → MaskIn m a) (mt : ∀ v a, (v, a) ∈ t → MaskIn m a) :
    (vs : List (String × String × String)) → (acc out : Vars (Option (StatVar L (FV K)))) → windLoop p t vs acc = .ok out →
    windLoop (chunkVars c S p) (chunkVars c S t) vs (chunkStats c S acc) = .ok (chunkStats c S out)
  | [], acc, out, h => by
    simp only [windLoop, Except.ok.injEq] at h
    subst h
    rfl
  | (u, v, w) :: vs, acc, out, h => by
    rw [windLoop] at h
    obtain ⟨pu, h1, h⟩ := bind_ok_iff.mp h
    obtain ⟨pv, h2, h⟩ := bind_ok_iff.mp h
    obtain ⟨tu, h3, h⟩ := bind_ok_iff.mp h
    obtain ⟨tv, h4, h⟩ := bind_ok_iff.mp h
    have ih := windLoop_chunk S mp mt vs _ _ h
    have m1 := mp _ _ (pyItem_mem h1)
    have m2 := mp _ _ (pyItem_mem h2)
    have m3 := mt _ _ (pyItem_mem h3)
    have m4 := mt _ _ (pyItem_mem h4)
    rw [windLoop]
    refine bind_ok_iff.mpr ⟨_, pyItem_chunk S h1, bind_ok_iff.mpr ⟨_, pyItem_chunk S h2, bind_ok_iff.mpr ⟨_, pyItem_chunk S h3, bind_ok_iff.mpr ⟨_, pyItem_chunk S h4, ?_⟩⟩⟩⟩
    rw [← ih]
    unfold chunkStats
    rw [← pyInsert_map (Option.map (StatVar.chunk c S))]
    rw [Option.map_some, chunk_zip (maskIn_map (maskIn_zip m1 m3 _) _) (maskIn_map (maskIn_zip m2 m4 _) _), chunk_map, chunk_map, chunk_zip m1 m3, chunk_zip m2 m4]

/-- C74: the wind vector error, for data without masks (or with one mask for all variables). -/
theorem C74_wind {u v w : List String} {s : FStatistic L K} (h : windVectorSquaredError u v w = .ok s) : s.LocalOn (ChunkableUnmasked c) c := by
  obtain ⟨vs, -, h⟩ := bind_ok_iff.mp h
  injection h with h
  subst h
  intro S p t out hpt hout
  by_cases hne : ∃ m : DA L Bool, True
  · obtain ⟨m, -⟩ := hne
    exact windLoop_chunk S (m := m) (fun v a h => Or.inl (hpt.2.1 v a h)) (fun v a h => Or.inl (hpt.2.2 v a h)) vs [] out hout
  · exact absurd ⟨DA.scalar true, trivial⟩ hne

theorem gridApply_chunk (g : Grid L) {V W : Type} (f : ℕ → ℕ → (ℕ → ℕ → V) → ℕ → ℕ → W) (S : Finset L) (a : DA L V) :
    (gridApply g f a).restrict c S = gridApply g f (a.restrict c S) := rfl

theorem averageOne_chunk {g : Grid L} {wrap : Bool} {n : ℤ} (S : Finset L) {a s : StatVar L (FV K)} (ha : a.mask = none)
    (h : averageOne g wrap a n = .ok s) : averageOne g wrap (a.chunk c S) n = .ok (s.chunk c S) ∧ s.mask = none := by
  unfold averageOne at h ⊢
  by_cases hd : "latitude" ∈ a.arr.dims ∧ "longitude" ∈ a.arr.dims
  · rw [if_pos hd] at h
    rw [if_pos (by exact hd)]
    obtain ⟨f, hf, h⟩ := bind_ok_iff.mp h
    obtain ⟨m, hm, h⟩ := bind_ok_iff.mp h
    injection h with h
    subst h
    rw [ha] at hm
    injection hm with hm
    subst hm
    refine ⟨bind_ok_iff.mpr ⟨f, hf, bind_ok_iff.mpr ⟨none, ?_, rfl⟩⟩, rfl⟩
    rw [chunk_none ha]
    rfl
  · rw [if_neg hd] at h
    exact absurd h (by simp)

theorem averaging_chunk {g : Grid L} {number : ℤ → L} {wrap : Bool} {sizes : Sizes} (hc : c ≠ "neighborhood_size") (S : Finset L) {a s : StatVar L (FV K)}
    (ha : a.mask = none) (dc : c ∈ a.arr.dims) (h : neighborhoodAveraging g number wrap sizes a = .ok s) :
    neighborhoodAveraging g number wrap sizes (a.chunk c S) = .ok (s.chunk c S) ∧ s.mask = none ∧ c ∈ s.arr.dims := by
  cases sizes with
  | one n =>
    obtain ⟨e1, e2⟩ := averageOne_chunk (c := c) S ha h
    refine ⟨e1, e2, ?_⟩
    change averageOne g wrap a n = _ at h
    unfold averageOne at h
    split at h
    · obtain ⟨f, hf, h⟩ := bind_ok_iff.mp h
      obtain ⟨m, hm, h⟩ := bind_ok_iff.mp h
      injection h with h
      subst h
      exact dc
    · exact absurd h (by simp)
  | many ns =>
    obtain ⟨rs, hrs, h⟩ := bind_ok_iff.mp h
    by_cases hns : ns = []
    · rw [if_pos hns] at h
      exact absurd h (by simp)
    · rw [if_neg hns] at h
      injection h with h
      subst h
      have hmap : ∀ (ns : List ℤ) (rs : List (StatVar L (FV K))), ns.mapM (averageOne g wrap a) = .ok rs →
          ns.mapM (averageOne g wrap (a.chunk c S)) = .ok (rs.map (StatVar.chunk c S)) := by
        intro ns
        induction ns with
        | nil =>
          intro rs h
          simp only [List.mapM_nil, pure, Except.pure, Except.ok.injEq] at h
          subst h
          rfl
        | cons n ns ih =>
          intro rs h
          rw [List.mapM_cons] at h
          obtain ⟨y, hy, h⟩ := bind_ok_iff.mp h
          obtain ⟨ys, hys, h⟩ := bind_ok_iff.mp h
          injection h with h
          subst h
          rw [List.mapM_cons]
          exact bind_ok_iff.mpr ⟨_, (averageOne_chunk (c := c) S ha hy).1, bind_ok_iff.mpr ⟨_, ih _ hys, rfl⟩⟩
      refine ⟨bind_ok_iff.mpr ⟨_, hmap ns rs hrs, ?_⟩, ?_, ?_⟩
      · rw [if_neg hns]
        simp only [pure, Except.pure, Except.ok.injEq]
        unfold concatSizes StatVar.chunk
        rw [ha, StatVar.mk.injEq]
        refine ⟨DA.ext' rfl ?_ ?_, rfl⟩
        · intro k
          simp only [DA.restrict]
          have hlab : (List.map (fun r : ℤ × StatVar L (FV K) => number r.1) (ns.zip (rs.map (StatVar.chunk c S)))).toFinset =
              (List.map (fun r : ℤ × StatVar L (FV K) => number r.1) (ns.zip rs)).toFinset := by
            rw [List.zip_map_right, List.map_map]
            rfl
          by_cases hk : k = "neighborhood_size"
          · subst hk
            rw [if_pos rfl, if_neg (Ne.symm hc), if_pos rfl]
            exact hlab
          · rw [if_neg hk]
            simp only [if_neg hk]
        · funext e
          simp only [DA.restrict]
          have hp : pick number (ns.zip (rs.map (StatVar.chunk c S))) (e "neighborhood_size") =
              (pick number (ns.zip rs) (e "neighborhood_size")).map (StatVar.chunk c S) := by
            unfold pick
            rw [List.zip_map_right, List.find?_map]
            simp [Option.map_map, Function.comp_def]
          have hp' : pick number (ns.zip (List.map (fun a : StatVar L (FV K) => (⟨a.arr.restrict c S, a.mask.map (DA.restrict c S)⟩ : StatVar L (FV K))) rs)) (e "neighborhood_size") =
              (pick number (ns.zip rs) (e "neighborhood_size")).map (StatVar.chunk c S) := hp
          simp only [DA.restrict] at hp'
          rw [hp']
          cases pick number (ns.zip rs) (e "neighborhood_size") <;> rfl
      · unfold concatSizes
        rw [ha]
        rfl
      · unfold concatSizes
        exact Finset.mem_insert_of_mem dc

theorem statOfE_localU {name : String} {f : StatVar L (FV K) → StatVar L (FV K) → Except Err (StatVar L (FV K))}
    (h : ∀ (S : Finset L) (p t s : StatVar L (FV K)), p.mask = none → t.mask = none → c ∈ p.arr.dims → c ∈ t.arr.dims → f p t = .ok s →
      f (p.chunk c S) (t.chunk c S) = .ok (s.chunk c S)) : (statOfE name f).LocalOn (ChunkableUnmasked c) c := by
  have h' : (statOfE name (fun p t => if p.mask = none ∧ t.mask = none then f p t else .error .valueError)).ChunkLocal c := by
    refine statOfE_local ?_
    intro S m p t s hp ht dp dt hs
    dsimp only at hs ⊢
    by_cases hm : p.mask = none ∧ t.mask = none
    · rw [if_pos hm] at hs
      rw [if_pos ⟨chunk_none hm.1, chunk_none hm.2⟩]
      exact h S p t s hm.1 hm.2 dp dt hs
    · rw [if_neg hm] at hs
      exact absurd hs (by simp)
  intro S p t out hpt hout
  have hcongr : ∀ (q r : Vars (StatVar L (FV K))), (∀ v a, (v, a) ∈ q → a.mask = none) → (∀ v a, (v, a) ∈ r → a.mask = none) →
      (statOfE name f).compute q r = (statOfE name (fun p t => if p.mask = none ∧ t.mask = none then f p t else .error .valueError)).compute q r := by
    intro q r hq hr
    unfold statOfE perVariableStatistic
    dsimp only
    induction q with
    | nil => rfl
    | cons kv q ih =>
      obtain ⟨k, a⟩ := kv
      rw [perVariableLoop, perVariableLoop, ih (fun v a h => hq v a (List.mem_cons_of_mem _ h))]
      cases hg : pyGet? k r with
      | none => rfl
      | some b =>
        have ha := hq k a (by simp)
        have hb := hr k b (pyGet?_mem hg)
        dsimp only
        rw [if_pos ⟨ha, hb⟩]
  have hq : ∀ x : Vars (StatVar L (FV K)), (∀ v a, (v, a) ∈ x → a.mask = none) → ∀ v a, (v, a) ∈ chunkVars c S x → a.mask = none := by
    intro x hx v a ha
    obtain ⟨kv, hkv, he⟩ := List.mem_map.mp ha
    rw [Prod.mk.injEq] at he
    rw [← he.2]
    exact chunk_none (hx kv.1 kv.2 hkv)
  rw [hcongr _ _ hpt.2.1 hpt.2.2] at hout
  rw [hcongr _ _ (hq p hpt.2.1) (hq t hpt.2.2)]
  exact h' S p t out hpt.1 hout

/-- C74: the three statistics of the fractions skill score, for data without masks. -/
theorem C74_fss {g : Grid L} {number : ℤ → L} {wrap : Bool} {sizes : Sizes} (hc : c ≠ "neighborhood_size") :
    ∀ ks ∈ (fss (K := K) g number wrap sizes).statistics, ks.2.LocalOn (ChunkableUnmasked c) c := by
  have m0 : DA L Bool := DA.scalar true
  intro ks hks
  simp only [fss, metric3, perVariableMetric, List.mem_cons, List.not_mem_nil, or_false] at hks
  rcases hks with rfl | rfl | rfl
  · refine statOfE_localU ?_
    intro S p t s hp ht dp dt h
    obtain ⟨P, h1, h⟩ := bind_ok_iff.mp h
    obtain ⟨T, h2, h⟩ := bind_ok_iff.mp h
    injection h with h
    subst h
    obtain ⟨e1, e2, -⟩ := averaging_chunk (c := c) hc S hp dp h1
    obtain ⟨f1, f2, -⟩ := averaging_chunk (c := c) hc S ht dt h2
    refine bind_ok_iff.mpr ⟨_, e1, bind_ok_iff.mpr ⟨_, f1, ?_⟩⟩
    rw [chunk_map, chunk_zip (m := m0) (Or.inl e2) (Or.inl f2)]
    rfl
  · refine statOfE_localU ?_
    intro S p t s hp ht dp dt h
    obtain ⟨P, h1, h⟩ := bind_ok_iff.mp h
    injection h with h
    subst h
    obtain ⟨e1, e2, -⟩ := averaging_chunk (c := c) hc S hp dp h1
    refine bind_ok_iff.mpr ⟨_, e1, ?_⟩
    rw [chunk_zip (m := m0) (maskIn_map (Or.inl e2) _) (maskIn_map (Or.inl ht) _), chunk_map, chunk_map]
    rfl
  · refine statOfE_localU ?_
    intro S p t s hp ht dp dt h
    obtain ⟨P, h1, h⟩ := bind_ok_iff.mp h
    injection h with h
    subst h
    obtain ⟨e1, e2, -⟩ := averaging_chunk (c := c) hc S ht dt h1
    refine bind_ok_iff.mpr ⟨_, e1, ?_⟩
    rw [chunk_zip (m := m0) (maskIn_map (Or.inl e2) _) (maskIn_map (Or.inl hp) _), chunk_map, chunk_map]
    rfl

end unmasked

end WBX
