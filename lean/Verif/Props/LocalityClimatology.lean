import Verif.Props.LocalityWrappers
import Verif.Props.Climatology
import Verif.Props.Latency

set_option linter.unusedSectionVars false
set_option linter.unusedVariables false

/-! # C74: statistics with a climatology -/

namespace WBX
open DA
variable {L K : Type} [DecidableEq L] [Field K] [LinearOrder K] [IsStrictOrderedRing K]
variable {V W U : Type} {c d : Dim} {S : Finset L}

theorem CutOf.zip {h h' : DA L V} {g g' : DA L W} (H : CutOf c S h h') (G : CutOf c S g g') (f : V → W → U) : CutOf c S (DA.zipWith f h g) (DA.zipWith f h' g') := by
  refine ⟨?_, ?_, ?_, ?_, ?_⟩
  · simp only [DA.zipWith, H.dims, G.dims]
  · simp only [DA.zipWith, H.val, G.val]
  · intro k hk
    simp only [DA.zipWith, DA.joinCoords, H.dims, G.dims, H.coords k hk, G.coords k hk]
  · intro l hl
    simp only [DA.zipWith, DA.joinCoords, H.dims, G.dims]
    split_ifs
    · simp only [Finset.mem_inter, H.chunk l hl, G.chunk l hl]
    · exact H.chunk l hl
    · exact G.chunk l hl
  · intro l
    simp only [DA.zipWith, DA.joinCoords, H.dims, G.dims]
    split_ifs
    · simp only [Finset.mem_inter]
      exact fun h => ⟨H.sub l h.1, G.sub l h.2⟩
    · exact H.sub l
    · exact G.sub l

/-- A climatology array of a chunk, compared to that of the whole data: both without mask. -/
structure CutVar (c : Dim) (S : Finset L) (h h' : StatVar L V) : Prop where
  arr : CutOf c S h.arr h'.arr
  mask : h.mask = none
  mask' : h'.mask = none

theorem CutVar.refl (h : StatVar L V) (hm : h.mask = none) : CutVar c S h h := ⟨CutOf.refl S _, hm, hm⟩

theorem statVar_none {h : StatVar L V} (hm : h.mask = none) : h = ⟨h.arr, none⟩ := by
  cases h
  simp only at hm
  rw [hm]

theorem CutVar.zip {h h' : StatVar L V} {g g' : StatVar L W} (H : CutVar c S h h') (G : CutVar c S g g') (f : V → W → U) : CutVar c S (h.zipWith f g) (h'.zipWith f g') := by
  refine ⟨H.arr.zip G.arr f, ?_, ?_⟩
  · simp [StatVar.zipWith, H.mask, G.mask, combineMask]
  · simp [StatVar.zipWith, H.mask', G.mask', combineMask]

theorem CutVar.map {h h' : StatVar L V} (H : CutVar c S h h') (g : V → W) : CutVar c S (h.map g) (h'.map g) := ⟨H.arr.map g, H.mask, H.mask'⟩

theorem zip_cutVar {a : StatVar L V} (hc : c ∈ a.arr.dims) {h h' : StatVar L W} (H : CutVar c S h h') (f : V → W → U) :
    (a.chunk c S).zipWith f h' = (a.zipWith f h).chunk c S := by
  rw [statVar_none H.mask, statVar_none H.mask', chunk_zipCut hc H.arr]

theorem maskIn_cutVar {m : DA L Bool} {h h' : StatVar L V} (H : CutVar c S h h') : MaskIn m h := Or.inl H.mask

/-- Selecting labels of a climatology for a chunk only. -/
theorem StatVar.selBy_cut {h h' t : StatVar L V} (H : CutVar c S h h') {k : Dim} {ds : List Dim} {C : Dim → Finset L} {f : (Dim → L) → L}
    (hk : ∀ l, l ∈ h.arr.coords k → l ∈ h'.arr.coords k) (ht : h.selBy k ds C f = .ok t) :
    ∃ t', h'.selBy k ds (fun j => if j = c then C j ∩ S else C j) f = .ok t' ∧ CutVar c S t t' := by
  unfold StatVar.selBy at ht ⊢
  by_cases hd : k ∈ h.arr.dims
  · rw [if_pos hd] at ht
    rw [if_pos (by rw [H.arr.dims]; exact hd)]
    obtain ⟨a, ha, ht⟩ := bind_ok_iff.mp ht
    rw [H.mask] at ht
    injection ht with ht
    subst ht
    obtain ⟨a', ha', G⟩ := WBX.selBy_cut H.arr hk ha
    refine ⟨⟨a', none⟩, bind_ok_iff.mpr ⟨a', ha', ?_⟩, G, rfl, rfl⟩
    rw [H.mask']
    rfl
  · rw [if_neg hd] at ht
    exact absurd ht (by simp)

theorem StatVar.selBy_coords {h t : StatVar L V} {k : Dim} {ds : List Dim} {C : Dim → Finset L} {f : (Dim → L) → L} (hm : h.mask = none) (ht : h.selBy k ds C f = .ok t) {j : Dim} (hj : j ∉ ds) :
    t.arr.coords j = h.arr.coords j := by
  unfold StatVar.selBy at ht
  split at ht
  · obtain ⟨a, ha, ht⟩ := bind_ok_iff.mp ht
    rw [hm] at ht
    injection ht with ht
    subst ht
    exact WBX.selBy_coords ha hj
  · exact absurd ht (by simp)

theorem selClimatology_cut {tm : ClimTimes L} {ds : List Dim} (hds : "hour" ∉ ds) {C : Dim → Finset L} {vt : (Dim → L) → L} {cl al : StatVar L V} (hm : cl.mask = none)
    (h : selClimatology tm ds C vt cl = .ok al) :
    ∃ al', selClimatology tm ds (fun j => if j = c then C j ∩ S else C j) vt cl = .ok al' ∧ CutVar c S al al' := by
  unfold selClimatology at h ⊢
  by_cases h1 : "time" ∈ cl.arr.dims
  · rw [if_pos h1] at h ⊢
    exact StatVar.selBy_cut (CutVar.refl cl hm) (fun _ h => h) h
  · rw [if_neg h1] at h ⊢
    by_cases h2 : "hour" ∈ cl.arr.dims
    · rw [if_pos h2] at h ⊢
      obtain ⟨a, ha, h⟩ := bind_ok_iff.mp h
      obtain ⟨a', ha', H⟩ := StatVar.selBy_cut (CutVar.refl cl hm) (fun _ h => h) ha
      obtain ⟨b, hb, G⟩ := StatVar.selBy_cut H (fun l hl => by
        rw [StatVar.selBy_coords hm ha hds] at hl
        rw [StatVar.selBy_coords hm ha' hds]
        exact hl) h
      exact ⟨b, bind_ok_iff.mpr ⟨a', ha', hb⟩, G⟩
    · rw [if_neg h2] at h ⊢
      exact StatVar.selBy_cut (CutVar.refl cl hm) (fun _ h => h) h

/-- A selection of the climatology for a predictions array that does not depend on what else is in the array than the times of the chunk. -/
def AlignsChunks (c : Dim) (align : StatVar L (FV K) → StatVar L (FV K) → Except Err (StatVar L (FV K))) : Prop :=
  ∀ (S : Finset L) (p cl al : StatVar L (FV K)), cl.mask = none → align p cl = .ok al → ∃ al', align (p.chunk c S) cl = .ok al' ∧ CutVar c S al al'

/-- C74: the climatology that is selected for a chunk is the one selected for all the data, at the times of the chunk. -/
theorem C74_align (tm : ClimTimes L) : AlignsChunks (K := K) c (fun p cl => alignClimatology tm p cl) := by
  intro S p cl al hm h
  dsimp only at h ⊢
  unfold alignClimatology at h ⊢
  rw [chunk_dims]
  by_cases h1 : "valid_time" ∈ p.arr.dims
  · rw [if_pos h1] at h ⊢
    exact selClimatology_cut (by decide) hm h
  · rw [if_neg h1] at h ⊢
    by_cases h2 : "init_time" ∈ p.arr.dims ∧ "lead_time" ∈ p.arr.dims
    · rw [if_pos h2] at h ⊢
      exact selClimatology_cut (by decide) hm h
    · rw [if_neg h2] at h
      exact absurd h (by simp)

/-- A statistic of predictions, targets and climatology that commutes with cutting. -/
def LocalFn3 (c : Dim) (f : StatVar L (FV K) → StatVar L (FV K) → StatVar L (FV K) → Except Err (StatVar L (FV K))) : Prop :=
  ∀ (S : Finset L) (m : DA L Bool) (p t al al' s : StatVar L (FV K)), MaskIn m p → MaskIn m t → c ∈ p.arr.dims → c ∈ t.arr.dims → CutVar c S al al' → f p t al = .ok s →
    f (p.chunk c S) (t.chunk c S) al' = .ok (s.chunk c S)

theorem mapM_climatology {X Y : Type} (clims : Vars Y) (p : Vars X) (g : X → X) :
    (p.map (fun kv => (kv.1, g kv.2))).mapM (fun kv => (do let x ← pyItem clims kv.1; return (kv.1, x) : Except Err (String × Y))) =
      p.mapM (fun kv => (do let x ← pyItem clims kv.1; return (kv.1, x) : Except Err (String × Y))) := by
  induction p with
  | nil => rfl
  | cons kv p ih =>
    rw [List.map_cons, List.mapM_cons, List.mapM_cons, ih]

theorem pyItem_chunkVars {v : String} {vs : Vars (StatVar L V)} {a : StatVar L V} (h : pyItem vs v = .ok a) : pyItem (chunkVars c S vs) v = .ok (a.chunk c S) := by
  unfold pyItem at h ⊢
  rw [pyGet?_chunkVars]
  cases hg : pyGet? v vs with
  | none => rw [hg] at h; exact absurd h (by simp)
  | some b =>
    rw [hg] at h
    injection h with h
    subst h
    rfl

/-- C74: a statistic with a climatology without masks is local. -/
theorem withClimatologyE_local {name : String} {clims : Vars (StatVar L (FV K))} (hcl : ∀ v a, (v, a) ∈ clims → a.mask = none)
    {align : StatVar L (FV K) → StatVar L (FV K) → Except Err (StatVar L (FV K))} (hal : AlignsChunks c align)
    {f : StatVar L (FV K) → StatVar L (FV K) → StatVar L (FV K) → Except Err (StatVar L (FV K))} (hf : LocalFn3 c f) :
    (withClimatologyE name clims align f).ChunkLocal c := by
  intro S p t out hpt hout
  obtain ⟨dP, dT, μ, mP, mT⟩ := hpt
  have h0 := bind_ok_iff.mp hout
  clear hout
  obtain ⟨cs, hcs, hout⟩ := h0
  have hmask : ∀ v a, (v, a) ∈ cs → a.mask = none := by
    intro v a ha
    obtain ⟨kv, -, hkv⟩ := mapM_out_mem hcs _ ha
    obtain ⟨x, hx, hkv⟩ := bind_ok_iff.mp hkv
    injection hkv with hkv
    have e := (Prod.mk.inj hkv).2
    subst e
    exact hcl _ _ (pyItem_mem hx)
  refine bind_ok_iff.mpr ⟨cs, (mapM_climatology clims p (StatVar.chunk c S)).trans hcs, ?_⟩
  clear hcs
  induction p generalizing out with
  | nil =>
    simp only [List.mapM_nil, pure, Except.pure, Except.ok.injEq] at hout
    subst hout
    rfl
  | cons kv p ih =>
    obtain ⟨v, a⟩ := kv
    rw [List.mapM_cons] at hout
    obtain ⟨y, hy, hout⟩ := bind_ok_iff.mp hout
    obtain ⟨ys, hys, hout⟩ := bind_ok_iff.mp hout
    injection hout with hout
    subst hout
    dsimp only at hy
    obtain ⟨b, hb, hy⟩ := bind_ok_iff.mp hy
    obtain ⟨cl, hc, hy⟩ := bind_ok_iff.mp hy
    obtain ⟨al, hA, hy⟩ := bind_ok_iff.mp hy
    obtain ⟨s, hs, hy⟩ := bind_ok_iff.mp hy
    injection hy with hy
    subst hy
    have h2 := ih _ (fun v a h => dP v a (List.mem_cons_of_mem _ h)) (fun v a h => mP v a (List.mem_cons_of_mem _ h)) hys
    obtain ⟨al', hA', H⟩ := hal S a cl al (hmask _ _ (pyItem_mem hc)) hA
    have hs' := hf S (μ v) a b al al' s (mP v a (by simp)) (mT v b (pyItem_mem hb)) (dP v a (by simp)) (dT v b (pyItem_mem hb)) H hs
    change List.mapM _ ((v, a.chunk c S) :: chunkVars c S p) = _
    rw [List.mapM_cons]
    refine bind_ok_iff.mpr ⟨(v, some (s.chunk c S)), ?_, bind_ok_iff.mpr ⟨_, h2, rfl⟩⟩
    exact bind_ok_iff.mpr ⟨_, pyItem_chunkVars hb, bind_ok_iff.mpr ⟨_, hc, bind_ok_iff.mpr ⟨_, hA', bind_ok_iff.mpr ⟨_, hs', rfl⟩⟩⟩⟩

section deterministic
variable {clims : Vars (StatVar L (FV ℝ))} {align : StatVar L (FV ℝ) → StatVar L (FV ℝ) → Except Err (StatVar L (FV ℝ))}

theorem withClimatology_eq (name : String) (f : StatVar L (FV ℝ) → StatVar L (FV ℝ) → StatVar L (FV ℝ) → StatVar L (FV ℝ)) :
    withClimatology name clims align f = withClimatologyE name clims align (fun p t al => .ok (f p t al)) := rfl

theorem withClimatology_local {name : String} (hcl : ∀ v a, (v, a) ∈ clims → a.mask = none) (hal : AlignsChunks c align)
    {f : StatVar L (FV ℝ) → StatVar L (FV ℝ) → StatVar L (FV ℝ) → StatVar L (FV ℝ)}
    (hf : ∀ (S : Finset L) (m : DA L Bool) (p t al al' : StatVar L (FV ℝ)), MaskIn m p → MaskIn m t → c ∈ p.arr.dims → c ∈ t.arr.dims → CutVar c S al al' →
      f (p.chunk c S) (t.chunk c S) al' = (f p t al).chunk c S) : (withClimatology name clims align f).ChunkLocal c := by
  rw [withClimatology_eq]
  refine withClimatologyE_local hcl hal ?_
  intro S m p t al al' s hp ht dp dt H hs
  injection hs with hs
  subst hs
  dsimp only
  rw [hf S m p t al al' hp ht dp dt H]

/-- C74: the statistics of the anomaly correlation and of the forecast activity. -/
theorem C74_anomalies (hcl : ∀ v a, (v, a) ∈ clims → a.mask = none) (hal : AlignsChunks c align) :
    ∀ s, s ∈ (acc clims align).statistics ++ (predictionActivity clims align).statistics → s.2.ChunkLocal c := by
  have h1 : (withClimatology "SquaredPredictionAnomaly" clims align squaredPredictionAnomaly).ChunkLocal c :=
    withClimatology_local hcl hal (fun S m p t al al' hp ht dp dt H => by unfold squaredPredictionAnomaly; rw [zip_cutVar dp H, chunk_map])
  have h2 : (withClimatology "SquaredTargetAnomaly" clims align squaredTargetAnomaly).ChunkLocal c :=
    withClimatology_local hcl hal (fun S m p t al al' hp ht dp dt H => by unfold squaredTargetAnomaly; rw [zip_cutVar dt H, chunk_map])
  have h3 : (withClimatology "AnomalyCovariance" clims align anomalyCovariance).ChunkLocal c :=
    withClimatology_local hcl hal (fun S m p t al al' hp ht dp dt H => by
      unfold anomalyCovariance
      rw [zip_cutVar dp H, zip_cutVar dt H, chunk_zip (maskIn_zip hp (maskIn_cutVar H) _) (maskIn_zip ht (maskIn_cutVar H) _)])
  intro s hs
  simp only [acc, predictionActivity, perVariableMetric, List.mem_append, List.mem_cons, List.not_mem_nil, or_false] at hs
  rcases hs with (rfl | rfl | rfl) | rfl
  · exact h1
  · exact h2
  · exact h3
  · exact h1

end deterministic

section opportunism
variable {clims : Vars (StatVar L (FV ℝ))} {align : StatVar L (FV ℝ) → StatVar L (FV ℝ) → Except Err (StatVar L (FV ℝ))} {label : ℝ → L} {fmt : ℝ → String}

theorem quantileDim_chunk (hd : d ≠ c) {q : ℝ} {a s : StatVar L (FV ℝ)} (h : a.quantileDim q d = .ok s) : (a.chunk c S).quantileDim q d = .ok (s.chunk c S) := by
  unfold StatVar.quantileDim at h ⊢
  split at h
  · rename_i hm
    injection h with h
    subst h
    rw [if_pos (by exact hm), ← chunk_reduce hd]
  · exact absurd h (by simp)

theorem quantileDim_mask {m : DA L Bool} {q : ℝ} {a s : StatVar L (FV ℝ)} (ha : MaskIn m a) (h : a.quantileDim q d = .ok s) : MaskIn m s := by
  unfold StatVar.quantileDim at h
  split at h
  · injection h with h
    subst h
    exact maskIn_reduce ha _ _
  · exact absurd h (by simp)

theorem quantileDim_dims (hd : d ≠ c) {q : ℝ} {a s : StatVar L (FV ℝ)} (hc : c ∈ a.arr.dims) (h : a.quantileDim q d = .ok s) : c ∈ s.arr.dims := by
  unfold StatVar.quantileDim at h
  split at h
  · injection h with h
    subst h
    exact Finset.mem_erase.mpr ⟨hd.symm, hc⟩
  · exact absurd h (by simp)

theorem selQuantile_cut (hq : "quantile" ≠ c) {l : L} {h h' s : StatVar L V} (H : CutVar c S h h') (hs : h.selQuantile l = .ok s) : ∃ s', h'.selQuantile l = .ok s' ∧ CutVar c S s s' := by
  unfold StatVar.selQuantile at hs ⊢
  split at hs
  · rename_i hm
    injection hs with hs
    subst hs
    rw [if_pos (by rw [H.arr.dims, H.arr.coords _ hq]; exact hm)]
    refine ⟨_, rfl, ⟨?_, ?_, ?_, ?_, ?_⟩, ?_, ?_⟩
    · dsimp only
      rw [H.arr.dims]
    · dsimp only
      rw [H.arr.val]
    · exact H.arr.coords
    · exact H.arr.chunk
    · exact H.arr.sub
    · simp [H.mask]
    · simp [H.mask']
  · exact absurd hs (by simp)

/-- C74: the statistics of the forecast of opportunity. -/
theorem C74_opportunism (hcl : ∀ v a, (v, a) ∈ clims → a.mask = none) (hal : AlignsChunks c align) (o : OpportunismArgs) (hd : o.dim ≠ c) (hq : "quantile" ≠ c) :
    ∀ s, s ∈ (opportunism label fmt clims align o).statistics → s.2.ChunkLocal c := by
  have h1 : ∀ low high threshold : ℝ, (confidentStatistic label fmt clims align o.dim low high threshold).ChunkLocal c := by
    intro low high threshold
    refine withClimatologyE_local hcl hal ?_
    intro S m p t al al' s hp ht dp dt H hs
    obtain ⟨ph, e1, hs⟩ := bind_ok_iff.mp hs
    obtain ⟨pl, e2, hs⟩ := bind_ok_iff.mp hs
    obtain ⟨ch, e3, hs⟩ := bind_ok_iff.mp hs
    obtain ⟨cl, e4, hs⟩ := bind_ok_iff.mp hs
    injection hs with hs
    subst hs
    obtain ⟨ch', e3', H3⟩ := selQuantile_cut hq H e3
    obtain ⟨cl', e4', H4⟩ := selQuantile_cut hq H e4
    refine bind_ok_iff.mpr ⟨_, quantileDim_chunk hd e1, bind_ok_iff.mpr ⟨_, quantileDim_chunk hd e2, bind_ok_iff.mpr ⟨_, e3', bind_ok_iff.mpr ⟨_, e4', ?_⟩⟩⟩⟩
    rw [← chunk_zip (quantileDim_mask hp e1) (quantileDim_mask hp e2), zip_cutVar ?_ ((H3.zip H4 _).map _)]
    · rfl
    · exact Finset.mem_union_left _ (quantileDim_dims hd dp e1)
  have h2 : ∀ low high : ℝ, (coveredStatistic fmt o.dim low high : FStatistic L ℝ).ChunkLocal c := by
    intro low high
    refine statOfE_local ?_
    intro S m p t s hp ht dp dt hs
    obtain ⟨pl, e1, hs⟩ := bind_ok_iff.mp hs
    obtain ⟨ph, e2, hs⟩ := bind_ok_iff.mp hs
    injection hs with hs
    subst hs
    refine bind_ok_iff.mpr ⟨_, quantileDim_chunk hd e1, bind_ok_iff.mpr ⟨_, quantileDim_chunk hd e2, ?_⟩⟩
    have m1 := quantileDim_mask hp e1
    have m2 := quantileDim_mask hp e2
    rw [← chunk_zip m1 ht, ← chunk_zip ht m2, ← chunk_zip (maskIn_zip m1 ht _) (maskIn_zip ht m2 _)]
    rfl
  have h3 : ∀ low high threshold : ℝ, (distantStatistic label fmt clims align o.dim low high threshold).ChunkLocal c := by
    intro low high threshold
    refine withClimatologyE_local hcl hal ?_
    intro S m p t al al' s hp ht dp dt H hs
    obtain ⟨pl, e1, hs⟩ := bind_ok_iff.mp hs
    obtain ⟨ph, e2, hs⟩ := bind_ok_iff.mp hs
    obtain ⟨cl, e3, hs⟩ := bind_ok_iff.mp hs
    obtain ⟨ch, e4, hs⟩ := bind_ok_iff.mp hs
    injection hs with hs
    subst hs
    obtain ⟨cl', e3', H3⟩ := selQuantile_cut hq H e3
    obtain ⟨ch', e4', H4⟩ := selQuantile_cut hq H e4
    refine bind_ok_iff.mpr ⟨_, quantileDim_chunk hd e1, bind_ok_iff.mpr ⟨_, quantileDim_chunk hd e2, bind_ok_iff.mpr ⟨_, e3', bind_ok_iff.mpr ⟨_, e4', ?_⟩⟩⟩⟩
    rw [← chunk_zip (quantileDim_mask hp e1) (quantileDim_mask hp e2), zip_cutVar ?_ (H3.zip H4 _)]
    · rfl
    · exact Finset.mem_union_left _ (quantileDim_dims hd dp e1)
  intro s hs
  simp only [opportunism, perVariableMetric, opportunismStatistics, List.mem_append, List.mem_cons] at hs
  rcases hs with rfl | hs | hs
  · exact h1 _ _ _
  · split_ifs at hs
    · rw [List.mem_singleton] at hs
      subst hs
      exact h2 _ _
    · exact absurd hs (by simp)
  · split_ifs at hs
    · rw [List.mem_singleton] at hs
      subst hs
      exact h3 _ _ _
    · exact absurd hs (by simp)

end opportunism

end WBX
