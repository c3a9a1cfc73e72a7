import Verif.Model.DefinePipeline
import Verif.Props.LocalityWrappers
import Verif.Props.Unaggregated
import Verif.Props.Pipeline
import Verif.Props.Loaders
import Verif.Model.Datasets

set_option linter.unusedSectionVars false
set_option linter.unusedVariables false

/-! # C74: from the loaders to the result of the pipeline -/

namespace WBX
open DA
variable {L K : Type} [DecidableEq L] [Field K] [LinearOrder K] [IsStrictOrderedRing K]
variable {c : Dim}

theorem unique_local {D : Type} {metrics : List (String × Metric (StatVar L (FV K)) (Option (StatVar L (FV K))) D)}
    {H : Vars (StatVar L (FV K)) → Vars (StatVar L (FV K)) → Prop}
    (hm : ∀ nm ∈ metrics, ∀ ks ∈ nm.2.statistics, ks.2.LocalOn H c) {p t : Vars (StatVar L (FV K))} (hpt : H p t)
    {whole : List (String × Vars (Option (StatVar L (FV K))))} (h : computeUniqueStatistics metrics p t = .ok whole) (S : Finset L) :
    computeUniqueStatistics metrics (chunkVars c S p) (chunkVars c S t) = .ok (chunkOf c S whole) := by
  have hu : ∀ x ∈ uniqueStatistics metrics, x.2.LocalOn H c := by
    intro x hx
    have h2 := ((uniqueStatistics_spec metrics).2.1 x hx).2
    unfold requiredStatistics at h2
    obtain ⟨nm, hnm, h3⟩ := List.mem_flatMap.mp h2
    obtain ⟨ks, hks, h4⟩ := List.mem_map.mp h3
    rw [← h4]
    exact hm nm hnm ks hks
  unfold computeUniqueStatistics at h ⊢
  generalize uniqueStatistics metrics = us at hu h
  induction us generalizing whole with
  | nil =>
    simp only [List.mapM_nil, pure, Except.pure, Except.ok.injEq] at h
    subst h
    rfl
  | cons x us ih =>
    rw [List.mapM_cons] at h
    obtain ⟨y, hy, h⟩ := bind_ok_iff.mp h
    obtain ⟨ys, hys, h⟩ := bind_ok_iff.mp h
    injection h with h
    subst h
    cases hc : x.2.compute p t with
    | error e => rw [hc] at hy; exact absurd hy (by simp)
    | ok v =>
      rw [hc] at hy
      injection hy with hy
      subst hy
      have h1 := hu x (by simp) S p t v hpt hc
      rw [List.mapM_cons, h1]
      refine bind_ok_iff.mpr ⟨_, rfl, ?_⟩
      rw [ih (fun x hx => hu x (by simp [hx])) hys]
      rfl

/-- C74: if every statistic of every metric is local, so is the dictionary of all of them. -/
theorem C74_all_statistics {D : Type} {metrics : List (String × Metric (StatVar L (FV K)) (Option (StatVar L (FV K))) D)}
    (hm : ∀ nm ∈ metrics, ∀ ks ∈ nm.2.statistics, ks.2.ChunkLocal c) {p t : Vars (StatVar L (FV K))} (hpt : Chunkable c p t)
    {whole : List (String × Vars (Option (StatVar L (FV K))))} (h : computeUniqueStatistics metrics p t = .ok whole) (S : Finset L) :
    computeUniqueStatistics metrics (chunkVars c S p) (chunkVars c S t) = .ok (chunkOf c S whole) := unique_local hm hpt h S

theorem chunkable_chunk {c c' : Dim} {p t : Vars (StatVar L (FV K))} (h : Chunkable c p t) (S : Finset L) :
    Chunkable c (chunkVars c' S p) (chunkVars c' S t) := by
  obtain ⟨dP, dT, μ, mP, mT⟩ := h
  have key : ∀ x : Vars (StatVar L (FV K)), (∀ v a, (v, a) ∈ x → c ∈ a.arr.dims) → (∀ v a, (v, a) ∈ x → MaskIn (μ v) a) →
      ∀ v a, (v, a) ∈ chunkVars c' S x → c ∈ a.arr.dims ∧ MaskIn ((μ v).restrict c' S) a := by
    intro x h1 h2 v a ha
    obtain ⟨⟨v', a'⟩, hm, he⟩ := List.mem_map.mp ha
    rw [Prod.mk.injEq] at he
    obtain ⟨rfl, rfl⟩ := he
    exact ⟨h1 v' a' hm, maskIn_chunk (h2 v' a' hm)⟩
  exact ⟨fun v a ha => (key p dP mP v a ha).1, fun v a ha => (key t dT mT v a ha).1, fun v => (μ v).restrict c' S,
    fun v a ha => (key p dP mP v a ha).2, fun v a ha => (key t dT mT v a ha).2⟩

theorem unmasked_chunk {c' : Dim} {p t : Vars (StatVar L (FV K))} (h : Unmasked p t) (S : Finset L) :
    Unmasked (chunkVars c' S p) (chunkVars c' S t) := by
  have key : ∀ x : Vars (StatVar L (FV K)), (∀ v a, (v, a) ∈ x → a.mask = none) → ∀ v a, (v, a) ∈ chunkVars c' S x → a.mask = none := by
    intro x h2 v a ha
    obtain ⟨⟨v', a'⟩, hm, he⟩ := List.mem_map.mp ha
    rw [Prod.mk.injEq] at he
    obtain ⟨rfl, rfl⟩ := he
    exact chunk_none (h2 _ _ hm)
  exact ⟨key p h.1, key t h.2⟩

/-- The data of a chunk of the evaluation: the chunk of the whole data. -/
def chunkData (is ts : List L) (x : Vars (StatVar L (FV K))) : Vars (StatVar L (FV K)) :=
  chunkVars "lead_time" ts.toFinset (chunkVars "init_time" is.toFinset x)

/-- A family of data conditions that chunks inherit. -/
structure Heritable (H : Dim → Vars (StatVar L (FV K)) → Vars (StatVar L (FV K)) → Prop) : Prop where
  chunk : ∀ c c' S p t, H c p t → H c (chunkVars c' S p) (chunkVars c' S t)

theorem heritable_chunkable : Heritable (L := L) (K := K) Chunkable := ⟨fun _ _ S _ _ h => chunkable_chunk h S⟩

theorem heritable_unmasked : Heritable (L := L) (K := K) ChunkableUnmasked :=
  ⟨fun _ _ S _ _ h => ⟨chunkable_chunk h.1 S, unmasked_chunk h.2 S⟩⟩

theorem local_both {D : Type} {metrics : List (String × Metric (StatVar L (FV K)) (Option (StatVar L (FV K))) D)}
    {H : Dim → Vars (StatVar L (FV K)) → Vars (StatVar L (FV K)) → Prop} (hH : Heritable H)
    (hm : ∀ c, c = "init_time" ∨ c = "lead_time" → ∀ nm ∈ metrics, ∀ ks ∈ nm.2.statistics, ks.2.LocalOn (H c) c)
    {p t : Vars (StatVar L (FV K))} (hi : H "init_time" p t) (hl : H "lead_time" p t)
    {whole : List (String × Vars (Option (StatVar L (FV K))))} (h : computeUniqueStatistics metrics p t = .ok whole) (is ts : List L) :
    computeUniqueStatistics metrics (chunkData is ts p) (chunkData is ts t) =
      .ok (chunkOf "lead_time" ts.toFinset (chunkOf "init_time" is.toFinset whole)) :=
  unique_local (hm _ (Or.inr rfl)) (hH.chunk _ _ _ _ _ hl) (unique_local (hm _ (Or.inl rfl)) hi h is.toFinset) ts.toFinset

/-! ### Loading a chunk gives the chunk of what loading everything gives -/

section loaders
variable {V : Type}

/-- Loading only some of the times gives a part of what loading all of them gives. -/
def LoadsChunks (load : DA L V → List L → LeadTimes L → Except Err (DA L V)) : Prop :=
  ∀ (ds r : DA L V) (is ts : List L), load ds is (.exact ts) = .ok r → ∀ ic lc : List L, ic ⊆ is → lc ⊆ ts →
    load ds ic (.exact lc) = .ok ((r.restrict "init_time" ic.toFinset).restrict "lead_time" lc.toFinset)

theorem inter_of_subset {xs ys : List L} (h : ys ⊆ xs) : xs.toFinset ∩ ys.toFinset = ys.toFinset := by
  ext x
  simp only [Finset.mem_inter, List.mem_toFinset]
  exact ⟨fun hx => hx.2, fun hx => ⟨h hx, hx⟩⟩

theorem C74_load_predictions [LinearOrder L] : LoadsChunks (L := L) (V := V) loadPredictions := by
  intro ds r is ts h ic lc hic hlc
  obtain ⟨a, ha, h⟩ := bind_ok_iff.mp h
  unfold selList at ha h
  split at ha
  swap
  · exact absurd ha (by simp)
  rename_i h1
  injection ha with ha
  subst ha
  split at h
  swap
  · exact absurd h (by simp)
  rename_i h2
  injection h with h
  subst h
  rw [List.all_eq_true] at h1 h2
  have g1 : ic.all (fun l => decide (l ∈ ds.coords "init_time")) = true := by
    rw [List.all_eq_true]; exact fun x hx => h1 x (hic hx)
  refine bind_ok_iff.mpr ⟨{ ds with coords := fun k => if k = "init_time" then ic.toFinset else ds.coords k }, by unfold selList; rw [if_pos g1], ?_⟩
  unfold selList
  rw [if_pos (by rw [List.all_eq_true]; exact fun x hx => h2 x (hlc hx)), Except.ok.injEq]
  refine DA.ext' rfl ?_ rfl
  intro k
  simp only [DA.restrict]
  by_cases k1 : k = "lead_time"
  · subst k1
    simp [inter_of_subset hlc]
  · by_cases k2 : k = "init_time"
    · subst k2
      simp [inter_of_subset hic]
    · simp [k1, k2]

theorem initLead_restrict {is ts ic lc : List L} (hic : ic ⊆ is) (hlc : lc ⊆ ts) {k : Dim} (hk : k = "init_time" ∨ k = "lead_time") :
    initLead ic lc k = (if k = "lead_time" then (if k = "init_time" then initLead is ts k ∩ ic.toFinset else initLead is ts k) ∩ lc.toFinset
      else (if k = "init_time" then initLead is ts k ∩ ic.toFinset else initLead is ts k)) := by
  rcases hk with rfl | rfl
  · simp [initLead, inter_of_subset hic]
  · simp [initLead, inter_of_subset hlc]

theorem C74_load_targets [Add L] : LoadsChunks (L := L) (V := V) loadTargets := by
  intro ds r is ts h ic lc hic hlc
  unfold loadTargets selArray at h ⊢
  dsimp only at h ⊢
  split at h
  swap
  · exact absurd h (by simp)
  rename_i h1
  injection h with h
  subst h
  simp only [List.all_eq_true] at h1
  rw [if_pos (by simp only [List.all_eq_true]; exact fun x hx y hy => h1 x (hic hx) y (hlc hy)), Except.ok.injEq]
  refine DA.ext' rfl ?_ rfl
  intro k
  simp only [DA.restrict]
  by_cases hk : k = "init_time" ∨ k = "lead_time"
  · have hmem : k ∈ ({"init_time", "lead_time"} : Finset Dim) := by simpa using hk
    simp only [if_pos hmem]
    exact initLead_restrict hic hlc hk
  · have hmem : k ∉ ({"init_time", "lead_time"} : Finset Dim) := by simpa using hk
    simp only [if_neg hmem]
    push Not at hk
    rw [if_neg hk.2, if_neg hk.1]

theorem C74_load_climatology [Add L] (fields : ClimFields L) : LoadsChunks (L := L) (V := V) (loadClimatology fields) := by
  intro ds r is ts h ic lc hic hlc
  unfold loadClimatology selFields at h ⊢
  dsimp only at h ⊢
  split at h
  swap
  · exact absurd h (by simp)
  rename_i h1
  injection h with h
  subst h
  rw [List.all_eq_true] at h1
  rw [if_pos, Except.ok.injEq]
  · refine DA.ext' rfl ?_ rfl
    intro k
    simp only [DA.restrict]
    by_cases hk : k = "init_time" ∨ k = "lead_time"
    · have hmem : k ∈ ({"init_time", "lead_time"} : Finset Dim) := by simpa using hk
      simp only [if_pos hmem]
      exact initLead_restrict hic hlc hk
    · have hmem : k ∉ ({"init_time", "lead_time"} : Finset Dim) := by simpa using hk
      simp only [if_neg hmem]
      push Not at hk
      rw [if_neg hk.2, if_neg hk.1]
  · rw [List.all_eq_true]
    intro x hx
    obtain ⟨i, hi, hx⟩ := List.mem_flatMap.mp hx
    obtain ⟨l, hl, rfl⟩ := List.mem_map.mp hx
    exact h1 _ (List.mem_flatMap.mpr ⟨i, hic hi, List.mem_map.mpr ⟨l, hlc hl, rfl⟩⟩)

theorem C74_load_persistence : LoadsChunks (L := L) (V := V) loadPersistence := by
  intro ds r is ts h ic lc hic hlc
  obtain ⟨a, ha, h⟩ := bind_ok_iff.mp h
  injection h with h
  subst h
  unfold selList at ha
  split at ha
  swap
  · exact absurd ha (by simp)
  rename_i h1
  injection ha with ha
  subst ha
  rw [List.all_eq_true] at h1
  refine bind_ok_iff.mpr ⟨{ ds with coords := fun k => if k = "valid_time" then ic.toFinset else ds.coords k }, ?_, ?_⟩
  · unfold selList
    rw [if_pos]
    rw [List.all_eq_true]
    exact fun x hx => h1 x (hic hx)
  · simp only [pure, Except.pure, Except.ok.injEq]
    refine DA.ext' rfl ?_ rfl
    intro k
    simp only [DA.restrict]
    by_cases k1 : k = "lead_time"
    · subst k1
      simp [inter_of_subset hlc]
    · by_cases k2 : k = "init_time"
      · subst k2
        simp [inter_of_subset hic]
      · simp [k1, k2]

end loaders

theorem loadVars_chunk {load : DA L (FV K) → List L → LeadTimes L → Except Err (DA L (FV K))} (hload : LoadsChunks load) {mask : Bool}
    {ds : Vars (DA L (FV K))} {is ts : List L} {r : Vars (StatVar L (FV K))} (h : loadVars load mask ds is (.arr ts) = .ok r)
    {ic lc : List L} (hic : ic ⊆ is) (hlc : lc ⊆ ts) : loadVars load mask ds ic (.arr lc) = .ok (chunkData ic lc r) := by
  unfold loadVars at h ⊢
  induction ds generalizing r with
  | nil =>
    simp only [List.mapM_nil, pure, Except.pure, Except.ok.injEq] at h
    subst h
    rfl
  | cons v ds ih =>
    rw [List.mapM_cons] at h
    obtain ⟨y, hy, h⟩ := bind_ok_iff.mp h
    obtain ⟨ys, hys, h⟩ := bind_ok_iff.mp h
    injection h with h
    subst h
    obtain ⟨a, ha, hy⟩ := bind_ok_iff.mp hy
    injection hy with hy
    subst hy
    have h1 := hload _ _ _ _ ha ic lc hic hlc
    rw [List.mapM_cons]
    refine bind_ok_iff.mpr ⟨_, bind_ok_iff.mpr ⟨_, h1, rfl⟩, ?_⟩
    rw [ih hys]
    cases mask <;> rfl

/-- Loaders of an evaluation that give, for every chunk, the chunk of the whole data. -/
structure LoadersOf (is ts : List L) (targets : List L → LeadChunk L → Except Err (Vars (StatVar L (FV K))))
    (predictions : List L → LeadChunk L → Vars (StatVar L (FV K)) → Except Err (Vars (StatVar L (FV K)))) (p t : Vars (StatVar L (FV K))) : Prop where
  targets : ∀ ic lc : List L, ic ⊆ is → lc ⊆ ts → targets ic (.arr lc) = .ok (chunkData ic lc t)
  predictions : ∀ ic lc : List L, ic ⊆ is → lc ⊆ ts → ∀ ref, predictions ic (.arr lc) ref = .ok (chunkData ic lc p)

/-- C74: the loaders of this package read chunks of the whole data. -/
theorem C74_loaders {loadT loadP : DA L (FV K) → List L → LeadTimes L → Except Err (DA L (FV K))} (hT : LoadsChunks loadT) (hP : LoadsChunks loadP)
    {mT mP : Bool} {dT dP : Vars (DA L (FV K))} {is ts : List L} {p t : Vars (StatVar L (FV K))}
    (ht : loadVars loadT mT dT is (.arr ts) = .ok t) (hp : loadVars loadP mP dP is (.arr ts) = .ok p) :
    LoadersOf is ts (loadVars loadT mT dT) (fun i l _ => loadVars loadP mP dP i l) p t :=
  ⟨fun ic lc hi hl => loadVars_chunk hT ht hi hl, fun ic lc hi hl _ => loadVars_chunk hP hp hi hl⟩

section pipeline
variable {D : Type} {metrics : List (String × Metric (StatVar L (FV K)) (Option (StatVar L (FV K))) D)}
  {H : Dim → Vars (StatVar L (FV K)) → Vars (StatVar L (FV K)) → Prop}
  {targets : List L → LeadChunk L → Except Err (Vars (StatVar L (FV K)))}
  {predictions : List L → LeadChunk L → Vars (StatVar L (FV K)) → Except Err (Vars (StatVar L (FV K)))}

/-- C74: computing the statistics of every chunk gives the chunks of the statistics of the whole data: what the pipelines (C17, C73) need. -/
theorem C74_chunk_statistics (hH : Heritable H)
    (hm : ∀ c, c = "init_time" ∨ c = "lead_time" → ∀ nm ∈ metrics, ∀ ks ∈ nm.2.statistics, ks.2.LocalOn (H c) c)
    {is ts : List L} {p t : Vars (StatVar L (FV K))} (hload : LoadersOf is ts targets predictions p t)
    (hi : H "init_time" p t) (hl : H "lead_time" p t)
    {whole : List (String × Vars (Option (StatVar L (FV K))))} (h : computeUniqueStatistics metrics p t = .ok whole)
    {a b : Option Int} {tc : TimeChunks L L} (htc : TimeChunks.make is (.arr ts) a b = .ok tc) :
    ChunksOf tc (chunkStatistics metrics targets predictions) whole := by
  obtain ⟨out, ho, hsnd, hoff⟩ := TimeChunks.C03_offsets htc
  intro ch hch lc hlc
  rw [← hsnd] at hch
  obtain ⟨x, hx, rfl⟩ := List.mem_map.mp hch
  obtain ⟨lc', hlc', o1, -, -, o2, -, -⟩ := hoff x hx
  rw [hlc'] at hlc
  injection hlc with hlc
  subst hlc
  have s1 : x.2.1 ⊆ is := by rw [o1]; exact fun y hy => List.mem_of_mem_drop (List.mem_of_mem_take hy)
  have s2 : lc' ⊆ ts := by rw [o2]; exact fun y hy => List.mem_of_mem_drop (List.mem_of_mem_take hy)
  rw [hlc']
  unfold chunkStatistics
  refine bind_ok_iff.mpr ⟨_, hload.targets _ _ s1 s2, bind_ok_iff.mpr ⟨_, hload.predictions _ _ s1 s2 _, ?_⟩⟩
  exact local_both hH hm hi hl h _ _

theorem chunkElements_ok (hH : Heritable H)
    (hm : ∀ c, c = "init_time" ∨ c = "lead_time" → ∀ nm ∈ metrics, ∀ ks ∈ nm.2.statistics, ks.2.LocalOn (H c) c)
    {is ts : List L} {p t : Vars (StatVar L (FV K))} (hload : LoadersOf is ts targets predictions p t)
    (hi : H "init_time" p t) (hl : H "lead_time" p t)
    {whole : List (String × Vars (Option (StatVar L (FV K))))} (h : computeUniqueStatistics metrics p t = .ok whole)
    {a b : Option Int} {tc : TimeChunks L L} (htc : TimeChunks.make is (.arr ts) a b = .ok tc) {out} (ho : tc.iterWithOffsets = .ok out) :
    out.mapM (chunkElement metrics targets predictions) = .ok (pipelineChunks out whole) := by
  obtain ⟨out', ho', hsnd, hoff⟩ := TimeChunks.C03_offsets htc
  rw [ho] at ho'
  injection ho' with ho'
  subst ho'
  have hch := C74_chunk_statistics hH hm hload hi hl h htc
  unfold pipelineChunks
  apply TimeChunks.mapM_ok_of_forall
  intro x hx
  obtain ⟨lc, hlc, -⟩ := hoff x hx
  have := hch x.2 (by rw [← hsnd]; exact List.mem_map.mpr ⟨x, hx, rfl⟩) lc hlc
  refine bind_ok_iff.mpr ⟨_, this, ?_⟩
  rw [hlc]
  rfl

/-- C74: the aggregated pipeline from the loaders to the aggregation state. Whatever the chunk sizes and however Beam groups and orders the
partial sums, the result is what aggregating the statistics of the whole data at once gives. -/
theorem C74_pipeline [LinearOrder L] (hH : Heritable H)
    (hm : ∀ c, c = "init_time" ∨ c = "lead_time" → ∀ nm ∈ metrics, ∀ ks ∈ nm.2.statistics, ks.2.LocalOn (H c) c)
    {is ts : List L} (si : is.Pairwise (· < ·)) (st : ts.Pairwise (· < ·)) (hne : is ≠ [] ∧ ts ≠ [])
    {p t : Vars (StatVar L (FV K))} (hload : LoadersOf is ts targets predictions p t)
    (hi : H "init_time" p t) (hl : H "lead_time" p t)
    {whole : List (String × Vars (Option (StatVar L (FV K))))} (h : computeUniqueStatistics metrics p t = .ok whole)
    (fill : FV K) (agg : Aggregator L (FV K)) (hli : agg.Local "init_time") (hll : agg.Local "lead_time")
    {a b : Option Int} {tc : TimeChunks L L} (htc : TimeChunks.make is (.arr ts) a b = .ok tc) {out} (ho : tc.iterWithOffsets = .ok out)
    (hk : UniqueKeys whole) (hsome : ∀ st ∈ whole, ∀ vr ∈ st.2, vr.2 ≠ none)
    (hdim : ∀ st ∈ whole, ∀ k s, (k, some s) ∈ st.2 →
      "init_time" ∈ s.arr.dims ∧ s.arr.coords "init_time" = is.toFinset ∧
      "lead_time" ∈ s.arr.dims ∧ s.arr.coords "lead_time" = ts.toFinset)
    (sws sw : Tree (DA L (FV K))) (hw : agg.aggregateStatistics whole = .ok (some (sws, sw)))
    (hfull : ∀ t, t = sws ∨ t = sw → ∀ s v x, t.get2 s v = some x → (∀ d ∈ x.dims, (x.coords d).Nonempty) ∧
      ("init_time" ∈ x.dims → x.coords "init_time" = is.toFinset) ∧
      ("lead_time" ∈ x.dims → x.coords "lead_time" = ts.toFinset)) :
    ∃ elements emitted, out.mapM (chunkElement metrics targets predictions) = .ok elements ∧ processChunks agg elements = .ok emitted ∧
      ∀ combined concat, PipelineRun fill emitted combined concat →
        ∃ outs : List (AggKey × DA L (FV K)), concat = outs.map (fun kv => (kv.1, Except.ok kv.2)) ∧
          ∀ s v, Option.Rel DA.Same ((reconstructAggregationState outs).1.get? s v) (sws.get2 s v) ∧
            Option.Rel DA.Same ((reconstructAggregationState outs).2.get? s v) (sw.get2 s v) := by
  obtain ⟨emitted, h1, h2⟩ := C17_pipeline_equals_direct fill agg hli hll si st htc hne ho whole hk hsome hdim sws sw hw hfull
  exact ⟨_, emitted, chunkElements_ok hH hm hload hi hl h htc ho, h1, h2⟩

end pipeline

/-! ### Masks that disagree -/

/-- C74 (finding) If predictions and targets have masks that disagree somewhere, the statistic of the whole data has no mask, but the
statistic of a chunk on which they agree has one: what is averaged depends on the chunk size. -/
theorem C74_mask_conflict {c : Dim} {S : Finset L} {p t : StatVar L (FV K)} {m m' : DA L Bool} (hp : p.mask = some m) (ht : t.mask = some m')
    (hne : ¬ m.Equals m') (heq : (m.restrict c S).Equals (m'.restrict c S)) :
    ((squaredError p t).chunk c S).mask = none ∧ (squaredError (p.chunk c S) (t.chunk c S)).mask = some (m.restrict c S) := by
  constructor
  · simp only [squaredError, error, StatVar.chunk, StatVar.map, StatVar.zipWith, hp, ht, combineMask, if_neg hne, Option.map_none]
  · simp only [squaredError, error, StatVar.chunk, StatVar.map, StatVar.zipWith, hp, ht, combineMask, Option.map_some, if_pos heq]

/-- Masks that agree at the first init time only. -/
example : ∃ m m' : DA ℕ Bool, ¬ m.Equals m' ∧ (m.restrict "init_time" {0}).Equals (m'.restrict "init_time" {0}) := by
  refine ⟨⟨{"init_time"}, fun _ => {0, 1}, fun e => decide (e "init_time" = 0)⟩, ⟨{"init_time"}, fun _ => {0, 1}, fun _ => true⟩, ?_, ?_⟩
  · intro h
    have := h.2.2 (fun _ => 1) (by intro d hd; simp)
    simp at this
  · refine ⟨rfl, fun _ _ => rfl, ?_⟩
    intro e he
    have := he "init_time" (by simp [DA.restrict])
    simp [DA.restrict] at this
    simp [DA.restrict, this]

/-! ### Concrete data -/

/-- Forecasts at the init times 0, 1, 2 and the lead times 1, 2. -/
def exForecasts : DA ℕ (FV ℚ) where
  dims := {"init_time", "lead_time"}
  coords := fun d => if d = "init_time" then {0, 1, 2} else {1, 2}
  val := fun e => .fin (e "init_time" + 10 * e "lead_time")

/-- Observations at the times 1, …, 4, one of them missing. -/
def exObserved : DA ℕ (FV ℚ) where
  dims := {"valid_time"}
  coords := fun _ => {1, 2, 3, 4}
  val := fun e => if e "valid_time" = 3 then .nan else .fin (e "valid_time")

/-- What is loaded for all init times and lead times. -/
def exLoadedP : StatVar ℕ (FV ℚ) :=
  nanMaskOf false { exForecasts with coords := fun k => if k = "lead_time" then [1, 2].toFinset else if k = "init_time" then [0, 1, 2].toFinset else exForecasts.coords k }

/-- What is loaded for all init times and lead times, with the mask. -/
def exLoadedT : StatVar ℕ (FV ℚ) := nanMaskOf true
  { dims := exObserved.dims.erase "valid_time" ∪ {"init_time", "lead_time"},
    coords := fun k => if k ∈ ({"init_time", "lead_time"} : Finset Dim) then initLead [0, 1, 2] [1, 2] k else exObserved.coords k,
    val := fun e => exObserved.val (setLabel e "valid_time" (e "init_time" + e "lead_time")) }

theorem exLoadedP_ok : loadVars loadPredictions false [("t2m", exForecasts)] [0, 1, 2] (.arr [1, 2]) = .ok [("t2m", exLoadedP)] := by
  rfl

theorem exLoadedT_ok : loadVars loadTargets true [("t2m", exObserved)] [0, 1, 2] (.arr [1, 2]) = .ok [("t2m", exLoadedT)] := by
  rfl

/-- One metric. -/
noncomputable def exMAE : FMetric ℕ ℚ where
  statistics := [("AbsoluteError", absoluteErrorStatistic)]
  valuesFromMeanStatistics := fun sv => pyItem sv "AbsoluteError"

theorem exMAE_whole : computeUniqueStatistics [("mae", exMAE)] [("t2m", exLoadedP)] [("t2m", exLoadedT)] =
    .ok [("AbsoluteError", [("t2m", some (absoluteError exLoadedP exLoadedT))])] := by
  rfl

theorem exChunkable (c : Dim) (hc : c = "init_time" ∨ c = "lead_time") : Chunkable c [("t2m", exLoadedP)] [("t2m", exLoadedT)] := by
  refine ⟨?_, ?_, fun _ => exLoadedT.arr.map (fun x => !x.isnan), ?_, ?_⟩
  · intro v a h
    rw [List.mem_singleton, Prod.mk.injEq] at h
    rw [h.2]
    rcases hc with rfl | rfl <;> simp [exLoadedP, nanMaskOf, exForecasts]
  · intro v a h
    rw [List.mem_singleton, Prod.mk.injEq] at h
    rw [h.2]
    rcases hc with rfl | rfl <;> simp [exLoadedT, nanMaskOf]
  · intro v a h
    rw [List.mem_singleton, Prod.mk.injEq] at h
    rw [h.2]
    exact Or.inl rfl
  · intro v a h
    rw [List.mem_singleton, Prod.mk.injEq] at h
    rw [h.2]
    exact Or.inr rfl

theorem exMAE_local : ∀ c, c = "init_time" ∨ c = "lead_time" → ∀ nm ∈ [("mae", exMAE)], ∀ ks ∈ nm.2.statistics, ks.2.LocalOn (Chunkable c) c := by
  intro c hc nm hnm ks hks
  rw [List.mem_singleton] at hnm
  subst hnm
  simp only [exMAE, List.mem_singleton] at hks
  subst hks
  exact C74_absolute_error

/-- The hypotheses of C74 and C73 together, with chunks of two init times and one lead time: the store of the unaggregated pipeline holds the
absolute error of the second lead time of the second init time, `|21 - NaN|`, and of the third init time, `|22 - 4|`. -/
example : ∃ (tc : TimeChunks ℕ ℕ) (ws : List (Write ℕ (FV ℚ))) (st : Store ℕ (FV ℚ)),
    TimeChunks.make [0, 1, 2] (.arr [1, 2]) (some 2) (some 1) = .ok tc ∧
    unaggregatedWrites [("mae", exMAE)] (loadVars loadTargets true [("t2m", exObserved)])
      (fun i l _ => loadVars loadPredictions false [("t2m", exForecasts)] i l) (fun _ _ => []) tc = .ok ws ∧ IsStoreOf ws st ∧
    st "AbsoluteError.t2m" ⟨1, 1, fun _ => 0⟩ = some .nan ∧ st "AbsoluteError.t2m" ⟨2, 1, fun _ => 0⟩ = some (.fin 18) := by
  obtain ⟨tc, htc⟩ : ∃ tc, TimeChunks.make [0, 1, 2] (.arr [1, 2]) (some 2) (some 1) = .ok tc := ⟨_, rfl⟩
  have hch := C74_chunk_statistics heritable_chunkable exMAE_local
    (C74_loaders C74_load_targets C74_load_predictions exLoadedT_ok exLoadedP_ok) (exChunkable _ (Or.inl rfl)) (exChunkable _ (Or.inr rfl)) exMAE_whole htc
  obtain ⟨ws, hws, st, hst⟩ := C73_run_exists (between := fun _ _ => []) htc hch (by simp)
  refine ⟨tc, ws, st, htc, hws, hst, ?_, ?_⟩
  · have := C73_value (k := "AbsoluteError") (v := "t2m") htc hws hst hch (by simp [storeVars]) (List.mem_singleton.mpr rfl) (List.mem_singleton.mpr rfl)
      (by simp [absoluteError, error, StatVar.map, StatVar.zipWith, DA.map, DA.zipWith, exLoadedP, nanMaskOf, exForecasts])
      (by simp [absoluteError, error, StatVar.map, StatVar.zipWith, DA.map, DA.zipWith, exLoadedP, nanMaskOf, exForecasts])
      (i := 1) (j := 1) (x := 1) (y := 2) rfl rfl (fun _ => 0)
    refine Eq.trans this ?_
    rw [if_pos]
    · simp [absoluteError, error, StatVar.map, StatVar.zipWith, DA.map, DA.zipWith, exLoadedP, exLoadedT, nanMaskOf, exForecasts, exObserved, atTimes, setLabel, FV.abs]
    · intro d hd
      simp [absoluteError, error, StatVar.map, StatVar.zipWith, DA.map, DA.zipWith, exLoadedP, exLoadedT, nanMaskOf, exForecasts, exObserved] at hd
      rcases hd with rfl | rfl <;>
        simp [absoluteError, error, StatVar.map, StatVar.zipWith, DA.map, DA.zipWith, joinCoords, initLead, exLoadedP, exLoadedT, nanMaskOf, exForecasts, exObserved, atTimes, setLabel]
  · have := C73_value (k := "AbsoluteError") (v := "t2m") htc hws hst hch (by simp [storeVars]) (List.mem_singleton.mpr rfl) (List.mem_singleton.mpr rfl)
      (by simp [absoluteError, error, StatVar.map, StatVar.zipWith, DA.map, DA.zipWith, exLoadedP, nanMaskOf, exForecasts])
      (by simp [absoluteError, error, StatVar.map, StatVar.zipWith, DA.map, DA.zipWith, exLoadedP, nanMaskOf, exForecasts])
      (i := 2) (j := 1) (x := 2) (y := 2) rfl rfl (fun _ => 0)
    refine Eq.trans this ?_
    rw [if_pos]
    · simp [absoluteError, error, StatVar.map, StatVar.zipWith, DA.map, DA.zipWith, exLoadedP, exLoadedT, nanMaskOf, exForecasts, exObserved, atTimes, setLabel, FV.abs]
      norm_num
    · intro d hd
      simp [absoluteError, error, StatVar.map, StatVar.zipWith, DA.map, DA.zipWith, exLoadedP, exLoadedT, nanMaskOf, exForecasts, exObserved] at hd
      rcases hd with rfl | rfl <;>
        simp [absoluteError, error, StatVar.map, StatVar.zipWith, DA.map, DA.zipWith, joinCoords, initLead, exLoadedP, exLoadedT, nanMaskOf, exForecasts, exObserved, atTimes, setLabel]

/-- Reduce over init times, keep lead times; masked cells are not counted. -/
def exInitAgg : Aggregator ℕ (FV ℚ) := { reduceDims := ["init_time"] }

noncomputable def exAbs : StatVar ℕ (FV ℚ) := absoluteError exLoadedP exLoadedT

theorem exAbs_dims : exAbs.arr.dims = {"init_time", "lead_time"} := by
  unfold exAbs
  ext d
  simp [absoluteError, error, StatVar.map, StatVar.zipWith, DA.map, DA.zipWith, exLoadedP, exLoadedT, nanMaskOf, exForecasts, exObserved]

theorem exAbs_coords : exAbs.arr.coords "init_time" = {0, 1, 2} ∧ exAbs.arr.coords "lead_time" = {1, 2} := by
  unfold exAbs
  constructor <;>
    simp [absoluteError, error, StatVar.map, StatVar.zipWith, DA.map, DA.zipWith, joinCoords, initLead, exLoadedP, exLoadedT, nanMaskOf, exForecasts, exObserved]

theorem exAbs_agg : ∃ x y : DA ℕ (FV ℚ), exInitAgg.aggregateStatistics [("AbsoluteError", [("t2m", some exAbs)])]
    = .ok (some (.dict (.cons "AbsoluteError" (.dict (.cons "t2m" (.leaf x) .nil)) .nil),
        .dict (.cons "AbsoluteError" (.dict (.cons "t2m" (.leaf y) .nil)) .nil))) ∧
    (∀ a, a = x ∨ a = y → a.dims = {"lead_time"} ∧ a.coords "lead_time" = {1, 2}) := by
  have h1 : ∀ f : DA ℕ (FV ℚ), f.dims = {"init_time", "lead_time"} →
      exInitAgg.aggregationFn f = .ok (some (DA.dot f [] ["init_time"])) := by
    intro f hf
    obtain ⟨-, -, -, h⟩ := Aggregator.aggregationFn_eq exInitAgg f
    rw [h (by simp [exInitAgg, hf]) (by simp [exInitAgg]) (by intro b hb; simp [exInitAgg] at hb)]
    simp [exInitAgg]
  obtain ⟨f, g, hfg, hd⟩ : ∃ f g : DA ℕ (FV ℚ), exInitAgg.applyMask exAbs = (f, g) ∧ ∀ a, a = f ∨ a = g → a.dims = {"init_time", "lead_time"} ∧ a.coords "lead_time" = {1, 2} := by
    refine ⟨_, _, rfl, ?_⟩
    intro a ha
    have e1 := exAbs_dims
    have e2 := exAbs_coords.2
    rcases ha with rfl | rfl <;> (refine ⟨?_, ?_⟩ <;> simp [Aggregator.applyMask, exInitAgg, DA.map, e1, e2])
  refine ⟨DA.dot f [] ["init_time"], DA.dot g [] ["init_time"], ?_, ?_⟩
  · simp only [Aggregator.aggregateStatistics, Aggregator.perStat, Aggregator.aggregateStatVars,
      Aggregator.perVar, Aggregator.aggregateStatVar_eq, hfg, h1 f (hd f (Or.inl rfl)).1, h1 g (hd g (Or.inr rfl)).1, bind, Except.bind, pure, Except.pure]
    rfl
  · intro a ha
    rcases ha with rfl | rfl
    · obtain ⟨d1, d2⟩ := hd f (Or.inl rfl)
      unfold DA.dot
      rw [sumDims_eq]
      simp only [List.map_nil, d1, d2]
      refine ⟨by simp [d1]; decide, by simp [d2]⟩
    · obtain ⟨d1, d2⟩ := hd g (Or.inr rfl)
      unfold DA.dot
      rw [sumDims_eq]
      simp only [List.map_nil, d1, d2]
      refine ⟨by simp [d1]; decide, by simp [d2]⟩

/-- The hypotheses of `C74_pipeline`, met with chunks of two init times and one lead time. -/
example : ∃ (tc : TimeChunks ℕ ℕ) (out : _) (elements : _) (emitted : List (AggKey × DA ℕ (FV ℚ))),
    TimeChunks.make [0, 1, 2] (.arr [1, 2]) (some 2) (some 1) = .ok tc ∧ tc.iterWithOffsets = .ok out ∧ out.length = 4 ∧
    out.mapM (chunkElement [("mae", exMAE)] (loadVars loadTargets true [("t2m", exObserved)])
      (fun i l _ => loadVars loadPredictions false [("t2m", exForecasts)] i l)) = .ok elements ∧
    processChunks exInitAgg elements = .ok emitted := by
  obtain ⟨tc, out, htc, ho, hlen⟩ : ∃ tc out, TimeChunks.make [0, 1, 2] (.arr [1, 2]) (some 2) (some 1) = .ok tc ∧ tc.iterWithOffsets = .ok out ∧ out.length = 4 :=
    ⟨_, _, rfl, rfl, rfl⟩
  obtain ⟨x, y, hw, hxy⟩ := exAbs_agg
  obtain ⟨elements, emitted, h1, h2, -⟩ := C74_pipeline (H := Chunkable) heritable_chunkable exMAE_local (is := [0, 1, 2]) (ts := [1, 2]) (by decide) (by decide) ⟨by simp, by simp⟩
    (C74_loaders C74_load_targets C74_load_predictions exLoadedT_ok exLoadedP_ok) (exChunkable _ (Or.inl rfl)) (exChunkable _ (Or.inr rfl)) exMAE_whole
    (FV.fin 0) exInitAgg (by constructor <;> intro w hw <;> simp [exInitAgg] at hw) (by constructor <;> intro w hw <;> simp [exInitAgg] at hw) htc ho
    (by simp [UniqueKeys]) (by simp) (by
      intro st hst k s hs
      rw [List.mem_singleton] at hst
      subst hst
      simp only [List.mem_singleton, Prod.mk.injEq, Option.some.injEq] at hs
      rw [hs.2]
      change "init_time" ∈ exAbs.arr.dims ∧ exAbs.arr.coords "init_time" = _ ∧ "lead_time" ∈ exAbs.arr.dims ∧ exAbs.arr.coords "lead_time" = _
      rw [exAbs_dims, exAbs_coords.1, exAbs_coords.2]
      refine ⟨by simp, by decide, by simp, by decide⟩) _ _ hw (by
      intro t ht s v z hz
      have key : ∀ a : DA ℕ (FV ℚ), (a = x ∨ a = y) → t = .dict (.cons "AbsoluteError" (.dict (.cons "t2m" (.leaf a) .nil)) .nil) → z = a := by
        intro a _ hta
        subst hta
        by_cases h3 : "AbsoluteError" = s <;> by_cases h4 : "t2m" = v <;> simp [Tree.get2, Dict.get, h3, h4] at hz
        exact hz.symm
      obtain ⟨a, ha, hta⟩ : ∃ a, (a = x ∨ a = y) ∧ t = .dict (.cons "AbsoluteError" (.dict (.cons "t2m" (.leaf a) .nil)) .nil) := by
        rcases ht with rfl | rfl
        · exact ⟨x, Or.inl rfl, rfl⟩
        · exact ⟨y, Or.inr rfl, rfl⟩
      have hza := key a ha hta
      subst hza
      obtain ⟨d1, d2⟩ := hxy z ha
      rw [d1]
      refine ⟨?_, by simp, fun _ => by rw [d2]; decide⟩
      intro d hd
      rw [Finset.mem_singleton] at hd
      subst hd
      rw [d2]
      exact ⟨1, by simp⟩)
  exact ⟨tc, out, elements, emitted, htc, ho, hlen, h1, h2⟩

end WBX
