import Verif.Props.Slices
import Verif.Props.BootstrapResample

set_option linter.unusedSectionVars false

/-!
# C80, `StationaryBootstrap`: every replicate is the metric of statistics and weights that are all resampled with the same units
-/

namespace WBX
open DA

/-! ### The cache -/

section cache
variable {K T : Type} [DecidableEq K]

/-- Calls of a cached function, one after another: what they return. -/
def LruCache.answers (maxsize : ℕ) (fresh : ℕ → K → T) : LruCache K T → List K → List T
  | _, [] => []
  | c, key :: keys => (c.get maxsize fresh key).1 :: LruCache.answers maxsize fresh (c.get maxsize fresh key).2 keys

theorem LruCache.get_hit {maxsize : ℕ} {fresh : ℕ → K → T} {key : K} {c : LruCache K T} {t : T} (hn : (c.entries.map Prod.fst).Nodup) (h : (key, t) ∈ c.entries) :
    c.get maxsize fresh key = (t, { entries := (key, t) :: c.entries.filter (fun y => y.1 ≠ key), misses := c.misses }) := by
  have hf : c.entries.find? (fun x => decide (x.1 = key)) = some (key, t) := by
    cases hx : c.entries.find? (fun x => decide (x.1 = key)) with
    | none => exact absurd (by simp) (List.find?_eq_none.mp hx _ h)
    | some x =>
      have h1 : x.1 = key := by simpa using List.find?_some hx
      have h2 := List.mem_of_find?_eq_some hx
      congr 1
      exact List.inj_on_of_nodup_map hn h2 h h1
  unfold LruCache.get
  rw [hf]

theorem LruCache.get_miss {maxsize : ℕ} {fresh : ℕ → K → T} {key : K} {c : LruCache K T} (h : key ∉ c.entries.map Prod.fst) :
    c.get maxsize fresh key = (fresh c.misses key, { entries := ((key, fresh c.misses key) :: c.entries).take maxsize, misses := c.misses + 1 }) := by
  have hf : c.entries.find? (fun x => decide (x.1 = key)) = none := by
    rw [List.find?_eq_none]
    intro x hx he
    exact h (List.mem_map.mpr ⟨x, hx, by simpa using he⟩)
  unfold LruCache.get
  rw [hf]

/-- The cache after a call, as long as there is room for all keys: nothing is lost. -/
theorem LruCache.get_keeps {maxsize : ℕ} {fresh : ℕ → K → T} {key : K} {c : LruCache K T} {keys : Finset K} (hc : keys.card ≤ maxsize) (hk : key ∈ keys) (hn : (c.entries.map Prod.fst).Nodup)
    (hin : ∀ x ∈ c.entries, x.1 ∈ keys) :
    (key, (c.get maxsize fresh key).1) ∈ (c.get maxsize fresh key).2.entries ∧ (∀ x ∈ c.entries, x ∈ (c.get maxsize fresh key).2.entries) ∧
      ((c.get maxsize fresh key).2.entries.map Prod.fst).Nodup ∧ ∀ x ∈ (c.get maxsize fresh key).2.entries, x.1 ∈ keys := by
  by_cases h : key ∈ c.entries.map Prod.fst
  · obtain ⟨⟨k, t⟩, hx, hke⟩ := List.mem_map.mp h
    subst hke
    rw [LruCache.get_hit hn hx]
    refine ⟨by simp, ?_, ?_, ?_⟩
    · intro y hy
      by_cases hyk : y.1 = k
      · have : y = (k, t) := List.inj_on_of_nodup_map hn hy hx hyk
        rw [this]; simp
      · exact List.mem_cons_of_mem _ (List.mem_filter.mpr ⟨hy, by simpa using hyk⟩)
    · simp only [List.map_cons, List.nodup_cons]
      refine ⟨?_, (hn.sublist (List.filter_sublist.map _))⟩
      intro hm
      obtain ⟨y, hy, hyk⟩ := List.mem_map.mp hm
      have := (List.mem_filter.mp hy).2
      simp at this
      exact this hyk
    · intro y hy
      rcases List.mem_cons.mp hy with rfl | hy
      · exact hk
      · exact hin y (List.mem_filter.mp hy).1
  · rw [LruCache.get_miss h]
    have hnd : (((key, fresh c.misses key) :: c.entries).map Prod.fst).Nodup := by
      simp only [List.map_cons, List.nodup_cons]; exact ⟨h, hn⟩
    have hsub : ∀ x ∈ ((key, fresh c.misses key) :: c.entries), x.1 ∈ keys := by
      intro x hx
      rcases List.mem_cons.mp hx with rfl | hx
      · exact hk
      · exact hin x hx
    have hlen : ((key, fresh c.misses key) :: c.entries).length ≤ maxsize := by
      refine le_trans ?_ hc
      have h1 : (((key, fresh c.misses key) :: c.entries).map Prod.fst).toFinset ⊆ keys := by
        intro k hk'
        obtain ⟨x, hx, rfl⟩ := List.mem_map.mp (List.mem_toFinset.mp hk')
        exact hsub x hx
      have h2 := Finset.card_le_card h1
      rw [List.toFinset_card_of_nodup hnd, List.length_map] at h2
      exact h2
    simp only [List.take_of_length_le hlen]
    exact ⟨by simp, fun x hx => by simp [hx], hnd, hsub⟩

theorem LruCache.answers_mem {maxsize : ℕ} {fresh : ℕ → K → T} {keys : Finset K} (hc : keys.card ≤ maxsize) (calls : List K) (hcalls : ∀ k ∈ calls, k ∈ keys) (c : LruCache K T)
    (hn : (c.entries.map Prod.fst).Nodup) (hin : ∀ x ∈ c.entries, x.1 ∈ keys) :
    ∃ value : K → T, (∀ x ∈ c.entries, value x.1 = x.2) ∧ c.answers maxsize fresh calls = calls.map value := by
  induction calls generalizing c with
  | nil =>
    classical
    by_cases h : Nonempty T
    · refine ⟨fun k => ((c.entries.find? (fun x => decide (x.1 = k))).map Prod.snd).getD h.some, ?_, rfl⟩
      intro x hx
      simp only
      cases hf : c.entries.find? (fun y => decide (y.1 = x.1)) with
      | none => exact absurd (by simp) (List.find?_eq_none.mp hf _ hx)
      | some y =>
        have h1 : y.1 = x.1 := by simpa using List.find?_some hf
        have h2 := List.mem_of_find?_eq_some hf
        rw [List.inj_on_of_nodup_map hn h2 hx h1]; rfl
    · refine ⟨fun k => absurd ⟨fresh 0 k⟩ h, ?_, rfl⟩
      intro x hx
      exact absurd ⟨x.2⟩ h
  | cons key calls ih =>
    obtain ⟨h1, h2, h3, h4⟩ := LruCache.get_keeps (fresh := fresh) hc (hcalls key (by simp)) hn hin
    obtain ⟨value, hv, ha⟩ := ih (fun k hk => hcalls k (by simp [hk])) (c.get maxsize fresh key).2 h3 h4
    refine ⟨value, fun x hx => hv x (h2 x hx), ?_⟩
    rw [LruCache.answers, ha, List.map_cons]
    congr 1
    exact (hv _ h1).symm

/-- Everything in the cache is the result of a call of the function. -/
def LruCache.Sampled (fresh : ℕ → K → T) (c : LruCache K T) : Prop := ∀ x ∈ c.entries, ∃ k, x.2 = fresh k x.1

theorem LruCache.get_sampled {maxsize : ℕ} {fresh : ℕ → K → T} {c : LruCache K T} (h : c.Sampled fresh) (key : K) :
    (∃ k, (c.get maxsize fresh key).1 = fresh k key) ∧ (c.get maxsize fresh key).2.Sampled fresh := by
  unfold LruCache.get
  cases hf : c.entries.find? (fun x => decide (x.1 = key)) with
  | some x =>
    have h1 : x.1 = key := by simpa using List.find?_some hf
    have h2 := List.mem_of_find?_eq_some hf
    obtain ⟨k, hk⟩ := h x h2
    refine ⟨⟨k, by rw [← h1]; exact hk⟩, ?_⟩
    intro y hy
    rcases List.mem_cons.mp hy with rfl | hy
    · exact ⟨k, hk⟩
    · exact h y (List.mem_filter.mp hy).1
  | none =>
    refine ⟨⟨_, rfl⟩, ?_⟩
    intro y hy
    rcases List.mem_cons.mp (List.mem_of_mem_take hy) with rfl | hy
    · exact ⟨_, rfl⟩
    · exact h y hy

theorem LruCache.answers_sampled {maxsize : ℕ} {fresh : ℕ → K → T} (calls : List K) (c : LruCache K T) (h : c.Sampled fresh) :
    List.Forall₂ (fun key t => ∃ k, t = fresh k key) calls (c.answers maxsize fresh calls) := by
  induction calls generalizing c with
  | nil => exact .nil
  | cons key calls ih => exact .cons (LruCache.get_sampled h key).1 (ih _ (LruCache.get_sampled h key).2)

/-- The cached sampling is a function of the number of units and the mean block length as long as the cache has room for all that occur: equal arguments always get the same
indices, in whatever order and however often they occur. They are always the result of a sampling for these arguments. -/
theorem C80_cache {maxsize : ℕ} (fresh : ℕ → K → T) (calls : List K) :
    List.Forall₂ (fun key t => ∃ k, t = fresh k key) calls (({ entries := [], misses := 0 } : LruCache K T).answers maxsize fresh calls) ∧
    (calls.toFinset.card ≤ maxsize → ∃ value : K → T, ({ entries := [], misses := 0 } : LruCache K T).answers maxsize fresh calls = calls.map value) := by
  refine ⟨LruCache.answers_sampled calls _ (by intro x hx; cases hx), fun hc => ?_⟩
  obtain ⟨value, _, h⟩ := LruCache.answers_mem (fresh := fresh) hc calls (fun k hk => List.mem_toFinset.mpr hk) { entries := [], misses := 0 } (by simp) (by simp)
  exact ⟨value, h⟩

/-- Without this room equal arguments can get different samples. -/
example : ({ entries := [], misses := 0 } : LruCache ℕ (ℕ × ℕ)).answers 2 (fun k key => (k, key)) [1, 2, 1, 3, 2, 1] = [(0, 1), (1, 2), (0, 1), (2, 3), (3, 2), (4, 1)] := by decide

example : ({ entries := [], misses := 0 } : LruCache ℕ (ℕ × ℕ)).answers 3 (fun k key => (k, key)) [1, 2, 1, 3, 2, 1] = [(0, 1), (1, 2), (0, 1), (2, 3), (1, 2), (0, 1)] := by decide

end cache

section specification
variable {L D : Type} [DecidableEq L] [Inhabited L]

/-- The mean statistics of the replicates: for every statistic and variable the sum over the units at the given positions divided by the sum of the weights at the same positions. -/
noncomputable def resampledMeans (d : Dim) (replicates : Finset L) (indices : L → List ℕ) (table : OrderedTable L) : List (String × Vars (DA L (FV ℝ))) :=
  table.map (fun sv => (sv.1, sv.2.map (fun v => (v.1, zipWith (· / ·) (resampledArray d replicates indices v.2.1) (resampledArray d replicates indices v.2.2)))))

/-- The random numbers of a sampling for `n` units are positions of units, one for every unit. -/
def ValidDraws (o : StationaryOptions L) (n : ℕ) : Prop := ∀ k b, (o.draws k n b).1 < n ∧ (o.draws k n b).2.length + 1 = n ∧ ∀ x ∈ (o.draws k n b).2, x.2 < n

/-- The block length for the series of linearized values at a cell. -/
noncomputable def blockLengthAt (o : StationaryOptions L) (tangents : Ordered L (FV ℝ)) (e : Dim → L) : Except Err ℝ :=
  optimalBlockLength o.meanBlockLength (tangents.order o.unitDim).length (o.arch (series o.unitDim tangents e)) o.round o.resolution

/-- What has to hold for the metric `metric`, its variable `var` with the dimensions `dims`, and the arguments, with `n` units: the arrays have the same units and labels, and the
metric can be computed from the statistics at one label of each dimension and keeps these labels. -/
structure Resamplable (o : StationaryOptions L) (n : ℕ) (metric : Metric D (Option (StatVar L (FV ℝ))) (DA L (FV ℝ))) (var : String) (dims : List Dim) (labels : Dim → List L) (rest : Finset Dim)
    (restLabels : Dim → Finset L) (args : SliceArgs L) : Prop where
  draws : ValidDraws o n
  nodup : dims.Nodup
  unit : o.unitDim ∉ dims
  same : SameLabels labels dims args.leaves
  distinct : ∀ d ∈ dims, labels d ≠ [] ∧ (labels d).Nodup
  units : ∀ a ∈ args.leaves, o.unitDim ∈ a.arr.dims ∧ (a.order o.unitDim).length = n
  tangents : args.tangents.arr.dims = insert o.unitDim dims.toFinset ∧ args.tangents.arr.WF
  enough : o.meanBlockLength.isSome ∨ 8 ≤ n
  keeps : ∀ indices c, (∀ d ∈ dims, c d ∈ labels d) → ∃ values r, metric.valuesFromMeanStatistics (resampledMeans o.unitDim o.replicates indices (args.map (Ordered.at dims c)).table) = .ok values ∧
    pyItem values var = .ok r ∧ SliceResult dims rest restLabels c r

/-- The values of the replicates at the cell `e` are those of the array `r`, which is computed with the positions `indices`. -/
def ReplicatesAt (o : StationaryOptions L) (metric : Metric D (Option (StatVar L (FV ℝ))) (DA L (FV ℝ))) (var : String) (dims : List Dim) (args : SliceArgs L) (indices : L → List ℕ) (e : Dim → L)
    (r : DA L (FV ℝ)) : Prop :=
  ∃ values, metric.valuesFromMeanStatistics (resampledMeans o.unitDim o.replicates indices (args.map (Ordered.at dims e)).table) = .ok values ∧ pyItem values var = .ok r

end specification

section scalar
variable {L D : Type} [DecidableEq L] [Inhabited L] {o : StationaryOptions L} {metric : Metric D (Option (StatVar L (FV ℝ))) (DA L (FV ℝ))} {var : String} {dims : List Dim} {labels : Dim → List L}
  {rest : Finset Dim} {restLabels : Dim → Finset L} {args : SliceArgs L} {n : ℕ}

theorem sliceArgs_mapsLeaves : MapsLeaves (SliceArgs.map (L := L)) SliceArgs.leaves := by
  intro a g h hg
  unfold SliceArgs.map
  have h1 : g a.tangents = h a.tangents := hg _ (by simp [SliceArgs.leaves])
  rw [h1]
  congr 1
  apply List.map_congr_left
  intro sv hsv
  congr 1
  apply List.map_congr_left
  intro v hv
  have h2 : g v.2.1 = h v.2.1 := hg _ (by
    simp only [SliceArgs.leaves, List.mem_cons, List.mem_append, List.mem_flatMap, List.mem_map]
    exact Or.inr (Or.inl ⟨sv, hsv, v, hv, rfl⟩))
  have h3 : g v.2.2 = h v.2.2 := hg _ (by
    simp only [SliceArgs.leaves, List.mem_cons, List.mem_append, List.mem_flatMap, List.mem_map]
    exact Or.inr (Or.inr ⟨sv, hsv, v, hv, rfl⟩))
  rw [h2, h3]

theorem mem_leaves {a : SliceArgs L} {sv : String × Vars (Ordered L (FV ℝ) × Ordered L (FV ℝ))} {v : String × Ordered L (FV ℝ) × Ordered L (FV ℝ)} (hsv : sv ∈ a.table) (hv : v ∈ sv.2) :
    v.2.1 ∈ a.leaves ∧ v.2.2 ∈ a.leaves := by
  simp only [SliceArgs.leaves, List.mem_cons, List.mem_append, List.mem_flatMap, List.mem_map]
  exact ⟨Or.inr (Or.inl ⟨sv, hsv, v, hv, rfl⟩), Or.inr (Or.inr ⟨sv, hsv, v, hv, rfl⟩)⟩

theorem at_order {c : Dim → L} (a : Ordered L (FV ℝ)) {d : Dim} (hd : d ∉ dims) : (a.at dims c).order d = a.order d := by simp [Ordered.at, hd]

theorem at_dims {c : Dim → L} (a : Ordered L (FV ℝ)) : (a.at dims c).arr.dims = a.arr.dims := rfl

theorem series_at {c e : Dim → L} (a : Ordered L (FV ℝ)) {d : Dim} (hd : d ∉ dims) : series d (a.at dims c) e = series d a e := by
  unfold series
  rw [at_order a hd]; rfl

theorem resampledTable_ok {table : OrderedTable L} {d : Dim} {replicates : Finset L} {indices : L → List ℕ}
    (h : ∀ sv ∈ table, ∀ v ∈ sv.2, (d ∈ v.2.1.arr.dims ∧ ∀ b, ∀ i ∈ indices b, i < (v.2.1.order d).length) ∧ (d ∈ v.2.2.arr.dims ∧ ∀ b, ∀ i ∈ indices b, i < (v.2.2.order d).length)) :
    resampledTable d replicates indices table = .ok (resampledMeans d replicates indices table) := by
  have hone : ∀ a : Ordered L (FV ℝ), (d ∈ a.arr.dims ∧ ∀ b, ∀ i ∈ indices b, i < (a.order d).length) → resampleSum d replicates indices a = .ok (resampledArray d replicates indices a) := by
    rintro a ⟨h1, h2⟩
    unfold resampleSum
    rw [if_neg (by simpa using h1), if_neg]
    rintro ⟨b, _, i, hi, hle⟩
    have := h2 b i hi
    omega
  unfold resampledTable resampledMeans
  apply TimeChunks.mapM_ok_of_forall
  intro sv hsv
  have : sv.2.mapM (fun v => (do
      let x ← resampleSum d replicates indices v.2.1
      let w ← resampleSum d replicates indices v.2.2
      return (v.1, zipWith (· / ·) x w) : Except Err _)) =
      .ok (sv.2.map (fun v => (v.1, zipWith (· / ·) (resampledArray d replicates indices v.2.1) (resampledArray d replicates indices v.2.2)))) := by
    apply TimeChunks.mapM_ok_of_forall
    intro v hv
    obtain ⟨h1, h2⟩ := h sv hsv v hv
    rw [hone _ h1, hone _ h2]; rfl
  rw [this]; rfl

theorem sample_lt (h : ValidDraws o n) (k : ℕ) (length : ℝ) (b : L) : ∀ i ∈ o.sample k (n, length) b, i < n :=
  C56_stationary_range (h k b).1 (h k b).2.2

/-- Every call of the function for a slice. `I` is a property of the cache and `P` one of what it answers. -/
theorem scalar_call (h : Resamplable o n metric var dims labels rest restLabels args) {I : IndexCache L → Prop} {P : ℝ → (L → List ℕ) → Prop}
    (hI : ∀ c length, (∃ t e, blockLengthAt o t e = .ok length) → I c → P length (c.get o.cacheSize o.sample (n, length)).1 ∧ I (c.get o.cacheSize o.sample (n, length)).2)
    (hP : ∀ length t, P length t → ∃ k, t = o.sample k (n, length))
    {cache : IndexCache L} (hc : I cache) {e : Dim → L} (he : ∀ d ∈ dims, e d ∈ labels d) :
    ∃ r cache' length indices, stationaryScalar o metric var cache (args.map (Ordered.at dims e)) = .ok (r, cache') ∧ I cache' ∧ blockLengthAt o args.tangents e = .ok length ∧
      P length indices ∧ ReplicatesAt o metric var dims args indices e r ∧ SliceResult dims rest restLabels e r := by
  have htd : (args.map (Ordered.at dims e)).tangents = args.tangents.at dims e := rfl
  have ht := h.units args.tangents (by simp [SliceArgs.leaves])
  have hord : ((args.map (Ordered.at dims e)).tangents.order o.unitDim) = args.tangents.order o.unitDim := by rw [htd, at_order _ h.unit]
  -- the block length
  have hser : series o.unitDim (args.tangents.at dims e) (fun d => ((args.tangents.at dims e).order d).headD default) = series o.unitDim args.tangents e := by
    rw [series_at _ h.unit]
    unfold series
    apply List.map_congr_left
    intro l _
    apply h.tangents.2
    intro d hd
    unfold setLabel
    by_cases hdu : d = o.unitDim
    · simp [hdu]
    · rw [if_neg hdu, if_neg hdu]
      have hdd : d ∈ dims := by
        rw [h.tangents.1, Finset.mem_insert, List.mem_toFinset] at hd
        exact hd.resolve_left hdu
      simp [Ordered.at, hd, hdd]
  have hblock : sliceBlockLength o (args.map (Ordered.at dims e)).tangents = blockLengthAt o args.tangents e := by
    rw [htd]
    unfold sliceBlockLength blockLengthAt
    dsimp only
    rw [hser, at_order _ h.unit, if_neg]
    rintro ⟨_, _, hno⟩
    apply hno
    intro d hd
    rw [Finset.mem_erase, at_dims] at hd
    have hdd : d ∈ dims := by
      have := hd.2
      rw [h.tangents.1, Finset.mem_insert, List.mem_toFinset] at this
      exact this.resolve_left hd.1
    simp [Ordered.at, hd.2, hdd]
  obtain ⟨length, hlen⟩ : ∃ length, blockLengthAt o args.tangents e = .ok length := by
    unfold blockLengthAt optimalBlockLength
    rw [ht.2]
    cases hm : o.meanBlockLength with
    | some b => exact ⟨b, rfl⟩
    | none =>
      have h8 : 8 ≤ n := by
        rcases h.enough with h | h
        · rw [hm] at h; cases h
        · exact h
      dsimp only
      rw [if_neg (by omega)]
      cases o.resolution with
      | none => exact ⟨_, rfl⟩
      | some r => exact ⟨_, rfl⟩
  obtain ⟨hPl, hIl⟩ := hI cache length ⟨_, _, hlen⟩ hc
  obtain ⟨k, hk⟩ := hP _ _ hPl
  obtain ⟨values, r, hv, hr, hsl⟩ := h.keeps (cache.get o.cacheSize o.sample (n, length)).1 e he
  refine ⟨r, (cache.get o.cacheSize o.sample (n, length)).2, length, _, ?_, hIl, hlen, hPl, ⟨values, hv, hr⟩, hsl⟩
  have htab : resampledTable o.unitDim o.replicates (cache.get o.cacheSize o.sample (n, length)).1 (args.map (Ordered.at dims e)).table =
      .ok (resampledMeans o.unitDim o.replicates (cache.get o.cacheSize o.sample (n, length)).1 (args.map (Ordered.at dims e)).table) := by
    apply resampledTable_ok
    intro sv hsv v hv'
    obtain ⟨sv0, hsv0, rfl⟩ := List.mem_map.mp hsv
    obtain ⟨v0, hv0, rfl⟩ := List.mem_map.mp hv'
    obtain ⟨m1, m2⟩ := mem_leaves hsv0 hv0
    have hall : ∀ a ∈ args.leaves, o.unitDim ∈ (a.at dims e).arr.dims ∧ ∀ b, ∀ i ∈ (cache.get o.cacheSize o.sample (n, length)).1 b, i < ((a.at dims e).order o.unitDim).length := by
      intro a ha
      refine ⟨(h.units a ha).1, fun b i hi => ?_⟩
      rw [at_order _ h.unit, (h.units a ha).2]
      rw [hk] at hi
      exact sample_lt h.draws k length b i hi
    exact ⟨hall _ m1, hall _ m2⟩
  unfold stationaryScalar
  rw [if_neg (by rw [htd]; simpa [Ordered.at] using ht.1), hblock, hlen]
  show (do
    let means ← resampledTable o.unitDim o.replicates (cache.get o.cacheSize o.sample (((args.map (Ordered.at dims e)).tangents.order o.unitDim).length, length)).1 (args.map (Ordered.at dims e)).table
    let values ← metric.valuesFromMeanStatistics means
    let x ← pyItem values var
    return (x, (cache.get o.cacheSize o.sample (((args.map (Ordered.at dims e)).tangents.order o.unitDim).length, length)).2) : Except Err _) = _
  rw [hord, ht.2, htab]
  exact bind_ok_iff.mpr ⟨_, rfl, bind_ok_iff.mpr ⟨values, hv, bind_ok_iff.mpr ⟨r, hr, rfl⟩⟩⟩

theorem reached_inv {S A R : Type} {arguments : A → Prop} {f : S → A → Except Err (R × S)} {I : S → Prop} (hf : ∀ s a r s', I s → arguments a → f s a = .ok (r, s') → I s') {s s' : S}
    (h : Reached arguments f s s') (hs : I s) : I s' := by
  induction h with
  | start => exact hs
  | call _ ha h2 ih => exact hf _ _ _ _ ih ha h2

/-- The results for one variable of one metric, with a property `I` of the cache that all calls keep, and a property `P` of what the cache answers. -/
theorem variable_cells (h : Resamplable o n metric var dims labels rest restLabels args) {I : IndexCache L → Prop} {P : ℝ → (L → List ℕ) → Prop}
    (hI : ∀ c length, (∃ t e, blockLengthAt o t e = .ok length) → I c → P length (c.get o.cacheSize o.sample (n, length)).1 ∧ I (c.get o.cacheSize o.sample (n, length)).2)
    (hP : ∀ length t, P length t → ∃ k, t = o.sample k (n, length))
    {cache : IndexCache L} (hc : I cache) :
    ∃ R cache', applyToSlices SliceArgs.map SliceArgs.leaves (stationaryScalar o metric var) dims args cache = .ok (R, cache') ∧ I cache' ∧
      Assembled dims labels rest restLabels
        (fun e r => ∃ length indices, blockLengthAt o args.tangents e = .ok length ∧ P length indices ∧ ReplicatesAt o metric var dims args indices e r ∧ SliceResult dims rest restLabels e r) R := by
  have hinv : ∀ s1, Reached (IsSlice SliceArgs.map dims labels args) (stationaryScalar o metric var) cache s1 → I s1 := by
    intro s1 h1
    refine reached_inv ?_ h1 hc
    rintro s a r s' hs ⟨c, hc', rfl⟩ hr
    obtain ⟨r', s'', _, _, hr', hI', _⟩ := scalar_call h hI hP hs hc'
    rw [hr] at hr'
    have := congrArg Prod.snd (Except.ok.inj hr')
    dsimp only at this
    rw [this]; exact hI'
  obtain ⟨R, cache', hR, hreach, hA⟩ := C80_apply (f := stationaryScalar o metric var) (s := cache) (rest := rest) (restLabels := restLabels) sliceArgs_mapsLeaves h.nodup h.same h.distinct (by
    intro c hc' s1 h1
    obtain ⟨r, s', _, _, hr, _, _, _, _, hsl⟩ := scalar_call h hI hP (hinv s1 h1) hc'
    exact ⟨(r, s'), hr, hsl⟩)
  refine ⟨R, cache', hR, hinv _ hreach, hA.shape, hA.sliced, hA.others, ?_⟩
  intro e he
  obtain ⟨r, ⟨s1, s2, h1, h2⟩, hval⟩ := hA.value e he
  obtain ⟨r', s', length, indices, hr', _, hlen, hPi, hrep, hsl⟩ := scalar_call h hI hP (hinv s1 h1) he
  rw [h2] at hr'
  have := congrArg Prod.fst (Except.ok.inj hr')
  dsimp only at this
  subst this
  exact ⟨r, ⟨length, indices, hlen, hPi, hrep, hsl⟩, hval⟩

end scalar

section bootstrap
variable {L D : Type} [DecidableEq L] [Inhabited L] {o : StationaryOptions L} {n : ℕ} {table : OrderedTable L}

/-- A metric with the dimensions of its point estimates and its linearized values per unit. -/
abbrev BootstrapMetric (L D : Type) := Metric D (Option (StatVar L (FV ℝ))) (DA L (FV ℝ)) × Vars (List Dim) × Vars (Ordered L (FV ℝ))

/-- The statistics that are resampled for a variable of a metric, and the linearized values of this variable. -/
def ArgumentsFor (table : OrderedTable L) (m : BootstrapMetric L D) (var : String) (args : SliceArgs L) : Prop :=
  ∃ selected t, selectStatistics m.1 table = .ok selected ∧ pyItem m.2.2 var = .ok t ∧ args = { tangents := t, table := statisticsForVariable (decide (m.2.1.length ≤ 1)) var selected }

/-- The metric can be resampled for all its variables. -/
def MetricResamplable (o : StationaryOptions L) (n : ℕ) (table : OrderedTable L) (m : BootstrapMetric L D) : Prop :=
  (∃ selected, selectStatistics m.1 table = .ok selected) ∧
  ∀ est ∈ m.2.1, ∃ args labels rest restLabels, ArgumentsFor table m est.1 args ∧ Resamplable o n m.1 est.1 est.2 labels rest restLabels args

/-- The result `R` for a variable with the given dimensions: at every cell, the values of replicates with positions that `P` allows for the block length of the cell. `R` has the dimensions
of these values. -/
def ResultFor (o : StationaryOptions L) (table : OrderedTable L) (P : ℝ → (L → List ℕ) → Prop) (m : BootstrapMetric L D) (est : String × List Dim) (R : DA L (FV ℝ)) : Prop :=
  ∃ args labels rest restLabels, ArgumentsFor table m est.1 args ∧ SameLabels labels est.2 args.leaves ∧
    Assembled est.2 labels rest restLabels
      (fun e r => ∃ length indices, blockLengthAt o args.tangents e = .ok length ∧ P length indices ∧ ReplicatesAt o m.1 est.1 est.2 args indices e r ∧ SliceResult est.2 rest restLabels e r) R

/-- The results of all metrics and variables. -/
def ResultsFor (o : StationaryOptions L) (table : OrderedTable L) (P : ℝ → (L → List ℕ) → Prop) (metrics : List (String × BootstrapMetric L D)) (r : List (String × Vars (DA L (FV ℝ)))) : Prop :=
  List.Forall₂ (fun m x => x.1 = m.1 ∧ List.Forall₂ (fun est y => y.1 = est.1 ∧ ResultFor o table P m.2 est y.2) m.2.2.1 x.2) metrics r

theorem metric_cells {I : IndexCache L → Prop} {P : ℝ → (L → List ℕ) → Prop}
    (hI : ∀ c length, (∃ t e, blockLengthAt o t e = .ok length) → I c → P length (c.get o.cacheSize o.sample (n, length)).1 ∧ I (c.get o.cacheSize o.sample (n, length)).2)
    (hP : ∀ length t, P length t → ∃ k, t = o.sample k (n, length)) {m : BootstrapMetric L D} (hm : MetricResamplable o n table m) {cache : IndexCache L} (hc : I cache) :
    ∃ r cache', stationaryMetric o m.1 m.2.1 m.2.2 table cache = .ok (r, cache') ∧ I cache' ∧
      List.Forall₂ (fun est y => y.1 = est.1 ∧ ResultFor o table P m est y.2) m.2.1 r := by
  obtain ⟨⟨selected, hsel⟩, hvars⟩ := hm
  set f : IndexCache L → String × List Dim → Except Err ((String × DA L (FV ℝ)) × IndexCache L) := fun cache est => do
    let t ← pyItem m.2.2 est.1
    let r ← applyToSlices SliceArgs.map SliceArgs.leaves (stationaryScalar o m.1 est.1) est.2
      { tangents := t, table := statisticsForVariable (decide (m.2.1.length ≤ 1)) est.1 selected } cache
    return ((est.1, r.1), r.2) with hf
  have hcall : ∀ est ∈ m.2.1, ∀ cache, I cache → ∃ y cache', f cache est = .ok (y, cache') ∧ I cache' ∧ y.1 = est.1 ∧ ResultFor o table P m est y.2 := by
    intro est hest cache hc
    obtain ⟨args, labels, rest, restLabels, ⟨sel', t, hs', ht, rfl⟩, hres⟩ := hvars est hest
    rw [hsel] at hs'
    obtain rfl := Except.ok.inj hs'
    obtain ⟨R, cache', hR, hI', hA⟩ := variable_cells hres hI hP hc
    refine ⟨(est.1, R), cache', ?_, hI', rfl, ?_⟩
    · exact bind_ok_iff.mpr ⟨t, ht, bind_ok_iff.mpr ⟨(R, cache'), hR, rfl⟩⟩
    · exact ⟨_, labels, rest, restLabels, ⟨selected, t, hsel, ht, rfl⟩, hres.same, hA⟩
  have hinv : ∀ s1, Reached (fun est => est ∈ m.2.1) f cache s1 → I s1 := by
    intro s1 h1
    refine reached_inv ?_ h1 hc
    intro s est y s' hs hest hy
    obtain ⟨y', s'', hy', hI', _⟩ := hcall est hest s hs
    rw [hy] at hy'
    have := congrArg Prod.snd (Except.ok.inj hy')
    dsimp only at this
    rw [this]; exact hI'
  obtain ⟨⟨r, cache'⟩, hrun⟩ := runCalls_ok (arguments := fun est => est ∈ m.2.1) (f := f) (as := m.2.1) (s := cache) (fun _ h => h) (by
    intro est hest s1 h1
    obtain ⟨y, s', hy, _⟩ := hcall est hest s1 (hinv s1 h1)
    exact ⟨_, hy⟩)
  obtain ⟨hall, hreach⟩ := runCalls_mem (arguments := fun est => est ∈ m.2.1) hrun (fun _ h => h)
  refine ⟨r, cache', bind_ok_iff.mpr ⟨selected, hsel, hrun⟩, hinv _ hreach, ?_⟩
  refine forall₂_imp_mem hall ?_
  rintro est hest y ⟨s1, s2, h1, h2⟩
  obtain ⟨y', s', hy', _, h3, h4⟩ := hcall est hest s1 (hinv s1 h1)
  rw [h2] at hy'
  have := congrArg Prod.fst (Except.ok.inj hy')
  dsimp only at this
  subst this
  exact ⟨h3, h4⟩

theorem bootstrap_cells {I : IndexCache L → Prop} {P : ℝ → (L → List ℕ) → Prop}
    (hI : ∀ c length, (∃ t e, blockLengthAt o t e = .ok length) → I c → P length (c.get o.cacheSize o.sample (n, length)).1 ∧ I (c.get o.cacheSize o.sample (n, length)).2)
    (hP : ∀ length t, P length t → ∃ k, t = o.sample k (n, length)) (h0 : I { entries := [], misses := 0 }) {metrics : List (String × BootstrapMetric L D)}
    (hm : ∀ m ∈ metrics, MetricResamplable o n table m.2) :
    ∃ r, stationaryBootstrap o metrics table = .ok r ∧ ResultsFor o table P metrics r := by
  set f : IndexCache L → String × BootstrapMetric L D → Except Err ((String × Vars (DA L (FV ℝ))) × IndexCache L) := fun cache m => do
    let r ← stationaryMetric o m.2.1 m.2.2.1 m.2.2.2 table cache
    return ((m.1, r.1), r.2) with hf
  have hcall : ∀ m ∈ metrics, ∀ cache, I cache → ∃ x cache', f cache m = .ok (x, cache') ∧ I cache' ∧ x.1 = m.1 ∧
      List.Forall₂ (fun est y => y.1 = est.1 ∧ ResultFor o table P m.2 est y.2) m.2.2.1 x.2 := by
    intro m hm' cache hc
    obtain ⟨r, cache', hr, hI', hres⟩ := metric_cells hI hP (hm m hm') hc
    exact ⟨(m.1, r), cache', bind_ok_iff.mpr ⟨(r, cache'), hr, rfl⟩, hI', rfl, hres⟩
  have hinv : ∀ s1, Reached (fun m => m ∈ metrics) f { entries := [], misses := 0 } s1 → I s1 := by
    intro s1 h1
    refine reached_inv ?_ h1 h0
    intro s m x s' hs hm' hx
    obtain ⟨x', s'', hx', hI', _⟩ := hcall m hm' s hs
    rw [hx] at hx'
    have := congrArg Prod.snd (Except.ok.inj hx')
    dsimp only at this
    rw [this]; exact hI'
  obtain ⟨⟨r, cache'⟩, hrun⟩ := runCalls_ok (arguments := fun m => m ∈ metrics) (f := f) (as := metrics) (s := { entries := [], misses := 0 }) (fun _ h => h) (by
    intro m hm' s1 h1
    obtain ⟨x, s', hx, _⟩ := hcall m hm' s1 (hinv s1 h1)
    exact ⟨_, hx⟩)
  obtain ⟨hall, _⟩ := runCalls_mem (arguments := fun m => m ∈ metrics) hrun (fun _ h => h)
  refine ⟨r, bind_ok_iff.mpr ⟨(r, cache'), hrun, rfl⟩, ?_⟩
  refine forall₂_imp_mem hall ?_
  rintro m hm' x ⟨s1, s2, h1, h2⟩
  obtain ⟨x', s', hx', _, h3, h4⟩ := hcall m hm' s1 (hinv s1 h1)
  rw [h2] at hx'
  have := congrArg Prod.fst (Except.ok.inj hx')
  dsimp only at this
  subst this
  exact ⟨h3, h4⟩

/-- Every value of the stationary bootstrap: at every cell of every variable of every metric, the replicates are the values of the metric for statistics and weights that are all
resampled at the same positions, and these positions come from a sampling with the block length of this cell. -/
theorem C80_replicates {metrics : List (String × BootstrapMetric L D)} (hm : ∀ m ∈ metrics, MetricResamplable o n table m.2) :
    ∃ r, stationaryBootstrap o metrics table = .ok r ∧ ResultsFor o table (fun length indices => ∃ k, indices = o.sample k (n, length)) metrics r :=
  bootstrap_cells (I := fun c => c.Sampled o.sample) (fun _ _ _ hc => LruCache.get_sampled hc _) (fun _ _ h => h) (by intro x hx; cases hx) hm

/-- With a given mean block length there is one sampling for everything: the same positions for all statistics, cells, variables and metrics, so that replicates with the same number
belong together. -/
theorem C80_shared {metrics : List (String × BootstrapMetric L D)} (hm : ∀ m ∈ metrics, MetricResamplable o n table m.2) {b : ℝ} (hb : o.meanBlockLength = some b) (hsize : 1 ≤ o.cacheSize) :
    ∃ r, stationaryBootstrap o metrics table = .ok r ∧ ResultsFor o table (fun length indices => length = b ∧ indices = o.sample 0 (n, b)) metrics r := by
  refine bootstrap_cells (I := fun c => (c.entries = [] ∧ c.misses = 0) ∨ c.entries = [((n, b), o.sample 0 (n, b))]) ?_ ?_ (Or.inl ⟨rfl, rfl⟩) hm
  · rintro c length ⟨t, e, hlen⟩ hc
    have hl : length = b := by
      unfold blockLengthAt optimalBlockLength at hlen
      rw [hb] at hlen
      exact (Except.ok.inj hlen).symm
    subst hl
    rcases hc with ⟨h1, h2⟩ | h1
    · rw [LruCache.get_miss (by rw [h1]; simp), h1, h2]
      refine ⟨⟨rfl, rfl⟩, Or.inr ?_⟩
      rw [List.take_of_length_le (by simpa using hsize)]
    · rw [LruCache.get_hit (t := o.sample 0 (n, length)) (by rw [h1]; simp) (by rw [h1]; simp), h1]
      exact ⟨⟨rfl, rfl⟩, Or.inr (by simp)⟩
  · rintro length t ⟨rfl, rfl⟩
    exact ⟨0, rfl⟩

/-- The positions of a sampling: as many as there are units, all of them positions of units, and consecutive (cyclically) except where a new block begins. -/
theorem C80_positions (h : ValidDraws o n) (k : ℕ) (length : ℝ) (b : L) :
    (o.sample k (n, length) b).length = n ∧ (∀ i ∈ o.sample k (n, length) b, i < n) ∧
    ∀ j (hj : j < (o.draws k n b).2.length) current, (o.sample k (n, length) b)[j]? = some current →
      (o.sample k (n, length) b)[j + 1]? = some (if (o.draws k n b).2[j].1 < 1 / length then (o.draws k n b).2[j].2 else (current + 1) % n) := by
  refine ⟨?_, sample_lt h k length b, ?_⟩
  · unfold StationaryOptions.sample
    rw [C56_stationary_length, (h k b).2.1]
  · exact (C56_stationary_step (n := n) (mbl := length) (first := (o.draws k n b).1) (draws := (o.draws k n b).2)).2

/-- What is resampled for a variable: the sums of the statistics of the metric, found in the table under their unique names and handed to the metric under its own names for them. If
the metric has several variables and all its statistics have this one, it is the only one handed over. -/
theorem C80_arguments {m : BootstrapMetric L D} {var : String} {args : SliceArgs L} (h : ArgumentsFor table m var args) :
    pyItem m.2.2 var = .ok args.tangents ∧ ∃ selected : OrderedTable L, List.Forall₂ (fun s x => x.1 = s.1 ∧ pyItem table s.2.uniqueName = .ok x.2) m.1.statistics selected ∧
      (m.2.1.length ≤ 1 ∨ (∃ sv ∈ selected, pyGet? var sv.2 = none) → args.table = selected) ∧
      (1 < m.2.1.length → (∀ sv ∈ selected, ∃ x, pyGet? var sv.2 = some x) →
        List.Forall₂ (fun sv x => x.1 = sv.1 ∧ ∃ y, pyGet? var sv.2 = some y ∧ x.2 = [(var, y)]) selected args.table) := by
  obtain ⟨selected, t, hsel, ht, rfl⟩ := h
  refine ⟨ht, selected, ?_, ?_, ?_⟩
  · refine (forall₂_of_mapM hsel).imp ?_
    intro s x hx
    obtain ⟨vars, hv, hx⟩ := bind_ok_iff.mp hx
    cases hx
    exact ⟨rfl, hv⟩
  · rintro (h1 | ⟨sv, h1, h2⟩)
    · simp [statisticsForVariable, h1]
    · unfold statisticsForVariable
      rw [if_neg]
      rw [Bool.and_eq_true, not_and]
      intro _ hall
      have := List.all_eq_true.mp hall sv h1
      rw [h2] at this
      simp at this
  · intro h1 hall
    unfold statisticsForVariable
    rw [if_pos]
    · rw [List.forall₂_map_right_iff, List.forall₂_same]
      intro sv hsv
      obtain ⟨x, hx⟩ := hall sv hsv
      exact ⟨rfl, x, hx, by simp [hx]⟩
    · rw [Bool.and_eq_true]
      refine ⟨by simpa using h1, List.all_eq_true.mpr fun sv hsv => ?_⟩
      obtain ⟨x, hx⟩ := hall sv hsv
      simp [hx]

/-- The automatic block length is that of one series: if there is another dimension with several (or no) labels, this is an `AssertionError`, but with fewer than 8 units a
`ValueError` as always. A given mean block length needs no series. -/
theorem C80_one_series {t : Ordered L (FV ℝ)} {d : Dim} (hd : d ∈ t.arr.dims) (hne : d ≠ o.unitDim) (hlen : (t.order d).length ≠ 1) :
    (o.meanBlockLength = none → 8 ≤ (t.order o.unitDim).length → sliceBlockLength o t = .error .assertionError) ∧
    (o.meanBlockLength = none → (t.order o.unitDim).length < 8 → sliceBlockLength o t = .error .valueError) ∧
    ∀ b, o.meanBlockLength = some b → sliceBlockLength o t = .ok b := by
  refine ⟨fun h1 h2 => ?_, fun h1 h2 => ?_, fun b h1 => ?_⟩ <;> unfold sliceBlockLength <;> dsimp only
  · rw [if_pos]
    exact ⟨by rw [h1]; rfl, h2, fun hall => hlen (hall d (Finset.mem_erase.mpr ⟨hne, hd⟩))⟩
  · rw [if_neg (by omega)]
    unfold optimalBlockLength
    rw [h1]
    dsimp only
    rw [if_pos h2]
  · rw [if_neg (by rw [h1]; simp)]
    unfold optimalBlockLength
    rw [h1]

end bootstrap
end WBX
