import Verif.Model.Bootstrap
import Verif.Lemmas.Table
import Verif.Props.Mean

set_option linter.unusedSectionVars false

/-!
# C56, resampling: what the replicates and the point estimates are computed from
-/

namespace WBX
open DA
variable {L D : Type} [DecidableEq L]

section sums

theorem sum_count_cluster {C : Type} [DecidableEq C] (units : Finset L) (cluster : L → C) (x : L → ℝ) (draws : List C) :
    ∑ u ∈ units, x u * (draws.count (cluster u) : ℝ) = (draws.map (fun c => ∑ u ∈ units with cluster u = c, x u)).sum := by
  induction draws with
  | nil => simp
  | cons c draws ih =>
    rw [List.map_cons, List.sum_cons, ← ih, Finset.sum_filter, ← Finset.sum_add_distrib]
    apply Finset.sum_congr rfl
    intro u _
    rw [List.count_cons]
    by_cases h : c = cluster u
    · simp only [h, beq_self_eq_true, if_true]; push_cast; ring
    · have h' : ¬ cluster u = c := fun e => h e.symm
      simp [h, h']

theorem fv_list_sum_fin {ι : Type} (l : List ι) (f : ι → FV ℝ) (g : ι → ℝ) (h : ∀ i ∈ l, f i = .fin (g i)) : (l.map f).sum = FV.fin (l.map g).sum := by
  induction l with
  | nil => rfl
  | cons i l ih =>
    simp only [List.map_cons, List.sum_cons]
    rw [h i (by simp), ih (fun j hj => h j (by simp [hj]))]
    rfl

theorem fv_sum_count {C : Type} [DecidableEq C] (units : Finset L) (cluster : L → C) (f : L → FV ℝ) (hf : ∀ u ∈ units, (f u).isFin) (draws : List C) :
    ∑ u ∈ units, f u * FV.fin (draws.count (cluster u) : ℝ) = (draws.map (fun c => ∑ u ∈ units with cluster u = c, f u)).sum := by
  have hx : ∀ u ∈ units, f u = .fin (f u).num := by
    intro u hu
    have := hf u hu
    cases hfu : f u with
    | fin x => rfl
    | nan => rw [hfu] at this; cases this
    | inf b => rw [hfu] at this; cases this
  rw [FV.sum_fin units _ (fun u => (f u).num * (draws.count (cluster u) : ℝ))]
  · rw [sum_count_cluster, fv_list_sum_fin draws _ (fun c => ∑ u ∈ units with cluster u = c, (f u).num)]
    intro c _
    apply FV.sum_fin
    intro u hu
    exact hx u (Finset.mem_filter.mp hu).1
  · intro u hu
    conv_lhs => rw [hx u hu]
    rfl

end sums

section replicates
variable (metrics : List (String × Metric D (Option (StatVar L (FV ℝ))) (DA L (FV ℝ)))) {t : StateTable L (FV ℝ)} {d : Dim} {units replicates : Finset L}

/-- Every entry of the table has the experimental units as labels of the dimension `d`, and no dimension of replicates. -/
def HasUnits (t : StateTable L (FV ℝ)) (d : Dim) (units : Finset L) : Prop :=
  ∀ sv ∈ t, ∀ v ∈ sv.2, (d ∈ v.2.1.dims ∧ v.2.1.coords d = units ∧ replicateDim ∉ v.2.1.dims) ∧ (d ∈ v.2.2.dims ∧ v.2.2.coords d = units ∧ replicateDim ∉ v.2.2.dims)

theorem entry?_mem {α : Type} {t : List (String × Vars α)} {s v : String} {a : α} (h : entry? t s v = some a) : ∃ sv ∈ t, ∃ w ∈ sv.2, w.2 = a := by
  unfold entry? at h
  cases hs : pyGet? s t with
  | none => rw [hs] at h; cases h
  | some vs => rw [hs] at h; exact ⟨_, pyGet?_mem hs, _, pyGet?_mem h, rfl⟩

/-- The mean statistics of one replicate, as the documentation describes them: for every entry, the sum of the statistics over the drawn units divided by the sum of their
weights, where `groups` gives the units that every draw stands for. -/
structure ResampledMeans {C : Type} (t : StateTable L (FV ℝ)) (d : Dim) (units replicates : Finset L) (groups : C → Finset L) (draws : L → List C)
    (means : List (String × Vars (DA L (FV ℝ)))) : Prop where
  names : ∀ s v, entry? means s v = none ↔ entry? t s v = none
  dims : ∀ s v X W M, entry? t s v = some (X, W) → entry? means s v = some M → d ∉ M.dims ∧ replicateDim ∈ M.dims ∧ M.coords replicateDim = replicates
  value : ∀ s v X W M, entry? t s v = some (X, W) → entry? means s v = some M → ∀ e,
    (∀ u ∈ units, (X.val (setLabel e d u)).isFin ∧ (W.val (setLabel e d u)).isFin) →
    M.val e = ((draws (e replicateDim)).map (fun c => ∑ u ∈ groups c, X.val (setLabel e d u))).sum
      / ((draws (e replicateDim)).map (fun c => ∑ u ∈ groups c, W.val (setLabel e d u))).sum
  nan : ∀ s v X W M, entry? t s v = some (X, W) → entry? means s v = some M → ∀ e, (∃ u ∈ units, X.val (setLabel e d u) = .nan ∨ W.val (setLabel e d u) = .nan) → M.val e = .nan

theorem dot_counts_val (a counts : DA L (FV ℝ)) (hd : d ∈ a.dims) (hdc : d ∈ counts.dims) (ha : a.coords d = units) (hc : counts.coords d = units) (e : Dim → L) :
    (DA.dot a [counts] [d]).val e = ∑ u ∈ units, a.val (setLabel e d u) * counts.val (setLabel e d u) := by
  simp only [DA.dot, List.foldl_cons, List.foldl_nil, sumDims, sumDim, zipWith, joinCoords, if_pos hd, if_pos hdc, ha, hc, Finset.inter_self]

theorem clusterCounts_means {C : Type} [DecidableEq C] (hu : UniqueNames t) (hd : d ≠ replicateDim) (ht : HasUnits t d units) (cluster : L → C) (draws : L → List C) :
    ∃ means, bootstrapReplicates metrics d (clusterCounts d units replicates cluster draws) (AggState.ofTable t) = computeMetricsFromStatistics metrics means
      ∧ ResampledMeans t d units replicates (fun c => units.filter (cluster · = c)) draws means := by
  set counts := clusterCounts d units replicates cluster draws
  have hcd : counts.coords d = units := if_neg hd
  have hset : ∀ (e : Dim → L) u, setLabel e d u replicateDim = e replicateDim := fun e u => if_neg (Ne.symm hd)
  have hset' : ∀ (e : Dim → L) u, setLabel e d u d = u := fun e u => if_pos rfl
  refine ⟨StateTable.mapEntries (zipWith (· / ·)) (t.mapEntries (fun a b => (DA.dot a [counts] [d], DA.dot b [counts] [d]))), ?_, ?_⟩
  · refine bind_ok_of (AggState.dot_ofTable t hu [counts] [d]) ?_
    exact AggState.metricTable_ofTable _ (AggState.unique_mapEntries t hu _) metrics
  have hent : ∀ s v, entry? (StateTable.mapEntries (zipWith (· / ·)) (t.mapEntries (fun a b => (DA.dot a [counts] [d], DA.dot b [counts] [d])))) s v
      = (entry? t s v).map (fun p => zipWith (· / ·) (DA.dot p.1 [counts] [d]) (DA.dot p.2 [counts] [d])) := by
    intro s v
    rw [entry?_mapEntries, entry?_mapEntries, Option.map_map]; rfl
  have hM : ∀ s v X W M, entry? t s v = some (X, W) → entry? (StateTable.mapEntries (zipWith (· / ·)) (t.mapEntries (fun a b => (DA.dot a [counts] [d], DA.dot b [counts] [d])))) s v = some M →
      M = zipWith (· / ·) (DA.dot X [counts] [d]) (DA.dot W [counts] [d])
      ∧ (d ∈ X.dims ∧ X.coords d = units ∧ replicateDim ∉ X.dims) ∧ (d ∈ W.dims ∧ W.coords d = units ∧ replicateDim ∉ W.dims) := by
    intro s v X W M h hm
    rw [hent, h] at hm
    obtain ⟨sv, hsv, w, hw, hwx⟩ := entry?_mem h
    have := ht sv hsv w hw
    rw [hwx] at this
    exact ⟨(Option.some.inj hm).symm, this⟩
  have hval : ∀ (a : DA L (FV ℝ)), d ∈ a.dims → a.coords d = units → ∀ e, (DA.dot a [counts] [d]).val e
      = ∑ u ∈ units, a.val (setLabel e d u) * FV.fin ((draws (e replicateDim)).count (cluster u) : ℝ) := by
    intro a had hac e
    rw [dot_counts_val a counts had (by simp [counts, clusterCounts]) hac hcd]
    apply Finset.sum_congr rfl
    intro u _
    simp only [counts, clusterCounts, hset, hset']
  constructor
  · intro s v
    rw [hent]; simp
  · intro s v X W M h hm
    obtain ⟨rfl, ⟨_, _, hX⟩, ⟨_, _, hW⟩⟩ := hM s v X W M h hm
    have hdims : ∀ a : DA L (FV ℝ), (DA.dot a [counts] [d]).dims = (a.dims ∪ counts.dims).erase d := fun a => rfl
    have hr : replicateDim ∈ counts.dims := by simp [counts, clusterCounts]
    refine ⟨by simp [zipWith, hdims], ?_, ?_⟩
    · simp [zipWith, hdims, hr, Ne.symm hd]
    · have hc : ∀ a : DA L (FV ℝ), replicateDim ∉ a.dims → (DA.dot a [counts] [d]).coords replicateDim = replicates := by
        intro a ha
        simp only [DA.dot, List.foldl_cons, List.foldl_nil, sumDims, sumDim, zipWith, joinCoords, if_neg ha, counts, clusterCounts, if_true]
      simp only [zipWith, joinCoords, hdims, Finset.mem_erase, Finset.mem_union, hr, or_true, and_true, ne_eq, Ne.symm hd, not_false_eq_true, if_true, hc X hX, hc W hW, Finset.inter_self]
  · intro s v X W M h hm e hfin
    obtain ⟨rfl, ⟨hXd, hXc, _⟩, ⟨hWd, hWc, _⟩⟩ := hM s v X W M h hm
    simp only [zipWith]
    rw [hval X hXd hXc, hval W hWd hWc, fv_sum_count units cluster _ (fun u hu => (hfin u hu).1), fv_sum_count units cluster _ (fun u hu => (hfin u hu).2)]
  · intro s v X W M h hm e ⟨u, hu', hnan⟩
    obtain ⟨rfl, ⟨hXd, hXc, _⟩, ⟨hWd, hWc, _⟩⟩ := hM s v X W M h hm
    simp only [zipWith]
    rw [hval X hXd hXc, hval W hWd hWc]
    rcases hnan with hnan | hnan
    · rw [FV.sum_nan units _ u hu' (by rw [hnan]; rfl)]; rfl
    · rw [FV.sum_nan units (fun u => W.val (setLabel e d u) * _) u hu' (by rw [hnan]; rfl)]
      generalize (∑ u ∈ units, _ : FV ℝ) = z
      cases z <;> rfl

/-- The cluster bootstrap: every replicate draws clusters, and its mean statistics are those of all units of the drawn clusters (a cluster drawn twice counts twice). The
metrics are computed from them. A NaN at one unit makes the mean statistic NaN in every replicate, drawn or not. -/
theorem C56_cluster {C : Type} [DecidableEq C] (hu : UniqueNames t) (hd : d ≠ replicateDim) (ht : HasUnits t d units) (cluster : L → C) (draws : L → List C) :
    ∃ means, bootstrapReplicates metrics d (clusterCounts d units replicates cluster draws) (AggState.ofTable t) = computeMetricsFromStatistics metrics means
      ∧ ResampledMeans t d units replicates (fun c => units.filter (cluster · = c)) draws means :=
  clusterCounts_means metrics hu hd ht cluster draws

/-- The IID bootstrap: the mean statistics of every replicate are those of the drawn units, with multiplicity. -/
theorem C56_iid (hu : UniqueNames t) (hd : d ≠ replicateDim) (ht : HasUnits t d units) (draws : L → List L) (hdraws : ∀ b, ∀ u ∈ draws b, u ∈ units) :
    ∃ means, bootstrapReplicates metrics d (iidCounts d units replicates draws) (AggState.ofTable t) = computeMetricsFromStatistics metrics means
      ∧ ResampledMeans t d units replicates (fun u => {u}) draws means := by
  obtain ⟨means, h, hm⟩ := clusterCounts_means (replicates := replicates) metrics hu hd ht (fun u => u) draws
  refine ⟨means, h, ⟨hm.names, hm.dims, ?_, hm.nan⟩⟩
  intro s v X W M he hM e hfin
  rw [hm.value s v X W M he hM e hfin]
  have hfil : ∀ u ∈ draws (e replicateDim), units.filter (· = u) = {u} := by
    intro u hu'
    ext w
    simp only [Finset.mem_filter, Finset.mem_singleton]
    exact ⟨fun h => h.2, fun h => ⟨h ▸ hdraws _ u hu', h⟩⟩
  congr 1
  · congr 1
    apply List.map_congr_left
    intro u hu'
    rw [hfil u hu']
  · congr 1
    apply List.map_congr_left
    intro u hu'
    rw [hfil u hu']

/-- The point estimates: the metrics of the mean statistics of all units. -/
theorem C56_estimate (hu : UniqueNames t) (ht : HasUnits t d units) :
    ∃ means, bootstrapEstimates metrics d (AggState.ofTable t) = computeMetricsFromStatistics metrics means ∧
      (∀ s v, entry? means s v = none ↔ entry? t s v = none) ∧
      ∀ s v X W M, entry? t s v = some (X, W) → entry? means s v = some M →
        d ∉ M.dims ∧ ∀ e, M.val e = (∑ u ∈ units, X.val (setLabel e d u)) / ∑ u ∈ units, W.val (setLabel e d u) := by
  refine ⟨StateTable.mapEntries (zipWith (· / ·)) (t.mapEntries (fun a b => (DA.sumDims [d] a, DA.sumDims [d] b))), ?_, ?_, ?_⟩
  · refine bind_ok_of (AggState.sumAlongDims_ofTable t hu [d] ?_) ?_
    · intro sv hsv v hv d' hd'
      rw [List.mem_singleton] at hd'
      subst hd'
      exact ⟨(ht sv hsv v hv).1.1, (ht sv hsv v hv).2.1⟩
    · exact AggState.metricTable_ofTable _ (AggState.unique_mapEntries t hu _) metrics
  · intro s v
    rw [entry?_mapEntries, entry?_mapEntries, Option.map_map]; simp
  · intro s v X W M h hm
    rw [entry?_mapEntries, entry?_mapEntries, Option.map_map, h] at hm
    obtain ⟨sv, hsv, w, hw, hwx⟩ := entry?_mem h
    have := ht sv hsv w hw
    rw [hwx] at this
    have hM := (Option.some.inj hm).symm
    subst hM
    refine ⟨by simp [zipWith, sumDims, sumDim], fun e => ?_⟩
    simp only [Function.comp_apply, zipWith, sumDims, sumDim]
    rw [this.1.2.1, this.2.2.1]

/-- The counts of the IID bootstrap add up to the number of draws in every replicate. -/
theorem C56_counts (units replicates : Finset L) (d : Dim) (hd : d ≠ replicateDim) (draws : L → List L) (hdraws : ∀ b, ∀ u ∈ draws b, u ∈ units) (e : Dim → L) :
    (DA.sumDim d (iidCounts d units replicates draws)).val e = .fin ((draws (e replicateDim)).length : ℝ) := by
  have h1 : (iidCounts d units replicates draws).coords d = units := if_neg hd
  simp only [sumDim, h1]
  have hset : ∀ (e : Dim → L) u, setLabel e d u replicateDim = e replicateDim := fun e u => if_neg (Ne.symm hd)
  have hset' : ∀ (e : Dim → L) u, setLabel e d u d = u := fun e u => if_pos rfl
  rw [FV.sum_fin units _ (fun u => 1 * ((draws (e replicateDim)).count u : ℝ)) (by intro u _; simp only [iidCounts, hset, hset', one_mul])]
  have := sum_count_cluster units (fun u => u) (fun _ => 1) (draws (e replicateDim))
  rw [this]
  congr 1
  have hfil : ∀ u ∈ draws (e replicateDim), (∑ w ∈ units with w = u, (1 : ℝ)) = 1 := by
    intro u hu'
    have : units.filter (· = u) = {u} := by
      ext w
      simp only [Finset.mem_filter, Finset.mem_singleton]
      exact ⟨fun h => h.2, fun h => ⟨h ▸ hdraws _ u hu', h⟩⟩
    rw [this]; simp
  rw [List.map_congr_left hfil]
  simp

end replicates

/-! ### Instance of the hypotheses: one statistic with two units, drawn twice each or once each -/

/-- The values of one statistic at the units 0, 1 and 2. -/
def exUnitArray (x : ℕ → ℝ) : DA ℕ (FV ℝ) where
  dims := {"init_time"}
  coords := fun _ => {0, 1, 2}
  val := fun e => .fin (x (e "init_time"))

/-- A state with one statistic of one variable. -/
def exUnitTable : StateTable ℕ (FV ℝ) := [("SquaredError", [("t", (exUnitArray (fun i => (i : ℝ)), exUnitArray (fun _ => 2)))])]

theorem exUnitTable_unique : UniqueNames exUnitTable := by
  refine ⟨by simp [exUnitTable], ?_⟩
  intro sv hsv
  simp only [exUnitTable, List.mem_singleton] at hsv
  subst hsv
  simp

theorem exUnitTable_units : HasUnits exUnitTable "init_time" {0, 1, 2} := by
  intro sv hsv v hv
  simp only [exUnitTable, List.mem_singleton] at hsv
  subst hsv
  simp only [List.mem_singleton] at hv
  subst hv
  simp [exUnitArray, replicateDim]

/-- The replicate that draws the units 1, 1 and 2 has the mean statistic `(1 + 1 + 2) / (2 + 2 + 2)`. -/
example (metrics : List (String × Metric D (Option (StatVar ℕ (FV ℝ))) (DA ℕ (FV ℝ)))) :
    ∃ means, bootstrapReplicates metrics "init_time" (iidCounts "init_time" {0, 1, 2} {7} (fun _ => [1, 1, 2])) (AggState.ofTable exUnitTable) = computeMetricsFromStatistics metrics means
      ∧ ∃ M, entry? means "SquaredError" "t" = some M ∧ M.val (fun _ => 7) = .fin (4 / 6) := by
  obtain ⟨means, h, hm⟩ := C56_iid (replicates := {7}) metrics exUnitTable_unique (by decide) exUnitTable_units (fun _ => [1, 1, 2]) (by simp)
  refine ⟨means, h, ?_⟩
  have he : entry? exUnitTable "SquaredError" "t" = some (exUnitArray (fun i => (i : ℝ)), exUnitArray (fun _ => 2)) := by
    simp [entry?, exUnitTable, pyGet?]
  cases hM : entry? means "SquaredError" "t" with
  | none => rw [(hm.names _ _).mp hM] at he; cases he
  | some M =>
    refine ⟨M, rfl, ?_⟩
    rw [hm.value _ _ _ _ _ he hM (fun _ => 7) (by intro u _; exact ⟨rfl, rfl⟩)]
    simp [exUnitArray, setLabel]
    norm_num
    rw [FV.fin_div_fin_of_ne _ (by norm_num)]
    norm_num

/-! ### Stationary bootstrap -/

section stationary
variable {n : ℕ} {mbl : ℝ} {first : ℕ} {draws : List (ℝ × ℕ)}

/-- One index for the first position and one for every further draw. -/
theorem C56_stationary_length : (stationaryIndices n mbl first draws).length = draws.length + 1 := List.length_scanl ..

theorem stationary_zero : (stationaryIndices n mbl first draws)[0]? = some first := by
  cases draws <;> simp [stationaryIndices, List.scanl]

theorem stationary_getElem_succ {i : ℕ} (hi : i < draws.length) {current : ℕ} (hc : (stationaryIndices n mbl first draws)[i]? = some current) :
    (stationaryIndices n mbl first draws)[i + 1]? = some (if draws[i].1 < 1 / mbl then draws[i].2 else (current + 1) % n) := by
  unfold stationaryIndices at hc ⊢
  induction draws generalizing first i with
  | nil => simp at hi
  | cons draw draws ih =>
    rw [List.scanl_cons] at hc ⊢
    cases i with
    | zero =>
      simp only [List.getElem?_cons_zero, Option.some.injEq] at hc
      subst hc
      simp only [Nat.zero_add, List.getElem?_cons_succ, List.getElem_cons_zero]
      exact stationary_zero (n := n) (mbl := mbl)
    | succ i =>
      simp only [List.getElem?_cons_succ, List.getElem_cons_succ] at hc ⊢
      exact ih (by simpa using hi) hc

/-- The indices begin with the random one; every later one is the next unit, cyclically, unless the random number for it is below `1 / mean_block_length`, and then it is the new
random index. -/
theorem C56_stationary_step :
    (stationaryIndices n mbl first draws)[0]? = some first ∧
    ∀ i (hi : i < draws.length) current, (stationaryIndices n mbl first draws)[i]? = some current →
      (stationaryIndices n mbl first draws)[i + 1]? = some (if draws[i].1 < 1 / mbl then draws[i].2 else (current + 1) % n) :=
  ⟨stationary_zero, fun _ hi _ hc => stationary_getElem_succ hi hc⟩

/-- All indices are those of units. -/
theorem C56_stationary_range (hfirst : first < n) (hdraws : ∀ p ∈ draws, p.2 < n) : ∀ i ∈ stationaryIndices n mbl first draws, i < n := by
  unfold stationaryIndices
  induction draws generalizing first with
  | nil => simpa using hfirst
  | cons draw draws ih =>
    rw [List.scanl_cons]
    intro i hi
    rcases List.mem_cons.mp hi with rfl | hi
    · exact hfirst
    · refine ih ?_ (fun p hp => hdraws p (by simp [hp])) i hi
      split
      · exact hdraws draw (by simp)
      · exact Nat.mod_lt _ (by omega)

/-- As long as no block ends, the indices are consecutive, and wrap around. -/
theorem C56_stationary_block (hfirst : first < n) (hdraws : ∀ p ∈ draws, p.2 < n) {i k : ℕ} {current : ℕ} (hik : i + k ≤ draws.length) (hc : (stationaryIndices n mbl first draws)[i]? = some current)
    (hrun : ∀ j (hj : j < draws.length), i ≤ j → j < i + k → ¬ draws[j].1 < 1 / mbl) :
    (stationaryIndices n mbl first draws)[i + k]? = some ((current + k) % n) := by
  have hlt : current < n := C56_stationary_range hfirst hdraws current (List.mem_of_getElem? hc)
  induction k with
  | zero => simpa [Nat.mod_eq_of_lt hlt] using hc
  | succ k ih =>
    have h1 := ih (by omega) (fun j hj h1 h2 => hrun j hj h1 (by omega))
    have h2 := stationary_getElem_succ (by omega) h1
    rw [if_neg (hrun (i + k) (by omega) (by omega) (by omega))] at h2
    rw [← Nat.add_assoc, h2, Nat.mod_add_mod, Nat.add_assoc]

/-- With a mean block length of 1 every index is a new random one: the IID bootstrap. -/
theorem C56_stationary_iid (hdraws : ∀ p ∈ draws, p.1 < 1) : stationaryIndices n 1 first draws = first :: draws.map Prod.snd := by
  unfold stationaryIndices
  induction draws generalizing first with
  | nil => rfl
  | cons draw draws ih =>
    rw [List.scanl_cons, ih (fun p hp => hdraws p (by simp [hp])), List.map_cons, if_pos (by have := hdraws draw (by simp); norm_num [this])]

/-- Blocks of a walk over three units: 2, 0, 1, then a new block from 1. -/
example : stationaryIndices 3 2 2 [(0.9, 1), (0.7, 2), (0.2, 1)] = [2, 0, 1, 1] := by
  simp only [stationaryIndices, List.scanl_cons, List.scanl_nil]
  norm_num

/-- The mean statistic of a replicate of finite data: the sum over the positions of the replicate, divided by the sum of the weights there. -/
theorem C56_resampled_mean {x w : ℕ → ℝ} {indices : List ℕ} (h : ∀ i ∈ indices, i < n) (hw : (indices.map w).sum ≠ 0) :
    resampledMean ((List.range n).map (fun i => .fin (x i))) ((List.range n).map (fun i => .fin (w i))) indices = .fin ((indices.map x).sum / (indices.map w).sum) := by
  have key : ∀ y : ℕ → ℝ, sumResampled ((List.range n).map (fun i => .fin (y i))) indices = .fin (indices.map y).sum := by
    intro y
    unfold sumResampled
    have : indices.map (fun i => ((List.range n).map (fun i => FV.fin (y i))).getD i .nan) = indices.map (fun i => FV.fin (y i)) := by
      apply List.map_congr_left
      intro i hi
      simp [List.getD, h i hi]
    rw [this, List.filter_eq_self.mpr]
    · exact fv_list_sum_fin indices _ y (fun _ _ => rfl)
    · intro v hv
      rw [List.mem_map] at hv
      obtain ⟨i, _, rfl⟩ := hv
      rfl
  unfold resampledMean
  rw [key, key, FV.fin_div_fin_of_ne _ hw]

/-- The point estimate of finite data: the quotient of the sums. A replicate that has every unit once gives the point estimate. -/
theorem C56_estimate_mean {x w : ℕ → ℝ} (hn : n ≠ 0) (hw : ((List.range n).map w).sum ≠ 0) {indices : List ℕ} (hp : indices.Perm (List.range n)) :
    estimateMean ((List.range n).map (fun i => .fin (x i))) ((List.range n).map (fun i => .fin (w i))) = .fin (((List.range n).map x).sum / ((List.range n).map w).sum) ∧
    resampledMean ((List.range n).map (fun i => .fin (x i))) ((List.range n).map (fun i => .fin (w i))) indices
      = estimateMean ((List.range n).map (fun i => .fin (x i))) ((List.range n).map (fun i => .fin (w i))) := by
  have hn' : (n : ℝ) ≠ 0 := by exact_mod_cast hn
  have h1 : estimateMean ((List.range n).map (fun i => .fin (x i))) ((List.range n).map (fun i => .fin (w i))) = .fin (((List.range n).map x).sum / ((List.range n).map w).sum) := by
    unfold estimateMean
    rw [fv_list_sum_fin _ _ x (fun _ _ => rfl), fv_list_sum_fin _ _ w (fun _ _ => rfl)]
    simp only [List.length_map, List.length_range]
    rw [FV.fin_div_fin_of_ne _ hn', FV.fin_div_fin_of_ne _ hn', FV.fin_div_fin_of_ne _ (div_ne_zero hw hn'), div_div_div_cancel_right₀ hn']
  refine ⟨h1, ?_⟩
  have hx : (indices.map x).sum = ((List.range n).map x).sum := (hp.map x).sum_eq
  have hw' : (indices.map w).sum = ((List.range n).map w).sum := (hp.map w).sum_eq
  rw [h1, C56_resampled_mean (fun i hi => List.mem_range.mp (hp.subset hi)) (by rw [hw']; exact hw), hx, hw']

/-- Finding: a replicate leaves a unit with a NaN statistic out of the sum of statistics but not out of the sum of weights, while the point estimate is NaN: with the statistics
NaN and 2 and the weights 1 and 1, the replicate that has every unit once has the mean statistic 1. -/
theorem C56_nan_replicate : resampledMean [.nan, .fin 2] [.fin 1, .fin 1] [0, 1] = .fin 1 ∧ estimateMean [.nan, .fin 2] [.fin 1, .fin 1] = .nan := by
  constructor
  · simp only [resampledMean, sumResampled, List.map_cons, List.map_nil, List.getD_cons_zero, List.getD_cons_succ]
    simp [FV.isnan, FV.fin_div_fin_of_ne]
    norm_num
  · simp [estimateMean]

end stationary

/-! ### Block lengths -/

/-- Without a given block length, fewer than 8 units are a `ValueError`; otherwise the block length is at least 1, and differs from the estimate only by the rounding of its
logarithm. -/
theorem C56_block_length (n : ℕ) (arch : ℝ) (round : ℝ → ℤ) (hround : ∀ x, |(round x : ℝ) - x| ≤ 1 / 2) (resolution : Option ℝ) (hres : ∀ r ∈ resolution, 0 < r) :
    (n < 8 → optimalBlockLength none n arch round resolution = .error .valueError) ∧
    (8 ≤ n → ∃ b, optimalBlockLength none n arch round resolution = .ok b ∧ 1 ≤ b ∧
      match resolution with
      | none => b = max 1 arch
      | some r => |Real.logb 10 b - Real.logb 10 (max 1 arch)| ≤ 1 / (2 * r)) ∧
    ∀ b, optimalBlockLength (some b) n arch round resolution = .ok b := by
  refine ⟨fun h => if_pos h, fun h => ?_, fun b => rfl⟩
  have hneg : ¬ n < 8 := by omega
  cases resolution with
  | none => exact ⟨max 1 arch, by simp [optimalBlockLength, hneg], le_max_left _ _, rfl⟩
  | some r =>
    have hr : 0 < r := hres r rfl
    refine ⟨logarithmicRound round r (max 1 arch), by simp [optimalBlockLength, hneg], ?_, ?_⟩
    · have h1 : 0 ≤ Real.logb 10 (max 1 arch) := Real.logb_nonneg (by norm_num) (le_max_left _ _)
      have h2 : (0 : ℤ) ≤ round (Real.logb 10 (max 1 arch) * r) := by
        have h3 := hround (Real.logb 10 (max 1 arch) * r)
        have h4 : 0 ≤ Real.logb 10 (max 1 arch) * r := by positivity
        rw [abs_le] at h3
        have h5 : (-1 : ℝ) < (round (Real.logb 10 (max 1 arch) * r) : ℝ) := by linarith [h3.1]
        have h6 : (-1 : ℤ) < round (Real.logb 10 (max 1 arch) * r) := by exact_mod_cast h5
        omega
      unfold logarithmicRound
      apply Real.one_le_rpow (by norm_num)
      have : (0 : ℝ) ≤ (round (Real.logb 10 (max 1 arch) * r) : ℝ) := by exact_mod_cast h2
      positivity
    · unfold logarithmicRound
      simp only
      rw [Real.logb_rpow (by norm_num) (by norm_num)]
      have h3 := hround (Real.logb 10 (max 1 arch) * r)
      generalize Real.logb 10 (max 1 arch) = l at h3 ⊢
      have : (round (l * r) : ℝ) / r - l = ((round (l * r) : ℝ) - l * r) / r := by field_simp
      rw [this, abs_div, abs_of_pos hr, div_le_div_iff₀ hr (by positivity)]
      nlinarith

example : ∃ b, optimalBlockLength none 8 0.3 (fun x => ⌊x + 1 / 2⌋) (some 10) = .ok b ∧ 1 ≤ b := by
  obtain ⟨b, h, h1, _⟩ := (C56_block_length 8 0.3 (fun x => ⌊x + 1 / 2⌋) (by
    intro x
    have h1 := Int.floor_le (x + 1 / 2)
    have h2 := Int.lt_floor_add_one (x + 1 / 2)
    rw [abs_le]; constructor <;> linarith) (some 10) (by simp)).2.1 (by norm_num)
  exact ⟨b, h, h1⟩

/-! ### C66: the coordinate of the experimental units -/

section coord
variable {A : Type} [DecidableEq A] {name : String} {checkIsDim : Bool}

/-- A variable with this coordinate: one dimension, which is the one of that name if that is asked for, and the given values. -/
def UnitCoordOf (name : String) (checkIsDim : Bool) (values : List A) (c : Option (CoordInfo A)) : Prop :=
  ∃ c', c = some c' ∧ c'.dims.length = 1 ∧ (checkIsDim = true → c'.dims = [name]) ∧ c'.values = values

theorem loop_some (first : CoordInfo A) (coords : List (Option (CoordInfo A))) :
    checkUnitCoordLoop name checkIsDim (some first) coords
      = open Classical in if ∀ c ∈ coords, UnitCoordOf name checkIsDim first.values c then .ok (some first) else .error .valueError := by
  induction coords with
  | nil => simp [checkUnitCoordLoop]
  | cons c rest ih =>
    cases c with
    | none =>
      rw [checkUnitCoordLoop, if_neg]
      intro h
      obtain ⟨_, h, _⟩ := h none (by simp)
      cases h
    | some c =>
      have hiff : UnitCoordOf name checkIsDim first.values (some c) ↔ c.dims.length = 1 ∧ (checkIsDim = true → c.dims = [name]) ∧ c.values = first.values := by
        constructor
        · rintro ⟨c', h, h'⟩; cases h; exact h'
        · exact fun h => ⟨c, rfl, h⟩
      rw [checkUnitCoordLoop]
      by_cases h1 : c.dims.length = 1
      · obtain ⟨x, hx⟩ := List.length_eq_one_iff.mp h1
        rw [if_neg (by simpa using h1)]
        by_cases h2 : checkIsDim = true ∧ x ≠ name
        · rw [if_pos (by simp [h2.1, hx, h2.2]), if_neg]
          intro h
          have := ((hiff.mp (h (some c) (by simp))).2.1 h2.1)
          rw [hx] at this
          exact h2.2 (by simpa using this)
        · have h2' : checkIsDim = true → c.dims = [name] := by
            intro hc
            by_contra hne
            exact h2 ⟨hc, fun e => hne (by rw [hx, e])⟩
          rw [if_neg (by
            intro h
            simp only [Bool.and_eq_true, bne_iff_ne, ne_eq] at h
            exact h.2 (by rw [h2' h.1]; rfl))]
          by_cases h3 : c.values = first.values
          · rw [if_neg (by simp [h3]), if_neg (by simp [h3]), ih]
            congr 1
            have := hiff.mpr ⟨h1, h2', h3⟩
            simp [this]
          · have hno : ¬ ∀ c' ∈ some c :: rest, UnitCoordOf name checkIsDim first.values c' := fun h => h3 (hiff.mp (h (some c) (by simp))).2.2
            rw [if_neg hno]
            by_cases h4 : c.values.length = first.values.length
            · rw [if_neg (by simpa using h4), if_pos h3]
            · rw [if_pos h4]
      · rw [if_pos h1, if_neg]
        intro h
        exact h1 (hiff.mp (h (some c) (by simp))).1

/-- The coordinate of the experimental units is accepted exactly if there is a variable and all variables of all statistics have the coordinate with one dimension (the one of its
name, where that is needed) and equal values; it is that of the first variable. Everything else is a `ValueError`. -/
theorem C66_unit_coord (coords : List (Option (CoordInfo A))) :
    (∀ c, checkUnitCoord name checkIsDim coords = .ok c ↔ coords.head? = some (some c) ∧ ∀ c' ∈ coords, UnitCoordOf name checkIsDim c.values c') ∧
    (∀ err, checkUnitCoord name checkIsDim coords = .error err → err = .valueError) := by
  cases coords with
  | nil => exact ⟨fun c => by simp [checkUnitCoord, checkUnitCoordLoop, bind, Except.bind], fun err h => by simpa [checkUnitCoord, checkUnitCoordLoop, bind, Except.bind] using h.symm⟩
  | cons c0 rest =>
    have hstep : checkUnitCoordLoop name checkIsDim none (c0 :: rest) = match c0 with
        | none => .error .valueError
        | some f => checkUnitCoordLoop name checkIsDim (some f) (c0 :: rest) := by
      cases c0 with
      | none => rfl
      | some f =>
        simp only [checkUnitCoordLoop]
        split
        · rfl
        · split
          · rfl
          · simp
    unfold checkUnitCoord
    rw [hstep]
    cases c0 with
    | none => exact ⟨fun c => by simp [bind, Except.bind], fun err h => by simpa [bind, Except.bind] using h.symm⟩
    | some f =>
      simp only
      rw [loop_some]
      by_cases hall : ∀ c ∈ some f :: rest, UnitCoordOf name checkIsDim f.values c
      · rw [if_pos hall]
        refine ⟨fun c => ?_, fun err h => by simp [bind, Except.bind, pure, Except.pure] at h⟩
        constructor
        · intro h
          have : f = c := by simpa [bind, Except.bind, pure, Except.pure] using h
          subst this
          exact ⟨rfl, hall⟩
        · rintro ⟨h, _⟩
          have : f = c := by simpa using h
          subst this; rfl
      · rw [if_neg hall]
        refine ⟨fun c => ?_, fun err h => by simpa [bind, Except.bind] using h.symm⟩
        constructor
        · intro h; simp [bind, Except.bind] at h
        · rintro ⟨h, h2⟩
          have : f = c := by simpa using h
          subst this
          exact absurd h2 hall

example : ∃ c, checkUnitCoord "init_time" true [some ⟨["init_time"], [0, 6, 12]⟩, some ⟨["init_time"], [0, 6, 12]⟩] = .ok c ∧ c.values = [0, 6, 12] :=
  ⟨⟨["init_time"], [0, 6, 12]⟩, ((C66_unit_coord _).1 _).mpr ⟨rfl, by
    intro c' hc'
    simp only [List.mem_cons, List.not_mem_nil, or_false, or_self] at hc'
    subst hc'
    exact ⟨_, rfl, rfl, fun _ => rfl, rfl⟩⟩, rfl⟩

end coord

end WBX
