import Verif.Lemmas.PipelineTimes
import Verif.Props.Chunking

/-!
# Properties C16, C17: the combiner and the Beam pipeline
-/

set_option linter.unusedSectionVars false

namespace WBX
open DA
variable {L V : Type} [DecidableEq L]

/-! ## C16 -/
section C16
variable [AddCommMonoid V]

/-- C16: whatever bundling, accumulator creation and merge tree a runner uses, the output is `None` exactly when there
was no input, and otherwise the `combining_sum` of all inputs (which have the same dimensions, as all values of one key
do). -/
theorem C16_any_schedule {D : Finset Dim} {inputs : List (DA L V)} {acc : Option (DA L V)}
    (h : CombineRun inputs acc) (hD : ∀ x ∈ inputs, x.dims = D) :
    (CombiningSum.extractOutput acc = none ↔ inputs = []) ∧
    ∀ v, CombiningSum.extractOutput acc = some v → v.Same (combiningSum inputs) :=
  combineRun_sound h hD

/-- C16: two runs over the same inputs in any order agree. -/
theorem C16_schedules_agree {D : Finset Dim} {xs ys : List (DA L V)} {a b : Option (DA L V)}
    (ha : CombineRun xs a) (hb : CombineRun ys b) (hp : xs.Perm ys) (hD : ∀ x ∈ xs, x.dims = D) :
    Option.Rel DA.Same (CombiningSum.extractOutput a) (CombiningSum.extractOutput b) := by
  obtain ⟨a1, a2⟩ := C16_any_schedule ha hD
  obtain ⟨b1, b2⟩ := C16_any_schedule hb (fun x hx => hD x (hp.mem_iff.mpr hx))
  cases hx : CombiningSum.extractOutput a with
  | none =>
    have : ys = [] := by rw [a1.mp hx] at hp; exact hp.nil_eq.symm
    rw [b1.mpr this]
    exact Option.Rel.none
  | some v =>
    cases hy : CombiningSum.extractOutput b with
    | none =>
      have : xs = [] := by rw [b1.mp hy] at hp; exact hp.eq_nil
      rw [a1.mpr this] at hx
      simp at hx
    | some w =>
      exact Option.Rel.some ((a2 v hx).trans ((combiningSum_perm hp).trans (b2 w hy).symm))

/-- C16: every input list has a run that adds the elements one by one, and every split of the inputs into bundles, some
possibly empty, has a run that merges the bundles. -/
theorem C16_runs_exist (bundles : List (List (DA L V))) : ∃ acc, CombineRun bundles.flatten acc := by
  have one : ∀ xs : List (DA L V), ∃ acc, CombineRun xs acc := by
    intro xs
    induction xs using List.reverseRecOn with
    | nil => exact ⟨_, .create⟩
    | append_singleton xs x ih =>
      obtain ⟨acc, h⟩ := ih
      exact ⟨_, .add x h⟩
  choose f hf using one
  have := CombineRun.merge (bundles.map (fun xs => (xs, f xs))) (by
    intro p hp
    rw [List.mem_map] at hp
    obtain ⟨xs, _, rfl⟩ := hp
    exact hf xs)
  rw [List.map_map] at this
  have e : (Prod.fst ∘ fun xs => (xs, f xs)) = (id : List (DA L V) → List (DA L V)) := rfl
  rw [e, List.map_id] at this
  exact ⟨_, this⟩

end C16

/-! A schedule with two bundles, an empty accumulator and a merge, on arrays with different labels. -/

def exA : DA ℕ ℚ := { dims := {"bin"}, coords := fun _ => {0, 1}, val := fun e => e "bin" + 1 }
def exB : DA ℕ ℚ := { dims := {"bin"}, coords := fun _ => {1, 2}, val := fun e => 10 * e "bin" }

example : ∃ v, CombineRun [exA, exB] (some v) ∧ v.val (fun _ => 1) = 12 ∧ v.val (fun _ => 2) = 20 := by
  have h1 : CombineRun [exA] (some exA) := CombineRun.add exA .create
  have h2 : CombineRun [exB] (some exB) := CombineRun.add exB .create
  have h := CombineRun.merge [([exA], some exA), ([], none), ([exB], some exB)] (by
    intro p hp
    simp only [List.mem_cons, List.not_mem_nil, or_false] at hp
    rcases hp with rfl | rfl | rfl
    · exact h1
    · exact .create
    · exact h2)
  refine ⟨_, h, ?_, ?_⟩ <;>
  · change (combiningSum [exA, exB]).val _ = _
    rw [combiningSum_val]
    simp [exA, exB, InDom]
    try norm_num

/-! ## C17 -/
section C17
variable [LinearOrder L]

/-- C17: the whole pipeline. The times are chunked by `TimeChunks` (strictly increasing times, any chunk sizes); every
chunk is aggregated and emitted; `CombinePerKey` uses any schedule; grouping yields values in any order. Then no step
fails and the reconstructed state has, for every statistic and variable, exactly the arrays that aggregating the whole
data at once gives - for kept time dimensions at their own labels, for reduced ones summed. Valid for NaN values too
(`V` arbitrary). Hypotheses: bins and weights are computed label by label along the times, and no array loses labels
(`hfull`). -/
theorem C17_pipeline_equals_direct [AddCommMonoid V] [Mul V] [One V] [IsNull V] (fill : V) (agg : Aggregator L V)
    (hli : agg.Local "init_time") (hll : agg.Local "lead_time")
    {is ts : List L} (hi : is.Pairwise (· < ·)) (ht : ts.Pairwise (· < ·)) {a b : Option Int} {tc : TimeChunks L L}
    (htc : TimeChunks.make is (.arr ts) a b = .ok tc) (hne : is ≠ [] ∧ ts ≠ []) {out}
    (ho : tc.iterWithOffsets = .ok out)
    (statistics : List (String × List (String × Option (StatVar L V)))) (hk : UniqueKeys statistics)
    (hsome : ∀ st ∈ statistics, ∀ vr ∈ st.2, vr.2 ≠ none)
    (hdim : ∀ st ∈ statistics, ∀ k s, (k, some s) ∈ st.2 →
      "init_time" ∈ s.arr.dims ∧ s.arr.coords "init_time" = is.toFinset ∧
      "lead_time" ∈ s.arr.dims ∧ s.arr.coords "lead_time" = ts.toFinset)
    (sws sw : Tree (DA L V)) (hw : agg.aggregateStatistics statistics = .ok (some (sws, sw)))
    (hfull : ∀ t, t = sws ∨ t = sw → ∀ s v x, t.get2 s v = some x → (∀ d ∈ x.dims, (x.coords d).Nonempty) ∧
      ("init_time" ∈ x.dims → x.coords "init_time" = is.toFinset) ∧
      ("lead_time" ∈ x.dims → x.coords "lead_time" = ts.toFinset)) :
    ∃ emitted, processChunks agg (pipelineChunks out statistics) = .ok emitted ∧
      ∀ combined concat, PipelineRun fill emitted combined concat →
        ∃ outs : List (AggKey × DA L V), concat = outs.map (fun kv => (kv.1, Except.ok kv.2)) ∧
          ∀ s v, Option.Rel DA.Same ((reconstructAggregationState outs).1.get? s v) (sws.get2 s v) ∧
            Option.Rel DA.Same ((reconstructAggregationState outs).2.get? s v) (sw.get2 s v) := by
  obtain ⟨ics, lcs, isz, lsz, f1, f2, p1, p2, n1, n2, heq⟩ := pipelineChunks_eq htc ho statistics
  rw [heq]
  have hne1 : ics ≠ [] := by rintro rfl; exact hne.1 f1.symm
  have hne2 : lcs ≠ [] := by rintro rfl; exact hne.2 f2.symm
  have hpop : ∀ t, t = sws ∨ t = sw → Populated (offsetChunks isz ics) (offsetChunks lsz lcs) t := by
    intro t htt s v x hx
    obtain ⟨q1, q2, q3⟩ := hfull t htt s v x hx
    refine ⟨q1, ?_, ?_⟩
    · intro hd i hi'
      rw [q2 hd, ← f1]
      have : i.2 ∈ (offsetChunks isz ics).map Prod.snd := List.mem_map.mpr ⟨i, hi', rfl⟩
      rw [offsetChunks_snd, List.mem_map] at this
      obtain ⟨c, hc, hci⟩ := this
      obtain ⟨l, hl⟩ := List.exists_mem_of_ne_nil _ (n1 c hc)
      refine ⟨l, Finset.mem_inter.mpr ⟨List.mem_toFinset.mpr (List.mem_flatten.mpr ⟨c, hc, hl⟩), ?_⟩⟩
      rw [← hci]; exact List.mem_toFinset.mpr hl
    · intro hd i hi'
      rw [q3 hd, ← f2]
      have : i.2 ∈ (offsetChunks lsz lcs).map Prod.snd := List.mem_map.mpr ⟨i, hi', rfl⟩
      rw [offsetChunks_snd, List.mem_map] at this
      obtain ⟨c, hc, hci⟩ := this
      obtain ⟨l, hl⟩ := List.exists_mem_of_ne_nil _ (n2 c hc)
      refine ⟨l, Finset.mem_inter.mpr ⟨List.mem_toFinset.mpr (List.mem_flatten.mpr ⟨c, hc, hl⟩), ?_⟩⟩
      rw [← hci]; exact List.mem_toFinset.mpr hl
  refine pipeline_correct fill ⟨by decide, hli.splits, hll.splits, hll.keepsCoords (by decide),
    hli.keepsCoords (by decide)⟩ statistics hk hsome _ _ (by simpa [offsetChunks] using hne1)
    (by simpa [offsetChunks] using hne2) (offsetChunks_nodup p1 _) (offsetChunks_nodup p2 _) ?_ ?_ ?_ sws sw hw
    ⟨hpop sws (Or.inl rfl), hpop sw (Or.inr rfl)⟩
  · rw [offsetChunks_snd]; exact orderedBlocks_of_sorted (f1 ▸ hi)
  · rw [offsetChunks_snd]; exact orderedBlocks_of_sorted (f2 ▸ ht)
  · intro st hst k s hs
    obtain ⟨d1, d2, d3, d4⟩ := hdim st hst k s hs
    rw [offsetChunks_snd, offsetChunks_snd, d2, d4]
    exact ⟨d1, f1 ▸ partition_of_sorted (f1 ▸ hi), d3, f2 ▸ partition_of_sorted (f2 ▸ ht)⟩

/-- C17, bins discovered per chunk (`ByExactCoord`), finite values: a bin missing from a chunk is filled with 0 when the
chunks are concatenated or summed, and the result is again the state of the whole. -/
theorem C17_pipeline_bins_varying [Semiring V] [IsNull V] (fill : V) (agg : Aggregator L V)
    (hli : agg.VaryingLocal "init_time") (hll : agg.VaryingLocal "lead_time")
    (statistics : List (String × List (String × Option (StatVar L V)))) (hk : UniqueKeys statistics)
    (hsome : ∀ st ∈ statistics, ∀ vr ∈ st.2, vr.2 ≠ none) (Is Js : List (ℕ × Finset L)) (hneI : Is ≠ []) (hneJ : Js ≠ [])
    (hI : (Is.map Prod.fst).Nodup) (hJ : (Js.map Prod.fst).Nodup)
    (oi : OrderedBlocks (Is.map Prod.snd)) (ol : OrderedBlocks (Js.map Prod.snd))
    (hdim : ∀ st ∈ statistics, ∀ k s, (k, some s) ∈ st.2 →
      "init_time" ∈ s.arr.dims ∧ Partition (Is.map Prod.snd) (s.arr.coords "init_time") ∧
      "lead_time" ∈ s.arr.dims ∧ Partition (Js.map Prod.snd) (s.arr.coords "lead_time"))
    (sws sw : Tree (DA L V)) (hw : agg.aggregateStatistics statistics = .ok (some (sws, sw)))
    (hpop : Populated Is Js sws ∧ Populated Is Js sw) :
    ∃ emitted, processChunks agg (gridChunks Is Js statistics) = .ok emitted ∧
      ∀ combined concat, PipelineRun fill emitted combined concat →
        ∃ outs : List (AggKey × DA L V), concat = outs.map (fun kv => (kv.1, Except.ok kv.2)) ∧
          ∀ s v, Option.Rel DA.Same ((reconstructAggregationState outs).1.get? s v) (sws.get2 s v) ∧
            Option.Rel DA.Same ((reconstructAggregationState outs).2.get? s v) (sw.get2 s v) :=
  pipeline_correct fill ⟨by decide, hli.splits, hll.splits,
    hll.keepsCoords (by decide) (fun b hb => (hli.2 b hb).2.2),
    hli.keepsCoords (by decide) (fun b hb => (hll.2 b hb).2.2)⟩ statistics hk hsome Is Js hneI hneJ hI hJ oi ol hdim
    sws sw hw hpop

/-- C17: a run exists for everything that can be emitted, so the theorem above is never vacuous. -/
theorem C17_run_exists [AddCommMonoid V] (fill : V) (emitted : List (AggKey × DA L V)) :
    ∃ combined concat, PipelineRun fill emitted combined concat := by
  have hne : ∀ xs : List (DA L V), xs ≠ [] → ∃ v, CombineRun xs (some v) := by
    intro xs hxs
    induction xs using List.reverseRecOn with
    | nil => exact absurd rfl hxs
    | append_singleton xs x ih =>
      by_cases h : xs = []
      · subst h; exact ⟨x, CombineRun.add x .create⟩
      · obtain ⟨v, hv⟩ := ih h
        exact ⟨_, CombineRun.add x hv⟩
  have hk : ∀ k : AggKey, ∃ v, k ∈ emitted.map Prod.fst →
      CombineRun ((emitted.filter (fun kv => kv.1 = k)).map Prod.snd) (some v) := by
    intro k
    by_cases h : k ∈ emitted.map Prod.fst
    · obtain ⟨kv, hkv, rfl⟩ := List.mem_map.mp h
      obtain ⟨v, hv⟩ := hne ((emitted.filter (fun kv' => kv'.1 = kv.1)).map Prod.snd)
        (List.ne_nil_of_mem (List.mem_map.mpr ⟨kv, by simp [hkv], rfl⟩))
      exact ⟨v, fun _ => hv⟩
    · exact ⟨DA.scalar fill, fun h' => absurd h' h⟩
  choose f hf using hk
  have hid : ∀ {β : Type _} {g : AggKey → β} (xs : List AggKey), xs.Nodup →
      (xs.map (Prod.fst ∘ fun k => (k, g k))).Nodup := by
    intro β g xs hxs
    rw [show (Prod.fst ∘ fun k => (k, g k)) = id from rfl, List.map_id]
    exact hxs
  refine ⟨((emitted.map Prod.fst).dedup).map (fun k => (k, f k)),
    ((((emitted.map Prod.fst).dedup).map (fun k => (k, f k))).map (fun kv => kv.1.dropOffsets)).dedup.map (fun k => (k,
      concatArrays fill (((((emitted.map Prod.fst).dedup).map (fun k => (k, f k))).filter
        (fun kv => kv.1.dropOffsets = k)).map Prod.snd))), ?_, ?_, ?_, ?_, ?_, ?_⟩
  · rw [List.map_map]
    rw [show (Prod.fst ∘ fun k => (k, f k)) = id from rfl, List.map_id]
    exact List.nodup_dedup _
  · intro k
    rw [List.map_map]
    simp
  · intro k v h
    rw [List.mem_map] at h
    obtain ⟨k', hk', he⟩ := h
    simp only [Prod.mk.injEq] at he
    obtain ⟨rfl, rfl⟩ := he
    exact ⟨_, _, List.Perm.refl _, hf k' (by simpa using hk'), rfl⟩
  · rw [List.map_map]
    exact hid _ (List.nodup_dedup _)
  · intro k
    rw [List.map_map]
    simp
  · intro k r h
    rw [List.mem_map] at h
    obtain ⟨k', hk', he⟩ := h
    simp only [Prod.mk.injEq] at he
    obtain ⟨rfl, rfl⟩ := he
    exact ⟨_, List.Perm.refl _, rfl⟩

/-- C17, finding: when every array of a variable has size zero, the pipeline returns the zero-dimensional NaN array
`xr.DataArray()`, not the (empty) array with its dimensions that direct aggregation gives. -/
theorem C17_empty_result_becomes_scalar [Zero V] (fill : V) (a : DA L V) (d : Dim) (hd : d ∈ a.dims)
    (he : a.coords d = ∅) : concatArrays fill [a] = .ok (DA.scalar fill) ∧ ¬ (DA.scalar fill).Same a := by
  refine ⟨?_, ?_⟩
  · have : hasCells (alignExceptTime (outerCoords [a]) a) = false := by
      unfold hasCells
      rw [decide_eq_false_iff_not]
      intro h
      have := h d hd
      simp [alignExceptTime, outerCoords, hd, he] at this
    simp [concatArrays, this]
  · intro h
    have := h.dims
    rw [← this] at hd
    simp [DA.scalar] at hd

/-- C17, finding: times whose chunks interleave (unsorted init times) make `combine_by_coords` fail, although direct
aggregation of the same data works. -/
theorem C17_interleaved_times_fail :
    concatArrays (L := ℕ) (0 : ℚ)
      [{ dims := {"init_time"}, coords := fun _ => {0, 2}, val := fun e => (e "init_time" : ℚ) },
        { dims := {"init_time"}, coords := fun _ => {1}, val := fun e => (e "init_time" : ℚ) }]
      = .error .valueError := by
  rfl

end C17

/-! ### Concrete data meeting the hypotheses of C17 -/

def exPStat : DA ℕ ℚ :=
  { dims := {"init_time", "lead_time", "x"},
    coords := fun d => if d = "init_time" then {10, 20, 30} else if d = "lead_time" then {1, 2} else {0, 1},
    val := fun e => e "init_time" + 100 * e "lead_time" + e "x" }

/-- Reduce over init times and x, keep lead times. -/
def exPAgg : Aggregator ℕ ℚ := { reduceDims := ["init_time", "x"] }

def exPStatistics : List (String × List (String × Option (StatVar ℕ ℚ))) := [("AbsoluteError", [("t2m", some ⟨exPStat, none⟩)])]

def exPResult (f : DA ℕ ℚ) : DA ℕ ℚ := DA.dot f [] ["init_time", "x"]

theorem exP_whole : exPAgg.aggregateStatistics exPStatistics
    = .ok (some (.dict (.cons "AbsoluteError" (.dict (.cons "t2m" (.leaf (exPResult exPStat)) .nil)) .nil),
        .dict (.cons "AbsoluteError" (.dict (.cons "t2m" (.leaf (exPResult (exPStat.map (fun _ => 1)))) .nil)) .nil))) := by
  have h1 : ∀ f : DA ℕ ℚ, f.dims = {"init_time", "lead_time", "x"} →
      exPAgg.aggregationFn f = .ok (some (exPResult f)) := by
    intro f hf
    obtain ⟨-, -, -, h⟩ := Aggregator.aggregationFn_eq exPAgg f
    rw [h (by simp [exPAgg, hf]) (by simp [exPAgg]) (by intro b hb; simp [exPAgg] at hb)]
    simp [exPAgg, exPResult]
  simp only [Aggregator.aggregateStatistics, exPStatistics, Aggregator.perStat, Aggregator.aggregateStatVars,
    Aggregator.perVar, Aggregator.aggregateStatVar_eq,
    show exPAgg.applyMask ⟨exPStat, none⟩ = (exPStat, exPStat.map (fun _ => 1)) from rfl,
    h1 exPStat rfl, h1 (exPStat.map (fun _ => 1)) rfl, bind, Except.bind, pure, Except.pure]
  rfl

example : exPAgg.Local "init_time" ∧ exPAgg.Local "lead_time" := by
  constructor <;> constructor <;> intro w hw <;> simp [exPAgg] at hw

example : ∃ tc out, TimeChunks.make [10, 20, 30] (.arr [1, 2]) (some 2) (some 1) = .ok tc ∧
    tc.iterWithOffsets = .ok out ∧ out.length = 4 := ⟨_, _, rfl, rfl, rfl⟩

example : ∀ st ∈ exPStatistics, ∀ k s, (k, some s) ∈ st.2 →
      "init_time" ∈ s.arr.dims ∧ s.arr.coords "init_time" = [10, 20, 30].toFinset ∧
      "lead_time" ∈ s.arr.dims ∧ s.arr.coords "lead_time" = [1, 2].toFinset := by
  intro st hst k s hs
  simp only [exPStatistics, List.mem_singleton] at hst
  subst hst
  simp at hs
  obtain ⟨rfl, rfl⟩ := hs
  simp [exPStat]

example (f : DA ℕ ℚ) (hf : f.dims = exPStat.dims) (hc : f.coords = exPStat.coords) :
    "lead_time" ∈ (exPResult f).dims ∧ "init_time" ∉ (exPResult f).dims ∧
    (exPResult f).coords "lead_time" = [1, 2].toFinset := by
  unfold exPResult DA.dot
  rw [sumDims_eq]
  simp [hf, hc, exPStat]

end WBX
