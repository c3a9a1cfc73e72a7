import Verif.Lemmas.PipelineGrid
import Verif.Lemmas.TimeChunks
import Mathlib.Data.List.Sort

set_option linter.unusedSectionVars false

namespace WBX
open DA
variable {L V : Type} [DecidableEq L]

/-- Chunks with the offset at which each starts. -/
def offsetChunks (size : ℕ) (cs : List (List L)) : List (ℕ × Finset L) :=
  cs.zipIdx.map (fun p => (size * p.2, p.1.toFinset))

theorem offsetChunks_snd (size : ℕ) (cs : List (List L)) :
    (offsetChunks size cs).map Prod.snd = cs.map List.toFinset := by
  unfold offsetChunks
  rw [List.map_map]
  have := List.zipIdx_map_fst 0 cs
  conv_rhs => rw [← this]
  rw [List.map_map]
  rfl

theorem offsetChunks_nodup {size : ℕ} (hs : 0 < size) (cs : List (List L)) :
    ((offsetChunks size cs).map Prod.fst).Nodup := by
  unfold offsetChunks
  rw [List.map_map]
  have : (Prod.fst ∘ fun p : List L × ℕ => (size * p.2, p.1.toFinset)) = (fun k => size * k) ∘ Prod.snd := rfl
  rw [this, ← List.map_map, List.zipIdx_map_snd]
  exact (List.nodup_range').map (fun a b h => Nat.eq_of_mul_eq_mul_left hs h)

theorem orderedBlocks_of_sorted [LinearOrder L] {cs : List (List L)} (h : cs.flatten.Pairwise (· < ·)) :
    OrderedBlocks (cs.map List.toFinset) := by
  unfold OrderedBlocks
  rw [List.pairwise_map]
  rw [List.pairwise_flatten] at h
  refine h.2.imp ?_
  intro a b hab x hx y hy
  exact hab x (List.mem_toFinset.mp hx) y (List.mem_toFinset.mp hy)

theorem partition_of_sorted [LinearOrder L] {cs : List (List L)} (h : cs.flatten.Pairwise (· < ·)) :
    Partition (cs.map List.toFinset) cs.flatten.toFinset := by
  refine ⟨(orderedBlocks_of_sorted h).imp ?_, ?_⟩
  · intro S T hST l h1 h2
    exact lt_irrefl _ (hST l h1 l h2)
  · intro l hl
    rw [List.mem_toFinset, List.mem_flatten] at hl
    obtain ⟨c, hc, hl⟩ := hl
    exact ⟨c.toFinset, List.mem_map.mpr ⟨c, hc, rfl⟩, List.mem_toFinset.mpr hl⟩

/-- The labels of a lead-time chunk. -/
def leadLabels : LeadChunk L → Finset L
  | .arr ts => ts.toFinset
  | .slice _ _ => ∅

/-- The elements fed to the pipeline by `beam.Create(times.iter_with_chunk_offsets())` after loading. -/
def pipelineChunks (out : List (TimeChunks.Offsets × (List L × LeadChunk L)))
    (statistics : List (String × List (String × Option (StatVar L V)))) :
    List ((ℕ × ℕ) × List (String × List (String × Option (StatVar L V)))) :=
  out.map (fun p => ((p.1.initTime, p.1.leadTime),
    chunkOf "lead_time" (leadLabels p.2.2) (chunkOf "init_time" p.2.1.toFinset statistics)))

theorem zipIdx_getElem?_map {α β : Type} (cs : List α) (f : α × ℕ → β) (i : ℕ) :
    (cs.zipIdx.map f)[i]? = cs[i]?.map (fun c => f (c, i)) := by
  rw [List.getElem?_map, List.getElem?_zipIdx]
  cases cs[i]? <;> simp

theorem pipelineChunks_eq {is ts : List L} {a b : Option Int} {tc : TimeChunks L L}
    (h : TimeChunks.make is (.arr ts) a b = .ok tc) {out} (ho : tc.iterWithOffsets = .ok out)
    (statistics : List (String × List (String × Option (StatVar L V)))) :
    ∃ (ics lcs : List (List L)) (isz lsz : ℕ), ics.flatten = is ∧ lcs.flatten = ts ∧ 0 < isz ∧ 0 < lsz ∧
      (∀ c ∈ ics, c ≠ []) ∧ (∀ c ∈ lcs, c ≠ []) ∧
      pipelineChunks out statistics = gridChunks (offsetChunks isz ics) (offsetChunks lsz lcs) statistics := by
  obtain ⟨-, -, his, hls, hi, lcs, hl, hlc⟩ := TimeChunks.make_arr_ok h
  have hout : tc.iterWithOffsets = .ok (tc.iter.zipIdx.map (fun p =>
      (⟨tc.initSize * (p.2 / tc.leadChunks.length),
        TimeChunks.effectiveSize b ts.length * (p.2 % tc.leadChunks.length)⟩, p.1))) := by
    unfold TimeChunks.iterWithOffsets
    apply TimeChunks.mapM_ok_of_forall
    intro x _
    simp [TimeChunks.offsetsAt, hls, bind, Except.bind, pure, Except.pure]
  rw [hout] at ho
  injection ho with ho
  subst ho
  have hlen : tc.leadChunks.length = lcs.length := by rw [hlc]; simp
  refine ⟨tc.initChunks, lcs, tc.initSize, TimeChunks.effectiveSize b ts.length, TimeChunks.split_flatten hi,
    TimeChunks.split_flatten hl, by rw [his]; exact (TimeChunks.split_ok hi).1, (TimeChunks.split_ok hl).1, ?_, ?_, ?_⟩
  · intro c hc
    obtain ⟨j, hj⟩ := List.mem_iff_getElem?.mp hc
    exact (TimeChunks.split_getElem? hi hj).2.2.1
  · intro c hc
    obtain ⟨j, hj⟩ := List.mem_iff_getElem?.mp hc
    exact (TimeChunks.split_getElem? hl hj).2.2.1
  · unfold pipelineChunks gridChunks
    rw [List.map_map]
    apply List.ext_getElem?
    intro i
    rw [zipIdx_getElem?_map, List.getElem?_map]
    have hprod : ((offsetChunks tc.initSize tc.initChunks) ×ˢ
        (offsetChunks (TimeChunks.effectiveSize b ts.length) lcs))[i]?
        = ((offsetChunks tc.initSize tc.initChunks)[i / lcs.length]?).bind (fun x =>
          ((offsetChunks (TimeChunks.effectiveSize b ts.length) lcs)[i % lcs.length]?).map (fun y => (x, y))) := by
      have := TimeChunks.product_getElem? (offsetChunks tc.initSize tc.initChunks)
        (offsetChunks (TimeChunks.effectiveSize b ts.length) lcs) i
      have hl2 : (offsetChunks (TimeChunks.effectiveSize b ts.length) lcs).length = lcs.length := by simp [offsetChunks]
      rw [hl2] at this
      exact this
    rw [hprod]
    unfold offsetChunks
    rw [zipIdx_getElem?_map, zipIdx_getElem?_map, TimeChunks.iter, TimeChunks.product_getElem?, hlc,
      List.length_map, List.getElem?_map]
    cases tc.initChunks[i / lcs.length]? with
    | none => rfl
    | some c =>
      cases lcs[i % lcs.length]? with
      | none => rfl
      | some l => rfl

end WBX
