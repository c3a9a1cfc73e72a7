import Verif.Lemmas.VaryingAgg
import Mathlib.Algebra.BigOperators.Group.Finset.Basic
import Mathlib.Algebra.BigOperators.Group.List.Basic

set_option linter.unusedSectionVars false

namespace WBX
open DA
variable {L V : Type} [DecidableEq L]

open Classical in
theorem sumVal_eq_cells [AddCommMonoid V] (ds : List Dim) (hn : ds.Nodup) (C : Dim → Finset L) (f : (Dim → L) → V)
    (e : Dim → L) (cs : Finset (Dim → L)) (h : ReducedCells ds C e cs) : sumVal ds C f e = ∑ e' ∈ cs, f e' := by
  induction ds generalizing f cs with
  | nil =>
    have : cs = {e} := by
      ext e'
      rw [h e']
      simp [funext_iff]
    simp [sumVal, this]
  | cons d ds ih =>
    rw [List.nodup_cons] at hn
    -- cells of the tail: those of `cs` with the label of `d` reset to that of `e`
    let cs' : Finset (Dim → L) := if (C d).Nonempty then cs.image (fun x => setLabel x d (e d)) else ∅
    by_cases hC : (C d).Nonempty
    · have hcs' : ReducedCells ds C e cs' := by
        intro e'
        simp only [cs', if_pos hC, Finset.mem_image]
        constructor
        · rintro ⟨x, hx, rfl⟩
          rw [h x] at hx
          refine ⟨fun y hy => ?_, fun y hy => ?_⟩
          · have : y ≠ d := fun hh => hn.1 (hh ▸ hy)
            simp only [setLabel, this, if_false]
            exact hx.1 y (by simp [hy])
          · simp only [setLabel]
            split
            · next hh => rw [hh]
            · next hh => exact hx.2 y (by simp [hh, hy])
        · rintro ⟨h1, h2⟩
          obtain ⟨l, hl⟩ := hC
          refine ⟨setLabel e' d l, (h _).mpr ⟨?_, ?_⟩, ?_⟩
          · intro y hy
            simp only [setLabel]
            split
            · next hh => rw [hh]; exact hl
            · next hh => exact h1 y ((List.mem_cons.mp hy).resolve_left hh)
          · intro y hy
            simp only [List.mem_cons, not_or] at hy
            simp only [setLabel, hy.1, if_false]
            exact h2 y hy.2
          · funext y
            simp only [setLabel]
            split
            · next hh => rw [hh]; exact (h2 d hn.1).symm
            · rfl
      rw [sumVal, ih hn.2 _ cs' hcs']
      rw [Finset.sum_sigma']
      refine Finset.sum_bij' (fun p _ => setLabel p.1 d p.2) (fun x _ => ⟨setLabel x d (e d), x d⟩) ?_ ?_ ?_ ?_ ?_
      · rintro ⟨x, l⟩ hx
        simp only [Finset.mem_sigma] at hx
        obtain ⟨hx1, hx2⟩ := hx
        rw [hcs' x] at hx1
        rw [h]
        refine ⟨fun y hy => ?_, fun y hy => ?_⟩
        · simp only [setLabel]
          split
          · next hh => rw [hh]; exact hx2
          · next hh => exact hx1.1 y ((List.mem_cons.mp hy).resolve_left hh)
        · simp only [List.mem_cons, not_or] at hy
          simp only [setLabel, hy.1, if_false]
          exact hx1.2 y hy.2
      · intro x hx
        simp only [Finset.mem_sigma]
        refine ⟨?_, ((h x).mp hx).1 d (by simp)⟩
        simp only [cs', if_pos hC, Finset.mem_image]
        exact ⟨x, hx, rfl⟩
      · rintro ⟨x, l⟩ hx
        simp only [Finset.mem_sigma] at hx
        obtain ⟨hx1, hx2⟩ := hx
        rw [hcs' x] at hx1
        have h1 : setLabel (setLabel x d l) d (e d) = x := by
          funext y
          simp only [setLabel]
          split
          · next hh => rw [hh]; exact (hx1.2 d hn.1).symm
          · rfl
        simp only [h1]
        simp [setLabel]
      · intro x hx
        funext y
        simp only [setLabel]
        split
        · next hh => rw [hh]
        · rfl
      · rintro ⟨x, l⟩ _
        rfl
    · rw [Finset.not_nonempty_iff_eq_empty] at hC
      have hcs : cs = ∅ := by
        rw [Finset.eq_empty_iff_forall_notMem]
        intro x hx
        have := ((h x).mp hx).1 d (by simp)
        rw [hC] at this
        simp at this
      rw [hcs, Finset.sum_empty]
      simp only [sumVal, hC, Finset.sum_empty]
      exact sumVal_zero ds C e

open Classical in
/-- The reduced cells form a finite set. -/
theorem exists_reducedCells (ds : List Dim) (C : Dim → Finset L) (e : Dim → L) : ∃ cs, ReducedCells ds C e cs := by
  induction ds with
  | nil => exact ⟨{e}, fun e' => by simp [funext_iff]⟩
  | cons d ds ih =>
    obtain ⟨cs, h⟩ := ih
    by_cases hd : d ∈ ds
    · exact ⟨cs, fun e' => by
        rw [h e']
        simp only [List.mem_cons, forall_eq_or_imp, not_or]
        constructor
        · rintro ⟨h1, h2⟩; exact ⟨⟨h1 d hd, h1⟩, fun y hy => h2 y hy.2⟩
        · rintro ⟨h1, h2⟩
          exact ⟨h1.2, fun y hy => h2 y ⟨fun hh => hy (hh ▸ hd), hy⟩⟩⟩
    · refine ⟨(cs ×ˢ C d).image (fun p => setLabel p.1 d p.2), fun e' => ?_⟩
      simp only [Finset.mem_image, Finset.mem_product, Prod.exists]
      constructor
      · rintro ⟨x, l, ⟨hx, hl⟩, rfl⟩
        rw [h x] at hx
        refine ⟨fun y hy => ?_, fun y hy => ?_⟩
        · simp only [setLabel]
          split
          · next hh => rw [hh]; exact hl
          · next hh => exact hx.1 y ((List.mem_cons.mp hy).resolve_left hh)
        · simp only [List.mem_cons, not_or] at hy
          simp only [setLabel, hy.1, if_false]
          exact hx.2 y hy.2
      · rintro ⟨h1, h2⟩
        refine ⟨setLabel e' d (e d), e' d, ⟨(h _).mpr ⟨fun y hy => ?_, fun y hy => ?_⟩, h1 d (by simp)⟩, ?_⟩
        · have : y ≠ d := fun hh => hd (hh ▸ hy)
          simp only [setLabel, this, if_false]
          exact h1 y (by simp [hy])
        · simp only [setLabel]
          split
          · next hh => rw [hh]
          · next hh => exact h2 y (by simp [hh, hy])
        · funext y
          simp only [setLabel]
          split
          · next hh => rw [hh]
          · rfl

theorem foldl_coords_eq (f : V → V → V) (ms : List (DA L V)) (a : DA L V) {d : Dim} (hd : d ∈ a.dims)
    (h : ∀ m ∈ ms, CoversLabels m a) : (ms.foldl (zipWith f) a).coords d = a.coords d := by
  have key : ∀ (ms : List (DA L V)) (x : DA L V), d ∈ x.dims → x.coords d = a.coords d →
      (∀ m ∈ ms, CoversLabels m a) → (ms.foldl (zipWith f) x).coords d = a.coords d := by
    intro ms
    induction ms with
    | nil => intro x _ hx _; exact hx
    | cons m ms ih =>
      intro x hxd hx hm
      rw [List.foldl_cons]
      apply ih
      · simp [zipWith, hxd]
      · simp only [zipWith, joinCoords, hxd, if_true]
        split
        · next hmd =>
          rw [hx]
          exact Finset.inter_eq_left.mpr (hm m (by simp) d hmd hd)
        · exact hx
      · intro m' hm'; exact hm m' (by simp [hm'])
  exact key ms a hd rfl h

theorem foldl_val (f : V → V → V) (ms : List (DA L V)) (a : DA L V) (e : Dim → L) :
    (ms.foldl (zipWith f) a).val e = (ms.map (fun m => m.val e)).foldl f (a.val e) := by
  induction ms generalizing a with
  | nil => rfl
  | cons m ms ih => rw [List.foldl_cons, ih]; rfl

/-- The value of an aggregated array at a result cell: a sum over the reduced cells. -/
theorem Aggregator.aggregationFn_val [AddCommMonoid V] [Mul V] {agg : Aggregator L V} {stat r : DA L V}
    (h : agg.aggregationFn stat = .ok (some r))
    (hcov : ∀ m ∈ agg.weighBy.map (fun w => w stat) ++ agg.binBy.map (fun b => b.createBinMask stat),
      CoversLabels m stat)
    (e : Dim → L) (cs : Finset (Dim → L)) (hcs : ReducedCells agg.reduceDims stat.coords e cs) :
    r.val e = ∑ e' ∈ cs, ((agg.weighBy.map (fun w => w stat) ++ agg.binBy.map (fun b => b.createBinMask stat)).map
      (fun m => m.val e')).foldl (· * ·) (stat.val e') := by
  obtain ⟨h1, h2, h3, rfl⟩ := Aggregator.aggregationFn_some h
  unfold DA.dot
  rw [sumDims_eq]
  simp only
  rw [sumVal_eq_cells _ (List.nodup_dedup _) _ _ e cs]
  · apply Finset.sum_congr rfl
    intro e' _
    rw [foldl_val]
  · intro e'
    rw [hcs e']
    simp only [List.mem_dedup]
    constructor
    · rintro ⟨a, b⟩
      exact ⟨fun d hd => by rw [foldl_coords_eq _ _ _ (h1 d hd) hcov]; exact a d hd, b⟩
    · rintro ⟨a, b⟩
      exact ⟨fun d hd => by have := a d hd; rwa [foldl_coords_eq _ _ _ (h1 d hd) hcov] at this, b⟩

end WBX
