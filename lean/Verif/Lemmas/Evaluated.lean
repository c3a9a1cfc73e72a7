import Verif.Spec.Evaluated
import Verif.Props.Mean
import Verif.Model.Deterministic
import Verif.Props.MetricsBase

set_option linter.unusedSectionVars false

namespace WBX
open DA Aggregator
variable {L K : Type} [DecidableEq L] [Field K] [LinearOrder K] [IsStrictOrderedRing K]

theorem FV.eq_fin_num {x : FV K} (h : x.isFin = true) : x = FV.fin x.num := by
  cases x <;> simp [FV.isFin, FV.num] at h ⊢

theorem foldl_factors (l : List (DA L (FV K))) (e : Dim → L) (h : ∀ m ∈ l, (m.val e).isFin = true) (x : K) :
    (l.map (fun m => m.val e)).foldl (· * ·) (FV.fin x) = FV.fin (x * (l.map (fun m => (m.val e).num)).prod) := by
  rw [show l.map (fun m => m.val e) = (l.map (fun m => (m.val e).num)).map FV.fin from ?_, FV.foldl_fin]
  rw [List.map_map]
  exact List.map_congr_left (fun m hm => FV.eq_fin_num (h m hm))

theorem evaluated_sums {agg : Aggregator L (FV K)} {s : StatVar L (FV K)} {e : Dim → L} {cs : Finset (Dim → L)}
    (E : Evaluated agg s e cs) {q : DA L (FV K) × DA L (FV K)} (h : agg.aggregateStatVar s = .ok (some q)) :
    q.1.val e = FV.fin (∑ e' ∈ cs, (s.arr.val e').num * cellWeight agg s e') ∧
    q.2.val e = FV.fin (∑ e' ∈ cs, cellWeight agg s e') := by
  classical
  obtain ⟨h1, h2⟩ := aggregateStatVar_some h
  obtain ⟨all, hall⟩ := exists_reducedCells agg.reduceDims s.arr.coords e
  have hcs : cs = all.filter (fun e' => counted agg s e' = true) := by
    ext e'
    rw [E.cells, Finset.mem_filter, hall]
  -- the masked arrays
  have hA : ∀ e' ∈ all, (agg.applyMask s).1.val e' = FV.fin (if counted agg s e' = true then (s.arr.val e').num else 0) := by
    intro e' he'
    have hfin : counted agg s e' = true → (s.arr.val e').isFin = true := fun hc =>
      E.finite e' (by rw [hcs, Finset.mem_filter]; exact ⟨he', hc⟩)
    rcases hm : agg.masked with _ | _ <;> rcases hk : s.mask with _ | m <;> rcases hs : agg.skipna with _ | _ <;>
      simp only [counted, hm, hk, hs, applyMask, where_, DA.zipWith, DA.map, IsNull.isnull, if_true, if_false,
        Bool.false_eq_true, Bool.not_false, Bool.not_true, Bool.true_and, Bool.and_true, Bool.or_true, Bool.true_or,
        Bool.false_or] at hfin ⊢
    all_goals first
      | exact FV.eq_fin_num (hfin trivial)
      | (by_cases hv : m.val e' = true
         · simp only [hv, Bool.true_and, if_true] at hfin ⊢
           by_cases hn : (s.arr.val e').isnan = false
           · simp only [hn, Bool.not_false, if_true]
             exact FV.eq_fin_num (hfin (by simp [hn]))
           · simp [hn, FV.zero_def]
         · simp [hv, FV.zero_def])
      | (by_cases hv : m.val e' = true
         · simp only [hv, if_true] at hfin ⊢
           exact FV.eq_fin_num (hfin trivial)
         · simp [hv, FV.zero_def])
      | (by_cases hn : (s.arr.val e').isnan = false
         · simp only [hn, Bool.not_false, if_true]
           exact FV.eq_fin_num (hfin (by simp [hn]))
         · simp [hn, FV.zero_def])
  have haux : ∀ b : Bool, (if b = true then (1 : FV K) else 0) = FV.fin (if b = true then 1 else 0) := by
    intro b; cases b <;> rfl
  have hM : ∀ e' ∈ all, (agg.applyMask s).2.val e' = FV.fin (if counted agg s e' = true then 1 else 0) := by
    intro e' he'
    rcases hm : agg.masked with _ | _ <;> rcases hk : s.mask with _ | m <;> rcases hs : agg.skipna with _ | _ <;>
      simp only [counted, hm, hk, hs, applyMask, where_, DA.zipWith, DA.map, IsNull.isnull, if_true, if_false,
        Bool.false_eq_true, Bool.not_false, Bool.not_true, Bool.true_and, Bool.and_true, Bool.or_true, Bool.true_or,
        Bool.false_or, boolToV, broadcastLike] <;> first | rfl | exact haux _
  have hmd : ∀ m, s.mask = some m → s.arr.dims ∪ m.dims = s.arr.dims ∧ m.dims ∪ s.arr.dims = s.arr.dims := by
    intro m hm
    have := (E.maskOk m hm).1
    exact ⟨Finset.union_eq_left.mpr this, Finset.union_eq_right.mpr this⟩
  have d1 : (agg.applyMask s).1.dims = s.arr.dims := by
    rcases hm : agg.masked with _ | _ <;> rcases hk : s.mask with _ | m <;> rcases hs : agg.skipna with _ | _ <;>
      simp [applyMask, hm, hk, hs, where_, DA.zipWith, DA.map]
    all_goals first | exact (E.maskOk m hk).1 | exact (hmd m hk).2.le
  have d2 : (agg.applyMask s).2.dims = s.arr.dims := by
    rcases hm : agg.masked with _ | _ <;> rcases hk : s.mask with _ | m <;> rcases hs : agg.skipna with _ | _ <;>
      simp [applyMask, hm, hk, hs, where_, DA.zipWith, DA.map, broadcastLike]
    all_goals have := (E.maskOk m hk).1; ext x; simp; have hx := @this x; tauto
  have c1 : (agg.applyMask s).1.coords = s.arr.coords := by
    funext d
    rcases hm : agg.masked with _ | _ <;> rcases hk : s.mask with _ | m <;> rcases hs : agg.skipna with _ | _ <;>
      simp [applyMask, hm, hk, hs, where_, DA.zipWith, DA.map, joinCoords]
    all_goals rw [(E.maskOk m hk).2]; simp
  have c2 : (agg.applyMask s).2.coords = s.arr.coords := by
    funext d
    rcases hm : agg.masked with _ | _ <;> rcases hk : s.mask with _ | m <;> rcases hs : agg.skipna with _ | _ <;>
      simp [applyMask, hm, hk, hs, where_, DA.zipWith, DA.map, joinCoords, broadcastLike]
    all_goals rw [(E.maskOk m hk).2]; simp
  have f1 := E.coordOnly.allFactors_eq d1 c1
  have f2 := E.coordOnly.allFactors_eq d2 c2
  constructor
  · rw [aggregationFn_val h1 (fun m hm => by
      have : m ∈ agg.allFactors (agg.applyMask s).1 := hm
      rw [f1] at this
      intro d hd hda
      rw [c1]
      exact E.covers m this d hd (d1 ▸ hda)) e all (by rw [c1]; exact hall)]
    rw [hcs, Finset.sum_filter]
    apply FV.sum_fin
    intro e' he'
    change ((agg.allFactors (agg.applyMask s).1).map (fun m => m.val e')).foldl (· * ·) _ = _
    rw [f1, hA e' he', foldl_factors _ _ (fun m hm => E.weightsFinite m hm e')]
    split
    · rfl
    · simp
  · rw [aggregationFn_val h2 (fun m hm => by
      have : m ∈ agg.allFactors (agg.applyMask s).2 := hm
      rw [f2] at this
      intro d hd hda
      rw [c2]
      exact E.covers m this d hd (d2 ▸ hda)) e all (by rw [c2]; exact hall)]
    rw [hcs, Finset.sum_filter]
    apply FV.sum_fin
    intro e' he'
    change ((agg.allFactors (agg.applyMask s).2).map (fun m => m.val e')).foldl (· * ·) _ = _
    rw [f2, hM e' he', foldl_factors _ _ (fun m hm => E.weightsFinite m hm e')]
    split
    · rw [one_mul]; rfl
    · simp

/-- The mean at an evaluated cell. -/
theorem evaluated_mean {agg : Aggregator L (FV K)} {s : StatVar L (FV K)} {e : Dim → L} {cs : Finset (Dim → L)}
    (E : Evaluated agg s e cs) {q : DA L (FV K) × DA L (FV K)} (h : agg.aggregateStatVar s = .ok (some q))
    (hW : ∑ e' ∈ cs, cellWeight agg s e' ≠ 0) :
    (DA.zipWith (· / ·) q.1 q.2).val e = FV.fin (wmean agg s cs (fun e' => (s.arr.val e').num)) := by
  obtain ⟨h1, h2⟩ := evaluated_sums E h
  simp only [DA.zipWith]
  rw [h1, h2, FV.fin_div_fin_of_ne _ hW]
  rfl

/-- A statistic on the same labels, with the same mask and NaN pattern, is evaluated on the same cells and weights. -/
theorem Evaluated.transfer {agg : Aggregator L (FV K)} {s s' : StatVar L (FV K)} {e : Dim → L} {cs : Finset (Dim → L)}
    (E : Evaluated agg s e cs) (hd : s'.arr.dims = s.arr.dims) (hc : s'.arr.coords = s.arr.coords)
    (hm : s'.mask = s.mask) (hn : agg.skipna = true → ∀ e', (s'.arr.val e').isnan = (s.arr.val e').isnan)
    (hf : ∀ e' ∈ cs, (s.arr.val e').isFin = true → (s'.arr.val e').isFin = true) :
    Evaluated agg s' e cs ∧ cellWeight agg s' = cellWeight agg s := by
  have hfac := E.coordOnly.allFactors_eq hd hc
  have hcount : ∀ e', counted agg s' e' = counted agg s e' := by
    intro e'
    unfold counted
    rw [hm]
    rcases hs : agg.skipna with _ | _
    · simp
    · rw [hn hs]
  refine ⟨⟨E.coordOnly, ?_, ?_, ?_, ?_, fun e' he' => hf e' he' (E.finite e' he')⟩, ?_⟩
  · rw [hfac]
    intro m hm d hd' hda
    rw [hc]
    exact E.covers m hm d hd' (hd ▸ hda)
  · rw [hm, hd, hc]; exact E.maskOk
  · rw [hfac]; exact E.weightsFinite
  · intro e'
    rw [hcount, hc]
    exact E.cells e'
  · funext e'
    unfold cellWeight
    rw [hfac]

end WBX
