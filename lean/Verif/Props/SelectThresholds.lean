import Verif.Props.SelectMetrics
import Verif.Props.RolesMore
import Verif.Lemmas.ExampleStatistic

/-!
# C100: several thresholds at once
-/

set_option linter.unusedSectionVars false

namespace WBX
open DA Aggregator

section thresholds
variable {L K : Type} [DecidableEq L] [Field K] [LinearOrder K] [IsStrictOrderedRing K] {d : Dim} {label : FV K → L} {ts ts' : List (FV K)}

/-- The dimension `d` is new: neither the array nor its mask has it. -/
def NewDim {V : Type} (d : Dim) (x : StatVar L V) : Prop := d ∉ x.arr.dims ∧ ∀ m, x.mask = some m → d ∉ m.dims

theorem restrict_same_of_not_mem {V : Type} {a : DA L V} (S : Finset L) (h : d ∉ a.dims) : a.Same (a.restrict d S) := by
  refine ⟨rfl, fun k hk => ?_, fun _ _ => rfl⟩
  simp only [DA.restrict]
  rw [if_neg (by rintro rfl; exact h hk)]

theorem binarize_mask (th : DA L (FV K)) (x : StatVar L (FV K)) : (binarize th x).mask = x.mask := by
  unfold binarize StatVar.zipWith StatVar.map
  cases hm : x.mask with
  | none => rfl
  | some m => simp [combineMask, DA.Equals]

/-- Comparing with some of the thresholds gives these thresholds' part of comparing with all of them. -/
theorem binarize_some (hl : Function.Injective label) (hsub : ts' ⊆ ts) {x : StatVar L (FV K)} (hx : NewDim d x) :
    (binarize (thresholdArray label d ts') x).Same ((binarize (thresholdArray label d ts) x).chunk d (ts'.map label).toFinset) := by
  refine ⟨⟨rfl, ?_, ?_⟩, ?_⟩
  · intro k hk
    simp only [binarize, StatVar.zipWith, StatVar.map, DA.map, DA.zipWith, StatVar.chunk, DA.restrict, joinCoords, thresholdArray, Finset.mem_union, Finset.mem_singleton] at hk ⊢
    by_cases hkd : k = d
    · subst hkd
      simp only [hx.1, false_or, if_true, if_false]
      rw [Finset.inter_eq_right.mpr]
      intro l h
      simp only [List.mem_toFinset, List.mem_map] at h ⊢
      obtain ⟨t, ht, rfl⟩ := h
      exact ⟨t, hsub ht, rfl⟩
    · simp only [hkd, or_false, if_false, or_self] at hk ⊢
      simp [hk]
  · intro e he
    have hd := he d (by simp [binarize, StatVar.zipWith, DA.zipWith, thresholdArray])
    simp only [binarize, StatVar.zipWith, StatVar.map, DA.map, DA.zipWith, joinCoords, thresholdArray, Finset.mem_union, Finset.mem_singleton, hx.1, false_or, if_true, if_false] at hd
    simp only [List.mem_toFinset, List.mem_map] at hd
    obtain ⟨t, ht, hte⟩ := hd
    change (binarize (thresholdArray label d ts') x).arr.val e = (binarize (thresholdArray label d ts) x).arr.val e
    rw [C37_value, C37_value, thresholdArray_val hl ht hte.symm, thresholdArray_val hl (hsub ht) hte.symm]
  · simp only [StatVar.chunk, binarize_mask]
    cases hm : x.mask with
    | none => exact .none
    | some m => exact .some (restrict_same_of_not_mem _ (hx.2 m hm))

/-- The data compared with the thresholds. -/
noncomputable def binarized (label : FV K → L) (d : Dim) (ts : List (FV K)) (vs : Vars (StatVar L (FV K))) : Vars (StatVar L (FV K)) :=
  vs.map (fun kv => (kv.1, binarize (thresholdArray label d ts) kv.2))

theorem transformedVars_binary {str : FV K → String} {suffix : Option String} {tr : InputTransform L K} (h : continuousToBinary label "both" (.list ts) d str suffix = .ok tr) (side : String)
    (vs : Vars (StatVar L (FV K))) : TransformedVars side [tr] vs (binarized label d ts vs) := by
  unfold continuousToBinary at h
  obtain ⟨text, -, h⟩ := bind_ok_iff.mp h
  unfold mkTransform at h
  split_ifs at h
  cases h
  unfold TransformedVars binarized
  rw [List.forall₂_map_right_iff, List.forall₂_same]
  intro kv _
  refine ⟨rfl, ?_⟩
  unfold transformed
  rw [if_pos (show touches side _ from Or.inr rfl)]
  rfl

/-- **C100** Several thresholds at once: the scores for a list of thresholds, selected at some of them, are the scores for these thresholds alone. -/
theorem C100_thresholds {agg : Aggregator L (FV K)} (hloc : agg.Local d) (hagg : agg.RespectsSame) (hk : d ∉ agg.reduceDims) {m : FMetric L K} (hm : Selectable d m)
    (hr : ∀ ks ∈ m.statistics, RespectsArrays ks.2) {p t : Vars (StatVar L (FV K))} (hp : IsDict p) (ht : IsDict t) (hnp : ∀ v x, (v, x) ∈ p → NewDim d x) (hnt : ∀ v x, (v, x) ∈ t → NewDim d x)
    (hmask : ∃ μ : String → DA L Bool, (∀ v a, (v, a) ∈ p → MaskIn (μ v) a) ∧ ∀ v a, (v, a) ∈ t → MaskIn (μ v) a)
    (hl : Function.Injective label) (hsub : ts' ⊆ ts) {str : FV K → String} {suffix suffix' o o' : Option String} {tr tr' : InputTransform L K}
    (h : continuousToBinary label "both" (.list ts) d str suffix = .ok tr) (h' : continuousToBinary label "both" (.list ts') d str suffix' = .ok tr') {out : Vars (DA L (FV K))}
    (hout : metricAlone (wrappedMetric m [tr] o) agg p t = .ok out) :
    ∃ out', metricAlone (wrappedMetric m [tr'] o') agg p t = .ok out' ∧ VarsSame out' (selectLabels d (ts'.map label).toFinset out) := by
  rw [C38_values m [tr] o agg (transformedVars_binary h _ p) (transformedVars_binary h _ t)] at hout
  obtain ⟨μ, m1, m2⟩ := hmask
  have hc : Chunkable d (binarized label d ts p) (binarized label d ts t) := by
    refine ⟨?_, ?_, μ, ?_, ?_⟩ <;> intro v a ha <;> unfold binarized at ha <;> simp only [List.mem_map, Prod.mk.injEq] at ha <;> obtain ⟨⟨k, x⟩, hx, rfl, rfl⟩ := ha
    · exact Finset.mem_union_left _ (Finset.mem_union_right _ (by simp [thresholdArray]))
    · exact Finset.mem_union_left _ (Finset.mem_union_right _ (by simp [thresholdArray]))
    · exact maskIn_zip (maskIn_zip (m1 k x hx) (maskIn_none _) _) (maskIn_map (m1 k x hx) _) _
    · exact maskIn_zip (maskIn_zip (m2 k x hx) (maskIn_none _) _) (maskIn_map (m2 k x hx) _) _
  obtain ⟨a, ha, sa⟩ := C100_select hloc hk hm hc (ts'.map label).toFinset hout
  have dict : ∀ {vs : Vars (StatVar L (FV K))} (l : List (FV K)), IsDict vs → IsDict (binarized label d l vs) := by
    intro vs l hv
    unfold IsDict binarized at *
    simpa [Function.comp_def] using hv
  have rel : ∀ {vs : Vars (StatVar L (FV K))}, (∀ v x, (v, x) ∈ vs → NewDim d x) → ∀ v,
      Option.Rel StatVar.Same (pyGet? v (chunkVars d (ts'.map label).toFinset (binarized label d ts vs))) (pyGet? v (binarized label d ts' vs)) := by
    intro vs hvs v
    apply item_forall₂
    unfold chunkVars binarized
    rw [List.map_map, List.forall₂_map_left_iff, List.forall₂_map_right_iff, List.forall₂_same]
    intro kv hkv
    exact ⟨rfl, (binarize_some hl hsub (hvs kv.1 kv.2 hkv)).symm⟩
  have := metricAlone_respects hagg hm.extensional hr (isDict_chunkVars _ (dict ts hp)) (dict ts' hp) (isDict_chunkVars _ (dict ts ht)) (dict ts' ht) (rel hnp) (rel hnt)
  rw [ha] at this
  obtain ⟨b, hb, sb⟩ := this.ok_left rfl
  refine ⟨b, (C38_values m [tr'] o' agg (transformedVars_binary h' _ p) (transformedVars_binary h' _ t) b).mpr hb, ?_⟩
  exact VarsSame.trans (VarsSame.symm sb) sa

end thresholds
end WBX
