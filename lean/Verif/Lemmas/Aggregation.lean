import Verif.Model.Aggregation
import Verif.Spec.Aggregation
import Verif.Lemmas.Array
import Verif.Lemmas.Tree

set_option linter.unusedSectionVars false

namespace WBX
open DA
variable {L V : Type} [DecidableEq L]

theorem Partition.mono {Ss : List (Finset L)} {C C' : Finset L} (h : Partition Ss C) (hs : C' ⊆ C) :
    Partition Ss C' := ⟨h.1, fun l hl => h.2 l (hs hl)⟩

namespace Aggregator

/-- The bins can be applied to an array with dimensions `stat.dims`. -/
def BinsApply (bs : List (BinBy L V)) (stat : DA L V) : Prop :=
  ∀ b ∈ bs, (b.createBinMask stat).dims \ {b.binDim} ⊆ stat.dims

theorem binMasks_some {stat : DA L V} {bs : List (BinBy L V)} (h : BinsApply bs stat) :
    binMasks stat bs = some (bs.map (fun b => b.createBinMask stat)) := by
  induction bs with
  | nil => rfl
  | cons b bs ih =>
    have h1 := h b (by simp)
    have h2 : BinsApply bs stat := fun b hb => h b (by simp [hb])
    simp [binMasks, h1, ih h2]

theorem binMasks_none {stat : DA L V} {bs : List (BinBy L V)} (h : ¬ BinsApply bs stat) :
    binMasks stat bs = none := by
  induction bs with
  | nil => simp [BinsApply] at h
  | cons b bs ih =>
    simp only [binMasks]
    split
    · next h1 =>
      have : ¬ BinsApply bs stat := by
        intro h2; apply h
        intro b' hb'
        rcases List.mem_cons.mp hb' with rfl | hb'
        · exact h1
        · exact h2 b' hb'
      rw [ih this]; rfl
    · rfl

theorem dedup_length_eq_iff (l : List Dim) : l.dedup.length = l.length ↔ l.Nodup := by
  constructor
  · intro h
    rw [← List.dedup_eq_self]
    exact (List.dedup_sublist l).eq_of_length h
  · intro h; rw [h.dedup]

section Fn
variable [AddCommMonoid V] [Mul V]

theorem aggregationFn_eq (agg : Aggregator L V) (stat : DA L V) :
    (¬ (∀ d ∈ agg.reduceDims, d ∈ stat.dims) → agg.aggregationFn stat = .ok none) ∧
    ((∀ d ∈ agg.reduceDims, d ∈ stat.dims) → ¬ (agg.binBy.map (·.binDim)).Nodup →
      agg.aggregationFn stat = .error .valueError) ∧
    ((∀ d ∈ agg.reduceDims, d ∈ stat.dims) → (agg.binBy.map (·.binDim)).Nodup → ¬ BinsApply agg.binBy stat →
      agg.aggregationFn stat = .ok none) ∧
    ((∀ d ∈ agg.reduceDims, d ∈ stat.dims) → (agg.binBy.map (·.binDim)).Nodup → BinsApply agg.binBy stat →
      agg.aggregationFn stat = .ok (some (DA.dot stat (agg.weighBy.map (fun w => w stat) ++
        agg.binBy.map (fun b => b.createBinMask stat)) agg.reduceDims.dedup))) := by
  have hlen : ((agg.binBy.map (·.binDim)).dedup.length ≠ agg.binBy.length) ↔
      ¬ (agg.binBy.map (·.binDim)).Nodup := by
    rw [← dedup_length_eq_iff, List.length_map]
  refine ⟨fun h => ?_, fun h h2 => ?_, fun h h2 h3 => ?_, fun h h2 h3 => ?_⟩
  · unfold aggregationFn
    rw [if_pos (by simpa using h)]
  · unfold aggregationFn
    rw [if_neg (by simpa using h)]
    simp only
    rw [if_pos (hlen.mpr h2)]
  · unfold aggregationFn
    rw [if_neg (by simpa using h)]
    simp only
    rw [if_neg (fun H => (hlen.mp H) h2), binMasks_none h3]
  · unfold aggregationFn
    rw [if_neg (by simpa using h)]
    simp only
    rw [if_neg (fun H => (hlen.mp H) h2), binMasks_some h3]

/-- Inversion of a successful aggregation. -/
theorem aggregationFn_some {agg : Aggregator L V} {stat r : DA L V}
    (h : agg.aggregationFn stat = .ok (some r)) :
    (∀ d ∈ agg.reduceDims, d ∈ stat.dims) ∧ (agg.binBy.map (·.binDim)).Nodup ∧ BinsApply agg.binBy stat ∧
    r = DA.dot stat (agg.weighBy.map (fun w => w stat) ++ agg.binBy.map (fun b => b.createBinMask stat))
      agg.reduceDims.dedup := by
  obtain ⟨h1, h2, h3, h4⟩ := aggregationFn_eq agg stat
  by_cases c1 : ∀ d ∈ agg.reduceDims, d ∈ stat.dims
  · by_cases c2 : (agg.binBy.map (·.binDim)).Nodup
    · by_cases c3 : BinsApply agg.binBy stat
      · rw [h4 c1 c2 c3] at h
        refine ⟨c1, c2, c3, ?_⟩
        injection h with h
        injection h with h
        exact h.symm
      · rw [h3 c1 c2 c3] at h; simp at h
    · rw [h2 c1 c2] at h; simp at h
  · rw [h1 c1] at h; simp at h


theorem chunks_reduced {c : Dim} {Ss : List (Finset L)} (hne : Ss ≠ []) {P : DA L V} (hc : c ∈ P.dims)
    (hP : Partition Ss (P.coords c)) {ds : List Dim} (hn : ds.Nodup) :
    (combiningSum (Ss.map (fun S => sumDims ds (P.restrict c S)))).Same (sumDims ds P) := by
  have hdims : ∀ S, (sumDims ds (P.restrict c S)).dims = P.dims \ ds.toFinset := by
    intro S; rw [sumDims_eq]; rfl
  have hd : (combiningSum (Ss.map (fun S => sumDims ds (P.restrict c S)))).dims = (sumDims ds P).dims := by
    rw [combiningSum_dims_of_same (D := P.dims \ ds.toFinset) (by simpa using hne), sumDims_eq]
    intro a ha
    rw [List.mem_map] at ha
    obtain ⟨S, _, rfl⟩ := ha
    exact hdims S
  have hcd : ∀ d ∈ (sumDims ds P).dims, outerCoords (Ss.map (fun S => sumDims ds (P.restrict c S))) d
      = (sumDims ds P).coords d := by
    intro d hd
    ext l
    rw [mem_outerCoords]
    simp only [List.mem_map, exists_exists_and_eq_and]
    rw [sumDims_eq] at hd ⊢
    simp only at hd ⊢
    simp only [sumDims_eq, restrict, hd, true_and]
    by_cases hdc : d = c
    · subst hdc
      simp only [if_true, Finset.mem_inter]
      constructor
      · rintro ⟨S, _, h, _⟩; exact h
      · intro h
        obtain ⟨S, hS, hl⟩ := hP.2 l h
        exact ⟨S, hS, h, hl⟩
    · simp only [hdc, if_false]
      obtain ⟨S, Ss, rfl⟩ := List.exists_cons_of_ne_nil hne
      exact ⟨fun ⟨_, _, h⟩ => h, fun h => ⟨S, by simp, h⟩⟩
  refine ⟨hd, ?_, ?_⟩
  · intro d hdd
    rw [combiningSum_coords _ _ hdd]
    exact hcd d (hd ▸ hdd)
  · intro e he
    have he' : (sumDims ds P).InDom e := by
      intro d hdd
      have := he d (hd ▸ hdd)
      rw [combiningSum_coords _ _ (hd ▸ hdd), hcd d hdd] at this
      exact this
    rw [combiningSum_val, List.map_map]
    simp only [Function.comp_def]
    by_cases hcds : c ∈ ds
    · have hin : ∀ S, (sumDims ds (P.restrict c S)).InDom e := by
        intro S d hd'
        rw [hdims] at hd'
        have := he' d (by rw [sumDims_eq]; exact hd')
        rw [sumDims_eq] at this ⊢
        simp only [restrict]
        rw [if_neg]
        · exact this
        · rintro rfl
          rw [Finset.mem_sdiff, List.mem_toFinset] at hd'
          exact hd'.2 hcds
      simp only [hin, if_true]
      simp only [sumDims_eq, restrict]
      exact sumVal_restrict_sum hn hcds P.coords hP P.val e
    · have hcm : c ∈ (sumDims ds P).dims := by
        rw [sumDims_eq, Finset.mem_sdiff, List.mem_toFinset]; exact ⟨hc, hcds⟩
      have hval : ∀ S, (if (sumDims ds (P.restrict c S)).InDom e then (sumDims ds (P.restrict c S)).val e else 0)
          = if e c ∈ S then (sumDims ds P).val e else 0 := by
        intro S
        rw [sumDims_restrict_of_not_mem hcds]
        simp only [inDom_restrict hcm, he', true_and]
        rfl
      simp only [hval]
      have hec : e c ∈ P.coords c := by
        have := he' c hcm
        rw [sumDims_eq] at this
        exact this
      obtain ⟨S0, hS0, hl0⟩ := hP.2 _ hec
      have hpw := hP.1
      clear hP hne hd hcd he hdims hval
      induction Ss with
      | nil => simp at hS0
      | cons S Ss ih =>
        rw [List.pairwise_cons] at hpw
        simp only [List.map_cons, List.sum_cons]
        rcases List.mem_cons.mp hS0 with rfl | hS0'
        · rw [if_pos hl0]
          have : (Ss.map (fun S => if e c ∈ S then (sumDims ds P).val e else 0)).sum = 0 := by
            apply List.sum_eq_zero
            intro v hv
            rw [List.mem_map] at hv
            obtain ⟨T, hT, rfl⟩ := hv
            rw [if_neg (hpw.1 T hT _ hl0)]
          rw [this, add_zero]
        · rw [if_neg (fun h => hpw.1 S0 hS0' _ h hl0), zero_add]
          exact ih hS0' hpw.2

/-- The broadcast product of the statistic with all weights and bin masks. -/
def product (agg : Aggregator L V) (stat : DA L V) : DA L V :=
  (agg.weighBy.map (fun w => w stat) ++ agg.binBy.map (fun b => b.createBinMask stat)).foldl
    (zipWith (· * ·)) stat

theorem mem_dims_product (agg : Aggregator L V) {stat : DA L V} {d : Dim} (h : d ∈ stat.dims) :
    d ∈ (agg.product stat).dims := by
  unfold product
  rw [mem_foldl_zipWith_dims]; exact Or.inl h

theorem foldl_coords_subset (bs : List (DA L V)) (f : V → V → V) (a : DA L V) {d : Dim} (h : d ∈ a.dims) :
    (bs.foldl (zipWith f) a).coords d ⊆ a.coords d := by
  induction bs generalizing a with
  | nil => simp
  | cons b bs ih =>
    rw [List.foldl_cons]
    refine (ih (zipWith f a b) (by simp [zipWith, h])).trans ?_
    simp only [zipWith, joinCoords, h, if_true]
    split
    · exact Finset.inter_subset_left
    · exact subset_rfl

/-- All multiplicative factors of the aggregator: weights then bin masks. -/
def factors (agg : Aggregator L V) : List (DA L V → DA L V) :=
  agg.weighBy ++ agg.binBy.map (fun b => b.createBinMask)

theorem factors_eq (agg : Aggregator L V) (stat : DA L V) :
    agg.weighBy.map (fun w => w stat) ++ agg.binBy.map (fun b => b.createBinMask stat)
      = agg.factors.map (fun w => w stat) := by
  simp [factors, List.map_map, Function.comp_def]

theorem product_eq (agg : Aggregator L V) (stat : DA L V) :
    agg.product stat = (agg.factors.map (fun w => w stat)).foldl (zipWith (· * ·)) stat := by
  unfold product; rw [factors_eq]

theorem Local.factors {agg : Aggregator L V} {c : Dim} (h : agg.Local c) :
    ∀ w ∈ agg.factors, LocalAlong c w := by
  intro w hw
  simp only [Aggregator.factors, List.mem_append, List.mem_map] at hw
  rcases hw with hw | ⟨b, hb, rfl⟩
  · exact h.1 w hw
  · exact h.2 b hb

theorem product_restrict {agg : Aggregator L V} {c : Dim} (hloc : agg.Local c) {stat : DA L V}
    (hc : c ∈ stat.dims) (S : Finset L) :
    (agg.product (stat.restrict c S)).Same ((agg.product stat).restrict c S) := by
  rw [product_eq, product_eq, ← foldl_zipWith_restrict, List.map_map]
  apply foldl_zipWith_congr _ _ _ _ (Same.refl _)
  intro w hw
  exact hloc.factors w hw stat S hc

theorem BinsApply.restrict {agg : Aggregator L V} {c : Dim} (hloc : agg.Local c) {stat : DA L V}
    (hc : c ∈ stat.dims) (S : Finset L) :
    BinsApply agg.binBy (stat.restrict c S) ↔ BinsApply agg.binBy stat := by
  unfold BinsApply
  have : ∀ b ∈ agg.binBy, (b.createBinMask (stat.restrict c S)).dims = (b.createBinMask stat).dims :=
    fun b hb => (hloc.2 b hb stat S hc).dims
  constructor
  · intro h b hb; rw [← this b hb]; exact h b hb
  · intro h b hb; rw [this b hb]; exact h b hb

/-- Aggregating a chunk never changes which outcome (value, `None`, error) occurs. -/
theorem aggregationFn_restrict_none {agg : Aggregator L V} {c : Dim} (hloc : agg.Local c) {stat : DA L V}
    (hc : c ∈ stat.dims) (S : Finset L) (h : agg.aggregationFn stat = .ok none) :
    agg.aggregationFn (stat.restrict c S) = .ok none := by
  obtain ⟨h1, h2, h3, h4⟩ := aggregationFn_eq agg stat
  obtain ⟨k1, k2, k3, k4⟩ := aggregationFn_eq agg (stat.restrict c S)
  by_cases c1 : ∀ d ∈ agg.reduceDims, d ∈ stat.dims
  · by_cases c2 : (agg.binBy.map (·.binDim)).Nodup
    · by_cases c3 : BinsApply agg.binBy stat
      · rw [h4 c1 c2 c3] at h; simp at h
      · exact k3 c1 c2 (fun H => c3 ((BinsApply.restrict hloc hc S).mp H))
    · rw [h2 c1 c2] at h; simp at h
  · exact k1 c1

theorem aggregationFn_chunks {agg : Aggregator L V} {c : Dim} (hloc : agg.Local c) {stat r : DA L V}
    (hc : c ∈ stat.dims) {Ss : List (Finset L)} (hne : Ss ≠ []) (hP : Partition Ss (stat.coords c))
    (h : agg.aggregationFn stat = .ok (some r)) :
    ∃ rs : Finset L → DA L V, (∀ S, agg.aggregationFn (stat.restrict c S) = .ok (some (rs S))) ∧
      (combiningSum (Ss.map rs)).Same r := by
  obtain ⟨h1, h2, h3, rfl⟩ := aggregationFn_some h
  refine ⟨fun S => sumDims agg.reduceDims.dedup (agg.product (stat.restrict c S)), ?_, ?_⟩
  · intro S
    obtain ⟨-, -, -, k4⟩ := aggregationFn_eq agg (stat.restrict c S)
    rw [k4 h1 h2 ((BinsApply.restrict hloc hc S).mpr h3)]
    rfl
  · have hP' : Partition Ss ((agg.product stat).coords c) :=
      hP.mono (foldl_coords_subset _ _ _ hc)
    refine Same.trans ?_ (chunks_reduced hne (mem_dims_product agg hc) hP' (List.nodup_dedup _))
    apply combiningSum_congr
    intro S _
    apply sumDims_congr (product_restrict hloc hc S) (List.nodup_dedup _)
    intro d hd
    apply mem_dims_product
    exact h1 d (by simpa using hd)

end Fn

/-- One chunk of a statistic: values and mask restricted to the labels `S` of dimension `c`. -/
def _root_.WBX.StatVar.restrict (c : Dim) (S : Finset L) (s : StatVar L V) : StatVar L V :=
  { arr := s.arr.restrict c S, mask := s.mask.map (DA.restrict c S) }

section Mask
variable [AddCommMonoid V] [Mul V] [One V] [IsNull V]

theorem applyMask_restrict (agg : Aggregator L V) (c : Dim) (S : Finset L) (s : StatVar L V) :
    agg.applyMask (s.restrict c S) = (((agg.applyMask s).1).restrict c S, ((agg.applyMask s).2).restrict c S) := by
  rcases s with ⟨arr, mask⟩
  cases hm : agg.masked <;> cases mask with
  | none =>
    cases hs : agg.skipna <;> simp [applyMask, StatVar.restrict, hm, hs, where_, restrict_map, restrict_zipWith]
  | some m =>
    cases hs : agg.skipna <;>
      simp [applyMask, StatVar.restrict, hm, hs, where_, broadcastLike, restrict_map, restrict_zipWith]

theorem applyMask_dims (agg : Aggregator L V) (s : StatVar L V) {d : Dim} (h : d ∈ s.arr.dims) :
    d ∈ (agg.applyMask s).1.dims ∧ d ∈ (agg.applyMask s).2.dims := by
  rcases s with ⟨arr, mask⟩
  simp only at h
  cases hm : agg.masked <;> cases mask with
  | none =>
    cases hs : agg.skipna <;> simp [applyMask, hm, hs, where_, DA.map, zipWith, h]
  | some m =>
    cases hs : agg.skipna <;> simp [applyMask, hm, hs, where_, broadcastLike, DA.map, zipWith, h]

theorem applyMask_coords (agg : Aggregator L V) (s : StatVar L V) {d : Dim} (h : d ∈ s.arr.dims) :
    (agg.applyMask s).1.coords d ⊆ s.arr.coords d ∧ (agg.applyMask s).2.coords d ⊆ s.arr.coords d := by
  rcases s with ⟨arr, mask⟩
  simp only at h
  cases hm : agg.masked <;> cases mask with
  | none =>
    cases hs : agg.skipna <;> simp [applyMask, hm, hs, where_, DA.map, zipWith, joinCoords, h]
  | some m =>
    cases hs : agg.skipna <;>
      simp [applyMask, hm, hs, where_, broadcastLike, DA.map, zipWith, joinCoords, h]
    all_goals
      by_cases hd : d ∈ m.dims <;> simp [hd]
    all_goals
      intro l hl
      simp only [Finset.mem_inter] at hl
      tauto

theorem aggregateStatVar_eq (agg : Aggregator L V) (s : StatVar L V) :
    agg.aggregateStatVar s = (agg.aggregationFn (agg.applyMask s).1).bind (fun sws =>
      (agg.aggregationFn (agg.applyMask s).2).bind (fun sw =>
        match sws, sw with
        | some a, some b => .ok (some (a, b))
        | _, _ => .ok none)) := by
  unfold aggregateStatVar
  rfl

theorem aggregateStatVar_some {agg : Aggregator L V} {s : StatVar L V} {p : DA L V × DA L V}
    (h : agg.aggregateStatVar s = .ok (some p)) :
    agg.aggregationFn (agg.applyMask s).1 = .ok (some p.1) ∧
    agg.aggregationFn (agg.applyMask s).2 = .ok (some p.2) := by
  rw [aggregateStatVar_eq] at h
  cases h1 : agg.aggregationFn (agg.applyMask s).1 with
  | error e => simp [h1, Except.bind] at h
  | ok a =>
    cases h2 : agg.aggregationFn (agg.applyMask s).2 with
    | error e => simp [h1, h2, Except.bind] at h
    | ok b =>
      cases a <;> cases b <;> simp [h1, h2, Except.bind] at h
      subst h
      exact ⟨rfl, rfl⟩

theorem aggregateStatVar_chunks {agg : Aggregator L V} {c : Dim} (hloc : agg.Local c) {s : StatVar L V}
    {p : DA L V × DA L V} (hc : c ∈ s.arr.dims) {Ss : List (Finset L)} (hne : Ss ≠ [])
    (hP : Partition Ss (s.arr.coords c)) (h : agg.aggregateStatVar s = .ok (some p)) :
    ∃ rs : Finset L → DA L V × DA L V,
      (∀ S, agg.aggregateStatVar (s.restrict c S) = .ok (some (rs S))) ∧
      (combiningSum (Ss.map (fun S => (rs S).1))).Same p.1 ∧
      (combiningSum (Ss.map (fun S => (rs S).2))).Same p.2 := by
  obtain ⟨h1, h2⟩ := aggregateStatVar_some h
  obtain ⟨d1, d2⟩ := applyMask_dims agg s hc
  obtain ⟨c1, c2⟩ := applyMask_coords agg s hc
  obtain ⟨r1, hr1, hs1⟩ := aggregationFn_chunks hloc d1 hne (hP.mono c1) h1
  obtain ⟨r2, hr2, hs2⟩ := aggregationFn_chunks hloc d2 hne (hP.mono c2) h2
  refine ⟨fun S => (r1 S, r2 S), fun S => ?_, hs1, hs2⟩
  rw [aggregateStatVar_eq, applyMask_restrict]
  simp [hr1, hr2, Except.bind]

theorem aggregateStatVar_chunk_none {agg : Aggregator L V} {c : Dim} (hloc : agg.Local c) {s : StatVar L V}
    (hc : c ∈ s.arr.dims) (S : Finset L) (h : agg.aggregateStatVar s = .ok none) :
    agg.aggregateStatVar (s.restrict c S) = .ok none := by
  obtain ⟨d1, d2⟩ := applyMask_dims agg s hc
  rw [aggregateStatVar_eq] at h ⊢
  rw [applyMask_restrict]
  cases h1 : agg.aggregationFn (agg.applyMask s).1 with
  | error e => simp [h1, Except.bind] at h
  | ok a =>
    cases h2 : agg.aggregationFn (agg.applyMask s).2 with
    | error e => simp [h1, h2, Except.bind] at h
    | ok b =>
      cases a with
      | none =>
        have k1 := aggregationFn_restrict_none hloc d1 S h1
        cases b with
        | none =>
          have k2 := aggregationFn_restrict_none hloc d2 S h2
          simp [k1, k2, Except.bind]
        | some b =>
          obtain ⟨r2, hr2, -⟩ := aggregationFn_chunks (Ss := [(agg.applyMask s).2.coords c]) hloc d2 (by simp)
            ⟨by simp, by simp⟩ h2
          simp [k1, hr2, Except.bind]
      | some a =>
        cases b with
        | none =>
          have k2 := aggregationFn_restrict_none hloc d2 S h2
          obtain ⟨r1, hr1, -⟩ := aggregationFn_chunks (Ss := [(agg.applyMask s).1.coords c]) hloc d1 (by simp)
            ⟨by simp, by simp⟩ h1
          simp [k2, hr1, Except.bind]
        | some b => simp [h1, h2, Except.bind] at h

end Mask
end Aggregator
end WBX
