import Verif.Lemmas.VaryingBins
import Mathlib.Algebra.Ring.Defs

set_option linter.unusedSectionVars false

namespace WBX
open DA
variable {L V W U : Type} [DecidableEq L]

theorem sumVal_congr_of [AddCommMonoid V] (ds : List Dim) (C : Dim → Finset L) (f g : (Dim → L) → V) (e : Dim → L)
    (h : ∀ e', (∀ d, d ∉ ds → e' d = e d) → (∀ d ∈ ds, e' d ∈ C d) → f e' = g e') :
    sumVal ds C f e = sumVal ds C g e := by
  induction ds generalizing f g with
  | nil => exact h e (by simp) (by simp)
  | cons d ds ih =>
    simp only [sumVal]
    apply ih
    intro e' h1 h2
    apply Finset.sum_congr rfl
    intro l hl
    apply h
    · intro x hx
      simp only [List.mem_cons, not_or] at hx
      simp only [setLabel, hx.1, if_false]
      exact h1 x hx.2
    · intro x hx
      simp only [setLabel]
      split
      · next hxd => rw [hxd]; exact hl
      · next hxd =>
        rcases List.mem_cons.mp hx with h' | h'
        · exact absurd h' hxd
        · exact h2 x h'

theorem sumVal_zero [AddCommMonoid V] (ds : List Dim) (C : Dim → Finset L) (e : Dim → L) :
    sumVal ds C (fun _ => (0 : V)) e = 0 := by
  induction ds with
  | nil => rfl
  | cons d ds ih => simp only [sumVal, Finset.sum_const_zero]; exact ih

theorem sumDims_restrictMany [AddCommMonoid V] {ds : List Dim} (bts : List (Dim × Finset L))
    (h : ∀ bt ∈ bts, bt.1 ∉ ds) (a : DA L V) :
    sumDims ds (a.restrictMany bts) = (sumDims ds a).restrictMany bts := by
  induction bts generalizing a with
  | nil => rfl
  | cons bt bts ih =>
    simp only [restrictMany]
    rw [ih (fun b hb => h b (by simp [hb])), sumDims_restrict_of_not_mem (h bt (by simp))]

theorem inDom_foldl {f : V → V → V} (ms : List (DA L V)) (a : DA L V) {e : Dim → L}
    (h : (ms.foldl (zipWith f) a).InDom e) : a.InDom e ∧ ∀ m ∈ ms, m.InDom e := by
  induction ms generalizing a with
  | nil => exact ⟨h, by simp⟩
  | cons m ms ih =>
    obtain ⟨h1, h2⟩ := ih _ h
    rw [inDom_zipWith] at h1
    exact ⟨h1.1, by simpa using ⟨h1.2, h2⟩⟩

theorem foldl_mul_zero [NonUnitalNonAssocSemiring V] (ms : List (DA L V)) (a : DA L V) (e : Dim → L)
    (h : a.val e = 0 ∨ ∃ m ∈ ms, m.val e = 0) : (ms.foldl (zipWith (· * ·)) a).val e = 0 := by
  induction ms generalizing a with
  | nil => simpa using h
  | cons m ms ih =>
    rw [List.foldl_cons]
    apply ih
    rcases h with h | ⟨m', hm', h⟩
    · left; simp [zipWith, h]
    · rcases List.mem_cons.mp hm' with rfl | hm'
      · left; simp [zipWith, h]
      · right; exact ⟨m', hm', h⟩

namespace Aggregator


variable [Semiring V]

theorem BinsApply.restrict_varying {agg : Aggregator L V} {c : Dim} (hloc : agg.VaryingLocal c) {stat : DA L V}
    (hc : c ∈ stat.dims) (S : Finset L) :
    BinsApply agg.binBy (stat.restrict c S) ↔ BinsApply agg.binBy stat := by
  unfold BinsApply
  have : ∀ b ∈ agg.binBy, (b.createBinMask (stat.restrict c S)).dims = (b.createBinMask stat).dims := by
    intro b hb
    obtain ⟨_, T, h1, _⟩ := (hloc.2 b hb).1 stat hc
    exact (h1 S).dims
  constructor
  · intro h b hb; rw [← this b hb]; exact h b hb
  · intro h b hb; rw [this b hb]; exact h b hb

theorem aggregationFn_restrict_none_varying {agg : Aggregator L V} {c : Dim} (hloc : agg.VaryingLocal c)
    {stat : DA L V} (hc : c ∈ stat.dims) (S : Finset L) (h : agg.aggregationFn stat = .ok none) :
    agg.aggregationFn (stat.restrict c S) = .ok none := by
  obtain ⟨h1, h2, h3, h4⟩ := aggregationFn_eq agg stat
  obtain ⟨k1, k2, k3, k4⟩ := aggregationFn_eq agg (stat.restrict c S)
  by_cases c1 : ∀ d ∈ agg.reduceDims, d ∈ stat.dims
  · by_cases c2 : (agg.binBy.map (·.binDim)).Nodup
    · by_cases c3 : BinsApply agg.binBy stat
      · rw [h4 c1 c2 c3] at h; simp at h
      · exact k3 c1 c2 (fun hh => c3 ((BinsApply.restrict_varying hloc hc S).mp hh))
    · rw [h2 c1 c2] at h; simp at h
  · exact k1 c1

theorem aggregationFn_chunks_varying {agg : Aggregator L V} {c : Dim} (hloc : agg.VaryingLocal c) {stat r : DA L V}
    (hc : c ∈ stat.dims) {Ss : List (Finset L)} (hne : Ss ≠ []) (hP : Partition Ss (stat.coords c))
    (h : agg.aggregationFn stat = .ok (some r)) :
    ∃ rs : Finset L → DA L V, (∀ S, agg.aggregationFn (stat.restrict c S) = .ok (some (rs S))) ∧
      (combiningSum (Ss.map rs)).Same r := by
  obtain ⟨h1, h2, h3, rfl⟩ := aggregationFn_some h
  refine ⟨fun S => sumDims agg.reduceDims.dedup (agg.product (stat.restrict c S)), ?_, ?_⟩
  · intro S
    obtain ⟨-, -, -, k4⟩ := aggregationFn_eq agg (stat.restrict c S)
    rw [k4 h1 h2 ((BinsApply.restrict_varying hloc hc S).mpr h3)]
    rfl
  · have hP' : Partition Ss ((agg.product stat).coords c) := hP.mono (foldl_coords_subset _ _ _ hc)
    refine Same.trans ?_ (chunks_reduced hne (mem_dims_product agg hc) hP' (List.nodup_dedup _))
    -- the bin labels kept on each chunk
    have hT : ∃ T : Dim → Finset L → Finset L, ∀ b ∈ agg.binBy,
        (∀ S, (b.createBinMask (stat.restrict c S)).Same
          (((b.createBinMask stat).restrict c S).restrict b.binDim (T b.binDim S))) ∧
        (∀ S e, (b.createBinMask stat).InDom e → e c ∈ S → e c ∈ stat.coords c → e b.binDim ∉ T b.binDim S →
          (b.createBinMask stat).val e = 0) ∧
        (∀ l ∈ (b.createBinMask stat).coords b.binDim, ∃ S ∈ Ss, l ∈ T b.binDim S) := by
      have hbins := hloc.2
      generalize agg.binBy = bs at h2 hbins
      induction bs with
      | nil => exact ⟨fun _ _ => ∅, by simp⟩
      | cons b bs ih =>
        simp only [List.map_cons, List.nodup_cons] at h2
        obtain ⟨T, hT⟩ := ih h2.2 (fun b hb => hbins b (by simp [hb]))
        obtain ⟨_, T0, t1, t2, t3⟩ := (hbins b (by simp)).1 stat hc
        refine ⟨fun d => if d = b.binDim then T0 else T d, ?_⟩
        intro b' hb'
        rcases List.mem_cons.mp hb' with rfl | hb'
        · simp only [if_true]
          exact ⟨t1, t2, t3 Ss hne hP⟩
        · have hne' : b'.binDim ≠ b.binDim := fun hh => h2.1 (hh ▸ List.mem_map_of_mem hb')
          simp only [if_neg hne']
          exact hT b' hb'
    obtain ⟨T, hT⟩ := hT
    let bts : List (Dim × (Finset L → Finset L)) := agg.binBy.map (fun b => (b.binDim, T b.binDim))
    have hmd : ∀ b ∈ agg.binBy, b.binDim ∈ (b.createBinMask stat).dims := fun b hb => ((hloc.2 b hb).1 stat hc).1
    have hprod : ∀ S, (agg.product (stat.restrict c S)).Same
        (((agg.product stat).restrict c S).restrictMany (bts.map (fun bt => (bt.1, bt.2 S)))) := by
      intro S
      unfold product
      rw [List.foldl_append]
      have hA : ((agg.weighBy.map (fun w => w (stat.restrict c S))).foldl (zipWith (· * ·)) (stat.restrict c S)).Same
          (((agg.weighBy.map (fun w => w stat)).foldl (zipWith (· * ·)) stat).restrict c S) := by
        rw [← foldl_zipWith_restrict, List.map_map]
        apply foldl_zipWith_congr _ _ _ _ (Same.refl _)
        intro w hw
        exact hloc.1 w hw stat S hc
      refine Same.trans (foldl_zipWith_congr _ agg.binBy _
        (fun b => ((b.createBinMask stat).restrict c S).restrict b.binDim (T b.binDim S)) hA
        (fun b hb => (hT b hb).1 S)) ?_
      have := foldl_zipWith_bins (· * ·)
        (agg.binBy.map (fun b => (b.binDim, T b.binDim S, (b.createBinMask stat).restrict c S)))
        (((agg.weighBy.map (fun w => w stat)).foldl (zipWith (· * ·)) stat).restrict c S) (by
          intro x hx
          rw [List.mem_map] at hx
          obtain ⟨b, hb, rfl⟩ := hx
          exact hmd b hb)
      simp only [List.map_map, Function.comp_def] at this
      refine Same.trans this ?_
      simp only [bts, List.map_map, Function.comp_def]
      apply restrictMany_congr
      rw [List.foldl_append]
      rw [← foldl_zipWith_restrict (fun x y : V => x * y) c S (agg.binBy.map (fun b => b.createBinMask stat)), List.map_map]
      exact Same.refl (L := L) (V := V) _
    have hcongr : (combiningSum (Ss.map (fun S => sumDims agg.reduceDims.dedup (agg.product (stat.restrict c S))))).Same
        (combiningSum (Ss.map (fun S => (sumDims agg.reduceDims.dedup ((agg.product stat).restrict c S)).restrictMany
          (bts.map (fun bt => (bt.1, bt.2 S)))))) := by
      apply combiningSum_congr
      intro S _
      rw [← sumDims_restrictMany]
      · apply sumDims_congr (hprod S) (List.nodup_dedup _)
        intro d hd
        apply mem_dims_product
        exact h1 d (by simpa using hd)
      · intro bt hbt
        simp only [bts, List.map_map, List.mem_map, Function.comp_def] at hbt
        obtain ⟨b, hb, rfl⟩ := hbt
        simpa using (hloc.2 b hb).2.1
    refine Same.trans hcongr ?_
    apply combiningSum_restrictMany_zero Ss bts (by simpa [bts, List.map_map, Function.comp_def] using h2)
    intro bt hbt
    simp only [bts, List.mem_map] at hbt
    obtain ⟨b, hb, rfl⟩ := hbt
    obtain ⟨t1, t2, t3⟩ := hT b hb
    have hbd : b.binDim ∈ (agg.product stat).dims := by
      unfold product
      rw [mem_foldl_zipWith_dims]
      exact Or.inr ⟨b.createBinMask stat, by simp; exact Or.inr ⟨b, hb, rfl⟩, hmd b hb⟩
    have hbr : b.binDim ∉ agg.reduceDims.dedup := by simpa using (hloc.2 b hb).2.1
    refine ⟨?_, ?_, ?_⟩
    · intro S _
      rw [sumDims_eq]
      simp only [Finset.mem_sdiff, List.mem_toFinset]
      exact ⟨hbd, hbr⟩
    · intro S _ e he hTe
      rw [sumDims_eq] at he ⊢
      simp only at he ⊢
      rw [← sumVal_zero (V := V) agg.reduceDims.dedup ((agg.product stat).restrict c S).coords e]
      apply sumVal_congr_of
      intro e' he1 he2
      have hdom : ((agg.product stat).restrict c S).InDom e' := by
        intro d hd
        by_cases hdr : d ∈ agg.reduceDims.dedup
        · exact he2 d hdr
        · rw [he1 d hdr]
          exact he d (by simpa using ⟨hd, by simpa using hdr⟩)
      rw [inDom_restrict (mem_dims_product agg hc)] at hdom
      obtain ⟨hd1, hd2⟩ := hdom
      obtain ⟨hs, hm⟩ := inDom_foldl _ _ hd1
      apply foldl_mul_zero
      right
      refine ⟨b.createBinMask stat, by simp; exact Or.inr ⟨b, hb, rfl⟩, ?_⟩
      exact t2 S e' (hm _ (by simp; exact Or.inr ⟨b, hb, rfl⟩)) hd2 (hs c hc) (by rw [he1 _ hbr]; exact hTe)
    · intro S _ l hl
      rw [sumDims_eq] at hl
      simp only [restrict, if_neg (hloc.2 b hb).2.2] at hl
      have hl' : l ∈ (b.createBinMask stat).coords b.binDim := by
        have hsub : ∀ (ms : List (DA L V)) (a : DA L V) (m : DA L V), m ∈ ms → b.binDim ∈ m.dims →
            (ms.foldl (zipWith (· * ·)) a).coords b.binDim ⊆ m.coords b.binDim := by
          intro ms
          induction ms with
          | nil => simp
          | cons m0 ms ih =>
            intro a m hm hmd
            rw [List.foldl_cons]
            rcases List.mem_cons.mp hm with rfl | hm
            · refine (foldl_coords_subset ms _ _ (by simp [zipWith, hmd])).trans ?_
              simp only [zipWith, joinCoords, hmd, if_true]
              split
              · exact Finset.inter_subset_right
              · exact subset_rfl
            · exact ih _ m hm hmd
        exact hsub _ stat (b.createBinMask stat) (by simp; exact Or.inr ⟨b, hb, rfl⟩) (hmd b hb) hl
      obtain ⟨S', hS', hlT⟩ := t3 l hl'
      refine ⟨S', hS', ?_, hlT⟩
      rw [sumDims_eq]
      simp only [restrict, if_neg (hloc.2 b hb).2.2]
      exact hl

end Aggregator
end WBX
