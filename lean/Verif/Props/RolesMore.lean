import Verif.Props.Roles
import Verif.Props.ExchangeMetrics
import Verif.Props.UnitsMore
import Verif.Model.Wasserstein
import Verif.Lemmas.NestedState

/-!
# C94: predictions and targets exchanged, for distances of two ensembles, wind vectors and the anomaly correlation
-/

set_option linter.unusedSectionVars false

namespace WBX
open DA Aggregator

section arrays
variable {L K : Type} [DecidableEq L] [Field K] [LinearOrder K] [IsStrictOrderedRing K]

theorem DA.zipWith_right_comm {V W : Type} {f : V → W → V} (h : ∀ x y z, f (f x y) z = f (f x z) y) (a : DA L V) (b c : DA L W) :
    (zipWith f (zipWith f a b) c).Same (zipWith f (zipWith f a c) b) := by
  refine ⟨Finset.union_right_comm _ _ _, ?_, fun e _ => h _ _ _⟩
  intro d hd
  simp only [zipWith, Finset.mem_union] at hd
  simp only [zipWith, joinCoords, Finset.mem_union]
  by_cases h1 : d ∈ a.dims <;> by_cases h2 : d ∈ b.dims <;> by_cases h3 : d ∈ c.dims <;> simp only [h1, h2, h3, if_true, if_false, or_true, true_or, or_false, false_or, or_self]
  · exact Finset.inter_right_comm _ _ _
  · exact Finset.inter_comm _ _
  · simp [h1, h2, h3] at hd

theorem FV.sub_right_comm (x y z : FV K) : x - y - z = x - z - y := by
  have h : ∀ a b : FV K, a - b = a + -b := fun a b => rfl
  rw [h, h, h x z, h, _root_.add_right_comm]

/-- A function of the values at the labels. -/
def ValuesOnly {V W : Type} (f : Finset L → (L → V) → W) : Prop := ∀ C x y, (∀ l ∈ C, x l = y l) → f C x = f C y

theorem inDom_setLabel {V : Type} {a : DA L V} {d : Dim} {l : L} {e : Dim → L} (hl : l ∈ a.coords d) (h : ∀ k ∈ a.dims, k ≠ d → e k ∈ a.coords k) : a.InDom (setLabel e d l) := by
  intro k hk
  by_cases hkd : k = d
  · subst hkd; rw [setLabel_same]; exact hl
  · rw [show setLabel e d l k = e k from if_neg hkd]; exact h k hk hkd

theorem reduce_arr_same {V W : Type} {f : Finset L → (L → V) → W} (hf : ValuesOnly f) {a b : StatVar L V} (h : a.arr.Same b.arr) {d : Dim} (hd : d ∈ a.arr.dims) :
    (a.reduce d f).arr.Same (b.reduce d f).arr := by
  refine ⟨?_, fun k hk => h.coords k (Finset.mem_of_mem_erase hk), fun e he => ?_⟩
  · show a.arr.dims.erase d = b.arr.dims.erase d
    rw [h.dims]
  · show f (a.arr.coords d) _ = f (b.arr.coords d) _
    rw [← h.coords d hd]
    refine hf _ _ _ (fun l hl => h.val _ (inDom_setLabel hl (fun k hk hkd => he k (Finset.mem_erase.mpr ⟨hkd, hk⟩))))

theorem dropMask_same {m n : Option (DA L Bool)} {d : Dim} (h : Option.Rel DA.Same m n) : Option.Rel DA.Same (dropMask d m) (dropMask d n) := by
  cases h with
  | none => exact .none
  | some h =>
    unfold dropMask
    dsimp only
    rw [← h.dims]
    split_ifs
    · exact .none
    · exact .some h

theorem reduce_same {V W : Type} {f : Finset L → (L → V) → W} (hf : ValuesOnly f) {a b : StatVar L V} (h : a.Same b) {d : Dim} (hd : d ∈ a.arr.dims) :
    (a.reduce d f).Same (b.reduce d f) := ⟨reduce_arr_same hf h.arr hd, dropMask_same h.mask⟩

theorem valuesOnly_npSum (skipna : Bool) : ValuesOnly (L := L) (npSum (K := K) skipna) := by
  intro C x y h
  unfold npSum present
  cases skipna with
  | false => exact Finset.sum_congr rfl h
  | true =>
    simp only [if_true]
    refine Finset.sum_congr (Finset.filter_congr (fun l hl => by rw [h l hl])) (fun l hl => h l (Finset.mem_filter.mp hl).1)

theorem valuesOnly_card (skipna : Bool) : ValuesOnly (L := L) (fun C (x : L → FV K) => (FV.ofNat (present skipna C x).card : FV K)) := by
  intro C x y h
  unfold present
  cases skipna with
  | false => rfl
  | true =>
    simp only [if_true]
    rw [Finset.filter_congr (q := fun l => (y l).isnan = false) (fun l hl => by rw [h l hl])]

theorem mask_cycle (m n : Option (DA L Bool)) : Option.Rel DA.Same (combineMask (combineMask (combineMask m n) m) n) (combineMask (combineMask (combineMask n m) n) m) := by
  cases m with
  | none =>
    cases n with
    | none => exact .none
    | some n =>
      have : combineMask (some n) (some n) = some n := by unfold combineMask; dsimp only; rw [if_pos (equals_iff.mpr (.refl _))]
      show Option.Rel DA.Same (combineMask (some n) (some n)) (combineMask (combineMask (some n) (some n)) none)
      rw [this]; exact .some (.refl _)
  | some m =>
    have hm : combineMask (some m) (some m) = some m := by unfold combineMask; dsimp only; rw [if_pos (equals_iff.mpr (.refl _))]
    cases n with
    | none =>
      show Option.Rel DA.Same (combineMask (combineMask (some m) (some m)) none) (combineMask (some m) (some m))
      rw [hm]; exact .some (.refl _)
    | some n =>
      have hn : combineMask (some n) (some n) = some n := by unfold combineMask; dsimp only; rw [if_pos (equals_iff.mpr (.refl _))]
      by_cases hc : m.Equals n
      · have h1 : combineMask (some m) (some n) = some m := by unfold combineMask; dsimp only; rw [if_pos hc]
        have h2 : combineMask (some n) (some m) = some n := by unfold combineMask; dsimp only; rw [if_pos (equals_iff.mpr (equals_iff.mp hc).symm)]
        rw [h1, hm, h1, h2, hn, h2]
        exact .some (equals_iff.mp hc)
      · have h1 : combineMask (some m) (some n) = none := by unfold combineMask; dsimp only; rw [if_neg hc]
        have h2 : combineMask (some n) (some m) = none := by
          unfold combineMask; dsimp only; rw [if_neg (fun h => hc (equals_iff.mpr (equals_iff.mp h).symm))]
        rw [h1, h2]
        show Option.Rel DA.Same (combineMask (some m) (some n)) (combineMask (some n) (some m))
        rw [h1, h2]; exact .none

end arrays

/-! ### Wasserstein distance -/

section distances
variable {L K : Type} [DecidableEq L] [Field K] [LinearOrder K] [IsStrictOrderedRing K] {agg : Aggregator L (FV K)} {p t : Vars (StatVar L (FV K))}

theorem scipy_comm (us vs : List (FV K)) : scipyWasserstein us vs = scipyWasserstein vs us := by
  unfold scipyWasserstein
  have h1 : (us = [] ∨ vs = []) = (vs = [] ∨ us = []) := propext or_comm
  have h2 : (fun z => (ecdf us z - ecdf vs z).abs) = (fun z => (ecdf vs z - ecdf us z).abs) := funext (fun z => FV.abs_sub_comm _ _)
  rw [h2, sort_perm (List.perm_append_comm)]
  simp only [h1]

theorem wasserstein_comm (d : Dim) (a b : StatVar L (FV K)) : SameOutcome StatVar.Same (wasserstein d a b) (wasserstein d b a) := by
  unfold wasserstein
  by_cases h1 : d ∈ a.arr.dims
  · by_cases h2 : d ∈ b.arr.dims
    · rw [if_neg (not_not.mpr h1), if_neg (not_not.mpr h2), if_neg (not_not.mpr h2), if_neg (not_not.mpr h1)]
      by_cases h3 : ∃ k ∈ a.arr.dims ∩ b.arr.dims, k ≠ d ∧ a.arr.coords k ≠ b.arr.coords k
      · have h3' : ∃ k ∈ b.arr.dims ∩ a.arr.dims, k ≠ d ∧ b.arr.coords k ≠ a.arr.coords k := by
          obtain ⟨k, hk, h, h'⟩ := h3
          exact ⟨k, by rw [Finset.inter_comm]; exact hk, h, h'.symm⟩
        rw [if_pos h3, if_pos h3']; exact .fails _ _
      · have h3' : ¬ ∃ k ∈ b.arr.dims ∩ a.arr.dims, k ≠ d ∧ b.arr.coords k ≠ a.arr.coords k := by
          rintro ⟨k, hk, h, h'⟩
          exact h3 ⟨k, by rw [Finset.inter_comm]; exact hk, h, h'.symm⟩
        rw [if_neg h3, if_neg h3']
        by_cases h4 : a.arr.coords d = ∅ ∨ b.arr.coords d = ∅
        · rw [if_pos h4, if_pos h4.symm]; exact .fails _ _
        · rw [if_neg h4, if_neg (fun h => h4 h.symm)]
          have hj := DA.zipWith_comm (f := fun _ _ => ()) (g := fun _ _ => ()) (fun _ _ => rfl) a.arr b.arr
          refine .gives ⟨⟨?_, fun k hk => hj.coords k (Finset.mem_of_mem_erase hk), fun e _ => ?_⟩, combineMask_comm _ _⟩
          · show (a.arr.dims ∪ b.arr.dims).erase d = _
            rw [Finset.union_comm]
          · show (match scipyWasserstein (memberValues d a.arr e) (memberValues d b.arr e) with
                | .ok w => w
                | .error _ => FV.nan) = (match scipyWasserstein (memberValues d b.arr e) (memberValues d a.arr e) with
                | .ok w => w
                | .error _ => FV.nan)
            rw [scipy_comm]
    · rw [if_neg (not_not.mpr h1), if_pos h2, if_pos h2]; exact .fails _ _
  · rw [if_pos h1]
    by_cases h2 : d ∈ b.arr.dims
    · rw [if_neg (not_not.mpr h2), if_pos h1]; exact .fails _ _
    · rw [if_pos h2]; exact .fails _ _

/-- **C94** `WassersteinDistance` of two ensembles is the same if predictions and targets are exchanged. -/
theorem C94_wasserstein (hagg : agg.RespectsSame) (hp : IsDict p) (ht : IsDict t) (d : Dim) :
    SameValues (metricAlone (wassersteinStatistic d).toMetric agg p t) (metricAlone (wassersteinStatistic d).toMetric agg t p) :=
  statistic_exchange hagg (mirrored_statOfE hp ht (fun _ a b _ _ => wasserstein_comm d a b))

/-! ### Squared difference of two ensemble means -/

theorem varDim_ok {a : StatVar L (FV K)} {d : Dim} (h : d ∈ a.arr.dims) (s : Bool) : a.varDim s d = .ok (a.reduce d (npVar1 s)) := by unfold StatVar.varDim; rw [if_pos h]
theorem meanDim_ok {a : StatVar L (FV K)} {d : Dim} (h : d ∈ a.arr.dims) (s : Bool) : a.meanDim s d = .ok (a.reduce d (npMean s)) := by unfold StatVar.meanDim; rw [if_pos h]
theorem sizeDim_ok {a : StatVar L (FV K)} {d : Dim} (h : d ∈ a.arr.dims) (s : Bool) :
    a.sizeDim s d = .ok (if s then a.reduce d (fun C x => FV.ofNat (present true C x).card) else ⟨DA.scalar (FV.ofNat (a.arr.coords d).card), none⟩) := by
  unfold StatVar.sizeDim; rw [if_pos h]

/-- The squared standard error of an ensemble mean. -/
noncomputable def meanVariance (d : Dim) (s : Bool) (a : StatVar L (FV K)) : StatVar L (FV K) :=
  (a.reduce d (npVar1 s)).zipWith (· / ·) (if s then a.reduce d (fun C x => FV.ofNat (present true C x).card) else ⟨DA.scalar (FV.ofNat (a.arr.coords d).card), none⟩)

theorem unbiasedMSE_both {d : Dim} {s : Bool} {a b : StatVar L (FV K)} (ha : d ∈ a.arr.dims) (hb : d ∈ b.arr.dims) : unbiasedMSE d s a b =
    .ok (((((a.reduce d (npMean s)).zipWith (· - ·) (b.reduce d (npMean s))).map FV.sq).zipWith (· - ·) (meanVariance d s a)).zipWith (· - ·) (meanVariance d s b)) := by
  unfold unbiasedMSE
  rw [meanDim_ok ha, varDim_ok ha, sizeDim_ok ha, meanDim_ok hb, varDim_ok hb, sizeDim_ok hb]
  show (if d ∈ b.arr.dims then _ else _) = _
  rw [if_pos hb]
  rfl

theorem meanVariance_mask (d : Dim) (s : Bool) (a : StatVar L (FV K)) : (meanVariance d s a).mask = dropMask d a.mask := by
  unfold meanVariance
  cases s with
  | false =>
    show combineMask (dropMask d a.mask) none = _
    cases dropMask d a.mask <;> rfl
  | true =>
    show combineMask (dropMask d a.mask) (dropMask d a.mask) = _
    cases dropMask d a.mask with
    | none => rfl
    | some m => unfold combineMask; dsimp only; rw [if_pos (equals_iff.mpr (.refl _))]

theorem unbiasedMSE_comm {d : Dim} {s : Bool} {a b : StatVar L (FV K)} (ha : d ∈ a.arr.dims) (hb : d ∈ b.arr.dims) : SameOutcome StatVar.Same (unbiasedMSE d s a b) (unbiasedMSE d s b a) := by
  rw [unbiasedMSE_both ha hb, unbiasedMSE_both hb ha]
  refine .gives ⟨?_, ?_⟩
  · refine Same.trans (zipWith_congr (zipWith_congr (map_sub_same FV.sq_sub_comm (a.reduce d (npMean s)) (b.reduce d (npMean s))).arr (.refl _)) (.refl _)) ?_
    exact DA.zipWith_right_comm FV.sub_right_comm _ _ _
  · show Option.Rel DA.Same (combineMask (combineMask (combineMask (dropMask d a.mask) (dropMask d b.mask)) (meanVariance d s a).mask) (meanVariance d s b).mask)
      (combineMask (combineMask (combineMask (dropMask d b.mask) (dropMask d a.mask)) (meanVariance d s b).mask) (meanVariance d s a).mask)
    rw [meanVariance_mask, meanVariance_mask]
    exact mask_cycle _ _

/-- **C94** The unbiased squared difference of the means of two ensembles, if both sides are ensembles. -/
theorem C94_unbiased_mse (hagg : agg.RespectsSame) (hp : IsDict p) (ht : IsDict t) (d : Dim) (s : Bool) (h : ∀ v a b, (v, a) ∈ p → (v, b) ∈ t → d ∈ a.arr.dims ∧ d ∈ b.arr.dims) :
    SameValues (metricAlone (unbiasedMSEStatistic d s).toMetric agg p t) (metricAlone (unbiasedMSEStatistic d s).toMetric agg t p) :=
  statistic_exchange hagg (mirrored_statOfE hp ht (fun v a b ha hb => unbiasedMSE_comm (h v a b ha hb).1 (h v a b ha hb).2))

/-! ### Distance of two ensembles -/

/-- One side of a comparison of two ensembles along `d`: an array with this dimension and without the auxiliary one, with a mask (if any) that does not depend on the member. -/
structure EnsembleSide (d : Dim) (a : StatVar L (FV K)) : Prop where
  wf : a.arr.WF
  member : d ∈ a.arr.dims
  auxiliary : d ++ "_PSEUDO_FOR_TARGETS" ∉ a.arr.dims
  mask : ∀ m, a.mask = some m → d ∉ m.dims ∧ d ++ "_PSEUDO_FOR_TARGETS" ∉ m.dims

section pair
variable {d q : Dim} {a b : StatVar L (FV K)}

/-- The absolute differences of all pairs of members. -/
noncomputable def pairs (d q : Dim) (a b : StatVar L (FV K)) : StatVar L (FV K) := (a.zipWith (· - ·) ⟨b.arr.rename d q, b.mask.map (fun m => m.rename d q)⟩).map FV.abs

theorem rename_arr (hb : d ∈ b.arr.dims) : b.arr.rename d q = { dims := insert q (b.arr.dims.erase d), coords := fun k => if k = q then b.arr.coords d else b.arr.coords k, val := fun e => b.arr.val (setLabel e d (e q)) } := by
  unfold DA.rename
  rw [if_pos hb]

theorem pairs_dims (hb : d ∈ b.arr.dims) : (pairs d q a b).arr.dims = a.arr.dims ∪ insert q (b.arr.dims.erase d) := by
  show a.arr.dims ∪ (b.arr.rename d q).dims = _
  rw [rename_arr hb]

theorem pairs_coords_d (hq : q ≠ d) (ha : d ∈ a.arr.dims) (hb : d ∈ b.arr.dims) : (pairs d q a b).arr.coords d = a.arr.coords d := by
  show joinCoords a.arr (b.arr.rename d q) d = _
  rw [rename_arr hb]
  unfold joinCoords
  rw [if_pos ha, if_neg]
  simp [hq.symm]

theorem pairs_coords_q (hb : d ∈ b.arr.dims) (haq : q ∉ a.arr.dims) : (pairs d q a b).arr.coords q = b.arr.coords d := by
  show joinCoords a.arr (b.arr.rename d q) q = _
  rw [rename_arr hb]
  unfold joinCoords
  rw [if_neg haq]
  simp

theorem pairs_coords {k : Dim} (hb : d ∈ b.arr.dims) (hkd : k ≠ d) (hkq : k ≠ q) : (pairs d q a b).arr.coords k = joinCoords a.arr b.arr k := by
  show joinCoords a.arr (b.arr.rename d q) k = _
  rw [rename_arr hb]
  unfold joinCoords
  simp [hkd, hkq]

theorem pairs_val (hq : q ≠ d) (hb : d ∈ b.arr.dims) (haq : q ∉ a.arr.dims) (hwa : a.arr.WF) (hwb : b.arr.WF) (hbq : q ∉ b.arr.dims) (e : Dim → L) (l m : L) :
    (pairs d q a b).arr.val (setLabel (setLabel e q m) d l) = (a.arr.val (setLabel e d l) - b.arr.val (setLabel e d m)).abs := by
  show (a.arr.val (setLabel (setLabel e q m) d l) - (b.arr.rename d q).val (setLabel (setLabel e q m) d l)).abs = _
  rw [rename_arr hb]
  congr 2
  · refine hwa _ _ (fun k hk => ?_)
    have hkq : k ≠ q := fun h => haq (h ▸ hk)
    by_cases hkd : k = d
    · subst hkd; rw [setLabel_same, setLabel_same]
    · rw [setLabel_other _ hkd, setLabel_other _ hkd, setLabel_other _ hkq]
  · refine hwb _ _ (fun k hk => ?_)
    have hkq : k ≠ q := fun h => hbq (h ▸ hk)
    by_cases hkd : k = d
    · subst hkd; rw [setLabel_same, setLabel_same, setLabel_other _ hq, setLabel_same]
    · rw [setLabel_other _ hkd, setLabel_other _ hkd, setLabel_other _ hkd, setLabel_other _ hkq]

theorem dims_pairs_comm (ha : d ∈ a.arr.dims) (hb : d ∈ b.arr.dims) : (((pairs d q a b).arr.dims.erase d).erase q) = (((pairs d q b a).arr.dims.erase d).erase q) := by
  rw [pairs_dims hb, pairs_dims ha]
  ext k
  simp only [Finset.mem_erase, Finset.mem_union, Finset.mem_insert]
  tauto

theorem two_same {f : Finset L → (L → FV K) → FV K} (hq : q ≠ d) (ha : d ∈ a.arr.dims) (hb : d ∈ b.arr.dims)
    (hf : ∀ e, npSum false ((pairs d q a b).arr.coords q) (fun m => f ((pairs d q a b).arr.coords d) (fun l => (pairs d q a b).arr.val (setLabel (setLabel e q m) d l))) =
      npSum false ((pairs d q b a).arr.coords q) (fun m => f ((pairs d q b a).arr.coords d) (fun l => (pairs d q b a).arr.val (setLabel (setLabel e q m) d l)))) :
    (((pairs d q a b).reduce d f).reduce q (npSum false)).arr.Same (((pairs d q b a).reduce d f).reduce q (npSum false)).arr := by
  refine ⟨dims_pairs_comm ha hb, fun k hk => ?_, fun e _ => hf e⟩
  have hkq : k ≠ q := (Finset.mem_erase.mp hk).1
  have hkd : k ≠ d := (Finset.mem_erase.mp (Finset.mem_erase.mp hk).2).1
  show (pairs d q a b).arr.coords k = (pairs d q b a).arr.coords k
  rw [pairs_coords hb hkd hkq, pairs_coords ha hkd hkq]
  refine (DA.zipWith_comm (f := fun _ _ => ()) (g := fun _ _ => ()) (fun _ _ => rfl) a.arr b.arr).coords k ?_
  have := (Finset.mem_erase.mp (Finset.mem_erase.mp hk).2).2
  rw [show ((pairs d q a b).arr.dims) = _ from pairs_dims hb] at this
  simp only [Finset.mem_union, Finset.mem_insert, Finset.mem_erase] at this
  show k ∈ a.arr.dims ∪ b.arr.dims
  rw [Finset.mem_union]
  tauto

theorem mask_pairs (h : ∀ m, b.mask = some m → d ∉ m.dims) : (pairs d q a b).mask = combineMask a.mask b.mask := by
  show combineMask a.mask (b.mask.map (fun m => m.rename d q)) = _
  congr 1
  cases hb : b.mask with
  | none => rfl
  | some m =>
    show some (m.rename d q) = some m
    unfold DA.rename
    rw [if_neg (h m hb)]

theorem dropMask_of {m : Option (DA L Bool)} (h : ∀ x, m = some x → d ∉ x.dims) : dropMask d m = m := by
  cases m with
  | none => rfl
  | some x => unfold dropMask; dsimp only; rw [if_neg (h x rfl)]

theorem combineMask_dims {m n : Option (DA L Bool)} (hm : ∀ x, m = some x → d ∉ x.dims) (hn : ∀ x, n = some x → d ∉ x.dims) : ∀ x, combineMask m n = some x → d ∉ x.dims := by
  intro x hx
  cases m with
  | none => cases n with
    | none => cases hx
    | some n => exact hn x hx
  | some m => cases n with
    | none => exact hm x hx
    | some n =>
      unfold combineMask at hx
      dsimp only at hx
      split_ifs at hx
      cases hx
      exact hm _ rfl

end pair

theorem crpsSkill_ok {d : Dim} {a b : StatVar L (FV K)} (ha : EnsembleSide d a) (hb : EnsembleSide d b) : crpsSkill d false a b =
    .ok ((((pairs d (d ++ "_PSEUDO_FOR_TARGETS") a b).reduce d (npSum false)).reduce (d ++ "_PSEUDO_FOR_TARGETS") (npSum false)).zipWith (· / ·)
      (((pairs d (d ++ "_PSEUDO_FOR_TARGETS") a b).reduce d (fun C x => FV.ofNat (present false C x).card)).reduce (d ++ "_PSEUDO_FOR_TARGETS") (npSum false))) := by
  have hr : b.rename d (d ++ "_PSEUDO_FOR_TARGETS") = .ok ⟨b.arr.rename d (d ++ "_PSEUDO_FOR_TARGETS"), b.mask.map (fun m => m.rename d (d ++ "_PSEUDO_FOR_TARGETS"))⟩ := by
    unfold StatVar.rename
    rw [if_pos ⟨hb.member, hb.auxiliary⟩]
  rw [crpsSkill_members false hb.member hr]
  unfold pairMean
  rw [if_pos]
  · rfl
  · exact Finset.mem_union_left _ ha.member

theorem crpsSkill_comm {d : Dim} {a b : StatVar L (FV K)} (ha : EnsembleSide d a) (hb : EnsembleSide d b) : SameOutcome StatVar.Same (crpsSkill d false a b) (crpsSkill d false b a) := by
  rw [crpsSkill_ok ha hb, crpsSkill_ok hb ha]
  have hqa := ha.auxiliary
  have hqb := hb.auxiliary
  have hma := ha.mask
  have hmb := hb.mask
  generalize d ++ "_PSEUDO_FOR_TARGETS" = q at hqa hqb hma hmb ⊢
  have hq : q ≠ d := fun h => hqa (h ▸ ha.member)
  have hmask : Option.Rel DA.Same (dropMask q (dropMask d (pairs d q a b).mask)) (dropMask q (dropMask d (pairs d q b a).mask)) := by
    refine dropMask_same (dropMask_same ?_)
    rw [mask_pairs (fun m h => (hmb m h).1), mask_pairs (fun m h => (hma m h).1)]
    exact combineMask_comm _ _
  refine .gives (StatVar.zipWith_same ⟨two_same hq ha.member hb.member (fun e => ?_), hmask⟩ ⟨two_same hq ha.member hb.member (fun e => ?_), hmask⟩)
  · rw [pairs_coords_d hq ha.member hb.member, pairs_coords_d hq hb.member ha.member, pairs_coords_q hb.member hqa, pairs_coords_q ha.member hqb]
    show ∑ m ∈ b.arr.coords d, ∑ l ∈ a.arr.coords d, _ = ∑ m ∈ a.arr.coords d, ∑ l ∈ b.arr.coords d, _
    rw [Finset.sum_comm]
    refine Finset.sum_congr rfl (fun l _ => Finset.sum_congr rfl (fun m _ => ?_))
    rw [pairs_val hq hb.member hqa ha.wf hb.wf hqb, pairs_val hq ha.member hqb hb.wf ha.wf hqa, FV.abs_sub_comm]
  · rw [pairs_coords_d hq ha.member hb.member, pairs_coords_d hq hb.member ha.member, pairs_coords_q hb.member hqa, pairs_coords_q ha.member hqb]
    show ∑ _m ∈ b.arr.coords d, FV.ofNat (a.arr.coords d).card = ∑ _m ∈ a.arr.coords d, FV.ofNat (b.arr.coords d).card
    have h : ∀ (C : Finset L) (n : ℕ), ∑ _m ∈ C, (FV.ofNat n : FV K) = FV.fin ((C.card : K) * n) := by
      intro C n
      induction C using Finset.induction_on with
      | empty => simp; rfl
      | insert x C hx ih =>
        rw [Finset.sum_insert hx, ih, Finset.card_insert_of_notMem hx]
        show FV.fin (n : K) + FV.fin _ = _
        rw [FV.fin_add_fin]
        congr 1
        push_cast
        ring
    rw [h, h]
    congr 1
    ring

theorem spread_roles {argsort : List (FV K) → List ℕ} {order : List L} {d : Dim} {useSort fair : Bool} (a b : StatVar L (FV K)) :
    crpsSpread argsort order d useSort fair "predictions" false a b = crpsSpread argsort order d useSort fair "targets" false b a := by
  unfold crpsSpread whichArray
  simp

/-- **C94** `CRPSEnsembleDistance` without `skipna` is the same if the two ensembles are exchanged. -/
theorem C94_crps_distance (hagg : agg.RespectsSame) (hp : IsDict p) (ht : IsDict t) {d : Dim} (h : ∀ v a b, (v, a) ∈ p → (v, b) ∈ t → EnsembleSide d a ∧ EnsembleSide d b)
    (argsort : List (FV K) → List ℕ) (order order' : List L) (useSort fair : Bool) :
    SameValues (metricAlone (crpsEnsembleDistance argsort order order' d useSort fair false) agg p t) (metricAlone (crpsEnsembleDistance argsort order' order d useSort fair false) agg t p) := by
  refine metric3_exchange (r := DA.Same) hagg (by decide) (by decide) (by decide) (mirrored_statOfE hp ht ?_) (mirrored_statOfE hp ht ?_) (mirrored_statOfE hp ht ?_) ?_
  · exact fun v a b ha hb => crpsSkill_comm (h v a b ha hb).1 (h v a b ha hb).2
  · intro v a b _ _
    rw [spread_roles a b]
    exact SameOutcome.refl (fun x => .refl x) _
  · intro v a b _ _
    rw [← spread_roles b a]
    exact SameOutcome.refl (fun x => .refl x) _
  · intro a a' b b' c c' ha hb hc
    exact (zipWith_congr (zipWith_congr ha (same_map hb)) (same_map hc)).trans (DA.zipWith_right_comm FV.sub_right_comm _ _ _)

end distances

/-! ### Wind vectors -/

section wind
variable {L K : Type} [DecidableEq L] [Field K] [LinearOrder K] [IsStrictOrderedRing K] {agg : Aggregator L (FV K)} {p t : Vars (StatVar L (FV K))}

theorem windLoop_mirrored (p t : Vars (StatVar L (FV K))) : ∀ (vs : List (String × String × String)) (x y : Vars (Option (StatVar L (FV K)))), StatsSame x y →
    SameOutcome StatsSame (windLoop p t vs x) (windLoop t p vs y)
  | [], x, y, h => .gives h
  | (u, v, w) :: vs, x, y, h => by
    unfold windLoop
    unfold pyItem
    cases pyGet? u p with
    | none =>
      cases pyGet? u t with
      | none => exact .fails _ _
      | some tu => cases pyGet? v t <;> exact .fails _ _
    | some pu =>
      cases pyGet? v p with
      | none =>
        cases pyGet? u t with
        | none => exact .fails _ _
        | some tu => cases pyGet? v t <;> exact .fails _ _
      | some pv =>
        cases pyGet? u t with
        | none => exact .fails _ _
        | some tu =>
          cases pyGet? v t with
          | none => exact .fails _ _
          | some tv =>
            refine windLoop_mirrored p t vs _ _ ⟨pyInsert_nodup h.1, pyInsert_nodup h.2.1, fun k => ?_⟩
            rw [pyGet?_insert, pyGet?_insert]
            split_ifs
            · exact .some (.some (StatVar.zipWith_same (map_sub_same FV.sq_sub_comm pu tu) (map_sub_same FV.sq_sub_comm pv tv)))
            · exact h.2.2 k

theorem mirrored_wind {u v w : List String} {s : FStatistic L K} (hs : windVectorSquaredError u v w = .ok s) : Mirrored s s p t := by
  unfold windVectorSquaredError at hs
  obtain ⟨vs, -, hs⟩ := bind_ok_iff.mp hs
  cases hs
  exact windLoop_mirrored p t vs [] [] ⟨List.nodup_nil, List.nodup_nil, fun _ => .none⟩

/-- **C94** … and the squared error of wind vectors, for every configuration; also if a component is missing on one side. -/
theorem C94_wind (hagg : agg.RespectsSame) {u v w : List String} {s : FStatistic L K} (hs : windVectorSquaredError u v w = .ok s) :
    SameValues (metricAlone s.toMetric agg p t) (metricAlone s.toMetric agg t p) := statistic_exchange hagg (mirrored_wind hs)

/-- **C94** `WindVectorRMSE`. -/
theorem C94_wind_rmse {agg : Aggregator L (FV ℝ)} {p t : Vars (StatVar L (FV ℝ))} (hagg : agg.RespectsSame) {u v w : List String} {m : FMetric L ℝ} (hm : windVectorRMSE u v w = .ok m) :
    SameValues (metricAlone m agg p t) (metricAlone m agg t p) := by
  have he := extensional_windVectorRMSE hm
  unfold windVectorRMSE at hm
  obtain ⟨s, hs, hm⟩ := bind_ok_iff.mp hm
  cases hm
  exact metricAlone_mirrored hagg he rfl (.cons ⟨rfl, mirrored_wind hs⟩ .nil)

end wind

/-! ### Anomaly correlation -/

section first
variable {L K : Type} [DecidableEq L] [Field K] [LinearOrder K] [IsStrictOrderedRing K] {agg : Aggregator L (FV K)} {p t : Vars (StatVar L (FV K))}
  {k1 k2 k3 : String} {s1 s2 s3 : FStatistic L K} {r : DA L (FV K) → DA L (FV K) → Prop}

/-- Three statistics, the first two of which change places. -/
theorem metric3_exchange_first (hagg : agg.RespectsSame) {f f'} (h12 : k1 ≠ k2) (h13 : k1 ≠ k3) (h23 : k2 ≠ k3) (h1 : Mirrored s1 s2 p t) (h2 : Mirrored s2 s1 p t) (h3 : Mirrored s3 s3 p t)
    (hf : ∀ a a' b b' c c', a.Same a' → b.Same b' → c.Same c' → r (f a b c) (f' b' a' c')) :
    SameOutcome (VarsRel r) (metricAlone (metric3 (k1, s1) (k2, s2) (k3, s3) f) agg p t) (metricAlone (metric3 (k1, s1) (k2, s2) (k3, s3) f') agg t p) := by
  have e1 := meansOf_mirrored hagg h1
  have e2 := meansOf_mirrored hagg h2
  have e3 := meansOf_mirrored hagg h3
  refine SameOutcome.intro (fun x hx => ?_) (fun y hy => ?_)
  · obtain ⟨⟨A, hA⟩, ⟨B, hB⟩, C, hC⟩ := metric3_inv hx
    obtain ⟨A', hA', rA⟩ := e1.ok_left hA
    obtain ⟨B', hB', rB⟩ := e2.ok_left hB
    obtain ⟨C', hC', rC⟩ := e3.ok_left hC
    obtain ⟨x', hx', gx⟩ := metric3_ok (f := f) h12 h13 h23 hA hB hC
    rw [hx] at hx'; cases hx'
    obtain ⟨y, hy, gy⟩ := metric3_ok (f := f') h12 h13 h23 hB' hA' hC'
    refine ⟨y, hy, fun v => ?_⟩
    rw [gx, gy]
    have hA := rA v
    have hB := rB v
    have hC := rC v
    revert hA hB hC
    generalize pyGet? v A = oA
    generalize pyGet? v B = oB
    generalize pyGet? v C = oC
    generalize pyGet? v A' = oA'
    generalize pyGet? v B' = oB'
    generalize pyGet? v C' = oC'
    intro hA hB hC
    cases hA with
    | none => cases hB <;> exact .none
    | some hA => cases hB with
      | none => exact .none
      | some hB => cases hC with
        | none => exact .none
        | some hC => exact .some (hf _ _ _ _ _ _ hA hB hC)
  · obtain ⟨⟨A, hA⟩, ⟨B, hB⟩, C, hC⟩ := metric3_inv hy
    rcases hA0 : meansOf s1 agg p t with e | A0
    · obtain ⟨e', h'⟩ := e1.error_left hA0; rw [hB] at h'; cases h'
    rcases hB0 : meansOf s2 agg p t with e | B0
    · obtain ⟨e', h'⟩ := e2.error_left hB0; rw [hA] at h'; cases h'
    rcases hC0 : meansOf s3 agg p t with e | C0
    · obtain ⟨e', h'⟩ := e3.error_left hC0; rw [hC] at h'; cases h'
    obtain ⟨x, hx, -⟩ := metric3_ok (f := f) h12 h13 h23 hA0 hB0 hC0
    exact ⟨x, hx⟩


end first

section climatology
variable {L : Type} [DecidableEq L] {agg : Aggregator L (FV ℝ)} {p t clims : Vars (StatVar L (FV ℝ))} {align : StatVar L (FV ℝ) → StatVar L (FV ℝ) → Except Err (StatVar L (FV ℝ))}

/-- The statistic of one variable. -/
noncomputable def climRow (clims : Vars (StatVar L (FV ℝ))) (align : StatVar L (FV ℝ) → StatVar L (FV ℝ) → Except Err (StatVar L (FV ℝ)))
    (f : StatVar L (FV ℝ) → StatVar L (FV ℝ) → StatVar L (FV ℝ) → StatVar L (FV ℝ)) (t : Vars (StatVar L (FV ℝ))) (v : String) (a : StatVar L (FV ℝ)) : Except Err (Option (StatVar L (FV ℝ))) := do
  let b ← pyItem t v
  let c ← pyItem clims v
  let al ← align a c
  return some (f a b al)

theorem climatologies_item {l : Vars (StatVar L (FV ℝ))} {cs : Vars (StatVar L (FV ℝ))} (h : l.mapM (fun kv => do let x ← pyItem clims kv.1; return (kv.1, x)) = .ok cs) :
    ∀ kv ∈ l, pyItem cs kv.1 = pyItem clims kv.1 := by
  induction l generalizing cs with
  | nil => intro kv hkv; simp at hkv
  | cons x l ih =>
    rw [List.mapM_cons] at h
    obtain ⟨y, hy, h⟩ := bind_ok_iff.mp h
    obtain ⟨ys, hys, h⟩ := bind_ok_iff.mp h
    obtain ⟨z, hz, hy⟩ := bind_ok_iff.mp hy
    cases hy
    cases h
    intro kv hkv
    by_cases hk : kv.1 = x.1
    · rw [hk, item_hd, hz]
    · rw [item_tl hk]
      rcases List.mem_cons.mp hkv with rfl | hkv
      · exact absurd rfl hk
      · exact ih hys kv hkv

theorem withClimatology_rows {name : String} {f : StatVar L (FV ℝ) → StatVar L (FV ℝ) → StatVar L (FV ℝ) → StatVar L (FV ℝ)} {r : Vars (Option (StatVar L (FV ℝ)))} :
    (withClimatology name clims align f).compute p t = .ok r ↔ p.mapM (fun kv => do
      let y ← climRow clims align f t kv.1 kv.2
      return (kv.1, y)) = .ok r := by
  have key : ∀ cs, p.mapM (fun kv => do let x ← pyItem clims kv.1; return (kv.1, x)) = .ok cs → p.mapM (fun kv => do
      let b ← pyItem t kv.1
      let c ← pyItem cs kv.1
      let al ← align kv.2 c
      return (kv.1, some (f kv.2 b al))) = p.mapM (fun kv => do
      let y ← climRow clims align f t kv.1 kv.2
      return (kv.1, y)) := by
    intro cs hcs
    refine mapM_ok_congr _ _ _ (fun kv hkv => ?_)
    rw [climatologies_item hcs kv hkv]
    unfold climRow
    simp only [bind_assoc, pure_bind]
  unfold withClimatology
  constructor
  · intro h
    obtain ⟨cs, hcs, h⟩ := bind_ok_iff.mp h
    rw [← key cs hcs]
    exact h
  · intro h
    obtain ⟨cs, hcs⟩ := mapM_ok_of_mem (fun kv : String × StatVar L (FV ℝ) => do let x ← pyItem clims kv.1; return (kv.1, x)) p (fun kv hkv => by
      obtain ⟨y, hy⟩ := mapM_ok_mem _ _ _ h kv hkv
      obtain ⟨z, hz, -⟩ := bind_ok_iff.mp hy
      obtain ⟨b, hb, hz⟩ := bind_ok_iff.mp hz
      obtain ⟨c, hc, hz⟩ := bind_ok_iff.mp hz
      exact ⟨(kv.1, c), by rw [hc]; rfl⟩)
    dsimp only
    rw [hcs]
    exact (key cs hcs).trans h

theorem rows_get {F : String → StatVar L (FV ℝ) → Except Err (Option (StatVar L (FV ℝ)))} (hp : IsDict p) {r : Vars (Option (StatVar L (FV ℝ)))} (h : p.mapM (fun kv => do
      let y ← F kv.1 kv.2
      return (kv.1, y)) = .ok r) : IsDict r ∧ ∀ v o, (v, o) ∈ r ↔ ∃ a, (v, a) ∈ p ∧ F v a = .ok o := by
  have hk : r.map Prod.fst = p.map Prod.fst := by
    refine mapM_map _ Prod.fst Prod.fst (fun x y hxy => ?_) _ _ h
    obtain ⟨z, -, hz⟩ := bind_ok_iff.mp hxy
    cases hz; rfl
  refine ⟨by unfold IsDict; rw [hk]; exact hp, fun v o => ⟨fun hv => ?_, ?_⟩⟩
  · obtain ⟨kv, hkv, hx⟩ := mapM_out_mem h (v, o) hv
    obtain ⟨z, hz, hx⟩ := bind_ok_iff.mp hx
    cases hx
    exact ⟨kv.2, hkv, hz⟩
  · rintro ⟨a, ha, hF⟩
    obtain ⟨y, hy, hx⟩ := mapM_mem _ _ _ h (v, a) ha
    obtain ⟨z, hz, hx⟩ := bind_ok_iff.mp hx
    cases hx
    rw [hF] at hz
    cases hz
    exact hy

theorem rows_mirrored_ok {F G : String → StatVar L (FV ℝ) → Except Err (Option (StatVar L (FV ℝ)))} (hp : IsDict p) (ht : IsDict t) (hk : ∀ v, (∃ a, (v, a) ∈ p) ↔ ∃ b, (v, b) ∈ t)
    (h : ∀ v a b, (v, a) ∈ p → (v, b) ∈ t → SameOutcome (Option.Rel StatVar.Same) (F v a) (G v b)) {x : Vars (Option (StatVar L (FV ℝ)))} (hx : p.mapM (fun kv => do
      let y ← F kv.1 kv.2
      return (kv.1, y)) = .ok x) : ∃ y, t.mapM (fun kv => do
      let y ← G kv.1 kv.2
      return (kv.1, y)) = .ok y ∧ StatsSame x y := by
  obtain ⟨y, hy⟩ := mapM_ok_of_mem (fun kv : String × StatVar L (FV ℝ) => do
      let y ← G kv.1 kv.2
      return (kv.1, y)) t (fun kv hkv => by
    obtain ⟨a, ha⟩ := (hk kv.1).mpr ⟨kv.2, hkv⟩
    obtain ⟨z, hz⟩ := mapM_ok_mem _ _ _ hx _ ha
    obtain ⟨w, hw, -⟩ := bind_ok_iff.mp hz
    obtain ⟨w', hw', -⟩ := (h kv.1 a kv.2 ha hkv).ok_left hw
    exact ⟨(kv.1, w'), by rw [hw']; rfl⟩)
  obtain ⟨dx, gx⟩ := rows_get hp hx
  obtain ⟨dy, gy⟩ := rows_get ht hy
  refine ⟨y, hy, dx, dy, fun v => ?_⟩
  cases hgx : pyGet? v x with
  | some o =>
    obtain ⟨a, ha, hF⟩ := (gx v o).mp ((pyGet?_eq_some dx v o).mp hgx)
    obtain ⟨b, hb⟩ := (hk v).mp ⟨a, ha⟩
    obtain ⟨o', ho', hr⟩ := (h v a b ha hb).ok_left hF
    rw [(pyGet?_eq_some dy v o').mpr ((gy v o').mpr ⟨b, hb, ho'⟩)]
    exact .some hr
  | none =>
    cases hgy : pyGet? v y with
    | none => exact .none
    | some o =>
      exfalso
      obtain ⟨b, hb, hG⟩ := (gy v o).mp ((pyGet?_eq_some dy v o).mp hgy)
      obtain ⟨a, ha⟩ := (hk v).mpr ⟨b, hb⟩
      obtain ⟨z, hz⟩ := mapM_ok_mem _ _ _ hx _ ha
      obtain ⟨w, hw, -⟩ := bind_ok_iff.mp hz
      rw [(pyGet?_eq_some dx v w).mpr ((gx v w).mpr ⟨a, ha, hw⟩)] at hgx
      cases hgx

theorem mirrored_climatology {n n' : String} {f g : StatVar L (FV ℝ) → StatVar L (FV ℝ) → StatVar L (FV ℝ) → StatVar L (FV ℝ)} (hp : IsDict p) (ht : IsDict t)
    (hk : ∀ v, (∃ a, (v, a) ∈ p) ↔ ∃ b, (v, b) ∈ t) (hal : ∀ v a b c, (v, a) ∈ p → (v, b) ∈ t → (v, c) ∈ clims → SameOutcome StatVar.Same (align a c) (align b c))
    (hfg : ∀ a b c c', c.Same c' → (f a b c).Same (g b a c')) : Mirrored (withClimatology n clims align f) (withClimatology n' clims align g) p t := by
  have hrow : ∀ v a b, (v, a) ∈ p → (v, b) ∈ t → SameOutcome (Option.Rel StatVar.Same) (climRow clims align f t v a) (climRow clims align g p v b) := by
    intro v a b ha hb
    unfold climRow
    have e1 : pyItem t v = .ok b := (pyItem_ok_iff ht).mpr hb
    have e2 : pyItem p v = .ok a := (pyItem_ok_iff hp).mpr ha
    rw [e1, e2]
    show SameOutcome _ (do
      let c ← pyItem clims v
      let al ← align a c
      return some (f a b al)) (do
      let c ← pyItem clims v
      let al ← align b c
      return some (g b a al))
    rcases hc : pyItem clims v with e | c
    · exact .fails _ _
    · show SameOutcome _ (do
        let al ← align a c
        return some (f a b al)) (do
        let al ← align b c
        return some (g b a al))
      exact SameOutcome.bind (hal v a b c ha hb (pyItem_mem hc)) (fun x y hxy => .gives (Option.Rel.some (hfg a b x y hxy)))
  have hrow' : ∀ v b a, (v, b) ∈ t → (v, a) ∈ p → SameOutcome (Option.Rel StatVar.Same) (climRow clims align g p v b) (climRow clims align f t v a) := by
    intro v b a hb ha
    have := hrow v a b ha hb
    revert this
    generalize climRow clims align f t v a = x
    generalize climRow clims align g p v b = y
    intro this
    cases this with
    | fails => exact .fails _ _
    | gives h =>
      refine .gives ?_
      cases h with
      | none => exact .none
      | some h => exact .some h.symm
  refine SameOutcome.intro (fun x hx => ?_) (fun y hy => ?_)
  · obtain ⟨y, hy, hs⟩ := rows_mirrored_ok hp ht hk hrow (withClimatology_rows.mp hx)
    exact ⟨y, withClimatology_rows.mpr hy, hs⟩
  · obtain ⟨x, hx, -⟩ := rows_mirrored_ok ht hp (fun v => (hk v).symm) hrow' (withClimatology_rows.mp hy)
    exact ⟨x, withClimatology_rows.mpr hx⟩

/-- `ACC` with its statistics in the order of their roles: the covariance first. -/
theorem acc_reordered {P T C : FStatistic L ℝ} (hP : P = withClimatology "SquaredPredictionAnomaly" clims align squaredPredictionAnomaly)
    (hT : T = withClimatology "SquaredTargetAnomaly" clims align squaredTargetAnomaly) (hC : C = withClimatology "AnomalyCovariance" clims align anomalyCovariance) :
    acc clims align = metric3 ("SquaredPredictionAnomaly", P) ("SquaredTargetAnomaly", T) ("AnomalyCovariance", C) (fun pp tt cov => accFormula cov pp tt) := by
  subst hP hT hC
  unfold acc metric3
  congr 1
  funext xs
  unfold pyItem
  cases pyGet? "AnomalyCovariance" xs <;> cases pyGet? "SquaredPredictionAnomaly" xs <;> cases pyGet? "SquaredTargetAnomaly" xs <;> rfl

/-- **C94** `ACC` is the same if forecast and verifying analysis are exchanged, provided both are given for the same variables and the climatology is the same at their times. -/
theorem C94_acc (hagg : agg.RespectsSame) (hp : IsDict p) (ht : IsDict t) (hk : ∀ v, (∃ a, (v, a) ∈ p) ↔ ∃ b, (v, b) ∈ t)
    (hal : ∀ v a b c, (v, a) ∈ p → (v, b) ∈ t → (v, c) ∈ clims → SameOutcome StatVar.Same (align a c) (align b c)) :
    SameValues (metricAlone (acc clims align) agg p t) (metricAlone (acc clims align) agg t p) := by
  rw [acc_reordered rfl rfl rfl]
  refine metric3_exchange_first (r := DA.Same) hagg (by decide) (by decide) (by decide) (mirrored_climatology hp ht hk hal ?_) (mirrored_climatology hp ht hk hal ?_)
    (mirrored_climatology hp ht hk hal ?_) ?_
  · exact fun a b c c' h => StatVar.map_same _ (StatVar.zipWith_same (.refl _) h)
  · exact fun a b c c' h => StatVar.map_same _ (StatVar.zipWith_same (.refl _) h)
  · intro a b c c' h
    have := StatVar.zipWith_same (f := fun x y : FV ℝ => x * y) (StatVar.zipWith_same (f := (· - ·)) (.refl a) h) (StatVar.zipWith_same (f := (· - ·)) (.refl b) h)
    have h2 := StatVar.zipWith_comm (f := fun x y : FV ℝ => x * y) (g := fun x y => x * y) FV.mul_comm' (a.zipWith (· - ·) c') (b.zipWith (· - ·) c')
    exact this.trans h2
  · intro a a' b b' c c' ha hb hc
    exact zipWith_congr hc ((zipWith_congr (same_map ha) (same_map hb)).trans (DA.zipWith_comm FV.mul_comm' _ _))

end climatology

/-! ### The hypotheses hold for actual evaluations -/

section examples

theorem exPlain_respects : exPlain.RespectsSame := ⟨by simp [exPlain], by simp [exPlain]⟩

/-- Aggregations with the weights and bins of a fixed array (area weights, regions) respect the labelled array. -/
theorem respects_const {L V : Type} [DecidableEq L] (w : DA L V) (m : DA L V) (dims : List Dim) (n : Dim) :
    Aggregator.RespectsSame ({ reduceDims := dims, weighBy := [fun _ => w], binBy := [{ createBinMask := fun _ => m, binDim := n }] } : Aggregator L V) :=
  ⟨fun f hf a a' _ _ => by simp at hf; subst hf; exact .refl _, fun b hb a a' _ _ => by simp at hb; subst hb; exact .refl _⟩

/-- … and so does the aggregation of the example evaluation, with area weights and regions computed from the coordinates of the array. -/
theorem defaultAgg_respects {L : Type} [LinearOrder L] [AddCommGroup L] [IsOrderedAddMonoid L] (name : String → L) (order : List L) (degrees : L → ℝ) : (Example.defaultAgg name order degrees).RespectsSame := by
  have hr : ∀ a : DA L (FV ℝ), (∀ d ∈ (Example.defaultAgg name order degrees).reduceDims, d ∈ a.dims) → "latitude" ∈ a.dims ∧ "longitude" ∈ a.dims :=
    fun a h => ⟨h _ (by simp [Example.defaultAgg]), h _ (by simp [Example.defaultAgg])⟩
  constructor
  · intro w hw a a' h h'
    simp only [Example.defaultAgg, List.mem_singleton] at hw
    subst hw
    unfold Example.gridWeights gridAreaWeights
    rw [h'.dims]
    exact .refl _
  · intro b hb a a' h h'
    simp only [Example.defaultAgg, List.mem_singleton] at hb
    subst hb
    obtain ⟨h1, h2⟩ := hr a h
    simp only [Example.regionBinning, Example.coordArray, h'.coords _ h1, h'.coords _ h2]
    exact .refl _

/-- The root mean squared error of the example evaluation does not depend on which side is called the forecast. -/
example {L : Type} [LinearOrder L] [AddCommGroup L] [IsOrderedAddMonoid L] (name : String → L) (order : List L) (degrees : L → ℝ) {p t : Vars (StatVar L (FV ℝ))} (hp : IsDict p) (ht : IsDict t) :
    SameValues (metricAlone rmse (Example.defaultAgg name order degrees) p t) (metricAlone rmse (Example.defaultAgg name order degrees) t p) :=
  C94_rmse (defaultAgg_respects name order degrees) hp ht

/-- The mean absolute error is 3 with either argument order, and the evaluations succeed. -/
example : ∃ x y, metricAlone (absoluteErrorStatistic.toMetric : FMetric ℕ ℚ) exPlain [("t", exKelvin 273 275)] [("t", exKelvin 274 280)] = .ok x ∧
    metricAlone (absoluteErrorStatistic.toMetric : FMetric ℕ ℚ) exPlain [("t", exKelvin 274 280)] [("t", exKelvin 273 275)] = .ok y ∧
    ∃ a b, pyGet? "t" x = some a ∧ pyGet? "t" y = some b ∧ ∀ e, a.val e = .fin 3 ∧ b.val e = .fin 3 := by
  obtain ⟨r, h1, h2⟩ := exPlain_mae
  have h := C94_mae exPlain_respects (p := [("t", exKelvin 273 275)]) (t := [("t", exKelvin 274 280)]) (by simp [IsDict]) (by simp [IsDict])
  obtain ⟨y, hy, hs⟩ := h.ok_left h1
  have ht := hs "t"
  rw [show pyGet? "t" [("t", r)] = some r from rfl] at ht
  cases hb : pyGet? "t" y with
  | none => rw [hb] at ht; cases ht
  | some b =>
    rw [hb] at ht
    have hab : r.Same b := by cases ht; assumption
    have hd : r.dims = ∅ := by
      have : (Except.ok [("t", r)] : Except Err (Vars (DA ℕ (FV ℚ)))) = _ := h1.symm.trans rfl
      cases this
      simp [exPlain, exKelvin, DA.zipWith, DA.dot, DA.sumDims, DA.sumDim, DA.map, absoluteError, error, StatVar.map, StatVar.zipWith]
      try decide
    refine ⟨_, y, h1, hy, r, b, rfl, hb, fun e => ⟨h2 e, ?_⟩⟩
    rw [← hab.val e (fun d hd' => by rw [hd] at hd'; simp at hd')]
    exact h2 e

end examples
end WBX
