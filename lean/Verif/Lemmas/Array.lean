import Verif.Spec.Array
import Mathlib.Algebra.BigOperators.Group.List.Basic
import Mathlib.Algebra.BigOperators.Group.Finset.Sigma
import Mathlib.Data.List.Dedup
import Mathlib.Algebra.BigOperators.Group.Finset.Piecewise
import Mathlib.Data.Finset.Dedup

set_option linter.unusedSectionVars false

namespace WBX
open DA
variable {L V W U : Type} [DecidableEq L]

namespace DA

theorem Same.refl (a : DA L V) : a.Same a := ⟨rfl, fun _ _ => rfl, fun _ _ => rfl⟩

theorem Same.inDom_iff {a b : DA L V} (h : a.Same b) (e : Dim → L) : a.InDom e ↔ b.InDom e := by
  unfold InDom
  rw [← h.dims]
  exact ⟨fun H d hd => h.coords d hd ▸ H d hd, fun H d hd => (h.coords d hd).symm ▸ H d hd⟩

theorem Same.symm {a b : DA L V} (h : a.Same b) : b.Same a :=
  ⟨h.dims.symm, fun d hd => (h.coords d (h.dims ▸ hd)).symm,
    fun e he => (h.val e ((h.inDom_iff e).mpr he)).symm⟩

theorem Same.trans {a b c : DA L V} (h : a.Same b) (h' : b.Same c) : a.Same c :=
  ⟨h.dims.trans h'.dims, fun d hd => (h.coords d hd).trans (h'.coords d (h.dims ▸ hd)),
    fun e he => (h.val e he).trans (h'.val e ((h.inDom_iff e).mp he))⟩

/-! ### outer coordinates and combining sum -/

theorem mem_outerCoords (as : List (DA L V)) (d : Dim) (l : L) :
    l ∈ outerCoords as d ↔ ∃ a ∈ as, d ∈ a.dims ∧ l ∈ a.coords d := by
  induction as with
  | nil => simp [outerCoords]
  | cons a as ih =>
    simp only [outerCoords, Finset.mem_union, ih, List.mem_cons, exists_eq_or_imp]
    by_cases h : d ∈ a.dims <;> simp [h]

theorem foldl_zipWith_add_val [AddCommMonoid V] (as : List (DA L V)) (z : DA L V) (e : Dim → L) :
    (as.foldl (zipWith (· + ·)) z).val e = z.val e + (as.map (fun a => a.val e)).sum := by
  induction as generalizing z with
  | nil => simp
  | cons a as ih =>
    rw [List.foldl_cons, ih]
    simp [zipWith, add_assoc]

theorem mem_foldl_zipWith_dims (f : V → V → V) (as : List (DA L V)) (z : DA L V) (d : Dim) :
    d ∈ (as.foldl (zipWith f) z).dims ↔ d ∈ z.dims ∨ ∃ a ∈ as, d ∈ a.dims := by
  induction as generalizing z with
  | nil => simp
  | cons a as ih =>
    rw [List.foldl_cons, ih]
    simp [zipWith, or_assoc]

theorem foldl_zipWith_coords (f : V → V → V) (C : Dim → Finset L) (as : List (DA L V)) (z : DA L V)
    (hz : ∀ d ∈ z.dims, z.coords d = C d) (has : ∀ a ∈ as, ∀ d ∈ a.dims, a.coords d = C d) :
    ∀ d ∈ (as.foldl (zipWith f) z).dims, (as.foldl (zipWith f) z).coords d = C d := by
  induction as generalizing z with
  | nil => simpa using hz
  | cons a as ih =>
    rw [List.foldl_cons]
    apply ih
    · intro d hd
      have ha := has a (by simp)
      simp only [zipWith, joinCoords, Finset.mem_union] at *
      by_cases h1 : d ∈ z.dims
      · by_cases h2 : d ∈ a.dims
        · simp [h1, h2, hz d h1, ha d h2]
        · simp [h1, h2, hz d h1]
      · have h2 : d ∈ a.dims := by tauto
        simp [h1, ha d h2]
    · intro b hb; exact has b (by simp [hb])

end DA

open DA

theorem mem_combiningSum_dims [AddCommMonoid V] (as : List (DA L V)) (d : Dim) :
    d ∈ (combiningSum as).dims ↔ ∃ a ∈ as, d ∈ a.dims := by
  unfold combiningSum pySum alignOuter
  rw [mem_foldl_zipWith_dims]
  simp [scalar, reindexZero]

theorem combiningSum_coords [AddCommMonoid V] (as : List (DA L V)) (d : Dim)
    (hd : d ∈ (combiningSum as).dims) : (combiningSum as).coords d = outerCoords as d := by
  unfold combiningSum pySum alignOuter at *
  refine foldl_zipWith_coords _ (outerCoords as) _ _ (by simp [scalar]) ?_ d hd
  intro a ha d _
  rw [List.mem_map] at ha
  obtain ⟨b, _, rfl⟩ := ha
  rfl

theorem combiningSum_val [AddCommMonoid V] (as : List (DA L V)) (e : Dim → L) :
    (combiningSum as).val e = (as.map (fun a => if a.InDom e then a.val e else 0)).sum := by
  unfold combiningSum pySum alignOuter
  rw [foldl_zipWith_add_val]
  simp only [scalar, zero_add, List.map_map]
  rfl

theorem combiningSum_congr [AddCommMonoid V] {ι : Type} (is : List ι) (f g : ι → DA L V)
    (h : ∀ i ∈ is, (f i).Same (g i)) :
    (combiningSum (is.map f)).Same (combiningSum (is.map g)) := by
  have hd : (combiningSum (is.map f)).dims = (combiningSum (is.map g)).dims := by
    ext d
    simp only [mem_combiningSum_dims, List.mem_map, exists_exists_and_eq_and]
    exact ⟨fun ⟨i, hi, hd⟩ => ⟨i, hi, (h i hi).dims ▸ hd⟩, fun ⟨i, hi, hd⟩ => ⟨i, hi, (h i hi).dims ▸ hd⟩⟩
  refine ⟨hd, ?_, ?_⟩
  · intro d hdd
    rw [combiningSum_coords _ _ hdd, combiningSum_coords _ _ (hd ▸ hdd)]
    ext l
    simp only [mem_outerCoords, List.mem_map, exists_exists_and_eq_and]
    constructor
    · rintro ⟨i, hi, h1, h2⟩
      exact ⟨i, hi, (h i hi).dims ▸ h1, (h i hi).coords d h1 ▸ h2⟩
    · rintro ⟨i, hi, h1, h2⟩
      have h1' : d ∈ (f i).dims := (h i hi).dims ▸ h1
      exact ⟨i, hi, h1', (h i hi).coords d h1' ▸ h2⟩
  · intro e _
    rw [combiningSum_val, combiningSum_val, List.map_map, List.map_map]
    congr 1
    apply List.map_congr_left
    intro i hi
    simp only [Function.comp]
    by_cases hdom : (f i).InDom e
    · rw [if_pos hdom, if_pos (((h i hi).inDom_iff e).mp hdom), (h i hi).val e hdom]
    · rw [if_neg hdom, if_neg (fun H => hdom (((h i hi).inDom_iff e).mpr H))]

theorem combiningSum_dims_of_same [AddCommMonoid V] {as : List (DA L V)} {D : Finset Dim}
    (hne : as ≠ []) (h : ∀ a ∈ as, a.dims = D) : (combiningSum as).dims = D := by
  ext d
  rw [mem_combiningSum_dims]
  constructor
  · rintro ⟨a, ha, hd⟩; exact h a ha ▸ hd
  · intro hd
    obtain ⟨a, as, rfl⟩ := List.exists_cons_of_ne_nil hne
    exact ⟨a, by simp, by rw [h a (by simp)]; exact hd⟩

/-- If one of the inputs has the cell, so has the combining sum (same dimensions). -/
theorem inDom_combiningSum_of_mem [AddCommMonoid V] {as : List (DA L V)} {D : Finset Dim}
    (h : ∀ a ∈ as, a.dims = D) {a : DA L V} (ha : a ∈ as) {e : Dim → L} (he : a.InDom e) :
    (combiningSum as).InDom e := by
  intro d hd
  rw [combiningSum_coords _ _ hd, mem_outerCoords]
  rw [combiningSum_dims_of_same (List.ne_nil_of_mem ha) h] at hd
  refine ⟨a, ha, by rw [h a ha]; exact hd, he d (by rw [h a ha]; exact hd)⟩

/-- Grouping: summing nonempty groups and then the group sums is summing everything. -/
theorem combiningSum_flatten [AddCommMonoid V] {D : Finset Dim} (ass : List (List (DA L V)))
    (hne : ∀ as ∈ ass, as ≠ []) (h : ∀ as ∈ ass, ∀ a ∈ as, a.dims = D) :
    (combiningSum (ass.map combiningSum)).Same (combiningSum ass.flatten) := by
  have hd : (combiningSum (ass.map combiningSum)).dims = (combiningSum ass.flatten).dims := by
    ext d
    simp only [mem_combiningSum_dims, List.mem_map, exists_exists_and_eq_and, List.mem_flatten]
    constructor
    · rintro ⟨as, has, a, ha, hd⟩; exact ⟨a, ⟨as, has, ha⟩, hd⟩
    · rintro ⟨a, ⟨as, has, ha⟩, hd⟩; exact ⟨as, has, a, ha, hd⟩
  refine ⟨hd, ?_, ?_⟩
  · intro d hdd
    rw [combiningSum_coords _ _ hdd, combiningSum_coords _ _ (hd ▸ hdd)]
    ext l
    simp only [mem_outerCoords, List.mem_map, exists_exists_and_eq_and, List.mem_flatten]
    constructor
    · rintro ⟨as, has, h1, h2⟩
      rw [combiningSum_coords _ _ h1, mem_outerCoords] at h2
      obtain ⟨a, ha, h3, h4⟩ := h2
      exact ⟨a, ⟨as, has, ha⟩, h3, h4⟩
    · rintro ⟨a, ⟨as, has, ha⟩, h3, h4⟩
      have h1 : d ∈ (combiningSum as).dims := (mem_combiningSum_dims as d).mpr ⟨a, ha, h3⟩
      refine ⟨as, has, h1, ?_⟩
      rw [combiningSum_coords _ _ h1, mem_outerCoords]
      exact ⟨a, ha, h3, h4⟩
  · intro e _
    rw [combiningSum_val, combiningSum_val, List.map_map, List.map_flatten, List.sum_flatten,
      List.map_map]
    congr 1
    apply List.map_congr_left
    intro as has
    simp only [Function.comp]
    by_cases hdom : (combiningSum as).InDom e
    · rw [if_pos hdom, combiningSum_val]
    · rw [if_neg hdom]
      symm
      apply List.sum_eq_zero
      intro v hv
      rw [List.mem_map] at hv
      obtain ⟨a, ha, rfl⟩ := hv
      rw [if_neg]
      intro H
      exact hdom (inDom_combiningSum_of_mem (h as has) ha H)

theorem combiningSum_perm [AddCommMonoid V] {as bs : List (DA L V)} (h : as.Perm bs) :
    (combiningSum as).Same (combiningSum bs) := by
  have hd : (combiningSum as).dims = (combiningSum bs).dims := by
    ext d; simp only [mem_combiningSum_dims, h.mem_iff]
  refine ⟨hd, ?_, ?_⟩
  · intro d hdd
    rw [combiningSum_coords _ _ hdd, combiningSum_coords _ _ (hd ▸ hdd)]
    ext l
    simp only [mem_outerCoords, h.mem_iff]
  · intro e _
    rw [combiningSum_val, combiningSum_val]
    exact (h.map _).sum_eq

theorem combiningSum_singleton [AddCommMonoid V] (a : DA L V) : (combiningSum [a]).Same a := by
  have hd : (combiningSum [a]).dims = a.dims := by
    ext d; simp [mem_combiningSum_dims]
  refine ⟨hd, ?_, ?_⟩
  · intro d hdd
    rw [combiningSum_coords _ _ hdd]
    ext l
    rw [hd] at hdd
    simp [mem_outerCoords, hdd]
  · intro e he
    rw [combiningSum_val]
    have : a.InDom e := by
      intro d hdd
      have := he d (hd ▸ hdd)
      rw [combiningSum_coords _ _ (hd ▸ hdd), mem_outerCoords] at this
      simpa [hdd] using this
    simp [this]

namespace DA

/-! ### sums over dimensions -/

/-- The values of an iterated sum. -/
def sumVal [AddCommMonoid V] : List Dim → (Dim → Finset L) → ((Dim → L) → V) → (Dim → L) → V
  | [], _, f, e => f e
  | d :: ds, C, f, e => sumVal ds C (fun e => ∑ l ∈ C d, f (setLabel e d l)) e

theorem sumDims_eq [AddCommMonoid V] (ds : List Dim) (a : DA L V) :
    sumDims ds a = { dims := a.dims \ ds.toFinset, coords := a.coords, val := sumVal ds a.coords a.val } := by
  induction ds generalizing a with
  | nil =>
    simp only [sumDims, List.toFinset_nil, Finset.sdiff_empty]; rfl
  | cons d ds ih =>
    rw [sumDims, ih]
    simp only [sumDim, sumVal, List.toFinset_cons, DA.mk.injEq, and_true]
    ext x
    simp only [Finset.mem_sdiff, Finset.mem_erase, Finset.mem_insert, not_or]
    tauto

theorem sumVal_sum [AddCommMonoid V] {ι : Type} (is : List ι) (ds : List Dim) (C : Dim → Finset L)
    (f : ι → (Dim → L) → V) (e : Dim → L) :
    sumVal ds C (fun e => (is.map (fun i => f i e)).sum) e = (is.map (fun i => sumVal ds C (f i) e)).sum := by
  induction ds generalizing f e with
  | nil => rfl
  | cons d ds ih =>
    simp only [sumVal]
    rw [← ih]
    congr 1
    funext e
    clear ih
    induction is with
    | nil => simp
    | cons i is ih2 =>
      simp only [List.map_cons, List.sum_cons, Finset.sum_add_distrib]
      rw [ih2]

theorem sumVal_congr_coords [AddCommMonoid V] (ds : List Dim) (C C' : Dim → Finset L)
    (h : ∀ d ∈ ds, C d = C' d) (f : (Dim → L) → V) (e : Dim → L) : sumVal ds C f e = sumVal ds C' f e := by
  induction ds generalizing f with
  | nil => rfl
  | cons d ds ih =>
    simp only [sumVal]
    rw [ih (fun d hd => h d (by simp [hd]))]
    rw [h d (by simp)]

theorem sumVal_append [AddCommMonoid V] (ds ds' : List Dim) (C : Dim → Finset L) (f : (Dim → L) → V)
    (e : Dim → L) : sumVal (ds ++ ds') C f e = sumVal ds' C (sumVal ds C f) e := by
  induction ds generalizing f with
  | nil => rfl
  | cons d ds ih => simp only [List.cons_append, sumVal]; rw [ih]

theorem setLabel_comm (e : Dim → L) {d d' : Dim} (h : d ≠ d') (l l' : L) :
    setLabel (setLabel e d l) d' l' = setLabel (setLabel e d' l') d l := by
  funext x
  simp only [setLabel]
  by_cases h1 : x = d <;> by_cases h2 : x = d' <;> simp [h1, h2]
  · exact absurd (h1.symm.trans h2) h
  · intro h3; exact absurd h3 h
  · intro h3; exact absurd h3.symm h

theorem sumVal_perm [AddCommMonoid V] {ds ds' : List Dim} (h : ds.Perm ds') (hn : ds.Nodup)
    (C : Dim → Finset L) (f : (Dim → L) → V) : sumVal ds C f = sumVal ds' C f := by
  induction h generalizing f with
  | nil => rfl
  | cons x _ ih => funext e; simp only [sumVal]; rw [ih (List.nodup_cons.mp hn).2]
  | swap x y l =>
    funext e
    simp only [sumVal]
    congr 1
    funext e
    rw [Finset.sum_comm]
    have hxy : y ≠ x := by
      simp only [List.nodup_cons, List.mem_cons, not_or] at hn
      exact hn.1.1
    apply Finset.sum_congr rfl
    intro l _
    apply Finset.sum_congr rfl
    intro l' _
    rw [setLabel_comm e hxy.symm]
  | trans h1 _ ih1 ih2 => exact (ih1 hn f).trans (ih2 (h1.nodup_iff.mp hn) f)

/-! ### congruence -/

theorem inDom_zipWith {f : V → W → U} {a : DA L V} {b : DA L W} {e : Dim → L} :
    (zipWith f a b).InDom e ↔ a.InDom e ∧ b.InDom e := by
  simp only [InDom, zipWith, joinCoords, Finset.mem_union]
  constructor
  · intro h
    refine ⟨fun d hd => ?_, fun d hd => ?_⟩
    · have := h d (Or.inl hd)
      rw [if_pos hd] at this
      split at this
      · exact (Finset.mem_inter.mp this).1
      · exact this
    · have := h d (Or.inr hd)
      split at this
      · exact (Finset.mem_inter.mp this).2
      · exact this
  · rintro ⟨h1, h2⟩ d hd
    by_cases ha : d ∈ a.dims <;> by_cases hb : d ∈ b.dims <;> simp [ha, hb]
    · exact ⟨h1 d ha, h2 d hb⟩
    · exact h1 d ha
    · exact h2 d hb
    · tauto

theorem zipWith_congr {f : V → W → U} {a a' : DA L V} {b b' : DA L W} (ha : a.Same a') (hb : b.Same b') :
    (zipWith f a b).Same (zipWith f a' b') := by
  refine ⟨by simp [zipWith, ha.dims, hb.dims], ?_, ?_⟩
  · intro d hd
    simp only [zipWith, Finset.mem_union] at hd
    simp only [zipWith, joinCoords, ← ha.dims, ← hb.dims]
    by_cases h1 : d ∈ a.dims <;> by_cases h2 : d ∈ b.dims <;> simp [h1, h2]
    · rw [ha.coords d h1, hb.coords d h2]
    · rw [ha.coords d h1]
    · rw [hb.coords d h2]
    · tauto
  · intro e he
    rw [inDom_zipWith] at he
    simp [zipWith, ha.val e he.1, hb.val e he.2]

theorem foldl_zipWith_congr {ι : Type} (f : V → V → V) (is : List ι) (g h : ι → DA L V) {a a' : DA L V}
    (ha : a.Same a') (hgh : ∀ i ∈ is, (g i).Same (h i)) :
    ((is.map g).foldl (zipWith f) a).Same ((is.map h).foldl (zipWith f) a') := by
  induction is generalizing a a' with
  | nil => simpa using ha
  | cons i is ih =>
    simp only [List.map_cons, List.foldl_cons]
    exact ih (zipWith_congr ha (hgh i (by simp))) (fun j hj => hgh j (by simp [hj]))

theorem sumDim_congr [AddCommMonoid V] {a b : DA L V} (h : a.Same b) {d : Dim} (hd : d ∈ a.dims) :
    (sumDim d a).Same (sumDim d b) := by
  refine ⟨by simp [sumDim, h.dims], fun x hx => h.coords x (Finset.mem_of_mem_erase hx), ?_⟩
  intro e he
  simp only [sumDim]
  rw [← h.coords d hd]
  apply Finset.sum_congr rfl
  intro l hl
  apply h.val
  intro x hx
  simp only [setLabel]
  by_cases hxd : x = d
  · subst hxd; simpa using hl
  · simp only [hxd, if_false]
    exact he x (Finset.mem_erase.mpr ⟨hxd, hx⟩)

theorem sumDims_congr [AddCommMonoid V] {a b : DA L V} (h : a.Same b) {ds : List Dim} (hn : ds.Nodup)
    (hds : ∀ d ∈ ds, d ∈ a.dims) : (sumDims ds a).Same (sumDims ds b) := by
  induction ds generalizing a b with
  | nil => exact h
  | cons d ds ih =>
    rw [List.nodup_cons] at hn
    simp only [sumDims]
    apply ih (sumDim_congr h (hds d (by simp))) hn.2
    intro x hx
    simp only [sumDim, Finset.mem_erase]
    exact ⟨fun hxd => hn.1 (hxd ▸ hx), hds x (by simp [hx])⟩

/-! ### restriction to a chunk -/

theorem inDom_restrict {c : Dim} {S : Finset L} {a : DA L V} {e : Dim → L} (hc : c ∈ a.dims) :
    (a.restrict c S).InDom e ↔ a.InDom e ∧ e c ∈ S := by
  simp only [InDom, restrict]
  constructor
  · intro h
    refine ⟨fun d hd => ?_, ?_⟩
    · have := h d hd
      by_cases hdc : d = c
      · simp only [hdc, if_true] at this ⊢; exact (Finset.mem_inter.mp this).1
      · simpa [hdc] using this
    · have := h c hc
      simp only [if_true] at this; exact (Finset.mem_inter.mp this).2
  · rintro ⟨h1, h2⟩ d hd
    by_cases hdc : d = c
    · subst hdc; simpa using ⟨h1 d hd, h2⟩
    · simpa [hdc] using h1 d hd

theorem restrict_zipWith (c : Dim) (S : Finset L) (f : V → W → U) (a : DA L V) (b : DA L W) :
    zipWith f (a.restrict c S) (b.restrict c S) = (zipWith f a b).restrict c S := by
  simp only [zipWith, restrict, DA.mk.injEq, true_and, and_true]
  funext d
  simp only [joinCoords, restrict]
  by_cases hdc : d = c <;> simp [hdc]
  · by_cases h1 : c ∈ a.dims <;> by_cases h2 : c ∈ b.dims <;> simp [h1, h2]
    ext l; simp only [Finset.mem_inter]; tauto

theorem restrict_map (c : Dim) (S : Finset L) (f : V → W) (a : DA L V) :
    (a.restrict c S).map f = (a.map f).restrict c S := rfl

theorem restrict_congr {a b : DA L V} (h : a.Same b) (c : Dim) (S : Finset L) :
    (a.restrict c S).Same (b.restrict c S) := by
  refine ⟨h.dims, ?_, ?_⟩
  · intro d hd
    simp only [restrict]
    rw [h.coords d hd]
  · intro e he
    apply h.val
    intro d hd
    have := he d hd
    simp only [restrict] at this
    split at this
    · exact (Finset.mem_inter.mp this).1
    · exact this

theorem foldl_zipWith_restrict (f : V → V → V) (c : Dim) (S : Finset L) (bs : List (DA L V)) (a : DA L V) :
    (bs.map (restrict c S)).foldl (zipWith f) (a.restrict c S)
      = (bs.foldl (zipWith f) a).restrict c S := by
  induction bs generalizing a with
  | nil => rfl
  | cons b bs ih =>
    simp only [List.map_cons, List.foldl_cons]
    rw [restrict_zipWith, ih]

theorem sumDims_restrict_of_not_mem [AddCommMonoid V] {c : Dim} {S : Finset L} {ds : List Dim}
    (hc : c ∉ ds) (a : DA L V) : sumDims ds (a.restrict c S) = (sumDims ds a).restrict c S := by
  rw [sumDims_eq, sumDims_eq]
  simp only [restrict, DA.mk.injEq, true_and]
  funext e
  apply sumVal_congr_coords
  intro d hd
  rw [if_neg]
  rintro rfl
  exact hc hd

theorem sum_restrict_eq [AddCommMonoid V] {Ss : List (Finset L)} {C : Finset L} (h : Partition Ss C)
    (g : L → V) : (Ss.map (fun S => ∑ l ∈ C ∩ S, g l)).sum = ∑ l ∈ C, g l := by
  obtain ⟨hp, hc⟩ := h
  induction Ss generalizing C with
  | nil =>
    have : C = ∅ := Finset.eq_empty_of_forall_notMem (fun l hl => by simpa using hc l hl)
    simp [this]
  | cons S Ss ih =>
    rw [List.pairwise_cons] at hp
    simp only [List.map_cons, List.sum_cons]
    have hrest : (Ss.map (fun T => ∑ l ∈ C ∩ T, g l)).sum = ∑ l ∈ C \ S, g l := by
      have hc' : ∀ l ∈ C \ S, ∃ T ∈ Ss, l ∈ T := by
        intro l hl
        rw [Finset.mem_sdiff] at hl
        have := hc l hl.1
        simp only [List.mem_cons, exists_eq_or_imp] at this
        exact this.resolve_left hl.2
      rw [← ih hp.2 hc']
      congr 1
      apply List.map_congr_left
      intro T hT
      apply Finset.sum_congr _ (fun _ _ => rfl)
      ext l
      simp only [Finset.mem_inter, Finset.mem_sdiff]
      constructor
      · rintro ⟨h1, h2⟩; exact ⟨⟨h1, fun hS => hp.1 T hT l hS h2⟩, h2⟩
      · rintro ⟨⟨h1, _⟩, h2⟩; exact ⟨h1, h2⟩
    rw [hrest, Finset.sum_inter_add_sum_sdiff]

theorem sumVal_restrict_sum [AddCommMonoid V] {c : Dim} {Ss : List (Finset L)} {ds : List Dim}
    (hn : ds.Nodup) (hc : c ∈ ds) (C : Dim → Finset L) (hP : Partition Ss (C c)) (f : (Dim → L) → V)
    (e : Dim → L) :
    (Ss.map (fun S => sumVal ds (fun d => if d = c then C d ∩ S else C d) f e)).sum = sumVal ds C f e := by
  induction ds generalizing f with
  | nil => simp at hc
  | cons d ds ih =>
    rw [List.nodup_cons] at hn
    simp only [sumVal]
    by_cases hdc : d = c
    · subst hdc
      have hcongr : ∀ S ∈ Ss, sumVal ds (fun d' => if d' = d then C d' ∩ S else C d')
          (fun e => ∑ l ∈ if d = d then C d ∩ S else C d, f (setLabel e d l)) e =
          sumVal ds C (fun e => ∑ l ∈ C d ∩ S, f (setLabel e d l)) e := by
        intro S _
        simp only [if_true]
        apply sumVal_congr_coords
        intro x hx
        rw [if_neg]
        rintro rfl
        exact hn.1 hx
      rw [List.map_congr_left hcongr, ← sumVal_sum]
      congr 1
      funext e
      exact sum_restrict_eq hP _
    · simp only [hdc, if_false]
      apply ih hn.2
      rcases List.mem_cons.mp hc with h | h
      · exact absurd h.symm hdc
      · exact h

end DA
end WBX
