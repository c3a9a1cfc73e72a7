import Verif.Model.RelativeIntensity
import Verif.Lemmas.Cells
import Verif.Props.Mean
import Verif.Lemmas.Table

set_option linter.unusedSectionVars false

/-!
# C69: relative intensity
-/

namespace WBX
open DA
variable {L K : Type} [DecidableEq L] [Field K] [LinearOrder K] [IsStrictOrderedRing K]

theorem sumVal_const (ds : List Dim) (hn : ds.Nodup) (C : Dim → Finset L) (k : ℕ) (e : Dim → L) : sumVal ds C (fun _ => k) e = (∏ d ∈ ds.toFinset, (C d).card) * k := by
  induction ds generalizing k with
  | nil => simp [sumVal]
  | cons d ds ih =>
    rw [List.nodup_cons] at hn
    simp only [sumVal, Finset.sum_const, smul_eq_mul]
    rw [ih hn.2, List.toFinset_cons, Finset.prod_insert (by simpa using hn.1)]
    ring

theorem cells_card {ds : List Dim} {C : Dim → Finset L} {e : Dim → L} {cs : Finset (Dim → L)} (h : ReducedCells ds C e cs) : ∏ d ∈ ds.toFinset, (C d).card = cs.card := by
  have h' : ReducedCells ds.dedup C e cs := by
    intro e'; rw [h e']; simp only [List.mem_dedup]
  have h1 := sumVal_eq_cells ds.dedup (List.nodup_dedup ds) C (fun _ => 1) e cs h'
  rw [sumVal_const _ (List.nodup_dedup ds)] at h1
  have h2 : ds.dedup.toFinset = ds.toFinset := by ext d; simp
  rw [h2] at h1
  simpa using h1

theorem sumChecked_cells {V : Type} [AddCommMonoid V] {ds : List Dim} {a : DA L V} (hd : ∀ d ∈ ds, d ∈ a.dims) {e : Dim → L} {cs : Finset (Dim → L)} (h : ReducedCells ds a.coords e cs) :
    ∃ r, AggState.sumChecked ds a = .ok r ∧ r.val e = ∑ e' ∈ cs, a.val e' ∧ r.dims = a.dims \ ds.toFinset := by
  refine ⟨sumDims ds.dedup a, if_pos (List.all_eq_true.mpr (fun d hdd => decide_eq_true (hd d hdd))), ?_, ?_⟩
  · rw [sumDims_eq]
    apply sumVal_eq_cells _ (List.nodup_dedup ds)
    intro e'; rw [h e']; simp only [List.mem_dedup]
  · rw [sumDims_eq]
    ext d; simp

section formula
variable {eps : K}

/-- The deviation of two finite means. -/
theorem relativeDeviation_fin (x y : K) (h : y + eps ≠ 0) : relativeDeviation (.fin eps) (.fin x) (.fin y) = .fin |(x + eps) / (y + eps) - 1| := by
  unfold relativeDeviation
  rw [FV.fin_add_fin, FV.fin_add_fin, FV.fin_div_fin_of_ne _ h, FV.one_def, FV.fin_sub_fin]
  rfl

end formula

/-- The mean over a set of cells. -/
def meanOver (x : (Dim → L) → K) (cs : Finset (Dim → L)) : K := (∑ e' ∈ cs, x e') / (cs.card : K)

theorem ofNat_eq (n : ℕ) : (FV.ofNat n : FV K) = .fin (n : K) := rfl

section unmasked
variable {ds : List Dim} {eps : K} {p t : StatVar L (FV K)} {e : Dim → L} {cs : Finset (Dim → L)} {x y : (Dim → L) → K}

/-- Without a mask: `abs((mean prediction + epsilon) / (mean target + epsilon) - 1)`, with the means over all cells along the spatial dimensions. -/
theorem C69_value (hm : t.mask = none) (hdp : ∀ d ∈ ds, d ∈ p.arr.dims) (hdt : ∀ d ∈ ds, d ∈ t.arr.dims) (hc : ∀ d ∈ ds, p.arr.coords d = t.arr.coords d)
    (hcs : ReducedCells ds p.arr.coords e cs) (hne : cs.Nonempty) (hp : ∀ e' ∈ cs, p.arr.val e' = .fin (x e')) (ht : ∀ e' ∈ cs, t.arr.val e' = .fin (y e'))
    (h0 : meanOver y cs + eps ≠ 0) :
    ∃ s, relativeIntensity ds eps p t = .ok s ∧ s.arr.val e = .fin |(meanOver x cs + eps) / (meanOver y cs + eps) - 1| ∧
      s.arr.dims = (p.arr.dims ∪ t.arr.dims) \ ds.toFinset := by
  have hct : ReducedCells ds t.arr.coords e cs := by
    intro e'; rw [hcs e']
    constructor
    · exact fun h => ⟨fun d hd => hc d hd ▸ h.1 d hd, h.2⟩
    · exact fun h => ⟨fun d hd => hc d hd ▸ h.1 d hd, h.2⟩
  obtain ⟨rp, h1, h2, h3⟩ := sumChecked_cells hdp hcs
  obtain ⟨rt, h4, h5, h6⟩ := sumChecked_cells hdt hct
  have hcard : (cs.card : K) ≠ 0 := by exact_mod_cast hne.card_pos.ne'
  unfold relativeIntensity
  rw [hm]
  simp only [meanOverDims, h1, h4, bind, Except.bind, pure, Except.pure]
  refine ⟨_, rfl, ?_, ?_⟩
  · simp only [zipWith, DA.map]
    rw [h2, h5, FV.sum_fin cs _ x hp, FV.sum_fin cs _ y ht, cells_card hcs, cells_card hct, ofNat_eq, FV.fin_div_fin_of_ne _ hcard, FV.fin_div_fin_of_ne _ hcard]
    exact relativeDeviation_fin _ _ h0
  · simp only [zipWith, DA.map, h3, h6]
    rw [Finset.union_sdiff_distrib]

/-- A NaN anywhere along the spatial dimensions makes the value NaN. -/
theorem C69_nan (hm : t.mask = none) (hdp : ∀ d ∈ ds, d ∈ p.arr.dims) (hdt : ∀ d ∈ ds, d ∈ t.arr.dims) (hc : ∀ d ∈ ds, p.arr.coords d = t.arr.coords d)
    (hcs : ReducedCells ds p.arr.coords e cs) (hnan : ∃ e' ∈ cs, p.arr.val e' = .nan ∨ t.arr.val e' = .nan) :
    ∃ s, relativeIntensity ds eps p t = .ok s ∧ s.arr.val e = .nan := by
  have hct : ReducedCells ds t.arr.coords e cs := by
    intro e'; rw [hcs e']
    constructor
    · exact fun h => ⟨fun d hd => hc d hd ▸ h.1 d hd, h.2⟩
    · exact fun h => ⟨fun d hd => hc d hd ▸ h.1 d hd, h.2⟩
  obtain ⟨rp, h1, h2, h3⟩ := sumChecked_cells hdp hcs
  obtain ⟨rt, h4, h5, h6⟩ := sumChecked_cells hdt hct
  unfold relativeIntensity
  rw [hm]
  simp only [meanOverDims, h1, h4, bind, Except.bind, pure, Except.pure]
  refine ⟨_, rfl, ?_⟩
  simp only [zipWith, DA.map]
  obtain ⟨e', he', h | h⟩ := hnan
  · rw [h2, FV.sum_nan cs _ e' he' h]
    rfl
  · rw [h5, FV.sum_nan cs _ e' he' h]
    unfold relativeDeviation
    generalize (rp.val e / _ + FV.fin eps : FV K) = z
    cases z <;> rfl

/-- A spatial dimension that the predictions do not have is a `ValueError`. -/
theorem C69_missing_dim (hm : t.mask = none) {d : Dim} (hd : d ∈ ds) (hp : d ∉ p.arr.dims) : relativeIntensity ds eps p t = .error .valueError := by
  unfold relativeIntensity
  rw [hm]
  have : AggState.sumChecked ds p.arr = .error .valueError := by
    unfold AggState.sumChecked
    rw [if_neg]
    intro h
    rw [List.all_eq_true] at h
    exact hp (by simpa using h d hd)
  simp only [meanOverDims, this, bind, Except.bind]

end unmasked

section masked
variable {ds : List Dim} {eps : K} {p t : StatVar L (FV K)} {m : DA L Bool} {e : Dim → L} {cs : Finset (Dim → L)} {x y : (Dim → L) → K}

theorem sum_where {a : DA L (FV K)} {x : (Dim → L) → K} (cs : Finset (Dim → L)) (h : ∀ e' ∈ cs, m.val e' = true → a.val e' = .fin (x e')) :
    ∑ e' ∈ cs, (a.where_ m 0).val e' = .fin (∑ e' ∈ cs with m.val e' = true, x e') := by
  rw [FV.sum_fin cs _ (fun e' => if m.val e' = true then x e' else 0), Finset.sum_filter]
  intro e' he'
  simp only [where_, zipWith]
  by_cases hm : m.val e' = true
  · simp [hm, h e' he' hm]
  · simp only [hm]; rfl

theorem sum_count (cs : Finset (Dim → L)) : ∑ e' ∈ cs, (FV.ofBool (m.val e') : FV K) = .fin ((cs.filter (fun e' => m.val e' = true)).card : K) := by
  rw [FV.sum_fin cs _ (fun e' => if m.val e' = true then 1 else 0)]
  · simp
  · intro e' _
    by_cases h : m.val e' = true
    · simp [FV.ofBool, h, FV.one_def]
    · simp only [FV.ofBool, h]; rfl

theorem masked_setup (hmd : ∀ d ∈ ds, d ∈ m.dims) (hdp : ∀ d ∈ ds, d ∈ p.arr.dims) (hdt : ∀ d ∈ ds, d ∈ t.arr.dims)
    (hcp : ∀ d ∈ ds, p.arr.coords d = m.coords d) (hct : ∀ d ∈ ds, t.arr.coords d = m.coords d) (hm : t.mask = some m) (hcs : ReducedCells ds m.coords e cs) :
    ∃ s mm, relativeIntensity ds eps p t = .ok s ∧ s.mask = some mm ∧
      mm.val e = FV.lt 0 (.fin ((cs.filter (fun e' => m.val e' = true)).card : K)) ∧
      s.arr.val e = relativeDeviation (.fin eps)
        (if FV.lt 0 (.fin ((cs.filter (fun e' => m.val e' = true)).card : K)) then (∑ e' ∈ cs, (p.arr.where_ m 0).val e') / .fin ((cs.filter (fun e' => m.val e' = true)).card : K) else 0)
        (if FV.lt 0 (.fin ((cs.filter (fun e' => m.val e' = true)).card : K)) then (∑ e' ∈ cs, (t.arr.where_ m 0).val e') / .fin ((cs.filter (fun e' => m.val e' = true)).card : K) else 0) := by
  have hw : ∀ a : DA L (FV K), (∀ d ∈ ds, d ∈ a.dims) → (∀ d ∈ ds, a.coords d = m.coords d) →
      (∀ d ∈ ds, d ∈ (a.where_ m 0).dims) ∧ ReducedCells ds (a.where_ m 0).coords e cs := by
    intro a ha hac
    refine ⟨fun d hd => Finset.mem_union_left _ (ha d hd), ?_⟩
    have hcc : ∀ d ∈ ds, (a.where_ m 0).coords d = m.coords d := by
      intro d hd
      simp only [where_, zipWith, joinCoords, if_pos (ha d hd), if_pos (hmd d hd), hac d hd, Finset.inter_self]
    intro e'
    rw [hcs e']
    constructor
    · exact fun h => ⟨fun d hd => by rw [hcc d hd]; exact h.1 d hd, h.2⟩
    · exact fun h => ⟨fun d hd => by rw [← hcc d hd]; exact h.1 d hd, h.2⟩
  obtain ⟨rc, h1, h2, _⟩ := sumChecked_cells (a := m.map (FV.ofBool (K := K))) (cs := cs) (e := e) hmd hcs
  obtain ⟨rp, h3, h4, _⟩ := sumChecked_cells (hw p.arr hdp hcp).1 (hw p.arr hdp hcp).2
  obtain ⟨rt, h5, h6, _⟩ := sumChecked_cells (hw t.arr hdt hct).1 (hw t.arr hdt hct).2
  have h2' : rc.val e = .fin ((cs.filter (fun e' => m.val e' = true)).card : K) := by
    rw [h2]; exact sum_count cs
  unfold relativeIntensity
  rw [hm]
  simp only [h1, h3, h5, bind, Except.bind, pure, Except.pure]
  refine ⟨_, _, rfl, rfl, ?_, ?_⟩
  · simp only [DA.map]; rw [h2']
  · simp only [zipWith, countedMean]
    rw [h2', h4, h6]

/-- With a mask: the means are over the cells that the mask includes, whatever the values elsewhere (also NaN), and the result has a mask that is true there. -/
theorem C69_masked_value (hmd : ∀ d ∈ ds, d ∈ m.dims) (hdp : ∀ d ∈ ds, d ∈ p.arr.dims) (hdt : ∀ d ∈ ds, d ∈ t.arr.dims)
    (hcp : ∀ d ∈ ds, p.arr.coords d = m.coords d) (hct : ∀ d ∈ ds, t.arr.coords d = m.coords d) (hm : t.mask = some m) (hcs : ReducedCells ds m.coords e cs)
    (hne : ∃ e' ∈ cs, m.val e' = true) (hp : ∀ e' ∈ cs, m.val e' = true → p.arr.val e' = .fin (x e')) (ht : ∀ e' ∈ cs, m.val e' = true → t.arr.val e' = .fin (y e'))
    (h0 : meanOver y (cs.filter (fun e' => m.val e' = true)) + eps ≠ 0) :
    ∃ s mm, relativeIntensity ds eps p t = .ok s ∧ s.mask = some mm ∧ mm.val e = true ∧
      s.arr.val e = .fin |(meanOver x (cs.filter (fun e' => m.val e' = true)) + eps) / (meanOver y (cs.filter (fun e' => m.val e' = true)) + eps) - 1| := by
  obtain ⟨s, mm, h1, h2, h3, h4⟩ := masked_setup (eps := eps) hmd hdp hdt hcp hct hm hcs
  have hpos : 0 < (cs.filter (fun e' => m.val e' = true)).card := by
    obtain ⟨e', he', hme⟩ := hne
    exact Finset.card_pos.mpr ⟨e', Finset.mem_filter.mpr ⟨he', hme⟩⟩
  have hposK : (0 : K) < ((cs.filter (fun e' => m.val e' = true)).card : K) := by exact_mod_cast hpos
  have hlt : FV.lt 0 (.fin ((cs.filter (fun e' => m.val e' = true)).card : K)) = true := by
    rw [FV.zero_def]; simpa [FV.lt] using hpos
  rw [hlt] at h3 h4
  refine ⟨s, mm, h1, h2, h3, ?_⟩
  rw [h4, sum_where cs hp, sum_where cs ht]
  simp only [if_true]
  rw [FV.fin_div_fin_of_ne _ hposK.ne', FV.fin_div_fin_of_ne _ hposK.ne']
  exact relativeDeviation_fin _ _ h0

/-- A mask that includes no cell: the value is 0 and masked out. -/
theorem C69_masked_empty (heps : eps ≠ 0) (hmd : ∀ d ∈ ds, d ∈ m.dims) (hdp : ∀ d ∈ ds, d ∈ p.arr.dims) (hdt : ∀ d ∈ ds, d ∈ t.arr.dims)
    (hcp : ∀ d ∈ ds, p.arr.coords d = m.coords d) (hct : ∀ d ∈ ds, t.arr.coords d = m.coords d) (hm : t.mask = some m) (hcs : ReducedCells ds m.coords e cs)
    (hne : ∀ e' ∈ cs, m.val e' = false) :
    ∃ s mm, relativeIntensity ds eps p t = .ok s ∧ s.mask = some mm ∧ mm.val e = false ∧ s.arr.val e = 0 := by
  obtain ⟨s, mm, h1, h2, h3, h4⟩ := masked_setup (eps := eps) hmd hdp hdt hcp hct hm hcs
  have hz : cs.filter (fun e' => m.val e' = true) = ∅ := by
    ext e'; simp only [Finset.mem_filter, Finset.notMem_empty, iff_false, not_and]
    intro he'; simp [hne e' he']
  have hlt : FV.lt (0 : FV K) (.fin ((cs.filter (fun e' => m.val e' = true)).card : K)) = false := by
    rw [hz, FV.zero_def]; simp [FV.lt]
  rw [hlt] at h3 h4
  refine ⟨s, mm, h1, h2, h3, ?_⟩
  rw [h4]
  simp only [Bool.false_eq_true, if_false, FV.zero_def]
  rw [relativeDeviation_fin _ _ (by simpa using heps)]
  simp [heps]

/-- A NaN at a cell that the mask includes makes the value NaN. -/
theorem C69_masked_nan (hmd : ∀ d ∈ ds, d ∈ m.dims) (hdp : ∀ d ∈ ds, d ∈ p.arr.dims) (hdt : ∀ d ∈ ds, d ∈ t.arr.dims)
    (hcp : ∀ d ∈ ds, p.arr.coords d = m.coords d) (hct : ∀ d ∈ ds, t.arr.coords d = m.coords d) (hm : t.mask = some m) (hcs : ReducedCells ds m.coords e cs)
    (hnan : ∃ e' ∈ cs, m.val e' = true ∧ (p.arr.val e' = .nan ∨ t.arr.val e' = .nan)) :
    ∃ s, relativeIntensity ds eps p t = .ok s ∧ s.arr.val e = .nan := by
  obtain ⟨s, mm, h1, h2, h3, h4⟩ := masked_setup (eps := eps) hmd hdp hdt hcp hct hm hcs
  obtain ⟨e', he', hme, hn⟩ := hnan
  have hpos : 0 < (cs.filter (fun e' => m.val e' = true)).card := Finset.card_pos.mpr ⟨e', Finset.mem_filter.mpr ⟨he', hme⟩⟩
  have hlt : FV.lt 0 (.fin ((cs.filter (fun e' => m.val e' = true)).card : K)) = true := by
    rw [FV.zero_def]; simpa [FV.lt] using hpos
  rw [hlt] at h4
  refine ⟨s, h1, ?_⟩
  rw [h4]
  simp only [if_true]
  rcases hn with hn | hn
  · rw [FV.sum_nan cs _ e' he' (by simp [where_, zipWith, hme, hn])]
    rfl
  · rw [FV.sum_nan cs (fun e' => (t.arr.where_ m 0).val e') e' he' (by simp [where_, zipWith, hme, hn])]
    unfold relativeDeviation
    generalize (_ + FV.fin eps : FV K) = z
    cases z <;> rfl

end masked

/-! ### Consequences for the formula -/

/-- Equal means (for targets that are not negative) have the value 0, also if both are 0; twice the target mean, for a target mean much larger than epsilon, nearly 1: at most 1. The value is
never negative. -/
theorem C69_formula {eps : K} (heps : 0 < eps) (x y : K) (hy : 0 ≤ y) :
    y + eps ≠ 0 ∧ 0 ≤ |(x + eps) / (y + eps) - 1| ∧ (|(x + eps) / (y + eps) - 1| = 0 ↔ x = y) ∧ |(x + eps) / (y + eps) - 1| = |x - y| / (y + eps) := by
  have h : 0 < y + eps := by linarith
  have hform : |(x + eps) / (y + eps) - 1| = |x - y| / (y + eps) := by
    have : (x + eps) / (y + eps) - 1 = (x - y) / (y + eps) := by field_simp; ring
    rw [this, abs_div, abs_of_pos h]
  refine ⟨h.ne', abs_nonneg _, ?_, hform⟩
  rw [hform, div_eq_zero_iff]
  constructor
  · rintro (h1 | h1)
    · exact sub_eq_zero.mp (abs_eq_zero.mp h1)
    · exact absurd h1 h.ne'
  · rintro rfl; simp

/-! ### Instance: two cells, the second excluded by the mask -/

def exRain (v : ℕ → FV ℚ) : DA ℕ (FV ℚ) where
  dims := {"x"}
  coords := fun _ => {0, 1}
  val := fun e => v (e "x")

def exRainMask : DA ℕ Bool where
  dims := {"x"}
  coords := fun _ => {0, 1}
  val := fun e => decide (e "x" = 0)

open Classical in
noncomputable def exRainCells : Finset (Dim → ℕ) := {setLabel (fun _ => 0) "x" 0, setLabel (fun _ => 0) "x" 1}

theorem exRainCells_spec : ReducedCells ["x"] (fun _ => {0, 1}) (fun _ => 0) exRainCells := by
  intro e'
  simp only [exRainCells, Finset.mem_insert, Finset.mem_singleton, List.mem_singleton, forall_eq]
  constructor
  · rintro (rfl | rfl)
    · exact ⟨by simp [setLabel], fun d hd => by simp [setLabel]⟩
    · exact ⟨by simp [setLabel], fun d hd => by simp [setLabel, hd]⟩
  · rintro ⟨h | h, h2⟩
    · left; funext d; unfold setLabel; split
      · next hd => rw [hd, h]
      · next hd => exact h2 d hd
    · right; funext d; unfold setLabel; split
      · next hd => rw [hd, h]
      · next hd => exact h2 d hd

/-- Predictions 3 and NaN, targets 1 and 5, the second cell masked out, epsilon 1: the value is `4 / 2 - 1`. -/
example : ∃ s, relativeIntensity ["x"] 1 ⟨exRain (fun i => if i = 0 then .fin 3 else .nan), none⟩ ⟨exRain (fun i => if i = 0 then .fin 1 else .fin 5), some exRainMask⟩ = .ok s ∧
    s.arr.val (fun _ => 0) = .fin 1 := by
  obtain ⟨s, mm, h1, -, -, h2⟩ := C69_masked_value (eps := (1 : ℚ)) (ds := ["x"]) (m := exRainMask) (e := fun _ => 0) (cs := exRainCells)
    (p := ⟨exRain (fun i => if i = 0 then .fin 3 else .nan), none⟩) (t := ⟨exRain (fun i => if i = 0 then .fin 1 else .fin 5), some exRainMask⟩)
    (x := fun _ => 3) (y := fun _ => 1) (by simp [exRainMask]) (by simp [exRain]) (by simp [exRain]) (by simp [exRain, exRainMask]) (by simp [exRain, exRainMask]) rfl exRainCells_spec
    ⟨setLabel (fun _ => 0) "x" 0, by simp [exRainCells], by simp [exRainMask, setLabel]⟩
    (by intro e' _ he'; simp [exRainMask] at he'; simp [exRain, he']) (by intro e' _ he'; simp [exRainMask] at he'; simp [exRain, he'])
    (by unfold meanOver; simp only [Finset.sum_const, nsmul_eq_mul, mul_one]; positivity)
  refine ⟨s, h1, ?_⟩
  rw [h2]
  have hf : exRainCells.filter (fun e' => exRainMask.val e' = true) = {setLabel (fun _ => 0) "x" 0} := by
    ext e'
    rw [Finset.mem_filter]
    simp only [exRainCells, Finset.mem_insert, Finset.mem_singleton, exRainMask]
    constructor
    · rintro ⟨rfl | rfl, h⟩
      · rfl
      · simp [setLabel] at h
    · rintro rfl; exact ⟨Or.inl rfl, by simp [setLabel]⟩
  rw [hf]
  norm_num [meanOver]

end WBX
