import Verif.Lemmas.StateTable

set_option linter.unusedSectionVars false

namespace WBX
open DA
variable {L V W U : Type} [DecidableEq L]

/-- Restrict several dimensions. -/
def DA.restrictMany (a : DA L V) : List (Dim × Finset L) → DA L V
  | [] => a
  | BT :: rest => (a.restrict BT.1 BT.2).restrictMany rest

theorem restrictMany_dims (a : DA L V) (bts : List (Dim × Finset L)) : (a.restrictMany bts).dims = a.dims := by
  induction bts generalizing a with
  | nil => rfl
  | cons bt bts ih => simp only [restrictMany, ih]; rfl

theorem restrictMany_val (a : DA L V) (bts : List (Dim × Finset L)) : (a.restrictMany bts).val = a.val := by
  induction bts generalizing a with
  | nil => rfl
  | cons bt bts ih => simp only [restrictMany, ih]; rfl

theorem restrictMany_congr {a b : DA L V} (h : a.Same b) (bts : List (Dim × Finset L)) :
    (a.restrictMany bts).Same (b.restrictMany bts) := by
  induction bts generalizing a b with
  | nil => exact h
  | cons bt bts ih => exact ih (restrict_congr h _ _)

theorem zipWith_restrict_right (f : V → W → U) (a : DA L V) (m : DA L W) {B : Dim} (T : Finset L) (hB : B ∈ m.dims) :
    (zipWith f a (m.restrict B T)).Same ((zipWith f a m).restrict B T) := by
  refine ⟨rfl, ?_, fun _ _ => rfl⟩
  intro d _
  simp only [zipWith, restrict, joinCoords]
  by_cases hd : d = B
  · subst hd
    by_cases ha : d ∈ a.dims <;> simp [ha, hB]
  · simp [hd]

theorem zipWith_restrict_left (f : V → W → U) (a : DA L V) (m : DA L W) {B : Dim} (T : Finset L) (hB : B ∈ a.dims) :
    (zipWith f (a.restrict B T) m).Same ((zipWith f a m).restrict B T) := by
  refine ⟨rfl, ?_, fun _ _ => rfl⟩
  intro d _
  simp only [zipWith, restrict, joinCoords]
  by_cases hd : d = B
  · subst hd
    by_cases ha : d ∈ m.dims
    · simp only [hB, ha, if_true]
      ext x; simp only [Finset.mem_inter]; tauto
    · simp [ha, hB]
  · simp [hd]

theorem foldl_zipWith_restrict_left (f : V → V → V) (ms : List (DA L V)) (a : DA L V) {B : Dim} (T : Finset L)
    (hB : B ∈ a.dims) :
    (ms.foldl (zipWith f) (a.restrict B T)).Same ((ms.foldl (zipWith f) a).restrict B T) := by
  induction ms generalizing a with
  | nil => exact Same.refl _
  | cons m ms ih =>
    simp only [List.foldl_cons]
    refine Same.trans ?_ (ih (zipWith f a m) (by simp [zipWith, hB]))
    have h := zipWith_restrict_left f a m T hB
    have := foldl_zipWith_congr (ι := DA L V) f ms id id h (fun i _ => Same.refl _)
    simpa using this

/-- Restricting each of the masks to some of its own bins restricts the product to those bins. -/
theorem foldl_zipWith_bins (f : V → V → V) (bs : List (Dim × Finset L × DA L V)) (a : DA L V)
    (h : ∀ b ∈ bs, b.1 ∈ b.2.2.dims) :
    ((bs.map (fun b => b.2.2.restrict b.1 b.2.1)).foldl (zipWith f) a).Same
      (((bs.map (fun b => b.2.2)).foldl (zipWith f) a).restrictMany (bs.map (fun b => (b.1, b.2.1)))) := by
  induction bs generalizing a with
  | nil => exact Same.refl _
  | cons b bs ih =>
    simp only [List.map_cons, List.foldl_cons, restrictMany]
    have hb := h b (by simp)
    have h1 := zipWith_restrict_right f a b.2.2 b.2.1 hb
    refine Same.trans (foldl_zipWith_congr f bs _ _ h1 (fun i _ => Same.refl _)) ?_
    refine Same.trans (ih _ (fun b hb => h b (by simp [hb]))) ?_
    apply restrictMany_congr
    apply foldl_zipWith_restrict_left
    simp [zipWith, hb]

theorem combiningSum_restrict_zero [AddCommMonoid V] {ι : Type} (is : List ι) (a : ι → DA L V) (T : ι → Finset L)
    (B : Dim) (hB : ∀ i ∈ is, B ∈ (a i).dims)
    (h0 : ∀ i ∈ is, ∀ e, (a i).InDom e → e B ∉ T i → (a i).val e = 0)
    (hcov : ∀ i ∈ is, ∀ l ∈ (a i).coords B, ∃ j ∈ is, l ∈ (a j).coords B ∧ l ∈ T j) :
    (combiningSum (is.map (fun i => (a i).restrict B (T i)))).Same (combiningSum (is.map a)) := by
  refine ⟨?_, ?_, ?_⟩
  · ext d
    simp only [mem_combiningSum_dims, List.mem_map, exists_exists_and_eq_and]
    rfl
  · intro d hd
    have hd' : d ∈ (combiningSum (is.map a)).dims := by
      simp only [mem_combiningSum_dims, List.mem_map, exists_exists_and_eq_and] at hd ⊢
      exact hd
    rw [combiningSum_coords _ _ hd, combiningSum_coords _ _ hd']
    ext l
    simp only [mem_outerCoords, List.mem_map, exists_exists_and_eq_and]
    by_cases hdB : d = B
    · subst hdB
      constructor
      · rintro ⟨i, hi, hdi, hl⟩
        exact ⟨i, hi, hdi, by simp [restrict] at hl; exact hl.1⟩
      · rintro ⟨i, hi, hdi, hl⟩
        obtain ⟨j, hj, h1, h2⟩ := hcov i hi l hl
        exact ⟨j, hj, hB j hj, by simp [restrict, h1, h2]⟩
    · simp [restrict, hdB]
  · intro e _
    rw [combiningSum_val, combiningSum_val, List.map_map, List.map_map]
    congr 1
    apply List.map_congr_left
    intro i hi
    simp only [Function.comp]
    by_cases hd : (a i).InDom e
    · by_cases hT : e B ∈ T i
      · rw [if_pos ((inDom_restrict (hB i hi)).mpr ⟨hd, hT⟩), if_pos hd]; rfl
      · rw [if_neg (fun h => hT ((inDom_restrict (hB i hi)).mp h).2), if_pos hd, h0 i hi e hd hT]
    · rw [if_neg (fun h => hd ((inDom_restrict (hB i hi)).mp h).1), if_neg hd]

theorem combiningSum_restrictMany_zero [AddCommMonoid V] {ι : Type} (is : List ι) (bts : List (Dim × (ι → Finset L)))
    (hn : (bts.map Prod.fst).Nodup) (a : ι → DA L V)
    (h : ∀ bt ∈ bts, (∀ i ∈ is, bt.1 ∈ (a i).dims) ∧
      (∀ i ∈ is, ∀ e, (a i).InDom e → e bt.1 ∉ bt.2 i → (a i).val e = 0) ∧
      (∀ i ∈ is, ∀ l ∈ (a i).coords bt.1, ∃ j ∈ is, l ∈ (a j).coords bt.1 ∧ l ∈ bt.2 j)) :
    (combiningSum (is.map (fun i => (a i).restrictMany (bts.map (fun bt => (bt.1, bt.2 i)))))).Same
      (combiningSum (is.map a)) := by
  induction bts generalizing a with
  | nil => exact Same.refl _
  | cons bt bts ih =>
    simp only [List.map_cons, List.nodup_cons] at hn
    obtain ⟨hB, h0, hcov⟩ := h bt (by simp)
    refine Same.trans (ih hn.2 (fun i => (a i).restrict bt.1 (bt.2 i)) ?_) ?_
    · intro bt' hbt'
      have hne : bt'.1 ≠ bt.1 := fun hh => hn.1 (hh ▸ List.mem_map_of_mem hbt')
      obtain ⟨hB', h0', hcov'⟩ := h bt' (by simp [hbt'])
      refine ⟨hB', ?_, ?_⟩
      · intro i hi e he
        exact h0' i hi e ((inDom_restrict (hB i hi)).mp he).1
      · intro i hi l hl
        simp only [restrict, if_neg hne] at hl ⊢
        exact hcov' i hi l hl
    · exact combiningSum_restrict_zero is a _ _ hB h0 hcov

end WBX
