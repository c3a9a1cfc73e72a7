import Verif.Props.Deterministic

/-!
# Concrete one-dimensional evaluations, used to show that the hypotheses of the metric theorems are met
-/

set_option linter.unusedSectionVars false

namespace WBX
open DA Aggregator

/-- Unweighted, unbinned masked mean over `x`. -/
noncomputable def mAgg : Aggregator ℕ (FV ℝ) := { reduceDims := ["x"], masked := true }

open Classical in
/-- Evaluation cells of a one-dimensional statistic. -/
theorem evaluated1 (s : StatVar ℕ (FV ℝ)) (C : Finset ℕ) (hc : s.arr.coords "x" = C)
    (hm : ∀ m, s.mask = some m → m.dims ⊆ s.arr.dims ∧ m.coords = s.arr.coords) (S : Finset ℕ)
    (hS : ∀ n, n ∈ S ↔ n ∈ C ∧ counted mAgg s (exCell n) = true)
    (hf : ∀ n ∈ S, (s.arr.val (exCell n)).isFin = true) : Evaluated mAgg s (exCell 0) (S.image exCell) := by
  refine ⟨⟨by simp [mAgg], by simp [mAgg]⟩, by simp [allFactors, mAgg], hm, by simp [allFactors, mAgg], ?_, ?_⟩
  · intro e'
    have hr : mAgg.reduceDims = ["x"] := rfl
    rw [hr]
    simp only [List.mem_singleton, forall_eq, hc, Finset.mem_image]
    constructor
    · rintro ⟨n, hn, rfl⟩
      obtain ⟨h1, h2⟩ := (hS n).mp hn
      exact ⟨⟨by simpa [exCell] using h1, fun d hd => by simp [exCell, hd]⟩, h2⟩
    · rintro ⟨⟨h1, h2⟩, h3⟩
      have he := exCell_eq (e' := e') rfl (fun d hd => by rw [h2 d hd]; simp [exCell, hd])
      refine ⟨e' "x", (hS _).mpr ⟨h1, ?_⟩, he.symm⟩
      rw [← he]; exact h3
  · intro e' he'
    obtain ⟨n, hn, rfl⟩ := Finset.mem_image.mp he'
    exact hf n hn

theorem exCell_inj : Function.Injective exCell := fun m n h => by
  have := congrFun h "x"
  simpa [exCell] using this

open Classical in
theorem mAgg_mean (s : StatVar ℕ (FV ℝ)) (S : Finset ℕ) (hS : 0 < S.card)
    (E : Evaluated mAgg s (exCell 0) (S.image exCell)) {q} (h : mAgg.aggregateStatVar s = .ok (some q)) :
    (DA.zipWith (· / ·) q.1 q.2).val (exCell 0) = FV.fin ((∑ n ∈ S, (s.arr.val (exCell n)).num) / S.card) := by
  have hw : ∀ e', cellWeight mAgg s e' = 1 := by intro e'; simp [cellWeight, allFactors, mAgg]
  rw [evaluated_mean E h (by
    simp only [hw, Finset.sum_const, nsmul_eq_mul, mul_one]
    rw [Finset.card_image_of_injective _ exCell_inj]
    exact_mod_cast hS.ne')]
  congr 1
  unfold wmean
  simp only [hw, mul_one, Finset.sum_const, nsmul_eq_mul]
  rw [Finset.card_image_of_injective _ exCell_inj, Finset.sum_image (fun _ _ _ _ h => exCell_inj h)]

open Classical in
theorem mAgg_good (s : StatVar ℕ (FV ℝ)) (S : Finset ℕ) (hS : 0 < S.card) : GoodWeights mAgg s (S.image exCell) := by
  have hw : ∀ e', cellWeight mAgg s e' = 1 := by intro e'; simp [cellWeight, allFactors, mAgg]
  refine ⟨fun e' _ => by simp [hw], ?_⟩
  simp only [hw, Finset.sum_const, nsmul_eq_mul, mul_one]
  rw [Finset.card_image_of_injective _ exCell_inj]
  exact_mod_cast hS

end WBX
