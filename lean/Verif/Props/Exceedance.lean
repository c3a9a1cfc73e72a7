import Verif.Lemmas.WMean
import Verif.Lemmas.OneDim

/-!
# C25 (error exceedance)
-/

set_option linter.unusedSectionVars false

namespace WBX
open DA Aggregator
variable {L : Type} [DecidableEq L] {K : Type} [Field K] [LinearOrder K] [IsStrictOrderedRing K]

/-- **C25** The statistic at a cell: NaN if the error or the threshold is NaN, otherwise 1 if the absolute error exceeds the
threshold and 0 if not. -/
theorem C25_pointwise (th : DA L (FV K)) (a b : StatVar L (FV K)) (e : Dim → L) :
    let err := a.arr.val e - b.arr.val e
    let x := (errorExceedance th a b).arr.val e
    (err.isnan = true ∨ (th.val e).isnan = true → x = FV.nan) ∧
    (err.isnan = false → (th.val e).isnan = false → x = if FV.lt (th.val e) err.abs = true then 1 else 0) := by
  simp only
  have : (errorExceedance th a b).arr.val e =
      FV.keepIf (FV.keepIf (FV.ofBool (FV.lt (th.val e) (a.arr.val e - b.arr.val e).abs))
        (!(a.arr.val e - b.arr.val e).abs.isnan)) (!(th.val e).isnan) := rfl
  rw [this, FV.abs_isnan]
  constructor
  · rintro (h | h)
    · rw [h]; unfold FV.keepIf; simp
    · rw [h]; unfold FV.keepIf; simp
  · intro h h'
    rw [h, h']; unfold FV.keepIf FV.ofBool; simp

/-- **C25** On finite data: the indicator of `|prediction - target| > threshold`. -/
theorem C25_finite (th : DA L (FV K)) (a b : StatVar L (FV K)) (e : Dim → L) {h x y : K} (hh : th.val e = FV.fin h)
    (hx : a.arr.val e = FV.fin x) (hy : b.arr.val e = FV.fin y) :
    (errorExceedance th a b).arr.val e = FV.fin (if |x - y| > h then 1 else 0) := by
  have := (C25_pointwise th a b e).2
  simp only [hh, hx, hy, FV.fin_sub_fin, FV.abs] at this
  rw [this rfl rfl]
  unfold FV.lt
  by_cases hlt : h < |x - y| <;> simp [hlt, FV.one_def, FV.zero_def]

example : ∃ (th : DA ℕ (FV ℚ)) (a b : StatVar ℕ (FV ℚ)) (e : Dim → ℕ),
    th.val e = FV.fin 1 ∧ a.arr.val e = FV.fin 5 ∧ b.arr.val e = FV.fin 3 ∧
    (errorExceedance th a b).arr.val e = FV.fin 1 := by
  refine ⟨.scalar (.fin 1), ⟨.scalar (.fin 5), none⟩, ⟨.scalar (.fin 3), none⟩, fun _ => 0, rfl, rfl, rfl, ?_⟩
  rw [C25_finite (h := 1) (x := 5) (y := 3) _ _ _ _ rfl rfl rfl]
  norm_num

/-- **C25** Raising the threshold never raises the statistic. -/
theorem C25_antitone (th th' : DA L (FV K)) (a b : StatVar L (FV K)) (e : Dim → L) {x x' : K}
    (hle : FV.le (th.val e) (th'.val e) = true)
    (hx : (errorExceedance th a b).arr.val e = FV.fin x) (hx' : (errorExceedance th' a b).arr.val e = FV.fin x') : x' ≤ x := by
  obtain ⟨p1, p2⟩ := C25_pointwise th a b e
  obtain ⟨q1, q2⟩ := C25_pointwise th' a b e
  have n1 : (a.arr.val e - b.arr.val e).isnan = false := by
    by_contra h
    rw [p1 (.inl (by simpa using h))] at hx
    cases hx
  have n2 : (th.val e).isnan = false := by
    by_contra h
    rw [p1 (.inr (by simpa using h))] at hx
    cases hx
  have n3 : (th'.val e).isnan = false := by
    by_contra h
    rw [q1 (.inr (by simpa using h))] at hx'
    cases hx'
  rw [p2 n1 n2] at hx
  rw [q2 n1 n3] at hx'
  have himp : FV.lt (th'.val e) (a.arr.val e - b.arr.val e).abs = true → FV.lt (th.val e) (a.arr.val e - b.arr.val e).abs = true := by
    revert hle
    rcases th.val e with _ | g | g <;> rcases th'.val e with _ | g' | g' <;>
      rcases (a.arr.val e - b.arr.val e).abs with _ | d | d <;> simp [FV.le, FV.lt]
    all_goals first | (cases g <;> simp; done) | (cases g <;> cases g' <;> simp; done) | (cases g <;> cases d <;> simp; done) | (cases g <;> cases g' <;> cases d <;> simp; done) | (cases g' <;> simp; done) | (cases g' <;> cases d <;> simp; done) | (exact fun h1 h2 => lt_of_le_of_lt h1 h2) | skip
  by_cases h' : FV.lt (th'.val e) (a.arr.val e - b.arr.val e).abs = true
  · rw [if_pos (himp h'), FV.one_def, FV.fin.injEq] at hx
    rw [if_pos h', FV.one_def, FV.fin.injEq] at hx'
    rw [← hx, ← hx']
  · rw [if_neg h', FV.zero_def, FV.fin.injEq] at hx'
    rw [← hx']
    split at hx
    · rw [FV.one_def, FV.fin.injEq] at hx
      rw [← hx]; exact zero_le_one
    · rw [FV.zero_def, FV.fin.injEq] at hx
      rw [← hx]

open Classical in
/-- **C25** The metric value is the share of the total weight of the cells at which the threshold is exceeded; a number
between 0 and 1. -/
theorem C25_mean {agg : Aggregator L (FV K)} {p t : Vars (StatVar L (FV K))} (hp : (p.map Prod.fst).Nodup)
    (ht : (t.map Prod.fst).Nodup) {v : String} {a b : StatVar L (FV K)} (ha : (v, a) ∈ p) (hb : (v, b) ∈ t)
    (th : DA L (FV K)) {e : Dim → L} {cs : Finset (Dim → L)} (E : Evaluated agg (errorExceedance th a b) e cs)
    (hW : GoodWeights agg (errorExceedance th a b) cs) {x : DA L (FV K)}
    (h : ValueOf (errorExceedanceStatistic th).toMetric agg p t v x) :
    ∃ r, x.val e = FV.fin r ∧ 0 ≤ r ∧ r ≤ 1 ∧
      r = (∑ e' ∈ cs.filter (fun e' => FV.lt (th.val e') (a.arr.val e' - b.arr.val e').abs = true),
            cellWeight agg (errorExceedance th a b) e') / ∑ e' ∈ cs, cellWeight agg (errorExceedance th a b) e' := by
  obtain ⟨q, hq, rfl⟩ := isMeanOf_statOf hp ht ha hb (valueOf_statistic h)
  refine ⟨_, evaluated_mean E hq hW.2.ne', ?_⟩
  have hv : ∀ e' ∈ cs, ((errorExceedance th a b).arr.val e').num =
      if FV.lt (th.val e') (a.arr.val e' - b.arr.val e').abs = true then 1 else 0 := by
    intro e' he'
    have hf := E.finite e' he'
    obtain ⟨p1, p2⟩ := C25_pointwise th a b e'
    have n1 : (a.arr.val e' - b.arr.val e').isnan = false := by
      by_contra h
      rw [p1 (.inl (by simpa using h))] at hf
      simp [FV.isFin] at hf
    have n2 : (th.val e').isnan = false := by
      by_contra h
      rw [p1 (.inr (by simpa using h))] at hf
      simp [FV.isFin] at hf
    rw [p2 n1 n2]
    split <;> rfl
  rw [wmean_congr' hv]
  refine ⟨wmean_nonneg hW (fun e' _ => by split <;> simp), wmean_le hW (fun e' _ => by split <;> simp), ?_⟩
  exact wmean_indicator _

/-- Errors 1, 3 and threshold 2, equal weights: the exceedance frequency is 1/2. -/
noncomputable def exceedEx (f : ℕ → ℝ) : StatVar ℕ (FV ℝ) :=
  ⟨{ dims := {"x"}, coords := fun _ => {0, 1}, val := fun e => .fin (f (e "x")) }, none⟩

example : ∃ x, ValueOf (errorExceedanceStatistic (.scalar (.fin 2))).toMetric mAgg
    [("z", exceedEx (fun n => 2 * n + 1))] [("z", exceedEx 0)] "z" x ∧ ∃ r, x.val (exCell 0) = FV.fin r ∧ 0 ≤ r ∧ r ≤ 1 := by
  set s := errorExceedance (.scalar (.fin 2)) (exceedEx (fun n => 2 * n + 1)) (exceedEx 0) with hs
  have hd : s.arr.dims = {"x"} := by
    simp [hs, errorExceedance, StatVar.map, StatVar.zipWith, DA.map, DA.zipWith, exceedEx, DA.scalar]
  have hc : s.arr.coords "x" = {0, 1} := by
    simp [hs, errorExceedance, StatVar.map, StatVar.zipWith, DA.map, DA.zipWith, exceedEx, DA.scalar, DA.joinCoords]
  have hm : s.mask = none := by simp [hs, errorExceedance, StatVar.map, StatVar.zipWith, combineMask, exceedEx]
  have hv : ∀ e, (s.arr.val e).isFin = true := by
    intro e
    rw [hs, C25_finite (h := 2) (x := 2 * (e "x" : ℝ) + 1) (y := 0) _ _ _ _ rfl rfl rfl]
    rfl
  have E := evaluated1 s {0, 1} hc (by simp [hm]) {0, 1} (by intro n; simp [counted, mAgg, hm]) (fun n _ => hv _)
  have hW := mAgg_good s {0, 1} (by simp)
  obtain ⟨q, hq⟩ := exists_aggregate mAgg rfl s (by simp [mAgg, hd])
  have hx := exists_value "ErrorExceedance" (errorExceedance (.scalar (.fin 2))) mAgg "z"
    (exceedEx (fun n => 2 * n + 1)) (exceedEx 0) hq
  obtain ⟨r, h1, h2, h3, -⟩ := C25_mean (by simp) (by simp) (by simp) (by simp) _ E hW hx
  exact ⟨_, hx, r, h1, h2, h3⟩

end WBX
