import Verif.Spec.Improved
import Verif.Props.Categorical
import Verif.Props.CRPS

/-!
# C97: a forecast that is at least as good everywhere is never scored worse
-/

set_option linter.unusedSectionVars false

namespace WBX
open DA Aggregator
variable {L : Type} [DecidableEq L]

section means
variable {K : Type} [Field K] [LinearOrder K] [IsStrictOrderedRing K]
variable {agg : Aggregator L (FV K)} {s : StatVar L (FV K)} {cs : Finset (Dim → L)}

theorem wmean_lt (hW : GoodWeights agg s cs) {f g : (Dim → L) → K} (h : ∀ e ∈ cs, f e ≤ g e) (hs : Somewhere agg s cs (fun e => f e < g e)) :
    wmean agg s cs f < wmean agg s cs g := by
  obtain ⟨c, hc, hw, hlt⟩ := hs
  unfold wmean
  refine div_lt_div_of_pos_right (Finset.sum_lt_sum (fun e he => mul_le_mul_of_nonneg_right (h e he) (hW.1 e he)) ⟨c, hc, mul_lt_mul_of_pos_right hlt hw⟩) hW.2

theorem notAbove_wmean (hW : GoodWeights agg s cs) {f g : (Dim → L) → K} (h : ∀ e ∈ cs, f e ≤ g e) :
    NotAbove (FV.fin (wmean agg s cs g)) (FV.fin (wmean agg s cs f)) (Somewhere agg s cs (fun e => f e < g e)) :=
  ⟨_, _, rfl, rfl, wmean_mono hW h, wmean_lt hW h⟩

theorem NotAbove.imp {x x' : FV K} {P Q : Prop} (h : NotAbove x x' P) (hQ : Q → P) : NotAbove x x' Q := by
  obtain ⟨r, r', h1, h2, h3, h4⟩ := h
  exact ⟨r, r', h1, h2, h3, fun q => h4 (hQ q)⟩

end means

theorem FV.sub_patterns {K : Type} [Field K] [LinearOrder K] [IsStrictOrderedRing K] {x x' : FV K} (h : (x.isFin = true ∧ x'.isFin = true) ∨ x' = x) (y : FV K) :
    (x' - y).isnan = (x - y).isnan ∧ ((x - y).isFin = true → (x' - y).isFin = true) := by
  rcases h with ⟨h1, h2⟩ | rfl
  · rw [FV.eq_fin_num h1, FV.eq_fin_num h2]
    rcases y with _ | n | y
    · simp
    · cases n <;> simp [FV.sub_def, FV.isnan, FV.isFin, Neg.neg, FV.neg]
    · simp [FV.isnan, FV.isFin]
  · exact ⟨rfl, id⟩

section
variable {K : Type} [Field K] [LinearOrder K] [IsStrictOrderedRing K] {a a' b : StatVar L (FV K)} (hS : SameCells a a')
include hS

theorem SameCells.zip_dims {U : Type} (f : FV K → FV K → U) : (StatVar.zipWith f a' b).arr.dims = (StatVar.zipWith f a b).arr.dims := by
  show a'.arr.dims ∪ b.arr.dims = a.arr.dims ∪ b.arr.dims
  rw [hS.dims]

theorem SameCells.zip_coords {U : Type} (f : FV K → FV K → U) : (StatVar.zipWith f a' b).arr.coords = (StatVar.zipWith f a b).arr.coords := by
  show DA.joinCoords a'.arr b.arr = DA.joinCoords a.arr b.arr
  unfold DA.joinCoords
  rw [hS.dims, hS.coords]

theorem SameCells.zip_mask {U : Type} (f : FV K → FV K → U) : (StatVar.zipWith f a' b).mask = (StatVar.zipWith f a b).mask := by
  show combineMask a'.mask b.mask = combineMask a.mask b.mask
  rw [hS.mask]

theorem SameCells.error {agg : Aggregator L (FV K)} {e : Dim → L} {cs : Finset (Dim → L)} (E : Evaluated agg (error a b) e cs) :
    Evaluated agg (WBX.error a' b) e cs ∧ cellWeight agg (WBX.error a' b) = cellWeight agg (WBX.error a b) :=
  E.transfer (hS.zip_dims _) (hS.zip_coords _) (hS.zip_mask _) (fun _ e' => (FV.sub_patterns (hS.values e') _).1) (fun e' _ => (FV.sub_patterns (hS.values e') _).2)

end

section deterministic
variable {agg : Aggregator L (FV ℝ)} {p p' t : Vars (StatVar L (FV ℝ))} (hp : (p.map Prod.fst).Nodup) (hp' : (p'.map Prod.fst).Nodup)
  (ht : (t.map Prod.fst).Nodup) {v : String} {a a' b : StatVar L (FV ℝ)} (ha : (v, a) ∈ p) (ha' : (v, a') ∈ p') (hb : (v, b) ∈ t)
  {e : Dim → L} {cs : Finset (Dim → L)} (E : Evaluated agg (error a b) e cs) (hW : GoodWeights agg (error a b) cs) (hS : SameCells a a')
  (hc : ∀ e' ∈ cs, AsClose a a' b e') {x x' : DA L (FV ℝ)}
include hp hp' ht ha ha' hb E hW hS hc

theorem good_transfer : GoodWeights agg (error a' b) cs := by
  unfold GoodWeights
  rw [(hS.error E).2]
  exact hW

/-- **C97** MAE. -/
theorem C97_mae (hx : ValueOf absoluteErrorStatistic.toMetric agg p t v x) (hx' : ValueOf absoluteErrorStatistic.toMetric agg p' t v x') :
    NotAbove (x.val e) (x'.val e) (Somewhere agg (error a b) cs (Nearer a a' b)) := by
  obtain ⟨E', hw⟩ := hS.error E
  rw [C22_mae_value hp ht ha hb E hW hx, C22_mae_value hp' ht ha' hb E' (good_transfer hp hp' ht ha ha' hb E hW hS hc) hx', wmean_congr hw (fun _ _ => rfl)]
  exact notAbove_wmean hW hc

/-- **C97** MSE. -/
theorem C97_mse (hx : ValueOf squaredErrorStatistic.toMetric agg p t v x) (hx' : ValueOf squaredErrorStatistic.toMetric agg p' t v x') :
    NotAbove (x.val e) (x'.val e) (Somewhere agg (error a b) cs (Nearer a a' b)) := by
  obtain ⟨E', hw⟩ := hS.error E
  rw [C22_mse_value hp ht ha hb E hW hx, C22_mse_value hp' ht ha' hb E' (good_transfer hp hp' ht ha ha' hb E hW hS hc) hx', wmean_congr hw (fun _ _ => rfl)]
  refine (notAbove_wmean hW (fun e' he' => sq_le_sq.mpr (hc e' he'))).imp ?_
  rintro ⟨c, h1, h2, h3⟩
  exact ⟨c, h1, h2, sq_lt_sq.mpr h3⟩

/-- **C97** RMSE. -/
theorem C97_rmse (hx : ValueOf rmse agg p t v x) (hx' : ValueOf rmse agg p' t v x') :
    NotAbove (x.val e) (x'.val e) (Somewhere agg (error a b) cs (Nearer a a' b)) := by
  obtain ⟨E', hw⟩ := hS.error E
  rw [C22_rmse_value hp ht ha hb E hW hx, C22_rmse_value hp' ht ha' hb E' (good_transfer hp hp' ht ha ha' hb E hW hS hc) hx', wmean_congr hw (fun _ _ => rfl)]
  refine ⟨_, _, rfl, rfl, Real.sqrt_le_sqrt (wmean_mono hW (fun e' he' => sq_le_sq.mpr (hc e' he'))), fun hs => ?_⟩
  refine Real.sqrt_lt_sqrt (wmean_nonneg hW (fun _ _ => sq_nonneg _)) (wmean_lt hW (fun e' he' => sq_le_sq.mpr (hc e' he')) ?_)
  obtain ⟨c, h1, h2, h3⟩ := hs
  exact ⟨c, h1, h2, sq_lt_sq.mpr h3⟩

end deterministic

section binary
variable {K : Type} [Field K] [LinearOrder K] [IsStrictOrderedRing K]
variable {agg : Aggregator L (FV K)} {p p' t : Vars (StatVar L (FV K))} (hp : (p.map Prod.fst).Nodup) (hp' : (p'.map Prod.fst).Nodup)
  (ht : (t.map Prod.fst).Nodup) {v : String} {a a' b : StatVar L (FV K)} (ha : (v, a) ∈ p) (ha' : (v, a') ∈ p') (hb : (v, b) ∈ t)
  {e : Dim → L} {cs : Finset (Dim → L)} (E : Evaluated agg (truePositives a b) e cs) (hW : GoodWeights agg (truePositives a b) cs) (hC : Corrected a a' b)

theorem Corrected.sameCells (hC : Corrected a a' b) : SameCells a a' := ⟨hC.dims, hC.coords, hC.mask, fun e => by
  rcases hC.values e with h | ⟨h, h1, h2⟩
  · exact .inr h
  · exact .inl ⟨h1, by rw [h]; exact h2⟩⟩

theorem Corrected.evaluated (hC : Corrected a a' b) (E : Evaluated agg (truePositives a b) e cs) :
    Evaluated agg (truePositives a' b) e cs ∧ cellWeight agg (truePositives a' b) = cellWeight agg (truePositives a b) := by
  have hn : ∀ e', (a'.arr.val e' * b.arr.val e').isnan = (a.arr.val e' * b.arr.val e').isnan := fun e' => by
    rcases hC.values e' with h | ⟨h, h1, h2⟩
    · rw [h]
    · rw [h, FV.eq_fin_num h1, FV.eq_fin_num h2]
      rfl
  have key : ∀ e', ((truePositives a' b).arr.val e').isnan = ((truePositives a b).arr.val e').isnan := fun e' => by
    unfold truePositives
    rw [contingency_val, contingency_val, hn]
    split
    · rfl
    · unfold FV.ofBool; split <;> split <;> rfl
  have fin_iff : ∀ c : StatVar L (FV K), ∀ e', ((truePositives c b).arr.val e').isFin = !((truePositives c b).arr.val e').isnan := fun c e' => by
    unfold truePositives
    rw [contingency_val]
    split
    · rfl
    · unfold FV.ofBool; split <;> rfl
  have hS := hC.sameCells
  refine E.transfer (s' := truePositives a' b) ?_ ?_ ?_ (fun _ => key) (fun e' _ hf => by rw [fin_iff] at hf ⊢; rw [key]; exact hf)
  · simp only [truePositives, contingency, StatVar.zipWith, StatVar.map, DA.zipWith, DA.map, hS.dims]
  · funext d
    simp only [truePositives, contingency, StatVar.zipWith, StatVar.map, DA.zipWith, DA.map, DA.joinCoords, hS.dims, hS.coords]
  · simp only [truePositives, contingency, StatVar.zipWith, StatVar.map, hS.mask]

theorem Corrected.toBool (hC : Corrected a a' b) (e' : Dim → L) : (a'.arr.val e').toBool = (a.arr.val e').toBool ∨ (a'.arr.val e').toBool = (b.arr.val e').toBool := by
  rcases hC.values e' with h | ⟨h, _⟩
  · exact .inl (by rw [h])
  · exact .inr (by rw [h])

theorem Corrected.good (hC : Corrected a a' b) (E : Evaluated agg (truePositives a b) e cs) (hW : GoodWeights agg (truePositives a b) cs) : GoodWeights agg (truePositives a' b) cs := by
  unfold GoodWeights
  rw [(hC.evaluated E).2]
  exact hW

/-- What a correction does to the shares of the contingency table: hits and correct negatives do not shrink, and the frequencies of the observed event and non-event stay. -/
theorem Corrected.shares (hC : Corrected a a' b) (E : Evaluated agg (truePositives a b) e cs) (hW : GoodWeights agg (truePositives a b) cs) :
    share agg a b cs true true ≤ share agg a' b cs true true ∧ share agg a' b cs true false ≤ share agg a b cs true false ∧
    share agg a' b cs true true + share agg a' b cs false true = share agg a b cs true true + share agg a b cs false true ∧
    share agg a' b cs true false + share agg a' b cs false false = share agg a b cs true false + share agg a b cs false false := by
  have hw := (hC.evaluated E).2
  unfold share
  rw [hw]
  simp only [← wmean_indicator, ← wmean_add]
  refine ⟨wmean_mono hW (fun e' _ => ?_), wmean_mono hW (fun e' _ => ?_), wmean_congr' (fun e' _ => ?_), wmean_congr' (fun e' _ => ?_)⟩ <;>
    rcases hC.toBool e' with h | h <;> rw [h] <;> cases (a.arr.val e').toBool <;> cases (b.arr.val e').toBool <;> simp

local notation "TP" => share agg a b cs true true
local notation "TN" => share agg a b cs false false
local notation "FP" => share agg a b cs true false
local notation "FN" => share agg a b cs false true
local notation "TP'" => share agg a' b cs true true
local notation "TN'" => share agg a' b cs false false
local notation "FP'" => share agg a' b cs true false
local notation "FN'" => share agg a' b cs false true

/-- Two finite scores, the second not below the first. -/
def NotBelow (x x' : FV K) : Prop := ∃ r r', x = FV.fin r ∧ x' = FV.fin r' ∧ r ≤ r'

theorem notBelow_ratio {n d n' d' : K} (hd : 0 ≤ d) (hd' : 0 ≤ d') (h0 : d ≠ 0) (h0' : d' ≠ 0) (h : n * d' ≤ n' * d) : NotBelow (FV.fin n / FV.fin d) (FV.fin n' / FV.fin d') :=
  ⟨n / d, n' / d', FV.fin_div_fin_of_ne _ h0, FV.fin_div_fin_of_ne _ h0',
    (div_le_div_iff₀ (lt_of_le_of_ne hd h0.symm) (lt_of_le_of_ne hd' h0'.symm)).mpr h⟩

include hp hp' ht ha ha' hb E hW hC

theorem signs : (∀ x y, 0 ≤ share agg a b cs x y) ∧ (∀ x y, 0 ≤ share agg a' b cs x y) :=
  ⟨share_nonneg hp ht ha hb E hW, share_nonneg hp' ht ha' hb (hC.evaluated E).1 (hC.good E hW)⟩

variable {x x' : DA L (FV K)}

/-- **C97** Accuracy. -/
theorem C97_accuracy (hx : ValueOf accuracy agg p t v x) (hx' : ValueOf accuracy agg p' t v x') : NotBelow (x.val e) (x'.val e) := by
  obtain ⟨s1, s2, s3, s4⟩ := hC.shares E hW
  rw [C27_accuracy_value hp ht ha hb E hW hx, C27_accuracy_value hp' ht ha' hb (hC.evaluated E).1 (hC.good E hW) hx']
  exact ⟨_, _, rfl, rfl, by linarith⟩

/-- **C97** Critical success index, where both are defined. -/
theorem C97_csi (h0 : TP + FP + FN ≠ 0) (h0' : TP' + FP' + FN' ≠ 0) (hx : ValueOf csi agg p t v x) (hx' : ValueOf csi agg p' t v x') : NotBelow (x.val e) (x'.val e) := by
  obtain ⟨s1, s2, s3, s4⟩ := hC.shares E hW
  obtain ⟨n, n'⟩ := signs hp hp' ht ha ha' hb E hW hC
  rw [C27_csi_value hp ht ha hb E hW hx, C27_csi_value hp' ht ha' hb (hC.evaluated E).1 (hC.good E hW) hx']
  refine notBelow_ratio (by linarith [n true true, n true false, n false true]) (by linarith [n' true true, n' true false, n' false true]) h0 h0' ?_
  nlinarith [n true true, n true false, n false true, n' true true, n' true false, n' false true, mul_nonneg (n true true) (sub_nonneg.mpr s2), mul_nonneg (sub_nonneg.mpr s1) (n true true),
    mul_nonneg (sub_nonneg.mpr s1) (n false true), mul_nonneg (sub_nonneg.mpr s1) (n true false)]

/-- **C97** Recall. -/
theorem C97_recall (h0 : TP + FN ≠ 0) (hx : ValueOf recall agg p t v x) (hx' : ValueOf recall agg p' t v x') : NotBelow (x.val e) (x'.val e) := by
  obtain ⟨s1, s2, s3, s4⟩ := hC.shares E hW
  obtain ⟨n, n'⟩ := signs hp hp' ht ha ha' hb E hW hC
  rw [C27_recall_value hp ht ha hb E hW hx, C27_recall_value hp' ht ha' hb (hC.evaluated E).1 (hC.good E hW) hx', s3]
  have hd : 0 ≤ TP + FN := by linarith [n true true, n false true]
  exact notBelow_ratio hd hd h0 h0 (mul_le_mul_of_nonneg_right s1 hd)

theorem precision_cross : TP * (TP' + FP') ≤ TP' * (TP + FP) := by
  obtain ⟨s1, s2, s3, s4⟩ := hC.shares E hW
  obtain ⟨n, n'⟩ := signs hp hp' ht ha ha' hb E hW hC
  nlinarith [mul_le_mul s1 s2 (n' true false) (n' true true)]

/-- **C97** Precision. -/
theorem C97_precision (h0 : TP + FP ≠ 0) (h0' : TP' + FP' ≠ 0) (hx : ValueOf precision agg p t v x) (hx' : ValueOf precision agg p' t v x') : NotBelow (x.val e) (x'.val e) := by
  obtain ⟨n, n'⟩ := signs hp hp' ht ha ha' hb E hW hC
  rw [C27_precision_value hp ht ha hb E hW hx, C27_precision_value hp' ht ha' hb (hC.evaluated E).1 (hC.good E hW) hx']
  exact notBelow_ratio (by linarith [n true true, n true false]) (by linarith [n' true true, n' true false]) h0 h0' (precision_cross hp hp' ht ha ha' hb E hW hC)

/-- **C97** False alarm rate (smaller is better). -/
theorem C97_far (h0 : TP + FP ≠ 0) (h0' : TP' + FP' ≠ 0) (hx : ValueOf falseAlarmRate agg p t v x) (hx' : ValueOf falseAlarmRate agg p' t v x') : NotBelow (x'.val e) (x.val e) := by
  obtain ⟨n, n'⟩ := signs hp hp' ht ha ha' hb E hW hC
  rw [C27_far_value hp ht ha hb E hW hx, C27_far_value hp' ht ha' hb (hC.evaluated E).1 (hC.good E hW) hx']
  refine notBelow_ratio (by linarith [n' true true, n' true false]) (by linarith [n true true, n true false]) h0' h0 ?_
  have := precision_cross hp hp' ht ha ha' hb E hW hC
  nlinarith

/-- **C97** F1. -/
theorem C97_f1 (h0 : 2 * TP + FP + FN ≠ 0) (h0' : 2 * TP' + FP' + FN' ≠ 0) (hx : ValueOf f1Score agg p t v x) (hx' : ValueOf f1Score agg p' t v x') : NotBelow (x.val e) (x'.val e) := by
  obtain ⟨s1, s2, s3, s4⟩ := hC.shares E hW
  obtain ⟨n, n'⟩ := signs hp hp' ht ha ha' hb E hW hC
  rw [C27_f1_value hp ht ha hb E hW hx, C27_f1_value hp' ht ha' hb (hC.evaluated E).1 (hC.good E hW) hx']
  refine notBelow_ratio (by linarith [n true true, n true false, n false true]) (by linarith [n' true true, n' true false, n' false true]) h0 h0' ?_
  have h1 := mul_le_mul s1 s2 (n' true false) (n' true true)
  have h2 := mul_le_mul s1 (show FN' ≤ FN by linarith) (n' false true) (n' true true)
  nlinarith

theorem hss_cross : (TP * TN - FP * FN) * ((TP' + FN') * (FN' + TN') + (TP' + FP') * (FP' + TN')) ≤ (TP' * TN' - FP' * FN') * ((TP + FN) * (FN + TN) + (TP + FP) * (FP + TN)) := by
  obtain ⟨s1, s2, s3, s4⟩ := hC.shares E hW
  obtain ⟨n, n'⟩ := signs hp hp' ht ha ha' hb E hW hC
  have hs := share_sum hp ht ha hb E hW
  have n1 := n true true
  have n2 := n true false
  have n3 := n' true false
  have n4 := n' false true
  have n5 := n false false
  generalize TP = A at *
  generalize FP = B at *
  generalize TP' = A' at *
  generalize FP' = B' at *
  obtain ⟨P, hP⟩ : ∃ P, P = A + FN := ⟨_, rfl⟩
  obtain ⟨N, hN⟩ : ∃ N, N = B + TN := ⟨_, rfl⟩
  have e1 : FN = P - A := by linarith
  have e2 : TN = N - B := by linarith
  have e3 : FN' = P - A' := by linarith
  have e4 : TN' = N - B' := by linarith
  rw [e1, e2, e3, e4] at *
  have hPN : P + N = 1 := by linarith
  have hP0 : 0 ≤ P := by linarith
  have hN0 : 0 ≤ N := by linarith
  have key : 0 ≤ P * N * (A' - A) + P * P * (B - B') + (N - P) * (A' * B - A * B') := by
    have q : A' * B - A * B' = A' * (B - B') + B' * (A' - A) := by ring
    have q0 : 0 ≤ A' * B - A * B' := by rw [q]; exact add_nonneg (mul_nonneg (by linarith) (by linarith)) (mul_nonneg (by linarith) (by linarith))
    have q1 : A' * B - A * B' ≤ P * (B - B') + N * (A' - A) := by
      rw [q]; exact add_le_add (mul_le_mul_of_nonneg_right (by linarith) (by linarith)) (mul_le_mul_of_nonneg_right (by linarith) (by linarith))
    nlinarith [mul_nonneg hN0 q0, mul_le_mul_of_nonneg_left q1 hP0]
  have hN1 : N = 1 - P := by linarith
  subst hN1
  nlinarith [key]

/-- **C97** Heidke skill score. -/
theorem C97_hss (h0 : (TP + FN) * (FN + TN) + (TP + FP) * (FP + TN) ≠ 0) (h0' : (TP' + FN') * (FN' + TN') + (TP' + FP') * (FP' + TN') ≠ 0) (hx : ValueOf hss agg p t v x)
    (hx' : ValueOf hss agg p' t v x') : NotBelow (x.val e) (x'.val e) := by
  obtain ⟨n, n'⟩ := signs hp hp' ht ha ha' hb E hW hC
  rw [C27_hss_value hp ht ha hb E hW hx, C27_hss_value hp' ht ha' hb (hC.evaluated E).1 (hC.good E hW) hx']
  have m1 := n true true
  have m2 := n true false
  have m3 := n false true
  have m4 := n false false
  have m1' := n' true true
  have m2' := n' true false
  have m3' := n' false true
  have m4' := n' false false
  refine notBelow_ratio (by positivity) (by positivity) h0 h0' ?_
  have := hss_cross hp hp' ht ha ha' hb E hW hC
  linarith

theorem ets_den {A B C D : K} (hs : A + D + B + C = 1) (h1 : 0 ≤ A) (h2 : 0 ≤ B) (h3 : 0 ≤ C) (h4 : 0 ≤ D) :
    A + B + C - (A + B) * (A + C) = ((A + C) * (C + D) + (A + B) * (B + D)) - (A * D - B * C) ∧ 0 ≤ A + B + C - (A + B) * (A + C) ∧ A - (A + B) * (A + C) = A * D - B * C := by
  have hD : D = 1 - A - B - C := by linarith
  refine ⟨by rw [hD]; ring, ?_, by rw [hD]; ring⟩
  have : A + B + C - (A + B) * (A + C) = A * D + B * (1 - C) + C := by rw [hD]; ring
  rw [this]
  have : 0 ≤ 1 - C := by linarith
  positivity

/-- **C97** Equitable threat score. -/
theorem C97_ets (h0 : TP + FP + FN - (TP + FP) * (TP + FN) ≠ 0) (h0' : TP' + FP' + FN' - (TP' + FP') * (TP' + FN') ≠ 0) (hx : ValueOf ets agg p t v x)
    (hx' : ValueOf ets agg p' t v x') : NotBelow (x.val e) (x'.val e) := by
  obtain ⟨n, n'⟩ := signs hp hp' ht ha ha' hb E hW hC
  have E' := (hC.evaluated E).1
  have hW' := hC.good E hW
  obtain ⟨d1, d2, d3⟩ := ets_den hp hp' ht ha ha' hb E hW hC (share_sum hp ht ha hb E hW) (n true true) (n true false) (n false true) (n false false)
  obtain ⟨d1', d2', d3'⟩ := ets_den hp hp' ht ha ha' hb E hW hC (share_sum hp' ht ha' hb E' hW') (n' true true) (n' true false) (n' false true) (n' false false)
  rw [C27_ets_value hp ht ha hb E hW hx, C27_ets_value hp' ht ha' hb E' hW' hx']
  refine notBelow_ratio d2 d2' h0 h0' ?_
  have := hss_cross hp hp' ht ha ha' hb E hW hC
  rw [d1, d1', d3, d3']
  linarith

end binary
end WBX
