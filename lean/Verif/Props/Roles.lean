import Verif.Lemmas.Roles
import Verif.Lemmas.Units
import Verif.Model.Categorical
import Verif.Model.Spatial
import Verif.Model.Ensemble
import Mathlib.Tactic.NormNum

/-!
# C94: predictions and targets exchanged

Nothing is assumed of the data: any dimensions and labels on either side, NaN, infinities and masks, any aggregation whose weights and bins are functions of the labelled array.
-/

set_option linter.unusedSectionVars false

namespace WBX
open DA Aggregator

section general
variable {L K : Type} [DecidableEq L] [Field K] [LinearOrder K] [IsStrictOrderedRing K] {agg : Aggregator L (FV K)} {p t : Vars (StatVar L (FV K))}

theorem mirrored_statOf {n n' : String} {f f' : StatVar L (FV K) → StatVar L (FV K) → StatVar L (FV K)} (hp : IsDict p) (ht : IsDict t)
    (h : ∀ a b, (f a b).Same (f' b a)) : Mirrored (statOf n f) (statOf n' f') p t :=
  mirrored_perVariable hp ht (fun _ a b _ _ => .gives (.some (.some (h a b))))

theorem mirrored_statOfE {n n' : String} {f f' : StatVar L (FV K) → StatVar L (FV K) → Except Err (StatVar L (FV K))} (hp : IsDict p) (ht : IsDict t)
    (h : ∀ v a b, (v, a) ∈ p → (v, b) ∈ t → SameOutcome StatVar.Same (f a b) (f' b a)) : Mirrored (statOfE n f) (statOfE n' f') p t :=
  mirrored_perVariable hp ht (fun v a b ha hb => SameOutcome.bind (h v a b ha hb) (fun _ _ hs => .gives (.some (.some hs))))

theorem statistic_exchange (hagg : agg.RespectsSame) {s s' : FStatistic L K} (h : Mirrored s s' p t) : SameValues (metricAlone s.toMetric agg p t) (metricAlone s'.toMetric agg t p) :=
  metricAlone_mirrored hagg (extensional_statistic s) rfl (.cons ⟨rfl, h⟩ .nil)

/-- Results related variable by variable. -/
def VarsRel (r : DA L (FV K) → DA L (FV K) → Prop) (x y : Vars (DA L (FV K))) : Prop := ∀ v, Option.Rel r (pyGet? v x) (pyGet? v y)

variable {k1 k2 k3 k4 j1 j2 j3 j4 : String} {s1 s2 s3 s4 s1' s2' s3' s4' : FStatistic L K} {r : DA L (FV K) → DA L (FV K) → Prop}

theorem metric2_exchange (hagg : agg.RespectsSame) {f f'} (hk : k1 ≠ k2) (hj : j1 ≠ j2) (h1 : Mirrored s1 s1' p t) (h2 : Mirrored s2 s2' p t)
    (hf : ∀ a a' b b', a.Same a' → b.Same b' → r (f a b) (f' a' b')) :
    SameOutcome (VarsRel r) (metricAlone (metric2 (k1, s1) (k2, s2) f) agg p t) (metricAlone (metric2 (j1, s1') (j2, s2') f') agg t p) := by
  have e1 := meansOf_mirrored hagg h1
  have e2 := meansOf_mirrored hagg h2
  refine SameOutcome.intro (fun x hx => ?_) (fun y hy => ?_)
  · obtain ⟨⟨A, hA⟩, B, hB⟩ := metric2_inv hx
    obtain ⟨A', hA', rA⟩ := e1.ok_left hA
    obtain ⟨B', hB', rB⟩ := e2.ok_left hB
    obtain ⟨x', hx', gx⟩ := metric2_ok (f := f) hk hA hB
    rw [hx] at hx'; cases hx'
    obtain ⟨y, hy, gy⟩ := metric2_ok (f := f') hj hA' hB'
    refine ⟨y, hy, fun v => ?_⟩
    rw [gx, gy]
    have hA := rA v
    have hB := rB v
    revert hA hB
    generalize pyGet? v A = oA
    generalize pyGet? v B = oB
    generalize pyGet? v A' = oA'
    generalize pyGet? v B' = oB'
    intro hA hB
    cases hA with
    | none => exact .none
    | some hA => cases hB with
      | none => exact .none
      | some hB => exact .some (hf _ _ _ _ hA hB)
  · obtain ⟨⟨A, hA⟩, B, hB⟩ := metric2_inv hy
    rcases hA0 : meansOf s1 agg p t with e | A0
    · obtain ⟨e', h'⟩ := e1.error_left hA0; rw [hA] at h'; cases h'
    rcases hB0 : meansOf s2 agg p t with e | B0
    · obtain ⟨e', h'⟩ := e2.error_left hB0; rw [hB] at h'; cases h'
    obtain ⟨x, hx, -⟩ := metric2_ok (f := f) hk hA0 hB0
    exact ⟨x, hx⟩

/-- Three statistics, the last two of which change places. -/
theorem metric3_exchange (hagg : agg.RespectsSame) {f f'} (h12 : k1 ≠ k2) (h13 : k1 ≠ k3) (h23 : k2 ≠ k3) (h1 : Mirrored s1 s1' p t) (h2 : Mirrored s2 s3' p t) (h3 : Mirrored s3 s2' p t)
    (hf : ∀ a a' b b' c c', a.Same a' → b.Same b' → c.Same c' → r (f a b c) (f' a' c' b')) :
    SameOutcome (VarsRel r) (metricAlone (metric3 (k1, s1) (k2, s2) (k3, s3) f) agg p t) (metricAlone (metric3 (k1, s1') (k2, s2') (k3, s3') f') agg t p) := by
  have e1 := meansOf_mirrored hagg h1
  have e2 := meansOf_mirrored hagg h2
  have e3 := meansOf_mirrored hagg h3
  refine SameOutcome.intro (fun x hx => ?_) (fun y hy => ?_)
  · obtain ⟨⟨A, hA⟩, ⟨B, hB⟩, C, hC⟩ := metric3_inv hx
    obtain ⟨A', hA', rA⟩ := e1.ok_left hA
    obtain ⟨B', hB', rB⟩ := e2.ok_left hB
    obtain ⟨C', hC', rC⟩ := e3.ok_left hC
    obtain ⟨x', hx', gx⟩ := metric3_ok (f := f) h12 h13 h23 hA hB hC
    rw [hx] at hx'; cases hx'
    obtain ⟨y, hy, gy⟩ := metric3_ok (f := f') h12 h13 h23 hA' hC' hB'
    refine ⟨y, hy, fun v => ?_⟩
    rw [gx, gy]
    have hA := rA v
    have hB := rB v
    have hC := rC v
    revert hA hB hC
    generalize pyGet? v A = oA
    generalize pyGet? v B = oB
    generalize pyGet? v C = oC
    generalize pyGet? v A' = oA'
    generalize pyGet? v B' = oB'
    generalize pyGet? v C' = oC'
    intro hA hB hC
    cases hA with
    | none => exact .none
    | some hA => cases hB with
      | none => cases hC <;> exact .none
      | some hB => cases hC with
        | none => exact .none
        | some hC => exact .some (hf _ _ _ _ _ _ hA hB hC)
  · obtain ⟨⟨A, hA⟩, ⟨B, hB⟩, C, hC⟩ := metric3_inv hy
    rcases hA0 : meansOf s1 agg p t with e | A0
    · obtain ⟨e', h'⟩ := e1.error_left hA0; rw [hA] at h'; cases h'
    rcases hB0 : meansOf s2 agg p t with e | B0
    · obtain ⟨e', h'⟩ := e2.error_left hB0; rw [hC] at h'; cases h'
    rcases hC0 : meansOf s3 agg p t with e | C0
    · obtain ⟨e', h'⟩ := e3.error_left hC0; rw [hB] at h'; cases h'
    obtain ⟨x, hx, -⟩ := metric3_ok (f := f) h12 h13 h23 hA0 hB0 hC0
    exact ⟨x, hx⟩

/-- Four statistics, the second and third of which change places. -/
theorem metric4_exchange (hagg : agg.RespectsSame) {f f'} (h12 : k1 ≠ k2) (h13 : k1 ≠ k3) (h23 : k2 ≠ k3) (h14 : k1 ≠ k4) (h24 : k2 ≠ k4) (h34 : k3 ≠ k4)
    (h1 : Mirrored s1 s1 p t) (h2 : Mirrored s2 s3 p t) (h3 : Mirrored s3 s2 p t) (h4 : Mirrored s4 s4 p t)
    (hf : ∀ a a' b b' c c' d d', a.Same a' → b.Same b' → c.Same c' → d.Same d' → r (f a b c d) (f' a' c' b' d')) :
    SameOutcome (VarsRel r) (metricAlone (metric4 (k1, s1) (k2, s2) (k3, s3) (k4, s4) f) agg p t) (metricAlone (metric4 (k1, s1) (k2, s2) (k3, s3) (k4, s4) f') agg t p) := by
  have e1 := meansOf_mirrored hagg h1
  have e2 := meansOf_mirrored hagg h2
  have e3 := meansOf_mirrored hagg h3
  have e4 := meansOf_mirrored hagg h4
  refine SameOutcome.intro (fun x hx => ?_) (fun y hy => ?_)
  · obtain ⟨⟨A, hA⟩, ⟨B, hB⟩, ⟨C, hC⟩, D, hD⟩ := metric4_inv hx
    obtain ⟨A', hA', rA⟩ := e1.ok_left hA
    obtain ⟨B', hB', rB⟩ := e2.ok_left hB
    obtain ⟨C', hC', rC⟩ := e3.ok_left hC
    obtain ⟨D', hD', rD⟩ := e4.ok_left hD
    obtain ⟨x', hx', gx⟩ := metric4_ok (f := f) h12 h13 h23 h14 h24 h34 hA hB hC hD
    rw [hx] at hx'; cases hx'
    obtain ⟨y, hy, gy⟩ := metric4_ok (f := f') h12 h13 h23 h14 h24 h34 hA' hC' hB' hD'
    refine ⟨y, hy, fun v => ?_⟩
    rw [gx, gy]
    have hA := rA v
    have hB := rB v
    have hC := rC v
    have hD := rD v
    revert hA hB hC hD
    generalize pyGet? v A = oA
    generalize pyGet? v B = oB
    generalize pyGet? v C = oC
    generalize pyGet? v D = oD
    generalize pyGet? v A' = oA'
    generalize pyGet? v B' = oB'
    generalize pyGet? v C' = oC'
    generalize pyGet? v D' = oD'
    intro hA hB hC hD
    cases hA with
    | none => exact .none
    | some hA => cases hB with
      | none => cases hC <;> exact .none
      | some hB => cases hC with
        | none => exact .none
        | some hC => cases hD with
          | none => exact .none
          | some hD => exact .some (hf _ _ _ _ _ _ _ _ hA hB hC hD)
  · obtain ⟨⟨A, hA⟩, ⟨B, hB⟩, ⟨C, hC⟩, D, hD⟩ := metric4_inv hy
    rcases hA0 : meansOf s1 agg p t with e | A0
    · obtain ⟨e', h'⟩ := e1.error_left hA0; rw [hA] at h'; cases h'
    rcases hB0 : meansOf s2 agg p t with e | B0
    · obtain ⟨e', h'⟩ := e2.error_left hB0; rw [hC] at h'; cases h'
    rcases hC0 : meansOf s3 agg p t with e | C0
    · obtain ⟨e', h'⟩ := e3.error_left hC0; rw [hB] at h'; cases h'
    rcases hD0 : meansOf s4 agg p t with e | D0
    · obtain ⟨e', h'⟩ := e4.error_left hD0; rw [hD] at h'; cases h'
    obtain ⟨x, hx, -⟩ := metric4_ok (f := f) h12 h13 h23 h14 h24 h34 hA0 hB0 hC0 hD0
    exact ⟨x, hx⟩

/-! ### Deterministic scores -/

theorem FV.abs_sub_comm (x y : FV K) : (x - y).abs = (y - x).abs := by
  cases x with
  | nan => cases y <;> rfl
  | inf a => cases y with
    | nan => rfl
    | inf b => cases a <;> cases b <;> rfl
    | fin y => cases a <;> rfl
  | fin x => cases y with
    | nan => rfl
    | inf b => cases b <;> rfl
    | fin y => rw [fin_sub_fin, fin_sub_fin]; show FV.fin |x - y| = FV.fin |y - x|; rw [_root_.abs_sub_comm]

theorem FV.sq_sub_comm (x y : FV K) : (x - y).sq = (y - x).sq := by
  cases x with
  | nan => cases y <;> rfl
  | inf a => cases y with
    | nan => rfl
    | inf b => cases a <;> cases b <;> rfl
    | fin y => cases a <;> rfl
  | fin x => cases y with
    | nan => rfl
    | inf b => cases b <;> rfl
    | fin y => rw [fin_sub_fin, fin_sub_fin]; show FV.fin ((x - y) * (x - y)) = FV.fin ((y - x) * (y - x)); congr 1; ring

theorem map_sub_same {f : FV K → FV K} (hf : ∀ x y, f (x - y) = f (y - x)) (a b : StatVar L (FV K)) : ((a.zipWith (· - ·) b).map f).Same ((b.zipWith (· - ·) a).map f) := by
  have := StatVar.zipWith_comm (f := fun x y => f (x - y)) (g := fun x y => f (x - y)) hf a b
  exact this

variable (hagg : agg.RespectsSame) (hp : IsDict p) (ht : IsDict t)
include hagg hp ht

/-- **C94** `MAE` is the same if predictions and targets are exchanged. -/
theorem C94_mae : SameValues (metricAlone absoluteErrorStatistic.toMetric agg p t) (metricAlone absoluteErrorStatistic.toMetric agg t p) :=
  statistic_exchange hagg (mirrored_statOf hp ht (map_sub_same FV.abs_sub_comm))

/-- **C94** … and so is `MSE`. -/
theorem C94_mse : SameValues (metricAlone squaredErrorStatistic.toMetric agg p t) (metricAlone squaredErrorStatistic.toMetric agg t p) :=
  statistic_exchange hagg (mirrored_statOf hp ht (map_sub_same FV.sq_sub_comm))

theorem errorExceedance_comm (th : DA L (FV K)) (a b : StatVar L (FV K)) : (errorExceedance th a b).Same (errorExceedance th b a) := by
  unfold errorExceedance
  have h := map_sub_same (FV.abs_sub_comm (K := K)) a b
  dsimp only
  exact StatVar.zipWith_same (StatVar.zipWith_same (StatVar.zipWith_same h (.refl _)) (StatVar.map_same _ h)) (.refl _)

/-- **C94** … the frequency of errors above a threshold. -/
theorem C94_error_exceedance (th : DA L (FV K)) :
    SameValues (metricAlone (errorExceedanceStatistic th).toMetric agg p t) (metricAlone (errorExceedanceStatistic th).toMetric agg t p) :=
  statistic_exchange hagg (mirrored_statOf hp ht (fun a b => errorExceedance_comm hagg hp ht th a b))

/-- **C94** The average of the predictions is the average of the targets with the roles exchanged. -/
theorem C94_averages (copyNans : Bool) (n n' : String) :
    SameValues (metricAlone (statOf n (predictionPassthrough copyNans)).toMetric agg p t) (metricAlone (statOf n' (targetPassthrough copyNans)).toMetric agg t p) :=
  statistic_exchange hagg (mirrored_statOf hp ht (fun _ _ => .refl _))

omit hagg hp ht in
theorem FV.sub_flip (x y : FV K) : x - y = FV.times (-1) (y - x) := by
  rw [← FV.times_sub (by norm_num)]
  have h : ∀ z : FV K, FV.times (-1) z = -z := by
    intro z
    rcases z with _ | s | z
    · rfl
    · rw [FV.times_inf (by norm_num)]
      have : decide ((-1 : K) < 0) = true := by simp
      rw [this]
      cases s <;> rfl
    · rw [FV.times_fin]
      show FV.fin (-1 * z) = FV.fin (-z)
      rw [neg_one_mul]
  rw [h, h]
  rcases x with _ | s | x <;> rcases y with _ | s' | y
  · rfl
  · cases s' <;> rfl
  · rfl
  · cases s <;> rfl
  · cases s <;> cases s' <;> rfl
  · cases s <;> rfl
  · rfl
  · cases s' <;> rfl
  · show FV.fin x - FV.fin y = FV.fin (-y) - FV.fin (-x)
    rw [FV.fin_sub_fin, FV.fin_sub_fin]
    congr 1
    ring

omit hagg hp ht in
theorem loop_times (k : K) (t : Vars (StatVar L (FV K))) : ∀ p : Vars (StatVar L (FV K)), perVariableLoop (fun a b => .ok (some (some ((error a b).map (FV.times k))))) t p =
    (perVariableLoop (fun a b => .ok (some (some (error a b)))) t p).map (scaleStats (fun _ => k))
  | [] => rfl
  | (v, a) :: p => by
    unfold perVariableLoop
    cases pyGet? v t with
    | none => exact loop_times k t p
    | some b =>
      dsimp only
      rw [loop_times k t p]
      rcases perVariableLoop (fun a b => .ok (some (some (error a b)))) t p with e | l <;> rfl

omit hagg hp ht in
/-- The bias of the targets, with the sign changed. -/
theorem error_times (hc : agg.CoordOnly) {k : K} (hk : k ≠ 0) : metricAlone (statOf "Error" (fun a b => (error a b).map (FV.times k))).toMetric agg p t =
    (metricAlone errorStatistic.toMetric agg p t).map (scaleValues (fun _ => k)) := by
  rw [metricAlone_means, metricAlone_means]
  have hm : meansOf (statOf "Error" (fun a b => (error a b).map (FV.times k))) agg p t = (meansOf errorStatistic agg p t).map (scaleValues (fun _ => k)) := by
    unfold meansOf
    have h1 : (statOf "Error" (fun a b : StatVar L (FV K) => (error a b).map (FV.times k))).compute p t = (errorStatistic.compute p t).map (scaleStats (fun _ => k)) := loop_times k t p
    rw [h1]
    rcases errorStatistic.compute p t with e | x
    · rfl
    · exact meanVars_times hc (fun _ => hk) x
  show (do
    let means ← [("self", statOf "Error" (fun a b => (error a b).map (FV.times k)))].mapM (fun ks : String × FStatistic L K => do
      let mean ← meansOf ks.2 agg p t
      return (ks.1, mean))
    pyItem means "self") = (do
    let means ← [("self", errorStatistic)].mapM (fun ks : String × FStatistic L K => do
      let mean ← meansOf ks.2 agg p t
      return (ks.1, mean))
    pyItem means "self").map _
  rw [List.mapM_cons, List.mapM_nil, List.mapM_cons, List.mapM_nil, hm]
  rcases meansOf errorStatistic agg p t with e | x <;> rfl

/-- **C94** `Bias` changes its sign. -/
theorem C94_bias (hc : agg.CoordOnly) : SameValues (metricAlone errorStatistic.toMetric agg p t) ((metricAlone errorStatistic.toMetric agg t p).map (scaleValues (fun _ => -1))) := by
  rw [← error_times hc (by norm_num)]
  refine statistic_exchange hagg (mirrored_statOf hp ht (fun a b => ?_))
  exact StatVar.zipWith_comm (f := fun x y => x - y) (g := fun x y => FV.times (-1) (x - y)) FV.sub_flip a b

/-! ### Contingency tables -/

omit hagg hp ht in
theorem contingency_comm {f g : Bool → Bool → Bool} (h : ∀ x y, f x y = g y x) (a b : StatVar L (FV K)) : (contingency f a b).Same (contingency g b a) := by
  unfold contingency
  dsimp only
  refine StatVar.zipWith_same (StatVar.zipWith_comm (fun x y => by rw [h]) _ _) (StatVar.map_same _ (StatVar.zipWith_comm (fun x y => ?_) _ _))
  exact FV.mul_comm' x y

/-- **C94** Hits and correct rejections stay the same, false alarms and misses change places. -/
theorem C94_contingency : SameValues (metricAlone tpStatistic.toMetric agg p t) (metricAlone tpStatistic.toMetric agg t p) ∧
    SameValues (metricAlone tnStatistic.toMetric agg p t) (metricAlone tnStatistic.toMetric agg t p) ∧
    SameValues (metricAlone fpStatistic.toMetric agg p t) (metricAlone fnStatistic.toMetric agg t p) ∧
    SameValues (metricAlone fnStatistic.toMetric agg p t) (metricAlone fpStatistic.toMetric agg t p) :=
  ⟨statistic_exchange hagg (mirrored_statOf hp ht (contingency_comm (by decide))), statistic_exchange hagg (mirrored_statOf hp ht (contingency_comm (by decide))),
    statistic_exchange hagg (mirrored_statOf hp ht (contingency_comm (by decide))), statistic_exchange hagg (mirrored_statOf hp ht (contingency_comm (by decide)))⟩

omit hagg in
theorem mirrored_tables : Mirrored (tpStatistic (L := L) (K := K)) tpStatistic p t ∧ Mirrored (tnStatistic (L := L) (K := K)) tnStatistic p t ∧
    Mirrored (fpStatistic (L := L) (K := K)) fnStatistic p t ∧ Mirrored (fnStatistic (L := L) (K := K)) fpStatistic p t :=
  ⟨mirrored_statOf hp ht (contingency_comm (by decide)), mirrored_statOf hp ht (contingency_comm (by decide)),
    mirrored_statOf hp ht (contingency_comm (by decide)), mirrored_statOf hp ht (contingency_comm (by decide))⟩

omit hagg hp ht in
theorem add_right_comm_same (a b c : DA L (FV K)) : ((a.add b).add c).Same ((a.add c).add b) := by
  refine ⟨Finset.union_right_comm _ _ _, ?_, fun e _ => _root_.add_right_comm _ _ _⟩
  intro d hd
  simp only [DA.add, zipWith, Finset.mem_union] at hd
  simp only [DA.add, zipWith, joinCoords, Finset.mem_union]
  by_cases h1 : d ∈ a.dims <;> by_cases h2 : d ∈ b.dims <;> by_cases h3 : d ∈ c.dims <;> simp only [h1, h2, h3, if_true, if_false, or_true, true_or, or_false, false_or, or_self]
  · exact Finset.inter_right_comm _ _ _
  · exact Finset.inter_comm _ _
  · simp [h1, h2, h3] at hd

omit hagg hp ht in
theorem add_comm_same (a b : DA L (FV K)) : (a.add b).Same (b.add a) := DA.zipWith_comm (fun _ _ => _root_.add_comm _ _) a b

omit hagg hp ht in
theorem mul_comm_same (a b : DA L (FV K)) : (a.mul b).Same (b.mul a) := DA.zipWith_comm (fun _ _ => FV.mul_comm' _ _) a b

/-- **C94** `CSI` is the same if predictions and targets are exchanged. -/
theorem C94_csi : SameValues (metricAlone csi agg p t) (metricAlone csi agg t p) := by
  obtain ⟨h1, -, h3, h4⟩ := mirrored_tables (L := L) (K := K) hp ht
  refine metric3_exchange (r := DA.Same) hagg (by decide) (by decide) (by decide) h1 h3 h4 ?_
  intro a a' b b' c c' ha hb hc
  exact zipWith_congr ha ((zipWith_congr (zipWith_congr ha hb) hc).trans (add_right_comm_same a' b' c'))

/-- **C94** … `Accuracy`, … -/
theorem C94_accuracy : SameValues (metricAlone accuracy agg p t) (metricAlone accuracy agg t p) := by
  obtain ⟨h1, h2, h3, h4⟩ := mirrored_tables (L := L) (K := K) hp ht
  refine metric4_exchange (r := DA.Same) hagg (by decide) (by decide) (by decide) (by decide) (by decide) (by decide) h1 h3 h4 h2 ?_
  intro a a' b b' c c' d d' ha hb hc hd
  exact zipWith_congr (zipWith_congr ha hd) (zipWith_congr ((zipWith_congr (zipWith_congr ha hb) hc).trans (add_right_comm_same a' b' c')) hd)

/-- **C94** … `F1Score`, … -/
theorem C94_f1 : SameValues (metricAlone f1Score agg p t) (metricAlone f1Score agg t p) := by
  obtain ⟨h1, -, h3, h4⟩ := mirrored_tables (L := L) (K := K) hp ht
  refine metric3_exchange (r := DA.Same) hagg (by decide) (by decide) (by decide) h1 h3 h4 ?_
  intro a a' b b' c c' ha hb hc
  exact zipWith_congr (same_map ha) ((zipWith_congr (zipWith_congr (same_map ha) hb) hc).trans (add_right_comm_same _ b' c'))

/-- **C94** … `HSS`, … -/
theorem C94_hss : SameValues (metricAlone hss agg p t) (metricAlone hss agg t p) := by
  obtain ⟨h1, h2, h3, h4⟩ := mirrored_tables (L := L) (K := K) hp ht
  refine metric4_exchange (r := DA.Same) hagg (by decide) (by decide) (by decide) (by decide) (by decide) (by decide) h1 h3 h4 h2 ?_
  intro a a' b b' c c' d d' ha hb hc hd
  refine zipWith_congr (same_map (zipWith_congr (zipWith_congr ha hd) ((zipWith_congr hb hc).trans (mul_comm_same b' c')))) ?_
  refine Same.trans ?_ (add_comm_same _ _)
  exact zipWith_congr (zipWith_congr (zipWith_congr ha hc) (zipWith_congr hc hd)) (zipWith_congr (zipWith_congr ha hb) (zipWith_congr hb hd))

/-- **C94** … and `ETS`. -/
theorem C94_ets : SameValues (metricAlone ets agg p t) (metricAlone ets agg t p) := by
  obtain ⟨h1, h2, h3, h4⟩ := mirrored_tables (L := L) (K := K) hp ht
  refine metric4_exchange (r := DA.Same) hagg (by decide) (by decide) (by decide) (by decide) (by decide) (by decide) h1 h3 h4 h2 ?_
  intro a a' b b' c c' d d' ha hb hc hd
  have e1 : ((a.add b).add c).Same ((a'.add c').add b') := (zipWith_congr (zipWith_congr ha hb) hc).trans (add_right_comm_same a' b' c')
  have e2 : (((a.add b).mul (a.add c)).div (((a.add b).add c).add d)).Same (((a'.add c').mul (a'.add b')).div (((a'.add c').add b').add d')) :=
    zipWith_congr ((zipWith_congr (zipWith_congr ha hb) (zipWith_congr ha hc)).trans (mul_comm_same _ _)) (zipWith_congr e1 hd)
  exact zipWith_congr (zipWith_congr ha e2) (zipWith_congr e1 e2)

/-- **C94** `Recall` of the predictions is `Precision` with the roles exchanged. -/
theorem C94_recall_precision : SameValues (metricAlone recall agg p t) (metricAlone precision agg t p) := by
  obtain ⟨h1, -, -, h4⟩ := mirrored_tables (L := L) (K := K) hp ht
  refine metric2_exchange (r := DA.Same) hagg (by decide) (by decide) h1 h4 ?_
  intro a a' b b' ha hb
  exact zipWith_congr ha (zipWith_congr ha hb)

omit hagg hp ht in
theorem FV.div_inverse {n d : FV K} {r : K} (h : n / d = FV.fin r) (hr : r ≠ 0) : d / n = FV.fin r⁻¹ := by
  rcases n with _ | s | n <;> rcases d with _ | s' | d
  · cases h
  · cases h
  · cases h
  · cases h
  · cases s <;> cases s' <;> cases h
  · have e : (FV.inf s / FV.fin d : FV K) = if d = 0 then FV.inf s else FV.inf (xor s (decide (d < 0))) := rfl
    rw [e] at h
    split_ifs at h
  · cases h
  · have : (FV.fin n / FV.inf s' : FV K) = FV.fin 0 := rfl
    rw [this] at h
    cases h
    exact absurd rfl hr
  · by_cases hd : d = 0
    · exfalso
      subst hd
      rw [FV.fin_div_fin, if_pos rfl] at h
      split_ifs at h
    · have e1 : (FV.fin n / FV.fin d : FV K) = FV.fin (n / d) := FV.fin_div_fin_of_ne n hd
      rw [e1] at h
      cases h
      have hn : n ≠ 0 := fun h => hr (by rw [h, zero_div])
      rw [FV.fin_div_fin_of_ne d hn, inv_div]

/-- **C94** `FrequencyBias` becomes its reciprocal, wherever it is finite and not zero. -/
theorem C94_frequency_bias : SameOutcome (VarsRel (fun x y => x.dims = y.dims ∧ (∀ d ∈ x.dims, x.coords d = y.coords d) ∧
      ∀ e, x.InDom e → ∀ r, r ≠ 0 → x.val e = .fin r → y.val e = .fin r⁻¹)) (metricAlone frequencyBias agg p t) (metricAlone frequencyBias agg t p) := by
  obtain ⟨h1, -, h3, h4⟩ := mirrored_tables (L := L) (K := K) hp ht
  refine metric3_exchange hagg (by decide) (by decide) (by decide) h1 h3 h4 ?_
  intro a a' b b' c c' ha hb hc
  have e1 : (a.add b).Same (a'.add b') := zipWith_congr ha hb
  have e2 : (a.add c).Same (a'.add c') := zipWith_congr ha hc
  have hs : ((a.add b).div (a.add c)).Same (zipWith (fun x y => y / x) (a'.add c') (a'.add b')) := (zipWith_congr e1 e2).trans (DA.zipWith_comm (fun _ _ => rfl) _ _)
  refine ⟨hs.dims, hs.coords, fun e he r hr hx => ?_⟩
  rw [hs.val e he] at hx
  exact FV.div_inverse hx hr

/-! ### Spatial and ensemble scores -/

/-- **C94** `FSS` is the same if predictions and targets are exchanged. -/
theorem C94_fss (g : Grid L) (number : ℤ → L) (wrap : Bool) (sizes : Sizes) : SameValues (metricAlone (fss g number wrap sizes) agg p t) (metricAlone (fss g number wrap sizes) agg t p) := by
  refine metric3_exchange (r := DA.Same) hagg (by decide) (by decide) (by decide) (mirrored_statOfE hp ht ?_) (mirrored_statOfE hp ht ?_) (mirrored_statOfE hp ht ?_) ?_
  · intro v a b _ _
    unfold squaredFractionsError
    rcases neighborhoodAveraging g number wrap sizes a with e | P <;> rcases neighborhoodAveraging g number wrap sizes b with e' | T
    · exact .fails _ _
    · exact .fails _ _
    · exact .fails _ _
    · exact .gives (map_sub_same FV.sq_sub_comm P T)
  · intro v a b _ _
    unfold squaredPredictionFraction squaredTargetFraction
    rcases neighborhoodAveraging g number wrap sizes a with e | P
    · exact .fails _ _
    · exact .gives (.refl _)
  · intro v a b _ _
    unfold squaredPredictionFraction squaredTargetFraction
    rcases neighborhoodAveraging g number wrap sizes b with e | P
    · exact .fails _ _
    · exact .gives (.refl _)
  · intro a a' b b' c c' ha hb hc
    exact same_map (zipWith_congr ha ((zipWith_congr hb hc).trans (add_comm_same b' c')))

/-- **C94** `RankedProbabilityScore`. -/
theorem C94_rps (d : Dim) : SameValues (metricAlone (rpsStatistic d).toMetric agg p t) (metricAlone (rpsStatistic d).toMetric agg t p) := by
  refine statistic_exchange hagg (mirrored_perVariable hp ht (fun v a b _ _ => ?_))
  unfold rankedProbabilityScore
  have h := map_sub_same (FV.sq_sub_comm (K := K)) a b
  dsimp only
  rw [← h.arr.dims]
  by_cases hd : d ∈ ((a.zipWith (· - ·) b).map FV.sq).arr.dims
  · rw [if_pos hd, if_pos hd]
    exact .gives (.some (.some ⟨sumDim_congr (same_map h.arr) hd, h.mask⟩))
  · rw [if_neg hd, if_neg hd]
    exact .fails _ _

end general

section real
variable {L : Type} [DecidableEq L] {agg : Aggregator L (FV ℝ)} {p t : Vars (StatVar L (FV ℝ))} (hagg : agg.RespectsSame) (hp : IsDict p) (ht : IsDict t)
include hagg hp ht

/-- **C94** `RMSE` is the same if predictions and targets are exchanged. -/
theorem C94_rmse : SameValues (metricAlone rmse agg p t) (metricAlone rmse agg t p) :=
  metricAlone_mirrored hagg extensional_rmse rfl (.cons ⟨rfl, mirrored_statOf hp ht (map_sub_same FV.sq_sub_comm)⟩ .nil)

end real
end WBX
