import Verif.Spec.Copies
import Verif.Props.RepeatedEnsemble
import Verif.Props.SelectMore
import Verif.Props.MetricExtensional
import Verif.Props.RolesMore
import Verif.Props.Reliability
import Verif.Props.SelectMetrics
import Verif.Props.CRPSSpread
import Verif.Props.EnsembleMoments
import Verif.Model.Wrappers

/-!
# C107: listing every member several times changes nothing that is a mean over the members
-/

set_option linter.unusedSectionVars false

namespace WBX
open DA Aggregator

section copies
variable {L : Type} [DecidableEq L] {n : ℕ} {C C' : Finset L} {π : L → L}

theorem Copies.sum {V : Type} [AddCommMonoid V] (h : Copies n C C' π) (f : L → V) : ∑ l ∈ C', f (π l) = n • ∑ l ∈ C, f l := by
  rw [← Finset.sum_fiberwise_of_maps_to h.maps, Finset.smul_sum]
  refine Finset.sum_congr rfl (fun l hl => ?_)
  rw [Finset.sum_congr rfl (fun l' hl' => by rw [(Finset.mem_filter.1 hl').2]), Finset.sum_const, h.fibres l hl]

theorem Copies.card (h : Copies n C C' π) : C'.card = n * C.card := by
  have := h.sum (fun _ => 1)
  simpa using this

variable {K : Type} [Field K] [LinearOrder K] [IsStrictOrderedRing K]

theorem Copies.present (h : Copies n C C' π) (skipna : Bool) (x : L → FV K) : Copies n (WBX.present skipna C x) (WBX.present skipna C' (fun l => x (π l))) π := by
  cases skipna
  · exact h
  · refine ⟨fun l hl => ?_, fun l hl => ?_⟩
    · obtain ⟨h1, h2⟩ := Finset.mem_filter.1 hl
      exact Finset.mem_filter.2 ⟨h.maps l h1, h2⟩
    · obtain ⟨h1, h2⟩ := Finset.mem_filter.1 hl
      rw [← h.fibres l h1]
      congr 1
      show (C'.filter (fun l' => (x (π l')).isnan = false)).filter (fun l' => π l' = l) = _
      rw [Finset.filter_filter]
      refine Finset.filter_congr (fun l' _ => ⟨fun hh => hh.2, fun hh => ⟨by rw [hh]; exact h2, hh⟩⟩)

theorem copies_npSum (h : Copies n C C' π) (skipna : Bool) (x : L → FV K) : npSum skipna C' (fun l => x (π l)) = n • npSum skipna C x := by
  unfold npSum
  exact (h.present skipna x).sum x

theorem ofNat_mul (m n : ℕ) : (FV.ofNat (m * n) : FV K) = m • FV.ofNat n := by
  unfold FV.ofNat
  rw [FV.nsmul_fin]
  push_cast
  rfl

theorem copies_size (h : Copies n C C' π) (skipna : Bool) (x : L → FV K) : (FV.ofNat (WBX.present skipna C' (fun l => x (π l))).card : FV K) = n • FV.ofNat (WBX.present skipna C x).card := by
  rw [(h.present skipna x).card, ofNat_mul]

/-- The mean over the copies is the mean. -/
theorem copies_npMean (hn : n ≠ 0) (h : Copies n C C' π) (skipna : Bool) (x : L → FV K) : npMean skipna C' (fun l => x (π l)) = npMean skipna C x := by
  unfold npMean
  rw [copies_npSum h, copies_size h, FV.nsmul_div n hn]

variable {d : Dim} {a p t : StatVar L (FV K)}

/-- The member `l` of the copied array. -/
theorem copied_at {V : Type} (a : StatVar L V) (e : Dim → L) (l : L) : (a.copied d C' π).arr.val (setLabel e d l) = a.arr.val (setLabel e d (π l)) := by
  show a.arr.val (setLabel (setLabel e d l) d (π (setLabel e d l d))) = _
  rw [setLabel_same, setLabel_twice]

theorem copied_coords {V : Type} (a : StatVar L V) : (a.copied d C' π).arr.coords d = C' := if_pos rfl

/-- The mean over the member dimension. -/
theorem copied_mean (hn : n ≠ 0) (ha : EnsembleOf d C a) (h : Copies n C C' π) (skipna : Bool) : SameOutcome StatVar.Same (a.meanDim skipna d) ((a.copied d C' π).meanDim skipna d) := by
  unfold StatVar.meanDim
  rw [if_pos ha.has, if_pos (show d ∈ (a.copied d C' π).arr.dims from ha.has)]
  refine .gives ⟨⟨rfl, fun k hk => ?_, fun e _ => ?_⟩, ?_⟩
  · show a.arr.coords k = if k = d then C' else a.arr.coords k
    rw [if_neg (Finset.ne_of_mem_erase hk)]
  · show npMean skipna (a.arr.coords d) _ = npMean skipna ((a.copied d C' π).arr.coords d) _
    rw [copied_coords, ha.labels]
    simp only [copied_at]
    exact (copies_npMean hn h skipna (fun l => a.arr.val (setLabel e d l))).symm
  · show Option.Rel DA.Same (dropMask d a.mask) (dropMask d a.mask)
    rcases dropMask d a.mask with _ | m
    · exact .none
    · exact .some (DA.Same.refl _)

theorem EnsembleOf.map {V W : Type} {a : StatVar L V} (h : EnsembleOf d C a) (f : V → W) : EnsembleOf d C (a.map f) := ⟨h.has, h.labels, h.mask⟩

theorem EnsembleOf.zip {U V W : Type} {a : StatVar L V} {b : StatVar L W} (h : EnsembleOf d C a) (hb : b.Without d) (f : V → W → U) : EnsembleOf d C (a.zipWith f b) := by
  refine ⟨Finset.mem_union_left _ h.has, ?_, fun m hm => ?_⟩
  · show joinCoords a.arr b.arr d = C
    unfold joinCoords
    rw [← h.labels]
    simp [h.has, hb.1.1]
  · have hm : combineMask a.mask b.mask = some m := hm
    rcases ha : a.mask with _ | x <;> rcases hb' : b.mask with _ | y <;> rw [ha, hb'] at hm <;> unfold combineMask at hm
    · cases hm
    · exact hb.2 m (by rw [hb']; exact hm)
    · exact h.mask m (by rw [ha]; exact hm)
    · dsimp only at hm
      split at hm
      · exact h.mask m (by rw [ha]; exact hm)
      · cases hm

/-- Copies of the members of the forecast, compared with something that has no members. -/
theorem copied_zip {U V W : Type} (f : V → W → U) {a : StatVar L V} {b : StatVar L W} (h : EnsembleOf d C a) (hb : b.Without d) : (a.copied d C' π).zipWith f b = (a.zipWith f b).copied d C' π := by
  show (⟨_, _⟩ : StatVar L U) = ⟨_, _⟩
  congr 1
  refine DA.same_of rfl ?_ ?_
  · funext k
    show joinCoords (a.arr.copied d C' π) b.arr k = if k = d then C' else joinCoords a.arr b.arr k
    unfold joinCoords
    by_cases hk : k = d
    · subst hk
      simp [DA.copied, h.has, hb.1.1]
    · simp [DA.copied, hk]
  · funext e
    show f _ (b.arr.val e) = f _ (b.arr.val (setLabel e d (π (e d))))
    rw [hb.1.2]; rfl

theorem copied_map {V W : Type} (f : V → W) (a : StatVar L V) : (a.copied d C' π).map f = (a.map f).copied d C' π := rfl

theorem rename_without {k' : Dim} (hk' : k' ≠ d) (ht : MayHaveMembers d t) {t' : StatVar L (FV K)} (h : t.rename d k' = .ok t') : t'.Without d := by
  unfold StatVar.rename at h
  split at h
  · next hc =>
    cases h
    refine ⟨?_, fun m hm => ?_⟩
    · unfold DA.rename
      rw [if_pos hc.1]
      refine ⟨?_, fun e l => ?_⟩
      · show d ∉ insert k' (t.arr.dims.erase d)
        simp [Ne.symm hk']
      · show t.arr.val (setLabel (setLabel e d l) d (setLabel e d l k')) = t.arr.val (setLabel e d (e k'))
        rw [setLabel_twice, setLabel, if_neg hk']
    · rcases hmask : t.mask with _ | m'
      · rw [hmask] at hm; cases hm
      · rw [hmask] at hm
        cases hm
        have := ht.mask m' hmask
        show ((m'.rename d k').Without d)
        unfold DA.rename
        rw [if_neg this.1]
        exact this
  · cases h

/-- The skill part of the CRPS. -/
theorem copied_skill (hn : n ≠ 0) (h : Copies n C C' π) (hd : d ++ "_PSEUDO_FOR_TARGETS" ≠ d) (skipna : Bool) (hp : EnsembleOf d C p) (ht : MayHaveMembers d t) :
    SameOutcome StatVar.Same (crpsSkill d skipna p t) (crpsSkill d skipna (p.copied d C' π) t) := by
  unfold crpsSkill
  split
  · refine SameOutcome.bind (r := fun x y => x = y ∧ t.rename d (d ++ "_PSEUDO_FOR_TARGETS") = .ok x) ?_ (fun x y hxy => ?_)
    · rcases hr : t.rename d (d ++ "_PSEUDO_FOR_TARGETS") with e | t'
      · exact .fails _ _
      · exact .gives ⟨rfl, rfl⟩
    · obtain ⟨rfl, hx⟩ := hxy
      have hx := rename_without hd ht hx
      rw [copied_zip _ hp hx, copied_map]
      have ha : EnsembleOf d C ((p.zipWith (fun x y : FV K => x - y) x).map FV.abs) := (hp.zip hx _).map _
      dsimp only
      generalize (p.zipWith (fun x y : FV K => x - y) x).map FV.abs = a at ha ⊢
      rw [if_pos ha.has, if_pos (show d ∈ (a.copied d C' π).arr.dims from ha.has)]
      refine .gives ⟨⟨rfl, fun k hk => ?_, fun e _ => ?_⟩, ?_⟩
      · have hkd : k ≠ d := by
          intro hkd
          subst hkd
          rcases Finset.mem_union.1 hk with hk | hk <;> exact absurd (Finset.mem_of_mem_erase hk) (Finset.notMem_erase _ _)
        show joinCoords _ _ k = joinCoords _ _ k
        unfold joinCoords
        simp only [StatVar.reduce, StatVar.copied, DA.copied, if_neg hkd]
        rfl
      · have hc : (a.copied d C' π).arr.coords (d ++ "_PSEUDO_FOR_TARGETS") = a.arr.coords (d ++ "_PSEUDO_FOR_TARGETS") := if_neg hd
        show (∑ l ∈ a.arr.coords (d ++ "_PSEUDO_FOR_TARGETS"), npSum skipna (a.arr.coords d) _) / (∑ l ∈ a.arr.coords (d ++ "_PSEUDO_FOR_TARGETS"), FV.ofNat (present skipna (a.arr.coords d) _).card) =
          (∑ l ∈ (a.copied d C' π).arr.coords (d ++ "_PSEUDO_FOR_TARGETS"), npSum skipna ((a.copied d C' π).arr.coords d) _) / (∑ l ∈ (a.copied d C' π).arr.coords (d ++ "_PSEUDO_FOR_TARGETS"), FV.ofNat (present skipna ((a.copied d C' π).arr.coords d) _).card)
        rw [hc, copied_coords, ha.labels]
        simp only [copied_at]
        have h1 : ∀ e', npSum skipna C' (fun l => a.arr.val (setLabel e' d (π l))) = n • npSum skipna C (fun l => a.arr.val (setLabel e' d l)) := fun e' => copies_npSum h skipna (fun l => a.arr.val (setLabel e' d l))
        have h2 : ∀ e', (FV.ofNat (present skipna C' (fun l => a.arr.val (setLabel e' d (π l)))).card : FV K) = n • FV.ofNat (present skipna C (fun l => a.arr.val (setLabel e' d l))).card :=
          fun e' => copies_size h skipna (fun l => a.arr.val (setLabel e' d l))
        simp only [h1, h2, ← Finset.smul_sum]
        rw [FV.nsmul_div n hn]
      · show Option.Rel DA.Same (combineMask (dropMask _ (dropMask d a.mask)) (dropMask _ (dropMask d a.mask))) (combineMask (dropMask _ (dropMask d a.mask)) (dropMask _ (dropMask d a.mask)))
        rcases combineMask (dropMask _ (dropMask d a.mask)) (dropMask _ (dropMask d a.mask)) with _ | m
        · exact .none
        · exact .some (DA.Same.refl _)
  · next hdt =>
    have ht' : t.Without d := ⟨ht.own hdt, ht.mask⟩
    rw [copied_zip _ hp ht', copied_map]
    exact copied_mean hn ((hp.zip ht' _).map _) h skipna

/-- The members may not be called like the copy of them that the code makes. -/
theorem copied_ensemble (ha : EnsembleOf d C a) : EnsembleOf d C' (a.copied d C' π) := ⟨ha.has, copied_coords a, ha.mask⟩

theorem copied_without {k : Dim} (hk : k ≠ d) (h : a.arr.Without k) : (a.copied d C' π).arr.Without k := by
  refine ⟨h.1, fun e l => ?_⟩
  show a.arr.val (setLabel (setLabel e k l) d (π (setLabel e k l d))) = a.arr.val (setLabel e d (π (e d)))
  rw [show setLabel e k l d = e d from if_neg hk.symm, setLabel_comm e hk]
  exact h.2 _ _

/-- The mask of the spread. -/
noncomputable def spreadMask (d : Dim) (skipna : Bool) (m : Option (DA L Bool)) : Option (DA L Bool) :=
  combineMask (dropMask "ensemble_dim_2" (dropMask d (combineMask m (m.map (fun m => m.rename d "ensemble_dim_2"))))) (combineMask (if skipna then dropMask d m else none) (if skipna then dropMask d m else none))

/-- The spread part of the CRPS, in terms of the members. -/
theorem spread_members (argsort : List (FV K) → List ℕ) (order : List L) (fair skipna : Bool) (hp : EnsembleOf d C p) (h2 : p.arr.Without "ensemble_dim_2") (hC : skipna = true ∨ 2 ≤ C.card) (t : StatVar L (FV K)) :
    ∃ s, crpsSpread argsort order d false fair "predictions" skipna p t = .ok s ∧ s.arr.dims = p.arr.dims.erase d ∧ (∀ k ∈ s.arr.dims, s.arr.coords k = p.arr.coords k) ∧ s.mask = spreadMask d skipna p.mask ∧
      ∀ e, s.arr.val e = (∑ l' ∈ C, npSum skipna C (fun l => (p.arr.val (setLabel e d l) - p.arr.val (setLabel e d l')).abs)) /
        (FV.ofNat (if skipna then (present true C (fun l => p.arr.val (setLabel e d l))).card else C.card) *
          (FV.ofNat (if skipna then (present true C (fun l => p.arr.val (setLabel e d l))).card else C.card) - FV.ofNat (if fair then 1 else 0))) := by
  have hd2 : d ≠ "ensemble_dim_2" := fun hd => h2.1 (hd ▸ hp.has)
  have hin := hp.has
  have hn2 := h2.1
  unfold crpsSpread whichArray StatVar.sizeDim StatVar.rename
  rw [if_pos rfl]
  simp only [bind, Except.bind, pure, Except.pure, if_pos hp.has, hp.labels, if_pos (And.intro hp.has h2.1), Bool.false_eq_true, if_false]
  have hcond : ¬ ((!skipna && decide (C.card < 2)) = true) := by
    rcases hC with h | h
    · simp [h]
    · simp [not_lt.2 h]
  rw [if_neg hcond]
  have hz : (DA.rename d "ensemble_dim_2" p.arr) = { dims := insert "ensemble_dim_2" (p.arr.dims.erase d), coords := fun k => if k = "ensemble_dim_2" then p.arr.coords d else p.arr.coords k, val := fun e => p.arr.val (setLabel e d (e "ensemble_dim_2")) } := by
    unfold DA.rename; rw [if_pos hin]
  have hc1 : joinCoords p.arr (DA.rename d "ensemble_dim_2" p.arr) d = C := by
    unfold joinCoords
    rw [if_pos hin, if_neg (by rw [hz]; simp [hd2])]; exact hp.labels
  have hc2 : joinCoords p.arr (DA.rename d "ensemble_dim_2" p.arr) "ensemble_dim_2" = C := by
    unfold joinCoords; rw [if_neg hn2, hz]; exact hp.labels
  have hdims : (StatVar.zipWith (fun x1 x2 : FV K => x1 / x2)
          (StatVar.reduce "ensemble_dim_2" (npSum false)
            (StatVar.reduce d (npSum skipna)
              (StatVar.map FV.abs
                (StatVar.zipWith (fun x1 x2 => x1 - x2) p
                  { arr := DA.rename d "ensemble_dim_2" p.arr,
                    mask := Option.map (fun m => DA.rename d "ensemble_dim_2" m) p.mask }))))
          (StatVar.zipWith (fun x1 x2 => x1 * x2)
            (if skipna = true then StatVar.reduce d (fun C x => FV.ofNat (WBX.present true C x).card) p
            else { arr := scalar (FV.ofNat C.card), mask := none })
            (StatVar.map (fun x => x - FV.ofNat (if fair = true then 1 else 0))
              (if skipna = true then StatVar.reduce d (fun C x => FV.ofNat (WBX.present true C x).card) p
              else { arr := scalar (FV.ofNat C.card), mask := none })))).arr.dims = p.arr.dims.erase d := by
    cases skipna <;>
    · ext k
      simp only [StatVar.zipWith, StatVar.map, StatVar.reduce, DA.zipWith, DA.map, DA.rename, DA.scalar, if_pos hp.has, Finset.mem_union, Finset.mem_erase, Finset.mem_insert]
      by_cases hk : k = "ensemble_dim_2"
      · subst hk; simp [hn2]
      · simp [hk] <;> tauto
  refine ⟨_, rfl, hdims, ?_, ?_, ?_⟩
  · intro k hk
    rw [hdims] at hk
    obtain ⟨hkd, hkp⟩ := Finset.mem_erase.1 hk
    have hk2 : k ≠ "ensemble_dim_2" := fun h => hn2 (h ▸ hkp)
    cases skipna <;> simp [joinCoords, StatVar.zipWith, StatVar.reduce, StatVar.map, DA.zipWith, DA.map, DA.rename, DA.scalar, hin, hkp, hkd, hk2, hn2]
  · cases skipna <;> rfl
  · intro e
    show npSum false (joinCoords p.arr (DA.rename d "ensemble_dim_2" p.arr) "ensemble_dim_2") (fun l' => npSum skipna (joinCoords p.arr (DA.rename d "ensemble_dim_2" p.arr) d)
      (fun l => (p.arr.val (setLabel (setLabel e "ensemble_dim_2" l') d l) - (DA.rename d "ensemble_dim_2" p.arr).val (setLabel (setLabel e "ensemble_dim_2" l') d l)).abs)) / _ = _
    rw [hc1, hc2, hz]
    have h1 : ∀ l' l, p.arr.val (setLabel (setLabel e "ensemble_dim_2" l') d l) = p.arr.val (setLabel e d l) := fun l' l => by
      rw [setLabel_comm e hd2.symm]; exact h2.2 _ _
    have h3 : ∀ l' l, setLabel (setLabel (setLabel e "ensemble_dim_2" l') d l) d (setLabel (setLabel e "ensemble_dim_2" l') d l "ensemble_dim_2") = setLabel (setLabel e "ensemble_dim_2" l') d l' := fun l' l => by
      rw [setLabel_twice, setLabel, if_neg hd2.symm, setLabel_same]
    simp only [h3, h1]
    cases skipna
    · rfl
    · show _ / (FV.ofNat (WBX.present true (p.arr.coords d) _).card * (FV.ofNat (WBX.present true (p.arr.coords d) _).card - _)) = _
      rw [hp.labels]
      rfl

/-- The spread of an ensemble against all pairs, a member also with itself (`fair` is false). -/
theorem copied_spread (hn : n ≠ 0) (h : Copies n C C' π) (argsort : List (FV K) → List ℕ) (order : List L) (skipna : Bool) (hp : EnsembleOf d C p) (h2 : p.arr.Without "ensemble_dim_2") (hC : skipna = true ∨ 2 ≤ C.card)
    (t t' : StatVar L (FV K)) : SameOutcome StatVar.Same (crpsSpread argsort order d false false "predictions" skipna p t) (crpsSpread argsort order d false false "predictions" skipna (p.copied d C' π) t') := by
  have hd2 : "ensemble_dim_2" ≠ d := fun hd => h2.1 (hd ▸ hp.has)
  have hC' : skipna = true ∨ 2 ≤ C'.card := hC.imp_right (fun hc => by
    rw [h.card]; exact hc.trans (Nat.le_mul_of_pos_left _ (Nat.pos_of_ne_zero hn)))
  obtain ⟨s, hs, s1, s2, s3, s4⟩ := spread_members argsort order false skipna hp h2 hC t
  obtain ⟨s', hs', s1', s2', s3', s4'⟩ := spread_members argsort order false skipna (copied_ensemble (C' := C') (π := π) hp) (copied_without hd2 h2) hC' t'
  rw [hs, hs']
  refine .gives ⟨⟨s1.trans s1'.symm, fun k hk => ?_, fun e _ => ?_⟩, ?_⟩
  · rw [s2 k hk, s2' k (by rw [s1', show (p.copied d C' π).arr.dims = p.arr.dims from rfl, ← s1]; exact hk)]
    rw [s1] at hk
    show _ = if k = d then C' else p.arr.coords k
    rw [if_neg (Finset.ne_of_mem_erase hk)]
  · rw [s4, s4']
    simp only [copied_at]
    have h1 : ∀ l', npSum skipna C' (fun l => (p.arr.val (setLabel e d (π l)) - p.arr.val (setLabel e d l')).abs) = n • npSum skipna C (fun l => (p.arr.val (setLabel e d l) - p.arr.val (setLabel e d l')).abs) :=
      fun l' => copies_npSum h skipna (fun l => (p.arr.val (setLabel e d l) - p.arr.val (setLabel e d l')).abs)
    have h3 : (if skipna = true then (WBX.present true C' (fun l => p.arr.val (setLabel e d (π l)))).card else C'.card) = n * (if skipna = true then (WBX.present true C (fun l => p.arr.val (setLabel e d l))).card else C.card) := by
      cases skipna
      · exact h.card
      · exact (h.present true (fun l => p.arr.val (setLabel e d l))).card
    simp only [h1]
    rw [h.sum (fun l' => n • npSum skipna C (fun l => (p.arr.val (setLabel e d l) - p.arr.val (setLabel e d l')).abs)), h3, ← Finset.smul_sum]
    generalize (if skipna = true then (WBX.present true C (fun l => p.arr.val (setLabel e d l))).card else C.card) = N
    have hN : (FV.ofNat (n * N) * (FV.ofNat (n * N) - FV.ofNat (if false = true then 1 else 0)) : FV K) = n • (n • (FV.ofNat N * (FV.ofNat N - FV.ofNat (if false = true then 1 else 0)))) := by
      simp only [FV.ofNat, FV.fin_sub_fin, FV.fin_mul_fin, FV.nsmul_fin]
      congr 1
      push_cast
      simp
      ring
    rw [hN, FV.nsmul_div n hn, FV.nsmul_div n hn]
  · rw [s3, s3']
    show Option.Rel DA.Same (spreadMask d skipna p.mask) (spreadMask d skipna p.mask)
    rcases spreadMask d skipna p.mask with _ | m
    · exact .none
    · exact .some (DA.Same.refl _)

end copies

section evaluation
variable {L K : Type} [DecidableEq L] [Field K] [LinearOrder K] [IsStrictOrderedRing K] {n : ℕ} {d : Dim} {C C' : Finset L} {π : L → L} {p t : Vars (StatVar L (FV K))}

/-- Statistics with the same outcomes give the same values of the metric. -/
theorem metricAlone_of_stats {m : FMetric L K} {agg : Aggregator L (FV K)} {p' t' : Vars (StatVar L (FV K))} (hagg : agg.RespectsSame) (hm : m.Extensional)
    (h : ∀ ks ∈ m.statistics, SameOutcome StatsSame (ks.2.compute p t) (ks.2.compute p' t')) : SameValues (metricAlone m agg p t) (metricAlone m agg p' t') := by
  have key : ∀ l : List (String × FStatistic L K), (∀ ks ∈ l, SameOutcome StatsSame (ks.2.compute p t) (ks.2.compute p' t')) → SameOutcome (List.Forall₂ (fun a b => a.1 = b.1 ∧ VarsSame a.2 b.2))
      (l.mapM (fun ks => do
        let v ← ks.2.compute p t
        let mean ← meanVars agg v
        return (ks.1, mean)))
      (l.mapM (fun ks => do
        let v ← ks.2.compute p' t'
        let mean ← meanVars agg v
        return (ks.1, mean))) := by
    intro l
    induction l with
    | nil => intro _; exact .gives .nil
    | cons ks l ih =>
      intro hl
      rw [List.mapM_cons, List.mapM_cons]
      refine SameOutcome.bind (r := fun a b => a.1 = b.1 ∧ VarsSame a.2 b.2) ?_ ?_
      · exact SameOutcome.bind (hl ks (by simp)) (fun x y hxy => SameOutcome.bind (meanVars_same hagg hxy) (fun x' y' hxy' => .gives ⟨rfl, hxy'⟩))
      · intro a b hab
        exact SameOutcome.bind (ih (fun ks hks => hl ks (by simp [hks]))) (fun as bs h => .gives (.cons hab h))
  unfold metricAlone
  exact SameOutcome.bind (key _ h) (fun x y hxy => hm.same x y (forall₂_table hxy))

theorem isDict_copyMembers (h : IsDict p) : IsDict (copyMembers d C' π p) := by
  unfold IsDict copyMembers at *
  simpa [Function.comp_def] using h

/-- A statistic that is computed variable by variable. -/
theorem copied_statistic {name : String} {f : StatVar L (FV K) → StatVar L (FV K) → Except Err (StatVar L (FV K))} {P T : StatVar L (FV K) → Prop} (hf : ∀ a b, P a → T b → SameOutcome StatVar.Same (f a b) (f (a.copied d C' π) b))
    (hp : IsDict p) (ht : IsDict t) (hP : ∀ kv ∈ p, P kv.2) (hT : ∀ kv ∈ t, T kv.2) : SameOutcome StatsSame ((statOfE name f).compute p t) ((statOfE name f).compute (copyMembers d C' π p) t) := by
  have hloop : ∀ q : Vars (StatVar L (FV K)), (∀ kv ∈ q, P kv.2) → SameOutcome (List.Forall₂ (fun a b => a.1 = b.1 ∧ Option.Rel StatVar.Same a.2 b.2)) ((statOfE name f).compute q t) ((statOfE name f).compute (copyMembers d C' π q) t) := by
    intro q
    induction q with
    | nil => intro _; exact .gives .nil
    | cons kv q ih =>
      intro hq
      obtain ⟨v, a⟩ := kv
      have ih := ih (fun kv hkv => hq kv (List.mem_cons_of_mem _ hkv))
      show SameOutcome _ (perVariableLoop _ t ((v, a) :: q)) (perVariableLoop _ t ((v, a.copied d C' π) :: copyMembers d C' π q))
      unfold perVariableLoop
      rcases hb : pyGet? v t with _ | b
      · exact ih
      · refine SameOutcome.bind (r := fun x y => ∃ s s', x = some (some s) ∧ y = some (some s') ∧ StatVar.Same s s') ?_ (fun x y hxy => SameOutcome.bind ih (fun xs ys hs => ?_))
        · exact SameOutcome.bind (hf a b (hq (v, a) List.mem_cons_self) (hT (v, b) (pyGet?_mem hb))) (fun s s' hs => .gives ⟨s, s', rfl, rfl, hs⟩)
        · obtain ⟨s, s', rfl, rfl, hss⟩ := hxy
          exact .gives (.cons ⟨rfl, .some hss⟩ hs)
  have := hloop p hP
  rcases h1 : (statOfE name f).compute p t with e | r <;> rcases h2 : (statOfE name f).compute (copyMembers d C' π p) t with e' | r' <;> rw [h1, h2] at this
  · exact .fails _ _
  · cases this
  · cases this
  · cases this with
    | gives hr => exact .gives ⟨(C21_statistic name _ p t hp ht r h1).1, (C21_statistic name _ _ t (isDict_copyMembers hp) ht r' h2).1, fun v => item_forall₂ hr⟩

/-- **C107** The CRPS against all pairs of members (`fair=False`): listing every member `n` times changes nothing, whatever the weights, bins, masks, missing values and observations. -/
theorem C107_crps (hn : n ≠ 0) (h : Copies n C C' π) (argsort : List (FV K) → List ℕ) (order : List L) (skipna : Bool) {agg : Aggregator L (FV K)} (hagg : agg.RespectsSame) (hd : d ++ "_PSEUDO_FOR_TARGETS" ≠ d)
    (hp : IsDict p) (ht : IsDict t) (hP : ∀ kv ∈ p, EnsembleOf d C kv.2 ∧ kv.2.arr.Without "ensemble_dim_2") (hT : ∀ kv ∈ t, MayHaveMembers d kv.2) (hC : skipna = true ∨ 2 ≤ C.card) :
    SameValues (metricAlone (crpsEnsemble argsort order d false false skipna) agg p t) (metricAlone (crpsEnsemble argsort order d false false skipna) agg (copyMembers d C' π p) t) := by
  refine metricAlone_of_stats hagg (extensional_ensemble argsort order order d false false skipna).1 (fun ks hks => ?_)
  have hst : (crpsEnsemble argsort order d false false skipna).statistics = [("CRPSSkill", crpsSkillStatistic d skipna), ("CRPSSpread", crpsSpreadStatistic argsort order d false false "predictions" skipna)] := rfl
  rw [hst] at hks
  rcases List.mem_cons.1 hks with rfl | hks
  · exact copied_statistic (P := fun a => EnsembleOf d C a ∧ a.arr.Without "ensemble_dim_2") (T := MayHaveMembers d) (fun a b ha hb => copied_skill hn h hd skipna ha.1 hb) hp ht hP hT
  · rw [List.mem_singleton.1 hks]
    exact copied_statistic (P := fun a => EnsembleOf d C a ∧ a.arr.Without "ensemble_dim_2") (T := MayHaveMembers d) (fun a b ha hb => copied_spread hn h argsort order skipna ha.1 ha.2 hC b b) hp ht hP hT

/-- **C107** The mean of the ensemble, as the input transform computes it. -/
theorem C107_mean (hn : n ≠ 0) (h : Copies n C C' π) (skipna skipIfMissing : Bool) {a : StatVar L (FV K)} (ha : EnsembleOf d C a) : SameOutcome StatVar.Same (ensembleMeanFn d skipna skipIfMissing a) (ensembleMeanFn d skipna skipIfMissing (a.copied d C' π)) := by
  unfold ensembleMeanFn
  rw [if_neg (fun hh => hh.1 ha.has), if_neg (fun hh => hh.1 (show d ∈ (a.copied d C' π).arr.dims from ha.has))]
  exact copied_mean hn ha h skipna

theorem copied_mapVars (hn : n ≠ 0) (h : Copies n C C' π) {skipna skipIfMissing : Bool} {tr : InputTransform L K} (htr : ∀ name a, tr.fn name a = ensembleMeanFn d skipna skipIfMissing a) : ∀ {q : Vars (StatVar L (FV K))}, (∀ kv ∈ q, EnsembleOf d C kv.2) →
    SameOutcome (List.Forall₂ (fun a b => a.1 = b.1 ∧ StatVar.Same a.2 b.2)) (tr.mapVars q) (tr.mapVars (copyMembers d C' π q))
  | [], _ => .gives .nil
  | (v, a) :: q, hq => by
    show SameOutcome _ (List.mapM _ ((v, a) :: q)) (List.mapM _ ((v, a.copied d C' π) :: copyMembers d C' π q))
    rw [List.mapM_cons, List.mapM_cons]
    refine SameOutcome.bind (r := fun x y => x.1 = y.1 ∧ StatVar.Same x.2 y.2) ?_ (fun x y hxy => SameOutcome.bind (copied_mapVars hn h htr (fun kv hkv => hq kv (List.mem_cons_of_mem _ hkv))) (fun xs ys hs => .gives (.cons hxy hs)))
    dsimp only
    rw [htr, htr]
    exact SameOutcome.bind (C107_mean hn h skipna skipIfMissing (hq (v, a) List.mem_cons_self)) (fun s s' hs => .gives ⟨rfl, hs⟩)

/-- **C107** Any score of the ensemble mean (a metric wrapped with `EnsembleMean`): listing every member `n` times changes nothing. -/
theorem C107_mean_scores (hn : n ≠ 0) (h : Copies n C C' π) {skipna skipIfMissing : Bool} {tr : InputTransform L K} (htr : ensembleMean "predictions" d skipna skipIfMissing = .ok tr) {m : FMetric L K} {agg : Aggregator L (FV K)}
    (hagg : agg.RespectsSame) (hm : m.Extensional) (hr : ∀ ks ∈ m.statistics, RespectsArrays ks.2) (hp : IsDict p) (ht : IsDict t) (hP : ∀ kv ∈ p, EnsembleOf d C kv.2) :
    SameValues (metricAlone (wrappedMetric m [tr] none) agg p t) (metricAlone (wrappedMetric m [tr] none) agg (copyMembers d C' π p) t) := by
  unfold ensembleMean mkTransform at htr
  rw [if_pos (.inl rfl)] at htr
  obtain rfl := Except.ok.inj htr
  refine metricAlone_of_stats hagg ⟨hm.same, hm.dict⟩ (fun ks hks => ?_)
  obtain ⟨k0, hk0, rfl⟩ := List.mem_map.1 hks
  show SameOutcome StatsSame (InputTransform.mapVars _ p >>= fun p' => (Except.ok t) >>= fun t' => k0.2.compute p' t') (InputTransform.mapVars _ (copyMembers d C' π p) >>= fun p' => (Except.ok t) >>= fun t' => k0.2.compute p' t')
  have hq := copied_mapVars (tr := ⟨"predictions", "ensemble_mean_self._ensemble_dim='" ++ d ++ "'_self._skipna=" ++ (if skipna then "True" else "False"), fun _ => ensembleMeanFn d skipna skipIfMissing⟩) hn h (fun _ _ => rfl) hP
  generalize hx : InputTransform.mapVars _ p = x at hq ⊢
  generalize hy : InputTransform.mapVars _ (copyMembers d C' π p) = y at hq ⊢
  cases hq with
  | fails e e' => exact .fails _ _
  | gives hab =>
    refine hr k0 hk0 _ _ t t ?_ ?_ ht ht (fun v => item_forall₂ hab) (fun v => ?_)
    · unfold IsDict; rw [mapVars_keys hx]; exact hp
    · unfold IsDict; rw [mapVars_keys hy]; exact isDict_copyMembers hp
    · rcases pyGet? v t with _ | b
      · exact .none
      · exact .some (StatVar.Same.refl b)

/-- **C107** With `n = 1`: the labels of the members are irrelevant to the CRPS. -/
theorem C107_renumber (π : L → L) (hπ : Set.BijOn π C' C) (argsort : List (FV K) → List ℕ) (order : List L) (skipna : Bool) {agg : Aggregator L (FV K)} (hagg : agg.RespectsSame) (hd : d ++ "_PSEUDO_FOR_TARGETS" ≠ d)
    (hp : IsDict p) (ht : IsDict t) (hP : ∀ kv ∈ p, EnsembleOf d C kv.2 ∧ kv.2.arr.Without "ensemble_dim_2") (hT : ∀ kv ∈ t, MayHaveMembers d kv.2) (hC : skipna = true ∨ 2 ≤ C.card) :
    SameValues (metricAlone (crpsEnsemble argsort order d false false skipna) agg p t) (metricAlone (crpsEnsemble argsort order d false false skipna) agg (copyMembers d C' π p) t) := by
  refine C107_crps (n := 1) one_ne_zero ⟨fun l hl => hπ.1 hl, fun l hl => ?_⟩ argsort order skipna hagg hd hp ht hP hT hC
  obtain ⟨l', hl', rfl⟩ := hπ.2.2 hl
  refine Finset.card_eq_one.2 ⟨l', Finset.ext (fun x => ?_)⟩
  rw [Finset.mem_filter, Finset.mem_singleton]
  exact ⟨fun h => hπ.2.1 h.1 hl' h.2, fun h => by subst h; exact ⟨hl', rfl⟩⟩

end evaluation

section laws
variable {L K : Type} [DecidableEq L] [Field K] [LinearOrder K] [IsStrictOrderedRing K] {n : ℕ} {d : Dim} {C C' : Finset L} {π : L → L}

theorem copies_eSpread (hn : n ≠ 0) (h : Copies n C C' π) (x : L → K) : eSpread false C' (fun l => x (π l)) = eSpread false C x := by
  unfold eSpread
  rw [h.sum (fun i => ∑ j ∈ C', |x i - x (π j)|), h.card]
  have h1 : ∀ i, ∑ j ∈ C', |x i - x (π j)| = n • ∑ j ∈ C, |x i - x j| := fun i => h.sum (fun j => |x i - x j|)
  simp only [h1, ← Finset.smul_sum]
  have hn' : (n : K) ≠ 0 := Nat.cast_ne_zero.2 hn
  simp only [nsmul_eq_mul, Bool.false_eq_true, if_false, sub_zero]
  push_cast
  rw [show (n : K) * (n * ∑ i ∈ C, ∑ j ∈ C, |x i - x j|) = (n * n) * ∑ i ∈ C, ∑ j ∈ C, |x i - x j| by ring, show (n : K) * C.card * (n * C.card) = (n * n) * (C.card * C.card) by ring,
    mul_div_mul_left _ _ (mul_ne_zero hn' hn')]

theorem copies_eVar (hn : n ≠ 0) (h : Copies n C C' π) (hC : 2 ≤ C.card) (x : L → K) : eVar C' (fun l => x (π l)) = (n * (C.card - 1)) / (n * C.card - 1) * eVar C x := by
  have hm : eMean C' (fun l => x (π l)) = eMean C x := by
    unfold eMean
    rw [h.sum x, h.card, nsmul_eq_mul]
    push_cast
    rw [mul_div_mul_left _ _ (Nat.cast_ne_zero.2 hn)]
  unfold eVar
  rw [hm, h.sum (fun l => (x l - eMean C x) ^ 2), h.card, nsmul_eq_mul]
  have h1 : (C.card : K) - 1 ≠ 0 := by
    have : (2 : K) ≤ C.card := by exact_mod_cast hC
    intro h0
    linarith
  push_cast
  rw [div_mul_div_comm, show (n : K) * ((C.card : K) - 1) * ∑ l ∈ C, (x l - eMean C x) ^ 2 = (n * ∑ l ∈ C, (x l - eMean C x) ^ 2) * ((C.card : K) - 1) by ring, mul_div_mul_right _ _ h1]

/-- **C107** The rank-based computation (`use_sort=True, fair=False`), for finite members in any order of the labels and any valid `argsort`. -/
theorem C107_sorted (hn : n ≠ 0) (h : Copies n C C' π) {argsort : List (FV K) → List ℕ} (harg : IsArgsort argsort) {order order' : List L} (ho : order.Nodup) (hoC : order.toFinset = C) (ho' : order'.Nodup) (hoC' : order'.toFinset = C')
    {p t t' s s' : StatVar L (FV K)} (hs : crpsSpread argsort order d true false "predictions" false p t = .ok s) (hs' : crpsSpread argsort order' d true false "predictions" false (p.copied d C' π) t' = .ok s')
    {e : Dim → L} {x : L → K} (hM : Members p d e C x) : s'.arr.val e = s.arr.val e := by
  have hM' : Members (p.copied d C' π) d e C' (fun l => x (π l)) := ⟨copied_coords p, fun l hl => by rw [copied_at]; exact hM.2 _ (h.maps l hl)⟩
  rw [C30_sorted (.inl ⟨rfl, rfl⟩) harg hs hM ho hoC, C30_sorted (.inl ⟨rfl, rfl⟩) harg hs' hM' ho' hoC', copies_eSpread hn h]

/-- **C107** ★ The variance of finite members that are listed `n` times is smaller by exactly `n (N - 1) / (n N - 1)`. -/
theorem C107_variance_law (hn : n ≠ 0) (h : Copies n C C' π) (hC : 2 ≤ C.card) (skipna : Bool) {a s s' : StatVar L (FV K)} (hs : a.varDim skipna d = .ok s) (hs' : (a.copied d C' π).varDim skipna d = .ok s')
    {e : Dim → L} {x : L → K} (hM : Members a d e C x) : s.arr.val e = .fin (eVar C x) ∧ s'.arr.val e = .fin ((n * (C.card - 1)) / (n * C.card - 1) * eVar C x) := by
  obtain ⟨hl, hx⟩ := hM
  have hC' : 2 ≤ C'.card := by rw [h.card]; exact hC.trans (Nat.le_mul_of_pos_left _ (Nat.pos_of_ne_zero hn))
  unfold StatVar.varDim at hs hs'
  split at hs
  · split at hs'
    · cases hs
      cases hs'
      refine ⟨?_, ?_⟩
      · show npVar1 skipna (a.arr.coords d) (fun l => a.arr.val (setLabel e d l)) = _
        rw [hl]
        exact npVar1_fin hx hC
      · show npVar1 skipna ((a.copied d C' π).arr.coords d) (fun l => (a.copied d C' π).arr.val (setLabel e d l)) = _
        rw [copied_coords, npVar1_fin (y := fun l => x (π l)) (fun l hl' => by rw [copied_at]; exact hx _ (h.maps l hl')) hC', copies_eVar hn h hC]
    · cases hs'
  · cases hs

end laws

section findings

/-- The members 1 and 3, with values 1 and 3. -/
def twoMembers : StatVar ℕ (FV ℚ) := ⟨⟨{"realization"}, fun _ => {1, 3}, fun e => .fin (e "realization")⟩, none⟩

/-- The members 1, 2 (values 1) and 3, 4 (values 3). -/
def firstOf (l : ℕ) : ℕ := if l ≤ 2 then 1 else 3

/-- The hypotheses are met: each of two members is listed twice. -/
theorem twoMembers_copies : Copies 2 ({1, 3} : Finset ℕ) {1, 2, 3, 4} firstOf := ⟨by decide +kernel, by decide +kernel⟩

theorem twoMembers_ensemble : EnsembleOf "realization" {1, 3} twoMembers := ⟨by decide +kernel, rfl, fun _ h => by cases h⟩

/-- **C107** ★ The variance of the ensemble does change: 2 for two members, 4/3 when each is listed twice (`ddof=1`). So a lagged or padded ensemble that lists members again is reported as less spread. -/
theorem C107_variance_changes : ∃ s s', twoMembers.varDim false "realization" = .ok s ∧ (twoMembers.copied "realization" {1, 2, 3, 4} firstOf).varDim false "realization" = .ok s' ∧
    s.arr.val (fun _ => 0) = .fin 2 ∧ s'.arr.val (fun _ => 0) = .fin (4 / 3) :=
  ⟨_, _, rfl, rfl, by decide +kernel, by decide +kernel⟩

/-- **C107** ★ So does the spread of the fair CRPS: 2 for two members, 4/3 when each is listed twice. -/
theorem C107_fair_changes : ∃ s s', crpsSpread (fun _ => []) [] "realization" false true "predictions" false twoMembers twoMembers = .ok s ∧
    crpsSpread (fun _ => []) [] "realization" false true "predictions" false (twoMembers.copied "realization" {1, 2, 3, 4} firstOf) twoMembers = .ok s' ∧
    s.arr.val (fun _ => 0) = .fin 2 ∧ s'.arr.val (fun _ => 0) = .fin (4 / 3) :=
  ⟨_, _, rfl, rfl, by decide +kernel, by decide +kernel⟩

/-- The hypotheses of the theorems are met in the example evaluation, by two members listed twice each, with observations that have no members. -/
example {L : Type} [LinearOrder L] [AddCommGroup L] [IsOrderedAddMonoid L] (name : String → L) (order : List L) (degrees : L → ℝ) {C C' : Finset L} {π : L → L} (h : Copies 2 C C' π) (hC : 2 ≤ C.card) (argsort : List (FV ℝ) → List ℕ)
    {a b : StatVar L (FV ℝ)} (ha : EnsembleOf "realization" C a) (ha2 : a.arr.Without "ensemble_dim_2") (hb : b.Without "realization") :
    SameValues (metricAlone (crpsEnsemble argsort order "realization" false false false) (Example.defaultAgg name order degrees) [("t2m", a)] [("t2m", b)])
      (metricAlone (crpsEnsemble argsort order "realization" false false false) (Example.defaultAgg name order degrees) (copyMembers "realization" C' π [("t2m", a)]) [("t2m", b)]) :=
  C107_crps (by decide) h argsort order false (defaultAgg_respects name order degrees) (by decide +kernel) (by simp [IsDict]) (by simp [IsDict])
    (fun kv hkv => by rw [List.mem_singleton.1 hkv]; exact ⟨ha, ha2⟩) (fun kv hkv => by rw [List.mem_singleton.1 hkv]; exact ⟨fun _ => hb.1, hb.2⟩) (.inr hC)

/-- The RMSE of the ensemble mean meets the hypotheses of `C107_mean_scores`. -/
example {L : Type} [LinearOrder L] [AddCommGroup L] [IsOrderedAddMonoid L] (name : String → L) (order : List L) (degrees : L → ℝ) {C C' : Finset L} {π : L → L} (h : Copies 2 C C' π) {a b : StatVar L (FV ℝ)} (ha : EnsembleOf "realization" C a) :
    ∃ tr, ensembleMean (L := L) (K := ℝ) "predictions" "realization" false false = .ok tr ∧
      SameValues (metricAlone (wrappedMetric rmse [tr] none) (Example.defaultAgg name order degrees) [("t2m", a)] [("t2m", b)])
        (metricAlone (wrappedMetric rmse [tr] none) (Example.defaultAgg name order degrees) (copyMembers "realization" C' π [("t2m", a)]) [("t2m", b)]) :=
  have he : ∃ tr, ensembleMean (L := L) (K := ℝ) "predictions" "realization" false false = .ok tr := by
    unfold ensembleMean mkTransform
    exact ⟨_, if_pos (Or.inl rfl)⟩
  ⟨he.choose, he.choose_spec, C107_mean_scores (by decide) h he.choose_spec (defaultAgg_respects name order degrees) extensional_rmse
    (fun ks hks => by rw [List.mem_singleton.1 (show ks ∈ [_] from hks)]; exact respects_deterministic.2.2) (by simp [IsDict]) (by simp [IsDict]) (fun kv hkv => by rw [List.mem_singleton.1 hkv]; exact ha)⟩

/-- Two finite members listed twice meet the hypotheses of the laws. -/
example : Members twoMembers "realization" (fun _ => 0) {1, 3} (fun l => (l : ℚ)) ∧ ([1, 3] : List ℕ).Nodup ∧ ([1, 3] : List ℕ).toFinset = {1, 3} ∧ ([4, 1, 3, 2] : List ℕ).toFinset = {1, 2, 3, 4} :=
  ⟨⟨rfl, fun _ _ => rfl⟩, by decide, by decide, by decide⟩

end findings

end WBX
