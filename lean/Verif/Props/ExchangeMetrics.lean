import Verif.Props.Exchange
import Verif.Props.CRPSSpread
import Verif.Model.Wasserstein
import Verif.Model.EconomicValue
import Mathlib.Data.List.Sort

/-!
# C91: the ensemble metrics do not depend on the order of the members

Each variable has its own order of the members, in the predictions (`σ`) and in the targets (`τ`).
-/

namespace WBX
set_option linter.unusedSectionVars false
open DA

section
variable {L K : Type} [DecidableEq L] [Field K] [LinearOrder K] [IsStrictOrderedRing K]
variable {d : Dim} {σ τ : String → Equiv.Perm L} {p t : Vars (StatVar L (FV K))} {agg : Aggregator L (FV K)}

/-- **C91** `CRPSEnsemble`, pairwise form. -/
theorem C91_crps (argsort : List (FV K) → List ℕ) (order : List L) (fair skipna : Bool) (hp : ∀ kv ∈ p, kv.2.Members d (σ kv.1)) (ht : ∀ kv ∈ t, kv.2.Members d (τ kv.1))
    (hps : ∀ kv ∈ p, d ++ "_PSEUDO_FOR_TARGETS" ∉ kv.2.arr.dims) :
    metricAlone (crpsEnsemble argsort order d false fair skipna) agg (shuffleMembers d σ p) (shuffleMembers d τ t) = metricAlone (crpsEnsemble argsort order d false fair skipna) agg p t := by
  refine metricAlone_same (fun ks hks => ?_)
  rcases List.mem_cons.mp hks with rfl | hks
  · exact statOfE_shuffle (fun v a b ha hb => crpsSkill_shuffle skipna (hp _ ha) (ht _ hb) (hps _ ha))
  · rw [List.mem_singleton.mp hks]
    exact statOfE_shuffle (fun v a b ha hb => crpsSpread_shuffle argsort order fair _ skipna (hp _ ha) (ht _ hb))

/-- **C91** `CRPSEnsembleDistance`, pairwise form: the members of both sides can be reordered independently. -/
theorem C91_crps_distance (argsort : List (FV K) → List ℕ) (order order' : List L) (fair skipna : Bool) (hp : ∀ kv ∈ p, kv.2.Members d (σ kv.1)) (ht : ∀ kv ∈ t, kv.2.Members d (τ kv.1))
    (hps : ∀ kv ∈ p, d ++ "_PSEUDO_FOR_TARGETS" ∉ kv.2.arr.dims) :
    metricAlone (crpsEnsembleDistance argsort order order' d false fair skipna) agg (shuffleMembers d σ p) (shuffleMembers d τ t) =
      metricAlone (crpsEnsembleDistance argsort order order' d false fair skipna) agg p t := by
  refine metricAlone_same (fun ks hks => ?_)
  rcases List.mem_cons.mp hks with rfl | hks
  · exact statOfE_shuffle (fun v a b ha hb => crpsSkill_shuffle false (hp _ ha) (ht _ hb) (hps _ ha))
  · rcases List.mem_cons.mp hks with rfl | hks
    · exact statOfE_shuffle (fun v a b ha hb => crpsSpread_shuffle argsort order fair _ skipna (hp _ ha) (ht _ hb))
    · rw [List.mem_singleton.mp hks]
      exact statOfE_shuffle (fun v a b ha hb => crpsSpread_shuffle argsort order' fair _ false (hp _ ha) (ht _ hb))

/-- **C91** `EnsembleVariance`; the targets do not matter at all. -/
theorem C91_variance (skipna : Bool) (hp : ∀ kv ∈ p, kv.2.Members d (σ kv.1)) :
    metricAlone (ensembleVarianceStatistic d skipna).toMetric agg (shuffleMembers d σ p) (shuffleMembers d τ t) = metricAlone (ensembleVarianceStatistic d skipna).toMetric agg p t := by
  refine metricAlone_same (fun ks hks => ?_)
  rw [List.mem_singleton.mp hks]
  exact statOfE_shuffle (fun v a b ha hb => ensembleVariance_shuffle skipna (hp _ ha) _)

/-- **C91** `UnbiasedEnsembleMeanSquaredError`. -/
theorem C91_unbiased_mse (skipna : Bool) (hp : ∀ kv ∈ p, kv.2.Members d (σ kv.1)) (ht : ∀ kv ∈ t, kv.2.Members d (τ kv.1)) :
    metricAlone (unbiasedMSEStatistic d skipna).toMetric agg (shuffleMembers d σ p) (shuffleMembers d τ t) = metricAlone (unbiasedMSEStatistic d skipna).toMetric agg p t := by
  refine metricAlone_same (fun ks hks => ?_)
  rw [List.mem_singleton.mp hks]
  exact statOfE_shuffle (fun v a b ha hb => unbiasedMSE_shuffle skipna (hp _ ha) (ht _ hb))

/-- **C91** `RankHistogram`. -/
theorem C91_rank_histogram (number : ℕ → L) (hp : ∀ kv ∈ p, kv.2.Members d (σ kv.1)) (ht : ∀ kv ∈ t, d ∉ kv.2.arr.dims ∧ kv.2.arr.WF) :
    metricAlone (rankHistogramStatistic number d).toMetric agg (shuffleMembers d σ p) t = metricAlone (rankHistogramStatistic number d).toMetric agg p t := by
  have h : shuffleMembers d (fun _ => Equiv.refl L) t = t := by
    unfold shuffleMembers
    conv_rhs => rw [← List.map_id t]
    refine List.map_congr_left (fun kv hkv => ?_)
    rw [shuffle_absent _ (ht kv hkv).1]; rfl
  refine metricAlone_same (fun ks hks => ?_)
  rw [List.mem_singleton.mp hks]
  conv_lhs => rw [← h]
  exact statOfE_shuffle (fun v a b ha hb => rankHistogram_shuffle number (hp _ ha) (ht _ hb).1 (ht _ hb).2)

/-! ### Wasserstein distance -/

theorem npLe_antisymm {a b : FV K} (h : npLe a b = true) (h' : npLe b a = true) : a = b := by
  cases a with
  | nan => cases b <;> simp_all [npLe, FV.isnan]
  | inf s => cases b with
    | nan => simp_all [npLe, FV.isnan]
    | inf s' => cases s <;> cases s' <;> simp_all [npLe, FV.isnan, FV.le]
    | fin y => cases s <;> simp_all [npLe, FV.isnan, FV.le]
  | fin x => cases b with
    | nan => simp_all [npLe, FV.isnan]
    | inf s' => cases s' <;> simp_all [npLe, FV.isnan, FV.le]
    | fin y =>
      simp [npLe, FV.isnan, FV.le] at h h'
      rw [le_antisymm h h']

theorem npLe_total (a b : FV K) : npLe a b = true ∨ npLe b a = true := by
  cases a with
  | nan => right; simp [npLe, FV.isnan]
  | inf s => cases b with
    | nan => left; simp [npLe, FV.isnan]
    | inf s' => cases s <;> cases s' <;> simp [npLe, FV.isnan, FV.le]
    | fin y => cases s <;> simp [npLe, FV.isnan, FV.le]
  | fin x => cases b with
    | nan => left; simp [npLe, FV.isnan]
    | inf s' => cases s' <;> simp [npLe, FV.isnan, FV.le]
    | fin y => simpa [npLe, FV.isnan, FV.le] using le_total x y

theorem npLe_trans {a b c : FV K} (h : npLe a b = true) (h' : npLe b c = true) : npLe a c = true := by
  cases a with
  | nan => cases b <;> cases c <;> simp_all [npLe, FV.isnan]
  | inf s => cases b with
    | nan => cases c <;> simp_all [npLe, FV.isnan]
    | inf s' => cases c with
      | nan => simp [npLe, FV.isnan]
      | inf s'' => cases s <;> cases s' <;> cases s'' <;> simp_all [npLe, FV.isnan, FV.le]
      | fin z => cases s <;> cases s' <;> simp_all [npLe, FV.isnan, FV.le]
    | fin y => cases c with
      | nan => simp [npLe, FV.isnan]
      | inf s'' => cases s <;> cases s'' <;> simp_all [npLe, FV.isnan, FV.le]
      | fin z => cases s <;> simp_all [npLe, FV.isnan, FV.le]
  | fin x => cases b with
    | nan => cases c <;> simp_all [npLe, FV.isnan]
    | inf s' => cases c with
      | nan => simp [npLe, FV.isnan]
      | inf s'' => cases s' <;> cases s'' <;> simp_all [npLe, FV.isnan, FV.le]
      | fin z => cases s' <;> simp_all [npLe, FV.isnan, FV.le]
    | fin y => cases c with
      | nan => simp [npLe, FV.isnan]
      | inf s'' => cases s'' <;> simp_all [npLe, FV.isnan, FV.le]
      | fin z =>
        simp [npLe, FV.isnan, FV.le] at h h' ⊢
        exact h.trans h'

theorem sort_perm {xs ys : List (FV K)} (h : xs.Perm ys) : xs.insertionSort (fun a b => npLe a b = true) = ys.insertionSort (fun a b => npLe a b = true) := by
  haveI : Std.Total (fun a b : FV K => npLe a b = true) := ⟨npLe_total⟩
  haveI : IsTrans (FV K) (fun a b => npLe a b = true) := ⟨fun _ _ _ => npLe_trans⟩
  haveI : Std.Antisymm (fun a b : FV K => npLe a b = true) := ⟨fun _ _ => npLe_antisymm⟩
  refine List.Perm.eq_of_pairwise (fun _ _ _ _ => npLe_antisymm) (List.pairwise_insertionSort _ _) (List.pairwise_insertionSort _ _) ?_
  exact ((List.perm_insertionSort _ _).trans h).trans (List.perm_insertionSort _ _).symm

theorem scipy_perm {us us' vs vs' : List (FV K)} (hu : us'.Perm us) (hv : vs'.Perm vs) : scipyWasserstein us' vs' = scipyWasserstein us vs := by
  unfold scipyWasserstein
  have e1 : (us' = []) = (us = []) := propext ⟨fun h => by subst h; exact hu.symm.eq_nil, fun h => by subst h; exact hu.eq_nil⟩
  have e2 : (vs' = []) = (vs = []) := propext ⟨fun h => by subst h; exact hv.symm.eq_nil, fun h => by subst h; exact hv.eq_nil⟩
  have f1 : ecdf us' = ecdf us := by funext z; unfold ecdf; rw [hu.countP_eq, hu.length_eq]
  have f2 : ecdf vs' = ecdf vs := by funext z; unfold ecdf; rw [hv.countP_eq, hv.length_eq]
  rw [f1, f2, sort_perm (hu.append hv)]
  simp only [e1, e2]

theorem memberValues_shuffle {σ : Equiv.Perm L} {a : StatVar L (FV K)} (h : a.Members d σ) (hd : d ∈ a.arr.dims) (e : Dim → L) : (memberValues d (a.shuffle d σ).arr e).Perm (memberValues d a.arr e) := by
  unfold memberValues
  rw [shuffle_coords]
  have : (fun l => (a.shuffle d σ).arr.val (setLabel e d l)) = (fun l => a.arr.val (setLabel e d l)) ∘ σ := by
    funext l
    show a.arr.val _ = a.arr.val _
    rw [if_pos hd, setLabel_twice, setLabel_same]
  rw [this, ← List.map_map]
  refine List.Perm.map _ ?_
  refine (List.perm_ext_iff_of_nodup ((Finset.nodup_toList _).map σ.injective) (Finset.nodup_toList _)).mpr (fun l => ?_)
  simp only [List.mem_map, Finset.mem_toList]
  constructor
  · rintro ⟨l', hl', rfl⟩; exact (h.perm l').mpr hl'
  · intro hl; exact ⟨σ.symm l, (h.perm _).mp (by simpa using hl), by simp⟩

theorem wasserstein_shuffle {σ τ : Equiv.Perm L} {p t : StatVar L (FV K)} (hp : p.Members d σ) (ht : t.Members d τ) : wasserstein d (p.shuffle d σ) (t.shuffle d τ) = wasserstein d p t := by
  unfold wasserstein
  by_cases hpd : d ∈ p.arr.dims
  · by_cases htd : d ∈ t.arr.dims
    · have : ∀ e, scipyWasserstein (memberValues d (p.shuffle d σ).arr e) (memberValues d (t.shuffle d τ).arr e) = scipyWasserstein (memberValues d p.arr e) (memberValues d t.arr e) :=
        fun e => scipy_perm (memberValues_shuffle hp hpd e) (memberValues_shuffle ht htd e)
      simp only [this]
      rfl
    · have hpd2 : ¬ d ∉ (p.shuffle d σ).arr.dims := not_not.mpr hpd
      have htd2 : d ∉ (t.shuffle d τ).arr.dims := htd
      rw [if_neg hpd2, if_pos htd2, if_neg (not_not.mpr hpd), if_pos htd]
  · have hpd2 : d ∉ (p.shuffle d σ).arr.dims := hpd
    rw [if_pos hpd2, if_pos hpd]

/-- **C91** `WassersteinDistance`. -/
theorem C91_wasserstein (hp : ∀ kv ∈ p, kv.2.Members d (σ kv.1)) (ht : ∀ kv ∈ t, kv.2.Members d (τ kv.1)) :
    metricAlone (wassersteinStatistic d).toMetric agg (shuffleMembers d σ p) (shuffleMembers d τ t) = metricAlone (wassersteinStatistic d).toMetric agg p t := by
  refine metricAlone_same (fun ks hks => ?_)
  rw [List.mem_singleton.mp hks]
  exact statOfE_shuffle (fun v a b ha hb => wasserstein_shuffle (hp _ ha) (ht _ hb))

/-! ### Averages over the members -/

theorem errorExceedance_shuffle {σ : Equiv.Perm L} {p t : StatVar L (FV K)} (thresholds : DA L (FV K)) (hth : d ∉ thresholds.dims) (hwt : thresholds.WF) (hp : p.Members d σ) (hpd : d ∈ p.arr.dims) (htd : d ∉ t.arr.dims) (ht : t.arr.WF) :
    errorExceedance thresholds (p.shuffle d σ) t = (errorExceedance thresholds p t).shuffle d σ := by
  unfold errorExceedance
  dsimp only
  have h1 : d ∈ ((p.zipWith (· - ·) t).map FV.abs).arr.dims := Finset.mem_union_left _ hpd
  rw [zip_shuffle σ _ hpd htd ht, shuffle_map, shuffle_map]
  rw [zip_shuffle σ (b := ⟨thresholds, none⟩) _ h1 hth hwt]
  have h2 : d ∈ (((p.zipWith (· - ·) t).map FV.abs).zipWith (fun a h => (FV.ofBool (FV.lt h a) : FV K)) ⟨thresholds, none⟩).arr.dims := Finset.mem_union_left _ h1
  have h3 : d ∈ (((p.zipWith (· - ·) t).map FV.abs).map (fun v => !v.isnan)).arr.dims := h1
  rw [zip_shuffle_both σ _ h2 h3]
  have h4 : ((⟨thresholds, none⟩ : StatVar L (FV K)).map (fun v => !v.isnan)).arr.WF := fun e e' he => congrArg (fun v : FV K => !v.isnan) (hwt e e' he)
  have h5 : d ∉ ((⟨thresholds, none⟩ : StatVar L (FV K)).map (fun v => !v.isnan)).arr.dims := hth
  exact zip_shuffle σ FV.keepIf (Finset.mem_union_left _ h2) h5 h4

/-- **C91** `EnsembleErrorExceedance`. -/
theorem C91_error_exceedance (name : String) (thresholds : DA L (FV K)) (hth : d ∉ thresholds.dims) (hwt : thresholds.WF) (hp : ∀ kv ∈ p, kv.2.Members d (σ kv.1) ∧ d ∈ kv.2.arr.dims)
    (ht : ∀ kv ∈ t, d ∉ kv.2.arr.dims ∧ kv.2.arr.WF) :
    metricAlone (statOfE name (ensembleErrorExceedance thresholds d)).toMetric agg (shuffleMembers d σ p) t = metricAlone (statOfE name (ensembleErrorExceedance thresholds d)).toMetric agg p t := by
  have h : shuffleMembers d (fun _ => Equiv.refl L) t = t := by
    unfold shuffleMembers
    conv_rhs => rw [← List.map_id t]
    refine List.map_congr_left (fun kv hkv => ?_)
    rw [shuffle_absent _ (ht kv hkv).1]; rfl
  refine metricAlone_same (fun ks hks => ?_)
  rw [List.mem_singleton.mp hks]
  conv_lhs => rw [← h]
  refine statOfE_shuffle (fun v a b ha hb => ?_)
  rw [shuffle_absent _ (ht _ hb).1]
  unfold ensembleErrorExceedance
  have hc : (errorExceedance thresholds a b).arr.coords d = a.arr.coords d := by
    have h1 : d ∈ ((a.zipWith (· - ·) b).map FV.abs).arr.dims := Finset.mem_union_left _ (hp _ ha).2
    unfold errorExceedance
    dsimp only
    rw [zip_coords_left _ (Finset.mem_union_left _ (Finset.mem_union_left _ h1)) (by exact hth)]
    show joinCoords _ _ d = _
    unfold joinCoords
    have h2 : d ∈ (((a.zipWith (· - ·) b).map FV.abs).zipWith (fun x h => (FV.ofBool (FV.lt h x) : FV K)) ⟨thresholds, none⟩).arr.dims := Finset.mem_union_left _ h1
    have h3 : d ∈ (((a.zipWith (· - ·) b).map FV.abs).map (fun v => !v.isnan)).arr.dims := h1
    rw [if_pos h2, if_pos h3]
    have e1 : (((a.zipWith (· - ·) b).map FV.abs).zipWith (fun x h => (FV.ofBool (FV.lt h x) : FV K)) (⟨thresholds, none⟩ : StatVar L (FV K))).arr.coords d = a.arr.coords d := by
      rw [zip_coords_left _ h1 (by exact hth)]
      exact zip_coords_left (· - ·) (hp _ ha).2 (ht _ hb).1
    have e2 : (((a.zipWith (· - ·) b).map FV.abs).map (fun v => !v.isnan)).arr.coords d = a.arr.coords d := zip_coords_left (· - ·) (hp _ ha).2 (ht _ hb).1
    rw [e1, e2, Finset.inter_self]
  have hd : d ∈ (errorExceedance thresholds a b).arr.dims :=
    Finset.mem_union_left _ (Finset.mem_union_left _ (Finset.mem_union_left _ (Finset.mem_union_left _ (hp _ ha).2)))
  rw [errorExceedance_shuffle thresholds hth hwt (hp _ ha).1 (hp _ ha).2 (ht _ hb).1 (ht _ hb).2]
  unfold StatVar.meanDim
  rw [if_pos hd, if_pos (by exact hd), reduce_shuffle (npMean_symm true) (by rw [hc]; exact (hp _ ha).1.perm) hd]

theorem ensembleMean_tr {skipna skipIfMissing : Bool} {which : String} {tr : InputTransform L K} (h : ensembleMean which d skipna skipIfMissing = .ok tr) :
    ∃ suffix, tr = ⟨which, suffix, fun _ => ensembleMeanFn d skipna skipIfMissing⟩ := by
  unfold ensembleMean at h
  generalize ("ensemble_mean_self._ensemble_dim='" ++ d ++ "'_self._skipna=" ++ (if skipna then "True" else "False")) = s at h
  unfold mkTransform at h
  by_cases hw : which = "predictions" ∨ which = "targets" ∨ which = "both"
  · rw [if_pos hw] at h; cases h; exact ⟨s, rfl⟩
  · rw [if_neg hw] at h; cases h

theorem ensembleMean_mapVars {skipna skipIfMissing : Bool} {which : String} {tr : InputTransform L K} (h : ensembleMean which d skipna skipIfMissing = .ok tr) {σ : String → Equiv.Perm L} {p : Vars (StatVar L (FV K))}
    (hp : ∀ kv ∈ p, kv.2.Members d (σ kv.1) ∧ d ∈ kv.2.arr.dims) : tr.mapVars (shuffleMembers d σ p) = tr.mapVars p := by
  obtain ⟨sfx, rfl⟩ := ensembleMean_tr h
  unfold InputTransform.mapVars
  induction p with
  | nil => rfl
  | cons x p ih =>
    show List.mapM _ ((x.1, x.2.shuffle d (σ x.1)) :: shuffleMembers d σ p) = _
    rw [List.mapM_cons, List.mapM_cons, ih (fun kv hkv => hp kv (List.mem_cons_of_mem _ hkv))]
    obtain ⟨h1, h2⟩ := hp x List.mem_cons_self
    have : ensembleMeanFn d skipna skipIfMissing (x.2.shuffle d (σ x.1)) = ensembleMeanFn d skipna skipIfMissing x.2 := by
      unfold ensembleMeanFn
      rw [if_neg (fun h => h.1 h2), if_neg (fun h => h.1 h2), meanDim_shuffle skipna h1]
    dsimp only
    rw [this]

/-- **C91** Any metric of the ensemble mean (`EnsembleMean`). -/
theorem C91_ensemble_mean {m : FMetric L K} {skipna skipIfMissing : Bool} {which : String} {tr : InputTransform L K} (h : ensembleMean which d skipna skipIfMissing = .ok tr) (suffix : Option String)
    {p' t' : Vars (StatVar L (FV K))} (hp : ∀ kv ∈ p, kv.2.Members d (σ kv.1) ∧ d ∈ kv.2.arr.dims) (ht : ∀ kv ∈ t, kv.2.Members d (τ kv.1) ∧ d ∈ kv.2.arr.dims)
    (hp' : p' = if which = "predictions" ∨ which = "both" then shuffleMembers d σ p else p) (ht' : t' = if which = "targets" ∨ which = "both" then shuffleMembers d τ t else t) :
    metricAlone (wrappedMetric m [tr] suffix) agg p' t' = metricAlone (wrappedMetric m [tr] suffix) agg p t := by
  have hw : tr.which = which := by
    obtain ⟨sfx, rfl⟩ := ensembleMean_tr h
    rfl
  have key : ∀ s : FStatistic L K, (wrappedStatistic s tr).compute p' t' = (wrappedStatistic s tr).compute p t := by
    intro s
    unfold wrappedStatistic
    dsimp only
    rw [hw]
    subst hp' ht'
    by_cases hc : which = "predictions" ∨ which = "both"
    · rw [if_pos hc, if_pos hc, if_pos hc, ensembleMean_mapVars h hp]
      by_cases hc' : which = "targets" ∨ which = "both"
      · simp only [if_pos hc', ensembleMean_mapVars h ht]
      · simp only [if_neg hc']
    · rw [if_neg hc, if_neg hc, if_neg hc]
      by_cases hc' : which = "targets" ∨ which = "both"
      · simp only [if_pos hc', ensembleMean_mapVars h ht]
      · simp only [if_neg hc']
  refine metricAlone_same (fun ks hks => ?_)
  obtain ⟨ks', -, rfl⟩ := List.mem_map.mp hks
  cases suffix with
  | none => exact key ks'.2
  | some x => exact key ks'.2

theorem averaged_shuffle {f : StatVar L (FV K) → StatVar L (FV K) → StatVar L (FV K)} {skipna : Bool} (name : String)
    (hf : ∀ v a b, (v, a) ∈ p → (v, b) ∈ t → (f (a.shuffle d (σ v)) b).meanDim skipna d = (f a b).meanDim skipna d) :
    (ensembleAveragedStatistic d skipna (statOf name f)).compute (shuffleMembers d σ p) t = (ensembleAveragedStatistic d skipna (statOf name f)).compute p t := by
  have key : ∃ rs rs', (statOf name f).compute (shuffleMembers d σ p) t = .ok rs ∧ (statOf name f).compute p t = .ok rs' ∧
      List.Forall₂ (fun r r' => r.1 = r'.1 ∧ ∃ x x', r.2 = some x ∧ r'.2 = some x' ∧ x.meanDim skipna d = x'.meanDim skipna d) rs rs' := by
    induction p with
    | nil => exact ⟨[], [], rfl, rfl, .nil⟩
    | cons x p ih =>
      obtain ⟨v, a⟩ := x
      obtain ⟨rs, rs', h1, h2, h3⟩ := ih (fun v a b ha hb => hf v a b (List.mem_cons_of_mem _ ha) hb)
      change perVariableLoop _ t (shuffleMembers d σ p) = _ at h1
      change perVariableLoop _ t p = _ at h2
      show ∃ rs rs', perVariableLoop _ t ((v, a.shuffle d (σ v)) :: shuffleMembers d σ p) = .ok rs ∧ perVariableLoop _ t ((v, a) :: p) = .ok rs' ∧ _
      unfold perVariableLoop
      cases hb : pyGet? v t with
      | none => exact ⟨rs, rs', h1, h2, h3⟩
      | some b =>
        dsimp only
        rw [h1, h2]
        exact ⟨_, _, rfl, rfl, .cons ⟨rfl, _, _, rfl, rfl, hf v a b List.mem_cons_self (pyGet?_mem' hb)⟩ h3⟩
  obtain ⟨rs, rs', h1, h2, h3⟩ := key
  unfold ensembleAveragedStatistic
  dsimp only
  rw [h1, h2]
  show List.mapM _ rs = List.mapM _ rs'
  clear h1 h2
  induction h3 with
  | nil => rfl
  | @cons r r' l l' h _ ih =>
    obtain ⟨k, o⟩ := r
    obtain ⟨k', o'⟩ := r'
    obtain ⟨rfl, x, x', rfl, rfl, hx⟩ := h
    rw [List.mapM_cons, List.mapM_cons]
    dsimp only
    rw [hx, ih]

/-- An average over the members of a function of the errors. -/
theorem error_shuffle {skipna : Bool} {σ : Equiv.Perm L} {a b : StatVar L (FV K)} (g : FV K → FV K) (ha : a.Members d σ) (hd : d ∈ a.arr.dims) (hb : d ∉ b.arr.dims) (hwb : b.arr.WF) :
    (((a.shuffle d σ).zipWith (· - ·) b).map g).meanDim skipna d = ((a.zipWith (· - ·) b).map g).meanDim skipna d := by
  have h1 : d ∈ ((a.zipWith (· - ·) b).map g).arr.dims := Finset.mem_union_left _ hd
  have hc : ((a.zipWith (· - ·) b).map g).arr.coords d = a.arr.coords d := zip_coords_left (· - ·) hd hb
  rw [zip_shuffle σ _ hd hb hwb, shuffle_map]
  unfold StatVar.meanDim
  rw [if_pos h1, if_pos (by exact h1), reduce_shuffle (npMean_symm skipna) (by rw [hc]; exact ha.perm) h1]

/-- **C91** The averages over the members of `MAE` and of `MSE` (`EnsembleAveragedMetric`). -/
theorem C91_averaged (skipna : Bool) (hp : ∀ kv ∈ p, kv.2.Members d (σ kv.1) ∧ d ∈ kv.2.arr.dims) (ht : ∀ kv ∈ t, d ∉ kv.2.arr.dims ∧ kv.2.arr.WF) :
    metricAlone (ensembleAveragedMetric d skipna (absoluteErrorStatistic (K := K)).toMetric) agg (shuffleMembers d σ p) t = metricAlone (ensembleAveragedMetric d skipna absoluteErrorStatistic.toMetric) agg p t ∧
    metricAlone (ensembleAveragedMetric d skipna (squaredErrorStatistic (K := K)).toMetric) agg (shuffleMembers d σ p) t = metricAlone (ensembleAveragedMetric d skipna squaredErrorStatistic.toMetric) agg p t := by
  constructor
  · refine metricAlone_same (fun ks hks => ?_)
    rw [List.mem_singleton.mp hks]
    exact averaged_shuffle _ (fun v a b ha hb => error_shuffle FV.abs (hp _ ha).1 (hp _ ha).2 (ht _ hb).1 (ht _ hb).2)
  · refine metricAlone_same (fun ks hks => ?_)
    rw [List.mem_singleton.mp hks]
    exact averaged_shuffle _ (fun v a b ha hb => error_shuffle FV.sq (hp _ ha).1 (hp _ ha).2 (ht _ hb).1 (ht _ hb).2)

/-- **C91** Sorted form of the spread, for finite members: neither the order of the members nor the way `argsort` breaks ties matters. -/
theorem C91_sorted_spread {argsort argsort' : List (FV K) → List ℕ} {order order' : List L} {fair sk sk' : Bool} {σ : Equiv.Perm L} {a b b' s s' : StatVar L (FV K)} (harg : IsArgsort argsort) (harg' : IsArgsort argsort')
    (ha : a.Members d σ) (hd : d ∈ a.arr.dims) (h : crpsSpread argsort order d true fair "predictions" sk a b = .ok s) (h' : crpsSpread argsort' order' d true fair "predictions" sk' (a.shuffle d σ) b' = .ok s')
    {e : Dim → L} {M : Finset L} {x : L → K} (hM : Members a d e M x) (ho : order.Nodup) (hoM : order.toFinset = M) (ho' : order'.Nodup) (hoM' : order'.toFinset = M) : s'.arr.val e = s.arr.val e := by
  have hM' : Members (a.shuffle d σ) d e M (fun l => x (σ l)) := by
    refine ⟨hM.1, fun l hl => ?_⟩
    show a.arr.val _ = _
    rw [if_pos hd, setLabel_twice, setLabel_same]
    exact hM.2 _ (by rw [← hM.1]; exact (ha.perm l).mpr (by rw [hM.1]; exact hl))
  rw [C30_sorted (.inl ⟨rfl, rfl⟩) harg h hM ho hoM, C30_sorted (.inl ⟨rfl, rfl⟩) harg' h' hM' ho' hoM']
  congr 1
  unfold eSpread
  have hmem : ∀ l, l ∈ M ↔ σ l ∈ M := fun l => by rw [← hM.1]; exact (ha.perm l).symm
  congr 1
  exact Finset.sum_equiv σ hmem (fun l _ => Finset.sum_equiv σ hmem (fun l' _ => rfl))


/-- A forecast of 4 members and an observation. -/
def exObservation : StatVar ℕ (FV ℚ) := ⟨{ dims := ∅, coords := fun _ => ∅, val := fun _ => FV.fin 2 }, none⟩

theorem exEnsemble_members : exEnsemble.Members "number" (Equiv.swap 0 1) := by
  refine ⟨fun l => ?_, exEnsemble_wf, fun m h => by cases h⟩
  show Equiv.swap 0 1 l ∈ Finset.range 4 ↔ l ∈ Finset.range 4
  by_cases h0 : l = 0
  · subst h0; simp
  · by_cases h1 : l = 1
    · subst h1; simp
    · rw [Equiv.swap_apply_of_ne_of_ne h0 h1]

/-- The reordered forecast differs, its CRPS does not. -/
example : exEnsemble.shuffle "number" (Equiv.swap 0 1) ≠ exEnsemble ∧
    metricAlone (crpsEnsemble npArgsort [0, 1, 2, 3] "number" false true false) ⟨[], [], [], false, false⟩ (shuffleMembers "number" (fun _ => Equiv.swap 0 1) [("t2m", exEnsemble)]) (shuffleMembers "number" (fun _ => Equiv.refl ℕ) [("t2m", exObservation)]) =
      metricAlone (crpsEnsemble npArgsort [0, 1, 2, 3] "number" false true false) ⟨[], [], [], false, false⟩ [("t2m", exEnsemble)] [("t2m", exObservation)] := by
  refine ⟨fun h => ?_, C91_crps _ _ _ _ ?_ ?_ ?_⟩
  · have := congrArg (fun a : StatVar ℕ (FV ℚ) => a.arr.val (fun _ => 0)) h
    simp [StatVar.shuffle, exEnsemble, setLabel] at this
  · intro kv hkv; rw [List.mem_singleton.mp hkv]; exact exEnsemble_members
  · intro kv hkv; rw [List.mem_singleton.mp hkv]
    exact ⟨fun l => Iff.rfl, fun _ _ _ => rfl, fun m h => by cases h⟩
  · intro kv hkv; rw [List.mem_singleton.mp hkv]; simp [exEnsemble]

end

section roots
variable {L : Type} [DecidableEq L] {d : Dim} {σ τ : String → Equiv.Perm L} {p t : Vars (StatVar L (FV ℝ))} {agg : Aggregator L (FV ℝ)}

/-- **C91** `UnbiasedEnsembleMeanRMSE`. -/
theorem C91_unbiased_rmse (skipna : Bool) (hp : ∀ kv ∈ p, kv.2.Members d (σ kv.1)) (ht : ∀ kv ∈ t, kv.2.Members d (τ kv.1)) :
    metricAlone (unbiasedRMSE d skipna) agg (shuffleMembers d σ p) (shuffleMembers d τ t) = metricAlone (unbiasedRMSE d skipna) agg p t := by
  refine metricAlone_same (fun ks hks => ?_)
  rw [List.mem_singleton.mp hks]
  exact statOfE_shuffle (fun v a b ha hb => unbiasedMSE_shuffle skipna (hp _ ha) (ht _ hb))

/-- **C91** `EnsembleRootMeanVariance`. -/
theorem C91_root_mean_variance (skipna : Bool) (hp : ∀ kv ∈ p, kv.2.Members d (σ kv.1)) :
    metricAlone (ensembleRootMeanVariance d skipna) agg (shuffleMembers d σ p) (shuffleMembers d τ t) = metricAlone (ensembleRootMeanVariance d skipna) agg p t := by
  refine metricAlone_same (fun ks hks => ?_)
  rw [List.mem_singleton.mp hks]
  exact statOfE_shuffle (fun v a b ha hb => ensembleVariance_shuffle skipna (hp _ ha) _)

/-- **C91** `UnbiasedSpreadSkillRatio`. -/
theorem C91_spread_skill (skipna : Bool) (hp : ∀ kv ∈ p, kv.2.Members d (σ kv.1)) (ht : ∀ kv ∈ t, kv.2.Members d (τ kv.1)) :
    metricAlone (spreadSkillRatio d skipna) agg (shuffleMembers d σ p) (shuffleMembers d τ t) = metricAlone (spreadSkillRatio d skipna) agg p t := by
  refine metricAlone_same (fun ks hks => ?_)
  rcases List.mem_cons.mp hks with rfl | hks
  · exact statOfE_shuffle (fun v a b ha hb => ensembleVariance_shuffle skipna (hp _ ha) _)
  · rw [List.mem_singleton.mp hks]
    exact statOfE_shuffle (fun v a b ha hb => unbiasedMSE_shuffle skipna (hp _ ha) (ht _ hb))

end roots
end WBX
