import Verif.Spec.Exchange
import Verif.Lemmas.Ensemble
import Mathlib.Algebra.BigOperators.Group.Finset.Basic

/-!
# C91: members of an ensemble are exchangeable
-/

namespace WBX
set_option linter.unusedSectionVars false
open DA

section shuffle
variable {L K : Type} [DecidableEq L] [Field K] [LinearOrder K] [IsStrictOrderedRing K]

theorem shuffle_absent {V : Type} {d : Dim} (σ : Equiv.Perm L) {a : StatVar L V} (h : d ∉ a.arr.dims) : a.shuffle d σ = a := by
  unfold StatVar.shuffle; simp only [if_neg h]

theorem shuffle_dims {V : Type} (d : Dim) (σ : Equiv.Perm L) (a : StatVar L V) : (a.shuffle d σ).arr.dims = a.arr.dims := rfl
theorem shuffle_coords {V : Type} (d : Dim) (σ : Equiv.Perm L) (a : StatVar L V) : (a.shuffle d σ).arr.coords = a.arr.coords := rfl
theorem shuffle_mask {V : Type} (d : Dim) (σ : Equiv.Perm L) (a : StatVar L V) : (a.shuffle d σ).mask = a.mask := rfl

theorem shuffle_map {V W : Type} (d : Dim) (σ : Equiv.Perm L) (f : V → W) (a : StatVar L V) : (a.shuffle d σ).map f = (a.map f).shuffle d σ := rfl

/-- The result of a reduction does not depend on which label has which value. -/
def SymmetricFn {V W : Type} (f : Finset L → (L → V) → W) : Prop :=
  ∀ (σ : Equiv.Perm L) (C : Finset L) (x : L → V), (∀ l, σ l ∈ C ↔ l ∈ C) → f C (fun l => x (σ l)) = f C x

theorem present_symm (skipna : Bool) (σ : Equiv.Perm L) {C : Finset L} (x : L → FV K) (h : ∀ l, σ l ∈ C ↔ l ∈ C) (l : L) :
    l ∈ present skipna C (fun l => x (σ l)) ↔ σ l ∈ present skipna C x := by
  cases skipna <;> simp [present, h]

theorem npSum_symm (skipna : Bool) : SymmetricFn (npSum skipna : Finset L → (L → FV K) → FV K) := by
  intro σ C x h
  exact Finset.sum_equiv σ (fun l => present_symm skipna σ x h l) (fun _ _ => rfl)

theorem present_card (skipna : Bool) : SymmetricFn (fun C (x : L → FV K) => (present skipna C x).card) := by
  intro σ C x h
  exact Finset.card_equiv σ (fun l => present_symm skipna σ x h l)

theorem npMean_symm (skipna : Bool) : SymmetricFn (npMean skipna : Finset L → (L → FV K) → FV K) := by
  intro σ C x h
  unfold npMean
  have h2 := present_card skipna (K := K) σ C x h
  dsimp only at h2
  rw [npSum_symm skipna σ C x h, h2]

theorem npVar1_symm (skipna : Bool) : SymmetricFn (npVar1 skipna : Finset L → (L → FV K) → FV K) := by
  intro σ C x h
  unfold npVar1
  have h2 := present_card skipna (K := K) σ C x h
  dsimp only at h2
  rw [npMean_symm skipna σ C x h, npSum_symm skipna σ C (fun l => (x l - npMean skipna C x).sq) h, h2]

/-- A symmetric reduction over the members. -/
theorem reduce_shuffle {V W : Type} {d : Dim} {σ : Equiv.Perm L} {f : Finset L → (L → V) → W} (hf : SymmetricFn f) {a : StatVar L V} (h : ∀ l, σ l ∈ a.arr.coords d ↔ l ∈ a.arr.coords d)
    (hd : d ∈ a.arr.dims) : (a.shuffle d σ).reduce d f = a.reduce d f := by
  unfold StatVar.reduce StatVar.shuffle
  dsimp only
  congr 1
  congr 1
  funext e
  simp only [if_pos hd, setLabel_twice, setLabel_same]
  exact hf σ _ (fun l => a.arr.val (setLabel e d l)) h

/-- A reduction over another dimension. -/
theorem reduce_shuffle_other {V W : Type} {d d' : Dim} (hdd : d ≠ d') (σ : Equiv.Perm L) (f : Finset L → (L → V) → W) (a : StatVar L V) :
    (a.shuffle d σ).reduce d' f = (a.reduce d' f).shuffle d σ := by
  unfold StatVar.reduce StatVar.shuffle
  dsimp only
  congr 1
  congr 1
  funext e
  by_cases hd : d ∈ a.arr.dims
  · simp only [if_pos hd, if_pos (Finset.mem_erase.mpr ⟨hdd, hd⟩), setLabel_other _ hdd]
    congr 1
    funext l
    rw [setLabel_comm _ hdd.symm]
  · have : d ∉ a.arr.dims.erase d' := fun h => hd (Finset.mem_of_mem_erase h)
    simp only [if_neg hd, if_neg this]

/-- Arithmetic with an array that has no members. -/
theorem zip_shuffle {U V W : Type} {d : Dim} (σ : Equiv.Perm L) (g : V → W → U) {a : StatVar L V} {b : StatVar L W} (hd : d ∈ a.arr.dims) (hb : d ∉ b.arr.dims) (hwf : b.arr.WF) :
    (a.shuffle d σ).zipWith g b = (a.zipWith g b).shuffle d σ := by
  unfold StatVar.zipWith StatVar.shuffle DA.zipWith
  dsimp only
  congr 1
  have hu : d ∈ a.arr.dims ∪ b.arr.dims := Finset.mem_union_left _ hd
  simp only [if_pos hd, if_pos hu]
  congr 1
  funext e
  congr 1
  exact hwf _ _ (fun k hk => (setLabel_other _ (by rintro rfl; exact hb hk) _).symm)

theorem zip_shuffle_right {U V W : Type} {d : Dim} (σ : Equiv.Perm L) (g : V → W → U) {a : StatVar L V} {b : StatVar L W} (hd : d ∈ b.arr.dims) (ha : d ∉ a.arr.dims) (hwf : a.arr.WF) :
    a.zipWith g (b.shuffle d σ) = (a.zipWith g b).shuffle d σ := by
  unfold StatVar.zipWith StatVar.shuffle DA.zipWith
  dsimp only
  congr 1
  have hu : d ∈ a.arr.dims ∪ b.arr.dims := Finset.mem_union_right _ hd
  simp only [if_pos hd, if_pos hu]
  congr 1
  funext e
  rw [hwf e (setLabel e d (σ (e d))) (fun k hk => (setLabel_other _ (by rintro rfl; exact ha hk) _).symm)]

/-- Arithmetic of two arrays with the same members. -/
theorem zip_shuffle_both {U V W : Type} {d : Dim} (σ : Equiv.Perm L) (g : V → W → U) {a : StatVar L V} {b : StatVar L W} (ha : d ∈ a.arr.dims) (hb : d ∈ b.arr.dims) :
    (a.shuffle d σ).zipWith g (b.shuffle d σ) = (a.zipWith g b).shuffle d σ := by
  unfold StatVar.zipWith StatVar.shuffle DA.zipWith
  dsimp only
  congr 1
  have hu : d ∈ a.arr.dims ∪ b.arr.dims := Finset.mem_union_left _ ha
  simp only [if_pos ha, if_pos hb, if_pos hu]
  rfl

theorem rename_shuffle {V : Type} (d d' : Dim) (σ : Equiv.Perm L) {a : StatVar L V} (hwf : a.arr.WF) :
    (a.shuffle d σ).rename d d' = (a.rename d d').map (StatVar.shuffle d' σ) := by
  unfold StatVar.rename
  rw [shuffle_dims]
  by_cases h : d ∈ a.arr.dims ∧ d' ∉ a.arr.dims
  · rw [if_pos h, if_pos h]
    show Except.ok _ = Except.ok _
    congr 1
    have hne : d ≠ d' := fun hh => h.2 (hh ▸ h.1)
    unfold StatVar.shuffle DA.rename
    dsimp only
    simp only [if_pos h.1]
    congr 1
    congr 1
    funext e
    rw [if_pos (Finset.mem_insert_self _ _), setLabel_twice, setLabel_same]
    rw [setLabel_same, setLabel_comm _ hne.symm]
    exact hwf _ _ (fun k hk => (setLabel_other _ (by rintro rfl; exact h.2 hk) _).symm)
  · rw [if_neg h, if_neg h]; rfl

/-! ### From variables to metrics -/

theorem metricAlone_same {m : FMetric L K} {agg : Aggregator L (FV K)} {p t p' t' : Vars (StatVar L (FV K))} (h : ∀ ks ∈ m.statistics, ks.2.compute p' t' = ks.2.compute p t) :
    metricAlone m agg p' t' = metricAlone m agg p t := by
  unfold metricAlone
  have : (m.statistics.mapM (fun ks => do
        let v ← ks.2.compute p' t'
        let mean ← meanVars agg v
        return (ks.1, mean)) : Except Err _) = m.statistics.mapM (fun ks => do
        let v ← ks.2.compute p t
        let mean ← meanVars agg v
        return (ks.1, mean)) := by
    generalize m.statistics = l at h
    induction l with
    | nil => rfl
    | cons x l ih =>
      rw [List.mapM_cons, List.mapM_cons, ih (fun ks hks => h ks (List.mem_cons_of_mem _ hks)), h x List.mem_cons_self]
  rw [this]

theorem pyGet?_shuffle {V : Type} (d : Dim) (τ : String → Equiv.Perm L) (t : Vars (StatVar L V)) (v : String) :
    pyGet? v (shuffleMembers d τ t) = (pyGet? v t).map (StatVar.shuffle d (τ v)) := by
  induction t with
  | nil => rfl
  | cons x t ih =>
    by_cases h : x.1 = v
    · subst h; simp [shuffleMembers, pyGet?]
    · simp only [shuffleMembers, List.map_cons, pyGet?] at ih ⊢
      rw [if_neg h, if_neg h, ih]

theorem pyGet?_mem' {V : Type} {t : Vars V} {v : String} {b : V} (h : pyGet? v t = some b) : (v, b) ∈ t := by
  induction t with
  | nil => cases h
  | cons x t ih =>
    obtain ⟨k, y⟩ := x
    unfold pyGet? at h
    by_cases hk : k = v
    · rw [if_pos hk] at h; cases h; subst hk; exact List.mem_cons_self
    · rw [if_neg hk] at h; exact List.mem_cons_of_mem _ (ih h)

/-- A statistic that is computed variable by variable: it is enough to look at one variable. -/
theorem statOfE_shuffle {name : String} {f : StatVar L (FV K) → StatVar L (FV K) → Except Err (StatVar L (FV K))} {d : Dim} {σ τ : String → Equiv.Perm L} {p t : Vars (StatVar L (FV K))}
    (hf : ∀ v a b, (v, a) ∈ p → (v, b) ∈ t → f (a.shuffle d (σ v)) (b.shuffle d (τ v)) = f a b) :
    (statOfE name f).compute (shuffleMembers d σ p) (shuffleMembers d τ t) = (statOfE name f).compute p t := by
  show perVariableLoop _ (shuffleMembers d τ t) (shuffleMembers d σ p) = perVariableLoop _ t p
  induction p with
  | nil => rfl
  | cons x p ih =>
    obtain ⟨v, a⟩ := x
    show perVariableLoop _ (shuffleMembers d τ t) ((v, a.shuffle d (σ v)) :: shuffleMembers d σ p) = _
    unfold perVariableLoop
    rw [pyGet?_shuffle]
    have ih' := ih (fun v a b ha hb => hf v a b (List.mem_cons_of_mem _ ha) hb)
    cases hb : pyGet? v t with
    | none => exact ih'
    | some b =>
      simp only [Option.map_some]
      rw [hf v a b List.mem_cons_self (pyGet?_mem' hb), ih']

/-! ### The statistics -/

variable {d : Dim} {σ τ : Equiv.Perm L} {p t : StatVar L (FV K)}

theorem meanDim_shuffle (skipna : Bool) (h : p.Members d σ) : (p.shuffle d σ).meanDim skipna d = p.meanDim skipna d := by
  unfold StatVar.meanDim
  rw [shuffle_dims]
  by_cases hd : d ∈ p.arr.dims
  · rw [if_pos hd, if_pos hd, reduce_shuffle (npMean_symm skipna) h.perm hd]
  · rw [if_neg hd, if_neg hd]

theorem varDim_shuffle (skipna : Bool) (h : p.Members d σ) : (p.shuffle d σ).varDim skipna d = p.varDim skipna d := by
  unfold StatVar.varDim
  rw [shuffle_dims]
  by_cases hd : d ∈ p.arr.dims
  · rw [if_pos hd, if_pos hd, reduce_shuffle (npVar1_symm skipna) h.perm hd]
  · rw [if_neg hd, if_neg hd]

theorem sizeDim_shuffle (skipna : Bool) (h : p.Members d σ) : (p.shuffle d σ).sizeDim skipna d = p.sizeDim skipna d := by
  unfold StatVar.sizeDim
  rw [shuffle_dims]
  by_cases hd : d ∈ p.arr.dims
  · rw [if_pos hd, if_pos hd]
    cases skipna
    · rfl
    · rw [if_pos rfl, if_pos rfl, reduce_shuffle (f := fun C x => FV.ofNat (present true C x).card) ?_ h.perm hd]
      intro σ C x hσ
      exact congrArg FV.ofNat (present_card true (K := K) σ C x hσ)
  · rw [if_neg hd, if_neg hd]

/-- The reductions of a pair of member dimensions. -/
theorem reduce_two {V W X : Type} {d d' : Dim} (hdd : d ≠ d') {σ σ' : Equiv.Perm L} {f : Finset L → (L → V) → W} {f' : Finset L → (L → W) → X} (hf : SymmetricFn f) (hf' : SymmetricFn f')
    {a : StatVar L V} (hd : d ∈ a.arr.dims) (hd' : d' ∈ a.arr.dims) (h : ∀ l, σ l ∈ a.arr.coords d ↔ l ∈ a.arr.coords d) (h' : ∀ l, σ' l ∈ a.arr.coords d' ↔ l ∈ a.arr.coords d') :
    (((a.shuffle d' σ').shuffle d σ).reduce d f).reduce d' f' = (a.reduce d f).reduce d' f' := by
  rw [reduce_shuffle hf (a := a.shuffle d' σ') h hd, reduce_shuffle_other hdd.symm, reduce_shuffle hf' h' (Finset.mem_erase.mpr ⟨hdd.symm, hd'⟩)]

theorem rename_facts {V : Type} {d d' : Dim} {a a' : StatVar L V} (h : a.rename d d' = .ok a') (hwf : a.arr.WF) :
    d ∈ a.arr.dims ∧ d' ∉ a.arr.dims ∧ d' ≠ d ∧ d' ∈ a'.arr.dims ∧ d ∉ a'.arr.dims ∧ a'.arr.coords d' = a.arr.coords d ∧ a'.arr.WF := by
  unfold StatVar.rename at h
  by_cases hc : d ∈ a.arr.dims ∧ d' ∉ a.arr.dims
  · rw [if_pos hc] at h
    cases h
    have hne : d' ≠ d := fun hh => hc.2 (hh ▸ hc.1)
    unfold DA.rename
    simp only [if_pos hc.1]
    refine ⟨hc.1, hc.2, hne, Finset.mem_insert_self _ _, ?_, rfl, ?_⟩
    · intro hm
      rcases Finset.mem_insert.mp hm with hm | hm
      · exact hne hm.symm
      · exact (Finset.mem_erase.mp hm).1 rfl
    · intro e e' he
      refine hwf _ _ (fun k hk => ?_)
      by_cases hkd : k = d
      · subst hkd; rw [setLabel_same, setLabel_same]; exact he d' (Finset.mem_insert_self _ _)
      · rw [setLabel_other _ hkd, setLabel_other _ hkd]
        exact he k (Finset.mem_insert_of_mem (Finset.mem_erase.mpr ⟨hkd, hk⟩))
  · rw [if_neg hc] at h; cases h

/-- The difference of two ensembles, the second with renamed members. -/
theorem difference_shuffle {d d' : Dim} {σ τ : Equiv.Perm L} {U : Type} (g : FV K → FV K → U) {a b : StatVar L (FV K)} (hd : d ∈ a.arr.dims) (hd' : d' ∉ a.arr.dims) (hwa : a.arr.WF) (hb : d ∉ b.arr.dims) (hb' : d' ∈ b.arr.dims)
    (hwb : b.arr.WF) : (a.shuffle d σ).zipWith g (b.shuffle d' τ) = ((a.zipWith g b).shuffle d' τ).shuffle d σ := by
  have hne : d ≠ d' := by rintro rfl; exact hd' hd
  have hwb' : (b.shuffle d' τ).arr.WF := by
    intro e e' he
    show b.arr.val _ = b.arr.val _
    rw [if_pos hb', if_pos hb']
    refine hwb _ _ (fun k hk => ?_)
    by_cases hkd : k = d'
    · subst hkd; rw [setLabel_same, setLabel_same, he k hk]
    · rw [setLabel_other _ hkd, setLabel_other _ hkd]; exact he k hk
  rw [zip_shuffle σ g hd (by exact hb) hwb', zip_shuffle_right τ g hb' hd' hwa]

theorem zip_coords_left {U V W : Type} {d : Dim} (g : V → W → U) {a : StatVar L V} {b : StatVar L W} (ha : d ∈ a.arr.dims) (hb : d ∉ b.arr.dims) : (a.zipWith g b).arr.coords d = a.arr.coords d := by
  unfold StatVar.zipWith DA.zipWith DA.joinCoords
  simp only [if_pos ha, if_neg hb]

theorem zip_coords_right {U V W : Type} {d : Dim} (g : V → W → U) {a : StatVar L V} {b : StatVar L W} (ha : d ∉ a.arr.dims) : (a.zipWith g b).arr.coords d = b.arr.coords d := by
  unfold StatVar.zipWith DA.zipWith DA.joinCoords
  simp only [if_neg ha]

/-- Reducing the absolute differences of two ensembles over both member dimensions. -/
theorem pair_shuffle {q : Dim} {σ τ : Equiv.Perm L} {p t t' : StatVar L (FV K)} {X Y : Type} {f : Finset L → (L → FV K) → X} {f' : Finset L → (L → X) → Y} (hf : SymmetricFn f) (hf' : SymmetricFn f')
    (hp : p.Members d σ) (ht : t.Members d τ) (hr : t.rename d q = .ok t') (hpd : d ∈ p.arr.dims) (hq : q ∉ p.arr.dims) :
    (((((p.shuffle d σ).zipWith (· - ·) (t'.shuffle q τ)).map FV.abs).reduce d f).reduce q f') = ((((p.zipWith (· - ·) t').map FV.abs).reduce d f).reduce q f') := by
  obtain ⟨-, -, hne, h1, h2, h3, h4⟩ := rename_facts hr ht.wf
  have hu : d ∈ ((p.zipWith (· - ·) t').map FV.abs).arr.dims := Finset.mem_union_left _ hpd
  rw [difference_shuffle (· - ·) hpd hq hp.wf h2 h1 h4, shuffle_map, shuffle_map]
  have hc : ((p.zipWith (· - ·) t').map FV.abs).arr.coords d = p.arr.coords d := zip_coords_left (· - ·) hpd h2
  have hc' : ((p.zipWith (· - ·) t').map FV.abs).arr.coords q = t.arr.coords d := (zip_coords_right (· - ·) hq).trans h3
  have hu' : q ∈ ((p.zipWith (· - ·) t').map FV.abs).arr.dims := Finset.mem_union_right _ h1
  exact reduce_two hne.symm hf hf' hu hu' (by rw [hc]; exact hp.perm) (by rw [hc']; exact ht.perm)

/-- The mean over both member dimensions at once. -/
noncomputable def pairMean (d q : Dim) (skipna : Bool) (a : StatVar L (FV K)) : Except Err (StatVar L (FV K)) :=
  if d ∈ a.arr.dims then
    .ok (((a.reduce d (npSum skipna)).reduce q (npSum false)).zipWith (· / ·) ((a.reduce d (fun C x => FV.ofNat (present skipna C x).card)).reduce q (npSum false)))
  else .error .valueError

theorem crpsSkill_members (skipna : Bool) {t' : StatVar L (FV K)} (htd : d ∈ t.arr.dims) (hr : t.rename d (d ++ "_PSEUDO_FOR_TARGETS") = .ok t') :
    crpsSkill d skipna p t = pairMean d (d ++ "_PSEUDO_FOR_TARGETS") skipna ((p.zipWith (· - ·) t').map FV.abs) := by
  unfold crpsSkill pairMean
  rw [if_pos htd]
  dsimp only
  rw [hr]
  rfl

theorem crpsSkill_error (skipna : Bool) {e : Err} (htd : d ∈ t.arr.dims) (hr : t.rename d (d ++ "_PSEUDO_FOR_TARGETS") = .error e) : crpsSkill d skipna p t = .error e := by
  unfold crpsSkill
  rw [if_pos htd]
  dsimp only
  rw [hr]
  rfl

theorem crpsSkill_plain (skipna : Bool) (htd : d ∉ t.arr.dims) : crpsSkill d skipna p t = ((p.zipWith (· - ·) t).map FV.abs).meanDim skipna d := by
  unfold crpsSkill
  rw [if_neg htd]

theorem pairMean_shuffle {q : Dim} {t' : StatVar L (FV K)} (skipna : Bool) (hp : p.Members d σ) (ht : t.Members d τ) (hr : t.rename d q = .ok t') (hq : q ∉ p.arr.dims) :
    pairMean d q skipna (((p.shuffle d σ).zipWith (· - ·) (t'.shuffle q τ)).map FV.abs) = pairMean d q skipna ((p.zipWith (· - ·) t').map FV.abs) := by
  obtain ⟨-, -, hne, h1, h2, h3, h4⟩ := rename_facts hr ht.wf
  unfold pairMean
  by_cases hpd : d ∈ p.arr.dims
  · have hu : d ∈ ((p.zipWith (· - ·) t').map FV.abs).arr.dims := Finset.mem_union_left _ hpd
    have hu2 : d ∈ (((p.shuffle d σ).zipWith (· - ·) (t'.shuffle q τ)).map FV.abs).arr.dims := Finset.mem_union_left _ hpd
    have hf : SymmetricFn (L := L) (fun C (x : L → FV K) => (FV.ofNat (present skipna C x).card : FV K)) := by
      intro σ C x hσ
      exact congrArg FV.ofNat (present_card skipna (K := K) σ C x hσ)
    rw [if_pos hu, if_pos hu2, pair_shuffle (npSum_symm skipna) (npSum_symm false) hp ht hr hpd hq, pair_shuffle hf (npSum_symm false) hp ht hr hpd hq]
  · have hu : d ∉ ((p.zipWith (· - ·) t').map FV.abs).arr.dims := fun h => (Finset.mem_union.mp h).elim hpd h2
    have hu2 : d ∉ (((p.shuffle d σ).zipWith (· - ·) (t'.shuffle q τ)).map FV.abs).arr.dims := fun h => (Finset.mem_union.mp h).elim hpd h2
    rw [if_neg hu, if_neg hu2]

/-- `CRPSSkill`. -/
theorem crpsSkill_shuffle (skipna : Bool) (hp : p.Members d σ) (ht : t.Members d τ) (hps : d ++ "_PSEUDO_FOR_TARGETS" ∉ p.arr.dims) :
    crpsSkill d skipna (p.shuffle d σ) (t.shuffle d τ) = crpsSkill d skipna p t := by
  by_cases htd : d ∈ t.arr.dims
  · have hr2 := rename_shuffle d (d ++ "_PSEUDO_FOR_TARGETS") τ ht.wf
    cases hr : t.rename d (d ++ "_PSEUDO_FOR_TARGETS") with
    | error e =>
      rw [hr] at hr2
      rw [crpsSkill_error skipna htd hr, crpsSkill_error skipna (t := t.shuffle d τ) htd hr2]
    | ok t' =>
      rw [hr] at hr2
      rw [crpsSkill_members skipna htd hr, crpsSkill_members skipna (t := t.shuffle d τ) htd hr2]
      exact pairMean_shuffle skipna hp ht hr hps
  · rw [crpsSkill_plain skipna htd, shuffle_absent τ htd, crpsSkill_plain skipna htd]
    by_cases hpd : d ∈ p.arr.dims
    · rw [zip_shuffle σ _ hpd htd ht.wf, shuffle_map]
      unfold StatVar.meanDim
      have hu : d ∈ ((p.zipWith (· - ·) t).map FV.abs).arr.dims := Finset.mem_union_left _ hpd
      rw [if_pos (by exact hu), if_pos hu, reduce_shuffle (npMean_symm skipna) ?_ hu]
      have hc : ((p.zipWith (· - ·) t).map FV.abs).arr.coords d = p.arr.coords d := zip_coords_left (· - ·) hpd htd
      rw [hc]; exact hp.perm
    · rw [shuffle_absent σ hpd]

theorem bind_value {α β : Type} (a : α) (f : α → Except Err β) : (Except.ok a : Except Err α).bind f = f a := rfl

/-- The last step of `CRPSSpread`, once the ensemble is chosen and its members are renamed. -/
noncomputable def spreadOf (d q : Dim) (fair skipna : Bool) (n a a2 : StatVar L (FV K)) : StatVar L (FV K) :=
  ((((a.zipWith (· - ·) a2).map FV.abs).reduce d (npSum skipna)).reduce q (npSum false)).zipWith (· / ·) (n.zipWith (fun x y => x * y) (n.map (fun x => x - FV.ofNat (if fair then 1 else 0))))

theorem spreadOf_shuffle {q : Dim} {a a2 : StatVar L (FV K)} (fair skipna : Bool) (n : StatVar L (FV K)) (ha : a.Members d σ) (hr : a.rename d q = .ok a2) :
    spreadOf d q fair skipna n (a.shuffle d σ) (a2.shuffle q σ) = spreadOf d q fair skipna n a a2 := by
  obtain ⟨hd, hq, -⟩ := rename_facts hr ha.wf
  unfold spreadOf
  rw [pair_shuffle (npSum_symm skipna) (npSum_symm false) ha ha hr hd hq]

/-- The spread of one ensemble; `q` is the name given to the second member dimension. -/
noncomputable def spreadFrom (d q : Dim) (fair skipna : Bool) (a : StatVar L (FV K)) : Except Err (StatVar L (FV K)) := do
  let n ← a.sizeDim skipna d
  if !skipna && decide ((a.arr.coords d).card < 2) then .error .valueError
  else do
    let a2 ← a.rename d q
    return spreadOf d q fair skipna n a a2

theorem spreadFrom_size {a : StatVar L (FV K)} (q : Dim) (fair skipna : Bool) {e : Err} (h : a.sizeDim skipna d = .error e) : spreadFrom d q fair skipna a = .error e := by
  unfold spreadFrom; rw [h]; rfl

theorem spreadFrom_few {a n : StatVar L (FV K)} (q : Dim) (fair skipna : Bool) (h : a.sizeDim skipna d = .ok n) (hc : (!skipna && decide ((a.arr.coords d).card < 2)) = true) :
    spreadFrom d q fair skipna a = .error .valueError := by
  unfold spreadFrom; rw [h, hc]; rfl

theorem spreadFrom_rename {a n : StatVar L (FV K)} (q : Dim) (fair skipna : Bool) {e : Err} (h : a.sizeDim skipna d = .ok n) (hc : (!skipna && decide ((a.arr.coords d).card < 2)) = false)
    (hr : a.rename d q = .error e) : spreadFrom d q fair skipna a = .error e := by
  unfold spreadFrom; rw [h, hc, hr]; rfl

theorem spreadFrom_ok {a n a2 : StatVar L (FV K)} (q : Dim) (fair skipna : Bool) (h : a.sizeDim skipna d = .ok n) (hc : (!skipna && decide ((a.arr.coords d).card < 2)) = false)
    (hr : a.rename d q = .ok a2) : spreadFrom d q fair skipna a = .ok (spreadOf d q fair skipna n a a2) := by
  unfold spreadFrom; rw [h, hc, hr]; rfl

theorem spreadFrom_shuffle {a : StatVar L (FV K)} (q : Dim) (fair skipna : Bool) (ha : a.Members d σ) : spreadFrom d q fair skipna (a.shuffle d σ) = spreadFrom d q fair skipna a := by
  have hs := sizeDim_shuffle skipna ha
  have hr2 := rename_shuffle d q σ ha.wf
  cases h : a.sizeDim skipna d with
  | error e => rw [spreadFrom_size q fair skipna h, spreadFrom_size q fair skipna (hs.trans h)]
  | ok n =>
    cases hc : (!skipna && decide ((a.arr.coords d).card < 2)) with
    | true => rw [spreadFrom_few q fair skipna h hc, spreadFrom_few q fair skipna (hs.trans h) (by rw [shuffle_coords]; exact hc)]
    | false =>
      cases hr : a.rename d q with
      | error e =>
        rw [hr] at hr2
        rw [spreadFrom_rename q fair skipna h hc hr, spreadFrom_rename q fair skipna (hs.trans h) (by rw [shuffle_coords]; exact hc) hr2]
      | ok a2 =>
        rw [hr] at hr2
        rw [spreadFrom_ok q fair skipna h hc hr, spreadFrom_ok q fair skipna (hs.trans h) (by rw [shuffle_coords]; exact hc) hr2, spreadOf_shuffle fair skipna n ha hr]

theorem crpsSpread_eq (argsort : List (FV K) → List ℕ) (order : List L) (fair : Bool) (which : String) (skipna : Bool) {a : StatVar L (FV K)} (h : whichArray which p t = .ok a) :
    crpsSpread argsort order d false fair which skipna p t = spreadFrom d "ensemble_dim_2" fair skipna a := by
  unfold crpsSpread spreadFrom spreadOf
  rw [h]
  rfl

/-- `CRPSSpread` without sorting. -/
theorem crpsSpread_shuffle (argsort : List (FV K) → List ℕ) (order : List L) (fair : Bool) (which : String) (skipna : Bool) (hp : p.Members d σ) (ht : t.Members d τ) :
    crpsSpread argsort order d false fair which skipna (p.shuffle d σ) (t.shuffle d τ) = crpsSpread argsort order d false fair which skipna p t := by
  by_cases h1 : which = "predictions"
  · have e1 : whichArray which p t = .ok p := by rw [whichArray, if_pos h1]
    have e2 : whichArray which (p.shuffle d σ) (t.shuffle d τ) = .ok (p.shuffle d σ) := by rw [whichArray, if_pos h1]
    rw [crpsSpread_eq _ _ _ _ _ e1, crpsSpread_eq _ _ _ _ _ e2, spreadFrom_shuffle _ fair skipna hp]
  · by_cases h2 : which = "targets"
    · have e1 : whichArray which p t = .ok t := by rw [whichArray, if_neg h1, if_pos h2]
      have e2 : whichArray which (p.shuffle d σ) (t.shuffle d τ) = .ok (t.shuffle d τ) := by rw [whichArray, if_neg h1, if_pos h2]
      rw [crpsSpread_eq _ _ _ _ _ e1, crpsSpread_eq _ _ _ _ _ e2, spreadFrom_shuffle _ fair skipna ht]
    · unfold crpsSpread
      rw [whichArray, if_neg h1, if_neg h2, whichArray, if_neg h1, if_neg h2]

/-- `EnsembleVariance`. -/
theorem ensembleVariance_shuffle (skipna : Bool) (hp : p.Members d σ) (t' : StatVar L (FV K)) : ensembleVariance d skipna (p.shuffle d σ) t' = ensembleVariance d skipna p t := varDim_shuffle skipna hp

/-- `UnbiasedEnsembleMeanSquaredError`. -/
theorem unbiasedMSE_shuffle (skipna : Bool) (hp : p.Members d σ) (ht : t.Members d τ) : unbiasedMSE d skipna (p.shuffle d σ) (t.shuffle d τ) = unbiasedMSE d skipna p t := by
  unfold unbiasedMSE
  rw [meanDim_shuffle skipna hp, varDim_shuffle skipna hp, sizeDim_shuffle skipna hp, meanDim_shuffle skipna ht, varDim_shuffle skipna ht, sizeDim_shuffle skipna ht]
  by_cases htd : d ∈ t.arr.dims
  · simp only [if_pos (show d ∈ (t.shuffle d τ).arr.dims from htd), if_pos htd]
  · rw [shuffle_absent τ htd]

/-- `RankHistogram`, when the targets have no members. -/
theorem rankHistogram_shuffle (number : ℕ → L) (hp : p.Members d σ) (htd : d ∉ t.arr.dims) (hwt : t.arr.WF) : rankHistogram number d (p.shuffle d σ) (t.shuffle d τ) = rankHistogram number d p t := by
  rw [shuffle_absent τ htd]
  unfold rankHistogram
  by_cases hd : d ∈ p.arr.dims
  · rw [if_pos hd, if_pos (by exact hd)]
    dsimp only
    have hu : d ∈ (p.zipWith (fun x y => (FV.ofBool (FV.lt x y) : FV K)) t).arr.dims := Finset.mem_union_left _ hd
    have hc : (p.zipWith (fun x y => (FV.ofBool (FV.lt x y) : FV K)) t).arr.coords d = p.arr.coords d := zip_coords_left _ hd htd
    rw [zip_shuffle σ _ hd htd hwt, reduce_shuffle (npSum_symm false) (by rw [hc]; exact hp.perm) hu, shuffle_coords]
  · rw [if_neg hd, if_neg (by exact hd)]

end shuffle
end WBX
