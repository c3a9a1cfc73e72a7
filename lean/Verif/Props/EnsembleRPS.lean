import Verif.Model.EconomicValue
import Verif.Props.Encodings
import Verif.Props.EnsembleMoments

/-!
# C35: the ensemble ranked probability score
-/

set_option linter.unusedSectionVars false

namespace WBX
open DA Classical
variable {L K : Type} [DecidableEq L] [Field K] [LinearOrder K] [IsStrictOrderedRing K]

/-! ### Specification -/

/-- 1 if the value is at or below the threshold (strictly below if not right-inclusive), else 0. -/
def cdfInd (right : Bool) (v τ : FV K) : K := if (if right then FV.le v τ else FV.lt v τ) = true then 1 else 0

/-- The unfair score of an ensemble `x` and an observation `y`: sum over the bins of the squared difference between the ensemble-mean
CDF and the CDF of the observation. -/
def rpsUnfair (right : Bool) (B M : Finset L) (τP τT : L → FV K) (x : L → K) (y : K) : K :=
  ∑ b ∈ B, (eMean M (fun l => cdfInd right (.fin (x l)) (τP b)) - cdfInd right (.fin y) (τT b)) ^ 2

/-- The fair score: sum over the bins of the mean over ordered pairs of distinct members of the product of their CDF errors. -/
def rpsFair (right : Bool) (B M : Finset L) (τP τT : L → FV K) (x : L → K) (y : K) : K :=
  ∑ b ∈ B, pairSum M (fun i j => (cdfInd right (.fin (x i)) (τP b) - cdfInd right (.fin y) (τT b)) *
    (cdfInd right (.fin (x j)) (τP b) - cdfInd right (.fin y) (τT b))) / (M.card * (M.card - 1))

theorem cdfInd_fin (c : Bool) : (if c = true then (1 : FV K) else 0) = .fin (if c = true then 1 else 0) := by
  cases c <;> simp [FV.one_def, FV.zero_def]

theorem cdfInd_nonneg (right : Bool) (v τ : FV K) : 0 ≤ cdfInd right v τ := by
  unfold cdfInd
  generalize (if right then FV.le v τ else FV.lt v τ) = c
  cases c <;> simp

theorem cdfInd_le_one (right : Bool) (v τ : FV K) : cdfInd right v τ ≤ 1 := by
  unfold cdfInd
  generalize (if right then FV.le v τ else FV.lt v τ) = c
  cases c <;> simp

/-! ### The transforms -/

/-- The `ContinuousToCDF` transform for thresholds already chosen for the variable. -/
noncomputable def cdfTransform (which suffix : String) (th : DA L (FV K)) (order : List L) (binDim : Dim) (enforce right : Bool) : InputTransform L K :=
  ⟨which, suffix, fun _ => computeCdf th order binDim enforce right⟩

theorem computeCdf_ok {th : DA L (FV K)} {order : List L} {d : Dim} {enforce right : Bool} {x s : StatVar L (FV K)}
    (h : computeCdf th order d enforce right x = .ok s) : s.arr.dims = x.arr.dims ∪ th.dims ∧
      ∀ k, s.arr.coords k = if k ∈ x.arr.dims then (if k ∈ th.dims then x.arr.coords k ∩ th.coords k else x.arr.coords k) else th.coords k := by
  unfold computeCdf at h
  split at h
  · simp at h
  · rw [Except.ok.injEq] at h
    subst h
    constructor
    · simp only [StatVar.zipWith, StatVar.map, zipWith, DA.map]
      ext k
      simp only [Finset.mem_union]
      tauto
    · intro k
      simp only [StatVar.zipWith, StatVar.map, zipWith, DA.map, joinCoords, Finset.mem_union]
      by_cases h1 : k ∈ x.arr.dims <;> by_cases h2 : k ∈ th.dims <;> simp [h1, h2]
      · ext l; simp only [Finset.mem_inter]; tauto

theorem sideVars_one {side : String} {tr : InputTransform L K} {k : String} {a : StatVar L (FV K)} {u : Vars (StatVar L (FV K))} :
    sideVars side tr [(k, a)] = .ok u ↔ (touches side tr ∧ ∃ a', tr.fn k a = .ok a' ∧ u = [(k, a')]) ∨ (¬ touches side tr ∧ u = [(k, a)]) := by
  unfold sideVars
  by_cases h : touches side tr
  · rw [if_pos h, mapVars_ok_iff, List.forall₂_cons_left_iff]
    simp only [List.forall₂_nil_left_iff, h, true_and, not_true_eq_false, false_and, or_false]
    constructor
    · rintro ⟨⟨k', a'⟩, u', ⟨h1, h2⟩, rfl, rfl⟩
      simp only at h1 h2
      subst h1
      exact ⟨a', h2, rfl⟩
    · rintro ⟨a', h1, rfl⟩
      exact ⟨(k, a'), [], ⟨rfl, h1⟩, rfl, rfl⟩
  · simp [h, eq_comm]

theorem statOfE_one {name v : String} {f : StatVar L (FV K) → StatVar L (FV K) → Except Err (StatVar L (FV K))} {a b : StatVar L (FV K)} {r} :
    (statOfE name f).compute [(v, a)] [(v, b)] = .ok r ↔ ∃ s, f a b = .ok s ∧ r = [(v, some s)] := by
  cases h : f a b with
  | error => simp [statOfE, perVariableStatistic, perVariableLoop, pyGet?, bind, Except.bind, h]
  | ok s =>
    have : (statOfE name f).compute [(v, a)] [(v, b)] = .ok [(v, some s)] := by
      simp [statOfE, perVariableStatistic, perVariableLoop, pyGet?, bind, Except.bind, pure, Except.pure, h]
    rw [this]
    simp [eq_comm]

theorem statOf_one {name v : String} {f : StatVar L (FV K) → StatVar L (FV K) → StatVar L (FV K)} {a b : StatVar L (FV K)} {r} :
    (statOf name f : FStatistic L K).compute [(v, a)] [(v, b)] = .ok r ↔ r = [(v, some (f a b))] := by
  simp [statOf, perVariableStatistic, perVariableLoop, pyGet?, bind, Except.bind, pure, Except.pure, eq_comm]

section
variable {trP trT : InputTransform L K} {binDim d : Dim} {sk fair : Bool} {p t s : StatVar L (FV K)}

/-- What the computation of the score consists of. -/
theorem ensembleRPS_ok (hP : trP.which = "predictions") (hT : trT.which = "targets") :
    ensembleRPS trP trT binDim d sk fair p t = .ok s ↔ ∃ P T r, trP.fn "tmp" p = .ok P ∧ trT.fn "tmp" t = .ok T ∧
      (if fair then unbiasedMSE d sk P T = .ok r else
        ∃ Pm Tm, ensembleMeanFn d sk true P = .ok Pm ∧ ensembleMeanFn d sk true T = .ok Tm ∧ r = squaredError Pm Tm) ∧
      r.nansumDim sk binDim = .ok s := by
  have hc : ∀ (se : FStatistic L K) (v), (wrappedStatistic (wrappedStatistic se trT) trP).compute [("tmp", p)] [("tmp", t)] = .ok v ↔
      ∃ P T, trP.fn "tmp" p = .ok P ∧ trT.fn "tmp" t = .ok T ∧ se.compute [("tmp", P)] [("tmp", T)] = .ok v := by
    intro se v
    have t1 : touches "predictions" trP := .inl hP
    have t2 : ¬ touches "targets" trP := by simp [touches, hP]
    have t3 : ¬ touches "predictions" trT := by simp [touches, hT]
    have t4 : touches "targets" trT := .inl hT
    simp only [wrappedStatistic_ok, sideVars_one, t1, t2, true_and, not_true_eq_false, false_and, or_false, not_false_eq_true, false_or]
    constructor
    · rintro ⟨p', t', ⟨P, h1, rfl⟩, rfl, p'', t'', h2, h3, h4⟩
      rw [sideVars_one] at h2 h3
      simp only [t3, t4, true_and, not_true_eq_false, false_and, or_false, not_false_eq_true, false_or] at h2 h3
      obtain ⟨T, h5, rfl⟩ := h3
      subst h2
      exact ⟨P, T, h1, h5, h4⟩
    · rintro ⟨P, T, h1, h2, h3⟩
      refine ⟨_, _, ⟨P, h1, rfl⟩, rfl, [("tmp", P)], [("tmp", T)], ?_, ?_, h3⟩
      · rw [sideVars_one]; exact .inr ⟨t3, rfl⟩
      · rw [sideVars_one]; exact .inl ⟨t4, T, h2, rfl⟩
  have hitem : ∀ r' : StatVar L (FV K), (pyItem [("tmp", some r')] "tmp" : Except Err _) = .ok (some r') := fun r' => rfl
  unfold ensembleRPS
  simp only [bind_ok_iff, hc]
  cases fair with
  | true =>
    simp only [if_true, unbiasedMSEStatistic, statOfE_one]
    constructor
    · rintro ⟨v, ⟨P, T, h1, h2, r, h3, rfl⟩, x, h4, h5⟩
      rw [hitem, Except.ok.injEq] at h4
      subst h4
      exact ⟨P, T, r, h1, h2, h3, h5⟩
    · rintro ⟨P, T, r, h1, h2, h3, h4⟩
      exact ⟨_, ⟨P, T, h1, h2, r, h3, rfl⟩, some r, hitem r, h4⟩
  | false =>
    have hb : ∀ (P T : StatVar L (FV K)) v, (wrappedStatistic squaredErrorStatistic ⟨"both", "ensemble_mean", fun _ => ensembleMeanFn d sk true⟩).compute
        [("tmp", P)] [("tmp", T)] = .ok v ↔ ∃ Pm Tm, ensembleMeanFn d sk true P = .ok Pm ∧ ensembleMeanFn d sk true T = .ok Tm ∧
          v = [("tmp", some (squaredError Pm Tm))] := by
      intro P T v
      have t1 : ∀ side, touches side (⟨"both", "ensemble_mean", fun _ => ensembleMeanFn d sk true⟩ : InputTransform L K) := fun side => .inr rfl
      simp only [wrappedStatistic_ok, sideVars_one, t1, true_and, not_true_eq_false, false_and, or_false, squaredErrorStatistic]
      constructor
      · rintro ⟨p', t', ⟨Pm, h1, rfl⟩, ⟨Tm, h2, rfl⟩, h3⟩
        exact ⟨Pm, Tm, h1, h2, statOf_one.mp h3⟩
      · rintro ⟨Pm, Tm, h1, h2, rfl⟩
        exact ⟨_, _, ⟨Pm, h1, rfl⟩, ⟨Tm, h2, rfl⟩, statOf_one.mpr rfl⟩
    simp only [Bool.false_eq_true, if_false, hb]
    constructor
    · rintro ⟨v, ⟨P, T, h1, h2, Pm, Tm, h3, h3', rfl⟩, x, h4, h5⟩
      rw [hitem, Except.ok.injEq] at h4
      subst h4
      exact ⟨P, T, _, h1, h2, ⟨Pm, Tm, h3, h3', rfl⟩, h5⟩
    · rintro ⟨P, T, r, h1, h2, ⟨Pm, Tm, h3, h3', rfl⟩, h4⟩
      exact ⟨_, ⟨P, T, h1, h2, Pm, Tm, h3, h3', rfl⟩, _, hitem _, h4⟩

end

/-- The setting of the theorems at cell `e`: forecast `p` is an ensemble along `d` with members `M` and values `x`, the observation `t`
has value `y`, and the thresholds of bin `b` are `τP b` for the forecast and `τT b` for the observation, none of them NaN. -/
structure RPSAt (sk : Bool) (thP thT : DA L (FV K)) (binDim d : Dim) (p t : StatVar L (FV K)) (e : Dim → L) (B M : Finset L)
    (τP τT : L → FV K) (x : L → K) (y : K) : Prop where
  ne : binDim ≠ d
  dimP : d ∈ p.arr.dims
  dimT : d ∉ t.arr.dims
  binP : binDim ∉ p.arr.dims
  binT : binDim ∉ t.arr.dims
  thPd : d ∉ thP.dims
  thTd : d ∉ thT.dims
  thPb : binDim ∈ thP.dims
  thTb : binDim ∈ thT.dims
  bins : B = thP.coords binDim ∩ thT.coords binDim
  members : ∀ b ∈ B, EnsembleAt sk p d (setLabel e binDim b) M x
  obs : ∀ b ∈ B, t.arr.val (setLabel e binDim b) = .fin y
  valP : ∀ b ∈ B, ∀ l ∈ p.arr.coords d, thP.val (setLabel (setLabel e binDim b) d l) = τP b
  valT : ∀ b ∈ B, thT.val (setLabel e binDim b) = τT b
  nanP : ∀ b ∈ B, (τP b).isnan = false
  nanT : ∀ b ∈ B, (τT b).isnan = false

section
variable {sk enforce right : Bool} {thP thT : DA L (FV K)} {orderP orderT : List L} {binDim d : Dim} {p t s : StatVar L (FV K)} {e : Dim → L}
  {B M : Finset L} {τP τT : L → FV K} {x : L → K} {y : K} {sP sT : String}

theorem RPSAt.ensemble (H : RPSAt sk thP thT binDim d p t e B M τP τT x y) {P : StatVar L (FV K)}
    (h : computeCdf thP orderP binDim enforce right p = .ok P) {b : L} (hb : b ∈ B) :
    EnsembleAt sk P d (setLabel e binDim b) M (fun l => cdfInd right (.fin (x l)) (τP b)) := by
  obtain ⟨-, hc⟩ := computeCdf_ok h
  have hcd : P.arr.coords d = p.arr.coords d := by rw [hc, if_pos H.dimP, if_neg H.thPd]
  have hm := H.members b hb
  have hn := H.nanP b hb
  have hv : ∀ l ∈ p.arr.coords d, ∀ z, p.arr.val (setLabel (setLabel e binDim b) d l) = .fin z →
      P.arr.val (setLabel (setLabel e binDim b) d l) = .fin (cdfInd right (.fin z) (τP b)) := by
    intro l hl z hz
    rw [C36_cdf_value h, hz, H.valP b hb l hl, hn]
    simp only [FV.isnan, Bool.false_eq_true, or_self, if_false, cdfInd]
    exact cdfInd_fin _
  cases sk with
  | false =>
    obtain ⟨h1, h2⟩ := hm
    exact ⟨hcd.trans h1, fun l hl => hv l (h1 ▸ hl) _ (h2 l hl)⟩
  | true =>
    obtain ⟨h1, h2, h3⟩ := hm
    refine ⟨hcd ▸ h1, fun l hl => hv l (h1 hl) _ (h2 l hl), fun l hl hl' => ?_⟩
    rw [hcd] at hl
    rw [C36_cdf_value h, h3 l hl hl']
    simp [FV.isnan]

theorem RPSAt.target (H : RPSAt sk thP thT binDim d p t e B M τP τT x y) {T : StatVar L (FV K)}
    (h : computeCdf thT orderT binDim enforce right t = .ok T) {b : L} (hb : b ∈ B) :
    T.arr.val (setLabel e binDim b) = .fin (cdfInd right (.fin y) (τT b)) := by
  rw [C36_cdf_value h, H.obs b hb, H.valT b hb, H.nanT b hb]
  simp only [FV.isnan, Bool.false_eq_true, or_self, if_false, cdfInd]
  exact cdfInd_fin _

theorem RPSAt.coords (H : RPSAt sk thP thT binDim d p t e B M τP τT x y) {P T : StatVar L (FV K)}
    (h : computeCdf thP orderP binDim enforce right p = .ok P) (h' : computeCdf thT orderT binDim enforce right t = .ok T) :
    binDim ∈ P.arr.dims ∧ binDim ∈ T.arr.dims ∧ d ∈ P.arr.dims ∧ d ∉ T.arr.dims ∧ P.arr.coords binDim ∩ T.arr.coords binDim = B := by
  obtain ⟨hd, hc⟩ := computeCdf_ok h
  obtain ⟨hd', hc'⟩ := computeCdf_ok h'
  refine ⟨?_, ?_, ?_, ?_, ?_⟩
  · rw [hd]; simp [H.thPb]
  · rw [hd']; simp [H.thTb]
  · rw [hd]; simp [H.dimP]
  · rw [hd']; simp [H.dimT, H.thTd]
  · rw [hc, hc', if_neg H.binP, if_neg H.binT, H.bins]

theorem npSum_all_fin {sk : Bool} {C : Finset L} {f : L → FV K} {g : L → K} (h : ∀ l ∈ C, f l = .fin (g l)) :
    npSum sk C f = .fin (∑ l ∈ C, g l) := by
  cases sk with
  | false => exact npSum_fin h
  | true => exact npSum_present (le_refl _) h (fun l hl hl' => absurd hl hl')

/-- **C35** The unfair score of a cell is the sum over the common bins of the squared difference between the ensemble-mean CDF and the
CDF of the observation; it is never negative. -/
theorem C35_unfair (h : ensembleRPS (cdfTransform "predictions" sP thP orderP binDim enforce right)
      (cdfTransform "targets" sT thT orderT binDim enforce right) binDim d sk false p t = .ok s)
    (H : RPSAt sk thP thT binDim d p t e B M τP τT x y) (hM : M.Nonempty) :
    s.arr.val e = .fin (rpsUnfair right B M τP τT x y) ∧ 0 ≤ rpsUnfair right B M τP τT x y := by
  refine ⟨?_, Finset.sum_nonneg (fun _ _ => sq_nonneg _)⟩
  obtain ⟨P, T, r, h1, h2, h3, h4⟩ := (ensembleRPS_ok rfl rfl).mp h
  simp only [Bool.false_eq_true, if_false] at h3
  obtain ⟨Pm, Tm, h5, h6, rfl⟩ := h3
  obtain ⟨c1, c2, c3, c4, c5⟩ := H.coords h1 h2
  unfold ensembleMeanFn StatVar.meanDim at h5 h6
  rw [if_neg (by simp [c3]), if_pos c3, Except.ok.injEq] at h5
  rw [if_pos ⟨c4, rfl⟩, Except.ok.injEq] at h6
  subst h5 h6
  unfold StatVar.nansumDim at h4
  split at h4
  · rw [Except.ok.injEq] at h4
    subst h4
    simp only [StatVar.reduce, squaredError, StatVar.map, StatVar.zipWith, DA.map, zipWith, joinCoords, Finset.mem_erase, c1, H.ne, ne_eq, not_false_eq_true, and_self, c2, if_true, c5]
    rw [npSum_all_fin (g := fun b => (eMean M (fun l => cdfInd right (.fin (x l)) (τP b)) - cdfInd right (.fin y) (τT b)) ^ 2)]
    · rfl
    · intro b hb
      rw [npMean_at (H.ensemble h1 hb) hM, H.target h2 hb, FV.fin_sub_fin, FV.sq, FV.fin_mul_fin, pow_two]
  · simp at h4

/-- **C35** The fair score of a cell is the sum over the common bins of the mean over pairs of distinct members of the product of their
CDF errors. -/
theorem C35_fair (h : ensembleRPS (cdfTransform "predictions" sP thP orderP binDim enforce right)
      (cdfTransform "targets" sT thT orderT binDim enforce right) binDim d sk true p t = .ok s)
    (H : RPSAt sk thP thT binDim d p t e B M τP τT x y) (hM : 2 ≤ M.card) :
    s.arr.val e = .fin (rpsFair right B M τP τT x y) := by
  obtain ⟨P, T, r, h1, h2, h3, h4⟩ := (ensembleRPS_ok rfl rfl).mp h
  simp only [if_true] at h3
  obtain ⟨c1, c2, c3, c4, c5⟩ := H.coords h1 h2
  have hv : ∀ b ∈ B, r.arr.val (setLabel e binDim b) = .fin (pairSum M (fun i j => (cdfInd right (.fin (x i)) (τP b) - cdfInd right (.fin y) (τT b)) *
    (cdfInd right (.fin (x j)) (τP b) - cdfInd right (.fin y) (τT b))) / (M.card * (M.card - 1))) := fun b hb =>
    C32_unbiased c4 h3 (H.ensemble h1 hb) hM (H.target h2 hb)
  have hcoord : r.arr.coords binDim = B := by
    unfold unbiasedMSE StatVar.meanDim StatVar.varDim StatVar.sizeDim at h3
    simp only [c3, c4, if_true, if_false, bind, Except.bind, pure, Except.pure, Except.ok.injEq] at h3
    subst h3
    rw [← c5]
    simp only [StatVar.reduce, StatVar.map, StatVar.zipWith, DA.map, zipWith, joinCoords, Finset.mem_erase, c1, H.ne, ne_eq,
      not_false_eq_true, and_self, c2, if_true, Finset.mem_union, true_or]
    cases sk
    · simp [DA.scalar]
      ext l
      simp only [Finset.mem_inter]
      tauto
    · simp [H.ne, c1]
      ext l
      simp only [Finset.mem_inter]
      tauto
  unfold StatVar.nansumDim at h4
  split at h4
  · rw [Except.ok.injEq] at h4
    subst h4
    simp only [StatVar.reduce, hcoord]
    rw [npSum_all_fin hv]
    rfl
  · simp at h4

theorem cdfInd_sq (right : Bool) (v τ : FV K) : cdfInd right v τ ^ 2 = cdfInd right v τ := by
  unfold cdfInd
  split <;> simp

/-- The sampling variance of a mean of indicators. -/
theorem eVar_ind {M : Finset L} (hM : 2 ≤ M.card) {f : L → K} (hf : ∀ l ∈ M, f l ^ 2 = f l) :
    eVar M f / M.card = eMean M f * (1 - eMean M f) / (M.card - 1) := by
  have hne : M.Nonempty := Finset.card_pos.mp (by omega)
  have h0 : (M.card : K) ≠ 0 := by exact_mod_cast hne.card_pos.ne'
  have h1 : (M.card : K) - 1 ≠ 0 := by
    have : (1 : K) < M.card := by exact_mod_cast (show 1 < M.card by omega)
    exact (sub_pos.mpr this).ne'
  rw [eVar, sum_sq_dev hne, Finset.sum_congr rfl hf]
  unfold eMean
  field_simp

/-- **C35** The fair score is the unfair score minus the sampling-variance correction `F(1-F)/(n-1)` of each bin, `F` being the
ensemble-mean CDF; so it is at most the unfair score. -/
theorem C35_correction (right : Bool) (B : Finset L) {M : Finset L} (hM : 2 ≤ M.card) (τP τT : L → FV K) (x : L → K) (y : K) :
    rpsFair right B M τP τT x y = rpsUnfair right B M τP τT x y -
      ∑ b ∈ B, eMean M (fun l => cdfInd right (.fin (x l)) (τP b)) * (1 - eMean M (fun l => cdfInd right (.fin (x l)) (τP b))) / (M.card - 1) ∧
    rpsFair right B M τP τT x y ≤ rpsUnfair right B M τP τT x y := by
  have h1 : (0 : K) < M.card - 1 := by
    have : (1 : K) < M.card := by exact_mod_cast (show 1 < M.card by omega)
    linarith
  have key : rpsFair right B M τP τT x y = rpsUnfair right B M τP τT x y -
      ∑ b ∈ B, eMean M (fun l => cdfInd right (.fin (x l)) (τP b)) * (1 - eMean M (fun l => cdfInd right (.fin (x l)) (τP b))) / (M.card - 1) := by
    unfold rpsFair rpsUnfair
    rw [← Finset.sum_sub_distrib]
    refine Finset.sum_congr rfl (fun b _ => ?_)
    rw [← C32_pairs hM, eVar_ind hM (fun l _ => cdfInd_sq _ _ _)]
  refine ⟨key, ?_⟩
  rw [key]
  have hn : (0 : K) < M.card := by linarith
  have : 0 ≤ ∑ b ∈ B, eMean M (fun l => cdfInd right (.fin (x l)) (τP b)) * (1 - eMean M (fun l => cdfInd right (.fin (x l)) (τP b))) / (M.card - 1) := by
    refine Finset.sum_nonneg (fun b _ => div_nonneg (mul_nonneg ?_ ?_) h1.le)
    · exact div_nonneg (Finset.sum_nonneg (fun l _ => cdfInd_nonneg _ _ _)) hn.le
    · rw [sub_nonneg, eMean, div_le_one hn]
      calc ∑ l ∈ M, cdfInd right (.fin (x l)) (τP b) ≤ ∑ l ∈ M, (1 : K) := Finset.sum_le_sum (fun l _ => cdfInd_le_one _ _ _)
        _ = M.card := by simp
  linarith

/-- **C35** The unfair score is 0 iff in each bin the CDF of the ensemble equals that of the
observation. -/
theorem C35_unfair_zero (right : Bool) (B M : Finset L) (τP τT : L → FV K) (x : L → K) (y : K) :
    rpsUnfair right B M τP τT x y = 0 ↔ ∀ b ∈ B, eMean M (fun l => cdfInd right (.fin (x l)) (τP b)) = cdfInd right (.fin y) (τT b) := by
  unfold rpsUnfair
  rw [Finset.sum_eq_zero_iff_of_nonneg (fun _ _ => sq_nonneg _)]
  refine forall₂_congr (fun b _ => ?_)
  rw [sq_eq_zero_iff, sub_eq_zero]

/-- **C35** (finding) If the thresholds of the forecasts and of the observations share no bin label, the score is 0 for every forecast:
the CDFs are compared on the common labels only. -/
theorem C35_no_common_bins (h : ensembleRPS (cdfTransform "predictions" sP thP orderP binDim enforce right)
      (cdfTransform "targets" sT thT orderT binDim enforce right) binDim d sk false p t = .ok s)
    (H : RPSAt sk thP thT binDim d p t e ∅ M τP τT x y) (hM : M.Nonempty) : s.arr.val e = .fin 0 := by
  rw [(C35_unfair h H hM).1]
  simp [rpsUnfair]

/-- **C35** Aggregated over cells, the metric is the weighted mean of the scores of the cells. -/
theorem C35_mean {fair : Bool} {suffix : String} {P T : Vars (StatVar L (FV K))} (hP : (P.map Prod.fst).Nodup) (hT : (T.map Prod.fst).Nodup) {v : String}
    (ha : (v, p) ∈ P) (hb : (v, t) ∈ T) {agg : Aggregator L (FV K)} {X : DA L (FV K)}
    (hX : ValueOf (ensembleRPSStatistic (cdfTransform "predictions" sP thP orderP binDim enforce right)
      (cdfTransform "targets" sT thT orderT binDim enforce right) binDim d sk fair suffix).toMetric agg P T v X)
    (h : ensembleRPS (cdfTransform "predictions" sP thP orderP binDim enforce right)
      (cdfTransform "targets" sT thT orderT binDim enforce right) binDim d sk fair p t = .ok s)
    {cs : Finset (Dim → L)} (E : Evaluated agg s e cs) (hW : GoodWeights agg s cs) {M : (Dim → L) → Finset L}
    {τP τT : (Dim → L) → L → FV K} {x : (Dim → L) → L → K} {y : (Dim → L) → K}
    (H : ∀ c ∈ cs, RPSAt sk thP thT binDim d p t c B (M c) (τP c) (τT c) (x c) (y c)) (hM : ∀ c ∈ cs, 2 ≤ (M c).card) :
    X.val e = .fin (wmean agg s cs (fun c => if fair then rpsFair right B (M c) (τP c) (τT c) (x c) (y c)
      else rpsUnfair right B (M c) (τP c) (τT c) (x c) (y c))) := by
  refine mean_statOfE hP hT ha hb (valueOf_statistic hX) h E hW (fun c hc => ?_)
  cases fair with
  | true => exact C35_fair h (H c hc) (hM c hc)
  | false => exact (C35_unfair h (H c hc) (Finset.card_pos.mp (by have := hM c hc; omega))).1

end

/-! ### The hypotheses are met -/

/-- Two bins with thresholds 1/2 and 3/2. -/
noncomputable def rpsTh : DA ℕ (FV ℝ) := { dims := {"bin"}, coords := fun _ => {0, 1}, val := fun e => FV.fin (e "bin" + 1 / 2) }

noncomputable def rpsP : InputTransform ℕ ℝ := cdfTransform "predictions" "s" rpsTh [0, 1] "bin" true true
noncomputable def rpsT : InputTransform ℕ ℝ := cdfTransform "targets" "s" rpsTh [0, 1] "bin" true true

theorem rpsTh_increasing : increasingAlong "bin" [0, 1] rpsTh := by
  intro e _ q hq
  simp at hq
  subst hq
  simp [rpsTh, setLabel, FV.lt, FV.zero_def]

theorem rps_at (n : ℕ) : RPSAt false rpsTh rpsTh "bin" "number" crpsPred crpsTarget (exCell n) {0, 1} (Finset.range 3)
    (fun b => .fin (b + 1 / 2)) (fun b => .fin (b + 1 / 2)) (fun l => (l : ℝ) + n) 1 where
  ne := by decide
  dimP := by simp [crpsPred]
  dimT := by simp [crpsTarget]
  binP := by simp [crpsPred]
  binT := by simp [crpsTarget]
  thPd := by simp [rpsTh]
  thTd := by simp [rpsTh]
  thPb := by simp [rpsTh]
  thTb := by simp [rpsTh]
  bins := by simp [rpsTh]
  members := fun b _ => ⟨by simp [crpsPred], fun l _ => by simp [crpsPred, setLabel, exCell]⟩
  obs := fun b _ => by simp [crpsTarget]
  valP := fun b _ l _ => by simp [rpsTh, setLabel]
  valT := fun b _ => by simp [rpsTh, setLabel]
  nanP := fun b _ => rfl
  nanT := fun b _ => rfl

theorem rps_cdf (x : StatVar ℕ (FV ℝ)) : ∃ s, computeCdf rpsTh [0, 1] "bin" true true x = .ok s ∧ (x.mask = none → s.mask = none) := by
  unfold computeCdf
  rw [if_neg (by simp [rpsTh_increasing])]
  exact ⟨_, rfl, fun h => by simp [StatVar.zipWith, StatVar.map, h, combineMask]⟩

/-- An ensemble of three members at two points scored on two bins meets the hypotheses of all theorems of C35. -/
example (fair : Bool) : ∃ s X, ensembleRPS rpsP rpsT "bin" "number" false fair crpsPred crpsTarget = .ok s ∧
    Evaluated mAgg s (exCell 0) (({0, 1} : Finset ℕ).image exCell) ∧ GoodWeights mAgg s (({0, 1} : Finset ℕ).image exCell) ∧
    ValueOf (ensembleRPSStatistic rpsP rpsT "bin" "number" false fair "s").toMetric mAgg [("t", crpsPred)] [("t", crpsTarget)] "t" X := by
  obtain ⟨P, hP, mP⟩ := rps_cdf crpsPred
  obtain ⟨T, hT, mT⟩ := rps_cdf crpsTarget
  replace mP := mP rfl
  replace mT := mT rfl
  obtain ⟨c1, c2, c3, c4, c5⟩ := (rps_at 0).coords hP hT
  have xP : "x" ∈ P.arr.dims ∧ P.arr.coords "x" = {0, 1} := by
    rw [(computeCdf_ok hP).1, (computeCdf_ok hP).2]; simp [crpsPred, rpsTh]
  have xT : "x" ∈ T.arr.dims ∧ T.arr.coords "x" = {0, 1} := by
    rw [(computeCdf_ok hT).1, (computeCdf_ok hT).2]; simp [crpsTarget, rpsTh]
  have hr : ∃ r, (if fair then unbiasedMSE "number" false P T = .ok r else
        ∃ Pm Tm, ensembleMeanFn "number" false true P = .ok Pm ∧ ensembleMeanFn "number" false true T = .ok Tm ∧ r = squaredError Pm Tm) ∧
      "bin" ∈ r.arr.dims ∧ "x" ∈ r.arr.dims ∧ r.arr.coords "x" = {0, 1} ∧ r.mask = none := by
    cases fair with
    | true =>
      simp only [if_true]
      unfold unbiasedMSE StatVar.meanDim StatVar.varDim StatVar.sizeDim
      simp only [c3, c4, if_true, if_false, bind, Except.bind, pure, Except.pure]
      refine ⟨_, rfl, ?_, ?_, ?_, ?_⟩
      · simp [StatVar.reduce, StatVar.map, StatVar.zipWith, DA.map, zipWith, c2]
      · simp [StatVar.reduce, StatVar.map, StatVar.zipWith, DA.map, zipWith, xT.1]
      · simp [StatVar.reduce, StatVar.map, StatVar.zipWith, DA.map, zipWith, joinCoords, xT, xP, DA.scalar]
      · simp [StatVar.reduce, StatVar.map, StatVar.zipWith, mP, mT, dropMask, combineMask]
    | false =>
      simp only [Bool.false_eq_true, if_false]
      unfold ensembleMeanFn StatVar.meanDim
      refine ⟨_, ⟨_, _, by rw [if_neg (by simp [c3]), if_pos c3], by rw [if_pos ⟨c4, rfl⟩], rfl⟩, ?_, ?_, ?_, ?_⟩
      · simp [squaredError, StatVar.reduce, StatVar.map, StatVar.zipWith, DA.map, zipWith, c2]
      · simp [squaredError, StatVar.reduce, StatVar.map, StatVar.zipWith, DA.map, zipWith, xT.1]
      · simp [squaredError, StatVar.reduce, StatVar.map, StatVar.zipWith, DA.map, zipWith, joinCoords, xT, xP]
      · simp [squaredError, StatVar.reduce, StatVar.map, StatVar.zipWith, mP, mT, dropMask, combineMask]
  obtain ⟨r, h3, hb, hx, hc, hm⟩ := hr
  have hs : ensembleRPS rpsP rpsT "bin" "number" false fair crpsPred crpsTarget = .ok (r.reduce "bin" (npSum false)) :=
    (ensembleRPS_ok rfl rfl).mpr ⟨P, T, r, hP, hT, h3, by unfold StatVar.nansumDim; rw [if_pos hb]⟩
  have hx' : "x" ∈ (r.reduce "bin" (npSum false)).arr.dims := by simp [StatVar.reduce, hx]
  obtain ⟨q, hq⟩ := exists_aggregate mAgg rfl (r.reduce "bin" (npSum false)) (by simp [mAgg, hx'])
  refine ⟨_, _, hs, crps_plain _ hc (by simp [StatVar.reduce, hm, dropMask]) (fun n => ?_), mAgg_good _ _ (by decide),
    exists_statistic (oneMean_statOfE _ hs hq)⟩
  cases fair with
  | true => rw [C35_fair hs (rps_at n) (by simp)]; rfl
  | false => rw [(C35_unfair hs (rps_at n) (by simp)).1]; rfl

end WBX
