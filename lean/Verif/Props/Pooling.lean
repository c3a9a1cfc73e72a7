import Verif.Spec.Pooling
import Verif.Props.Deterministic
import Verif.Props.Categorical
import Verif.Props.CRPS

/-!
# Property C99: the score of pooled data lies between the scores of its parts
-/

set_option linter.unusedSectionVars false

namespace WBX
open DA Aggregator
variable {L : Type} [DecidableEq L]

section General
variable {K : Type} [Field K] [LinearOrder K] [IsStrictOrderedRing K]

theorem mediant_between {C : Finset L} (hC : C.Nonempty) (N D : L → K) (hD : ∀ l ∈ C, 0 < D l) :
    (∃ l ∈ C, N l / D l ≤ (∑ l ∈ C, N l) / ∑ l ∈ C, D l) ∧ ∃ l ∈ C, (∑ l ∈ C, N l) / (∑ l ∈ C, D l) ≤ N l / D l := by
  have hs : 0 < ∑ l ∈ C, D l := Finset.sum_pos hD hC
  have key : ∑ l ∈ C, (∑ l ∈ C, N l) / (∑ l ∈ C, D l) * D l = ∑ l ∈ C, N l := by
    rw [← Finset.mul_sum, div_mul_cancel₀ _ hs.ne']
  constructor
  · by_contra h
    push Not at h
    have : ∑ l ∈ C, (∑ l ∈ C, N l) / (∑ l ∈ C, D l) * D l < ∑ l ∈ C, N l :=
      Finset.sum_lt_sum_of_nonempty hC (fun l hl => (lt_div_iff₀ (hD l hl)).mp (h l hl))
    exact absurd key this.ne
  · by_contra h
    push Not at h
    have : ∑ l ∈ C, N l < ∑ l ∈ C, (∑ l ∈ C, N l) / (∑ l ∈ C, D l) * D l :=
      Finset.sum_lt_sum_of_nonempty hC (fun l hl => (div_lt_iff₀ (hD l hl)).mp (h l hl))
    exact absurd key this.ne'

/-- A quantity of the cells of `s` that depends on `d` only if `s` has this dimension. -/
def OfCells (s : StatVar L (FV K)) (d : Dim) (f : (Dim → L) → K) : Prop := d ∉ s.arr.dims → ∀ e' l, f (setLabel e' d l) = f e'

variable {agg agg' : Aggregator L (FV K)} {s : StatVar L (FV K)} {d : Dim} {C : Finset L} {e : Dim → L} {cs : L → Finset (Dim → L)} {cs' : Finset (Dim → L)}

theorem Pooled.total (P : Pooled agg agg' s d C e cs cs') : ∑ l ∈ C, ∑ e' ∈ cs l, cellWeight agg s e' = ∑ e' ∈ cs', cellWeight agg' s e' := by
  have := P.sums (fun _ => 1) (fun _ _ _ => rfl)
  simpa using this

/-- The average of the whole is the average of the averages of the parts, weighted with the weights of the parts. -/
theorem Pooled.wmean (P : Pooled agg agg' s d C e cs cs') {f : (Dim → L) → K} (hf : OfCells s d f) :
    wmean agg' s cs' f = (∑ l ∈ C, (∑ e' ∈ cs l, cellWeight agg s e') * WBX.wmean agg s (cs l) f) / ∑ l ∈ C, ∑ e' ∈ cs l, cellWeight agg s e' := by
  unfold WBX.wmean
  rw [P.total, ← P.sums f hf]
  congr 1
  refine Finset.sum_congr rfl (fun l hl => ?_)
  rw [mul_div_cancel₀ _ (P.weights l hl).2.ne']

theorem Pooled.ratio (P : Pooled agg agg' s d C e cs cs') {f g : (Dim → L) → K} (hf : OfCells s d f) (hg : OfCells s d g)
    (hpos : ∀ l ∈ C, 0 < WBX.wmean agg s (cs l) g) : 0 < WBX.wmean agg' s cs' g ∧
      (∃ l ∈ C, WBX.wmean agg s (cs l) f / WBX.wmean agg s (cs l) g ≤ WBX.wmean agg' s cs' f / WBX.wmean agg' s cs' g) ∧
      ∃ l ∈ C, WBX.wmean agg' s cs' f / WBX.wmean agg' s cs' g ≤ WBX.wmean agg s (cs l) f / WBX.wmean agg s (cs l) g := by
  have hW : ∀ l ∈ C, 0 < ∑ e' ∈ cs l, cellWeight agg s e' := fun l hl => (P.weights l hl).2
  have hT : 0 < ∑ l ∈ C, ∑ e' ∈ cs l, cellWeight agg s e' := Finset.sum_pos hW P.nonempty
  have hm := mediant_between P.nonempty (fun l => (∑ e' ∈ cs l, cellWeight agg s e') * WBX.wmean agg s (cs l) f)
    (fun l => (∑ e' ∈ cs l, cellWeight agg s e') * WBX.wmean agg s (cs l) g) (fun l hl => mul_pos (hW l hl) (hpos l hl))
  have hr : WBX.wmean agg' s cs' f / WBX.wmean agg' s cs' g =
      (∑ l ∈ C, (∑ e' ∈ cs l, cellWeight agg s e') * WBX.wmean agg s (cs l) f) / ∑ l ∈ C, (∑ e' ∈ cs l, cellWeight agg s e') * WBX.wmean agg s (cs l) g := by
    rw [P.wmean hf, P.wmean hg, div_div_div_cancel_right₀ hT.ne']
  rw [hr]
  refine ⟨?_, ?_, ?_⟩
  · rw [P.wmean hg]
    exact div_pos (Finset.sum_pos (fun l hl => mul_pos (hW l hl) (hpos l hl)) P.nonempty) hT
  · obtain ⟨l, hl, h⟩ := hm.1
    refine ⟨l, hl, ?_⟩
    rwa [mul_div_mul_left _ _ (hW l hl).ne'] at h
  · obtain ⟨l, hl, h⟩ := hm.2
    refine ⟨l, hl, ?_⟩
    rwa [mul_div_mul_left _ _ (hW l hl).ne'] at h

theorem wmean_one_of {agg : Aggregator L (FV K)} {s : StatVar L (FV K)} {cs : Finset (Dim → L)} (hW : GoodWeights agg s cs) : WBX.wmean agg s cs (fun _ => 1) = 1 := by
  unfold WBX.wmean
  simp only [one_mul]
  exact div_self hW.2.ne'

/-- Results that are a monotone function of an average. -/
theorem Pooled.between (P : Pooled agg agg' s d C e cs cs') {f : (Dim → L) → K} (hf : OfCells s d f) (φ : K → K) (hφ : Monotone φ) {x x' : DA L (FV K)}
    (hx : ∀ l ∈ C, x.val (setLabel e d l) = FV.fin (φ (WBX.wmean agg s (cs l) f))) (hx' : x'.val e = FV.fin (φ (WBX.wmean agg' s cs' f))) : Between x x' d C e := by
  have h1 : ∀ l ∈ C, WBX.wmean agg s (cs l) (fun _ => (1 : K)) = 1 := fun l hl => wmean_one_of (P.weights l hl)
  obtain ⟨-, ⟨l, hl, h2⟩, l', hl', h3⟩ := P.ratio hf (g := fun _ => 1) (fun _ _ _ => rfl) (fun l hl => by rw [h1 l hl]; exact one_pos)
  rw [h1 l hl, wmean_one_of P.weight, div_one, div_one] at h2
  rw [h1 l' hl', wmean_one_of P.weight, div_one, div_one] at h3
  exact ⟨fun l => φ (WBX.wmean agg s (cs l) f), φ (WBX.wmean agg' s cs' f), hx, hx', ⟨l, hl, hφ h2⟩, l', hl', hφ h3⟩

/-- Results that are a quotient of averages. -/
theorem Pooled.between_ratio (P : Pooled agg agg' s d C e cs cs') {f g : (Dim → L) → K} (hf : OfCells s d f) (hg : OfCells s d g)
    (hpos : ∀ l ∈ C, 0 < WBX.wmean agg s (cs l) g) (φ : K → K) (hφ : Monotone φ) {x x' : DA L (FV K)}
    (hx : ∀ l ∈ C, x.val (setLabel e d l) = FV.fin (φ (WBX.wmean agg s (cs l) f / WBX.wmean agg s (cs l) g)))
    (hx' : x'.val e = FV.fin (φ (WBX.wmean agg' s cs' f / WBX.wmean agg' s cs' g))) : Between x x' d C e := by
  obtain ⟨-, ⟨l, hl, h2⟩, l', hl', h3⟩ := P.ratio hf hg hpos
  exact ⟨fun l => φ (WBX.wmean agg s (cs l) f / WBX.wmean agg s (cs l) g), _, hx, hx', ⟨l, hl, hφ h2⟩, l', hl', hφ h3⟩

/-! ## The two ways to pool -/

/-- **C99** Averaging over one more dimension `d` pools the parts `d = l`. -/
theorem C99_dimension (hd : d ∉ agg.reduceDims) (hC : (s.arr.coords d).Nonempty) (hE : ∀ l ∈ s.arr.coords d, Evaluated agg s (setLabel e d l) (cs l))
    (hW : ∀ l ∈ s.arr.coords d, GoodWeights agg s (cs l)) : ∃ cs', Pooled agg (agg.alsoOver d) s d (s.arr.coords d) e cs cs' := by
  classical
  have hlab : ∀ l ∈ s.arr.coords d, ∀ e' ∈ cs l, e' d = l := fun l hl e' he' => by
    rw [(((hE l hl).cells e').mp he').1.2 d hd, setLabel_same]
  have hdisj : Set.PairwiseDisjoint (s.arr.coords d : Set L) cs := by
    intro l hl l' hl' hne
    rw [Function.onFun, Finset.disjoint_left]
    intro e' h1 h2
    exact hne ((hlab l hl e' h1).symm.trans (hlab l' hl' e' h2))
  have hcw : ∀ e', cellWeight (agg.alsoOver d) s e' = cellWeight agg s e' := fun _ => rfl
  have hsum : ∀ f : (Dim → L) → K, ∑ l ∈ s.arr.coords d, ∑ e' ∈ cs l, f e' * cellWeight agg s e' =
      ∑ e' ∈ (s.arr.coords d).biUnion cs, f e' * cellWeight (agg.alsoOver d) s e' := fun f => by
    rw [Finset.sum_biUnion hdisj]
    rfl
  obtain ⟨l0, hl0⟩ := hC
  have E0 := hE l0 hl0
  refine ⟨(s.arr.coords d).biUnion cs, ⟨l0, hl0⟩, hE, hW, ⟨E0.coordOnly, E0.covers, E0.maskOk, E0.weightsFinite, ?_, ?_⟩, ⟨?_, ?_⟩, fun f _ => hsum f⟩
  · intro e'
    rw [Finset.mem_biUnion]
    have hcount : counted (agg.alsoOver d) s e' = counted agg s e' := rfl
    rw [hcount]
    have hred : (agg.alsoOver d).reduceDims = agg.reduceDims ++ [d] := rfl
    rw [hred]
    constructor
    · rintro ⟨l, hl, he'⟩
      obtain ⟨⟨h1, h2⟩, h3⟩ := ((hE l hl).cells e').mp he'
      refine ⟨⟨fun k hk => ?_, fun k hk => ?_⟩, h3⟩
      · rcases List.mem_append.mp hk with hk | hk
        · exact h1 k hk
        · rw [List.mem_singleton.mp hk, hlab l hl e' he']; exact hl
      · rw [List.mem_append, not_or, List.mem_singleton] at hk
        rw [h2 k hk.1, setLabel_other e hk.2]
    · rintro ⟨⟨h1, h2⟩, h3⟩
      have hl : e' d ∈ s.arr.coords d := h1 d (by simp)
      refine ⟨e' d, hl, ((hE _ hl).cells e').mpr ⟨⟨fun k hk => h1 k (List.mem_append_left _ hk), fun k hk => ?_⟩, h3⟩⟩
      by_cases hkd : k = d
      · rw [hkd, setLabel_same]
      · rw [setLabel_other e hkd, h2 k (by simp [hk, hkd])]
  · intro e' he'
    obtain ⟨l, hl, he'⟩ := Finset.mem_biUnion.mp he'
    exact (hE l hl).finite e' he'
  · intro e' he'
    obtain ⟨l, hl, he'⟩ := Finset.mem_biUnion.mp he'
    exact (hW l hl).1 e' he'
  · have := hsum (fun _ => 1)
    simp only [one_mul] at this
    rw [← this]
    exact Finset.sum_pos (fun l hl => (hW l hl).2) ⟨l0, hl0⟩

theorem setLabel_setLabel' (e : Dim → L) (d : Dim) (l l' : L) : setLabel (setLabel e d l) d l' = setLabel e d l' := by
  funext k
  unfold setLabel
  by_cases h : k = d <;> simp [h]

open Classical in
/-- **C99** Leaving out a binning `b` pools its bins, if the values of its mask add up to 1 at each cell (in particular if each cell is in exactly one bin), nothing else involves the bin
dimension, and each bin has positive weight. -/
theorem C99_bins {pre post : List (BinBy L (FV K))} {b : BinBy L (FV K)} (hbins : agg.binBy = pre ++ b :: post) (hB : b.binDim ∉ agg.reduceDims)
    (hs : b.binDim ∉ s.arr.dims) (hwf : s.arr.WF) (hmwf : ∀ m, s.mask = some m → m.WF) (hco : agg.CoordOnly)
    (hcov : CoversLabels (b.createBinMask s.arr) s.arr) (hfin : ∀ e', ((b.createBinMask s.arr).val e').isFin = true)
    (hother : ∀ m ∈ ({ agg with binBy := pre ++ post } : Aggregator L (FV K)).allFactors s.arr, m.WF ∧ b.binDim ∉ m.dims)
    (E : Evaluated { agg with binBy := pre ++ post } s e cs') (hW : GoodWeights { agg with binBy := pre ++ post } s cs')
    (hpart : ∀ e' ∈ cs', ∑ l ∈ (b.createBinMask s.arr).coords b.binDim, ((b.createBinMask s.arr).val (setLabel e' b.binDim l)).num = 1)
    (hWp : ∀ l ∈ (b.createBinMask s.arr).coords b.binDim, GoodWeights agg s (cs'.image (fun e' => setLabel e' b.binDim l))) :
    Pooled agg { agg with binBy := pre ++ post } s b.binDim ((b.createBinMask s.arr).coords b.binDim) e (fun l => cs'.image (fun e' => setLabel e' b.binDim l)) cs' := by
  set agg' : Aggregator L (FV K) := { agg with binBy := pre ++ post } with hagg'
  have hperm : (agg.allFactors s.arr).Perm (b.createBinMask s.arr :: agg'.allFactors s.arr) := by
    unfold allFactors
    rw [hbins]
    simp only [List.map_append, List.map_cons, hagg']
    refine List.Perm.trans ?_ (List.perm_middle (a := b.createBinMask s.arr) (l₁ := agg.weighBy.map (fun w => w s.arr)))
    exact List.Perm.append_left _ List.perm_middle
  have hv : ∀ e' l, s.arr.val (setLabel e' b.binDim l) = s.arr.val e' := fun e' l => hwf _ _ (fun k hk => setLabel_other e' (fun h : k = b.binDim => hs (h ▸ hk)) l)
  have hcount : ∀ e' l, counted agg s (setLabel e' b.binDim l) = counted agg' s e' := by
    intro e' l
    unfold counted
    rw [hv]
    show ((match agg.masked, s.mask with
      | true, some m => m.val (setLabel e' b.binDim l)
      | _, _ => true) && _) = ((match agg.masked, s.mask with
      | true, some m => m.val e'
      | _, _ => true) && _)
    rcases agg.masked with _ | _
    · rfl
    · rcases hm : s.mask with _ | m
      · rfl
      · have hk : m.val (setLabel e' b.binDim l) = m.val e' :=
          hmwf m hm _ _ (fun k hk => setLabel_other e' (fun h : k = b.binDim => hs (h ▸ (E.maskOk m hm).1 hk)) l)
        simp only [hk]
        rfl
  have hcw : ∀ e' l, cellWeight agg s (setLabel e' b.binDim l) = ((b.createBinMask s.arr).val (setLabel e' b.binDim l)).num * cellWeight agg' s e' := by
    intro e' l
    unfold cellWeight
    rw [(hperm.map (fun m => (m.val (setLabel e' b.binDim l)).num)).prod_eq, List.map_cons, List.prod_cons]
    congr 2
    refine List.map_congr_left (fun m hm => ?_)
    obtain ⟨h1, h2⟩ := hother m hm
    rw [h1 _ _ (fun k hk => setLabel_other e' (fun h : k = b.binDim => h2 (h ▸ hk)) l)]
  have hsame : ∀ e' ∈ cs', setLabel e' b.binDim (e b.binDim) = e' := by
    intro e' he'
    funext k
    unfold setLabel
    by_cases hk : k = b.binDim
    · rw [if_pos hk, hk, ((E.cells e').mp he').1.2 b.binDim hB]
    · rw [if_neg hk]
  have hinj : ∀ l, Set.InjOn (fun e' => setLabel e' b.binDim l) (cs' : Set (Dim → L)) := by
    intro l x hx y hy h
    have : setLabel (setLabel x b.binDim l) b.binDim (e b.binDim) = setLabel (setLabel y b.binDim l) b.binDim (e b.binDim) := by rw [show setLabel x b.binDim l = setLabel y b.binDim l from h]
    rwa [setLabel_setLabel', setLabel_setLabel', hsame x hx, hsame y hy] at this
  have hne : ((b.createBinMask s.arr).coords b.binDim).Nonempty := by
    have hcs : cs'.Nonempty := by
      by_contra h
      rw [Finset.not_nonempty_iff_eq_empty] at h
      have := hW.2
      rw [h, Finset.sum_empty] at this
      exact absurd this (lt_irrefl _)
    obtain ⟨e', he'⟩ := hcs
    by_contra h
    rw [Finset.not_nonempty_iff_eq_empty] at h
    have := hpart e' he'
    rw [h, Finset.sum_empty] at this
    exact zero_ne_one this
  refine ⟨hne, fun l hl => ⟨hco, ?_, E.maskOk, ?_, ?_, ?_⟩, hWp, E, hW, ?_⟩
  · intro m hm
    rcases List.mem_cons.mp (hperm.mem_iff.mp hm) with rfl | hm
    · exact hcov
    · exact E.covers m hm
  · intro m hm
    rcases List.mem_cons.mp (hperm.mem_iff.mp hm) with rfl | hm
    · exact hfin
    · exact E.weightsFinite m hm
  · intro e''
    rw [Finset.mem_image]
    constructor
    · rintro ⟨e', he', rfl⟩
      obtain ⟨⟨h1, h2⟩, h3⟩ := (E.cells e').mp he'
      refine ⟨⟨fun k hk => ?_, fun k hk => ?_⟩, by rw [hcount]; exact h3⟩
      · rw [setLabel_other e' (fun h : k = b.binDim => hB (h ▸ hk))]; exact h1 k hk
      · unfold setLabel
        by_cases hkb : k = b.binDim
        · simp [hkb]
        · simp only [hkb, if_false]; exact h2 k hk
    · rintro ⟨⟨h1, h2⟩, h3⟩
      have hl' : e'' b.binDim = l := by rw [h2 _ hB, setLabel_same]
      have hback : setLabel (setLabel e'' b.binDim (e b.binDim)) b.binDim l = e'' := by
        rw [setLabel_setLabel']
        funext k
        unfold setLabel
        by_cases hkb : k = b.binDim
        · rw [if_pos hkb, hkb, hl']
        · rw [if_neg hkb]
      refine ⟨setLabel e'' b.binDim (e b.binDim), (E.cells _).mpr ⟨⟨fun k hk => ?_, fun k hk => ?_⟩, ?_⟩, hback⟩
      · rw [setLabel_other e'' (fun h : k = b.binDim => hB (h ▸ hk))]; exact h1 k hk
      · by_cases hkb : k = b.binDim
        · rw [hkb, setLabel_same]
        · rw [setLabel_other e'' hkb, h2 k hk, setLabel_other e hkb]
      · rw [← hcount _ l, hback]; exact h3
  · intro e'' he''
    obtain ⟨e', he', rfl⟩ := Finset.mem_image.mp he''
    rw [hv]; exact E.finite e' he'
  · intro f hf
    have h1 : ∀ l, ∑ e'' ∈ cs'.image (fun e' => setLabel e' b.binDim l), f e'' * cellWeight agg s e'' =
        ∑ e' ∈ cs', f e' * cellWeight agg' s e' * ((b.createBinMask s.arr).val (setLabel e' b.binDim l)).num := by
      intro l
      rw [Finset.sum_image (hinj l)]
      refine Finset.sum_congr rfl (fun e' _ => ?_)
      rw [hcw, hf hs]
      ring
    simp only [h1]
    rw [Finset.sum_comm]
    refine Finset.sum_congr rfl (fun e' he' => ?_)
    rw [← Finset.mul_sum, hpart e' he', mul_one]

/-! ## Averages -/

theorem IsStatistic.mean {st : FStatistic L K} {p t : Vars (StatVar L (FV K))} {v : String} (hs : IsStatistic st p t v s) {A : Aggregator L (FV K)} {y : DA L (FV K)}
    (h : IsMeanOf A p t v st y) {e : Dim → L} {cs : Finset (Dim → L)} (E : Evaluated A s e cs) (hW : GoodWeights A s cs) :
    y.val e = FV.fin (WBX.wmean A s cs (fun e' => (s.arr.val e').num)) := by
  obtain ⟨vars, hc, hn, hm⟩ := hs
  obtain ⟨vars', s', q, g1, g2, g3, rfl⟩ := h
  rw [hc, Except.ok.injEq] at g1
  subst g1
  have : some s' = some s := by
    have e1 := (pyGet?_eq_some hn _ _).mpr g2
    have e2 := (pyGet?_eq_some hn _ _).mpr hm
    rw [e1, Option.some.injEq] at e2
    exact e2
  rw [Option.some.injEq] at this
  subst this
  exact evaluated_mean E g3 hW.2.ne'

theorem ofCells_num (hwf : s.arr.WF) : OfCells s d (fun e' => (s.arr.val e').num) := fun hd e' l => by
  show (s.arr.val (setLabel e' d l)).num = _
  rw [hwf _ e' (fun k hk => setLabel_other e' (fun h : k = d => hd (h ▸ hk)) l)]

/-- **C99** A statistic used as a metric (bias, MAE, MSE, Brier score, SEEPS, ...): the result of the whole is the average of the results of the parts, weighted with the weights of the
parts, and so lies between them. -/
theorem C99_average {st : FStatistic L K} {p t : Vars (StatVar L (FV K))} {v : String} (hs : IsStatistic st p t v s) (hwf : s.arr.WF) (P : Pooled agg agg' s d C e cs cs')
    {x x' : DA L (FV K)} (h : ValueOf st.toMetric agg p t v x) (h' : ValueOf st.toMetric agg' p t v x') :
    Between x x' d C e ∧ ∃ r : L → K, (∀ l ∈ C, x.val (setLabel e d l) = .fin (r l)) ∧
      x'.val e = .fin ((∑ l ∈ C, (∑ e' ∈ cs l, cellWeight agg s e') * r l) / ∑ l ∈ C, ∑ e' ∈ cs l, cellWeight agg s e') := by
  have hf := ofCells_num (d := d) hwf
  have hx := fun l (hl : l ∈ C) => hs.mean (valueOf_statistic h) (P.parts l hl) (P.weights l hl)
  have hx' := hs.mean (valueOf_statistic h') P.whole P.weight
  refine ⟨P.between hf id monotone_id hx hx', fun l => WBX.wmean agg s (cs l) (fun e' => (s.arr.val e').num), hx, ?_⟩
  rw [hx', P.wmean hf]

end General
end WBX
