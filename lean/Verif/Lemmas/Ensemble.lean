import Verif.Spec.Ensemble
import Verif.Lemmas.MetricN
import Verif.Props.Mean
import Verif.Lemmas.WMean
import Mathlib.Algebra.BigOperators.Field
import Mathlib.Algebra.Order.BigOperators.Group.Finset
import Mathlib.Tactic.Abel

/-! # Ensemble statistics -/

set_option linter.unusedSectionVars false

namespace WBX
open DA Classical
variable {L K : Type} [DecidableEq L] [Field K] [LinearOrder K] [IsStrictOrderedRing K]

/-! ### Statistics that may raise -/

theorem statOfE_mem {name : String} {f : StatVar L (FV K) → StatVar L (FV K) → Except Err (StatVar L (FV K))}
    {p t : Vars (StatVar L (FV K))} (hp : (p.map Prod.fst).Nodup) (ht : (t.map Prod.fst).Nodup) {v : String} {a b : StatVar L (FV K)}
    (ha : (v, a) ∈ p) (hb : (v, b) ∈ t) {vars} (hc : (statOfE name f).compute p t = .ok vars) {s : StatVar L (FV K)}
    (hs : (v, some s) ∈ vars) : f a b = .ok s := by
  obtain ⟨-, h⟩ := C21_statistic name (fun p t => (do let s ← f p t; return some (some s) : Except Err _)) p t hp ht vars hc
  obtain ⟨a', b', h1, h2, h3⟩ := (h v (some s)).mp hs
  have e1 := (pyGet?_eq_some hp v a).mpr ha
  have e2 := (pyGet?_eq_some hp v a').mpr h1
  rw [e1, Option.some.injEq] at e2
  have e3 := (pyGet?_eq_some ht v b).mpr hb
  have e4 := (pyGet?_eq_some ht v b').mpr h2
  rw [e3, Option.some.injEq] at e4
  subst e2 e4
  cases hf : f a b with
  | error => rw [hf] at h3; simp [bind, Except.bind] at h3
  | ok s' =>
    rw [hf] at h3
    simp only [bind, Except.bind, pure, Except.pure, Except.ok.injEq, Option.some.injEq] at h3
    rw [h3]

theorem isMeanOf_statOfE {name : String} {f : StatVar L (FV K) → StatVar L (FV K) → Except Err (StatVar L (FV K))}
    {p t : Vars (StatVar L (FV K))} (hp : (p.map Prod.fst).Nodup) (ht : (t.map Prod.fst).Nodup) {v : String} {a b : StatVar L (FV K)}
    (ha : (v, a) ∈ p) (hb : (v, b) ∈ t) {agg : Aggregator L (FV K)} {y : DA L (FV K)}
    (h : IsMeanOf agg p t v (statOfE name f) y) :
    ∃ s q, f a b = .ok s ∧ agg.aggregateStatVar s = .ok (some q) ∧ y = DA.zipWith (· / ·) q.1 q.2 := by
  obtain ⟨vars, s, q, h1, h2, h3, h4⟩ := h
  exact ⟨s, q, statOfE_mem hp ht ha hb h1 h2, h3, h4⟩

theorem oneMean_statOfE (name : String) {f : StatVar L (FV K) → StatVar L (FV K) → Except Err (StatVar L (FV K))}
    {agg : Aggregator L (FV K)} {v : String} {a b s : StatVar L (FV K)} (hf : f a b = .ok s) {q}
    (hq : agg.aggregateStatVar s = .ok (some q)) :
    OneMean agg [(v, a)] [(v, b)] v (statOfE name f) (DA.zipWith (· / ·) q.1 q.2) := by
  refine ⟨s, q, ?_, hq, rfl⟩
  simp [statOfE, perVariableStatistic, perVariableLoop, pyGet?, bind, Except.bind, pure, Except.pure, hf]

/-- The mean of a statistic evaluated at `e`. -/
theorem mean_statOfE {name : String} {f : StatVar L (FV K) → StatVar L (FV K) → Except Err (StatVar L (FV K))}
    {p t : Vars (StatVar L (FV K))} (hp : (p.map Prod.fst).Nodup) (ht : (t.map Prod.fst).Nodup) {v : String} {a b s : StatVar L (FV K)}
    (ha : (v, a) ∈ p) (hb : (v, b) ∈ t) {agg : Aggregator L (FV K)} {y : DA L (FV K)} (h : IsMeanOf agg p t v (statOfE name f) y)
    (hf : f a b = .ok s) {e : Dim → L} {cs : Finset (Dim → L)} (E : Evaluated agg s e cs) (hW : GoodWeights agg s cs)
    {g : (Dim → L) → K} (hg : ∀ e' ∈ cs, s.arr.val e' = FV.fin (g e')) : y.val e = FV.fin (wmean agg s cs g) := by
  obtain ⟨s', q, h1, h2, rfl⟩ := isMeanOf_statOfE hp ht ha hb h
  rw [hf, Except.ok.injEq] at h1
  subst h1
  rw [evaluated_mean E h2 hW.2.ne']
  congr 1
  exact wmean_congr' (fun e' he' => by rw [hg e' he']; rfl)

/-! ### Reductions -/

theorem setLabel_same (e : Dim → L) (d : Dim) (l : L) : setLabel e d l d = l := by simp [setLabel]
theorem setLabel_other (e : Dim → L) {d d' : Dim} (h : d' ≠ d) (l : L) : setLabel e d l d' = e d' := by simp [setLabel, h]
theorem setLabel_twice (e : Dim → L) (d : Dim) (l l' : L) : setLabel (setLabel e d l) d l' = setLabel e d l' := by
  funext k; by_cases h : k = d <;> simp [setLabel, h]
theorem setLabel_comm (e : Dim → L) {d d' : Dim} (h : d ≠ d') (l l' : L) :
    setLabel (setLabel e d l) d' l' = setLabel (setLabel e d' l') d l := by
  funext k; by_cases h1 : k = d <;> by_cases h2 : k = d' <;> simp_all [setLabel]

theorem present_false (C : Finset L) (x : L → FV K) : present false C x = C := rfl

theorem present_of_fin {sk : Bool} {C : Finset L} {x : L → FV K} {y : L → K} (h : ∀ l ∈ C, x l = .fin (y l)) : present sk C x = C := by
  unfold present
  split
  · exact Finset.filter_true_of_mem (fun l hl => by rw [h l hl]; rfl)
  · rfl

theorem present_true {C M : Finset L} {x : L → FV K} (hM : M ⊆ C) (h1 : ∀ l ∈ M, (x l).isnan = false)
    (h2 : ∀ l ∈ C, l ∉ M → (x l).isnan = true) : present true C x = M := by
  unfold present
  rw [if_pos rfl]
  ext l
  rw [Finset.mem_filter]
  constructor
  · rintro ⟨hl, hn⟩
    by_contra hM'
    rw [h2 l hl hM'] at hn
    exact absurd hn (by simp)
  · exact fun hl => ⟨hM hl, h1 l hl⟩

theorem npSum_fin {sk : Bool} {C : Finset L} {x : L → FV K} {y : L → K} (h : ∀ l ∈ C, x l = .fin (y l)) :
    npSum sk C x = FV.fin (∑ l ∈ C, y l) := by
  unfold npSum
  rw [present_of_fin h]
  exact FV.sum_fin _ _ _ h

theorem npSum_present {C M : Finset L} {x : L → FV K} {y : L → K} (hM : M ⊆ C) (h1 : ∀ l ∈ M, x l = .fin (y l))
    (h2 : ∀ l ∈ C, l ∉ M → x l = .nan) : npSum true C x = FV.fin (∑ l ∈ M, y l) := by
  unfold npSum
  rw [present_true hM (fun l hl => by rw [h1 l hl]; rfl) (fun l hl hl' => by rw [h2 l hl hl']; rfl)]
  exact FV.sum_fin _ _ _ h1

theorem npMean_fin {sk : Bool} {C : Finset L} {x : L → FV K} {y : L → K} (h : ∀ l ∈ C, x l = .fin (y l)) (hC : C.Nonempty) :
    npMean sk C x = FV.fin (eMean C y) := by
  unfold npMean
  rw [npSum_fin h, present_of_fin h]
  unfold FV.ofNat
  rw [FV.fin_div_fin_of_ne _ (by exact_mod_cast hC.card_pos.ne')]
  rfl

theorem npMean_present {C M : Finset L} {x : L → FV K} {y : L → K} (hM : M ⊆ C) (h1 : ∀ l ∈ M, x l = .fin (y l))
    (h2 : ∀ l ∈ C, l ∉ M → x l = .nan) (hn : M.Nonempty) : npMean true C x = FV.fin (eMean M y) := by
  unfold npMean
  rw [npSum_present hM h1 h2, present_true hM (fun l hl => by rw [h1 l hl]; rfl) (fun l hl hl' => by rw [h2 l hl hl']; rfl)]
  unfold FV.ofNat
  rw [FV.fin_div_fin_of_ne _ (by exact_mod_cast hn.card_pos.ne')]
  rfl

theorem card_sub_one_ne {M : Finset L} (h : 2 ≤ M.card) : ((M.card - 1 : ℕ) : K) ≠ 0 := by
  have : M.card - 1 ≠ 0 := by omega
  exact_mod_cast this

theorem npVar1_fin {sk : Bool} {C : Finset L} {x : L → FV K} {y : L → K} (h : ∀ l ∈ C, x l = .fin (y l)) (hC : 2 ≤ C.card) :
    npVar1 sk C x = FV.fin (eVar C y) := by
  have hne : C.Nonempty := Finset.card_pos.mp (by omega)
  unfold npVar1
  rw [npMean_fin h hne, npSum_fin (y := fun l => (y l - eMean C y) ^ 2) (fun l hl => by rw [h l hl]; simp [FV.sq, pow_two]),
    present_of_fin h]
  unfold FV.ofNat
  rw [FV.fin_div_fin_of_ne _ (card_sub_one_ne hC)]
  unfold eVar
  rw [Nat.cast_sub (by omega)]
  simp

theorem npVar1_present {C M : Finset L} {x : L → FV K} {y : L → K} (hM : M ⊆ C) (h1 : ∀ l ∈ M, x l = .fin (y l))
    (h2 : ∀ l ∈ C, l ∉ M → x l = .nan) (hn : 2 ≤ M.card) : npVar1 true C x = FV.fin (eVar M y) := by
  have hne : M.Nonempty := Finset.card_pos.mp (by omega)
  unfold npVar1
  rw [npMean_present hM h1 h2 hne, npSum_present (y := fun l => (y l - eMean M y) ^ 2) hM
    (fun l hl => by rw [h1 l hl]; simp [FV.sq, pow_two]) (fun l hl hl' => by rw [h2 l hl hl']; simp [FV.sq]),
    present_true hM (fun l hl => by rw [h1 l hl]; rfl) (fun l hl hl' => by rw [h2 l hl hl']; rfl)]
  unfold FV.ofNat
  rw [FV.fin_div_fin_of_ne _ (card_sub_one_ne hn)]
  unfold eVar
  rw [Nat.cast_sub (by omega)]
  simp

theorem npSum_nan {C : Finset L} {x : L → FV K} {l : L} (hl : l ∈ C) (h : x l = .nan) : npSum false C x = FV.nan := by
  unfold npSum
  rw [present_false]
  exact FV.sum_nan _ _ l hl h

/-! ### The rank form of the mean absolute difference -/

/-- Ranks `1..n`, nondecreasing in the value. -/
structure IsRank (M : Finset L) (x : L → K) (r : L → ℕ) : Prop where
  inj : Set.InjOn r M
  range : M.image r = Finset.Icc 1 M.card
  mono : ∀ i ∈ M, ∀ j ∈ M, r i < r j → x i ≤ x j

theorem rank_count {M : Finset L} {x : L → K} {r : L → ℕ} (h : IsRank M x r) {i : L} (hi : i ∈ M) :
    ∑ j ∈ M, (if r j < r i then (1 : K) else if r i < r j then -1 else 0) = 2 * r i - M.card - 1 := by
  have h1 : (M.filter (fun j => r j < r i)).card = r i - 1 := by
    rw [← Finset.card_image_of_injOn (h.inj.mono (by exact_mod_cast Finset.filter_subset _ _))]
    have : (M.filter (fun j => r j < r i)).image r = Finset.Ico 1 (r i) := by
      ext k
      simp only [Finset.mem_image, Finset.mem_filter, Finset.mem_Ico]
      constructor
      · rintro ⟨j, ⟨hj, hlt⟩, rfl⟩
        have : r j ∈ M.image r := Finset.mem_image_of_mem _ hj
        rw [h.range, Finset.mem_Icc] at this
        exact ⟨this.1, hlt⟩
      · rintro ⟨h1, h2⟩
        have hri : r i ∈ M.image r := Finset.mem_image_of_mem _ hi
        rw [h.range, Finset.mem_Icc] at hri
        have : k ∈ M.image r := by rw [h.range, Finset.mem_Icc]; omega
        obtain ⟨j, hj, rfl⟩ := Finset.mem_image.mp this
        exact ⟨j, ⟨hj, h2⟩, rfl⟩
    rw [this]; simp
  have h2 : (M.filter (fun j => r i < r j)).card = M.card - r i := by
    rw [← Finset.card_image_of_injOn (h.inj.mono (by exact_mod_cast Finset.filter_subset _ _))]
    have : (M.filter (fun j => r i < r j)).image r = Finset.Ioc (r i) M.card := by
      ext k
      simp only [Finset.mem_image, Finset.mem_filter, Finset.mem_Ioc]
      constructor
      · rintro ⟨j, ⟨hj, hlt⟩, rfl⟩
        have : r j ∈ M.image r := Finset.mem_image_of_mem _ hj
        rw [h.range, Finset.mem_Icc] at this
        exact ⟨hlt, this.2⟩
      · rintro ⟨h1, h2⟩
        have : k ∈ M.image r := by rw [h.range, Finset.mem_Icc]; omega
        obtain ⟨j, hj, rfl⟩ := Finset.mem_image.mp this
        exact ⟨j, ⟨hj, h1⟩, rfl⟩
    rw [this]; simp
  have hri : r i ∈ M.image r := Finset.mem_image_of_mem _ hi
  rw [h.range, Finset.mem_Icc] at hri
  have split : ∀ j ∈ M, (if r j < r i then (1 : K) else if r i < r j then -1 else 0) =
      (if r j < r i then (1 : K) else 0) - (if r i < r j then 1 else 0) := by
    intro j _
    by_cases h1 : r j < r i
    · have h2 : ¬ r i < r j := by omega
      simp [h1, h2]
    · by_cases h2 : r i < r j <;> simp [h1, h2]
  rw [Finset.sum_congr rfl split, Finset.sum_sub_distrib, ← Finset.sum_filter, ← Finset.sum_filter]
  simp only [Finset.sum_const, nsmul_eq_mul, mul_one]
  rw [h1, h2, Nat.cast_sub hri.1, Nat.cast_sub hri.2]
  push_cast
  ring

/-- Zamo & Naveau: the sum of all absolute differences from the ranks. -/
theorem rank_spread {M : Finset L} {x : L → K} {r : L → ℕ} (h : IsRank M x r) :
    ∑ i ∈ M, ∑ j ∈ M, |x i - x j| = 2 * ∑ i ∈ M, (2 * r i - M.card - 1) * x i := by
  let s : L → L → K := fun i j => if r j < r i then (1 : K) else if r i < r j then -1 else 0
  have hanti : ∀ i j, s j i = - s i j := by
    intro i j
    simp only [s]
    by_cases h1 : r j < r i
    · have h2 : ¬ r i < r j := by omega
      simp [h1, h2]
    · by_cases h2 : r i < r j <;> simp [h1, h2]
  have habs : ∀ i ∈ M, ∀ j ∈ M, |x i - x j| = s i j * x i - s i j * x j := by
    intro i hi j hj
    simp only [s]
    rcases lt_trichotomy (r j) (r i) with hlt | heq | hlt
    · rw [if_pos hlt, abs_of_nonneg (sub_nonneg.mpr (h.mono j hj i hi hlt))]; ring
    · rw [h.inj hj hi heq]; simp
    · rw [if_neg (by omega), if_pos hlt, abs_of_nonpos (sub_nonpos.mpr (h.mono i hi j hj hlt))]; ring
  have e1 : ∑ i ∈ M, ∑ j ∈ M, s i j * x i = ∑ i ∈ M, (2 * r i - M.card - 1) * x i := by
    refine Finset.sum_congr rfl (fun i hi => ?_)
    rw [← Finset.sum_mul, rank_count h hi]
  have e2 : ∑ i ∈ M, ∑ j ∈ M, s i j * x j = - ∑ i ∈ M, ∑ j ∈ M, s i j * x i := by
    rw [Finset.sum_comm, ← Finset.sum_neg_distrib]
    refine Finset.sum_congr rfl (fun i _ => ?_)
    rw [← Finset.sum_neg_distrib]
    refine Finset.sum_congr rfl (fun j _ => ?_)
    rw [hanti]; ring
  rw [Finset.sum_congr rfl (fun i hi => Finset.sum_congr rfl (fun j hj => habs i hi j hj))]
  simp only [Finset.sum_sub_distrib]
  rw [e2, e1]
  ring

/-- The ranks computed by `_rankdata` from any argsort, for members listed in any order. -/
theorem isRank_rankdata {argsort : List (FV K) → List ℕ} (ha : IsArgsort argsort) {order : List L} (ho : order.Nodup)
    {M : Finset L} (hM : order.toFinset = M) (y : L → FV K) (x : L → K) (hy : ∀ l ∈ M, y l = .fin (x l)) :
    IsRank M x (fun l => rankdata argsort (order.map y) (order.idxOf l)) := by
  obtain ⟨hperm, hsort⟩ := ha (order.map y)
  set j := argsort (order.map y) with hj
  rw [List.length_map] at hperm
  have hnd : j.Nodup := hperm.nodup_iff.mpr List.nodup_range
  have hlen : j.length = order.length := by rw [hperm.length_eq, List.length_range]
  have hcard : M.card = order.length := by rw [← hM, List.toFinset_card_of_nodup ho]
  have hmem : ∀ l ∈ M, l ∈ order := fun l hl => by rw [← hM] at hl; exact List.mem_toFinset.mp hl
  have hpos : ∀ l ∈ M, order.idxOf l ∈ j := by
    intro l hl
    rw [hperm.mem_iff, List.mem_range]
    exact List.idxOf_lt_length_iff.mpr (hmem l hl)
  refine ⟨?_, ?_, ?_⟩
  · intro a ha' b hb h
    simp only [rankdata, ← hj] at h
    have h1 : j.idxOf (order.idxOf a) = j.idxOf (order.idxOf b) := by omega
    have h2 := (List.idxOf_inj (hpos a ha')).mp h1
    exact (List.idxOf_inj (hmem a ha')).mp h2
  · ext k
    simp only [Finset.mem_image, Finset.mem_Icc, rankdata, ← hj]
    constructor
    · rintro ⟨l, hl, rfl⟩
      have := List.idxOf_lt_length_iff.mpr (hpos l hl)
      omega
    · rintro ⟨h1, h2⟩
      have hk : k - 1 < j.length := by omega
      have hi : j[k - 1] ∈ j := List.getElem_mem hk
      rw [hperm.mem_iff, List.mem_range] at hi
      refine ⟨order[j[k - 1]], ?_, ?_⟩
      · rw [← hM]; exact List.mem_toFinset.mpr (List.getElem_mem hi)
      · rw [ho.idxOf_getElem _ hi, hnd.idxOf_getElem _ hk]
        omega
  · intro a ha' b hb h
    simp only [rankdata, ← hj] at h
    have hpa := List.idxOf_lt_length_iff.mpr (hpos a ha')
    have hpb := List.idxOf_lt_length_iff.mpr (hpos b hb)
    have := List.pairwise_iff_getElem.mp hsort _ _ hpa hpb (by omega)
    rw [List.getElem_idxOf hpa, List.getElem_idxOf hpb] at this
    have ga : ∀ l ∈ M, (order.map y).getD (order.idxOf l) .nan = .fin (x l) := by
      intro l hl
      have hlt := List.idxOf_lt_length_iff.mpr (hmem l hl)
      rw [List.getD_eq_getElem?_getD, List.getElem?_eq_getElem (by rw [List.length_map]; exact hlt), Option.getD_some, List.getElem_map,
        List.getElem_idxOf hlt, hy l hl]
    rw [ga a ha', ga b hb] at this
    simpa [FV.lt] using this

end WBX
