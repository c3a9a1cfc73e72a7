import Verif.Props.EnsembleMoments

/-!
# C33: `RankHistogram` is one-hot on `n + 1` ranks
-/

set_option linter.unusedSectionVars false

namespace WBX
open DA Classical
variable {L K : Type} [DecidableEq L] [Field K] [LinearOrder K] [IsStrictOrderedRing K]

/-- At cell `e` the ensemble along `d` of `p` has the values `x` and the target is `y` (any floats). -/
def RankedAt (p t : StatVar L (FV K)) (d : Dim) (e : Dim → L) (x : L → FV K) (y : FV K) : Prop :=
  ∀ l ∈ p.arr.coords d, p.arr.val (setLabel e d l) = x l ∧ t.arr.val (setLabel e d l) = y

theorem npSum_count {M : Finset L} {P : L → Bool} :
    npSum false M (fun l => (FV.ofBool (P l) : FV K)) = FV.ofNat (M.filter (fun l => P l = true)).card := by
  unfold npSum
  rw [present_false, FV.sum_fin M _ (fun l => if P l = true then (1 : K) else 0)
    (fun l _ => by unfold FV.ofBool; split <;> rfl)]
  simp [FV.ofNat]

theorem find_number {number : ℕ → L} (hnum : Function.Injective number) {n k : ℕ} (hk : k < n) :
    (List.range n).find? (fun j => decide (number j = number k)) = some k := by
  rw [List.find?_eq_some_iff_append]
  refine ⟨by simp, List.range k, (List.range (n - k - 1)).map (fun j => k + 1 + j), ?_, ?_⟩
  · have h1 : n = k + ((n - k - 1) + 1) := by omega
    rw [h1, List.range_add, List.range_succ_eq_map]
    simp only [List.map_cons, List.map_map, Nat.add_zero]
    have h2 : k + (n - k - 1 + 1) - k - 1 = n - k - 1 := by omega
    rw [h2]
    congr 2
    apply List.map_congr_left
    intro j _
    simp only [Function.comp]
    omega
  · intro j hj
    have := List.mem_range.mp hj
    simp only [Bool.not_eq_true', decide_eq_false_iff_not]
    intro h
    have := hnum h
    omega

theorem ofBool_beq_ofNat (m k : ℕ) : (FV.ofBool (FV.beq (FV.ofNat m : FV K) (FV.ofNat k)) : FV K) = if k = m then 1 else 0 := by
  by_cases h : k = m
  · simp [FV.ofBool, FV.beq, FV.ofNat, h]
  · have : ¬ m = k := fun h' => h h'.symm
    simp [FV.ofBool, FV.beq, FV.ofNat, h, this]

/-- **C33** At a cell with rank label `k ≤ n` (`n` members), the statistic is 1 if exactly `k` members are strictly below the target
and 0 otherwise. -/
theorem C33_indicator {number : ℕ → L} (hnum : Function.Injective number) {d : Dim} (hdr : d ≠ "rank") {p t s : StatVar L (FV K)} (hd : d ∉ t.arr.dims)
    (h : rankHistogram number d p t = .ok s) {e : Dim → L} {x : L → FV K} {y : FV K} (hx : RankedAt p t d e x y) {k : ℕ}
    (hk : k ≤ (p.arr.coords d).card) (he : e "rank" = number k) :
    s.arr.val e = if k = eRank (p.arr.coords d) x y then 1 else 0 := by
  unfold rankHistogram at h
  split at h
  · next hp =>
    rw [Except.ok.injEq] at h
    subst h
    simp only [StatVar.zipWith, zipWith, StatVar.reduce, joinCoords, hp, hd, if_true, if_false, he]
    rw [find_number hnum (by omega)]
    have hs : npSum false (p.arr.coords d) (fun l => (FV.ofBool (FV.lt (p.arr.val (setLabel e d l)) (t.arr.val (setLabel e d l))) : FV K))
        = FV.ofNat (eRank (p.arr.coords d) x y) := by
      rw [npSum_count (P := fun l => FV.lt (p.arr.val (setLabel e d l)) (t.arr.val (setLabel e d l)))]
      unfold eRank
      congr 2
      apply Finset.filter_congr
      intro l hl
      rw [(hx l hl).1, (hx l hl).2]
    rw [hs]
    exact ofBool_beq_ofNat _ _
  · simp at h

/-- **C33** The rank is one of `0, …, n`. -/
theorem C33_range (M : Finset L) (x : L → FV K) (y : FV K) : eRank M x y ≤ M.card := Finset.card_filter_le _ _

/-- **C33** The `n + 1` ranks are the labels of the new dimension. -/
theorem C33_ranks {number : ℕ → L} {d : Dim} {p t s : StatVar L (FV K)} (hr : "rank" ∉ p.arr.dims) (hr' : "rank" ∉ t.arr.dims)
    (h : rankHistogram number d p t = .ok s) :
    "rank" ∈ s.arr.dims ∧ s.arr.coords "rank" = (Finset.range ((p.arr.coords d).card + 1)).image number ∧ d ∈ p.arr.dims := by
  unfold rankHistogram at h
  split at h
  · next hp =>
    rw [Except.ok.injEq] at h
    subst h
    refine ⟨by simp [StatVar.zipWith, zipWith], ?_, hp⟩
    simp [StatVar.zipWith, zipWith, joinCoords, StatVar.reduce, hr, hr']
  · simp at h

/-- **C33** At every point exactly one of the `n + 1` ranks gets 1, and the values over the ranks sum to 1. -/
theorem C33_one_hot {number : ℕ → L} (hnum : Function.Injective number) {d : Dim} (hdr : d ≠ "rank") {p t s : StatVar L (FV K)}
    (hd : d ∉ t.arr.dims) (hr : "rank" ∉ p.arr.dims) (hr' : "rank" ∉ t.arr.dims)
    (h : rankHistogram number d p t = .ok s) {e : Dim → L} {x : L → FV K} {y : FV K}
    (hx : ∀ l, RankedAt p t d (setLabel e "rank" l) x y) :
    (∃! l, l ∈ s.arr.coords "rank" ∧ s.arr.val (setLabel e "rank" l) = 1) ∧
    (∀ l ∈ s.arr.coords "rank", s.arr.val (setLabel e "rank" l) = 1 ∨ s.arr.val (setLabel e "rank" l) = 0) ∧
    ∑ l ∈ s.arr.coords "rank", s.arr.val (setLabel e "rank" l) = 1 := by
  obtain ⟨-, hc, -⟩ := C33_ranks hr hr' h
  have hv : ∀ k ≤ (p.arr.coords d).card, s.arr.val (setLabel e "rank" (number k)) = if k = eRank (p.arr.coords d) x y then 1 else 0 :=
    fun k hk => C33_indicator hnum hdr hd h (hx _) hk (setLabel_same _ _ _)
  have hle := C33_range (p.arr.coords d) x y
  have h10 : (0 : FV K) ≠ 1 := by simp [FV.zero_def, FV.one_def]
  rw [hc]
  refine ⟨⟨number (eRank (p.arr.coords d) x y), ⟨Finset.mem_image_of_mem _ (by simp; omega), by rw [hv _ hle, if_pos rfl]⟩, ?_⟩, ?_, ?_⟩
  · rintro l ⟨hl, hl1⟩
    obtain ⟨k, hk, rfl⟩ := Finset.mem_image.mp hl
    rw [hv k (by simp at hk; omega)] at hl1
    split at hl1
    · next hh => rw [hh]
    · exact absurd hl1 h10
  · intro l hl
    obtain ⟨k, hk, rfl⟩ := Finset.mem_image.mp hl
    rw [hv k (by simp at hk; omega)]
    split <;> simp
  · rw [Finset.sum_image (fun _ _ _ _ h => hnum h), Finset.sum_congr rfl (g := fun k => if k = eRank (p.arr.coords d) x y then (1 : FV K) else 0)
      (fun k hk => hv k (by simp at hk; omega)), Finset.sum_ite_eq' (Finset.range _), if_pos (by simp; omega)]

/-- **C33** The histogram is unchanged by any transformation of predictions and targets that preserves `<`. -/
theorem C33_monotone {number : ℕ → L} {d : Dim} {p t : StatVar L (FV K)} {F : FV K → FV K}
    (hF : ∀ x y, FV.lt (F x) (F y) = FV.lt x y) :
    rankHistogram number d (p.map F) (t.map F) = rankHistogram number d p t := by
  unfold rankHistogram
  simp only [StatVar.map, StatVar.zipWith, DA.map, zipWith, hF]
  rfl

/-- A strictly increasing function of numbers, extended to floats, preserves `<`. -/
theorem C33_monotone_fin {f : K → K} (hf : StrictMono f) (x y : FV K) :
    FV.lt (match x with | .fin a => .fin (f a) | z => z) (match y with | .fin a => .fin (f a) | z => z) = FV.lt x y := by
  rcases x with _ | b | a <;> rcases y with _ | b' | a' <;> simp [FV.lt, hf.lt_iff_lt]

/-- **C33** The histogram is unchanged by any permutation of the members. -/
theorem C33_permutation {number : ℕ → L} (hnum : Function.Injective number) {d : Dim} (hdr : d ≠ "rank") {p p' t s s' : StatVar L (FV K)}
    (hd : d ∉ t.arr.dims) (h : rankHistogram number d p t = .ok s) (h' : rankHistogram number d p' t = .ok s') {e : Dim → L}
    {x x' : L → FV K} {y : FV K} (hx : RankedAt p t d e x y) (hx' : RankedAt p' t d e x' y) (σ : L → L)
    (hσ : Set.BijOn σ (p'.arr.coords d) (p.arr.coords d)) (hxσ : ∀ l ∈ p'.arr.coords d, x' l = x (σ l)) {k : ℕ}
    (hk : k ≤ (p.arr.coords d).card) (he : e "rank" = number k) : s'.arr.val e = s.arr.val e := by
  have hcard : (p'.arr.coords d).card = (p.arr.coords d).card := Finset.card_nbij σ hσ.mapsTo hσ.injOn hσ.surjOn
  rw [C33_indicator hnum hdr hd h hx hk he, C33_indicator hnum hdr hd h' hx' (hcard ▸ hk) he]
  have : eRank (p'.arr.coords d) x' y = eRank (p.arr.coords d) x y := by
    unfold eRank
    refine Finset.card_nbij σ ?_ ?_ ?_
    · intro l hl
      simp only [Finset.coe_filter, Set.mem_setOf_eq] at hl ⊢
      exact ⟨hσ.mapsTo hl.1, by rw [← hxσ l hl.1]; exact hl.2⟩
    · exact hσ.injOn.mono (fun l hl => by simp only [Finset.coe_filter, Set.mem_setOf_eq] at hl; exact hl.1)
    · intro l hl
      simp only [Finset.coe_filter, Set.mem_setOf_eq] at hl
      obtain ⟨l', hl', rfl⟩ := hσ.surjOn hl.1
      exact ⟨l', by simp only [Finset.coe_filter, Set.mem_setOf_eq]; exact ⟨hl', by rw [hxσ l' hl']; exact hl.2⟩, rfl⟩
  rw [this]

/-- **C33** (finding) A NaN target is counted as the lowest rank, and a NaN member as a member that is not below the target: the
histogram is never NaN. -/
theorem C33_nan {number : ℕ → L} (hnum : Function.Injective number) {d : Dim} (hdr : d ≠ "rank") {p t s : StatVar L (FV K)}
    (hd : d ∉ t.arr.dims) (h : rankHistogram number d p t = .ok s) {e : Dim → L} {x : L → FV K} (hx : RankedAt p t d e x FV.nan)
    (he : e "rank" = number 0) : s.arr.val e = 1 := by
  rw [C33_indicator hnum hdr hd h hx (Nat.zero_le _) he, if_pos]
  unfold eRank
  rw [eq_comm, Finset.card_eq_zero, Finset.filter_eq_empty_iff]
  intro l _
  rcases x l with _ | b | a <;> simp [FV.lt]

section mean
variable {agg : Aggregator L (FV K)} {p t : Vars (StatVar L (FV K))} {v : String} {a b s : StatVar L (FV K)}

/-- **C33** The mean histogram at rank `k` is the weighted share of the points whose target has exactly `k` members below it; over all
ranks these shares sum to 1. The cells of rank `k` are the points `C` with that rank label, and weights do not depend on the rank. -/
theorem C33_mean (hp : (p.map Prod.fst).Nodup) (ht : (t.map Prod.fst).Nodup) (ha : (v, a) ∈ p) (hb : (v, b) ∈ t)
    {number : ℕ → L} (hnum : Function.Injective number) {d : Dim} (hdr : d ≠ "rank") (hd : d ∉ b.arr.dims)
    (h : rankHistogram number d a b = .ok s) {X : DA L (FV K)} (hX : ValueOf (rankHistogramStatistic number d).toMetric agg p t v X)
    {e : Dim → L} {C : Finset (Dim → L)} {x : (Dim → L) → L → FV K} {y : (Dim → L) → FV K}
    (hinj : ∀ k, Set.InjOn (fun c => setLabel c "rank" (number k)) C)
    (E : ∀ k ≤ (a.arr.coords d).card, Evaluated agg s (setLabel e "rank" (number k)) (C.image (fun c => setLabel c "rank" (number k))))
    {w : (Dim → L) → K} (hw : ∀ k, ∀ c ∈ C, cellWeight agg s (setLabel c "rank" (number k)) = w c) (hpos : 0 < ∑ c ∈ C, w c)
    (hnn : ∀ c ∈ C, 0 ≤ w c)
    (hx : ∀ k, ∀ c ∈ C, RankedAt a b d (setLabel c "rank" (number k)) (x c) (y c)) :
    (∀ k ≤ (a.arr.coords d).card, X.val (setLabel e "rank" (number k)) =
      FV.fin ((∑ c ∈ C.filter (fun c => eRank (a.arr.coords d) (x c) (y c) = k), w c) / ∑ c ∈ C, w c)) ∧
    ∑ k ∈ Finset.range ((a.arr.coords d).card + 1), X.val (setLabel e "rank" (number k)) = FV.fin 1 := by
  have key : ∀ k ≤ (a.arr.coords d).card, X.val (setLabel e "rank" (number k)) =
      FV.fin ((∑ c ∈ C.filter (fun c => eRank (a.arr.coords d) (x c) (y c) = k), w c) / ∑ c ∈ C, w c) := by
    intro k hk
    have hsum : ∑ e' ∈ C.image (fun c => setLabel c "rank" (number k)), cellWeight agg s e' = ∑ c ∈ C, w c := by
      rw [Finset.sum_image (hinj k)]
      exact Finset.sum_congr rfl (hw k)
    have hW : GoodWeights agg s (C.image (fun c => setLabel c "rank" (number k))) := by
      refine ⟨fun e' he' => ?_, by rw [hsum]; exact hpos⟩
      obtain ⟨c, hc, rfl⟩ := Finset.mem_image.mp he'
      rw [hw k c hc]
      exact hnn c hc
    obtain ⟨s', q, h1, h2, rfl⟩ := isMeanOf_statOfE hp ht ha hb (valueOf_statistic hX)
    rw [h, Except.ok.injEq] at h1
    subst h1
    rw [evaluated_mean (E k hk) h2 hW.2.ne']
    congr 1
    unfold wmean
    rw [hsum, Finset.sum_image (hinj k), Finset.sum_filter]
    congr 1
    refine Finset.sum_congr rfl (fun c hc => ?_)
    beta_reduce
    rw [hw k c hc, C33_indicator hnum hdr hd h (hx k c hc) hk (setLabel_same _ _ _)]
    by_cases hh : k = eRank (a.arr.coords d) (x c) (y c)
    · rw [if_pos hh, if_pos hh.symm]; simp [FV.one_def, FV.num]
    · rw [if_neg hh, if_neg (fun h => hh h.symm)]; simp [FV.zero_def, FV.num]
  refine ⟨key, ?_⟩
  rw [FV.sum_fin _ _ _ (fun k hk => key k (by simp at hk; omega)), ← Finset.sum_div, FV.fin.injEq, div_eq_one_iff_eq hpos.ne']
  rw [Finset.sum_congr rfl (fun k _ => Finset.sum_filter _ _), Finset.sum_comm]
  refine Finset.sum_congr rfl (fun c _ => ?_)
  rw [Finset.sum_ite_eq, if_pos]
  have := C33_range (a.arr.coords d) (x c) (y c)
  simp; omega

end mean

/-! ### Concrete cases -/

/-- Three members 1, 2, 3 (plus the point) and a target 1: rank 0 at the first point of `crpsPred`. -/
example : ∃ s, rankHistogram id "number" crpsPred crpsTarget = .ok s ∧ "number" ∉ crpsTarget.arr.dims ∧
    RankedAt crpsPred crpsTarget "number" (setLabel (exCell 1) "rank" 0) (fun l => FV.fin ((l : ℝ) + 1)) (FV.fin 1) ∧
    s.arr.val (setLabel (exCell 1) "rank" 0) = 1 := by
  have hd : "number" ∈ crpsPred.arr.dims := by simp [crpsPred]
  have hd' : "number" ∉ crpsTarget.arr.dims := by simp [crpsTarget]
  obtain ⟨s, h⟩ : ∃ s, rankHistogram id "number" crpsPred crpsTarget = .ok s := by
    unfold rankHistogram; rw [if_pos hd]; exact ⟨_, rfl⟩
  have hx : RankedAt crpsPred crpsTarget "number" (setLabel (exCell 1) "rank" 0) (fun l => FV.fin ((l : ℝ) + 1)) (FV.fin 1) := by
    intro l _
    exact ⟨by simp [crpsPred, setLabel, exCell], by simp [crpsTarget, setLabel, exCell]⟩
  refine ⟨s, h, hd', hx, ?_⟩
  rw [C33_indicator Function.injective_id (by decide) hd' h hx (Nat.zero_le _) (setLabel_same _ _ _), if_pos]
  unfold eRank
  rw [eq_comm, Finset.card_eq_zero, Finset.filter_eq_empty_iff]
  intro l _
  simp [FV.lt]

/-- A statistic used as a metric has a value if it has a mean. -/
theorem exists_statistic {D V : Type} [AddCommMonoid V] [Mul V] [One V] [Div V] [IsNull V] {st : Statistic D (Option (StatVar L V))}
    {agg : Aggregator L V} {p t : Vars D} {v : String} {y : DA L V} (h : OneMean agg p t v st y) : ValueOf st.toMetric agg p t v y := by
  obtain ⟨s, q, h1, h2, rfl⟩ := h
  refine ⟨[(v, DA.zipWith (· / ·) q.1 q.2)], ?_, by simp⟩
  simp [metricAlone, Statistic.toMetric, meanVars, Aggregator.perVar, h1, h2, pyGet?, pyItem, bind, Except.bind, pure, Except.pure]

open Aggregator in
/-- Evaluation cells of a statistic with further dimensions. -/
theorem evaluated_x (s : StatVar ℕ (FV ℝ)) (C : Finset ℕ) (hc : s.arr.coords "x" = C) (hm : s.mask = none) (e : Dim → ℕ)
    (hf : ∀ n ∈ C, (s.arr.val (setLabel e "x" n)).isFin = true) : Evaluated mAgg s e (C.image (fun n => setLabel e "x" n)) := by
  refine ⟨⟨by simp [mAgg], by simp [mAgg]⟩, by simp [allFactors, mAgg], by rw [hm]; simp, by simp [allFactors, mAgg], ?_, ?_⟩
  · intro e'
    have hr : mAgg.reduceDims = ["x"] := rfl
    have hs : mAgg.skipna = false := rfl
    rw [hr]
    simp only [List.mem_singleton, forall_eq, hc, Finset.mem_image, counted, hm, hs]
    constructor
    · rintro ⟨n, hn, rfl⟩
      exact ⟨⟨by simpa [setLabel] using hn, fun d hd => by simp [setLabel, hd]⟩, by simp⟩
    · rintro ⟨⟨h1, h2⟩, -⟩
      refine ⟨e' "x", h1, ?_⟩
      funext d
      by_cases hd : d = "x"
      · subst hd; simp [setLabel]
      · simp [setLabel, hd, h2 d hd]
  · intro e' he'
    obtain ⟨n, hn, rfl⟩ := Finset.mem_image.mp he'
    exact hf n hn

/-- The hypotheses of `C33_mean` are met by the two points of `crpsPred`, which have ranks 1 and 0. -/
example : ∃ s X, rankHistogram id "number" crpsPred crpsTarget = .ok s ∧
    ValueOf (rankHistogramStatistic id "number").toMetric mAgg [("t", crpsPred)] [("t", crpsTarget)] "t" X ∧
    X.val (setLabel (exCell 0) "rank" 1) = FV.fin (1 / 2) := by
  have hd : "number" ∈ crpsPred.arr.dims := by simp [crpsPred]
  have hd' : "number" ∉ crpsTarget.arr.dims := by simp [crpsTarget]
  obtain ⟨s, h⟩ : ∃ s, rankHistogram id "number" crpsPred crpsTarget = .ok s := by
    unfold rankHistogram; rw [if_pos hd]; exact ⟨_, rfl⟩
  have hsd : "x" ∈ s.arr.dims ∧ s.arr.coords "x" = {0, 1} ∧ s.mask = none := by
    unfold rankHistogram at h
    rw [if_pos hd, Except.ok.injEq] at h
    subst h
    refine ⟨?_, ?_, ?_⟩
    · simp [StatVar.zipWith, zipWith, StatVar.reduce, crpsPred, crpsTarget]
    · simp [StatVar.zipWith, zipWith, StatVar.reduce, crpsPred, crpsTarget, joinCoords]
    · simp [StatVar.zipWith, StatVar.reduce, crpsPred, crpsTarget, combineMask, dropMask]
  obtain ⟨q, hq⟩ := exists_aggregate mAgg rfl s (by simpa [mAgg] using hsd.1)
  refine ⟨s, _, h, exists_statistic (oneMean_statOfE _ h hq), ?_⟩
  have himg : ∀ k, (({0, 1} : Finset ℕ).image exCell).image (fun c => setLabel c "rank" (id k)) =
      ({0, 1} : Finset ℕ).image (fun n => setLabel (setLabel (exCell 0) "rank" k) "x" n) := by
    intro k
    rw [Finset.image_image]
    congr 1
    funext n d
    by_cases h1 : d = "rank" <;> by_cases h2 : d = "x" <;> simp_all [setLabel, exCell]
  have hrk : ∀ k, ∀ c ∈ ({0, 1} : Finset ℕ).image exCell, RankedAt crpsPred crpsTarget "number" (setLabel c "rank" (id k))
      (fun l => FV.fin ((l : ℝ) + c "x")) (FV.fin 1) := by
    intro k c hc l _
    exact ⟨by simp [crpsPred, setLabel], by simp [crpsTarget]⟩
  have hw : ∀ e', cellWeight mAgg s e' = 1 := by intro e'; simp [cellWeight, Aggregator.allFactors, mAgg]
  have hcard : (crpsPred.arr.coords "number") = Finset.range 3 := by simp [crpsPred]
  have key := (C33_mean (C := ({0, 1} : Finset ℕ).image exCell) (e := exCell 0) (p := [("t", crpsPred)]) (t := [("t", crpsTarget)]) (w := fun _ => 1)
    (y := fun _ => FV.fin 1) (by simp) (by simp) (by simp) (by simp) Function.injective_id
    (by decide) hd' h (exists_statistic (oneMean_statOfE _ h hq)) (fun k => ?_) (fun k hk => ?_) (fun k c _ => hw _) ?_ (fun _ _ => zero_le_one) hrk).1 1
    (by rw [hcard]; simp)
  · refine Eq.trans key ?_
    congr 1
    rw [hcard, Finset.sum_image (fun _ _ _ _ h => exCell_inj h), Finset.sum_filter, Finset.sum_image (fun _ _ _ _ h => exCell_inj h)]
    have h0 : eRank (Finset.range 3) (fun l => FV.fin ((l : ℝ) + (exCell 0 "x" : ℕ))) (FV.fin 1) = 1 := by
      unfold eRank
      rw [Finset.card_eq_one]
      refine ⟨0, ?_⟩
      ext l
      simp only [Finset.mem_filter, Finset.mem_range, FV.lt, exCell, decide_eq_true_eq, Finset.mem_singleton]
      constructor
      · rintro ⟨-, h⟩; simp at h; exact h
      · rintro rfl; simp
    have h1 : eRank (Finset.range 3) (fun l => FV.fin ((l : ℝ) + (exCell 1 "x" : ℕ))) (FV.fin 1) = 0 := by
      unfold eRank
      rw [Finset.card_eq_zero, Finset.filter_eq_empty_iff]
      intro l _
      simp [FV.lt, exCell]
    rw [Finset.sum_pair (by decide), Finset.sum_pair (by decide), h0, h1]
    norm_num
  · rintro c hc c' hc' heq
    obtain ⟨n, -, rfl⟩ := Finset.mem_image.mp (Finset.mem_coe.mp hc)
    obtain ⟨n', -, rfl⟩ := Finset.mem_image.mp (Finset.mem_coe.mp hc')
    have := congrFun heq "x"
    simp [setLabel, exCell] at this
    rw [this]
  · rw [himg k]
    refine evaluated_x s _ hsd.2.1 hsd.2.2 _ (fun n hn => ?_)
    rw [C33_indicator (x := fun l => FV.fin ((l : ℝ) + n)) (y := FV.fin 1) Function.injective_id (by decide) hd' h ?_ hk (by simp [setLabel])]
    · split <;> rfl
    · intro l _
      exact ⟨by simp [crpsPred, setLabel], by simp [crpsTarget]⟩
  · rw [Finset.sum_image (fun _ _ _ _ h => exCell_inj h)]
    norm_num

end WBX
