import Verif.Spec.Repeated
import Verif.Props.MetricsBase

/-!
# Repeated arrays
-/

namespace WBX
open DA Aggregator
set_option linter.unusedSectionVars false

section arrays
variable {L V W U : Type} [DecidableEq L] {d : Dim} {C : Finset L}

theorem DA.same_of {a b : DA L V} (h1 : a.dims = b.dims) (h2 : a.coords = b.coords) (h3 : a.val = b.val) : a = b := by
  cases a; cases b; simp only at h1 h2 h3; rw [h1, h2, h3]

theorem repeated_map (f : V → W) (a : DA L V) : (a.repeated d C).map f = (a.map f).repeated d C := rfl

theorem repeated_zip (f : V → W → U) (a : DA L V) (b : DA L W) : DA.zipWith f (a.repeated d C) (b.repeated d C) = (DA.zipWith f a b).repeated d C := by
  refine DA.same_of ?_ ?_ rfl
  · show insert d a.dims ∪ insert d b.dims = insert d (a.dims ∪ b.dims)
    ext k; simp only [Finset.mem_union, Finset.mem_insert]; tauto
  · funext k
    simp only [DA.zipWith, DA.joinCoords, DA.repeated, Finset.mem_insert]
    by_cases hk : k = d
    · simp [hk]
    · simp [hk]

theorem repeated_zip_left (f : V → W → U) (a : DA L V) {b : DA L W} (hb : d ∉ b.dims) : DA.zipWith f (a.repeated d C) b = (DA.zipWith f a b).repeated d C := by
  refine DA.same_of ?_ ?_ rfl
  · show insert d a.dims ∪ b.dims = insert d (a.dims ∪ b.dims)
    rw [Finset.insert_union]
  · funext k
    simp only [DA.zipWith, DA.joinCoords, DA.repeated, Finset.mem_insert]
    by_cases hk : k = d
    · subst hk; simp [hb]
    · simp [hk]

theorem repeated_zip_right (f : V → W → U) {a : DA L V} (ha : d ∉ a.dims) (b : DA L W) : DA.zipWith f a (b.repeated d C) = (DA.zipWith f a b).repeated d C := by
  refine DA.same_of ?_ ?_ rfl
  · show a.dims ∪ insert d b.dims = insert d (a.dims ∪ b.dims)
    rw [Finset.union_insert]
  · funext k
    simp only [DA.zipWith, DA.joinCoords, DA.repeated, Finset.mem_insert]
    by_cases hk : k = d
    · subst hk; simp [ha]
    · simp [hk]

theorem withLabels_zip (f : V → W → U) (a : DA L V) (b : DA L W) : DA.zipWith f (a.withLabels d C) (b.withLabels d C) = (DA.zipWith f a b).withLabels d C := by
  refine DA.same_of rfl ?_ rfl
  funext k
  simp only [DA.zipWith, DA.joinCoords, DA.withLabels]
  by_cases hk : k = d
  · simp [hk]
  · simp [hk]

theorem withLabels_map (f : V → W) (a : DA L V) : (a.withLabels d C).map f = (a.map f).withLabels d C := rfl

theorem DA.Without.map {a : DA L V} (h : a.Without d) (f : V → W) : (a.map f).Without d := ⟨h.1, fun e l => congrArg f (h.2 e l)⟩

theorem DA.Without.zip {a : DA L V} {b : DA L W} (h : a.Without d) (h' : b.Without d) (f : V → W → U) : (DA.zipWith f a b).Without d :=
  ⟨by show d ∉ a.dims ∪ b.dims; rw [Finset.mem_union]; exact fun hh => hh.elim h.1 h'.1, fun e l => by show f _ _ = f _ _; rw [h.2, h'.2]⟩

theorem DA.Without.foldl [Mul V] : ∀ (bs : List (DA L V)) {a : DA L V}, a.Without d → (∀ b ∈ bs, b.Without d) → (bs.foldl (DA.zipWith (· * ·)) a).Without d
  | [], _, h, _ => h
  | b :: bs, a, h, hb => DA.Without.foldl bs (h.zip (hb b List.mem_cons_self) _) (fun c hc => hb c (List.mem_cons_of_mem _ hc))

theorem repeated_foldl [Mul V] : ∀ (bs : List (DA L V)) (a : DA L V), (∀ b ∈ bs, b.Without d) →
    bs.foldl (DA.zipWith (· * ·)) (a.repeated d C) = (bs.foldl (DA.zipWith (· * ·)) a).repeated d C
  | [], _, _ => rfl
  | b :: bs, a, hb => by
    rw [List.foldl_cons, List.foldl_cons, repeated_zip_left _ _ (hb b List.mem_cons_self).1, repeated_foldl bs _ (fun c hc => hb c (List.mem_cons_of_mem _ hc))]

/-- `n` times the array, without a new dimension. -/
def DA.times [AddCommMonoid V] (n : ℕ) (a : DA L V) : DA L V := a.map (n • ·)

theorem sum_repeated [AddCommMonoid V] {a : DA L V} (h : a.Without d) : (a.repeated d C).sumDim d = (a.times C.card).withLabels d C := by
  refine DA.same_of ?_ rfl ?_
  · show (insert d a.dims).erase d = a.dims
    rw [Finset.erase_insert h.1]
  · funext e
    show ∑ l ∈ (if d = d then C else _), a.val (setLabel e d l) = C.card • a.val e
    simp only [if_pos, h.2, Finset.sum_const]

theorem sumDim_times [AddCommMonoid V] (n : ℕ) {k : Dim} (hk : k ≠ d) (a : DA L V) : ((a.times n).withLabels d C).sumDim k = ((a.sumDim k).times n).withLabels d C := by
  refine DA.same_of rfl rfl ?_
  funext e
  show ∑ l ∈ (if k = d then C else a.coords k), n • a.val (setLabel e k l) = n • ∑ l ∈ a.coords k, a.val (setLabel e k l)
  rw [if_neg hk, Finset.smul_sum]

theorem sumDims_times [AddCommMonoid V] (n : ℕ) : ∀ (ds : List Dim) (a : DA L V), d ∉ ds → DA.sumDims ds ((a.times n).withLabels d C) = ((DA.sumDims ds a).times n).withLabels d C
  | [], _, _ => rfl
  | k :: ds, a, h => by
    rw [DA.sumDims, DA.sumDims, sumDim_times n (fun hk => h (by rw [hk]; exact List.mem_cons_self)), sumDims_times n ds _ (fun hd => h (List.mem_cons_of_mem _ hd))]

theorem repeated_dot [AddCommMonoid V] [Mul V] {a : DA L V} (ha : a.Without d) {bs : List (DA L V)} (hb : ∀ b ∈ bs, b.Without d) {ds : List Dim} (hd : d ∉ ds) :
    DA.dot (a.repeated d C) bs (d :: ds) = ((DA.dot a bs ds).times C.card).withLabels d C := by
  rw [DA.dot, DA.dot, repeated_foldl bs a hb, DA.sumDims, sum_repeated (DA.Without.foldl bs ha hb), sumDims_times _ _ _ hd]

end arrays

section aggregation
variable {L V : Type} [DecidableEq L] [AddCommMonoid V] [Mul V] [One V] [Div V] [IsNull V] {d : Dim} {C : Finset L}

theorem repeated_binMasks {stat : DA L V} : ∀ {bs : List (BinBy L V)}, (∀ b ∈ bs, ∀ a : DA L V, (b.createBinMask a).Without d ∧ b.createBinMask (a.repeated d C) = b.createBinMask a) →
    binMasks (stat.repeated d C) bs = binMasks stat bs
  | [], _ => rfl
  | b :: bs, h => by
    have hb := h b List.mem_cons_self stat
    have ih := repeated_binMasks (stat := stat) (bs := bs) (fun c hc => h c (List.mem_cons_of_mem _ hc))
    have hs : ((b.createBinMask stat).dims \ {b.binDim} ⊆ insert d stat.dims) ↔ (b.createBinMask stat).dims \ {b.binDim} ⊆ stat.dims := by
      rw [Finset.subset_insert_iff_of_notMem]
      exact fun hd => hb.1.1 (Finset.mem_sdiff.1 hd).1
    rw [binMasks, binMasks, hb.2, ih]
    rw [show (stat.repeated d C).dims = insert d stat.dims from rfl]
    simp only [hs]

theorem binMasks_without {stat : DA L V} : ∀ {bs : List (BinBy L V)} {ms : List (DA L V)}, (∀ b ∈ bs, (b.createBinMask stat).Without d) → binMasks stat bs = some ms → ∀ m ∈ ms, m.Without d
  | [], ms, _, h => by
    rw [binMasks] at h; cases h
    exact fun m hm => absurd hm (by simp)
  | b :: bs, ms, hb, h => by
    rw [binMasks] at h
    split at h
    · rcases hm : binMasks stat bs with _ | ms'
      · rw [hm] at h; cases h
      · rw [hm] at h
        cases h
        intro m hmem
        rcases List.mem_cons.1 hmem with rfl | hmem
        · exact hb b List.mem_cons_self
        · exact binMasks_without (fun c hc => hb c (List.mem_cons_of_mem _ hc)) hm m hmem
    · cases h

theorem repeated_aggregationFn {agg : Aggregator L V} (h : agg.Ignores d C) {stat : DA L V} (hs : stat.Without d) :
    (agg.averagedOver d).aggregationFn (stat.repeated d C) = (agg.aggregationFn stat).map (Option.map (fun a => (a.times C.card).withLabels d C)) := by
  unfold aggregationFn averagedOver
  dsimp only
  have hall : (d :: agg.reduceDims).all (fun k => decide (k ∈ (stat.repeated d C).dims)) = agg.reduceDims.all (fun k => decide (k ∈ stat.dims)) := by
    rw [List.all_cons]
    have h1 : decide (d ∈ (stat.repeated d C).dims) = true := by simp [DA.repeated]
    rw [h1, Bool.true_and, Bool.eq_iff_iff]
    simp only [List.all_eq_true, decide_eq_true_eq]
    refine forall₂_congr (fun k hk => ?_)
    show k ∈ insert d stat.dims ↔ _
    rw [Finset.mem_insert]
    exact ⟨fun hh => hh.resolve_left (fun hkd => h.dims (hkd ▸ hk)), Or.inr⟩
  have hw : agg.weighBy.map (fun w => w (stat.repeated d C)) = agg.weighBy.map (fun w => w stat) := List.map_congr_left (fun w hw => (h.weights w hw stat).2)
  rw [hall, hw, repeated_binMasks h.bins, List.dedup_cons_of_notMem h.dims]
  split
  · rfl
  · split
    · rfl
    · rcases hm : binMasks stat agg.binBy with _ | masks
      · rfl
      · show Except.ok _ = Except.ok _
        congr 1
        show some _ = some _
        congr 1
        refine repeated_dot hs (fun b hb => ?_) (by rw [List.mem_dedup]; exact h.dims)
        rcases List.mem_append.1 hb with hb | hb
        · obtain ⟨w, hw, rfl⟩ := List.mem_map.1 hb
          exact (h.weights w hw stat).1
        · exact binMasks_without (fun b hb => (h.bins b hb stat).1) hm b hb

theorem repeated_applyMask (agg : Aggregator L V) {stat : StatVar L V} (hs : stat.Without d) :
    (agg.averagedOver d).applyMask (stat.repeated d C) = ((agg.applyMask stat).1.repeated d C, (agg.applyMask stat).2.repeated d C) := by
  obtain ⟨a, m⟩ := stat
  have hm : ∀ m', m = some m' → d ∉ m'.dims := fun m' h => (hs.2 m' h).1
  unfold applyMask averagedOver
  cases agg.masked <;> cases m <;> cases agg.skipna <;>
    simp [StatVar.repeated, repeated_map, DA.where_, DA.broadcastLike, repeated_zip]
  · rw [repeated_zip_left _ _ (hm _ rfl), repeated_zip_right _ (hm _ rfl)]
    exact ⟨rfl, rfl⟩
  · rw [repeated_zip_right _ (hm _ rfl), repeated_zip, repeated_zip]
    exact ⟨rfl, rfl⟩

theorem applyMask_without (agg : Aggregator L V) {stat : StatVar L V} (hs : stat.Without d) : (agg.applyMask stat).1.Without d ∧ (agg.applyMask stat).2.Without d := by
  obtain ⟨a, m⟩ := stat
  have ha : a.Without d := hs.1
  unfold applyMask
  cases agg.masked
  · cases agg.skipna
    · exact ⟨ha, ha.map _⟩
    · exact ⟨ha.zip (ha.map _) _, (ha.map _).map _⟩
  · cases m with
    | none =>
      cases agg.skipna
      · exact ⟨ha, ha.map _⟩
      · exact ⟨ha.zip (ha.map _) _, (ha.map _).map _⟩
    | some m =>
      have hm := hs.2 m rfl
      cases agg.skipna
      · exact ⟨ha.zip hm _, (hm.zip (ha.zip hm _) _).map _⟩
      · exact ⟨ha.zip (hm.zip (ha.map _) _) _, ((hm.zip (ha.map _) _).zip (ha.zip (hm.zip (ha.map _) _) _) _).map _⟩

theorem repeated_aggregateStatVar {agg : Aggregator L V} (h : agg.Ignores d C) {stat : StatVar L V} (hs : stat.Without d) :
    (agg.averagedOver d).aggregateStatVar (stat.repeated d C) =
      (agg.aggregateStatVar stat).map (Option.map (fun q => ((q.1.times C.card).withLabels d C, (q.2.times C.card).withLabels d C))) := by
  unfold aggregateStatVar
  rw [repeated_applyMask agg hs]
  dsimp only
  rw [repeated_aggregationFn h (applyMask_without agg hs).1, repeated_aggregationFn h (applyMask_without agg hs).2]
  rcases agg.aggregationFn (agg.applyMask stat).1 with e | o
  · rfl
  · rcases agg.aggregationFn (agg.applyMask stat).2 with e | o'
    · cases o <;> rfl
    · cases o <;> cases o' <;> rfl

theorem repeated_perVar {agg : Aggregator L V} (h : agg.Ignores d C) : ∀ vars : Vars (Option (StatVar L V)), (∀ v a, (v, some a) ∈ vars → a.Without d) →
    (agg.averagedOver d).perVar (repeatStats d C vars) = (agg.perVar vars).map (List.map (fun kq => (kq.1, ((kq.2.1.times C.card).withLabels d C, (kq.2.2.times C.card).withLabels d C))))
  | [], _ => rfl
  | (k, none) :: vars, hv => by
    have := repeated_perVar h vars (fun v a hm => hv v a (List.mem_cons_of_mem _ hm))
    unfold repeatStats at this ⊢
    rw [List.map_cons, perVar]
    simp only [Option.map_none]
    rw [perVar, this]
  | (k, some s) :: vars, hv => by
    have ih := repeated_perVar h vars (fun v a hm => hv v a (List.mem_cons_of_mem _ hm))
    unfold repeatStats at ih ⊢
    rw [List.map_cons, perVar]
    simp only [Option.map_some]
    rw [perVar, ih, repeated_aggregateStatVar h (hv k s List.mem_cons_self)]
    rcases agg.aggregateStatVar s with e | o
    · rfl
    · rcases agg.perVar vars with e | rs
      · cases o <;> rfl
      · cases o <;> rfl

/-- The mean over the repetitions is the mean. -/
theorem repeated_meanVars {agg : Aggregator L V} (h : agg.Ignores d C) (hdiv : ∀ x y : V, (C.card • x) / (C.card • y) = x / y) {vars : Vars (Option (StatVar L V))} (hv : ∀ v a, (v, some a) ∈ vars → a.Without d) :
    meanVars (agg.averagedOver d) (repeatStats d C vars) = (meanVars agg vars).map (sameValuesAs d C) := by
  unfold meanVars
  rw [repeated_perVar h vars hv]
  rcases agg.perVar vars with e | r
  · rfl
  · simp only [Except.map, bind, Except.bind, pure, Except.pure, List.map_map, sameValuesAs, Except.ok.injEq]
    refine List.map_congr_left (fun q _ => ?_)
    simp only [Function.comp_apply, withLabels_zip]
    congr 2
    refine DA.same_of rfl rfl ?_
    funext e
    exact hdiv _ _

end aggregation

section floats
variable {K : Type} [Field K] [LinearOrder K] [IsStrictOrderedRing K]

theorem FV.nsmul_fin (n : ℕ) (x : K) : n • (FV.fin x) = FV.fin (n * x) := by
  induction n with
  | zero => rw [zero_nsmul]; simp [FV.zero_def]
  | succ n ih => rw [succ_nsmul, ih, FV.fin_add_fin]; congr 1; push_cast; ring

theorem FV.nsmul_nan (n : ℕ) : (n + 1) • (FV.nan : FV K) = FV.nan := by
  rw [succ_nsmul, FV.add_nan]

theorem FV.nsmul_inf (n : ℕ) (b : Bool) : (n + 1) • (FV.inf b : FV K) = FV.inf b := by
  induction n with
  | zero => rw [one_nsmul]
  | succ n ih => rw [succ_nsmul, ih, FV.inf_add_inf, if_pos rfl]

theorem neg_times {a : K} (ha : 0 < a) (x : K) : a * x < 0 ↔ x < 0 :=
  ⟨fun h => by by_contra hc; push Not at hc; exact absurd (mul_nonneg ha.le hc) (not_le.2 h), fun h => mul_neg_of_pos_of_neg ha h⟩

/-- Dividing `n` times as much by `n` times as much. -/
theorem FV.nsmul_div (n : ℕ) (hn : n ≠ 0) (x y : FV K) : (n • x) / (n • y) = x / y := by
  obtain ⟨n, rfl⟩ := Nat.exists_eq_succ_of_ne_zero hn
  have hp : (0 : K) < ((n + 1 : ℕ) : K) := by positivity
  show ((n + 1) • x) / ((n + 1) • y) = x / y
  rcases x with _ | b | x <;> rcases y with _ | b' | y <;> simp only [FV.nsmul_nan, FV.nsmul_inf, FV.nsmul_fin, FV.nan_div, FV.div_nan]
  · show (if ((n + 1 : ℕ) : K) * y = 0 then (FV.inf b : FV K) else FV.inf (xor b (decide (((n + 1 : ℕ) : K) * y < 0)))) = if y = 0 then FV.inf b else FV.inf (xor b (decide (y < 0)))
    have h0 : ((n + 1 : ℕ) : K) * y = 0 ↔ y = 0 := by rw [mul_eq_zero]; exact or_iff_right hp.ne'
    have h1 : ((n + 1 : ℕ) : K) * y < 0 ↔ y < 0 := neg_times hp y
    simp only [h0, h1]
  · rfl
  · rw [FV.fin_div_fin, FV.fin_div_fin]
    have h0 : ∀ z : K, ((n + 1 : ℕ) : K) * z = 0 ↔ z = 0 := fun z => by rw [mul_eq_zero]; exact or_iff_right hp.ne'
    have h1 : ((n + 1 : ℕ) : K) * x < 0 ↔ x < 0 := neg_times hp x
    simp only [h0, h1, mul_div_mul_left _ _ hp.ne']

end floats
end WBX
