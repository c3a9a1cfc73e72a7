import Verif.Lemmas.Mean
import Mathlib.Algebra.BigOperators.Ring.Finset
import Mathlib.Algebra.Ring.Rat
import Mathlib.Tactic.NormNum

/-!
# Properties C12, C13: which variables survive aggregation; partitioning bins
-/

set_option linter.unusedSectionVars false

namespace WBX
open DA Aggregator
variable {L V : Type} [DecidableEq L]

/-! ## C12 -/
section C12
variable [AddCommMonoid V] [Mul V] [One V] [IsNull V]

/-- The dimensions of the bin masks are determined by the dimensions of the statistic. -/
def Aggregator.MaskDims (agg : Aggregator L V) : Prop :=
  ∀ b ∈ agg.binBy, ∀ a a' : DA L V, a.dims = a'.dims → (b.createBinMask a).dims = (b.createBinMask a').dims

/-- A variable can be reduced: it has all `reduce_dims`, and bin masks use, apart from their bin dimension, only
dimensions the variable has. -/
def Aggregator.Reducible (agg : Aggregator L V) (a : DA L V) : Prop :=
  (∀ d ∈ agg.reduceDims, d ∈ a.dims) ∧
  ∀ b ∈ agg.binBy, ∀ d ∈ (b.createBinMask a).dims, d ≠ b.binDim → d ∈ a.dims

theorem binsApply_iff (bs : List (BinBy L V)) (a : DA L V) :
    BinsApply bs a ↔ ∀ b ∈ bs, ∀ d ∈ (b.createBinMask a).dims, d ≠ b.binDim → d ∈ a.dims := by
  unfold BinsApply
  refine forall₂_congr (fun b _ => ?_)
  rw [Finset.subset_iff]
  simp only [Finset.mem_sdiff, Finset.mem_singleton, and_imp]

/-- Masking leaves the dimensions unchanged (the mask is a coordinate of the variable). -/
theorem applyMask_dims_eq (agg : Aggregator L V) (s : StatVar L V) (hm : ∀ m, s.mask = some m → m.dims ⊆ s.arr.dims) :
    (agg.applyMask s).1.dims = s.arr.dims ∧ (agg.applyMask s).2.dims = s.arr.dims := by
  rcases s with ⟨arr, mask⟩
  cases h1 : agg.masked <;> cases mask with
  | none =>
    cases hs : agg.skipna <;> simp [applyMask, h1, hs, where_, DA.map, zipWith]
  | some m =>
    have h : m.dims ⊆ arr.dims := hm m rfl
    have h' : m.dims ∪ arr.dims = arr.dims := Finset.union_eq_right.mpr h
    have h'' : arr.dims ∪ m.dims = arr.dims := Finset.union_eq_left.mpr h
    cases hs : agg.skipna <;> simp [applyMask, h1, hs, where_, broadcastLike, DA.map, zipWith, h', h'']

/-- C12: for distinct bin dimension names, aggregating one variable never raises; it yields a result iff the variable
is reducible, otherwise `None`. -/
theorem C12_variable_survives_iff (agg : Aggregator L V) (hb : (agg.binBy.map (·.binDim)).Nodup) (hmd : agg.MaskDims)
    (s : StatVar L V) (hm : ∀ m, s.mask = some m → m.dims ⊆ s.arr.dims) :
    (agg.Reducible s.arr → ∃ p, agg.aggregateStatVar s = .ok (some p)) ∧
    (¬ agg.Reducible s.arr → agg.aggregateStatVar s = .ok none) := by
  obtain ⟨d1, d2⟩ := applyMask_dims_eq agg s hm
  have key : ∀ a : DA L V, a.dims = s.arr.dims →
      (agg.Reducible s.arr → ∃ r, agg.aggregationFn a = .ok (some r)) ∧
      (¬ agg.Reducible s.arr → agg.aggregationFn a = .ok none) := by
    intro a ha
    obtain ⟨h1, h2, h3, h4⟩ := aggregationFn_eq agg a
    have hB : BinsApply agg.binBy a ↔ ∀ b ∈ agg.binBy, ∀ d ∈ (b.createBinMask s.arr).dims, d ≠ b.binDim → d ∈ s.arr.dims := by
      rw [binsApply_iff]
      refine forall₂_congr (fun b hb' => ?_)
      rw [hmd b hb' a s.arr ha, ha]
    constructor
    · rintro ⟨g1, g2⟩
      exact ⟨_, h4 (by rw [ha]; exact g1) hb (hB.mpr g2)⟩
    · intro hn
      by_cases c1 : ∀ d ∈ agg.reduceDims, d ∈ a.dims
      · exact h3 c1 hb (fun hh => hn ⟨by rw [← ha]; exact c1, hB.mp hh⟩)
      · exact h1 c1
  obtain ⟨k1, k1'⟩ := key _ d1
  obtain ⟨k2, k2'⟩ := key _ d2
  rw [aggregateStatVar_eq]
  constructor
  · intro hr
    obtain ⟨r1, e1⟩ := k1 hr
    obtain ⟨r2, e2⟩ := k2 hr
    exact ⟨(r1, r2), by simp [e1, e2, Except.bind]⟩
  · intro hr
    simp [k1' hr, k2' hr, Except.bind]

/-- The keys of a two-level structure. -/
def keys2 {α : Type} : Tree α → List (String × List String)
  | .dict d => go d
  | _ => []
where
  go : Dict α → List (String × List String)
  | .nil => []
  | .cons k (.dict d) rest => (k, d.keys) :: go rest
  | .cons k _ rest => (k, []) :: go rest

theorem keys2_ofList {α : Type} (tb : List (String × List (String × α))) :
    keys2 (.dict (Dict.ofList (tb.map (fun p => (p.1, leaves p.2))))) = tb.map (fun p => (p.1, p.2.map Prod.fst)) := by
  unfold keys2
  induction tb with
  | nil => rfl
  | cons p tb ih =>
    simp only [List.map_cons, Dict.ofList, leaves, keys2.go, keys_ofList, List.map_map] at ih ⊢
    rw [ih]
    rfl

open Classical in
/-- C12: a dictionary of statistics is aggregated without error, and both parts of the state have exactly the same
keys: every statistic name (possibly with no variable left), and under it, in order, the variables that are not `None`
and are reducible. -/
theorem C12_state_keys (agg : Aggregator L V) (hb : (agg.binBy.map (·.binDim)).Nodup) (hmd : agg.MaskDims)
    (statistics : List (String × List (String × Option (StatVar L V))))
    (hm : ∀ st ∈ statistics, ∀ k s, (k, some s) ∈ st.2 → ∀ m, s.mask = some m → m.dims ⊆ s.arr.dims) :
    ∃ sws sw, agg.aggregateStatistics statistics = .ok (some (sws, sw)) ∧
      keys2 sws = statistics.map (fun st => (st.1, (st.2.filter
        (fun vr => ∃ s, vr.2 = some s ∧ agg.Reducible s.arr)).map Prod.fst)) ∧
      keys2 sw = keys2 sws := by
  have hv : ∀ stats : List (String × Option (StatVar L V)),
      (∀ k s, (k, some s) ∈ stats → ∀ m, s.mask = some m → m.dims ⊆ s.arr.dims) →
      ∃ r, agg.perVar stats = .ok r ∧ r.map Prod.fst = (stats.filter
        (fun vr => ∃ s, vr.2 = some s ∧ agg.Reducible s.arr)).map Prod.fst := by
    intro stats
    induction stats with
    | nil => intro _; exact ⟨[], rfl, rfl⟩
    | cons kv stats ih =>
      intro h
      obtain ⟨rs, r1, r2⟩ := ih (fun k s hs => h k s (by simp [hs]))
      rcases kv with ⟨k, _ | s⟩
      · exact ⟨rs, by simpa only [perVar] using r1, by simp [r2]⟩
      · obtain ⟨g1, g2⟩ := C12_variable_survives_iff agg hb hmd s (h k s (by simp))
        by_cases hr : agg.Reducible s.arr
        · obtain ⟨p, hp⟩ := g1 hr
          refine ⟨(k, p) :: rs, ?_, ?_⟩
          · simp [perVar, hp, r1, bind, Except.bind, pure, Except.pure]
          · simp [hr, r2]
        · refine ⟨rs, ?_, ?_⟩
          · simp [perVar, g2 hr, r1, bind, Except.bind, pure, Except.pure]
          · simp [hr, r2]
  have hs : ∀ sts : List (String × List (String × Option (StatVar L V))),
      (∀ st ∈ sts, ∀ k s, (k, some s) ∈ st.2 → ∀ m, s.mask = some m → m.dims ⊆ s.arr.dims) →
      ∃ tb : List (String × List (String × (DA L V × DA L V))),
        agg.perStat sts = .ok (tb.map (fun p => (p.1, (leaves (p.2.map (fun q => (q.1, q.2.1))),
          leaves (p.2.map (fun q => (q.1, q.2.2))))))) ∧
        tb.map (fun p => (p.1, p.2.map Prod.fst)) = sts.map (fun st => (st.1, (st.2.filter
          (fun vr => ∃ s, vr.2 = some s ∧ agg.Reducible s.arr)).map Prod.fst)) := by
    intro sts
    induction sts with
    | nil => intro _; exact ⟨[], rfl, rfl⟩
    | cons st sts ih =>
      intro h
      obtain ⟨tb, t1, t2⟩ := ih (fun st hst => h st (by simp [hst]))
      obtain ⟨r, r1, r2⟩ := hv st.2 (h st (by simp))
      refine ⟨(st.1, r) :: tb, ?_, ?_⟩
      · simp [perStat, aggregateStatVars, r1, t1, bind, Except.bind, pure, Except.pure]
      · simp only [List.map_cons, t2, r2]
  obtain ⟨tb, t1, t2⟩ := hs statistics hm
  refine ⟨_, _, by simp [aggregateStatistics, t1, bind, Except.bind, pure, Except.pure]; exact ⟨rfl, rfl⟩, ?_, ?_⟩
  · rw [← t2]
    have := keys2_ofList (tb.map (fun p => (p.1, p.2.map (fun q => (q.1, q.2.1)))))
    simpa [List.map_map, Function.comp_def] using this
  · have h1 := keys2_ofList (tb.map (fun p => (p.1, p.2.map (fun q => (q.1, q.2.1)))))
    have h2 := keys2_ofList (tb.map (fun p => (p.1, p.2.map (fun q => (q.1, q.2.2)))))
    simp only [List.map_map, Function.comp_def] at h1 h2 ⊢
    exact h2.trans h1.symm

/-- C12: repeated bin dimension names raise `ValueError` for a variable that has all `reduce_dims`. -/
theorem C12_duplicate_bin_names (agg : Aggregator L V) (hb : ¬ (agg.binBy.map (·.binDim)).Nodup) (s : StatVar L V)
    (hd : ∀ d ∈ agg.reduceDims, d ∈ s.arr.dims) : agg.aggregateStatVar s = .error .valueError := by
  rw [aggregateStatVar_eq]
  obtain ⟨-, h2, -⟩ := aggregationFn_eq agg (agg.applyMask s).1
  rw [h2 (fun d hdd => (applyMask_dims agg s (hd d hdd)).1) hb]
  rfl

/-- C12: but not for a variable lacking one of the `reduce_dims`: it is dropped silently. -/
theorem C12_duplicate_bin_names_unreduced (agg : Aggregator L V) (s : StatVar L V)
    (hm : ∀ m, s.mask = some m → m.dims ⊆ s.arr.dims) (d : Dim) (hdr : d ∈ agg.reduceDims) (hd : d ∉ s.arr.dims) :
    agg.aggregateStatVar s = .ok none := by
  obtain ⟨d1, d2⟩ := applyMask_dims_eq agg s hm
  rw [aggregateStatVar_eq]
  obtain ⟨h1, -⟩ := aggregationFn_eq agg (agg.applyMask s).1
  obtain ⟨h2, -⟩ := aggregationFn_eq agg (agg.applyMask s).2
  rw [h1 (fun h => hd (d1 ▸ h d hdr)), h2 (fun h => hd (d2 ▸ h d hdr))]
  rfl

end C12

/-! ## C13 -/
section C13
variable [CommSemiring V] [IsNull V]

/-- The masks of binning `b` partition the cells of `a`: summed over the bins they are 1 at every cell (for 0/1 masks:
exactly one bin contains the cell), and the mask has all labels of `a`. -/
def PartitionBins (b : BinBy L V) (a : DA L V) : Prop :=
  b.binDim ∈ (b.createBinMask a).dims ∧ CoversLabels (b.createBinMask a) a ∧
  ∀ e, a.InDom e → ∑ l ∈ (b.createBinMask a).coords b.binDim, (b.createBinMask a).val (setLabel e b.binDim l) = 1

/-- An array that does not involve dimension `B`. -/
def Ignores (B : Dim) (a : DA L V) : Prop := B ∉ a.dims ∧ ∀ e l, a.val (setLabel e B l) = a.val e

theorem foldl_perm_val (ms ms' : List (DA L V)) (h : ms.Perm ms') (a : DA L V) (e : Dim → L) :
    (ms.foldl (zipWith (· * ·)) a).val e = (ms'.foldl (zipWith (· * ·)) a).val e := by
  rw [foldl_val, foldl_val, foldl_mul_prod, foldl_mul_prod, (h.map _).prod_eq]

/-- C13, one array: summing the binned aggregate over the bin dimension gives the aggregate without that binning. -/
theorem C13_array (agg : Aggregator L V) (pre post : List (BinBy L V)) (b : BinBy L V)
    (hbins : agg.binBy = pre ++ b :: post) (stat r : DA L V) (h : agg.aggregationFn stat = .ok (some r))
    (hB : b.binDim ∉ agg.reduceDims) (hstat : Ignores b.binDim stat)
    (hw : ∀ w ∈ agg.weighBy, Ignores b.binDim (w stat))
    (hother : ∀ b' ∈ pre ++ post, Ignores b.binDim (b'.createBinMask stat))
    (hpart : PartitionBins b stat) :
    b.binDim ∈ r.dims ∧ ∃ r', ({ agg with binBy := pre ++ post } : Aggregator L V).aggregationFn stat = .ok (some r') ∧
      (sumDim b.binDim r).Same r' := by
  obtain ⟨h1, h2, h3, rfl⟩ := aggregationFn_some h
  rw [hbins] at h2 h3
  set m := b.createBinMask stat with hmdef
  let fs : List (DA L V) := agg.weighBy.map (fun w => w stat) ++ (pre ++ post).map (fun b => b.createBinMask stat)
  have hfs : ∀ f ∈ fs, Ignores b.binDim f := by
    intro f hf
    simp only [fs, List.mem_append, List.mem_map] at hf
    rcases hf with ⟨w, hw', rfl⟩ | ⟨b', hb', rfl⟩
    · exact hw w hw'
    · exact hother b' (by simpa using hb')
  have hperm : (agg.weighBy.map (fun w => w stat) ++ agg.binBy.map (fun b => b.createBinMask stat)).Perm (m :: fs) := by
    rw [hbins]
    simp only [fs, List.map_append, List.map_cons]
    refine List.Perm.trans ?_ (List.perm_middle (a := m) (l₁ := agg.weighBy.map (fun w => w stat)))
    exact List.Perm.append_left _ List.perm_middle
  have hmd : ∀ d ∈ m.dims, d ≠ b.binDim → d ∈ stat.dims := by
    have := (binsApply_iff _ _).mp h3 b (by simp)
    exact this
  set P := (agg.weighBy.map (fun w => w stat) ++ agg.binBy.map (fun b => b.createBinMask stat)).foldl
    (zipWith (· * ·)) stat with hP
  set Q := fs.foldl (zipWith (· * ·)) stat with hQ
  have hPdims : P.dims = insert b.binDim Q.dims := by
    ext d
    rw [hP, hQ, mem_foldl_zipWith_dims, Finset.mem_insert, mem_foldl_zipWith_dims]
    simp only [hperm.mem_iff, List.mem_cons, exists_eq_or_imp]
    constructor
    · rintro (hd | hd | hd)
      · exact Or.inr (Or.inl hd)
      · by_cases hdb : d = b.binDim
        · exact Or.inl hdb
        · exact Or.inr (Or.inl (hmd d hd hdb))
      · exact Or.inr (Or.inr hd)
    · rintro (hd | hd | hd)
      · exact Or.inr (Or.inl (hd ▸ hpart.1))
      · exact Or.inl hd
      · exact Or.inr (Or.inr hd)
  have hBQ : b.binDim ∉ Q.dims := by
    rw [hQ, mem_foldl_zipWith_dims]
    rintro (hd | ⟨f, hf, hd⟩)
    · exact hstat.1 hd
    · exact (hfs f hf).1 hd
  -- labels of a broadcast product: a label survives iff every factor that has the dimension has it
  have hlab : ∀ (ms : List (DA L V)) (a : DA L V) (d : Dim) (l : L), d ∈ (ms.foldl (zipWith (· * ·)) a).dims →
      (l ∈ (ms.foldl (zipWith (· * ·)) a).coords d ↔ (d ∈ a.dims → l ∈ a.coords d) ∧ ∀ x ∈ ms, d ∈ x.dims → l ∈ x.coords d) := by
    intro ms
    induction ms with
    | nil => intro a d l hd; simp only [List.foldl_nil] at hd ⊢; simp [hd]
    | cons x ms ih =>
      intro a d l hd
      rw [List.foldl_cons] at hd ⊢
      rw [ih _ d l hd]
      have hz : (d ∈ (zipWith (fun x1 x2 => x1 * x2) a x).dims → l ∈ (zipWith (fun x1 x2 => x1 * x2) a x).coords d) ↔
          (d ∈ a.dims → l ∈ a.coords d) ∧ (d ∈ x.dims → l ∈ x.coords d) := by
        simp only [zipWith, joinCoords, Finset.mem_union]
        by_cases ha : d ∈ a.dims <;> by_cases hx : d ∈ x.dims <;> simp [ha, hx]
      rw [hz]
      simp only [List.mem_cons, forall_eq_or_imp, and_assoc]
  have hPc : ∀ d ∈ Q.dims, P.coords d = Q.coords d := by
    intro d hd
    ext l
    rw [hP, hQ, hlab _ _ _ _ (by rw [← hP, hPdims]; exact Finset.mem_insert_of_mem hd), hlab _ _ _ _ hd]
    have hall : (∀ x ∈ agg.weighBy.map (fun w => w stat) ++ agg.binBy.map (fun b => b.createBinMask stat),
        d ∈ x.dims → l ∈ x.coords d) ↔ ∀ x ∈ m :: fs, d ∈ x.dims → l ∈ x.coords d := by
      constructor
      · intro hh x hx; exact hh x (hperm.mem_iff.mpr hx)
      · intro hh x hx; exact hh x (hperm.mem_iff.mp hx)
    rw [hall]
    simp only [List.mem_cons, forall_eq_or_imp]
    constructor
    · rintro ⟨g1, -, g3⟩; exact ⟨g1, g3⟩
    · rintro ⟨g1, g3⟩
      refine ⟨g1, fun hdm => ?_, g3⟩
      have hdb : d ≠ b.binDim := fun hh => hBQ (hh ▸ hd)
      have hds := hmd d hdm hdb
      exact hpart.2.1 d hdm hds (g1 hds)
  have hPb : P.coords b.binDim = m.coords b.binDim := by
    ext l
    rw [hP, hlab _ _ _ _ (by rw [← hP, hPdims]; exact Finset.mem_insert_self _ _)]
    constructor
    · rintro ⟨-, g⟩
      exact g m (hperm.mem_iff.mpr (by simp)) hpart.1
    · intro hl
      refine ⟨fun hd => absurd hd hstat.1, fun x hx hd => ?_⟩
      rcases List.mem_cons.mp (hperm.mem_iff.mp hx) with rfl | hx
      · exact hl
      · exact absurd hd (hfs x hx).1
  have hPv : ∀ e, P.val e = m.val e * Q.val e := by
    intro e
    rw [hP, foldl_perm_val _ _ hperm, hQ, foldl_val, foldl_val, foldl_mul_prod, foldl_mul_prod]
    simp only [List.map_cons, List.prod_cons]
    ring
  have hQi : ∀ e l, Q.val (setLabel e b.binDim l) = Q.val e := by
    intro e l
    rw [hQ, foldl_val, foldl_val, hstat.2]
    congr 1
    apply List.map_congr_left
    intro f hf
    exact (hfs f hf).2 e l
  have hQd : ∀ d ∈ stat.dims, d ∈ Q.dims := by
    intro d hd
    rw [hQ, mem_foldl_zipWith_dims]; exact Or.inl hd
  have hsum : (sumDim b.binDim P).Same Q := by
    refine ⟨?_, ?_, ?_⟩
    · simp only [sumDim, hPdims]
      exact Finset.erase_insert hBQ
    · intro d hd
      simp only [sumDim, hPdims, Finset.erase_insert hBQ] at hd ⊢
      exact hPc d hd
    · intro e he
      simp only [sumDim]
      have hse : stat.InDom e := by
        intro d hd
        have := he d (by simp only [sumDim, hPdims, Finset.erase_insert hBQ]; exact hQd d hd)
        simp only [sumDim] at this
        rw [hPc d (hQd d hd), hQ, hlab _ _ _ _ (by rw [← hQ]; exact hQd d hd)] at this
        exact this.1 hd
      rw [hPb]
      simp only [hPv, hQi]
      rw [← Finset.sum_mul, hpart.2.2 e hse, one_mul]
  have hBr : b.binDim ∉ agg.reduceDims.dedup := by simpa using hB
  refine ⟨?_, DA.dot stat fs agg.reduceDims.dedup, ?_, ?_⟩
  · unfold DA.dot
    rw [sumDims_eq]
    simp only [Finset.mem_sdiff, List.mem_toFinset]
    exact ⟨by rw [← hP, hPdims]; exact Finset.mem_insert_self _ _, hBr⟩
  · obtain ⟨-, -, -, k4⟩ := aggregationFn_eq ({ agg with binBy := pre ++ post } : Aggregator L V) stat
    rw [k4 h1 _ _]
    · rw [List.map_append, List.map_cons] at h2
      rw [List.map_append]
      exact ((List.nodup_middle).mp h2).of_cons
    · intro b' hb'
      exact h3 b' (by simp at hb' ⊢; tauto)
  · unfold DA.dot
    rw [← hP, ← hQ]
    have hcomm : sumDim b.binDim (sumDims agg.reduceDims.dedup P) = sumDims agg.reduceDims.dedup (sumDim b.binDim P) := by
      have e1 : sumDim b.binDim (sumDims agg.reduceDims.dedup P) = sumDims (agg.reduceDims.dedup ++ [b.binDim]) P := by
        rw [show sumDim b.binDim (sumDims agg.reduceDims.dedup P)
          = sumDims [b.binDim] (sumDims agg.reduceDims.dedup P) from rfl, sumDims_eq, sumDims_eq, sumDims_eq]
        rw [DA.mk.injEq]
        refine ⟨by ext d; simp [and_assoc]; tauto, rfl, ?_⟩
        funext e
        rw [sumVal_append]
      have e2 : sumDims agg.reduceDims.dedup (sumDim b.binDim P) = sumDims (b.binDim :: agg.reduceDims.dedup) P := rfl
      rw [e1, e2, sumDims_eq, sumDims_eq, DA.mk.injEq]
      refine ⟨by ext d; simp only [Finset.mem_sdiff, List.mem_toFinset, List.mem_append, List.mem_cons, List.not_mem_nil, or_false]; tauto, rfl, ?_⟩
      refine sumVal_perm (List.perm_append_comm.trans (by simp)) ?_ _ _
      rw [List.nodup_append]
      exact ⟨List.nodup_dedup _, by simp, by
        intro a ha x hx hax
        simp only [List.mem_singleton] at hx
        exact hBr (hx ▸ hax ▸ ha)⟩
    rw [hcomm]
    apply sumDims_congr hsum (List.nodup_dedup _)
    intro d hd
    simp only [sumDim, hPdims, Finset.erase_insert hBQ]
    exact hQd d (h1 d (by simpa using hd))

/-- C13 on whole states: if for every variable the binning `b` partitions the cells, then `sum_along_dims` of the binned
state over the bin dimension is the state of the aggregator without that binning - statistics and weights. -/
theorem C13_partition_bins_add_up (agg : Aggregator L V) (pre post : List (BinBy L V)) (b : BinBy L V)
    (hbins : agg.binBy = pre ++ b :: post) (hB : b.binDim ∉ agg.reduceDims)
    (statistics : List (String × List (String × Option (StatVar L V)))) (hk : UniqueKeys statistics)
    (hvars : ∀ st ∈ statistics, ∀ k s, (k, some s) ∈ st.2 →
      ∀ a ∈ [(agg.applyMask s).1, (agg.applyMask s).2], Ignores b.binDim a ∧
        (∀ w ∈ agg.weighBy, Ignores b.binDim (w a)) ∧
        (∀ b' ∈ pre ++ post, Ignores b.binDim (b'.createBinMask a)) ∧ PartitionBins b a)
    (hred : ∀ st ∈ statistics, ∀ k s, (k, some s) ∈ st.2 → ∃ p, agg.aggregateStatVar s = .ok (some p))
    (s1 : AggState L V) (h1 : agg.aggregateStatistics statistics = .ok s1) :
    ∃ s2 s3, s1.sumAlongDims [b.binDim] = .ok s2 ∧
      ({ agg with binBy := pre ++ post } : Aggregator L V).aggregateStatistics statistics = .ok s3 ∧ s2.Same s3 := by
  let agg' : Aggregator L V := { agg with binBy := pre ++ post }
  obtain ⟨T1, T2, w1, w2, q1, q2, hT⟩ := Aggregator.state_table (J := Bool)
    (fun j => if j then agg' else agg) (fun _ => id)
    (fun v => (∀ d ∈ [b.binDim], d ∈ (v false).dims) ∧ (sumDims [b.binDim].dedup (v false)).Same (v true))
    (fun v => (∀ d ∈ [b.binDim], d ∈ (v false).dims) ∧ (sumDims [b.binDim].dedup (v false)).Same (v true)) statistics hk (by
      intro st hst k s hs
      obtain ⟨p, hp⟩ := hred st hst k s hs
      obtain ⟨e1, e2⟩ := aggregateStatVar_some hp
      obtain ⟨a1, a2, a3, a4⟩ := hvars st hst k s hs (agg.applyMask s).1 (by simp)
      obtain ⟨b1, b2, b3, b4⟩ := hvars st hst k s hs (agg.applyMask s).2 (by simp)
      obtain ⟨f1, r1, g1, g2⟩ := C13_array agg pre post b hbins _ _ e1 hB a1 a2 a3 a4
      obtain ⟨f2, r2, k1, k2⟩ := C13_array agg pre post b hbins _ _ e2 hB b1 b2 b3 b4
      right
      refine ⟨fun j => if j then r1 else p.1, fun j => if j then r2 else p.2, fun j => ?_,
        ⟨by simpa using f1, g2⟩, ⟨by simpa using f2, k2⟩⟩
      cases j
      · exact hp
      · have hm : agg'.applyMask s = agg.applyMask s := rfl
        simp only [if_true, id]
        rw [Aggregator.aggregateStatVar_eq, hm, g1, k1]
        rfl)
  have hf := hT false
  have ht := hT true
  simp only [Aggregator.trStats_id, if_neg Bool.false_ne_true, if_true] at hf ht
  rw [h1] at hf
  injection hf with hf
  subst hf
  refine ⟨_, _, AggState.sumAlongDims_table _ w1 w2 (Tree.all_imp (fun _ h => h.1) _ q1)
    (Tree.all_imp (fun _ h => h.1) _ q2), ht, ?_, ?_⟩
  · exact Tree.rel_columns _ _ _ _ (Tree.all_imp (fun _ h => h.2) _ q1)
  · exact Tree.rel_columns _ _ _ _ (Tree.all_imp (fun _ h => h.2) _ q2)

end C13

/-! ### Concrete data meeting the hypotheses of C12 and C13 -/
namespace C13ex

instance : IsNull ℚ := ⟨fun _ => false⟩

/-- Values at x = 0, 1, 2. -/
def stat : DA ℕ ℚ := { dims := {"x"}, coords := fun _ => {0, 1, 2}, val := fun e => 10 * e "x" }
/-- Bins: even and odd x. -/
def bin : BinBy ℕ ℚ :=
  { binDim := "b", createBinMask := fun a =>
      { dims := {"x", "b"}, coords := fun d => if d = "b" then {0, 1} else a.coords "x",
        val := fun e => if e "x" % 2 = e "b" then 1 else 0 } }
def agg : Aggregator ℕ ℚ := { reduceDims := ["x"], binBy := [bin] }

theorem part (a : DA ℕ ℚ) (hb : "b" ∉ a.dims) : PartitionBins bin a := by
  refine ⟨by simp [bin], ?_, ?_⟩
  · intro d hd ha
    simp only [bin, Finset.mem_insert, Finset.mem_singleton] at hd
    rcases hd with rfl | rfl
    · simp [bin]
    · exact absurd ha hb
  · intro e _
    have : e "x" % 2 = 0 ∨ e "x" % 2 = 1 := by omega
    rcases this with h | h <;> simp [bin, setLabel, h]

theorem binsApply (a : DA ℕ ℚ) (ha : a.dims = {"x"}) : BinsApply agg.binBy a := by
  intro b hb
  simp only [agg, List.mem_singleton] at hb
  subst hb
  rw [ha]
  simp [bin]

theorem maskDims : agg.MaskDims := by
  intro b hb a a' _
  simp only [agg, List.mem_singleton] at hb
  subst hb
  rfl

/-- The hypotheses of C13 hold for a dictionary with one variable. -/
example : ∀ st ∈ [("SE", [("t2m", some (⟨stat, none⟩ : StatVar ℕ ℚ))])], ∀ k s, (k, some s) ∈ st.2 →
      (∀ a ∈ [(agg.applyMask s).1, (agg.applyMask s).2], Ignores bin.binDim a ∧
        (∀ w ∈ agg.weighBy, Ignores bin.binDim (w a)) ∧
        (∀ b' ∈ ([] ++ [] : List (BinBy ℕ ℚ)), Ignores bin.binDim (b'.createBinMask a)) ∧ PartitionBins bin a) ∧
      ∃ p, agg.aggregateStatVar s = .ok (some p) := by
  intro st hst k s hs
  simp only [List.mem_singleton] at hst
  subst hst
  simp at hs
  obtain ⟨rfl, rfl⟩ := hs
  constructor
  · intro a ha
    have ha' : a = stat ∨ a = stat.map (fun _ => 1) := by
      simpa [agg, applyMask] using ha
    refine ⟨?_, by simp [agg], by simp, part a ?_⟩
    · rcases ha' with rfl | rfl
      · exact ⟨by simp [stat, bin], fun e l => by simp [stat, bin, setLabel]⟩
      · exact ⟨by simp [stat, bin, DA.map], fun e l => rfl⟩
    · rcases ha' with rfl | rfl <;> simp [stat, DA.map]
  · refine (C12_variable_survives_iff agg (by simp [agg]) maskDims _ (by simp)).1 ⟨by simp [agg, stat], ?_⟩
    intro b hb d hd hne
    simp only [agg, List.mem_singleton] at hb
    subst hb
    simp [bin] at hd hne
    rcases hd with rfl | rfl
    · simp [stat]
    · exact absurd rfl hne

/-- A variable that lacks the reduced dimension is not reducible. -/
example : ¬ agg.Reducible (DA.scalar 1) := by
  rintro ⟨h, -⟩
  have := h "x" (by simp [agg])
  simp [DA.scalar] at this

end C13ex

end WBX
