import Verif.Lemmas.Chunking
import Verif.Model.FV
import Mathlib.Data.Rat.Defs
import Mathlib.Algebra.Ring.Rat
import Mathlib.Algebra.Order.Ring.Rat
import Mathlib.Tactic.NormNum

/-!
# Properties C07, C11: chunk invariance and two-stage reduction
-/

set_option linter.unusedSectionVars false

namespace WBX
open DA
variable {L V : Type} [DecidableEq L]

/-! ## C07 -/
section C07
variable [AddCommMonoid V] [Mul V] [One V] [IsNull V]

/-- C07: split all statistics into chunks along dimension `c` (reduced or kept), aggregate every chunk and sum the
states: no step raises and the result is the state of the whole. `V` is arbitrary, in particular `FV K` with NaN and
infinities. -/
theorem C07_chunked_equals_whole (agg : Aggregator L V) (c : Dim) (hloc : agg.Local c)
    (statistics : List (String × List (String × Option (StatVar L V)))) (hk : UniqueKeys statistics)
    (Ss : List (Finset L)) (hne : Ss ≠ [])
    (hdim : ∀ st ∈ statistics, ∀ k s, (k, some s) ∈ st.2 → c ∈ s.arr.dims ∧ Partition Ss (s.arr.coords c))
    (whole : AggState L V) (hw : agg.aggregateStatistics statistics = .ok whole) :
    ∃ parts : Finset L → AggState L V, ∃ r,
      (∀ S, agg.aggregateStatistics (chunkOf c S statistics) = .ok (parts S)) ∧
      AggState.sum (Ss.map parts) = .ok r ∧ r.Same whole :=
  hloc.splits.chunked statistics hk Ss hne hdim whole hw

/-- C07: the same for chunks of a grid over two dimensions (init_time x lead_time chunks). -/
theorem C07_grid_of_chunks (agg : Aggregator L V) (c c' : Dim) (hcc : c ≠ c') (hloc : agg.Local c)
    (hloc' : agg.Local c')
    (statistics : List (String × List (String × Option (StatVar L V)))) (hk : UniqueKeys statistics)
    (Ss Ts : List (Finset L)) (hne : Ss ≠ []) (hne' : Ts ≠ [])
    (hdim : ∀ st ∈ statistics, ∀ k s, (k, some s) ∈ st.2 → c ∈ s.arr.dims ∧ Partition Ss (s.arr.coords c) ∧
      c' ∈ s.arr.dims ∧ Partition Ts (s.arr.coords c'))
    (whole : AggState L V) (hw : agg.aggregateStatistics statistics = .ok whole) :
    ∃ parts : Finset L × Finset L → AggState L V, ∃ r,
      (∀ p, agg.aggregateStatistics (chunkOf c' p.2 (chunkOf c p.1 statistics)) = .ok (parts p)) ∧
      AggState.sum ((Ss ×ˢ Ts).map parts) = .ok r ∧ r.Same whole :=
  hloc.splits.grid hcc hloc'.splits statistics hk Ss Ts hne hne' hdim whole hw

end C07

/-- C07, bins discovered per chunk (`ByExactCoord`): over finite values (a semiring, no NaN) the result is still the
state of the whole, because the combining sum fills a bin missing from a chunk with zero. -/
theorem C07_bins_varying_per_chunk [Semiring V] [IsNull V] (agg : Aggregator L V) (c : Dim) (hloc : agg.VaryingLocal c)
    (statistics : List (String × List (String × Option (StatVar L V)))) (hk : UniqueKeys statistics)
    (Ss : List (Finset L)) (hne : Ss ≠ [])
    (hdim : ∀ st ∈ statistics, ∀ k s, (k, some s) ∈ st.2 → c ∈ s.arr.dims ∧ Partition Ss (s.arr.coords c))
    (whole : AggState L V) (hw : agg.aggregateStatistics statistics = .ok whole) :
    ∃ parts : Finset L → AggState L V, ∃ r,
      (∀ S, agg.aggregateStatistics (chunkOf c S statistics) = .ok (parts S)) ∧
      AggState.sum (Ss.map parts) = .ok r ∧ r.Same whole :=
  hloc.splits.chunked statistics hk Ss hne hdim whole hw

/-- Arrays without the chunked dimension give the same result in each of `n` chunks; their combining sum is `n` times
the array. -/
theorem C07_without_chunk_dim_counts_once_per_chunk [AddCommMonoid V] (a : DA L V) (n : ℕ) (e : Dim → L)
    (he : a.InDom e) : (combiningSum (List.replicate n a)).val e = n • a.val e := by
  rw [combiningSum_val, List.map_replicate, if_pos he, List.sum_replicate]

/-! ### Concrete data meeting the hypotheses -/

/-- An array over t = 0..2 and x = 0..1. -/
def exStat : DA ℕ ℚ :=
  { dims := {"t", "x"}, coords := fun d => if d = "t" then {0, 1, 2} else {0, 1}, val := fun e => e "t" + 10 * e "x" }

/-- Weights along x: 1 and 3. -/
def exWeights : DA ℕ ℚ :=
  { dims := {"x"}, coords := fun _ => {0, 1}, val := fun e => if e "x" = 0 then 1 else 3 }

instance : IsNull ℚ := ⟨fun _ => false⟩

/-- Two bins of t: even and odd. -/
def exBin : BinBy ℕ ℚ :=
  { binDim := "parity", createBinMask := fun a =>
      { dims := {"t", "parity"}, coords := fun d => if d = "t" then a.coords "t" else {0, 1},
        val := fun e => if e "t" % 2 = e "parity" then 1 else 0 } }

def exAgg : Aggregator ℕ ℚ := { reduceDims := ["t", "x"], binBy := [exBin], weighBy := [fun _ => exWeights] }

def exStatistics : List (String × List (String × Option (StatVar ℕ ℚ))) :=
  [("SquaredError", [("t2m", some ⟨exStat, none⟩), ("missing", none)])]

theorem exAgg_local : exAgg.Local "t" := by
  refine ⟨?_, ?_⟩
  · intro w hw
    simp only [exAgg, List.mem_singleton] at hw
    subst hw
    intro a S _
    refine ⟨rfl, ?_, fun _ _ => rfl⟩
    intro d hd
    simp only [exWeights, Finset.mem_singleton] at hd
    subst hd
    rfl
  · intro b hb
    simp only [exAgg, List.mem_singleton] at hb
    subst hb
    intro a S _
    refine ⟨rfl, ?_, fun _ _ => rfl⟩
    intro d hd
    simp only [exBin, Finset.mem_insert, Finset.mem_singleton] at hd
    rcases hd with rfl | rfl <;> simp [exBin, restrict]

theorem exAgg_var : ∃ p, exAgg.aggregateStatVar ⟨exStat, none⟩ = .ok (some p) := by
  obtain ⟨-, -, -, h⟩ := Aggregator.aggregationFn_eq exAgg exStat
  obtain ⟨-, -, -, h'⟩ := Aggregator.aggregationFn_eq exAgg (exStat.map (fun _ => 1))
  have hd : ∀ d ∈ exAgg.reduceDims, d ∈ exStat.dims := by simp [exAgg, exStat]
  have hb : (exAgg.binBy.map (·.binDim)).Nodup := by simp [exAgg]
  have hm : ∀ a : DA ℕ ℚ, a.dims = {"t", "x"} → Aggregator.BinsApply exAgg.binBy a := by
    intro a ha b hb
    simp only [exAgg, List.mem_singleton] at hb
    subst hb
    rw [ha]
    simp [exBin]
  rw [Aggregator.aggregateStatVar_eq, show exAgg.applyMask ⟨exStat, none⟩ = (exStat, exStat.map (fun _ => 1)) from rfl]
  simp only
  rw [h hd hb (hm _ rfl), h' hd hb (hm _ rfl)]
  exact ⟨_, rfl⟩

example : ∃ whole, exAgg.aggregateStatistics exStatistics = .ok whole ∧ whole ≠ none := by
  obtain ⟨p, hp⟩ := exAgg_var
  simp only [Aggregator.aggregateStatistics, exStatistics, Aggregator.perStat, Aggregator.aggregateStatVars,
    Aggregator.perVar, hp, bind, Except.bind, pure, Except.pure]
  exact ⟨_, rfl, by simp⟩

example : ∀ st ∈ exStatistics, ∀ k s, (k, some s) ∈ st.2 →
    "t" ∈ s.arr.dims ∧ Partition [{0, 2}, {1}] (s.arr.coords "t") := by
  intro st hst k s hs
  simp only [exStatistics, List.mem_singleton] at hst
  subst hst
  simp at hs
  obtain ⟨rfl, rfl⟩ := hs
  refine ⟨by simp [exStat], by simp, ?_⟩
  intro l hl
  simp [exStat] at hl ⊢
  omega

example : UniqueKeys exStatistics := by
  refine ⟨by simp [exStatistics], ?_⟩
  intro st hst
  simp only [exStatistics, List.mem_singleton] at hst
  subst hst
  simp

/-! ## C11 -/
section C11
variable [AddCommMonoid V] [Mul V] [One V] [IsNull V]

/-- The aggregator that also reduces `B`. -/
def Aggregator.alsoReduce (agg : Aggregator L V) (B : List Dim) : Aggregator L V :=
  { agg with reduceDims := agg.reduceDims ++ B }

theorem Aggregator.applyMask_reduceDims (agg : Aggregator L V) (ds : List Dim) (s : StatVar L V) :
    ({ agg with reduceDims := ds } : Aggregator L V).applyMask s = agg.applyMask s := rfl

theorem sumDims_two_stage (A B : List Dim) (hd : ∀ d ∈ B, d ∉ A) (P : DA L V) :
    sumDims B.dedup (sumDims A.dedup P) = sumDims (A ++ B).dedup P := by
  rw [sumDims_eq, sumDims_eq, sumDims_eq]
  have hperm : (A ++ B).dedup.Perm (A.dedup ++ B.dedup) := by
    have : List.Disjoint A B := fun d h1 h2 => hd d h2 h1
    rw [this.dedup_append]
  rw [DA.mk.injEq]
  refine ⟨?_, rfl, ?_⟩
  · ext d; simp [and_assoc]
  · rw [sumVal_perm hperm (List.nodup_dedup _)]
    funext e
    rw [sumVal_append]

/-- C11: aggregate over `A` (the aggregator's `reduce_dims`), then `sum_along_dims(B)`: exactly the state of the
one-stage aggregation over `A` and `B`, for any weights and bins. -/
theorem C11_two_stage (agg : Aggregator L V) (B : List Dim) (hdisj : ∀ d ∈ B, d ∉ agg.reduceDims)
    (statistics : List (String × List (String × Option (StatVar L V)))) (hk : UniqueKeys statistics)
    (hB : ∀ st ∈ statistics, ∀ k s, (k, some s) ∈ st.2 → ∀ d ∈ B, d ∈ s.arr.dims)
    (s1 : AggState L V) (h1 : agg.aggregateStatistics statistics = .ok s1) :
    ∃ s2, s1.sumAlongDims B = .ok s2 ∧
      ({ agg with reduceDims := agg.reduceDims ++ B } : Aggregator L V).aggregateStatistics statistics = .ok s2 := by
  have hok := Aggregator.aggregateStatistics_ok h1
  let agg' : Aggregator L V := { agg with reduceDims := agg.reduceDims ++ B }
  -- one array
  have hfn : ∀ (stat : DA L V), (∀ d ∈ B, d ∈ stat.dims) →
      (agg.aggregationFn stat = .ok none → agg'.aggregationFn stat = .ok none) ∧
      (∀ r, agg.aggregationFn stat = .ok (some r) → (∀ d ∈ B, d ∈ r.dims) ∧
        agg'.aggregationFn stat = .ok (some (sumDims B.dedup r))) := by
    intro stat hBs
    obtain ⟨a1, a2, a3, a4⟩ := Aggregator.aggregationFn_eq agg stat
    obtain ⟨b1, b2, b3, b4⟩ := Aggregator.aggregationFn_eq agg' stat
    constructor
    · intro hn
      by_cases c1 : ∀ d ∈ agg.reduceDims, d ∈ stat.dims
      · have c1' : ∀ d ∈ agg'.reduceDims, d ∈ stat.dims := by
          intro d hd
          rcases List.mem_append.mp hd with hd | hd
          · exact c1 d hd
          · exact hBs d hd
        by_cases c2 : (agg.binBy.map (·.binDim)).Nodup
        · by_cases c3 : Aggregator.BinsApply agg.binBy stat
          · rw [a4 c1 c2 c3] at hn; simp at hn
          · exact b3 c1' c2 c3
        · rw [a2 c1 c2] at hn; simp at hn
      · exact b1 (fun h => c1 (fun d hd => h d (List.mem_append_left _ hd)))
    · intro r hr
      obtain ⟨c1, c2, c3, rfl⟩ := Aggregator.aggregationFn_some hr
      have c1' : ∀ d ∈ agg'.reduceDims, d ∈ stat.dims := by
        intro d hd
        rcases List.mem_append.mp hd with hd | hd
        · exact c1 d hd
        · exact hBs d hd
      refine ⟨?_, ?_⟩
      · intro d hd
        unfold DA.dot
        rw [sumDims_eq]
        simp only [Finset.mem_sdiff, List.mem_toFinset, List.mem_dedup]
        exact ⟨Aggregator.mem_dims_product agg (hBs d hd), hdisj d hd⟩
      · rw [b4 c1' c2 c3]
        unfold DA.dot
        rw [sumDims_two_stage _ _ hdisj]
  obtain ⟨T1, T2, w1, w2, q1, q2, hT⟩ := Aggregator.state_table (J := Bool)
    (fun b => if b then agg' else agg) (fun _ => id)
    (fun v => (∀ d ∈ B, d ∈ (v false).dims) ∧ v true = sumDims B.dedup (v false))
    (fun v => (∀ d ∈ B, d ∈ (v false).dims) ∧ v true = sumDims B.dedup (v false)) statistics hk (by
      intro st hst k s hs
      have hd := hB st hst k s hs
      have hd1 : ∀ d ∈ B, d ∈ (agg.applyMask s).1.dims := fun d h => (Aggregator.applyMask_dims agg s (hd d h)).1
      have hd2 : ∀ d ∈ B, d ∈ (agg.applyMask s).2.dims := fun d h => (Aggregator.applyMask_dims agg s (hd d h)).2
      obtain ⟨o, ho⟩ := hok st hst k s hs
      have hm : agg'.applyMask s = agg.applyMask s := rfl
      rw [Aggregator.aggregateStatVar_eq] at ho
      cases e1 : agg.aggregationFn (agg.applyMask s).1 with
      | error e => simp [e1, Except.bind] at ho
      | ok a =>
        cases e2 : agg.aggregationFn (agg.applyMask s).2 with
        | error e => simp [e1, e2, Except.bind] at ho
        | ok b =>
          have f1 := hfn _ hd1
          have f2 := hfn _ hd2
          rcases a with _ | a
          · left
            intro j
            rcases b with _ | b <;> cases j <;>
              simp [Aggregator.aggregateStatVar_eq, e1, e2, Except.bind, hm, f1.1 e1]
            · rw [f2.1 e2]
            · rw [(f2.2 _ e2).2]
          · rcases b with _ | b
            · left
              intro j
              cases j <;> simp [Aggregator.aggregateStatVar_eq, e1, e2, Except.bind, hm, f2.1 e2, (f1.2 _ e1).2]
            · right
              refine ⟨fun j => if j then sumDims B.dedup a else a, fun j => if j then sumDims B.dedup b else b,
                fun j => ?_, ⟨(f1.2 _ e1).1, rfl⟩, ⟨(f2.2 _ e2).1, rfl⟩⟩
              cases j <;> simp [Aggregator.aggregateStatVar_eq, e1, e2, Except.bind, hm, (f1.2 _ e1).2, (f2.2 _ e2).2])
  have hf := hT false
  have ht := hT true
  simp only [Aggregator.trStats_id, if_neg Bool.false_ne_true, if_true] at hf ht
  rw [h1] at hf
  injection hf with hf
  subst hf
  refine ⟨_, ?_, ht⟩
  rw [AggState.sumAlongDims_table B w1 w2 (Tree.all_imp (fun _ h => h.1) _ q1) (Tree.all_imp (fun _ h => h.1) _ q2)]
  congr 3
  · rw [Tree.map_eq_map_iff]
    exact Tree.all_imp (fun v h => h.2.symm) T1 q1
  · rw [Tree.map_eq_map_iff]
    exact Tree.all_imp (fun v h => h.2.symm) T2 q2

/-- C11: the order (and multiplicity) in which the reduced dimensions are listed is irrelevant. -/
theorem C11_order (agg : Aggregator L V) (ds : List Dim) (hds : ∀ d, d ∈ ds ↔ d ∈ agg.reduceDims)
    (statistics : List (String × List (String × Option (StatVar L V)))) :
    ({ agg with reduceDims := ds } : Aggregator L V).aggregateStatistics statistics
      = agg.aggregateStatistics statistics := by
  have hfn : ∀ stat, ({ agg with reduceDims := ds } : Aggregator L V).aggregationFn stat = agg.aggregationFn stat := by
    intro stat
    obtain ⟨a1, a2, a3, a4⟩ := Aggregator.aggregationFn_eq agg stat
    obtain ⟨b1, b2, b3, b4⟩ := Aggregator.aggregationFn_eq ({ agg with reduceDims := ds } : Aggregator L V) stat
    by_cases c1 : ∀ d ∈ agg.reduceDims, d ∈ stat.dims
    · have c1' : ∀ d ∈ ds, d ∈ stat.dims := fun d hd => c1 d ((hds d).mp hd)
      by_cases c2 : (agg.binBy.map (·.binDim)).Nodup
      · by_cases c3 : Aggregator.BinsApply agg.binBy stat
        · rw [a4 c1 c2 c3, b4 c1' c2 c3]
          simp only
          unfold DA.dot
          rw [sumDims_eq, sumDims_eq, sumVal_perm (ds' := agg.reduceDims.dedup) _ (List.nodup_dedup _)]
          · congr 4
            ext d
            simp [hds]
          · rw [List.perm_ext_iff_of_nodup (List.nodup_dedup _) (List.nodup_dedup _)]
            intro d
            simp [hds]
        · rw [a3 c1 c2 c3, b3 c1' c2 c3]
      · rw [a2 c1 c2, b2 c1' c2]
    · rw [a1 c1, b1 (fun h => c1 (fun d hd => h d ((hds d).mpr hd)))]
  have hsv : ∀ s, ({ agg with reduceDims := ds } : Aggregator L V).aggregateStatVar s = agg.aggregateStatVar s := by
    intro s
    rw [Aggregator.aggregateStatVar_eq, Aggregator.aggregateStatVar_eq]
    simp only [hfn, Aggregator.applyMask_reduceDims]
  have hpv : ∀ stats, ({ agg with reduceDims := ds } : Aggregator L V).perVar stats = agg.perVar stats := by
    intro stats
    induction stats with
    | nil => rfl
    | cons kv stats ih =>
      rcases kv with ⟨k, _ | s⟩
      · simpa only [Aggregator.perVar] using ih
      · simp only [Aggregator.perVar, hsv, ih]
  have hps : ∀ sts, ({ agg with reduceDims := ds } : Aggregator L V).perStat sts = agg.perStat sts := by
    intro sts
    induction sts with
    | nil => rfl
    | cons kv sts ih => simp only [Aggregator.perStat, Aggregator.aggregateStatVars, hpv, ih]
  simp only [Aggregator.aggregateStatistics, hps]

end C11

example : (∀ d ∈ ["x"], d ∉ ({ exAgg with reduceDims := ["t"] } : Aggregator ℕ ℚ).reduceDims) ∧
    ∀ st ∈ exStatistics, ∀ k s, (k, some s) ∈ st.2 → ∀ d ∈ ["x"], d ∈ s.arr.dims := by
  refine ⟨by simp, ?_⟩
  intro st hst k s hs
  simp only [exStatistics, List.mem_singleton] at hst
  subst hst
  simp at hs
  obtain ⟨rfl, rfl⟩ := hs
  simp [exStat]

end WBX
