import Verif.Lemmas.Mean
import Mathlib.Algebra.Order.BigOperators.Group.Finset
import Mathlib.Algebra.Order.BigOperators.Ring.Finset
import Mathlib.Algebra.BigOperators.Ring.Finset
import Mathlib.Algebra.BigOperators.Field
import Mathlib.Algebra.Ring.Rat
import Mathlib.Algebra.Order.Ring.Rat
import Mathlib.Tactic.FieldSimp
import Mathlib.Tactic.NormNum

/-!
# Properties C08, C09, C10: weighted means, masks and NaN
-/

set_option linter.unusedSectionVars false

namespace WBX
open DA Aggregator
variable {L K : Type} [DecidableEq L]

/-! ## C08 -/
section C08
variable [Field K] [LinearOrder K] [IsStrictOrderedRing K] [IsNull K]

/-- The total weight (product of all weights and bin masks) of a cell. -/
def weightAt (fs : List (DA L K)) (e : Dim → L) : K := (fs.map (fun m => m.val e)).prod

/-- C08: without masking, the aggregated pair of a variable is (Σ x·w, Σ w) over the reduced cells. -/
theorem C08_aggregated_sums (agg : Aggregator L K) (hm : agg.masked = false) (hs : agg.skipna = false)
    (hco : agg.CoordOnly) (s : StatVar L K) (p : DA L K × DA L K) (h : agg.aggregateStatVar s = .ok (some p))
    (hcov : ∀ m ∈ agg.allFactors s.arr, CoversLabels m s.arr)
    (e : Dim → L) (cs : Finset (Dim → L)) (hcs : ReducedCells agg.reduceDims s.arr.coords e cs) :
    p.1.val e = ∑ e' ∈ cs, s.arr.val e' * weightAt (agg.allFactors s.arr) e' ∧
    p.2.val e = ∑ e' ∈ cs, weightAt (agg.allFactors s.arr) e' := by
  obtain ⟨h1, h2⟩ := aggregateStatVar_some h
  rw [applyMask_plain hm hs] at h1 h2
  have hf := hco.allFactors_eq (a := s.arr.map (fun _ => (1 : K))) (a' := s.arr) rfl rfl
  constructor
  · rw [aggregationFn_val h1 hcov e cs hcs]
    apply Finset.sum_congr rfl
    intro e' _
    rw [foldl_mul_prod]; rfl
  · rw [aggregationFn_val h2 (fun m hm => by
      have : m ∈ agg.allFactors (s.arr.map (fun _ => (1 : K))) := hm
      rw [hf] at this
      exact hcov m this) e cs hcs]
    apply Finset.sum_congr rfl
    intro e' _
    rw [foldl_mul_prod]
    change 1 * ((agg.allFactors (s.arr.map (fun _ => (1 : K)))).map (fun m => m.val e')).prod = _
    rw [hf, one_mul]; rfl

/-- C08: `mean_statistics` of an aggregated state never raises; it has the keys of the state, and every leaf is the
quotient sum_weighted_statistics / sum_weights of one aggregated variable. -/
theorem C08_mean_statistics (agg : Aggregator L K)
    (statistics : List (String × List (String × Option (StatVar L K)))) (hk : UniqueKeys statistics)
    (st : AggState L K) (h : agg.aggregateStatistics statistics = .ok st) :
    ∃ T : Tree (DA L K × DA L K), st = some (T.map Prod.fst, T.map Prod.snd) ∧
      AggState.meanStatistics st = .ok (T.map (fun p => DA.zipWith (· / ·) p.1 p.2)) ∧
      T.All (fun p => ∃ stat ∈ statistics, ∃ k v, (k, some v) ∈ stat.2 ∧ agg.aggregateStatVar v = .ok (some p)) := by
  obtain ⟨T, hw, rfl, ha⟩ := state_pairs hk h
  refine ⟨T, rfl, ?_, ha⟩
  simp only [AggState.meanStatistics]
  have := Tree.mapStructure_cols (ι := Bool) (fun
      | [s, w] => .ok (DA.zipWith (· / ·) s w)
      | _ => .error .typeError : List (DA L K) → Except Err (DA L K)) [true, false] (by simp)
    (T.map (fun p b => if b then p.1 else p.2)) ((Tree.wf_map _ _).mpr hw)
  simp only [List.map_cons, List.map_nil, Tree.map_map, if_true, if_neg Bool.false_ne_true] at this
  refine Eq.trans this ?_
  rw [show (fun v : Bool → DA L K => (Except.ok (DA.zipWith (· / ·) (v true) (v false)) : Except Err (DA L K)))
    = fun v => .ok ((fun v : Bool → DA L K => DA.zipWith (· / ·) (v true) (v false)) v) from rfl, Tree.mapE_ok,
    Tree.map_map]
  rfl

/-- The mean of one aggregated variable at a cell. -/
def meanAt (p : DA L K × DA L K) (e : Dim → L) : K := (DA.zipWith (· / ·) p.1 p.2).val e

variable (agg : Aggregator L K) (hm : agg.masked = false) (hs : agg.skipna = false) (hco : agg.CoordOnly)
  (s : StatVar L K) (p : DA L K × DA L K) (h : agg.aggregateStatVar s = .ok (some p))
  (hcov : ∀ m ∈ agg.allFactors s.arr, CoversLabels m s.arr)
  (e : Dim → L) (cs : Finset (Dim → L)) (hcs : ReducedCells agg.reduceDims s.arr.coords e cs)

include hm hs hco h hcov hcs

/-- C08: with nonnegative weights of positive total, the mean lies between any lower and upper bound of the values. -/
theorem C08_mean_between (hw : ∀ e' ∈ cs, 0 ≤ weightAt (agg.allFactors s.arr) e')
    (hpos : 0 < ∑ e' ∈ cs, weightAt (agg.allFactors s.arr) e') (lo hi : K)
    (hlo : ∀ e' ∈ cs, lo ≤ s.arr.val e') (hhi : ∀ e' ∈ cs, s.arr.val e' ≤ hi) :
    lo ≤ meanAt p e ∧ meanAt p e ≤ hi := by
  obtain ⟨h1, h2⟩ := C08_aggregated_sums agg hm hs hco s p h hcov e cs hcs
  unfold meanAt
  simp only [DA.zipWith]
  rw [h1, h2, le_div_iff₀ hpos, div_le_iff₀ hpos, Finset.mul_sum, Finset.mul_sum]
  exact ⟨Finset.sum_le_sum (fun e' he' => mul_le_mul_of_nonneg_right (hlo e' he') (hw e' he')),
    Finset.sum_le_sum (fun e' he' => mul_le_mul_of_nonneg_right (hhi e' he') (hw e' he'))⟩

/-- C08: the mean of a constant is the constant. -/
theorem C08_mean_const (hne : ∑ e' ∈ cs, weightAt (agg.allFactors s.arr) e' ≠ 0) (c : K)
    (hc : ∀ e' ∈ cs, s.arr.val e' = c) : meanAt p e = c := by
  obtain ⟨h1, h2⟩ := C08_aggregated_sums agg hm hs hco s p h hcov e cs hcs
  unfold meanAt
  simp only [DA.zipWith]
  rw [h1, h2, Finset.sum_congr rfl (fun e' he' => by rw [hc e' he']), ← Finset.mul_sum]
  field_simp

/-- C08: multiplying all weights by a common nonzero constant (an additional weighting `c`) leaves the mean unchanged. -/
theorem C08_mean_weight_scale (c : K) (hc : c ≠ 0) (q : DA L K × DA L K)
    (hq : ({ agg with weighBy := (fun _ => DA.scalar c) :: agg.weighBy } : Aggregator L K).aggregateStatVar s
      = .ok (some q)) : meanAt q e = meanAt p e := by
  obtain ⟨h1, h2⟩ := C08_aggregated_sums agg hm hs hco s p h hcov e cs hcs
  have hco' : ({ agg with weighBy := (fun _ => DA.scalar c) :: agg.weighBy } : Aggregator L K).CoordOnly := by
    refine ⟨fun w hw => ?_, hco.2⟩
    rcases List.mem_cons.mp hw with rfl | hw
    · intros; rfl
    · exact hco.1 w hw
  obtain ⟨g1, g2⟩ := C08_aggregated_sums
    ({ agg with weighBy := (fun _ => DA.scalar c) :: agg.weighBy } : Aggregator L K) hm hs hco' s q hq (by
    intro m hm
    simp only [allFactors, List.map_cons, List.cons_append, List.mem_cons] at hm
    rcases hm with rfl | hm
    · intro d hd; simp [DA.scalar] at hd
    · exact hcov m hm) e cs hcs
  have hwt : ∀ e', weightAt (({ agg with weighBy := (fun _ => DA.scalar c) :: agg.weighBy } : Aggregator L K).allFactors
      s.arr) e' = c * weightAt (agg.allFactors s.arr) e' := by
    intro e'
    simp [weightAt, allFactors, DA.scalar, mul_assoc]
  simp only [hwt] at g1 g2
  unfold meanAt
  simp only [DA.zipWith]
  rw [h1, h2, g1, g2, ← Finset.mul_sum]
  have : ∑ e' ∈ cs, s.arr.val e' * (c * weightAt (agg.allFactors s.arr) e')
      = c * ∑ e' ∈ cs, s.arr.val e' * weightAt (agg.allFactors s.arr) e' := by
    rw [Finset.mul_sum]
    exact Finset.sum_congr rfl (fun e' _ => by ring)
  rw [this, mul_div_mul_left _ _ hc]

/-- C08: the mean is linear in the values: for three variables on the same labels with `z = a·x + b·y`. -/
theorem C08_mean_linear (a b : K) (y z : StatVar L K) (py pz : DA L K × DA L K)
    (hy : agg.aggregateStatVar y = .ok (some py)) (hz : agg.aggregateStatVar z = .ok (some pz))
    (dy : y.arr.dims = s.arr.dims) (cy : y.arr.coords = s.arr.coords)
    (dz : z.arr.dims = s.arr.dims) (cz : z.arr.coords = s.arr.coords)
    (hxyz : ∀ e' ∈ cs, z.arr.val e' = a * s.arr.val e' + b * y.arr.val e') :
    meanAt pz e = a * meanAt p e + b * meanAt py e := by
  have fy := hco.allFactors_eq dy cy
  have fz := hco.allFactors_eq dz cz
  obtain ⟨h1, h2⟩ := C08_aggregated_sums agg hm hs hco s p h hcov e cs hcs
  obtain ⟨y1, y2⟩ := C08_aggregated_sums agg hm hs hco y py hy (by
    rw [fy]; intro m hm d hd hda; rw [cy]; exact hcov m hm d hd (dy ▸ hda)) e cs (by rw [cy]; exact hcs)
  obtain ⟨z1, z2⟩ := C08_aggregated_sums agg hm hs hco z pz hz (by
    rw [fz]; intro m hm d hd hda; rw [cz]; exact hcov m hm d hd (dz ▸ hda)) e cs (by rw [cz]; exact hcs)
  rw [fy] at y1 y2
  rw [fz] at z1 z2
  unfold meanAt
  simp only [DA.zipWith]
  rw [h1, h2, y1, y2, z1, z2]
  have : ∑ e' ∈ cs, z.arr.val e' * weightAt (agg.allFactors s.arr) e'
      = a * (∑ e' ∈ cs, s.arr.val e' * weightAt (agg.allFactors s.arr) e')
        + b * ∑ e' ∈ cs, y.arr.val e' * weightAt (agg.allFactors s.arr) e' := by
    rw [Finset.mul_sum, Finset.mul_sum, ← Finset.sum_add_distrib]
    exact Finset.sum_congr rfl (fun e' he' => by rw [hxyz e' he']; ring)
  rw [this]
  ring

end C08

/-! ### Concrete data meeting the hypotheses -/
namespace C08ex

instance : IsNull ℚ := ⟨fun _ => false⟩

/-- x = 0, 1, 2 with values 0, 10, 20. -/
def stat : DA ℕ ℚ := { dims := {"x"}, coords := fun _ => {0, 1, 2}, val := fun e => 10 * e "x" }
/-- weights 1, 2, 3. -/
def wts : DA ℕ ℚ := { dims := {"x"}, coords := fun _ => {0, 1, 2}, val := fun e => e "x" + 1 }
def agg : Aggregator ℕ ℚ := { reduceDims := ["x"], weighBy := [fun _ => wts] }
def cell (n : ℕ) : Dim → ℕ := fun d => if d = "x" then n else 7

example : agg.CoordOnly := by
  refine ⟨?_, by simp [agg]⟩
  intro w hw
  simp [agg] at hw
  subst hw
  intros; rfl
example : ∃ p, agg.aggregateStatVar ⟨stat, none⟩ = .ok (some p) := by
  rw [aggregateStatVar_eq, show agg.applyMask ⟨stat, none⟩ = (stat, stat.map (fun _ => 1)) from rfl]
  obtain ⟨-, -, -, h⟩ := aggregationFn_eq agg stat
  obtain ⟨-, -, -, h'⟩ := aggregationFn_eq agg (stat.map (fun _ => 1))
  simp only
  rw [h (by simp [agg, stat]) (by simp [agg]) (by simp [agg, BinsApply]),
    h' (by simp [agg, stat, DA.map]) (by simp [agg]) (by simp [agg, BinsApply])]
  exact ⟨_, rfl⟩
example : ∀ m ∈ agg.allFactors stat, CoversLabels m stat := by
  simp [allFactors, agg, CoversLabels, wts, stat]
open Classical in
example : ReducedCells agg.reduceDims stat.coords (cell 0) {cell 0, cell 1, cell 2} := by
  intro e'
  simp only [agg, stat, Finset.mem_insert, Finset.mem_singleton, List.mem_singleton, forall_eq]
  constructor
  · rintro (rfl | rfl | rfl) <;> refine ⟨by simp [cell], fun d hd => by simp [cell, hd]⟩
  · rintro ⟨h | h | h, h2⟩
    · left; funext d; by_cases hd : d = "x"
      · subst hd; simp [h, cell]
      · rw [h2 d hd]
    · right; left; funext d; by_cases hd : d = "x"
      · subst hd; simp [h, cell]
      · rw [h2 d hd]; simp [cell, hd]
    · right; right; funext d; by_cases hd : d = "x"
      · subst hd; simp [h, cell]
      · rw [h2 d hd]; simp [cell, hd]
example : weightAt (agg.allFactors stat) (cell 1) = 2 := by
  simp [weightAt, allFactors, agg, wts, cell]; norm_num

end C08ex

/-! ## C09, C10 -/
section C09
variable [Field K] [LinearOrder K] [IsStrictOrderedRing K]

theorem FV.sum_nan {ι : Type} (cs : Finset ι) (f : ι → FV K) (i : ι) (hi : i ∈ cs) (h : f i = FV.nan) :
    ∑ j ∈ cs, f j = FV.nan := by
  classical
  rw [← Finset.add_sum_erase cs f hi, h, FV.nan_add]

theorem FV.sum_fin {ι : Type} (cs : Finset ι) (f : ι → FV K) (g : ι → K) (h : ∀ i ∈ cs, f i = FV.fin (g i)) :
    ∑ j ∈ cs, f j = FV.fin (∑ j ∈ cs, g j) := by
  classical
  induction cs using Finset.induction_on with
  | empty => rfl
  | insert i cs hi ih =>
    rw [Finset.sum_insert hi, Finset.sum_insert hi, h i (by simp), ih (fun j hj => h j (by simp [hj])), FV.fin_add_fin]

theorem FV.foldl_nan (l : List (FV K)) : l.foldl (· * ·) FV.nan = FV.nan := by
  induction l with
  | nil => rfl
  | cons y l ih => simpa using ih

theorem FV.foldl_fin (l : List K) (x : K) :
    (l.map FV.fin).foldl (· * ·) (FV.fin x) = FV.fin (x * l.prod) := by
  induction l generalizing x with
  | nil => simp
  | cons y l ih => simp [ih, mul_assoc]

/-- C09: with `masked=True` the value of a masked-out cell is irrelevant: two statistics with the same labels and mask
whose values agree wherever the mask is True have identical results, whatever (NaN, ±∞, finite) is in the other
cells, for all weights, bins and both settings of `skipna`. -/
theorem C09_masked_values_are_irrelevant (agg : Aggregator L (FV K)) (hm : agg.masked = true)
    (mask : DA L Bool) (x y : DA L (FV K)) (hd : x.dims = y.dims) (hc : x.coords = y.coords)
    (hxy : ∀ e, mask.val e = true → x.val e = y.val e) :
    agg.aggregateStatVar ⟨x, some mask⟩ = agg.aggregateStatVar ⟨y, some mask⟩ := by
  have : agg.applyMask ⟨x, some mask⟩ = agg.applyMask ⟨y, some mask⟩ := by
    rcases x with ⟨xd, xc, xv⟩
    rcases y with ⟨yd, yc, yv⟩
    simp only at hd hc hxy
    subst hd hc
    have e1 : ∀ e, (mask.val e && !(xv e).isnan) = (mask.val e && !(yv e).isnan) := by
      intro e
      cases h : mask.val e
      · rfl
      · rw [hxy e h]
    cases hs : agg.skipna
    · simp only [applyMask, hm, hs, where_, broadcastLike, DA.zipWith, DA.map, if_neg Bool.false_ne_true]
      congr 1
      congr 1
      funext e
      by_cases h : mask.val e = true
      · rw [hxy e h]
      · simp [h]
    · simp only [applyMask, hm, hs, where_, broadcastLike, DA.zipWith, DA.map, IsNull.isnull, if_true, e1]
      congr 1
      congr 1
      funext e
      by_cases h : mask.val e = true
      · rw [hxy e h]
      · simp [h]
  rw [aggregateStatVar_eq, aggregateStatVar_eq, this]

/-- C09, C10: without `masked` and `skipna`, a NaN in any cell that is reduced into result cell `e` makes the
aggregated statistic at `e` NaN. `e` is any cell of the result, so with binning this is the case for every bin,
also for bins whose mask is 0 at that cell. -/
theorem C09_unmasked_nan_propagates (agg : Aggregator L (FV K)) (hm : agg.masked = false) (hs : agg.skipna = false)
    (s : StatVar L (FV K)) (p : DA L (FV K) × DA L (FV K)) (h : agg.aggregateStatVar s = .ok (some p))
    (hcov : ∀ m ∈ agg.allFactors s.arr, CoversLabels m s.arr)
    (e e' : Dim → L) (he' : (∀ d ∈ agg.reduceDims, e' d ∈ s.arr.coords d) ∧ ∀ d, d ∉ agg.reduceDims → e' d = e d)
    (hnan : s.arr.val e' = FV.nan) : p.1.val e = FV.nan := by
  obtain ⟨h1, h2⟩ := aggregateStatVar_some h
  rw [applyMask_plain hm hs] at h1
  obtain ⟨cs, hcs⟩ := exists_reducedCells agg.reduceDims s.arr.coords e
  rw [aggregationFn_val h1 hcov e cs hcs]
  apply FV.sum_nan cs _ e' ((hcs e').mpr he')
  simp only [hnan]
  exact FV.foldl_nan _

/-- C10: a NaN poisons every bin: at every bin label `b`, whatever the bin mask says about the NaN cell `e'`. -/
theorem C10_nan_poisons_every_bin (agg : Aggregator L (FV K)) (hm : agg.masked = false) (hs : agg.skipna = false)
    (bin : BinBy L (FV K)) (_hbin : bin ∈ agg.binBy) (hB : bin.binDim ∉ agg.reduceDims)
    (s : StatVar L (FV K)) (hBs : bin.binDim ∉ s.arr.dims) (hwf : s.arr.WF)
    (p : DA L (FV K) × DA L (FV K)) (h : agg.aggregateStatVar s = .ok (some p))
    (hcov : ∀ m ∈ agg.allFactors s.arr, CoversLabels m s.arr)
    (e' : Dim → L) (he' : s.arr.InDom e') (hnan : s.arr.val e' = FV.nan) (b : L) :
    p.1.val (setLabel e' bin.binDim b) = FV.nan := by
  obtain ⟨h1, -⟩ := aggregateStatVar_some h
  rw [applyMask_plain hm hs] at h1
  obtain ⟨hr, -⟩ := aggregationFn_some h1
  refine C09_unmasked_nan_propagates agg hm hs s p h hcov _ (setLabel e' bin.binDim b) ⟨?_, fun _ _ => rfl⟩ ?_
  · intro d hd
    have : d ≠ bin.binDim := fun hh => hB (hh ▸ hd)
    simp only [setLabel, this, if_false]
    exact he' d (hr d hd)
  · rw [← hnan]
    apply hwf
    intro d hd
    have : d ≠ bin.binDim := fun hh => hBs (hh ▸ hd)
    simp [setLabel, this]

/-- The finite part of a float. -/
def FV.toK : FV K → K
  | .fin x => x
  | _ => 0

/-- C09: unmasked weights stay finite whatever the statistic contains, and are the sum of the weights of all reduced
cells. -/
theorem C09_weights_finite (agg : Aggregator L (FV K)) (hm : agg.masked = false) (hs : agg.skipna = false)
    (hco : agg.CoordOnly) (s : StatVar L (FV K)) (p : DA L (FV K) × DA L (FV K))
    (h : agg.aggregateStatVar s = .ok (some p)) (hcov : ∀ m ∈ agg.allFactors s.arr, CoversLabels m s.arr)
    (hfin : ∀ m ∈ agg.allFactors s.arr, ∀ e, (m.val e).isFin = true)
    (e : Dim → L) (cs : Finset (Dim → L)) (hcs : ReducedCells agg.reduceDims s.arr.coords e cs) :
    p.2.val e = FV.fin (∑ e' ∈ cs, ((agg.allFactors s.arr).map (fun m => (m.val e').toK)).prod) := by
  obtain ⟨-, h2⟩ := aggregateStatVar_some h
  rw [applyMask_plain hm hs] at h2
  have hf := hco.allFactors_eq (a := s.arr.map (fun _ => (1 : FV K))) (a' := s.arr) rfl rfl
  rw [aggregationFn_val h2 (fun m hm => by
      have : m ∈ agg.allFactors (s.arr.map (fun _ => (1 : FV K))) := hm
      rw [hf] at this
      exact hcov m this) e cs hcs]
  apply FV.sum_fin
  intro e' _
  change ((agg.allFactors (s.arr.map (fun _ => (1 : FV K)))).map (fun m => m.val e')).foldl (· * ·) (FV.fin 1) = _
  rw [hf, show (agg.allFactors s.arr).map (fun m => m.val e')
    = ((agg.allFactors s.arr).map (fun m => (m.val e').toK)).map FV.fin from ?_, FV.foldl_fin, one_mul]
  rw [List.map_map]
  apply List.map_congr_left
  intro m hm
  have := hfin m hm e'
  simp only [Function.comp]
  cases hv : m.val e' <;> simp [hv, FV.isFin, FV.toK] at this ⊢

/-- C09: with `skipna=True` (no mask) exactly the non-NaN cells contribute, to both the statistic and the weights. -/
theorem C09_skipna_drops_nan_cells (agg : Aggregator L (FV K)) (hm : agg.masked = false) (hs : agg.skipna = true)
    (hco : agg.CoordOnly) (s : StatVar L (FV K)) (p : DA L (FV K) × DA L (FV K))
    (h : agg.aggregateStatVar s = .ok (some p)) (hcov : ∀ m ∈ agg.allFactors s.arr, CoversLabels m s.arr)
    (hfin : ∀ m ∈ agg.allFactors s.arr, ∀ e, (m.val e).isFin = true)
    (hval : ∀ e, s.arr.val e = FV.nan ∨ (s.arr.val e).isFin = true)
    (e : Dim → L) (cs : Finset (Dim → L)) (hcs : ReducedCells agg.reduceDims s.arr.coords e cs) :
    p.1.val e = FV.fin (∑ e' ∈ cs.filter (fun e' => (s.arr.val e').isnan = false),
      (s.arr.val e').toK * ((agg.allFactors s.arr).map (fun m => (m.val e').toK)).prod) ∧
    p.2.val e = FV.fin (∑ e' ∈ cs.filter (fun e' => (s.arr.val e').isnan = false),
      ((agg.allFactors s.arr).map (fun m => (m.val e').toK)).prod) := by
  obtain ⟨h1, h2⟩ := aggregateStatVar_some h
  have hA : ∀ e', (agg.applyMask s).1.val e' = FV.fin ((s.arr.val e').toK) := by
    intro e'
    have aux : ∀ v : FV K, (v = FV.nan ∨ v.isFin = true) → (if (!IsNull.isnull v) = true then v else (0 : FV K))
        = FV.fin v.toK := by
      rintro (_ | _ | v) hv <;> simp [IsNull.isnull, FV.isnan, FV.toK, FV.isFin, FV.zero_def] at hv ⊢
    simp only [applyMask, hm, hs, where_, DA.zipWith, DA.map, if_true]
    exact aux _ (hval e')
  have hM : ∀ e', (agg.applyMask s).2.val e' = FV.fin (if (s.arr.val e').isnan = false then 1 else 0) := by
    intro e'
    have aux : ∀ v : FV K, (boolToV (!IsNull.isnull v) : FV K) = FV.fin (if v.isnan = false then 1 else 0) := by
      rintro (_ | _ | v) <;> simp [IsNull.isnull, FV.isnan, boolToV, FV.zero_def, FV.one_def]
    simp only [applyMask, hm, hs, DA.map, if_true]
    exact aux _
  have d1 : (agg.applyMask s).1.dims = s.arr.dims := by simp [applyMask, hm, hs, where_, DA.zipWith, DA.map]
  have c1 : (agg.applyMask s).1.coords = s.arr.coords := by
    funext d
    simp [applyMask, hm, hs, where_, DA.zipWith, DA.map, joinCoords]
  have d2 : (agg.applyMask s).2.dims = s.arr.dims := by simp [applyMask, hm, hs, DA.map]
  have c2 : (agg.applyMask s).2.coords = s.arr.coords := by simp [applyMask, hm, hs, DA.map]
  have f1 := hco.allFactors_eq d1 c1
  have f2 := hco.allFactors_eq d2 c2
  have hfold : ∀ (x : K) e', ((agg.allFactors s.arr).map (fun m => m.val e')).foldl (· * ·) (FV.fin x)
      = FV.fin (x * ((agg.allFactors s.arr).map (fun m => (m.val e').toK)).prod) := by
    intro x e'
    rw [show (agg.allFactors s.arr).map (fun m => m.val e')
      = ((agg.allFactors s.arr).map (fun m => (m.val e').toK)).map FV.fin from ?_, FV.foldl_fin]
    rw [List.map_map]
    apply List.map_congr_left
    intro m hm
    have := hfin m hm e'
    simp only [Function.comp]
    cases hv : m.val e' <;> simp [hv, FV.isFin, FV.toK] at this ⊢
  constructor
  · rw [aggregationFn_val h1 (fun m hm => by
      have : m ∈ agg.allFactors (agg.applyMask s).1 := hm
      rw [f1] at this
      intro d hd hda
      rw [c1]
      exact hcov m this d hd (d1 ▸ hda)) e cs (by rw [c1]; exact hcs)]
    rw [Finset.sum_filter]
    apply FV.sum_fin
    intro e' _
    change ((agg.allFactors (agg.applyMask s).1).map (fun m => m.val e')).foldl (· * ·) _ = _
    rw [f1, hA, hfold]
    rcases hval e' with hv | hv
    · simp [hv, FV.isnan, FV.toK]
    · cases hv' : s.arr.val e' <;> simp [hv', FV.isFin, FV.isnan] at hv ⊢
  · rw [aggregationFn_val h2 (fun m hm => by
      have : m ∈ agg.allFactors (agg.applyMask s).2 := hm
      rw [f2] at this
      intro d hd hda
      rw [c2]
      exact hcov m this d hd (d2 ▸ hda)) e cs (by rw [c2]; exact hcs)]
    rw [Finset.sum_filter]
    apply FV.sum_fin
    intro e' _
    change ((agg.allFactors (agg.applyMask s).2).map (fun m => m.val e')).foldl (· * ·) _ = _
    rw [f2, hM, hfold]
    congr 1
    cases (s.arr.val e').isnan <;> simp

/-- C10: with `masked=True` and every non-finite cell masked out, no bin is NaN: each result cell is the finite sum over
the unmasked cells. -/
theorem C10_masked_out_nan_does_not_poison (agg : Aggregator L (FV K)) (hm : agg.masked = true) (hs : agg.skipna = false)
    (hco : agg.CoordOnly) (x : DA L (FV K)) (mask : DA L Bool) (hmd : mask.dims = x.dims) (hmc : mask.coords = x.coords)
    (p : DA L (FV K) × DA L (FV K)) (h : agg.aggregateStatVar ⟨x, some mask⟩ = .ok (some p))
    (hcov : ∀ m ∈ agg.allFactors x, CoversLabels m x)
    (hfin : ∀ m ∈ agg.allFactors x, ∀ e, (m.val e).isFin = true)
    (hval : ∀ e, mask.val e = true → (x.val e).isFin = true)
    (e : Dim → L) (cs : Finset (Dim → L)) (hcs : ReducedCells agg.reduceDims x.coords e cs) :
    p.1.val e = FV.fin (∑ e' ∈ cs.filter (fun e' => mask.val e' = true),
      (x.val e').toK * ((agg.allFactors x).map (fun m => (m.val e').toK)).prod) ∧
    p.2.val e = FV.fin (∑ e' ∈ cs.filter (fun e' => mask.val e' = true),
      ((agg.allFactors x).map (fun m => (m.val e').toK)).prod) := by
  obtain ⟨h1, h2⟩ := aggregateStatVar_some h
  have hA : ∀ e', (agg.applyMask ⟨x, some mask⟩).1.val e'
      = FV.fin (if mask.val e' = true then (x.val e').toK else 0) := by
    intro e'
    simp only [applyMask, hm, hs, where_, DA.zipWith, if_neg Bool.false_ne_true]
    by_cases hv : mask.val e' = true
    · have := hval e' hv
      cases hv' : x.val e' <;> simp [hv', FV.isFin, FV.toK, hv] at this ⊢
    · simp [hv, FV.zero_def]
  have hM : ∀ e', (agg.applyMask ⟨x, some mask⟩).2.val e' = FV.fin (if mask.val e' = true then 1 else 0) := by
    intro e'
    simp only [applyMask, hm, hs, DA.map, if_neg Bool.false_ne_true, boolToV, broadcastLike, DA.zipWith]
    cases mask.val e' <;> simp [FV.one_def, FV.zero_def]
  have d1 : (agg.applyMask ⟨x, some mask⟩).1.dims = x.dims := by simp [applyMask, hm, hs, where_, DA.zipWith, hmd]
  have c1 : (agg.applyMask ⟨x, some mask⟩).1.coords = x.coords := by
    funext d
    simp [applyMask, hm, hs, where_, DA.zipWith, joinCoords, hmd, hmc]
  have d2 : (agg.applyMask ⟨x, some mask⟩).2.dims = x.dims := by
    simp [applyMask, hm, hs, DA.map, broadcastLike, where_, DA.zipWith, hmd]
  have c2 : (agg.applyMask ⟨x, some mask⟩).2.coords = x.coords := by
    funext d
    simp [applyMask, hm, hs, DA.map, broadcastLike, where_, DA.zipWith, joinCoords, hmd, hmc]
  have f1 := hco.allFactors_eq d1 c1
  have f2 := hco.allFactors_eq d2 c2
  have hfold : ∀ (y : K) e', ((agg.allFactors x).map (fun m => m.val e')).foldl (· * ·) (FV.fin y)
      = FV.fin (y * ((agg.allFactors x).map (fun m => (m.val e').toK)).prod) := by
    intro y e'
    rw [show (agg.allFactors x).map (fun m => m.val e')
      = ((agg.allFactors x).map (fun m => (m.val e').toK)).map FV.fin from ?_, FV.foldl_fin]
    rw [List.map_map]
    apply List.map_congr_left
    intro m hm
    have := hfin m hm e'
    simp only [Function.comp]
    cases hv : m.val e' <;> simp [hv, FV.isFin, FV.toK] at this ⊢
  constructor
  · rw [aggregationFn_val h1 (fun m hm => by
      have : m ∈ agg.allFactors (agg.applyMask ⟨x, some mask⟩).1 := hm
      rw [f1] at this
      intro d hd hda
      rw [c1]
      exact hcov m this d hd (d1 ▸ hda)) e cs (by rw [c1]; exact hcs)]
    rw [Finset.sum_filter]
    apply FV.sum_fin
    intro e' _
    change ((agg.allFactors (agg.applyMask ⟨x, some mask⟩).1).map (fun m => m.val e')).foldl (· * ·) _ = _
    rw [f1, hA, hfold]
    congr 1
    cases mask.val e' <;> simp
  · rw [aggregationFn_val h2 (fun m hm => by
      have : m ∈ agg.allFactors (agg.applyMask ⟨x, some mask⟩).2 := hm
      rw [f2] at this
      intro d hd hda
      rw [c2]
      exact hcov m this d hd (d2 ▸ hda)) e cs (by rw [c2]; exact hcs)]
    rw [Finset.sum_filter]
    apply FV.sum_fin
    intro e' _
    change ((agg.allFactors (agg.applyMask ⟨x, some mask⟩).2).map (fun m => m.val e')).foldl (· * ·) _ = _
    rw [f2, hM, hfold]
    congr 1
    cases mask.val e' <;> simp

end C09

/-! ### Concrete data meeting the hypotheses of C09 and C10 -/
namespace C10ex

/-- Values 3 and NaN at x = 0 and x = 1. -/
def stat : DA ℕ (FV ℚ) :=
  { dims := {"x"}, coords := fun _ => {0, 1}, val := fun e => if e "x" = 1 then FV.nan else FV.fin 3 }
/-- One bin per x. -/
def bin : BinBy ℕ (FV ℚ) :=
  { binDim := "b", createBinMask := fun _ =>
      { dims := {"x", "b"}, coords := fun _ => {0, 1}, val := fun e => if e "x" = e "b" then 1 else 0 } }
def agg : Aggregator ℕ (FV ℚ) := { reduceDims := ["x"], binBy := [bin] }
/-- The mask removes the NaN cell. -/
def mask : DA ℕ Bool := { dims := {"x"}, coords := fun _ => {0, 1}, val := fun e => e "x" == 0 }

theorem binsApply (a : DA ℕ (FV ℚ)) (ha : a.dims = {"x"}) : BinsApply agg.binBy a := by
  intro b hb
  simp only [agg, List.mem_singleton] at hb
  subst hb
  rw [ha]
  simp [bin]

example : agg.CoordOnly := by
  refine ⟨by simp [agg], ?_⟩
  intro b hb
  simp only [agg, List.mem_singleton] at hb
  subst hb
  intros; rfl
example : ∃ p, agg.aggregateStatVar ⟨stat, none⟩ = .ok (some p) := by
  rw [aggregateStatVar_eq, show agg.applyMask ⟨stat, none⟩ = (stat, stat.map (fun _ => 1)) from rfl]
  obtain ⟨-, -, -, h⟩ := aggregationFn_eq agg stat
  obtain ⟨-, -, -, h'⟩ := aggregationFn_eq agg (stat.map (fun _ => 1))
  simp only
  rw [h (by simp [agg, stat]) (by simp [agg]) (binsApply _ rfl),
    h' (by simp [agg, stat, DA.map]) (by simp [agg]) (binsApply _ rfl)]
  exact ⟨_, rfl⟩
example : ∀ m ∈ agg.allFactors stat, CoversLabels m stat := by
  simp [allFactors, agg, CoversLabels, bin, stat]
example : ∀ m ∈ agg.allFactors stat, ∀ e, (m.val e).isFin = true := by
  simp only [allFactors, agg, bin, List.map_nil, List.nil_append, List.map_cons, List.mem_singleton, forall_eq]
  intro e
  by_cases h : e "x" = e "b" <;> simp [h, FV.isFin, FV.one_def, FV.zero_def]
example : stat.WF := by
  intro e e' h
  have := h "x" (by simp [stat])
  simp [stat, this]
example : ∀ e, mask.val e = true → (stat.val e).isFin = true := by
  intro e h
  simp [mask] at h
  simp [stat, h, FV.isFin]
example : ∀ e, stat.val e = FV.nan ∨ (stat.val e).isFin = true := by
  intro e
  by_cases h : e "x" = 1 <;> simp [stat, h, FV.isFin]

end C10ex

end WBX
