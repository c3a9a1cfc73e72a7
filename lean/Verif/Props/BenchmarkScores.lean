import Verif.Props.BenchmarkRegions
import Verif.Props.ACC
import Verif.Props.CRPS
import Verif.Props.Wind
import Verif.Props.EnsembleMoments

set_option linter.unusedSectionVars false

/-!
# C93: the anomaly correlation and the CRPS of the public benchmark
-/

namespace WBX.Benchmark
open WBX DA Aggregator
variable {L : Type} [DecidableEq L]
variable {name : String → L} {land : L → L} {order south : List L} {degrees : L → ℝ} {fraction : DA L (FV ℝ)} {s s' : StatVar L (FV ℝ)} {o : Options}

/-- An array without mask, with the dimensions `D` and their labels `C`. -/
def Shape (D : Finset Dim) (C : Dim → Finset L) (s : StatVar L (FV ℝ)) : Prop := s.arr.dims = D ∧ (∀ d ∈ D, s.arr.coords d = C d) ∧ s.mask = none

/-- The cells of the grid in a region (or its land part) that belong to a cell `e` of the results. -/
noncomputable def regionCells (o : Options) (C : Dim → Finset L) (e : Dim → L) (inside : L → L → Prop) : Finset (L × L × L) :=
  open Classical in ((if o.temporal then {e "init_time"} else C "init_time") ×ˢ C "latitude" ×ˢ C "longitude").filter (fun c => inside c.2.1 c.2.2)

/-- The correlation of two fields over cells, weighted by area (not centred: the fields are anomalies already). -/
noncomputable def areaCorrelation (south : List L) (degrees : L → ℝ) (cells : Finset (L × L × L)) (x y : L × L × L → ℝ) : ℝ :=
  (∑ c ∈ cells, Example.bandArea south degrees c.2.1 * (x c * y c)) /
    (Real.sqrt (∑ c ∈ cells, Example.bandArea south degrees c.2.1 * x c ^ 2) * Real.sqrt (∑ c ∈ cells, Example.bandArea south degrees c.2.1 * y c ^ 2))

section
variable {D : Finset Dim} {C : Dim → Finset L}

theorem Shape.zip {f : FV ℝ → FV ℝ → FV ℝ} (h : Shape D C s) (h' : Shape D C s') : Shape D C (s.zipWith f s') := by
  obtain ⟨a1, a2, a3⟩ := h
  obtain ⟨b1, b2, b3⟩ := h'
  refine ⟨?_, ?_, ?_⟩
  · show s.arr.dims ∪ s'.arr.dims = D
    rw [a1, b1, Finset.union_self]
  · intro d hd
    show joinCoords s.arr s'.arr d = C d
    simp [joinCoords, a1, b1, hd, a2 d hd, b2 d hd]
  · show combineMask s.mask s'.mask = none
    rw [a3, b3]
    rfl

theorem Shape.map {f : FV ℝ → FV ℝ} (h : Shape D C s) : Shape D C (s.map f) := h

theorem Shape.onGrid (h : Shape D C s) (h' : Shape D C s') (hg : OnGrid order south degrees fraction s) : OnGrid order south degrees fraction s' where
  order := hg.order
  latitudes := hg.latitudes
  dims := by rw [h'.1, ← h.1]; exact hg.dims
  region := by rw [h'.1, ← h.1]; exact hg.region
  labels := by
    have hD : "latitude" ∈ D := by rw [← h.1]; exact hg.dims _ (by simp)
    rw [h'.2.1 _ hD, ← h.2.1 _ hD, hg.labels]
  mask := by intro m hm; rw [h'.2.2] at hm; cases hm
  landSea := by
    have hD : "latitude" ∈ D := by rw [← h.1]; exact hg.dims _ (by simp)
    have hD' : "longitude" ∈ D := by rw [← h.1]; exact hg.dims _ (by simp)
    rw [h'.2.1 _ hD, h'.2.1 _ hD', ← h.2.1 _ hD, ← h.2.1 _ hD']
    exact hg.landSea

theorem Shape.weight (h : Shape D C s) (h' : Shape D C s') (hD : ∀ d ∈ ["init_time", "latitude", "longitude"], d ∈ D) :
    cellWeight (aggregator name land order degrees fraction o) s' = cellWeight (aggregator name land order degrees fraction o) s := by
  have e1 : s'.arr.coords "latitude" = s.arr.coords "latitude" := by rw [h'.2.1 _ (hD _ (by simp)), h.2.1 _ (hD _ (by simp))]
  have e2 : s'.arr.coords "longitude" = s.arr.coords "longitude" := by rw [h'.2.1 _ (hD _ (by simp)), h.2.1 _ (hD _ (by simp))]
  have e3 : s'.arr.dims = s.arr.dims := by rw [h'.1, h.1]
  have f1 : Example.gridWeights order degrees s'.arr = Example.gridWeights order degrees s.arr := by
    unfold Example.gridWeights gridAreaWeights
    rw [e3]
  have f2 : (regionBinning name land degrees fraction).createBinMask s'.arr = (regionBinning name land degrees fraction).createBinMask s.arr := by
    simp only [regionBinning, Example.coordArray, e1, e2]
  funext e
  unfold cellWeight
  have : ∀ x : StatVar L (FV ℝ), (aggregator name land order degrees fraction o).allFactors x.arr = [Example.gridWeights order degrees x.arr, (regionBinning name land degrees fraction).createBinMask x.arr] :=
    fun _ => rfl
  rw [this, this, f1, f2]

theorem Shape.kept (h : Shape D C s) (ho : o.prediction ≠ "keisler") (e : Dim → L) : Kept o s e :=
  ⟨(by intro m hm; rw [h.2.2] at hm; cases hm), fun h => absurd h ho⟩

theorem Shape.grid (h : Shape D C s) (hD : ∀ d ∈ ["init_time", "latitude", "longitude"], d ∈ D) (e : Dim → L) :
    gridCells o s e = (if o.temporal then {e "init_time"} else C "init_time") ×ˢ C "latitude" ×ˢ C "longitude" := by
  unfold gridCells initsOf
  rw [h.2.1 _ (hD "init_time" (by simp)), h.2.1 _ (hD "latitude" (by simp)), h.2.1 _ (hD "longitude" (by simp))]

theorem Shape.used (h : Shape D C s) (hD : ∀ d ∈ ["init_time", "latitude", "longitude"], d ∈ D) (ho : o.prediction ≠ "keisler") (e : Dim → L) (inside : L → L → Prop) :
    usedCells o s e inside = regionCells o C e inside := by
  ext c
  rw [mem_used, h.grid hD e]
  simp only [regionCells, Finset.mem_filter]
  exact ⟨fun ⟨a, _, b⟩ => ⟨a, b⟩, fun ⟨a, b⟩ => ⟨a, h.kept ho _, b⟩⟩

theorem Shape.cells (h : Shape D C s) (h' : Shape D C s') (hD : ∀ d ∈ ["init_time", "latitude", "longitude"], d ∈ D) (ho : o.prediction ≠ "keisler") (e : Dim → L) :
    cellSet o s' e = cellSet o s e := by
  unfold cellSet
  rw [h.used hD ho, h'.used hD ho]


section
variable (hn : Labels name land) {a t al : StatVar L (FV ℝ)} (hs : Shape D C a) (hD : ∀ d ∈ ["init_time", "latitude", "longitude"], d ∈ D) (ho : o.prediction ≠ "keisler")
  (hg : OnGrid order south degrees fraction a) {r : String × ((ℝ × ℝ) × (ℝ × ℝ))} (hr : r ∈ regions) {b : Bool} {e : Dim → L} (he : e "region" = labelOf name r.1 b)
  (hne : (regionCells o C e (insideOf degrees fraction r.2 b)).Nonempty)
include hn hs hD ho hg hr he hne

theorem shape_good (hx : Shape D C s) : GoodWeights (aggregator name land order degrees fraction o) s (cellSet o a e) := by
  rw [← hs.cells hx hD ho e]
  refine good_weights hn (hs.onGrid hx hg) hr he ?_
  rw [hx.used hD ho]
  exact hne

omit hr he hne in
theorem shape_evaluated (hx : Shape D C s)
    (hf : ∀ c ∈ (if o.temporal then {e "init_time"} else C "init_time") ×ˢ C "latitude" ×ˢ C "longitude", (s.arr.val (Example.cellAt e c.1 c.2.1 c.2.2)).isFin = true) :
    Evaluated (aggregator name land order degrees fraction o) s e (cellSet o a e) := by
  rw [← hs.cells hx hD ho e]
  refine evaluated hn (hs.onGrid hx hg) ?_
  intro c hc _
  rw [hx.grid hD e] at hc
  exact hf c hc

omit hne in
/-- Sums over the cells of a region, weighted by area. -/
theorem shape_sum (hx : Shape D C s) : ∃ k : ℝ, 0 < k ∧ ∀ f : (Dim → L) → ℝ,
    ∑ e' ∈ cellSet o a e, f e' * cellWeight (aggregator name land order degrees fraction o) s e' =
      (∑ c ∈ regionCells o C e (insideOf degrees fraction r.2 b), Example.bandArea south degrees c.2.1 * f (Example.cellAt e c.1 c.2.1 c.2.2)) / k := by
  obtain ⟨k, hk, h⟩ := weighted_sum (o := o) hn (hs.onGrid hx hg)
  refine ⟨k, hk, fun f => ?_⟩
  rw [← hs.cells hx hD ho e, h r hr b e he f, hx.used hD ho]

/-- C93: the anomaly correlation in the result file is the correlation of the anomalies of prediction and target (`al` is the climatology aligned to them) over the region, weighted by area. -/
theorem C93_acc (ht' : Shape D C t) (hal' : Shape D C al)
    (hfin : ∀ x ∈ [a, t, al], ∀ c ∈ (if o.temporal then {e "init_time"} else C "init_time") ×ˢ C "latitude" ×ˢ C "longitude", (x.arr.val (Example.cellAt e c.1 c.2.1 c.2.2)).isFin = true)
    {P T clims : Vars (StatVar L (FV ℝ))} {align : StatVar L (FV ℝ) → StatVar L (FV ℝ) → Except Err (StatVar L (FV ℝ))}
    (hP : (P.map Prod.fst).Nodup) (hT : (T.map Prod.fst).Nodup) (hcl : (clims.map Prod.fst).Nodup) {v : String} {cl : StatVar L (FV ℝ)}
    (ha : (v, a) ∈ P) (ht : (v, t) ∈ T) (hc : (v, cl) ∈ clims) (hal : align a cl = .ok al)
    {anomaly : StatVar L (FV ℝ) → L × L × L → ℝ}
    (hanomaly : anomaly = fun x c => (x.arr.val (Example.cellAt e c.1 c.2.1 c.2.2)).num - (al.arr.val (Example.cellAt e c.1 c.2.1 c.2.2)).num)
    (h1 : ∃ c ∈ regionCells o C e (insideOf degrees fraction r.2 b), anomaly a c ≠ 0) (h2 : ∃ c ∈ regionCells o C e (insideOf degrees fraction r.2 b), anomaly t c ≠ 0)
    {x : DA L (FV ℝ)} (hx : ValueOf (acc clims align) (aggregator name land order degrees fraction o) P T v x) :
    x.val e = FV.fin (areaCorrelation south degrees (regionCells o C e (insideOf degrees fraction r.2 b)) (anomaly a) (anomaly t)) := by
  have S1 : Shape D C (squaredPredictionAnomaly a t al) := (hs.zip hal').map
  have S2 : Shape D C (squaredTargetAnomaly a t al) := (ht'.zip hal').map
  have S3 : Shape D C (anomalyCovariance a t al) := (hs.zip hal').zip (ht'.zip hal')
  have hsub : ∀ y ∈ [a, t], ∀ c ∈ (if o.temporal then {e "init_time"} else C "init_time") ×ˢ C "latitude" ×ˢ C "longitude",
      ((y.zipWith (· - ·) al).arr.val (Example.cellAt e c.1 c.2.1 c.2.2)).isFin = true := by
    intro y hy c hc'
    have f1 := hfin y (by simp only [List.mem_cons, List.not_mem_nil, or_false] at hy ⊢; tauto) c hc'
    have f2 := hfin al (by simp) c hc'
    show (y.arr.val _ - al.arr.val _).isFin = true
    cases h3 : y.arr.val (Example.cellAt e c.1 c.2.1 c.2.2) <;> rw [h3] at f1 <;> cases h4 : al.arr.val (Example.cellAt e c.1 c.2.1 c.2.2) <;> rw [h4] at f2 <;> simp_all [FV.isFin]
  have E : AccEvaluated (aggregator name land order degrees fraction o) a t al e (cellSet o a e) :=
    { pred := shape_evaluated hn hs hD ho hg S1 (fun c hc' => (FV.sq_isFin (hsub a (by simp) c hc')).1)
      target := shape_evaluated hn hs hD ho hg S2 (fun c hc' => (FV.sq_isFin (hsub t (by simp) c hc')).1)
      cov := shape_evaluated hn hs hD ho hg S3 (fun c hc' => (FV.mul_isFin (hsub a (by simp) c hc') (hsub t (by simp) c hc')).1)
      predWeight := S3.weight S1 hD
      targetWeight := S3.weight S2 hD }
  have hW := shape_good hn hs hD ho hg hr he hne S3
  obtain ⟨k, hk, hsum⟩ := shape_sum (s := anomalyCovariance a t al) hn hs hD ho hg hr he S3
  have hpos : ∀ y : StatVar L (FV ℝ), (∃ c ∈ regionCells o C e (insideOf degrees fraction r.2 b), anomaly y c ≠ 0) →
      0 < ∑ c ∈ regionCells o C e (insideOf degrees fraction r.2 b), Example.bandArea south degrees c.2.1 * anomaly y c ^ 2 := by
    rintro y ⟨c, hc', hy⟩
    have hb : ∀ c ∈ regionCells o C e (insideOf degrees fraction r.2 b), 0 < Example.bandArea south degrees c.2.1 := by
      intro c hc'
      refine Example.bandArea_pos hg.latitudes ?_
      rw [← hs.used hD ho] at hc'
      have := ((mem_used _ _).mp hc').1
      simp only [gridCells, Finset.mem_product, hg.labels, List.mem_toFinset] at this
      exact this.2.1
    exact Finset.sum_pos' (fun c hc' => mul_nonneg (hb c hc').le (sq_nonneg _)) ⟨c, hc', mul_pos (hb c hc') (by positivity)⟩
  have q1 := hpos a h1
  have q2 := hpos t h2
  have hE : ∀ (y : StatVar L (FV ℝ)) (c : L × L × L), errAt y al (Example.cellAt e c.1 c.2.1 c.2.2) = anomaly y c := by
    intro y c
    rw [hanomaly]
    rfl
  have n1 := hsum (fun e' => errAt a al e' ^ 2)
  have n2 := hsum (fun e' => errAt t al e' ^ 2)
  have n3 := hsum (fun e' => errAt a al e' * errAt t al e')
  simp only [hE] at n1 n2 n3
  rw [C23_value hP hT hcl ha ht hc hal E hW hx (by rw [n1]; exact div_pos q1 hk) (by rw [n2]; exact div_pos q2 hk)]
  unfold correlation areaCorrelation
  rw [n1, n2, n3, Real.sqrt_div q1.le, Real.sqrt_div q2.le]
  congr 1
  have hsk : Real.sqrt k * Real.sqrt k = k := Real.mul_self_sqrt hk.le
  have hk' : Real.sqrt k ≠ 0 := (Real.sqrt_pos.mpr hk).ne'
  rw [div_mul_div_comm, hsk, div_div_div_cancel_right₀ hk.ne']

end

section
variable {a t : StatVar L (FV ℝ)}

theorem skill_shape (h2 : "number" ∉ D) (ha : Shape (insert "number" D) C a) (ht : Shape D C t) : ∃ s1, crpsSkill "number" false a t = .ok s1 ∧ Shape D C s1 := by
  obtain ⟨a1, a2, a3⟩ := ha
  obtain ⟨t1, t2, t3⟩ := ht
  have hm : "number" ∈ ((a.zipWith (· - ·) t).map FV.abs).arr.dims := by
    show "number" ∈ a.arr.dims ∪ t.arr.dims
    rw [a1]
    simp
  refine ⟨((a.zipWith (· - ·) t).map FV.abs).reduce "number" (npMean false), ?_, ?_⟩
  · unfold crpsSkill StatVar.meanDim
    rw [if_neg (by rw [t1]; exact h2), if_pos hm]
  · refine ⟨?_, ?_, ?_⟩
    · show (a.arr.dims ∪ t.arr.dims).erase "number" = D
      rw [a1, t1, Finset.insert_union, Finset.union_self, Finset.erase_insert h2]
    · intro d hd
      show joinCoords a.arr t.arr d = C d
      simp [joinCoords, a1, t1, hd, a2 d (Finset.mem_insert_of_mem hd), t2 d hd]
    · show dropMask "number" (combineMask a.mask t.mask) = none
      rw [a3, t3]
      rfl

theorem spread_shape {argsort : List (FV ℝ) → List ℕ} {members : List L} (h2 : "number" ∉ D) (h3 : "ensemble_dim_2" ∉ D) (ha : Shape (insert "number" D) C a) (hn : 2 ≤ (C "number").card) :
    ∃ s2, crpsSpread argsort members "number" false true "predictions" false a t = .ok s2 ∧ Shape D C s2 := by
  obtain ⟨a1, a2, a3⟩ := ha
  have hd : "number" ∈ a.arr.dims := by rw [a1]; simp
  have he : "ensemble_dim_2" ∉ a.arr.dims := by
    rw [a1]
    simp [h3]
  have hc : a.arr.coords "number" = C "number" := a2 _ (by simp)
  have hlt : ¬ (a.arr.coords "number").card < 2 := by rw [hc]; omega
  refine ⟨((((a.zipWith (· - ·) ⟨a.arr.rename "number" "ensemble_dim_2", a.mask.map (fun m => m.rename "number" "ensemble_dim_2")⟩).map FV.abs).reduce "number" (npSum false)).reduce
    "ensemble_dim_2" (npSum false)).zipWith (· / ·) ((⟨DA.scalar (FV.ofNat (a.arr.coords "number").card), none⟩ : StatVar L (FV ℝ)).zipWith (fun x y => x * y)
      ((⟨DA.scalar (FV.ofNat (a.arr.coords "number").card), none⟩ : StatVar L (FV ℝ)).map (fun x => x - FV.ofNat 1))), ?_, ?_⟩
  · unfold crpsSpread whichArray StatVar.sizeDim StatVar.rename
    simp only [if_true, hd, he, hlt, bind, Except.bind, pure, Except.pure, not_false_eq_true, and_self, decide_false, Bool.and_false, Bool.false_eq_true, if_false]
  · refine ⟨?_, ?_, ?_⟩
    · show ((a.arr.dims ∪ (a.arr.rename "number" "ensemble_dim_2").dims).erase "number").erase "ensemble_dim_2" ∪ ((∅ : Finset Dim) ∪ ∅) = D
      rw [DA.rename, if_pos hd]
      ext k
      simp only [a1, Finset.mem_union, Finset.mem_erase, Finset.mem_insert, Finset.notMem_empty, or_false, or_self]
      constructor
      · tauto
      · intro hk
        have e1 : k ≠ "ensemble_dim_2" := by rintro rfl; exact h3 hk
        have e2 : k ≠ "number" := by rintro rfl; exact h2 hk
        tauto
    · intro d hdD
      have e1 : d ≠ "ensemble_dim_2" := by rintro rfl; exact h3 hdD
      have e2 : d ≠ "number" := by rintro rfl; exact h2 hdD
      simp only [StatVar.zipWith, DA.zipWith, StatVar.reduce, StatVar.map, DA.map, DA.scalar, DA.rename, if_pos hd, joinCoords]
      simp [a1, e1, e2, hdD, a2 d (Finset.mem_insert_of_mem hdD)]
    · simp only [StatVar.zipWith, StatVar.reduce, StatVar.map, a3, Option.map_none, combineMask, dropMask]

end

/-- C93: the CRPS in the result file of an ensemble is the mean over the region, weighted by area, of the fair CRPS of the members (`a`) and the target (`t`) in each cell. -/
theorem C93_crps (hn : Labels name land) {a t : StatVar L (FV ℝ)} (ha' : Shape (insert "number" D) C a) (ht' : Shape D C t) (hwa : a.arr.WF) (hwt : t.arr.WF)
    (hD : ∀ d ∈ ["init_time", "latitude", "longitude"], d ∈ D) (h2 : "number" ∉ D) (h3 : "ensemble_dim_2" ∉ D) (hM : 2 ≤ (C "number").card) (ho : o.prediction ≠ "keisler")
    (hg : OnGrid order south degrees fraction t) {r : String × ((ℝ × ℝ) × (ℝ × ℝ))} (hr : r ∈ regions) {b : Bool} {e : Dim → L} (he : e "region" = labelOf name r.1 b)
    (hne : (regionCells o C e (insideOf degrees fraction r.2 b)).Nonempty)
    (hfa : ∀ c ∈ (if o.temporal then {e "init_time"} else C "init_time") ×ˢ C "latitude" ×ˢ C "longitude", ∀ l ∈ C "number",
      (a.arr.val (setLabel (Example.cellAt e c.1 c.2.1 c.2.2) "number" l)).isFin = true)
    (hft : ∀ c ∈ (if o.temporal then {e "init_time"} else C "init_time") ×ˢ C "latitude" ×ˢ C "longitude", (t.arr.val (Example.cellAt e c.1 c.2.1 c.2.2)).isFin = true)
    {P T : Vars (StatVar L (FV ℝ))} (hP : (P.map Prod.fst).Nodup) (hT : (T.map Prod.fst).Nodup) {v : String} (ha : (v, a) ∈ P) (ht : (v, t) ∈ T)
    {argsort : List (FV ℝ) → List ℕ} (harg : IsArgsort argsort) {members : List L} (hmem : members.Nodup) (hmem' : members.toFinset = C "number")
    {x : DA L (FV ℝ)} (hx : ValueOf (crpsEnsemble argsort members "number" false true false) (aggregator name land order degrees fraction o) P T v x) :
    x.val e = FV.fin (areaMean south degrees (regionCells o C e (insideOf degrees fraction r.2 b)) (fun c => eCRPS true (C "number")
      (fun l => (a.arr.val (setLabel (Example.cellAt e c.1 c.2.1 c.2.2) "number" l)).num) (t.arr.val (Example.cellAt e c.1 c.2.1 c.2.2)).num)) := by
  obtain ⟨s1, k1, S1⟩ := skill_shape h2 ha' ht'
  obtain ⟨s2, k2, S2⟩ := spread_shape (t := t) (argsort := argsort) (members := members) h2 h3 ha' hM
  have hca : a.arr.coords "number" = C "number" := ha'.2.1 _ (by simp)
  have fin_num : ∀ z : FV ℝ, z.isFin = true → z = FV.fin z.num := by
    intro z hz
    cases z <;> simp [FV.isFin, FV.num] at hz ⊢
  have hcells : ∀ e' ∈ cellSet o t e, ∃ c ∈ (if o.temporal then {e "init_time"} else C "init_time") ×ˢ C "latitude" ×ˢ C "longitude", e' = Example.cellAt e c.1 c.2.1 c.2.2 := by
    intro e' he'
    unfold cellSet at he'
    classical
    obtain ⟨c, hc, rfl⟩ := Finset.mem_image.mp he'
    have := ((mem_used _ _).mp hc).1
    rw [ht'.grid hD e] at this
    exact ⟨c, this, rfl⟩
  have hMem : ∀ c ∈ (if o.temporal then {e "init_time"} else C "init_time") ×ˢ C "latitude" ×ˢ C "longitude",
      EnsembleAt false a "number" (Example.cellAt e c.1 c.2.1 c.2.2) (C "number") (fun l => (a.arr.val (setLabel (Example.cellAt e c.1 c.2.1 c.2.2) "number" l)).num) :=
    fun c hc => ⟨hca, fun l hl => fin_num _ (hfa c hc l hl)⟩
  have hne' : (C "number").Nonempty := Finset.card_pos.mp (by omega)
  have hd : "number" ∉ t.arr.dims := by rw [ht'.1]; exact h2
  have E1 : Evaluated (aggregator name land order degrees fraction o) s1 e (cellSet o t e) := shape_evaluated hn ht' hD ho hg S1 (fun c hc => by
    rw [C31_skill hd hwt k1 (hMem c hc) hne' (fin_num _ (hft c hc))]
    rfl)
  have E2 : Evaluated (aggregator name land order degrees fraction o) s2 e (cellSet o t e) := shape_evaluated hn ht' hD ho hg S2 (fun c hc => by
    rw [C31_spread harg hmem hwa k2 (hmem'.trans hca.symm) (hMem c hc) hM]
    rfl)
  have hW := shape_good hn ht' hD ho hg hr he hne S1
  rw [C31_value harg hmem hP hT ha ht hwa hwt hd (hmem'.trans hca.symm) k1 k2 E1 E2 hW (fun e' _ => by rw [S1.weight S2 hD])
    (M := fun _ => C "number") (x := fun e' l => (a.arr.val (setLabel e' "number" l)).num) (y := fun e' => (t.arr.val e').num)
    (fun e' he' => by obtain ⟨c, hc, rfl⟩ := hcells e' he'; exact hMem c hc) (fun _ _ => hM)
    (fun e' he' => by obtain ⟨c, hc, rfl⟩ := hcells e' he'; exact fin_num _ (hft c hc)) hx]
  rw [← ht'.cells S1 hD ho e, mean_eq_area hn (ht'.onGrid S1 hg) hr he, S1.used hD ho]

theorem variance_shape {a t : StatVar L (FV ℝ)} (h2 : "number" ∉ D) (ha : Shape (insert "number" D) C a) : ∃ s1, ensembleVariance "number" false a t = .ok s1 ∧ Shape D C s1 := by
  obtain ⟨a1, a2, a3⟩ := ha
  refine ⟨a.reduce "number" (npVar1 false), ?_, ?_, ?_, ?_⟩
  · unfold ensembleVariance StatVar.varDim
    rw [if_pos (by rw [a1]; simp)]
  · show a.arr.dims.erase "number" = D
    rw [a1, Finset.erase_insert h2]
  · intro d hd
    exact a2 d (Finset.mem_insert_of_mem hd)
  · show dropMask "number" a.mask = none
    rw [a3]
    rfl

theorem unbiased_shape {a t : StatVar L (FV ℝ)} (h2 : "number" ∉ D) (ha : Shape (insert "number" D) C a) (ht : Shape D C t) : ∃ s1, unbiasedMSE "number" false a t = .ok s1 ∧ Shape D C s1 := by
  obtain ⟨a1, a2, a3⟩ := ha
  have hm : "number" ∈ a.arr.dims := by rw [a1]; simp
  have hR : ∀ f, Shape D C (a.reduce "number" f) := by
    intro f
    refine ⟨?_, fun d hd => a2 d (Finset.mem_insert_of_mem hd), ?_⟩
    · show a.arr.dims.erase "number" = D
      rw [a1, Finset.erase_insert h2]
    · show dropMask "number" a.mask = none
      rw [a3]
      rfl
  have hS : Shape D C ((a.reduce "number" (npVar1 false)).zipWith (· / ·) (⟨DA.scalar (FV.ofNat (a.arr.coords "number").card), none⟩ : StatVar L (FV ℝ))) := by
    obtain ⟨r1, r2, r3⟩ := hR (npVar1 false)
    refine ⟨?_, ?_, ?_⟩
    · show (a.reduce "number" (npVar1 false)).arr.dims ∪ ∅ = D
      rw [r1, Finset.union_empty]
    · intro d hd
      have : (StatVar.zipWith (· / ·) (a.reduce "number" (npVar1 false)) (⟨DA.scalar (FV.ofNat (a.arr.coords "number").card), none⟩ : StatVar L (FV ℝ))).arr.coords d =
          (a.reduce "number" (npVar1 false)).arr.coords d := by
        show joinCoords _ _ d = _
        unfold joinCoords
        rw [r1, if_pos hd]
        simp [DA.scalar]
      rw [this, r2 d hd]
    · show combineMask (a.reduce "number" (npVar1 false)).mask none = none
      rw [r3]
      rfl
  refine ⟨(((((a.reduce "number" (npMean false)).zipWith (· - ·) t).map FV.sq).zipWith (· - ·) ((a.reduce "number" (npVar1 false)).zipWith (· / ·)
    (⟨DA.scalar (FV.ofNat (a.arr.coords "number").card), none⟩ : StatVar L (FV ℝ))))).map (fun x => x - 0), ?_, ((((hR _).zip ht).map).zip hS).map⟩
  unfold unbiasedMSE StatVar.meanDim StatVar.varDim StatVar.sizeDim
  have ht' : "number" ∉ t.arr.dims := by rw [ht.1]; exact h2
  simp only [hm, ht', if_true, if_false, bind, Except.bind, pure, Except.pure, Bool.false_eq_true]

/-- C93: the other scores of an ensemble. With the unbiased squared error of the ensemble mean in a cell (the mean product of the errors of two different members) and its variance: the
unbiased RMSE in the result file is the root of the area-weighted mean over the region of the former (NaN if it is negative), and the spread/skill ratio is the root of the ratio of
the area-weighted means of the latter and the former. -/
theorem C93_ensemble_mean (hn : Labels name land) {a t : StatVar L (FV ℝ)} (ha' : Shape (insert "number" D) C a) (ht' : Shape D C t)
    (hD : ∀ d ∈ ["init_time", "latitude", "longitude"], d ∈ D) (h2 : "number" ∉ D) (hM : 2 ≤ (C "number").card) (ho : o.prediction ≠ "keisler")
    (hg : OnGrid order south degrees fraction t) {r : String × ((ℝ × ℝ) × (ℝ × ℝ))} (hr : r ∈ regions) {b : Bool} {e : Dim → L} (he : e "region" = labelOf name r.1 b)
    (hne : (regionCells o C e (insideOf degrees fraction r.2 b)).Nonempty)
    (hfa : ∀ c ∈ (if o.temporal then {e "init_time"} else C "init_time") ×ˢ C "latitude" ×ˢ C "longitude", ∀ l ∈ C "number",
      (a.arr.val (setLabel (Example.cellAt e c.1 c.2.1 c.2.2) "number" l)).isFin = true)
    (hft : ∀ c ∈ (if o.temporal then {e "init_time"} else C "init_time") ×ˢ C "latitude" ×ˢ C "longitude", (t.arr.val (Example.cellAt e c.1 c.2.1 c.2.2)).isFin = true)
    {P T : Vars (StatVar L (FV ℝ))} (hP : (P.map Prod.fst).Nodup) (hT : (T.map Prod.fst).Nodup) {v : String} (ha : (v, a) ∈ P) (ht : (v, t) ∈ T)
    {member : L × L × L → L → ℝ} (hmember : member = fun c l => (a.arr.val (setLabel (Example.cellAt e c.1 c.2.1 c.2.2) "number" l)).num)
    {target : L × L × L → ℝ} (htarget : target = fun c => (t.arr.val (Example.cellAt e c.1 c.2.1 c.2.2)).num)
    {mse variance : ℝ}
    (hmse : mse = areaMean south degrees (regionCells o C e (insideOf degrees fraction r.2 b)) (fun c =>
      pairSum (C "number") (fun i j => (member c i - target c) * (member c j - target c)) / ((C "number").card * ((C "number").card - 1))))
    (hvariance : variance = areaMean south degrees (regionCells o C e (insideOf degrees fraction r.2 b)) (fun c => eVar (C "number") (member c))) :
    (∀ x, ValueOf (unbiasedRMSE "number" false) (aggregator name land order degrees fraction o) P T v x → x.val e = if mse < 0 then FV.nan else FV.fin (Real.sqrt mse)) ∧
    (0 < mse → ∀ x, ValueOf (spreadSkillRatio "number" false) (aggregator name land order degrees fraction o) P T v x → x.val e = FV.fin (Real.sqrt (variance / mse))) := by
  obtain ⟨s1, k1, S1⟩ := variance_shape (t := t) h2 ha'
  obtain ⟨s2, k2, S2⟩ := unbiased_shape h2 ha' ht'
  have hca : a.arr.coords "number" = C "number" := ha'.2.1 _ (by simp)
  have fin_num : ∀ z : FV ℝ, z.isFin = true → z = FV.fin z.num := by
    intro z hz
    cases z <;> simp [FV.isFin, FV.num] at hz ⊢
  have hcells : ∀ e' ∈ cellSet o t e, ∃ c ∈ (if o.temporal then {e "init_time"} else C "init_time") ×ˢ C "latitude" ×ˢ C "longitude", e' = Example.cellAt e c.1 c.2.1 c.2.2 := by
    intro e' he'
    unfold cellSet at he'
    classical
    obtain ⟨c, hc, rfl⟩ := Finset.mem_image.mp he'
    have := ((mem_used _ _).mp hc).1
    rw [ht'.grid hD e] at this
    exact ⟨c, this, rfl⟩
  have hMem : ∀ c ∈ (if o.temporal then {e "init_time"} else C "init_time") ×ˢ C "latitude" ×ˢ C "longitude",
      EnsembleAt false a "number" (Example.cellAt e c.1 c.2.1 c.2.2) (C "number") (fun l => (a.arr.val (setLabel (Example.cellAt e c.1 c.2.1 c.2.2) "number" l)).num) :=
    fun c hc => ⟨hca, fun l hl => fin_num _ (hfa c hc l hl)⟩
  have hd : "number" ∉ t.arr.dims := by rw [ht'.1]; exact h2
  have E1 : Evaluated (aggregator name land order degrees fraction o) s1 e (cellSet o t e) := shape_evaluated hn ht' hD ho hg S1 (fun c hc => by
    rw [(C32_variance k1 (hMem c hc) hM).1]
    rfl)
  have E2 : Evaluated (aggregator name land order degrees fraction o) s2 e (cellSet o t e) := shape_evaluated hn ht' hD ho hg S2 (fun c hc => by
    rw [C32_unbiased hd k2 (hMem c hc) hM (fin_num _ (hft c hc))]
    rfl)
  have hW1 := shape_good hn ht' hD ho hg hr he hne S1
  have hW2 := shape_good hn ht' hD ho hg hr he hne S2
  have hMem' : ∀ e' ∈ cellSet o t e, EnsembleAt false a "number" e' (C "number") (fun l => (a.arr.val (setLabel e' "number" l)).num) :=
    fun e' he' => by obtain ⟨c, hc, rfl⟩ := hcells e' he'; exact hMem c hc
  have hy' : ∀ e' ∈ cellSet o t e, t.arr.val e' = .fin (t.arr.val e').num := fun e' he' => by obtain ⟨c, hc, rfl⟩ := hcells e' he'; exact fin_num _ (hft c hc)
  have m1 : wmean (aggregator name land order degrees fraction o) s1 (cellSet o t e) (fun e' => eVar (C "number") (fun l => (a.arr.val (setLabel e' "number" l)).num)) = variance := by
    rw [← ht'.cells S1 hD ho e, mean_eq_area hn (ht'.onGrid S1 hg) hr he, S1.used hD ho, hvariance, hmember]
  have m2 : wmean (aggregator name land order degrees fraction o) s2 (cellSet o t e) (fun e' => pairSum (C "number") (fun i j =>
      ((a.arr.val (setLabel e' "number" i)).num - (t.arr.val e').num) * ((a.arr.val (setLabel e' "number" j)).num - (t.arr.val e').num)) / ((C "number").card * ((C "number").card - 1))) = mse := by
    rw [← ht'.cells S2 hD ho e, mean_eq_area hn (ht'.onGrid S2 hg) hr he, S2.used hD ho, hmse, hmember, htarget]
  constructor
  · intro x hx
    have := C32_unbiasedRMSE hP hT ha ht hMem' (fun _ _ => hM) hd hy' k2 E2 hW2 hx
    rw [m2] at this
    exact this
  · intro hpos x hx
    have := C32_spreadSkillRatio hP hT ha ht hMem' (fun _ _ => hM) hd hy' k1 k2 E1 E2 hW1 hW2 (by rw [m2]; exact hpos) hx
    rw [m1, m2] at this
    exact this

/-- C93: the vector RMSE in the result file, for the wind with the components `cu` and `cv`, is the root of the area-weighted mean over the region of the squared length of the vector error. -/
theorem C93_vector (hn : Labels name land) {pu pv tu tv : StatVar L (FV ℝ)} (hs : ∀ x ∈ [pu, pv, tu, tv], Shape D C x)
    (hD : ∀ d ∈ ["init_time", "latitude", "longitude"], d ∈ D) (ho : o.prediction ≠ "keisler")
    (hg : OnGrid order south degrees fraction pu) {r : String × ((ℝ × ℝ) × (ℝ × ℝ))} (hr : r ∈ regions) {b : Bool} {e : Dim → L} (he : e "region" = labelOf name r.1 b)
    (hne : (regionCells o C e (insideOf degrees fraction r.2 b)).Nonempty)
    (hf : ∀ x ∈ [pu, pv, tu, tv], ∀ c ∈ (if o.temporal then {e "init_time"} else C "init_time") ×ˢ C "latitude" ×ˢ C "longitude", (x.arr.val (Example.cellAt e c.1 c.2.1 c.2.2)).isFin = true)
    {P T : Vars (StatVar L (FV ℝ))} (hP : (P.map Prod.fst).Nodup) (hT : (T.map Prod.fst).Nodup) {us vs vectors : List String} (hvec : vectors.Nodup) {m} (hm : windVectorRMSE us vs vectors = .ok m)
    {i : ℕ} {w cu cv : String} (hw : vectors[i]? = some w) (hu : us[i]? = some cu) (hv : vs[i]? = some cv)
    (mpu : (cu, pu) ∈ P) (mpv : (cv, pv) ∈ P) (mtu : (cu, tu) ∈ T) (mtv : (cv, tv) ∈ T)
    {at' : StatVar L (FV ℝ) → L × L × L → ℝ} (hat : at' = fun x c => (x.arr.val (Example.cellAt e c.1 c.2.1 c.2.2)).num)
    {x : DA L (FV ℝ)} (hx : ValueOf m (aggregator name land order degrees fraction o) P T w x) :
    x.val e = FV.fin (Real.sqrt (areaMean south degrees (regionCells o C e (insideOf degrees fraction r.2 b)) (fun c => (at' pu c - at' tu c) ^ 2 + (at' pv c - at' tv c) ^ 2))) := by
  obtain ⟨st, hst⟩ := ((C24_construct (L := L) (K := ℝ) us vs vectors).1).mpr (by
    by_contra hlen
    unfold windVectorRMSE at hm
    rw [(C24_construct (L := L) (K := ℝ) us vs vectors).2 hlen] at hm
    simp [bind, Except.bind] at hm)
  obtain ⟨vars, s, q, h1, h2, h3, rfl⟩ := windVectorRMSE_value hst hm hx
  obtain ⟨i', s', hi', hs', cu', cv', hu', hv', hE⟩ := ((C24_statistic hst hvec P T hP hT h1).2 w (some s)).mp h2
  have hii : i' = i := by
    obtain ⟨b1, b2⟩ := List.getElem?_eq_some_iff.mp hi'
    obtain ⟨b3, b4⟩ := List.getElem?_eq_some_iff.mp hw
    exact (List.Nodup.getElem_inj_iff hvec).mp (b2.trans b4.symm)
  subst hii
  rw [hu] at hu'; rw [hv] at hv'
  simp only [Option.some.injEq] at hu' hv' hs'
  subst hu' hv' hs'
  obtain ⟨pu', pv', tu', tv', k1, k2, k3, k4, hs'⟩ := hE
  have e1 := (pyItem_ok_iff hP).mpr mpu; rw [(pyItem_ok_iff hP).mpr k1] at e1
  have e2 := (pyItem_ok_iff hP).mpr mpv; rw [(pyItem_ok_iff hP).mpr k2] at e2
  have e3 := (pyItem_ok_iff hT).mpr mtu; rw [(pyItem_ok_iff hT).mpr k3] at e3
  have e4 := (pyItem_ok_iff hT).mpr mtv; rw [(pyItem_ok_iff hT).mpr k4] at e4
  simp only [Except.ok.injEq] at e1 e2 e3 e4
  subst e1 e2 e3 e4
  have hS : Shape D C s := by
    rw [hs']
    exact (((hs _ (by simp)).zip (hs _ (by simp))).map).zip (((hs _ (by simp)).zip (hs _ (by simp))).map)
  have fin_num : ∀ z : FV ℝ, z.isFin = true → z = FV.fin z.num := by
    intro z hz
    cases z <;> simp [FV.isFin, FV.num] at hz ⊢
  have hval : ∀ c ∈ (if o.temporal then {e "init_time"} else C "init_time") ×ˢ C "latitude" ×ˢ C "longitude",
      s.arr.val (Example.cellAt e c.1 c.2.1 c.2.2) = FV.fin ((at' pu' c - at' tu' c) ^ 2 + (at' pv' c - at' tv' c) ^ 2) := by
    intro c hc
    obtain ⟨qu, qv, ru, rv, g1, g2, g3, g4, hp⟩ := C24_pointwise (p := P) (t := T) (cu := cu) (cv := cv) (s := s) ⟨pu', pv', tu', tv', k1, k2, k3, k4, hs'⟩
    have e1 := (pyItem_ok_iff hP).mpr g1; rw [(pyItem_ok_iff hP).mpr k1] at e1
    have e2 := (pyItem_ok_iff hP).mpr g2; rw [(pyItem_ok_iff hP).mpr k2] at e2
    have e3 := (pyItem_ok_iff hT).mpr g3; rw [(pyItem_ok_iff hT).mpr k3] at e3
    have e4 := (pyItem_ok_iff hT).mpr g4; rw [(pyItem_ok_iff hT).mpr k4] at e4
    simp only [Except.ok.injEq] at e1 e2 e3 e4
    subst e1 e2 e3 e4
    rw [hp, fin_num _ (hf pu' (by simp) c hc), fin_num _ (hf pv' (by simp) c hc), fin_num _ (hf tu' (by simp) c hc), fin_num _ (hf tv' (by simp) c hc), hat]
    simp only [FV.fin_sub_fin, FV.fin_mul_fin, FV.fin_add_fin, FV.num, pow_two]
  have hs0 := hs pu' (by simp)
  have E : Evaluated (aggregator name land order degrees fraction o) s e (cellSet o pu' e) := shape_evaluated hn hs0 hD ho hg hS (fun c hc => by rw [hval c hc]; rfl)
  have hW := shape_good hn hs0 hD ho hg hr he hne hS
  have hm' := evaluated_mean E h3 hW.2.ne'
  rw [← hs0.cells hS hD ho e, mean_eq_area hn (hs0.onGrid hS hg) hr he, hS.used hD ho] at hm'
  have hcong : areaMean south degrees (regionCells o C e (insideOf degrees fraction r.2 b)) (fun c => (s.arr.val (Example.cellAt e c.1 c.2.1 c.2.2)).num) =
      areaMean south degrees (regionCells o C e (insideOf degrees fraction r.2 b)) (fun c => (at' pu' c - at' tu' c) ^ 2 + (at' pv' c - at' tv' c) ^ 2) := by
    unfold areaMean
    congr 1
    refine Finset.sum_congr rfl (fun c hc => ?_)
    simp only [regionCells, Finset.mem_filter] at hc
    dsimp only
    rw [hval c hc.1]
    rfl
  rw [hcong] at hm'
  show FV.sqrt ((DA.zipWith (· / ·) q.1 q.2).val e) = _
  rw [hm', FV.sqrt, if_neg]
  refine not_lt.mpr (div_nonneg (Finset.sum_nonneg (fun c hc => mul_nonneg ?_ (by positivity))) (Finset.sum_nonneg (fun c hc => ?_)))
  all_goals
    rw [← hs0.used hD ho] at hc
    have := ((mem_used _ _).mp hc).1
    simp only [gridCells, Finset.mem_product, hg.labels, List.mem_toFinset] at this
    exact (Example.bandArea_pos hg.latitudes this.2.1).le

end

/-! ### Data that meet the hypotheses -/

/-- The labels of the statistic `exStatistic`, and two members. -/
def exLabelsOf (d : Dim) : Finset String :=
  if d = "init_time" then {"a", "b"} else if d = "latitude" then {"-60", "0", "60"} else if d = "number" then {"1", "2"} else {"0", "180"}

def exDims : Finset Dim := {"init_time", "latitude", "longitude"}

theorem exShape : Shape exDims exLabelsOf exStatistic ∧ Shape exDims exLabelsOf exZero := by
  have : ∀ d ∈ exDims, exStatistic.arr.coords d = exLabelsOf d := by decide
  exact ⟨⟨rfl, this, rfl⟩, ⟨rfl, this, rfl⟩⟩

/-- The hypotheses of `C93_vector` about the data are met by two components with these values. -/
example : (∀ x ∈ [exStatistic, exZero, exZero, exStatistic], Shape exDims exLabelsOf x) ∧ ∃ m, windVectorRMSE (L := String) ["u"] ["v"] ["wind"] = .ok m := by
  refine ⟨?_, _, rfl⟩
  intro x hx
  simp only [List.mem_cons, List.not_mem_nil, or_false] at hx
  rcases hx with rfl | rfl | rfl | rfl
  · exact exShape.1
  · exact exShape.2
  · exact exShape.2
  · exact exShape.1

/-- The forecast `exStatistic`, the target too, and the climatology 0: the hypotheses of `C93_acc` about the data are met for the land part of the arctic. -/
example (temporal : Bool) : ∃ c ∈ regionCells (exOptions temporal) exLabelsOf (fun d => if d = "region" then "arctic_land" else "a") (insideOf exDegrees exLand ((60, 90), (0, 360)) true),
    (exStatistic.arr.val (Example.cellAt (fun d => if d = "region" then "arctic_land" else "a") c.1 c.2.1 c.2.2)).num -
      (exZero.arr.val (Example.cellAt (fun d => if d = "region" then "arctic_land" else "a") c.1 c.2.1 c.2.2)).num ≠ 0 := by
  refine ⟨("a", "60", "180"), ?_, ?_⟩
  · simp only [regionCells, Finset.mem_filter]
    refine ⟨by cases temporal <;> decide, ⟨⟨?_, onArc_all _⟩, ?_⟩⟩
    · simp [exDegrees]
      norm_num
    · intro _ e h1 h2
      have : exLand.val e = FV.fin (1 / 100) := if_pos ⟨h1, h2⟩
      rw [this]
      simp
  · simp [exStatistic, exZero, Example.cellAt, FV.num]

/-- Two members, the second of which is always 1: the hypotheses of `C93_crps` about the data are met. -/
noncomputable def exTwo : StatVar String (FV ℝ) where
  arr := { dims := insert "number" exDims, coords := exLabelsOf, val := fun e => if e "number" = "1" then exStatistic.arr.val e else .fin 1 }
  mask := none

example : Shape (insert "number" exDims) exLabelsOf exTwo ∧ exTwo.arr.WF ∧ 2 ≤ (exLabelsOf "number").card ∧ ∀ e, (exTwo.arr.val e).isFin = true := by
  refine ⟨⟨rfl, fun _ _ => rfl, rfl⟩, ?_, by decide, ?_⟩
  · intro e e' h
    have h0 := h "number" (by decide)
    have h1 := h "latitude" (by decide)
    have h2 := h "longitude" (by decide)
    show (if e "number" = "1" then (if e "latitude" = "60" then (if e "longitude" = "180" then FV.fin (5 : ℝ) else FV.fin 3) else FV.fin 1) else FV.fin 1) = _
    rw [h0, h1, h2]
    rfl
  · intro e
    simp only [exTwo, exStatistic]
    split_ifs <;> rfl

end WBX.Benchmark
