import Verif.Spec.BenchmarkRegions
import Verif.Lemmas.ExampleWeights
import Verif.Lemmas.Evaluated
import Verif.Props.Latency

set_option linter.unusedSectionVars false

/-!
# The regions and weights of the benchmark
-/

namespace WBX.Benchmark
open WBX DA
variable {L : Type} [DecidableEq L]

theorem names_nodup : (regions.map Prod.fst ++ regions.map (fun r => r.1 ++ "_land")).Nodup := by
  have : regions.map Prod.fst = ["global", "tropics", "northern-hemisphere", "southern-hemisphere", "europe", "north-america", "north-atlantic", "north-pacific", "east-asia", "ausnz", "arctic",
      "antarctic", "northern-africa", "southern-africa", "south-america", "west-asia", "south-east-asia"] := rfl
  have h2 : regions.map (fun r => r.1 ++ "_land") = (regions.map Prod.fst).map (· ++ "_land") := by rw [List.map_map]; rfl
  rw [h2, this]
  decide

theorem limits : ∀ r ∈ regions, r.2.1.1 < r.2.1.2 := by
  intro r hr
  simp only [regions, List.mem_cons, List.not_mem_nil, or_false] at hr
  rcases hr with rfl | rfl | rfl | rfl | rfl | rfl | rfl | rfl | rfl | rfl | rfl | rfl | rfl | rfl | rfl | rfl | rfl <;> norm_num

section
variable {lat lon : DA L ℝ} {lm : DA L Bool} {rs : List (L × ((ℝ × ℝ) × (ℝ × ℝ)))} {land : L → L}

theorem regionBin_shape {q : L × ((ℝ × ℝ) × (ℝ × ℝ))} {b : L × DA L Bool} (h : regionBin lat lon q = .ok b) :
    b.2.dims = lat.dims ∪ lon.dims ∧ b.2.coords = joinCoords lat lon := by
  unfold regionBin regionToMask at h
  simp only [bind_ok_iff, pure, Except.pure, Except.ok.injEq] at h
  obtain ⟨m, ⟨f, hf, rfl⟩, rfl⟩ := h
  exact ⟨rfl, rfl⟩

theorem regionBins_ok (hl : ∀ q ∈ rs, q.2.1.1 < q.2.1.2) : ∃ ms, rs.mapM (regionBin lat lon) = .ok ms := by
  refine mapM_ok_of_mem _ _ ?_
  intro q hq
  unfold regionBin regionToMask
  obtain ⟨f, hf, -⟩ := (C41_latitude q.2.1).2 (hl q hq)
  rw [hf]
  exact ⟨_, rfl⟩

theorem foldr_dims (D : Finset Dim) : ∀ ms : List (L × DA L Bool), ms ≠ [] → (∀ b ∈ ms, b.2.dims = D) → ms.foldr (fun q s => q.2.dims ∪ s) ∅ = D
  | [], h, _ => absurd rfl h
  | [b], _, h => by
    rw [List.foldr_cons, List.foldr_nil, h b (by simp), Finset.union_empty]
  | b :: b' :: ms, _, h => by
    rw [List.foldr_cons, foldr_dims D (b' :: ms) (by simp) (fun c hc => h c (List.mem_cons_of_mem _ hc)), h b (by simp), Finset.union_self]

theorem concatBins_shape {d : Dim} {l : L} {m : DA L Bool} {ms : List (L × DA L Bool)} {r : DA L Bool} (h : concatBins d ((l, m) :: ms) = .ok r) :
    r.dims = insert d (((l, m) :: ms).foldr (fun q s => q.2.dims ∪ s) ∅) ∧ ∀ k, k ≠ d → r.coords k = m.coords k := by
  unfold concatBins at h
  rw [← Except.ok.inj h]
  exact ⟨rfl, fun k hk => if_neg hk⟩

/-- Dimensions and labels of the bins with their land parts, for a land-sea mask on the same grid. -/
theorem regionsMask_shape (hlat : lat.dims = {"latitude"}) (hlon : lon.dims = {"longitude"}) (hld : lm.dims = {"latitude", "longitude"})
    (hc1 : lat.coords "latitude" = lm.coords "latitude") (hc2 : lon.coords "longitude" = lm.coords "longitude") (hne : rs ≠ []) (hl : ∀ q ∈ rs, q.2.1.1 < q.2.1.2) :
    ∃ r, regionsMask "region" rs (some lm) land lat lon = .ok r ∧ r.dims = {"region", "latitude", "longitude"} ∧ r.coords "latitude" = lat.coords "latitude" ∧
      r.coords "longitude" = lon.coords "longitude" := by
  obtain ⟨ms, hms⟩ := regionBins_ok (lat := lat) (lon := lon) hl
  have hshape : ∀ b ∈ ms, b.2.dims = lat.dims ∪ lon.dims ∧ b.2.coords = joinCoords lat lon := by
    intro b hb
    obtain ⟨q, -, hq⟩ := mapM_out_mem hms b hb
    exact regionBin_shape hq
  have hmsne : ms ≠ [] := by
    intro h0
    have := mapM_map _ Prod.fst Prod.fst (fun x y hxy => (regionBin_ok hxy).1) _ _ hms
    rw [h0, List.map_nil] at this
    exact hne (List.map_eq_nil_iff.mp this.symm)
  obtain ⟨b, ms', rfl⟩ := List.exists_cons_of_ne_nil hmsne
  unfold regionsMask regionBins
  rw [hms]
  have hadd : addLandBins (some lm) land lat lon (b :: ms') = .ok ((b :: ms') ++ (b :: ms').map (fun m => (land m.1, DA.zipWith (· && ·) m.2 lm))) := by
    unfold addLandBins
    simp only [reduceCtorEq, if_false]
    rw [if_pos ⟨hc1, hc2⟩]
  have hdims : ∀ c ∈ (b :: ms') ++ (b :: ms').map (fun m => (land m.1, DA.zipWith (· && ·) m.2 lm)), c.2.dims = {"latitude", "longitude"} := by
    have hu : lat.dims ∪ lon.dims = ({"latitude", "longitude"} : Finset Dim) := by rw [hlat, hlon]; rfl
    intro c hc
    rcases List.mem_append.mp hc with hc | hc
    · rw [(hshape c hc).1, hu]
    · obtain ⟨m, hm, rfl⟩ := List.mem_map.mp hc
      show m.2.dims ∪ lm.dims = _
      rw [(hshape m hm).1, hu, hld, Finset.union_self]
  obtain ⟨r, hr⟩ := concatBins_exists "region" (ms := (b :: ms') ++ (b :: ms').map (fun m => (land m.1, DA.zipWith (· && ·) m.2 lm))) (by simp)
  refine ⟨r, ?_, ?_⟩
  · show (do let ms ← addLandBins (some lm) land lat lon (b :: ms'); concatBins "region" ms) = _
    rw [hadd]
    exact hr
  · have hd := foldr_dims _ _ (by simp) hdims
    have hb := (hshape b (by simp)).2
    rw [List.cons_append] at hr hd
    obtain ⟨l, m⟩ := b
    obtain ⟨hrd, hk⟩ := concatBins_shape hr
    refine ⟨?_, ?_, ?_⟩
    · rw [hrd, hd]
    · rw [hk "latitude" (by decide), hb]
      simp [joinCoords, hlat, hlon]
    · rw [hk "longitude" (by decide), hb]
      simp [joinCoords, hlat]

theorem regionsMask_other_grid (h : ¬ (lat.coords "latitude" = lm.coords "latitude" ∧ lon.coords "longitude" = lm.coords "longitude")) (r : DA L Bool) :
    regionsMask "region" rs (some lm) land lat lon ≠ .ok r := by
  intro hr
  unfold regionsMask regionBins at hr
  simp only [bind_ok_iff] at hr
  obtain ⟨ms, ⟨ms', -, hms⟩, -⟩ := hr
  unfold addLandBins at hms
  simp only at hms
  rw [if_neg h] at hms
  split_ifs at hms

end

theorem asBool_iff (x : FV ℝ) : asBool x = true ↔ x ≠ FV.fin 0 := by
  cases x <;> simp [asBool]

open Classical in
/-- The mask of the regions and their land parts. -/
theorem benchmark_mask {name : String → L} {land : L → L} (hn : Labels name land) {order south : List L} {degrees : L → ℝ} {fraction : DA L (FV ℝ)} {s : StatVar L (FV ℝ)}
    (hg : OnGrid order south degrees fraction s) :
    ∃ m, (regionBinning name land degrees fraction).createBinMask s.arr = m ∧ m.dims = {"region", "latitude", "longitude"} ∧
      m.coords "region" = ((regions.map Prod.fst ++ regions.map (fun r => r.1 ++ "_land")).map name).toFinset ∧
      m.coords "latitude" = s.arr.coords "latitude" ∧ m.coords "longitude" = s.arr.coords "longitude" ∧
      (∀ e, (m.val e).isFin = true) ∧
      ∀ r ∈ regions, ∀ b : Bool, ∀ e : Dim → L, e "region" = labelOf name r.1 b →
        m.val e = if insideOf degrees fraction r.2 b (e "latitude") (e "longitude") then FV.fin 1 else FV.fin 0 := by
  obtain ⟨hwf, hfd, hf1, hf2⟩ := hg.landSea
  obtain ⟨r, hr, hrd, hr1, hr2⟩ := regionsMask_shape (lat := Example.coordArray degrees "latitude" s.arr) (lon := Example.coordArray degrees "longitude" s.arr) (lm := fraction.map asBool)
    (rs := regions.map (fun r => (name r.1, r.2))) (land := land) rfl rfl hfd hf1.symm hf2.symm (by simp [regions]) (by
      intro q hq
      obtain ⟨q', hq', rfl⟩ := List.mem_map.mp hq
      exact limits q' hq')
  have hlist : (regions.map (fun r => (name r.1, r.2))).map Prod.fst ++ (regions.map (fun r => (name r.1, r.2))).map (fun q => land q.1) =
      (regions.map Prod.fst ++ regions.map (fun r => r.1 ++ "_land")).map name := by
    rw [List.map_append, List.map_map, List.map_map, List.map_map, List.map_map]
    congr 1
    refine List.map_congr_left (fun q _ => ?_)
    exact hn.land q.1
  obtain ⟨hc, hv⟩ := C41_regions_land (by rw [hlist]; exact names_nodup.map hn.different) hr
  refine ⟨r.map FV.ofBool, ?_, hrd, ?_, hr1, hr2, ?_, ?_⟩
  · simp only [regionBinning, hr]
  · show r.coords "region" = _
    rw [hc, hlist]
  · intro e
    simp only [DA.map, FV.ofBool]
    cases r.val e <;> rfl
  · intro q hq b e he
    obtain ⟨h1, h2⟩ := hv (name q.1, q.2) (List.mem_map.mpr ⟨q, hq, rfl⟩) e
    have hval : r.val e = true ↔ insideOf degrees fraction q.2 b (e "latitude") (e "longitude") := by
      cases b with
      | false =>
        rw [h1 he]
        unfold insideOf Inside
        simp [Example.coordArray]
      | true =>
        rw [h2 (by rw [he, hn.land]; rfl)]
        unfold insideOf Inside
        have hl : (fraction.map asBool).val e = true ↔ ∀ e' : Dim → L, e' "latitude" = e "latitude" → e' "longitude" = e "longitude" → fraction.val e' ≠ FV.fin 0 := by
          show asBool (fraction.val e) = true ↔ _
          rw [asBool_iff]
          constructor
          · intro h e' he1 he2
            rw [hwf e' e (by
              intro d hd
              rw [hfd] at hd
              simp only [Finset.mem_insert, Finset.mem_singleton] at hd
              rcases hd with rfl | rfl
              · exact he1
              · exact he2)]
            exact h
          · intro h
            exact h e rfl rfl
        rw [hl]
        simp [Example.coordArray]
    simp only [DA.map, FV.ofBool]
    by_cases hb : insideOf degrees fraction q.2 b (e "latitude") (e "longitude")
    · rw [if_pos (hval.mpr hb), if_pos hb]; rfl
    · rw [if_neg (fun h => hb (hval.mp h)), if_neg hb]; rfl

/-! ### The cells of a mean -/

section
variable {name : String → L} {land : L → L} {order south : List L} {degrees : L → ℝ} {fraction : DA L (FV ℝ)} {s : StatVar L (FV ℝ)} {o : Options}

theorem coordOnly : (aggregator name land order degrees fraction o).CoordOnly := by
  constructor
  · intro w hw a a' h1 h2
    simp only [aggregator, List.mem_singleton] at hw
    subst hw
    unfold Example.gridWeights gridAreaWeights
    rw [h1]
  · intro b hb a a' h1 h2
    simp only [aggregator, List.mem_singleton] at hb
    subst hb
    simp only [regionBinning, Example.coordArray, h2]

theorem at_lat (e : Dim → L) (i la lo : L) : Example.cellAt e i la lo "latitude" = la := rfl
theorem at_lon (e : Dim → L) (i la lo : L) : Example.cellAt e i la lo "longitude" = lo := rfl
theorem at_other (e : Dim → L) (i la lo : L) {d : Dim} (h : d ∉ ["init_time", "latitude", "longitude"]) : Example.cellAt e i la lo d = e d := by
  simp only [List.mem_cons, List.not_mem_nil, or_false, not_or] at h
  simp [Example.cellAt, h.1, h.2.1, h.2.2]

theorem cellAt_self (e : Dim → L) {e' : Dim → L} (h : ∀ d, d ∉ (["init_time", "latitude", "longitude"] : List Dim) → e' d = e d) :
    Example.cellAt e (e' "init_time") (e' "latitude") (e' "longitude") = e' := by
  funext d
  by_cases h1 : d = "init_time"
  · subst h1; rfl
  by_cases h2 : d = "latitude"
  · subst h2; rfl
  by_cases h3 : d = "longitude"
  · subst h3; rfl
  simp only [Example.cellAt, if_neg h1, if_neg h2, if_neg h3]
  exact (h d (by simp [h1, h2, h3])).symm

theorem counted_iff (e' : Dim → L) : counted (aggregator name land order degrees fraction o) s e' = true ↔ Kept o s e' := by
  unfold counted Kept
  rw [Bool.and_eq_true]
  refine and_congr ?_ ?_
  · show (match true, s.mask with | true, some m => m.val e' | _, _ => true) = true ↔ _
    cases s.mask with
    | none => simp
    | some m => simp
  · show (!decide (o.prediction = "keisler") || !(s.arr.val e').isnan) = true ↔ _
    rw [Bool.or_eq_true, Bool.not_eq_true', Bool.not_eq_true', decide_eq_false_iff_not]
    have : (s.arr.val e').isnan = false ↔ s.arr.val e' ≠ FV.nan := by cases s.arr.val e' <;> simp [FV.isnan]
    rw [this]
    tauto

/-- Masking leaves the labels unchanged. -/
theorem masked_coords (agg : Aggregator L (FV ℝ)) {s : StatVar L (FV ℝ)} (hm : ∀ m, s.mask = some m → m.dims ⊆ s.arr.dims ∧ m.coords = s.arr.coords) :
    (agg.applyMask s).1.coords = s.arr.coords ∧ (agg.applyMask s).2.coords = s.arr.coords := by
  have key : ∀ {V W : Type} (a : DA L V) (b : DA L W), a.coords = s.arr.coords → b.coords = s.arr.coords → joinCoords a b = s.arr.coords := by
    intro V W a b h1 h2
    funext d
    unfold joinCoords
    rw [h1, h2, Finset.inter_self]
    split_ifs <;> rfl
  have keyZ : ∀ {V W U : Type} (f : V → W → U) (a : DA L V) (b : DA L W), a.coords = s.arr.coords → b.coords = s.arr.coords → (DA.zipWith f a b).coords = s.arr.coords :=
    fun f a b h1 h2 => key a b h1 h2
  have keyM : ∀ {V W : Type} (f : V → W) (a : DA L V), a.coords = s.arr.coords → (a.map f).coords = s.arr.coords := fun f a h => h
  have keyW : ∀ (m : DA L Bool) (x : FV ℝ), m.coords = s.arr.coords → (s.arr.where_ m x).coords = s.arr.coords := fun m x h => keyZ _ _ _ rfl h
  have keyB : ∀ {V W : Type} (a : DA L V) (b : DA L W), a.coords = s.arr.coords → b.coords = s.arr.coords → (a.broadcastLike b).coords = s.arr.coords := fun a b h1 h2 => keyZ _ _ _ h1 h2
  have hplain : (if agg.skipna then (s.arr.where_ (s.arr.map (fun v => !IsNull.isnull v)) 0, (s.arr.map (fun v => !IsNull.isnull v)).map (Aggregator.boolToV (V := FV ℝ)))
      else (s.arr, s.arr.map (fun _ => (1 : FV ℝ)))).1.coords = s.arr.coords ∧
      (if agg.skipna then (s.arr.where_ (s.arr.map (fun v => !IsNull.isnull v)) 0, (s.arr.map (fun v => !IsNull.isnull v)).map (Aggregator.boolToV (V := FV ℝ)))
      else (s.arr, s.arr.map (fun _ => (1 : FV ℝ)))).2.coords = s.arr.coords := by
    split_ifs
    · exact ⟨keyW _ _ (keyM _ _ rfl), keyM _ _ (keyM _ _ rfl)⟩
    · exact ⟨rfl, rfl⟩
  unfold Aggregator.applyMask
  cases h1 : agg.masked <;> cases h2 : s.mask with
  | none => exact hplain
  | some m =>
    first
    | exact hplain
    | have hc := (hm m h2).2
      have hm' : (if agg.skipna then DA.zipWith (· && ·) m (s.arr.map (fun v => !IsNull.isnull v)) else m).coords = s.arr.coords := by
        split_ifs
        · exact keyZ _ _ _ hc (keyM _ _ rfl)
        · exact hc
      exact ⟨keyW _ _ hm', keyM _ _ (keyB _ _ hm' (keyW _ _ hm'))⟩

theorem mem_used {e : Dim → L} (inside : L → L → Prop) (c : L × L × L) :
    c ∈ usedCells o s e inside ↔ c ∈ gridCells o s e ∧ Kept o s (Example.cellAt e c.1 c.2.1 c.2.2) ∧ inside c.2.1 c.2.2 := by
  simp only [usedCells, Finset.mem_filter]

open Classical in
/-- The cells that are averaged, as assignments of labels. -/
noncomputable def cellSet (o : Options) (s : StatVar L (FV ℝ)) (e : Dim → L) : Finset (Dim → L) :=
  (usedCells o s e (fun _ _ => True)).image (fun c => Example.cellAt e c.1 c.2.1 c.2.2)

theorem covers (hn : Labels name land) (hg : OnGrid order south degrees fraction s) :
    ∀ m ∈ (aggregator name land order degrees fraction o).allFactors s.arr, CoversLabels m s.arr := by
  obtain ⟨m, hm', hmd, hmr, hmla, hmlo, hfin, -⟩ := benchmark_mask hn hg
  obtain ⟨c, -, hwd, hwc, hwf, -⟩ := Example.grid_weights hg.order hg.latitudes (hg.dims "latitude" (by simp))
  have hfac : (aggregator name land order degrees fraction o).allFactors s.arr = [Example.gridWeights order degrees s.arr, m] := by
    rw [← hm']
    rfl
  rw [hfac]
  intro m' hm2 d hd hd2
  simp only [List.mem_cons, List.not_mem_nil, or_false] at hm2
  rcases hm2 with rfl | rfl
  · rw [hwd, Finset.mem_singleton] at hd
    subst hd
    rw [hwc, hg.labels]
  · rw [hmd] at hd
    simp only [Finset.mem_insert, Finset.mem_singleton] at hd
    rcases hd with rfl | rfl | rfl
    · exact absurd hd2 hg.region
    · rw [hmla]
    · rw [hmlo]

theorem evaluated (hn : Labels name land) (hg : OnGrid order south degrees fraction s) {e : Dim → L}
    (hf : ∀ c ∈ gridCells o s e, Kept o s (Example.cellAt e c.1 c.2.1 c.2.2) → (s.arr.val (Example.cellAt e c.1 c.2.1 c.2.2)).isFin = true) :
    Evaluated (aggregator name land order degrees fraction o) s e (cellSet o s e) := by
  obtain ⟨m, hm', hmd, hmr, hmla, hmlo, hfin, -⟩ := benchmark_mask hn hg
  obtain ⟨c, -, hwd, hwc, hwf, -⟩ := Example.grid_weights hg.order hg.latitudes (hg.dims "latitude" (by simp))
  have hfac : (aggregator name land order degrees fraction o).allFactors s.arr = [Example.gridWeights order degrees s.arr, m] := by
    rw [← hm']
    rfl
  refine ⟨coordOnly, covers hn hg, hg.mask, ?_, ?_, ?_⟩
  · rw [hfac]
    intro m' hm2 e'
    simp only [List.mem_cons, List.not_mem_nil, or_false] at hm2
    rcases hm2 with rfl | rfl
    · exact hwf e'
    · exact hfin e'
  · intro e'
    rw [counted_iff]
    simp only [cellSet, Finset.mem_image, usedCells, Finset.mem_filter, gridCells, Finset.mem_product, Prod.exists, and_true]
    have hred : (aggregator name land order degrees fraction o).reduceDims = reduceDims o := rfl
    rw [hred]
    constructor
    · rintro ⟨i, la, lo, ⟨⟨hi, hla, hlo⟩, hk⟩, rfl⟩
      refine ⟨⟨?_, ?_⟩, hk⟩
      · intro d hd
        unfold reduceDims at hd
        unfold initsOf at hi
        split_ifs at hd hi with ht
        · simp only [List.mem_cons, List.not_mem_nil, or_false] at hd
          rcases hd with rfl | rfl
          · exact hla
          · exact hlo
        · simp only [List.mem_cons, List.not_mem_nil, or_false] at hd
          rcases hd with rfl | rfl | rfl
          · exact hi
          · exact hla
          · exact hlo
      · intro d hd
        unfold reduceDims at hd
        unfold initsOf at hi
        split_ifs at hd hi with ht
        · by_cases h1 : d = "init_time"
          · subst h1
            exact Finset.mem_singleton.mp hi
          · refine at_other _ _ _ _ ?_
            simp only [List.mem_cons, List.not_mem_nil, or_false, not_or] at hd ⊢
            exact ⟨h1, hd⟩
        · exact at_other _ _ _ _ hd
    · rintro ⟨⟨h1, h2⟩, hk⟩
      have hself : Example.cellAt e (e' "init_time") (e' "latitude") (e' "longitude") = e' := by
        refine cellAt_self e (fun d hd => h2 d ?_)
        unfold reduceDims
        split_ifs
        · simp only [List.mem_cons, List.not_mem_nil, or_false, not_or] at hd ⊢
          exact hd.2
        · exact hd
      refine ⟨e' "init_time", e' "latitude", e' "longitude", ⟨⟨?_, ?_, ?_⟩, ?_⟩, hself⟩
      · unfold initsOf
        unfold reduceDims at h1 h2
        split_ifs at h1 h2 ⊢ with ht
        · exact Finset.mem_singleton.mpr (h2 _ (by decide))
        · exact h1 _ (by decide)
      · refine h1 _ ?_
        unfold reduceDims
        split_ifs <;> decide
      · refine h1 _ ?_
        unfold reduceDims
        split_ifs <;> decide
      · rw [hself]
        exact hk
  · intro e' he'
    simp only [cellSet, Finset.mem_image, usedCells, Finset.mem_filter] at he'
    obtain ⟨c', ⟨hc', hk, -⟩, rfl⟩ := he'
    exact hf c' hc' hk

open Classical in
theorem sum_cellSet (e : Dim → L) (f : (Dim → L) → ℝ) :
    ∑ e' ∈ cellSet o s e, f e' = ∑ c ∈ usedCells o s e (fun _ _ => True), f (Example.cellAt e c.1 c.2.1 c.2.2) := by
  unfold cellSet
  rw [Finset.sum_image]
  intro a _ b _ hab
  have h1 := congrFun hab "init_time"
  have h2 := congrFun hab "latitude"
  have h3 := congrFun hab "longitude"
  exact Prod.ext h1 (Prod.ext h2 h3)

open Classical in
theorem cell_weight (hn : Labels name land) (hg : OnGrid order south degrees fraction s) :
    ∃ k : ℝ, 0 < k ∧ ∀ r ∈ regions, ∀ (b : Bool) (e : Dim → L), e "region" = labelOf name r.1 b → ∀ c ∈ gridCells o s e,
      cellWeight (aggregator name land order degrees fraction o) s (Example.cellAt e c.1 c.2.1 c.2.2) =
        (if insideOf degrees fraction r.2 b c.2.1 c.2.2 then Example.bandArea south degrees c.2.1 else 0) / k := by
  obtain ⟨m, hm', -, -, -, -, -, hmv⟩ := benchmark_mask hn hg
  obtain ⟨k, hk, -, -, -, hwv⟩ := Example.grid_weights hg.order hg.latitudes (hg.dims "latitude" (by simp))
  refine ⟨k, hk, ?_⟩
  intro r hr b e he c hc
  have hfac : (aggregator name land order degrees fraction o).allFactors s.arr = [Example.gridWeights order degrees s.arr, m] := by
    rw [← hm']
    rfl
  unfold cellWeight
  rw [hfac]
  have hla : c.2.1 ∈ south := by
    simp only [gridCells, Finset.mem_product, hg.labels, List.mem_toFinset] at hc
    exact hc.2.1
  have h1 := hwv (Example.cellAt e c.1 c.2.1 c.2.2) (by rw [at_lat]; exact hla)
  have h2 := hmv r hr b (Example.cellAt e c.1 c.2.1 c.2.2) (by rw [at_other _ _ _ _ (by decide)]; exact he)
  rw [at_lat] at h1 h2
  rw [at_lon] at h2
  simp only [List.map_cons, List.map_nil, List.prod_cons, List.prod_nil, h1, h2]
  split_ifs <;> simp [FV.num]

open Classical in
/-- Weighted sums over the cells are sums over the cells of the region, up to a factor. -/
theorem weighted_sum (hn : Labels name land) (hg : OnGrid order south degrees fraction s) :
    ∃ k : ℝ, 0 < k ∧ ∀ r ∈ regions, ∀ (b : Bool) (e : Dim → L), e "region" = labelOf name r.1 b → ∀ f : (Dim → L) → ℝ,
      ∑ e' ∈ cellSet o s e, f e' * cellWeight (aggregator name land order degrees fraction o) s e' =
        (∑ c ∈ usedCells o s e (insideOf degrees fraction r.2 b), Example.bandArea south degrees c.2.1 * f (Example.cellAt e c.1 c.2.1 c.2.2)) / k := by
  obtain ⟨k, hk, hw⟩ := cell_weight (o := o) hn hg
  refine ⟨k, hk, ?_⟩
  intro r hr b e he f
  rw [sum_cellSet, Finset.sum_div]
  have hsub : usedCells o s e (insideOf degrees fraction r.2 b) = (usedCells o s e (fun _ _ => True)).filter (fun c => insideOf degrees fraction r.2 b c.2.1 c.2.2) := by
    ext c
    simp only [usedCells, Finset.mem_filter, and_true, and_assoc]
  rw [hsub, Finset.sum_filter]
  refine Finset.sum_congr rfl (fun c hc => ?_)
  rw [hw r hr b e he c ((mem_used _ _).mp hc).1]
  split_ifs
  · ring
  · simp

end
/-- Weights and bins only depend on the latitudes and longitudes: the aggregator treats chunks of times like the whole. -/
theorem benchmark_local {name : String → L} {land : L → L} {order : List L} {degrees : L → ℝ} {fraction : DA L (FV ℝ)} {o : Options} (hf : fraction.dims = {"latitude", "longitude"}) {c : Dim}
    (hc : c = "init_time" ∨ c = "lead_time") : (aggregator name land order degrees fraction o).Local c := by
  have hc' : c ≠ "latitude" ∧ c ≠ "longitude" ∧ c ≠ "region" := by rcases hc with rfl | rfl <;> decide
  have key : ∀ x : DA L (FV ℝ), c ∉ x.dims → ∀ S, x.Same (x.restrict c S) := by
    intro x hx S
    refine ⟨rfl, ?_, fun _ _ => rfl⟩
    intro d hd
    have : d ≠ c := by rintro rfl; exact hx hd
    simp [DA.restrict, this]
  constructor
  · intro w hw a S _
    simp only [aggregator, List.mem_singleton] at hw
    subst hw
    have : Example.gridWeights order degrees (a.restrict c S) = Example.gridWeights order degrees a := rfl
    rw [this]
    refine key _ ?_ S
    unfold Example.gridWeights gridAreaWeights
    by_cases h1 : "latitude" ∈ a.dims
    · cases h2 : latitudeWeights true (order.map degrees) <;> simp [h1, bind, Except.bind, pure, Except.pure, DA.map, DA.scalar, hc'.1]
    · simp only [h1, not_false_eq_true, if_true]
      exact Finset.notMem_empty c
  · intro b hb a S _
    simp only [aggregator, List.mem_singleton] at hb
    subst hb
    have : (regionBinning name land degrees fraction).createBinMask (a.restrict c S) = (regionBinning name land degrees fraction).createBinMask a := by
      have e1 : (a.restrict c S).coords "latitude" = a.coords "latitude" := by simp [DA.restrict, hc'.1.symm]
      have e2 : (a.restrict c S).coords "longitude" = a.coords "longitude" := by simp [DA.restrict, hc'.2.1.symm]
      simp only [regionBinning, Example.coordArray, e1, e2]
    rw [this]
    refine key _ ?_ S
    by_cases hgrid : a.coords "latitude" = fraction.coords "latitude" ∧ a.coords "longitude" = fraction.coords "longitude"
    · obtain ⟨r, hr, hrd, -⟩ := regionsMask_shape (lat := Example.coordArray degrees "latitude" a) (lon := Example.coordArray degrees "longitude" a) (lm := fraction.map asBool)
        (rs := regions.map (fun r => (name r.1, r.2))) (land := land) rfl rfl hf hgrid.1 hgrid.2 (by simp [regions]) (by
          intro q hq
          obtain ⟨q', hq', rfl⟩ := List.mem_map.mp hq
          exact limits q' hq')
      have : (regionBinning name land degrees fraction).createBinMask a = r.map FV.ofBool := by
        simp only [regionBinning, hr]
      rw [this]
      show c ∉ r.dims
      rw [hrd]
      simp [hc']
    · have : (regionBinning name land degrees fraction).createBinMask a = DA.scalar FV.nan := by
        simp only [regionBinning]
        cases hr : regionsMask "region" (regions.map (fun r => (name r.1, r.2))) (some (fraction.map asBool)) land (Example.coordArray degrees "latitude" a) (Example.coordArray degrees "longitude" a) with
        | error e => rfl
        | ok r => exact absurd hr (regionsMask_other_grid hgrid r)
      rw [this]
      exact Finset.notMem_empty c

end WBX.Benchmark
