import Verif.Model.ReferenceClip
import Verif.Props.Altitude

/-!
# C78: interpolation to the coordinates of a reference
-/

set_option linter.unusedSectionVars false
set_option linter.unusedVariables false

namespace WBX
open Classical DA
variable {L K : Type} [DecidableEq L] [Field K] [LinearOrder K] [IsStrictOrderedRing K]
variable {deg : L → K} {shift : K → L → L} {dims : Option (List Dim)} {wrap ext : Bool} {dimList : List Dim} {a : Ordered L (FV K)} {ref : Reference L K}

/-- C78: interpolating to a reference with data is interpolating to fixed coordinates, namely those that the reference has for the dimensions to interpolate: the given ones or, by
default, the dimensions of the array that the reference has as coordinates. The other coordinates and the values of the reference do not matter. So all that C60 and C61 say about fixed
coordinates holds for references. -/
theorem C78_fixed (hc : ∃ e, ref.arr.InDom e) {q : LikeReference L K} (h : interpolateReference deg shift dims wrap ext dimList none a ref = .ok q) :
    ∃ args : List (Dim × DA L (FV K)), interpolateFixed deg shift wrap ext args a = .ok q.arr ∧ (∀ c ∈ args, pyItem ref.coord c.1 = .ok c.2) ∧
      (∀ ds, dims = some ds → args.map Prod.fst = ds) ∧ (dims = none → args.map Prod.fst = dimList.filter (fun d => decide (d ∈ ref.coord.map Prod.fst))) := by
  have hcells : hasCells ref.arr = true := by
    obtain ⟨e, he⟩ := hc
    simp only [hasCells, decide_eq_true_eq]
    exact fun d hd => ⟨e d, he d hd⟩
  unfold interpolateReference at h
  obtain ⟨p, hp, h⟩ := bind_ok_iff.mp h
  rw [if_neg (by simp [hcells])] at h
  obtain ⟨args, hargs, h⟩ := bind_ok_iff.mp h
  obtain ⟨r, hr, h⟩ := bind_ok_iff.mp h
  cases h
  refine ⟨args, ?_, ?_, ?_⟩
  · obtain ⟨p', hp', h1, h2⟩ := interpolateWith_ok.mp hr
    rw [maybePad_false.mp hp'] at h1 h2
    exact interpolateWith_ok.mpr ⟨p, hp, h1, h2⟩
  · intro c hc
    obtain ⟨d, hd, hd'⟩ := mapM_out_mem hargs c hc
    obtain ⟨y, hy, hd'⟩ := bind_ok_iff.mp hd'
    cases hd'
    exact hy
  · have key : ∀ (l : List Dim) (r : List (Dim × DA L (FV K))), (l.mapM (fun d => do
        let c ← pyItem ref.coord d
        return (d, c)) : Except Err _) = .ok r → r.map Prod.fst = l := by
      intro l
      induction l with
      | nil => intro r hr; simp only [List.mapM_nil, pure, Except.pure, Except.ok.injEq] at hr; subst hr; rfl
      | cons d l ih =>
        intro r hr
        rw [List.mapM_cons] at hr
        obtain ⟨x, hx, hr⟩ := bind_ok_iff.mp hr
        obtain ⟨xs, hxs, hr⟩ := bind_ok_iff.mp hr
        cases hr
        obtain ⟨y, hy, hx⟩ := bind_ok_iff.mp hx
        cases hx
        rw [List.map_cons, ih xs hxs]
    rw [key _ _ hargs]
    exact ⟨fun ds e => by rw [e]; rfl, fun e => by rw [e]; rfl⟩

/-- C78: stations. If latitude is the only dimension of the array that the reference has as a coordinate, the value at a cell of the reference within the grid is the linear interpolation
between the neighbouring latitudes of the grid, at the latitude that the reference has there. -/
theorem C78_linear (hc : ∃ e, ref.arr.InDom e) {d : Dim} (hdl : dimList.filter (fun k => decide (k ∈ ref.coord.map Prod.fst)) = [d]) {target : DA L (FV K)}
    (ht : pyItem ref.coord d = .ok target) {q : LikeReference L K} (h : interpolateReference deg shift none false ext dimList none a ref = .ok q)
    (hd : ((a.order d).map deg).Nodup) (h2 : 2 ≤ (a.order d).length) (e : Dim → L) (v : L → K) (hv : ∀ l ∈ a.order d, a.arr.val (setLabel e d l) = FV.fin (v l)) (x : K)
    (hx : target.val e = FV.fin x) (hlo : ∃ l ∈ a.order d, deg l ≤ x) (hhi : ∃ l ∈ a.order d, x ≤ deg l) :
    ∃ y, q.arr.val e = FV.fin y ∧ InterpolatesAt (gridPts (a.order d) deg v) x y := by
  obtain ⟨args, h1, h3, -, h4⟩ := C78_fixed hc h
  replace h4 := h4 rfl
  rw [hdl] at h4
  match args, h4 with
  | [(d', c)], h4 =>
    simp only [List.map_cons, List.map_nil, List.cons.injEq, and_true] at h4
    subst h4
    have := h3 (d', c) (by simp)
    dsimp only at this
    rw [ht] at this
    cases this
    exact C60_linear h1 hd h2 e v hv x hx hlo hhi

/-! ### Clipping the reference -/

theorem clip_ok {order : Dim → List L} {p : Ordered L (FV K)} {d : Dim} {r : Reference L K} (h : clipReferenceOne deg order p ref d = .ok r) :
    d ∈ p.arr.dims ∧ d ∈ ref.arr.dims ∧ ∃ lo hi ls, ((p.order d).map deg).min? = some lo ∧ ((p.order d).map deg).max? = some hi ∧ sliceLabels deg (order d) lo hi = .ok ls ∧
      r = { arr := ref.arr.restrict d ls.toFinset, coord := ref.coord.map (fun kc => (kc.1, if d ∈ kc.2.dims then kc.2.restrict d ls.toFinset else kc.2)) } := by
  unfold clipReferenceOne at h
  have h1 : d ∈ p.arr.dims := by
    by_contra h'
    rw [if_pos h'] at h
    exact absurd h (by simp)
  rw [if_neg (not_not.mpr h1)] at h
  split at h
  next lo hi hlo hhi =>
    have h2 : d ∈ ref.arr.dims := by
      by_contra h'
      rw [if_pos h'] at h
      exact absurd h (by simp)
    rw [if_neg (not_not.mpr h2)] at h
    obtain ⟨ls, hls, h⟩ := bind_ok_iff.mp h
    cases h
    exact ⟨h1, h2, lo, hi, ls, hlo, hhi, hls, rfl⟩
  next => exact absurd h (by simp)

/-- C78: clipping a coordinate that increases in the reference keeps exactly the labels of the reference within the extent of the array; values, other dimensions and other labels stay. -/
theorem C78_clip {order : Dim → List L} {p : Ordered L (FV K)} {d : Dim} {r : Reference L K} (h : clipReferenceOne deg order p ref d = .ok r)
    (hinc : ((order d).map deg).Pairwise (· < ·)) (ho : (order d).toFinset = ref.arr.coords d) :
    r.arr.dims = ref.arr.dims ∧ r.arr.val = ref.arr.val ∧ (∀ k, k ≠ d → r.arr.coords k = ref.arr.coords k) ∧
      ∀ l, l ∈ r.arr.coords d ↔ l ∈ ref.arr.coords d ∧ (∃ m ∈ p.order d, deg m ≤ deg l) ∧ ∃ m ∈ p.order d, deg l ≤ deg m := by
  obtain ⟨-, -, lo, hi, ls, hlo, hhi, hls, rfl⟩ := clip_ok h
  refine ⟨rfl, rfl, fun k hk => by simp [DA.restrict, hk], fun l => ?_⟩
  unfold sliceLabels at hls
  rw [if_pos hinc] at hls
  cases hls
  have hmin := List.min?_eq_some_iff.mp hlo
  have hmax := List.max?_eq_some_iff.mp hhi
  simp only [DA.restrict, if_true, Finset.mem_inter, List.mem_toFinset, List.mem_filter, decide_eq_true_eq]
  have hl : l ∈ ref.arr.coords d ↔ l ∈ order d := by rw [← ho, List.mem_toFinset]
  rw [hl]
  constructor
  · rintro ⟨h1, -, h2, h3⟩
    obtain ⟨m, hm, rfl⟩ := List.mem_map.mp hmin.1
    obtain ⟨m', hm', rfl⟩ := List.mem_map.mp hmax.1
    exact ⟨h1, ⟨m, hm, h2⟩, m', hm', h3⟩
  · rintro ⟨h1, ⟨m, hm, h2⟩, m', hm', h3⟩
    exact ⟨h1, h1, (hmin.2 _ (List.mem_map_of_mem hm)).trans h2, h3.trans (hmax.2 _ (List.mem_map_of_mem hm'))⟩

/-- C78: after clipping there is no extrapolation along the clipped coordinate: every remaining label of the reference lies between labels of the array. -/
theorem C78_clip_inside {order : Dim → List L} {p : Ordered L (FV K)} {d : Dim} {r : Reference L K} (h : clipReferenceOne deg order p ref d = .ok r)
    (hinc : ((order d).map deg).Pairwise (· < ·)) (ho : (order d).toFinset = ref.arr.coords d) {e : Dim → L} (he : r.arr.InDom e) :
    (∃ m ∈ p.order d, deg m ≤ deg (e d)) ∧ ∃ m ∈ p.order d, deg (e d) ≤ deg m := by
  have hd : d ∈ r.arr.dims := by
    rw [(C78_clip h hinc ho).1]
    exact (clip_ok h).2.1
  exact (((C78_clip h hinc ho).2.2.2 _).mp (he d hd)).2

/-- C78 (finding): clipping a coordinate that decreases in the reference (such as latitudes from north to south) removes all data, if the array has two different values of it: the
slice is always taken from the minimum to the maximum. -/
theorem C78_clip_decreasing {order : Dim → List L} {p : Ordered L (FV K)} {d : Dim} {r : Reference L K} (h : clipReferenceOne deg order p ref d = .ok r)
    (hdec : ((order d).map deg).Pairwise (· > ·)) (h2 : 2 ≤ (order d).length) (hdiff : ∃ m ∈ p.order d, ∃ m' ∈ p.order d, deg m < deg m') : r.arr.coords d = ∅ := by
  obtain ⟨-, -, lo, hi, ls, hlo, hhi, hls, rfl⟩ := clip_ok h
  have hmin := List.min?_eq_some_iff.mp hlo
  have hmax := List.max?_eq_some_iff.mp hhi
  obtain ⟨m, hm, m', hm', hlt⟩ := hdiff
  have hlohi : lo < hi := lt_of_le_of_lt (hmin.2 _ (List.mem_map_of_mem hm)) (lt_of_lt_of_le hlt (hmax.2 _ (List.mem_map_of_mem hm')))
  have hninc : ¬ ((order d).map deg).Pairwise (· < ·) := by
    intro hinc
    match hod : order d, h2 with
    | x :: y :: rest, _ =>
      rw [hod] at hinc hdec
      simp only [List.map_cons, List.pairwise_cons] at hinc hdec
      exact lt_asymm (hinc.1 (deg y) (by simp)) (hdec.1 (deg y) (by simp))
  unfold sliceLabels at hls
  rw [if_neg hninc, if_pos hdec] at hls
  cases hls
  simp only [DA.restrict, if_true]
  rw [Finset.eq_empty_iff_forall_notMem]
  intro l hl
  simp only [Finset.mem_inter, List.mem_toFinset, List.mem_filter, decide_eq_true_eq] at hl
  exact absurd (hl.2.2.1.trans hl.2.2.2) (not_le.mpr hlohi)

/-- C78 (finding): so the whole result is empty, without an error. -/
theorem C78_clip_decreasing_result {order : Dim → List L} (hne : Nonempty L) {d : Dim} {q : LikeReference L K}
    (h : interpolateClipped deg shift dims false ext (some [d]) dimList order a ref = .ok q) (hdec : ((order d).map deg).Pairwise (· > ·)) (h2 : 2 ≤ (order d).length)
    (hdiff : ∃ m ∈ a.order d, ∃ m' ∈ a.order d, deg m < deg m') : ¬ ∃ e, q.arr.InDom e := by
  obtain ⟨p, hp, h⟩ := bind_ok_iff.mp h
  have : p = a := by unfold maybePad at hp; simpa using hp.symm
  subst this
  obtain ⟨r, hr, h⟩ := bind_ok_iff.mp h
  rw [List.foldlM_cons] at hr
  obtain ⟨r', hr', hr⟩ := bind_ok_iff.mp hr
  cases hr
  have hempty := C78_clip_decreasing hr' hdec h2 hdiff
  have hd : d ∈ r.arr.dims := by
    obtain ⟨-, h1, lo, hi, ls, -, -, -, rfl⟩ := clip_ok hr'
    exact h1
  refine (C65_empty (dims := dims) (wrap := false) ?_ hne h).2.1
  rintro ⟨e, he⟩
  have := he d hd
  rw [hempty] at this
  simp at this

/-- C78: with wrapped longitudes the extent is that of the padded array: clipping by longitude keeps every longitude of the reference from 360 degrees west of the last one of the
array to 360 degrees east of the first one, so also those between the last longitude of a global grid and the first one, and the result is the interpolation to the clipped reference. -/
theorem C78_clip_wrapped (hshift : ∀ c l, deg (shift c l) = deg l + c) {order : Dim → List L} {q : LikeReference L K}
    (h : interpolateClipped deg shift dims true ext (some ["longitude"]) dimList order a ref = .ok q) (hinc : ((order "longitude").map deg).Pairwise (· < ·))
    (ho : (order "longitude").toFinset = ref.arr.coords "longitude") {first last : L} (hf : (a.order "longitude").head? = some first) (hla : (a.order "longitude").getLast? = some last)
    (hsorted : ∀ m ∈ a.order "longitude", deg last - 360 ≤ deg m ∧ deg m ≤ deg first + 360) :
    ∃ r : Reference L K, interpolateReference deg shift dims true ext dimList none a r = .ok q ∧ r.arr.dims = ref.arr.dims ∧
      ∀ l, l ∈ r.arr.coords "longitude" ↔ l ∈ ref.arr.coords "longitude" ∧ deg last - 360 ≤ deg l ∧ deg l ≤ deg first + 360 := by
  obtain ⟨p, hp, h⟩ := bind_ok_iff.mp h
  obtain ⟨r, hr, h⟩ := bind_ok_iff.mp h
  rw [List.foldlM_cons] at hr
  obtain ⟨r', hr', hr⟩ := bind_ok_iff.mp hr
  cases hr
  have hcl := C78_clip hr' hinc ho
  refine ⟨r, h, hcl.1, fun l => ?_⟩
  rw [hcl.2.2.2 l]
  have hpo : p.order "longitude" = shift (-360) last :: (a.order "longitude" ++ [shift 360 first]) := by
    unfold maybePad padLongitude at hp
    rw [if_pos rfl, hf, hla] at hp
    cases hp
    rfl
  rw [hpo]
  refine and_congr Iff.rfl (and_congr ?_ ?_)
  · constructor
    · rintro ⟨m, hm, hle⟩
      rcases List.mem_cons.mp hm with rfl | hm
      · rw [hshift] at hle; linarith
      · rcases List.mem_append.mp hm with hm | hm
        · exact (hsorted m hm).1.trans hle
        · obtain rfl := List.mem_singleton.mp hm
          rw [hshift] at hle
          have := (hsorted last (List.mem_of_getLast? hla)).2
          linarith
    · intro hle
      exact ⟨_, List.mem_cons_self, by rw [hshift]; linarith⟩
  · constructor
    · rintro ⟨m, hm, hle⟩
      rcases List.mem_cons.mp hm with rfl | hm
      · rw [hshift] at hle
        have := (hsorted last (List.mem_of_getLast? hla)).2
        linarith
      · rcases List.mem_append.mp hm with hm | hm
        · exact hle.trans (hsorted m hm).2
        · obtain rfl := List.mem_singleton.mp hm
          rw [hshift] at hle; linarith
    · intro hle
      exact ⟨shift 360 first, by simp, by rw [hshift]; linarith⟩

/-- C78 (finding): a sparse reference, whose latitudes are a coordinate along the stations and not a dimension, cannot be clipped: `KeyError`. -/
theorem C78_clip_sparse {order : Dim → List L} {p : Ordered L (FV K)} {d : Dim} (hp : p.order d ≠ []) (hd : d ∉ ref.arr.dims) :
    clipReferenceOne deg order p ref d = .error .keyError := by
  unfold clipReferenceOne
  split_ifs with h1
  · match ho : p.order d, hp with
    | x :: xs, _ => simp [hd, List.min?_cons, List.max?_cons]
  · rfl

/-- C78: without `clip_reference_coords` nothing is clipped, and with no coordinates either. -/
theorem C78_no_clip {order : Dim → List L} : interpolateClipped deg shift dims wrap ext none dimList order a ref = interpolateReference deg shift dims wrap ext dimList none a ref ∧
    ∀ p, maybePad wrap shift a = .ok p → interpolateClipped deg shift dims wrap ext (some []) dimList order a ref = interpolateReference deg shift dims wrap ext dimList none a ref := by
  refine ⟨rfl, fun p hp => ?_⟩
  unfold interpolateClipped
  simp only [hp]
  rfl

/-! ### Concrete cases -/

/-- The hypotheses of `C78_fixed` and `C78_linear` hold for the stations of C52. -/
example : ∃ q target, interpolateReference (id : ℚ → ℚ) (fun c l => l + c) none false true ["latitude"] none exLatitudes exStations = .ok q ∧ (∃ e, exStations.arr.InDom e) ∧
    (["latitude"].filter fun k => decide (k ∈ exStations.coord.map Prod.fst)) = ["latitude"] ∧ pyItem exStations.coord "latitude" = .ok target ∧
    target.val (fun _ => 1) = FV.fin 45 := by
  obtain ⟨r, hr⟩ := exStations_ok "2m_temperature"
  obtain ⟨plain, el, grid, hadj, _⟩ := C52_temperature hr
  obtain ⟨x, hx⟩ := hadj.plain
  refine ⟨_, _, hx, ⟨fun _ => 1, fun d _ => by simp [exStations]⟩, by simp [exStations], rfl, rfl⟩

/-- A reference on a grid of latitudes. -/
def exGridReference : Reference ℚ ℚ where
  arr := { dims := {"latitude"}, coords := fun _ => {-10, 20, 400}, val := fun _ => FV.fin 0 }
  coord := [("latitude", { dims := {"latitude"}, coords := fun _ => {-10, 20, 400}, val := fun e => FV.fin (e "latitude") })]

theorem exClip_ok (order : List ℚ) (h : (order.map id).Pairwise (· < ·) ∨ (order.map id).Pairwise (· > ·)) :
    ∃ r, clipReferenceOne (id : ℚ → ℚ) (fun _ => order) exLatitudes exGridReference "latitude" = .ok r := by
  obtain ⟨lo, hlo⟩ : ∃ lo, ((exLatitudes.order "latitude").map (id : ℚ → ℚ)).min? = some lo := ⟨_, rfl⟩
  obtain ⟨hi, hhi⟩ : ∃ hi, ((exLatitudes.order "latitude").map (id : ℚ → ℚ)).max? = some hi := ⟨_, rfl⟩
  obtain ⟨ls, hls⟩ : ∃ ls, sliceLabels (id : ℚ → ℚ) order lo hi = .ok ls := by
    unfold sliceLabels
    split_ifs with h1 h2
    · exact ⟨_, rfl⟩
    · exact ⟨_, rfl⟩
    · exact absurd h (not_or.mpr ⟨h1, h2⟩)
  unfold clipReferenceOne
  rw [if_neg (by simp [exLatitudes]), hlo, hhi]
  dsimp only
  rw [if_neg (by simp [exGridReference]), hls]
  exact ⟨_, rfl⟩

/-- The hypotheses of `C78_clip` and `C78_clip_inside` hold. -/
example : ∃ r, clipReferenceOne (id : ℚ → ℚ) (fun _ => [-10, 20, 400]) exLatitudes exGridReference "latitude" = .ok r ∧
    (([-10, 20, 400] : List ℚ).map id).Pairwise (· < ·) ∧ ([-10, 20, 400] : List ℚ).toFinset = exGridReference.arr.coords "latitude" := by
  have h : (([-10, 20, 400] : List ℚ).map id).Pairwise (· < ·) := by norm_num
  obtain ⟨r, hr⟩ := exClip_ok _ (Or.inl h)
  exact ⟨r, hr, h, by simp [exGridReference]⟩

/-- The hypotheses of `C78_clip_decreasing` hold. -/
example : ∃ r, clipReferenceOne (id : ℚ → ℚ) (fun _ => [400, 20, -10]) exLatitudes exGridReference "latitude" = .ok r ∧
    (([400, 20, -10] : List ℚ).map id).Pairwise (· > ·) ∧ ∃ m ∈ exLatitudes.order "latitude", ∃ m' ∈ exLatitudes.order "latitude", id m < id m' := by
  have h : (([400, 20, -10] : List ℚ).map id).Pairwise (· > ·) := by norm_num
  obtain ⟨r, hr⟩ := exClip_ok _ (Or.inr h)
  refine ⟨r, hr, h, ?_⟩
  simp [exLatitudes]

/-- The hypotheses of `C78_clip_sparse` hold. -/
example : exLatitudes.order "latitude" ≠ [] ∧ ("latitude" : Dim) ∉ exStations.arr.dims := by simp [exLatitudes, exStations]

/-- A reference with a longitude between the last longitude of a grid at 0, 90, 180, 270 degrees and its first. -/
def exLongitudes : Reference ℚ ℚ where
  arr := { dims := {"longitude"}, coords := fun _ => {10, 300, 500}, val := fun _ => FV.fin 0 }
  coord := [("longitude", { dims := {"longitude"}, coords := fun _ => {10, 300, 500}, val := fun e => FV.fin (e "longitude") })]

/-- A grid of longitudes. -/
def exLonGrid : Ordered ℚ (FV ℚ) where
  arr := { dims := {"longitude"}, coords := fun _ => {0, 90, 180, 270}, val := fun e => FV.fin (e "longitude") }
  order := fun _ => [0, 90, 180, 270]

/-- The hypotheses of `C78_clip_wrapped` hold. -/
example : (∃ q, interpolateClipped (id : ℚ → ℚ) (fun c l => l + c) none true true (some ["longitude"]) ["longitude"] (fun _ => [10, 300, 500]) exLonGrid exLongitudes = .ok q) ∧
    (exLonGrid.order "longitude").head? = some 0 ∧ (exLonGrid.order "longitude").getLast? = some 270 ∧
    ∀ m ∈ exLonGrid.order "longitude", id (270 : ℚ) - 360 ≤ id m ∧ id m ≤ id (0 : ℚ) + 360 := by
  refine ⟨?_, rfl, rfl, ?_⟩
  · obtain ⟨p, hp, hpd⟩ : ∃ p, maybePad true (fun c l => l + c) exLonGrid = .ok p ∧ p.order "longitude" = [270 + -360, 0, 90, 180, 270, 0 + 360] := ⟨_, rfl, rfl⟩
    have hdims := dims_maybePad hp
    have hinc : (([10, 300, 500] : List ℚ).map id).Pairwise (· < ·) := by norm_num
    obtain ⟨r, hr⟩ : ∃ r, clipReferenceOne (id : ℚ → ℚ) (fun _ => [10, 300, 500]) p exLongitudes "longitude" = .ok r := by
      unfold clipReferenceOne
      rw [if_neg (by rw [hdims]; simp [exLonGrid]), hpd]
      obtain ⟨lo, hlo⟩ : ∃ lo, (([270 + -360, 0, 90, 180, 270, 0 + 360] : List ℚ).map (id : ℚ → ℚ)).min? = some lo := ⟨_, rfl⟩
      obtain ⟨hi, hhi⟩ : ∃ hi, (([270 + -360, 0, 90, 180, 270, 0 + 360] : List ℚ).map (id : ℚ → ℚ)).max? = some hi := ⟨_, rfl⟩
      rw [hlo, hhi]
      dsimp only
      rw [if_neg (by simp [exLongitudes])]
      have hs : sliceLabels (id : ℚ → ℚ) [10, 300, 500] lo hi = .ok (([10, 300, 500] : List ℚ).filter (fun l => decide (lo ≤ id l ∧ id l ≤ hi))) := by
        unfold sliceLabels
        rw [if_pos hinc]
      rw [hs]
      exact ⟨_, rfl⟩
    have hcoord : ∃ c, pyItem r.coord "longitude" = .ok c := by
      obtain ⟨_, _, lo, hi, ls, _, _, _, rfl⟩ := clip_ok hr
      exact ⟨_, rfl⟩
    have hnames : r.coord.map Prod.fst = ["longitude"] := by
      obtain ⟨_, _, lo, hi, ls, _, _, _, rfl⟩ := clip_ok hr
      rfl
    obtain ⟨c, hc⟩ := hcoord
    have hrd : referenceDims none ["longitude"] r = ["longitude"] := by
      unfold referenceDims
      rw [hnames]; rfl
    have : ∃ q, interpolateReference (id : ℚ → ℚ) (fun c l => l + c) none true true ["longitude"] none exLonGrid r = .ok q := by
      unfold interpolateReference
      by_cases hcells : hasCells r.arr = true
      · refine ⟨⟨interpAlong "longitude" id true (p.order "longitude") c p.arr, pyGet? "elevation" r.coord, none⟩, bind_ok_iff.mpr ⟨p, hp, ?_⟩⟩
        dsimp only
        rw [if_neg (by simp [hcells]), hrd]
        refine bind_ok_iff.mpr ⟨[("longitude", c)], ?_, bind_ok_iff.mpr ⟨interpAlong "longitude" id true (p.order "longitude") c p.arr, ?_, rfl⟩⟩
        · simp only [List.mapM_cons, List.mapM_nil, hc]; rfl
        · exact interpolateWith_ok.mpr ⟨p, maybePad_false.mpr rfl, by simp [hdims, exLonGrid], (interpCoords_one _ _ _ _ _ _).symm⟩
      · have hx : expandReference (p.arr.dims \ (referenceDims none ["longitude"] r).toFinset) p.arr r.arr = .ok
            { dims := r.arr.dims ∪ (p.arr.dims \ (referenceDims none ["longitude"] r).toFinset), coords := fun k => if k ∈ r.arr.dims then r.arr.coords k else p.arr.coords k, val := r.arr.val } := by
          unfold expandReference
          rw [if_pos]
          rw [hdims, hrd]
          simp [exLonGrid]
        refine ⟨⟨{ dims := r.arr.dims ∪ (p.arr.dims \ (referenceDims none ["longitude"] r).toFinset), coords := fun k => if k ∈ r.arr.dims then r.arr.coords k else p.arr.coords k, val := r.arr.val }, pyGet? "elevation" r.coord, none⟩, bind_ok_iff.mpr ⟨p, hp, ?_⟩⟩
        dsimp only
        rw [if_pos hcells, hx]
        rfl
    obtain ⟨q, hq⟩ := this
    exact ⟨q, bind_ok_iff.mpr ⟨p, hp, bind_ok_iff.mpr ⟨r, by simp only [List.foldlM_cons, List.foldlM_nil]; exact bind_ok_iff.mpr ⟨r, hr, rfl⟩, hq⟩⟩⟩
  · intro m hm
    simp only [exLonGrid, List.mem_cons, List.not_mem_nil, or_false] at hm
    rcases hm with rfl | rfl | rfl | rfl <;> norm_num

end WBX
