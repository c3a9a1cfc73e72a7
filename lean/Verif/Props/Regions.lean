import Verif.Model.Binning
import Verif.Props.Wrappers
import Verif.Props.MetricsBase
import Verif.Props.Encodings
import Mathlib.Tactic.Linarith
import Mathlib.Tactic.Positivity
import Mathlib.Algebra.Order.Floor.Semiring

/-!
# C41: region, latitude-band and longitude-band bins
-/

set_option linter.unusedSectionVars false

namespace WBX
open DA
variable {L K V : Type} [DecidableEq L] [Field K] [LinearOrder K] [IsStrictOrderedRing K] [FloorRing K]

/-! ### Specification -/

/-- The longitude lies on the arc that starts at `west` and goes east to `east` (the full circle if they are the same longitude): `w` is the
length of the arc, `t` the distance from its start. -/
def OnArc (west east lon : K) : Prop :=
  ∃ w, 0 < w ∧ w ≤ 360 ∧ (∃ k : ℤ, east = west + w + 360 * k) ∧ ∃ t, 0 ≤ t ∧ t ≤ w ∧ ∃ k : ℤ, lon = west + t + 360 * k

/-! ### Longitudes -/

theorem mod360_spec (x : K) : 0 ≤ mod360 x ∧ mod360 x < 360 ∧ x = mod360 x + 360 * (⌊x / 360⌋ : K) := by
  unfold mod360
  have h1 := Int.floor_le (x / 360)
  have h2 := Int.lt_floor_add_one (x / 360)
  rw [le_div_iff₀ (by norm_num)] at h1
  rw [div_lt_iff₀ (by norm_num)] at h2
  refine ⟨by linarith, by linarith, by ring⟩

/-- Residues are unique. -/
theorem residue_unique {a b : K} {k : ℤ} (ha : 0 ≤ a) (ha' : a < 360) (hb : 0 ≤ b) (hb' : b < 360) (h : a = b + 360 * (k : K)) : k = 0 := by
  have h1 : (k : K) < 1 := by linarith
  have h2 : (-1 : K) < k := by linarith
  have h1' : k < 1 := by exact_mod_cast h1
  have h2' : -1 < k := by exact_mod_cast h2
  omega

/-- **C41** The longitude mask contains exactly the longitudes on the arc from the first limit eastward to the second. -/
theorem C41_longitude (west east lon : K) : lonMask (west, east) lon = true ↔ OnArc west east lon := by
  obtain ⟨x0, x1, hx⟩ := mod360_spec lon
  obtain ⟨a0, a1, ha⟩ := mod360_spec west
  obtain ⟨b0, b1, hb⟩ := mod360_spec east
  set x := mod360 lon
  set a := mod360 west
  set b := mod360 east
  set n := ⌊lon / 360⌋
  set p := ⌊west / 360⌋
  set q := ⌊east / 360⌋
  have hmask : lonMask (west, east) lon = if a < b then decide (a ≤ x) && decide (x ≤ b) else decide (x ≤ b) || decide (a ≤ x) := rfl
  rw [hmask]
  unfold OnArc
  constructor
  · intro h
    split at h
    · next hab =>
      simp only [Bool.and_eq_true, decide_eq_true_eq] at h
      refine ⟨b - a, by linarith, by linarith, ⟨q - p, by push_cast; linarith⟩, x - a, by linarith, by linarith, n - p, by push_cast; linarith⟩
    · next hab =>
      push Not at hab
      simp only [Bool.or_eq_true, decide_eq_true_eq] at h
      refine ⟨b - a + 360, by linarith, by linarith, ⟨q - p - 1, by push_cast; linarith⟩, ?_⟩
      rcases le_or_gt a x with hax | hax
      · exact ⟨x - a, by linarith, by linarith, n - p, by push_cast; linarith⟩
      · have hxb : x ≤ b := h.resolve_right (not_le.mpr hax)
        exact ⟨x - a + 360, by linarith, by linarith, n - p - 1, by push_cast; linarith⟩
  · rintro ⟨w, w0, w1, ⟨k, hk⟩, t, t0, t1, m, hm⟩
    -- `a + w ≡ b`, `a + t ≡ x`
    have e1 : b - a = w + 360 * (((k + p - q : ℤ)) : K) := by push_cast; linarith
    have e2 : x - a = t + 360 * (((m + p - n : ℤ)) : K) := by push_cast; linarith
    set u := k + p - q
    set v := m + p - n
    have hu : u = 0 ∨ u = -1 := by
      have h1 : (u : K) < 1 := by linarith
      have h2 : (-2 : K) < u := by linarith
      have h1' : u < 1 := by exact_mod_cast h1
      have h2' : -2 < u := by exact_mod_cast h2
      omega
    have hv : v = 0 ∨ v = -1 := by
      have h1 : (v : K) < 1 := by linarith
      have h2 : (-2 : K) < v := by linarith
      have h1' : v < 1 := by exact_mod_cast h1
      have h2' : -2 < v := by exact_mod_cast h2
      omega
    rcases hu with hu | hu <;> rcases hv with hv | hv <;> rw [hu] at e1 <;> rw [hv] at e2 <;> push_cast at e1 e2
    · have hab : a < b := by linarith
      rw [if_pos hab]
      simp only [Bool.and_eq_true, decide_eq_true_eq]
      constructor <;> linarith
    · have hab : a < b := by linarith
      rw [if_pos hab]
      exfalso
      linarith
    · have hab : ¬ a < b := by linarith
      rw [if_neg hab]
      simp only [Bool.or_eq_true, decide_eq_true_eq]
      right; linarith
    · have hab : ¬ a < b := by linarith
      rw [if_neg hab]
      simp only [Bool.or_eq_true, decide_eq_true_eq]
      left; linarith

/-- **C41** Adding full turns to the longitude or to either limit does not change the mask: the two conventions [-180,180) and [0,360) give the same
result. -/
theorem C41_longitude_periodic (west east lon : K) (i j k : ℤ) :
    lonMask (west + 360 * i, east + 360 * j) (lon + 360 * k) = lonMask (west, east) lon := by
  have hmod : ∀ (x : K) (n : ℤ), mod360 (x + 360 * n) = mod360 x := by
    intro x n
    unfold mod360
    have : (x + 360 * (n : K)) / 360 = x / 360 + n := by field_simp
    rw [this, Int.floor_add_intCast]
    push_cast
    ring
  unfold lonMask
  simp only [hmod]

/-! ### Latitudes -/

/-- **C41** The latitude mask: `ValueError` unless the lower limit is below the upper one; both limits are included. -/
theorem C41_latitude (lims : K × K) : (lims.2 ≤ lims.1 → latMask lims = .error .valueError) ∧
    (lims.1 < lims.2 → ∃ f, latMask lims = .ok f ∧ ∀ lat, f lat = true ↔ lims.1 ≤ lat ∧ lat ≤ lims.2) := by
  unfold latMask
  constructor
  · intro h; rw [if_pos h]
  · intro h; rw [if_neg (not_le.mpr h)]
    exact ⟨_, rfl, fun lat => by simp⟩

/-! ### The bins -/

theorem findBin_mem {B : Type} {ms : List (L × B)} (hn : (ms.map Prod.fst).Nodup) {l : L} {m : B} (h : (l, m) ∈ ms) : findBin ms l = some m := by
  induction ms with
  | nil => simp at h
  | cons a ms ih =>
    unfold findBin
    rw [List.map_cons, List.nodup_cons] at hn
    rcases List.mem_cons.mp h with rfl | h
    · simp
    · have hne : a.1 ≠ l := fun heq => hn.1 (heq ▸ List.mem_map.mpr ⟨(l, m), h, rfl⟩)
      rw [List.find?_cons_of_neg (by simp [hne])]
      exact ih hn.2 h

theorem findBin_none {B : Type} {ms : List (L × B)} {l : L} (h : l ∉ ms.map Prod.fst) : findBin ms l = none := by
  unfold findBin
  rw [Option.map_eq_none_iff, List.find?_eq_none]
  intro m hm
  simp only [decide_eq_true_eq]
  exact fun heq => h (heq ▸ List.mem_map.mpr ⟨m, hm, rfl⟩)

/-- What a concatenation of bins is. -/
theorem concatBins_ok {d : Dim} {ms : List (L × DA L Bool)} {r : DA L Bool} (h : concatBins d ms = .ok r) :
    d ∈ r.dims ∧ r.coords d = (ms.map Prod.fst).toFinset ∧ ∀ e, r.val e = (match findBin ms (e d) with
      | some m => m.val e
      | none => false) := by
  cases ms with
  | nil => simp [concatBins] at h
  | cons a ms =>
    obtain ⟨l, m⟩ := a
    simp only [concatBins, Except.ok.injEq] at h
    subst h
    refine ⟨by simp, by simp, fun e => rfl⟩

theorem concatBins_val {d : Dim} {ms : List (L × DA L Bool)} {r : DA L Bool} (h : concatBins d ms = .ok r) (hn : (ms.map Prod.fst).Nodup)
    {l : L} {m : DA L Bool} (hm : (l, m) ∈ ms) {e : Dim → L} (he : e d = l) : r.val e = m.val e := by
  obtain ⟨-, -, h3⟩ := concatBins_ok h
  rw [h3, he, findBin_mem hn hm]

theorem concatBins_exists (d : Dim) {ms : List (L × DA L Bool)} (h : ms ≠ []) : ∃ r, concatBins d ms = .ok r := by
  cases ms with
  | nil => exact absurd rfl h
  | cons a ms => exact ⟨_, rfl⟩

theorem concatBins_error {d : Dim} {ms : List (L × DA L Bool)} {err : Err} (h : concatBins d ms = .error err) : ms = [] ∧ err = .valueError := by
  cases ms with
  | nil => simp only [concatBins, Except.error.injEq] at h; exact ⟨rfl, h.symm⟩
  | cons a ms => simp [concatBins] at h

theorem regionBin_ok {lat lon : DA L K} {r : L × ((K × K) × (K × K))} {b : L × DA L Bool} (h : regionBin lat lon r = .ok b) :
    b.1 = r.1 ∧ r.2.1.1 < r.2.1.2 ∧ ∀ e, b.2.val e = true ↔ (r.2.1.1 ≤ lat.val e ∧ lat.val e ≤ r.2.1.2) ∧ OnArc r.2.2.1 r.2.2.2 (lon.val e) := by
  unfold regionBin regionToMask at h
  simp only [bind_ok_iff, pure, Except.pure, Except.ok.injEq] at h
  obtain ⟨m, ⟨f, hf, rfl⟩, rfl⟩ := h
  rcases le_or_gt r.2.1.2 r.2.1.1 with hle | hlt
  · rw [(C41_latitude r.2.1).1 hle] at hf
    simp at hf
  · obtain ⟨f', hf', hspec⟩ := (C41_latitude r.2.1).2 hlt
    rw [hf, Except.ok.injEq] at hf'
    subst hf'
    refine ⟨rfl, hlt, fun e => ?_⟩
    simp only [zipWith, DA.map, Bool.and_eq_true, hspec]
    rw [show r.2.2 = (r.2.2.1, r.2.2.2) from rfl, C41_longitude]

theorem mapM_mem {α β : Type} (f : α → Except Err β) : (l : List α) → (r : List β) → l.mapM f = .ok r →
    ∀ x ∈ l, ∃ y ∈ r, f x = .ok y
  | [], _, _, x, hx => by simp at hx
  | a :: l, r, h, x, hx => by
    rw [List.mapM_cons] at h
    obtain ⟨y, hy, h⟩ := bind_pair_ok _ _ _ h
    obtain ⟨ys, hys, h⟩ := bind_pair_ok _ _ _ h
    simp only [pure, Except.pure, Except.ok.injEq] at h
    subst h
    rcases List.mem_cons.mp hx with rfl | hx
    · exact ⟨y, by simp, hy⟩
    · obtain ⟨z, hz, hf⟩ := mapM_mem f l ys hys x hx
      exact ⟨z, by simp [hz], hf⟩

theorem mapM_map {α β γ : Type} (f : α → Except Err β) (g : α → γ) (g' : β → γ) (hg : ∀ x y, f x = .ok y → g' y = g x) :
    (l : List α) → (r : List β) → l.mapM f = .ok r → r.map g' = l.map g
  | [], r, h => by
    simp only [List.mapM_nil, pure, Except.pure, Except.ok.injEq] at h
    subst h; rfl
  | a :: l, r, h => by
    rw [List.mapM_cons] at h
    obtain ⟨y, hy, h⟩ := bind_pair_ok _ _ _ h
    obtain ⟨ys, hys, h⟩ := bind_pair_ok _ _ _ h
    simp only [pure, Except.pure, Except.ok.injEq] at h
    subst h
    simp [hg a y hy, mapM_map f g g' hg l ys hys]

section
variable {binDim : Dim} {regions : List (L × ((K × K) × (K × K)))} {land : L → L} {lat lon : DA L K} {r : DA L Bool}

/-- **C41** `Regions` without a land mask: one bin per region, with the region names as labels; the bin of a region contains a point iff its latitude
lies between the latitude limits (inclusive) and its longitude on the eastward arc between the longitude limits. -/
theorem C41_regions (hn : (regions.map Prod.fst).Nodup) (h : regionsMask binDim regions none land lat lon = .ok r) :
    r.coords binDim = (regions.map Prod.fst).toFinset ∧ ∀ q ∈ regions, ∀ e : Dim → L, e binDim = q.1 →
      (r.val e = true ↔ (q.2.1.1 ≤ lat.val e ∧ lat.val e ≤ q.2.1.2) ∧ OnArc q.2.2.1 q.2.2.2 (lon.val e)) := by
  unfold regionsMask regionBins at h
  simp only [bind_ok_iff, addLandBins, Except.ok.injEq] at h
  obtain ⟨ms, ⟨ms', h1, rfl⟩, h2⟩ := h
  have hl : ms'.map Prod.fst = regions.map Prod.fst := mapM_map _ Prod.fst Prod.fst (fun x y hxy => (regionBin_ok hxy).1) _ _ h1
  refine ⟨by rw [(concatBins_ok h2).2.1, hl], fun q hq e he => ?_⟩
  obtain ⟨b, hb, hqb⟩ := mapM_mem _ _ _ h1 q hq
  obtain ⟨b1, -, b2⟩ := regionBin_ok hqb
  rw [concatBins_val h2 (by rw [hl]; exact hn) (l := b.1) (m := b.2) hb (by rw [he, b1]), b2]

/-- **C41** With a land mask there is also a bin `<region>_land` for each region, containing the land points of the region. -/
theorem C41_regions_land {lm : DA L Bool} (hn : (regions.map Prod.fst ++ regions.map (fun q => land q.1)).Nodup)
    (h : regionsMask binDim regions (some lm) land lat lon = .ok r) :
    r.coords binDim = (regions.map Prod.fst ++ regions.map (fun q => land q.1)).toFinset ∧ ∀ q ∈ regions, ∀ e : Dim → L,
      (e binDim = q.1 → (r.val e = true ↔ (q.2.1.1 ≤ lat.val e ∧ lat.val e ≤ q.2.1.2) ∧ OnArc q.2.2.1 q.2.2.2 (lon.val e))) ∧
      (e binDim = land q.1 → (r.val e = true ↔ ((q.2.1.1 ≤ lat.val e ∧ lat.val e ≤ q.2.1.2) ∧ OnArc q.2.2.1 q.2.2.2 (lon.val e)) ∧ lm.val e = true)) := by
  unfold regionsMask regionBins at h
  simp only [bind_ok_iff] at h
  obtain ⟨ms, ⟨ms', h1, h3⟩, h2⟩ := h
  simp only [addLandBins] at h3
  have hl : ms'.map Prod.fst = regions.map Prod.fst := mapM_map _ Prod.fst Prod.fst (fun x y hxy => (regionBin_ok hxy).1) _ _ h1
  split at h3
  · simp at h3
  · split at h3
    · simp only [Except.ok.injEq] at h3
      subst h3
      have hl' : (ms' ++ ms'.map (fun m => (land m.1, DA.zipWith (· && ·) m.2 lm))).map Prod.fst = regions.map Prod.fst ++ regions.map (fun q => land q.1) := by
        rw [List.map_append, hl, List.map_map]
        congr 1
        exact mapM_map _ (fun q => land q.1) (fun m => land m.1) (fun x y hxy => congrArg land (regionBin_ok hxy).1) _ _ h1
      refine ⟨by rw [(concatBins_ok h2).2.1, hl'], fun q hq e => ?_⟩
      obtain ⟨b, hb, hqb⟩ := mapM_mem _ _ _ h1 q hq
      obtain ⟨b1, -, b2⟩ := regionBin_ok hqb
      constructor
      · intro he
        rw [concatBins_val h2 (by rw [hl']; exact hn) (l := b.1) (m := b.2) (by simp [hb]) (by rw [he, b1]), b2]
      · intro he
        rw [concatBins_val h2 (by rw [hl']; exact hn) (l := land b.1) (m := DA.zipWith (· && ·) b.2 lm)
          (List.mem_append_right _ (List.mem_map.mpr ⟨b, hb, rfl⟩)) (by rw [he, b1])]
        simp only [zipWith, Bool.and_eq_true, b2]
    · simp at h3

/-- **C41** A region whose latitude limits are not increasing makes `Regions` raise `ValueError`; otherwise (and if there is at least one region) it
succeeds. -/
theorem C41_regions_error : ((∃ r, regionsMask binDim regions none land lat lon = .ok r) ↔ regions ≠ [] ∧ ∀ q ∈ regions, q.2.1.1 < q.2.1.2) ∧
    ∀ err, regionsMask binDim regions none land lat lon = .error err → err = .valueError := by
  have hbin : ∀ q : L × ((K × K) × (K × K)), (∃ b, regionBin lat lon q = .ok b) ∧ q.2.1.1 < q.2.1.2 ∨
      regionBin lat lon q = .error .valueError ∧ ¬ q.2.1.1 < q.2.1.2 := by
    intro q
    unfold regionBin regionToMask
    rcases le_or_gt q.2.1.2 q.2.1.1 with hle | hlt
    · right
      rw [(C41_latitude q.2.1).1 hle]
      exact ⟨rfl, not_lt.mpr hle⟩
    · left
      obtain ⟨f, hf, -⟩ := (C41_latitude q.2.1).2 hlt
      rw [hf]
      exact ⟨⟨_, rfl⟩, hlt⟩
  have hmap : ∀ rs : List (L × ((K × K) × (K × K))), (∃ ms, rs.mapM (regionBin lat lon) = .ok ms ∧ (ms = [] ↔ rs = [])) ∧ (∀ q ∈ rs, q.2.1.1 < q.2.1.2) ∨
      rs.mapM (regionBin lat lon) = .error .valueError ∧ ¬ ∀ q ∈ rs, q.2.1.1 < q.2.1.2 := by
    intro rs
    induction rs with
    | nil => left; exact ⟨⟨[], rfl, by simp⟩, by simp⟩
    | cons q rs ih =>
      rw [List.mapM_cons]
      rcases hbin q with ⟨⟨b, hb⟩, hq⟩ | ⟨hb, hq⟩
      · rcases ih with ⟨⟨ms, hms, -⟩, hall⟩ | ⟨herr, hall⟩
        · left
          refine ⟨⟨b :: ms, ?_, by simp⟩, ?_⟩
          · rw [hb, hms]; rfl
          · intro q' hq'
            rcases List.mem_cons.mp hq' with rfl | hq'
            · exact hq
            · exact hall q' hq'
        · right
          exact ⟨by rw [hb, herr]; rfl, fun h => hall (fun q' hq' => h q' (by simp [hq']))⟩
      · right
        exact ⟨by rw [hb]; rfl, fun h => hq (h q (by simp))⟩
  unfold regionsMask regionBins
  rcases hmap regions with ⟨⟨ms, hms, hnil⟩, hall⟩ | ⟨herr, hall⟩
  · rw [hms]
    simp only [bind, Except.bind, addLandBins]
    constructor
    · constructor
      · rintro ⟨r, hr⟩
        refine ⟨fun hne => ?_, hall⟩
        rw [hnil.mpr hne] at hr
        simp [concatBins] at hr
      · rintro ⟨hne, -⟩
        exact concatBins_exists _ (fun h => hne (hnil.mp h))
    · intro err he
      exact (concatBins_error he).2
  · rw [herr]
    simp only [bind, Except.bind]
    constructor
    · constructor
      · rintro ⟨r, hr⟩; simp at hr
      · rintro ⟨-, h⟩; exact absurd h hall
    · intro err he
      simp only [Except.error.injEq] at he
      exact he.symm

end

/-! ### Bands -/

theorem mem_bandStarts {start stop step x : K} (hs : 0 < step) : x ∈ bandStarts start stop step ↔ ∃ k : ℕ, x = start + (k : K) * step ∧ x < stop := by
  unfold bandStarts
  rw [List.mem_map]
  have h1 : (stop + step - start) / step = (stop - start) / step + 1 := by field_simp; ring
  have h2 : ⌈(stop + step - start) / step⌉.toNat - 1 = ⌈(stop - start) / step⌉.toNat := by
    rw [h1, Int.ceil_add_one]
    omega
  rw [h2]
  have h3 : ∀ k : ℕ, k < ⌈(stop - start) / step⌉.toNat ↔ start + (k : K) * step < stop := by
    intro k
    rw [Int.lt_toNat, Int.lt_ceil, Int.cast_natCast, lt_div_iff₀ hs, lt_sub_iff_add_lt, add_comm]
  constructor
  · rintro ⟨k, hk, rfl⟩
    exact ⟨k, rfl, (h3 k).mp (List.mem_range.mp hk)⟩
  · rintro ⟨k, rfl, hk⟩
    exact ⟨k, List.mem_range.mpr ((h3 k).mpr hk), rfl⟩

theorem bandStarts_nodup {start stop step : K} (hs : 0 < step) : (bandStarts start stop step).Nodup := by
  unfold bandStarts
  refine List.Nodup.map (fun a b hab => ?_) List.nodup_range
  have h1 : (a : K) * step = b * step := by simpa using hab
  exact_mod_cast mul_right_cancel₀ hs.ne' h1

theorem latBand_ok {number : K → L} {degrees start : K} {lat : DA L K} {b : L × DA L Bool} (h : latBand number degrees lat start = .ok b) :
    b.1 = number start ∧ ∀ e, b.2.val e = true ↔ start ≤ lat.val e ∧ lat.val e ≤ start + degrees := by
  unfold latBand at h
  simp only [bind_ok_iff, pure, Except.pure, Except.ok.injEq] at h
  obtain ⟨f, hf, rfl⟩ := h
  rcases le_or_gt (start + degrees) start with hle | hlt
  · rw [(C41_latitude (start, start + degrees)).1 hle] at hf
    simp at hf
  · obtain ⟨f', hf', hspec⟩ := (C41_latitude (start, start + degrees)).2 hlt
    rw [hf, Except.ok.injEq] at hf'
    subst hf'
    exact ⟨rfl, fun e => hspec _⟩

section
variable {binDim : Dim} {number : K → L} {degrees : K} {range : K × K} {lat lon : DA L K} {r : DA L Bool}

/-- **C41** `LatitudeBins`: the bins are labelled by their lower limits `lat0 + k·degrees < lat1`, and the bin labelled by `x` contains a point iff its
latitude lies in the closed interval from `x` to `x + degrees`. -/
theorem C41_latitude_bins (hd : 0 < degrees) (hnum : Function.Injective number) (h : latitudeBins binDim number degrees range lat = .ok r) :
    (∀ l, l ∈ r.coords binDim ↔ ∃ k : ℕ, l = number (range.1 + k * degrees) ∧ range.1 + k * degrees < range.2) ∧
    ∀ k : ℕ, range.1 + k * degrees < range.2 → ∀ e : Dim → L, e binDim = number (range.1 + k * degrees) →
      (r.val e = true ↔ range.1 + k * degrees ≤ lat.val e ∧ lat.val e ≤ range.1 + (k + 1) * degrees) := by
  unfold latitudeBins at h
  simp only [bind_ok_iff] at h
  obtain ⟨ms, h1, h2⟩ := h
  have hl : ms.map Prod.fst = (bandStarts range.1 range.2 degrees).map number := mapM_map _ number Prod.fst (fun x y hxy => (latBand_ok hxy).1) _ _ h1
  refine ⟨fun l => ?_, fun k hk e he => ?_⟩
  · rw [(concatBins_ok h2).2.1, hl, List.mem_toFinset, List.mem_map]
    constructor
    · rintro ⟨x, hx, rfl⟩
      obtain ⟨k, rfl, hk⟩ := (mem_bandStarts hd).mp hx
      exact ⟨k, rfl, hk⟩
    · rintro ⟨k, rfl, hk⟩
      exact ⟨_, (mem_bandStarts hd).mpr ⟨k, rfl, hk⟩, rfl⟩
  · obtain ⟨b, hb, hqb⟩ := mapM_mem _ _ _ h1 _ ((mem_bandStarts hd).mpr ⟨k, rfl, hk⟩)
    obtain ⟨b1, b2⟩ := latBand_ok hqb
    rw [concatBins_val h2 (by rw [hl]; exact List.Nodup.map hnum (bandStarts_nodup hd)) (l := b.1) (m := b.2) hb (by rw [he, b1]), b2,
      show range.1 + (k : K) * degrees + degrees = range.1 + (k + 1) * degrees by ring]

/-- **C41** Every latitude of the range lies in some bin. -/
theorem C41_latitude_bins_cover (hd : 0 < degrees) (hr : range.1 < range.2) {x : K} (h0 : range.1 ≤ x) (h1 : x ≤ range.2) :
    ∃ k : ℕ, range.1 + k * degrees < range.2 ∧ range.1 + k * degrees ≤ x ∧ x ≤ range.1 + (k + 1) * degrees := by
  -- the last band start below the end of the range that is at or below `x`
  by_cases hx : x < range.2
  · refine ⟨⌊(x - range.1) / degrees⌋.toNat, ?_⟩
    have hn : 0 ≤ ⌊(x - range.1) / degrees⌋ := Int.floor_nonneg.mpr (div_nonneg (by linarith) hd.le)
    have hc : ((⌊(x - range.1) / degrees⌋.toNat : ℕ) : K) = ((⌊(x - range.1) / degrees⌋ : ℤ) : K) := by
      rw [← Int.cast_natCast, Int.toNat_of_nonneg hn]
    rw [hc]
    have h2 := Int.floor_le ((x - range.1) / degrees)
    have h3 := Int.lt_floor_add_one ((x - range.1) / degrees)
    rw [le_div_iff₀ hd] at h2
    rw [div_lt_iff₀ hd] at h3
    refine ⟨by linarith, by linarith, by linarith⟩
  · have hx' : x = range.2 := le_antisymm h1 (not_lt.mp hx)
    subst hx'
    -- the last bin
    have hpos : 0 < (range.2 - range.1) / degrees := div_pos (by linarith) hd
    have hn : 0 < ⌈(range.2 - range.1) / degrees⌉ := Int.ceil_pos.mpr hpos
    refine ⟨(⌈(range.2 - range.1) / degrees⌉ - 1).toNat, ?_⟩
    have hc : (((⌈(range.2 - range.1) / degrees⌉ - 1).toNat : ℕ) : K) = ((⌈(range.2 - range.1) / degrees⌉ : ℤ) : K) - 1 := by
      rw [← Int.cast_natCast, Int.toNat_of_nonneg (by omega)]
      push_cast; ring
    rw [hc]
    have h2 := Int.le_ceil ((range.2 - range.1) / degrees)
    have h3 := Int.ceil_lt_add_one ((range.2 - range.1) / degrees)
    rw [div_le_iff₀ hd] at h2
    have h4 : ((⌈(range.2 - range.1) / degrees⌉ : K) - 1) * degrees < range.2 - range.1 := by
      rw [← lt_div_iff₀ hd]; linarith
    refine ⟨by linarith, by linarith, by linarith⟩

/-- **C41** (finding) The bands are closed on both sides: a latitude on an inner edge lies in the two neighbouring bins, so such rows are counted
twice. -/
theorem C41_latitude_bins_shared_edge (hd : 0 < degrees) (hnum : Function.Injective number) (h : latitudeBins binDim number degrees range lat = .ok r)
    {k : ℕ} (hk : range.1 + (k + 1 : ℕ) * degrees < range.2) {e : Dim → L} (hb : ∀ l, lat.val (setLabel e binDim l) = range.1 + (k + 1 : ℕ) * degrees) :
    r.val (setLabel e binDim (number (range.1 + k * degrees))) = true ∧ r.val (setLabel e binDim (number (range.1 + (k + 1 : ℕ) * degrees))) = true := by
  obtain ⟨-, h2⟩ := C41_latitude_bins hd hnum h
  constructor
  · refine (h2 k ?_ _ (by simp [setLabel])).mpr ?_
    · push_cast at hk; linarith
    · rw [hb]; push_cast; constructor <;> linarith
  · refine (h2 (k + 1) hk _ (by simp [setLabel])).mpr ?_
    rw [hb]; push_cast; constructor <;> linarith

/-- **C41** `LatitudeBins` raises `ValueError` for a negative width and for an empty range. -/
theorem C41_latitude_bins_error (h : degrees < 0 ∨ 0 < degrees ∧ range.2 ≤ range.1) : latitudeBins binDim number degrees range lat = .error .valueError := by
  unfold latitudeBins
  rcases h with h | ⟨h, hr⟩
  · cases hbs : bandStarts range.1 range.2 degrees with
    | nil => rfl
    | cons x xs =>
      rw [List.mapM_cons]
      have : latBand number degrees lat x = .error .valueError := by
        unfold latBand
        rw [(C41_latitude (x, x + degrees)).1 (by simp only; linarith)]
        rfl
      rw [this]
      rfl
  · have : bandStarts range.1 range.2 degrees = [] := by
      rw [List.eq_nil_iff_forall_not_mem]
      intro x hx
      obtain ⟨k, rfl, hk⟩ := (mem_bandStarts h).mp hx
      have : (0 : K) ≤ k * degrees := mul_nonneg (Nat.cast_nonneg _) h.le
      linarith
    rw [this]
    rfl

/-- **C41** `LongitudeBins`: the bins are labelled by their western limits modulo 360, and contain the longitudes on the arc of `degrees` to the east of it,
both ends included. -/
theorem C41_longitude_bins (hd : 0 < degrees) (hnum : Function.Injective number)
    (hlab : ((bandStarts range.1 (lonEnd range) degrees).map mod360).Nodup)
    (h : longitudeBins binDim number degrees range lon = .ok r) :
    (∀ l, l ∈ r.coords binDim ↔ ∃ k : ℕ, l = number (mod360 (range.1 + k * degrees)) ∧ range.1 + k * degrees < lonEnd range) ∧
    ∀ k : ℕ, range.1 + k * degrees < lonEnd range → ∀ e : Dim → L, e binDim = number (mod360 (range.1 + k * degrees)) →
      (r.val e = true ↔ OnArc (range.1 + k * degrees) (range.1 + (k + 1) * degrees) (lon.val e)) := by
  unfold longitudeBins at h
  have hl : ((bandStarts range.1 (lonEnd range) degrees).map (fun start => (number (mod360 start), lon.map (lonMask (start, start + degrees))))).map Prod.fst =
      ((bandStarts range.1 (lonEnd range) degrees).map mod360).map number := by
    rw [List.map_map, List.map_map]
    rfl
  refine ⟨fun l => ?_, fun k hk e he => ?_⟩
  · rw [(concatBins_ok h).2.1, hl, List.mem_toFinset, List.map_map, List.mem_map]
    constructor
    · rintro ⟨x, hx, rfl⟩
      obtain ⟨k, rfl, hk⟩ := (mem_bandStarts hd).mp hx
      exact ⟨k, rfl, hk⟩
    · rintro ⟨k, rfl, hk⟩
      exact ⟨_, (mem_bandStarts hd).mpr ⟨k, rfl, hk⟩, rfl⟩
  · rw [concatBins_val h (by rw [hl]; exact List.Nodup.map hnum hlab) (l := number (mod360 (range.1 + k * degrees)))
      (List.mem_map.mpr ⟨_, (mem_bandStarts hd).mpr ⟨k, rfl, hk⟩, rfl⟩) he]
    simp only [DA.map]
    rw [C41_longitude, show range.1 + (k : K) * degrees + degrees = range.1 + (k + 1) * degrees by ring]

/-- **C41** (finding) When the width of the longitude bins does not divide the full circle, the last bin runs past the start of the first one: a longitude
just east of the start lies both in the first and in the last bin. -/
theorem C41_longitude_bins_overlap (hd : 0 < degrees) (hnum : Function.Injective number)
    (hlab : ((bandStarts range.1 (lonEnd range) degrees).map mod360).Nodup) (hfull : lonEnd range = range.1 + 360)
    (h : longitudeBins binDim number degrees range lon = .ok r) {k : ℕ} (hk : k * degrees < 360) (hk' : 360 < (k + 1) * degrees) (h360 : degrees ≤ 360)
    {e : Dim → L} {x : K} (hx : 0 ≤ x) (hx' : x ≤ (k + 1) * degrees - 360) (he : ∀ l, lon.val (setLabel e binDim l) = range.1 + x) :
    r.val (setLabel e binDim (number (mod360 range.1))) = true ∧ r.val (setLabel e binDim (number (mod360 (range.1 + k * degrees)))) = true := by
  obtain ⟨-, h2⟩ := C41_longitude_bins hd hnum hlab h
  have hkd : (k + 1 : K) * degrees = k * degrees + degrees := by ring
  constructor
  · have := h2 0 (by rw [hfull]; push_cast; linarith) (setLabel e binDim (number (mod360 range.1))) (by simp [setLabel])
    rw [this, he]
    refine ⟨degrees, hd, h360, ⟨0, by push_cast; ring⟩, x, hx, by linarith, 0, by push_cast; ring⟩
  · have := h2 k (by rw [hfull]; linarith) (setLabel e binDim (number (mod360 (range.1 + k * degrees)))) (by simp [setLabel])
    rw [this, he]
    refine ⟨degrees, hd, h360, ⟨0, by push_cast; ring⟩, x + 360 - k * degrees, by linarith, by linarith, -1, by push_cast; ring⟩

end

/-! ### The hypotheses are met -/

/-- Stations with labels 0, 1, 2, …, of latitude `10·i` and longitude `90·i`. -/
def exLat : DA ℕ ℚ := { dims := {"station"}, coords := fun _ => {0, 1, 2, 3}, val := fun e => 10 * (e "station" : ℚ) }
def exLon : DA ℕ ℚ := { dims := {"station"}, coords := fun _ => {0, 1, 2, 3}, val := fun e => 90 * (e "station" : ℚ) }

/-- The tropics, and a region that crosses the prime meridian. -/
def exRegions : List (ℕ × ((ℚ × ℚ) × (ℚ × ℚ))) := [(0, ((-20, 20), (0, 360))), (1, ((5, 60), (-100, 40)))]

example : (exRegions.map Prod.fst).Nodup := by decide
example : ∃ r, regionsMask "region" exRegions none (· + 10) exLat exLon = .ok r :=
  (C41_regions_error.1).mpr ⟨by simp [exRegions], by intro q hq; simp only [exRegions, List.mem_cons, List.not_mem_nil, or_false] at hq; rcases hq with rfl | rfl <;> norm_num⟩
/-- Station 3 (latitude 30, longitude 270 = −90) lies in the second region and not in the first. -/
example {r : DA ℕ Bool} (h : regionsMask "region" exRegions none (· + 10) exLat exLon = .ok r) :
    r.val (fun d => if d = "region" then 1 else 3) = true ∧ r.val (fun d => if d = "region" then 0 else 3) = false := by
  obtain ⟨-, h2⟩ := C41_regions (by decide) h
  constructor
  · refine (h2 _ (by simp [exRegions]; right; rfl) _ (by simp)).mpr ⟨by simp [exLat]; norm_num, 140, by norm_num, by norm_num, ⟨0, by norm_num⟩, 10, by norm_num, by norm_num, 1, by simp [exLon]; norm_num⟩
  · rw [← Bool.not_eq_true, h2 _ (by simp [exRegions]; left; rfl) _ (by simp)]
    rintro ⟨⟨-, h⟩, -⟩
    simp [exLat] at h
    norm_num at h
example : ∃ r, latitudeBins (L := ℚ) "latitude_bins" id (30 : ℚ) (-90, 90) { dims := {"latitude"}, coords := fun _ => {0}, val := fun e => e "latitude" } = .ok r := by
  have : bandStarts (-90 : ℚ) 90 30 = [-90, -60, -30, 0, 30, 60] := by
    norm_num [bandStarts]
    rw [show Int.toNat 7 - 1 = 6 from rfl]
    norm_num [List.range_succ]
  unfold latitudeBins
  rw [this]
  simp only [List.mapM_cons, List.mapM_nil, latBand, latMask]
  norm_num [bind, Except.bind, pure, Except.pure, concatBins]
/-- Bins of 100 degrees on the full circle: the last one starts at 300 and ends at 40. -/
example : ((bandStarts (0 : ℚ) (lonEnd (0, 360)) 100).map mod360).Nodup := by
  have : bandStarts (0 : ℚ) (lonEnd (0, 360)) 100 = [0, 100, 200, 300] := by
    norm_num [bandStarts, lonEnd]
    rw [show Int.toNat 5 - 1 = 4 from rfl]
    norm_num [List.range_succ]
  rw [this]
  norm_num [mod360]

end WBX
