import Verif.Props.Interpolation

/-!
# C60, C61 for arrays: `InterpolateToFixedCoords` with `method='linear'`
-/

set_option linter.unusedSectionVars false

namespace WBX
open Classical DA
variable {L K : Type} [DecidableEq L] [Field K] [LinearOrder K] [IsStrictOrderedRing K]

/-- The grid of dimension `d` with the values of `v`. -/
def gridPts (order : List L) (deg v : L → K) : List (K × K) := order.map (fun l => (deg l, v l))

theorem gridPts_fst (order : List L) (deg v : L → K) : (gridPts order deg v).map Prod.fst = order.map deg := by simp [gridPts, Function.comp_def]

theorem finPts_grid (order : List L) (deg v : L → K) (w : L → FV K) (h : ∀ l ∈ order, w l = FV.fin (v l)) :
    order.map (fun l => (deg l, w l)) = finPts (gridPts order deg v) := by
  simp only [finPts, gridPts, List.map_map]
  exact List.map_congr_left (fun l hl => by simp [h l hl])

theorem coordGroups_flatten (pending coords : List (Dim × DA L (FV K))) : (coordGroups pending coords).flatten = pending ++ coords := by
  induction coords generalizing pending with
  | nil => simp [coordGroups]
  | cons c rest ih =>
    unfold coordGroups
    split_ifs with h1 h2
    · simp [h1]
    · simp [ih]
    · rw [ih]; simp

theorem extrapolations_snd (fill : Fill) (coords : List (Dim × DA L (FV K))) : (extrapolations fill coords).map Prod.snd = coords := by
  have := coordGroups_flatten [] coords
  unfold extrapolations
  rw [List.map_flatMap]
  simp only [List.map_map, Function.comp_def, List.map_id']
  rw [List.flatMap_id']
  simpa using this

theorem extrapolations_one (ext : Bool) (c : Dim × DA L (FV K)) : extrapolations (fillFor ext [c].length) [c] = [(ext, c)] := by
  cases ext <;> simp [extrapolations, coordGroups, fillFor, Fill.extrapolates]

theorem interpolateWith_ok {deg : L → K} {shift : K → L → L} {wrap : Bool} {fill : Fill} {coords : List (Dim × DA L (FV K))} {a : Ordered L (FV K)} {r : DA L (FV K)} :
    interpolateWith deg shift wrap fill coords a = .ok r ↔
      ∃ p, maybePad wrap shift a = .ok p ∧ (∀ c ∈ coords, c.1 ∈ p.arr.dims) ∧ r = interpCoords deg fill coords p.order p.arr := by
  unfold interpolateWith
  rw [bind_ok_iff]
  refine exists_congr (fun p => and_congr_right (fun _ => ?_))
  by_cases h : coords.all (fun c => decide (c.1 ∈ p.arr.dims)) = true
  · rw [if_pos h]
    have h' : ∀ c ∈ coords, c.1 ∈ p.arr.dims := by simpa using h
    constructor
    · intro hr; cases hr; exact ⟨h', rfl⟩
    · rintro ⟨-, rfl⟩; rfl
  · rw [if_neg h]
    have h' : ¬ ∀ c ∈ coords, c.1 ∈ p.arr.dims := fun hc => h (by simpa using hc)
    constructor
    · intro hr; cases hr
    · rintro ⟨hc, -⟩; exact absurd hc h'

theorem maybePad_false {shift : K → L → L} {a p : Ordered L (FV K)} : maybePad false shift a = .ok p ↔ p = a := by
  unfold maybePad
  simp [eq_comm]

theorem interpCoords_one (deg : L → K) (ext : Bool) (d : Dim) (target : DA L (FV K)) (order : Dim → List L) (b : DA L (FV K)) :
    interpCoords deg (fillFor ext [(d, target)].length) [(d, target)] order b = interpAlong d deg ext (order d) target b := by
  unfold interpCoords
  rw [extrapolations_one]
  rfl

theorem interpolateFixed_one {d : Dim} {deg : L → K} {shift : K → L → L} {ext : Bool} {target : DA L (FV K)} {a : Ordered L (FV K)} {r : DA L (FV K)}
    (h : interpolateFixed deg shift false ext [(d, target)] a = .ok r) : d ∈ a.arr.dims ∧ r = interpAlong d deg ext (a.order d) target a.arr := by
  obtain ⟨p, hp, hd, hr⟩ := interpolateWith_ok.mp h
  rw [maybePad_false.mp hp] at hd hr
  exact ⟨hd _ (List.mem_singleton_self _), by rw [hr, interpCoords_one]⟩

/-- Inside the grid, a cell of the result is obtained by linear interpolation between the two neighbouring grid points — whatever the order of the grid (also descending
latitudes), and whether or not extrapolation is allowed. -/
theorem C60_linear {d : Dim} {deg : L → K} {shift : K → L → L} {ext : Bool} {target : DA L (FV K)} {a : Ordered L (FV K)} {r : DA L (FV K)}
    (h : interpolateFixed deg shift false ext [(d, target)] a = .ok r) (hd : ((a.order d).map deg).Nodup) (h2 : 2 ≤ (a.order d).length)
    (e : Dim → L) (v : L → K) (hv : ∀ l ∈ a.order d, a.arr.val (setLabel e d l) = FV.fin (v l)) (x : K) (hx : target.val e = FV.fin x)
    (hlo : ∃ l ∈ a.order d, deg l ≤ x) (hhi : ∃ l ∈ a.order d, x ≤ deg l) :
    ∃ y, r.val e = FV.fin y ∧ InterpolatesAt (gridPts (a.order d) deg v) x y := by
  obtain ⟨_, rfl⟩ := interpolateFixed_one h
  simp only [interpAlong, hx, finPts_grid (a.order d) deg v _ hv]
  refine interp1_inside ext _ (by rw [gridPts_fst]; exact hd) (by simpa [gridPts] using h2) x ?_ ?_
  · obtain ⟨l, hl, hlx⟩ := hlo; exact ⟨_, List.mem_map.mpr ⟨l, hl, rfl⟩, hlx⟩
  · obtain ⟨l, hl, hlx⟩ := hhi; exact ⟨_, List.mem_map.mpr ⟨l, hl, rfl⟩, hlx⟩

/-- The result at the coordinates of the grid is the grid: interpolating to the same coordinates changes nothing. -/
theorem C60_grid_point {d : Dim} {deg : L → K} {shift : K → L → L} {ext : Bool} {target : DA L (FV K)} {a : Ordered L (FV K)} {r : DA L (FV K)}
    (h : interpolateFixed deg shift false ext [(d, target)] a = .ok r) (hd : ((a.order d).map deg).Nodup) (h2 : 2 ≤ (a.order d).length)
    (e : Dim → L) (hv : ∀ l ∈ a.order d, ∃ z, a.arr.val (setLabel e d l) = FV.fin z) (l : L) (hl : l ∈ a.order d) (hx : target.val e = FV.fin (deg l)) :
    r.val e = a.arr.val (setLabel e d l) := by
  choose! v hv using hv
  obtain ⟨y, hy, hi⟩ := C60_linear h hd h2 e v hv (deg l) hx ⟨l, hl, le_rfl⟩ ⟨l, hl, le_rfl⟩
  have hnd : ((gridPts (a.order d) deg v).map Prod.fst).Nodup := by rw [gridPts_fst]; exact hd
  have hm : (deg l, v l) ∈ gridPts (a.order d) deg v := List.mem_map.mpr ⟨l, hl, rfl⟩
  rw [hy, hv l hl, InterpolatesAt.grid hnd hm hi]

/-- Outside of the grid the value is NaN unless extrapolation is allowed. -/
theorem C60_outside {d : Dim} {deg : L → K} {shift : K → L → L} {target : DA L (FV K)} {a : Ordered L (FV K)} {r : DA L (FV K)}
    (h : interpolateFixed deg shift false false [(d, target)] a = .ok r) (e : Dim → L) (x : K) (hx : target.val e = FV.fin x)
    (hout : (∀ l ∈ a.order d, x < deg l) ∨ ∀ l ∈ a.order d, deg l < x) : r.val e = FV.nan := by
  obtain ⟨_, rfl⟩ := interpolateFixed_one h
  simp only [interpAlong, hx]
  apply interp1_outside
  rcases hout with ho | ho
  · left; intro p hp; obtain ⟨l, hl, rfl⟩ := List.mem_map.mp hp; exact ho l hl
  · right; intro p hp; obtain ⟨l, hl, rfl⟩ := List.mem_map.mp hp; exact ho l hl

/-- A field that is affine in the coordinate is reproduced exactly, also when extrapolating. -/
theorem C60_affine {d : Dim} {deg : L → K} {shift : K → L → L} {target : DA L (FV K)} {a : Ordered L (FV K)} {r : DA L (FV K)}
    (h : interpolateFixed deg shift false true [(d, target)] a = .ok r) (hd : ((a.order d).map deg).Nodup) (h2 : 2 ≤ (a.order d).length)
    (e : Dim → L) (α β : K) (hv : ∀ l ∈ a.order d, a.arr.val (setLabel e d l) = FV.fin (α + β * deg l)) (x : K) (hx : target.val e = FV.fin x) :
    r.val e = FV.fin (α + β * x) := by
  have line : ∀ p ∈ gridPts (a.order d) deg (fun l => α + β * deg l), ∀ q ∈ gridPts (a.order d) deg (fun l => α + β * deg l), ∀ y, p.1 < q.1 →
      OnLine p.1 p.2 q.1 q.2 x y → y = α + β * x := by
    intro p hp q hq y hpq hl
    obtain ⟨l, _, rfl⟩ := List.mem_map.mp hp
    obtain ⟨m, _, rfl⟩ := List.mem_map.mp hq
    simp only [OnLine] at hl hpq
    have hne : deg m - deg l ≠ 0 := (sub_pos.mpr hpq).ne'
    rw [hl]
    field_simp
    ring
  by_cases hlo : ∃ l ∈ a.order d, deg l ≤ x
  · by_cases hhi : ∃ l ∈ a.order d, x ≤ deg l
    · obtain ⟨y, hy, p, hp, q, hq, hpq, _, _, _, hl⟩ := C60_linear h hd h2 e _ hv x hx hlo hhi
      rw [hy, line p hp q hq y hpq hl]
    · push Not at hhi
      obtain ⟨_, rfl⟩ := interpolateFixed_one h
      simp only [interpAlong, hx, finPts_grid (a.order d) deg (fun l => α + β * deg l) _ hv]
      obtain ⟨y, hy, p, hp, q, hq, hpq, _, hl⟩ := (interp1_extrapolate (gridPts (a.order d) deg (fun l => α + β * deg l)) (by rw [gridPts_fst]; exact hd)
        (by simpa [gridPts] using h2) x).2 (by intro p hp; obtain ⟨l, hl, rfl⟩ := List.mem_map.mp hp; exact hhi l hl)
      rw [hy, line p hp q hq y hpq hl]
  · push Not at hlo
    obtain ⟨_, rfl⟩ := interpolateFixed_one h
    simp only [interpAlong, hx, finPts_grid (a.order d) deg (fun l => α + β * deg l) _ hv]
    obtain ⟨y, hy, p, hp, q, hq, hpq, _, hl⟩ := (interp1_extrapolate (gridPts (a.order d) deg (fun l => α + β * deg l)) (by rw [gridPts_fst]; exact hd)
      (by simpa [gridPts] using h2) x).1 (by intro p hp; obtain ⟨l, hl, rfl⟩ := List.mem_map.mp hp; exact hlo l hl)
    rw [hy, line p hp q hq y hpq hl]

/-! ### Several dimensions -/

/-- The target coordinates at cell `e` lie within the grid. -/
def InsideGrid (deg : L → K) (order : List L) (t : DA L (FV K)) (e : Dim → L) : Prop :=
  ∃ x, t.val e = FV.fin x ∧ (∃ l ∈ order, deg l ≤ x) ∧ ∃ l ∈ order, x ≤ deg l

theorem foldl_range (deg : L → K) (order : Dim → List L) (lo hi : K) : (coords : List (Bool × Dim × DA L (FV K))) → (b : DA L (FV K)) →
    (coords.map (fun c => c.2.1)).Nodup → (∀ c ∈ coords, ∀ c' ∈ coords, c.2.1 ≠ c'.2.1 → ∀ e l, c.2.2.val (setLabel e c'.2.1 l) = c.2.2.val e) →
    (∀ c ∈ coords, ((order c.2.1).map deg).Nodup ∧ 2 ≤ (order c.2.1).length) →
    (e : Dim → L) → (∀ c ∈ coords, InsideGrid deg (order c.2.1) c.2.2 e) →
    (∀ e' : Dim → L, (∀ c ∈ coords, e' c.2.1 ∈ order c.2.1) → (∀ k, k ∉ coords.map (fun c => c.2.1) → e' k = e k) → ∃ y, b.val e' = FV.fin y ∧ lo ≤ y ∧ y ≤ hi) →
    ∃ y, (coords.foldl (fun r c => interpAlong c.2.1 deg c.1 (order c.2.1) c.2.2 r) b).val e = FV.fin y ∧ lo ≤ y ∧ y ≤ hi
  | [], b, _, _, _, e, _, h => by simpa using h e (by simp) (by simp)
  | c :: cs, b, hn, hind, ho, e, hin, h => by
    rw [List.foldl_cons]
    rw [List.map_cons, List.nodup_cons] at hn
    refine foldl_range deg order lo hi cs _ hn.2 (fun c1 h1 c2 h2 => hind c1 (List.mem_cons_of_mem _ h1) c2 (List.mem_cons_of_mem _ h2))
      (fun c1 h1 => ho c1 (List.mem_cons_of_mem _ h1)) e (fun c1 h1 => hin c1 (List.mem_cons_of_mem _ h1)) ?_
    intro e' he' hee
    have hte : c.2.2.val e' = c.2.2.val e := by
      -- change the labels of the later dimensions one by one
      have key : ∀ (ds : List (Bool × Dim × DA L (FV K))), (∀ c1 ∈ ds, c1 ∈ cs) → ∀ e1 : Dim → L, (∀ k, k ∉ ds.map (fun c => c.2.1) → e1 k = e k) → c.2.2.val e1 = c.2.2.val e := by
        intro ds
        induction ds with
        | nil => intro _ e1 h1; rw [show e1 = e from funext (fun k => h1 k (by simp))]
        | cons c1 ds ih =>
          intro hm e1 h1
          have hne : c.2.1 ≠ c1.2.1 := fun heq => hn.1 (heq ▸ List.mem_map.mpr ⟨c1, hm c1 (by simp), rfl⟩)
          rw [← hind c (by simp) c1 (List.mem_cons_of_mem _ (hm c1 (by simp))) hne e1 (e c1.2.1)]
          refine ih (fun c2 h2 => hm c2 (List.mem_cons_of_mem _ h2)) _ ?_
          intro k hk
          by_cases hk1 : k = c1.2.1
          · subst hk1; simp [setLabel]
          · simp only [setLabel, if_neg hk1]
            exact h1 k (by simp only [List.map_cons, List.mem_cons, not_or]; exact ⟨hk1, hk⟩)
      exact key cs (fun c1 h1 => h1) e' hee
    obtain ⟨x, hx, ⟨l1, hl1, hx1⟩, ⟨l2, hl2, hx2⟩⟩ := hin c (by simp)
    have hb : ∀ l ∈ order c.2.1, ∃ y, b.val (setLabel e' c.2.1 l) = FV.fin y ∧ lo ≤ y ∧ y ≤ hi := by
      intro l hl
      apply h
      · intro c1 h1
        by_cases hc : c1.2.1 = c.2.1
        · rw [hc]; simp [setLabel, hl]
        · simp only [setLabel, if_neg hc]
          rcases List.mem_cons.mp h1 with rfl | h1
          · exact absurd rfl hc
          · exact he' c1 h1
      · intro k hk
        simp only [List.map_cons, List.mem_cons, not_or] at hk
        simp only [setLabel, if_neg hk.1]
        exact hee k hk.2
    choose! v hv using hb
    have hfin : (order c.2.1).map (fun l => (deg l, b.val (setLabel e' c.2.1 l))) = finPts (gridPts (order c.2.1) deg v) := finPts_grid _ _ _ _ (fun l hl => (hv l hl).1)
    obtain ⟨y, hy, hi'⟩ := interp1_inside c.1 (gridPts (order c.2.1) deg v) (by rw [gridPts_fst]; exact (ho c (by simp)).1) (by simpa [gridPts] using (ho c (by simp)).2) x
      ⟨_, List.mem_map.mpr ⟨l1, hl1, rfl⟩, hx1⟩ ⟨_, List.mem_map.mpr ⟨l2, hl2, rfl⟩, hx2⟩
    refine ⟨y, ?_, hi'.bounds (fun p hp => ?_)⟩
    · simp only [interpAlong, hte, hx, hfin]; exact hy
    · obtain ⟨l, hl, rfl⟩ := List.mem_map.mp hp
      exact (hv l hl).2

/-- Interpolation over any number of dimensions never leaves the range of the grid values, for target coordinates within the grid: no overshoot (and a constant field stays
constant). The target coordinates must not depend on the dimensions that are interpolated away. -/
theorem C60_range {deg : L → K} {shift : K → L → L} {ext : Bool} {coords : List (Dim × DA L (FV K))} {a : Ordered L (FV K)} {r : DA L (FV K)}
    (h : interpolateFixed deg shift false ext coords a = .ok r) (hn : (coords.map Prod.fst).Nodup)
    (hind : ∀ c ∈ coords, ∀ c' ∈ coords, c.1 ≠ c'.1 → c'.1 ∉ c.2.dims) (hwf : ∀ c ∈ coords, c.2.WF)
    (ho : ∀ c ∈ coords, ((a.order c.1).map deg).Nodup ∧ 2 ≤ (a.order c.1).length) (e : Dim → L) (hin : ∀ c ∈ coords, InsideGrid deg (a.order c.1) c.2 e) (lo hi : K)
    (hv : ∀ e' : Dim → L, (∀ c ∈ coords, e' c.1 ∈ a.order c.1) → (∀ k, k ∉ coords.map Prod.fst → e' k = e k) → ∃ y, a.arr.val e' = FV.fin y ∧ lo ≤ y ∧ y ≤ hi) :
    ∃ y, r.val e = FV.fin y ∧ lo ≤ y ∧ y ≤ hi := by
  obtain ⟨p, hp, -, rfl⟩ := interpolateWith_ok.mp h
  rw [maybePad_false.mp hp]
  have hsnd := extrapolations_snd (fillFor ext coords.length) coords
  have hmem : ∀ c ∈ extrapolations (fillFor ext coords.length) coords, c.2 ∈ coords := fun c hc => by
    rw [← hsnd]; exact List.mem_map_of_mem hc
  have hfst : (extrapolations (fillFor ext coords.length) coords).map (fun c => c.2.1) = coords.map Prod.fst := by
    conv_rhs => rw [← hsnd]
    rw [List.map_map]; rfl
  refine foldl_range deg a.order lo hi _ a.arr (by rw [hfst]; exact hn) (fun c hc c' hc' hne e l => ?_) (fun c hc => ho _ (hmem c hc)) e (fun c hc => hin _ (hmem c hc)) (fun e' h1 h2 => hv e' (fun c hc => ?_) (by rwa [hfst] at h2))
  · exact hwf _ (hmem c hc) _ _ (fun k hk => by
      by_cases hkc : k = c'.2.1
      · exact absurd (hkc ▸ hk) (hind _ (hmem c hc) _ (hmem c' hc') hne)
      · simp [setLabel, hkc])
  · rw [← hsnd] at hc
    obtain ⟨c', hc', rfl⟩ := List.mem_map.mp hc
    exact h1 c' hc'

/-! ### Wrapping the longitudes -/

theorem CircleInterpolatesAt.shift {pts : List (K × K)} {x y : K} (h : CircleInterpolatesAt pts x y) : CircleInterpolatesAt pts (x + 360) y := by
  obtain ⟨p, hp, q, hq, m, n, h1, h2, h3, h4, h5⟩ := h
  refine ⟨p, hp, q, hq, m + 1, n + 1, ?_, ?_, ?_, ?_, ?_⟩
  · push_cast; linarith
  · push_cast; linarith
  · push_cast; linarith
  · intro r hr k
    rcases h4 r hr (k - 1) with h | h
    · left; push_cast at h ⊢; linarith
    · right; push_cast at h ⊢; linarith
  · unfold OnLine at h5 ⊢
    rw [h5]; push_cast
    congr 2
    ring_nf

/-- On the circle, the value is unique when no longitude is repeated (modulo 360). -/
theorem CircleInterpolatesAt.unique {pts : List (K × K)} (hd : ∀ p ∈ pts, ∀ q ∈ pts, ∀ k : ℤ, p.1 = q.1 + 360 * k → p = q) {x y y' : K}
    (h : CircleInterpolatesAt pts x y) (h' : CircleInterpolatesAt pts x y') : y = y' := by
  obtain ⟨p, hp, q, hq, m, n, hpq, hpx, hqx, hsep, hl⟩ := h
  obtain ⟨p', hp', q', hq', m', n', hpq', hpx', hqx', hsep', hl'⟩ := h'
  have same : ∀ r ∈ pts, ∀ s ∈ pts, ∀ k l : ℤ, r.1 + 360 * (k : K) = s.1 + 360 * (l : K) → r = s := by
    intro r hr s hs k l hkl
    exact hd r hr s hs (l - k) (by push_cast; linarith)
  have val : ∀ r ∈ pts, ∀ k : ℤ, r.1 + 360 * (k : K) = x → y = r.2 := by
    intro r hr k hrx
    rcases hsep r hr k with h1 | h1
    · have e := le_antisymm h1 (hrx ▸ hpx)
      have hrp := same r hr p hp k m e
      unfold OnLine at hl
      rw [← hrx, e, sub_self, zero_div, mul_zero, add_zero] at hl
      rw [hl, hrp]
    · have e := le_antisymm (hrx ▸ hqx) h1
      have hrq := same r hr q hq k n e
      rw [← hrx, e] at hl
      rw [hrq]; exact hl.trans (onLine_right hpq).symm
  have val' : ∀ r ∈ pts, ∀ k : ℤ, r.1 + 360 * (k : K) = x → y' = r.2 := by
    intro r hr k hrx
    rcases hsep' r hr k with h1 | h1
    · have e := le_antisymm h1 (hrx ▸ hpx')
      have hrp := same r hr p' hp' k m' e
      unfold OnLine at hl'
      rw [← hrx, e, sub_self, zero_div, mul_zero, add_zero] at hl'
      rw [hl', hrp]
    · have e := le_antisymm (hrx ▸ hqx') h1
      have hrq := same r hr q' hq' k n' e
      rw [← hrx, e] at hl'
      rw [hrq]; exact hl'.trans (onLine_right hpq').symm
  by_cases hx : ∃ r ∈ pts, ∃ k : ℤ, r.1 + 360 * (k : K) = x
  · obtain ⟨r, hr, k, hrx⟩ := hx
    rw [val r hr k hrx, val' r hr k hrx]
  · push Not at hx
    have e1 : p.1 + 360 * (m : K) < x := lt_of_le_of_ne hpx (hx p hp m)
    have e2 : x < q.1 + 360 * (n : K) := lt_of_le_of_ne hqx (hx q hq n).symm
    have e3 : p'.1 + 360 * (m' : K) < x := lt_of_le_of_ne hpx' (hx p' hp' m')
    have e4 : x < q'.1 + 360 * (n' : K) := lt_of_le_of_ne hqx' (hx q' hq' n').symm
    have hpp : p.1 + 360 * (m : K) = p'.1 + 360 * (m' : K) := by
      rcases hsep' p hp m with h1 | h1 <;> rcases hsep p' hp' m' with h3 | h3 <;> linarith
    have hqq : q.1 + 360 * (n : K) = q'.1 + 360 * (n' : K) := by
      rcases hsep' q hq n with h1 | h1 <;> rcases hsep q' hq' n' with h3 | h3 <;> linarith
    have hp2 := same p hp p' hp' m m' hpp
    have hq2 := same q hq q' hq' n n' hqq
    unfold OnLine at hl hl'
    rw [hl, hl', ← hpp, ← hqq, hp2, hq2]

/-- The grid of longitudes: strictly increasing, spanning less than the whole circle, and labels shifted by an angle stand for that angle. -/
structure LongitudeGrid (deg : L → K) (shift : K → L → L) (a : Ordered L (FV K)) : Prop where
  increasing : (a.order "longitude").Pairwise (fun l l' => deg l < deg l')
  nonempty : a.order "longitude" ≠ []
  span : ∀ l ∈ a.order "longitude", ∀ l' ∈ a.order "longitude", deg l' < deg l + 360
  labels : ∀ l, l ∈ a.arr.coords "longitude" ↔ l ∈ a.order "longitude"
  shifted : ∀ c l, deg (shift c l) = deg l + c

theorem padded {deg : L → K} {shift : K → L → L} {a : Ordered L (FV K)} (hg : LongitudeGrid deg shift a) :
    ∃ first last p, first ∈ a.order "longitude" ∧ last ∈ a.order "longitude" ∧ (∀ l ∈ a.order "longitude", deg first ≤ deg l ∧ deg l ≤ deg last) ∧
      padLongitude shift a = .ok p ∧ p.order "longitude" = shift (-360) last :: (a.order "longitude" ++ [shift 360 first]) ∧ p.arr.dims = a.arr.dims ∧
      (∀ (e : Dim → L) l, l ∈ a.order "longitude" → p.arr.val (setLabel e "longitude" l) = a.arr.val (setLabel e "longitude" l)) ∧
      (∀ e : Dim → L, p.arr.val (setLabel e "longitude" (shift (-360) last)) = a.arr.val (setLabel e "longitude" last)) ∧
      (∀ e : Dim → L, p.arr.val (setLabel e "longitude" (shift 360 first)) = a.arr.val (setLabel e "longitude" first)) := by
  obtain ⟨first, hf⟩ : ∃ f, (a.order "longitude").head? = some f := by
    cases h : a.order "longitude" with
    | nil => exact absurd h hg.nonempty
    | cons f l => exact ⟨f, rfl⟩
  obtain ⟨last, hl⟩ : ∃ f, (a.order "longitude").getLast? = some f := ⟨_, List.getLast?_eq_getLast_of_ne_nil hg.nonempty⟩
  have hfm := List.mem_of_head? hf
  have hlm := List.mem_of_getLast? hl
  have hfirst : ∀ l ∈ a.order "longitude", deg first ≤ deg l := by
    intro l hl'
    have hp := hg.increasing
    cases h : a.order "longitude" with
    | nil => exact absurd h hg.nonempty
    | cons f t =>
      rw [h] at hf hl' hp
      simp only [List.head?_cons, Option.some.injEq] at hf
      subst hf
      rcases List.mem_cons.mp hl' with rfl | h'
      · exact le_rfl
      · exact ((List.pairwise_cons.mp hp).1 l h').le
  have hlast : ∀ l ∈ a.order "longitude", deg l ≤ deg last := by
    intro l hl'
    obtain ⟨t, ht⟩ := List.getLast?_eq_some_iff.mp hl
    have hp := hg.increasing
    rw [ht] at hp hl'
    rcases List.mem_append.mp hl' with h' | h'
    · exact ((List.pairwise_append.mp hp).2.2 l h' last (by simp)).le
    · simp only [List.mem_cons, List.not_mem_nil, or_false] at h'; rw [h']
  have hnl : shift (-360) last ∉ a.arr.coords "longitude" := by
    intro hm
    have := hg.span _ ((hg.labels _).mp hm) last hlm
    rw [hg.shifted] at this; linarith
  have hnf : shift 360 first ∉ a.arr.coords "longitude" := by
    intro hm
    have := hg.span first hfm _ ((hg.labels _).mp hm)
    rw [hg.shifted] at this; linarith
  have hne : shift 360 first ≠ shift (-360) last := by
    intro heq
    have := congrArg deg heq
    rw [hg.shifted, hg.shifted] at this
    have := hg.span first hfm last hlm
    linarith
  obtain ⟨p, hp⟩ : ∃ p, padLongitude shift a = .ok p := by simp only [padLongitude, hf, hl]; exact ⟨_, rfl⟩
  have hp' := hp
  simp only [padLongitude, hf, hl] at hp'
  injection hp' with hp'
  refine ⟨first, last, p, hfm, hlm, fun l h => ⟨hfirst l h, hlast l h⟩, hp, by simp [← hp'], by simp [← hp'], ?_, ?_, ?_⟩ <;> rw [← hp']
  · intro e l hl'
    have : l ∈ a.arr.coords "longitude" := (hg.labels l).mpr hl'
    simp [setLabel, this]
  · intro e
    simp only [setLabel, if_true, hnl, if_false]
    congr 1
    funext k; by_cases hk : k = "longitude" <;> simp [setLabel, hk]
  · intro e
    simp only [setLabel, if_true, hnf, hne, if_false]
    congr 1
    funext k; by_cases hk : k = "longitude" <;> simp [setLabel, hk]

/-- With `wrap_longitude` the value at any longitude between `last - 360` and `first + 360` (in particular at every longitude in `[0, 360]` for a grid in `[0, 360)`) is obtained by linear
interpolation between the two neighbouring grid longitudes on the circle, across the seam if need be; it does not matter whether extrapolation is allowed. -/
theorem C61_wrap {deg : L → K} {shift : K → L → L} {ext : Bool} {target : DA L (FV K)} {a : Ordered L (FV K)} {r : DA L (FV K)} (hg : LongitudeGrid deg shift a)
    (h : interpolateFixed deg shift true ext [("longitude", target)] a = .ok r) (e : Dim → L) (v : L → K)
    (hv : ∀ l ∈ a.order "longitude", a.arr.val (setLabel e "longitude" l) = FV.fin (v l)) (x : K) (hx : target.val e = FV.fin x)
    (hlo : ∃ l ∈ a.order "longitude", deg l - 360 ≤ x ∧ ∀ l' ∈ a.order "longitude", deg l' ≤ deg l) (hhi : ∃ l ∈ a.order "longitude", x ≤ deg l + 360 ∧ ∀ l' ∈ a.order "longitude", deg l ≤ deg l') :
    ∃ y, r.val e = FV.fin y ∧ CircleInterpolatesAt (gridPts (a.order "longitude") deg v) x y := by
  obtain ⟨first, last, p, hfm, hlm, hbnd, hpad, hord, hdims, hin, hwest, heast⟩ := padded hg
  have hlo' : deg last - 360 ≤ x := by
    obtain ⟨l, hl, hlx, hmax⟩ := hlo
    have := hmax last hlm
    linarith
  have hhi' : x ≤ deg first + 360 := by
    obtain ⟨l, hl, hlx, hmin⟩ := hhi
    have := hmin first hfm
    linarith
  have hr : r = interpAlong "longitude" deg ext (p.order "longitude") target p.arr := by
    obtain ⟨p', hp', -, rfl⟩ := interpolateWith_ok.mp h
    have : p' = p := by
      unfold maybePad at hp'
      rw [if_pos rfl, hpad] at hp'
      exact (Except.ok.inj hp').symm
    rw [this, interpCoords_one]
  -- the padded grid
  have hpts : (p.order "longitude").map (fun l => (deg l, p.arr.val (setLabel e "longitude" l))) =
      finPts ((deg last - 360, v last) :: (gridPts (a.order "longitude") deg v ++ [(deg first + 360, v first)])) := by
    rw [hord, List.map_cons, List.map_append, hwest, hg.shifted, hv last hlm]
    simp only [finPts, gridPts, List.map_cons, List.map_append, List.map_nil, List.map_map, heast, hg.shifted, hv first hfm]
    rw [← sub_eq_add_neg]
    congr 1
    congr 1
    exact List.map_congr_left (fun l hl => by simp [hin e l hl, hv l hl])
  have hsp := hg.span first hfm last hlm
  have hd : (((deg last - 360, v last) :: (gridPts (a.order "longitude") deg v ++ [(deg first + 360, v first)])).map Prod.fst).Nodup := by
    rw [List.map_cons, List.map_append, gridPts_fst, List.nodup_cons, List.nodup_append]
    have hnd : ((a.order "longitude").map deg).Nodup := by
      rw [List.Nodup, List.pairwise_map]; exact hg.increasing.imp (fun h => h.ne)
    refine ⟨?_, hnd, by simp, ?_⟩
    · rw [List.mem_append]
      rintro (hm | hm)
      · obtain ⟨l, hl, hle⟩ := List.mem_map.mp hm
        have := (hbnd l hl).1
        simp only at hle
        linarith
      · simp at hm; linarith
    · intro y hy z hz
      obtain ⟨l, hl, rfl⟩ := List.mem_map.mp hy
      simp only [List.map_cons, List.map_nil, List.mem_cons, List.not_mem_nil, or_false] at hz
      subst hz
      have := (hbnd l hl).2
      intro heq; linarith
  obtain ⟨y, hy, q1, hq1, q2, hq2, h12, h1x, h2x, hsep, hline⟩ := interp1_inside ext _ hd (by simp) x ⟨(deg last - 360, v last), by simp, hlo'⟩ ⟨(deg first + 360, v first), by simp, hhi'⟩
  refine ⟨y, ?_, ?_⟩
  · rw [hr]; simp only [interpAlong, hx, hpts]; exact hy
  -- every padded point is a grid point modulo 360
  have back : ∀ q ∈ ((deg last - 360, v last) :: (gridPts (a.order "longitude") deg v ++ [(deg first + 360, v first)])),
      ∃ s ∈ gridPts (a.order "longitude") deg v, ∃ m : ℤ, s.1 + 360 * (m : K) = q.1 ∧ s.2 = q.2 := by
    intro q hq
    rcases List.mem_cons.mp hq with rfl | hq
    · exact ⟨(deg last, v last), List.mem_map.mpr ⟨last, hlm, rfl⟩, -1, by push_cast; ring, rfl⟩
    · rcases List.mem_append.mp hq with hq | hq
      · exact ⟨q, hq, 0, by push_cast; ring, rfl⟩
      · simp only [List.mem_cons, List.not_mem_nil, or_false] at hq
        subst hq
        exact ⟨(deg first, v first), List.mem_map.mpr ⟨first, hfm, rfl⟩, 1, by push_cast; ring, rfl⟩
  obtain ⟨s1, hs1, m, hm1, hv1⟩ := back q1 hq1
  obtain ⟨s2, hs2, n, hm2, hv2⟩ := back q2 hq2
  have hpmin : ∀ q ∈ ((deg last - 360, v last) :: (gridPts (a.order "longitude") deg v ++ [(deg first + 360, v first)])), deg last - 360 ≤ q.1 ∧ q.1 ≤ deg first + 360 := by
    intro q hq
    rcases List.mem_cons.mp hq with rfl | hq
    · exact ⟨le_rfl, by linarith⟩
    · rcases List.mem_append.mp hq with hq | hq
      · obtain ⟨l, hl, rfl⟩ := List.mem_map.mp hq
        have := hbnd l hl
        simp only
        constructor <;> linarith
      · simp only [List.mem_cons, List.not_mem_nil, or_false] at hq
        subst hq
        exact ⟨by simp only; linarith, le_rfl⟩
  refine ⟨s1, hs1, s2, hs2, m, n, by rw [hm1, hm2]; exact h12, by rw [hm1]; exact h1x, by rw [hm2]; exact h2x, ?_, by rw [hm1, hm2, hv1, hv2]; exact hline⟩
  intro s hs k
  rw [hm1, hm2]
  obtain ⟨l, hl, rfl⟩ := List.mem_map.mp hs
  have hb := hbnd l hl
  have hsl := hg.span first hfm l hl
  have hsl2 := hg.span l hl last hlm
  simp only
  rcases lt_trichotomy k 0 with hk | hk | hk
  · -- at or below `last - 360`
    left
    have hk1 : (k : K) ≤ -1 := by exact_mod_cast Int.le_sub_one_of_lt hk
    have := (hpmin q1 hq1).1
    linarith
  · subst hk
    simpa using hsep (deg l, v l) (by
      refine List.mem_cons_of_mem _ (List.mem_append_left _ (List.mem_map.mpr ⟨l, hl, rfl⟩)))
  · right
    have hk1 : (1 : K) ≤ (k : K) := by exact_mod_cast hk
    have := (hpmin q2 hq2).2
    linarith

theorem circle_distinct {deg : L → K} {shift : K → L → L} {a : Ordered L (FV K)} (hg : LongitudeGrid deg shift a) (v : L → K) :
    ∀ p ∈ gridPts (a.order "longitude") deg v, ∀ q ∈ gridPts (a.order "longitude") deg v, ∀ k : ℤ, p.1 = q.1 + 360 * k → p = q := by
  intro p hp q hq k hk
  obtain ⟨l, hl, rfl⟩ := List.mem_map.mp hp
  obtain ⟨l', hl', rfl⟩ := List.mem_map.mp hq
  simp only at hk
  have h1 := hg.span l hl l' hl'
  have h2 := hg.span l' hl' l hl
  have hk0 : k = 0 := by
    by_contra hne
    rcases lt_or_gt_of_ne hne with h | h
    · have : (k : K) ≤ -1 := by exact_mod_cast Int.le_sub_one_of_lt h
      linarith
    · have : (1 : K) ≤ (k : K) := by exact_mod_cast h
      linarith
  subst hk0
  simp only [Int.cast_zero, mul_zero, add_zero] at hk
  have hnd : ((a.order "longitude").map deg).Nodup := by
    rw [List.Nodup, List.pairwise_map]; exact hg.increasing.imp (fun h => h.ne)
  rw [List.inj_on_of_nodup_map hnd hl hl' hk]

/-- Longitudes that differ by 360 get the same value: nothing jumps at the seam. -/
theorem C61_periodic {deg : L → K} {shift : K → L → L} {ext : Bool} {target : DA L (FV K)} {a : Ordered L (FV K)} {r : DA L (FV K)} (hg : LongitudeGrid deg shift a)
    (h : interpolateFixed deg shift true ext [("longitude", target)] a = .ok r) (e e' : Dim → L) (v : L → K)
    (hv : ∀ l ∈ a.order "longitude", a.arr.val (setLabel e "longitude" l) = FV.fin (v l)) (hv' : ∀ l ∈ a.order "longitude", a.arr.val (setLabel e' "longitude" l) = FV.fin (v l))
    (x : K) (hx : target.val e = FV.fin x) (hx' : target.val e' = FV.fin (x + 360))
    (hlo : ∃ l ∈ a.order "longitude", deg l - 360 ≤ x ∧ ∀ l' ∈ a.order "longitude", deg l' ≤ deg l) (hhi : ∃ l ∈ a.order "longitude", x ≤ deg l ∧ ∀ l' ∈ a.order "longitude", deg l ≤ deg l') :
    r.val e = r.val e' := by
  obtain ⟨y, hy, hc⟩ := C61_wrap hg h e v hv x hx hlo (by
    obtain ⟨l, hl, h1, h2⟩ := hhi; exact ⟨l, hl, by linarith, h2⟩)
  obtain ⟨y', hy', hc'⟩ := C61_wrap hg h e' v hv' (x + 360) hx' (by
    obtain ⟨l, hl, h1, h2⟩ := hlo; exact ⟨l, hl, by linarith, h2⟩) (by
    obtain ⟨l, hl, h1, h2⟩ := hhi; exact ⟨l, hl, by linarith, h2⟩)
  rw [hy, hy', CircleInterpolatesAt.unique (circle_distinct hg v) hc.shift hc']

/-- The convention of the grid does not matter: a grid from -180 to 180 and one from 0 to 360 with the same points (modulo 360) and values give the same result. -/
theorem C61_convention {deg : L → K} {shift : K → L → L} {ext ext' : Bool} {target target' : DA L (FV K)} {a a' : Ordered L (FV K)} {r r' : DA L (FV K)}
    (hg : LongitudeGrid deg shift a) (hg' : LongitudeGrid deg shift a')
    (h : interpolateFixed deg shift true ext [("longitude", target)] a = .ok r) (h' : interpolateFixed deg shift true ext' [("longitude", target')] a' = .ok r') (e : Dim → L) (v v' : L → K)
    (hv : ∀ l ∈ a.order "longitude", a.arr.val (setLabel e "longitude" l) = FV.fin (v l)) (hv' : ∀ l ∈ a'.order "longitude", a'.arr.val (setLabel e "longitude" l) = FV.fin (v' l))
    (hsame : ∀ l ∈ a.order "longitude", ∃ l' ∈ a'.order "longitude", v' l' = v l ∧ ∃ k : ℤ, deg l' = deg l + 360 * k)
    (hsame' : ∀ l' ∈ a'.order "longitude", ∃ l ∈ a.order "longitude", v' l' = v l ∧ ∃ k : ℤ, deg l' = deg l + 360 * k)
    (x : K) (j : ℤ) (hx : target.val e = FV.fin x) (hx' : target'.val e = FV.fin (x + 360 * j))
    (hlo : ∃ l ∈ a.order "longitude", deg l - 360 ≤ x ∧ ∀ l' ∈ a.order "longitude", deg l' ≤ deg l) (hhi : ∃ l ∈ a.order "longitude", x ≤ deg l + 360 ∧ ∀ l' ∈ a.order "longitude", deg l ≤ deg l')
    (hlo' : ∃ l ∈ a'.order "longitude", deg l - 360 ≤ x + 360 * j ∧ ∀ l' ∈ a'.order "longitude", deg l' ≤ deg l)
    (hhi' : ∃ l ∈ a'.order "longitude", x + 360 * j ≤ deg l + 360 ∧ ∀ l' ∈ a'.order "longitude", deg l ≤ deg l') :
    r.val e = r'.val e := by
  obtain ⟨y, hy, hc⟩ := C61_wrap hg h e v hv x hx hlo hhi
  obtain ⟨y', hy', p, hp, q, hq, m, n, h1, h2, h3, h4, h5⟩ := C61_wrap hg' h' e v' hv' (x + 360 * j) hx' hlo' hhi'
  have hc' : CircleInterpolatesAt (gridPts (a.order "longitude") deg v) x y' := by
    obtain ⟨l', hl', rfl⟩ := List.mem_map.mp hp
    obtain ⟨m', hm', rfl⟩ := List.mem_map.mp hq
    obtain ⟨l, hl, hvl, k, hk⟩ := hsame' l' hl'
    obtain ⟨l2, hl2, hvl2, k2, hk2⟩ := hsame' m' hm'
    simp only at h1 h2 h3 h4 h5
    refine ⟨(deg l, v l), List.mem_map.mpr ⟨l, hl, rfl⟩, (deg l2, v l2), List.mem_map.mpr ⟨l2, hl2, rfl⟩, m + k - j, n + k2 - j, ?_, ?_, ?_, ?_, ?_⟩
    · push_cast; linarith
    · push_cast; linarith
    · push_cast; linarith
    · intro s hs i
      obtain ⟨l3, hl3, rfl⟩ := List.mem_map.mp hs
      obtain ⟨l4, hl4, _, k4, hk4⟩ := hsame l3 hl3
      have := h4 (deg l4, v' l4) (List.mem_map.mpr ⟨l4, hl4, rfl⟩) (i + j - k4)
      simp only at this ⊢
      push_cast at this ⊢
      rcases this with h | h
      · left; linarith
      · right; linarith
    · unfold OnLine at h5 ⊢
      have eA : (x + 360 * (j : K)) - (deg l' + 360 * (m : K)) = x - (deg l + 360 * ((m + k - j : ℤ) : K)) := by push_cast; linarith
      have eB : (deg m' + 360 * (n : K)) - (deg l' + 360 * (m : K)) = (deg l2 + 360 * ((n + k2 - j : ℤ) : K)) - (deg l + 360 * ((m + k - j : ℤ) : K)) := by push_cast; linarith
      rw [h5, eA, eB, hvl, hvl2]
  rw [hy, hy', CircleInterpolatesAt.unique (circle_distinct hg v) hc hc']

/-! ### The hypotheses can be met: longitudes every 90 degrees, on a grid in descending order (C60) and on the whole circle (C61) -/

/-- Latitudes 90, 0, -90 with the values 90, 0, -90. -/
def exLatitudes : Ordered ℚ (FV ℚ) where
  arr := { dims := {"latitude"}, coords := fun _ => {90, 0, -90}, val := fun e => FV.fin (e "latitude") }
  order := fun _ => [90, 0, -90]

/-- Longitudes 0, 90, 180, 270; the value is 1 at 270 and 0 elsewhere. -/
def exCircle : Ordered ℚ (FV ℚ) where
  arr := { dims := {"longitude"}, coords := fun _ => {0, 90, 180, 270}, val := fun e => if e "longitude" = 270 then FV.fin 1 else FV.fin 0 }
  order := fun _ => [0, 90, 180, 270]

/-- The same grid in the convention from -180 to 180. -/
def exCircle' : Ordered ℚ (FV ℚ) where
  arr := { dims := {"longitude"}, coords := fun _ => {-180, -90, 0, 90}, val := fun e => if e "longitude" = -90 then FV.fin 1 else FV.fin 0 }
  order := fun _ => [-180, -90, 0, 90]

/-- One target coordinate. -/
def exPoint (x : ℚ) : DA ℚ (FV ℚ) where
  dims := {"station"}
  coords := fun _ => {1}
  val := fun _ => FV.fin x

theorem exLatitudes_distinct : ((exLatitudes.order "latitude").map (id : ℚ → ℚ)).Nodup := by simp [exLatitudes]; norm_num

theorem exLatitudes_ok (ext : Bool) (x : ℚ) : ∃ r, interpolateFixed id (fun c l => l + c) false ext [("latitude", exPoint x)] exLatitudes = .ok r :=
  ⟨_, interpolateWith_ok.mpr ⟨exLatitudes, maybePad_false.mpr rfl, by simp [exLatitudes], rfl⟩⟩

example : ∃ r, interpolateFixed id (fun c l => l + c) false false [("latitude", exPoint 45)] exLatitudes = .ok r ∧ r.val (fun _ => 1) = FV.fin 45 := by
  obtain ⟨r, hr⟩ := exLatitudes_ok false 45
  obtain ⟨y, hy, p, hp, q, hq, h1, h2, h3, h4, h5⟩ := C60_linear hr exLatitudes_distinct (by simp [exLatitudes]) (fun _ => 1) id (by simp [exLatitudes, setLabel]) 45 rfl ⟨0, by simp [exLatitudes], by norm_num⟩ ⟨90, by simp [exLatitudes], by norm_num⟩
  refine ⟨r, hr, ?_⟩
  rw [hy]
  obtain ⟨l, hl, rfl⟩ := List.mem_map.mp hp
  obtain ⟨m, hm, rfl⟩ := List.mem_map.mp hq
  unfold OnLine at h5
  simp only [id] at h1 h5
  have : m - l ≠ 0 := (sub_pos.mpr h1).ne'
  rw [h5]; congr 1; field_simp; ring

example : ∃ r, interpolateFixed id (fun c l => l + c) false true [("latitude", exPoint (-90))] exLatitudes = .ok r ∧ r.val (fun _ => 1) = FV.fin (-90) := by
  obtain ⟨r, hr⟩ := exLatitudes_ok true (-90)
  refine ⟨r, hr, ?_⟩
  rw [C60_grid_point hr exLatitudes_distinct (by simp [exLatitudes]) (fun _ => 1) (fun l _ => ⟨l, by simp [exLatitudes, setLabel]⟩) (-90) (by simp [exLatitudes]) rfl]
  simp [exLatitudes, setLabel]

example : ∃ r, interpolateFixed id (fun c l => l + c) false false [("latitude", exPoint 100)] exLatitudes = .ok r ∧ r.val (fun _ => 1) = FV.nan := by
  obtain ⟨r, hr⟩ := exLatitudes_ok false 100
  refine ⟨r, hr, C60_outside hr (fun _ => 1) 100 rfl (Or.inr ?_)⟩
  simp [exLatitudes]; norm_num

example : ∃ r, interpolateFixed id (fun c l => l + c) false true [("latitude", exPoint 100)] exLatitudes = .ok r ∧ r.val (fun _ => 1) = FV.fin (0 + 1 * 100) := by
  obtain ⟨r, hr⟩ := exLatitudes_ok true 100
  exact ⟨r, hr, C60_affine hr exLatitudes_distinct (by simp [exLatitudes]) (fun _ => 1) 0 1 (by simp [exLatitudes, setLabel]) 100 rfl⟩

example : ∃ r, interpolateFixed id (fun c l => l + c) false true [("latitude", exPoint 30)] exLatitudes = .ok r ∧ ∃ y, r.val (fun _ => 1) = FV.fin y ∧ -90 ≤ y ∧ y ≤ 90 := by
  obtain ⟨r, hr⟩ := exLatitudes_ok true 30
  refine ⟨r, hr, C60_range hr (by simp) (by simp) (by simp [DA.WF, exPoint]) (by intro c hc; rw [List.mem_singleton.mp hc]; exact ⟨exLatitudes_distinct, by simp [exLatitudes]⟩) (fun _ => 1) ?_ (-90) 90 ?_⟩
  · intro c hc
    rw [List.mem_singleton.mp hc]
    exact ⟨30, rfl, ⟨0, by simp [exLatitudes], by norm_num⟩, ⟨90, by simp [exLatitudes], by norm_num⟩⟩
  · intro e' h _
    have := h _ (List.mem_singleton.mpr rfl)
    simp only [exLatitudes, List.mem_cons, List.not_mem_nil, or_false] at this
    refine ⟨e' "latitude", rfl, ?_⟩
    rcases this with h | h | h <;> rw [h] <;> norm_num

theorem exCircle_grid : LongitudeGrid (id : ℚ → ℚ) (fun c l => l + c) exCircle where
  increasing := by simp [exCircle]; norm_num
  nonempty := by simp [exCircle]
  span := by simp [exCircle]; norm_num
  labels := by intro l; simp [exCircle]
  shifted := by intro c l; simp

theorem exCircle_grid' : LongitudeGrid (id : ℚ → ℚ) (fun c l => l + c) exCircle' where
  increasing := by simp [exCircle']; norm_num
  nonempty := by simp [exCircle']
  span := by simp [exCircle']; norm_num
  labels := by intro l; simp [exCircle']
  shifted := by intro c l; simp

/-- One target coordinate for each of two stations, 360 degrees apart. -/
def exTwo (x : ℚ) : DA ℚ (FV ℚ) where
  dims := {"station"}
  coords := fun _ => {1, 2}
  val := fun e => if e "station" = 1 then FV.fin x else FV.fin (x + 360)

theorem exCircle_ok (ext : Bool) (t : DA ℚ (FV ℚ)) (a : Ordered ℚ (FV ℚ)) (hg : LongitudeGrid (id : ℚ → ℚ) (fun c l => l + c) a) (hd : "longitude" ∈ a.arr.dims) :
    ∃ r, interpolateFixed id (fun c l => l + c) true ext [("longitude", t)] a = .ok r := by
  obtain ⟨_, _, p, _, _, _, hpad, _, hdims, _⟩ := padded hg
  exact ⟨_, interpolateWith_ok.mpr ⟨p, by unfold maybePad; rw [if_pos rfl, hpad], by simp [hdims, hd], rfl⟩⟩

/-- The value at -45 (and at 315) degrees is half way between those at 270 and 0, in both conventions. -/
example : ∃ r, interpolateFixed id (fun c l => l + c) true true [("longitude", exTwo (-45))] exCircle = .ok r ∧ r.val (fun _ => 1) = r.val (fun _ => 2) ∧
    (∃ y, r.val (fun _ => 1) = FV.fin y ∧ CircleInterpolatesAt (gridPts [0, 90, 180, 270] id (fun l : ℚ => if l = 270 then 1 else 0)) (-45) y) ∧
    ∃ r', interpolateFixed id (fun c l => l + c) true false [("longitude", exPoint (-45))] exCircle' = .ok r' ∧ r.val (fun _ => 1) = r'.val (fun _ => 1) := by
  obtain ⟨r, hr⟩ := exCircle_ok true (exTwo (-45)) exCircle exCircle_grid (by simp [exCircle])
  obtain ⟨r', hr'⟩ := exCircle_ok false (exPoint (-45)) exCircle' exCircle_grid' (by simp [exCircle'])
  have hv : ∀ e : Dim → ℚ, ∀ l ∈ exCircle.order "longitude", exCircle.arr.val (setLabel e "longitude" l) = FV.fin (if l = 270 then 1 else 0) := by
    intro e l _; by_cases h : l = 270 <;> simp [exCircle, setLabel, h]
  have hv' : ∀ e : Dim → ℚ, ∀ l ∈ exCircle'.order "longitude", exCircle'.arr.val (setLabel e "longitude" l) = FV.fin (if l = -90 then 1 else 0) := by
    intro e l _; by_cases h : l = -90 <;> simp [exCircle', setLabel, h]
  have hlo : ∃ l ∈ exCircle.order "longitude", id l - 360 ≤ (-45 : ℚ) ∧ ∀ l' ∈ exCircle.order "longitude", (id l' : ℚ) ≤ id l := ⟨270, by simp [exCircle], by norm_num, by simp [exCircle]; norm_num⟩
  have hhi : ∃ l ∈ exCircle.order "longitude", (-45 : ℚ) ≤ id l ∧ ∀ l' ∈ exCircle.order "longitude", (id l : ℚ) ≤ id l' := ⟨0, by simp [exCircle], by norm_num, by simp [exCircle]⟩
  have hhi2 : ∃ l ∈ exCircle.order "longitude", (-45 : ℚ) ≤ id l + 360 ∧ ∀ l' ∈ exCircle.order "longitude", (id l : ℚ) ≤ id l' := ⟨0, by simp [exCircle], by norm_num, by simp [exCircle]⟩
  refine ⟨r, hr, ?_, ?_, r', hr', ?_⟩
  · exact C61_periodic exCircle_grid hr (fun _ => 1) (fun _ => 2) (fun l => if l = 270 then 1 else 0) (hv _) (hv _) (-45) (by simp [exTwo]) (by simp [exTwo]) hlo hhi
  · exact C61_wrap exCircle_grid hr (fun _ => 1) (fun l => if l = 270 then 1 else 0) (hv _) (-45) (by simp [exTwo]) hlo hhi2
  · refine C61_convention exCircle_grid exCircle_grid' hr hr' (fun _ => 1) (fun l => if l = 270 then 1 else 0) (fun l => if l = -90 then 1 else 0) (hv _) (hv' _) ?_ ?_ (-45) 0 (by simp [exTwo])
      (by simp [exPoint]) hlo hhi2 ⟨90, by simp [exCircle'], by norm_num, by simp [exCircle']; norm_num⟩ ⟨-180, by simp [exCircle'], by norm_num, by simp [exCircle']; norm_num⟩
    · intro l hl
      simp only [exCircle, List.mem_cons, List.not_mem_nil, or_false] at hl
      rcases hl with h | h | h | h <;> subst h
      · exact ⟨0, by simp [exCircle'], by norm_num, 0, by norm_num⟩
      · exact ⟨90, by simp [exCircle'], by norm_num, 0, by norm_num⟩
      · exact ⟨-180, by simp [exCircle'], by norm_num, -1, by norm_num⟩
      · exact ⟨-90, by simp [exCircle'], by norm_num, -1, by norm_num⟩
    · intro l hl
      simp only [exCircle', List.mem_cons, List.not_mem_nil, or_false] at hl
      rcases hl with h | h | h | h <;> subst h
      · exact ⟨180, by simp [exCircle], by norm_num, -1, by norm_num⟩
      · exact ⟨270, by simp [exCircle], by norm_num, -1, by norm_num⟩
      · exact ⟨0, by simp [exCircle], by norm_num, 0, by norm_num⟩
      · exact ⟨90, by simp [exCircle], by norm_num, 0, by norm_num⟩

end WBX
