import Verif.Props.InterpolationArrays

/-!
# C60 for several coordinates: where extrapolation takes place and where the result is NaN
-/

set_option linter.unusedSectionVars false

namespace WBX
open Classical DA
variable {L K : Type} [DecidableEq L] [Field K] [LinearOrder K] [IsStrictOrderedRing K]

/-! ### One dimension -/

theorem interp1_nan (ext : Bool) (pts : List (K × FV K)) (h : ∀ p ∈ pts, p.2 = FV.nan) (x : FV K) : interp1 ext pts x = FV.nan := by
  unfold interp1
  cases x with
  | nan => rfl
  | inf s => rfl
  | fin x =>
    dsimp only
    split_ifs with h1
    · rfl
    · cases hs : segment (pts.insertionSort (fun a b => a.1 ≤ b.1)) x with
      | none => rfl
      | some q =>
        obtain ⟨a, b⟩ := q
        have ha : a ∈ pts := by
          rw [← List.mem_insertionSort (r := fun a b : K × FV K => a.1 ≤ b.1)]
          unfold segment at hs
          split at hs
          · next q hq =>
            cases hs
            exact (List.of_mem_zip (List.mem_of_find?_eq_some hq)).1
          · exact (List.of_mem_zip (List.mem_of_getLast? hs)).1
        show lineAt a b x = FV.nan
        unfold lineAt
        rw [h a ha]
        rfl

theorem interp1_affine {order : List L} {deg : L → K} {w : L → FV K} {α β : K} (ext : Bool) (hd : (order.map deg).Nodup) (h2 : 2 ≤ order.length)
    (hv : ∀ l ∈ order, w l = FV.fin (α + β * deg l)) (x : K) (hin : ext = true ∨ ((∃ l ∈ order, deg l ≤ x) ∧ ∃ l ∈ order, x ≤ deg l)) :
    interp1 ext (order.map (fun l => (deg l, w l))) (FV.fin x) = FV.fin (α + β * x) := by
  have line : ∀ p ∈ gridPts order deg (fun l => α + β * deg l), ∀ q ∈ gridPts order deg (fun l => α + β * deg l), ∀ y, p.1 < q.1 →
      OnLine p.1 p.2 q.1 q.2 x y → y = α + β * x := by
    intro p hp q hq y hpq hl
    obtain ⟨l, _, rfl⟩ := List.mem_map.mp hp
    obtain ⟨m, _, rfl⟩ := List.mem_map.mp hq
    simp only [OnLine] at hl hpq
    have hne : deg m - deg l ≠ 0 := (sub_pos.mpr hpq).ne'
    rw [hl]
    field_simp
    ring
  rw [finPts_grid order deg (fun l => α + β * deg l) _ hv]
  have hd' : ((gridPts order deg (fun l => α + β * deg l)).map Prod.fst).Nodup := by rw [gridPts_fst]; exact hd
  have h2' : 2 ≤ (gridPts order deg (fun l => α + β * deg l)).length := by simpa [gridPts] using h2
  by_cases hlo : ∃ l ∈ order, deg l ≤ x
  · by_cases hhi : ∃ l ∈ order, x ≤ deg l
    · obtain ⟨y, hy, p, hp, q, hq, hpq, _, _, _, hl⟩ := interp1_inside ext _ hd' h2' x
        (by obtain ⟨l, hl, hlx⟩ := hlo; exact ⟨_, List.mem_map.mpr ⟨l, hl, rfl⟩, hlx⟩) (by obtain ⟨l, hl, hlx⟩ := hhi; exact ⟨_, List.mem_map.mpr ⟨l, hl, rfl⟩, hlx⟩)
      rw [hy, line p hp q hq y hpq hl]
    · have hext : ext = true := hin.resolve_right (fun h => hhi h.2)
      subst hext
      push Not at hhi
      obtain ⟨y, hy, p, hp, q, hq, hpq, _, hl⟩ := (interp1_extrapolate _ hd' h2' x).2 (by intro p hp; obtain ⟨l, hl, rfl⟩ := List.mem_map.mp hp; exact hhi l hl)
      rw [hy, line p hp q hq y hpq hl]
  · have hext : ext = true := hin.resolve_right (fun h => hlo h.1)
    subst hext
    push Not at hlo
    obtain ⟨y, hy, p, hp, q, hq, hpq, _, hl⟩ := (interp1_extrapolate _ hd' h2' x).1 (by intro p hp; obtain ⟨l, hl, rfl⟩ := List.mem_map.mp hp; exact hlo l hl)
    rw [hy, line p hp q hq y hpq hl]

/-! ### Several coordinates -/

/-- The target coordinate at cell `e` lies outside of the grid. -/
def OutsideGrid (deg : L → K) (order : List L) (t : DA L (FV K)) (e : Dim → L) : Prop :=
  ∃ x, t.val e = FV.fin x ∧ ((∀ l ∈ order, x < deg l) ∨ ∀ l ∈ order, deg l < x)

/-- The targets do not depend on the other dimensions that are interpolated. -/
def Independent (coords : List (Dim × DA L (FV K))) : Prop :=
  (coords.map Prod.fst).Nodup ∧ (∀ c ∈ coords, ∀ c' ∈ coords, c.1 ≠ c'.1 → c'.1 ∉ c.2.dims) ∧ ∀ c ∈ coords, c.2.WF

theorem Independent.tail {c : Dim × DA L (FV K)} {cs : List (Dim × DA L (FV K))} (h : Independent (c :: cs)) : Independent cs :=
  ⟨(List.nodup_cons.mp (by simpa using h.1)).2, fun c1 h1 c2 h2 => h.2.1 c1 (List.mem_cons_of_mem _ h1) c2 (List.mem_cons_of_mem _ h2),
    fun c1 h1 => h.2.2 c1 (List.mem_cons_of_mem _ h1)⟩

/-- The first target has the same value at cells that differ along the later dimensions only. -/
theorem Independent.head {c : Dim × DA L (FV K)} {cs : List (Dim × DA L (FV K))} (h : Independent (c :: cs)) {e e' : Dim → L}
    (he : ∀ k, k ∉ cs.map Prod.fst → e' k = e k) : c.2.val e' = c.2.val e := by
  refine h.2.2 c List.mem_cons_self _ _ (fun k hk => he k (fun hm => ?_))
  obtain ⟨c', hc', rfl⟩ := List.mem_map.mp hm
  refine h.2.1 c List.mem_cons_self c' (List.mem_cons_of_mem _ hc') (fun heq => ?_) hk
  have := (List.nodup_cons.mp (by simpa using h.1 : (c.1 :: cs.map Prod.fst).Nodup)).1
  exact this (heq ▸ List.mem_map_of_mem hc')

theorem foldl_all_nan (deg : L → K) (order : Dim → List L) (cs : List (Bool × Dim × DA L (FV K))) (b : DA L (FV K)) (e : Dim → L)
    (h : ∀ e' : Dim → L, (∀ k, k ∉ (cs.map Prod.snd).map Prod.fst → e' k = e k) → b.val e' = FV.nan) :
    (cs.foldl (fun r c => interpAlong c.2.1 deg c.1 (order c.2.1) c.2.2 r) b).val e = FV.nan := by
  induction cs generalizing b with
  | nil => exact h e (fun _ _ => rfl)
  | cons c cs ih =>
    rw [List.foldl_cons]
    refine ih _ (fun e' he' => ?_)
    refine interp1_nan _ _ (fun p hp => ?_) _
    obtain ⟨l, hl, rfl⟩ := List.mem_map.mp hp
    refine h _ (fun k hk => ?_)
    simp only [List.map_cons, List.mem_cons, not_or] at hk
    simp only [setLabel, if_neg hk.1]
    exact he' k hk.2

theorem foldl_outside (deg : L → K) (order : Dim → List L) (cs : List (Bool × Dim × DA L (FV K))) (b : DA L (FV K)) (e : Dim → L) (hind : Independent (cs.map Prod.snd))
    {c : Dim × DA L (FV K)} (hc : (false, c) ∈ cs) (hout : OutsideGrid deg (order c.1) c.2 e) :
    (cs.foldl (fun r c => interpAlong c.2.1 deg c.1 (order c.2.1) c.2.2 r) b).val e = FV.nan := by
  induction cs generalizing b with
  | nil => simp at hc
  | cons c1 cs ih =>
    rw [List.foldl_cons]
    rcases List.mem_cons.mp hc with rfl | hc
    · refine foldl_all_nan deg order cs _ e (fun e' he' => ?_)
      obtain ⟨x, hx, ho⟩ := hout
      have ht : c.2.val e' = FV.fin x := by rw [← hx]; exact hind.head he'
      simp only [interpAlong, ht]
      apply interp1_outside
      rcases ho with ho | ho
      · left; intro p hp; obtain ⟨l, hl, rfl⟩ := List.mem_map.mp hp; exact ho l hl
      · right; intro p hp; obtain ⟨l, hl, rfl⟩ := List.mem_map.mp hp; exact ho l hl
    · exact ih _ hind.tail hc

theorem foldl_affine (deg : L → K) (order : Dim → List L) (cs : List (Bool × Dim × DA L (FV K))) (b : DA L (FV K)) (e : Dim → L) (hind : Independent (cs.map Prod.snd))
    (ho : ∀ c ∈ cs, ((order c.2.1).map deg).Nodup ∧ 2 ≤ (order c.2.1).length) (x : Dim → K) (hx : ∀ c ∈ cs, c.2.2.val e = FV.fin (x c.2.1))
    (hin : ∀ c ∈ cs, c.1 = true ∨ InsideGrid deg (order c.2.1) c.2.2 e) (α : K) (β : Dim → K)
    (hb : ∀ e' : Dim → L, (∀ c ∈ cs, e' c.2.1 ∈ order c.2.1) → (∀ k, k ∉ (cs.map Prod.snd).map Prod.fst → e' k = e k) →
      b.val e' = FV.fin (α + (cs.map (fun c => β c.2.1 * deg (e' c.2.1))).sum)) :
    (cs.foldl (fun r c => interpAlong c.2.1 deg c.1 (order c.2.1) c.2.2 r) b).val e = FV.fin (α + (cs.map (fun c => β c.2.1 * x c.2.1)).sum) := by
  induction cs generalizing b α with
  | nil => simpa using hb e (by simp) (fun _ _ => rfl)
  | cons c cs ih =>
    rw [List.foldl_cons, List.map_cons, List.sum_cons, ← add_assoc]
    have hnot : c.2.1 ∉ (cs.map Prod.snd).map Prod.fst := (List.nodup_cons.mp (by simpa using hind.1 : (c.2.1 :: (cs.map Prod.snd).map Prod.fst).Nodup)).1
    refine ih _ hind.tail (fun c1 h1 => ho c1 (List.mem_cons_of_mem _ h1)) (fun c1 h1 => hx c1 (List.mem_cons_of_mem _ h1)) (fun c1 h1 => hin c1 (List.mem_cons_of_mem _ h1)) _ (fun e' h1 h2 => ?_)
    have ht : c.2.2.val e' = FV.fin (x c.2.1) := by rw [← hx c List.mem_cons_self]; exact hind.head h2
    have hgrid : ∀ l ∈ order c.2.1, b.val (setLabel e' c.2.1 l) = FV.fin ((α + (cs.map (fun c => β c.2.1 * deg (e' c.2.1))).sum) + β c.2.1 * deg l) := by
      intro l hl
      rw [hb (setLabel e' c.2.1 l)]
      · congr 1
        rw [List.map_cons, List.sum_cons]
        have : cs.map (fun c1 => β c1.2.1 * deg (setLabel e' c.2.1 l c1.2.1)) = cs.map (fun c => β c.2.1 * deg (e' c.2.1)) := by
          refine List.map_congr_left (fun c1 h3 => ?_)
          have hne : c1.2.1 ≠ c.2.1 := fun heq => hnot (heq ▸ List.mem_map_of_mem (List.mem_map_of_mem h3))
          simp [setLabel, hne]
        rw [this]
        simp [setLabel]
        ring
      · intro c1 h3
        by_cases hc : c1.2.1 = c.2.1
        · rw [hc]; simp [setLabel, hl]
        · simp only [setLabel, if_neg hc]
          rcases List.mem_cons.mp h3 with rfl | h3
          · exact absurd rfl hc
          · exact h1 c1 h3
      · intro k hk
        simp only [List.map_cons, List.mem_cons, not_or] at hk
        simp only [setLabel, if_neg hk.1]
        exact h2 k hk.2
    simp only [interpAlong, ht]
    rw [interp1_affine c.1 (ho c List.mem_cons_self).1 (ho c List.mem_cons_self).2 hgrid (x c.2.1)]
    · congr 1; ring
    · rcases hin c List.mem_cons_self with h | ⟨y, hy, h3, h4⟩
      · exact .inl h
      · have : y = x c.2.1 := by
          have := hy.symm.trans (hx c List.mem_cons_self)
          exact FV.fin.inj this
        exact .inr (this ▸ ⟨h3, h4⟩)

/-! ### Which coordinates are extrapolated -/

theorem extrapolations_nan {coords : List (Dim × DA L (FV K))} {c : Dim × DA L (FV K)} (hc : c ∈ coords) : (false, c) ∈ extrapolations .nan coords := by
  have h := extrapolations_snd .nan coords
  rw [← h] at hc
  obtain ⟨⟨b, c'⟩, hm, rfl⟩ := List.mem_map.mp hc
  have : b = false := by
    unfold extrapolations at hm
    obtain ⟨g, _, hm⟩ := List.mem_flatMap.mp hm
    obtain ⟨c1, _, h1⟩ := List.mem_map.mp hm
    exact (congrArg Prod.fst h1).symm
  exact this ▸ hm

/-- Targets along different dimensions are interpolated one by one. -/
theorem coordGroups_orthogonal (coords : List (Dim × DA L (FV K))) (hne : coords ≠ [])
    (h : coords.Pairwise (fun c c' => Disjoint (destinationDims c) (destinationDims c'))) : coordGroups [] coords = coords.map (fun c => [c]) := by
  induction coords with
  | nil => exact absurd rfl hne
  | cons c rest ih =>
    unfold coordGroups
    obtain ⟨h1, h2⟩ := List.pairwise_cons.mp h
    by_cases hr : rest = []
    · subst hr; simp
    · rw [if_neg hr, if_pos (by simpa using h1), ih hr h2]
      rfl

/-- Targets with a common dimension are interpolated together. -/
theorem coordGroups_together (s : Dim) (pending coords : List (Dim × DA L (FV K))) (h : ∀ c ∈ pending ++ coords, s ∈ c.2.dims) : coordGroups pending coords = [pending ++ coords] := by
  induction coords generalizing pending with
  | nil => simp [coordGroups]
  | cons c rest ih =>
    unfold coordGroups
    by_cases hr : rest = []
    · subst hr; simp
    · rw [if_neg hr, if_neg]
      · rw [ih (pending ++ [c]) (by simpa using h)]
        simp
      · intro hall
        obtain ⟨q, hq⟩ := List.exists_mem_of_ne_nil _ hr
        have hc : s ∈ c.2.dims := h c (by simp)
        have hq' : s ∈ q.2.dims := h q (by simp [hq])
        have := hall c (by simp) q hq
        unfold destinationDims at this
        rw [if_neg (Finset.ne_empty_of_mem hc), if_neg (Finset.ne_empty_of_mem hq')] at this
        exact (Finset.disjoint_left.mp this) hc hq'

variable {deg : L → K} {shift : K → L → L} {ext : Bool} {coords : List (Dim × DA L (FV K))} {a : Ordered L (FV K)} {r : DA L (FV K)}

/-- C60: without extrapolation the result is NaN wherever any of the target coordinates is outside of the grid, for any number of coordinates. -/
theorem C60_outside_any (h : interpolateFixed deg shift false false coords a = .ok r) (hind : Independent coords) {e : Dim → L} {c : Dim × DA L (FV K)} (hc : c ∈ coords)
    (hout : OutsideGrid deg (a.order c.1) c.2 e) : r.val e = FV.nan := by
  obtain ⟨p, hp, -, rfl⟩ := interpolateWith_ok.mp h
  rw [maybePad_false.mp hp]
  exact foldl_outside deg a.order _ a.arr e (by rw [extrapolations_snd]; exact hind) (extrapolations_nan hc) hout

/-- C60: inside the grid, a field that is affine in the interpolated coordinates is reproduced exactly, for any number of coordinates. -/
theorem C60_affine_inside (h : interpolateFixed deg shift false ext coords a = .ok r) (hind : Independent coords)
    (ho : ∀ c ∈ coords, ((a.order c.1).map deg).Nodup ∧ 2 ≤ (a.order c.1).length) {e : Dim → L} {x : Dim → K} (hx : ∀ c ∈ coords, c.2.val e = FV.fin (x c.1))
    (hin : ∀ c ∈ coords, InsideGrid deg (a.order c.1) c.2 e) (α : K) (β : Dim → K)
    (hv : ∀ e' : Dim → L, (∀ c ∈ coords, e' c.1 ∈ a.order c.1) → (∀ k, k ∉ coords.map Prod.fst → e' k = e k) →
      a.arr.val e' = FV.fin (α + (coords.map (fun c => β c.1 * deg (e' c.1))).sum)) :
    r.val e = FV.fin (α + (coords.map (fun c => β c.1 * x c.1)).sum) := by
  obtain ⟨p, hp, -, rfl⟩ := interpolateWith_ok.mp h
  rw [maybePad_false.mp hp]
  have hsnd := extrapolations_snd (fillFor ext coords.length) coords
  have hmem : ∀ c ∈ extrapolations (fillFor ext coords.length) coords, c.2 ∈ coords := fun c hc => by rw [← hsnd]; exact List.mem_map_of_mem hc
  have hsum : ∀ f : Dim × DA L (FV K) → K, ((extrapolations (fillFor ext coords.length) coords).map (fun c => f c.2)) = coords.map f := fun f => by
    conv_rhs => rw [← hsnd]
    rw [List.map_map]; rfl
  have := foldl_affine deg a.order (extrapolations (fillFor ext coords.length) coords) a.arr e (by rw [hsnd]; exact hind) (fun c hc => ho _ (hmem c hc)) x
    (fun c hc => hx _ (hmem c hc)) (fun c hc => .inr (hin _ (hmem c hc))) α β (fun e' h1 h2 => by
      rw [hsnd] at h2
      rw [hsum (fun c => β c.1 * deg (e' c.1))]
      refine hv e' (fun c hc => ?_) h2
      rw [← hsnd] at hc
      obtain ⟨c', hc', rfl⟩ := List.mem_map.mp hc
      exact h1 c' hc')
  rw [hsum (fun c => β c.1 * x c.1)] at this
  exact this

/-- C60: with extrapolation and targets that have a dimension in common (such as the latitudes and longitudes of stations, or a single coordinate), a field that is affine in the
interpolated coordinates is reproduced exactly everywhere, inside and outside of the grid. -/
theorem C60_extrapolates (h : interpolateFixed deg shift false true coords a = .ok r) (hind : Independent coords) {s : Dim} (hs : ∀ c ∈ coords, s ∈ c.2.dims)
    (ho : ∀ c ∈ coords, ((a.order c.1).map deg).Nodup ∧ 2 ≤ (a.order c.1).length) {e : Dim → L} {x : Dim → K} (hx : ∀ c ∈ coords, c.2.val e = FV.fin (x c.1))
    (α : K) (β : Dim → K)
    (hv : ∀ e' : Dim → L, (∀ c ∈ coords, e' c.1 ∈ a.order c.1) → (∀ k, k ∉ coords.map Prod.fst → e' k = e k) →
      a.arr.val e' = FV.fin (α + (coords.map (fun c => β c.1 * deg (e' c.1))).sum)) :
    r.val e = FV.fin (α + (coords.map (fun c => β c.1 * x c.1)).sum) := by
  obtain ⟨p, hp, -, rfl⟩ := interpolateWith_ok.mp h
  rw [maybePad_false.mp hp]
  have hext : extrapolations (fillFor true coords.length) coords = coords.map (fun c => (true, c)) := by
    unfold extrapolations
    rw [coordGroups_together s [] coords (by simpa using hs)]
    have : coords.map (fun c => ((fillFor true coords.length).extrapolates coords.length, c)) = coords.map (fun c => (true, c)) := by
      congr 1
      funext c
      unfold fillFor
      by_cases h1 : 1 < coords.length
      · simp [h1, Fill.extrapolates]; omega
      · simp [h1, Fill.extrapolates]
    simpa using this
  unfold interpCoords
  rw [hext]
  have hsum : ∀ f : Dim × DA L (FV K) → K, (coords.map (fun c => (true, c))).map (fun c => f c.2) = coords.map f := fun f => by
    rw [List.map_map]; rfl
  have hmem : ∀ c ∈ coords.map (fun c => (true, c)), c.1 = true ∧ c.2 ∈ coords := fun c hc => by
    obtain ⟨c', hc', rfl⟩ := List.mem_map.mp hc
    exact ⟨rfl, hc'⟩
  have := foldl_affine deg a.order (coords.map (fun c => (true, c))) a.arr e (by simpa [Function.comp_def] using hind)
    (fun c hc => ho _ (hmem c hc).2) x (fun c hc => hx _ (hmem c hc).2) (fun c hc => .inl (hmem c hc).1) α β (fun e' h1 h2 => by
      rw [hsum (fun c => β c.1 * deg (e' c.1))]
      exact hv e' (fun c hc => h1 (true, c) (List.mem_map_of_mem hc)) (by simpa [Function.comp_def] using h2))
  rw [hsum (fun c => β c.1 * x c.1)] at this
  exact this

/-- C60 (finding): with two or more target coordinates along different dimensions (such as the latitudes and longitudes of another grid), nothing is extrapolated although
`extrapolate_out_of_bounds` is set: the result is NaN wherever a target coordinate is outside of the grid. -/
theorem C60_no_extrapolation (h : interpolateFixed deg shift false true coords a = .ok r) (hind : Independent coords) (h2 : 2 ≤ coords.length)
    (hdims : ∀ c ∈ coords, c.2.dims ≠ ∅) (hdiff : coords.Pairwise (fun c c' => Disjoint c.2.dims c'.2.dims)) {e : Dim → L} {c : Dim × DA L (FV K)} (hc : c ∈ coords)
    (hout : OutsideGrid deg (a.order c.1) c.2 e) : r.val e = FV.nan := by
  obtain ⟨p, hp, -, rfl⟩ := interpolateWith_ok.mp h
  rw [maybePad_false.mp hp]
  refine foldl_outside deg a.order _ a.arr e (by rw [extrapolations_snd]; exact hind) ?_ hout
  unfold extrapolations
  rw [coordGroups_orthogonal coords (List.ne_nil_of_mem hc)]
  · refine List.mem_flatMap.mpr ⟨[c], List.mem_map_of_mem hc, ?_⟩
    have : (fillFor true coords.length).extrapolates [c].length = false := by
      unfold fillFor
      rw [if_pos rfl, if_pos (by omega)]
      rfl
    rw [List.map_singleton, this]
    exact List.mem_singleton_self _
  · refine List.Pairwise.imp_of_mem (fun {c1 c2} h1 h3 hd => ?_) hdiff
    unfold destinationDims
    rw [if_neg (hdims c1 h1), if_neg (hdims c2 h3)]
    exact hd

/-! ### Concrete cases -/

/-- A field on latitudes -90, 0, 90 and longitudes 0, 180: the sum of latitude and longitude. -/
def exPlane : Ordered ℚ (FV ℚ) where
  arr := { dims := {"latitude", "longitude"}, coords := fun k => if k = "latitude" then {-90, 0, 90} else {0, 180}, val := fun e => FV.fin (e "latitude" + e "longitude") }
  order := fun k => if k = "latitude" then [-90, 0, 90] else [0, 180]

/-- The coordinates of a new grid. -/
def exNewGrid : List (Dim × DA ℚ (FV ℚ)) :=
  [("latitude", { dims := {"latitude"}, coords := fun _ => {45, 100}, val := fun e => FV.fin (e "latitude") }),
   ("longitude", { dims := {"longitude"}, coords := fun _ => {90}, val := fun e => FV.fin (e "longitude") })]

/-- The coordinates of a station at latitude 100 and longitude 90. -/
def exOneStation : List (Dim × DA ℚ (FV ℚ)) :=
  [("latitude", { dims := {"station"}, coords := fun _ => {1}, val := fun _ => FV.fin 100 }),
   ("longitude", { dims := {"station"}, coords := fun _ => {1}, val := fun _ => FV.fin 90 })]

theorem exNewGrid_independent : Independent exNewGrid := by
  refine ⟨by simp [exNewGrid], by simp [exNewGrid], ?_⟩
  intro c hc
  simp only [exNewGrid, List.mem_cons, List.not_mem_nil, or_false] at hc
  rcases hc with rfl | rfl
  · intro e e' h; simp only; rw [h "latitude" (by simp)]
  · intro e e' h; simp only; rw [h "longitude" (by simp)]

theorem exOneStation_independent : Independent exOneStation := by
  refine ⟨by simp [exOneStation], by simp [exOneStation], ?_⟩
  intro c hc
  simp only [exOneStation, List.mem_cons, List.not_mem_nil, or_false] at hc
  rcases hc with rfl | rfl <;> intro e e' _ <;> rfl

theorem exPlane_ok (ext : Bool) (coords : List (Dim × DA ℚ (FV ℚ))) (hc : coords.map Prod.fst = ["latitude", "longitude"]) :
    ∃ r, interpolateFixed (id : ℚ → ℚ) (fun c l => l + c) false ext coords exPlane = .ok r := by
  refine ⟨_, interpolateWith_ok.mpr ⟨exPlane, maybePad_false.mpr rfl, fun c h => ?_, rfl⟩⟩
  have : c.1 ∈ coords.map Prod.fst := List.mem_map_of_mem h
  rw [hc] at this
  simp only [List.mem_cons, List.not_mem_nil, or_false] at this
  rcases this with h | h <;> rw [h] <;> simp [exPlane]

theorem exPlane_orders : ∀ d, ((exPlane.order d).map (id : ℚ → ℚ)).Nodup ∧ 2 ≤ (exPlane.order d).length := by
  intro d
  unfold exPlane
  dsimp only
  split_ifs
  · exact ⟨by norm_num, by simp⟩
  · exact ⟨by norm_num, by simp⟩

/-- At latitude 100 of the new grid the result is NaN with and without extrapolation; at latitude 45 it is exact. -/
example : ∃ r r', interpolateFixed (id : ℚ → ℚ) (fun c l => l + c) false true exNewGrid exPlane = .ok r ∧
    interpolateFixed (id : ℚ → ℚ) (fun c l => l + c) false false exNewGrid exPlane = .ok r' ∧
    r.val (fun k => if k = "latitude" then 100 else 90) = FV.nan ∧ r'.val (fun k => if k = "latitude" then 100 else 90) = FV.nan ∧
    r.val (fun k => if k = "latitude" then 45 else 90) = FV.fin 135 := by
  obtain ⟨r, hr⟩ := exPlane_ok true exNewGrid rfl
  obtain ⟨r', hr'⟩ := exPlane_ok false exNewGrid rfl
  have hc : exNewGrid.head (by simp [exNewGrid]) ∈ exNewGrid := List.head_mem _
  have hout : OutsideGrid (id : ℚ → ℚ) (exPlane.order (exNewGrid.head (by simp [exNewGrid])).1) (exNewGrid.head (by simp [exNewGrid])).2 (fun k => if k = "latitude" then 100 else 90) := by
    refine ⟨100, by simp [exNewGrid], .inr ?_⟩
    simp [exNewGrid, exPlane]
    norm_num
  refine ⟨r, r', hr, hr', C60_no_extrapolation hr exNewGrid_independent (by simp [exNewGrid]) (by simp [exNewGrid]) (by simp [exNewGrid]) hc hout,
    C60_outside_any hr' exNewGrid_independent hc hout, ?_⟩
  rw [C60_affine_inside hr exNewGrid_independent (fun c _ => exPlane_orders c.1) (x := fun k => if k = "latitude" then 45 else 90) (by simp [exNewGrid]) ?_ 0 (fun _ => 1) (by simp [exNewGrid, exPlane])]
  · simp [exNewGrid]; norm_num
  · intro c hc
    simp only [exNewGrid, List.mem_cons, List.not_mem_nil, or_false] at hc
    rcases hc with rfl | rfl
    · exact ⟨45, by simp, ⟨0, by simp [exPlane], by norm_num⟩, ⟨90, by simp [exPlane], by norm_num⟩⟩
    · exact ⟨90, by simp, ⟨0, by simp [exPlane], by norm_num⟩, ⟨180, by simp [exPlane], by norm_num⟩⟩

/-- At a station at latitude 100 the result is extrapolated. -/
example : ∃ r, interpolateFixed (id : ℚ → ℚ) (fun c l => l + c) false true exOneStation exPlane = .ok r ∧ r.val (fun _ => 1) = FV.fin 190 := by
  obtain ⟨r, hr⟩ := exPlane_ok true exOneStation rfl
  refine ⟨r, hr, ?_⟩
  rw [C60_extrapolates hr exOneStation_independent (s := "station") (by simp [exOneStation]) (fun c _ => exPlane_orders c.1) (x := fun k => if k = "latitude" then 100 else 90)
    (by simp [exOneStation]) 0 (fun _ => 1) (by simp [exOneStation, exPlane])]
  simp [exOneStation]; norm_num

end WBX
