import Verif.Props.InterpolationArrays
import Verif.Props.Wrappers
import Verif.Props.Spatial
import Verif.Props.Encodings
import Verif.Props.Latency

/-!
# C53, C62, C63, C64: combining interpolations, cropping, subsampling, neighbourhood probabilities
-/

set_option linter.unusedSectionVars false

namespace WBX
open Classical DA

/-! ### C53: `MultipleInterpolation` -/

section multiple
variable {A : Type}

/-- `a` becomes `r` by applying the interpolations from left to right, each to the result of the one before. -/
inductive Applied (reference : Option A) : List (Interpolator A) → A → A → Prop
  | nil (a : A) : Applied reference [] a a
  | cons {f : Interpolator A} {fs : List (Interpolator A)} {a b r : A} : f a reference = .ok b → Applied reference fs b r → Applied reference (f :: fs) a r

/-- The interpolations are applied in the order of the list. -/
theorem C53_order (fs : List (Interpolator A)) (a r : A) (reference : Option A) : multipleInterpolation fs a reference = .ok r ↔ Applied reference fs a r := by
  unfold multipleInterpolation
  induction fs generalizing a with
  | nil =>
    simp only [List.foldlM_nil, pure, Except.pure, Except.ok.injEq]
    exact ⟨fun h => h ▸ .nil a, fun h => by cases h; rfl⟩
  | cons f fs ih =>
    rw [List.foldlM_cons, bind_ok_iff]
    constructor
    · rintro ⟨b, hb, h⟩
      exact .cons hb ((ih b).mp h)
    · intro h
      cases h with
      | cons hb h => exact ⟨_, hb, (ih _).mpr h⟩

/-- The empty list changes nothing. -/
theorem C53_empty (a : A) (reference : Option A) : multipleInterpolation [] a reference = .ok a := rfl

/-- One interpolation: as without `MultipleInterpolation`. -/
theorem C53_single (f : Interpolator A) (a : A) (reference : Option A) : multipleInterpolation [f] a reference = f a reference := by
  unfold multipleInterpolation
  simp only [List.foldlM_cons, List.foldlM_nil]
  exact bind_pure _

/-- Nested lists are the same as the concatenation, errors included. -/
theorem C53_nested (fss : List (List (Interpolator A))) : multipleInterpolation (fss.map multipleInterpolation) = multipleInterpolation fss.flatten := by
  funext a reference
  induction fss generalizing a with
  | nil => rfl
  | cons fs fss ih =>
    have e1 : multipleInterpolation (List.map multipleInterpolation (fs :: fss)) a reference = multipleInterpolation fs a reference >>= fun b => multipleInterpolation (fss.map multipleInterpolation) b reference := by
      unfold multipleInterpolation; rw [List.map_cons, List.foldlM_cons]
    have e2 : multipleInterpolation (fs :: fss).flatten a reference = multipleInterpolation fs a reference >>= fun b => multipleInterpolation fss.flatten b reference := by
      unfold multipleInterpolation; rw [List.flatten_cons, List.foldlM_append]
    rw [e1, e2]
    congr 1
    funext b
    exact ih b

/-- Every variable of the dataset, in the same order, is interpolated on its own, with the reference array of the same name. -/
theorem C53_variables (f : Interpolator A) (ds r : Vars A) (reference : Option (Vars A)) : interpolateVars f ds reference = .ok r ↔
    List.Forall₂ (fun kv kr => kr.1 = kv.1 ∧ ∃ ref, (match reference with | none => ref = none | some rs => ∃ x, pyItem rs kv.1 = .ok x ∧ ref = some x) ∧ f kv.2 ref = .ok kr.2) ds r := by
  have key : ∀ (g : String × A → Except Err (String × A)) (P : String × A → String × A → Prop), (∀ x y, g x = .ok y ↔ P x y) → ∀ (l : List (String × A)) (r : List (String × A)), l.mapM g = .ok r ↔ List.Forall₂ P l r := by
    intro g P hP l
    induction l with
    | nil =>
      intro r
      simp only [List.mapM_nil, pure, Except.pure, Except.ok.injEq]
      constructor
      · rintro rfl; exact .nil
      · intro h; cases h; rfl
    | cons x l ih =>
      intro r
      rw [List.mapM_cons]
      simp only [bind_ok_iff, pure, Except.pure, Except.ok.injEq]
      constructor
      · rintro ⟨y, hy, ys, hys, rfl⟩
        exact .cons ((hP x y).mp hy) ((ih ys).mp hys)
      · intro h
        cases h with
        | cons h1 h2 => exact ⟨_, (hP _ _).mpr h1, _, (ih _).mpr h2, rfl⟩
  unfold interpolateVars
  cases reference with
  | none =>
    refine key _ _ ?_ ds r
    rintro ⟨k, v⟩ ⟨k', v'⟩
    simp only [bind_ok_iff, pure, Except.pure, Except.ok.injEq, Prod.mk.injEq]
    constructor
    · rintro ⟨a, ha, rfl, rfl⟩; exact ⟨rfl, none, rfl, ha⟩
    · rintro ⟨rfl, ref, rfl, h⟩; exact ⟨v', h, rfl, rfl⟩
  | some rs =>
    refine key _ _ ?_ ds r
    rintro ⟨k, v⟩ ⟨k', v'⟩
    simp only [bind_ok_iff, pure, Except.pure, Except.ok.injEq, Prod.mk.injEq]
    constructor
    · rintro ⟨x, hx, a, ha, rfl, rfl⟩; exact ⟨rfl, some x, ⟨x, hx, rfl⟩, ha⟩
    · rintro ⟨rfl, ref, ⟨x, hx, rfl⟩, h⟩; exact ⟨x, hx, v', h, rfl, rfl⟩

/-- For a dataset, too, a `MultipleInterpolation` of `f` followed by `fs` is `f` followed by the `MultipleInterpolation` of the rest (the dataset result is the same; if some
array fails, both fail). -/
theorem C53_dataset (f : Interpolator A) (fs : List (Interpolator A)) (ds r : Vars A) (reference : Option (Vars A)) :
    interpolateVars (multipleInterpolation (f :: fs)) ds reference = .ok r ↔ ∃ m, interpolateVars f ds reference = .ok m ∧ interpolateVars (multipleInterpolation fs) m reference = .ok r := by
  simp only [C53_variables]
  have hcons : ∀ (a : A) ref c, multipleInterpolation (f :: fs) a ref = .ok c ↔ ∃ b, f a ref = .ok b ∧ multipleInterpolation fs b ref = .ok c := by
    intro a ref c
    unfold multipleInterpolation
    rw [List.foldlM_cons, bind_ok_iff]
  constructor
  · intro h
    induction h with
    | nil => exact ⟨[], .nil, .nil⟩
    | @cons kv kr ds r h1 _ ih =>
      obtain ⟨m, hm1, hm2⟩ := ih
      obtain ⟨hk, ref, href, hv⟩ := h1
      obtain ⟨b, hb, hc⟩ := (hcons _ _ _).mp hv
      exact ⟨(kv.1, b) :: m, .cons ⟨rfl, ref, href, hb⟩ hm1, .cons ⟨hk, ref, href, hc⟩ hm2⟩
  · rintro ⟨m, hm1, hm2⟩
    induction hm1 generalizing r with
    | nil => cases hm2; exact .nil
    | @cons kv km ds m h1 _ ih =>
      cases hm2 with
      | @cons _ kr _ r h2 h3 =>
        obtain ⟨hk, ref, href, hv⟩ := h1
        obtain ⟨hk', ref', href', hv'⟩ := h2
        refine .cons ⟨hk'.trans hk, ref, href, (hcons _ _ _).mpr ⟨km.2, hv, ?_⟩⟩ (ih r h3)
        have : ref' = ref := by
          cases reference with
          | none => simp only at href href'; rw [href, href']
          | some rs =>
            simp only at href href'
            obtain ⟨x, hx, rfl⟩ := href
            obtain ⟨x', hx', rfl⟩ := href'
            rw [hk, hx] at hx'
            injection hx' with hx'
            rw [hx']
        rw [← this]; exact hv'

/-- Two interpolations of numbers: add one, then double — the order matters. -/
example : interpolateVars (multipleInterpolation [fun a _ => .ok (a + 1), fun a _ => .ok (2 * a)]) [("x", (3 : ℕ))] none = .ok [("x", 8)] ∧
    interpolateVars (multipleInterpolation [fun a _ => .ok (2 * a), fun a _ => .ok (a + 1)]) [("x", (3 : ℕ))] none = .ok [("x", 7)] := ⟨rfl, rfl⟩

end multiple

/-! ### C62: `CropToBox` -/

section crop
variable {L K V : Type} [DecidableEq L] [Field K] [LinearOrder K] [IsStrictOrderedRing K]

/-- Exactly the cells whose latitude and longitude lie in the closed box remain, with their values. -/
theorem C62_box {deg : L → K} {b : Box K} {a r : DA L V} (h : cropToBox deg b a = .ok r) : r.dims = a.dims ∧ r.val = a.val ∧
    ∀ e, r.InDom e ↔ a.InDom e ∧ (b.latMin ≤ deg (e "latitude") ∧ deg (e "latitude") ≤ b.latMax) ∧ (b.lonMin ≤ deg (e "longitude") ∧ deg (e "longitude") ≤ b.lonMax) := by
  unfold cropToBox at h
  split at h
  · next hd =>
    injection h with h
    rw [← h]
    refine ⟨rfl, rfl, fun e => ?_⟩
    constructor
    · intro he
      refine ⟨fun d hd => ?_, ?_, ?_⟩
      · have := he d hd
        simp only [selRange] at this
        split at this
        · have := (Finset.mem_filter.mp this).1
          split at this
          · exact (Finset.mem_filter.mp this).1
          · exact this
        · split at this
          · exact (Finset.mem_filter.mp this).1
          · exact this
      · have := he "latitude" hd.2
        simp only [selRange, show ("latitude" : Dim) ≠ "longitude" by decide, if_false, if_true] at this
        exact (Finset.mem_filter.mp this).2
      · have := he "longitude" hd.1
        simp only [selRange, if_true] at this
        exact (Finset.mem_filter.mp this).2
    · rintro ⟨he, hlat, hlon⟩ d hdd
      have := he d hdd
      simp only [selRange]
      split
      · next h1 =>
        subst h1
        simp only [show ("longitude" : Dim) ≠ "latitude" by decide, if_false]
        exact Finset.mem_filter.mpr ⟨this, hlon⟩
      · split
        · next h2 => subst h2; exact Finset.mem_filter.mpr ⟨this, hlat⟩
        · exact this
  · simp at h

/-- ★ The documentation calls the longitudes exclusive, but a cell at the eastern (or western) edge of the box is kept. -/
theorem C62_longitude_inclusive {deg : L → K} {b : Box K} {a r : DA L V} (h : cropToBox deg b a = .ok r) (e : Dim → L) (he : a.InDom e) (hb : b.lonMin ≤ b.lonMax)
    (hlat : b.latMin ≤ deg (e "latitude") ∧ deg (e "latitude") ≤ b.latMax) (hlon : deg (e "longitude") = b.lonMax ∨ deg (e "longitude") = b.lonMin) : r.InDom e := by
  rw [(C62_box h).2.2 e]
  refine ⟨he, hlat, ?_⟩
  rcases hlon with h | h <;> rw [h]
  · exact ⟨hb, le_rfl⟩
  · exact ⟨le_rfl, hb⟩

/-- A box with minimum above maximum is rejected with a `ValueError`; every other box is accepted as given. -/
theorem C62_bounds (latMin latMax lonMin lonMax : K) :
    (latMin ≤ latMax ∧ lonMin ≤ lonMax → mkBox latMin latMax lonMin lonMax = .ok ⟨latMin, latMax, lonMin, lonMax⟩) ∧
    (¬ (latMin ≤ latMax ∧ lonMin ≤ lonMax) → mkBox latMin latMax lonMin lonMax = .error .valueError) := by
  unfold mkBox
  constructor
  · rintro ⟨h1, h2⟩
    rw [if_neg h1.not_gt, if_neg h2.not_gt]
  · intro h
    by_cases h1 : latMax < latMin
    · rw [if_pos h1]
    · rw [if_neg h1, if_pos]
      rw [not_and_or, not_le, not_le] at h
      exact h.resolve_left h1

/-- A dataset without latitude or longitude dimension is a `KeyError`; otherwise cropping succeeds. -/
theorem C62_dims (deg : L → K) (b : Box K) (a : DA L V) : (("latitude" ∈ a.dims ∧ "longitude" ∈ a.dims) ↔ ∃ r, cropToBox deg b a = .ok r) ∧
    ∀ err, cropToBox deg b a = .error err → err = .keyError := by
  unfold cropToBox
  by_cases h : "longitude" ∈ a.dims ∧ "latitude" ∈ a.dims
  · rw [if_pos h]; exact ⟨⟨fun _ => ⟨_, rfl⟩, fun _ => h.symm⟩, by simp⟩
  · rw [if_neg h]
    refine ⟨⟨fun h' => absurd h'.symm h, by rintro ⟨r, hr⟩; simp at hr⟩, fun err herr => by injection herr with herr; exact herr.symm⟩

/-- Cropping twice is cropping to the intersection of the boxes. -/
theorem C62_twice {deg : L → K} {b b' : Box K} {a r s : DA L V} (h : cropToBox deg b a = .ok r) (h' : cropToBox deg b' r = .ok s) :
    ∃ t, cropToBox deg ⟨max b.latMin b'.latMin, min b.latMax b'.latMax, max b.lonMin b'.lonMin, min b.lonMax b'.lonMax⟩ a = .ok t ∧ t.dims = s.dims ∧ t.val = s.val ∧ ∀ e, t.InDom e ↔ s.InDom e := by
  obtain ⟨t, ht⟩ := (C62_dims deg ⟨max b.latMin b'.latMin, min b.latMax b'.latMax, max b.lonMin b'.lonMin, min b.lonMax b'.lonMax⟩ a).1.mp ((C62_dims deg b a).1.mpr ⟨r, h⟩)
  obtain ⟨h1, h2, h3⟩ := C62_box h
  obtain ⟨h4, h5, h6⟩ := C62_box h'
  obtain ⟨h7, h8, h9⟩ := C62_box ht
  refine ⟨t, ht, by rw [h7, h4, h1], by rw [h8, h5, h2], fun e => ?_⟩
  rw [h9, h6, h3]
  simp only [max_le_iff, le_min_iff]
  tauto

/-- Latitudes -90, 0, 90 and longitudes 0, 120, 240. -/
def exWorld : DA ℚ ℚ where
  dims := {"latitude", "longitude"}
  coords := fun k => if k = "latitude" then {90, 0, -90} else {0, 120, 240}
  val := fun e => e "latitude" + e "longitude"

/-- The northern hemisphere up to 120 degrees: four cells, the cell at longitude 120 among them. -/
example : ∃ b r, mkBox (0 : ℚ) 90 0 120 = .ok b ∧ cropToBox id b exWorld = .ok r ∧ r.InDom (fun k => if k = "latitude" then 0 else 120) ∧ ¬ r.InDom (fun k => if k = "latitude" then 0 else 240) := by
  refine ⟨⟨0, 90, 0, 120⟩, _, (C62_bounds 0 90 0 120).1 (by norm_num), if_pos (by simp [exWorld]), ?_, ?_⟩
  · rw [(C62_box (if_pos (by simp [exWorld]))).2.2]
    refine ⟨fun d hd => ?_, ?_, ?_⟩
    · simp only [exWorld, Finset.mem_insert, Finset.mem_singleton] at hd
      rcases hd with rfl | rfl <;> simp [exWorld]
    · norm_num
    · simp
  · rw [(C62_box (if_pos (by simp [exWorld]))).2.2]
    rintro ⟨_, _, _, h⟩
    simp only [id, show ("longitude" : Dim) ≠ "latitude" by decide, if_false] at h
    norm_num at h

end crop

/-! ### C63: `Subsample` -/

section subsample
variable {L V : Type} [DecidableEq L]

theorem everyNth_from (s : ℕ) (hs : 0 < s) (xs : List L) (k : ℕ) : ∀ i, (((xs.zipIdx k).filter (fun q => q.2 % s = 0)).map Prod.fst)[i]? = xs[((k + s - 1) / s * s - k) + i * s]? := by
  induction xs generalizing k with
  | nil => intro i; simp
  | cons x xs ih =>
    intro i
    rw [List.zipIdx_cons]
    obtain ⟨q, t, ht, hk⟩ : ∃ q t, t < s ∧ k = q * s + t := ⟨k / s, k % s, Nat.mod_lt _ hs, by rw [Nat.mul_comm]; exact (Nat.div_add_mod k s).symm⟩
    have e0 : ∀ u, u < s → (q * s + u) % s = u := fun u hu => by rw [Nat.mul_comm, Nat.mul_add_mod, Nat.mod_eq_of_lt hu]
    have ed : ∀ u, 0 < u → u ≤ s → (q * s + u + s - 1) / s = q + 1 := fun u h0 hu => by
      rw [show q * s + u + s - 1 = (u - 1) + (q + 1) * s by rw [Nat.add_mul]; omega, Nat.add_mul_div_right _ _ hs, Nat.div_eq_of_lt (by omega)]; omega
    have ez : (q * s + 0 + s - 1) / s = q := by
      rw [show q * s + 0 + s - 1 = (s - 1) + q * s by omega, Nat.add_mul_div_right _ _ hs, Nat.div_eq_of_lt (by omega)]; omega
    by_cases h0 : t = 0
    · subst h0
      have hm : k % s = 0 := by rw [hk, e0 0 ht]
      rw [List.filter_cons_of_pos (by simpa using hm), List.map_cons]
      have hz : (k + s - 1) / s * s - k = 0 := by rw [hk, ez]; omega
      rw [hz]
      cases i with
      | zero => simp
      | succ i =>
        rw [List.getElem?_cons_succ, ih (k + 1) i]
        have : (k + 1 + s - 1) / s * s - (k + 1) = s - 1 := by
          rw [show k + 1 + s - 1 = q * s + 1 + s - 1 by omega, ed 1 (by omega) (by omega), Nat.add_mul]; omega
        rw [this, show 0 + (i + 1) * s = (s - 1 + i * s) + 1 by rw [Nat.add_mul]; omega, List.getElem?_cons_succ]
    · have hm : ¬ k % s = 0 := by rw [hk, e0 t ht]; exact h0
      rw [List.filter_cons_of_neg (by simpa using hm), ih (k + 1) i]
      have h1 : (k + s - 1) / s * s - k = s - t := by
        rw [hk, ed t (by omega) (by omega), Nat.add_mul]; omega
      have h2 : (k + 1 + s - 1) / s * s - (k + 1) = s - t - 1 := by
        rw [show k + 1 + s - 1 = q * s + (t + 1) + s - 1 by omega, ed (t + 1) (by omega) (by omega), Nat.add_mul]; omega
      rw [h1, h2, show s - t + i * s = (s - t - 1 + i * s) + 1 by omega, List.getElem?_cons_succ]

theorem everyNth_getElem? {s : ℕ} (hs : 0 < s) (xs : List L) (i : ℕ) : (everyNth s xs)[i]? = xs[i * s]? := by
  unfold everyNth
  rw [everyNth_from s hs xs 0 i, show (0 + s - 1) / s = 0 from Nat.div_eq_of_lt (by omega)]
  simp

/-- The `i`-th label of a subsampled dimension is the one at position `i * stride`; the other dimensions, and dimensions the array does not have, are left alone; the values too. -/
theorem C63_positions {dims : List Dim} {stride : ℕ} (hs : 0 < stride) (a : Ordered L V) :
    (∀ d ∈ dims, d ∈ a.arr.dims → ∀ i, ((subsample dims stride a).order d)[i]? = (a.order d)[i * stride]?) ∧
    (∀ d, d ∉ dims ∨ d ∉ a.arr.dims → (subsample dims stride a).order d = a.order d ∧ (subsample dims stride a).arr.coords d = a.arr.coords d) ∧
    (subsample dims stride a).arr.dims = a.arr.dims ∧ (subsample dims stride a).arr.val = a.arr.val := by
  refine ⟨fun d hd hd' i => ?_, fun d hd => ?_, rfl, rfl⟩
  · simp only [subsample, hd, hd', and_self, if_true]
    exact everyNth_getElem? hs _ i
  · have : ¬ (d ∈ dims ∧ d ∈ a.arr.dims) := by tauto
    simp [subsample, this]

/-- The labels that remain are exactly those at the positions divisible by the stride. -/
theorem C63_labels {dims : List Dim} {stride : ℕ} (hs : 0 < stride) (a : Ordered L V) {d : Dim} (hd : d ∈ dims) (hd' : d ∈ a.arr.dims) (l : L) :
    l ∈ (subsample dims stride a).arr.coords d ↔ ∃ j, stride ∣ j ∧ (a.order d)[j]? = some l := by
  simp only [subsample, hd, hd', and_self, if_true, List.mem_toFinset]
  rw [List.mem_iff_getElem?]
  constructor
  · rintro ⟨i, hi⟩
    rw [everyNth_getElem? hs] at hi
    exact ⟨i * stride, Dvd.intro_left i rfl, hi⟩
  · rintro ⟨j, ⟨i, rfl⟩, hj⟩
    exact ⟨i, by rw [everyNth_getElem? hs, Nat.mul_comm]; exact hj⟩

/-- A stride below 1 is a `ValueError`; any other is accepted. -/
theorem C63_stride (stride : ℤ) : (stride < 1 → mkStride stride = .error .valueError) ∧ (1 ≤ stride → ∃ s : ℕ, mkStride stride = .ok s ∧ (s : ℤ) = stride ∧ 0 < s) := by
  unfold mkStride
  refine ⟨fun h => if_pos h, fun h => ⟨stride.toNat, if_neg (by omega), by omega, by omega⟩⟩

/-- With stride 1 nothing changes. -/
theorem C63_one (dims : List Dim) (a : Ordered L V) (d : Dim) : (subsample dims 1 a).order d = a.order d := by
  by_cases h : d ∈ dims ∧ d ∈ a.arr.dims
  · refine List.ext_getElem? (fun i => ?_)
    rw [(C63_positions (by norm_num) a).1 d h.1 h.2, Nat.mul_one]
  · exact ((C63_positions (by norm_num) a).2.1 d (by tauto)).1

/-- Subsampling twice is subsampling with the product of the strides. -/
theorem C63_twice (dims : List Dim) {s t : ℕ} (hs : 0 < s) (ht : 0 < t) (a : Ordered L V) : subsample dims t (subsample dims s a) = subsample dims (s * t) a := by
  have ho : ∀ xs : List L, everyNth t (everyNth s xs) = everyNth (s * t) xs := by
    intro xs
    refine List.ext_getElem? (fun i => ?_)
    rw [everyNth_getElem? ht, everyNth_getElem? hs, everyNth_getElem? (Nat.mul_pos hs ht)]
    congr 1
    ring
  unfold subsample
  simp only
  congr 1
  · congr 1
    funext k
    by_cases h : k ∈ dims ∧ k ∈ a.arr.dims <;> simp [h, ho]
  · funext k
    by_cases h : k ∈ dims ∧ k ∈ a.arr.dims <;> simp [h, ho]

example : ∃ s, mkStride 2 = .ok s ∧ (subsample ["longitude", "level"] s exCircle).order "longitude" = [0, 180] := ⟨2, rfl, by simp [subsample, exCircle, everyNth]⟩

end subsample


/-! ### C64: `NeighborhoodThresholdProbabilities` -/

section neighborhood
variable {L K : Type} [DecidableEq L] [Field K] [LinearOrder K] [IsStrictOrderedRing K]
variable {label : FV K → L} {g : Grid L} {position : ℤ → L} {wrap : Bool} {sizes : List ℤ} {ts : List (FV K)} {thDim : Dim} {name : String} {a r : DA L (FV K)}

/-- The probability at a cell, for threshold `t` and size `2h+1`, is the fraction of the cells of the window that exceed the threshold — 0 at every cell whose window leaves the grid. -/
theorem C64_fraction (hl : Function.Injective label) (hp : Function.Injective position) (hg : g.lat.Nodup ∧ g.lon.Nodup)
    (hdim : thDim ≠ "latitude" ∧ thDim ≠ "longitude") (hr : neighborhoodProbabilities label g position wrap sizes (.list ts) thDim name a = .ok r)
    {h i j : ℕ} (hh : (2 * (h : ℤ) + 1) ∈ sizes) {t : FV K} (ht : t ∈ ts) (e : Dim → L) (het : e thDim = label t) (hes : e "smoothing_neighborhood" = position (2 * h + 1))
    {x : ℕ → ℕ → K} (hx : ∀ i < g.lat.length, ∀ j < g.lon.length, a.val (gridPoint g e i j) = .fin (x i j)) (hi : i < g.lat.length) (hj : j < g.lon.length) :
    r.val (gridPoint g e i j) = .fin (if Interior wrap h g.lat.length g.lon.length i j then
      boxMean h g.lon.length (fun i' j' => if FV.lt t (.fin (x i' j')) = true then 1 else 0) i j else 0) := by
  unfold neighborhoodProbabilities at hr
  obtain ⟨th, hth, hr⟩ := bind_ok_iff.mp hr
  simp only [Thresholds.forBinary, Except.ok.injEq] at hth
  obtain ⟨rs, hrs, hr⟩ := bind_ok_iff.mp hr
  split at hr
  · simp at hr
  injection hr with hr
  subst hth
  have hpick : ∀ (ns : List ℤ) (qs : List (StatVar L (FV K))), ns.mapM (averageOne g wrap (binarize (thresholdArray label thDim ts) ⟨a, none⟩)) = .ok qs → ∀ n ∈ ns,
      ∃ v, averageOne g wrap (binarize (thresholdArray label thDim ts) ⟨a, none⟩) n = .ok v ∧ pick position (ns.zip (qs.map (fun r => r.arr))) (position n) = some v.arr := by
    intro ns qs hq n hn
    obtain ⟨v, hv, hpk⟩ := pick_size hp _ ns qs hq n hn
    refine ⟨v, hv, ?_⟩
    unfold pick at hpk ⊢
    rw [List.zip_map_right, List.find?_map]
    simp only [Option.map_eq_some_iff] at hpk ⊢
    obtain ⟨q, hq1, hq2⟩ := hpk
    refine ⟨(q.1, q.2.arr), ⟨q, ?_, rfl⟩, by rw [hq2]⟩
    rw [← hq1]
    congr 1
  obtain ⟨v, hv, hpk⟩ := hpick sizes rs hrs _ hh
  have hlab : ∀ i j k, k ≠ "latitude" → k ≠ "longitude" → gridPoint g e i j k = e k := fun i j k h1 h2 => by simp [gridPoint, setLabel, h1, h2]
  have hval : r.val (gridPoint g e i j) = v.arr.val (gridPoint g e i j) := by
    rw [← hr]
    simp only [concatSmoothing, hlab i j "smoothing_neighborhood" (by decide) (by decide), hes, hpk]
  rw [hval]
  refine C39_window (number := position) hg hv ?_ hi hj
  intro i' hi' j' hj'
  rw [C37_value]
  simp only [hx i' hi' j' hj', thresholdArray_val hl ht (show gridPoint g e i' j' thDim = label t by rw [hlab _ _ _ hdim.1 hdim.2, het])]
  simp only [FV.isnan, Bool.false_eq_true, if_false]
  split <;> rfl

/-- Probabilities lie between 0 and 1. -/
theorem C64_bounds (hl : Function.Injective label) (hp : Function.Injective position) (hg : g.lat.Nodup ∧ g.lon.Nodup)
    (hdim : thDim ≠ "latitude" ∧ thDim ≠ "longitude") (hr : neighborhoodProbabilities label g position wrap sizes (.list ts) thDim name a = .ok r)
    {h i j : ℕ} (hh : (2 * (h : ℤ) + 1) ∈ sizes) {t : FV K} (ht : t ∈ ts) (e : Dim → L) (het : e thDim = label t) (hes : e "smoothing_neighborhood" = position (2 * h + 1))
    {x : ℕ → ℕ → K} (hx : ∀ i < g.lat.length, ∀ j < g.lon.length, a.val (gridPoint g e i j) = .fin (x i j)) (hi : i < g.lat.length) (hj : j < g.lon.length) :
    ∃ q, r.val (gridPoint g e i j) = .fin q ∧ 0 ≤ q ∧ q ≤ 1 := by
  refine ⟨_, C64_fraction hl hp hg hdim hr hh ht e het hes hx hi hj, ?_⟩
  split
  · next hint => exact C39_bounds hint (fun i' _ d _ => by split <;> norm_num)
  · norm_num

/-- A higher threshold never has a higher probability. -/
theorem C64_antitone (hl : Function.Injective label) (hp : Function.Injective position) (hg : g.lat.Nodup ∧ g.lon.Nodup)
    (hdim : thDim ≠ "latitude" ∧ thDim ≠ "longitude") (hr : neighborhoodProbabilities label g position wrap sizes (.list ts) thDim name a = .ok r)
    {h i j : ℕ} (hh : (2 * (h : ℤ) + 1) ∈ sizes) {t t' : FV K} (ht : t ∈ ts) (ht' : t' ∈ ts) (htt : FV.le t t' = true) (e e' : Dim → L) (het : e thDim = label t) (het' : e' thDim = label t')
    (hes : e "smoothing_neighborhood" = position (2 * h + 1)) (hes' : e' "smoothing_neighborhood" = position (2 * h + 1))
    {x : ℕ → ℕ → K} (hx : ∀ i < g.lat.length, ∀ j < g.lon.length, a.val (gridPoint g e i j) = .fin (x i j))
    (hx' : ∀ i < g.lat.length, ∀ j < g.lon.length, a.val (gridPoint g e' i j) = .fin (x i j)) (hi : i < g.lat.length) (hj : j < g.lon.length) :
    ∃ q q', r.val (gridPoint g e i j) = .fin q ∧ r.val (gridPoint g e' i j) = .fin q' ∧ q' ≤ q := by
  refine ⟨_, _, C64_fraction hl hp hg hdim hr hh ht e het hes hx hi hj, C64_fraction hl hp hg hdim hr hh ht' e' het' hes' hx' hi hj, ?_⟩
  split
  · unfold boxMean
    refine div_le_div_of_nonneg_right (Finset.sum_le_sum (fun i' _ => Finset.sum_le_sum (fun d _ => ?_))) (by positivity)
    beta_reduce
    by_cases h1 : FV.lt t' (.fin (x i' (onRing g.lon.length j d))) = true
    · rw [if_pos h1, if_pos (FV.le_lt_trans htt h1)]
    · rw [if_neg h1]; split <;> norm_num
  · exact le_rfl

/-- An even or nonpositive size, an empty list of sizes, or an array without horizontal dimensions is a `ValueError`. -/
theorem C64_errors : (∃ r, neighborhoodProbabilities label g position wrap sizes (.list ts) thDim name a = .ok r) ↔
    sizes ≠ [] ∧ (∀ n ∈ sizes, 0 < n ∧ n % 2 = 1) ∧ ∀ n ∈ sizes, "latitude" ∈ insert thDim a.dims ∧ "longitude" ∈ insert thDim a.dims := by
  have hone : ∀ n, (∃ q, averageOne g wrap (binarize (thresholdArray label thDim ts) ⟨a, none⟩) n = .ok q) ↔
      (0 < n ∧ n % 2 = 1) ∧ ("latitude" ∈ insert thDim a.dims ∧ "longitude" ∈ insert thDim a.dims) := by
    intro n
    have := (C39_error g position wrap n (binarize (thresholdArray label thDim ts) ⟨a, none⟩)).1
    simp only [neighborhoodAveraging] at this
    rw [this]
    have hm : (binarize (thresholdArray label thDim ts) ⟨a, none⟩ : StatVar L (FV K)).mask = none := by simp [binarize, StatVar.zipWith, StatVar.map, combineMask]
    have hd : (binarize (thresholdArray label thDim ts) ⟨a, none⟩ : StatVar L (FV K)).arr.dims = insert thDim a.dims := by
      ext k; simp [binarize, StatVar.zipWith, StatVar.map, DA.map, zipWith, thresholdArray]
    rw [hm, hd]
    simp
  unfold neighborhoodProbabilities
  simp only [Thresholds.forBinary]
  constructor
  · rintro ⟨r, hr⟩
    obtain ⟨th, hth, hr⟩ := bind_ok_iff.mp hr
    injection hth with hth
    subst hth
    obtain ⟨rs, hrs, hr⟩ := bind_ok_iff.mp hr
    split at hr
    · simp at hr
    · next hne =>
      refine ⟨hne, fun n hn => ?_, fun n hn => ?_⟩ <;> obtain ⟨q, _, hq⟩ := mapM_mem _ _ _ hrs n hn
      · exact ((hone n).mp ⟨q, hq⟩).1
      · exact ((hone n).mp ⟨q, hq⟩).2
  · rintro ⟨hne, hodd, hdims⟩
    have hall : ∀ n ∈ sizes, ∃ q, averageOne g wrap (binarize (thresholdArray label thDim ts) ⟨a, none⟩) n = .ok q := fun n hn => (hone n).mpr ⟨hodd n hn, hdims n hn⟩
    obtain ⟨rs, hrs⟩ : ∃ rs, sizes.mapM (averageOne g wrap (binarize (thresholdArray label thDim ts) ⟨a, none⟩)) = .ok rs := mapM_ok_of_mem _ _ hall
    exact ⟨_, bind_ok_iff.mpr ⟨_, rfl, bind_ok_iff.mpr ⟨rs, hrs, by rw [if_neg hne]; rfl⟩⟩⟩

/-- A 3 × 3 grid, size 3, threshold 0: the hypotheses can be met. -/
example : ∃ r, neighborhoodProbabilities exLabel ⟨[0, 1, 2], [0, 1, 2]⟩ (fun n => exLabel (FV.fin n)) false [3, 1] (.list [FV.fin (0 : ℚ)]) "threshold_value" "x"
    { dims := {"latitude", "longitude"}, coords := fun _ => ∅, val := fun _ => FV.fin 1 } = .ok r := by
  rw [C64_errors]
  simp

end neighborhood
end WBX
