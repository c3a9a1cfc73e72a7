import Verif.Model.Interpolation
import Verif.Spec.Interpolation
import Verif.Spec.Array
import Verif.Props.Encodings
import Mathlib.Tactic.Linarith
import Mathlib.Tactic.FieldSimp
import Mathlib.Tactic.Positivity
import Mathlib.Tactic.LinearCombination

/-!
# C60, C61: linear interpolation to given coordinates, and across the seam of the longitudes
-/

set_option linter.unusedSectionVars false

namespace WBX
open Classical DA
variable {L K : Type} [DecidableEq L] [Field K] [LinearOrder K] [IsStrictOrderedRing K]

/-! ### One dimension -/

theorem onLine_left {a u b v : K} : OnLine a u b v a u := by simp [OnLine]

theorem onLine_right {a u b v : K} (h : a < b) : OnLine a u b v b v := by
  have : b - a ≠ 0 := (sub_pos.mpr h).ne'
  simp [OnLine, div_self this]

theorem onLine_bounds {a u b v x y : K} (h : a < b) (h1 : a ≤ x) (h2 : x ≤ b) (hy : OnLine a u b v x y) : min u v ≤ y ∧ y ≤ max u v := by
  have hb : 0 < b - a := sub_pos.mpr h
  have t0 : 0 ≤ (x - a) / (b - a) := div_nonneg (sub_nonneg.mpr h1) hb.le
  have t1 : (x - a) / (b - a) ≤ 1 := by rw [div_le_one hb]; linarith
  unfold OnLine at hy
  rw [hy]
  generalize (x - a) / (b - a) = t at t0 t1
  rcases le_total u v with huv | huv
  · rw [min_eq_left huv, max_eq_right huv]
    constructor <;> nlinarith [mul_nonneg (sub_nonneg.mpr huv) t0, mul_nonneg (sub_nonneg.mpr huv) (sub_nonneg.mpr t1)]
  · rw [min_eq_right huv, max_eq_left huv]
    constructor <;> nlinarith [mul_nonneg (sub_nonneg.mpr huv) t0, mul_nonneg (sub_nonneg.mpr huv) (sub_nonneg.mpr t1)]

theorem segment_inside : (s : List (K × FV K)) → s.Pairwise (fun a b => a.1 < b.1) → (x : K) → (∃ a ∈ s, a.1 ≤ x) → (∃ b ∈ s, x ≤ b.1) → 2 ≤ s.length →
    ∃ a ∈ s, ∃ b ∈ s, segment s x = some (a, b) ∧ a.1 < b.1 ∧ a.1 ≤ x ∧ x ≤ b.1 ∧ ∀ r ∈ s, r.1 ≤ a.1 ∨ b.1 ≤ r.1
  | [], _, _, h, _, _ => by simp at h
  | [_], _, _, _, _, h => by simp at h
  | a :: b :: rest, hs, x, hlo, hhi, _ => by
    have hs0 := List.pairwise_cons.mp hs
    have hax : a.1 ≤ x := by
      obtain ⟨c, hc, hcx⟩ := hlo
      rcases List.mem_cons.mp hc with rfl | hc
      · exact hcx
      · exact (hs0.1 c hc).le.trans hcx
    by_cases hb : x ≤ b.1
    · refine ⟨a, by simp, b, by simp, ?_, hs0.1 b (by simp), hax, hb, ?_⟩
      · simp [segment, hb]
      · intro r hr
        rcases List.mem_cons.mp hr with rfl | hr
        · exact Or.inl le_rfl
        · rcases List.mem_cons.mp hr with rfl | hr
          · exact Or.inr le_rfl
          · exact Or.inr ((List.pairwise_cons.mp hs0.2).1 r hr).le
    · push Not at hb
      cases rest with
      | nil =>
        exfalso
        obtain ⟨c, hc, hcx⟩ := hhi
        simp only [List.mem_cons, List.not_mem_nil, or_false] at hc
        rcases hc with rfl | rfl
        · have := hs0.1 b (by simp); linarith
        · linarith
      | cons c rest =>
        have hhi' : ∃ q ∈ b :: c :: rest, x ≤ q.1 := by
          obtain ⟨q, hq, hqx⟩ := hhi
          rcases List.mem_cons.mp hq with rfl | hq
          · exfalso; have := hs0.1 b (by simp); linarith
          · exact ⟨q, hq, hqx⟩
        obtain ⟨p, hp, q, hq, hseg, hpq, hpx, hqx, hsep⟩ := segment_inside (b :: c :: rest) hs0.2 x ⟨b, by simp, hb.le⟩ hhi' (by simp)
        refine ⟨p, List.mem_cons_of_mem _ hp, q, List.mem_cons_of_mem _ hq, ?_, hpq, hpx, hqx, ?_⟩
        · have : decide (x ≤ b.1) = false := by simpa using hb
          simp only [segment, List.tail_cons, List.zip_cons_cons, List.find?_cons, this] at hseg ⊢
          rw [← hseg]
          simp [List.getLast?_cons_cons]
        · intro r hr
          rcases List.mem_cons.mp hr with rfl | hr
          · exact Or.inl (hs0.1 p hp).le
          · exact hsep r hr

/-- The points with their values. -/
def finPts (pts : List (K × K)) : List (K × FV K) := pts.map (fun p => (p.1, FV.fin p.2))

theorem sorted_pts (pts : List (K × FV K)) (hd : (pts.map Prod.fst).Nodup) :
    (pts.insertionSort (fun a b => a.1 ≤ b.1)).Pairwise (fun a b => a.1 < b.1) := by
  have h1 : (pts.insertionSort (fun a b : K × FV K => a.1 ≤ b.1)).Pairwise (fun a b => a.1 ≤ b.1) := by
    haveI : Std.Total (fun a b : K × FV K => a.1 ≤ b.1) := ⟨fun a b => le_total _ _⟩
    haveI : IsTrans (K × FV K) (fun a b : K × FV K => a.1 ≤ b.1) := ⟨fun a b c h h' => le_trans h h'⟩
    exact List.pairwise_insertionSort _ _
  have h2 : ((pts.insertionSort (fun a b : K × FV K => a.1 ≤ b.1)).map Prod.fst).Nodup :=
    ((List.perm_insertionSort _ pts).map Prod.fst).nodup_iff.mpr hd
  have h3 : (pts.insertionSort (fun a b : K × FV K => a.1 ≤ b.1)).Pairwise (fun a b => a.1 ≠ b.1) := by
    rw [List.Nodup, List.pairwise_map] at h2; exact h2
  exact (h1.and h3).imp (fun h => lt_of_le_of_ne h.1 h.2)

theorem lineAt_fin (a b : K × K) (x : K) : ∃ y, lineAt (a.1, FV.fin a.2) (b.1, FV.fin b.2) x = FV.fin y ∧ OnLine a.1 a.2 b.1 b.2 x y :=
  ⟨a.2 + (b.2 - a.2) * ((x - a.1) / (b.1 - a.1)), by simp [lineAt, FV.fin_sub_fin], rfl⟩

theorem two_of_distinct {α : Type} {l : List α} {a b : α} (ha : a ∈ l) (hb : b ∈ l) (hab : a ≠ b) : 2 ≤ l.length := by
  match l with
  | [] => simp at ha
  | [c] => simp at ha hb; exact absurd (ha.trans hb.symm) hab
  | _ :: _ :: _ => simp

/-- Inside the grid the value is that of linear interpolation between the neighbouring points, whatever the order of the points. -/
theorem interp1_inside (ext : Bool) (pts : List (K × K)) (hd : (pts.map Prod.fst).Nodup) (h2 : 2 ≤ pts.length) (x : K) (hlo : ∃ a ∈ pts, a.1 ≤ x) (hhi : ∃ b ∈ pts, x ≤ b.1) :
    ∃ y, interp1 ext (finPts pts) (FV.fin x) = FV.fin y ∧ InterpolatesAt pts x y := by
  set s := (finPts pts).insertionSort (fun a b => a.1 ≤ b.1) with hs
  have hperm : s.Perm (finPts pts) := List.perm_insertionSort _ _
  have hmem : ∀ q, q ∈ s ↔ ∃ p ∈ pts, (p.1, FV.fin p.2) = q := by
    intro q; rw [hperm.mem_iff, finPts, List.mem_map]
  have hpw : s.Pairwise (fun a b => a.1 < b.1) := sorted_pts _ (by simpa [finPts, Function.comp_def] using hd)
  obtain ⟨a0, ha0, ha0x⟩ := hlo
  obtain ⟨b0, hb0, hb0x⟩ := hhi
  have hm0 : (a0.1, FV.fin a0.2) ∈ s := (hmem _).mpr ⟨a0, ha0, rfl⟩
  have hm1 : (b0.1, FV.fin b0.2) ∈ s := (hmem _).mpr ⟨b0, hb0, rfl⟩
  obtain ⟨a, ha, b, hb, hseg, hab, hax, hbx, hsep⟩ := segment_inside s hpw x ⟨_, hm0, ha0x⟩ ⟨_, hm1, hb0x⟩ (by rw [hperm.length_eq, finPts, List.length_map]; exact h2)
  obtain ⟨p, hp, rfl⟩ := (hmem a).mp ha
  obtain ⟨q, hq, rfl⟩ := (hmem b).mp hb
  obtain ⟨y, hy, hline⟩ := lineAt_fin p q x
  refine ⟨y, ?_, p, hp, q, hq, hab, hax, hbx, ?_, hline⟩
  · have h1 : s.all (fun q => decide (x < q.1)) = false := by
      rw [List.all_eq_false]; exact ⟨_, hm0, by simpa using ha0x⟩
    have h3 : s.all (fun q => decide (q.1 < x)) = false := by
      rw [List.all_eq_false]; exact ⟨_, hm1, by simpa using hb0x⟩
    simp only [interp1, ← hs, h1, h3, Bool.or_self, Bool.and_false, Bool.false_eq_true, if_false, hseg]
    exact hy
  · intro r hr
    exact hsep (r.1, FV.fin r.2) ((hmem _).mpr ⟨r, hr, rfl⟩)

theorem InterpolatesAt.unique {pts : List (K × K)} (hd : (pts.map Prod.fst).Nodup) {x y y' : K} (h : InterpolatesAt pts x y) (h' : InterpolatesAt pts x y') : y = y' := by
  have hinj : ∀ p ∈ pts, ∀ q ∈ pts, p.1 = q.1 → p = q := fun p hp q hq e => List.inj_on_of_nodup_map hd hp hq e
  obtain ⟨p, hp, q, hq, hpq, hpx, hqx, hsep, hl⟩ := h
  obtain ⟨p', hp', q', hq', hpq', hpx', hqx', hsep', hl'⟩ := h'
  have val : ∀ r ∈ pts, r.1 = x → y = r.2 := by
    intro r hr hrx
    rcases hsep r hr with h1 | h1
    · have hrp := hinj r hr p hp (le_antisymm h1 (hrx ▸ hpx))
      subst hrp; rw [← hrx] at hl; simpa [OnLine] using hl
    · have hrq := hinj r hr q hq (le_antisymm (hrx ▸ hqx) h1)
      subst hrq; rw [← hrx] at hl
      exact hl.trans (onLine_right hpq).symm
  have val' : ∀ r ∈ pts, r.1 = x → y' = r.2 := by
    intro r hr hrx
    rcases hsep' r hr with h1 | h1
    · have hrp := hinj r hr p' hp' (le_antisymm h1 (hrx ▸ hpx'))
      subst hrp; rw [← hrx] at hl'; simpa [OnLine] using hl'
    · have hrq := hinj r hr q' hq' (le_antisymm (hrx ▸ hqx') h1)
      subst hrq; rw [← hrx] at hl'
      exact hl'.trans (onLine_right hpq').symm
  by_cases hx : ∃ r ∈ pts, r.1 = x
  · obtain ⟨r, hr, hrx⟩ := hx
    rw [val r hr hrx, val' r hr hrx]
  · push Not at hx
    have e1 : p.1 < x := lt_of_le_of_ne hpx (hx p hp)
    have e2 : x < q.1 := lt_of_le_of_ne hqx (hx q hq).symm
    have e3 : p'.1 < x := lt_of_le_of_ne hpx' (hx p' hp')
    have e4 : x < q'.1 := lt_of_le_of_ne hqx' (hx q' hq').symm
    have hpp : p = p' := hinj p hp p' hp' (by
      rcases hsep' p hp with h1 | h1 <;> rcases hsep p' hp' with h3 | h3 <;> linarith)
    have hqq : q = q' := hinj q hq q' hq' (by
      rcases hsep' q hq with h1 | h1 <;> rcases hsep q' hq' with h3 | h3 <;> linarith)
    subst hpp; subst hqq
    exact hl.trans hl'.symm

/-- At a grid point the value is that of the grid point. -/
theorem InterpolatesAt.grid {pts : List (K × K)} (hd : (pts.map Prod.fst).Nodup) {y : K} {p : K × K} (hp : p ∈ pts) (h : InterpolatesAt pts p.1 y) : y = p.2 := by
  have hinj : ∀ p ∈ pts, ∀ q ∈ pts, p.1 = q.1 → p = q := fun p hp q hq e => List.inj_on_of_nodup_map hd hp hq e
  obtain ⟨a, ha, b, hb, hab, hax, hbx, hsep, hl⟩ := h
  rcases hsep p hp with h1 | h1
  · have := hinj p hp a ha (le_antisymm h1 hax); subst this; simpa [OnLine] using hl
  · have := hinj p hp b hb (le_antisymm hbx h1); subst this; exact hl.trans (onLine_right hab).symm

/-- The value is between the values of two grid points. -/
theorem InterpolatesAt.bounds {pts : List (K × K)} {x y lo hi : K} (h : InterpolatesAt pts x y) (hv : ∀ p ∈ pts, lo ≤ p.2 ∧ p.2 ≤ hi) : lo ≤ y ∧ y ≤ hi := by
  obtain ⟨a, ha, b, hb, hab, hax, hbx, _, hl⟩ := h
  obtain ⟨h1, h2⟩ := onLine_bounds hab hax hbx hl
  exact ⟨(le_min (hv a ha).1 (hv b hb).1).trans h1, h2.trans (max_le (hv a ha).2 (hv b hb).2)⟩

/-! ### Outside of the grid -/

theorem segment_below : (s : List (K × FV K)) → s.Pairwise (fun a b => a.1 < b.1) → (x : K) → (∀ a ∈ s, x < a.1) → 2 ≤ s.length →
    ∃ a ∈ s, ∃ b ∈ s, segment s x = some (a, b) ∧ a.1 < b.1 ∧ ∀ r ∈ s, r = a ∨ b.1 ≤ r.1
  | [], _, _, _, h => by simp at h
  | [_], _, _, _, h => by simp at h
  | a :: b :: rest, hs, x, h, _ => by
    have hs0 := List.pairwise_cons.mp hs
    refine ⟨a, by simp, b, by simp, ?_, hs0.1 b (by simp), ?_⟩
    · have : x ≤ b.1 := (h b (by simp)).le
      simp [segment, this]
    · intro r hr
      rcases List.mem_cons.mp hr with rfl | hr
      · exact Or.inl rfl
      · rcases List.mem_cons.mp hr with rfl | hr
        · exact Or.inr le_rfl
        · exact Or.inr ((List.pairwise_cons.mp hs0.2).1 r hr).le

theorem segment_above : (s : List (K × FV K)) → s.Pairwise (fun a b => a.1 < b.1) → (x : K) → (∀ a ∈ s, a.1 < x) → 2 ≤ s.length →
    ∃ a ∈ s, ∃ b ∈ s, segment s x = some (a, b) ∧ a.1 < b.1 ∧ ∀ r ∈ s, r = b ∨ r.1 ≤ a.1
  | [], _, _, _, h => by simp at h
  | [_], _, _, _, h => by simp at h
  | a :: b :: rest, hs, x, h, _ => by
    have hs0 := List.pairwise_cons.mp hs
    have hb : decide (x ≤ b.1) = false := by simpa using h b (by simp)
    cases rest with
    | nil =>
      refine ⟨a, by simp, b, by simp, ?_, hs0.1 b (by simp), ?_⟩
      · simp [segment, h b (by simp)]
      · intro r hr
        simp only [List.mem_cons, List.not_mem_nil, or_false] at hr
        rcases hr with rfl | rfl
        · exact Or.inr le_rfl
        · exact Or.inl rfl
    | cons c rest =>
      obtain ⟨p, hp, q, hq, hseg, hpq, hsep⟩ := segment_above (b :: c :: rest) hs0.2 x (fun r hr => h r (List.mem_cons_of_mem _ hr)) (by simp)
      refine ⟨p, List.mem_cons_of_mem _ hp, q, List.mem_cons_of_mem _ hq, ?_, hpq, ?_⟩
      · simp only [segment, List.tail_cons, List.zip_cons_cons, List.find?_cons, hb] at hseg ⊢
        rw [← hseg]
        simp [List.getLast?_cons_cons]
      · intro r hr
        rcases List.mem_cons.mp hr with rfl | hr
        · exact Or.inr (hs0.1 p hp).le
        · exact hsep r hr

/-- Outside of the grid and without extrapolation: NaN. -/
theorem interp1_outside (pts : List (K × FV K)) (x : K) (h : (∀ p ∈ pts, x < p.1) ∨ ∀ p ∈ pts, p.1 < x) : interp1 false pts (FV.fin x) = FV.nan := by
  have h1 : ((pts.insertionSort (fun a b => a.1 ≤ b.1)).all (fun q => decide (x < q.1)) || (pts.insertionSort (fun a b => a.1 ≤ b.1)).all (fun q => decide (q.1 < x))) = true := by
    rw [Bool.or_eq_true, List.all_eq_true, List.all_eq_true]
    rcases h with h | h
    · left; intro q hq; simpa using h q ((List.mem_insertionSort _).mp hq)
    · right; intro q hq; simpa using h q ((List.mem_insertionSort _).mp hq)
  simp only [interp1, h1, Bool.not_false, Bool.and_self, if_true]

/-- With extrapolation: the line through the two grid points nearest to the edge. -/
theorem interp1_extrapolate (pts : List (K × K)) (hd : (pts.map Prod.fst).Nodup) (h2 : 2 ≤ pts.length) (x : K) :
    ((∀ p ∈ pts, x < p.1) → ∃ y, interp1 true (finPts pts) (FV.fin x) = FV.fin y ∧
      ∃ p ∈ pts, ∃ q ∈ pts, p.1 < q.1 ∧ (∀ r ∈ pts, r = p ∨ q.1 ≤ r.1) ∧ OnLine p.1 p.2 q.1 q.2 x y) ∧
    ((∀ p ∈ pts, p.1 < x) → ∃ y, interp1 true (finPts pts) (FV.fin x) = FV.fin y ∧
      ∃ p ∈ pts, ∃ q ∈ pts, p.1 < q.1 ∧ (∀ r ∈ pts, r = q ∨ r.1 ≤ p.1) ∧ OnLine p.1 p.2 q.1 q.2 x y) := by
  set s := (finPts pts).insertionSort (fun a b => a.1 ≤ b.1) with hs
  have hperm : s.Perm (finPts pts) := List.perm_insertionSort _ _
  have hmem : ∀ q, q ∈ s ↔ ∃ p ∈ pts, (p.1, FV.fin p.2) = q := by
    intro q; rw [hperm.mem_iff, finPts, List.mem_map]
  have hpw : s.Pairwise (fun a b => a.1 < b.1) := sorted_pts _ (by simpa [finPts, Function.comp_def] using hd)
  have hlen : 2 ≤ s.length := by rw [hperm.length_eq, finPts, List.length_map]; exact h2
  have hpair : ∀ p q : K × K, ((p.1, FV.fin p.2) : K × FV K) = (q.1, FV.fin q.2) → p = q := by
    intro p q h
    have h1 := congrArg Prod.fst h
    have h2 := congrArg Prod.snd h
    simp only [FV.fin.injEq] at h1 h2
    exact Prod.ext h1 h2
  constructor
  · intro hx
    obtain ⟨a, ha, b, hb, hseg, hab, hsep⟩ := segment_below s hpw x (by intro a ha; obtain ⟨p, hp, rfl⟩ := (hmem a).mp ha; exact hx p hp) hlen
    obtain ⟨p, hp, rfl⟩ := (hmem a).mp ha
    obtain ⟨q, hq, rfl⟩ := (hmem b).mp hb
    obtain ⟨y, hy, hline⟩ := lineAt_fin p q x
    refine ⟨y, ?_, p, hp, q, hq, hab, ?_, hline⟩
    · simp only [interp1, ← hs, Bool.not_true, Bool.false_and, Bool.false_eq_true, if_false, hseg]; exact hy
    · intro r hr
      rcases hsep _ ((hmem _).mpr ⟨r, hr, rfl⟩) with h | h
      · exact Or.inl (hpair _ _ h)
      · exact Or.inr h
  · intro hx
    obtain ⟨a, ha, b, hb, hseg, hab, hsep⟩ := segment_above s hpw x (by intro a ha; obtain ⟨p, hp, rfl⟩ := (hmem a).mp ha; exact hx p hp) hlen
    obtain ⟨p, hp, rfl⟩ := (hmem a).mp ha
    obtain ⟨q, hq, rfl⟩ := (hmem b).mp hb
    obtain ⟨y, hy, hline⟩ := lineAt_fin p q x
    refine ⟨y, ?_, p, hp, q, hq, hab, ?_, hline⟩
    · simp only [interp1, ← hs, Bool.not_true, Bool.false_and, Bool.false_eq_true, if_false, hseg]; exact hy
    · intro r hr
      rcases hsep _ ((hmem _).mpr ⟨r, hr, rfl⟩) with h | h
      · exact Or.inl (hpair _ _ h)
      · exact Or.inr h

end WBX
