import Verif.Spec.Rounding
import Verif.Lemmas.Array
import Mathlib.Tactic.Linarith
import Mathlib.Tactic.Ring
import Mathlib.Tactic.Positivity
import Mathlib.Tactic.FieldSimp
import Mathlib.Algebra.Order.BigOperators.Group.List

/-!
# C90: rounding, and how little the schedule matters
-/

namespace WBX
set_option linter.unusedSectionVars false

/-! ### Errors of single operations -/

section near
variable {R : Rounding} {k k1 k2 : ℕ} {v v1 v2 s s1 s2 m m1 m2 : ℝ}

theorem one_le_pow_unit (R : Rounding) (k : ℕ) : 1 ≤ (1 + R.unit) ^ k := one_le_pow₀ (by linarith [R.nonneg])

theorem pow_unit_mono (R : Rounding) {k l : ℕ} (h : k ≤ l) : (1 + R.unit) ^ k ≤ (1 + R.unit) ^ l :=
  pow_le_pow_right₀ (by linarith [R.nonneg]) h

theorem Near.nonneg (h : Near R k v s m) : 0 ≤ m := le_trans (abs_nonneg _) h.2

theorem Near.mono {l : ℕ} (h : Near R k v s m) (hkl : k ≤ l) : Near R l v s m :=
  ⟨le_trans h.1 (mul_le_mul_of_nonneg_right (by linarith [pow_unit_mono R hkl]) h.nonneg), h.2⟩

theorem Near.bound (h : Near R k v s m) : |v| ≤ (1 + R.unit) ^ k * m := by
  have h1 : |v| ≤ |v - s| + |s| := by
    calc |v| = |(v - s) + s| := by ring_nf
      _ ≤ _ := abs_add_le _ _
  have h2 := h.1
  have h3 := h.2
  nlinarith

theorem near_exact (R : Rounding) (v : ℝ) : Near R 0 v v |v| := ⟨by simp, le_refl _⟩

theorem near_zero (R : Rounding) : Near R 0 0 0 0 := ⟨by simp, by simp⟩

/-- One more rounding. -/
theorem Near.round (h : Near R k v s m) : Near R (k + 1) (R.rnd v) s m := by
  refine ⟨?_, h.2⟩
  have h1 : |R.rnd v - s| ≤ |R.rnd v - v| + |v - s| := by
    calc |R.rnd v - s| = |(R.rnd v - v) + (v - s)| := by ring_nf
      _ ≤ _ := abs_add_le _ _
  have h2 := R.close v
  have h3 := mul_le_mul_of_nonneg_left h.bound R.nonneg
  have h4 := h.1
  have h5 : ((1 + R.unit) ^ (k + 1) - 1) * m = R.unit * ((1 + R.unit) ^ k * m) + ((1 + R.unit) ^ k - 1) * m := by ring
  rw [h5]
  linarith

theorem Near.exact_add (h1 : Near R k v1 s1 m1) (h2 : Near R k v2 s2 m2) : Near R k (v1 + v2) (s1 + s2) (m1 + m2) := by
  refine ⟨?_, le_trans (abs_add_le _ _) (add_le_add h1.2 h2.2)⟩
  calc |v1 + v2 - (s1 + s2)| = |(v1 - s1) + (v2 - s2)| := by ring_nf
    _ ≤ |v1 - s1| + |v2 - s2| := abs_add_le _ _
    _ ≤ _ := by rw [mul_add]; exact add_le_add h1.1 h2.1

/-- Floating-point addition. -/
theorem Near.add (h1 : Near R k1 v1 s1 m1) (h2 : Near R k2 v2 s2 m2) : Near R (max k1 k2 + 1) (R.rnd (v1 + v2)) (s1 + s2) (m1 + m2) :=
  ((h1.mono (le_max_left _ _)).exact_add (h2.mono (le_max_right _ _))).round

/-- Floating-point multiplication. -/
theorem Near.mul (h1 : Near R k1 v1 s1 m1) (h2 : Near R k2 v2 s2 m2) : Near R (k1 + k2 + 1) (R.rnd (v1 * v2)) (s1 * s2) (m1 * m2) := by
  refine Near.round ⟨?_, ?_⟩
  · have hm1 := h1.nonneg
    have hm2 := h2.nonneg
    calc |v1 * v2 - s1 * s2| = |(v1 - s1) * v2 + s1 * (v2 - s2)| := by ring_nf
      _ ≤ |(v1 - s1) * v2| + |s1 * (v2 - s2)| := abs_add_le _ _
      _ = |v1 - s1| * |v2| + |s1| * |v2 - s2| := by rw [abs_mul, abs_mul]
      _ ≤ (((1 + R.unit) ^ k1 - 1) * m1) * ((1 + R.unit) ^ k2 * m2) + m1 * (((1 + R.unit) ^ k2 - 1) * m2) :=
        add_le_add (mul_le_mul h1.1 h2.bound (abs_nonneg _) (le_trans (abs_nonneg _) h1.1))
          (mul_le_mul h1.2 h2.1 (abs_nonneg _) hm1)
      _ = _ := by ring
  · rw [abs_mul]
    exact mul_le_mul h1.2 h2.2 (abs_nonneg _) h1.nonneg

/-- The quotient of a computed sum by a computed sum of nonnegative weights. -/
theorem Near.div {W w : ℝ} (h1 : Near R k1 v s m) (h2 : Near R k2 w W W) (hW : 0 < W) (hb : (1 + R.unit) ^ k2 < 2) :
    0 < w ∧ |R.rnd (v / w) - s / W| ≤ meanFactor R k1 k2 * (m / W) := by
  have hw1 := (abs_le.mp h2.1).1
  have hden : 0 < 2 - (1 + R.unit) ^ k2 := by linarith
  have hlow : (2 - (1 + R.unit) ^ k2) * W ≤ w := by nlinarith
  have hw : 0 < w := lt_of_lt_of_le (mul_pos hden hW) hlow
  refine ⟨hw, ?_⟩
  have hm := h1.nonneg
  have hA := one_le_pow_unit R k1
  have hB := one_le_pow_unit R k2
  -- the exact quotient
  have hq : |v / w| ≤ (1 + R.unit) ^ k1 / (2 - (1 + R.unit) ^ k2) * (m / W) := by
    rw [abs_div, abs_of_pos hw]
    calc |v| / w ≤ ((1 + R.unit) ^ k1 * m) / w := by gcongr; exact h1.bound
      _ ≤ ((1 + R.unit) ^ k1 * m) / ((2 - (1 + R.unit) ^ k2) * W) := by
        apply div_le_div_of_nonneg_left (by positivity) (mul_pos hden hW) hlow
      _ = _ := by field_simp
  have hd : |v / w - s / W| ≤ ((1 + R.unit) ^ k1 / (2 - (1 + R.unit) ^ k2) - 1) * (m / W) := by
    have e1 : v / w - s / W = ((v - s) * W + s * (W - w)) / (w * W) := by field_simp; ring
    rw [e1, abs_div, abs_of_pos (mul_pos hw hW)]
    have e2 : |(v - s) * W + s * (W - w)| ≤ ((1 + R.unit) ^ k1 - 1) * m * W + m * (((1 + R.unit) ^ k2 - 1) * W) := by
      refine le_trans (abs_add_le _ _) ?_
      rw [abs_mul, abs_mul, abs_of_pos hW]
      refine add_le_add (mul_le_mul_of_nonneg_right h1.1 hW.le) (mul_le_mul h1.2 ?_ (abs_nonneg _) hm)
      rw [abs_sub_comm]; exact h2.1
    have e3 : ((1 + R.unit) ^ k1 - 1) * m * W + m * (((1 + R.unit) ^ k2 - 1) * W) = ((1 + R.unit) ^ k1 + (1 + R.unit) ^ k2 - 2) * (m * W) := by ring
    rw [e3] at e2
    calc _ ≤ ((1 + R.unit) ^ k1 + (1 + R.unit) ^ k2 - 2) * (m * W) / (w * W) := by gcongr
      _ = ((1 + R.unit) ^ k1 + (1 + R.unit) ^ k2 - 2) * m / w := by field_simp
      _ ≤ ((1 + R.unit) ^ k1 + (1 + R.unit) ^ k2 - 2) * m / ((2 - (1 + R.unit) ^ k2) * W) := by
        apply div_le_div_of_nonneg_left (mul_nonneg (by linarith) hm) (mul_pos hden hW) hlow
      _ = _ := by field_simp; ring
  calc |R.rnd (v / w) - s / W| = |(R.rnd (v / w) - v / w) + (v / w - s / W)| := by ring_nf
    _ ≤ |R.rnd (v / w) - v / w| + |v / w - s / W| := abs_add_le _ _
    _ ≤ R.unit * ((1 + R.unit) ^ k1 / (2 - (1 + R.unit) ^ k2) * (m / W)) + ((1 + R.unit) ^ k1 / (2 - (1 + R.unit) ^ k2) - 1) * (m / W) :=
      add_le_add (le_trans (R.close _) (mul_le_mul_of_nonneg_left hq R.nonneg)) hd
    _ = _ := by unfold meanFactor; ring

end near

/-! ### Sums -/

namespace Fl
variable {R : Rounding}

theorem ext' {a b : Fl R} (h : a.val = b.val) : a = b := by cases a; cases b; cases h; rfl
theorem zero_val : (0 : Fl R).val = 0 := rfl
theorem add_val (a b : Fl R) : (a + b).val = R.rnd (a.val + b.val) := rfl
theorem mul_val (a b : Fl R) : (a * b).val = R.rnd (a.val * b.val) := rfl
theorem div_val (a b : Fl R) : (a / b).val = R.rnd (a.val / b.val) := rfl
/-- Adding zero is exact. -/
theorem zero_add' (a : Fl R) : 0 + a = a := ext' (by rw [add_val, zero_val, zero_add, a.fixed])
theorem add_zero' (a : Fl R) : a + 0 = a := ext' (by rw [add_val, zero_val, add_zero, a.fixed])

end Fl

section sums
variable {R : Rounding}

/-- Two partial sums, one of which may be empty. -/
theorem RoundedSum.append {xs ys : List (Fl R)} {a b : Fl R} (ha : RoundedSum xs a) (hb : RoundedSum ys b) : RoundedSum (xs ++ ys) (a + b) := by
  have hz : ∀ {a : Fl R} {xs : List (Fl R)}, RoundedSum xs a → xs = [] → a = 0 := by
    intro a xs h
    cases h with
    | zero => intro _; rfl
    | single x => intro h; cases h
    | add h1 h2 h3 h4 => intro h; exact absurd (List.append_eq_nil_iff.mp h).1 h1
  by_cases h1 : xs = []
  · rw [hz ha h1, Fl.zero_add', h1]; exact hb
  · by_cases h2 : ys = []
    · rw [hz hb h2, Fl.add_zero', h2, List.append_nil]; exact ha
    · exact .add h1 h2 ha hb

theorem RoundedSum.near {ι : Type} {idx : List ι} {f : ι → Fl R} {v : Fl R} (h : RoundedSum (idx.map f) v) {k : ℕ} {S M : ι → ℝ}
    (hn : ∀ i ∈ idx, Near R k (f i).val (S i) (M i)) : Near R (k + (idx.length - 1)) v.val (idx.map S).sum (idx.map M).sum := by
  generalize hxs : idx.map f = xs at h
  induction h generalizing idx with
  | zero =>
    rw [List.map_eq_nil_iff] at hxs
    subst hxs
    exact (near_zero R).mono (Nat.zero_le _)
  | single x =>
    rw [List.map_eq_singleton_iff] at hxs
    obtain ⟨i, rfl, rfl⟩ := hxs
    simpa using hn i (by simp)
  | @add xs ys a b hx hy _ _ iha ihb =>
    obtain ⟨i1, i2, rfl, h1, h2⟩ := List.map_eq_append_iff.mp hxs
    have n1 := iha (fun i hi => hn i (List.mem_append_left _ hi)) h1
    have n2 := ihb (fun i hi => hn i (List.mem_append_right _ hi)) h2
    have l1 : 0 < i1.length := by rcases i1 with _ | ⟨i, i1⟩; · exact absurd h1.symm hx
                                  · simp
    have l2 : 0 < i2.length := by rcases i2 with _ | ⟨i, i2⟩; · exact absurd h2.symm hy
                                  · simp
    rw [List.map_append, List.sum_append, List.map_append, List.sum_append]
    refine (n1.add n2).mono ?_
    rw [List.length_append]
    omega

/-- The value of an expression: every `einsum` order. -/
theorem Arith.near {ι : Type} (e : Arith ι) (x : ι → Fl R) :
    Near R e.cost (e.eval x).val (e.eval (fun i => (x i).val)) (e.eval (fun i => |(x i).val|)) := by
  induction e with
  | var i => exact near_exact R _
  | add a b iha ihb => exact iha.add ihb
  | mul a b iha ihb => exact iha.mul ihb

end sums

/-! ### `combining_sum` and the accumulators in floating point -/

section combining
variable {L : Type} [DecidableEq L] {V : Type} [Add V] [Zero V]
open DA

theorem fl_mem_dims (as : List (DA L V)) (d : Dim) : d ∈ (combiningSum as).dims ↔ ∃ a ∈ as, d ∈ a.dims := by
  unfold combiningSum pySum alignOuter
  rw [mem_foldl_zipWith_dims]
  simp [scalar, reindexZero]

theorem fl_coords (as : List (DA L V)) (d : Dim) (hd : d ∈ (combiningSum as).dims) : (combiningSum as).coords d = outerCoords as d := by
  unfold combiningSum pySum alignOuter at *
  refine foldl_zipWith_coords _ (outerCoords as) _ _ (by simp [scalar]) ?_ d hd
  intro a ha d _
  rw [List.mem_map] at ha
  obtain ⟨b, _, rfl⟩ := ha
  rfl

theorem fl_dims {as : List (DA L V)} {D : Finset Dim} (hne : as ≠ []) (h : ∀ a ∈ as, a.dims = D) : (combiningSum as).dims = D := by
  ext d
  rw [fl_mem_dims]
  constructor
  · rintro ⟨a, ha, hd⟩; exact h a ha ▸ hd
  · intro hd
    obtain ⟨a, as, rfl⟩ := List.exists_cons_of_ne_nil hne
    exact ⟨a, by simp, by rw [h a (by simp)]; exact hd⟩

theorem fl_inDom {as : List (DA L V)} {D : Finset Dim} (h : ∀ a ∈ as, a.dims = D) {a : DA L V} (ha : a ∈ as) {e : Dim → L} (he : a.InDom e) :
    (combiningSum as).InDom e := by
  intro d hd
  rw [fl_coords _ _ hd, mem_outerCoords]
  rw [fl_dims (List.ne_nil_of_mem ha) h] at hd
  exact ⟨a, ha, by rw [h a ha]; exact hd, he d (by rw [h a ha]; exact hd)⟩

theorem fl_val (as : List (DA L V)) (e : Dim → L) :
    (combiningSum as).val e = (as.map (fun a => if a.InDom e then a.val e else 0)).foldl (· + ·) 0 := by
  unfold combiningSum pySum alignOuter
  generalize outerCoords as = C
  have key : ∀ (z : DA L V), ((as.map (reindexZero C)).foldl (zipWith (· + ·)) z).val e =
      (as.map (fun a => if a.InDom e then a.val e else 0)).foldl (· + ·) (z.val e) := by
    induction as with
    | nil => intro z; rfl
    | cons a as ih => intro z; exact ih _
  exact key _

end combining

section runs
variable {L : Type} [DecidableEq L] {R : Rounding}
open DA

/-- The numbers that the inputs have for a cell. -/
def cellValues (inputs : List (DA L (Fl R))) (e : Dim → L) : List (Fl R) := (inputs.filter (fun x => decide (x.InDom e))).map (fun x => x.val e)

/-- What an array contributes to a cell. -/
def contribution (e : Dim → L) (a : DA L (Fl R)) : Fl R := if a.InDom e then a.val e else 0

theorem foldl_rounded {α : Type} (g : α → Fl R) (h : α → List (Fl R)) (l : List α) (hl : ∀ a ∈ l, RoundedSum (h a) (g a)) {z : Fl R} {zs : List (Fl R)} (hz : RoundedSum zs z) :
    RoundedSum (zs ++ l.flatMap h) ((l.map g).foldl (· + ·) z) := by
  induction l generalizing z zs with
  | nil => simpa using hz
  | cons a l ih =>
    rw [List.flatMap_cons, ← List.append_assoc]
    exact ih (fun b hb => hl b (List.mem_cons_of_mem _ hb)) (hz.append (hl a (List.mem_cons_self)))

/-- `combining_sum` of the arrays: their contributions are added one after the other. -/
theorem combiningSum_rounded {α : Type} (x : α → DA L (Fl R)) (h : α → List (Fl R)) (l : List α) (e : Dim → L) (hl : ∀ a ∈ l, RoundedSum (h a) (contribution e (x a))) :
    RoundedSum (l.flatMap h) ((combiningSum (l.map x)).val e) := by
  rw [fl_val, List.map_map]
  have := foldl_rounded (fun a => contribution e (x a)) h l hl RoundedSum.zero
  rwa [List.nil_append] at this

/-- Every run of a `CombiningSum` adds, for every cell, the numbers of the inputs in some order, each exactly once. -/
theorem combineRun_rounded {D : Finset Dim} {inputs : List (DA L (Fl R))} {acc : Option (DA L (Fl R))} (h : CombineRun inputs acc) (hD : ∀ x ∈ inputs, x.dims = D) :
    (acc = none ↔ inputs = []) ∧ ∀ v, acc = some v → v.dims = D ∧ ∀ e, ((∃ x ∈ inputs, x.InDom e) → v.InDom e) ∧ RoundedSum (cellValues inputs e) (contribution e v) := by
  have one : ∀ (x : DA L (Fl R)) (e : Dim → L), RoundedSum (cellValues [x] e) (contribution e x) := by
    intro x e
    unfold cellValues contribution
    by_cases hx : x.InDom e
    · simp only [List.filter_cons, decide_eq_true hx, if_true, List.filter_nil, List.map_cons, List.map_nil, if_pos hx]; exact .single _
    · simp only [List.filter_cons, decide_eq_false hx, if_neg hx, List.filter_nil]; exact .zero
  have out : ∀ {v : DA L (Fl R)} {inputs : List (DA L (Fl R))} {e : Dim → L}, ((∃ x ∈ inputs, x.InDom e) → v.InDom e) → RoundedSum (cellValues inputs e) (v.val e) →
      RoundedSum (cellValues inputs e) (contribution e v) := by
    intro v inputs e h1 h2
    unfold contribution
    by_cases hv : v.InDom e
    · rw [if_pos hv]; exact h2
    · rw [if_neg hv]
      have : cellValues inputs e = [] := by
        unfold cellValues
        rw [List.map_eq_nil_iff, List.filter_eq_nil_iff]
        intro x hx hxe
        exact hv (h1 ⟨x, hx, of_decide_eq_true hxe⟩)
      rw [this]; exact .zero
  induction h with
  | create => exact ⟨by simp [CombiningSum.createAccumulator], by simp [CombiningSum.createAccumulator]⟩
  | @add inputs acc x _ ih =>
    obtain ⟨ih1, ih2⟩ := ih (fun y hy => hD y (List.mem_append_left _ hy))
    have hx := hD x (by simp)
    cases acc with
    | none =>
      have hi := ih1.mp rfl
      subst hi
      refine ⟨by simp [CombiningSum.addInput], ?_⟩
      rintro v hv
      cases hv
      refine ⟨hx, fun e => ⟨?_, one x e⟩⟩
      rintro ⟨y, hy, hye⟩
      rw [List.nil_append, List.mem_singleton] at hy
      exact hy ▸ hye
    | some a =>
      obtain ⟨ha, hae⟩ := ih2 a rfl
      refine ⟨by simp [CombiningSum.addInput], ?_⟩
      rintro v hv
      cases hv
      have hall : ∀ y ∈ [a, x], y.dims = D := by simp [ha, hx]
      have hdom : ∀ e, (∃ y ∈ inputs ++ [x], y.InDom e) → (combiningSum [a, x]).InDom e := by
        rintro e ⟨y, hy, hye⟩
        rcases List.mem_append.mp hy with hy | hy
        · exact fl_inDom hall (by simp) ((hae e).1 ⟨y, hy, hye⟩)
        · rw [List.mem_singleton] at hy
          exact fl_inDom hall (by simp) (hy ▸ hye)
      refine ⟨fl_dims (by simp) hall, fun e => ⟨hdom e, out (hdom e) ?_⟩⟩
      have hsplit : cellValues (inputs ++ [x]) e = cellValues inputs e ++ cellValues [x] e := by unfold cellValues; rw [List.filter_append, List.map_append]
      rw [hsplit, fl_val]
      have hz := (RoundedSum.zero (R := R)).append (hae e).2
      have := hz.append (one x e)
      rw [List.nil_append] at this
      exact this
  | merge accs hruns ih =>
    have hmem : ∀ p ∈ accs, ∀ x ∈ p.1, x.dims = D := fun p hp x hx => hD x (List.mem_flatten.mpr ⟨p.1, List.mem_map.mpr ⟨p, hp, rfl⟩, hx⟩)
    have ih' := fun p hp => ih p hp (hmem p hp)
    -- the accumulators that are not empty
    have hfm : ∀ l : List (List (DA L (Fl R)) × Option (DA L (Fl R))), (∀ p ∈ l, p ∈ accs) →
        ∃ l' : List (List (DA L (Fl R)) × DA L (Fl R)), (l.map Prod.snd).filterMap id = l'.map Prod.snd ∧ (l.map Prod.fst).flatten = (l'.map Prod.fst).flatten ∧
          ∀ q ∈ l', q.1 ≠ [] ∧ (q.1, some q.2) ∈ accs := by
      intro l
      induction l with
      | nil => intro _; exact ⟨[], rfl, rfl, by simp⟩
      | cons p l ihl =>
        intro hl
        obtain ⟨l', h1, h2, h3⟩ := ihl (fun q hq => hl q (List.mem_cons_of_mem _ hq))
        obtain ⟨xs, o⟩ := p
        have hp := hl (xs, o) List.mem_cons_self
        cases o with
        | none =>
          have : xs = [] := (ih' _ hp).1.mp rfl
          subst this
          exact ⟨l', by simpa using h1, by simpa using h2, h3⟩
        | some a =>
          refine ⟨(xs, a) :: l', congrArg (List.cons a) h1, by simp [h2], ?_⟩
          rintro q hq
          rcases List.mem_cons.mp hq with rfl | hq
          · refine ⟨fun hxs => ?_, hp⟩
            have := (ih' _ hp).1.mpr hxs
            cases this
          · exact h3 q hq
    obtain ⟨l', h1, h2, h3⟩ := hfm accs (fun _ h => h)
    have hD' : ∀ a ∈ l'.map Prod.snd, a.dims = D := by
      intro a ha
      obtain ⟨q, hq, rfl⟩ := List.mem_map.mp ha
      exact ((ih' _ (h3 q hq).2).2 _ rfl).1
    unfold CombiningSum.mergeAccumulators
    rw [h1, h2]
    by_cases hl : l' = []
    · subst hl
      exact ⟨by simp, by simp⟩
    · have hne : (l'.map Prod.snd).isEmpty = false := by
        rcases l' with _ | ⟨q, l'⟩
        · exact absurd rfl hl
        · rfl
      simp only [hne]
      refine ⟨⟨fun h => by simp at h, fun h => ?_⟩, ?_⟩
      · obtain ⟨q, hq⟩ := List.exists_mem_of_ne_nil _ hl
        have := List.flatten_eq_nil_iff.mp h q.1 (List.mem_map.mpr ⟨q, hq, rfl⟩)
        exact absurd this (h3 q hq).1
      · rintro v hv
        simp only [Bool.false_eq_true, if_false, Option.some.injEq] at hv
        subst hv
        have hdom : ∀ e, (∃ x ∈ (l'.map Prod.fst).flatten, x.InDom e) → (combiningSum (l'.map Prod.snd)).InDom e := by
          rintro e ⟨x, hx, hxe⟩
          obtain ⟨xs, hxs, hx'⟩ := List.mem_flatten.mp hx
          obtain ⟨q, hq, rfl⟩ := List.mem_map.mp hxs
          exact fl_inDom hD' (List.mem_map.mpr ⟨q, hq, rfl⟩) ((((ih' _ (h3 q hq).2).2 _ rfl).2 e).1 ⟨x, hx', hxe⟩)
        refine ⟨fl_dims (by simpa using hl) hD', fun e => ⟨hdom e, out (hdom e) ?_⟩⟩
        have hsum := combiningSum_rounded (fun q : List (DA L (Fl R)) × DA L (Fl R) => q.2) (fun q => cellValues q.1 e) l' e
          (fun q hq => (((ih' _ (h3 q hq).2).2 _ rfl).2 e).2)
        have hflat : ∀ l'' : List (List (DA L (Fl R)) × DA L (Fl R)), cellValues (l''.map Prod.fst).flatten e = l''.flatMap (fun q => cellValues q.1 e) := by
          intro l''
          induction l'' with
          | nil => rfl
          | cons q l'' ihq =>
            rw [List.flatMap_cons, ← ihq]
            unfold cellValues
            rw [List.map_cons, List.flatten_cons, List.filter_append, List.map_append]
        rw [hflat]
        exact hsum

/-- C90: whatever the bundling and the merge tree, the value of a cell in the output of a `CombiningSum` in floating point is within `((1 + u)^(k + n - 1) - 1) Σ |terms|` of the exact sum,
where `n` is the number of inputs that have the cell and `k` the number of roundings inside one input: creating accumulators, merging empty ones and filling absent labels with zeros costs
nothing. -/
theorem C90_any_schedule {χ : Type} (chunks : List χ) (x : χ → DA L (Fl R)) {D : Finset Dim} (hD : ∀ c ∈ chunks, (x c).dims = D) {v : DA L (Fl R)}
    (h : CombineRun (chunks.map x) (some v)) {e : Dim → L} (he : v.InDom e) {k : ℕ} {S M : χ → ℝ}
    (hx : ∀ c ∈ chunks, (x c).InDom e → Near R k ((x c).val e).val (S c) (M c)) :
    Near R (k + ((chunks.filter (fun c => decide ((x c).InDom e))).length - 1)) (v.val e).val
      ((chunks.filter (fun c => decide ((x c).InDom e))).map S).sum ((chunks.filter (fun c => decide ((x c).InDom e))).map M).sum := by
  have hrun := ((combineRun_rounded h (D := D) (by
    intro y hy
    obtain ⟨c, hc, rfl⟩ := List.mem_map.mp hy
    exact hD c hc)).2 v rfl).2 e
  have hv : contribution e v = v.val e := by unfold contribution; rw [if_pos he]
  have hcells : cellValues (chunks.map x) e = (chunks.filter (fun c => decide ((x c).InDom e))).map (fun c => (x c).val e) := by
    unfold cellValues
    rw [List.filter_map, List.map_map]; rfl
  rw [hv, hcells] at hrun
  refine hrun.2.near (fun c hc => ?_)
  rw [List.mem_filter] at hc
  exact hx c hc.1 (of_decide_eq_true hc.2)

/-! ### Weighted sums and means -/

/-- The sum over the terms of the product of the factors of each. -/
def sumOfProducts {ι : Type} (terms : List (List ι)) (x : ι → ℝ) : ℝ := (terms.map (fun t => (t.map x).prod)).sum

/-- The expression is a way to compute the sum of products: as a formula, whatever the numbers. -/
def Arith.Computes {ι : Type} (a : Arith ι) (terms : List (List ι)) : Prop := ∀ x : ι → ℝ, a.eval x = sumOfProducts terms x

/-- C90: `xr.dot` in floating point: whichever order and association is used, the computed sum of products is near the exact one. -/
theorem C90_dot {ι : Type} {a : Arith ι} {terms : List (List ι)} (h : a.Computes terms) (x : ι → Fl R) :
    Near R a.cost (a.eval x).val (sumOfProducts terms (fun i => (x i).val)) (sumOfProducts terms (fun i => |(x i).val|)) := by
  have := a.near x
  rwa [h, h] at this

/-- One evaluation of a mean for one cell: the data are cut into chunks; in each the weighted statistics (`T`) and the weights (`U`) are summed by some formulas; a runner combines the chunks in some way;
the mean is the quotient (aggregation.py:141-155, beam_utils.py:19-50). -/
structure MeanRun (R : Rounding) (L : Type) [DecidableEq L] (ι : Type) (x : ι → Fl R) (e : Dim → L) where
  χ : Type
  chunks : List χ
  T : χ → List (List ι)
  U : χ → List (List ι)
  num : χ → DA L (Fl R)
  den : χ → DA L (Fl R)
  formulaT : χ → Arith ι
  formulaU : χ → Arith ι
  computesT : ∀ c ∈ chunks, (formulaT c).Computes (T c)
  computesU : ∀ c ∈ chunks, (formulaU c).Computes (U c)
  D : Finset Dim
  numDims : ∀ c ∈ chunks, (num c).dims = D
  denDims : ∀ c ∈ chunks, (den c).dims = D
  cellT : ∀ c ∈ chunks, (num c).InDom e ∧ (num c).val e = (formulaT c).eval x
  cellU : ∀ c ∈ chunks, (den c).InDom e ∧ (den c).val e = (formulaU c).eval x
  sum : DA L (Fl R)
  weight : DA L (Fl R)
  sumRun : CombineRun (chunks.map num) (some sum)
  weightRun : CombineRun (chunks.map den) (some weight)

namespace MeanRun
variable {ι : Type} {x : ι → Fl R} {e : Dim → L}

/-- The computed mean. -/
noncomputable def mean (r : MeanRun R L ι x e) : ℝ := (r.sum.val e / r.weight.val e).val

/-- All terms of the numerator and of the denominator. -/
def numerator (r : MeanRun R L ι x e) : List (List ι) := r.chunks.flatMap r.T
def denominator (r : MeanRun R L ι x e) : List (List ι) := r.chunks.flatMap r.U

/-- Roundings that can pile up on one term: in its chunk and by the merges. -/
def CostAtMost (r : MeanRun R L ι x e) (k : ℕ) : Prop :=
  (∀ c ∈ r.chunks, (r.formulaT c).cost + (r.chunks.length - 1) ≤ k) ∧ ∀ c ∈ r.chunks, (r.formulaU c).cost + (r.chunks.length - 1) ≤ k

theorem sum_flatMap {χ : Type} (chunks : List χ) (T : χ → List (List ι)) (y : ι → ℝ) :
    sumOfProducts (chunks.flatMap T) y = (chunks.map (fun c => sumOfProducts (T c) y)).sum := by
  induction chunks with
  | nil => rfl
  | cons c l ih =>
    unfold sumOfProducts at ih ⊢
    rw [List.flatMap_cons, List.map_append, List.sum_append, ih, List.map_cons, List.sum_cons]

theorem near_total {χ : Type} {chunks : List χ} {T : χ → List (List ι)} {num : χ → DA L (Fl R)} {formula : χ → Arith ι} (hc : ∀ c ∈ chunks, (formula c).Computes (T c)) {D : Finset Dim}
    (hD : ∀ c ∈ chunks, (num c).dims = D) (hcell : ∀ c ∈ chunks, (num c).InDom e ∧ (num c).val e = (formula c).eval x) {v : DA L (Fl R)} (hrun : CombineRun (chunks.map num) (some v))
    {k : ℕ} (hk : ∀ c ∈ chunks, (formula c).cost + (chunks.length - 1) ≤ k) :
    Near R k (v.val e).val (sumOfProducts (chunks.flatMap T) (fun i => (x i).val)) (sumOfProducts (chunks.flatMap T) (fun i => |(x i).val|)) := by
  have hne : chunks ≠ [] := by
    rintro rfl
    have := (combineRun_rounded hrun (D := D) (by simp)).1.mpr rfl
    cases this
  have hall : chunks.filter (fun c => decide ((num c).InDom e)) = chunks := by
    rw [List.filter_eq_self]
    exact fun c hc => decide_eq_true (hcell c hc).1
  obtain ⟨c0, hc0⟩ := List.exists_mem_of_ne_nil _ hne
  have hin : v.InDom e := (((combineRun_rounded hrun (D := D) (by
    intro y hy
    obtain ⟨c, hc, rfl⟩ := List.mem_map.mp hy
    exact hD c hc)).2 v rfl).2 e).1 ⟨num c0, List.mem_map.mpr ⟨c0, hc0, rfl⟩, (hcell c0 hc0).1⟩
  have h := C90_any_schedule chunks num hD hrun hin (k := k - (chunks.length - 1)) (S := fun c => sumOfProducts (T c) (fun i => (x i).val))
    (M := fun c => sumOfProducts (T c) (fun i => |(x i).val|)) (by
      intro c hcc _
      rw [(hcell c hcc).2]
      refine (C90_dot (hc c hcc) x).mono ?_
      have := hk c hcc
      omega)
  rw [hall] at h
  rw [sum_flatMap, sum_flatMap]
  refine h.mono ?_
  have := hk c0 hc0
  omega

end MeanRun

/-- C90: the mean that is computed in floating point. For weights that are not negative and do not all vanish, its distance from the exact weighted mean is at most `meanFactor R k k` times the weighted mean of the absolute
values. -/
theorem C90_mean {ι : Type} {x : ι → Fl R} {e : Dim → L} (r : MeanRun R L ι x e) {k : ℕ} (hk : r.CostAtMost k) (hpos : ∀ t ∈ r.denominator, ∀ i ∈ t, 0 ≤ (x i).val)
    (hW : 0 < sumOfProducts r.denominator (fun i => (x i).val)) (hb : (1 + R.unit) ^ k < 2) :
    |r.mean - sumOfProducts r.numerator (fun i => (x i).val) / sumOfProducts r.denominator (fun i => (x i).val)| ≤
      meanFactor R k k * (sumOfProducts r.numerator (fun i => |(x i).val|) / sumOfProducts r.denominator (fun i => (x i).val)) := by
  have h1 := MeanRun.near_total r.computesT r.numDims r.cellT r.sumRun hk.1
  have h2 := MeanRun.near_total r.computesU r.denDims r.cellU r.weightRun hk.2
  have habs : sumOfProducts r.denominator (fun i => |(x i).val|) = sumOfProducts r.denominator (fun i => (x i).val) := by
    unfold sumOfProducts
    congr 1
    refine List.map_congr_left (fun t ht => ?_)
    congr 1
    exact List.map_congr_left (fun i hi => abs_of_nonneg (hpos t ht i hi))
  have h2' : Near R k (r.weight.val e).val (sumOfProducts r.denominator (fun i => (x i).val)) (sumOfProducts r.denominator (fun i => (x i).val)) := by
    have := h2
    rw [show sumOfProducts (r.chunks.flatMap r.U) (fun i => |(x i).val|) = sumOfProducts r.denominator (fun i => (x i).val) from habs] at this
    exact this
  exact (h1.div h2' hW hb).2

/-- C90: so two evaluations of the same mean, with different chunk sizes, different runners, different orders of addition, differ at most by twice that. -/
theorem C90_chunkings_agree {ι : Type} {x : ι → Fl R} {e e' : Dim → L} (r : MeanRun R L ι x e) (r' : MeanRun R L ι x e') {k : ℕ} (hk : r.CostAtMost k) (hk' : r'.CostAtMost k)
    (hT : r.numerator.Perm r'.numerator) (hU : r.denominator.Perm r'.denominator) (hpos : ∀ t ∈ r.denominator, ∀ i ∈ t, 0 ≤ (x i).val)
    (hW : 0 < sumOfProducts r.denominator (fun i => (x i).val)) (hb : (1 + R.unit) ^ k < 2) :
    |r.mean - r'.mean| ≤ 2 * meanFactor R k k * (sumOfProducts r.numerator (fun i => |(x i).val|) / sumOfProducts r.denominator (fun i => (x i).val)) := by
  have perm : ∀ {a b : List (List ι)} (y : ι → ℝ), a.Perm b → sumOfProducts a y = sumOfProducts b y := fun y h => (h.map _).sum_eq
  have h1 := C90_mean r hk hpos hW hb
  have h2 := C90_mean r' hk' (fun t ht => hpos t (hU.mem_iff.mpr ht)) (by rw [← perm _ hU]; exact hW) hb
  rw [← perm _ hT, ← perm _ hU, ← perm _ hT] at h2
  have h3 : |r.mean - r'.mean| ≤ |r.mean - sumOfProducts r.numerator (fun i => (x i).val) / sumOfProducts r.denominator (fun i => (x i).val)| +
      |r'.mean - sumOfProducts r.numerator (fun i => (x i).val) / sumOfProducts r.denominator (fun i => (x i).val)| := by
    rw [abs_sub_comm r'.mean]
    exact abs_sub_le _ _ _
  linarith

end runs

/-! ### Sizes -/

/-- `(1 + u)^m ≤ 1 / (1 - m u)`. -/
theorem pow_unit_le (R : Rounding) (m : ℕ) (h : m * R.unit < 1) : (1 + R.unit) ^ m ≤ 1 / (1 - m * R.unit) := by
  have hu := R.nonneg
  rw [le_div_iff₀ (by linarith)]
  induction m with
  | zero => simp
  | succ m ih =>
    push_cast at h ⊢
    have h' := ih (by linarith)
    have hp := one_le_pow_unit R m
    rw [pow_succ]
    have : (1 + R.unit) * (1 - (m + 1) * R.unit) ≤ 1 - m * R.unit := by nlinarith [mul_nonneg (by positivity : (0 : ℝ) ≤ m) (mul_nonneg hu hu)]
    calc (1 + R.unit) ^ m * (1 + R.unit) * (1 - (m + 1) * R.unit) = (1 + R.unit) ^ m * ((1 + R.unit) * (1 - (m + 1) * R.unit)) := by ring
      _ ≤ (1 + R.unit) ^ m * (1 - m * R.unit) := mul_le_mul_of_nonneg_left this (by linarith)
      _ ≤ 1 := h'

/-- C90: the factor is at most `(4 k + 2) u` as long as that is at most a half: for double precision and a million additions about `5 · 10^-10`. -/
theorem C90_factor (R : Rounding) (k : ℕ) (h : (4 * k + 2) * R.unit ≤ 1 / 2) : (1 + R.unit) ^ k < 2 ∧ meanFactor R k k ≤ (4 * k + 2) * R.unit := by
  have hu := R.nonneg
  have hk : (0 : ℝ) ≤ k := by positivity
  have hku := mul_nonneg hk hu
  have hq : (k : ℝ) * R.unit ≤ 1 / 8 := by nlinarith
  have hp : ((k + 1 : ℕ) : ℝ) * R.unit ≤ 1 / 4 := by push_cast; nlinarith
  have hB := pow_unit_le R k (by linarith)
  have hA := pow_unit_le R (k + 1) (by linarith)
  have hB' : (1 + R.unit) ^ k < 2 := by
    refine lt_of_le_of_lt hB ?_
    rw [div_lt_iff₀ (by linarith)]
    linarith
  refine ⟨hB', ?_⟩
  unfold meanFactor
  set p := ((k + 1 : ℕ) : ℝ) * R.unit with hpd
  set q := (k : ℝ) * R.unit with hqd
  have hpq : p = q + R.unit := by rw [hpd, hqd]; push_cast; ring
  have h2 : 2 - 1 / (1 - q) = (1 - 2 * q) / (1 - q) := by
    have : (1 - q) ≠ 0 := by linarith
    field_simp; ring
  have hden : (1 - 2 * q) / (1 - q) ≤ 2 - (1 + R.unit) ^ k := by rw [← h2]; linarith
  have hdpos : 0 < (1 - 2 * q) / (1 - q) := div_pos (by linarith) (by linarith)
  have h3 : (1 + R.unit) ^ (k + 1) / (2 - (1 + R.unit) ^ k) ≤ (1 / (1 - p)) / ((1 - 2 * q) / (1 - q)) :=
    div_le_div₀ (by rw [one_div]; exact inv_nonneg.mpr (by linarith)) hA hdpos hden
  have h4 : (1 / (1 - p)) / ((1 - 2 * q) / (1 - q)) = (1 - q) / ((1 - p) * (1 - 2 * q)) := by
    have h1 : (1 - q) ≠ 0 := by linarith
    have h2 : (1 - p) ≠ 0 := by linarith
    have h3 : (1 - 2 * q) ≠ 0 := by linarith
    field_simp
  have h5 : (1 - q) / ((1 - p) * (1 - 2 * q)) ≤ 1 + 2 * (p + q) := by
    rw [div_le_iff₀ (mul_pos (by linarith) (by linarith))]
    have hq0 : 0 ≤ q := hku
    have hp0 : 0 ≤ p := by linarith
    nlinarith [mul_nonneg hp0 hq0, mul_nonneg hp0 hp0, mul_nonneg hq0 hq0, mul_nonneg (mul_nonneg hp0 hq0) hp0, mul_nonneg (mul_nonneg hp0 hq0) hq0]
  have h6 : (4 * (k : ℝ) + 2) * R.unit = 2 * (p + q) := by rw [hpq, hqd]; ring
  rw [h6]
  linarith

end WBX
