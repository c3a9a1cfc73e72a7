import Verif.Spec.Transport
import Mathlib.Algebra.BigOperators.Intervals
import Mathlib.Algebra.BigOperators.Ring.Finset
import Mathlib.Algebra.BigOperators.Field
import Mathlib.Algebra.Order.BigOperators.Group.Finset
import Mathlib.Algebra.Order.BigOperators.Ring.Finset
import Mathlib.Data.Finset.Max
import Mathlib.Data.List.Sort
import Mathlib.Tactic.Linarith
import Mathlib.Tactic.FieldSimp
import Mathlib.Tactic.Ring

set_option linter.unusedSectionVars false

namespace WBX
variable {L K : Type} [DecidableEq L] [Field K] [LinearOrder K] [IsStrictOrderedRing K]

/-- The sum over consecutive values. -/
def steps (g : K → K) : List K → K
  | a :: b :: zs => g a * (b - a) + steps g (b :: zs)
  | _ => 0

theorem steps_nil (g : K → K) : steps g [] = 0 := rfl
theorem steps_one (g : K → K) (a : K) : steps g [a] = 0 := rfl
theorem steps_cons (g : K → K) (a b : K) (zs : List K) : steps g (a :: b :: zs) = g a * (b - a) + steps g (b :: zs) := rfl

theorem steps_mono {f g : K → K} : (zs : List K) → zs.Pairwise (· ≤ ·) → (∀ z ∈ zs, f z ≤ g z) → steps f zs ≤ steps g zs
  | [], _, _ => le_refl _
  | [_], _, _ => le_refl _
  | a :: b :: zs, h, hg => by
    rw [steps_cons, steps_cons]
    have h1 := steps_mono (f := f) (g := g) (b :: zs) h.of_cons (fun z hz => hg z (List.mem_cons_of_mem _ hz))
    have h2 : a ≤ b := List.rel_of_pairwise_cons h (by simp)
    have h3 := mul_le_mul_of_nonneg_right (hg a (by simp)) (sub_nonneg.mpr h2)
    linarith

theorem steps_congr {f g : K → K} : (zs : List K) → (∀ z ∈ zs, f z = g z) → steps f zs = steps g zs
  | [], _ => rfl
  | [_], _ => rfl
  | a :: b :: zs, hg => by
    rw [steps_cons, steps_cons, hg a (by simp), steps_congr (b :: zs) (fun z hz => hg z (List.mem_cons_of_mem _ hz))]

theorem steps_sum {ι : Type} (s : Finset ι) (w : ι → K) (f : ι → K → K) : (zs : List K) →
    steps (fun z => ∑ i ∈ s, w i * f i z) zs = ∑ i ∈ s, w i * steps (f i) zs
  | [] => by simp [steps_nil]
  | [a] => by simp [steps_one]
  | a :: b :: zs => by
    simp only [steps_cons]
    rw [steps_sum s w f (b :: zs), Finset.sum_mul, ← Finset.sum_add_distrib]
    exact Finset.sum_congr rfl (fun i _ => by ring)

theorem steps_sub (f g : K → K) : (zs : List K) → steps (fun z => f z - g z) zs = steps f zs - steps g zs
  | [] => by simp [steps_nil]
  | [a] => by simp [steps_one]
  | a :: b :: zs => by
    simp only [steps_cons]
    rw [steps_sub f g (b :: zs)]
    ring

/-- The last of a list. -/
theorem steps_indicator {x : K} : (zs : List K) → zs.Pairwise (· ≤ ·) → (hx : x ∈ zs) →
    steps (fun z => if x ≤ z then 1 else 0) zs = zs.getLastD 0 - x
  | [], _, hx => absurd hx (by simp)
  | [a], _, hx => by
    rw [List.mem_singleton] at hx
    subst hx
    simp [steps_one]
  | a :: b :: zs, h, hx => by
    have hab : a ≤ b := List.rel_of_pairwise_cons h (by simp)
    rw [steps_cons]
    have hlast : (a :: b :: zs).getLastD 0 = (b :: zs).getLastD 0 := by simp [List.getLastD]
    by_cases hm : x ∈ b :: zs
    · rw [steps_indicator (b :: zs) h.of_cons hm, hlast]
      by_cases hxa : x ≤ a
      · have h1 : a ≤ x := List.rel_of_pairwise_cons h hm
        have h2 : b ≤ x := by
          rcases List.mem_cons.mp hm with rfl | h3
          · exact le_refl _
          · exact List.rel_of_pairwise_cons h.of_cons h3
        have : b = a := le_antisymm (h2.trans hxa) hab
        rw [this]
        ring
      · rw [if_neg hxa]
        ring
    · have hxa : x = a := by
        rcases List.mem_cons.mp hx with rfl | h3
        · rfl
        · exact absurd h3 hm
      subst hxa
      have h1 : steps (fun z => if x ≤ z then (1 : K) else 0) (b :: zs) = steps (fun z => if b ≤ z then (1 : K) else 0) (b :: zs) := by
        refine steps_congr _ ?_
        intro z hz
        have e1 : x ≤ z := List.rel_of_pairwise_cons h hz
        have e2 : b ≤ z := by
          rcases List.mem_cons.mp hz with rfl | h3
          · exact le_refl _
          · exact List.rel_of_pairwise_cons h.of_cons h3
        rw [if_pos e1, if_pos e2]
      rw [h1, steps_indicator (b :: zs) h.of_cons (by simp), hlast]
      simp

/-- The distance of two of the values. -/
theorem steps_abs {x y : K} {zs : List K} (h : zs.Pairwise (· ≤ ·)) (hx : x ∈ zs) (hy : y ∈ zs) :
    steps (fun z => |(if x ≤ z then 1 else 0) - (if y ≤ z then 1 else 0)|) zs = |x - y| := by
  have key : ∀ x y : K, x ∈ zs → y ∈ zs → x ≤ y → steps (fun z => |(if x ≤ z then 1 else 0) - (if y ≤ z then (1 : K) else 0)|) zs = y - x := by
    intro x y hx hy hxy
    have : steps (fun z => |(if x ≤ z then 1 else 0) - (if y ≤ z then (1 : K) else 0)|) zs =
        steps (fun z => (if x ≤ z then (1 : K) else 0) - (if y ≤ z then 1 else 0)) zs := by
      refine steps_congr _ (fun z _ => abs_of_nonneg ?_)
      by_cases h2 : y ≤ z
      · rw [if_pos h2, if_pos (hxy.trans h2)]
        simp
      · rw [if_neg h2]
        split_ifs <;> simp
    rw [this, steps_sub, steps_indicator zs h hx, steps_indicator zs h hy]
    ring
  rcases le_total x y with hxy | hxy
  · rw [key x y hx hy hxy, abs_sub_comm, abs_of_nonneg (sub_nonneg.mpr hxy)]
  · have : steps (fun z => |(if x ≤ z then 1 else 0) - (if y ≤ z then (1 : K) else 0)|) zs =
        steps (fun z => |(if y ≤ z then 1 else 0) - (if x ≤ z then (1 : K) else 0)|) zs := steps_congr _ (fun z _ => abs_sub_comm _ _)
    rw [this, key y x hy hx hxy, abs_of_nonneg (sub_nonneg.mpr hxy)]

/-- The share of the members that are at most `z`. -/
def share' (A : Finset L) (x : L → K) (z : K) : K := ((A.filter (fun a => x a ≤ z)).card : K) / (A.card : K)

variable {A B : Finset L} {x y : L → K} {π : L → L → K}

theorem share'_eq (z : K) : share' A x z = ∑ a ∈ A, (1 / (A.card : K)) * (if x a ≤ z then 1 else 0) := by
  unfold share'
  rw [← Finset.mul_sum, Finset.sum_boole]
  ring

theorem plan_share (h : TransportPlan A B π) (z : K) :
    ∑ a ∈ A, ∑ b ∈ B, π a b * ((if x a ≤ z then 1 else 0) - (if y b ≤ z then 1 else 0)) = share' A x z - share' B y z := by
  have h1 : ∑ a ∈ A, ∑ b ∈ B, π a b * (if x a ≤ z then 1 else 0) = share' A x z := by
    rw [share'_eq]
    refine Finset.sum_congr rfl (fun a ha => ?_)
    rw [← Finset.sum_mul, h.from_ a ha]
  have h2 : ∑ a ∈ A, ∑ b ∈ B, π a b * (if y b ≤ z then 1 else 0) = share' B y z := by
    rw [share'_eq, Finset.sum_comm]
    refine Finset.sum_congr rfl (fun b hb => ?_)
    rw [← Finset.sum_mul, h.to_ b hb]
  rw [← h1, ← h2, ← Finset.sum_sub_distrib]
  refine Finset.sum_congr rfl (fun a _ => ?_)
  rw [← Finset.sum_sub_distrib]
  exact Finset.sum_congr rfl (fun b _ => by ring)

/-- The cost of a plan, value by value. -/
theorem cost_steps {zs : List K} (hz : zs.Pairwise (· ≤ ·)) (hx : ∀ a ∈ A, x a ∈ zs) (hy : ∀ b ∈ B, y b ∈ zs) :
    transportCost A B x y π =
      steps (fun z => ∑ q ∈ A ×ˢ B, π q.1 q.2 * |(if x q.1 ≤ z then 1 else 0) - (if y q.2 ≤ z then 1 else 0)|) zs := by
  rw [steps_sum (A ×ˢ B) (fun q => π q.1 q.2) (fun q z => |(if x q.1 ≤ z then 1 else 0) - (if y q.2 ≤ z then 1 else 0)|)]
  unfold transportCost
  rw [Finset.sum_product]
  refine Finset.sum_congr rfl (fun a ha => Finset.sum_congr rfl (fun b hb => ?_))
  rw [steps_abs hz (hx a ha) (hy b hb)]

/-- No plan is cheaper than the area between the distribution functions. -/
theorem plan_lower {zs : List K} (hz : zs.Pairwise (· ≤ ·)) (hx : ∀ a ∈ A, x a ∈ zs) (hy : ∀ b ∈ B, y b ∈ zs) (h : TransportPlan A B π) :
    steps (fun z => |share' A x z - share' B y z|) zs ≤ transportCost A B x y π := by
  rw [cost_steps hz hx hy]
  refine steps_mono _ hz (fun z _ => ?_)
  rw [← plan_share h z, ← Finset.sum_product']
  refine (Finset.abs_sum_le_sum_abs _ _).trans (le_of_eq ?_)
  refine Finset.sum_congr rfl (fun q hq => ?_)
  rw [Finset.mem_product] at hq
  rw [abs_mul, abs_of_nonneg (h.nonneg _ hq.1 _ hq.2)]

/-- A plan that moves mass in order. -/
def Comonotone (A B : Finset L) (x y : L → K) (π : L → L → K) : Prop :=
  ∀ a ∈ A, ∀ b ∈ B, ∀ a' ∈ A, ∀ b' ∈ B, π a b ≠ 0 → π a' b' ≠ 0 → x a < x a' → ¬ y b' < y b

theorem plan_attains {zs : List K} (hz : zs.Pairwise (· ≤ ·)) (hx : ∀ a ∈ A, x a ∈ zs) (hy : ∀ b ∈ B, y b ∈ zs) (h : TransportPlan A B π)
    (hc : Comonotone A B x y π) : transportCost A B x y π = steps (fun z => |share' A x z - share' B y z|) zs := by
  rw [cost_steps hz hx hy]
  refine steps_congr _ (fun z _ => ?_)
  rw [← plan_share h z, ← Finset.sum_product']
  -- the terms of the sum all have the same sign
  by_cases hs : ∀ q ∈ A ×ˢ B, π q.1 q.2 ≠ 0 → x q.1 ≤ z → y q.2 ≤ z
  · rw [abs_of_nonpos]
    · rw [← Finset.sum_neg_distrib]
      refine Finset.sum_congr rfl (fun q hq => ?_)
      by_cases hq0 : π q.1 q.2 = 0
      · simp [hq0]
      · have := hs q hq hq0
        by_cases h1 : x q.1 ≤ z
        · simp [h1, this h1]
        · by_cases h2 : y q.2 ≤ z <;> simp [h1, h2]
    · refine Finset.sum_nonpos (fun q hq => ?_)
      have hn := h.nonneg q.1 (Finset.mem_product.mp hq).1 q.2 (Finset.mem_product.mp hq).2
      by_cases hq0 : π q.1 q.2 = 0
      · simp [hq0]
      · have := hs q hq hq0
        by_cases h1 : x q.1 ≤ z
        · simp [h1, this h1]
        · by_cases h2 : y q.2 ≤ z <;> simp [h1, h2, hn]
  · push Not at hs
    obtain ⟨q0, hq0, hp0, hx0, hy0⟩ := hs
    have hs' : ∀ q ∈ A ×ˢ B, π q.1 q.2 ≠ 0 → y q.2 ≤ z → x q.1 ≤ z := by
      intro q hq hp hyq
      by_contra hxq
      push Not at hxq
      exact hc q0.1 (Finset.mem_product.mp hq0).1 q0.2 (Finset.mem_product.mp hq0).2 q.1 (Finset.mem_product.mp hq).1 q.2 (Finset.mem_product.mp hq).2
        hp0 hp (lt_of_le_of_lt hx0 hxq) (lt_of_le_of_lt hyq hy0)
    rw [abs_of_nonneg]
    · refine Finset.sum_congr rfl (fun q hq => ?_)
      by_cases hq0 : π q.1 q.2 = 0
      · simp [hq0]
      · have := hs' q hq hq0
        by_cases h2 : y q.2 ≤ z
        · simp [h2, this h2]
        · by_cases h1 : x q.1 ≤ z <;> simp [h1, h2]
    · refine Finset.sum_nonneg (fun q hq => ?_)
      have hn := h.nonneg q.1 (Finset.mem_product.mp hq).1 q.2 (Finset.mem_product.mp hq).2
      by_cases hq0 : π q.1 q.2 = 0
      · simp [hq0]
      · have := hs' q hq hq0
        by_cases h2 : y q.2 ≤ z
        · simp [h2, this h2]
        · by_cases h1 : x q.1 ≤ z <;> simp [h1, h2, hn]

/-- A numbering of the members in the order of their values. -/
structure Numbering (A : Finset L) (x : L → K) (i : L → ℕ) : Prop where
  image : A.image i = Finset.range A.card
  inj : Set.InjOn i A
  mono : ∀ a ∈ A, ∀ b ∈ A, i a ≤ i b → x a ≤ x b

theorem exists_numbering (A : Finset L) (x : L → K) : ∃ i, Numbering A x i := by
  induction A using Finset.induction_on_max_value x with
  | empty => exact ⟨fun _ => 0, by simp, by simp, by simp⟩
  | insert a s ha hmax ih =>
    obtain ⟨i, h1, h2, h3⟩ := ih
    have hlt : ∀ b ∈ s, i b < s.card := by
      intro b hb
      rw [← Finset.mem_range, ← h1]
      exact Finset.mem_image_of_mem i hb
    have hi : ∀ b ∈ s, (if b = a then s.card else i b) = i b := by
      intro b hb
      rw [if_neg (fun h : b = a => ha (h ▸ hb))]
    refine ⟨fun b => if b = a then s.card else i b, ?_, ?_, ?_⟩
    · rw [Finset.image_insert, if_pos rfl, Finset.card_insert_of_notMem ha, Finset.range_add_one, ← h1]
      congr 1
      exact Finset.image_congr (fun b hb => hi b hb)
    · intro b hb c hc hbc
      rw [Finset.coe_insert, Set.mem_insert_iff] at hb hc
      dsimp only at hbc
      rcases hb with rfl | hb <;> rcases hc with rfl | hc
      · rfl
      · rw [if_pos rfl, hi c hc] at hbc
        have := hlt c hc
        omega
      · rw [if_pos rfl, hi b hb] at hbc
        have := hlt b hb
        omega
      · rw [hi b hb, hi c hc] at hbc
        exact h2 hb hc hbc
    · intro b hb c hc hbc
      rw [Finset.mem_insert] at hb hc
      rcases hb with rfl | hb <;> rcases hc with rfl | hc
      · exact le_refl _
      · rw [if_pos rfl, hi c hc] at hbc
        have := hlt c hc
        omega
      · exact hmax b hb
      · rw [hi b hb, hi c hc] at hbc
        exact h3 b hb c hc hbc

/-- The length of the common part of `[i m, (i + 1) m]` and `[j n, (j + 1) n]`. -/
def overlap (n m i j : ℕ) : ℕ := min ((i + 1) * m) ((j + 1) * n) - max (i * m) (j * n)

theorem overlap_row {n m i : ℕ} (hi : i < n) : ∑ j ∈ Finset.range m, overlap n m i j = m := by
  have h1 : ∀ j, overlap n m i j = max (i * m) (min ((j + 1) * n) ((i + 1) * m)) - max (i * m) (min (j * n) ((i + 1) * m)) := by
    intro j
    unfold overlap
    have e1 : i * m ≤ (i + 1) * m := Nat.mul_le_mul_right _ (by omega)
    have e2 : j * n ≤ (j + 1) * n := Nat.mul_le_mul_right _ (by omega)
    omega
  rw [Finset.sum_congr rfl (fun j _ => h1 j)]
  have hmono : Monotone (fun j => max (i * m) (min (j * n) ((i + 1) * m))) := by
    intro j k hjk
    have : j * n ≤ k * n := Nat.mul_le_mul_right _ hjk
    dsimp only
    omega
  rw [Finset.sum_range_tsub hmono]
  have e1 : (i + 1) * m ≤ m * n := by rw [Nat.mul_comm m n]; exact Nat.mul_le_mul_right _ hi
  have e2 : (i + 1) * m = i * m + m := by ring
  omega

theorem overlap_comm (n m i j : ℕ) : overlap n m i j = overlap m n j i := by
  unfold overlap
  omega

/-- There is a plan that moves mass in order. -/
theorem exists_comonotone (hA : A.Nonempty) (hB : B.Nonempty) (x y : L → K) : ∃ π, TransportPlan A B π ∧ Comonotone A B x y π := by
  obtain ⟨i, i1, i2, i3⟩ := exists_numbering A x
  obtain ⟨j, j1, j2, j3⟩ := exists_numbering B y
  set n := A.card with hn
  set m := B.card with hm
  have hn0 : (n : K) ≠ 0 := by
    rw [hn]
    exact_mod_cast (Finset.card_pos.mpr hA).ne'
  have hm0 : (m : K) ≠ 0 := by
    rw [hm]
    exact_mod_cast (Finset.card_pos.mpr hB).ne'
  have hi : ∀ a ∈ A, i a < n := fun a ha => by
    rw [← Finset.mem_range, ← i1]
    exact Finset.mem_image_of_mem i ha
  have hj : ∀ b ∈ B, j b < m := fun b hb => by
    rw [← Finset.mem_range, ← j1]
    exact Finset.mem_image_of_mem j hb
  refine ⟨fun a b => (overlap n m (i a) (j b) : K) / (n * m), ⟨?_, ?_, ?_⟩, ?_⟩
  · intro a _ b _
    positivity
  · intro a ha
    rw [← Finset.sum_div, ← Nat.cast_sum]
    have : ∑ b ∈ B, overlap n m (i a) (j b) = m := by
      rw [← Finset.sum_image (f := fun k => overlap n m (i a) k) (fun b hb c hc h => j2 hb hc h), j1]
      exact overlap_row (hi a ha)
    rw [this, div_eq_div_iff (mul_ne_zero hn0 hm0) (by assumption)]
    ring
  · intro b hb
    rw [← Finset.sum_div, ← Nat.cast_sum]
    have : ∑ a ∈ A, overlap n m (i a) (j b) = n := by
      rw [← Finset.sum_image (f := fun k => overlap n m k (j b)) (fun b hb c hc h => i2 hb hc h), i1]
      rw [Finset.sum_congr rfl (fun k _ => overlap_comm n m k (j b))]
      exact overlap_row (hj b hb)
    rw [this, div_eq_div_iff (mul_ne_zero hn0 hm0) (by assumption)]
    ring
  · intro a ha b hb a' ha' b' hb' h1 h2 hx hy
    dsimp only at h1 h2
    have p1 : overlap n m (i a) (j b) ≠ 0 := by
      intro h
      rw [h] at h1
      simp at h1
    have p2 : overlap n m (i a') (j b') ≠ 0 := by
      intro h
      rw [h] at h2
      simp at h2
    have q1 : i a < i a' := by
      by_contra hcon
      exact absurd (i3 a' ha' a ha (by omega)) (not_le.mpr hx)
    have q2 : j b' < j b := by
      by_contra hcon
      exact absurd (j3 b hb b' hb' (by omega)) (not_le.mpr hy)
    unfold overlap at p1 p2
    have r1 : (i a + 1) * m ≤ i a' * m := Nat.mul_le_mul_right _ q1
    have r2 : (j b' + 1) * n ≤ j b * n := Nat.mul_le_mul_right _ q2
    omega

/-- The area between the distribution functions is the smallest cost. -/
theorem area_isTransportDistance (hA : A.Nonempty) (hB : B.Nonempty) {zs : List K} (hz : zs.Pairwise (· ≤ ·)) (hx : ∀ a ∈ A, x a ∈ zs)
    (hy : ∀ b ∈ B, y b ∈ zs) : IsTransportDistance A B x y (steps (fun z => |share' A x z - share' B y z|) zs) := by
  refine ⟨?_, ?_⟩
  · obtain ⟨π, h1, h2⟩ := exists_comonotone hA hB x y
    exact ⟨π, h1, (plan_attains hz hx hy h1 h2).symm⟩
  · rintro c ⟨π, h, rfl⟩
    exact plan_lower hz hx hy h

end WBX
