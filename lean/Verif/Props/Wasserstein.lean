import Verif.Lemmas.Transport
import Verif.Model.Wasserstein
import Verif.Props.CRPS
import Verif.Props.Locality

set_option linter.unusedSectionVars false
set_option linter.unusedVariables false

/-! # C75: the Wasserstein distance -/

namespace WBX
open DA
variable {L K : Type} [DecidableEq L] [Field K] [LinearOrder K] [IsStrictOrderedRing K]
variable {A B C : Finset L} {x y z : L → K} {π : L → L → K}

/-! ### The smallest transport cost -/

theorem swap_plan (h : TransportPlan A B π) : TransportPlan B A (fun b a => π a b) :=
  ⟨fun b hb a ha => h.nonneg a ha b hb, h.to_, h.from_⟩

theorem swap_cost : transportCost B A y x (fun b a => π a b) = transportCost A B x y π := by
  unfold transportCost
  rw [Finset.sum_comm]
  exact Finset.sum_congr rfl (fun a _ => Finset.sum_congr rfl (fun b _ => by rw [abs_sub_comm]))

theorem distance_symm {w : K} (h : IsTransportDistance A B x y w) : IsTransportDistance B A y x w := by
  obtain ⟨⟨π, h1, h2⟩, h3⟩ := h
  refine ⟨⟨fun b a => π a b, swap_plan h1, by rw [swap_cost]; exact h2⟩, ?_⟩
  rintro c ⟨ρ, h4, rfl⟩
  exact h3 ⟨fun a b => ρ b a, swap_plan h4, by rw [swap_cost]⟩

theorem distance_triangle (hB : B.Nonempty) {u v w : K} (h1 : IsTransportDistance A B x y u) (h2 : IsTransportDistance B C y z v)
    (h3 : IsTransportDistance A C x z w) : w ≤ u + v := by
  obtain ⟨⟨π, p1, rfl⟩, -⟩ := h1
  obtain ⟨⟨ρ, p2, rfl⟩, -⟩ := h2
  have hb0 : (B.card : K) ≠ 0 := by exact_mod_cast (Finset.card_pos.mpr hB).ne'
  have hplan : TransportPlan A C (fun a c => ∑ b ∈ B, π a b * ρ b c * B.card) := by
    refine ⟨?_, ?_, ?_⟩
    · intro a ha c hc
      refine Finset.sum_nonneg (fun b hb => mul_nonneg (mul_nonneg (p1.nonneg a ha b hb) (p2.nonneg b hb c hc)) (by positivity))
    · intro a ha
      rw [Finset.sum_comm, ← p1.from_ a ha]
      refine Finset.sum_congr rfl (fun b hb => ?_)
      have : ∀ c, π a b * ρ b c * (B.card : K) = (π a b * B.card) * ρ b c := fun c => by ring
      rw [Finset.sum_congr rfl (fun c _ => this c), ← Finset.mul_sum, p2.from_ b hb]
      field_simp
    · intro c hc
      rw [Finset.sum_comm, ← p2.to_ c hc]
      refine Finset.sum_congr rfl (fun b hb => ?_)
      have : ∀ a, π a b * ρ b c * (B.card : K) = (ρ b c * B.card) * π a b := fun a => by ring
      rw [Finset.sum_congr rfl (fun a _ => this a), ← Finset.mul_sum, p1.to_ b hb]
      field_simp
  refine (h3.2 ⟨_, hplan, rfl⟩).trans ?_
  have e1 : transportCost A B x y π = ∑ a ∈ A, ∑ c ∈ C, ∑ b ∈ B, π a b * ρ b c * B.card * |x a - y b| := by
    unfold transportCost
    refine Finset.sum_congr rfl (fun a _ => ?_)
    rw [Finset.sum_comm]
    refine Finset.sum_congr rfl (fun b hb => ?_)
    have : ∀ c, π a b * ρ b c * (B.card : K) * |x a - y b| = (π a b * B.card * |x a - y b|) * ρ b c := fun c => by ring
    rw [Finset.sum_congr rfl (fun c _ => this c), ← Finset.mul_sum, p2.from_ b hb]
    field_simp
  have e2 : transportCost B C y z ρ = ∑ a ∈ A, ∑ c ∈ C, ∑ b ∈ B, π a b * ρ b c * B.card * |y b - z c| := by
    unfold transportCost
    rw [Finset.sum_comm, Finset.sum_comm (s := A)]
    refine Finset.sum_congr rfl (fun c _ => ?_)
    rw [Finset.sum_comm]
    refine Finset.sum_congr rfl (fun b hb => ?_)
    have : ∀ a, π a b * ρ b c * (B.card : K) * |y b - z c| = (ρ b c * B.card * |y b - z c|) * π a b := fun a => by ring
    rw [Finset.sum_congr rfl (fun a _ => this a), ← Finset.mul_sum, p1.to_ b hb]
    field_simp
  rw [e1, e2, ← Finset.sum_add_distrib]
  unfold transportCost
  refine Finset.sum_le_sum (fun a ha => ?_)
  rw [← Finset.sum_add_distrib]
  refine Finset.sum_le_sum (fun c hc => ?_)
  rw [Finset.sum_mul, ← Finset.sum_add_distrib]
  refine Finset.sum_le_sum (fun b hb => ?_)
  rw [← mul_add]
  refine mul_le_mul_of_nonneg_left (abs_sub_le _ _ _) (mul_nonneg (mul_nonneg (p1.nonneg a ha b hb) (p2.nonneg b hb c hc)) (by positivity))

theorem distance_mean {w : K} (h : IsTransportDistance A B x y w) : |(∑ a ∈ A, x a) / A.card - (∑ b ∈ B, y b) / B.card| ≤ w := by
  obtain ⟨⟨π, p, rfl⟩, -⟩ := h
  have e : (∑ a ∈ A, x a) / A.card - (∑ b ∈ B, y b) / B.card = ∑ a ∈ A, ∑ b ∈ B, π a b * (x a - y b) := by
    have h1 : (∑ a ∈ A, x a) / A.card = ∑ a ∈ A, ∑ b ∈ B, π a b * x a := by
      rw [Finset.sum_div]
      refine Finset.sum_congr rfl (fun a ha => ?_)
      rw [← Finset.sum_mul, p.from_ a ha]
      ring
    have h2 : (∑ b ∈ B, y b) / B.card = ∑ a ∈ A, ∑ b ∈ B, π a b * y b := by
      rw [Finset.sum_div, Finset.sum_comm]
      refine Finset.sum_congr rfl (fun b hb => ?_)
      rw [← Finset.sum_mul, p.to_ b hb]
      ring
    rw [h1, h2, ← Finset.sum_sub_distrib]
    refine Finset.sum_congr rfl (fun a _ => ?_)
    rw [← Finset.sum_sub_distrib]
    exact Finset.sum_congr rfl (fun b _ => by ring)
  rw [e]
  refine (Finset.abs_sum_le_sum_abs _ _).trans (Finset.sum_le_sum (fun a ha => ?_))
  refine (Finset.abs_sum_le_sum_abs _ _).trans (Finset.sum_le_sum (fun b hb => ?_))
  rw [abs_mul, abs_of_nonneg (p.nonneg a ha b hb)]

theorem distance_single {b : L} {w : K} (h : IsTransportDistance A {b} x y w) : w = (∑ a ∈ A, |x a - y b|) / A.card := by
  obtain ⟨⟨π, p, rfl⟩, -⟩ := h
  unfold transportCost
  rw [Finset.sum_div]
  refine Finset.sum_congr rfl (fun a ha => ?_)
  have := p.from_ a ha
  rw [Finset.sum_singleton] at this ⊢
  rw [this]
  ring

theorem distance_zero (hA : A.Nonempty) (hB : B.Nonempty) {w : K} (h : IsTransportDistance A B x y w) :
    w = 0 ↔ ∀ v, share' A x v = share' B y v := by
  constructor
  · rintro rfl v
    obtain ⟨⟨π, p, hc⟩, -⟩ := h
    have h0 : ∀ a ∈ A, ∀ b ∈ B, π a b * |x a - y b| = 0 := by
      have hn : ∀ a ∈ A, ∀ b ∈ B, 0 ≤ π a b * |x a - y b| := fun a ha b hb => mul_nonneg (p.nonneg a ha b hb) (abs_nonneg _)
      intro a ha b hb
      have h1 := (Finset.sum_eq_zero_iff_of_nonneg (fun a ha => Finset.sum_nonneg (hn a ha))).mp hc.symm a ha
      exact (Finset.sum_eq_zero_iff_of_nonneg (hn a ha)).mp h1 b hb
    rw [← sub_eq_zero, ← plan_share p v]
    refine Finset.sum_eq_zero (fun a ha => Finset.sum_eq_zero (fun b hb => ?_))
    rcases mul_eq_zero.mp (h0 a ha b hb) with h1 | h1
    · rw [h1, zero_mul]
    · rw [abs_eq_zero, sub_eq_zero] at h1
      rw [h1, sub_self, mul_zero]
  · intro hs
    have hz := area_isTransportDistance hA hB (zs := (A.toList.map x ++ B.toList.map y).insertionSort (· ≤ ·)) (List.pairwise_insertionSort _ _)
      (fun a ha => by simpa using Or.inl ⟨a, ha, rfl⟩) (fun b hb => by simpa using Or.inr ⟨b, hb, rfl⟩)
    have := h.unique hz
    rw [this]
    have h2 : ∀ zs : List K, steps (fun v => |share' A x v - share' B y v|) zs = 0 := by
      intro zs
      have h3 : steps (fun v => |share' A x v - share' B y v|) zs = steps (fun v => (0 : K) - 0) zs :=
        steps_congr zs (fun v _ => by simp [hs v])
      rw [h3, steps_sub, sub_self]
    exact h2 _

/-! ### The computed value -/

theorem stepSum_fin {g : FV K → FV K} {g' : K → K} : (zs : List K) → (∀ v ∈ zs, g (.fin v) = .fin (g' v)) → stepSum g (zs.map FV.fin) = .fin (steps g' zs)
  | [], _ => rfl
  | [_], _ => rfl
  | a :: b :: zs, h => by
    rw [steps_cons, List.map_cons, List.map_cons, stepSum, ← List.map_cons, stepSum_fin (b :: zs) (fun v hv => h v (List.mem_cons_of_mem _ hv)),
      h a (by simp)]
    simp

theorem ecdf_fin (hA : A.Nonempty) {f : L → FV K} (hf : ∀ a ∈ A, f a = .fin (x a)) (v : K) : ecdf (A.toList.map f) (.fin v) = .fin (share' A x v) := by
  have hn : ((A.toList.map f).length : K) ≠ 0 := by
    rw [List.length_map, Finset.length_toList]
    exact_mod_cast (Finset.card_pos.mpr hA).ne'
  unfold ecdf FV.ofNat
  rw [FV.fin_div_fin_of_ne _ hn]
  unfold share'
  congr 2
  · rw [List.countP_map]
    have h1 : A.toList.countP ((fun q : FV K => q.le (.fin v)) ∘ f) = A.toList.countP (fun a => decide (x a ≤ v)) := by
      refine List.countP_congr (fun a ha => ?_)
      rw [Function.comp_apply, hf a (Finset.mem_toList.mp ha)]
      simp [FV.le]
    rw [h1]
    have h2 : (A.filter (fun a => x a ≤ v)).card = A.toList.countP (fun a => decide (x a ≤ v)) := by
      rw [Finset.card_def, Finset.filter_val, ← Multiset.countP_eq_card_filter]
      conv_lhs => rw [← Finset.coe_toList A]
      rw [Multiset.coe_countP]
    rw [h2]
  · rw [List.length_map, Finset.length_toList]

theorem scipy_fin (hA : A.Nonempty) (hB : B.Nonempty) {f g : L → FV K} (hf : ∀ a ∈ A, f a = .fin (x a)) (hg : ∀ b ∈ B, g b = .fin (y b)) :
    ∃ w, scipyWasserstein (A.toList.map f) (B.toList.map g) = .ok (.fin w) ∧ IsTransportDistance A B x y w := by
  have e1 : A.toList.map f = (A.toList.map x).map FV.fin := by
    rw [List.map_map]
    exact List.map_congr_left (fun a ha => hf a (Finset.mem_toList.mp ha))
  have e2 : B.toList.map g = (B.toList.map y).map FV.fin := by
    rw [List.map_map]
    exact List.map_congr_left (fun a ha => hg a (Finset.mem_toList.mp ha))
  have n1 : A.toList.map f ≠ [] := by simpa using hA.ne_empty
  have n2 : B.toList.map g ≠ [] := by simpa using hB.ne_empty
  have hs : (A.toList.map f ++ B.toList.map g).insertionSort (fun a b => npLe a b = true) =
      ((A.toList.map x ++ B.toList.map y).insertionSort (· ≤ ·)).map FV.fin := by
    rw [e1, e2, ← List.map_append]
    refine (List.map_insertionSort _ _ FV.fin _ ?_).symm
    intro a _ b _
    simp [npLe, FV.isnan, FV.le]
  refine ⟨_, ?_, area_isTransportDistance hA hB (zs := (A.toList.map x ++ B.toList.map y).insertionSort (· ≤ ·)) (List.pairwise_insertionSort _ _)
      (fun a ha => by simpa using Or.inl ⟨a, ha, rfl⟩) (fun b hb => by simpa using Or.inr ⟨b, hb, rfl⟩)⟩
  unfold scipyWasserstein
  rw [if_neg (by simp only [n1, n2, or_self, not_false_eq_true]), hs]
  congr 1
  refine stepSum_fin _ (fun v _ => ?_)
  rw [ecdf_fin hA hf, ecdf_fin hB hg, FV.fin_sub_fin]
  rfl

theorem wasserstein_ok {d : Dim} {p t s : StatVar L (FV K)} (h : wasserstein d p t = .ok s) :
    d ∈ p.arr.dims ∧ d ∈ t.arr.dims ∧ (∀ k ∈ p.arr.dims, k ∈ t.arr.dims → k ≠ d → p.arr.coords k = t.arr.coords k) ∧
    (p.arr.coords d).Nonempty ∧ (t.arr.coords d).Nonempty ∧ s.arr.dims = (p.arr.dims ∪ t.arr.dims).erase d ∧ s.arr.coords = joinCoords p.arr t.arr ∧
    s.mask = combineMask (dropMask d p.mask) (dropMask d t.mask) ∧
    ∀ e, s.arr.val e = match scipyWasserstein (memberValues d p.arr e) (memberValues d t.arr e) with | .ok w => w | .error _ => .nan := by
  unfold wasserstein at h
  split_ifs at h with h1 h2 h3 h4
  injection h with h
  subst h
  push Not at h3 h4
  refine ⟨h1, h2, fun k hk hk' hkd => ?_, h4.1, h4.2, rfl, rfl, rfl, fun e => rfl⟩
  exact h3 k (Finset.mem_inter.mpr ⟨hk, hk'⟩) hkd

/-- C75: at a cell where all members are finite, the value is the earth mover's distance of the two ensembles: the smallest cost of moving
the equal masses of the members of the predictions to the equal masses of the members of the targets. -/
theorem C75_distance {d : Dim} {p t s : StatVar L (FV K)} (h : wasserstein d p t = .ok s) {e : Dim → L} {x y : L → K}
    (hx : ∀ l ∈ p.arr.coords d, p.arr.val (setLabel e d l) = .fin (x l)) (hy : ∀ l ∈ t.arr.coords d, t.arr.val (setLabel e d l) = .fin (y l)) :
    ∃ w, s.arr.val e = .fin w ∧ IsTransportDistance (p.arr.coords d) (t.arr.coords d) x y w := by
  obtain ⟨-, -, -, h1, h2, -, -, -, hv⟩ := wasserstein_ok h
  obtain ⟨w, e1, e2⟩ := scipy_fin h1 h2 hx hy
  refine ⟨w, ?_, e2⟩
  rw [hv]
  unfold memberValues
  rw [e1]

/-- C75: the dimensions and labels of the result: those of the inputs without the ensemble dimension. -/
theorem C75_labels {d : Dim} {p t s : StatVar L (FV K)} (h : wasserstein d p t = .ok s) :
    (∀ k, k ∈ s.arr.dims ↔ (k ∈ p.arr.dims ∨ k ∈ t.arr.dims) ∧ k ≠ d) ∧
    (∀ k ∈ s.arr.dims, (k ∈ p.arr.dims → s.arr.coords k = p.arr.coords k) ∧ (k ∈ t.arr.dims → s.arr.coords k = t.arr.coords k)) := by
  obtain ⟨-, -, h3, -, -, hd, hc, -, -⟩ := wasserstein_ok h
  refine ⟨fun k => by rw [hd, Finset.mem_erase, Finset.mem_union]; tauto, fun k hk => ?_⟩
  rw [hd, Finset.mem_erase] at hk
  rw [hc]
  unfold joinCoords
  refine ⟨fun hp => ?_, fun ht => ?_⟩
  · rw [if_pos hp]
    by_cases ht : k ∈ t.arr.dims
    · rw [if_pos ht, ← h3 k hp ht hk.1, Finset.inter_self]
    · rw [if_neg ht]
  · rw [if_pos ht]
    by_cases hp : k ∈ p.arr.dims
    · rw [if_pos hp, h3 k hp ht hk.1, Finset.inter_self]
    · rw [if_neg hp]

/-- C75: errors. The ensemble dimension must be in both arrays, with members in both, and the labels of the other common dimensions must be
equal; the numbers of members may differ. -/
theorem C75_errors (d : Dim) (p t : StatVar L (FV K)) :
    (∃ s, wasserstein d p t = .ok s) ↔ d ∈ p.arr.dims ∧ d ∈ t.arr.dims ∧ (∀ k ∈ p.arr.dims, k ∈ t.arr.dims → k ≠ d → p.arr.coords k = t.arr.coords k) ∧
      (p.arr.coords d).Nonempty ∧ (t.arr.coords d).Nonempty := by
  constructor
  · rintro ⟨s, hs⟩
    obtain ⟨h1, h2, h3, h4, h5, -⟩ := wasserstein_ok hs
    exact ⟨h1, h2, h3, h4, h5⟩
  · rintro ⟨h1, h2, h3, h4, h5⟩
    unfold wasserstein
    rw [if_neg (not_not.mpr h1), if_neg (not_not.mpr h2), if_neg, if_neg]
    · exact ⟨_, rfl⟩
    · push Not
      exact ⟨h4, h5⟩
    · rintro ⟨k, hk, hkd, hne⟩
      rw [Finset.mem_inter] at hk
      exact hne (h3 k hk.1 hk.2 hkd)

/-- C75: every failure is a `ValueError`. -/
theorem C75_value_error {d : Dim} {p t : StatVar L (FV K)} {err : Err} (h : wasserstein d p t = .error err) : err = .valueError := by
  unfold wasserstein at h
  split_ifs at h <;> · injection h with h; exact h.symm

instance : Std.Total (fun a b : FV K => npLe a b = true) := ⟨by
  intro a b
  cases a with
  | nan => right; simp [npLe, FV.isnan]
  | inf u =>
    cases b with
    | nan => left; simp [npLe, FV.isnan]
    | inf v => cases u <;> cases v <;> simp [npLe, FV.isnan, FV.le]
    | fin v => cases u <;> simp [npLe, FV.isnan, FV.le]
  | fin u =>
    cases b with
    | nan => left; simp [npLe, FV.isnan]
    | inf v => cases v <;> simp [npLe, FV.isnan, FV.le]
    | fin v => simpa [npLe, FV.isnan, FV.le] using le_total u v⟩

instance : IsTrans (FV K) (fun a b : FV K => npLe a b = true) := ⟨by
  intro a b c h1 h2
  cases c with
  | nan => simp [npLe, FV.isnan]
  | inf w =>
    cases b with
    | nan => simp [npLe, FV.isnan] at h2
    | inf v =>
      cases a with
      | nan => simp [npLe, FV.isnan] at h1
      | inf u => cases u <;> cases v <;> cases w <;> simp_all [npLe, FV.isnan, FV.le]
      | fin u => cases v <;> cases w <;> simp_all [npLe, FV.isnan, FV.le]
    | fin v =>
      cases a with
      | nan => simp [npLe, FV.isnan] at h1
      | inf u => cases u <;> cases w <;> simp_all [npLe, FV.isnan, FV.le]
      | fin u => cases w <;> simp_all [npLe, FV.isnan, FV.le]
  | fin w =>
    cases b with
    | nan => simp [npLe, FV.isnan] at h2
    | inf v =>
      cases a with
      | nan => simp [npLe, FV.isnan] at h1
      | inf u => cases u <;> cases v <;> simp_all [npLe, FV.isnan, FV.le]
      | fin u => cases v <;> simp_all [npLe, FV.isnan, FV.le]
    | fin v =>
      cases a with
      | nan => simp [npLe, FV.isnan] at h1
      | inf u => cases u <;> simp_all [npLe, FV.isnan, FV.le]
      | fin u =>
        simp [npLe, FV.isnan, FV.le] at h1 h2 ⊢
        exact h1.trans h2⟩

theorem stepSum_nan {g : FV K → FV K} : (zs : List (FV K)) → zs.Pairwise (fun a b => npLe a b = true) → FV.nan ∈ zs → 2 ≤ zs.length → stepSum g zs = .nan
  | [], _, h, _ => absurd h (by simp)
  | [_], _, _, h => absurd h (by simp)
  | [a, b], hs, h, _ => by
    have hb : b = .nan := by
      rcases List.mem_cons.mp h with rfl | h
      · have := List.rel_of_pairwise_cons hs (by simp : b ∈ [b])
        cases b <;> simp [npLe, FV.isnan] at this ⊢
      · rw [List.mem_singleton] at h
        exact h.symm
    subst hb
    have hsub : (FV.nan - a : FV K) = .nan := by cases a <;> rfl
    have hmul : ∀ u : FV K, u * FV.nan = .nan := by intro u; cases u <;> rfl
    simp [stepSum, hsub, hmul]
  | a :: b :: c :: zs, hs, h, _ => by
    have hm : FV.nan ∈ b :: c :: zs := by
      rcases List.mem_cons.mp h with rfl | h
      · have := List.rel_of_pairwise_cons hs (by simp : b ∈ b :: c :: zs)
        have hb : b = .nan := by cases b <;> simp [npLe, FV.isnan] at this ⊢
        rw [hb]
        simp
      · exact h
    rw [stepSum, stepSum_nan (b :: c :: zs) hs.of_cons hm (by simp)]
    simp

/-- C75: a NaN member of the predictions or of the targets makes the value NaN. -/
theorem C75_nan {d : Dim} {p t s : StatVar L (FV K)} (h : wasserstein d p t = .ok s) {e : Dim → L}
    (hn : (∃ l ∈ p.arr.coords d, p.arr.val (setLabel e d l) = .nan) ∨ ∃ l ∈ t.arr.coords d, t.arr.val (setLabel e d l) = .nan) : s.arr.val e = .nan := by
  obtain ⟨-, -, -, h1, h2, -, -, -, hv⟩ := wasserstein_ok h
  rw [hv]
  have n1 : memberValues d p.arr e ≠ [] := by simpa [memberValues] using h1.ne_empty
  have n2 : memberValues d t.arr e ≠ [] := by simpa [memberValues] using h2.ne_empty
  unfold scipyWasserstein
  rw [if_neg (by simp only [n1, n2, or_self, not_false_eq_true])]
  dsimp only
  refine stepSum_nan _ (List.pairwise_insertionSort _ _) ?_ ?_
  · rw [List.mem_insertionSort, List.mem_append]
    rcases hn with ⟨l, hl, hl'⟩ | ⟨l, hl, hl'⟩
    · exact Or.inl (List.mem_map.mpr ⟨l, Finset.mem_toList.mpr hl, hl'⟩)
    · exact Or.inr (List.mem_map.mpr ⟨l, Finset.mem_toList.mpr hl, hl'⟩)
  · rw [List.length_insertionSort, List.length_append]
    have := List.length_pos_of_ne_nil n1
    have := List.length_pos_of_ne_nil n2
    omega

section metric
variable {d : Dim} {p t r s s' s'' : StatVar L (FV K)} {e : Dim → L}

/-- The members at a cell are the finite numbers `x`. -/
def FiniteMembers (d : Dim) (a : StatVar L (FV K)) (e : Dim → L) (x : L → K) : Prop := ∀ l ∈ a.arr.coords d, a.arr.val (setLabel e d l) = .fin (x l)

/-- C75: it is a distance: symmetric, … -/
theorem C75_symmetric (h : wasserstein d p t = .ok s) (h' : wasserstein d t p = .ok s') (hx : FiniteMembers d p e x) (hy : FiniteMembers d t e y) :
    s.arr.val e = s'.arr.val e := by
  obtain ⟨w, e1, e2⟩ := C75_distance h hx hy
  obtain ⟨w', e1', e2'⟩ := C75_distance h' hy hx
  rw [e1, e1', (distance_symm e2).unique e2']

/-- C75: … it satisfies the triangle inequality, … -/
theorem C75_triangle (h : wasserstein d p t = .ok s) (h' : wasserstein d t r = .ok s') (h'' : wasserstein d p r = .ok s'') (hx : FiniteMembers d p e x)
    (hy : FiniteMembers d t e y) (hz : FiniteMembers d r e z) :
    ∃ u v w, s.arr.val e = .fin u ∧ s'.arr.val e = .fin v ∧ s''.arr.val e = .fin w ∧ w ≤ u + v := by
  obtain ⟨u, e1, e2⟩ := C75_distance h hx hy
  obtain ⟨v, f1, f2⟩ := C75_distance h' hy hz
  obtain ⟨w, g1, g2⟩ := C75_distance h'' hx hz
  obtain ⟨-, -, -, -, h2, -⟩ := wasserstein_ok h
  exact ⟨u, v, w, e1, f1, g1, distance_triangle h2 e2 f2 g2⟩

/-- C75: … nonnegative, and zero exactly if the two ensembles have the same distribution: the same share of members up to every value. -/
theorem C75_zero (h : wasserstein d p t = .ok s) (hx : FiniteMembers d p e x) (hy : FiniteMembers d t e y) :
    ∃ w, s.arr.val e = .fin w ∧ 0 ≤ w ∧ (w = 0 ↔ ∀ v, ((p.arr.coords d).filter (fun l => x l ≤ v)).card * (t.arr.coords d).card =
      ((t.arr.coords d).filter (fun l => y l ≤ v)).card * (p.arr.coords d).card) := by
  obtain ⟨w, e1, e2⟩ := C75_distance h hx hy
  obtain ⟨-, -, -, h1, h2, -⟩ := wasserstein_ok h
  refine ⟨w, e1, (abs_nonneg _).trans (distance_mean e2), ?_⟩
  rw [distance_zero h1 h2 e2]
  refine forall_congr' (fun v => ?_)
  have n1 : ((p.arr.coords d).card : K) ≠ 0 := by exact_mod_cast (Finset.card_pos.mpr h1).ne'
  have n2 : ((t.arr.coords d).card : K) ≠ 0 := by exact_mod_cast (Finset.card_pos.mpr h2).ne'
  unfold share'
  rw [div_eq_div_iff n1 n2]
  exact_mod_cast Iff.rfl

/-- C75: it is at least the distance of the ensemble means. -/
theorem C75_mean (h : wasserstein d p t = .ok s) (hx : FiniteMembers d p e x) (hy : FiniteMembers d t e y) :
    ∃ w, s.arr.val e = .fin w ∧ |(∑ l ∈ p.arr.coords d, x l) / (p.arr.coords d).card - (∑ l ∈ t.arr.coords d, y l) / (t.arr.coords d).card| ≤ w := by
  obtain ⟨w, e1, e2⟩ := C75_distance h hx hy
  exact ⟨w, e1, distance_mean e2⟩

/-- C75: with a single target member it is the mean absolute error of the members. -/
theorem C75_single {b : L} (h : wasserstein d p t = .ok s) (hb : t.arr.coords d = {b}) (hx : FiniteMembers d p e x) (hy : FiniteMembers d t e y) :
    s.arr.val e = .fin ((∑ l ∈ p.arr.coords d, |x l - y b|) / (p.arr.coords d).card) := by
  obtain ⟨w, e1, e2⟩ := C75_distance h hx hy
  rw [hb] at e2
  rw [e1, distance_single e2]

/-- C75: adding the same number to all members of both ensembles does not change it (and multiplying all by a number multiplies it by its absolute value). -/
theorem C75_affine {p' t' : StatVar L (FV K)} (h : wasserstein d p t = .ok s) (h' : wasserstein d p' t' = .ok s') (hx : FiniteMembers d p e x) (hy : FiniteMembers d t e y)
    {m c : K} (hp : p'.arr.coords d = p.arr.coords d) (ht : t'.arr.coords d = t.arr.coords d)
    (hx' : FiniteMembers d p' e (fun l => m * x l + c)) (hy' : FiniteMembers d t' e (fun l => m * y l + c)) :
    ∃ w, s.arr.val e = .fin w ∧ s'.arr.val e = .fin (|m| * w) := by
  obtain ⟨w, e1, e2⟩ := C75_distance h hx hy
  obtain ⟨w', f1, f2⟩ := C75_distance h' hx' hy'
  rw [hp, ht] at f2
  refine ⟨w, e1, ?_⟩
  rw [f1]
  congr 1
  refine f2.unique ?_
  have hcost : ∀ π, transportCost (p.arr.coords d) (t.arr.coords d) (fun l => m * x l + c) (fun l => m * y l + c) π =
      |m| * transportCost (p.arr.coords d) (t.arr.coords d) x y π := by
    intro π
    unfold transportCost
    rw [Finset.mul_sum]
    refine Finset.sum_congr rfl (fun a _ => ?_)
    rw [Finset.mul_sum]
    refine Finset.sum_congr rfl (fun b _ => ?_)
    rw [show m * x a + c - (m * y b + c) = m * (x a - y b) by ring, abs_mul]
    ring
  obtain ⟨⟨π, p1, hw⟩, hmin⟩ := e2
  refine ⟨⟨π, p1, by rw [hcost, ← hw]⟩, ?_⟩
  rintro q ⟨ρ, p2, rfl⟩
  rw [hcost]
  exact mul_le_mul_of_nonneg_left (hmin ⟨ρ, p2, rfl⟩) (abs_nonneg m)

end metric

/-- C75: averaged over cells, the metric is the weighted mean of the distances. -/
theorem C75_average {d : Dim} {p t : Vars (StatVar L (FV K))} (hp : (p.map Prod.fst).Nodup) (ht : (t.map Prod.fst).Nodup) {v : String} {a b s : StatVar L (FV K)}
    (ha : (v, a) ∈ p) (hb : (v, b) ∈ t) {agg : Aggregator L (FV K)} {X : DA L (FV K)} (hX : IsMeanOf agg p t v (wassersteinStatistic d) X)
    (h : wasserstein d a b = .ok s) {e : Dim → L} {cs : Finset (Dim → L)} (E : Evaluated agg s e cs) (hW : GoodWeights agg s cs)
    {x y : (Dim → L) → L → K} (hx : ∀ e' ∈ cs, FiniteMembers d a e' (x e')) (hy : ∀ e' ∈ cs, FiniteMembers d b e' (y e')) :
    ∃ w : (Dim → L) → K, (∀ e' ∈ cs, IsTransportDistance (a.arr.coords d) (b.arr.coords d) (x e') (y e') (w e')) ∧ X.val e = .fin (wmean agg s cs w) := by
  have hw : ∀ e' : Dim → L, ∃ w, e' ∈ cs → s.arr.val e' = .fin w ∧ IsTransportDistance (a.arr.coords d) (b.arr.coords d) (x e') (y e') w := by
    intro e'
    by_cases he : e' ∈ cs
    · obtain ⟨w, e1, e2⟩ := C75_distance h (hx e' he) (hy e' he)
      exact ⟨w, fun _ => ⟨e1, e2⟩⟩
    · exact ⟨0, fun h => absurd h he⟩
  choose w hw using hw
  exact ⟨w, fun e' he => (hw e' he).2, mean_statOfE hp ht ha hb hX h E hW (fun e' he => (hw e' he).1)⟩

/-- C75: it is computed chunk by chunk (see C74). -/
theorem C75_chunks {c d : Dim} (hd : d ≠ c) : (wassersteinStatistic (L := L) (K := K) d).ChunkLocal c := by
  refine statOfE_local ?_
  intro S m p t s hp ht dp dt h
  obtain ⟨h1, h2, h3, h4, h5, -⟩ := wasserstein_ok h
  have hco : ∀ (a : StatVar L (FV K)), (a.chunk c S).arr.coords d = a.arr.coords d := by
    intro a
    simp only [StatVar.chunk, DA.restrict, if_neg hd]
  unfold wasserstein at h ⊢
  have i3 : ¬ ∃ k ∈ p.arr.dims ∩ t.arr.dims, k ≠ d ∧ p.arr.coords k ≠ t.arr.coords k := by
    rintro ⟨k, hk, hkd, hne⟩
    rw [Finset.mem_inter] at hk
    exact hne (h3 k hk.1 hk.2 hkd)
  have i3' : ¬ ∃ k ∈ (p.chunk c S).arr.dims ∩ (t.chunk c S).arr.dims, k ≠ d ∧ (p.chunk c S).arr.coords k ≠ (t.chunk c S).arr.coords k := by
    rintro ⟨k, hk, hkd, hne⟩
    rw [Finset.mem_inter] at hk
    have := h3 k hk.1 hk.2 hkd
    simp only [StatVar.chunk, DA.restrict, this] at hne
    exact hne rfl
  have i4 : ¬ (p.arr.coords d = ∅ ∨ t.arr.coords d = ∅) := by
    push Not
    exact ⟨h4, h5⟩
  rw [if_neg (not_not.mpr h1), if_neg (not_not.mpr h2), if_neg i3, if_neg i4, Except.ok.injEq] at h
  rw [if_neg (not_not.mpr (by exact h1)), if_neg (not_not.mpr (by exact h2)), if_neg i3', if_neg (by rw [hco, hco]; exact i4), Except.ok.injEq]
  subst h
  unfold StatVar.chunk
  rw [StatVar.mk.injEq]
  refine ⟨DA.ext' rfl ?_ ?_, ?_⟩
  · intro k
    simp only [DA.restrict, joinCoords]
    by_cases hk : k = c
    · subst hk
      simp only [if_true]
      split_ifs <;> first | rfl | (ext l; simp only [Finset.mem_inter, Finset.mem_filter]; tauto)
    · simp only [if_neg hk]
  · funext e
    simp only [DA.restrict, memberValues, if_neg hd]
  · rw [← dropMask_restrict, ← dropMask_restrict]
    refine (combineMask_restrict (m := m) ?_ ?_).symm
    · exact maskIn_reduce (W := FV K) hp d (fun _ _ => .nan)
    · exact maskIn_reduce (W := FV K) ht d (fun _ _ => .nan)

/-! ### A concrete case: two members against three -/

def exWp : StatVar ℕ (FV ℚ) := ⟨{ dims := {"number", "x"}, coords := fun k => if k = "number" then {0, 1} else {0}, val := fun e => .fin (3 * e "number") }, none⟩
def exWt : StatVar ℕ (FV ℚ) := ⟨{ dims := {"number", "x"}, coords := fun k => if k = "number" then {0, 1, 2} else {0}, val := fun e => .fin (e "number") }, none⟩

example : (∃ s, wasserstein "number" exWp exWt = .ok s) ∧ FiniteMembers "number" exWp (fun _ => 0) (fun l => 3 * l) ∧
    FiniteMembers "number" exWt (fun _ => 0) (fun l => l) := by
  refine ⟨(C75_errors _ _ _).mpr ⟨by simp [exWp], by simp [exWt], ?_, by simp [exWp], by simp [exWt]⟩, fun l _ => by simp [exWp, setLabel], fun l _ => by simp [exWt, setLabel]⟩
  intro k hk _ hkd
  simp [exWp, exWt, hkd]

end WBX
