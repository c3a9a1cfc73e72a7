import Verif.Model.Bootstrap
import Verif.Lemmas.MetricAlone
import Mathlib.Order.Interval.Finset.Nat
import Mathlib.Data.List.GetD
import Mathlib.Algebra.Order.Floor.Semiring

/-!
# C56 (first part): confidence intervals and p-values from bootstrap replicates
-/

set_option linter.unusedSectionVars false

namespace WBX
open Classical

/-! ### Piecewise linear interpolation of increasing numbers -/

theorem getD_mono {a : List ℝ} (h : a.Pairwise (· ≤ ·)) {i j : ℕ} (hij : i ≤ j) (hj : j < a.length) : a.getD i 0 ≤ a.getD j 0 := by
  rw [List.getD_eq_getElem _ _ (by omega), List.getD_eq_getElem _ _ hj]
  rcases hij.eq_or_lt with rfl | hlt
  · exact le_rfl
  · exact List.pairwise_iff_getElem.mp h i j (by omega) hj hlt

theorem getD_strict {a : List ℝ} (h : a.Pairwise (· < ·)) {i j : ℕ} (hij : i < j) (hj : j < a.length) : a.getD i 0 < a.getD j 0 := by
  rw [List.getD_eq_getElem _ _ (by omega), List.getD_eq_getElem _ _ hj]
  exact List.pairwise_iff_getElem.mp h i j (by omega) hj hij

/-- The interpolant of `a` at the position `t`. -/
noncomputable def interpolant (a : List ℝ) (t : ℝ) : ℝ :=
  a.getD ⌊t⌋₊ 0 + (a.getD (min (⌊t⌋₊ + 1) (a.length - 1)) 0 - a.getD ⌊t⌋₊ 0) * (t - ⌊t⌋₊)

theorem quantileSorted_eq (q : ℝ) (a : List ℝ) : quantileSorted q a = interpolant a (q * ((a.length : ℝ) - 1)) := rfl

section
variable {a : List ℝ} {t : ℝ}

theorem floor_cases (h0 : 0 ≤ t) (h1 : t ≤ (a.length : ℝ) - 1) : ⌊t⌋₊ < a.length ∧ (⌊t⌋₊ + 1 < a.length ∨ t = ⌊t⌋₊) := by
  have hf := Nat.floor_le h0
  have hlt : (⌊t⌋₊ : ℝ) < a.length := by linarith
  have hlt' : ⌊t⌋₊ < a.length := by exact_mod_cast hlt
  refine ⟨hlt', ?_⟩
  rcases lt_or_ge (⌊t⌋₊ + 1) a.length with h | h
  · exact Or.inl h
  · right
    have : (a.length : ℝ) ≤ ⌊t⌋₊ + 1 := by exact_mod_cast h
    linarith

/-- Between two neighbours. -/
theorem interpolant_between (ha : a.Pairwise (· ≤ ·)) (h0 : 0 ≤ t) (h1 : t ≤ (a.length : ℝ) - 1) :
    a.getD ⌊t⌋₊ 0 ≤ interpolant a t ∧ (⌊t⌋₊ + 1 < a.length → interpolant a t ≤ a.getD (⌊t⌋₊ + 1) 0) ∧ interpolant a t ≤ a.getD (a.length - 1) 0 := by
  obtain ⟨hf, hc⟩ := floor_cases h0 h1
  have hm : a.getD ⌊t⌋₊ 0 ≤ a.getD (min (⌊t⌋₊ + 1) (a.length - 1)) 0 := getD_mono ha (by omega) (by omega)
  have hm2 : a.getD (min (⌊t⌋₊ + 1) (a.length - 1)) 0 ≤ a.getD (a.length - 1) 0 := getD_mono ha (by omega) (by omega)
  have hg0 : 0 ≤ t - ⌊t⌋₊ := by linarith [Nat.floor_le h0]
  have hg1 : t - ⌊t⌋₊ ≤ 1 := by linarith [(Nat.lt_floor_add_one t).le]
  have hle : interpolant a t ≤ a.getD (min (⌊t⌋₊ + 1) (a.length - 1)) 0 := by unfold interpolant; nlinarith
  refine ⟨by unfold interpolant; nlinarith, fun h => ?_, hle.trans hm2⟩
  rwa [min_eq_left (by omega)] at hle

theorem interpolant_floor (hf : ⌊t⌋₊ + 1 < a.length) : interpolant a t = a.getD ⌊t⌋₊ 0 + (a.getD (⌊t⌋₊ + 1) 0 - a.getD ⌊t⌋₊ 0) * (t - ⌊t⌋₊) := by
  unfold interpolant; rw [min_eq_left (by omega)]

theorem interpolant_mono (ha : a.Pairwise (· ≤ ·)) {t' : ℝ} (h0 : 0 ≤ t) (ht : t ≤ t') (h1 : t' ≤ (a.length : ℝ) - 1) : interpolant a t ≤ interpolant a t' := by
  obtain ⟨hf, hc⟩ := floor_cases h0 (ht.trans h1)
  obtain ⟨hf', hc'⟩ := floor_cases (h0.trans ht) h1
  rcases (Nat.floor_mono ht).eq_or_lt with he | hlt
  · rcases hc with h | h
    · rw [interpolant_floor h, interpolant_floor (by omega), ← he]
      have := getD_mono ha (Nat.le_succ ⌊t⌋₊) h
      nlinarith
    · have e1 : interpolant a t = a.getD ⌊t⌋₊ 0 := by unfold interpolant; rw [sub_eq_zero.mpr h]; ring
      rw [e1, he]; exact (interpolant_between ha (h0.trans ht) h1).1
  · have h2 := (interpolant_between ha h0 (ht.trans h1)).2.1 (by omega)
    exact h2.trans ((getD_mono ha (by omega) hf').trans (interpolant_between ha (h0.trans ht) h1).1)

end

/-! ### The distribution function of the replicates -/

section
variable {a : List ℝ}

/-- `x` lies before all elements, or between two neighbours, or after all. -/
theorem interpCdf_cases (ha : a.Pairwise (· ≤ ·)) (hn : 2 ≤ a.length) (x : ℝ) :
    (x < a.getD 0 0 ∧ interpCdf x a = 0) ∨ (a.getD (a.length - 1) 0 ≤ x ∧ interpCdf x a = 1) ∨
    ∃ j, j + 1 < a.length ∧ a.getD j 0 ≤ x ∧ x < a.getD (j + 1) 0 ∧
      interpCdf x a * ((a.length : ℝ) - 1) = j + (x - a.getD j 0) / (a.getD (j + 1) 0 - a.getD j 0) := by
  have hnR : (2 : ℝ) ≤ a.length := by exact_mod_cast hn
  have hlin : ∀ j, linspace01 a.length j = (j : ℝ) / ((a.length : ℝ) - 1) := fun j => if_neg (by omega)
  have hne : (a.length : ℝ) - 1 ≠ 0 := by linarith
  by_cases hx : x < a.getD 0 0
  · left; refine ⟨hx, ?_⟩; simp only [interpCdf, hx, if_true, hlin]; simp
  · right
    set j := Nat.findGreatest (fun i => a.getD i 0 ≤ x) (a.length - 1) with hj
    have hjle : j ≤ a.length - 1 := Nat.findGreatest_le _
    have hjx : a.getD j 0 ≤ x := Nat.findGreatest_spec (P := fun i => a.getD i 0 ≤ x) (Nat.zero_le _) (not_lt.mp hx)
    by_cases hlast : j = a.length - 1
    · left
      refine ⟨by rw [← hlast]; exact hjx, ?_⟩
      simp only [interpCdf, hx, if_false, ← hj, hlast, if_true, hlin]
      rw [Nat.cast_sub (by omega), Nat.cast_one, div_self hne]
    · right
      have hgt : x < a.getD (j + 1) 0 := not_le.mp (Nat.findGreatest_is_greatest (P := fun i => a.getD i 0 ≤ x) (n := a.length - 1) (by omega) (by omega))
      have hd : a.getD (j + 1) 0 - a.getD j 0 ≠ 0 := by linarith
      refine ⟨j, by omega, hjx, hgt, ?_⟩
      simp only [interpCdf, hx, if_false, ← hj, hlast, hlin]
      push_cast
      field_simp
      ring

theorem interpCdf_bounds (ha : a.Pairwise (· ≤ ·)) (hn : 2 ≤ a.length) (x : ℝ) : 0 ≤ interpCdf x a ∧ interpCdf x a ≤ 1 := by
  have hnR : (2 : ℝ) ≤ a.length := by exact_mod_cast hn
  rcases interpCdf_cases ha hn x with ⟨_, h⟩ | ⟨_, h⟩ | ⟨j, hj, h1, h2, h⟩
  · rw [h]; norm_num
  · rw [h]; norm_num
  · have hg0 : 0 ≤ (x - a.getD j 0) / (a.getD (j + 1) 0 - a.getD j 0) := div_nonneg (by linarith) (by linarith)
    have hg1 : (x - a.getD j 0) / (a.getD (j + 1) 0 - a.getD j 0) ≤ 1 := by rw [div_le_one (by linarith)]; linarith
    have hjR : (j : ℝ) + 1 ≤ (a.length : ℝ) - 1 := by
      have : (j : ℝ) + 2 ≤ a.length := by exact_mod_cast (by omega : j + 2 ≤ a.length)
      linarith
    have hj0 : (0 : ℝ) ≤ j := Nat.cast_nonneg j
    constructor <;> nlinarith

/-- The quantile lies above `x` exactly if the distribution function at `x` is below `q`. -/
theorem lt_quantileSorted (ha : a.Pairwise (· ≤ ·)) (hn : 2 ≤ a.length) {q : ℝ} (h0 : 0 < q) (h1 : q ≤ 1) (x : ℝ) : x < quantileSorted q a ↔ interpCdf x a < q := by
  have hnR : (2 : ℝ) ≤ a.length := by exact_mod_cast hn
  have ht0 : 0 ≤ q * ((a.length : ℝ) - 1) := by nlinarith
  have ht1 : q * ((a.length : ℝ) - 1) ≤ (a.length : ℝ) - 1 := by nlinarith
  rw [quantileSorted_eq]
  obtain ⟨hb1, hb2, hb3⟩ := interpolant_between ha ht0 ht1
  obtain ⟨hf, hc⟩ := floor_cases ht0 ht1
  rcases interpCdf_cases ha hn x with ⟨hx, h⟩ | ⟨hx, h⟩ | ⟨j, hj, hx1, hx2, h⟩
  · rw [h]
    exact ⟨fun _ => h0, fun _ => hx.trans_le ((getD_mono ha (Nat.zero_le _) hf).trans hb1)⟩
  · rw [h]
    constructor
    · intro hlt; linarith
    · intro hlt; linarith
  · set t := q * ((a.length : ℝ) - 1) with ht
    have hiff : interpCdf x a < q ↔ (j : ℝ) + (x - a.getD j 0) / (a.getD (j + 1) 0 - a.getD j 0) < t := by
      rw [← h, ht]
      exact (mul_lt_mul_iff_left₀ (by linarith)).symm
    rw [hiff]
    have hd : 0 < a.getD (j + 1) 0 - a.getD j 0 := by linarith
    have hg0 : 0 ≤ (x - a.getD j 0) / (a.getD (j + 1) 0 - a.getD j 0) := div_nonneg (by linarith) hd.le
    have hg1 : (x - a.getD j 0) / (a.getD (j + 1) 0 - a.getD j 0) < 1 := by rw [div_lt_one hd]; linarith
    have hgx : x = a.getD j 0 + (a.getD (j + 1) 0 - a.getD j 0) * ((x - a.getD j 0) / (a.getD (j + 1) 0 - a.getD j 0)) := by field_simp; ring
    rcases lt_trichotomy ⌊t⌋₊ j with hlt | heq | hgt
    · have h2 := hb2 (by omega)
      have h3 := getD_mono ha (show ⌊t⌋₊ + 1 ≤ j by omega) (by omega)
      have ht2 : t < j := by
        have : (⌊t⌋₊ : ℝ) + 1 ≤ j := by exact_mod_cast hlt
        linarith [Nat.lt_floor_add_one t]
      constructor
      · intro hl; linarith
      · intro hl; linarith
    · rw [interpolant_floor (by omega), heq]
      constructor
      · intro hl
        by_contra hcon
        rw [not_lt] at hcon
        nlinarith
      · intro hl; nlinarith
    · have h3 := getD_mono ha (show j + 1 ≤ ⌊t⌋₊ by omega) hf
      have ht2 : (j : ℝ) + 1 ≤ t := by
        have : (j : ℝ) + 1 ≤ ⌊t⌋₊ := by exact_mod_cast hgt
        linarith [Nat.floor_le ht0]
      exact ⟨fun _ => by linarith, fun _ => by linarith⟩

/-- If the quantile lies below `x`, the distribution function at `x` exceeds `q`. -/
theorem quantileSorted_lt (ha : a.Pairwise (· ≤ ·)) (hn : 2 ≤ a.length) {q : ℝ} (h0 : 0 ≤ q) (h1 : q < 1) {x : ℝ} (hx : quantileSorted q a < x) : q < interpCdf x a := by
  have hnR : (2 : ℝ) ≤ a.length := by exact_mod_cast hn
  have ht0 : 0 ≤ q * ((a.length : ℝ) - 1) := by nlinarith
  have ht1 : q * ((a.length : ℝ) - 1) ≤ (a.length : ℝ) - 1 := by nlinarith
  rw [quantileSorted_eq] at hx
  obtain ⟨hb1, hb2, hb3⟩ := interpolant_between ha ht0 ht1
  obtain ⟨hf, hc⟩ := floor_cases ht0 ht1
  rcases interpCdf_cases ha hn x with ⟨hx', h⟩ | ⟨hx', h⟩ | ⟨j, hj, hx1, hx2, h⟩
  · have := getD_mono ha (Nat.zero_le ⌊q * ((a.length : ℝ) - 1)⌋₊) hf; linarith
  · rw [h]; exact h1
  · set t := q * ((a.length : ℝ) - 1) with ht
    have hd : 0 < a.getD (j + 1) 0 - a.getD j 0 := by linarith
    have hg0 : 0 ≤ (x - a.getD j 0) / (a.getD (j + 1) 0 - a.getD j 0) := div_nonneg (by linarith) hd.le
    have hgx : x = a.getD j 0 + (a.getD (j + 1) 0 - a.getD j 0) * ((x - a.getD j 0) / (a.getD (j + 1) 0 - a.getD j 0)) := by field_simp; ring
    have hiff : q < interpCdf x a ↔ t < (j : ℝ) + (x - a.getD j 0) / (a.getD (j + 1) 0 - a.getD j 0) := by
      rw [← h, ht]
      exact (mul_lt_mul_iff_left₀ (by linarith)).symm
    rw [hiff]
    rcases lt_trichotomy ⌊t⌋₊ j with hlt | heq | hgt
    · have : (⌊t⌋₊ : ℝ) + 1 ≤ j := by exact_mod_cast hlt
      linarith [Nat.lt_floor_add_one t]
    · rw [interpolant_floor (by omega), heq] at hx
      by_contra hcon
      rw [not_lt] at hcon
      nlinarith
    · have h3 := getD_mono ha (show j + 1 ≤ ⌊t⌋₊ by omega) hf
      linarith

/-- The converse for distinct numbers. -/
theorem lt_interpCdf (ha : a.Pairwise (· < ·)) (hn : 2 ≤ a.length) {q : ℝ} (h0 : 0 ≤ q) (h1 : q < 1) {x : ℝ} (hq : q < interpCdf x a) : quantileSorted q a < x := by
  have ha' : a.Pairwise (· ≤ ·) := ha.imp le_of_lt
  have hnR : (2 : ℝ) ≤ a.length := by exact_mod_cast hn
  have ht0 : 0 ≤ q * ((a.length : ℝ) - 1) := by nlinarith
  have ht1 : q * ((a.length : ℝ) - 1) < (a.length : ℝ) - 1 := by nlinarith
  rw [quantileSorted_eq]
  obtain ⟨hf, hc⟩ := floor_cases ht0 ht1.le
  set t := q * ((a.length : ℝ) - 1) with ht
  have hf1 : ⌊t⌋₊ + 1 < a.length := by
    rcases hc with h | h
    · exact h
    · have : (⌊t⌋₊ : ℝ) + 1 < a.length := by linarith
      exact_mod_cast this
  have hs := getD_strict ha (Nat.lt_succ_self ⌊t⌋₊) hf1
  have hstrict : interpolant a t < a.getD (⌊t⌋₊ + 1) 0 := by
    rw [interpolant_floor hf1]
    have := Nat.lt_floor_add_one t
    nlinarith
  rcases interpCdf_cases ha' hn x with ⟨hx', h⟩ | ⟨hx', h⟩ | ⟨j, hj, hx1, hx2, h⟩
  · rw [h] at hq; linarith
  · have := getD_mono ha' (show ⌊t⌋₊ + 1 ≤ a.length - 1 by omega) (by omega); linarith
  · have hd : 0 < a.getD (j + 1) 0 - a.getD j 0 := by linarith
    have hg1 : (x - a.getD j 0) / (a.getD (j + 1) 0 - a.getD j 0) < 1 := by rw [div_lt_one hd]; linarith
    have hgx : x = a.getD j 0 + (a.getD (j + 1) 0 - a.getD j 0) * ((x - a.getD j 0) / (a.getD (j + 1) 0 - a.getD j 0)) := by field_simp; ring
    have htj : t < (j : ℝ) + (x - a.getD j 0) / (a.getD (j + 1) 0 - a.getD j 0) := by
      rw [← h, ht]
      exact (mul_lt_mul_iff_left₀ (by linarith)).mpr hq
    rcases lt_trichotomy ⌊t⌋₊ j with hlt | heq | hgt
    · have := getD_mono ha' (show ⌊t⌋₊ + 1 ≤ j by omega) (by omega); linarith
    · rw [interpolant_floor hf1, heq]; nlinarith
    · have : (j : ℝ) + 1 ≤ ⌊t⌋₊ := by exact_mod_cast hgt
      linarith [Nat.floor_le ht0]

end

/-! ### Sorting -/

theorem sorted_pairwise (xs : List ℝ) : (sorted xs).Pairwise (· ≤ ·) := List.pairwise_insertionSort _ _
theorem sorted_perm (xs : List ℝ) : (sorted xs).Perm xs := List.perm_insertionSort _ _
theorem sorted_length (xs : List ℝ) : (sorted xs).length = xs.length := (sorted_perm xs).length_eq

theorem sorted_strict {xs : List ℝ} (h : xs.Nodup) : (sorted xs).Pairwise (· < ·) := by
  have h1 := sorted_pairwise xs
  have h2 : (sorted xs).Nodup := (sorted_perm xs).nodup_iff.mpr h
  exact (List.Pairwise.and h1 h2).imp (fun h => lt_of_le_of_ne h.1 h.2)

theorem sorted_of_perm {xs ys : List ℝ} (h : xs.Perm ys) : sorted xs = sorted ys :=
  List.Perm.eq_of_pairwise (fun _ _ _ _ => le_antisymm) (sorted_pairwise xs) (sorted_pairwise ys) ((sorted_perm xs).trans (h.trans (sorted_perm ys).symm))

theorem finites_map (ys : List ℝ) : finites (ys.map FV.fin) = ys := by
  unfold finites
  rw [List.filterMap_map]
  exact List.filterMap_some ..

/-! ### C56 -/

section
variable {xs : List (FV ℝ)} {alpha null : ℝ}

theorem quantile_fin (h : finites xs ≠ []) (q : ℝ) : quantile q xs = .fin (quantileSorted q (sorted (finites xs))) := if_neg h
theorem pValue_fin (h : finites xs ≠ []) : bootstrapPValue null xs = .fin (2 * min (interpCdf null (sorted (finites xs))) (1 - interpCdf null (sorted (finites xs)))) := if_neg h

/-- **C56** The confidence interval is ordered, within the range of the replicates, and the wider the smaller alpha. -/
theorem C56_interval (hne : finites xs ≠ []) {alpha' : ℝ} (h0 : 0 ≤ alpha) (hle : alpha ≤ alpha') (h1 : alpha' ≤ 1) :
    ∃ l l' u' u, quantile (alpha / 2) xs = .fin l ∧ quantile (alpha' / 2) xs = .fin l' ∧ quantile (1 - alpha' / 2) xs = .fin u' ∧ quantile (1 - alpha / 2) xs = .fin u ∧
      l ≤ l' ∧ l' ≤ u' ∧ u' ≤ u ∧ (∃ x ∈ finites xs, x ≤ l) ∧ (∃ x ∈ finites xs, u ≤ x) := by
  have ha := sorted_pairwise (finites xs)
  have hlen : 1 ≤ (sorted (finites xs)).length := by rw [sorted_length]; exact List.length_pos_iff.mpr hne
  have hR : (0 : ℝ) ≤ ((sorted (finites xs)).length : ℝ) - 1 := by
    have : (1 : ℝ) ≤ (sorted (finites xs)).length := by exact_mod_cast hlen
    linarith
  have hmem : ∀ i < (sorted (finites xs)).length, (sorted (finites xs)).getD i 0 ∈ finites xs := by
    intro i hi
    rw [List.getD_eq_getElem _ _ hi]
    exact (sorted_perm _).subset (List.getElem_mem hi)
  refine ⟨_, _, _, _, quantile_fin hne _, quantile_fin hne _, quantile_fin hne _, quantile_fin hne _, ?_, ?_, ?_, ?_, ?_⟩
  · exact interpolant_mono ha (by nlinarith) (by nlinarith) (by nlinarith)
  · exact interpolant_mono ha (by nlinarith) (by nlinarith) (by nlinarith)
  · exact interpolant_mono ha (by nlinarith) (by nlinarith) (by nlinarith)
  · have hp0 : 0 ≤ alpha / 2 * (((sorted (finites xs)).length : ℝ) - 1) := by nlinarith
    have hp1 : alpha / 2 * (((sorted (finites xs)).length : ℝ) - 1) ≤ ((sorted (finites xs)).length : ℝ) - 1 := by nlinarith
    exact ⟨_, hmem _ (floor_cases hp0 hp1).1, (interpolant_between ha hp0 hp1).1⟩
  · exact ⟨_, hmem _ (by omega), (interpolant_between ha (t := (1 - alpha / 2) * (((sorted (finites xs)).length : ℝ) - 1)) (by nlinarith) (by nlinarith)).2.2⟩

/-- **C56** p-values lie in `[0, 1]`. -/
theorem C56_p_value (hn : 2 ≤ (finites xs).length) : ∃ p, bootstrapPValue null xs = .fin p ∧ 0 ≤ p ∧ p ≤ 1 := by
  have hne : finites xs ≠ [] := by intro h; rw [h] at hn; simp at hn
  obtain ⟨h0, h1⟩ := interpCdf_bounds (sorted_pairwise (finites xs)) (by rwa [sorted_length]) null
  refine ⟨_, pValue_fin hne, ?_, ?_⟩
  · have := le_min h0 (sub_nonneg.mpr h1); linarith
  · rcases le_total (interpCdf null (sorted (finites xs))) (1 - interpCdf null (sorted (finites xs))) with h | h
    · rw [min_eq_left h]; linarith
    · rw [min_eq_right h]; linarith

/-- **C56** A null value outside of the confidence interval has a p-value below alpha. -/
theorem C56_outside (hn : 2 ≤ (finites xs).length) (h0 : 0 < alpha) (h1 : alpha < 1)
    (h : FV.lt (.fin null) (quantile (alpha / 2) xs) = true ∨ FV.lt (quantile (1 - alpha / 2) xs) (.fin null) = true) :
    FV.lt (bootstrapPValue null xs) (.fin alpha) = true := by
  have hne : finites xs ≠ [] := by intro h; rw [h] at hn; simp at hn
  have ha := sorted_pairwise (finites xs)
  have hl : 2 ≤ (sorted (finites xs)).length := by rwa [sorted_length]
  rw [quantile_fin hne, quantile_fin hne] at h
  rw [pValue_fin hne]
  simp only [FV.lt, decide_eq_true_eq] at h ⊢
  rcases h with h | h
  · have := (lt_quantileSorted ha hl (by linarith) (by linarith) null).mp h
    have := min_le_left (interpCdf null (sorted (finites xs))) (1 - interpCdf null (sorted (finites xs)))
    linarith
  · have := quantileSorted_lt ha hl (by linarith) (by linarith) h
    have := min_le_right (interpCdf null (sorted (finites xs))) (1 - interpCdf null (sorted (finites xs)))
    linarith

/-- **C56** For distinct replicates the converse holds as well: a p-value below alpha means that the null value is outside of the interval. -/
theorem C56_duality (hn : 2 ≤ (finites xs).length) (hd : (finites xs).Nodup) (h0 : 0 < alpha) (h1 : alpha < 1) :
    FV.lt (bootstrapPValue null xs) (.fin alpha) = true ↔
      FV.lt (.fin null) (quantile (alpha / 2) xs) = true ∨ FV.lt (quantile (1 - alpha / 2) xs) (.fin null) = true := by
  refine ⟨fun h => ?_, C56_outside hn h0 h1⟩
  have hne : finites xs ≠ [] := by intro h; rw [h] at hn; simp at hn
  have ha := sorted_pairwise (finites xs)
  have hl : 2 ≤ (sorted (finites xs)).length := by rwa [sorted_length]
  rw [pValue_fin hne] at h
  rw [quantile_fin hne, quantile_fin hne]
  simp only [FV.lt, decide_eq_true_eq] at h ⊢
  rcases min_lt_iff.mp (show min (interpCdf null (sorted (finites xs))) (1 - interpCdf null (sorted (finites xs))) < alpha / 2 by linarith) with h | h
  · exact Or.inl ((lt_quantileSorted ha hl (by linarith) (by linarith) null).mpr h)
  · exact Or.inr (lt_interpCdf (sorted_strict hd) hl (by linarith) (by linarith) (by linarith))

/-- **C56** The order of the replicates does not matter, and NaN replicates are left out. -/
theorem C56_order {ys : List (FV ℝ)} (h : (finites xs).Perm (finites ys)) (q : ℝ) : quantile q xs = quantile q ys ∧ bootstrapPValue null xs = bootstrapPValue null ys := by
  have hnil : finites xs = [] ↔ finites ys = [] := by
    constructor
    · intro hx; rw [hx] at h; exact h.nil_eq.symm
    · intro hy; rw [hy] at h; exact h.eq_nil
  unfold quantile bootstrapPValue
  simp only [sorted_of_perm h, hnil]
  exact ⟨trivial, trivial⟩

/-- **C56** Without any number everything is NaN. -/
theorem C56_all_nan (h : ∀ x ∈ xs, x = .nan) (q : ℝ) : quantile q xs = .nan ∧ bootstrapPValue null xs = .nan ∧ bootstrapStd xs = .nan := by
  have hf : finites xs = [] := by
    unfold finites; rw [List.filterMap_eq_nil_iff]; intro x hx; rw [h x hx]
  exact ⟨if_pos hf, if_pos hf, by simp [bootstrapStd, hf]⟩

/-- **C56** The standard error is the sample standard deviation of the replicates that are numbers: deviations from the mean `m`, squared, summed, and divided by their number
minus one. With less than two numbers it is NaN. -/
theorem C56_std : ((finites xs).length < 2 → bootstrapStd xs = .nan) ∧
    (2 ≤ (finites xs).length → ∃ s m : ℝ, bootstrapStd xs = .fin s ∧ 0 ≤ s ∧ ((finites xs).map (fun y => y - m)).sum = 0 ∧
      s ^ 2 * ((finites xs).length - 1) = ((finites xs).map (fun y => (y - m) ^ 2)).sum) := by
  constructor
  · intro h
    rw [bootstrapStd]
    exact if_pos (by omega)
  · intro h
    have hl : (2 : ℝ) ≤ (finites xs).length := by exact_mod_cast h
    refine ⟨√(((finites xs).map (fun y => (y - (finites xs).sum / (finites xs).length) ^ 2)).sum / ((finites xs).length - 1)), (finites xs).sum / (finites xs).length, ?_, Real.sqrt_nonneg _, ?_, ?_⟩
    · rw [bootstrapStd]
      exact if_neg (by omega)
    · have key : ∀ (l : List ℝ) (c : ℝ), (l.map (fun y => y - c)).sum = l.sum - l.length * c := by
        intro l c
        induction l with
        | nil => simp
        | cons a l ih => simp only [List.map_cons, List.sum_cons, ih, List.length_cons]; push_cast; ring
      rw [key]
      field_simp
      ring
    · rw [Real.sq_sqrt, div_mul_cancel₀ _ (by linarith)]
      apply div_nonneg
      · apply List.sum_nonneg
        intro y hy
        obtain ⟨z, _, rfl⟩ := List.mem_map.mp hy
        exact sq_nonneg _
      · linarith

/-- Three replicates, one of them NaN. -/
example : bootstrapStd [.fin 1, .nan, .fin 3] = .fin √2 := by
  simp only [bootstrapStd, finites, List.filterMap_cons, List.filterMap_nil]
  norm_num

end

theorem sorted_replicate (n : ℕ) (x : ℝ) : sorted (List.replicate n x) = List.replicate n x :=
  List.eq_replicate_iff.mpr ⟨by rw [sorted_length, List.length_replicate], fun b hb => (List.mem_replicate.mp ((sorted_perm _).subset hb)).2⟩

/-- **C56** ★ If all replicates equal the null value (two identical models) the p-value is 0, although the confidence interval is that very value; the t-test has the
p-value 1 in this case (`C54_no_spread`). -/
theorem C56_no_spread (n : ℕ) (hn : 2 ≤ n) (x : ℝ) (q : ℝ) (h0 : 0 ≤ q) (h1 : q ≤ 1) :
    bootstrapPValue x (List.replicate n (.fin x)) = .fin 0 ∧ quantile q (List.replicate n (.fin x)) = .fin x := by
  have hf : finites (List.replicate n (.fin x)) = List.replicate n x := by
    rw [← List.map_replicate]; exact finites_map _
  have hne : finites (List.replicate n (.fin x)) ≠ [] := by rw [hf]; simp; omega
  have hget : ∀ i < n, (List.replicate n x).getD i 0 = x := by intro i hi; rw [List.getD_eq_getElem _ _ (by simpa using hi)]; simp
  constructor
  · rw [pValue_fin hne, hf, sorted_replicate]
    rcases interpCdf_cases (a := List.replicate n x) (by rw [← sorted_replicate]; exact sorted_pairwise _) (by simpa using hn) x with ⟨hx, h⟩ | ⟨hx, h⟩ | ⟨j, hj, hx1, hx2, h⟩
    · rw [hget 0 (by omega)] at hx; exact absurd hx (lt_irrefl _)
    · rw [h]; norm_num
    · rw [List.length_replicate] at hj; rw [hget _ hj] at hx2; exact absurd hx2 (lt_irrefl _)
  · rw [quantile_fin hne, hf, sorted_replicate]
    have hnR : (2 : ℝ) ≤ n := by exact_mod_cast hn
    have hlen : ((List.replicate n x).length : ℝ) = n := by simp
    have hb := interpolant_between (a := List.replicate n x) (t := q * (((List.replicate n x).length : ℝ) - 1)) (by rw [← sorted_replicate]; exact sorted_pairwise _)
      (by rw [hlen]; nlinarith) (by rw [hlen]; nlinarith)
    have hfl := floor_cases (a := List.replicate n x) (t := q * (((List.replicate n x).length : ℝ) - 1)) (by rw [hlen]; nlinarith) (by rw [hlen]; nlinarith)
    have e1 := hget ⌊q * (((List.replicate n x).length : ℝ) - 1)⌋₊ (lt_of_lt_of_eq hfl.1 List.length_replicate)
    have e2 := hget ((List.replicate n x).length - 1) (by rw [List.length_replicate]; omega)
    rw [quantileSorted_eq]
    congr 1
    exact le_antisymm (hb.2.2.trans e2.le) (e1.ge.trans hb.1)

/-- **C56** ★ With a single replicate every null value has the p-value 0. -/
theorem C56_single_replicate (x null : ℝ) : bootstrapPValue null [.fin x] = .fin 0 := by
  have hf : finites [.fin x] = [x] := rfl
  have hs : sorted [x] = [x] := rfl
  have hc : interpCdf null [x] = 0 := by
    simp [interpCdf, linspace01]
  rw [pValue_fin (by rw [hf]; simp), hf, hs, hc]
  norm_num

/-! ### The hypotheses can be met -/

example : 2 ≤ (finites [.fin 1, .nan, .fin 3]).length ∧ (finites [.fin 1, .nan, .fin 3]).Nodup := by
  have : finites [.fin 1, .nan, .fin 3] = [1, 3] := rfl
  rw [this]; norm_num

end WBX
