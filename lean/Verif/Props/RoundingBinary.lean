import Verif.Props.Rounding
import Mathlib.Tactic.NormNum
import Mathlib.Algebra.Order.Round
import Mathlib.Analysis.SpecialFunctions.Sqrt

/-!
# C90: binary floating-point numbers

Rounding to the nearest binary number with `p + 1` digits is a rounding in the sense of C90, with unit `2^-(p+1)`.
-/

namespace WBX
set_option linter.unusedSectionVars false

theorem zpow_two_pos (n : ℤ) : (0 : ℝ) < 2 ^ n := zpow_pos (by norm_num) n

/-- The unit in the last place. -/
noncomputable def ulp (p : ℕ) (x : ℝ) : ℝ := (2 : ℝ) ^ (Int.log 2 |x| - (p : ℤ))

theorem roundBinary_eq (p : ℕ) (x : ℝ) : roundBinary p x = (round (x / ulp p x) : ℤ) * ulp p x := rfl

theorem ulp_pos (p : ℕ) (x : ℝ) : 0 < ulp p x := zpow_two_pos _

/-- At most half a unit in the last place. -/
theorem roundBinary_close (p : ℕ) (x : ℝ) : |roundBinary p x - x| ≤ 1 / 2 * ulp p x := by
  have hu := ulp_pos p x
  have h1 : roundBinary p x - x = (((round (x / ulp p x) : ℤ) : ℝ) - x / ulp p x) * ulp p x := by
    rw [roundBinary_eq]; field_simp
  rw [h1, abs_mul, abs_of_pos hu, abs_sub_comm]
  exact mul_le_mul_of_nonneg_right (abs_sub_round _) hu.le

theorem ulp_le (p : ℕ) {x : ℝ} (hx : x ≠ 0) : ulp p x * 2 ^ p ≤ |x| := by
  have h := Int.zpow_log_le_self (b := 2) (by norm_num : 1 < 2) (abs_pos.mpr hx)
  have : ulp p x * 2 ^ p = (2 : ℝ) ^ Int.log 2 |x| := by
    unfold ulp
    rw [zpow_sub₀ (by norm_num), zpow_natCast]
    field_simp
  rw [this]
  exact_mod_cast h

theorem lt_ulp (p : ℕ) (x : ℝ) : |x| < ulp p x * 2 ^ (p + 1) := by
  have h := Int.lt_zpow_succ_log_self (b := 2) (by norm_num : 1 < 2) |x|
  have : ulp p x * 2 ^ (p + 1) = (2 : ℝ) ^ (Int.log 2 |x| + 1) := by
    unfold ulp
    rw [zpow_sub₀ (by norm_num), zpow_add₀ (by norm_num), zpow_natCast, pow_succ]
    field_simp
  rw [this]
  exact_mod_cast h

/-- A multiple of a power of two with at most `p + 1` digits stays as it is. -/
theorem roundBinary_fixed (p : ℕ) (m : ℤ) (n : ℤ) (hm : 2 ^ p ≤ |m|) (hm' : |m| ≤ 2 ^ (p + 1)) : roundBinary p (m * (2 : ℝ) ^ n) = m * (2 : ℝ) ^ n := by
  -- `2^n` is a multiple of the unit in the last place of the number
  have hn := zpow_two_pos n
  have hmr : (2 : ℝ) ^ p ≤ |(m : ℝ)| := by exact_mod_cast hm
  have hmr' : |(m : ℝ)| ≤ 2 ^ (p + 1) := by exact_mod_cast hm'
  have habs : |(m : ℝ) * (2 : ℝ) ^ n| = |(m : ℝ)| * 2 ^ n := by rw [abs_mul, abs_of_pos hn]
  have hx : (m : ℝ) * (2 : ℝ) ^ n ≠ 0 := by
    refine mul_ne_zero ?_ hn.ne'
    intro h
    rw [h, abs_zero] at hmr
    exact absurd hmr (not_le.mpr (by positivity))
  set x := (m : ℝ) * (2 : ℝ) ^ n with hxd
  -- the exponent
  have hlow : n ≤ Int.log 2 |x| - p := by
    have h1 : (2 : ℝ) ^ (n + p) ≤ |x| := by
      rw [habs, zpow_add₀ (by norm_num), zpow_natCast, mul_comm]
      exact mul_le_mul_of_nonneg_right hmr hn.le
    have h2 := (Int.zpow_le_iff_le_log (b := 2) (by norm_num) (abs_pos.mpr hx)).mp (by exact_mod_cast h1)
    omega
  have hhigh : Int.log 2 |x| - p ≤ n + 1 := by
    have h1 : (2 : ℝ) ^ (Int.log 2 |x|) ≤ |x| := by exact_mod_cast Int.zpow_log_le_self (b := 2) (by norm_num : 1 < 2) (abs_pos.mpr hx)
    have h2 : |x| ≤ (2 : ℝ) ^ (n + (p + 1)) := by
      rw [habs, zpow_add₀ (by norm_num), mul_comm ((2 : ℝ) ^ n)]
      refine mul_le_mul_of_nonneg_right ?_ hn.le
      have : (2 : ℝ) ^ ((p : ℤ) + 1) = 2 ^ (p + 1) := by exact_mod_cast zpow_natCast (2 : ℝ) (p + 1)
      rw [this]; exact hmr'
    have h3 := (zpow_le_zpow_iff_right₀ (by norm_num : (1 : ℝ) < 2)).mp (le_trans h1 h2)
    omega
  rw [roundBinary_eq]
  rcases eq_or_lt_of_le hlow with h | h
  · have hu : ulp p x = 2 ^ n := by unfold ulp; rw [← h]
    rw [hu, hxd, mul_div_cancel_right₀ _ hn.ne', round_intCast]
  · have he : Int.log 2 |x| - p = n + 1 := by omega
    have hu : ulp p x = 2 ^ n * 2 := by unfold ulp; rw [he, zpow_add₀ (by norm_num), zpow_one]
    -- then the number is plus or minus the power of two
    have h1 := ulp_le p hx
    rw [hu, habs] at h1
    have h2 : (2 : ℝ) ^ (p + 1) ≤ |(m : ℝ)| := by
      rw [pow_succ]
      have : 2 ^ n * (2 ^ p * 2) ≤ (2 : ℝ) ^ n * |(m : ℝ)| := by linarith
      exact le_of_mul_le_mul_left this hn
    have h3 : |m| = 2 ^ (p + 1) := le_antisymm hm' (by exact_mod_cast h2)
    have h4 : ∃ j : ℤ, m = j * 2 := by
      rcases abs_eq (by positivity : (0 : ℤ) ≤ 2 ^ (p + 1)) |>.mp h3 with h | h
      · exact ⟨2 ^ p, by rw [h, pow_succ]⟩
      · exact ⟨-2 ^ p, by rw [h, pow_succ]; ring⟩
    obtain ⟨j, hj⟩ := h4
    have h5 : x = (j : ℝ) * (2 ^ n * 2) := by rw [hxd, hj]; push_cast; ring
    rw [hu]
    conv_lhs => rw [h5]
    rw [mul_div_cancel_right₀ _ (by positivity), round_intCast, h5]

/-- Binary floating-point numbers with `p + 1` digits: a rounding with unit `2^-(p+1)`. -/
noncomputable def binary (p : ℕ) : Rounding where
  rnd := roundBinary p
  unit := 1 / 2 ^ (p + 1)
  nonneg := by positivity
  close := by
    intro x
    by_cases hx : x = 0
    · subst hx; simp [roundBinary]
    · refine le_trans (roundBinary_close p x) ?_
      have h := ulp_le p hx
      rw [pow_succ, one_div_mul_eq_div, one_div_mul_eq_div, div_le_div_iff₀ (by norm_num) (by positivity)]
      linarith
  idem := by
    intro x
    by_cases hx : x = 0
    · subst hx; simp [roundBinary]
    · have hu := ulp_pos p x
      have h1 := ulp_le p hx
      have h2 := lt_ulp p x
      have hq : |x / ulp p x| = |x| / ulp p x := by rw [abs_div, abs_of_pos hu]
      have q1 : (2 : ℝ) ^ p ≤ |x / ulp p x| := by rw [hq, le_div_iff₀ hu]; linarith
      have q2 : |x / ulp p x| ≤ 2 ^ (p + 1) := by rw [hq, div_le_iff₀ hu]; linarith
      have key : 2 ^ p ≤ |round (x / ulp p x)| ∧ |round (x / ulp p x)| ≤ 2 ^ (p + 1) := by
        set y := x / ulp p x with hy
        have e1 : ∀ N : ℤ, (N : ℝ) ≤ y → N ≤ round y := by
          intro N hN
          rw [round_eq]
          exact Int.le_floor.mpr (by linarith)
        have e2 : ∀ N : ℤ, y ≤ (N : ℝ) → round y ≤ N := by
          intro N hN
          rw [round_eq]
          have : ⌊y + 1 / 2⌋ < N + 1 := Int.floor_lt.mpr (by push_cast; linarith)
          omega
        have c1 : ((2 ^ p : ℤ) : ℝ) = 2 ^ p := by norm_cast
        have c2 : ((2 ^ (p + 1) : ℤ) : ℝ) = 2 ^ (p + 1) := by norm_cast
        have hp0 : (0 : ℤ) < 2 ^ p := by positivity
        rcases le_total 0 y with h0 | h0
        · rw [abs_of_nonneg h0] at q1 q2
          have a1 := e1 (2 ^ p) (by rw [c1]; exact q1)
          have a2 := e2 (2 ^ (p + 1)) (by rw [c2]; exact q2)
          rw [abs_of_nonneg (by omega)]
          exact ⟨a1, a2⟩
        · rw [abs_of_nonpos h0] at q1 q2
          have a1 := e2 (-(2 ^ p)) (by push_cast; linarith)
          have a2 := e1 (-(2 ^ (p + 1))) (by push_cast; linarith)
          rw [abs_of_nonpos (by omega)]
          constructor <;> omega
      exact roundBinary_fixed p _ _ key.1 key.2

/-- C90 for double precision: as long as at most `2^45` roundings pile up, two evaluations of a mean differ by at most `(8 k + 4) 2^-53` times the weighted mean of the absolute values. -/
theorem C90_double_precision {L : Type} [DecidableEq L] {ι : Type} {x : ι → Fl (binary 52)} {e e' : Dim → L} (r : MeanRun (binary 52) L ι x e) (r' : MeanRun (binary 52) L ι x e') {k : ℕ} (hk : r.CostAtMost k)
    (hk' : r'.CostAtMost k) (hT : r.numerator.Perm r'.numerator) (hU : r.denominator.Perm r'.denominator) (hpos : ∀ t ∈ r.denominator, ∀ i ∈ t, 0 ≤ (x i).val)
    (hW : 0 < sumOfProducts r.denominator (fun i => (x i).val)) (hsize : k ≤ 2 ^ 45) :
    |r.mean - r'.mean| ≤ (8 * k + 4) / 2 ^ 53 * (sumOfProducts r.numerator (fun i => |(x i).val|) / sumOfProducts r.denominator (fun i => (x i).val)) := by
  have hunit : (binary 52).unit = 1 / 2 ^ 53 := rfl
  have hk45 : (k : ℝ) ≤ 2 ^ 45 := by exact_mod_cast hsize
  obtain ⟨hb, hf⟩ := C90_factor (binary 52) k (by rw [hunit]; rw [show (2 : ℝ) ^ 45 = 35184372088832 by norm_num] at hk45; norm_num; linarith)
  refine le_trans (C90_chunkings_agree r r' hk hk' hT hU hpos hW hb) ?_
  have hM : 0 ≤ sumOfProducts r.numerator (fun i => |(x i).val|) / sumOfProducts r.denominator (fun i => (x i).val) := by
    refine div_nonneg ?_ hW.le
    unfold sumOfProducts
    refine List.sum_nonneg ?_
    intro y hy
    obtain ⟨t, ht, rfl⟩ := List.mem_map.mp hy
    clear ht
    show 0 ≤ (t.map (fun i => |(x i).val|)).prod
    clear hy
    induction t with
    | nil => simp
    | cons i t ih => rw [List.map_cons, List.prod_cons]; exact mul_nonneg (abs_nonneg _) ih
  refine mul_le_mul_of_nonneg_right ?_ hM
  rw [hunit] at hf
  have : (8 * (k : ℝ) + 4) / 2 ^ 53 = 2 * ((4 * k + 2) * (1 / 2 ^ 53)) := by ring
  rw [this]
  linarith

/-! ### Statistics that are not negative: relative errors -/

section relative
variable {L : Type} [DecidableEq L] {R : Rounding} {ι : Type} {x : ι → Fl R} {e : Dim → L}

/-- C90: for a statistic that is not negative (squared or absolute errors, contingency cells, ...) the relative error of the mean is at most `meanFactor R k k`. -/
theorem C90_relative (r : MeanRun R L ι x e) {k : ℕ} (hk : r.CostAtMost k) (hnum : ∀ t ∈ r.numerator, ∀ i ∈ t, 0 ≤ (x i).val) (hpos : ∀ t ∈ r.denominator, ∀ i ∈ t, 0 ≤ (x i).val)
    (hW : 0 < sumOfProducts r.denominator (fun i => (x i).val)) (hb : (1 + R.unit) ^ k < 2) :
    |r.mean - sumOfProducts r.numerator (fun i => (x i).val) / sumOfProducts r.denominator (fun i => (x i).val)| ≤
      meanFactor R k k * (sumOfProducts r.numerator (fun i => (x i).val) / sumOfProducts r.denominator (fun i => (x i).val)) := by
  have h := C90_mean r hk hpos hW hb
  have habs : sumOfProducts r.numerator (fun i => |(x i).val|) = sumOfProducts r.numerator (fun i => (x i).val) := by
    unfold sumOfProducts
    congr 1
    refine List.map_congr_left (fun t ht => ?_)
    congr 1
    exact List.map_congr_left (fun i hi => abs_of_nonneg (hnum t ht i hi))
  rwa [habs] at h

/-- The square root of a number with a small relative error. -/
theorem sqrt_relative {v s δ : ℝ} (hs : 0 ≤ s) (hδ : δ ≤ 1) (h : |v - s| ≤ δ * s) : |Real.sqrt v - Real.sqrt s| ≤ δ * Real.sqrt s := by
  rcases hs.eq_or_lt with rfl | hs
  · rw [mul_zero] at h
    have hv : v = 0 := by
      have := abs_nonpos_iff.mp h
      linarith
    rw [hv]; simp
  · have hδ0 : 0 ≤ δ := by
      by_contra hneg
      have h1 := le_trans (abs_nonneg _) h
      nlinarith
    have hr := Real.sqrt_pos.mpr hs
    have hsq := Real.sq_sqrt hs.le
    obtain ⟨h1, h2⟩ := abs_le.mp h
    have hv : 0 ≤ v := by nlinarith
    have hv0 := Real.sqrt_nonneg v
    have hvsq := Real.sq_sqrt hv
    -- |√v - √s| √s ≤ |√v - √s| (√v + √s) = |v - s| ≤ δ (√s)²
    have e1 : |Real.sqrt v - Real.sqrt s| * (Real.sqrt v + Real.sqrt s) = |v - s| := by
      rw [← abs_of_nonneg (by linarith : 0 ≤ Real.sqrt v + Real.sqrt s), ← abs_mul]
      congr 1
      nlinarith
    have e2 : |Real.sqrt v - Real.sqrt s| * Real.sqrt s ≤ δ * Real.sqrt s * Real.sqrt s := by
      calc _ ≤ |Real.sqrt v - Real.sqrt s| * (Real.sqrt v + Real.sqrt s) := by
            exact mul_le_mul_of_nonneg_left (by linarith) (abs_nonneg _)
        _ ≤ δ * s := by rw [e1]; exact h
        _ = δ * Real.sqrt s * Real.sqrt s := by rw [mul_assoc, ← sq, hsq]
    exact le_of_mul_le_mul_right e2 hr

/-- C90: the RMSE, `sqrt` of the mean squared error, also rounded: its relative error is at most `(1 + u) (1 + meanFactor R k k) - 1`. -/
theorem C90_rmse (r : MeanRun R L ι x e) {k : ℕ} (hk : r.CostAtMost k) (hnum : ∀ t ∈ r.numerator, ∀ i ∈ t, 0 ≤ (x i).val) (hpos : ∀ t ∈ r.denominator, ∀ i ∈ t, 0 ≤ (x i).val)
    (hW : 0 < sumOfProducts r.denominator (fun i => (x i).val)) (hb : (1 + R.unit) ^ k < 2) (hsmall : meanFactor R k k ≤ 1) :
    |R.rnd (Real.sqrt r.mean) - Real.sqrt (sumOfProducts r.numerator (fun i => (x i).val) / sumOfProducts r.denominator (fun i => (x i).val))| ≤
      ((1 + R.unit) * (1 + meanFactor R k k) - 1) * Real.sqrt (sumOfProducts r.numerator (fun i => (x i).val) / sumOfProducts r.denominator (fun i => (x i).val)) := by
  have h := C90_relative r hk hnum hpos hW hb
  set s := sumOfProducts r.numerator (fun i => (x i).val) / sumOfProducts r.denominator (fun i => (x i).val) with hs
  have hprod : ∀ t : List ι, (∀ i ∈ t, 0 ≤ (x i).val) → 0 ≤ (t.map (fun i => (x i).val)).prod := by
    intro t
    induction t with
    | nil => simp
    | cons i t ih =>
      intro ht
      rw [List.map_cons, List.prod_cons]
      exact mul_nonneg (ht i List.mem_cons_self) (ih (fun j hj => ht j (List.mem_cons_of_mem _ hj)))
  have hs0 : 0 ≤ s := by
    refine div_nonneg (List.sum_nonneg ?_) hW.le
    intro y hy
    obtain ⟨t, ht, rfl⟩ := List.mem_map.mp hy
    exact hprod t (hnum t ht)
  have h1 := sqrt_relative hs0 hsmall h
  have h2 : |Real.sqrt r.mean| ≤ (1 + meanFactor R k k) * Real.sqrt s := by
    have : |Real.sqrt r.mean| ≤ |Real.sqrt r.mean - Real.sqrt s| + |Real.sqrt s| := by
      calc |Real.sqrt r.mean| = |(Real.sqrt r.mean - Real.sqrt s) + Real.sqrt s| := by ring_nf
        _ ≤ _ := abs_add_le _ _
    rw [abs_of_nonneg (Real.sqrt_nonneg s)] at this
    linarith
  calc |R.rnd (Real.sqrt r.mean) - Real.sqrt s| = |(R.rnd (Real.sqrt r.mean) - Real.sqrt r.mean) + (Real.sqrt r.mean - Real.sqrt s)| := by ring_nf
    _ ≤ |R.rnd (Real.sqrt r.mean) - Real.sqrt r.mean| + |Real.sqrt r.mean - Real.sqrt s| := abs_add_le _ _
    _ ≤ R.unit * ((1 + meanFactor R k k) * Real.sqrt s) + meanFactor R k k * Real.sqrt s :=
      add_le_add (le_trans (R.close _) (mul_le_mul_of_nonneg_left h2 R.nonneg)) h1
    _ = _ := by ring

end relative

/-! ### The order does matter -/

theorem roundBinary_val (p : ℕ) (n m : ℤ) {x : ℝ} (h1 : (2 : ℝ) ^ n ≤ x) (h2 : x < (2 : ℝ) ^ (n + 1)) (h3 : (m : ℝ) - 1 / 2 ≤ x / 2 ^ (n - p)) (h4 : x / 2 ^ (n - p) < m + 1 / 2) :
    roundBinary p x = m * (2 : ℝ) ^ (n - p) := by
  have hx : 0 < x := lt_of_lt_of_le (zpow_two_pos n) h1
  have hlog : Int.log 2 |x| = n := by
    rw [abs_of_pos hx]
    have a := (Int.zpow_le_iff_le_log (b := 2) (by norm_num) hx).mp (by exact_mod_cast h1)
    have b := (Int.lt_zpow_iff_log_lt (b := 2) (by norm_num) hx).mp (by exact_mod_cast h2)
    omega
  unfold roundBinary
  rw [hlog]
  have : round (x / (2 : ℝ) ^ (n - p)) = m := by
    rw [round_eq, Int.floor_eq_iff]
    constructor <;> linarith
  rw [this]

/-- Two binary digits. -/
noncomputable def exFl (m : ℤ) (n : ℤ) (hm : 2 ^ 1 ≤ |m|) (hm' : |m| ≤ 2 ^ (1 + 1)) : Fl (binary 1) := ⟨m * (2 : ℝ) ^ n, roundBinary_fixed 1 m n hm hm'⟩

/-- An array without dimensions. -/
def exScalar {R : Rounding} (v : Fl R) : DA ℕ (Fl R) := DA.scalar v

theorem exScalar_sum {R : Rounding} (a b : Fl R) (e : Dim → ℕ) : (combiningSum [exScalar a, exScalar b]).val e = a + b := by
  rw [fl_val]
  have h : ∀ v : Fl R, (exScalar v).InDom e := fun v d hd => by simp [exScalar, DA.scalar] at hd
  simp only [List.map_cons, List.map_nil, if_pos (h a), if_pos (h b), List.foldl_cons, List.foldl_nil]
  show (0 + a) + b = _
  rw [Fl.zero_add']

/-- C90: the bound cannot be improved to equality: with two binary digits, adding 4, 3/4 and 3/4 one after the other gives 4, and merging the accumulators of 4 and of the other two gives 6 (exact: 5.5). -/
theorem C90_order_matters : ∃ (inputs : List (DA ℕ (Fl (binary 1)))) (v w : DA ℕ (Fl (binary 1))), CombineRun inputs (some v) ∧ CombineRun inputs (some w) ∧
    ∀ e, (v.val e).val = 4 ∧ (w.val e).val = 6 := by
  have ha : (exFl 2 1 (by decide) (by decide)).val = 4 := by simp only [exFl]; norm_num
  have hb : (exFl 3 (-2) (by decide) (by decide)).val = 3 / 4 := by simp only [exFl]; norm_num
  generalize exFl 2 1 (by decide) (by decide) = a at ha
  generalize exFl 3 (-2) (by decide) (by decide) = b at hb
  have hab : (a + b).val = 4 := by
    rw [Fl.add_val, ha, hb]
    show roundBinary 1 _ = _
    rw [roundBinary_val 1 2 2] <;> norm_num
  have hab' : a + b = a := Fl.ext' (by rw [hab, ha])
  have hbb : (b + b).val = 3 / 2 := by
    rw [Fl.add_val, hb]
    show roundBinary 1 _ = _
    rw [roundBinary_val 1 0 3] <;> norm_num
  have habb : (a + (b + b)).val = 6 := by
    rw [Fl.add_val, ha, hbb]
    show roundBinary 1 _ = _
    rw [roundBinary_val 1 2 3] <;> norm_num
  have hA : CombineRun [exScalar a] (some (exScalar a)) := CombineRun.add (exScalar a) .create
  have hB : CombineRun [exScalar b, exScalar b] (some (combiningSum [exScalar b, exScalar b])) :=
    CombineRun.add (exScalar b) (CombineRun.add (exScalar b) .create)
  refine ⟨[exScalar a, exScalar b, exScalar b], _, _, CombineRun.add (exScalar b) (CombineRun.add (exScalar b) hA),
    CombineRun.merge [([exScalar a], some (exScalar a)), ([exScalar b, exScalar b], some (combiningSum [exScalar b, exScalar b]))] ?_, fun e => ⟨?_, ?_⟩⟩
  · intro p hp
    simp only [List.mem_cons, List.not_mem_nil, or_false] at hp
    rcases hp with rfl | rfl
    · exact hA
    · exact hB
  · have hin : (combiningSum [exScalar a, exScalar b]).InDom e := by
      intro d hd
      rw [fl_mem_dims] at hd
      simp [exScalar, DA.scalar] at hd
    have hin' : (exScalar b).InDom e := fun d hd => by simp [exScalar, DA.scalar] at hd
    rw [fl_val]
    simp only [List.map_cons, List.map_nil, if_pos hin, if_pos hin', List.foldl_cons, List.foldl_nil]
    rw [exScalar_sum, hab', Fl.zero_add']
    show (a + b).val = 4
    exact hab
  · have hin : (combiningSum [exScalar b, exScalar b]).InDom e := by
      intro d hd
      rw [fl_mem_dims] at hd
      simp [exScalar, DA.scalar] at hd
    have hin' : (exScalar a).InDom e := fun d hd => by simp [exScalar, DA.scalar] at hd
    show ((combiningSum [exScalar a, combiningSum [exScalar b, exScalar b]]).val e).val = 6
    rw [fl_val]
    simp only [List.map_cons, List.map_nil, if_pos hin, if_pos hin', List.foldl_cons, List.foldl_nil]
    rw [exScalar_sum, Fl.zero_add']
    exact habb

/-! ### The hypotheses are met -/

/-- Two chunks of one cell each, for any statistics `x (false, c)` and weights `x (true, c)`. -/
noncomputable def exMeanRun {R : Rounding} (x : Bool × Bool → Fl R) (e : Dim → ℕ) : MeanRun R ℕ (Bool × Bool) x e where
  χ := Bool
  chunks := [false, true]
  T := fun c => [[(false, c), (true, c)]]
  U := fun c => [[(true, c)]]
  num := fun c => exScalar (x (false, c) * x (true, c))
  den := fun c => exScalar (x (true, c))
  formulaT := fun c => .mul (.var (false, c)) (.var (true, c))
  formulaU := fun c => .var (true, c)
  computesT := fun c _ y => by simp [Arith.eval, sumOfProducts]
  computesU := fun c _ y => by simp [Arith.eval, sumOfProducts]
  D := ∅
  numDims := fun _ _ => rfl
  denDims := fun _ _ => rfl
  cellT := fun c _ => ⟨fun d hd => by simp [exScalar, DA.scalar] at hd, rfl⟩
  cellU := fun c _ => ⟨fun d hd => by simp [exScalar, DA.scalar] at hd, rfl⟩
  sum := combiningSum [exScalar (x (false, false) * x (true, false)), exScalar (x (false, true) * x (true, true))]
  weight := combiningSum [exScalar (x (true, false)), exScalar (x (true, true))]
  sumRun := CombineRun.add _ (CombineRun.add _ .create)
  weightRun := CombineRun.add _ (CombineRun.add _ .create)

/-- Double precision: the weighted mean of two numbers. -/
example (x : Bool × Bool → Fl (binary 52)) (h0 : 0 < (x (true, false)).val) (h1 : 0 < (x (true, true)).val) (e : Dim → ℕ) :
    |(exMeanRun x e).mean - ((x (false, false)).val * (x (true, false)).val + (x (false, true)).val * (x (true, true)).val) / ((x (true, false)).val + (x (true, true)).val)| ≤
      meanFactor (binary 52) 2 2 * ((|(x (false, false)).val| * |(x (true, false)).val| + |(x (false, true)).val| * |(x (true, true)).val|) / ((x (true, false)).val + (x (true, true)).val)) := by
  have hb := C90_factor (binary 52) 2 (by show _ * (1 / 2 ^ (52 + 1)) ≤ _; norm_num)
  have h := C90_mean (exMeanRun x e) (k := 2) ⟨fun c _ => by simp [exMeanRun, Arith.cost], fun c _ => by simp [exMeanRun, Arith.cost]⟩ ?_ ?_ hb.1
  · simpa [exMeanRun, MeanRun.numerator, MeanRun.denominator, sumOfProducts] using h
  · intro t ht i hi
    simp only [exMeanRun, MeanRun.denominator, List.flatMap_cons, List.flatMap_nil, List.append_nil, List.singleton_append, List.mem_cons, List.not_mem_nil, or_false] at ht
    rcases ht with rfl | rfl
    · rw [List.mem_singleton] at hi; subst hi; exact h0.le
    · rw [List.mem_singleton] at hi; subst hi; exact h1.le
  · simp only [exMeanRun, MeanRun.denominator, List.flatMap_cons, List.flatMap_nil, List.append_nil, sumOfProducts]
    simp; linarith

end WBX
