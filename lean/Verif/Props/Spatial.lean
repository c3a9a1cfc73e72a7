import Verif.Spec.Spatial
import Verif.Props.EnsembleRPS
import Mathlib.Algebra.Order.BigOperators.Ring.Finset
import Mathlib.Order.Interval.Finset.Nat
import Mathlib.Data.Int.Interval

/-!
# C39: neighbourhood averaging
-/

set_option linter.unusedSectionVars false

namespace WBX
open DA Classical
variable {L K : Type} [DecidableEq L] [Field K] [LinearOrder K] [IsStrictOrderedRing K]

/-! ### One line -/

theorem onRing_lt {M : ℕ} (hM : 0 < M) (j : ℕ) (d : ℤ) : onRing M j d < M := by
  unfold onRing
  have h1 := Int.emod_nonneg ((j : ℤ) + d) (show (M : ℤ) ≠ 0 by omega)
  have h2 := Int.emod_lt_of_pos ((j : ℤ) + d) (show (0 : ℤ) < M by omega)
  omega

theorem onRing_inside {M j : ℕ} {d : ℤ} (h0 : 0 ≤ (j : ℤ) + d) (h1 : (j : ℤ) + d < M) : onRing M j d = ((j : ℤ) + d).toNat := by
  unfold onRing
  rw [Int.emod_eq_of_lt h0 h1]

/-- The positions of a window, in their order. -/
theorem sum_window {A : Type} [AddCommMonoid A] (h : ℕ) (f : ℤ → A) :
    ∑ k ∈ Finset.range (2 * h + 1), f ((k : ℤ) - h) = ∑ d ∈ Finset.Icc (-(h : ℤ)) h, f d := by
  refine Finset.sum_bij (fun k _ => (k : ℤ) - h) ?_ ?_ ?_ ?_
  · intro k hk
    rw [Finset.mem_range] at hk
    rw [Finset.mem_Icc]
    omega
  · intro a _ b _ hab
    omega
  · intro d hd
    rw [Finset.mem_Icc] at hd
    exact ⟨(d + h).toNat, by rw [Finset.mem_range]; omega, by omega⟩
  · intro k _
    rfl

theorem conv1_eq (h N : ℕ) (x : ℕ → FV K) (i : ℕ) :
    conv1 (2 * h + 1) N x i = ∑ d ∈ Finset.Icc (-(h : ℤ)) h, FV.fin (1 / ((2 * h + 1 : ℕ) : K)) * x (onRing N i d) := by
  unfold conv1
  rw [← sum_window h]
  refine Finset.sum_congr rfl (fun k _ => ?_)
  unfold onRing
  have : (2 * h + 1 - 1) / 2 = h := by omega
  rw [this, add_sub_assoc]

theorem conv1_fin {h N : ℕ} {x : ℕ → FV K} {y : ℕ → K} {i : ℕ} (hx : ∀ d ∈ Finset.Icc (-(h : ℤ)) h, x (onRing N i d) = .fin (y (onRing N i d))) :
    conv1 (2 * h + 1) N x i = .fin ((∑ d ∈ Finset.Icc (-(h : ℤ)) h, y (onRing N i d)) / ((2 * h + 1 : ℕ) : K)) := by
  rw [conv1_eq, Finset.sum_div]
  refine FV.sum_fin _ _ _ (fun d hd => ?_)
  rw [hx d hd, FV.fin_mul_fin]
  congr 1
  ring

theorem conv1_nan {h N : ℕ} {x : ℕ → FV K} {i : ℕ} {d : ℤ} (hd : d ∈ Finset.Icc (-(h : ℤ)) h) (hx : x (onRing N i d) = .nan) :
    conv1 (2 * h + 1) N x i = .nan := by
  rw [conv1_eq]
  refine FV.sum_nan _ _ d hd ?_
  rw [hx]
  rfl

/-- A window that does not leave the line. -/
theorem sum_inside {A : Type} [AddCommMonoid A] {h N i : ℕ} (h0 : h ≤ i) (h1 : i + h < N) (f : ℕ → A) :
    ∑ d ∈ Finset.Icc (-(h : ℤ)) h, f (onRing N i d) = ∑ i' ∈ Finset.Icc (i - h) (i + h), f i' := by
  refine Finset.sum_bij (fun d _ => onRing N i d) ?_ ?_ ?_ ?_
  · intro d hd
    rw [Finset.mem_Icc] at hd ⊢
    rw [onRing_inside (by omega) (by omega)]
    omega
  · intro a ha b hb hab
    rw [Finset.mem_Icc] at ha hb
    rw [onRing_inside (by omega) (by omega), onRing_inside (by omega) (by omega)] at hab
    omega
  · intro i' hi
    rw [Finset.mem_Icc] at hi
    refine ⟨(i' : ℤ) - i, by rw [Finset.mem_Icc]; omega, ?_⟩
    rw [onRing_inside (by omega) (by omega)]
    omega
  · intro d _
    rfl

/-! ### The grid -/

theorem odd_size {h : ℕ} (hh : h ≠ 0) (wrap : Bool) : (convolve2d (2 * (h : ℤ) + 1) wrap : Except Err (ℕ → ℕ → (ℕ → ℕ → FV K) → ℕ → ℕ → FV K)) =
    .ok (fun N M x i j => if Interior wrap h N M i j then conv1 (2 * h + 1) M (fun j => conv1 (2 * h + 1) N (fun i => x i j) i) j else 0) := by
  unfold convolve2d
  rw [if_neg (by omega), if_neg (by omega), if_neg (by omega)]
  have e1 : (2 * (h : ℤ) + 1).toNat = 2 * h + 1 := by omega
  simp only [e1]
  have e2 : (2 * h + 1 - 1) / 2 = h := by omega
  simp only [e2]
  congr 1
  funext N M x i j
  by_cases h1 : i < h ∨ N ≤ i + h
  · have : ¬ Interior wrap h N M i j := by unfold Interior; omega
    rw [if_pos h1, if_neg this]
    cases wrap <;> simp
  · cases wrap with
    | true =>
      have : Interior true h N M i j := by unfold Interior; simp; omega
      simp [h1, this]
    | false =>
      by_cases h2 : j < h ∨ M ≤ j + h
      · have : ¬ Interior false h N M i j := by unfold Interior; simp; omega
        simp [h2, this]
      · have : Interior false h N M i j := by unfold Interior; simp; omega
        simp [h1, h2, this]

theorem gridPoint_point {g : Grid L} (e : Dim → L) {i j i' j' : ℕ} (hi : i' < g.lat.length) (hj : j' < g.lon.length) :
    gridPoint g (gridPoint g e i j) i' j' = gridPoint g e i' j' := by
  funext k
  unfold gridPoint setLabel
  by_cases h1 : k = "longitude" <;> by_cases h2 : k = "latitude" <;> simp [h1, h2, hi, hj]

theorem gridApply_val {V W : Type} {g : Grid L} (hg : g.lat.Nodup ∧ g.lon.Nodup) (f : ℕ → ℕ → (ℕ → ℕ → V) → ℕ → ℕ → W) (a : DA L V) (e : Dim → L)
    {i j : ℕ} (hi : i < g.lat.length) (hj : j < g.lon.length) : (gridApply g f a).val (gridPoint g e i j) =
      f g.lat.length g.lon.length (fun i' j' => a.val (gridPoint g (gridPoint g e i j) i' j')) i j := by
  have h1 : gridPoint g e i j "latitude" = g.lat[i] := by simp [gridPoint, setLabel, hi]
  have h2 : gridPoint g e i j "longitude" = g.lon[j] := by simp [gridPoint, setLabel, hj]
  unfold gridApply
  simp only
  congr 1
  · rw [h1]; exact hg.1.idxOf_getElem i hi
  · rw [h2]; exact hg.2.idxOf_getElem j hj

theorem averageOne_ok {g : Grid L} {wrap : Bool} {a r : StatVar L (FV K)} {size : ℤ} (h : averageOne g wrap a size = .ok r) :
    ("latitude" ∈ a.arr.dims ∧ "longitude" ∈ a.arr.dims) ∧ ∃ f m, convolve2d size wrap = .ok f ∧ averageMask? g f a.mask = .ok m ∧ r = ⟨gridApply g f a.arr, m⟩ := by
  unfold averageOne at h
  split at h
  · next hd =>
    simp only [bind_ok_iff, pure, Except.pure, Except.ok.injEq] at h
    obtain ⟨f, h1, m, h2, h3⟩ := h
    exact ⟨hd, f, m, h1, h2, h3.symm⟩
  · simp at h

section
variable {g : Grid L} {number : ℤ → L} {wrap : Bool} {h : ℕ} {a r : StatVar L (FV K)} {e : Dim → L} {i j : ℕ}

theorem gridPoint_self (hg : g.lat.Nodup ∧ g.lon.Nodup) (a : DA L (FV K)) (e : Dim → L) (hi : i < g.lat.length) (hj : j < g.lon.length) :
    (gridApply g (fun _ _ x => x) a).val (gridPoint g e i j) = a.val (gridPoint g e i j) := by
  rw [gridApply_val hg _ _ _ hi hj]
  simp only
  rw [gridPoint_point e hi hj]

theorem interior_zero (hi : i < g.lat.length) (hj : j < g.lon.length) : Interior wrap 0 g.lat.length g.lon.length i j := by
  unfold Interior; omega

theorem boxMean_zero {M : ℕ} (x : ℕ → ℕ → K) (hj : j < M) : boxMean 0 M x i j = x i j := by
  unfold boxMean onRing
  have : (j : ℤ) % (M : ℤ) = j := Int.emod_eq_of_lt (by omega) (by omega)
  simp [this]

/-- The values of the result. -/
theorem average_val (hg : g.lat.Nodup ∧ g.lon.Nodup) (hr : neighborhoodAveraging g number wrap (.one (2 * h + 1)) a = .ok r)
    (hi : i < g.lat.length) (hj : j < g.lon.length) (hh : h ≠ 0) : r.arr.val (gridPoint g e i j) =
      if Interior wrap h g.lat.length g.lon.length i j then conv1 (2 * h + 1) g.lon.length (fun j' => conv1 (2 * h + 1) g.lat.length
        (fun i' => a.arr.val (gridPoint g (gridPoint g e i j) i' j')) i) j else 0 := by
  obtain ⟨-, f, m, h1, -, rfl⟩ := averageOne_ok hr
  rw [odd_size hh, Except.ok.injEq] at h1
  subst h1
  simp only
  rw [gridApply_val hg _ _ _ hi hj]

theorem average_one (hg : g.lat.Nodup ∧ g.lon.Nodup) (hr : neighborhoodAveraging g number wrap (.one 1) a = .ok r)
    (hi : i < g.lat.length) (hj : j < g.lon.length) : r.arr.val (gridPoint g e i j) = a.arr.val (gridPoint g e i j) := by
  obtain ⟨-, f, m, h1, -, rfl⟩ := averageOne_ok hr
  unfold convolve2d at h1
  rw [if_pos rfl, Except.ok.injEq] at h1
  subst h1
  exact gridPoint_self hg _ _ hi hj

/-- **C39** With size `2h+1`, a cell whose window lies on the grid gets the mean over the window (longitudes wrapping around), every other
cell gets 0. -/
theorem C39_window (hg : g.lat.Nodup ∧ g.lon.Nodup) (hr : neighborhoodAveraging g number wrap (.one (2 * h + 1)) a = .ok r)
    {x : ℕ → ℕ → K} (hx : ∀ i < g.lat.length, ∀ j < g.lon.length, a.arr.val (gridPoint g e i j) = .fin (x i j))
    (hi : i < g.lat.length) (hj : j < g.lon.length) : r.arr.val (gridPoint g e i j) =
      .fin (if Interior wrap h g.lat.length g.lon.length i j then boxMean h g.lon.length x i j else 0) := by
  by_cases hh : h = 0
  · subst hh
    rw [average_one hg (by simpa using hr) hi hj, if_pos (interior_zero hi hj), boxMean_zero x hj, hx i hi j hj]
  · rw [average_val hg hr hi hj hh]
    split
    · next hint =>
      rw [conv1_fin (y := fun j' => (∑ i' ∈ Finset.Icc (i - h) (i + h), x i' j') / ((2 * h + 1 : ℕ) : K))]
      · congr 1
        unfold boxMean
        rw [← Finset.sum_div, Finset.sum_comm, div_div, pow_two]
      · intro d _
        have hj' := onRing_lt (show 0 < g.lon.length by omega) j d
        rw [conv1_fin (y := fun i' => x i' (onRing g.lon.length j d))]
        · rw [sum_inside hint.1.1 hint.1.2 (fun i' => x i' (onRing g.lon.length j d))]
        · intro d' _
          have hi' := onRing_lt (show 0 < g.lat.length by omega) i d'
          rw [gridPoint_point e hi' hj', hx _ hi' _ hj']
    · rfl

/-- **C39** The result has the dimensions and coordinates of the data. -/
theorem C39_labels {n : ℤ} (hr : neighborhoodAveraging g number wrap (.one n) a = .ok r) : r.arr.dims = a.arr.dims ∧ r.arr.coords = a.arr.coords := by
  obtain ⟨-, f, m, -, -, rfl⟩ := averageOne_ok hr
  exact ⟨rfl, rfl⟩

/-- **C39** Averaging succeeds exactly for positive odd sizes and data (and mask, if there is one) with both horizontal dimensions; otherwise it
raises `ValueError`. -/
theorem C39_error (g : Grid L) (number : ℤ → L) (wrap : Bool) (n : ℤ) (a : StatVar L (FV K)) :
    ((∃ r, neighborhoodAveraging g number wrap (.one n) a = .ok r) ↔ (0 < n ∧ n % 2 = 1) ∧ ("latitude" ∈ a.arr.dims ∧ "longitude" ∈ a.arr.dims) ∧
      ∀ m, a.mask = some m → "latitude" ∈ m.dims ∧ "longitude" ∈ m.dims) ∧
    ∀ err, neighborhoodAveraging g number wrap (.one n) a = .error err → err = .valueError := by
  have hconv : (∃ f, (convolve2d n wrap : Except Err (ℕ → ℕ → (ℕ → ℕ → FV K) → ℕ → ℕ → FV K)) = .ok f) ∧ (0 < n ∧ n % 2 = 1) ∨
      (convolve2d n wrap : Except Err (ℕ → ℕ → (ℕ → ℕ → FV K) → ℕ → ℕ → FV K)) = .error .valueError ∧ ¬ (0 < n ∧ n % 2 = 1) := by
    unfold convolve2d
    split
    · exact .inl ⟨⟨_, rfl⟩, by omega⟩
    · split
      · exact .inr ⟨rfl, by omega⟩
      · split
        · exact .inr ⟨rfl, by omega⟩
        · exact .inl ⟨⟨_, rfl⟩, by omega⟩
  simp only [neighborhoodAveraging, averageOne]
  by_cases hd : "latitude" ∈ a.arr.dims ∧ "longitude" ∈ a.arr.dims
  · rw [if_pos hd]
    rcases hconv with ⟨⟨f, hf⟩, hn⟩ | ⟨hf, hn⟩
    · rw [hf]
      simp only [bind, Except.bind]
      rcases hm : a.mask with _ | m
      · simp [averageMask?, pure, Except.pure, hd, hn]
      · by_cases hmd : "latitude" ∈ m.dims ∧ "longitude" ∈ m.dims
        · simp [averageMask?, averageMask, bind, Except.bind, pure, Except.pure, hd, hn, hmd]
        · simp [averageMask?, averageMask, bind, Except.bind, hmd]
    · rw [hf]
      simp [bind, Except.bind, hn]
  · rw [if_neg hd]
    simp [hd]

/-- **C39** Size 1 leaves the data unchanged, whatever it is. -/
theorem C39_identity (hg : g.lat.Nodup ∧ g.lon.Nodup) (hr : neighborhoodAveraging g number wrap (.one 1) a = .ok r)
    (hi : i < g.lat.length) (hj : j < g.lon.length) : r.arr.val (gridPoint g e i j) = a.arr.val (gridPoint g e i j) :=
  average_one hg hr hi hj

/-- **C39** A NaN anywhere in the window of a cell whose window lies on the grid makes the average NaN. -/
theorem C39_nan (hg : g.lat.Nodup ∧ g.lon.Nodup) (hr : neighborhoodAveraging g number wrap (.one (2 * h + 1)) a = .ok r)
    (hi : i < g.lat.length) (hj : j < g.lon.length) (hint : Interior wrap h g.lat.length g.lon.length i j) {i' : ℕ} {d : ℤ}
    (hi' : i' ∈ Finset.Icc (i - h) (i + h)) (hd : d ∈ Finset.Icc (-(h : ℤ)) h) (hn : a.arr.val (gridPoint g e i' (onRing g.lon.length j d)) = .nan) :
    r.arr.val (gridPoint g e i j) = .nan := by
  rw [Finset.mem_Icc] at hi'
  obtain ⟨⟨hint1, hint2⟩, -⟩ := id hint
  by_cases hh : h = 0
  · subst hh
    rw [average_one hg (by simpa using hr) hi hj, ← hn]
    rw [Finset.mem_Icc] at hd
    have h1 : d = 0 := by omega
    have h2 : i' = i := by omega
    subst h1 h2
    rw [onRing_inside (by omega) (by omega)]
    simp
  · rw [average_val hg hr hi hj hh, if_pos hint]
    refine conv1_nan hd (conv1_nan (d := (i' : ℤ) - i) (by rw [Finset.mem_Icc]; omega) ?_)
    have : onRing g.lat.length i ((i' : ℤ) - i) = i' := by rw [onRing_inside (by omega) (by omega)]; omega
    rw [this, gridPoint_point e (by omega) (onRing_lt (by omega) _ _), hn]

/-- **C39** A cell whose window leaves the grid gets 0, whatever the data is (also next to NaN). -/
theorem C39_edge (hg : g.lat.Nodup ∧ g.lon.Nodup) (hr : neighborhoodAveraging g number wrap (.one (2 * h + 1)) a = .ok r)
    (hi : i < g.lat.length) (hj : j < g.lon.length) (hint : ¬ Interior wrap h g.lat.length g.lon.length i j) :
    r.arr.val (gridPoint g e i j) = .fin 0 := by
  have hh : h ≠ 0 := by
    rintro rfl
    exact hint (interior_zero hi hj)
  rw [average_val hg hr hi hj hh, if_neg hint]
  rfl

/-- **C39** Without wrapping, the window of a cell consists of the `2h+1` latitudes and `2h+1` longitudes around it. -/
theorem C39_no_wrap {N M : ℕ} (hint : Interior false h N M i j) (x : ℕ → ℕ → K) :
    boxMean h M x i j = (∑ i' ∈ Finset.Icc (i - h) (i + h), ∑ j' ∈ Finset.Icc (j - h) (j + h), x i' j') / ((2 * h + 1 : ℕ) : K) ^ 2 := by
  obtain ⟨-, hj⟩ := hint
  simp only [Bool.false_eq_true, false_or] at hj
  unfold boxMean
  congr 1
  exact Finset.sum_congr rfl (fun i' _ => sum_inside hj.1 hj.2 _)

theorem boxMean_le {M : ℕ} (hhi : h ≤ i) {x : ℕ → ℕ → K} {b : K}
    (hb : ∀ i' ∈ Finset.Icc (i - h) (i + h), ∀ d ∈ Finset.Icc (-(h : ℤ)) h, x i' (onRing M j d) ≤ b) : boxMean h M x i j ≤ b := by
  unfold boxMean
  have hn : (0 : K) < ((2 * h + 1 : ℕ) : K) := by exact_mod_cast Nat.succ_pos _
  rw [div_le_iff₀ (pow_pos hn 2)]
  calc _ ≤ ∑ i' ∈ Finset.Icc (i - h) (i + h), ∑ d ∈ Finset.Icc (-(h : ℤ)) h, b := Finset.sum_le_sum (fun i' hi' => Finset.sum_le_sum (hb i' hi'))
    _ = b * ((2 * h + 1 : ℕ) : K) ^ 2 := by
      have e1 : (Finset.Icc (i - h) (i + h)).card = 2 * h + 1 := by rw [Nat.card_Icc]; omega
      have e2 : (Finset.Icc (-(h : ℤ)) h).card = 2 * h + 1 := by rw [Int.card_Icc]; omega
      rw [Finset.sum_const, Finset.sum_const, e1, e2]
      simp only [nsmul_eq_mul]
      ring

theorem boxMean_neg (M : ℕ) (x : ℕ → ℕ → K) : boxMean h M (fun i j => - x i j) i j = - boxMean h M x i j := by
  unfold boxMean
  simp only [Finset.sum_neg_distrib, neg_div]

/-- **C39** The average lies between any bounds of the values in the window; in particular the fractions of a 0/1 field lie in [0,1] and a
constant field is left unchanged. -/
theorem C39_bounds {N M : ℕ} (hint : Interior wrap h N M i j) {x : ℕ → ℕ → K} {lo hi : K}
    (hb : ∀ i' ∈ Finset.Icc (i - h) (i + h), ∀ d ∈ Finset.Icc (-(h : ℤ)) h, lo ≤ x i' (onRing M j d) ∧ x i' (onRing M j d) ≤ hi) :
    lo ≤ boxMean h M x i j ∧ boxMean h M x i j ≤ hi := by
  refine ⟨?_, boxMean_le hint.1.1 (fun i' h1 d h2 => (hb i' h1 d h2).2)⟩
  have := boxMean_le (M := M) (j := j) (x := fun i j => - x i j) (b := -lo) hint.1.1 (fun i' h1 d h2 => neg_le_neg (hb i' h1 d h2).1)
  rw [boxMean_neg] at this
  exact neg_le_neg_iff.mp this

theorem onRing_comm {M : ℕ} (hM : 0 < M) (j : ℕ) (d s : ℤ) : onRing M (onRing M j d) s = onRing M (onRing M j s) d := by
  have key : ∀ u v : ℤ, (((((j : ℤ) + u) % (M : ℤ)).toNat : ℤ) + v) % (M : ℤ) = ((j : ℤ) + u + v) % M := by
    intro u v
    rw [Int.toNat_of_nonneg (Int.emod_nonneg _ (by omega)), Int.emod_add_emod]
  unfold onRing
  rw [key, key]
  congr 2
  ring

/-- **C39** With wrapping, rotating the data along longitude by `s` steps rotates the averages by `s` steps. -/
theorem C39_rotate {b r' : StatVar L (FV K)} (hg : g.lat.Nodup ∧ g.lon.Nodup) (hr : neighborhoodAveraging g number true (.one (2 * h + 1)) a = .ok r)
    (hr' : neighborhoodAveraging g number true (.one (2 * h + 1)) b = .ok r') {s : ℤ}
    (hab : ∀ i < g.lat.length, ∀ j < g.lon.length, b.arr.val (gridPoint g e i j) = a.arr.val (gridPoint g e i (onRing g.lon.length j s)))
    (hi : i < g.lat.length) (hj : j < g.lon.length) :
    r'.arr.val (gridPoint g e i j) = r.arr.val (gridPoint g e i (onRing g.lon.length j s)) := by
  have hM : 0 < g.lon.length := by omega
  have hj' := onRing_lt hM j s
  by_cases hh : h = 0
  · subst hh
    rw [average_one hg (by simpa using hr) hi hj', average_one hg (by simpa using hr') hi hj, hab i hi j hj]
  · rw [average_val hg hr hi hj' hh, average_val hg hr' hi hj hh]
    have : Interior true h g.lat.length g.lon.length i (onRing g.lon.length j s) ↔ Interior true h g.lat.length g.lon.length i j := by
      unfold Interior; simp
    simp only [this]
    split
    · rw [conv1_eq, conv1_eq]
      refine Finset.sum_congr rfl (fun d _ => ?_)
      congr 1
      rw [conv1_eq, conv1_eq]
      refine Finset.sum_congr rfl (fun d' _ => ?_)
      congr 1
      have h1 := onRing_lt (show 0 < g.lat.length by omega) i d'
      rw [gridPoint_point e h1 (onRing_lt hM _ _), gridPoint_point e h1 (onRing_lt hM _ _), hab _ h1 _ (onRing_lt hM _ _), onRing_comm hM]
    · rfl

/-! ### The mask -/

theorem averageMask?_ok {f : ℕ → ℕ → (ℕ → ℕ → FV K) → ℕ → ℕ → FV K} {m : DA L Bool} {o : Option (DA L Bool)}
    (ho : averageMask? g f (some m) = .ok o) : o = some ((gridApply g f (m.map FV.ofBool)).map isclose1) ∧ "latitude" ∈ m.dims ∧ "longitude" ∈ m.dims := by
  simp only [averageMask?, averageMask] at ho
  by_cases hd : "latitude" ∈ m.dims ∧ "longitude" ∈ m.dims
  · rw [if_pos hd] at ho
    simp only [bind, Except.bind, pure, Except.pure, Except.ok.injEq] at ho
    exact ⟨ho.symm, hd⟩
  · rw [if_neg hd] at ho
    simp [bind, Except.bind] at ho

/-- The averaged mask, as a number. -/
theorem mask_number {m : DA L Bool} (hg : g.lat.Nodup ∧ g.lon.Nodup) (hr : neighborhoodAveraging g number wrap (.one (2 * h + 1)) a = .ok r) (hm : a.mask = some m)
    (hi : i < g.lat.length) (hj : j < g.lon.length) : ∃ m', r.mask = some m' ∧ m'.val (gridPoint g e i j) =
      isclose1 (FV.fin (if Interior wrap h g.lat.length g.lon.length i j then
        boxMean h g.lon.length (fun i j => if m.val (gridPoint g e i j) = true then (1 : K) else 0) i j else 0)) := by
  obtain ⟨-, f, o, h1, h2, rfl⟩ := averageOne_ok hr
  rw [hm] at h2
  obtain ⟨rfl, hd⟩ := averageMask?_ok h2
  refine ⟨_, rfl, ?_⟩
  have hr2 : neighborhoodAveraging g number wrap (.one (2 * h + 1)) ⟨m.map FV.ofBool, none⟩ = .ok ⟨gridApply g f (m.map FV.ofBool), none⟩ := by
    have hd' : "latitude" ∈ (m.map (FV.ofBool (K := K))).dims ∧ "longitude" ∈ (m.map (FV.ofBool (K := K))).dims := hd
    simp only [neighborhoodAveraging, averageOne]
    rw [h1]
    simp only [hd', and_self, if_true, bind, Except.bind, averageMask?, pure, Except.pure]
  have := C39_window (e := e) hg hr2 (x := fun i j => if m.val (gridPoint g e i j) = true then (1 : K) else 0) (fun i _ j _ => by
    simp only [DA.map, FV.ofBool]
    exact cdfInd_fin _) hi hj
  simp only [DA.map] at this ⊢
  rw [this]

/-- How far the mean of an indicator is from 1. -/
theorem one_sub_boxMean {M : ℕ} (hhi : h ≤ i) (x : ℕ → ℕ → K) : boxMean h M x i j = 1 - boxMean h M (fun i j => 1 - x i j) i j := by
  unfold boxMean
  have hn : ((2 * h + 1 : ℕ) : K) ^ 2 ≠ 0 := pow_ne_zero _ (by exact_mod_cast Nat.succ_ne_zero (2 * h))
  have e1 : (Finset.Icc (i - h) (i + h)).card = 2 * h + 1 := by rw [Nat.card_Icc]; omega
  have e2 : (Finset.Icc (-(h : ℤ)) h).card = 2 * h + 1 := by rw [Int.card_Icc]; omega
  simp only [Finset.sum_sub_distrib, Finset.sum_const, e1, e2, nsmul_eq_mul, mul_one]
  field_simp
  ring

/-- **C39** The mask of the result: with a window of at most 99900 cells (sizes up to 315), a cell is valid iff its window lies on the grid and all
cells of the window are valid. -/
theorem C39_mask {m : DA L Bool} (hg : g.lat.Nodup ∧ g.lon.Nodup) (hr : neighborhoodAveraging g number wrap (.one (2 * h + 1)) a = .ok r) (hm : a.mask = some m)
    (hsize : (2 * h + 1) ^ 2 ≤ 99900) (hi : i < g.lat.length) (hj : j < g.lon.length) : ∃ m', r.mask = some m' ∧ (m'.val (gridPoint g e i j) = true ↔
      Interior wrap h g.lat.length g.lon.length i j ∧ ∀ i' ∈ Finset.Icc (i - h) (i + h), ∀ d ∈ Finset.Icc (-(h : ℤ)) h,
        m.val (gridPoint g e i' (onRing g.lon.length j d)) = true) := by
  obtain ⟨m', h1, h2⟩ := mask_number (e := e) hg hr hm hi hj
  refine ⟨m', h1, ?_⟩
  rw [h2]
  by_cases hint : Interior wrap h g.lat.length g.lon.length i j
  · simp only [hint, if_true, true_and, isclose1, decide_eq_true_eq]
    rw [one_sub_boxMean hint.1.1]
    set y : ℕ → ℕ → K := fun i j => 1 - (if m.val (gridPoint g e i j) = true then (1 : K) else 0) with hy
    have hy0 : ∀ i j, 0 ≤ y i j := by
      intro i j
      simp only [hy]
      split <;> simp
    have hn : (0 : K) < ((2 * h + 1 : ℕ) : K) := by exact_mod_cast Nat.succ_pos _
    constructor
    · intro hc
      by_contra hne
      push Not at hne
      obtain ⟨i', hi', d, hd, hf⟩ := hne
      have h3 : 1 / ((2 * h + 1 : ℕ) : K) ^ 2 ≤ boxMean h g.lon.length y i j := by
        unfold boxMean
        rw [div_le_div_iff_of_pos_right (pow_pos hn 2)]
        have e3 : y i' (onRing g.lon.length j d) = 1 := by simp [hy, hf]
        rw [← e3]
        exact (Finset.single_le_sum (f := fun d => y i' (onRing g.lon.length j d)) (fun d _ => hy0 _ _) hd).trans
          (Finset.single_le_sum (f := fun i' => ∑ d ∈ Finset.Icc (-(h : ℤ)) h, y i' (onRing g.lon.length j d))
            (fun i' _ => Finset.sum_nonneg (fun d _ => hy0 _ _)) hi')
      have h4 : ((2 * h + 1 : ℕ) : K) ^ 2 ≤ 99900 := by exact_mod_cast hsize
      have h5 : 1 / (99900 : K) ≤ 1 / ((2 * h + 1 : ℕ) : K) ^ 2 := one_div_le_one_div_of_le (pow_pos hn 2) h4
      have h6 : |1 - boxMean h g.lon.length y i j - 1| = boxMean h g.lon.length y i j := by
        rw [sub_sub_cancel_left, abs_neg, abs_of_nonneg]
        exact le_trans (by positivity) h3
      rw [h6] at hc
      have h7 := (h5.trans h3).trans hc
      norm_num at h7
    · intro hall
      have h3 : boxMean h g.lon.length y i j = 0 := by
        unfold boxMean
        rw [Finset.sum_eq_zero (fun i' hi' => Finset.sum_eq_zero (fun d hd => ?_)), zero_div]
        simp [hy, hall i' hi' d hd]
      rw [h3]
      simp
      positivity
  · simp only [hint, if_false, false_and, iff_false, isclose1, decide_eq_true_eq]
    norm_num

/-- **C39** (finding) With a window of at least 100000 cells (sizes from 317 on), one invalid cell in the window is ignored: the average is
counted as valid. -/
theorem C39_mask_large {m : DA L Bool} (hg : g.lat.Nodup ∧ g.lon.Nodup) (hr : neighborhoodAveraging g number wrap (.one (2 * h + 1)) a = .ok r) (hm : a.mask = some m)
    (hsize : 317 ≤ 2 * h + 1) (hi : i < g.lat.length) (hj : j < g.lon.length) (hint : Interior wrap h g.lat.length g.lon.length i j) {i₀ : ℕ} {d₀ : ℤ}
    (hall : ∀ i' ∈ Finset.Icc (i - h) (i + h), ∀ d ∈ Finset.Icc (-(h : ℤ)) h, (i', d) ≠ (i₀, d₀) → m.val (gridPoint g e i' (onRing g.lon.length j d)) = true) :
    ∃ m', r.mask = some m' ∧ m'.val (gridPoint g e i j) = true := by
  obtain ⟨m', h1, h2⟩ := mask_number (e := e) hg hr hm hi hj
  refine ⟨m', h1, ?_⟩
  rw [h2]
  simp only [hint, if_true, isclose1, decide_eq_true_eq]
  rw [one_sub_boxMean hint.1.1]
  set y : ℕ → ℕ → K := fun i j => 1 - (if m.val (gridPoint g e i j) = true then (1 : K) else 0) with hy
  have hy0 : ∀ i j, 0 ≤ y i j := by
    intro i j
    simp only [hy]
    split <;> simp
  have hy1 : ∀ i j, y i j ≤ 1 := by
    intro i j
    simp only [hy]
    split <;> simp
  have hn : (0 : K) < ((2 * h + 1 : ℕ) : K) := by exact_mod_cast Nat.succ_pos _
  have hsum : (∑ i' ∈ Finset.Icc (i - h) (i + h), ∑ d ∈ Finset.Icc (-(h : ℤ)) h, y i' (onRing g.lon.length j d)) ≤ 1 := by
    rw [← Finset.sum_product']
    by_cases hmem : (i₀, d₀) ∈ Finset.Icc (i - h) (i + h) ×ˢ Finset.Icc (-(h : ℤ)) h
    · rw [Finset.sum_eq_single_of_mem _ hmem]
      · exact hy1 _ _
      · rintro ⟨i', d⟩ hq hne
        rw [Finset.mem_product] at hq
        simp [hy, hall i' hq.1 d hq.2 hne]
    · rw [Finset.sum_eq_zero]
      · exact zero_le_one
      · rintro ⟨i', d⟩ hq
        have hne : (i', d) ≠ (i₀, d₀) := fun heq => hmem (heq ▸ hq)
        rw [Finset.mem_product] at hq
        simp [hy, hall i' hq.1 d hq.2 hne]
  have h3 : boxMean h g.lon.length y i j ≤ 1 / 100489 := by
    unfold boxMean
    have h4 : (100489 : K) ≤ ((2 * h + 1 : ℕ) : K) ^ 2 := by
      have h5 : (317 : K) ≤ ((2 * h + 1 : ℕ) : K) := Nat.ofNat_le_cast.mpr hsize
      exact le_trans (by norm_num) (pow_le_pow_left₀ (by norm_num : (0 : K) ≤ 317) h5 2)
    rw [div_le_div_iff₀ (pow_pos hn 2) (by norm_num)]
    exact (mul_le_mul_of_nonneg_right hsum (by norm_num)).trans (mul_le_mul_of_nonneg_left h4 zero_le_one)
  have h0 : 0 ≤ boxMean h g.lon.length y i j := by
    unfold boxMean
    exact div_nonneg (Finset.sum_nonneg (fun _ _ => Finset.sum_nonneg (fun _ _ => hy0 _ _))) (pow_pos hn 2).le
  rw [sub_sub_cancel_left, abs_neg, abs_of_nonneg h0]
  refine h3.trans ?_
  norm_num

/-! ### Several sizes -/

theorem mapM_ok_length {α β : Type} (f : α → Except Err β) : (l : List α) → (r : List β) → l.mapM f = .ok r → l.length = r.length
  | [], r, h => by
    simp only [List.mapM_nil, pure, Except.pure, Except.ok.injEq] at h
    subst h; rfl
  | a :: l, r, h => by
    rw [List.mapM_cons] at h
    obtain ⟨v, -, h⟩ := bind_pair_ok _ _ _ h
    obtain ⟨rs', hrs, h⟩ := bind_pair_ok _ _ _ h
    simp only [pure, Except.pure, Except.ok.injEq] at h
    subst h
    simp [mapM_ok_length f l rs' hrs]

theorem pick_size {V : Type} (hnum : Function.Injective number) (f : ℤ → Except Err V) : (ns : List ℤ) → (rs : List V) → ns.mapM f = .ok rs → ∀ n ∈ ns,
    ∃ v, f n = .ok v ∧ pick number (ns.zip rs) (number n) = some v
  | [], _, _, n, hn => by simp at hn
  | n' :: ns, rs, h, n, hn => by
    rw [List.mapM_cons] at h
    obtain ⟨v, hv, h⟩ := bind_pair_ok _ _ _ h
    obtain ⟨rs', hrs, h⟩ := bind_pair_ok _ _ _ h
    simp only [pure, Except.pure, Except.ok.injEq] at h
    subst h
    by_cases hne : n' = n
    · subst hne
      exact ⟨v, hv, by simp [pick]⟩
    · obtain ⟨w, h1, h2⟩ := pick_size hnum f ns rs' hrs n (by simpa [Ne.symm hne] using hn)
      refine ⟨w, h1, ?_⟩
      unfold pick at h2 ⊢
      rw [List.zip_cons_cons, List.find?_cons_of_neg]
      · exact h2
      · simp only [decide_eq_true_eq]
        exact fun heq => hne (hnum heq)

/-- **C39** With a list of sizes the result has a further dimension `neighborhood_size`, whose entry at each size is the average (and the averaged mask)
for that size alone; the empty list raises. -/
theorem C39_sizes (hnum : Function.Injective number) {ns : List ℤ} (hr : neighborhoodAveraging g number wrap (.many ns) a = .ok r) :
    ns ≠ [] ∧ r.arr.coords "neighborhood_size" = (ns.map number).toFinset ∧ r.arr.dims = insert "neighborhood_size" a.arr.dims ∧
    ∀ n ∈ ns, ∃ r₁, neighborhoodAveraging g number wrap (.one n) a = .ok r₁ ∧ ∀ e : Dim → L, e "neighborhood_size" = number n →
      r.arr.val e = r₁.arr.val e ∧ ∀ m₁, r₁.mask = some m₁ → ∃ m, r.mask = some m ∧ m.val e = m₁.val e := by
  simp only [neighborhoodAveraging, bind_ok_iff] at hr
  obtain ⟨rs, h1, h2⟩ := hr
  by_cases hne : ns = []
  · rw [if_pos hne] at h2
    simp at h2
  · rw [if_neg hne] at h2
    simp only [pure, Except.pure, Except.ok.injEq] at h2
    subst h2
    have hlen : ns.length = rs.length := mapM_ok_length _ _ _ h1
    refine ⟨hne, ?_, rfl, fun n hn => ?_⟩
    · simp only [concatSizes, if_true]
      congr 1
      rw [← Function.comp_def number Prod.fst, ← List.map_map, List.map_fst_zip hlen.le]
    · obtain ⟨r₁, h3, h4⟩ := pick_size hnum _ ns rs h1 n hn
      refine ⟨r₁, h3, fun e he => ⟨?_, fun m₁ hm₁ => ?_⟩⟩
      · simp only [concatSizes, he, h4]
      · obtain ⟨-, f, o, -, h5, rfl⟩ := averageOne_ok h3
        rcases hm : a.mask with _ | m
        · rw [hm] at h5
          simp [averageMask?] at h5
          subst h5
          simp at hm₁
        · simp only at hm₁
          subst hm₁
          refine ⟨_, by simp only [concatSizes, hm, Option.map_some]; rfl, ?_⟩
          simp only [he, h4]
end

/-! ### The hypotheses are met -/

/-- A grid of `N` latitudes and `M` longitudes. -/
def exGrid (N M : ℕ) : Grid ℕ := ⟨List.range N, List.range M⟩

theorem exGrid_nodup (N M : ℕ) : (exGrid N M).lat.Nodup ∧ (exGrid N M).lon.Nodup := ⟨List.nodup_range, List.nodup_range⟩

theorem exGrid_point {N M i j : ℕ} (hi : i < N) (hj : j < M) (e : Dim → ℕ) :
    gridPoint (exGrid N M) e i j "latitude" = i ∧ gridPoint (exGrid N M) e i j "longitude" = j := by
  constructor <;> simp [gridPoint, exGrid, setLabel, hi, hj]

/-- A field on the grid, with a mask that leaves out one cell. -/
def exField (N M : ℕ) : StatVar ℕ (FV ℚ) :=
  ⟨{ dims := {"latitude", "longitude"}, coords := fun k => Finset.range (if k = "latitude" then N else M), val := fun e => .fin (e "latitude" + 3 * e "longitude") },
   some { dims := {"latitude", "longitude"}, coords := fun k => Finset.range (if k = "latitude" then N else M), val := fun e => decide (e "latitude" ≠ 0 ∨ e "longitude" ≠ 0) }⟩

theorem exField_ok (N M h : ℕ) (wrap : Bool) : ∃ r, neighborhoodAveraging (exGrid N M) Int.toNat wrap (.one (2 * h + 1)) (exField N M) = .ok r :=
  (C39_error _ _ _ _ _).1.mpr ⟨by omega, by simp [exField], fun m hm => by
    simp only [exField, Option.some.injEq] at hm
    subst hm
    simp⟩

example : ∃ r, neighborhoodAveraging (exGrid 3 3) Int.toNat true (.one 3) (exField 3 3) = .ok r ∧
    r.arr.val (gridPoint (exGrid 3 3) (fun _ => 0) 1 0) = .fin 4 ∧ r.arr.val (gridPoint (exGrid 3 3) (fun _ => 0) 0 0) = .fin 0 := by
  obtain ⟨r, hr⟩ := exField_ok 3 3 1 true
  have hx : ∀ i < (exGrid 3 3).lat.length, ∀ j < (exGrid 3 3).lon.length, (exField 3 3).arr.val (gridPoint (exGrid 3 3) (fun _ => 0) i j) = .fin ((i : ℚ) + 3 * j) := by
    intro i hi j hj
    obtain ⟨h1, h2⟩ := exGrid_point (show i < 3 by simpa [exGrid] using hi) (show j < 3 by simpa [exGrid] using hj) (fun _ => 0)
    simp only [exField]
    rw [h1, h2]
  refine ⟨r, hr, ?_, ?_⟩
  · rw [C39_window (exGrid_nodup 3 3) hr hx (by simp [exGrid]) (by simp [exGrid]), if_pos (by simp [Interior, exGrid])]
    congr 1
    unfold boxMean
    rw [show Finset.Icc (1 - 1) (1 + 1) = {0, 1, 2} by decide, show Finset.Icc (-((1 : ℕ) : ℤ)) (1 : ℕ) = {-1, 0, 1} by decide]
    simp [exGrid, onRing]
    norm_num
  · exact C39_edge (exGrid_nodup 3 3) hr (by simp [exGrid]) (by simp [exGrid]) (by simp [Interior])

example : ∃ r m', neighborhoodAveraging (exGrid 317 317) Int.toNat false (.one 317) (exField 317 317) = .ok r ∧ r.mask = some m' ∧
    m'.val (gridPoint (exGrid 317 317) (fun _ => 0) 158 158) = true := by
  obtain ⟨r, hr⟩ := exField_ok 317 317 158 false
  have hi : 158 < (exGrid 317 317).lat.length := by simp [exGrid]
  obtain ⟨m', h1, h2⟩ := C39_mask_large (e := fun _ => 0) (i₀ := 0) (d₀ := -158) (exGrid_nodup 317 317) hr rfl (le_refl _) hi hi
    (by unfold Interior; simp [exGrid]) (by
      intro i' hi' d hd hne
      rw [Finset.mem_Icc] at hi' hd
      have hl : (exGrid 317 317).lon.length = 317 := by simp [exGrid]
      rw [hl, onRing_inside (by omega) (by omega)]
      obtain ⟨e1, e2⟩ := exGrid_point (show i' < 317 by omega) (show ((158 : ℕ) + d).toNat < 317 by omega) (fun _ => 0)
      simp only [decide_eq_true_eq]
      rw [e1, e2]
      by_contra hc
      push Not at hc
      apply hne
      rw [Prod.mk.injEq]
      omega)
  exact ⟨r, m', hr, h1, h2⟩

end WBX
