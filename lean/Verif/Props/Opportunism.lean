import Verif.Props.Climatology
import Verif.Props.BootstrapIntervals
import Verif.Props.Latency
import Verif.Lemmas.OneDim
import Verif.Lemmas.Ensemble
import Verif.Lemmas.BoolStatistics
import Mathlib.MeasureTheory.Measure.Lebesgue.Basic

/-!
# C71 (skill of opportunity: confident, covered, Jaccard-distant forecasts)
-/

set_option linter.unusedSectionVars false

namespace WBX
open DA MeasureTheory
variable {L : Type} [DecidableEq L]

/-- The members of the ensemble at a cell. -/
noncomputable def membersAt (d : Dim) (p : StatVar L (FV ℝ)) (e : Dim → L) : List (FV ℝ) := (p.arr.coords d).toList.map (fun l => p.arr.val (setLabel e d l))

theorem quantileDim_ok {q : ℝ} {d : Dim} {p : StatVar L (FV ℝ)} (h : d ∈ p.arr.dims) :
    ∃ s, p.quantileDim q d = .ok s ∧ (∀ e, s.arr.val e = quantile q (membersAt d p e)) ∧ s.arr.dims = p.arr.dims.erase d ∧ s.arr.coords = p.arr.coords :=
  ⟨_, if_pos h, fun _ => rfl, rfl, rfl⟩

theorem selQuantile_ok {V : Type} {l : L} {c : StatVar L V} (h : "quantile" ∈ c.arr.dims) (hl : l ∈ c.arr.coords "quantile") :
    ∃ s, c.selQuantile l = .ok s ∧ ∀ e, s.arr.val e = c.arr.val (setLabel e "quantile" l) :=
  ⟨_, if_pos ⟨h, hl⟩, fun _ => rfl⟩

/-! ### Quantiles of the members -/

theorem finites_members {d : Dim} {p : StatVar L (FV ℝ)} {e : Dim → L} {x : L → ℝ} (h : ∀ l ∈ p.arr.coords d, p.arr.val (setLabel e d l) = .fin (x l)) :
    finites (membersAt d p e) = (p.arr.coords d).toList.map x := by
  unfold membersAt
  rw [← finites_map ((p.arr.coords d).toList.map x), List.map_map]
  congr 1
  exact List.map_congr_left (fun l hl => h l (by simpa using hl))

/-- A quantile lies between the smallest and the largest value, which are the quantiles 0 and 1; quantiles are monotone in the level. -/
theorem quantile_facts {xs : List (FV ℝ)} (hne : finites xs ≠ []) :
    (∃ m, quantile 0 xs = .fin m ∧ m ∈ finites xs ∧ ∀ x ∈ finites xs, m ≤ x) ∧ (∃ M, quantile 1 xs = .fin M ∧ M ∈ finites xs ∧ ∀ x ∈ finites xs, x ≤ M) ∧
    (∀ q q' : ℝ, 0 ≤ q → q ≤ q' → q' ≤ 1 → ∃ a b, quantile q xs = .fin a ∧ quantile q' xs = .fin b ∧ a ≤ b) := by
  have ha := sorted_pairwise (finites xs)
  have hlen : 1 ≤ (sorted (finites xs)).length := by rw [sorted_length]; exact List.length_pos_iff.mpr hne
  have hR : (0 : ℝ) ≤ ((sorted (finites xs)).length : ℝ) - 1 := by
    have : (1 : ℝ) ≤ (sorted (finites xs)).length := by exact_mod_cast hlen
    linarith
  have hmem : ∀ i < (sorted (finites xs)).length, (sorted (finites xs)).getD i 0 ∈ finites xs := by
    intro i hi
    rw [List.getD_eq_getElem _ _ hi]
    exact (sorted_perm _).subset (List.getElem_mem hi)
  have hget : ∀ x ∈ finites xs, ∃ i < (sorted (finites xs)).length, (sorted (finites xs)).getD i 0 = x := by
    intro x hx
    obtain ⟨i, hi, h⟩ := List.getElem_of_mem ((sorted_perm _).symm.subset hx)
    exact ⟨i, hi, by rw [List.getD_eq_getElem _ _ hi, h]⟩
  refine ⟨⟨(sorted (finites xs)).getD 0 0, ?_, hmem 0 (by omega), ?_⟩, ⟨(sorted (finites xs)).getD ((sorted (finites xs)).length - 1) 0, ?_, hmem _ (by omega), ?_⟩, ?_⟩
  · rw [quantile_fin hne, quantileSorted_eq]
    simp [interpolant]
  · intro x hx
    obtain ⟨i, hi, rfl⟩ := hget x hx
    exact getD_mono ha (Nat.zero_le i) hi
  · rw [quantile_fin hne, quantileSorted_eq, one_mul]
    have hfl : ⌊((sorted (finites xs)).length : ℝ) - 1⌋₊ = (sorted (finites xs)).length - 1 := by
      rw [show ((sorted (finites xs)).length : ℝ) - 1 = (((sorted (finites xs)).length - 1 : ℕ) : ℝ) by push_cast [Nat.cast_sub hlen]; ring, Nat.floor_natCast]
    unfold interpolant
    rw [hfl, min_eq_right (by omega)]
    simp
  · intro x hx
    obtain ⟨i, hi, rfl⟩ := hget x hx
    exact getD_mono ha (by omega) (by omega)
  · intro q q' h0 h1 h2
    exact ⟨_, _, quantile_fin hne _, quantile_fin hne _, interpolant_mono ha (by nlinarith) (by nlinarith) (by nlinarith)⟩

/-! ### Covered -/

section covered
variable {d : Dim} {lo hi : ℝ} {p t : StatVar L (FV ℝ)} {e : Dim → L}

/-- **C71** Covered at a cell: the quantile at the lower level is at most the target and the target at most the quantile at the upper level. -/
theorem C71_covered (h : d ∈ p.arr.dims) : ∃ s, covered d lo hi p t = .ok s ∧
    ∀ e, s.arr.val e = FV.ofBool (FV.le (quantile lo (membersAt d p e)) (t.arr.val e) && FV.le (t.arr.val e) (quantile hi (membersAt d p e))) := by
  obtain ⟨s1, h1, v1, -⟩ := quantileDim_ok (q := lo) h
  obtain ⟨s2, h2, v2, -⟩ := quantileDim_ok (q := hi) h
  unfold covered
  rw [h1, h2]
  refine ⟨_, rfl, fun e => ?_⟩
  show FV.ofBool (FV.le (s1.arr.val e) (t.arr.val e) && FV.le (t.arr.val e) (s2.arr.val e)) = _
  rw [v1, v2]

/-- **C71** The whole range (levels 0 and 1): covered exactly if some member is at most and some member at least the target. -/
theorem C71_covered_range (h : d ∈ p.arr.dims) {x : L → ℝ} {y : ℝ} (hx : ∀ l ∈ p.arr.coords d, p.arr.val (setLabel e d l) = .fin (x l)) (hy : t.arr.val e = .fin y)
    (hne : (p.arr.coords d).Nonempty) : ∃ s, covered d 0 1 p t = .ok s ∧
      s.arr.val e = FV.ofBool (decide ((∃ l ∈ p.arr.coords d, x l ≤ y) ∧ ∃ l ∈ p.arr.coords d, y ≤ x l)) := by
  obtain ⟨s, hs, hv⟩ := C71_covered (lo := 0) (hi := 1) (t := t) h
  refine ⟨s, hs, ?_⟩
  have hf := finites_members hx
  obtain ⟨l0, hl0⟩ := hne
  have hne' : finites (membersAt d p e) ≠ [] := by
    rw [hf]
    exact List.ne_nil_of_mem (List.mem_map_of_mem (by simpa using hl0))
  obtain ⟨⟨m, hm, hm1, hm2⟩, ⟨M, hM, hM1, hM2⟩, -⟩ := quantile_facts hne'
  rw [hf] at hm1 hm2 hM1 hM2
  simp only [List.mem_map, Finset.mem_toList] at hm1 hm2 hM1 hM2
  obtain ⟨a, ha, ha'⟩ := hm1
  obtain ⟨b, hb, hb'⟩ := hM1
  rw [hv, hm, hM, hy]
  congr 1
  simp only [FV.le, Bool.decide_and]
  congr 1
  · rw [decide_eq_decide]
    exact ⟨fun h => ⟨a, ha, by rw [ha']; exact h⟩, fun ⟨l, hl, h⟩ => (hm2 (x l) ⟨l, hl, rfl⟩).trans h⟩
  · rw [decide_eq_decide]
    exact ⟨fun h => ⟨b, hb, by rw [hb']; exact h⟩, fun ⟨l, hl, h⟩ => h.trans (hM2 (x l) ⟨l, hl, rfl⟩)⟩

/-- **C71** Wider levels cover more. -/
theorem C71_covered_wider (h : d ∈ p.arr.dims) {lo' hi' : ℝ} {x : L → ℝ} (hx : ∀ l ∈ p.arr.coords d, p.arr.val (setLabel e d l) = .fin (x l))
    (hne : (p.arr.coords d).Nonempty) (h0 : 0 ≤ lo') (h1 : lo' ≤ lo) (hlo : lo ≤ 1) (hhi : 0 ≤ hi) (h2 : hi ≤ hi') (h3 : hi' ≤ 1) :
    ∃ s s', covered d lo hi p t = .ok s ∧ covered d lo' hi' p t = .ok s' ∧ (s.arr.val e = 1 → s'.arr.val e = 1) := by
  obtain ⟨s, hs, hv⟩ := C71_covered (lo := lo) (hi := hi) (t := t) h
  obtain ⟨s', hs', hv'⟩ := C71_covered (lo := lo') (hi := hi') (t := t) h
  refine ⟨s, s', hs, hs', ?_⟩
  have hf := finites_members hx
  obtain ⟨l0, hl0⟩ := hne
  have hne' : finites (membersAt d p e) ≠ [] := by
    rw [hf]
    exact List.ne_nil_of_mem (List.mem_map_of_mem (by simpa using hl0))
  obtain ⟨-, -, hmono⟩ := quantile_facts hne'
  obtain ⟨a, b, q1, q2, hab⟩ := hmono lo' lo h0 h1 hlo
  obtain ⟨c, g, q3, q4, hcg⟩ := hmono hi hi' hhi h2 h3
  rw [hv, hv', q1, q2, q3, q4]
  have hof : ∀ b : Bool, (FV.ofBool b : FV ℝ) = 1 ↔ b = true := by intro b; cases b <;> simp [FV.ofBool, FV.one_def, FV.zero_def]
  rw [hof, hof]
  cases t.arr.val e with
  | nan => simp [FV.le]
  | inf n => simp [FV.le]
  | fin y =>
    simp only [FV.le, Bool.and_eq_true, decide_eq_true_eq]
    rintro ⟨h4, h5⟩
    exact ⟨hab.trans h4, h5.trans hcg⟩

/-- **C71** (finding) A missing target, or an ensemble without any value, counts as not covered: the statistic is 0, not NaN. -/
theorem C71_covered_nan (h : d ∈ p.arr.dims) (hn : t.arr.val e = .nan ∨ ∀ l ∈ p.arr.coords d, p.arr.val (setLabel e d l) = .nan) :
    ∃ s, covered d lo hi p t = .ok s ∧ s.arr.val e = 0 := by
  obtain ⟨s, hs, hv⟩ := C71_covered (lo := lo) (hi := hi) (t := t) h
  refine ⟨s, hs, ?_⟩
  rw [hv]
  rcases hn with hn | hn
  · rw [hn]
    cases quantile lo (membersAt d p e) <;> rfl
  · have : quantile lo (membersAt d p e) = .nan := by
      refine (C56_all_nan (xs := membersAt d p e) (fun x hx => ?_) lo (null := 0)).1
      obtain ⟨l, hl, rfl⟩ := List.mem_map.mp hx
      exact hn l (by simpa using hl)
    rw [this]
    rfl

/-- **C71** Without the ensemble dimension there is no value. -/
theorem C71_covered_no_ensemble (h : d ∉ p.arr.dims) : covered d lo hi p t = .error .valueError := by
  unfold covered StatVar.quantileDim
  rw [if_neg h]
  rfl

end covered

/-! ### Confident -/

section confident
variable {label : ℝ → L} {d : Dim} {lo hi thr : ℝ} {p t c : StatVar L (FV ℝ)} {e : Dim → L}

/-- **C71** Confident at a cell: the spread of the members is smaller than the threshold times the spread of the climatology. -/
theorem C71_confident (h : d ∈ p.arr.dims) (hc : "quantile" ∈ c.arr.dims) (h1 : label lo ∈ c.arr.coords "quantile") (h2 : label hi ∈ c.arr.coords "quantile") :
    ∃ s, confident label d lo hi thr p t c = .ok s ∧
      ∀ e, s.arr.val e = FV.ofBool (FV.lt (quantile hi (membersAt d p e) - quantile lo (membersAt d p e))
        (FV.fin thr * (c.arr.val (setLabel e "quantile" (label hi)) - c.arr.val (setLabel e "quantile" (label lo))))) := by
  obtain ⟨s1, g1, v1, -⟩ := quantileDim_ok (q := lo) h
  obtain ⟨s2, g2, v2, -⟩ := quantileDim_ok (q := hi) h
  obtain ⟨s3, g3, v3⟩ := selQuantile_ok hc h1
  obtain ⟨s4, g4, v4⟩ := selQuantile_ok hc h2
  unfold confident
  rw [g1, g2, g3, g4]
  refine ⟨_, rfl, fun e => ?_⟩
  show FV.ofBool (FV.lt (s2.arr.val e - s1.arr.val e) (FV.fin thr * (s4.arr.val e - s3.arr.val e))) = _
  rw [v1, v2, v3, v4]

/-- **C71** In numbers. -/
theorem C71_confident_fin (h : d ∈ p.arr.dims) (hc : "quantile" ∈ c.arr.dims) (h1 : label lo ∈ c.arr.coords "quantile") (h2 : label hi ∈ c.arr.coords "quantile")
    {a b x y : ℝ} (ha : quantile lo (membersAt d p e) = .fin a) (hb : quantile hi (membersAt d p e) = .fin b)
    (hx : c.arr.val (setLabel e "quantile" (label lo)) = .fin x) (hy : c.arr.val (setLabel e "quantile" (label hi)) = .fin y) :
    ∃ s, confident label d lo hi thr p t c = .ok s ∧ s.arr.val e = if b - a < thr * (y - x) then 1 else 0 := by
  obtain ⟨s, hs, hv⟩ := C71_confident (thr := thr) (t := t) h hc h1 h2
  refine ⟨s, hs, ?_⟩
  rw [hv, ha, hb, hx, hy]
  simp [FV.lt, FV.ofBool]

/-- **C71** A level that the climatology does not have is an error. -/
theorem C71_confident_missing (h : d ∈ p.arr.dims) (hc : label hi ∉ c.arr.coords "quantile") : confident label d lo hi thr p t c = .error .keyError := by
  obtain ⟨s1, g1, -⟩ := quantileDim_ok (q := lo) h
  obtain ⟨s2, g2, -⟩ := quantileDim_ok (q := hi) h
  unfold confident
  rw [g1, g2]
  unfold StatVar.selQuantile
  rw [if_neg (fun h => hc h.2)]
  rfl

end confident

/-! ### Jaccard distance -/

theorem length_Icc {a b : ℝ} : volume.real (Set.Icc a b) = max 0 (b - a) := by
  rw [Real.volume_real_Icc, max_comm]

theorem jaccard_lengths {a b c d : ℝ} (hab : a ≤ b) (hcd : c ≤ d) :
    volume.real (Set.Icc a b ∩ Set.Icc c d) = max 0 (min b d - max a c) ∧
    volume.real (Set.Icc a b ∪ Set.Icc c d) = (b - a) + (d - c) - max 0 (min b d - max a c) := by
  have h1 : volume.real (Set.Icc a b ∩ Set.Icc c d) = max 0 (min b d - max a c) := by
    rw [Set.Icc_inter_Icc]
    exact length_Icc
  refine ⟨h1, ?_⟩
  have h2 : volume.real (Set.Icc a b ∪ Set.Icc c d) + volume.real (Set.Icc a b ∩ Set.Icc c d) = volume.real (Set.Icc a b) + volume.real (Set.Icc c d) := by
    have h := measure_union_add_inter (μ := (volume : Measure ℝ)) (Set.Icc a b) (t := Set.Icc c d) measurableSet_Icc
    have hi : volume (Set.Icc a b ∩ Set.Icc c d) ≠ ⊤ := by rw [Set.Icc_inter_Icc, Real.volume_Icc]; exact ENNReal.ofReal_ne_top
    have h1 : volume (Set.Icc a b) ≠ ⊤ := by rw [Real.volume_Icc]; exact ENNReal.ofReal_ne_top
    have h2 : volume (Set.Icc c d) ≠ ⊤ := by rw [Real.volume_Icc]; exact ENNReal.ofReal_ne_top
    have hu : volume (Set.Icc a b ∪ Set.Icc c d) ≠ ⊤ := ne_top_of_le_ne_top (ENNReal.add_ne_top.mpr ⟨h1, h2⟩) (measure_union_le _ _)
    unfold Measure.real
    rw [← ENNReal.toReal_add hu hi, ← ENNReal.toReal_add h1 h2, h]
  rw [h1, length_Icc, length_Icc, max_eq_right (by linarith : (0 : ℝ) ≤ b - a), max_eq_right (by linarith : (0 : ℝ) ≤ d - c)] at h2
  linarith

theorem jaccard_formula (a b c d : ℝ) : jaccardDistance (.fin a) (.fin b) (.fin c) (.fin d) =
    .fin (1 - if 0 < (b - a) + (d - c) - max 0 (min b d - max a c) then max 0 (min b d - max a c) / ((b - a) + (d - c) - max 0 (min b d - max a c)) else 1) := by
  have hmax : ∀ x y : ℝ, FV.npMaximum (.fin x) (.fin y) = .fin (max x y) := by
    intro x y
    simp only [FV.npMaximum, FV.isnan, Bool.or_self, Bool.false_eq_true, if_false, FV.lt, decide_eq_true_eq]
    split
    · next h => rw [max_eq_right h.le]
    · next h => rw [max_eq_left (not_lt.mp h)]
  have hmin : ∀ x y : ℝ, FV.npMinimum (.fin x) (.fin y) = .fin (min x y) := by
    intro x y
    simp only [FV.npMinimum, FV.isnan, Bool.or_self, Bool.false_eq_true, if_false, FV.lt, decide_eq_true_eq]
    split
    · next h => rw [min_eq_right h.le]
    · next h => rw [min_eq_left (not_lt.mp h)]
  unfold jaccardDistance
  simp only [hmax, hmin, FV.fin_sub_fin, FV.zero_def, FV.fin_add_fin, FV.lt, decide_eq_true_eq]
  split
  · next h => rw [FV.fin_div_fin_of_ne _ h.ne', FV.one_def, FV.fin_sub_fin]
  · rw [FV.one_def, FV.fin_sub_fin]

/-- **C71** The Jaccard distance of two intervals, not both a single point: one minus the length of the intersection divided by the length of the union. -/
theorem C71_jaccard {a b c d : ℝ} (hab : a ≤ b) (hcd : c ≤ d) (h : a < b ∨ c < d) :
    jaccardDistance (.fin a) (.fin b) (.fin c) (.fin d) =
      .fin (1 - volume.real (Set.Icc a b ∩ Set.Icc c d) / volume.real (Set.Icc a b ∪ Set.Icc c d)) := by
  obtain ⟨h1, h2⟩ := jaccard_lengths hab hcd
  rw [jaccard_formula, h1, h2, if_pos]
  have h3 : min b d - max a c ≤ b - a := by
    have := min_le_left b d
    have := le_max_left a c
    linarith
  have h4 : min b d - max a c ≤ d - c := by
    have := min_le_right b d
    have := le_max_right a c
    linarith
  rcases max_cases 0 (min b d - max a c) with ⟨h5, -⟩ | ⟨h5, -⟩ <;> rw [h5]
  · rcases h with h | h <;> linarith
  · rcases h with h | h <;> linarith

/-- **C71** The distance lies in `[0, 1]`, is symmetric, 0 for equal intervals and 1 for disjoint intervals that are not both points. -/
theorem C71_jaccard_range {a b c d : ℝ} (hab : a ≤ b) (hcd : c ≤ d) :
    (∃ r, jaccardDistance (.fin a) (.fin b) (.fin c) (.fin d) = .fin r ∧ 0 ≤ r ∧ r ≤ 1) ∧
    jaccardDistance (.fin c) (.fin d) (.fin a) (.fin b) = jaccardDistance (.fin a) (.fin b) (.fin c) (.fin d) ∧
    jaccardDistance (.fin a) (.fin b) (.fin a) (.fin b) = .fin 0 ∧
    (b < c → (a < b ∨ c < d) → jaccardDistance (.fin a) (.fin b) (.fin c) (.fin d) = .fin 1) := by
  have hI0 : 0 ≤ max 0 (min b d - max a c) := le_max_left _ _
  have hI1 : max 0 (min b d - max a c) ≤ (b - a) + (d - c) - max 0 (min b d - max a c) := by
    have h3 : min b d - max a c ≤ b - a := by
      have := min_le_left b d
      have := le_max_left a c
      linarith
    have h4 : min b d - max a c ≤ d - c := by
      have := min_le_right b d
      have := le_max_right a c
      linarith
    rcases max_cases 0 (min b d - max a c) with ⟨h5, -⟩ | ⟨h5, -⟩ <;> rw [h5] <;> linarith
  refine ⟨⟨_, jaccard_formula a b c d, ?_, ?_⟩, ?_, ?_, ?_⟩
  · split
    · next h => rw [sub_nonneg, div_le_one h]; exact hI1
    · simp
  · split
    · next h => have := div_nonneg hI0 h.le; linarith
    · simp
  · rw [jaccard_formula, jaccard_formula, min_comm d b, max_comm c a, add_comm (d - c)]
  · rw [jaccard_formula, min_self, max_self, max_eq_right (by linarith : (0 : ℝ) ≤ b - a)]
    by_cases hlt : a < b
    · rw [if_pos (by linarith), show b - a + (b - a) - (b - a) = b - a by ring, div_self (by linarith), sub_self]
    · rw [if_neg (by linarith), sub_self]
  · intro hbc hor
    have : max 0 (min b d - max a c) = 0 := by
      refine max_eq_left ?_
      have h1 := min_le_left b d
      have h2 := le_max_right a c
      linarith
    rw [jaccard_formula, this, if_pos (by rcases hor with h | h <;> linarith)]
    simp

/-- **C71** (finding) Two different single points have distance 0, as if they were the same: a forecast without spread is never distant from a climatology without spread,
however far apart they are. -/
theorem C71_jaccard_points (a c : ℝ) : jaccardDistance (.fin a) (.fin a) (.fin c) (.fin c) = .fin 0 := by
  rw [jaccard_formula, if_neg, sub_self]
  simp

/-- **C71** (finding) If one of the four bounds is NaN the distance is 0: not distant. -/
theorem C71_jaccard_nan {a b c d : FV ℝ} (h : a = .nan ∨ b = .nan ∨ c = .nan ∨ d = .nan) : jaccardDistance a b c d = .fin 0 := by
  have hz : (1 : FV ℝ) - 1 = .fin 0 := by rw [FV.one_def, FV.fin_sub_fin, sub_self]
  have hu : (b - a) + (d - c) = .nan ∨ FV.npMaximum 0 (FV.npMinimum b d - FV.npMaximum a c) = .nan := by
    left
    rcases h with h | h | h | h <;> rw [h] <;> simp
  unfold jaccardDistance
  rcases hu with hu | hu
  · simp only [hu, FV.nan_sub]
    exact hz
  · simp only [hu, FV.sub_nan]
    exact hz

section distant
variable {label : ℝ → L} {dim : Dim} {lo hi thr : ℝ} {p t c : StatVar L (FV ℝ)} {e : Dim → L}

/-- **C71** Distant at a cell: the Jaccard distance of the interval of the forecast and the interval of the climatology exceeds the threshold. -/
theorem C71_distant (h : dim ∈ p.arr.dims) (hc : "quantile" ∈ c.arr.dims) (h1 : label lo ∈ c.arr.coords "quantile") (h2 : label hi ∈ c.arr.coords "quantile") :
    ∃ s, jaccardDistant label dim lo hi thr p t c = .ok s ∧
      ∀ e, s.arr.val e = FV.ofBool (FV.lt (.fin thr) (jaccardDistance (quantile lo (membersAt dim p e)) (quantile hi (membersAt dim p e))
        (c.arr.val (setLabel e "quantile" (label lo))) (c.arr.val (setLabel e "quantile" (label hi))))) := by
  obtain ⟨s1, g1, v1, -⟩ := quantileDim_ok (q := lo) h
  obtain ⟨s2, g2, v2, -⟩ := quantileDim_ok (q := hi) h
  obtain ⟨s3, g3, v3⟩ := selQuantile_ok hc h1
  obtain ⟨s4, g4, v4⟩ := selQuantile_ok hc h2
  unfold jaccardDistant
  rw [g1, g2, g3, g4]
  refine ⟨_, rfl, fun e => ?_⟩
  show FV.ofBool (FV.lt (.fin thr) (jaccardDistance (s1.arr.val e) (s2.arr.val e) (s3.arr.val e) (s4.arr.val e))) = _
  rw [v1, v2, v3, v4]

end distant

/-! ### The statistics through the metric interface -/

theorem withClimatologyE_mem {name : String} {clims : Vars (StatVar L (FV ℝ))}
    {align : StatVar L (FV ℝ) → StatVar L (FV ℝ) → Except Err (StatVar L (FV ℝ))}
    {f : StatVar L (FV ℝ) → StatVar L (FV ℝ) → StatVar L (FV ℝ) → Except Err (StatVar L (FV ℝ))} {p t : Vars (StatVar L (FV ℝ))}
    (hp : (p.map Prod.fst).Nodup) (ht : (t.map Prod.fst).Nodup) (hcl : (clims.map Prod.fst).Nodup)
    {v : String} {a b c al : StatVar L (FV ℝ)}
    (ha : (v, a) ∈ p) (hb : (v, b) ∈ t) (hc : (v, c) ∈ clims) (hal : align a c = .ok al)
    {vars} (h : (withClimatologyE name clims align f).compute p t = .ok vars) {s : StatVar L (FV ℝ)}
    (hs : (v, some s) ∈ vars) : f a b al = .ok s := by
  unfold withClimatologyE at h
  obtain ⟨cs, hcs, h⟩ := bind_pair_ok _ _ _ h
  have h1 : ∀ k x, (k, x) ∈ cs → (k, x) ∈ clims := by
    intro k x hx
    obtain ⟨kv, -, hy⟩ := mapM_out_mem hcs _ hx
    obtain ⟨z, hz, hy⟩ := bind_pair_ok _ _ _ hy
    simp only [pure, Except.pure, Except.ok.injEq, Prod.mk.injEq] at hy
    obtain ⟨rfl, rfl⟩ := hy
    exact pyItem_mem hz
  obtain ⟨kv, hkv, hy⟩ := mapM_out_mem h _ hs
  obtain ⟨b', hb', hy⟩ := bind_pair_ok _ _ _ hy
  obtain ⟨c', hc', hy⟩ := bind_pair_ok _ _ _ hy
  obtain ⟨al', hal', hy⟩ := bind_pair_ok _ _ _ hy
  obtain ⟨s', hs', hy⟩ := bind_pair_ok _ _ _ hy
  simp only [pure, Except.pure, Except.ok.injEq, Prod.mk.injEq, Option.some.injEq] at hy
  obtain ⟨rfl, rfl⟩ := hy
  have uniq : ∀ {β : Type} {l : List (String × β)} (_ : (l.map Prod.fst).Nodup) {x y : β}, (kv.1, x) ∈ l → (kv.1, y) ∈ l → x = y := by
    intro β l hl x y hx hy
    have e1 := (pyGet?_eq_some hl kv.1 x).mpr hx
    have e2 := (pyGet?_eq_some hl kv.1 y).mpr hy
    rw [e1, Option.some.injEq] at e2
    exact e2
  have e1 := uniq hp ha hkv
  have e2 := uniq ht hb (pyItem_mem hb')
  have e3 := uniq hcl hc (h1 _ _ (pyItem_mem hc'))
  subst e2 e3
  rw [← e1, hal, Except.ok.injEq] at hal'
  subst hal'
  rw [e1]
  exact hs'

section means
variable {label : ℝ → L} {fmt : ℝ → String} {clims : Vars (StatVar L (FV ℝ))} {align : StatVar L (FV ℝ) → StatVar L (FV ℝ) → Except Err (StatVar L (FV ℝ))}
  {agg : Aggregator L (FV ℝ)} {p t : Vars (StatVar L (FV ℝ))} {d : Dim} {lo hi thr : ℝ} {v : String} {a b c al s : StatVar L (FV ℝ)} {y : DA L (FV ℝ)}
  {e : Dim → L} {cs : Finset (Dim → L)} {ib : Bool}
  (hp : (p.map Prod.fst).Nodup) (ht : (t.map Prod.fst).Nodup) (ha : (v, a) ∈ p) (hb : (v, b) ∈ t) (hd : d ∈ a.arr.dims)
include hp ht ha hb hd

/-- **C71** The mean of the covered statistic, summed in a numeric type: the weighted fraction of the evaluated cells whose target lies in the interval of the members. -/
theorem C71_covered_fraction (hs : covered d lo hi a b = .ok s) (E : Evaluated agg s e cs) (hW : GoodWeights agg s cs) (hpr : agg.promotes ib s = true)
    (h : IsBoolMeanOf agg ib p t v (coveredStatistic fmt d lo hi) y) :
    y.val e = .fin (wmean agg s cs (fun e' => if FV.le (quantile lo (membersAt d a e')) (b.arr.val e') ∧ FV.le (b.arr.val e') (quantile hi (membersAt d a e')) then 1 else 0)) := by
  replace h : IsMeanOf agg p t v (coveredStatistic fmt d lo hi) y := isMeanOf_of_bool (fun vars s' hc' hm' => by
    have := statOfE_mem hp ht ha hb hc' hm'
    rw [hs, Except.ok.injEq] at this
    exact this ▸ hpr) h
  obtain ⟨s', hs', hv⟩ := C71_covered (lo := lo) (hi := hi) (t := b) hd
  rw [hs, Except.ok.injEq] at hs'
  subst hs'
  refine mean_statOfE hp ht ha hb h hs E hW (fun e' _ => ?_)
  rw [hv]
  cases FV.le (quantile lo (membersAt d a e')) (b.arr.val e') <;> cases FV.le (b.arr.val e') (quantile hi (membersAt d a e')) <;> simp [FV.ofBool, FV.one_def, FV.zero_def]

variable (hcl : (clims.map Prod.fst).Nodup) (hc : (v, c) ∈ clims) (hal : align a c = .ok al) (hq : "quantile" ∈ al.arr.dims)
  (h1 : label lo ∈ al.arr.coords "quantile") (h2 : label hi ∈ al.arr.coords "quantile")
include hcl hc hal hq h1 h2

/-- **C71** The mean of the confident statistic, summed in a numeric type: the weighted fraction of the evaluated cells whose spread is below the threshold times the spread of the aligned climatology. -/
theorem C71_confident_fraction (hs : confident label d lo hi thr a b al = .ok s) (E : Evaluated agg s e cs) (hW : GoodWeights agg s cs) (hpr : agg.promotes ib s = true)
    (h : IsBoolMeanOf agg ib p t v (confidentStatistic label fmt clims align d lo hi thr) y) :
    y.val e = .fin (wmean agg s cs (fun e' => if FV.lt (quantile hi (membersAt d a e') - quantile lo (membersAt d a e'))
        (FV.fin thr * (al.arr.val (setLabel e' "quantile" (label hi)) - al.arr.val (setLabel e' "quantile" (label lo)))) then 1 else 0)) := by
  replace h : IsMeanOf agg p t v (confidentStatistic label fmt clims align d lo hi thr) y := isMeanOf_of_bool (fun vars s' hc' hm' => by
    have := withClimatologyE_mem hp ht hcl ha hb hc hal hc' hm'
    rw [hs, Except.ok.injEq] at this
    exact this ▸ hpr) h
  obtain ⟨s', hs', hv⟩ := C71_confident (thr := thr) (t := b) hd hq h1 h2
  rw [hs, Except.ok.injEq] at hs'
  subst hs'
  obtain ⟨vars, s', q, g1, g2, g3, rfl⟩ := h
  have := withClimatologyE_mem hp ht hcl ha hb hc hal g1 g2
  rw [hs, Except.ok.injEq] at this
  subst this
  rw [evaluated_mean E g3 hW.2.ne']
  congr 1
  refine wmean_congr' (fun e' _ => ?_)
  rw [hv]
  cases FV.lt (quantile hi (membersAt d a e') - quantile lo (membersAt d a e')) (FV.fin thr * (al.arr.val (setLabel e' "quantile" (label hi)) - al.arr.val (setLabel e' "quantile" (label lo)))) <;>
    simp [FV.ofBool, FV.one_def, FV.zero_def, FV.num]

/-- **C71** The mean of the distant statistic, summed in a numeric type: the weighted fraction of the evaluated cells whose Jaccard distance to the aligned climatology exceeds the threshold. -/
theorem C71_distant_fraction (hs : jaccardDistant label d lo hi thr a b al = .ok s) (E : Evaluated agg s e cs) (hW : GoodWeights agg s cs) (hpr : agg.promotes ib s = true)
    (h : IsBoolMeanOf agg ib p t v (distantStatistic label fmt clims align d lo hi thr) y) :
    y.val e = .fin (wmean agg s cs (fun e' => if FV.lt (.fin thr) (jaccardDistance (quantile lo (membersAt d a e')) (quantile hi (membersAt d a e'))
        (al.arr.val (setLabel e' "quantile" (label lo))) (al.arr.val (setLabel e' "quantile" (label hi)))) then 1 else 0)) := by
  replace h : IsMeanOf agg p t v (distantStatistic label fmt clims align d lo hi thr) y := isMeanOf_of_bool (fun vars s' hc' hm' => by
    have := withClimatologyE_mem hp ht hcl ha hb hc hal hc' hm'
    rw [hs, Except.ok.injEq] at this
    exact this ▸ hpr) h
  obtain ⟨s', hs', hv⟩ := C71_distant (thr := thr) (t := b) hd hq h1 h2
  rw [hs, Except.ok.injEq] at hs'
  subst hs'
  obtain ⟨vars, s', q, g1, g2, g3, rfl⟩ := h
  have := withClimatologyE_mem hp ht hcl ha hb hc hal g1 g2
  rw [hs, Except.ok.injEq] at this
  subst this
  rw [evaluated_mean E g3 hW.2.ne']
  congr 1
  refine wmean_congr' (fun e' _ => ?_)
  rw [hv]
  cases FV.lt (.fin thr) (jaccardDistance (quantile lo (membersAt d a e')) (quantile hi (membersAt d a e'))
        (al.arr.val (setLabel e' "quantile" (label lo))) (al.arr.val (setLabel e' "quantile" (label hi)))) <;>
    simp [FV.ofBool, FV.one_def, FV.zero_def, FV.num]

end means

/-! ### The metric -/

theorem FV.times_one (a : FV ℝ) : a * 1 = a := by
  rw [FV.one_def]
  cases a with
  | nan => rfl
  | inf n => cases n <;> simp [HMul.hMul, Mul.mul, FV.mul]
  | fin x => simp

/-- A factor of the metric: 1 if the condition is not asked for (`None`), the mean `y` of the indicator if it is to hold, `1 - y` if it is not to hold. -/
def IsFactor (agg : Aggregator L (FV ℝ)) (ib : Bool) (p t : Vars (StatVar L (FV ℝ))) (v : String) (st : FStatistic L ℝ) : Option Bool → ((Dim → L) → FV ℝ) → Prop
  | none, f => ∀ e, f e = 1
  | some is, f => ∃ y, IsBoolMeanOf agg ib p t v st y ∧ ∀ e, f e = if is then y.val e else 1 - y.val e

theorem orComplement_val (is : Bool) (x : DA L (FV ℝ)) (e : Dim → L) : (orComplement is x).val e = if is then x.val e else 1 - x.val e := by
  cases is <;> rfl

theorem isFactor_some {agg : Aggregator L (FV ℝ)} {ib : Bool} {p t : Vars (StatVar L (FV ℝ))} {v : String} {st : FStatistic L ℝ} {y : DA L (FV ℝ)}
    (h : IsBoolMeanOf agg ib p t v st y) (is : Bool) : IsFactor agg ib p t v st (some is) (fun e => (orComplement is y).val e) :=
  ⟨y, h, fun e => orComplement_val is y e⟩

/-- **C71** The value of the metric is the product of the factors of the three conditions. -/
theorem C71_value {label : ℝ → L} {fmt : ℝ → String} {clims : Vars (StatVar L (FV ℝ))} {align : StatVar L (FV ℝ) → StatVar L (FV ℝ) → Except Err (StatVar L (FV ℝ))}
    {o : OpportunismArgs} {agg : Aggregator L (FV ℝ)} {ib : Bool} {p t : Vars (StatVar L (FV ℝ))} {v : String} {x : DA L (FV ℝ)}
    (h : BoolValueOf (opportunism label fmt clims align o) agg ib p t v x) :
    ∃ fc fv fj, IsFactor agg ib p t v (confidentStatistic label fmt clims align o.dim o.confidence.1 o.confidence.2 o.confidenceThreshold) (some o.isConfident) fc ∧
      IsFactor agg ib p t v (coveredStatistic fmt o.dim o.coverage.1 o.coverage.2) o.isCovered fv ∧
      IsFactor agg ib p t v (distantStatistic label fmt clims align o.dim o.distance.1 o.distance.2 o.distanceThreshold) o.isDistant fj ∧
      ∀ e, x.val e = fc e * fv e * fj e := by
  unfold opportunism at h
  rcases hcv : o.isCovered with _ | bv <;> rcases hdj : o.isDistant with _ | bj
  all_goals
    obtain ⟨ys, hF, hg⟩ := boolValueOf_perVariable (by simp [opportunismStatistics, hcv, hdj]) h
    simp only [opportunismStatistics, hcv, hdj, Option.isSome_none, Option.isSome_some, Bool.false_eq_true, if_false, if_true, List.nil_append, List.append_nil, List.cons_append] at hF
  · rcases hF with _ | ⟨⟨k1, m1⟩, hF⟩
    cases hF
    rename_i y1
    obtain ⟨n1, y1⟩ := y1
    simp only at k1 m1
    subst k1
    simp only [opportunismValues, pyItem, pyGet?, hcv, hdj, timesOptional, bind, Except.bind, if_true, Except.ok.injEq] at hg
    refine ⟨_, fun _ => 1, fun _ => 1, isFactor_some m1 _, fun _ => rfl, fun _ => rfl, fun e => ?_⟩
    rw [← hg]
    simp [FV.times_one]
  · rcases hF with _ | ⟨⟨k1, m1⟩, hF⟩
    rcases hF with _ | ⟨⟨k3, m3⟩, hF⟩
    cases hF
    rename_i y1 y3
    obtain ⟨n1, y1⟩ := y1
    obtain ⟨n3, y3⟩ := y3
    simp only at k1 m1 k3 m3
    subst k1 k3
    simp [opportunismValues, pyItem, pyGet?, hcv, hdj, timesOptional, bind, Except.bind, pure, Except.pure] at hg
    refine ⟨_, fun _ => 1, _, isFactor_some m1 _, fun _ => rfl, isFactor_some m3 _, fun e => ?_⟩
    rw [← hg]
    simp [DA.zipWith, FV.times_one]
  · rcases hF with _ | ⟨⟨k1, m1⟩, hF⟩
    rcases hF with _ | ⟨⟨k2, m2⟩, hF⟩
    cases hF
    rename_i y1 y2
    obtain ⟨n1, y1⟩ := y1
    obtain ⟨n2, y2⟩ := y2
    simp only at k1 m1 k2 m2
    subst k1 k2
    simp [opportunismValues, pyItem, pyGet?, hcv, hdj, timesOptional, bind, Except.bind, pure, Except.pure] at hg
    refine ⟨_, _, fun _ => 1, isFactor_some m1 _, isFactor_some m2 _, fun _ => rfl, fun e => ?_⟩
    rw [← hg]
    simp [DA.zipWith, FV.times_one]
  · rcases hF with _ | ⟨⟨k1, m1⟩, hF⟩
    rcases hF with _ | ⟨⟨k2, m2⟩, hF⟩
    rcases hF with _ | ⟨⟨k3, m3⟩, hF⟩
    cases hF
    rename_i y1 y2 y3
    obtain ⟨n1, y1⟩ := y1
    obtain ⟨n2, y2⟩ := y2
    obtain ⟨n3, y3⟩ := y3
    simp only at k1 m1 k2 m2 k3 m3
    subst k1 k2 k3
    simp [opportunismValues, pyItem, pyGet?, hcv, hdj, timesOptional, bind, Except.bind, pure, Except.pure] at hg
    refine ⟨_, _, _, isFactor_some m1 _, isFactor_some m2 _, isFactor_some m3 _, fun e => ?_⟩
    rw [← hg]
    simp [DA.zipWith, FV.times_one]

/-! ### A concrete evaluation -/

/-- Two cells, two members: 0 and 0 at the first cell, 0 and 10 at the second. -/
def exSpread : StatVar ℕ (FV ℝ) := ⟨{ dims := {"x", "number"}, coords := fun _ => {0, 1}, val := fun e => if e "x" = 1 ∧ e "number" = 1 then .fin 10 else .fin 0 }, none⟩

/-- The target 5 at both cells. -/
def exFive : StatVar ℕ (FV ℝ) := ⟨{ dims := {"x"}, coords := fun _ => {0, 1}, val := fun _ => .fin 5 }, none⟩

/-- A climatology with the quantiles 0 and 4 at the levels 0 and 1. -/
def exLevels : StatVar ℕ (FV ℝ) := ⟨{ dims := {"quantile"}, coords := fun _ => {0, 1}, val := fun e => if e "quantile" = 1 then .fin 4 else .fin 0 }, none⟩

/-- The level as a label. -/
noncomputable def exLevel (q : ℝ) : ℕ := if q = 1 then 1 else 0

theorem exSpread_quantiles (n : ℕ) : quantile 0 (membersAt "number" exSpread (exCell n)) = .fin 0 ∧
    quantile 1 (membersAt "number" exSpread (exCell n)) = .fin (if n = 1 then 10 else 0) := by
  have hx : ∀ l ∈ exSpread.arr.coords "number", exSpread.arr.val (setLabel (exCell n) "number" l) = .fin (if n = 1 ∧ l = 1 then (10 : ℝ) else 0) := by
    intro l _
    have h1 : setLabel (exCell n) "number" l "x" = n := by simp [setLabel, exCell]
    have h2 : setLabel (exCell n) "number" l "number" = l := by simp [setLabel]
    show (if setLabel (exCell n) "number" l "x" = 1 ∧ setLabel (exCell n) "number" l "number" = 1 then (FV.fin 10 : FV ℝ) else .fin 0) = _
    rw [h1, h2]
    split <;> rfl
  have hf := finites_members hx
  have hC : exSpread.arr.coords "number" = {0, 1} := rfl
  have hmem : ∀ z, z ∈ finites (membersAt "number" exSpread (exCell n)) ↔ z = 0 ∨ z = if n = 1 then 10 else 0 := by
    intro z
    rw [hf, hC]
    simp only [List.mem_map, Finset.mem_toList, Finset.mem_insert, Finset.mem_singleton, exists_eq_or_imp, exists_eq_left]
    simp [eq_comm]
  have hne : finites (membersAt "number" exSpread (exCell n)) ≠ [] := List.ne_nil_of_mem ((hmem 0).mpr (Or.inl rfl))
  have h10 : (0 : ℝ) ≤ if n = 1 then 10 else 0 := by split <;> norm_num
  obtain ⟨⟨m, hm, m1, m2⟩, ⟨M, hM, M1, M2⟩, -⟩ := quantile_facts hne
  rw [hm, hM, FV.fin.injEq, FV.fin.injEq]
  constructor
  · have := m2 0 ((hmem 0).mpr (Or.inl rfl))
    rcases (hmem m).mp m1 with h | h
    · exact h
    · rw [h] at this ⊢; exact le_antisymm this h10
  · have := M2 _ ((hmem _).mpr (Or.inr rfl))
    rcases (hmem M).mp M1 with h | h
    · rw [h] at this ⊢; exact le_antisymm h10 this
    · exact h

theorem exLevels_val (e : Dim → ℕ) : exLevels.arr.val (setLabel e "quantile" (exLevel 0)) = .fin 0 ∧ exLevels.arr.val (setLabel e "quantile" (exLevel 1)) = .fin 4 := by
  constructor <;> simp [exLevels, exLevel, setLabel]

/-- Covered: the second cell only. -/
theorem exCovered : ∃ s, covered "number" 0 1 exSpread exFive = .ok s ∧ s.mask = none ∧ s.arr.dims = {"x"} ∧ s.arr.coords "x" = {0, 1} ∧
    ∀ n, s.arr.val (exCell n) = .fin (if n = 1 then 1 else 0) := by
  obtain ⟨s, hs, hv⟩ := C71_covered (d := "number") (lo := 0) (hi := 1) (p := exSpread) (t := exFive) (by simp [exSpread])
  have hs' := hs
  unfold covered StatVar.quantileDim at hs'
  rw [if_pos (by simp [exSpread])] at hs'
  simp only [bind, Except.bind, if_pos (show "number" ∈ exSpread.arr.dims by simp [exSpread]), pure, Except.pure, Except.ok.injEq] at hs'
  refine ⟨s, hs, by rw [← hs']; rfl, by rw [← hs']; decide, by rw [← hs']; decide, fun n => ?_⟩
  rw [hv, (exSpread_quantiles n).1, (exSpread_quantiles n).2, show exFive.arr.val (exCell n) = .fin 5 from rfl]
  by_cases hn : n = 1 <;> simp [hn, FV.le, FV.ofBool, FV.one_def, FV.zero_def] <;> norm_num

/-- Confident: the first cell only. -/
theorem exConfident : ∃ s, confident exLevel "number" 0 1 1 exSpread exFive exLevels = .ok s ∧ s.mask = none ∧ s.arr.dims = {"x"} ∧ s.arr.coords "x" = {0, 1} ∧
    ∀ n, s.arr.val (exCell n) = .fin (if n = 1 then 0 else 1) := by
  have hq0 : exLevel 0 ∈ exLevels.arr.coords "quantile" := by simp [exLevel, exLevels]
  have hq1 : exLevel 1 ∈ exLevels.arr.coords "quantile" := by simp [exLevel, exLevels]
  have hqd : "quantile" ∈ exLevels.arr.dims := by simp [exLevels]
  have hnd : "number" ∈ exSpread.arr.dims := by simp [exSpread]
  obtain ⟨s, hs, hv⟩ := C71_confident (thr := 1) (t := exFive) hnd hqd hq0 hq1
  have hs' := hs
  unfold confident StatVar.quantileDim StatVar.selQuantile at hs'
  simp only [bind, Except.bind, if_pos hnd, if_pos (And.intro hqd hq0), if_pos (And.intro hqd hq1), pure, Except.pure, Except.ok.injEq] at hs'
  refine ⟨s, hs, by rw [← hs']; rfl, by rw [← hs']; decide, by rw [← hs']; decide, fun n => ?_⟩
  rw [hv, (exSpread_quantiles n).1, (exSpread_quantiles n).2, (exLevels_val _).1, (exLevels_val _).2]
  by_cases hn : n = 1 <;> simp [hn, FV.lt, FV.ofBool, FV.one_def, FV.zero_def] <;> norm_num

/-- Unbinned mean over `x` with all weights 1. -/
noncomputable def wAgg : Aggregator ℕ (FV ℝ) := { reduceDims := ["x"], weighBy := [fun _ => DA.scalar 1] }

theorem wAgg_weight (s : StatVar ℕ (FV ℝ)) (e : Dim → ℕ) : cellWeight wAgg s e = 1 := by
  simp [cellWeight, Aggregator.allFactors, wAgg, DA.scalar, FV.num, FV.one_def]

open Classical in
theorem evaluatedW (s : StatVar ℕ (FV ℝ)) (C : Finset ℕ) (hc : s.arr.coords "x" = C)
    (hm : ∀ m, s.mask = some m → m.dims ⊆ s.arr.dims ∧ m.coords = s.arr.coords) (S : Finset ℕ)
    (hS : ∀ n, n ∈ S ↔ n ∈ C ∧ counted wAgg s (exCell n) = true)
    (hf : ∀ n ∈ S, (s.arr.val (exCell n)).isFin = true) : Evaluated wAgg s (exCell 0) (S.image exCell) := by
  refine ⟨⟨by simp [wAgg], by simp [wAgg]⟩, ?_, hm, ?_, ?_, ?_⟩
  · intro m hm d hd
    simp only [Aggregator.allFactors, wAgg, List.map_cons, List.map_nil, List.append_nil, List.mem_singleton] at hm
    subst hm
    simp [DA.scalar] at hd
  · intro m hm e'
    simp only [Aggregator.allFactors, wAgg, List.map_cons, List.map_nil, List.append_nil, List.mem_singleton] at hm
    subst hm
    rfl
  · intro e'
    have hr : wAgg.reduceDims = ["x"] := rfl
    rw [hr]
    simp only [List.mem_singleton, forall_eq, hc, Finset.mem_image]
    constructor
    · rintro ⟨n, hn, rfl⟩
      obtain ⟨h1, h2⟩ := (hS n).mp hn
      exact ⟨⟨by simpa [exCell] using h1, fun d hd => by simp [exCell, hd]⟩, h2⟩
    · rintro ⟨⟨h1, h2⟩, h3⟩
      have he := exCell_eq (e' := e') rfl (fun d hd => by rw [h2 d hd]; simp [exCell, hd])
      refine ⟨e' "x", (hS _).mpr ⟨h1, ?_⟩, he.symm⟩
      rw [← he]; exact h3
  · intro e' he'
    obtain ⟨n, hn, rfl⟩ := Finset.mem_image.mp he'
    exact hf n hn

open Classical in
theorem wAgg_mean (s : StatVar ℕ (FV ℝ)) (S : Finset ℕ) (hS : 0 < S.card)
    (E : Evaluated wAgg s (exCell 0) (S.image exCell)) {q} (h : wAgg.aggregateStatVar s = .ok (some q)) :
    (DA.zipWith (· / ·) q.1 q.2).val (exCell 0) = FV.fin ((∑ n ∈ S, (s.arr.val (exCell n)).num) / S.card) := by
  rw [evaluated_mean E h (by
    simp only [wAgg_weight, Finset.sum_const, nsmul_eq_mul, mul_one]
    rw [Finset.card_image_of_injective _ exCell_inj]
    exact_mod_cast hS.ne')]
  congr 1
  unfold wmean
  simp only [wAgg_weight, mul_one, Finset.sum_const, nsmul_eq_mul]
  rw [Finset.card_image_of_injective _ exCell_inj, Finset.sum_image (fun _ _ _ _ h => exCell_inj h)]

theorem boolValueOf_of {D : Type} {m : Metric D (Option (StatVar L (FV ℝ))) (DA L (FV ℝ))} {agg : Aggregator L (FV ℝ)} {ib : Bool} {p t : Vars D} {v : String} {x : DA L (FV ℝ)}
    (h : ∀ s, agg.promotes ib s = true) (hv : ValueOf m agg p t v x) : BoolValueOf m agg ib p t v x := by
  obtain ⟨r, h1, h2⟩ := hv
  exact ⟨r, by rw [boolMetricAlone_eq h]; exact h1, h2⟩

open Classical in
/-- **C71** (finding) The metric is a product of fractions, not the fraction of the cells where the conditions hold together: here no cell is both confident and covered, but the metric is 1/4. -/
theorem C71_not_joint : ∃ (o : OpportunismArgs) (sc sv : StatVar ℕ (FV ℝ)) (x : DA ℕ (FV ℝ)), o.isConfident = true ∧ o.isCovered = some true ∧ o.isDistant = none ∧
    BoolValueOf (opportunism exLevel (fun _ => "") [("t2m", exLevels)] (fun _ c => .ok c) o) wAgg false [("t2m", exSpread)] [("t2m", exFive)] "t2m" x ∧
    confident exLevel o.dim o.confidence.1 o.confidence.2 o.confidenceThreshold exSpread exFive exLevels = .ok sc ∧
    covered o.dim o.coverage.1 o.coverage.2 exSpread exFive = .ok sv ∧
    (∀ n ∈ ({0, 1} : Finset ℕ), ¬ (sc.arr.val (exCell n) = 1 ∧ sv.arr.val (exCell n) = 1)) ∧ x.val (exCell 0) = .fin (1 / 4) := by
  obtain ⟨sc, hc, c1, c2, c3, c4⟩ := exConfident
  obtain ⟨sv, hv, v1, v2, v3, v4⟩ := exCovered
  have hmean : ∀ (s : StatVar ℕ (FV ℝ)) (f : ℕ → ℝ), s.mask = none → s.arr.dims = {"x"} → s.arr.coords "x" = {0, 1} → (∀ n, s.arr.val (exCell n) = .fin (f n)) →
      ∃ q, wAgg.aggregateStatVar s = .ok (some q) ∧ (DA.zipWith (· / ·) q.1 q.2).val (exCell 0) = .fin ((f 0 + f 1) / 2) := by
    intro s f h1 h2 h3 h4
    have hr : ∀ d ∈ wAgg.reduceDims, d ∈ s.arr.dims := by
      intro d hd
      rw [h2]
      simpa [wAgg] using hd
    obtain ⟨q, hq⟩ := exists_aggregate wAgg rfl s hr
    refine ⟨q, hq, ?_⟩
    have E := evaluatedW s {0, 1} h3 (by simp [h1]) {0, 1} (by intro n; simp [counted, h1, h4, FV.isnan]) (by intro n _; rw [h4]; rfl)
    rw [wAgg_mean s {0, 1} (by simp) E hq, FV.fin.injEq]
    rw [Finset.sum_pair (by simp), h4, h4]
    simp [FV.num]
  obtain ⟨qc, hqc, mc⟩ := hmean sc _ c1 c2 c3 c4
  obtain ⟨qv, hqv, mv⟩ := hmean sv _ v1 v2 v3 v4
  refine ⟨⟨"number", true, some true, none, (0, 1), (0, 1), (0, 1), 1, 0⟩, sc, sv, DA.zipWith (· * ·) (DA.zipWith (· / ·) qc.1 qc.2) (DA.zipWith (· / ·) qv.1 qv.2), rfl, rfl, rfl, ?_, hc, hv, ?_, ?_⟩
  · refine boolValueOf_of (promotes_of (Or.inl (by simp [wAgg]))) (exists_perVariable (ys := [("Confident", DA.zipWith (· / ·) qc.1 qc.2), ("Covered", DA.zipWith (· / ·) qv.1 qv.2)]) (by simp [opportunismStatistics]) (by simp [opportunismStatistics]) ?_ ?_)
    · refine .cons ⟨rfl, sc, qc, ?_, hqc, rfl⟩ (.cons ⟨rfl, ?_⟩ .nil)
      · simp [confidentStatistic, withClimatologyE, pyItem, pyGet?, bind, Except.bind, pure, Except.pure, hc]
      · exact oneMean_statOfE _ hv hqv
    · simp [opportunismValues, timesOptional, pyItem, pyGet?, bind, Except.bind, pure, Except.pure, orComplement]
  · intro n hn h
    rw [c4, v4, FV.one_def, FV.fin.injEq, FV.fin.injEq] at h
    split at h <;> simp at h
  · show (DA.zipWith (· / ·) qc.1 qc.2).val (exCell 0) * (DA.zipWith (· / ·) qv.1 qv.2).val (exCell 0) = _
    rw [mc, mv]
    norm_num

/-- The hypotheses of the theorems above are met: covered, confident and the Jaccard distance of concrete intervals. -/
example : (∃ s, covered "number" 0 1 exSpread exFive = .ok s ∧ s.arr.val (exCell 1) = FV.ofBool (decide ((∃ l ∈ exSpread.arr.coords "number", (if l = 1 then (10 : ℝ) else 0) ≤ 5) ∧
      ∃ l ∈ exSpread.arr.coords "number", (5 : ℝ) ≤ if l = 1 then 10 else 0))) ∧
    jaccardDistance (.fin 0) (.fin 2) (.fin 1) (.fin 3) = .fin (1 - volume.real (Set.Icc (0 : ℝ) 2 ∩ Set.Icc 1 3) / volume.real (Set.Icc (0 : ℝ) 2 ∪ Set.Icc 1 3)) := by
  refine ⟨C71_covered_range (d := "number") (by simp [exSpread]) ?_ rfl ⟨0, by simp [exSpread]⟩, C71_jaccard (by norm_num) (by norm_num) (Or.inl (by norm_num))⟩
  intro l _
  by_cases hl : l = 1 <;> simp [exSpread, setLabel, exCell, hl]

/-- Two thirds. -/
example : jaccardDistance (.fin 0) (.fin 2) (.fin 1) (.fin 3) = .fin (2 / 3) := by
  rw [jaccard_formula]
  norm_num

/-- The hypotheses of `C71_covered_fraction` are met. -/
example : ∃ s E y, ∃ (_ : Evaluated wAgg s (exCell 0) E), covered "number" 0 1 exSpread exFive = .ok s ∧ GoodWeights wAgg s E ∧ wAgg.promotes false s = true ∧
    IsBoolMeanOf wAgg false [("t2m", exSpread)] [("t2m", exFive)] "t2m" (coveredStatistic (fun _ => "") "number" 0 1) y := by
  classical
  obtain ⟨sv, hv, v1, v2, v3, v4⟩ := exCovered
  have hr : ∀ d ∈ wAgg.reduceDims, d ∈ sv.arr.dims := by
    intro d hd
    rw [v2]
    simpa [wAgg] using hd
  obtain ⟨q, hq⟩ := exists_aggregate wAgg rfl sv hr
  have E := evaluatedW sv {0, 1} v3 (by simp [v1]) {0, 1} (by intro n; simp [counted, v1, v4, FV.isnan]) (by intro n _; rw [v4]; rfl)
  obtain ⟨s, q', h1, h2, h3⟩ := oneMean_statOfE (agg := wAgg) (v := "t2m") ("Covered_interval_low=" ++ "" ++ "_interval_high=" ++ "") hv hq
  have hpr : ∀ s, wAgg.promotes false s = true := promotes_of (Or.inl (by simp [wAgg]))
  refine ⟨sv, _, _, E, hv, ⟨fun e' _ => by rw [wAgg_weight]; norm_num, ?_⟩, hpr sv, _, s, q', h1, by simp, by rw [aggregateBoolVar_promoted (hpr s)]; exact h2, rfl⟩
  simp only [wAgg_weight, Finset.sum_const, nsmul_eq_mul, mul_one]
  rw [Finset.card_image_of_injective _ exCell_inj]
  simp

/-! ### Without promotion -/

section any
variable {agg : Aggregator L (FV ℝ)} {ib : Bool} {p t : Vars (StatVar L (FV ℝ))} {v : String} {st : FStatistic L ℝ} {s : StatVar L (FV ℝ)} {y : DA L (FV ℝ)} {e : Dim → L} {cs : Finset (Dim → L)}

open Classical in
/-- **C71** (finding) Without weighting, `skipna`, mask or land/sea bins the sums of a boolean statistic are boolean, and its "mean" is not the fraction of the cells where the condition
holds: it is 1 as soon as the condition holds at one cell of the bin. -/
theorem C71_unweighted_any (hst : ∀ vars s', st.compute p t = .ok vars → (v, some s') ∈ vars → s' = s) (E : Evaluated agg s e cs) (hb : agg.promotes ib s = false)
    (h : IsBoolMeanOf agg ib p t v st y) :
    y.val e = if ∃ e' ∈ cs, cellWeight agg s e' ≠ 0 then FV.fin (if ∃ e' ∈ cs, (s.arr.val e').num ≠ 0 ∧ cellWeight agg s e' ≠ 0 then 1 else 0) else .nan := by
  obtain ⟨vars, s', q, h1, h2, h3, rfl⟩ := h
  have := hst vars s' h1 h2
  subst this
  exact bool_mean_any E hb h3

open Classical in
/-- **C71** (finding) Over several chunks the booleans are added as numbers: the "mean" is the number of chunks in which the condition holds somewhere, divided by the number of chunks
with cells. It depends on how the data was cut. -/
theorem C71_chunk_count {chunks : List ((StatVar L (FV ℝ) × Finset (Dim → L)) × (DA L (FV ℝ) × DA L (FV ℝ)))}
    (hb : ∀ c ∈ chunks, agg.promotes ib c.1.1 = false) (hE : ∀ c ∈ chunks, Evaluated agg c.1.1 e c.1.2 ∧ agg.aggregateBoolVar ib c.1.1 = .ok (some c.2) ∧ c.2.1.InDom e ∧ c.2.2.InDom e) :
    (DA.zipWith (· / ·) (combiningSum (chunks.map (fun c => c.2.1))) (combiningSum (chunks.map (fun c => c.2.2)))).val e =
      FV.fin ((chunks.countP (fun c => decide (∃ e' ∈ c.1.2, (c.1.1.arr.val e').num ≠ 0 ∧ cellWeight agg c.1.1 e' ≠ 0)) : ℕ) : ℝ) /
      FV.fin ((chunks.countP (fun c => decide (∃ e' ∈ c.1.2, cellWeight agg c.1.1 e' ≠ 0)) : ℕ) : ℝ) := by
  show (combiningSum _).val e / (combiningSum _).val e = _
  congr 1
  · refine combiningSum_indicator (f := fun c : (StatVar L (FV ℝ) × Finset (Dim → L)) × (DA L (FV ℝ) × DA L (FV ℝ)) => c.2.1) (P := fun c => ∃ e' ∈ c.1.2, (c.1.1.arr.val e').num ≠ 0 ∧ cellWeight agg c.1.1 e' ≠ 0) ?_ ?_
    · intro c hc
      exact (hE c hc).2.2.1
    · intro c hc
      exact (bool_sums (hE c hc).1 (hb c hc) (hE c hc).2.1).1
  · refine combiningSum_indicator (f := fun c : (StatVar L (FV ℝ) × Finset (Dim → L)) × (DA L (FV ℝ) × DA L (FV ℝ)) => c.2.2) (P := fun c => ∃ e' ∈ c.1.2, cellWeight agg c.1.1 e' ≠ 0) ?_ ?_
    · intro c hc
      exact (hE c hc).2.2.2
    · intro c hc
      exact (bool_sums (hE c hc).1 (hb c hc) (hE c hc).2.1).2

end any

/-- The covered statistic at the cells `S`, aggregated without weights. -/
theorem exBoolChunk (S : Finset ℕ) (hS : S ⊆ {0, 1}) {sv : StatVar ℕ (FV ℝ)} (v1 : sv.mask = none) (v2 : sv.arr.dims = {"x"}) (v3 : sv.arr.coords "x" = {0, 1})
    (v4 : ∀ n, sv.arr.val (exCell n) = .fin (if n = 1 then 1 else 0)) : ∃ (cs : Finset (Dim → ℕ)) (q : DA ℕ (FV ℝ) × DA ℕ (FV ℝ)),
      Evaluated mAgg ⟨sv.arr.restrict "x" S, sv.mask⟩ (exCell 0) cs ∧ mAgg.aggregateBoolVar false ⟨sv.arr.restrict "x" S, sv.mask⟩ = .ok (some q) ∧
      q.1.InDom (exCell 0) ∧ q.2.InDom (exCell 0) ∧ ∀ e', e' ∈ cs ↔ ∃ n ∈ S, e' = exCell n := by
  classical
  have hb : mAgg.promotes false ⟨sv.arr.restrict "x" S, sv.mask⟩ = false := by simp [Aggregator.promotes, mAgg, v1]
  have E := evaluated1 ⟨sv.arr.restrict "x" S, sv.mask⟩ S (by simp [DA.restrict, v3]; exact hS) (by simp [v1]) S
    (by intro k; simp [counted, v1, mAgg]) (by intro k _; show (sv.arr.val (exCell k)).isFin = true; rw [v4]; rfl)
  have hagg : ∃ q, mAgg.aggregateBoolVar false ⟨sv.arr.restrict "x" S, sv.mask⟩ = .ok (some q) ∧ q.1.dims = ∅ ∧ q.2.dims = ∅ := by
    unfold Aggregator.aggregateBoolVar
    rw [if_neg (by simp [hb]), v1, Aggregator.aggregateStatVar_eq]
    obtain ⟨-, -, -, h⟩ := Aggregator.aggregationFn_eq mAgg.boolean (mAgg.boolean.applyMask ⟨(sv.arr.restrict "x" S).map NPBool.ofFV, none⟩).1
    obtain ⟨-, -, -, h'⟩ := Aggregator.aggregationFn_eq mAgg.boolean (mAgg.boolean.applyMask ⟨(sv.arr.restrict "x" S).map NPBool.ofFV, none⟩).2
    rw [h (by simp [mAgg, Aggregator.boolean, Aggregator.applyMask, DA.map, DA.restrict, v2]) (by simp [mAgg, Aggregator.boolean]) (by simp [Aggregator.BinsApply, mAgg, Aggregator.boolean]),
      h' (by simp [mAgg, Aggregator.boolean, Aggregator.applyMask, DA.map, DA.restrict, v2]) (by simp [mAgg, Aggregator.boolean]) (by simp [Aggregator.BinsApply, mAgg, Aggregator.boolean])]
    refine ⟨_, rfl, ?_, ?_⟩
    · simp [DA.dot, mAgg, Aggregator.boolean, Aggregator.applyMask, DA.sumDims, DA.sumDim, DA.map, DA.restrict, v2]
    · simp [DA.dot, mAgg, Aggregator.boolean, Aggregator.applyMask, DA.sumDims, DA.sumDim, DA.map, DA.restrict, v2]
  obtain ⟨q, hq, d1, d2⟩ := hagg
  refine ⟨_, q, E, hq, by intro d hd; simp [d1] at hd, by intro d hd; simp [d2] at hd, fun e' => ?_⟩
  rw [Finset.mem_image]
  exact exists_congr (fun n => and_congr_right (fun _ => eq_comm))

/-- **C71** (finding) The same covered statistic, true at one of two cells, has the unweighted "mean" 1 if it is aggregated in one piece and 1/2 if it is aggregated cell by cell. -/
theorem C71_chunk_dependent : ∃ (s : StatVar ℕ (FV ℝ)) (q q0 q1 : DA ℕ (FV ℝ) × DA ℕ (FV ℝ)), covered "number" 0 1 exSpread exFive = .ok s ∧ Partition [{0}, {1}] (s.arr.coords "x") ∧
    mAgg.aggregateBoolVar false s = .ok (some q) ∧ mAgg.aggregateBoolVar false ⟨s.arr.restrict "x" {0}, s.mask⟩ = .ok (some q0) ∧
    mAgg.aggregateBoolVar false ⟨s.arr.restrict "x" {1}, s.mask⟩ = .ok (some q1) ∧
    (DA.zipWith (· / ·) q.1 q.2).val (exCell 0) = .fin 1 ∧
    (DA.zipWith (· / ·) (combiningSum [q0.1, q1.1]) (combiningSum [q0.2, q1.2])).val (exCell 0) = .fin (1 / 2) := by
  classical
  obtain ⟨sv, hv, v1, v2, v3, v4⟩ := exCovered
  have hw : ∀ (s : StatVar ℕ (FV ℝ)) e', cellWeight mAgg s e' ≠ 0 := by intro s e'; simp [cellWeight, Aggregator.allFactors, mAgg]
  have hpr : ∀ S, mAgg.promotes false ⟨sv.arr.restrict "x" S, sv.mask⟩ = false := by intro S; simp [Aggregator.promotes, mAgg, v1]
  obtain ⟨cs, q, E, hq, -, -, hcs⟩ := exBoolChunk {0, 1} (by simp) v1 v2 v3 v4
  obtain ⟨cs0, q0, E0, hq0, a0, b0, hcs0⟩ := exBoolChunk {0} (by simp) v1 v2 v3 v4
  obtain ⟨cs1, q1, E1, hq1, a1, b1, hcs1⟩ := exBoolChunk {1} (by simp) v1 v2 v3 v4
  have hwhole : (⟨sv.arr.restrict "x" {0, 1}, sv.mask⟩ : StatVar ℕ (FV ℝ)) = sv := by
    have : sv.arr.restrict "x" {0, 1} = sv.arr := by
      have hcoords : (sv.arr.restrict "x" {0, 1}).coords = sv.arr.coords := by
        funext d
        show (if d = "x" then sv.arr.coords d ∩ {0, 1} else sv.arr.coords d) = _
        split
        · next h => rw [h, v3]; simp
        · rfl
      show (⟨sv.arr.dims, (sv.arr.restrict "x" {0, 1}).coords, sv.arr.val⟩ : DA ℕ (FV ℝ)) = sv.arr
      rw [hcoords]
    rw [this]
  refine ⟨sv, q, q0, q1, hv, ?_, by rw [← hwhole]; exact hq, hq0, hq1, ?_, ?_⟩
  · rw [v3]
    refine ⟨by decide, by decide⟩
  · rw [bool_mean_any E (hpr _) hq, if_pos ⟨exCell 0, (hcs _).mpr ⟨0, by simp, rfl⟩, hw _ _⟩, if_pos]
    refine ⟨exCell 1, (hcs _).mpr ⟨1, by simp, rfl⟩, ?_, hw _ _⟩
    show (sv.arr.val (exCell 1)).num ≠ 0
    rw [v4]
    simp [FV.num]
  · have := C71_chunk_count (agg := mAgg) (ib := false) (e := exCell 0)
      (chunks := [((⟨sv.arr.restrict "x" {0}, sv.mask⟩, cs0), q0), ((⟨sv.arr.restrict "x" {1}, sv.mask⟩, cs1), q1)])
      (by intro c hc; simp only [List.mem_cons, List.not_mem_nil, or_false] at hc; rcases hc with rfl | rfl <;> exact hpr _)
      (by intro c hc; simp only [List.mem_cons, List.not_mem_nil, or_false] at hc; rcases hc with rfl | rfl; exact ⟨E0, hq0, a0, b0⟩; exact ⟨E1, hq1, a1, b1⟩)
    simp only [List.map_cons, List.map_nil] at this
    rw [this]
    have n0 : ¬ ∃ e' ∈ cs0, (sv.arr.val e').num ≠ 0 ∧ cellWeight mAgg ⟨sv.arr.restrict "x" {0}, sv.mask⟩ e' ≠ 0 := by
      rintro ⟨e', he', h, -⟩
      obtain ⟨n, hn, rfl⟩ := (hcs0 e').mp he'
      rw [Finset.mem_singleton] at hn
      subst hn
      rw [v4] at h
      simp [FV.num] at h
    have n1 : ∃ e' ∈ cs1, (sv.arr.val e').num ≠ 0 ∧ cellWeight mAgg ⟨sv.arr.restrict "x" {1}, sv.mask⟩ e' ≠ 0 := by
      refine ⟨exCell 1, (hcs1 _).mpr ⟨1, by simp, rfl⟩, ?_, hw _ _⟩
      rw [v4]
      simp [FV.num]
    have m0 : ∃ e' ∈ cs0, cellWeight mAgg ⟨sv.arr.restrict "x" {0}, sv.mask⟩ e' ≠ 0 := ⟨exCell 0, (hcs0 _).mpr ⟨0, by simp, rfl⟩, hw _ _⟩
    have m1 : ∃ e' ∈ cs1, cellWeight mAgg ⟨sv.arr.restrict "x" {1}, sv.mask⟩ e' ≠ 0 := ⟨exCell 1, (hcs1 _).mpr ⟨1, by simp, rfl⟩, hw _ _⟩
    rw [List.countP_cons, List.countP_cons, List.countP_nil, List.countP_cons, List.countP_cons, List.countP_nil]
    have k0 : ((decide (∃ e' ∈ cs0, ((sv.arr.restrict "x" {0}).val e').num ≠ 0 ∧ cellWeight mAgg ⟨sv.arr.restrict "x" {0}, sv.mask⟩ e' ≠ 0)) = true) = False := by
      rw [decide_eq_true_eq]; exact eq_false n0
    have k1 : ((decide (∃ e' ∈ cs1, ((sv.arr.restrict "x" {1}).val e').num ≠ 0 ∧ cellWeight mAgg ⟨sv.arr.restrict "x" {1}, sv.mask⟩ e' ≠ 0)) = true) = True := by
      rw [decide_eq_true_eq]; exact eq_true n1
    have k2 : ((decide (∃ e' ∈ cs0, cellWeight mAgg ⟨sv.arr.restrict "x" {0}, sv.mask⟩ e' ≠ 0)) = true) = True := by
      rw [decide_eq_true_eq]; exact eq_true m0
    have k3 : ((decide (∃ e' ∈ cs1, cellWeight mAgg ⟨sv.arr.restrict "x" {1}, sv.mask⟩ e' ≠ 0)) = true) = True := by
      rw [decide_eq_true_eq]; exact eq_true m1
    dsimp only
    simp only [k0, k1, k2, k3, if_true, if_false]
    norm_num
    rw [FV.fin_div_fin_of_ne _ two_ne_zero]

end WBX
