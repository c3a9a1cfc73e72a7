import Verif.Props.UniqueNamesMore
import Verif.Model.Opportunism

/-!
# C101: unique names of the statistics of `Opportunism`; C37: which thresholds are accepted
-/

namespace WBX
set_option linter.unusedSectionVars false

/-- A text without underscore, then an underscore: both parts can be read off. -/
theorem field_inj {a b x y : String} (ha : '_' ∉ a.toList) (hb : '_' ∉ b.toList) (h : a ++ ("_" ++ x) = b ++ ("_" ++ y)) : a = b ∧ x = y := by
  have e := congrArg String.toList h
  simp only [String.toList_append] at e
  obtain ⟨e1, e2⟩ := split_underscore ha hb (.inr ⟨x.toList, by simp⟩) (.inr ⟨y.toList, by simp⟩) e
  refine ⟨text_inj e1, text_inj ?_⟩
  simpa using e2

section opportunism
variable {L : Type} [DecidableEq L] (label : ℝ → L) (fmt : ℝ → String) (clims : Vars (StatVar L (FV ℝ)))
  (align : StatVar L (FV ℝ) → StatVar L (FV ℝ) → Except Err (StatVar L (FV ℝ)))

/-- **C101** The unique names of `Confident`, `Covered` and `JaccardDistant` determine their quantiles and thresholds, if the numbers that
occur (the floats) print differently and without underscores. -/
theorem C101_opportunism (floats : Set ℝ) (hinj : Set.InjOn fmt floats) (hfmt : ∀ x ∈ floats, '_' ∉ (fmt x).toList) (d d' : Dim) (lo hi thr lo' hi' thr' : ℝ)
    (g1 : lo ∈ floats) (g2 : hi ∈ floats) (g3 : thr ∈ floats) (g1' : lo' ∈ floats) (g2' : hi' ∈ floats) (g3' : thr' ∈ floats) :
    ((confidentStatistic label fmt clims align d lo hi thr).uniqueName = (confidentStatistic label fmt clims align d' lo' hi' thr').uniqueName →
      lo = lo' ∧ hi = hi' ∧ thr = thr') ∧
    ((coveredStatistic fmt d lo hi : FStatistic L ℝ).uniqueName = (coveredStatistic fmt d' lo' hi' : FStatistic L ℝ).uniqueName → lo = lo' ∧ hi = hi') ∧
    ((distantStatistic label fmt clims align d lo hi thr).uniqueName = (distantStatistic label fmt clims align d' lo' hi' thr').uniqueName →
      lo = lo' ∧ hi = hi' ∧ thr = thr') := by
  refine ⟨fun h => ?_, fun h => ?_, fun h => ?_⟩
  · simp only [confidentStatistic, withClimatologyE] at h
    have h1 : fmt thr ++ ("_" ++ ("spread_low=" ++ (fmt lo ++ ("_" ++ ("spread_high=" ++ fmt hi))))) =
        fmt thr' ++ ("_" ++ ("spread_low=" ++ (fmt lo' ++ ("_" ++ ("spread_high=" ++ fmt hi'))))) := by
      apply WBX.text_inj
      have := congrArg String.toList h
      simpa using this
    obtain ⟨e1, h2⟩ := field_inj (hfmt _ g3) (hfmt _ g3') h1
    obtain ⟨e2, h3⟩ := field_inj (hfmt _ g1) (hfmt _ g1') (cancel_left h2)
    exact ⟨hinj g1 g1' e2, hinj g2 g2' (cancel_left h3), hinj g3 g3' e1⟩
  · simp only [coveredStatistic, statOfE, perVariableStatistic] at h
    have h1 : fmt lo ++ ("_" ++ ("interval_high=" ++ fmt hi)) = fmt lo' ++ ("_" ++ ("interval_high=" ++ fmt hi')) := by
      apply WBX.text_inj
      have := congrArg String.toList h
      simpa using this
    obtain ⟨e1, h2⟩ := field_inj (hfmt _ g1) (hfmt _ g1') h1
    exact ⟨hinj g1 g1' e1, hinj g2 g2' (cancel_left h2)⟩
  · simp only [distantStatistic, withClimatologyE] at h
    have h1 : fmt thr ++ ("_" ++ ("interval_low=" ++ (fmt lo ++ ("_" ++ ("interval_high=" ++ fmt hi))))) =
        fmt thr' ++ ("_" ++ ("interval_low=" ++ (fmt lo' ++ ("_" ++ ("interval_high=" ++ fmt hi'))))) := by
      apply WBX.text_inj
      have := congrArg String.toList h
      simpa using this
    obtain ⟨e1, h2⟩ := field_inj (hfmt _ g3) (hfmt _ g3') h1
    obtain ⟨e2, h3⟩ := field_inj (hfmt _ g1) (hfmt _ g1') (cancel_left h2)
    exact ⟨hinj g1 g1' e2, hinj g2 g2' (cancel_left h3), hinj g3 g3' e1⟩

open Classical in
/-- Two numbers, printed differently and without underscores. -/
example : Set.InjOn (fun x : ℝ => if x = 0 then "0.0" else "1.0") {0, 1} ∧ ∀ x ∈ ({0, 1} : Set ℝ), '_' ∉ ((fun x : ℝ => if x = 0 then "0.0" else "1.0") x).toList := by
  constructor
  · rintro x (rfl | rfl) y (rfl | rfl) h <;> first | rfl | simp at h
  · rintro x (rfl | rfl) <;> simp

/-- **C101** ★ (finding) The ensemble dimension is not part of these names. -/
theorem C101_opportunism_dimension (d d' : Dim) (lo hi thr : ℝ) :
    (confidentStatistic label fmt clims align d lo hi thr).uniqueName = (confidentStatistic label fmt clims align d' lo hi thr).uniqueName ∧
    (coveredStatistic fmt d lo hi : FStatistic L ℝ).uniqueName = (coveredStatistic fmt d' lo hi : FStatistic L ℝ).uniqueName ∧
    (distantStatistic label fmt clims align d lo hi thr).uniqueName = (distantStatistic label fmt clims align d' lo hi thr).uniqueName := by
  simp only [confidentStatistic, withClimatologyE, coveredStatistic, statOfE, perVariableStatistic, distantStatistic, and_self]

end opportunism

/-! ### Which thresholds are accepted -/

section thresholds
variable {L K : Type} [DecidableEq L] [Field K] [LinearOrder K] [IsStrictOrderedRing K]

/-- **C37** Thresholds given as an array must have the threshold dimension; thresholds given as a Dataset must have it in some variable and must have
the variable that is binarized. Otherwise an `AssertionError` is raised, and nothing else is ever raised. -/
theorem C37_threshold_arguments (label : FV K → L) (d : Dim) (name : String) (th : Thresholds L K) (r : Except Err (DA L (FV K))) :
    th.forBinary label d name = r ↔ match th with
      | .list ts => r = .ok (thresholdArray label d ts)
      | .array a => (d ∈ a.dims ∧ r = .ok a) ∨ (d ∉ a.dims ∧ r = .error .assertionError)
      | .dataset vs => (∃ a, (∃ va ∈ vs, d ∈ va.2.dims) ∧ pyGet? name vs = some a ∧ r = .ok a) ∨
          ((¬ (∃ va ∈ vs, d ∈ va.2.dims) ∨ name ∉ vs.map Prod.fst) ∧ r = .error .assertionError) := by
  cases th with
  | list ts => exact eq_comm
  | array a =>
    simp only [Thresholds.forBinary]
    split
    · rename_i h
      simp [h, eq_comm]
    · rename_i h
      simp [h, eq_comm]
  | dataset vs =>
    simp only [Thresholds.forBinary]
    split
    · rename_i h
      rcases hg : pyGet? name vs with _ | a
      · have hn : name ∉ vs.map Prod.fst := (pyGet?_none_iff _ _).mp hg
        constructor
        · intro e
          exact .inr ⟨.inr hn, e.symm⟩
        · rintro (⟨a, -, ha, -⟩ | ⟨-, e⟩)
          · simp at ha
          · exact e.symm
      · have hn : name ∈ vs.map Prod.fst := by
          by_contra hc
          rw [(pyGet?_none_iff _ _).mpr hc] at hg
          simp at hg
        constructor
        · intro e
          exact .inl ⟨a, h, rfl, e.symm⟩
        · rintro (⟨b, -, hb, e⟩ | ⟨h' | h', -⟩)
          · simp only [Option.some.injEq] at hb
            rw [e, hb]
          · exact absurd h h'
          · exact absurd hn h'
    · rename_i h
      constructor
      · intro e
        exact .inr ⟨.inl h, e.symm⟩
      · rintro (⟨a, h', -⟩ | ⟨-, e⟩)
        · exact absurd h' h
        · exact e.symm

/-- A Dataset of thresholds for one variable serves that variable and no other. -/
example : (Thresholds.dataset [("t2m", ⟨{"threshold"}, fun _ => {0}, fun _ => FV.fin 1⟩)] : Thresholds ℕ ℚ).forBinary (fun _ => 0) "threshold" "z" = .error .assertionError ∧
    ∃ a, (Thresholds.dataset [("t2m", ⟨{"threshold"}, fun _ => {0}, fun _ => FV.fin 1⟩)] : Thresholds ℕ ℚ).forBinary (fun _ => 0) "threshold" "t2m" = .ok a := by
  constructor
  · exact (C37_threshold_arguments _ _ _ _ _).mpr (.inr ⟨.inr (by simp), rfl⟩)
  · exact ⟨_, (C37_threshold_arguments _ _ _ _ _).mpr (.inl ⟨_, ⟨_, List.mem_cons_self, by simp⟩, rfl, rfl⟩)⟩

end thresholds
end WBX
