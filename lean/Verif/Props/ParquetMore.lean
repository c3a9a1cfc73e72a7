import Verif.Props.Parquet
import Mathlib.Tactic.IntervalCases

/-!
# C50: names of the files, preprocessing, unbounded slices
-/

set_option linter.unusedSectionVars false

namespace WBX

/-- **C50** `partitioned_by` is the unit that it names. -/
theorem C50_partition_unit (s : String) (u : PartitionUnit) :
    parsePartition s = .ok u ↔ (s = "month" ∧ u = .month) ∨ (s = "day" ∧ u = .day) ∨ (s = "hour" ∧ u = .hour) := by
  unfold parsePartition
  split
  · cases u <;> simp
  · cases u <;> simp
  · cases u <;> simp
  · next h1 h2 h3 => exact ⟨fun h => by simp at h, by rintro (⟨h, -⟩ | ⟨h, -⟩ | ⟨h, -⟩) <;> contradiction⟩

/-! ### The date in the name of a file -/

/-- The number of days of the months. -/
def monthDays (leap : Bool) : List ℤ := [31, if leap then 29 else 28, 31, 30, 31, 30, 31, 31, 30, 31, 30, 31]

/-- The time is in the hour `h` of day `d` of month `m` (from 1) of year `y`. -/
def OnDate (hour t y : ℤ) (m : ℕ) (d h : ℤ) : Prop :=
  1 ≤ m ∧ m ≤ 12 ∧ 1 ≤ d ∧ d ≤ (monthDays (decide (LeapYear y))).getD (m - 1) 0 ∧ 0 ≤ h ∧ h < 24 ∧
    ∃ rest, 0 ≤ rest ∧ rest < hour ∧ t = yearStart hour y + (((((monthDays (decide (LeapYear y))).take (m - 1)).sum + (d - 1)) * 24 + h) * hour + rest)

theorem monthOfDay_date (leap : Bool) {m : ℕ} {d : ℤ} (h1 : 1 ≤ m) (h2 : m ≤ 12) (hd : 1 ≤ d) (hd' : d ≤ (monthDays leap).getD (m - 1) 0) :
    monthOfDay leap (((monthDays leap).take (m - 1)).sum + d) = m - 1 ∧ dayOfMonth leap (((monthDays leap).take (m - 1)).sum + d) = d ∧
      0 ≤ ((monthDays leap).take (m - 1)).sum ∧ ((monthDays leap).take (m - 1)).sum + d ≤ if leap then 366 else 365 := by
  have key : ∀ n : ℤ, (∀ s ∈ (monthStarts leap).take (m - 1), s < n) → (∀ s ∈ (monthStarts leap).drop (m - 1), ¬ s < n) → monthOfDay leap n = m - 1 := by
    intro n ha hb
    unfold monthOfDay
    conv_lhs => rw [← List.take_append_drop (m - 1) (monthStarts leap)]
    rw [List.filter_append, List.filter_eq_self.mpr (fun s hs => by simpa using ha s hs), List.filter_eq_nil_iff.mpr (fun s hs => by simpa using hb s hs), List.append_nil, List.length_take]
    have : (monthStarts leap).length = 11 := by cases leap <;> rfl
    omega
  have hm : monthOfDay leap (((monthDays leap).take (m - 1)).sum + d) = m - 1 := by
    refine key _ ?_ ?_
    · cases leap <;> interval_cases m <;> simp [monthDays, monthStarts] at hd' ⊢ <;> omega
    · cases leap <;> interval_cases m <;> simp [monthDays, monthStarts] at hd' ⊢ <;> omega
  refine ⟨hm, ?_, ?_, ?_⟩
  · unfold dayOfMonth
    rw [hm]
    cases leap <;> interval_cases m <;> simp [monthDays, monthStarts]
  · cases leap <;> interval_cases m <;> simp [monthDays]
  · cases leap <;> interval_cases m <;> simp [monthDays] at hd' ⊢ <;> omega

/-- The calendar of a time on a date. -/
theorem OnDate.calendar {hour t y : ℤ} {m : ℕ} {d h : ℤ} (hp : 0 < hour) (hd : OnDate hour t y m d h) :
    yearOf hour t = y ∧ dayOfYear hour t = ((monthDays (decide (LeapYear y))).take (m - 1)).sum + d ∧ hourOfDay hour t = h := by
  obtain ⟨h1, h2, h3, h4, h5, h6, rest, r0, r1, ht⟩ := hd
  obtain ⟨-, -, hs, hs'⟩ := monthOfDay_date _ h1 h2 h3 h4
  generalize ((monthDays (decide (LeapYear y))).take (m - 1)).sum = S at *
  have hr : 0 ≤ h * hour + rest ∧ h * hour + rest < 24 * hour := by
    constructor
    · have := mul_nonneg h5 hp.le; omega
    · have : (h + 1) * hour ≤ 24 * hour := mul_le_mul_of_nonneg_right (by omega) hp.le
      linarith
  have ht' : t = (h * hour + rest) + 24 * hour * (daysBefore y - daysBefore 1970 + (S + (d - 1))) := by rw [ht]; unfold yearStart; ring
  have hday : dayOf hour t = daysBefore y - daysBefore 1970 + (S + (d - 1)) := by
    unfold dayOf
    rw [ht', Int.add_mul_ediv_left _ _ (by omega), Int.ediv_eq_zero_of_lt hr.1 hr.2]
    ring
  have hy : yearOf hour t = y := by
    refine (inYear_yearOf hour t).unique ?_
    unfold InYear
    rw [daysBefore_succ, hday]
    unfold yearLength
    simp only [decide_eq_true_eq] at hs'
    constructor <;> omega
  refine ⟨hy, ?_, ?_⟩
  · unfold dayOfYear; rw [hday, hy]; ring
  · unfold hourOfDay
    rw [ht', Int.add_mul_emod_self_left, Int.emod_eq_of_lt hr.1 hr.2, add_comm, Int.add_mul_ediv_right _ _ hp.ne', Int.ediv_eq_zero_of_lt r0 r1]
    ring

/-- **C50** The name of a file: year, month from 1, day from 1, hour from 0, as far as the partition goes. -/
theorem C50_file_date {hour t y : ℤ} {m : ℕ} {d h : ℤ} (hp : 0 < hour) (hd : OnDate hour t y m d h) :
    parquetFileName hour .month t = [y, m] ∧ parquetFileName hour .day t = [y, m, d] ∧ parquetFileName hour .hour t = [y, m, d, h] := by
  obtain ⟨c1, c2, c3⟩ := hd.calendar hp
  obtain ⟨h1, h2, h3, h4, -⟩ := hd
  obtain ⟨e1, e2, -, -⟩ := monthOfDay_date _ h1 h2 h3 h4
  unfold parquetFileName
  simp only [c1, c2, c3, e1, e2]
  have : ((m - 1 : ℕ) : ℤ) + 1 = m := by omega
  rw [this]
  exact ⟨rfl, rfl, rfl⟩

/-- 18:30 on 29 February 2020 (times in minutes). -/
example : parquetFileName 60 .day ((18321 * 24 + 18) * 60 + 30) = [2020, 2, 29] :=
  (C50_file_date (m := 2) (d := 29) (h := 18) (y := 2020) (by omega) ⟨by omega, by omega, by omega, by decide, by omega, by omega, 30, by omega, by omega, by decide⟩).2.1

/-! ### Preprocessing and slices -/

variable {K : Type} {o : ParquetOptions K} {store : ℤ → Option (List (ObsRow K))}

/-- **C50** `preprocessing_fn` is applied to the rows in the window — all of them together — before duplicates are removed; if it raises, so does loading. -/
theorem C50_preprocessing {f : List (ObsRow K) → Except Err (List (ObsRow K))} (hf : o.preprocessing = some f) (validTime : ℤ) (slice : Option (Option ℤ × Option ℤ)) {rows : List (ObsRow K)}
    (h : loadSingleTime { o with preprocessing := none, removeDuplicates := false } store validTime slice = .ok rows) :
    (o.removeDuplicates = false → loadSingleTime o store validTime slice = f rows) ∧
    (o.removeDuplicates = true → slice = none → loadSingleTime o store validTime slice = (f rows).map (fun rs => pickClosest o rs validTime)) := by
  obtain ⟨w, hw, hr⟩ := loadSingleTime_plain rfl rfl h
  have hw' : window o validTime slice = .ok w := hw
  have hr' : readFiles o store w = .ok rows := hr
  have ha : applyPreprocessing o rows = f rows := by unfold applyPreprocessing; rw [hf]
  refine ⟨fun hd => ?_, fun hd hs => ?_⟩
  · unfold loadSingleTime
    rw [hw']
    show (readFiles o store w >>= _) = _
    rw [hr']
    show (applyPreprocessing o rows >>= _) = _
    rw [ha, hd]
    cases f rows <;> rfl
  · subst hs
    unfold loadSingleTime
    rw [hw']
    show (readFiles o store w >>= _) = _
    rw [hr']
    show (applyPreprocessing o rows >>= _) = _
    rw [ha, hd]
    cases f rows <;> rfl

/-- **C50** A slice of lead times without a start or without an end is a `TypeError`. -/
theorem C50_slice_unbounded (ht : o.tolerance = none) (i : ℤ) (inits : List ℤ) (b : Option ℤ) :
    loadObservations o store (i :: inits) (.slice none b) = .error .typeError ∧ loadObservations o store (i :: inits) (.slice b none) = .error .typeError := by
  have hw : ∀ s : Option ℤ × Option ℤ, s.1 = none ∨ s.2 = none → loadSingleTime o store i (some s) = .error .typeError := by
    rintro ⟨a, c⟩ h
    have : window o i (some (a, c)) = .error .typeError := by
      unfold window
      rw [ht]
      rcases a with _ | a <;> rcases c with _ | c <;> simp at h ⊢
    unfold loadSingleTime
    rw [this]
    rfl
  constructor
  · simp only [loadObservations, ht, Option.isSome_none, Bool.false_eq_true, if_false, List.mapM_cons, hw (none, b) (.inl rfl)]
    rfl
  · simp only [loadObservations, ht, Option.isSome_none, Bool.false_eq_true, if_false, List.mapM_cons, hw (b, none) (.inr rfl)]
    rfl

end WBX
