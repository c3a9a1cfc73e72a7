import Mathlib.Data.Int.LeastGreatest
import Mathlib.Data.Int.ModEq
import Mathlib.Tactic.Ring
import Mathlib.Tactic.Linarith
import Mathlib.Tactic.LinearCombination

/-!
# The proleptic Gregorian calendar

The calendar of `datetime64`. Times are integers, counted in units of which `hour` make an hour, from the beginning of the year 1970.
-/

namespace WBX

/-- The number of days from the beginning of year 1 to the beginning of year `y`. -/
def daysBefore (y : ℤ) : ℤ := 365 * (y - 1) + (y - 1) / 4 - (y - 1) / 100 + (y - 1) / 400

/-- Leap years. -/
def LeapYear (y : ℤ) : Prop := 4 ∣ y ∧ (¬ 100 ∣ y ∨ 400 ∣ y)

instance (y : ℤ) : Decidable (LeapYear y) := by unfold LeapYear; infer_instance

/-- The number of days of a year. -/
def yearLength (y : ℤ) : ℤ := if LeapYear y then 366 else 365

theorem daysBefore_succ (y : ℤ) : daysBefore (y + 1) = daysBefore y + yearLength y := by
  unfold daysBefore yearLength
  by_cases h : LeapYear y
  · rw [if_pos h]; unfold LeapYear at h; omega
  · rw [if_neg h]; unfold LeapYear at h; omega

theorem daysBefore_lt_succ (y : ℤ) : daysBefore y < daysBefore (y + 1) := by
  rw [daysBefore_succ]; unfold yearLength; split <;> omega

theorem daysBefore_strictMono : StrictMono daysBefore := strictMono_int_of_lt_succ daysBefore_lt_succ

/-- The day of a time, counted from the beginning of 1970. -/
def dayOf (hour t : ℤ) : ℤ := t / (24 * hour)

/-- The day is a day of the year `y`. -/
def InYear (day y : ℤ) : Prop := daysBefore y ≤ day + daysBefore 1970 ∧ day + daysBefore 1970 < daysBefore (y + 1)

theorem exists_year (day : ℤ) : ∃ y, InYear day y := by
  have hub : ∀ y : ℤ, daysBefore y ≤ day + daysBefore 1970 → y ≤ |day + daysBefore 1970| + 2 := by
    intro y hy
    by_contra hlt
    push Not at hlt
    have h0 := abs_nonneg (day + daysBefore 1970)
    have h1 := le_abs_self (day + daysBefore 1970)
    generalize |day + daysBefore 1970| = A at *
    generalize day + daysBefore 1970 = D at *
    unfold daysBefore at hy
    omega
  have hlb : ∃ y : ℤ, daysBefore y ≤ day + daysBefore 1970 := by
    refine ⟨-|day + daysBefore 1970|, ?_⟩
    have h0 := abs_nonneg (day + daysBefore 1970)
    have h1 := neg_abs_le (day + daysBefore 1970)
    generalize |day + daysBefore 1970| = A at *
    generalize day + daysBefore 1970 = D at *
    unfold daysBefore
    omega
  obtain ⟨y, hy, hmax⟩ := Int.exists_greatest_of_bdd ⟨_, fun z hz => hub z hz⟩ hlb
  refine ⟨y, hy, ?_⟩
  by_contra hlt
  have := hmax (y + 1) (not_lt.mp hlt)
  omega

theorem InYear.unique {day y z : ℤ} (hy : InYear day y) (hz : InYear day z) : y = z := by
  have h1 : y < z + 1 := daysBefore_strictMono.lt_iff_lt.mp (hy.1.trans_lt hz.2)
  have h2 : z < y + 1 := daysBefore_strictMono.lt_iff_lt.mp (hz.1.trans_lt hy.2)
  omega

/-- The year of a time. -/
noncomputable def yearOf (hour t : ℤ) : ℤ := (exists_year (dayOf hour t)).choose

theorem inYear_yearOf (hour t : ℤ) : InYear (dayOf hour t) (yearOf hour t) := (exists_year (dayOf hour t)).choose_spec

/-- The first instant of a year. -/
def yearStart (hour y : ℤ) : ℤ := 24 * hour * (daysBefore y - daysBefore 1970)

/-- The day of the year, from 1. -/
noncomputable def dayOfYear (hour t : ℤ) : ℤ := dayOf hour t + daysBefore 1970 - daysBefore (yearOf hour t) + 1

/-- The hour of the day. -/
def hourOfDay (hour t : ℤ) : ℤ := t % (24 * hour) / hour

theorem dayOfYear_bounds (hour t : ℤ) : 1 ≤ dayOfYear hour t ∧ dayOfYear hour t ≤ yearLength (yearOf hour t) := by
  have h := inYear_yearOf hour t
  unfold InYear at h
  rw [daysBefore_succ] at h
  unfold dayOfYear
  omega

theorem hourOfDay_bounds {hour : ℤ} (hp : 0 < hour) (t : ℤ) : 0 ≤ hourOfDay hour t ∧ hourOfDay hour t < 24 := by
  have h1 := Int.emod_nonneg t (show 24 * hour ≠ 0 by omega)
  have h2 := Int.emod_lt_of_pos t (show 0 < 24 * hour by omega)
  exact ⟨Int.ediv_nonneg h1 hp.le, Int.ediv_lt_of_lt_mul hp h2⟩

/-- A time is its year, day and hour plus what is below an hour. -/
theorem time_eq (hour t : ℤ) : t = yearStart hour (yearOf hour t) + ((dayOfYear hour t - 1) * 24 + hourOfDay hour t) * hour + t % (24 * hour) % hour := by
  have h1 := Int.mul_ediv_add_emod t (24 * hour)
  have h2 := Int.mul_ediv_add_emod (t % (24 * hour)) hour
  unfold dayOfYear yearStart hourOfDay dayOf
  linear_combination -h1 - h2

/-! ### Months -/

/-- The days of a year before February, before March, …, before December. -/
def monthStarts (leap : Bool) : List ℤ := if leap then [31, 60, 91, 121, 152, 182, 213, 244, 274, 305, 335] else [31, 59, 90, 120, 151, 181, 212, 243, 273, 304, 334]

/-- The month of a day of the year, from 0. -/
def monthOfDay (leap : Bool) (doy : ℤ) : ℕ := ((monthStarts leap).filter (fun s => decide (s < doy))).length

/-- The day of the month, from 1. -/
def dayOfMonth (leap : Bool) (doy : ℤ) : ℤ := doy - ((0 :: monthStarts leap).getD (monthOfDay leap doy) 0)

/-- The number of the month of a time, from January 1970. -/
noncomputable def monthOf (hour t : ℤ) : ℤ := 12 * (yearOf hour t - 1970) + monthOfDay (decide (LeapYear (yearOf hour t))) (dayOfYear hour t)

theorem monthOfDay_mono (leap : Bool) {a b : ℤ} (h : a ≤ b) : monthOfDay leap a ≤ monthOfDay leap b := by
  unfold monthOfDay
  rw [← List.countP_eq_length_filter, ← List.countP_eq_length_filter]
  refine List.countP_mono_left (fun s _ hs => ?_)
  simp only [decide_eq_true_eq] at hs ⊢
  omega

theorem monthOfDay_le (leap : Bool) (a : ℤ) : monthOfDay leap a ≤ 11 := by
  unfold monthOfDay
  refine (List.length_filter_le _ _).trans ?_
  cases leap <;> decide

theorem dayOf_mono {hour : ℤ} (hp : 0 < hour) {a b : ℤ} (h : a ≤ b) : dayOf hour a ≤ dayOf hour b := Int.ediv_le_ediv (by omega) h

theorem yearOf_mono {hour : ℤ} (hp : 0 < hour) {a b : ℤ} (h : a ≤ b) : yearOf hour a ≤ yearOf hour b := by
  have h1 := inYear_yearOf hour a
  have h2 := inYear_yearOf hour b
  have h3 := dayOf_mono hp h
  have : yearOf hour a < yearOf hour b + 1 := daysBefore_strictMono.lt_iff_lt.mp (by unfold InYear at h1 h2; omega)
  omega

theorem monthOf_mono {hour : ℤ} (hp : 0 < hour) {a b : ℤ} (h : a ≤ b) : monthOf hour a ≤ monthOf hour b := by
  unfold monthOf
  rcases (yearOf_mono hp h).lt_or_eq with hlt | heq
  · have := monthOfDay_le (decide (LeapYear (yearOf hour a))) (dayOfYear hour a)
    omega
  · have : dayOfYear hour a ≤ dayOfYear hour b := by
      unfold dayOfYear
      have := dayOf_mono hp h
      rw [heq]
      omega
    have := monthOfDay_mono (decide (LeapYear (yearOf hour b))) this
    rw [heq]
    omega

/-- Year 2000 is a leap year, 1900 and 2001 are not. -/
example : LeapYear 2000 ∧ ¬ LeapYear 1900 ∧ ¬ LeapYear 2001 ∧ LeapYear 2024 := by decide
/-- 1970-01-01 was 719162 days after the beginning of year 1. -/
example : daysBefore 1970 = 719162 := by decide

end WBX
