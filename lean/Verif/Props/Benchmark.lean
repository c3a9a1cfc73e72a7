import Verif.Model.Benchmark
import Verif.Props.CombineErrors

set_option linter.unusedSectionVars false

/-!
# C83: what the public benchmark evaluates
-/

namespace WBX.Benchmark
open WBX CombineResults

/-! ### Times -/

theorem mem_arange {start stop step t : ℤ} (hs : 0 < step) : t ∈ arange start stop step ↔ ∃ k : ℕ, t = start + k * step ∧ t < stop := by
  unfold arange
  rw [List.mem_map]
  have hk : ∀ k : ℕ, k ∈ List.range (-((start - stop).fdiv step)).toNat ↔ start + k * step < stop := by
    intro k
    rw [List.mem_range, Int.fdiv_eq_ediv_of_nonneg _ hs.le]
    have h1 : (start - stop) / step < -(k : ℤ) ↔ start - stop < -(k : ℤ) * step := Int.ediv_lt_iff_lt_mul hs
    constructor
    · intro h
      have := h1.mp (by omega)
      linarith
    · intro h
      have := h1.mpr (by linarith)
      omega
  constructor
  · rintro ⟨k, h, rfl⟩
    exact ⟨k, rfl, (hk k).mp h⟩
  · rintro ⟨k, rfl, h⟩
    exact ⟨k, (hk k).mpr h, rfl⟩

theorem arange_increasing {start stop step : ℤ} (hs : 0 < step) : (arange start stop step).Pairwise (· < ·) := by
  unfold arange
  rw [List.pairwise_map]
  refine List.pairwise_lt_range.imp ?_
  intro a b h
  have : (a : ℤ) * step < b * step := Int.mul_lt_mul_of_pos_right (by exact_mod_cast h) hs
  linarith

theorem stamp_new_year (y : ℤ) (h : ℤ) : stamp y 1 1 h = yearStart 1 y + h := by
  unfold stamp
  simp

theorem stamp_december (y d h : ℤ) : stamp y 12 d h = yearStart 1 (y + 1) - (32 - d) * 24 + h := by
  unfold stamp yearStart
  rw [daysBefore_succ]
  unfold yearLength monthStarts
  by_cases hl : LeapYear y
  · simp [hl]
    ring
  · simp [hl]
    ring

theorem yearOf_iff (t y : ℤ) : yearOf 1 t = y ↔ yearStart 1 y ≤ t ∧ t < yearStart 1 (y + 1) := by
  have h : InYear (dayOf 1 t) y ↔ yearStart 1 y ≤ t ∧ t < yearStart 1 (y + 1) := by
    unfold InYear dayOf yearStart
    omega
  rw [← h]
  constructor
  · rintro rfl
    exact inYear_yearOf 1 t
  · intro hy
    exact (inYear_yearOf 1 t).unique hy

theorem half_days (y t : ℤ) : (∃ k : ℕ, t = yearStart 1 y + k * 12) ↔ yearStart 1 y ≤ t ∧ (hourOfDay 1 t = 0 ∨ hourOfDay 1 t = 12) := by
  have hy : ∃ n, yearStart 1 y = 24 * n := ⟨daysBefore y - daysBefore 1970, by unfold yearStart; ring⟩
  obtain ⟨n, hn⟩ := hy
  unfold hourOfDay
  rw [hn]
  constructor
  · rintro ⟨k, rfl⟩
    omega
  · rintro ⟨h1, h2⟩
    exact ⟨((t - 24 * n) / 12).toNat, by omega⟩

theorem whole_days (y t : ℤ) : (∃ k : ℕ, t = yearStart 1 y + k * 24) ↔ yearStart 1 y ≤ t ∧ hourOfDay 1 t = 0 := by
  have hy : ∃ n, yearStart 1 y = 24 * n := ⟨daysBefore y - daysBefore 1970, by unfold yearStart; ring⟩
  obtain ⟨n, hn⟩ := hy
  unfold hourOfDay
  rw [hn]
  constructor
  · rintro ⟨k, rfl⟩
    omega
  · rintro ⟨h1, h2⟩
    exact ⟨((t - 24 * n) / 24).toNat, by omega⟩

/-- C83: one end of the range of init times without the other, or of the range of lead times, is refused. -/
theorem C83_both_or_none (o : Options) (known : Except Err (List ℤ)) :
    (o.timeStart.isSome ≠ o.timeStop.isSome → initTimes o = .error .valueError ∧ fileName o = .error .valueError) ∧
    (o.leadStart.isSome ≠ o.leadStop.isSome → leadTimes o known = .error .valueError) := by
  constructor
  · intro h
    have e : initRange o = .error .valueError := by
      unfold initRange
      cases h1 : o.timeStart <;> cases h2 : o.timeStop <;> simp [h1, h2] at h ⊢
    constructor
    · unfold initTimes; rw [e]; rfl
    · unfold fileName; rw [e]; rfl
  · intro h
    unfold leadTimes
    cases h1 : o.leadStart <;> cases h2 : o.leadStop <;> simp [h1, h2] at h ⊢

/-- C83: with a range of init times, the init times are the start and every step from it before the stop, in order. -/
theorem C83_range {o : Options} {a b : String × ℤ} (ha : o.timeStart = some a) (hb : o.timeStop = some b) {f : ℤ} (hf : o.timeFrequency = some f) (hpos : 0 < f) :
    ∃ ts, initTimes o = .ok ts ∧ ts.Pairwise (· < ·) ∧ ∀ t, t ∈ ts ↔ ∃ k : ℕ, t = a.2 + k * f ∧ t < b.2 := by
  refine ⟨arange a.2 b.2 f, ?_, arange_increasing hpos, fun t => mem_arange hpos⟩
  unfold initTimes initRange initFrequency
  rw [ha, hb, hf]
  rfl

/-- What is evaluated for a year: the range of times of the year, with the exceptions for particular predictions. -/
theorem initTimes_year {o : Options} (ha : o.timeStart = none) (hb : o.timeStop = none) : initTimes o = .ok (arange (yearRange o).1 (yearRange o).2 (initFrequency o)) := by
  unfold initTimes initRange
  rw [ha, hb]
  rfl

/-- C83: for a year, the init times are the times at 00 and 12 UTC of that year, all of them and in order - except in 2022 and for the predictions `fuxi`, `excarta` and, in 2020, `baguan`. -/
theorem C83_year {o : Options} (ha : o.timeStart = none) (hb : o.timeStop = none) (hf : o.timeFrequency = none) (hy : o.year ≠ 2022) (hp : o.prediction ∉ ["fuxi", "excarta"])
    (hq : ¬ (o.year = 2020 ∧ o.prediction = "baguan")) :
    ∃ ts, initTimes o = .ok ts ∧ ts.Pairwise (· < ·) ∧ ∀ t, t ∈ ts ↔ yearOf 1 t = o.year ∧ (hourOfDay 1 t = 0 ∨ hourOfDay 1 t = 12) := by
  have he : initFrequency o = 12 := by
    unfold initFrequency
    rw [hf]
    exact if_neg (fun h => hp (by simp [h]))
  have hr : yearRange o = (yearStart 1 o.year, yearStart 1 (o.year + 1)) := by
    unfold yearRange
    rw [if_neg (by rintro (h | h); exact hy h; exact hp h), if_neg hq, stamp_new_year, stamp_new_year, add_zero, add_zero]
  refine ⟨_, initTimes_year ha hb, ?_, ?_⟩
  · rw [he]; exact arange_increasing (by norm_num)
  · intro t
    rw [he, hr, mem_arange (by norm_num), yearOf_iff]
    dsimp only
    have := half_days o.year t
    constructor
    · rintro ⟨k, h1, h2⟩
      have h3 := this.mp ⟨k, h1⟩
      exact ⟨⟨h3.1, h2⟩, h3.2⟩
    · rintro ⟨⟨h1, h2⟩, h3⟩
      obtain ⟨k, hk⟩ := this.mpr ⟨h1, h3⟩
      exact ⟨k, hk, h2⟩

/-- C83: in 2022 the last 16 days are left out (and for `aurora` the first init time), and for `excarta` the times at 12 UTC; every forecast of up to 15 days then ends in 2022. -/
theorem C83_2022 {o : Options} (ha : o.timeStart = none) (hb : o.timeStop = none) (hf : o.timeFrequency = none) (hy : o.year = 2022) :
    ∃ ts, initTimes o = .ok ts ∧ ts.Pairwise (· < ·) ∧ (∀ t, t ∈ ts ↔ yearOf 1 t = 2022 ∧ t + 16 * 24 < yearStart 1 2023 ∧
      (hourOfDay 1 t = 0 ∨ (hourOfDay 1 t = 12 ∧ o.prediction ≠ "excarta")) ∧ ¬ (o.prediction = "aurora" ∧ t = yearStart 1 2022)) ∧
      ∀ t ∈ ts, ∀ lead, 0 ≤ lead → lead ≤ 15 * 24 → yearOf 1 (t + lead) = 2022 := by
  have hstop : (yearRange o).2 = yearStart 1 2023 - 16 * 24 := by
    unfold yearRange
    rw [if_pos (Or.inl hy)]
    dsimp only
    rw [hy, stamp_december]
    norm_num
  have hmem : ∀ t, t ∈ arange (yearRange o).1 (yearRange o).2 (initFrequency o) ↔ yearOf 1 t = 2022 ∧ t + 16 * 24 < yearStart 1 2023 ∧
      (hourOfDay 1 t = 0 ∨ (hourOfDay 1 t = 12 ∧ o.prediction ≠ "excarta")) ∧ ¬ (o.prediction = "aurora" ∧ t = yearStart 1 2022) := by
    intro t
    have hstart : (yearRange o).1 = yearStart 1 2022 + if o.prediction = "aurora" then 12 else 0 := by
      unfold yearRange
      rw [if_pos (Or.inl hy)]
      dsimp only
      rw [hy]
      split_ifs
      · exact stamp_new_year 2022 12
      · exact stamp_new_year 2022 0
    rw [yearOf_iff, hstop, hstart]
    rw [show ((2022 : ℤ) + 1) = 2023 by norm_num]
    by_cases hx : o.prediction = "excarta"
    · have hf' : initFrequency o = 24 := by
        unfold initFrequency
        rw [hf]
        exact if_pos hx
      have hna : o.prediction ≠ "aurora" := by rw [hx]; decide
      rw [hf', mem_arange (by norm_num), if_neg hna, add_zero]
      have := whole_days 2022 t
      constructor
      · rintro ⟨k, h1, h2⟩
        have h3 := this.mp ⟨k, h1⟩
        exact ⟨⟨h3.1, by omega⟩, by omega, Or.inl h3.2, fun h => hna h.1⟩
      · rintro ⟨⟨h1, _⟩, h3, h4, _⟩
        obtain ⟨k, hk⟩ := this.mpr ⟨h1, h4.resolve_right (fun h => h.2 hx)⟩
        exact ⟨k, hk, by omega⟩
    · have hf' : initFrequency o = 12 := by
        unfold initFrequency
        rw [hf]
        exact if_neg hx
      rw [hf', mem_arange (by norm_num)]
      have := half_days 2022 t
      by_cases hau : o.prediction = "aurora"
      · rw [if_pos hau]
        constructor
        · rintro ⟨k, h1, h2⟩
          have h3 := this.mp ⟨k + 1, by push_cast; linarith⟩
          refine ⟨⟨h3.1, by omega⟩, by omega, h3.2.imp_right (fun h => ⟨h, hx⟩), fun h => ?_⟩
          rw [h.2] at h1
          omega
        · rintro ⟨⟨h1, _⟩, h3, h4, h5⟩
          obtain ⟨k, hk⟩ := this.mpr ⟨h1, h4.imp_right (fun h => h.1)⟩
          have hk0 : k ≠ 0 := by
            rintro rfl
            exact h5 ⟨hau, by simpa using hk⟩
          refine ⟨k - 1, ?_, by omega⟩
          obtain ⟨j, rfl⟩ := Nat.exists_eq_succ_of_ne_zero hk0
          rw [hk]
          push_cast
          ring
      · rw [if_neg hau, add_zero]
        constructor
        · rintro ⟨k, h1, h2⟩
          have h3 := this.mp ⟨k, h1⟩
          exact ⟨⟨h3.1, by omega⟩, by omega, h3.2.imp_right (fun h => ⟨h, hx⟩), fun h => hau h.1⟩
        · rintro ⟨⟨h1, _⟩, h3, h4, _⟩
          obtain ⟨k, hk⟩ := this.mpr ⟨h1, h4.imp_right (fun h => h.1)⟩
          exact ⟨k, hk, by omega⟩
  refine ⟨_, initTimes_year ha hb, ?_, hmem, ?_⟩
  · apply arange_increasing
    unfold initFrequency
    rw [hf]
    dsimp only
    split_ifs <;> norm_num
  · intro t ht lead h1 h2
    obtain ⟨h3, h4, _⟩ := (hmem t).mp ht
    rw [yearOf_iff] at h3 ⊢
    rw [show ((2022 : ℤ) + 1) = 2023 by norm_num] at h3 ⊢
    constructor <;> omega

/-- C83: the other exceptions. `fuxi` and `excarta` end 16 days before the end of any year (`excarta` is evaluated once a day), `baguan` in 2020 at the end of 30 December, 00 UTC. -/
theorem C83_exceptions {o : Options} (ha : o.timeStart = none) (hb : o.timeStop = none) (hf : o.timeFrequency = none) :
    (o.prediction = "fuxi" → ∃ ts, initTimes o = .ok ts ∧ ∀ t, t ∈ ts ↔ yearOf 1 t = o.year ∧ t + 16 * 24 < yearStart 1 (o.year + 1) ∧ (hourOfDay 1 t = 0 ∨ hourOfDay 1 t = 12)) ∧
    (o.prediction = "excarta" → ∃ ts, initTimes o = .ok ts ∧ ∀ t, t ∈ ts ↔ yearOf 1 t = o.year ∧ t + 16 * 24 < yearStart 1 (o.year + 1) ∧ hourOfDay 1 t = 0) ∧
    (o.prediction = "baguan" → o.year = 2020 → ∃ ts, initTimes o = .ok ts ∧ ∀ t, t ∈ ts ↔ yearOf 1 t = o.year ∧ t + 36 < yearStart 1 (o.year + 1) ∧ (hourOfDay 1 t = 0 ∨ hourOfDay 1 t = 12)) := by
  refine ⟨?_, ?_, ?_⟩
  · intro hp
    refine ⟨_, initTimes_year ha hb, fun t => ?_⟩
    have hr : yearRange o = (yearStart 1 o.year, yearStart 1 (o.year + 1) - 16 * 24) := by
      unfold yearRange
      rw [if_pos (Or.inr (by simp [hp])), if_neg (by rw [hp]; decide), stamp_new_year, stamp_december]
      norm_num
    have he : initFrequency o = 12 := by
      unfold initFrequency
      rw [hf]
      exact if_neg (by rw [hp]; decide)
    rw [hr, he, mem_arange (by norm_num), yearOf_iff]
    dsimp only
    have := half_days o.year t
    constructor
    · rintro ⟨k, h1, h2⟩
      have h3 := this.mp ⟨k, h1⟩
      exact ⟨⟨h3.1, by omega⟩, by omega, h3.2⟩
    · rintro ⟨⟨h1, _⟩, h2, h3⟩
      obtain ⟨k, hk⟩ := this.mpr ⟨h1, h3⟩
      exact ⟨k, hk, by omega⟩
  · intro hp
    refine ⟨_, initTimes_year ha hb, fun t => ?_⟩
    have hr : yearRange o = (yearStart 1 o.year, yearStart 1 (o.year + 1) - 16 * 24) := by
      unfold yearRange
      rw [if_pos (Or.inr (by simp [hp])), if_neg (by rw [hp]; decide), stamp_new_year, stamp_december]
      norm_num
    have he : initFrequency o = 24 := by
      unfold initFrequency
      rw [hf]
      exact if_pos hp
    rw [hr, he, mem_arange (by norm_num), yearOf_iff]
    dsimp only
    have := whole_days o.year t
    constructor
    · rintro ⟨k, h1, h2⟩
      have h3 := this.mp ⟨k, h1⟩
      exact ⟨⟨h3.1, by omega⟩, by omega, h3.2⟩
    · rintro ⟨⟨h1, _⟩, h2, h3⟩
      obtain ⟨k, hk⟩ := this.mpr ⟨h1, h3⟩
      exact ⟨k, hk, by omega⟩
  · intro hp hy
    refine ⟨_, initTimes_year ha hb, fun t => ?_⟩
    have hr : yearRange o = (yearStart 1 o.year, yearStart 1 (o.year + 1) - 36) := by
      unfold yearRange
      rw [if_neg (by rw [hp, hy]; decide), if_pos ⟨hy, hp⟩, stamp_new_year, stamp_december]
      norm_num
      omega
    have he : initFrequency o = 12 := by
      unfold initFrequency
      rw [hf]
      exact if_neg (by rw [hp]; decide)
    rw [hr, he, mem_arange (by norm_num), yearOf_iff]
    dsimp only
    have := half_days o.year t
    constructor
    · rintro ⟨k, h1, h2⟩
      have h3 := this.mp ⟨k, h1⟩
      exact ⟨⟨h3.1, by omega⟩, by omega, h3.2⟩
    · rintro ⟨⟨h1, _⟩, h2, h3⟩
      obtain ⟨k, hk⟩ := this.mpr ⟨h1, h3⟩
      exact ⟨k, hk, by omega⟩

/-- C83: the lead times: those asked for, stop excluded; for the baselines that have none, every 6 hours up to 15 days, included; else those of the predictions. -/
theorem C83_lead_times (o : Options) (known : Except Err (List ℤ)) :
    (∀ a b, o.leadStart = some a → o.leadStop = some b → 0 < o.leadFrequency → ∃ ls, leadTimes o known = .ok ls ∧ ls.Pairwise (· < ·) ∧
      ∀ l, l ∈ ls ↔ ∃ k : ℕ, l = a + k * o.leadFrequency ∧ l < b) ∧
    (o.leadStart = none → o.leadStop = none → o.prediction ∈ ["persistence", "climatology", "probabilistic_climatology"] → ∃ ls, leadTimes o known = .ok ls ∧ ls.Pairwise (· < ·) ∧
      ∀ l, l ∈ ls ↔ 0 ≤ l ∧ l ≤ 15 * 24 ∧ 6 ∣ l) ∧
    (o.leadStart = none → o.leadStop = none → o.prediction ∉ ["persistence", "climatology", "probabilistic_climatology"] → leadTimes o known = known) := by
  refine ⟨?_, ?_, ?_⟩
  · intro a b ha hb hf
    refine ⟨arange a b o.leadFrequency, ?_, arange_increasing hf, fun l => mem_arange hf⟩
    unfold leadTimes
    rw [ha, hb]
  · intro ha hb hp
    refine ⟨arange 0 (15 * 24 + 6) 6, ?_, arange_increasing (by norm_num), fun l => ?_⟩
    · unfold leadTimes
      rw [ha, hb]
      exact if_pos hp
    · rw [mem_arange (by norm_num)]
      constructor
      · rintro ⟨k, rfl, h⟩
        omega
      · rintro ⟨h1, h2, h3⟩
        exact ⟨(l / 6).toNat, by omega, by omega⟩
  · intro ha hb hp
    unfold leadTimes
    rw [ha, hb]
    exact if_neg hp

/-- The whole of 2020, which is a leap year. -/
example : ∃ ts, initTimes { prediction := "hres", target := "era5", resolution := "64x32", year := 2020 } = .ok ts ∧ ts.length = 732 :=
  ⟨_, rfl, by decide +kernel⟩

/-- One day of `aurora` less. -/
example : ∃ ts, initTimes { prediction := "aurora", target := "hres_t0", resolution := "64x32", year := 2022 } = .ok ts ∧ ts.length = 2 * 349 - 1 :=
  ⟨_, rfl, by decide +kernel⟩

example : leadTimes { prediction := "graphcast", target := "era5", resolution := "64x32", year := 2020, leadStart := some 0, leadStop := some 12 } (.error .keyError) = .ok [0, 6] := by decide +kernel

end WBX.Benchmark
