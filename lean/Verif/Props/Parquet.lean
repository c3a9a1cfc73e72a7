import Verif.Model.Parquet
import Verif.Props.LoadChunk
import Mathlib.Data.List.Basic
import Mathlib.Data.List.Nodup
import Mathlib.Data.List.Range

/-!
# C50: the files and rows of sparse observations that are loaded
-/

set_option linter.unusedSectionVars false

namespace WBX
open DA

/-! ### Partitions -/

section
variable {hour : ℤ} (hp : 0 < hour)

theorem partitionOf_mono (hp : 0 < hour) (unit : PartitionUnit) {a b : ℤ} (h : a ≤ b) : partitionOf hour unit a ≤ partitionOf hour unit b := by
  cases unit with
  | month => exact monthOf_mono hp h
  | day => exact dayOf_mono hp h
  | hour => exact Int.ediv_le_ediv hp h

theorem mem_arangeIncl (a b f : ℤ) : f ∈ arangeIncl a b ↔ a ≤ f ∧ f ≤ b := by
  unfold arangeIncl
  simp only [List.mem_map, List.mem_range]
  constructor
  · rintro ⟨k, hk, rfl⟩; omega
  · rintro ⟨h1, h2⟩; exact ⟨(f - a).toNat, by omega, by omega⟩

theorem arangeIncl_nodup (a b : ℤ) : (arangeIncl a b).Nodup := by
  unfold arangeIncl
  refine List.Nodup.map (fun x y h => ?_) List.nodup_range
  omega

theorem dayOf_succ (hp : 0 < hour) (t : ℤ) : dayOf hour (t + 1) ≤ dayOf hour t + 1 := by
  unfold dayOf
  have h1 := Int.mul_ediv_add_emod t (24 * hour)
  have h2 := Int.emod_lt_of_pos t (show 0 < 24 * hour by omega)
  have h3 : t + 1 ≤ t + 24 * hour := by omega
  calc (t + 1) / (24 * hour) ≤ (t + 24 * hour * 1) / (24 * hour) := Int.ediv_le_ediv (by omega) (by omega)
    _ = t / (24 * hour) + 1 := Int.add_mul_ediv_left _ _ (by omega)

theorem monthOfDay_succ (leap : Bool) (d : ℤ) : monthOfDay leap (d + 1) ≤ monthOfDay leap d + 1 := by
  have key : ∀ l : List ℤ, l.Nodup → ((l.filter (fun s => decide (s < d + 1))).length ≤ (l.filter (fun s => decide (s < d))).length + 1) := by
    intro l hl
    have h1 : (l.filter (fun s => decide (s < d + 1))).length = l.countP (fun s => decide (s < d)) + l.countP (fun s => decide (s = d)) := by
      rw [← List.countP_eq_length_filter]
      clear hl
      induction l with
      | nil => rfl
      | cons a l ih =>
        simp only [List.countP_cons, ih, decide_eq_true_eq]
        by_cases h1 : a < d
        · rw [if_pos (by omega), if_pos h1, if_neg (by omega)]; omega
        · by_cases h2 : a = d
          · rw [if_pos (by omega), if_neg h1, if_pos h2]; omega
          · rw [if_neg (by omega), if_neg h1, if_neg h2]; omega
    have h2 : l.countP (fun s => decide (s = d)) ≤ 1 := by
      have := List.nodup_iff_count_le_one.mp hl d
      rw [List.count] at this
      refine le_trans (le_of_eq ?_) this
      refine List.countP_congr (fun x _ => ?_)
      simp
    rw [h1, ← List.countP_eq_length_filter]
    omega
  unfold monthOfDay
  exact key _ (by cases leap <;> decide)

theorem monthOfDay_first (leap : Bool) : monthOfDay leap 1 = 0 := by cases leap <;> decide
theorem monthOfDay_last (y : ℤ) : monthOfDay (decide (LeapYear y)) (yearLength y) = 11 := by
  unfold yearLength
  by_cases h : LeapYear y
  · rw [if_pos h]; simp only [h, decide_true]; decide
  · rw [if_neg h]; simp only [h, decide_false]; decide

theorem monthOf_succ (hp : 0 < hour) (t : ℤ) : monthOf hour (t + 1) ≤ monthOf hour t + 1 := by
  have hd := dayOf_succ hp t
  have hd' := dayOf_mono hp (show t ≤ t + 1 by omega)
  have hy := yearOf_mono hp (show t ≤ t + 1 by omega)
  have h1 := inYear_yearOf hour t
  have h2 := inYear_yearOf hour (t + 1)
  unfold InYear at h1 h2
  rcases hy.lt_or_eq with hlt | heq
  · -- the year changes: the last day of one year and the first of the next
    have hb : daysBefore (yearOf hour t + 1) ≤ daysBefore (yearOf hour (t + 1)) := daysBefore_strictMono.monotone (by omega)
    have heq : daysBefore (yearOf hour (t + 1)) = daysBefore (yearOf hour t + 1) := by omega
    have hyy : yearOf hour (t + 1) = yearOf hour t + 1 := daysBefore_strictMono.injective heq
    have hl : dayOfYear hour t = yearLength (yearOf hour t) := by
      unfold dayOfYear
      rw [daysBefore_succ] at heq h1
      omega
    have hf : dayOfYear hour (t + 1) = 1 := by
      unfold dayOfYear
      omega
    unfold monthOf
    rw [hl, hf, monthOfDay_first, monthOfDay_last, hyy]
    omega
  · have hdoy : dayOfYear hour (t + 1) ≤ dayOfYear hour t + 1 := by
      unfold dayOfYear
      rw [heq]
      omega
    unfold monthOf
    have h3 := monthOfDay_mono (decide (LeapYear (yearOf hour (t + 1)))) hdoy
    have h4 := monthOfDay_succ (decide (LeapYear (yearOf hour (t + 1)))) (dayOfYear hour t)
    rw [heq]
    omega

theorem partitionOf_succ (hp : 0 < hour) (unit : PartitionUnit) (t : ℤ) : partitionOf hour unit (t + 1) ≤ partitionOf hour unit t + 1 := by
  cases unit with
  | month => exact monthOf_succ hp t
  | day => exact dayOf_succ hp t
  | hour =>
    show (t + 1) / hour ≤ t / hour + 1
    calc (t + 1) / hour ≤ (t + hour * 1) / hour := Int.ediv_le_ediv hp (by omega)
      _ = t / hour + 1 := Int.add_mul_ediv_left _ _ (by omega)

/-- **C50** The files selected for an interval of times are exactly the partitions (month, day or hour) of the times in it — none is missing, none is unnecessary —, each once. -/
theorem C50_files (hp : 0 < hour) (unit : PartitionUnit) {start stop : ℤ} (hle : start ≤ stop) :
    (∀ f, f ∈ parquetFilesSubset hour unit start stop ↔ ∃ t, start ≤ t ∧ t ≤ stop ∧ partitionOf hour unit t = f) ∧ (parquetFilesSubset hour unit start stop).Nodup := by
  refine ⟨fun f => ?_, arangeIncl_nodup _ _⟩
  unfold parquetFilesSubset
  rw [mem_arangeIncl]
  constructor
  · rintro ⟨h1, h2⟩
    -- walk from the start to the last time whose partition is not after `f`
    have key : ∀ n : ℕ, partitionOf hour unit (start + n) < f ∨ ∃ t, start ≤ t ∧ t ≤ start + n ∧ partitionOf hour unit t = f := by
      intro n
      induction n with
      | zero =>
        rcases h1.lt_or_eq with h | h
        · left; simpa using h
        · right; exact ⟨start, le_refl _, by simp, h⟩
      | succ n ih =>
        rcases ih with ih | ⟨t, ht1, ht2, ht3⟩
        · have hs := partitionOf_succ hp unit (start + n)
          rw [show start + ((n + 1 : ℕ) : ℤ) = start + n + 1 by push_cast; ring]
          rcases (show partitionOf hour unit (start + n + 1) ≤ f by omega).lt_or_eq with h | h
          · exact .inl h
          · exact .inr ⟨_, by omega, le_refl _, h⟩
        · exact .inr ⟨t, ht1, by push_cast; omega, ht3⟩
    rcases key (stop - start).toNat with h | ⟨t, ht1, ht2, ht3⟩
    · rw [show start + ((stop - start).toNat : ℤ) = stop by omega] at h
      omega
    · exact ⟨t, ht1, by omega, ht3⟩
  · rintro ⟨t, ht1, ht2, rfl⟩
    exact ⟨partitionOf_mono hp unit ht1, partitionOf_mono hp unit ht2⟩

/-- The day of the month together with the month gives the day of the year. -/
theorem dayOfMonth_inj {leap : Bool} {d d' : ℤ} (hm : monthOfDay leap d = monthOfDay leap d') (hd : dayOfMonth leap d = dayOfMonth leap d') : d = d' := by
  unfold dayOfMonth at hd
  rw [hm] at hd
  omega

/-- **C50** Two times have the same file name exactly if they are in the same partition. -/
theorem C50_file_names (hp : 0 < hour) (unit : PartitionUnit) (t t' : ℤ) : parquetFileName hour unit t = parquetFileName hour unit t' ↔ partitionOf hour unit t = partitionOf hour unit t' := by
  have hmb := monthOfDay_le (decide (LeapYear (yearOf hour t))) (dayOfYear hour t)
  have hmb' := monthOfDay_le (decide (LeapYear (yearOf hour t'))) (dayOfYear hour t')
  have hday : dayOf hour t = dayOf hour t' → yearOf hour t = yearOf hour t' ∧ dayOfYear hour t = dayOfYear hour t' := by
    intro h
    have hy : yearOf hour t = yearOf hour t' := (inYear_yearOf hour t).unique (h ▸ inYear_yearOf hour t')
    exact ⟨hy, by unfold dayOfYear; rw [h, hy]⟩
  have hday' : yearOf hour t = yearOf hour t' → dayOfYear hour t = dayOfYear hour t' → dayOf hour t = dayOf hour t' := by
    intro h1 h2
    unfold dayOfYear at h2
    rw [h1] at h2
    omega
  have hhour : t / hour = 24 * dayOf hour t + hourOfDay hour t := by
    unfold dayOf hourOfDay
    conv_lhs => rw [← Int.mul_ediv_add_emod t (24 * hour)]
    rw [show 24 * hour * (t / (24 * hour)) + t % (24 * hour) = hour * (24 * (t / (24 * hour))) + t % (24 * hour) by ring, Int.mul_add_ediv_left _ _ hp.ne']
  have hhour' : t' / hour = 24 * dayOf hour t' + hourOfDay hour t' := by
    unfold dayOf hourOfDay
    conv_lhs => rw [← Int.mul_ediv_add_emod t' (24 * hour)]
    rw [show 24 * hour * (t' / (24 * hour)) + t' % (24 * hour) = hour * (24 * (t' / (24 * hour))) + t' % (24 * hour) by ring, Int.mul_add_ediv_left _ _ hp.ne']
  have hb := hourOfDay_bounds hp t
  have hb' := hourOfDay_bounds hp t'
  cases unit with
  | month =>
    simp only [parquetFileName, partitionOf, monthOf, List.cons.injEq, and_true]
    constructor
    · rintro ⟨h1, h2⟩; omega
    · intro h; constructor <;> omega
  | day =>
    simp only [parquetFileName, partitionOf, List.cons.injEq, and_true]
    constructor
    · rintro ⟨h1, h2, h3⟩
      rw [h1] at h2 h3
      exact hday' h1 (dayOfMonth_inj (by omega) h3)
    · intro h
      obtain ⟨h1, h2⟩ := hday h
      rw [h1, h2]
      exact ⟨rfl, rfl, rfl⟩
  | hour =>
    simp only [parquetFileName, partitionOf, List.cons.injEq, and_true]
    constructor
    · rintro ⟨h1, h2, h3, h4⟩
      rw [h1] at h2 h3
      rw [hhour, hhour', hday' h1 (dayOfMonth_inj (by omega) h3), h4]
    · intro h
      rw [hhour, hhour'] at h
      have hd : dayOf hour t = dayOf hour t' := by omega
      obtain ⟨h1, h2⟩ := hday hd
      rw [h1, h2]
      exact ⟨rfl, rfl, rfl, by omega⟩

end

/-- **C50** `partitioned_by` other than month, day or hour is a `ValueError`. -/
theorem C50_partitioned_by (s : String) : parsePartition s = .error .valueError ↔ s ≠ "month" ∧ s ≠ "day" ∧ s ≠ "hour" := by
  unfold parsePartition
  split
  · simp
  · simp
  · simp
  · next h1 h2 h3 => exact ⟨fun _ => ⟨fun h => h1 h, fun h => h2 h, fun h => h3 h⟩, fun _ => rfl⟩

/-- **C50** The tolerance: a single `t` is the interval from `-t` to `t`; a pair is the interval; an empty interval and tuples of another length are `ValueError`s. -/
theorem C50_tolerance :
    (∀ t, 0 < t → normaliseTolerance (some (.single t)) = .ok (some (-t, t))) ∧ (∀ t, t ≤ 0 → normaliseTolerance (some (.single t)) = .error .valueError) ∧
    (∀ lo hi, lo < hi → normaliseTolerance (some (.tuple [lo, hi])) = .ok (some (lo, hi))) ∧
    (∀ lo hi, hi ≤ lo → normaliseTolerance (some (.tuple [lo, hi])) = .error .valueError) ∧
    (∀ ts, ts.length ≠ 2 → normaliseTolerance (some (.tuple ts)) = .error .valueError) ∧
    ∀ arg lo hi, normaliseTolerance arg = .ok (some (lo, hi)) → lo < hi := by
  refine ⟨fun t h => ?_, fun t h => ?_, fun lo hi h => ?_, fun lo hi h => ?_, fun ts h => ?_, fun arg lo hi h => ?_⟩
  · simp only [normaliseTolerance]; rw [if_neg (by omega)]
  · simp only [normaliseTolerance]; rw [if_pos (by omega)]
  · simp only [normaliseTolerance]; rw [if_neg (by omega)]
  · simp only [normaliseTolerance]; rw [if_pos (by omega)]
  · match ts, h with
    | [], _ => rfl
    | [_], _ => rfl
    | [_, _], h => simp at h
    | _ :: _ :: _ :: _, _ => rfl
  · unfold normaliseTolerance at h
    split at h
    · simp at h
    · split at h
      · split at h
        · simp at h
        · simp only [Except.ok.injEq, Option.some.injEq, Prod.mk.injEq] at h
          omega
      · simp at h

/-! ### The rows -/

section
variable {K : Type} {o : ParquetOptions K} {store : ℤ → Option (List (ObsRow K))}

/-- The window of times for a valid time, as documented: the time itself, or the interval of the tolerance — without its end unless the end is included. -/
def Wanted (o : ParquetOptions K) (validTime t : ℤ) : Prop :=
  match o.tolerance with
  | none => t = validTime
  | some (lo, hi) => validTime + lo ≤ t ∧ (t < validTime + hi ∨ o.includeSliceEndTime = true ∧ t = validTime + hi)

theorem readFiles_ok {w : ℤ × Option ℤ} {rows : List (ObsRow K)} (h : readFiles o store w = .ok rows) :
    ∃ parts, (parquetFilesSubset o.hour o.unit (w.1 - o.fileTolerance) (w.2.getD w.1 + o.fileTolerance)).mapM
      (fun f => match store f with
        | some rows => (.ok (rows.filter (inWindow o w)) : Except Err (List (ObsRow K)))
        | none => .error .fileNotFound) = .ok parts ∧ rows = parts.flatten := by
  unfold readFiles at h
  simp only at h
  split at h
  · simp at h
  · obtain ⟨parts, h1, h2⟩ := bind_ok_iff.mp h
    simp only [pure, Except.pure, Except.ok.injEq] at h2
    exact ⟨parts, h1, h2.symm⟩

theorem readFiles_mem {w : ℤ × Option ℤ} {rows : List (ObsRow K)} (h : readFiles o store w = .ok rows) (r : ObsRow K) :
    r ∈ rows ↔ inWindow o w r = true ∧ ∃ f ∈ parquetFilesSubset o.hour o.unit (w.1 - o.fileTolerance) (w.2.getD w.1 + o.fileTolerance), ∃ rs, store f = some rs ∧ r ∈ rs := by
  obtain ⟨parts, hm, rfl⟩ := readFiles_ok h
  rw [List.mem_flatten]
  constructor
  · rintro ⟨part, hpart, hr⟩
    obtain ⟨f, hf, hfp⟩ := mapM_out_mem hm part hpart
    split at hfp
    · next rs hs =>
      simp only [Except.ok.injEq] at hfp
      subst hfp
      rw [List.mem_filter] at hr
      exact ⟨hr.2, f, hf, rs, hs, hr.1⟩
    · simp at hfp
  · rintro ⟨hin, f, hf, rs, hs, hr⟩
    obtain ⟨part, hpart, hfp⟩ := mapM_mem _ _ _ hm f hf
    rw [hs] at hfp
    simp only [Except.ok.injEq] at hfp
    exact ⟨part, hpart, by rw [← hfp, List.mem_filter]; exact ⟨hr, hin⟩⟩

/-- Without preprocessing and duplicates: the rows for a valid time. -/
theorem loadSingleTime_plain (hpre : o.preprocessing = none) (hdup : o.removeDuplicates = false) {v : ℤ} {slice : Option (Option ℤ × Option ℤ)} {rows : List (ObsRow K)}
    (h : loadSingleTime o store v slice = .ok rows) : ∃ w, window o v slice = .ok w ∧ readFiles o store w = .ok rows := by
  unfold loadSingleTime at h
  obtain ⟨w, hw, h⟩ := bind_ok_iff.mp h
  obtain ⟨rows1, hr, h⟩ := bind_ok_iff.mp h
  obtain ⟨rows2, hp, h⟩ := bind_ok_iff.mp h
  unfold applyPreprocessing at hp
  rw [hpre] at hp
  simp only [Except.ok.injEq] at hp
  subst hp
  rw [hdup] at h
  simp only [Bool.false_eq_true, if_false, Except.ok.injEq] at h
  subst h
  exact ⟨w, hw, hr⟩

theorem window_wanted {v : ℤ} {w : ℤ × Option ℤ} (hw : window o v none = .ok w) (r : ObsRow K) : inWindow o w r = true ↔ Wanted o v (r.time o.timeDim) := by
  unfold window at hw
  unfold Wanted
  cases ht : o.tolerance with
  | none =>
    rw [ht] at hw
    simp only [Except.ok.injEq] at hw
    subst hw
    simp [inWindow]
  | some lh =>
    obtain ⟨lo, hi⟩ := lh
    rw [ht] at hw
    simp only [Except.ok.injEq] at hw
    subst hw
    simp only [inWindow]
    cases o.includeSliceEndTime
    · simp
    · simp; omega

/-- **C50** What is returned for a valid time (no preprocessing, duplicates kept): exactly the rows with a wanted time that are in one of the partitions of the window extended by the file
tolerance on both sides. -/
theorem C50_rows (hhour : 0 < o.hour) (hft : 0 ≤ o.fileTolerance) (htol : ∀ lo hi, o.tolerance = some (lo, hi) → lo < hi) (hpre : o.preprocessing = none) (hdup : o.removeDuplicates = false) {v : ℤ}
    {rows : List (ObsRow K)} (h : loadSingleTime o store v none = .ok rows) (r : ObsRow K) :
    r ∈ rows ↔ Wanted o v (r.time o.timeDim) ∧ ∃ t, v + (o.tolerance.map Prod.fst).getD 0 - o.fileTolerance ≤ t ∧ t ≤ v + (o.tolerance.map Prod.snd).getD 0 + o.fileTolerance ∧
      ∃ rs, store (partitionOf o.hour o.unit t) = some rs ∧ r ∈ rs := by
  obtain ⟨w, hw, hr⟩ := loadSingleTime_plain hpre hdup h
  rw [readFiles_mem hr, window_wanted hw]
  have hwe : w.1 = v + (o.tolerance.map Prod.fst).getD 0 ∧ w.2.getD w.1 = v + (o.tolerance.map Prod.snd).getD 0 := by
    unfold window at hw
    cases ht : o.tolerance with
    | none => rw [ht] at hw; simp only [Except.ok.injEq] at hw; subst hw; simp
    | some lh => rw [ht] at hw; simp only [Except.ok.injEq] at hw; subst hw; simp
  have hle : w.1 - o.fileTolerance ≤ w.2.getD w.1 + o.fileTolerance := by
    rw [hwe.2, hwe.1]
    cases ht : o.tolerance with
    | none => simp; omega
    | some lh => have := htol lh.1 lh.2 ht; simp; omega
  rw [hwe.2, hwe.1] at hle ⊢
  refine and_congr_right (fun _ => ?_)
  constructor
  · rintro ⟨f, hf, rs, hs, hm⟩
    obtain ⟨t, h1, h2, rfl⟩ := ((C50_files hhour o.unit hle).1 f).mp hf
    exact ⟨t, h1, h2, rs, hs, hm⟩
  · rintro ⟨t, h1, h2, rs, hs, hm⟩
    exact ⟨_, ((C50_files hhour o.unit hle).1 _).mpr ⟨t, h1, h2, rfl⟩, rs, hs, hm⟩

/-- **C50** No observation is missed: a row with a wanted time, stored in the partition of a time at most the file tolerance away from it, is returned. -/
theorem C50_no_loss (hhour : 0 < o.hour) (htol : ∀ lo hi, o.tolerance = some (lo, hi) → lo < hi) (hpre : o.preprocessing = none) (hdup : o.removeDuplicates = false) {v : ℤ}
    {rows : List (ObsRow K)} (h : loadSingleTime o store v none = .ok rows) {r : ObsRow K} (hw : Wanted o v (r.time o.timeDim)) {nominal : ℤ}
    (hclose : |nominal - r.time o.timeDim| ≤ o.fileTolerance) {rs : List (ObsRow K)} (hs : store (partitionOf o.hour o.unit nominal) = some rs) (hr : r ∈ rs) : r ∈ rows := by
  have hft : 0 ≤ o.fileTolerance := (abs_nonneg _).trans hclose
  rw [C50_rows hhour hft htol hpre hdup h]
  rw [abs_le] at hclose
  refine ⟨hw, nominal, ?_, ?_, rs, hs, hr⟩
  · unfold Wanted at hw
    cases ht : o.tolerance with
    | none => rw [ht] at hw; simp at hw ⊢; omega
    | some lh => rw [ht] at hw; simp at hw ⊢; omega
  · unfold Wanted at hw
    cases ht : o.tolerance with
    | none => rw [ht] at hw; simp at hw ⊢; omega
    | some lh => rw [ht] at hw; simp at hw ⊢; omega

/-- **C50** No observation is returned twice for the same valid time, if the dataset has none twice. -/
theorem C50_no_duplicates (hpre : o.preprocessing = none) (hdup : o.removeDuplicates = false) (hone : ∀ f rs, store f = some rs → rs.Nodup)
    (hdisj : ∀ f f' rs rs', f ≠ f' → store f = some rs → store f' = some rs' → List.Disjoint rs rs') {v : ℤ} {slice : Option (Option ℤ × Option ℤ)} {rows : List (ObsRow K)}
    (h : loadSingleTime o store v slice = .ok rows) : rows.Nodup := by
  obtain ⟨w, hw, hr⟩ := loadSingleTime_plain hpre hdup h
  obtain ⟨parts, hm, rfl⟩ := readFiles_ok hr
  have hn := arangeIncl_nodup (partitionOf o.hour o.unit (w.1 - o.fileTolerance)) (partitionOf o.hour o.unit (w.2.getD w.1 + o.fileTolerance))
  change (parquetFilesSubset o.hour o.unit _ _).Nodup at hn
  clear h hr
  generalize parquetFilesSubset o.hour o.unit (w.1 - o.fileTolerance) (w.2.getD w.1 + o.fileTolerance) = files at hm hn
  induction files generalizing parts with
  | nil =>
    simp only [List.mapM_nil, pure, Except.pure, Except.ok.injEq] at hm
    subst hm
    simp
  | cons f fs ih =>
    rw [List.mapM_cons] at hm
    obtain ⟨p0, h0, hm⟩ := bind_ok_iff.mp hm
    obtain ⟨ps, hps, hm⟩ := bind_ok_iff.mp hm
    simp only [pure, Except.pure, Except.ok.injEq] at hm
    subst hm
    rw [List.nodup_cons] at hn
    split at h0
    · next rs hs =>
      simp only [Except.ok.injEq] at h0
      subst h0
      rw [List.flatten_cons, List.nodup_append]
      refine ⟨(hone f rs hs).filter _, ih ps hps hn.2, fun a ha b hb hab => ?_⟩
      subst hab
      rw [List.mem_flatten] at hb
      obtain ⟨part, hpart, hb⟩ := hb
      obtain ⟨f', hf', hfp⟩ := mapM_out_mem hps part hpart
      split at hfp
      · next rs' hs' =>
        simp only [Except.ok.injEq] at hfp
        subst hfp
        rw [List.mem_filter] at ha hb
        exact hdisj f f' rs rs' (fun he => hn.1 (he ▸ hf')) hs hs' ha.1 hb.1
      · simp at hfp
    · simp at h0

/-- **C50** With exact lead times: every row returned has the init and lead time it was asked for, and they are all combinations; the rows for each are those of the valid time `init + lead`. -/
theorem C50_exact {inits leads : List ℤ} {obs : List (Obs K)} (h : loadObservations o store inits (.exact leads) = .ok obs) (x : Obs K) :
    x ∈ obs ↔ ∃ i ∈ inits, ∃ l ∈ leads, x.initLead = some (i, l) ∧ ∃ rows, loadSingleTime o store (i + l) none = .ok rows ∧ x.row ∈ rows := by
  simp only [loadObservations] at h
  obtain ⟨ts, hts, h⟩ := bind_ok_iff.mp h
  have hobs : obs = ts.flatten := by
    unfold pdConcat at h
    split at h
    · simp at h
    · simp only [Except.ok.injEq] at h; exact h.symm
  subst hobs
  rw [List.mem_flatten]
  constructor
  · rintro ⟨t, ht, hx⟩
    obtain ⟨q, hq, hqt⟩ := mapM_out_mem hts t ht
    simp only [List.mem_flatMap, List.mem_map] at hq
    obtain ⟨i, hi, l, hl, rfl⟩ := hq
    obtain ⟨rows, hrows, hqt⟩ := bind_ok_iff.mp hqt
    simp only [pure, Except.pure, Except.ok.injEq] at hqt
    subst hqt
    obtain ⟨r, hr, rfl⟩ := List.mem_map.mp hx
    exact ⟨i, hi, l, hl, rfl, rows, hrows, hr⟩
  · rintro ⟨i, hi, l, hl, hil, rows, hrows, hr⟩
    obtain ⟨t, ht, hqt⟩ := mapM_mem _ _ _ hts (i, l) (by simp only [List.mem_flatMap, List.mem_map]; exact ⟨i, hi, l, hl, rfl⟩)
    refine ⟨t, ht, ?_⟩
    obtain ⟨rows', hrows', hqt⟩ := bind_ok_iff.mp hqt
    simp only at hrows'
    rw [hrows, Except.ok.injEq] at hrows'
    subst hrows'
    simp only [pure, Except.pure, Except.ok.injEq] at hqt
    subst hqt
    refine List.mem_map.mpr ⟨x.row, hr, ?_⟩
    cases x
    simp only at hil
    rw [hil]

/-- **C50** Windows of the tolerance do not overlap — no observation is counted for two valid times — if the valid times are at least the width of the tolerance apart and the end is not
included; together they cover everything between, if the valid times are exactly the width apart. -/
theorem C50_tiling {lo hi : ℤ} (ht : o.tolerance = some (lo, hi)) (hne : lo < hi) (hend : o.includeSliceEndTime = false) {v v' t : ℤ} :
    (v + (hi - lo) ≤ v' → Wanted o v t → ¬ Wanted o v' t) ∧ (v' = v + (hi - lo) → (Wanted o v t ∨ Wanted o v' t ↔ v + lo ≤ t ∧ t < v' + hi)) := by
  unfold Wanted
  simp only [ht, hend]
  constructor
  · intro h1 h2 h3
    simp at h2 h3
    omega
  · rintro rfl
    simp
    omega

/-- **C50** (finding) The documentation gives the closed interval `[valid_time + tolerance[0], valid_time + tolerance[1]]`, but an observation exactly at its end is dropped by default (and the
option that includes it is named after slices). -/
theorem C50_tolerance_end {lo hi : ℤ} (ht : o.tolerance = some (lo, hi)) (v : ℤ) : Wanted o v (v + hi) ↔ o.includeSliceEndTime = true ∧ lo ≤ hi := by
  unfold Wanted
  simp only [ht]
  constructor
  · rintro ⟨h1, h2⟩
    rcases h2 with h2 | ⟨h2, -⟩
    · omega
    · exact ⟨h2, by omega⟩
  · rintro ⟨h1, h2⟩
    exact ⟨by omega, .inr ⟨h1, by trivial⟩⟩

/-- **C50** With a slice of lead times the lead time of a row is its time minus the init time, and (finding) it lies between minus the start of the slice and its stop: the window begins at
`init - start`, not at `init + start`. -/
theorem C50_slice (hpre : o.preprocessing = none) (hdup : o.removeDuplicates = false) {start stop : ℤ} {inits : List ℤ} {obs : List (Obs K)}
    (h : loadObservations o store inits (.slice (some start) (some stop)) = .ok obs) :
    o.tolerance = none ∧ ∀ x ∈ obs, ∃ i ∈ inits, ∃ l, x.initLead = some (i, l) ∧ l = x.row.time o.timeDim - i ∧ -start ≤ l ∧
      (l < stop ∨ o.includeSliceEndTime = true ∧ l = stop) := by
  simp only [loadObservations] at h
  split at h
  · simp at h
  · next hnt =>
    have hnt' : o.tolerance = none := by simpa using hnt
    refine ⟨hnt', fun x hx => ?_⟩
    obtain ⟨ts, hts, h⟩ := bind_ok_iff.mp h
    have hobs : obs = ts.flatten := by
      unfold pdConcat at h
      split at h
      · simp at h
      · simp only [Except.ok.injEq] at h; exact h.symm
    subst hobs
    rw [List.mem_flatten] at hx
    obtain ⟨t, ht, hx⟩ := hx
    obtain ⟨i, hi, hit⟩ := mapM_out_mem hts t ht
    obtain ⟨rows, hrows, hit⟩ := bind_ok_iff.mp hit
    simp only [pure, Except.pure, Except.ok.injEq] at hit
    subst hit
    obtain ⟨r, hr, rfl⟩ := List.mem_map.mp hx
    refine ⟨i, hi, _, rfl, rfl, ?_⟩
    obtain ⟨w, hw, hrf⟩ := loadSingleTime_plain hpre hdup hrows
    have hin := ((readFiles_mem hrf r).mp hr).1
    unfold window at hw
    rw [hnt'] at hw
    simp only [Except.ok.injEq] at hw
    subst hw
    simp only [inWindow] at hin
    cases hend : o.includeSliceEndTime
    · rw [hend] at hin; simp at hin; simp; omega
    · rw [hend] at hin; simp at hin; simp; omega

/-- **C50** Slices: with a tolerance or the removal of duplicates they are rejected. -/
theorem C50_slice_errors {start stop : Option ℤ} {inits : List ℤ} : (o.tolerance.isSome = true → loadObservations o store inits (.slice start stop) = .error .assertionError) ∧
    (o.removeDuplicates = true → ∀ obs, loadObservations o store inits (.slice start stop) ≠ .ok obs) := by
  refine ⟨fun h => by simp [loadObservations, h], fun hdup obs h => ?_⟩
  simp only [loadObservations] at h
  split at h
  · simp at h
  · obtain ⟨ts, hts, h⟩ := bind_ok_iff.mp h
    cases inits with
    | nil =>
      simp only [List.mapM_nil, pure, Except.pure, Except.ok.injEq] at hts
      subst hts
      simp [pdConcat] at h
    | cons i rest =>
      rw [List.mapM_cons] at hts
      obtain ⟨t, ht, -⟩ := bind_ok_iff.mp hts
      obtain ⟨rows, hrows, -⟩ := bind_ok_iff.mp ht
      unfold loadSingleTime at hrows
      obtain ⟨w, -, hrows⟩ := bind_ok_iff.mp hrows
      obtain ⟨r1, -, hrows⟩ := bind_ok_iff.mp hrows
      obtain ⟨r2, -, hrows⟩ := bind_ok_iff.mp hrows
      rw [hdup] at hrows
      simp at hrows

/-- **C50** A missing file among those selected — even one that is selected only because of the file tolerance — raises. -/
theorem C50_missing_file {w : ℤ × Option ℤ} {f : ℤ} (hf : f ∈ parquetFilesSubset o.hour o.unit (w.1 - o.fileTolerance) (w.2.getD w.1 + o.fileTolerance)) (hs : store f = none) :
    ∀ rows, readFiles o store w ≠ .ok rows := by
  intro rows h
  obtain ⟨parts, hm, -⟩ := readFiles_ok h
  obtain ⟨y, -, hy⟩ := mapM_mem _ _ _ hm f hf
  rw [hs] at hy
  simp at hy

/-- **C50** Dropping missing values: together, only rows with all variables are kept; split, each variable keeps its own rows. Nothing else is dropped. -/
theorem C50_dropna (vars : List String) (obs : List (Obs K)) :
    (∀ x, x ∈ dropnaAll true vars obs ↔ x ∈ obs ∧ ∀ v ∈ vars, (x.row.num v).isnan = false) ∧ dropnaAll false vars obs = obs ∧
    (∀ v ∈ vars, ∀ p ∈ dropnaSplit true vars obs, p.1 = v → ∀ x, x ∈ p.2 ↔ x ∈ obs ∧ (x.row.num v).isnan = false) ∧
    (dropnaSplit true vars obs).map Prod.fst = vars ∧ ∀ p ∈ dropnaSplit false vars obs, p.2 = obs := by
  refine ⟨fun x => ?_, rfl, fun v hv p hp hpv x => ?_, ?_, fun p hp => ?_⟩
  · simp [dropnaAll]
  · simp only [dropnaSplit, List.mem_map] at hp
    obtain ⟨v', hv', rfl⟩ := hp
    simp only at hpv
    subst hpv
    simp
  · simp [dropnaSplit, Function.comp_def]
  · simp only [dropnaSplit, List.mem_map] at hp
    obtain ⟨v', hv', rfl⟩ := hp
    simp

end

/-! ### The hypotheses are met -/

/-- A row at a time. -/
def exRow (t : ℤ) (station : String) : ObsRow ℚ := { time := fun _ => t, num := fun _ => .fin t, text := fun _ => station }
/-- Hours are 60 long; files by the hour, tolerance from -10 to 10. -/
def exParquet : ParquetOptions ℚ where
  hour := 60
  unit := .hour
  timeDim := "timeObs"
  tolerance := some (-10, 10)
  fileTolerance := 60
  sort := fun _ rows => rows
theorem mapM_all_ok {α β : Type} {f : α → Except Err β} (h : ∀ a, ∃ b, f a = .ok b) : ∀ {l : List α}, ∃ r, l.mapM f = .ok r
  | [] => ⟨[], rfl⟩
  | a :: l => by
    obtain ⟨b, hb⟩ := h a
    obtain ⟨r, hr⟩ := mapM_all_ok h (l := l)
    exact ⟨b :: r, by rw [List.mapM_cons, hb, hr]; rfl⟩

/-- Two observations in the file of hour 2, one of which was made in hour 1. -/
def exStore (f : ℤ) : Option (List (ObsRow ℚ)) := if f = 2 then some [exRow 115 "a", exRow 150 "b"] else some []

theorem exParquet_loads : ∃ rows, loadSingleTime exParquet exStore 120 none = .ok rows := by
  have hall : ∀ files : List ℤ, ∃ parts, files.mapM (fun f => match exStore f with
      | some rows => (.ok (rows.filter (inWindow exParquet (110, some 130))) : Except Err (List (ObsRow ℚ)))
      | none => .error .fileNotFound) = .ok parts := by
    intro files
    refine mapM_all_ok (fun f => ?_)
    by_cases hf : f = 2
    · simp only [exStore, if_pos hf]; exact ⟨_, rfl⟩
    · simp only [exStore, if_neg hf]; exact ⟨_, rfl⟩
  have hw : window exParquet 120 none = .ok (110, some 130) := rfl
  obtain ⟨parts, hparts⟩ := hall (parquetFilesSubset 60 .hour (110 - 60) (130 + 60))
  have hr : readFiles exParquet exStore (110, some 130) = .ok parts.flatten := by
    simp only [readFiles]
    rw [if_neg]
    · exact bind_ok_iff.mpr ⟨parts, hparts, rfl⟩
    · simp [parquetFilesSubset, partitionOf, arangeIncl, exParquet]
  refine ⟨parts.flatten, ?_⟩
  unfold loadSingleTime
  rw [hw]
  refine bind_ok_iff.mpr ⟨_, rfl, ?_⟩
  rw [hr]
  rfl

/-- The observation made at 115 is found in the file of the next hour. -/
example : ∃ rows, loadSingleTime exParquet exStore 120 none = .ok rows ∧ exRow 115 "a" ∈ rows ∧ exRow 150 "b" ∉ rows := by
  obtain ⟨rows, h⟩ := exParquet_loads
  refine ⟨rows, h, ?_, ?_⟩
  · refine C50_no_loss (nominal := 120) (rs := [exRow 115 "a", exRow 150 "b"]) (by simp [exParquet]) (by intro lo hi h; simp [exParquet] at h; omega) rfl rfl h ?_ ?_ ?_ ?_
    · simp [Wanted, exParquet, exRow]
    · simp [exRow, exParquet]
    · simp [partitionOf, exParquet, exStore]
    · simp
  · rw [C50_rows (by simp [exParquet]) (by simp [exParquet]) (by intro lo hi h; simp [exParquet] at h; omega) rfl rfl h]
    simp [Wanted, exParquet, exRow]
theorem exSlice_loads : ∃ rows, loadSingleTime { exParquet with tolerance := none } exStore 90 (some (some 30, some 61)) = .ok rows ∧
    readFiles { exParquet with tolerance := none } exStore (60, some 151) = .ok rows := by
  have hall : ∀ files : List ℤ, ∃ parts, files.mapM (fun f => match exStore f with
      | some rows => (.ok (rows.filter (inWindow { exParquet with tolerance := none } (60, some 151))) : Except Err (List (ObsRow ℚ)))
      | none => .error .fileNotFound) = .ok parts := by
    intro files
    refine mapM_all_ok (fun f => ?_)
    by_cases hf : f = 2
    · simp only [exStore, if_pos hf]; exact ⟨_, rfl⟩
    · simp only [exStore, if_neg hf]; exact ⟨_, rfl⟩
  have hw : window { exParquet with tolerance := none } 90 (some (some 30, some 61)) = .ok (60, some 151) := rfl
  obtain ⟨parts, hparts⟩ := hall (parquetFilesSubset 60 .hour (60 - 60) (151 + 60))
  have hr : readFiles { exParquet with tolerance := none } exStore (60, some 151) = .ok parts.flatten := by
    simp only [readFiles]
    rw [if_neg]
    · exact bind_ok_iff.mpr ⟨parts, hparts, rfl⟩
    · simp [parquetFilesSubset, partitionOf, arangeIncl, exParquet]
  refine ⟨parts.flatten, ?_, hr⟩
  unfold loadSingleTime
  rw [hw]
  refine bind_ok_iff.mpr ⟨_, rfl, ?_⟩
  rw [hr]
  rfl

/-- **C50** (finding) For the slice of lead times from 30 to 61 an observation with lead time 25 is returned. -/
theorem C50_slice_start_sign : ∃ obs, loadObservations { exParquet with tolerance := none } exStore [90] (.slice (some 30) (some 61)) = .ok obs ∧
    ∃ x ∈ obs, x.initLead = some (90, 25) := by
  obtain ⟨rows, h, hr⟩ := exSlice_loads
  have h1 : loadObservations { exParquet with tolerance := none } exStore [90] (.slice (some 30) (some 61)) =
      .ok (rows.map (fun r => { row := r, initLead := some (90, r.time "timeObs" - 90) })) := by
    simp only [loadObservations, List.mapM_cons, List.mapM_nil, h]
    simp [bind, Except.bind, pure, Except.pure, pdConcat, exParquet]
  refine ⟨_, h1, ⟨exRow 115 "a", some (90, 25)⟩, List.mem_map.mpr ⟨exRow 115 "a", ?_, by simp [exRow]⟩, rfl⟩
  rw [readFiles_mem hr]
  refine ⟨by simp [inWindow, exParquet, exRow], 2, ?_, [exRow 115 "a", exRow 150 "b"], by simp [exStore], by simp⟩
  simp only [parquetFilesSubset, mem_arangeIncl]
  simp [partitionOf, exParquet]

/-- The months of January and February 2024, in hours. -/
example : partitionOf 1 .hour 5 = 5 ∧ partitionOf 1 .day 25 = 1 := by decide

end WBX
