import Verif.Model.SetArguments
import Verif.Props.TimeBins

/-!
# C42, C44: the sets as they are given, and sets of units of time differences
-/

set_option linter.unusedSectionVars false

namespace WBX
open DA
variable {L K T : Type} [DecidableEq L] [Field K] [LinearOrder K] [IsStrictOrderedRing K] [FloorRing K]

/-- The values that a user means by a value of the dictionary `sets`. -/
def SetArg.Means (x : L) : SetArg L → Prop
  | .sequence xs | .array xs | .collection xs => x ∈ xs
  | .single y => x = y

/-- Whether it is a Python `set`, `frozenset` or `dict`. -/
def SetArg.isCollection : SetArg L → Prop
  | .collection _ => True
  | _ => False

theorem mem_entries (s : SetArg L) (h : ¬ s.isCollection) (x : L) : x ∈ s.entries ↔ s.Means x := by
  cases s <;> simp_all [SetArg.entries, SetArg.Means, SetArg.isCollection]

section
variable {binDim : Dim} {coordName : Dim} {sets : List (L × SetArg L)} {notIn : L → L} {coord : DA L L} {r : DA L Bool} {complements : Bool} {g : Option L}

theorem setLabels_given : setLabels (sets.map (fun s => (s.1, s.2.entries))) complements notIn g = sets.flatMap (fun s => s.1 :: (if complements then [notIn s.1] else [])) ++ g.toList := by
  unfold setLabels
  rw [List.flatMap_map]

/-- **C42** `BySets` with lists, tuples, arrays and single values: a cell is in the bin of a set iff its coordinate is one of the given values, and in the bin of the complement iff
it is not. -/
theorem C42_set_arguments (hn : (sets.flatMap (fun s => s.1 :: (if complements then [notIn s.1] else [])) ++ g.toList).Nodup)
    (h : setsMaskGiven (some binDim) coordName sets complements notIn g coord = .ok r) {s : L × SetArg L} (hs : s ∈ sets) (hc : ¬ s.2.isCollection) (e : Dim → L) :
    (e binDim = s.1 → (r.val e = true ↔ s.2.Means (coord.val e))) ∧ (complements = true → e binDim = notIn s.1 → (r.val e = true ↔ ¬ s.2.Means (coord.val e))) := by
  have h1 := (C42_sets (by rw [setLabels_given]; exact hn) h).2.1 _ (List.mem_map.mpr ⟨s, hs, rfl⟩) e
  simp only [mem_entries s.2 hc] at h1
  exact h1

/-- **C42** (finding) A set that is given as a Python `set` (or `frozenset`, or `dict`) has an empty bin, and the bin of its complement has everything, whatever is in the set: only a
`Sequence` is taken apart, and `isin` compares the values of the coordinate with the set itself. -/
theorem C42_python_set (hn : (sets.flatMap (fun s => s.1 :: (if complements then [notIn s.1] else [])) ++ g.toList).Nodup)
    (h : setsMaskGiven (some binDim) coordName sets complements notIn g coord = .ok r) {s : L × SetArg L} (hs : s ∈ sets) (hc : s.2.isCollection) (e : Dim → L) :
    (e binDim = s.1 → r.val e = false) ∧ (complements = true → e binDim = notIn s.1 → r.val e = true) := by
  have h1 := (C42_sets (by rw [setLabels_given]; exact hn) h).2.1 _ (List.mem_map.mpr ⟨s, hs, rfl⟩) e
  have hnil : s.2.entries = [] := by
    obtain ⟨l, arg⟩ := s
    cases arg <;> simp_all [SetArg.isCollection, SetArg.entries]
  dsimp only at h1
  rw [hnil] at h1
  simpa using h1

end

/-- Stations 3, 4 and 5. -/
def exStationIds : DA ℕ ℕ := { dims := {"index"}, coords := fun _ => {0, 1, 2}, val := fun e => e "index" + 3 }

/-- The hypotheses are met: stations 3 and 4 as a list, 5 as text, and 3 and 4 as a Python set. -/
example : ∃ r, setsMaskGiven (some "group") "station" [(0, .sequence [3, 4]), (1, .single 5), (2, .collection [3, 4])] true (· + 10) (some 100) exStationIds = .ok r ∧
    ([(0, SetArg.sequence [3, 4]), (1, .single 5), (2, .collection [3, 4])].flatMap (fun s : ℕ × SetArg ℕ => s.1 :: (if true then [s.1 + 10] else [])) ++ (some 100).toList).Nodup ∧
    r.val (fun d => if d = "group" then 0 else 1) = true ∧ r.val (fun d => if d = "group" then 2 else 1) = false ∧ r.val (fun d => if d = "group" then 12 else 1) = true := by
  refine ⟨_, rfl, by decide, by decide, by decide, by decide⟩

section
variable {dt : String → Option (T → K)} {number : K → L} {unit : String} {timeDim : Dim} {r : DA L Bool}

/-- **C44** `ByTimeUnitSets` of time differences: a time difference is in the bin of a set of numbers iff the number of whole units in it is in the set; of seconds, iff it is itself in
the set, fractions included. The global bin contains everything. -/
theorem C44_timedelta_sets (hnum : Function.Injective number) {coord : DA L K} {n : ℕ} (hu : UnitLength unit n) {binDim : Dim} {sets : List (L × List K)} {g : Option L}
    (hn : (sets.map Prod.fst ++ g.toList).Nodup)
    (h : timeUnitSetsMaskGiven dt number unit timeDim (some binDim) (sets.map (fun s => (s.1, .sequence (s.2.map number)))) g (.timedelta coord) = .ok r) :
    r.coords binDim = (sets.map Prod.fst ++ g.toList).toFinset ∧
    (∀ s ∈ sets, ∀ e : Dim → L, e binDim = s.1 →
      (n ≠ 1 → (r.val e = true ↔ ∃ q : ℤ, (q : K) ∈ s.2 ∧ (q : K) * n ≤ coord.val e ∧ coord.val e < (q + 1) * n)) ∧ (n = 1 → (r.val e = true ↔ coord.val e ∈ s.2))) ∧
    ∀ g', g = some g' → ∀ e : Dim → L, e binDim = g' → r.val e = true := by
  unfold timeUnitSetsMaskGiven timeUnitSetsMask extractTimeUnit at h
  rw [(unitSeconds_iff unit n).mpr hu] at h
  simp only [bind, Except.bind, Option.getD_some, List.map_map] at h
  set c : DA L L := (coord.map (fun x => if n = 1 then x else (⌊x / (n : K)⌋ : K))).map number with hcdef
  have hsets : sets.map ((fun s : L × SetArg L => (s.1, s.2.entries)) ∘ fun s : L × List K => (s.1, SetArg.sequence (s.2.map number))) = sets.map (fun s => (s.1, s.2.map number)) := rfl
  rw [hsets] at h
  have hlabs : setLabels (sets.map (fun s => (s.1, s.2.map number))) false id g = sets.map Prod.fst ++ g.toList := by
    unfold setLabels
    congr 1
    rw [List.flatMap_map]
    simp only [Bool.false_eq_true, if_false]
    rw [List.map_eq_flatMap]
  have hl := setBins_labels (sets := sets.map (fun s => (s.1, s.2.map number))) (notIn := id) (coord := c) false g
  rw [hlabs] at hl
  refine ⟨by rw [(concatBins_ok h).2.1, hl], fun s hs e he => ?_, ?_⟩
  · have hv : r.val e = true ↔ (if n = 1 then coord.val e else (⌊coord.val e / (n : K)⌋ : K)) ∈ s.2 := by
      rw [concatBins_val h (by rw [hl]; exact hn) (l := s.1) (m := c.map (fun x => decide (x ∈ s.2.map number)))
        (List.mem_append_left _ (List.mem_flatMap.mpr ⟨_, List.mem_map.mpr ⟨s, hs, rfl⟩, by simp⟩)) he]
      exact decide_eq_true_iff.trans (List.mem_map_of_injective hnum)
    refine ⟨fun h1 => ?_, fun h1 => by rw [hv, if_pos h1]⟩
    rw [hv, if_neg h1]
    have hpos : (0 : K) < n := by exact_mod_cast hu.pos
    have key : ∀ q : ℤ, ⌊coord.val e / (n : K)⌋ = q ↔ (q : K) * n ≤ coord.val e ∧ coord.val e < (q + 1) * n := by
      intro q
      rw [Int.floor_eq_iff, le_div_iff₀ hpos, div_lt_iff₀ hpos]
    constructor
    · intro hm
      exact ⟨_, hm, (key _).mp rfl⟩
    · rintro ⟨q, hq, hb⟩
      rw [(key q).mpr hb]
      exact hq
  · rintro g' rfl e he
    rw [concatBins_val h (by rw [hl]; exact hn) (l := g') (m := c.map (fun _ => true)) (List.mem_append_right _ (by simp)) he]
    rfl

end

/-- Lead times of 6, 30 and 42 hours, in seconds. -/
def exLeadHours : DA ℚ ℚ := { dims := {"lead_time"}, coords := fun _ => {6, 30, 42}, val := fun e => 3600 * e "lead_time" }

/-- The first day, and the second. -/
def exDays : List (ℚ × List ℚ) := [(100, [0]), (101, [1])]

/-- The hypotheses are met. -/
example : ∃ r, timeUnitSetsMaskGiven (T := ℕ) (fun _ => none) (id : ℚ → ℚ) "day" "lead_time" (some "days") (exDays.map (fun s => (s.1, .sequence (s.2.map id)))) (some 9)
    (.timedelta exLeadHours) = .ok r ∧ UnitLength "day" 86400 ∧ (exDays.map Prod.fst ++ (some (9 : ℚ)).toList).Nodup ∧ Function.Injective (id : ℚ → ℚ) ∧
    r.val (fun d => if d = "days" then 100 else 6) = true ∧ r.val (fun d => if d = "days" then 100 else 30) = false ∧ r.val (fun d => if d = "days" then 101 else 42) = true := by
  refine ⟨_, rfl, .day, by decide +kernel, Function.injective_id, by decide +kernel, by decide +kernel, by decide +kernel⟩

end WBX
