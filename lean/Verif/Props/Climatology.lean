import Verif.Model.Opportunism
import Verif.Props.ACC

/-!
# C70 (which climatology value is used)

The value of the aligned climatology at a cell is the climatology of the valid time of that cell: `valid_time`, or `init_time + lead_time`.
-/

set_option linter.unusedSectionVars false

namespace WBX
open DA
variable {L V W : Type} [DecidableEq L]

/-- The result of selecting labels computed from the labels of the dimensions `ds`. -/
theorem StatVar.selBy_ok {c : StatVar L V} {d : Dim} {ds : List Dim} {C : Dim → Finset L} {f : (Dim → L) → L} (hd : d ∈ c.arr.dims) (hm : c.mask = none)
    (h : ∀ e : Dim → L, (∀ k ∈ ds, e k ∈ C k) → f e ∈ c.arr.coords d) :
    c.selBy d ds C f = .ok ⟨{ dims := c.arr.dims.erase d ∪ ds.toFinset, coords := fun k => if k ∈ ds then C k else c.arr.coords k,
                              val := fun e => c.arr.val (setLabel e d (f e)) }, none⟩ := by
  unfold StatVar.selBy
  rw [if_pos hd, hm]
  unfold DA.selBy
  rw [if_pos h]
  rfl

/-- One label is missing. -/
theorem StatVar.selBy_missing {c : StatVar L V} {d : Dim} {ds : List Dim} {C : Dim → Finset L} {f : (Dim → L) → L} {e : Dim → L} (he : ∀ k ∈ ds, e k ∈ C k)
    (hf : f e ∉ c.arr.coords d) : c.selBy d ds C f = .error .keyError := by
  unfold StatVar.selBy
  by_cases hd : d ∈ c.arr.dims
  · rw [if_pos hd]
    unfold DA.selBy
    rw [if_neg (fun h => hf (h e he))]
    rfl
  · rw [if_neg hd]

section select
variable {tm : ClimTimes L} {c : StatVar L V} {ds : List Dim} {C : Dim → Finset L} {vt : (Dim → L) → L}

theorem selClimatology_time (h1 : "time" ∈ c.arr.dims) (hm : c.mask = none) (h : ∀ e : Dim → L, (∀ k ∈ ds, e k ∈ C k) → vt e ∈ c.arr.coords "time") :
    ∃ al, selClimatology tm ds C vt c = .ok al ∧ al.mask = none ∧ al.arr.dims = c.arr.dims.erase "time" ∪ ds.toFinset ∧
      (∀ k, al.arr.coords k = if k ∈ ds then C k else c.arr.coords k) ∧ ∀ e, al.arr.val e = c.arr.val (setLabel e "time" (vt e)) := by
  unfold selClimatology
  rw [if_pos h1, StatVar.selBy_ok h1 hm h]
  exact ⟨_, rfl, rfl, rfl, fun k => rfl, fun e => rfl⟩

theorem selClimatology_day (h1 : "time" ∉ c.arr.dims) (h2 : "hour" ∉ c.arr.dims) (h3 : "dayofyear" ∈ c.arr.dims) (hm : c.mask = none)
    (h : ∀ e : Dim → L, (∀ k ∈ ds, e k ∈ C k) → tm.dayofyear (vt e) ∈ c.arr.coords "dayofyear") :
    ∃ al, selClimatology tm ds C vt c = .ok al ∧ al.mask = none ∧ al.arr.dims = c.arr.dims.erase "dayofyear" ∪ ds.toFinset ∧
      (∀ k, al.arr.coords k = if k ∈ ds then C k else c.arr.coords k) ∧ ∀ e, al.arr.val e = c.arr.val (setLabel e "dayofyear" (tm.dayofyear (vt e))) := by
  unfold selClimatology
  rw [if_neg h1, if_neg h2, StatVar.selBy_ok h3 hm h]
  exact ⟨_, rfl, rfl, rfl, fun k => rfl, fun e => rfl⟩

theorem selClimatology_hour (h1 : "time" ∉ c.arr.dims) (h2 : "hour" ∈ c.arr.dims) (h3 : "dayofyear" ∈ c.arr.dims) (hm : c.mask = none)
    (hds : "hour" ∉ ds) (hvt : ∀ e x, vt (setLabel e "hour" x) = vt e)
    (h : ∀ e : Dim → L, (∀ k ∈ ds, e k ∈ C k) → tm.dayofyear (vt e) ∈ c.arr.coords "dayofyear" ∧ tm.hour (vt e) ∈ c.arr.coords "hour") :
    ∃ al, selClimatology tm ds C vt c = .ok al ∧ al.mask = none ∧ al.arr.dims = (c.arr.dims.erase "dayofyear" ∪ ds.toFinset).erase "hour" ∪ ds.toFinset ∧
      (∀ k, al.arr.coords k = if k ∈ ds then C k else c.arr.coords k) ∧
      ∀ e, al.arr.val e = c.arr.val (fun k => if k = "dayofyear" then tm.dayofyear (vt e) else if k = "hour" then tm.hour (vt e) else e k) := by
  unfold selClimatology
  rw [if_neg h1, if_pos h2, StatVar.selBy_ok h3 hm (fun e he => (h e he).1)]
  change ∃ al, StatVar.selBy _ _ _ _ _ = .ok al ∧ _
  rw [StatVar.selBy_ok (by simp [h2]) rfl (fun e he => by simpa [hds] using (h e he).2)]
  refine ⟨_, rfl, rfl, rfl, fun k => by dsimp only; split <;> rfl, fun e => ?_⟩
  show c.arr.val _ = _
  congr 1
  funext k
  simp only [setLabel]
  by_cases hk : k = "dayofyear"
  · rw [if_pos hk, if_pos hk]
    exact congrArg tm.dayofyear (hvt e _)
  · rw [if_neg hk, if_neg hk]

end select

section C70
variable {tm : ClimTimes L} {p : StatVar L W} {c : StatVar L V}

/-- **C70** Predictions by init and lead time, climatology by day of the year and hour: the value at a cell is the climatology for the day of the year and the hour of
`init_time + lead_time`, all other dimensions unchanged. -/
theorem C70_init_lead_hour (hp : "valid_time" ∉ p.arr.dims) (hp1 : "init_time" ∈ p.arr.dims) (hp2 : "lead_time" ∈ p.arr.dims)
    (h1 : "time" ∉ c.arr.dims) (h2 : "hour" ∈ c.arr.dims) (h3 : "dayofyear" ∈ c.arr.dims) (hm : c.mask = none)
    (h : ∀ i ∈ p.arr.coords "init_time", ∀ l ∈ p.arr.coords "lead_time",
      tm.dayofyear (tm.add i l) ∈ c.arr.coords "dayofyear" ∧ tm.hour (tm.add i l) ∈ c.arr.coords "hour") :
    ∃ al, alignClimatology tm p c = .ok al ∧ al.mask = none ∧ (∀ k, k ∈ al.arr.dims ↔ (k ∈ c.arr.dims ∧ k ≠ "dayofyear" ∧ k ≠ "hour") ∨ k = "init_time" ∨ k = "lead_time") ∧
      (∀ k, al.arr.coords k = if k = "init_time" ∨ k = "lead_time" then p.arr.coords k else c.arr.coords k) ∧
      ∀ e, al.arr.val e = c.arr.val (fun k => if k = "dayofyear" then tm.dayofyear (tm.add (e "init_time") (e "lead_time"))
        else if k = "hour" then tm.hour (tm.add (e "init_time") (e "lead_time")) else e k) := by
  unfold alignClimatology
  rw [if_neg hp, if_pos ⟨hp1, hp2⟩]
  obtain ⟨al, g1, g2, g3, g4, g5⟩ := selClimatology_hour (tm := tm) (c := c) (ds := ["init_time", "lead_time"]) (C := p.arr.coords)
    (vt := fun e => tm.add (e "init_time") (e "lead_time")) h1 h2 h3 hm (by simp) (fun e x => by simp [setLabel])
    (fun e he => h _ (he "init_time" (by simp)) _ (he "lead_time" (by simp)))
  refine ⟨al, g1, g2, fun k => ?_, fun k => ?_, g5⟩
  · rw [g3]
    simp only [Finset.mem_union, Finset.mem_erase, List.mem_toFinset, List.mem_cons, List.not_mem_nil, or_false]
    constructor
    · rintro (⟨a1, ⟨a2, a3⟩ | a3⟩ | a3)
      · exact Or.inl ⟨a3, a2, a1⟩
      · exact Or.inr a3
      · exact Or.inr a3
    · rintro (⟨a1, a2, a3⟩ | a3)
      · exact Or.inl ⟨a3, Or.inl ⟨a2, a1⟩⟩
      · exact Or.inr a3
  · rw [g4]; simp

/-- **C70** The same for a climatology by day of the year only. -/
theorem C70_init_lead_day (hp : "valid_time" ∉ p.arr.dims) (hp1 : "init_time" ∈ p.arr.dims) (hp2 : "lead_time" ∈ p.arr.dims)
    (h1 : "time" ∉ c.arr.dims) (h2 : "hour" ∉ c.arr.dims) (h3 : "dayofyear" ∈ c.arr.dims) (hm : c.mask = none)
    (h : ∀ i ∈ p.arr.coords "init_time", ∀ l ∈ p.arr.coords "lead_time", tm.dayofyear (tm.add i l) ∈ c.arr.coords "dayofyear") :
    ∃ al, alignClimatology tm p c = .ok al ∧ al.mask = none ∧ ∀ e, al.arr.val e = c.arr.val (setLabel e "dayofyear" (tm.dayofyear (tm.add (e "init_time") (e "lead_time")))) := by
  unfold alignClimatology
  rw [if_neg hp, if_pos ⟨hp1, hp2⟩]
  obtain ⟨al, g1, g2, g3, g4, g5⟩ := selClimatology_day (tm := tm) (c := c) (ds := ["init_time", "lead_time"]) (C := p.arr.coords)
    (vt := fun e => tm.add (e "init_time") (e "lead_time")) h1 h2 h3 hm
    (fun e he => h _ (he "init_time" (by simp)) _ (he "lead_time" (by simp)))
  exact ⟨al, g1, g2, g5⟩

/-- **C70** A climatology by `time` is looked up at the valid time itself. -/
theorem C70_init_lead_time (hp : "valid_time" ∉ p.arr.dims) (hp1 : "init_time" ∈ p.arr.dims) (hp2 : "lead_time" ∈ p.arr.dims)
    (h1 : "time" ∈ c.arr.dims) (hm : c.mask = none)
    (h : ∀ i ∈ p.arr.coords "init_time", ∀ l ∈ p.arr.coords "lead_time", tm.add i l ∈ c.arr.coords "time") :
    ∃ al, alignClimatology tm p c = .ok al ∧ al.mask = none ∧ ∀ e, al.arr.val e = c.arr.val (setLabel e "time" (tm.add (e "init_time") (e "lead_time"))) := by
  unfold alignClimatology
  rw [if_neg hp, if_pos ⟨hp1, hp2⟩]
  obtain ⟨al, g1, g2, g3, g4, g5⟩ := selClimatology_time (tm := tm) (c := c) (ds := ["init_time", "lead_time"]) (C := p.arr.coords)
    (vt := fun e => tm.add (e "init_time") (e "lead_time")) h1 hm (fun e he => h _ (he "init_time" (by simp)) _ (he "lead_time" (by simp)))
  exact ⟨al, g1, g2, g5⟩

/-- **C70** Predictions by valid time. -/
theorem C70_valid_time (hp : "valid_time" ∈ p.arr.dims) (h1 : "time" ∉ c.arr.dims) (h2 : "hour" ∈ c.arr.dims) (h3 : "dayofyear" ∈ c.arr.dims) (hm : c.mask = none)
    (h : ∀ t ∈ p.arr.coords "valid_time", tm.dayofyear t ∈ c.arr.coords "dayofyear" ∧ tm.hour t ∈ c.arr.coords "hour") :
    ∃ al, alignClimatology tm p c = .ok al ∧ al.mask = none ∧
      ∀ e, al.arr.val e = c.arr.val (fun k => if k = "dayofyear" then tm.dayofyear (e "valid_time") else if k = "hour" then tm.hour (e "valid_time") else e k) := by
  unfold alignClimatology
  rw [if_pos hp]
  obtain ⟨al, g1, g2, g3, g4, g5⟩ := selClimatology_hour (tm := tm) (c := c) (ds := ["valid_time"]) (C := p.arr.coords)
    (vt := fun e => e "valid_time") h1 h2 h3 hm (by simp) (fun e x => by simp [setLabel]) (fun e he => h _ (he "valid_time" (by simp)))
  exact ⟨al, g1, g2, g5⟩

/-- **C70** Predictions without times are rejected. -/
theorem C70_no_times (hp : "valid_time" ∉ p.arr.dims) (h : "init_time" ∉ p.arr.dims ∨ "lead_time" ∉ p.arr.dims) : alignClimatology tm p c = .error .valueError := by
  unfold alignClimatology
  rw [if_neg hp, if_neg (fun h' => h.elim (fun h => h h'.1) (fun h => h h'.2))]

/-- **C70** A valid time that the climatology does not have is an error, never another value. -/
theorem C70_missing (hp : "valid_time" ∉ p.arr.dims) (hp1 : "init_time" ∈ p.arr.dims) (hp2 : "lead_time" ∈ p.arr.dims) (hm : c.mask = none)
    (h1 : "time" ∉ c.arr.dims) {i l : L} (hi : i ∈ p.arr.coords "init_time") (hl : l ∈ p.arr.coords "lead_time")
    (h : tm.dayofyear (tm.add i l) ∉ c.arr.coords "dayofyear" ∨ ("hour" ∈ c.arr.dims ∧ tm.hour (tm.add i l) ∉ c.arr.coords "hour")) :
    alignClimatology tm p c = .error .keyError := by
  unfold alignClimatology
  rw [if_neg hp, if_pos ⟨hp1, hp2⟩]
  unfold selClimatology
  rw [if_neg h1]
  have he : ∀ k ∈ ["init_time", "lead_time"], setLabel (fun _ => i) "lead_time" l k ∈ p.arr.coords k := by
    intro k hk
    rcases List.mem_cons.mp hk with rfl | hk
    · simpa [setLabel] using hi
    · obtain rfl := List.mem_singleton.mp hk
      simpa [setLabel] using hl
  have hf : tm.add (setLabel (fun _ => i) "lead_time" l "init_time") (setLabel (fun _ => i) "lead_time" l "lead_time") = tm.add i l := by simp [setLabel]
  by_cases hd : tm.dayofyear (tm.add i l) ∈ c.arr.coords "dayofyear"
  · obtain ⟨h2, h4⟩ := h.resolve_left (fun h => h hd)
    rw [if_pos h2]
    cases hs : c.selBy "dayofyear" ["init_time", "lead_time"] p.arr.coords (fun e => tm.dayofyear (tm.add (e "init_time") (e "lead_time"))) with
    | error x =>
      have : x = .keyError := by
        unfold StatVar.selBy at hs
        rw [hm] at hs
        unfold DA.selBy at hs
        split at hs
        · split at hs
          · simp [bind, Except.bind, pure, Except.pure] at hs
          · simpa [bind, Except.bind] using hs.symm
        · simpa using hs.symm
      rw [this]; rfl
    | ok c' =>
      change StatVar.selBy _ _ _ _ c' = _
      refine StatVar.selBy_missing (e := setLabel (fun _ => i) "lead_time" l) he ?_
      have hc : c'.arr.coords "hour" = c.arr.coords "hour" := by
        unfold StatVar.selBy at hs
        rw [hm] at hs
        unfold DA.selBy at hs
        split at hs
        · split at hs
          · simp only [bind, Except.bind, pure, Except.pure, Except.ok.injEq] at hs
            rw [← hs]
            simp
          · simp [bind, Except.bind] at hs
        · simp at hs
      dsimp only
      rw [hf, hc]
      exact h4
  · have hfirst := StatVar.selBy_missing (c := c) (d := "dayofyear") (f := fun e => tm.dayofyear (tm.add (e "init_time") (e "lead_time"))) he (by rw [hf]; exact hd)
    rw [hfirst]
    split <;> rfl

end C70

/-! ### Instance: hours as labels; climatology with days of 24 hours -/

def exHours : ClimTimes ℕ := ⟨(· + ·), fun t => t / 24, fun t => t % 24⟩

def exClimForecast : StatVar ℕ (FV ℝ) := ⟨{ dims := {"init_time", "lead_time"}, coords := fun k => if k = "init_time" then {24, 36} else {6, 12}, val := fun _ => .fin 0 }, none⟩

noncomputable def exClim : StatVar ℕ (FV ℝ) :=
  ⟨{ dims := {"dayofyear", "hour"}, coords := fun k => if k = "dayofyear" then {1, 2} else {0, 6, 12, 18}, val := fun e => .fin (e "dayofyear" * 100 + e "hour") }, none⟩

/-- Init at 36 (day 1, 12 h), lead 12: day 2, hour 0. -/
example : ∃ al, alignClimatology exHours exClimForecast exClim = .ok al ∧ al.arr.val (fun k => if k = "init_time" then 36 else 12) = .fin 200 := by
  obtain ⟨al, h1, -, -, -, h2⟩ := C70_init_lead_hour (tm := exHours) (p := exClimForecast) (c := exClim) (by simp [exClimForecast]) (by simp [exClimForecast]) (by simp [exClimForecast])
    (by simp [exClim]) (by simp [exClim]) (by simp [exClim]) rfl (by simp [exClimForecast, exClim, exHours])
  refine ⟨al, h1, ?_⟩
  rw [h2]
  have hne : ¬ "lead_time" = "init_time" := by simp
  simp only [exClim, exHours, if_true, if_neg hne]
  norm_num

/-- A lead time of 3 hours is not in the climatology. -/
example : alignClimatology exHours ⟨{ exClimForecast.arr with coords := fun k => if k = "init_time" then {24} else {3} }, none⟩ exClim = .error .keyError :=
  C70_missing (by simp [exClimForecast]) (by simp [exClimForecast]) (by simp [exClimForecast]) rfl (by simp [exClim]) (i := 24) (l := 3) (by simp) (by simp) (Or.inr (by simp [exClim, exHours]))

end WBX
