import Verif.Spec.Array
import Verif.Spec.Calendar
import Verif.Props.Latency

/-!
# C48: targets, climatology, persistence and predictions are aligned by valid time
-/

set_option linter.unusedSectionVars false

namespace WBX
open DA
variable {L V : Type} [DecidableEq L]

/-- The result has the init and lead times asked for as labels of its dimensions `init_time` and `lead_time`. -/
def HasInitLead (inits leads : List L) (r : DA L V) : Prop :=
  "init_time" ∈ r.dims ∧ "lead_time" ∈ r.dims ∧ r.coords "init_time" = inits.toFinset ∧ r.coords "lead_time" = leads.toFinset

/-! ### Targets -/

section
variable [AddCommGroup L]

/-- **C48** Targets: for each queried init and lead time the value of the source at the time `init + lead`; the dimension `valid_time` is replaced by `init_time` and
`lead_time`. -/
theorem C48_targets {ds r : DA L V} {inits leads : List L} (h : loadTargets ds inits (.exact leads) = .ok r) :
    HasInitLead inits leads r ∧ "valid_time" ∉ r.dims ∧ ∀ e : Dim → L, r.val e = ds.val (setLabel e "valid_time" (e "init_time" + e "lead_time")) := by
  simp only [loadTargets, selArray] at h
  split at h
  · simp only [Except.ok.injEq] at h
    subst h
    exact ⟨⟨by simp, by simp, by simp [initLead], by simp [initLead]⟩, by simp, fun e => rfl⟩
  · simp at h

/-- **C48** Targets can be loaded exactly if every valid time is in the source; else `KeyError`. -/
theorem C48_targets_present (ds : DA L V) (inits leads : List L) :
    ((∃ r, loadTargets ds inits (.exact leads) = .ok r) ↔ ∀ i ∈ inits, ∀ l ∈ leads, i + l ∈ ds.coords "valid_time") ∧
    ((¬ ∀ i ∈ inits, ∀ l ∈ leads, i + l ∈ ds.coords "valid_time") → loadTargets ds inits (.exact leads) = .error .keyError) := by
  have hiff : (inits.all (fun i => leads.all (fun l => decide (i + l ∈ ds.coords "valid_time")))) = true ↔ ∀ i ∈ inits, ∀ l ∈ leads, i + l ∈ ds.coords "valid_time" := by
    simp
  simp only [loadTargets, selArray]
  constructor
  · constructor
    · rintro ⟨r, h⟩
      split at h
      · next hp => exact hiff.mp hp
      · simp at h
    · intro h
      rw [if_pos (hiff.mpr h)]
      exact ⟨_, rfl⟩
  · intro h
    rw [if_neg (fun hp => h (hiff.mp hp))]

/-- **C48** Two queries with the same valid time get the same target: the target depends on init and lead time only through their sum. -/
theorem C48_targets_valid_time {ds r r' : DA L V} {inits leads inits' leads' : List L} (hwf : ds.WF) (hi : "init_time" ∉ ds.dims) (hl : "lead_time" ∉ ds.dims)
    (h : loadTargets ds inits (.exact leads) = .ok r) (h' : loadTargets ds inits' (.exact leads') = .ok r') {e e' : Dim → L}
    (hsame : e "init_time" + e "lead_time" = e' "init_time" + e' "lead_time") (hrest : ∀ k, k ≠ "init_time" → k ≠ "lead_time" → e k = e' k) : r.val e = r'.val e' := by
  rw [(C48_targets h).2.2, (C48_targets h').2.2]
  refine hwf _ _ (fun k hk => ?_)
  by_cases hv : k = "valid_time"
  · subst hv; simp [setLabel, hsame]
  · have h1 : k ≠ "init_time" := fun hh => hi (hh ▸ hk)
    have h2 : k ≠ "lead_time" := fun hh => hl (hh ▸ hk)
    simp [setLabel, hv, hrest k h1 h2]

/-- **C48** Lead time slices: a `ValueError` for targets, climatologies, persistence and the probabilistic climatology; also no lead times for the last two. -/
theorem C48_slices (ds : DA L V) (inits : List L) (fields : ClimFields L) (start stop : Option L) (ys : ℤ → L) (doy hod : L → ℤ) (hour : L) (m : ℕ → L) (ix : L → ℕ)
    (y0 y1 : ℤ) (ens : Dim) :
    loadTargets ds inits (.slice start stop) = .error .valueError ∧ loadClimatology fields ds inits (.slice start stop) = .error .valueError ∧
    loadPersistence ds inits (.slice start stop) = .error .valueError ∧ loadPersistence ds inits .none = .error .valueError ∧
    loadProbClimatology ys doy hod hour m ix y0 y1 ens ds inits (.slice start stop) = .error .valueError ∧
    loadProbClimatology ys doy hod hour m ix y0 y1 ens ds inits .none = .error .valueError := ⟨rfl, rfl, rfl, rfl, rfl, rfl⟩

end

/-- **C48** Without lead times the init times are the valid times: the value for the time `t` is that of the source. (Finding) The result keeps the name `valid_time` of the
dimension: it has no dimension `init_time`, unlike the predictions and the climatology for the same query. -/
theorem C48_targets_no_lead [AddCommGroup L] [LinearOrder L] [IsOrderedAddMonoid L] {ds r : DA L V} {inits : List L} (h : loadTargets ds inits .none = .ok r) :
    r.val = ds.val ∧ r.coords "valid_time" = inits.toFinset ∧ r.dims = ds.dims ∧ ("init_time" ∉ ds.dims → "init_time" ∉ r.dims) := by
  obtain ⟨-, hd, hc, -, hv⟩ := selList_ok (L := L) h
  exact ⟨hv, hc, hd, fun hn => by rw [hd]; exact hn⟩

/-! ### Climatology -/

section
variable [AddCommGroup L]

theorem setFields_other (fields : ClimFields L) (t : L) : ∀ (e : Dim → L) (k : Dim), k ∉ fields.map Prod.fst → setFields fields t e k = e k := by
  induction fields with
  | nil => intro e k _; rfl
  | cons f fs ih =>
    intro e k hk
    simp only [List.map_cons, List.mem_cons, not_or] at hk
    show setFields fs t (setLabel e f.1 (f.2 t)) k = e k
    rw [ih _ _ hk.2]
    simp [setLabel, hk.1]

theorem setFields_field (fields : ClimFields L) (t : L) (hn : (fields.map Prod.fst).Nodup) : ∀ (e : Dim → L), ∀ f ∈ fields, setFields fields t e f.1 = f.2 t := by
  induction fields with
  | nil => intro e f hf; simp at hf
  | cons g fs ih =>
    intro e f hf
    rw [List.map_cons, List.nodup_cons] at hn
    show setFields fs t (setLabel e g.1 (g.2 t)) f.1 = f.2 t
    rcases List.mem_cons.mp hf with rfl | hf
    · rw [setFields_other _ _ _ _ hn.1]; simp [setLabel]
    · exact ih hn.2 _ _ hf

theorem selFields_ok {fields : ClimFields L} {ds : Finset Dim} {C : Dim → Finset L} {times : (Dim → L) → L} {wanted : List L} {a r : DA L V}
    (h : selFields fields ds C times wanted a = .ok r) : (∀ t ∈ wanted, ∀ f ∈ fields, f.2 t ∈ a.coords f.1) ∧
      r.dims = (a.dims \ (fields.map Prod.fst).toFinset) ∪ ds ∧ (∀ k ∈ ds, r.coords k = C k) ∧ (∀ k ∉ ds, r.coords k = a.coords k) ∧
      ∀ e, r.val e = a.val (setFields fields (times e) e) := by
  unfold selFields at h
  split at h
  · next hp =>
    simp only [Except.ok.injEq] at h
    subst h
    refine ⟨fun t ht f hf => ?_, rfl, fun k hk => by simp [hk], fun k hk => by simp [hk], fun e => rfl⟩
    have := List.all_eq_true.mp (List.all_eq_true.mp hp t ht) f hf
    simpa using this
  · simp at h

/-- **C48** Climatology: the value for an init and lead time is the climatology's entry for the fields (day of year, hour) of the date `init + lead`: its value at every cell `c` that has
these fields and the labels of the query in all other dimensions. -/
theorem C48_climatology {fields : ClimFields L} (hn : (fields.map Prod.fst).Nodup) {ds r : DA L V} {inits leads : List L} (h : loadClimatology fields ds inits (.exact leads) = .ok r) :
    HasInitLead inits leads r ∧ (∀ i ∈ inits, ∀ l ∈ leads, ∀ f ∈ fields, f.2 (i + l) ∈ ds.coords f.1) ∧
    ∀ e c : Dim → L, (∀ f ∈ fields, c f.1 = f.2 (e "init_time" + e "lead_time")) → (∀ k ∉ fields.map Prod.fst, c k = e k) → r.val e = ds.val c := by
  obtain ⟨hw, hd, hc, -, hv⟩ := selFields_ok h
  refine ⟨⟨by rw [hd]; simp, by rw [hd]; simp, ?_, ?_⟩, fun i hi l hl f hf => hw _ ?_ f hf, fun e c hcf hco => ?_⟩
  · rw [hc _ (by simp)]; simp [initLead]
  · rw [hc _ (by simp)]; simp [initLead]
  · simp only [List.mem_flatMap, List.mem_map]; exact ⟨i, hi, l, hl, rfl⟩
  · rw [hv]
    congr 1
    funext k
    by_cases hk : k ∈ fields.map Prod.fst
    · obtain ⟨f, hf, rfl⟩ := List.mem_map.mp hk
      rw [setFields_field _ _ hn _ _ hf, hcf f hf]
    · rw [setFields_other _ _ _ _ hk, hco k hk]

/-- **C48** Climatology without lead times: the entry for the fields of the init time. -/
theorem C48_climatology_no_lead {fields : ClimFields L} (hn : (fields.map Prod.fst).Nodup) {ds r : DA L V} {inits : List L} (h : loadClimatology fields ds inits .none = .ok r) :
    "init_time" ∈ r.dims ∧ r.coords "init_time" = inits.toFinset ∧
    ∀ e c : Dim → L, (∀ f ∈ fields, c f.1 = f.2 (e "init_time")) → (∀ k ∉ fields.map Prod.fst, c k = e k) → r.val e = ds.val c := by
  obtain ⟨hw, hd, hc, -, hv⟩ := selFields_ok h
  refine ⟨by rw [hd]; simp, by rw [hc _ (by simp)], fun e c hcf hco => ?_⟩
  rw [hv]
  congr 1
  funext k
  by_cases hk : k ∈ fields.map Prod.fst
  · obtain ⟨f, hf, rfl⟩ := List.mem_map.mp hk
    rw [setFields_field _ _ hn _ _ hf, hcf f hf]
  · rw [setFields_other _ _ _ _ hk, hco k hk]

/-- **C48** The climatology can be loaded if it has an entry for the fields of every valid time. -/
theorem C48_climatology_present {fields : ClimFields L} {ds : DA L V} {inits leads : List L} :
    ((∀ i ∈ inits, ∀ l ∈ leads, ∀ f ∈ fields, f.2 (i + l) ∈ ds.coords f.1) → ∃ r, loadClimatology fields ds inits (.exact leads) = .ok r) ∧
    ((¬ ∀ i ∈ inits, ∀ l ∈ leads, ∀ f ∈ fields, f.2 (i + l) ∈ ds.coords f.1) → loadClimatology fields ds inits (.exact leads) = .error .keyError) := by
  have hiff : (inits.flatMap (fun i => leads.map (fun l => i + l))).all (fun t => fields.all (fun f => decide (f.2 t ∈ ds.coords f.1))) = true ↔
      ∀ i ∈ inits, ∀ l ∈ leads, ∀ f ∈ fields, f.2 (i + l) ∈ ds.coords f.1 := by
    rw [List.all_eq_true]
    constructor
    · intro h i hi l hl f hf
      have := List.all_eq_true.mp (h (i + l) (by simp only [List.mem_flatMap, List.mem_map]; exact ⟨i, hi, l, hl, rfl⟩)) f hf
      simpa using this
    · intro h t ht
      simp only [List.mem_flatMap, List.mem_map] at ht
      obtain ⟨i, hi, l, hl, rfl⟩ := ht
      exact List.all_eq_true.mpr (fun f hf => by simpa using h i hi l hl f hf)
  simp only [loadClimatology, selFields]
  exact ⟨fun h => by rw [if_pos (hiff.mpr h)]; exact ⟨_, rfl⟩, fun h => by rw [if_neg (fun hp => h (hiff.mp hp))]⟩

end

/-! ### Persistence and predictions -/

section
variable [AddCommGroup L] [LinearOrder L] [IsOrderedAddMonoid L]

/-- **C48** Persistence: for every queried lead time the value of the source at the init time. -/
theorem C48_persistence {ds r : DA L V} {inits leads : List L} (h : loadPersistence ds inits (.exact leads) = .ok r) :
    HasInitLead inits leads r ∧ "valid_time" ∉ r.dims ∧ ∀ e : Dim → L, r.val e = ds.val (setLabel e "valid_time" (e "init_time")) := by
  unfold loadPersistence at h
  simp only [bind_ok_iff] at h
  obtain ⟨a, ha, h⟩ := h
  obtain ⟨-, hd, hc, -, hv⟩ := selList_ok ha
  simp only [pure, Except.pure, Except.ok.injEq] at h
  subst h
  refine ⟨⟨by simp, by simp, by simp [hc], by simp⟩, by simp, fun e => by simp [hv]⟩

/-- **C48** Persistence does not depend on the lead time, and at lead time zero it is the target. -/
theorem C48_persistence_lead {ds r t : DA L V} {inits leads leads' : List L} (hwf : ds.WF) (hl : "lead_time" ∉ ds.dims)
    (h : loadPersistence ds inits (.exact leads) = .ok r) :
    (∀ (e : Dim → L) (l : L), r.val (setLabel e "lead_time" l) = r.val e) ∧
    (loadTargets ds inits (.exact leads') = .ok t → ∀ e : Dim → L, e "lead_time" = 0 → r.val e = t.val e) := by
  obtain ⟨-, -, hv⟩ := C48_persistence h
  refine ⟨fun e l => ?_, fun ht e he => ?_⟩
  · rw [hv, hv]
    refine hwf _ _ (fun k hk => ?_)
    have : k ≠ "lead_time" := fun hh => hl (hh ▸ hk)
    by_cases hk' : k = "valid_time"
    · subst hk'; simp [setLabel]
    · simp [setLabel, hk', this]
  · rw [hv, (C48_targets ht).2.2, he, add_zero]

/-- **C48** Predictions are the cells of the source with the queried labels; a missing init or lead time is a `KeyError`. -/
theorem C48_predictions {ds : DA L V} (h1 : "init_time" ∈ ds.dims) (h2 : "lead_time" ∈ ds.dims) (inits leads : List L) :
    (∀ r, loadPredictions ds inits (.exact leads) = .ok r → HasInitLead inits leads r ∧ r.val = ds.val) ∧
    ((∃ r, loadPredictions ds inits (.exact leads) = .ok r) ↔ (∀ i ∈ inits, i ∈ ds.coords "init_time") ∧ ∀ l ∈ leads, l ∈ ds.coords "lead_time") ∧
    ((¬ ((∀ i ∈ inits, i ∈ ds.coords "init_time") ∧ ∀ l ∈ leads, l ∈ ds.coords "lead_time")) → loadPredictions ds inits (.exact leads) = .error .keyError) := by
  refine ⟨fun r h => ⟨predictions_labelled h1 h2 _ _ _ h, loadPredictions_val h⟩, ⟨?_, ?_⟩, ?_⟩
  · rintro ⟨r, h⟩
    unfold loadPredictions at h
    simp only [bind_ok_iff] at h
    obtain ⟨a, ha, hr⟩ := h
    obtain ⟨p1, -, -, k1, -⟩ := selList_ok ha
    obtain ⟨p2, -⟩ := selList_ok hr
    rw [k1 _ (by decide)] at p2
    exact ⟨p1, p2⟩
  · rintro ⟨p1, p2⟩
    obtain ⟨a, ha⟩ := selList_exists p1
    obtain ⟨-, -, -, k1, -⟩ := selList_ok ha
    obtain ⟨r, hr⟩ := selList_exists (d := "lead_time") (ls := leads) (a := a) (by rw [k1 _ (by decide)]; exact p2)
    exact ⟨r, by unfold loadPredictions; simp only [bind_ok_iff]; exact ⟨a, ha, hr⟩⟩
  · intro hn
    unfold loadPredictions
    by_cases p1 : ∀ i ∈ inits, i ∈ ds.coords "init_time"
    · obtain ⟨a, ha⟩ := selList_exists p1
      obtain ⟨-, -, -, k1, -⟩ := selList_ok ha
      simp only [ha]
      show selList "lead_time" leads a = _
      exact selList_error (by rw [k1 _ (by decide)]; exact fun p2 => hn ⟨p1, p2⟩)
    · simp only [selList_error p1]
      rfl

/-- **C48** Predictions with a slice of lead times: the lead times of the source within the closed interval. -/
theorem C48_predictions_slice {ds r : DA L V} {inits : List L} {start stop : Option L} (h : loadPredictions ds inits (.slice start stop) = .ok r) :
    r.val = ds.val ∧ r.coords "init_time" = inits.toFinset ∧
    ∀ l, l ∈ r.coords "lead_time" ↔ l ∈ ds.coords "lead_time" ∧ (∀ s, start = some s → s ≤ l) ∧ ∀ s, stop = some s → l ≤ s := by
  unfold loadPredictions at h
  simp only [bind_ok_iff] at h
  obtain ⟨a, ha, h⟩ := h
  obtain ⟨-, hd, hc, hk, hv⟩ := selList_ok ha
  simp only [pure, Except.pure, Except.ok.injEq] at h
  subst h
  refine ⟨hv, ?_, fun l => ?_⟩
  · simp [selSlice, hc]
  · simp only [selSlice, if_pos, Finset.mem_filter, hk "lead_time" (by decide)]

/-- **C48** Predictions and targets loaded for the same times have the same labels, so they are compared cell by cell: the prediction for init and lead time with the
source value at their valid time. -/
theorem C48_aligned {preds targets p t : DA L V} (h1 : "init_time" ∈ preds.dims) (h2 : "lead_time" ∈ preds.dims) {inits leads : List L}
    (hp : loadPredictions preds inits (.exact leads) = .ok p) (ht : loadTargets targets inits (.exact leads) = .ok t) :
    p.coords "init_time" = t.coords "init_time" ∧ p.coords "lead_time" = t.coords "lead_time" ∧
    ∀ e : Dim → L, (p.val e, t.val e) = (preds.val e, targets.val (setLabel e "valid_time" (e "init_time" + e "lead_time"))) := by
  obtain ⟨⟨-, -, c1, c2⟩, hv⟩ := (C48_predictions h1 h2 inits leads).1 p hp
  obtain ⟨⟨-, -, c3, c4⟩, -, hv'⟩ := C48_targets ht
  exact ⟨by rw [c1, c3], by rw [c2, c4], fun e => by rw [hv, hv']⟩

end

/-! ### The probabilistic climatology -/

section
variable {hour : ℤ} {m : ℕ → ℤ} {ix : ℤ → ℕ} {y0 y1 : ℤ} {ens : Dim} {ds r : DA ℤ V} {inits leads : List ℤ}

/-- The loader with the Gregorian calendar. -/
noncomputable abbrev probClimatology (hour : ℤ) (m : ℕ → ℤ) (ix : ℤ → ℕ) (y0 y1 : ℤ) (ens : Dim) (ds : DA ℤ V) (inits : List ℤ) (leads : LeadTimes ℤ) : Except Err (DA ℤ V) :=
  loadProbClimatology (yearStart hour) (dayOfYear hour) (hourOfDay hour) hour m ix y0 y1 ens ds inits leads

/-- **C48** Probabilistic climatology: the member for the year `y` is the source at the time of year `y` with the day of the year and the hour of the valid time. -/
theorem C48_prob_climatology (hix : ∀ k, ix (m k) = k) (he : ens ≠ "init_time" ∧ ens ≠ "lead_time") (h : probClimatology hour m ix y0 y1 ens ds inits (.exact leads) = .ok r) :
    HasInitLead inits leads r ∧ r.coords ens = ((List.range (y1 + 1 - y0).toNat).map m).toFinset ∧ y0 ≤ y1 ∧
    ∀ (e : Dim → ℤ) (k : ℕ), e ens = m k → r.val e = ds.val (setLabel e "valid_time"
      (yearStart hour (y0 + k) + ((dayOfYear hour (e "init_time" + e "lead_time") - 1) * 24 + hourOfDay hour (e "init_time" + e "lead_time")) * hour)) := by
  simp only [loadProbClimatology] at h
  split at h
  · simp at h
  · next hnz =>
    unfold selArray at h
    split at h
    · simp only [Except.ok.injEq] at h
      subst h
      refine ⟨⟨by simp, by simp, ?_, ?_⟩, by simp, by omega, fun e k hk => ?_⟩
      · simp [initLead, he.1.symm]
      · simp [initLead, he.2.symm]
      · simp [hk, hix]
    · simp at h

/-- **C48** The member of the valid time's own year is the target itself: for valid times at full hours, the source at the valid time. -/
theorem C48_prob_climatology_own_year (hix : ∀ k, ix (m k) = k) (he : ens ≠ "init_time" ∧ ens ≠ "lead_time")
    (h : probClimatology hour m ix y0 y1 ens ds inits (.exact leads) = .ok r) {e : Dim → ℤ} {k : ℕ} (hk : e ens = m k)
    (hy : yearOf hour (e "init_time" + e "lead_time") = y0 + k) (hfull : hour ∣ e "init_time" + e "lead_time") :
    r.val e = ds.val (setLabel e "valid_time" (e "init_time" + e "lead_time")) := by
  rw [(C48_prob_climatology hix he h).2.2.2 e k hk, ← hy]
  have ht := time_eq hour (e "init_time" + e "lead_time")
  have h0 : (e "init_time" + e "lead_time") % (24 * hour) % hour = 0 := by
    rw [Int.emod_emod_of_dvd _ (Dvd.intro_left 24 rfl)]
    exact Int.emod_eq_zero_of_dvd hfull
  rw [h0, add_zero] at ht
  rw [← ht]

/-- **C48** The member of year `y` is a time of the year `y`, at the day of the year and the hour of the valid time — except that for the last day of a leap year the members of years that are not
leap years are the first day of the following year, at the same hour. -/
theorem C48_prob_climatology_day (hp : 0 < hour) (t y : ℤ) :
    let s := yearStart hour y + ((dayOfYear hour t - 1) * 24 + hourOfDay hour t) * hour
    hourOfDay hour s = hourOfDay hour t ∧
    (dayOfYear hour t ≤ yearLength y → yearOf hour s = y ∧ dayOfYear hour s = dayOfYear hour t) ∧
    (yearLength y < dayOfYear hour t → dayOfYear hour t = 366 ∧ LeapYear (yearOf hour t) ∧ ¬ LeapYear y ∧ yearOf hour s = y + 1 ∧ dayOfYear hour s = 1) := by
  intro s
  obtain ⟨hb1, hb2⟩ := dayOfYear_bounds hour t
  obtain ⟨hh1, hh2⟩ := hourOfDay_bounds hp t
  have hs : s = (24 * hour) * (daysBefore y - daysBefore 1970 + (dayOfYear hour t - 1)) + hourOfDay hour t * hour := by
    show yearStart hour y + _ = _
    unfold yearStart
    ring
  have hr0 : 0 ≤ hourOfDay hour t * hour := mul_nonneg hh1 hp.le
  have hr1 : hourOfDay hour t * hour < 24 * hour := by nlinarith
  have hday : dayOf hour s = daysBefore y - daysBefore 1970 + (dayOfYear hour t - 1) := by
    unfold dayOf
    rw [hs, Int.mul_add_ediv_left _ _ (by omega), Int.ediv_eq_zero_of_lt hr0 hr1, add_zero]
  have hmod : s % (24 * hour) = hourOfDay hour t * hour := by
    rw [hs, Int.mul_add_emod_self_left, Int.emod_eq_of_lt hr0 hr1]
  refine ⟨?_, fun hle => ?_, fun hlt => ?_⟩
  · show s % (24 * hour) / hour = _
    rw [hmod, Int.mul_ediv_cancel _ hp.ne']
  · have hin : InYear (dayOf hour s) y := by
      rw [hday]
      unfold InYear
      rw [daysBefore_succ]
      omega
    have hy := (inYear_yearOf hour s).unique hin
    refine ⟨hy, ?_⟩
    show dayOf hour s + daysBefore 1970 - daysBefore (yearOf hour s) + 1 = _
    rw [hy, hday]
    ring
  · have hleap : LeapYear (yearOf hour t) ∧ ¬ LeapYear y ∧ dayOfYear hour t = 366 := by
      unfold yearLength at hb2 hlt
      split at hb2
      · next h1 => split at hlt
                   · omega
                   · next h2 => exact ⟨h1, h2, by omega⟩
      · split at hlt <;> omega
    have hin : InYear (dayOf hour s) (y + 1) := by
      rw [hday]
      unfold InYear
      have := daysBefore_lt_succ (y + 1)
      have h366 : daysBefore (y + 1) = daysBefore y + 365 := by rw [daysBefore_succ]; unfold yearLength; rw [if_neg hleap.2.1]
      omega
    have hy := (inYear_yearOf hour s).unique hin
    refine ⟨hleap.2.2, hleap.1, hleap.2.1, hy, ?_⟩
    show dayOf hour s + daysBefore 1970 - daysBefore (yearOf hour s) + 1 = _
    rw [hy, hday, daysBefore_succ]
    unfold yearLength
    rw [if_neg hleap.2.1, hleap.2.2]
    ring

/-- **C48** (finding) Valid times below the hour are silently floored: at `0:30` the member of the own year is the source at `0:00`. -/
theorem C48_prob_climatology_floor (hp : 0 < hour) (t : ℤ) :
    let s := yearStart hour (yearOf hour t) + ((dayOfYear hour t - 1) * 24 + hourOfDay hour t) * hour
    s ≤ t ∧ t < s + hour ∧ hour ∣ s := by
  intro s
  have ht := time_eq hour t
  have hs : t = s + t % (24 * hour) % hour := ht
  have h1 := Int.emod_nonneg (t % (24 * hour)) hp.ne'
  have h2 := Int.emod_lt_of_pos (t % (24 * hour)) hp
  refine ⟨by omega, by omega, ?_⟩
  refine Dvd.dvd.add ?_ (Dvd.intro_left _ rfl)
  unfold yearStart
  exact ⟨24 * (daysBefore (yearOf hour t) - daysBefore 1970), by ring⟩

/-- **C48** An empty range of years is an error. -/
theorem C48_prob_climatology_no_years (h : y1 < y0) : probClimatology hour m ix y0 y1 ens ds inits (.exact leads) = .error .valueError := by
  simp only [loadProbClimatology]
  rw [if_pos (by omega)]

end

/-! ### The hypotheses are met -/

/-- Hourly observations: the value is the time. -/
noncomputable def exObs : DA ℤ ℤ := { dims := {"valid_time", "longitude"}, coords := fun _ => Finset.Icc (-10) 100, val := fun e => e "valid_time" }

theorem exObs_wf : exObs.WF := fun e e' h => h "valid_time" (by simp [exObs])

example : ∃ r, loadTargets exObs [0, 12] (.exact [6, 12]) = .ok r ∧ ∀ e : Dim → ℤ, r.val e = e "init_time" + e "lead_time" := by
  obtain ⟨r, hr⟩ := (C48_targets_present exObs [0, 12] [6, 12]).1.mpr (by simp [exObs])
  exact ⟨r, hr, fun e => by rw [(C48_targets hr).2.2]; simp [exObs, setLabel]⟩
example : loadTargets exObs [0, 96] (.exact [6, 12]) = .error .keyError := (C48_targets_present exObs [0, 96] [6, 12]).2 (by simp [exObs])
example : exObs.WF ∧ "init_time" ∉ exObs.dims ∧ "lead_time" ∉ exObs.dims := ⟨exObs_wf, by simp [exObs], by simp [exObs]⟩
example : ∃ r, loadPersistence exObs [0, 12] (.exact [6, 12]) = .ok r := by
  obtain ⟨a, ha⟩ := selList_exists (d := "valid_time") (ls := [0, 12]) (a := exObs) (by simp [exObs])
  unfold loadPersistence
  simp only [ha]
  exact ⟨_, rfl⟩
/-- A climatology by the hour of the day. -/
example : ∃ r, loadClimatology [("hour", fun t => t % 24)] { exObs with dims := {"hour"}, val := fun e => e "hour" } [0, 12] (.exact [6, 36]) = .ok r ∧
    r.val (fun d => if d = "init_time" then 12 else 36) = 0 := by
  obtain ⟨r, hr⟩ := (C48_climatology_present (fields := [("hour", fun t : ℤ => t % 24)]) (ds := { exObs with dims := {"hour"}, val := fun e => e "hour" }) (inits := [0, 12])
    (leads := [6, 36])).1 (by simp [exObs])
  refine ⟨r, hr, ?_⟩
  rw [(C48_climatology (by simp) hr).2.2 _ (fun d => if d = "init_time" then 12 else if d = "hour" then 0 else 36) (by simp) (by intro k hk; simp at hk; simp [hk])]
  simp
/-- The probabilistic climatology for 2000 and 2001, in days: the last day of 2000 gives the last day of 2000 and the first of 2002. -/
example : ∃ r, probClimatology 1 (fun k => k) Int.toNat 2000 2001 "number" { exObs with coords := fun _ => Finset.Icc 0 1000000 } [262968] (.exact [8760 + 23]) = .ok r := by
  simp only [loadProbClimatology]
  rw [if_neg (by norm_num)]
  unfold selArray
  rw [if_pos]
  · exact ⟨_, rfl⟩
  · obtain ⟨hb1, hb2⟩ := dayOfYear_bounds 1 271751
    obtain ⟨hh1, hh2⟩ := hourOfDay_bounds (hour := 1) (by norm_num) 271751
    have hle : yearLength (yearOf 1 271751) ≤ 366 := by unfold yearLength; split <;> omega
    have e0 : yearStart 1 2000 = 262968 := by decide
    have e1 : yearStart 1 2001 = 271752 := by decide
    simp [List.range_succ, e0, e1]
    omega

end WBX
