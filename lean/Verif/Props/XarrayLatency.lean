import Verif.Model.XarrayLatency
import Verif.Props.Naming
import Verif.Props.Latency

/-!
# C79: the latency wrapper that reads its init times from the dataset
-/

set_option linter.unusedSectionVars false

namespace WBX
open DA
variable {L : Type} [DecidableEq L]

/-! ### Histories -/

section history
variable {D R : Type} [AddCommGroup L] [LinearOrder L] (p : Preparation D) (times : D → Except Err (List L)) (load : D → List L → List L → LeadChunk L → Except Err R) (latency : L)

/-- What a call should answer, given the prepared dataset and its init times: nothing but the arguments of the call matters. -/
def answerOf (ds : D) (ts : List L) : LatencyCall L → Except Err (LatencyAnswer L R)
  | .load inits leads => (load ds ts inits leads).map LatencyAnswer.chunk
  | .available init => (availableInitTime ts latency init).map LatencyAnswer.time

theorem maybePrepare_prepared {s : XarrayState D} (hs : s.preprocessed = false) {ds : D} (h : prepared p s = .ok ds) :
    maybePrepare p s = ({ ds := some ds, preprocessed := true }, .ok ()) := by
  obtain ⟨d0, h0, h1⟩ := bind_ok_iff.mp h
  unfold maybePrepare
  rw [if_neg (by simp [hs])]
  rw [h0]
  simp only [runSteps_ok h1]

theorem latencyCall_fresh {s : XarrayState D} (hs : s.preprocessed = false) {ds : D} (h : prepared p s = .ok ds) {ts : List L} (ht : times ds = .ok ts) (c : LatencyCall L) :
    latencyCall p times load latency c { inner := s } = ({ inner := { ds := some ds, preprocessed := true }, nominal := ts, isSet := true }, answerOf load latency ds ts c) := by
  have hm : maybeSetNominal p times ({ inner := s } : LatencyState D L) = ({ inner := { ds := some ds, preprocessed := true }, nominal := ts, isSet := true }, .ok ()) := by
    unfold maybeSetNominal
    rw [if_neg (by simp)]
    simp only [maybePrepare_prepared p hs h, ht]
  cases c with
  | load inits leads =>
    simp only [latencyCall, xarrayLatencyLoad, hm, answerOf]
    simp [maybePrepare]
  | available init => simp only [latencyCall, xarrayAvailable, hm, answerOf]

theorem latencyCall_again (ds : D) (ts : List L) (c : LatencyCall L) :
    latencyCall p times load latency c { inner := { ds := some ds, preprocessed := true }, nominal := ts, isSet := true } =
      ({ inner := { ds := some ds, preprocessed := true }, nominal := ts, isSet := true }, answerOf load latency ds ts c) := by
  cases c with
  | load inits leads => simp [latencyCall, xarrayLatencyLoad, maybeSetNominal, maybePrepare, answerOf]
  | available init => simp [latencyCall, xarrayAvailable, maybeSetNominal, answerOf]

/-- **C79** Whatever has been asked before — chunks or available init times, in any order, with or without success —, a wrapper around a fresh loader whose dataset can be prepared
and has the init time dimension answers every call as a fresh wrapper would, with the init times of the prepared dataset. -/
theorem C79_history {s : XarrayState D} (hs : s.preprocessed = false) {ds : D} (h : prepared p s = .ok ds) {ts : List L} (ht : times ds = .ok ts) (calls : List (LatencyCall L)) :
    (latencyCalls p times load latency calls { inner := s }).2 = calls.map (fun c => (latencyCall p times load latency c { inner := s }).2) ∧
    (latencyCalls p times load latency calls { inner := s }).2 = calls.map (answerOf load latency ds ts) := by
  have hagain : ∀ calls : List (LatencyCall L), (latencyCalls p times load latency calls { inner := { ds := some ds, preprocessed := true }, nominal := ts, isSet := true }).2 =
      calls.map (answerOf load latency ds ts) := by
    intro calls
    induction calls with
    | nil => rfl
    | cons c cs ih => simp only [latencyCalls, latencyCall_again, List.map_cons, ih]
  have hmain : (latencyCalls p times load latency calls { inner := s }).2 = calls.map (answerOf load latency ds ts) := by
    cases calls with
    | nil => rfl
    | cons c cs => simp only [latencyCalls, latencyCall_fresh p times load latency hs h ht, List.map_cons, hagain]
  refine ⟨?_, hmain⟩
  rw [hmain]
  exact List.map_congr_left (fun c _ => by rw [latencyCall_fresh p times load latency hs h ht])

/-- **C79** If the dataset is one that somebody else has already prepared — the wrapped loader has been used on its own before —, the answers are the same. -/
theorem C79_shared_loader (ds : D) {ts : List L} (ht : times ds = .ok ts) (calls : List (LatencyCall L)) :
    (latencyCalls p times load latency calls { inner := { ds := some ds, preprocessed := true } }).2 = calls.map (answerOf load latency ds ts) := by
  have hfirst : ∀ c, latencyCall p times load latency c { inner := { ds := some ds, preprocessed := true } } =
      ({ inner := { ds := some ds, preprocessed := true }, nominal := ts, isSet := true }, answerOf load latency ds ts c) := by
    intro c
    cases c with
    | load inits leads => simp [latencyCall, xarrayLatencyLoad, maybeSetNominal, maybePrepare, answerOf, ht]
    | available init => simp [latencyCall, xarrayAvailable, maybeSetNominal, maybePrepare, answerOf, ht]
  have hagain : ∀ calls : List (LatencyCall L), (latencyCalls p times load latency calls { inner := { ds := some ds, preprocessed := true }, nominal := ts, isSet := true }).2 =
      calls.map (answerOf load latency ds ts) := by
    intro calls
    induction calls with
    | nil => rfl
    | cons c cs ih => simp only [latencyCalls, latencyCall_again, List.map_cons, ih]
  cases calls with
  | nil => rfl
  | cons c cs => simp only [latencyCalls, hfirst, List.map_cons, hagain]

/-- **C79** If the init times cannot be read from the prepared dataset, every call fails with that error, however often it is repeated: the wrapper never goes on with
an empty list of init times. -/
theorem C79_no_times {s : XarrayState D} (hs : s.preprocessed = false) {ds : D} (h : prepared p s = .ok ds) {err : Err} (ht : times ds = .error err) (calls : List (LatencyCall L)) :
    (latencyCalls p times load latency calls { inner := s }).2 = calls.map (fun _ => .error err) := by
  have hagain : ∀ calls : List (LatencyCall L), (latencyCalls p times load latency calls { inner := { ds := some ds, preprocessed := true } }).2 = calls.map (fun _ => .error err) := by
    intro calls
    induction calls with
    | nil => rfl
    | cons c cs ih =>
      have : latencyCall p times load latency c { inner := { ds := some ds, preprocessed := true } } = ({ inner := { ds := some ds, preprocessed := true } }, .error err) := by
        cases c <;> simp [latencyCall, xarrayLatencyLoad, xarrayAvailable, maybeSetNominal, maybePrepare, ht, Except.map]
      simp only [latencyCalls, this, List.map_cons, ih]
  cases calls with
  | nil => rfl
  | cons c cs =>
    have : latencyCall p times load latency c { inner := s } = ({ inner := { ds := some ds, preprocessed := true } }, .error err) := by
      have hm : maybeSetNominal p times ({ inner := s } : LatencyState D L) = ({ inner := { ds := some ds, preprocessed := true } }, .error err) := by
        unfold maybeSetNominal
        rw [if_neg (by simp)]
        simp only [maybePrepare_prepared p hs h, ht]
      cases c <;> simp [latencyCall, xarrayLatencyLoad, xarrayAvailable, hm, Except.map]
    simp only [latencyCalls, this, List.map_cons, hagain]

/-- **C79** If the preparation fails, so does every first call, with its error. -/
theorem C79_preparation_error {s : XarrayState D} (hs : s.preprocessed = false) {err : Err} (h : prepared p s = .error err) (c : LatencyCall L) :
    (latencyCall p times load latency c { inner := s }).2 = .error err := by
  have hm : (maybePrepare p s).2 = .error err := by
    have := C49_preparation_error p (fun _ (_ : Unit) => (.ok () : Except Err Unit)) hs h ()
    unfold xarrayLoadChunk at this
    cases hmm : maybePrepare p s with
    | mk s' r' =>
      rw [hmm] at this
      cases r' with
      | error e => simpa using this
      | ok u =>
        exfalso
        cases u
        dsimp only at this
        cases hd : s'.ds with
        | some d => rw [hd] at this; simp at this
        | none =>
          -- a successful preparation always leaves a dataset
          unfold maybePrepare at hmm
          rw [if_neg (by simp [hs])] at hmm
          cases h0 : startDataset p s with
          | error e => rw [h0] at hmm; simp at hmm
          | ok d0 =>
            rw [h0] at hmm
            dsimp only at hmm
            cases hr : runSteps p.steps d0 with
            | mk d1 r1 =>
              rw [hr] at hmm
              cases r1 with
              | error e => simp at hmm
              | ok u =>
                simp only [Prod.mk.injEq, and_true] at hmm
                rw [← hmm] at hd
                simp at hd
  cases hmm : maybePrepare p s with
  | mk s' r' =>
    rw [hmm] at hm
    dsimp only at hm
    subst hm
    cases c <;> simp [latencyCall, xarrayLatencyLoad, xarrayAvailable, maybeSetNominal, hmm, Except.map]

end history

/-! ### The init times of a dataset -/

theorem labelsAlong_ok {V : Type} [LinearOrder L] {d : Dim} {ds : Dataset L V} {ts : List L} (h : ds.labelsAlong d = .ok ts) :
    ∃ v ∈ ds.vars, d ∈ v.2.dims ∧ ∀ t, t ∈ ts ↔ t ∈ v.2.coords d := by
  unfold Dataset.labelsAlong at h
  split at h
  · rename_i v hv
    cases h
    exact ⟨v, List.mem_of_find?_eq_some hv, by simpa using List.find?_some hv, fun t => by simp⟩
  · cases h

theorem labelsAlong_missing {V : Type} [LinearOrder L] {d : Dim} {ds : Dataset L V} (h : ∀ v ∈ ds.vars, d ∉ v.2.dims) : ds.labelsAlong d = .error .keyError := by
  unfold Dataset.labelsAlong
  rw [List.find?_eq_none.mpr (fun v hv => by simpa using h v hv)]

theorem labelsAlong_exists {V : Type} [LinearOrder L] {d : Dim} {ds : Dataset L V} (h : ∃ v ∈ ds.vars, d ∈ v.2.dims) : ∃ ts, ds.labelsAlong d = .ok ts := by
  unfold Dataset.labelsAlong
  split
  · exact ⟨_, rfl⟩
  · rename_i hn
    obtain ⟨v, hv, hd⟩ := h
    exact absurd (List.find?_eq_none.mp hn v hv) (by simpa using hd)

/-! ### Forecast files -/

section files
variable {K : Type} [AddCommGroup L] [LinearOrder L] [IsOrderedAddMonoid L]

/-- All variables of the file with the dimension `time` have the same labels along it, as in every `xr.Dataset`. -/
def OneTimeAxis (file : Dataset L (FV K)) : Prop :=
  ∀ v ∈ file.vars, ∀ w ∈ file.vars, "time" ∈ v.2.dims → "time" ∈ w.2.dims → v.2.coords "time" = w.2.coords "time"

/-- The wrapper of `PredictionsFromXarray(path)`, with default arguments, around a file: a first call of `load_chunk`. -/
def loadWithLatency (file : Dataset L (FV K)) (mask : Bool) (latency : L) (inits : List L) (leads : LeadChunk L) : Except Err (Vars (StatVar L (FV K))) :=
  (xarrayLatencyLoad { opened := .ok file, steps := ({} : XarrayArgs L (FV K)).steps } (fun ds => ds.labelsAlong "init_time")
    (latencyVars loadPredictions mask latency) inits leads { inner := { ds := none } }).2

theorem loadWithLatency_ok {file : Dataset L (FV K)} {mask : Bool} {latency : L} {inits : List L} {leads : LeadChunk L} {r : Vars (StatVar L (FV K))}
    (h : loadWithLatency file mask latency inits leads = .ok r) : ∃ ds ts, renameDataset (.str "ecmwf") none true file = .ok ds ∧ ds.labelsAlong "init_time" = .ok ts ∧
      latencyVars loadPredictions mask latency ds ts inits leads = .ok r := by
  unfold loadWithLatency at h
  generalize hp : ({ opened := .ok file, steps := ({} : XarrayArgs L (FV K)).steps } : Preparation (Dataset L (FV K))) = p at h
  cases hprep : prepared p { ds := none } with
  | error err =>
    exfalso
    have := C79_preparation_error p (fun ds => ds.labelsAlong "init_time") (latencyVars loadPredictions mask latency) latency (s := { ds := none }) rfl hprep (.load inits leads)
    simp only [latencyCall, h, Except.map] at this
    cases this
  | ok ds =>
    cases ht : ds.labelsAlong "init_time" with
    | error err =>
      exfalso
      have := C79_no_times p (fun ds => ds.labelsAlong "init_time") (latencyVars loadPredictions mask latency) latency (s := { ds := none }) rfl hprep ht [.load inits leads]
      simp only [latencyCalls, latencyCall, h, Except.map] at this
      simp at this
    | ok ts =>
      have := latencyCall_fresh p (fun ds => ds.labelsAlong "init_time") (latencyVars loadPredictions mask latency) latency (s := { ds := none }) rfl hprep ht (.load inits leads)
      have h2 := congrArg Prod.snd this
      simp only [latencyCall, answerOf, h, Except.map] at h2
      refine ⟨ds, ts, ?_, ht, ?_⟩
      · subst hp
        obtain ⟨d0, h0, h1⟩ := bind_ok_iff.mp hprep
        cases h0
        exact steps_default h1
      · cases hl : latencyVars loadPredictions mask latency ds ts inits leads with
        | error e => rw [hl] at h2; simp at h2
        | ok r' =>
          rw [hl] at h2
          simp only [Except.ok.injEq, LatencyAnswer.chunk.injEq] at h2
          rw [h2]

theorem nominal_file {file ds : Dataset L (FV K)} (hone : OneTimeAxis file) (hf : file.hasCoord "prediction_timedelta" = true)
    (hr : renameDataset (.str "ecmwf") none true file = .ok ds) {ts : List L} (ht : ds.labelsAlong "init_time" = .ok ts)
    (hnew : ∀ w ∈ file.vars, "init_time" ∉ w.2.dims) {v : String} {a : DA L (FV K)} (hv : (v, a) ∈ file.vars) (hta : "time" ∈ a.dims) :
    ∀ t, t ∈ ts ↔ t ∈ a.coords "time" := by
  obtain ⟨w, hw, hd, hts⟩ := labelsAlong_ok ht
  have hren := C76_ecmwf hr
  rw [hf, Bool.true_and] at hren
  unfold RenamedVars at hren
  obtain ⟨u, hu, hux⟩ : ∃ u ∈ file.vars, Renamed (loaderName (file.hasCoord "lat" && file.hasCoord "lon") true) u.2 w.2 := by
    generalize file.vars = xs at hren
    generalize ds.vars = ys at hren hw
    clear hts hd ht hv hnew hone hr
    induction hren with
    | nil => simp at hw
    | cons hx _ ih =>
      rcases List.mem_cons.mp hw with rfl | hw
      · exact ⟨_, List.mem_cons_self, hx.2⟩
      · obtain ⟨u, hu, h⟩ := ih hw
        exact ⟨u, List.mem_cons_of_mem _ hu, h⟩
  obtain ⟨d, hdu, hdn⟩ := (hux.dims _).mp hd
  have hdt : d = "time" := by
    by_contra hne
    unfold loaderName at hdn
    split_ifs at hdn <;> first | exact hne ‹_› | exact absurd hdn (by simp) | (subst hdn; exact hnew u hu hdu)
  subst hdt
  intro t
  have hl := hux.labels _ hdu
  rw [hdn] at hl
  rw [hts, hl, hone u hu (v, a) hv hdu hta]

/-- **C79** The operational forecast, end to end: what a latency wrapper around `PredictionsFromXarray(path)` loads from a forecast file with ECMWF names. For every variable, at
a queried init time `i` and lead time `l` it is the value that the file has at `time = t`, the latest time of the file with `t + latency ≤ i`, and `prediction_timedelta = i + l - t`: a
forecast that has been issued by `i` and is valid at `i + l`. -/
theorem C79_operational {file : Dataset L (FV K)} (hone : OneTimeAxis file) (hnew : ∀ w ∈ file.vars, "init_time" ∉ w.2.dims) (hf : file.hasCoord "prediction_timedelta" = true)
    {mask : Bool} {latency : L} {inits leads : List L} {r : Vars (StatVar L (FV K))} (h : loadWithLatency file mask latency inits (.arr leads) = .ok r)
    {v : String} {a : DA L (FV K)} (hv : (v, a) ∈ file.vars) (hta : "time" ∈ a.dims) (hpa : "prediction_timedelta" ∈ a.dims) :
    ∃ x, (loaderName (file.hasCoord "lat" && file.hasCoord "lon") true v, x) ∈ r ∧ x.arr.coords "init_time" = inits.toFinset ∧ x.arr.coords "lead_time" = leads.toFinset ∧
      ∀ e : Dim → L, e "init_time" ∈ inits → ∃ t ∈ a.coords "time", t + latency ≤ e "init_time" ∧ (∀ t' ∈ a.coords "time", t' + latency ≤ e "init_time" → t' ≤ t) ∧
        (∀ l ∈ leads, e "init_time" + l - t ∈ a.coords "prediction_timedelta") ∧
        x.arr.val e = a.val (fun d => if d = "time" then t else if d = "prediction_timedelta" then e "init_time" + e "lead_time" - t else
          setLabel (setLabel e "init_time" t) "lead_time" (e "init_time" + e "lead_time" - t) (loaderName (file.hasCoord "lat" && file.hasCoord "lon") true d)) := by
  obtain ⟨ds, ts, h1, h2, h3⟩ := loadWithLatency_ok h
  have hts := nominal_file hone hf h1 h2 hnew hv hta
  have hr := C76_ecmwf h1
  rw [hf, Bool.true_and] at hr
  generalize hlat : (file.hasCoord "lat" && file.hasCoord "lon") = latlon at hr
  obtain ⟨y, hy, ren⟩ := hr.mem hv
  obtain ⟨b, hb, hm⟩ := loadVars_mem h3 hy
  have n1 : loaderName latlon true "time" = "init_time" := by simp [loaderName]
  have n2 : loaderName latlon true "prediction_timedelta" = "lead_time" := by simp [loaderName]
  have d1 : "init_time" ∈ y.dims := (ren.dims _).mpr ⟨_, hta, n1⟩
  have d2 : "lead_time" ∈ y.dims := (ren.dims _).mpr ⟨_, hpa, n2⟩
  have l2 := ren.labels _ hpa
  rw [n2] at l2
  obtain ⟨c1, c2, c3⟩ := C46_loaded (predictions_labelled d1 d2) hb
  refine ⟨_, hm, c1, c2, fun e he => ?_⟩
  obtain ⟨t, raw, hla, hraw, hval, -⟩ := c3 _ he
  have hshift : ∀ l, l + (e "init_time" - t) = e "init_time" + l - t := fun l => by abel
  refine ⟨t, (hts t).mp hla.1, hla.2.1, fun t' ht' hle => hla.2.2 t' ((hts t').mpr ht') hle, ?_, ?_⟩
  · intro l hl
    obtain ⟨c, hc, hb'⟩ := bind_ok_iff.mp hraw
    have i4 := (selList_facts hc).2.2.2.1
    have j1 := (selList_facts hb').1
    have := j1 (l + (e "init_time" - t)) (List.mem_map_of_mem hl)
    rw [i4 _ (by simp), l2, hshift] at this
    exact this
  · simp only [nanMaskOf]
    rw [hval e rfl, loadPredictions_val hraw, ren.values, hshift]
    congr 1
    funext d
    split_ifs with q1 q2
    · rw [q1, n1]; simp [setLabel]
    · rw [q2, n2]; simp [setLabel]
    · rfl

/-- **C79** No data from the future, end to end: two files with the same names and time labels, whose values agree for all forecasts that are available at a queried init time, give
the same values at that init time, whatever the later forecasts are. -/
theorem C79_no_leakage {file file' : Dataset L (FV K)} (hone : OneTimeAxis file) (hnew : ∀ w ∈ file.vars, "init_time" ∉ w.2.dims) (hf : file.hasCoord "prediction_timedelta" = true)
    (hone' : OneTimeAxis file') (hnew' : ∀ w ∈ file'.vars, "init_time" ∉ w.2.dims) (hf' : file'.hasCoord "prediction_timedelta" = true)
    (hlat : (file.hasCoord "lat" && file.hasCoord "lon") = (file'.hasCoord "lat" && file'.hasCoord "lon"))
    {mask : Bool} {latency : L} {inits leads : List L} {r r' : Vars (StatVar L (FV K))} (h : loadWithLatency file mask latency inits (.arr leads) = .ok r)
    (h' : loadWithLatency file' mask latency inits (.arr leads) = .ok r')
    {v : String} {a a' : DA L (FV K)} (hv : (v, a) ∈ file.vars) (hv' : (v, a') ∈ file'.vars) (hta : "time" ∈ a.dims) (hpa : "prediction_timedelta" ∈ a.dims)
    (hta' : "time" ∈ a'.dims) (hpa' : "prediction_timedelta" ∈ a'.dims) {e : Dim → L} (he : e "init_time" ∈ inits)
    (hcoords : ∀ t, t + latency ≤ e "init_time" → (t ∈ a.coords "time" ↔ t ∈ a'.coords "time"))
    (hagree : ∀ e' : Dim → L, e' "time" + latency ≤ e "init_time" → a.val e' = a'.val e') :
    ∃ x x', (loaderName (file.hasCoord "lat" && file.hasCoord "lon") true v, x) ∈ r ∧ (loaderName (file.hasCoord "lat" && file.hasCoord "lon") true v, x') ∈ r' ∧
      x.arr.val e = x'.arr.val e := by
  obtain ⟨x, hx, -, -, hxv⟩ := C79_operational hone hnew hf h hv hta hpa
  obtain ⟨x', hx', -, -, hxv'⟩ := C79_operational hone' hnew' hf' h' hv' hta' hpa'
  rw [← hlat] at hx'
  refine ⟨x, x', hx, hx', ?_⟩
  obtain ⟨t, t1, t2, t3, -, t5⟩ := hxv e he
  obtain ⟨t', u1, u2, u3, -, u5⟩ := hxv' e he
  have : t = t' := le_antisymm (u3 t ((hcoords t t2).mp t1) t2) (t3 t' ((hcoords t' u2).mpr u1) u2)
  subst this
  rw [t5, u5, hagree _ (by simpa using t2), hlat]

/-- **C79 ★** The dimension has to be given by the name it has after the preparation: with `init_time_dim='time'`, the name in the file, every call is a `KeyError`. -/
theorem C79_file_name_raises {file ds : Dataset L (FV K)} (hr : renameDataset (.str "ecmwf") none true file = .ok ds) {mask : Bool} {latency : L} (calls : List (LatencyCall L)) :
    (latencyCalls { opened := .ok file, steps := ({} : XarrayArgs L (FV K)).steps } (fun ds => ds.labelsAlong "time") (latencyVars loadPredictions mask latency) latency calls
      { inner := { ds := none } }).2 = calls.map (fun _ => .error .keyError) := by
  refine C79_no_times _ _ _ _ (ds := ds) rfl ?_ (labelsAlong_missing ?_) calls
  · simp only [prepared, startDataset, XarrayArgs.steps, List.foldlM_cons, List.foldlM_nil, Dataset.choose, Dataset.sel, Option.getD_none]
    exact bind_ok_iff.mpr ⟨file, rfl, bind_ok_iff.mpr ⟨file, rfl, bind_ok_iff.mpr ⟨ds, hr, bind_ok_iff.mpr ⟨ds, rfl, bind_ok_iff.mpr ⟨ds, rfl, rfl⟩⟩⟩⟩⟩
  · intro w hw hd
    have hren := C76_ecmwf hr
    unfold RenamedVars at hren
    rw [Bool.true_and] at hren
    obtain ⟨u, hu, hux⟩ : ∃ u ∈ file.vars, Renamed (loaderName (file.hasCoord "lat" && file.hasCoord "lon") (file.hasCoord "prediction_timedelta")) u.2 w.2 := by
      generalize file.vars = xs at hren
      generalize ds.vars = ys at hren hw
      clear hd hr
      induction hren with
      | nil => simp at hw
      | cons hx _ ih =>
        rcases List.mem_cons.mp hw with rfl | hw
        · exact ⟨_, List.mem_cons_self, hx.2⟩
        · obtain ⟨u, hu, h⟩ := ih hw
          exact ⟨u, List.mem_cons_of_mem _ hu, h⟩
    obtain ⟨d, -, hdn⟩ := (hux.dims _).mp hd
    unfold loaderName at hdn
    split_ifs at hdn <;> first | exact absurd hdn (by simp) | (subst hdn; contradiction)

theorem latencySource_exists {source : List L → LeadTimes L → Except Err (DA L (FV K))} {nominal : List L} {latency : L} {inits leads : List L} (hne : inits ≠ [])
    (h : ∀ i ∈ inits, ∃ t, LatestAvailable nominal latency i t ∧ ∃ raw, source [t] (.exact (leads.map (· + (i - t)))) = .ok raw) :
    ∃ r, latencySource source nominal latency inits (.exact leads) = .ok r := by
  obtain ⟨cs, hcs⟩ : ∃ cs, inits.mapM (latencyOne source nominal latency leads) = .ok cs := by
    refine mapM_ok_of_mem _ _ (fun i hi => ?_)
    obtain ⟨t, ht, raw, hraw⟩ := h i hi
    refine ⟨_, bind_ok_iff.mpr ⟨t, ((C46_available nominal latency i).1 t).mpr ht, bind_ok_iff.mpr ⟨raw, hraw, rfl⟩⟩⟩
  have hcne : cs ≠ [] := by
    rintro rfl
    cases inits with
    | nil => exact hne rfl
    | cons i is =>
      rw [List.mapM_cons] at hcs
      obtain ⟨_, _, hcs⟩ := bind_ok_iff.mp hcs
      obtain ⟨_, _, hcs⟩ := bind_ok_iff.mp hcs
      cases hcs
  cases cs with
  | nil => exact absurd rfl hcne
  | cons c cs => exact ⟨_, bind_ok_iff.mpr ⟨_, hcs, rfl⟩⟩

/-- **C79** When loading succeeds. If all variables are forecasts, at least one init time is asked for, and for every queried init time `i` some forecast `t` of the file is available and the latest one
reaches far enough — it has the `prediction_timedelta`s `i + l - t` for the lead times `l` asked for —, then the wrapper returns data. -/
theorem C79_accepts {file ds : Dataset L (FV K)} (hone : OneTimeAxis file) (hnew : ∀ w ∈ file.vars, "init_time" ∉ w.2.dims) (hf : file.hasCoord "prediction_timedelta" = true)
    (hr : renameDataset (.str "ecmwf") none true file = .ok ds) (hvars : file.vars ≠ []) (hdims : ∀ w ∈ file.vars, "time" ∈ w.2.dims ∧ "prediction_timedelta" ∈ w.2.dims)
    {mask : Bool} {latency : L} {inits leads : List L} (hne : inits ≠ [])
    (havail : ∀ w ∈ file.vars, ∀ i ∈ inits, ∃ t, (t ∈ w.2.coords "time" ∧ t + latency ≤ i ∧ ∀ t' ∈ w.2.coords "time", t' + latency ≤ i → t' ≤ t) ∧
      ∀ l ∈ leads, i + l - t ∈ w.2.coords "prediction_timedelta") : ∃ r, loadWithLatency file mask latency inits (.arr leads) = .ok r := by
  have hren := C76_ecmwf hr
  rw [hf, Bool.true_and] at hren
  generalize hlat : (file.hasCoord "lat" && file.hasCoord "lon") = latlon at hren
  have n1 : loaderName latlon true "time" = "init_time" := by simp [loaderName]
  have n2 : loaderName latlon true "prediction_timedelta" = "lead_time" := by simp [loaderName]
  obtain ⟨ts, hts⟩ : ∃ ts, ds.labelsAlong "init_time" = .ok ts := by
    obtain ⟨v0, hv0⟩ := List.exists_mem_of_ne_nil _ hvars
    obtain ⟨y, hy, ren⟩ := hren.mem (v := v0.1) (x := v0.2) hv0
    exact labelsAlong_exists ⟨_, hy, (ren.dims _).mpr ⟨_, (hdims v0 hv0).1, n1⟩⟩
  have hnom : ∀ w ∈ file.vars, ∀ t, t ∈ ts ↔ t ∈ w.2.coords "time" := fun w hw => nominal_file hone hf hr hts hnew (v := w.1) (a := w.2) hw (hdims w hw).1
  have hload : ∃ r, latencyVars loadPredictions mask latency ds ts inits (.arr leads) = .ok r := by
    unfold latencyVars loadVars
    refine mapM_ok_of_mem _ _ (fun w hw => ?_)
    obtain ⟨u, hu, hux⟩ : ∃ u ∈ file.vars, Renamed (loaderName latlon true) u.2 w.2 := by
      unfold RenamedVars at hren
      generalize file.vars = xs at hren
      generalize ds.vars = ys at hren hw
      clear hts hnom havail hdims hvars hnew hone hr
      induction hren with
      | nil => simp at hw
      | cons hx _ ih =>
        rcases List.mem_cons.mp hw with rfl | hw
        · exact ⟨_, List.mem_cons_self, hx.2⟩
        · obtain ⟨u, hu, h⟩ := ih hw
          exact ⟨u, List.mem_cons_of_mem _ hu, h⟩
    have l1 := hux.labels _ (hdims u hu).1
    have l2 := hux.labels _ (hdims u hu).2
    rw [n1] at l1
    rw [n2] at l2
    obtain ⟨b, hb⟩ : ∃ b, latencySource (loadPredictions w.2) ts latency inits (.exact leads) = .ok b := by
      refine latencySource_exists hne (fun i hi => ?_)
      obtain ⟨t, ⟨t1, t2, t3⟩, t4⟩ := havail u hu i hi
      refine ⟨t, ⟨(hnom u hu t).mpr t1, t2, fun t' ht' hle => t3 t' ((hnom u hu t').mp ht') hle⟩, ?_⟩
      obtain ⟨c, hc⟩ := selList_exists (d := "init_time") (ls := [t]) (a := w.2) (by rw [l1]; simpa using t1)
      obtain ⟨b, hb⟩ := selList_exists (d := "lead_time") (ls := leads.map (· + (i - t))) (a := c) (by
        intro l hl
        obtain ⟨l0, hl0, rfl⟩ := List.mem_map.mp hl
        rw [(selList_facts hc).2.2.2.1 _ (by simp), l2]
        have := t4 l0 hl0
        rwa [show i + l0 - t = l0 + (i - t) by abel] at this)
      exact ⟨b, bind_ok_iff.mpr ⟨c, hc, hb⟩⟩
    exact ⟨_, bind_ok_iff.mpr ⟨b, hb, rfl⟩⟩
  obtain ⟨r, hl⟩ := hload
  refine ⟨r, ?_⟩
  have hprep : prepared ({ opened := .ok file, steps := ({} : XarrayArgs L (FV K)).steps } : Preparation (Dataset L (FV K))) { ds := none } = .ok ds := by
    simp only [prepared, startDataset, XarrayArgs.steps, List.foldlM_cons, List.foldlM_nil, Dataset.choose, Dataset.sel, Option.getD_none]
    exact bind_ok_iff.mpr ⟨file, rfl, bind_ok_iff.mpr ⟨file, rfl, bind_ok_iff.mpr ⟨ds, hr, bind_ok_iff.mpr ⟨ds, rfl, bind_ok_iff.mpr ⟨ds, rfl, rfl⟩⟩⟩⟩⟩
  have := latencyCall_fresh _ (fun ds => ds.labelsAlong "init_time") (latencyVars loadPredictions mask latency) latency (s := { ds := none }) rfl hprep hts (.load inits (.arr leads))
  have h2 := congrArg Prod.snd this
  simp only [latencyCall, answerOf, hl, Except.map] at h2
  unfold loadWithLatency
  split at h2
  · cases h2
  · rename_i r' hr'
    rw [hr']
    simpa using h2

/-- **C79** A forecast that does not reach far enough is an error, never another forecast: if for a queried init time `i` the latest available forecast `t` of a variable does not have the
`prediction_timedelta` `i + l - t` for one of the lead times, nothing is returned — although an older forecast might have it. -/
theorem C79_short_forecast {file : Dataset L (FV K)} (hone : OneTimeAxis file) (hnew : ∀ w ∈ file.vars, "init_time" ∉ w.2.dims) (hf : file.hasCoord "prediction_timedelta" = true)
    {mask : Bool} {latency : L} {inits leads : List L} {v : String} {a : DA L (FV K)} (hv : (v, a) ∈ file.vars) (hta : "time" ∈ a.dims) (hpa : "prediction_timedelta" ∈ a.dims)
    {i l t : L} (hi : i ∈ inits) (hl : l ∈ leads) (ht : t ∈ a.coords "time" ∧ t + latency ≤ i ∧ ∀ t' ∈ a.coords "time", t' + latency ≤ i → t' ≤ t)
    (hshort : i + l - t ∉ a.coords "prediction_timedelta") : ∃ err, loadWithLatency file mask latency inits (.arr leads) = .error err := by
  cases h : loadWithLatency file mask latency inits (.arr leads) with
  | error err => exact ⟨err, rfl⟩
  | ok r =>
    exfalso
    obtain ⟨x, -, -, -, hx⟩ := C79_operational hone hnew hf h hv hta hpa
    obtain ⟨t', u1, u2, u3, u4, -⟩ := hx (fun _ => i) hi
    have : t = t' := le_antisymm (u3 t ht.1 ht.2.1) (ht.2.2 t' u1 u2)
    subst this
    exact hshort (u4 l hl)

/-- The labels that an argument of `.sel` keeps. -/
def SelArg.Keeps : SelArg L → L → Prop
  | .labels ls, t => t ∈ ls
  | .slice start stop, t => (∀ s, start = some s → s ≤ t) ∧ ∀ s, stop = some s → t ≤ s

/-- **C79** `sel_kwargs` come first: of a loader with `sel_kwargs={'init_time': …}` only the init times that are selected count as available. -/
theorem C79_selected {ds ds' : Dataset L (FV K)} {arg : SelArg L} (h : ds.selDim "init_time" arg = .ok ds') {ts : List L} (ht : ds'.labelsAlong "init_time" = .ok ts) :
    ∃ v ∈ ds.vars, "init_time" ∈ v.2.dims ∧ ∀ t, t ∈ ts ↔ t ∈ v.2.coords "init_time" ∧ arg.Keeps t := by
  obtain ⟨w, hw, hd, hts⟩ := labelsAlong_ok ht
  have h2 := (C76_sel h).2
  clear h ht
  generalize ds.vars = xs at h2
  generalize ds'.vars = ys at h2 hw
  induction h2 with
  | nil => simp at hw
  | cons hx _ ih =>
    rcases List.mem_cons.mp hw with rfl | hw
    · obtain ⟨-, x2, -, -, -, x6⟩ := hx
      rw [x2] at hd
      refine ⟨_, List.mem_cons_self, hd, fun t => ?_⟩
      rw [hts, x6 hd t]
      cases arg <;> rfl
    · obtain ⟨u, hu, h⟩ := ih hw
      exact ⟨u, List.mem_cons_of_mem _ hu, h⟩

end files

/-! ### A concrete file -/

/-- Forecasts issued at 0 and 12, with lead times up to 24 in steps of 2. -/
def exCycles : Dataset ℤ (FV ℚ) where
  vars := [("t2m", { dims := {"time", "prediction_timedelta"}, coords := fun d => if d = "time" then {0, 12} else {0, 2, 6, 12, 18, 24}, val := fun e => .fin (100 * e "time" + e "prediction_timedelta") })]
  coords := [("time", {"time"}), ("prediction_timedelta", {"prediction_timedelta"})]

theorem exCycles_dims (k : Dim) : k ∈ exCycles.dims ↔ k = "time" ∨ k = "prediction_timedelta" := by
  rw [Dataset.mem_dims]
  simp only [exCycles, List.mem_cons, List.not_mem_nil, or_false, exists_eq_left, Finset.mem_insert, Finset.mem_singleton]
  constructor
  · rintro (h | ⟨c, rfl | rfl, h⟩) <;> simp_all
  · tauto

theorem exCycles_renamed : ∃ r, renameDataset (.str "ecmwf") none true exCycles = .ok r := by
  have hnames : exCycles.names = ["t2m", "time", "prediction_timedelta"] := rfl
  refine C76_accepts (by rw [hnames]; simp) (Or.inr ((exCycles_dims _).mpr (Or.inl rfl))) ?_
  intro k hk
  rw [hnames, exCycles_dims] at hk
  simp only [List.mem_cons, List.not_mem_nil, or_false] at hk
  have : k = "t2m" ∨ k = "time" ∨ k = "prediction_timedelta" := by tauto
  rcases this with rfl | rfl | rfl <;> simp

theorem exCycles_facts : OneTimeAxis exCycles ∧ (∀ w ∈ exCycles.vars, "init_time" ∉ w.2.dims) ∧ exCycles.hasCoord "prediction_timedelta" = true := by
  refine ⟨?_, ?_, by simp [Dataset.hasCoord, exCycles]⟩
  · intro v hv w hw _ _
    simp only [exCycles, List.mem_singleton] at hv hw
    rw [hv, hw]
  · intro w hw
    simp only [exCycles, List.mem_singleton] at hw
    rw [hw]
    simp

/-- With a latency of 5 the forecast asked for at 16 with lead time 2 is that of 0 (the one of 12 is issued at 17), at `prediction_timedelta` 18: the hypotheses of `C79_accepts` and
`C79_operational` hold. -/
example : ∃ r, loadWithLatency exCycles false 5 [16] (.arr [2]) = .ok r ∧ ∃ x, ("t2m", x) ∈ r ∧ x.arr.val (fun d => if d = "init_time" then 16 else 2) = .fin 18 := by
  obtain ⟨ds, hds⟩ := exCycles_renamed
  obtain ⟨f1, f2, f3⟩ := exCycles_facts
  have hlatest : (0 : ℤ) ∈ ({0, 12} : Finset ℤ) ∧ (0 : ℤ) + 5 ≤ 16 ∧ ∀ t' ∈ ({0, 12} : Finset ℤ), t' + 5 ≤ 16 → t' ≤ 0 := by
    refine ⟨by simp, by norm_num, fun t' ht' h => ?_⟩
    simp only [Finset.mem_insert, Finset.mem_singleton] at ht'
    rcases ht' with rfl | rfl
    · exact le_refl _
    · norm_num at h
  obtain ⟨r, hr⟩ := C79_accepts (mask := false) (latency := 5) (inits := [16]) (leads := [2]) f1 f2 f3 hds (by simp [exCycles])
    (by intro w hw; simp only [exCycles, List.mem_singleton] at hw; rw [hw]; simp) (by simp)
    (by
      intro w hw i hi
      simp only [exCycles, List.mem_singleton] at hw hi
      subst hw hi
      exact ⟨0, by simpa using hlatest, by simp⟩)
  refine ⟨r, hr, ?_⟩
  obtain ⟨x, hx, -, -, hval⟩ := C79_operational f1 f2 f3 hr (v := "t2m") (a := _) (by simp only [exCycles, List.mem_singleton]; rfl) (by simp) (by simp)
  obtain ⟨t, t1, t2, t3, -, t5⟩ := hval (fun d => if d = "init_time" then 16 else 2) (by simp)
  have : t = 0 := by
    simp only [if_pos] at t1 t2 t3
    exact le_antisymm (hlatest.2.2 t t1 t2) (t3 0 hlatest.1 hlatest.2.1)
  subst this
  have hname : loaderName (exCycles.hasCoord "lat" && exCycles.hasCoord "lon") true "t2m" = "t2m" := by simp [loaderName]
  rw [hname] at hx
  refine ⟨x, hx, ?_⟩
  rw [t5]
  simp

/-- At 16 with lead time 24 the forecast of 0 does not reach far enough: `C79_short_forecast`. -/
example : ∃ err, loadWithLatency exCycles false 5 [16] (.arr [24]) = .error err := by
  obtain ⟨f1, f2, f3⟩ := exCycles_facts
  refine C79_short_forecast f1 f2 f3 (v := "t2m") (a := _) (i := 16) (l := 24) (t := 0) (by simp only [exCycles, List.mem_singleton]; rfl) (by simp) (by simp) (by simp) (by simp) ?_ (by simp)
  refine ⟨by simp, by norm_num, fun t' ht' h => ?_⟩
  simp only [if_pos, Finset.mem_insert, Finset.mem_singleton] at ht'
  rcases ht' with rfl | rfl
  · exact le_refl _
  · norm_num at h

end WBX
