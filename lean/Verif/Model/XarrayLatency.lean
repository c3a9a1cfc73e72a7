import Verif.Model.Naming
import Verif.Model.Datasets
import Mathlib.Data.Finset.Sort

/-!
# Model of `XarrayConstantLatencyWrapper` (`/repo/weatherbenchX/data_loaders/latency_wrappers.py:173-215`)

The wrapper reads the nominal init times from the dataset of the wrapped loader, at the first call that needs them.
-/

namespace WBX
open DA
variable {L : Type} [DecidableEq L]

/-- `ds[d].values` (latency_wrappers.py:202): the labels along a dimension, as read from the first variable that has it (labels are part of the arrays, see
Model/Naming). `KeyError` if no variable has it. The order of the labels is taken to be ascending; a dimension without a coordinate and one that only
a coordinate has are not modelled. -/
def Dataset.labelsAlong {V : Type} [LinearOrder L] (d : Dim) (ds : Dataset L V) : Except Err (List L) :=
  match ds.vars.find? (fun v => decide (d ∈ v.2.dims)) with
  | some v => .ok ((v.2.coords d).sort (· ≤ ·))
  | none => .error .keyError

/-- The state of an `XarrayConstantLatencyWrapper`: that of the wrapped loader, `nominal_init_times` and `_nominal_init_times_set`
(latency_wrappers.py:187-195). -/
structure LatencyState (D L : Type) where
  inner : XarrayState D
  nominal : List L := []
  isSet : Bool := false

section
variable {D : Type}

/-- `maybe_set_nominal_init_times` (latency_wrappers.py:197-203); `times` is `ds[init_time_dim].values`. -/
def maybeSetNominal (p : Preparation D) (times : D → Except Err (List L)) (s : LatencyState D L) : LatencyState D L × Except Err Unit :=
  if s.isSet then (s, .ok ())
  else
    match maybePrepare p s.inner with
    | (i, .error e) => ({ s with inner := i }, .error e)
    | (i, .ok ()) =>
      match i.ds with
      | none => ({ s with inner := i }, .error .assertionError)
      | some ds =>
        match times ds with
        | .error e => ({ s with inner := i }, .error e)
        | .ok ts => ({ inner := i, nominal := ts, isSet := true }, .ok ())

/-- What can be asked of the wrapper. -/
inductive LatencyCall (L : Type) where
  /-- `load_chunk(init_times, lead_times)` -/
  | load (inits : List L) (leads : LeadChunk L)
  /-- `get_available_init_time(init_time)` -/
  | available (init : L)

/-- What it answers. -/
inductive LatencyAnswer (L R : Type) where
  | chunk (r : R)
  | time (t : L)

/-- `get_available_init_time` (latency_wrappers.py:213-215). -/
def xarrayAvailable [AddCommGroup L] [LinearOrder L] (p : Preparation D) (times : D → Except Err (List L)) (latency init : L) (s : LatencyState D L) :
    LatencyState D L × Except Err L :=
  match maybeSetNominal p times s with
  | (s', .error e) => (s', .error e)
  | (s', .ok ()) => (s', availableInitTime s'.nominal latency init)

/-- `_load_chunk_from_source` (latency_wrappers.py:205-211, 121-127): the nominal init times, then `maybe_prepare_dataset` of the wrapped loader again, then
the loading with the latency (`load` is that of the dataset with given nominal init times). -/
def xarrayLatencyLoad {R : Type} (p : Preparation D) (times : D → Except Err (List L)) (load : D → List L → List L → LeadChunk L → Except Err R)
    (inits : List L) (leads : LeadChunk L) (s : LatencyState D L) : LatencyState D L × Except Err R :=
  match maybeSetNominal p times s with
  | (s', .error e) => (s', .error e)
  | (s', .ok ()) =>
    match maybePrepare p s'.inner with
    | (i, .error e) => ({ s' with inner := i }, .error e)
    | (i, .ok ()) =>
      match i.ds with
      | none => ({ s' with inner := i }, .error .assertionError)
      | some ds => ({ s' with inner := i }, load ds s'.nominal inits leads)

/-- One call. -/
def latencyCall [AddCommGroup L] [LinearOrder L] {R : Type} (p : Preparation D) (times : D → Except Err (List L))
    (load : D → List L → List L → LeadChunk L → Except Err R) (latency : L) (c : LatencyCall L) (s : LatencyState D L) : LatencyState D L × Except Err (LatencyAnswer L R) :=
  match c with
  | .load inits leads =>
    let r := xarrayLatencyLoad p times load inits leads s
    (r.1, r.2.map LatencyAnswer.chunk)
  | .available init =>
    let r := xarrayAvailable p times latency init s
    (r.1, r.2.map LatencyAnswer.time)

/-- A sequence of calls of one wrapper, and their results. -/
def latencyCalls [AddCommGroup L] [LinearOrder L] {R : Type} (p : Preparation D) (times : D → Except Err (List L))
    (load : D → List L → List L → LeadChunk L → Except Err R) (latency : L) : List (LatencyCall L) → LatencyState D L → LatencyState D L × List (Except Err (LatencyAnswer L R))
  | [], s => (s, [])
  | c :: cs, s =>
    let r := latencyCall p times load latency c s
    let rest := latencyCalls p times load latency cs r.1
    (rest.1, r.2 :: rest.2)

end

/-- `load_chunk` with the latency, of the variables of a dataset, with a source such as `PredictionsFromXarray._load_chunk_from_source` (latency_wrappers.py:104-170) and
no option but `add_nan_mask`. Modelled variable by variable. -/
def latencyVars {K : Type} [AddCommGroup L] [LinearOrder L] (source : DA L (FV K) → List L → LeadTimes L → Except Err (DA L (FV K))) (mask : Bool) (latency : L)
    (ds : Dataset L (FV K)) (nominal inits : List L) (leads : LeadChunk L) : Except Err (Vars (StatVar L (FV K))) :=
  loadVars (fun a => latencySource (source a) nominal latency) mask ds.vars inits leads

end WBX
