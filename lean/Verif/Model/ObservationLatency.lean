import Verif.Model.Parquet

/-!
# Model of `ConstantLatencyWrapper` around a loader of sparse observations (`/repo/weatherbenchX/data_loaders/latency_wrappers.py:104-170`)

With `concat_dim='index'`. The labels of the index (which start anew for every init time) are not modelled: a table is the list of its observations.
-/

namespace WBX
variable {K : Type}

/-- `adjust_init_and_lead_times` (latency_wrappers.py:150-153) of one observation. Without lead times there are no such coordinates, but then the wrapper has already raised. -/
def shiftObs (offset : ℤ) (x : Obs K) : Obs K := { x with initLead := x.initLead.map (fun q => (q.1 + offset, q.2 - offset)) }

/-- One init time (latency_wrappers.py:132-159). -/
def latencyObsOne (source : List ℤ → LeadTimes ℤ → Except Err (List (Obs K))) (nominal : List ℤ) (latency : ℤ) (leads : List ℤ) (init : ℤ) : Except Err (List (Obs K)) := do
  let available ← availableInitTime nominal latency init
  let raw ← source [available] (.exact (leads.map (· + (init - available))))
  return raw.map (shiftObs (init - available))

/-- `_load_chunk_from_source` (latency_wrappers.py:104-170): as for gridded data (see `latencySource`), with the tables one after another. No init time is a `ValueError` of `map_structure`. -/
def latencyObservations (source : List ℤ → LeadTimes ℤ → Except Err (List (Obs K))) (nominal : List ℤ) (latency : ℤ) (inits : List ℤ) : LeadTimes ℤ → Except Err (List (Obs K))
  | .none => .error .valueError
  | .slice _ _ =>
    match inits with
    | [] => .error .valueError
    | i :: _ => do
      let _ ← availableInitTime nominal latency i
      .error .typeError
  | .exact leads => do
    let chunks ← inits.mapM (latencyObsOne source nominal latency leads)
    pdConcat chunks

/-- The loader of one variable, or of all: `_load_chunk_from_source` of the observations and then the rows that `dropna` keeps (sparse_parquet.py:349-358). -/
noncomputable def observationSource (o : ParquetOptions K) (store : ℤ → Option (List (ObsRow K))) (keep : ObsRow K → Bool) (inits : List ℤ) (leads : LeadTimes ℤ) :
    Except Err (List (Obs K)) := do
  let obs ← loadObservations o store inits leads
  return obs.filter (fun x => keep x.row)

end WBX
