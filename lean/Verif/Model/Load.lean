import Verif.Model.Basic
import Mathlib.Data.List.Basic

/-!
# Model of `LoadPredictionsAndTargets` (`/repo/weatherbenchX/beam_pipeline.py:34-115`)

A worker holds one instance of the DoFn. The observable effects are the calls of `setup_fn` and of the loaders, in order.
`I`, `J` are the init times and lead times of a chunk, `O` the offsets, `D` the loaded data. Loaders are functions that may
raise. Simplification: logging and timing counters are dropped.
-/

namespace WBX.Load

variable {I J O D : Type}

/-- An observable effect. -/
inductive Event (I J D : Type) where
  | setupFn
  | loadTargets (i : I) (j : J)
  | loadPredictions (i : I) (j : J) (reference : D)

/-- The constructor arguments (beam_pipeline.py:37-50). `setupFn = none` is `setup_fn=None`; otherwise the list tells, for
each successive call of the function, whether it raises (`true`) - once exhausted it no longer does. -/
structure DoFn (I J D : Type) where
  targets : I → J → Except Err D
  predictions : I → J → D → Except Err D
  hasSetupFn : Bool

/-- The mutable state of the instance: `is_initialized`, plus the trace of effects. -/
structure Worker (I J D : Type) where
  initialized : Bool := false
  trace : List (Event I J D) := []

/-- `setup` (beam_pipeline.py:61-66); `raises` says whether this call of `setup_fn` raises. -/
def setup (f : DoFn I J D) (raises : Bool) (w : Worker I J D) : Worker I J D × Except Err Unit :=
  if f.hasSetupFn ∧ ¬ w.initialized then
    if raises then ({ w with trace := w.trace ++ [.setupFn] }, .error .valueError)
    else ({ initialized := true, trace := w.trace ++ [.setupFn] }, .ok ())
  else (w, .ok ())

/-- `process` (beam_pipeline.py:68-115): targets first, then predictions with the targets as reference. -/
def process (f : DoFn I J D) (input : O × (I × J)) (w : Worker I J D) :
    Worker I J D × Except Err (List (O × (D × D))) :=
  let (i, j) := input.2
  let w1 := { w with trace := w.trace ++ [.loadTargets i j] }
  match f.targets i j with
  | .error e => (w1, .error e)
  | .ok t =>
    let w2 := { w1 with trace := w1.trace ++ [.loadPredictions i j t] }
    match f.predictions i j t with
    | .error e => (w2, .error e)
    | .ok p => (w2, .ok [(input.1, (p, t))])

/-- What a Beam worker does with the instance: any sequence of `setup` and `process` calls. -/
inductive Call (I J O : Type) where
  | setup (raises : Bool)
  | process (input : O × (I × J))

/-- The run of a worker: final state and the outputs of the successful `process` calls. A raising call ends the bundle,
the runner may go on with further calls (retries). -/
def run (f : DoFn I J D) : List (Call I J O) → Worker I J D → Worker I J D × List (O × (D × D))
  | [], w => (w, [])
  | .setup r :: cs, w => run f cs (setup f r w).1
  | .process inp :: cs, w =>
    let r := process f inp w
    let rest := run f cs r.1
    match r.2 with
    | .ok out => (rest.1, out ++ rest.2)
    | .error _ => rest

end WBX.Load
