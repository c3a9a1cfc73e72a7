import Verif.Model.Loaders
import Verif.Model.TimeChunks
import Verif.Model.Wrappers

/-!
# Loading all the variables of an evaluation

A loader on a source with several variables (simplification: every variable is selected on its own, and it has an error
if one of them has one).
-/

namespace WBX
variable {L K : Type} [DecidableEq L]

/-- The lead times of a chunk as the argument of a loader (beam_pipeline.py:68-115). -/
def LeadChunk.times : LeadChunk L → LeadTimes L
  | .arr ts => .exact ts
  | .slice a b => .slice (some a) (some b)

/-- The `mask` coordinate of a loaded variable: where it is not null (data_loaders/base.py:25-57), if asked for. -/
def nanMaskOf (addNanMask : Bool) (a : DA L (FV K)) : StatVar L (FV K) :=
  ⟨a, if addNanMask then some (a.map (fun x => !x.isnan)) else none⟩

/-- `DataLoader.load_chunk` (data_loaders/base.py:111-163) of a loader with the method `load` (its `_load_chunk_from_source`, see
Model/Loaders) and no option but `add_nan_mask`. -/
def loadVars (load : DA L (FV K) → List L → LeadTimes L → Except Err (DA L (FV K))) (addNanMask : Bool) (ds : Vars (DA L (FV K)))
    (inits : List L) (leads : LeadChunk L) : Except Err (Vars (StatVar L (FV K))) :=
  ds.mapM (fun v => do
    let r ← load v.2 inits leads.times
    return (v.1, nanMaskOf addNanMask r))

end WBX
