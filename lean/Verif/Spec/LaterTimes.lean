import Verif.Spec.Relabel
import Verif.Model.Datasets

/-!
# Specification for C105: the same evaluation at later times
-/

namespace WBX
variable {L : Type} [AddCommGroup L]

/-- All times are `c` later; lead times, places, levels and members keep their labels. -/
def later (c : L) (d : Dim) : Equiv.Perm L := if d = "init_time" ∨ d = "valid_time" then Equiv.addRight c else Equiv.refl L

/-- The init times, all `c` later. -/
def laterTimes (c : L) (inits : List L) : List L := inits.map (· + c)

variable [DecidableEq L] {V : Type}

/-- A way of loading that has nothing to do with the dates: from a dataset whose times are all `c` later it loads, at init times that are `c` later, the same values (or has the same error). -/
def DateFree (c : L) (load load' : List L → LeadTimes L → Except Err (DA L V)) : Prop :=
  ∀ inits leads, load' (laterTimes c inits) leads = (load inits leads).map (DA.relabel (later c))

/-- One chunk of an evaluation: the targets and the predictions are loaded and a metric is computed (beam_pipeline.py:68-115 and 360-440). -/
def evaluateChunk [AddCommMonoid V] [Mul V] [One V] [Div V] [IsNull V] (loadTargets loadPredictions : List L → LeadTimes L → Except Err (Vars (StatVar L V)))
    (m : Metric (StatVar L V) (Option (StatVar L V)) (DA L V)) (agg : Aggregator L V) (inits : List L) (leads : LeadTimes L) : Except Err (Vars (DA L V)) := do
  let t ← loadTargets inits leads
  let p ← loadPredictions inits leads
  metricAlone m agg p t

/-- The same for several variables. -/
def DateFreeVars (c : L) (load load' : List L → LeadTimes L → Except Err (Vars (StatVar L V))) : Prop :=
  ∀ inits leads, load' (laterTimes c inits) leads = (load inits leads).map (relabelVars (later c))

end WBX
