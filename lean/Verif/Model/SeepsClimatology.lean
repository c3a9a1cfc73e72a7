import Verif.Model.Categorical
import Verif.Model.Opportunism

/-!
# Model of how `/repo/weatherbenchX/metrics/categorical.py` (`SEEPS`) reads its climatology

The wet threshold is selected at the valid times of the predictions, the dry fraction is averaged over the year.
-/

namespace WBX
open DA
variable {L K : Type} [DecidableEq L] [Field K] [LinearOrder K] [IsStrictOrderedRing K]

/-- `wet_threshold.sel(dayofyear=valid_time.dt.dayofyear, hour=valid_time.dt.hour)` (categorical.py:242-246). Predictions without init or lead times are an
`AttributeError`, a threshold without one of the two dimensions, or without a label, a `KeyError`. -/
noncomputable def seepsWetThreshold (tm : ClimTimes L) (p : StatVar L (FV K)) (wet : DA L (FV K)) : Except Err (DA L (FV K)) :=
  if "init_time" ∈ p.arr.dims ∧ "lead_time" ∈ p.arr.dims then
    if "dayofyear" ∈ wet.dims ∧ "hour" ∈ wet.dims then do
      let w ← wet.selBy "dayofyear" ["init_time", "lead_time"] p.arr.coords (fun e => tm.dayofyear (tm.add (e "init_time") (e "lead_time")))
      w.selBy "hour" ["init_time", "lead_time"] p.arr.coords (fun e => tm.hour (tm.add (e "init_time") (e "lead_time")))
    else .error .keyError
  else .error .attributeError

/-- The values of an array at all hours and days of the year, at one cell, without the missing ones. -/
def yearValues (a : DA L (FV K)) (e : Dim → L) : Finset (L × L) :=
  (a.coords "hour" ×ˢ a.coords "dayofyear").filter (fun hd => (a.val (setLabel (setLabel e "hour" hd.1) "dayofyear" hd.2)).isnan = false)

/-- `dry_fraction.mean(('hour', 'dayofyear'))` (categorical.py:261-265): NaN values are left out; a missing dimension is a `ValueError`. -/
def seepsDryFraction (a : DA L (FV K)) : Except Err (DA L (FV K)) :=
  if "hour" ∈ a.dims ∧ "dayofyear" ∈ a.dims then
    .ok { dims := (a.dims.erase "hour").erase "dayofyear", coords := a.coords,
          val := fun e => (∑ hd ∈ yearValues a e, a.val (setLabel (setLabel e "hour" hd.1) "dayofyear" hd.2)) / FV.ofNat (yearValues a e).card }
  else .error .valueError

/-- `SEEPS` (categorical.py:104-303) with its climatology. -/
noncomputable def seepsStatistic (tm : ClimTimes L) (name : String) (names : List String) (dryMm minP1 maxP1 : List K) (clim : Vars (SeepsClimatology L K)) : Except Err (FStatistic L K) :=
  seeps name names dryMm minP1 maxP1 clim (seepsWetThreshold tm) seepsDryFraction

end WBX
