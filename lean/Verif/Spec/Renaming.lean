import Verif.Model.Array

/-!
# What renaming means
-/

namespace WBX
variable {L V : Type} [DecidableEq L]

/-- `r` is the array `a` with the dimension `d` called `f d`: the same labels along it and the same values. -/
structure Renamed (f : Dim → Dim) (a r : DA L V) : Prop where
  dims : ∀ k, k ∈ r.dims ↔ ∃ d ∈ a.dims, f d = k
  injective : ∀ d ∈ a.dims, ∀ d' ∈ a.dims, f d = f d' → d = d'
  labels : ∀ d ∈ a.dims, r.coords (f d) = a.coords d
  values : ∀ e : Dim → L, r.val e = a.val (fun d => e (f d))

/-- The name that the loaders expect for a name in a file with ECMWF names: `latlon` says that `lat` and `lon` are converted, `forecast` that the file has
forecasts. -/
def loaderName (latlon forecast : Bool) (k : String) : String :=
  if k = "lat" ∧ latlon = true then "latitude"
  else if k = "lon" ∧ latlon = true then "longitude"
  else if k = "time" then (if forecast then "init_time" else "valid_time")
  else if k = "prediction_timedelta" ∧ forecast = true then "lead_time"
  else k

end WBX
