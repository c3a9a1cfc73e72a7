import Verif.Model.Loaders

/-!
# Model of the preparation of a dataset (`/repo/weatherbenchX/data_loaders/xarray_loaders.py:25-141`)

A dataset has data variables and coordinates. Of a coordinate only the name and the dimensions are kept: the labels along a dimension are part of the
arrays. Dictionaries have no repeated keys.
-/

namespace WBX
open DA
variable {L V : Type} [DecidableEq L]

/-- An `xr.Dataset`. -/
structure Dataset (L V : Type) where
  vars : Vars (DA L V)
  coords : List (String × Finset Dim)

/-- The names of all variables, data variables and coordinates (`ds.variables`). -/
def Dataset.names (ds : Dataset L V) : List String := ds.vars.map Prod.fst ++ ds.coords.map Prod.fst

/-- `ds.dims`. -/
def Dataset.dims (ds : Dataset L V) : Finset Dim :=
  ds.vars.foldr (fun v s => v.2.dims ∪ s) (ds.coords.foldr (fun c s => c.2 ∪ s) ∅)

/-- `name_dict.get(k, k)`. -/
def newName (dict : List (String × String)) (k : String) : String := (pyGet? k dict).getD k

/-- The array with the dimensions renamed by `f`. -/
def DA.renameDims (f : Dim → Dim) (a : DA L V) : DA L V where
  dims := a.dims.image f
  coords := fun k => (a.dims.filter (fun d => f d = k)).biUnion a.coords
  val := fun e => a.val (fun d => e (f d))

/-- `ds.rename(dict)` (xarray_loaders.py:35-51): variables, coordinates and dimensions at once. A key that is neither a variable nor a dimension and two
variables that get the same name are `ValueError`s. Two dimensions that get the same name are also taken as an error here. -/
def Dataset.rename (dict : List (String × String)) (ds : Dataset L V) : Except Err (Dataset L V) :=
  if dict.any (fun kv => decide (kv.1 ∉ ds.names ∧ kv.1 ∉ ds.dims)) then .error .valueError
  else if ¬ (ds.names.map (newName dict)).Nodup then .error .valueError
  else if (ds.dims.image (newName dict)).card ≠ ds.dims.card then .error .valueError
  else .ok { vars := ds.vars.map (fun v => (newName dict v.1, v.2.renameDims (newName dict))),
             coords := ds.coords.map (fun c => (newName dict c.1, c.2.image (newName dict))) }

/-- The argument `rename_dimensions`: a string, a dictionary or `None`. -/
inductive RenameDimensions where
  | str (s : String)
  | mapping (m : List (String × String))
  | none

/-- `k in ds.coords`. -/
def Dataset.hasCoord (ds : Dataset L V) (k : String) : Bool := decide (k ∈ ds.coords.map Prod.fst)

/-- The conversion of `lat` and `lon` (xarray_loaders.py:33-35). -/
def convertLatLon (convert : Bool) (ds : Dataset L V) : Except Err (Dataset L V) :=
  if convert && ds.hasCoord "lat" && ds.hasCoord "lon" then ds.rename [("lat", "latitude"), ("lon", "longitude")] else .ok ds

/-- The renaming of the dimensions (xarray_loaders.py:36-48). -/
def renameTimes (how : RenameDimensions) (ds : Dataset L V) : Except Err (Dataset L V) :=
  match how with
  | .str s =>
    if s = "ecmwf" then
      if ds.hasCoord "prediction_timedelta" then ds.rename [("time", "init_time"), ("prediction_timedelta", "lead_time")]
      else ds.rename [("time", "valid_time")]
    else .error .valueError
  | .mapping m => ds.rename m
  | .none => .ok ds

/-- The renaming of the variables (xarray_loaders.py:50-51). -/
def renameVariables (dict : Option (List (String × String))) (ds : Dataset L V) : Except Err (Dataset L V) :=
  match dict with
  | some d => ds.rename d
  | none => .ok ds

/-- `_rename_dataset` (xarray_loaders.py:25-52). -/
def renameDataset (how : RenameDimensions) (variables' : Option (List (String × String))) (convert : Bool) (ds : Dataset L V) : Except Err (Dataset L V) := do
  let ds ← convertLatLon convert ds
  let ds ← renameTimes how ds
  renameVariables variables' ds

/-- `ds[list(names)]` (xarray_loaders.py:137-138): `KeyError` for a missing name; the coordinates stay (that xarray drops coordinates along dimensions that are no longer
used, and that a dimension or coordinate may be asked for, is not modelled). -/
def Dataset.choose (names : Option (List String)) (ds : Dataset L V) : Except Err (Dataset L V) :=
  match names with
  | none => .ok ds
  | some ns => do
    let vs ← ns.mapM (fun n => do
      let a ← pyItem ds.vars n
      return (n, a))
    return { ds with vars := vs }

/-- A selection `.sel(d=…)`: a list of labels or a slice. -/
inductive SelArg (L : Type) where
  | labels (ls : List L)
  | slice (start stop : Option L)

/-- `a.sel(d=arg)` of one variable: one without the dimension is not changed. -/
def selOne [LinearOrder L] (d : Dim) (arg : SelArg L) (a : DA L V) : Except Err (DA L V) :=
  if d ∈ a.dims then
    match arg with
    | .labels ls => selList d ls a
    | .slice start stop => .ok (selSlice d start stop a)
  else .ok a

/-- `ds.sel(d=arg)`; a dimension that the dataset does not have is a `KeyError`. -/
def Dataset.selDim [LinearOrder L] (d : Dim) (arg : SelArg L) (ds : Dataset L V) : Except Err (Dataset L V) :=
  if d ∈ ds.dims then do
    let vs ← ds.vars.mapM (fun v => do
      let a ← selOne d arg v.2
      return (v.1, a))
    return { ds with vars := vs }
  else .error .keyError

/-- `ds.sel(**sel_kwargs)` (xarray_loaders.py:139-140). -/
def Dataset.sel [LinearOrder L] (kwargs : Option (List (Dim × SelArg L))) (ds : Dataset L V) : Except Err (Dataset L V) :=
  (kwargs.getD []).foldlM (fun ds kv => ds.selDim kv.1 kv.2) ds

/-- The constructor arguments of `XarrayDataLoader` (xarray_loaders.py:58-114) that `maybe_prepare_dataset` uses. -/
structure XarrayArgs (L V : Type) where
  /-- `variables` -/
  names : Option (List String) := none
  /-- `sel_kwargs` -/
  sel : Option (List (Dim × SelArg L)) := none
  /-- `rename_dimensions` -/
  renameDimensions : RenameDimensions := .str "ecmwf"
  /-- `automatically_convert_lat_lon_to_latitude_longitude` -/
  convert : Bool := true
  /-- `rename_variables` -/
  renameVariables : Option (List (String × String)) := none
  /-- `preprocessing_fn` -/
  preprocess : Option (Dataset L V → Except Err (Dataset L V)) := none

/-- The steps of `maybe_prepare_dataset` (xarray_loaders.py:128-140) as used in `Preparation`. -/
def XarrayArgs.steps [LinearOrder L] (o : XarrayArgs L V) : List (Dataset L V → Except Err (Dataset L V)) :=
  [fun ds => (match o.preprocess with | some f => f ds | none => .ok ds),
   renameDataset o.renameDimensions o.renameVariables o.convert,
   fun ds => ds.choose o.names,
   fun ds => ds.sel o.sel]

/-- `XarrayDataLoader.__init__` (xarray_loaders.py:92-96): exactly one of path and dataset. -/
def xarrayInit (path : Option String) (ds : Option (Dataset L V)) : Except Err (XarrayState (Dataset L V)) :=
  if path.isSome && ds.isSome then .error .valueError
  else if path.isNone && ds.isNone then .error .valueError
  else .ok { ds := ds }

end WBX
