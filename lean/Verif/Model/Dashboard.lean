import Verif.Model.CombineResults
import Verif.Model.Deterministic

/-!
# Model of the graph of the public benchmark: `update_graph` in `/repo/public_benchmark/apps/dash_app.py`

The data is the dataset that `combine_results.py` writes (`Model/CombineResults`). Labels are texts; lead times are whole hours. Colours, symbols, marker mode, layout and
the third alert (which is never raised) are not modelled, but the `KeyError` for a model without colour or symbol is. Arrays have at most the seven dimensions of the dataset.
-/

namespace WBX.Dashboard
open WBX

/-- `SURFACE_VARIABLES` (apps/config.py:23-30). -/
def surfaceVariables : List String := [
    "Sea Level Pressure", "2m Temperature", "6h Precipitation", "24h Precipitation", "10m Wind Speed", "10m Wind Vector"]

/-- `DEFAULT_MODELS` (apps/config.py:55-60). -/
def defaultModels : List String := [
    "IFS HRES vs Analysis", "IFS ENS (mean) vs Analysis", "GraphCast vs ERA5", "NeuralGCM 0.7 vs ERA5"]

/-- `DEFAULT_MODELS_PRECIP` (apps/config.py:61-65). -/
def defaultModelsPrecip : List String := [
    "IFS HRES vs ERA5", "IFS ENS (mean) vs ERA5", "GraphCast vs ERA5"]

/-- `DEFAULT_MODELS_PROB` (apps/config.py:66-70). -/
def defaultModelsProb : List String := [
    "IFS ENS vs Analysis", "GenCast vs ERA5", "NeuralGCM ENS vs ERA5"]

/-- The models that `COLORS` has (apps/config.py:73-123). -/
def colorModels : List String := [
    "Climatology vs ERA5", "Probabilistic Climatology vs ERA5", "Persistence vs ERA5", "IFS HRES vs Analysis", "IFS HRES vs ERA5",
    "IFS ENS (mean) vs Analysis", "IFS ENS (mean) vs ERA5", "IFS ENS (1st member) vs Analysis", "IFS ENS (1st member) vs ERA5", "IFS ENS vs Analysis",
    "IFS ENS vs ERA5", "GraphCast vs ERA5", "GraphCast (oper.) vs ERA5", "GraphCast (oper.) vs Analysis", "Pangu-Weather vs ERA5",
    "Pangu-Weather (oper.) vs ERA5", "Pangu-Weather (oper.) vs Analysis", "Keisler (2022) vs ERA5", "ERA5-Forecasts vs ERA5", "NeuralGCM 0.7 vs ERA5",
    "NeuralGCM ENS vs ERA5", "NeuralGCM ENS (mean) vs ERA5", "NeuralGCM ENS (1st member) vs ERA5", "FuXi vs ERA5", "GenCast vs ERA5",
    "GenCast (mean) vs ERA5", "GenCast (1st member) vs ERA5", "GenCast (oper.) vs ERA5", "GenCast (oper.) (mean) vs ERA5",
    "GenCast (oper.) (1st member) vs ERA5", "GenCast (oper.) vs Analysis", "GenCast (oper.) (mean) vs Analysis",
    "GenCast (oper.) (1st member) vs Analysis", "Aurora (oper.) vs Analysis", "Stormer ENS (mean) vs ERA5", "ArchesWeather-Mx4 vs ERA5",
    "ArchesWeatherGen vs ERA5", "ArchesWeatherGen (mean) vs ERA5", "Swin vs ERA5", "Excarta (HEAL-ViT) vs ERA5", "Baguan vs ERA5",
    "WeatherMesh4 vs ERA5"]

/-- The models that `SYMBOLS` has (apps/config.py:125-176). -/
def symbolModels : List String := [
    "Climatology vs ERA5", "Probabilistic Climatology vs ERA5", "Persistence vs ERA5", "IFS HRES vs Analysis", "IFS HRES vs ERA5",
    "IFS ENS (mean) vs Analysis", "IFS ENS (mean) vs ERA5", "IFS ENS (1st member) vs Analysis", "IFS ENS (1st member) vs ERA5", "IFS ENS vs Analysis",
    "IFS ENS vs ERA5", "GraphCast vs ERA5", "GraphCast (oper.) vs ERA5", "GraphCast (oper.) vs Analysis", "Pangu-Weather vs ERA5",
    "Pangu-Weather (oper.) vs ERA5", "Pangu-Weather (oper.) vs Analysis", "Keisler (2022) vs ERA5", "ERA5-Forecasts vs ERA5", "NeuralGCM 0.7 vs ERA5",
    "neuralgcm_hres_vs_era", "NeuralGCM ENS vs ERA5", "NeuralGCM ENS (mean) vs ERA5", "NeuralGCM ENS (1st member) vs ERA5", "FuXi vs ERA5",
    "GenCast vs ERA5", "GenCast (mean) vs ERA5", "GenCast (1st member) vs ERA5", "GenCast (oper.) vs ERA5", "GenCast (oper.) (mean) vs ERA5",
    "GenCast (oper.) (1st member) vs ERA5", "GenCast (oper.) vs Analysis", "GenCast (oper.) (mean) vs Analysis",
    "GenCast (oper.) (1st member) vs Analysis", "Aurora (oper.) vs Analysis", "Stormer ENS (mean) vs ERA5", "ArchesWeather-Mx4 vs ERA5",
    "ArchesWeatherGen (mean) vs ERA5", "ArchesWeatherGen vs ERA5", "Swin vs ERA5", "Excarta (HEAL-ViT) vs ERA5", "Baguan vs ERA5",
    "WeatherMesh4 vs ERA5"]

/-- `UNITS` (apps/config.py:32-52). -/
def units : List (String × String) := [
    ("Geopotential", "m<sup>2</sup>/s<sup>2</sup>"), ("Temperature", "K"), ("Specific Humidity", "g/kg"), ("U Component of Wind", "m/s"),
    ("V Component of Wind", "m/s"), ("10m U Component of Wind", "m/s"), ("10m V Component of Wind", "m/s"), ("2m Temperature", "K"),
    ("Sea Level Pressure", "Pa"), ("6h Precipitation", "mm"), ("24h Precipitation", "mm"), ("Wind Speed", "m/s"), ("10m Wind Speed", "m/s"),
    ("Wind Vector", "m/s"), ("10m Wind Vector", "m/s"), ("500hPa Geopotential", "m<sup>2</sup>/s<sup>2</sup>"), ("700hPa Specific Humidity", "g/kg"),
    ("850hPa Temperature", "K"), ("850hPa Wind Speed", "m/s")]

/-- What the user has chosen in the menu (dash_app.py:288-298); `relative` means `RELATIVE_YES`. -/
structure Choice where
  var : String
  metric : String
  level : String
  region : String
  year : String
  resolution : String
  relative : Bool
  relativeTo : String

/-- The dataset, with its models and lead times in order and the hours of the lead times (`lead_time_h`). -/
structure AppData (K : Type) where
  ds : CombineResults.File (FV K)
  models : List String
  leads : List String
  hours : String → ℤ

/-- The `visible` attribute of a curve: `None`, `'legendonly'` or `True`. -/
inductive Visible where
  | unset
  | legendOnly
  | shown
  deriving DecidableEq, Repr

/-- A curve (dash_app.py:375-390). -/
structure Trace (K : Type) where
  name : String
  points : List (ℤ × FV K)
  visible : Visible

/-- The graph and the two alerts. -/
structure Graph (K : Type) where
  traces : List (Trace K)
  ylabel : Option String
  relativeAlert : Bool
  seepsAlert : Bool

/-- `disable_level` (dash_app.py:272-276). -/
def disableLevel (var : String) : Bool := surfaceVariables.contains var

/-- `"vs Analysis" in relative_to` (dash_app.py:318). -/
def vsAnalysis (s : String) : Bool := decide ("vs Analysis".toList <:+: s.toList)

/-- `seeps_alert` (dash_app.py:314-319). -/
def seepsAlert (o : Choice) : Bool :=
  o.metric == "SEEPS" && (!(["24h Precipitation", "6h Precipitation"].contains o.var) || (o.relative && vsAnalysis o.relativeTo))

/-- The labels that are selected (dash_app.py:332-339). -/
def Choice.labels (o : Choice) : List (Dim × String) :=
  [("region", o.region), ("metric", o.metric), ("level", o.level), ("year", o.year), ("resolution", o.resolution)]

/-- An array at one label of a dimension, if it has it. -/
def atLabel {V : Type} (a : DA String V) (dl : Dim × String) : DA String V :=
  if dl.1 ∈ a.dims then { dims := a.dims.erase dl.1, coords := a.coords, val := fun e => a.val (DA.setLabel e dl.1 dl.2) } else a

section
variable {K : Type} [Field K] [LinearOrder K] [IsStrictOrderedRing K]

/-- `ds.sel(…)[variable]` (dash_app.py:332-339): `KeyError` if the dataset does not have a label, or not the variable. -/
def selection (app : AppData K) (o : Choice) : Except Err (DA String (FV K)) := do
  if o.labels.any (fun dl => decide (dl.2 ∉ CombineResults.labelsOf app.ds dl.1)) then .error .keyError
  else
    let x ← pyItem app.ds o.var
    return o.labels.foldl atLabel x

/-- The value of the selection for a model and a lead time. -/
def score (x : DA String (FV K)) (model lead : String) : FV K := x.val (DA.setLabel (DA.setLabel (fun _ => "") "model" model) "lead_time" lead)

/-- The improvement relative to the model chosen, in percent (dash_app.py:345-348). -/
def improvement (metric : String) (s b : FV K) : FV K :=
  if metric = "ACC" then (s - b) / (1 - b) * FV.fin 100 else (s - b) / b * FV.fin (-100)

/-- The value in the graph (dash_app.py:341-352). -/
def value (app : AppData K) (o : Choice) (x : DA String (FV K)) (model lead : String) : FV K :=
  let v := if o.relative then FV.keepIf (improvement o.metric (score x model lead) (score x o.relativeTo lead)) (decide (0 < app.hours lead)) else score x model lead
  if o.metric = "Spread/Skill Ratio" then FV.keepIf v (decide (0 < app.hours lead)) else v

/-- `np.isnan(baseline).mean() == 1` (dash_app.py:343-344); the mean of nothing is NaN. -/
def allMissing (app : AppData K) (x : DA String (FV K)) (model : String) : Bool :=
  !app.leads.isEmpty && app.leads.all (fun l => (score x model l).isnan)

/-- `"Precipitation" in variable` (dash_app.py:364). -/
def isPrecipitation (var : String) : Bool := decide ("Precipitation".toList <:+: var.toList)

/-- Whether a curve is drawn at first (dash_app.py:363-373). -/
def defaultVisible (deterministic : Bool) (var model : String) : Visible :=
  if (if isPrecipitation var then defaultModelsPrecip else if deterministic then defaultModels else defaultModelsProb).contains model then .unset else .legendOnly

/-- The curve of a model, if it has a finite value (dash_app.py:375-392). -/
def trace (app : AppData K) (deterministic : Bool) (o : Choice) (x : DA String (FV K)) (model : String) : Except Err (Option (Trace K)) :=
  if app.leads.any (fun l => (value app o x model l).isFin) then
    if model ∈ colorModels ∧ model ∈ symbolModels then
      .ok (some { name := model, points := app.leads.map (fun l => (app.hours l, value app o x model l)), visible := defaultVisible deterministic o.var model })
    else .error .keyError
  else .ok none

/-- Whether a curve is drawn when there was a graph before (dash_app.py:396-405); `previous` has the names and `visible` attributes of its curves. -/
def retainVisible (previous : List (String × Visible)) (t : Trace K) : Trace K :=
  match pyGet? t.name previous with
  | some .unset => { t with visible := .shown }
  | some v => { t with visible := v }
  | none => { t with visible := if defaultModels.contains t.name then .shown else .legendOnly }

/-- The curves of the graph (dash_app.py:394-405); there may be no graph before. -/
def retained (previous : Option (List (String × Visible))) (drawn : List (Trace K)) : List (Trace K) :=
  match previous with
  | some p => drawn.map (retainVisible p)
  | none => drawn

/-- The title of the vertical axis (dash_app.py:407-414). -/
def yLabel (o : Choice) : Except Err String :=
  if o.relative then .ok ("% improvement relative to " ++ o.relativeTo)
  else if o.metric = "ACC" then .ok "ACC"
  else do
    let u ← pyItem units o.var
    return (if o.metric = "rms_bias" then "RMS Bias [" ++ u ++ "]" else o.metric ++ " [" ++ u ++ "]")

/-- `selection.sel(model=relative_to)` (dash_app.py:342). -/
def checkBaseline (x : DA String (FV K)) (o : Choice) : Except Err Unit :=
  if o.relative && decide (o.relativeTo ∉ x.coords "model") then .error .keyError else .ok ()

/-- `update_graph` (dash_app.py:305-430). -/
def updateGraph (app : AppData K) (deterministic : Bool) (o : Choice) (previous : Option (List (String × Visible))) : Except Err (Graph K) :=
  if seepsAlert o then .ok { traces := [], ylabel := none, relativeAlert := false, seepsAlert := true }
  else do
    let x ← selection app o
    checkBaseline x o
    let ts ← app.models.mapM (trace app deterministic o x)
    let label ← yLabel o
    let drawn := ts.filterMap id
    return { traces := retained previous drawn, ylabel := some label, relativeAlert := o.relative && allMissing app x o.relativeTo, seepsAlert := false }

end
end WBX.Dashboard
