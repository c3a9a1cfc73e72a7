import Verif.Model.Ensemble

/-!
# Model of `/repo/weatherbenchX/metrics/wrappers.py`

A DataArray is a `StatVar`; its `.name` is taken to be its key in the dict of variables. Labels of a threshold dimension are the
thresholds themselves: `label` turns a float into a label.
-/

namespace WBX
open Classical

section transforms
variable {L K : Type} [DecidableEq L] [Field K] [LinearOrder K] [IsStrictOrderedRing K]

/-- `InputTransform` (wrappers.py:90-111): `which`, `unique_name_suffix`, and `transform_fn` of a named array. -/
structure InputTransform (L K : Type) where
  which : String
  suffix : String
  fn : String → StatVar L (FV K) → Except Err (StatVar L (FV K))

/-- `InputTransform.__init__` (wrappers.py:93-102). -/
def mkTransform (which suffix : String) (fn : String → StatVar L (FV K) → Except Err (StatVar L (FV K))) :
    Except Err (InputTransform L K) :=
  if which = "predictions" ∨ which = "targets" ∨ which = "both" then .ok ⟨which, suffix, fn⟩ else .error .valueError

/-- `xr.DataArray(ts, dims=[d], coords={d: ts})` (wrappers.py:83-86, 285-292, 653-657). Repeated thresholds (repeated labels) are not
modelled. -/
def thresholdArray (label : FV K → L) (d : Dim) (ts : List (FV K)) : DA L (FV K) :=
  { dims := {d}, coords := fun _ => (ts.map label).toFinset,
    val := fun e => match ts.find? (fun t => decide (label t = e d)) with
      | some t => t
      | none => FV.nan }

/-- `binarize_thresholds` (wrappers.py:48-87) for thresholds given as an array: `(x > threshold).where(~np.isnan(x))`. -/
noncomputable def binarize (thresholds : DA L (FV K)) (x : StatVar L (FV K)) : StatVar L (FV K) :=
  (x.zipWith (fun v h => FV.ofBool (FV.lt h v)) ⟨thresholds, none⟩).zipWith FV.keepIf (x.map (fun v => !v.isnan))

/-- The three kinds of thresholds (wrappers.py:66-86, 277-296): a list of values, a DataArray, a Dataset. -/
inductive Thresholds (L K : Type) where
  | list (ts : List (FV K))
  | array (a : DA L (FV K))
  | dataset (vs : Vars (DA L (FV K)))

/-- The array of thresholds of `binarize_thresholds` for the variable `name` (wrappers.py:66-86). For a Dataset the assertion is on
the dimensions of the whole Dataset. -/
def Thresholds.forBinary (label : FV K → L) (d : Dim) (name : String) : Thresholds L K → Except Err (DA L (FV K))
  | .list ts => .ok (thresholdArray label d ts)
  | .array a => if d ∈ a.dims then .ok a else .error .assertionError
  | .dataset vs =>
    if ∃ va ∈ vs, d ∈ va.2.dims then
      match pyGet? name vs with
      | some a => .ok a
      | none => .error .assertionError
    else .error .assertionError

/-- `ContinuousToBinary.unique_name_suffix` (wrappers.py:193-199), and the check that arrays and Datasets come with a suffix
(wrappers.py:193-199). -/
def binarySuffix (th : Thresholds L K) (d : Dim) (str : FV K → String) (suffix : Option String) : Except Err String :=
  match suffix, th with
  | some s, _ => .ok (d ++ "=" ++ s)
  | none, .list ts => .ok (d ++ "=" ++ ",".intercalate (ts.map str))
  | none, _ => .error .valueError

/-- `ContinuousToBinary` (wrappers.py:149-202). -/
noncomputable def continuousToBinary (label : FV K → L) (which : String) (th : Thresholds L K) (d : Dim) (str : FV K → String)
    (suffix : Option String) : Except Err (InputTransform L K) := do
  let text ← binarySuffix th d str suffix
  mkTransform which text (fun name x => do
    let t ← th.forBinary label d name
    return binarize t x)

/-- `EnsembleMean` (wrappers.py:114-146). -/
def ensembleMeanFn (d : Dim) (skipna skipIfMissing : Bool) (x : StatVar L (FV K)) : Except Err (StatVar L (FV K)) :=
  if d ∉ x.arr.dims ∧ skipIfMissing = true then .ok x else x.meanDim skipna d

/-- `EnsembleMean` as a transform; the suffix does not mention `skip_if_ensemble_dim_missing`. `f'{self._x=}'` prints the name of the
attribute. -/
def ensembleMean (which : String) (d : Dim) (skipna skipIfMissing : Bool) : Except Err (InputTransform L K) :=
  mkTransform which ("ensemble_mean_self._ensemble_dim='" ++ d ++ "'_self._skipna=" ++ (if skipna then "True" else "False"))
    (fun _ => ensembleMeanFn d skipna skipIfMissing)

/-- How `select_bin_thresholds_by_time_from_chunk` reads labels as times: `init + lead`, and the day of the year of a time. -/
structure TimeLabels (L : Type) where
  add : L → L → L
  dayofyear : L → L

/-- `a.sel({d: f})` with the labels of `d` computed from the labels of the dimensions `ds` of the chunk: `KeyError` if one is missing. -/
noncomputable def DA.selBy {V : Type} (a : DA L V) (d : Dim) (ds : List Dim) (C : Dim → Finset L) (f : (Dim → L) → L) : Except Err (DA L V) :=
  if ∀ e : Dim → L, (∀ k ∈ ds, e k ∈ C k) → f e ∈ a.coords d then
    .ok { dims := a.dims.erase d ∪ ds.toFinset, coords := fun k => if k ∈ ds then C k else a.coords k,
          val := fun e => a.val (DA.setLabel e d (f e)) }
  else .error .keyError

/-- `select_bin_thresholds_by_time_from_chunk` (wrappers.py:205-265). -/
noncomputable def selectThresholdsByTime (tm : TimeLabels L) (th : DA L (FV K)) (chunk : StatVar L (FV K)) : Except Err (DA L (FV K)) :=
  let C := chunk.arr.coords
  if "init_time" ∈ chunk.arr.dims ∧ "lead_time" ∈ chunk.arr.dims then
    if "valid_time" ∈ th.dims then
      th.selBy "valid_time" ["init_time", "lead_time"] C (fun e => tm.add (e "init_time") (e "lead_time"))
    else if "init_time" ∈ th.dims ∧ "lead_time" ∈ th.dims then do
      let th ← th.selBy "init_time" ["init_time"] C (fun e => e "init_time")
      th.selBy "lead_time" ["lead_time"] C (fun e => e "lead_time")
    else if "dayofyear" ∈ th.dims ∧ "lead_time" ∈ th.dims then do
      let th ← th.selBy "lead_time" ["lead_time"] C (fun e => e "lead_time")
      th.selBy "dayofyear" ["init_time"] C (fun e => tm.dayofyear (e "init_time"))
    else .ok th
  else if "valid_time" ∈ chunk.arr.dims then
    if "valid_time" ∈ th.dims then th.selBy "valid_time" ["valid_time"] C (fun e => e "valid_time")
    else if "dayofyear" ∈ th.dims then th.selBy "dayofyear" ["valid_time"] C (fun e => tm.dayofyear (e "valid_time"))
    else .ok th
  else .ok th

/-- The array of thresholds of `compute_cdf` (wrappers.py:277-296). -/
noncomputable def Thresholds.forCdf (tm : TimeLabels L) (label : FV K → L) (d : Dim) (name : String) (x : StatVar L (FV K)) :
    Thresholds L K → Except Err (DA L (FV K))
  | .list ts => .ok (thresholdArray label d ts)
  | .array a => selectThresholdsByTime tm a x
  | .dataset vs => do
    let a ← pyItem vs name
    selectThresholdsByTime tm a x

/-- `np.all(thresholds.diff(d) > 0)` (wrappers.py:297-298); `order` lists the labels of `d` in their order. -/
def increasingAlong (d : Dim) (order : List L) (th : DA L (FV K)) : Prop :=
  ∀ e, th.InDom e → ∀ p ∈ order.zip order.tail, FV.lt 0 (th.val (DA.setLabel e d p.2) - th.val (DA.setLabel e d p.1)) = true

/-- `compute_cdf` (wrappers.py:268-309) after the choice of the thresholds. -/
noncomputable def computeCdf (th : DA L (FV K)) (order : List L) (d : Dim) (enforce right : Bool) (x : StatVar L (FV K)) :
    Except Err (StatVar L (FV K)) :=
  if enforce = true ∧ ¬ increasingAlong d order th then .error .valueError
  else
    let t : StatVar L (FV K) := ⟨th, none⟩
    let cdf := x.zipWith (fun v h => FV.ofBool (if right then FV.le v h else FV.lt v h)) t
    let cdf := cdf.zipWith FV.keepIf (x.map (fun v => !v.isnan))
    .ok (cdf.zipWith FV.keepIf (t.map (fun v => !v.isnan)))

/-- `ContinuousToCDF.transform_fn` (wrappers.py:458-466). -/
noncomputable def cdfFn (tm : TimeLabels L) (label : FV K → L) (th : Thresholds L K) (order : List L) (d : Dim) (enforce right : Bool)
    (name : String) (x : StatVar L (FV K)) : Except Err (StatVar L (FV K)) := do
  let t ← th.forCdf tm label d name x
  computeCdf t order d enforce right x

/-- `cdf.diff(d)` with the labels of the bins (wrappers.py:381-396): the bin between two consecutive thresholds gets the label
`binName left right`. Equal names of different bins (the code formats the edges with two decimals) are not modelled. -/
noncomputable def diffBins (binName : L → L → L) (order : List L) (d : Dim) (cdf : StatVar L (FV K)) : StatVar L (FV K) :=
  let bins := order.zip order.tail
  ⟨{ dims := cdf.arr.dims, coords := fun k => if k = d then (bins.map (fun p => binName p.1 p.2)).toFinset else cdf.arr.coords k,
     val := fun e => match bins.find? (fun p => decide (binName p.1 p.2 = e d)) with
       | some p => cdf.arr.val (DA.setLabel e d p.2) - cdf.arr.val (DA.setLabel e d p.1)
       | none => FV.nan }, cdf.mask⟩

/-- `ContinuousToBins.transform_fn` (wrappers.py:374-396). -/
noncomputable def binsFn (tm : TimeLabels L) (label : FV K → L) (binName : L → L → L) (th : Thresholds L K) (order : List L) (d : Dim)
    (enforce : Bool) (name : String) (x : StatVar L (FV K)) : Except Err (StatVar L (FV K)) := do
  let cdf ← cdfFn tm label th order d enforce true name x
  return diffBins binName order d cdf

/-- The suffixes of `ContinuousToBins` and `ContinuousToCDF` (wrappers.py:366-372, 450-456). -/
def encodingSuffix (kind : String) (d : Dim) (th : Thresholds L K) (str : FV K → String) (suffix : Option String) : Except Err String :=
  match suffix, th with
  | some s, _ => .ok (kind ++ "_" ++ d ++ "_" ++ s)
  | none, .list ts => .ok (kind ++ "_" ++ d ++ "_" ++ ",".intercalate (ts.map str))
  | none, _ => .error .valueError

/-- `ContinuousToBins` (wrappers.py:312-396). -/
noncomputable def continuousToBins (tm : TimeLabels L) (label : FV K → L) (binName : L → L → L) (which : String) (th : Thresholds L K)
    (order : List L) (d : Dim) (enforce : Bool) (str : FV K → String) (suffix : Option String) : Except Err (InputTransform L K) := do
  let s ← encodingSuffix "ContinuousToBins" d th str suffix
  mkTransform which s (binsFn tm label binName th order d enforce)

/-- `ContinuousToCDF` (wrappers.py:399-466). -/
noncomputable def continuousToCDF (tm : TimeLabels L) (label : FV K → L) (which : String) (th : Thresholds L K) (order : List L) (d : Dim)
    (enforce right : Bool) (str : FV K → String) (suffix : Option String) : Except Err (InputTransform L K) := do
  let s ← encodingSuffix "ContinuousToCDF" d th str suffix
  mkTransform which (s ++ "_right_inclusive_" ++ (if right then "True" else "False")) (cdfFn tm label th order d enforce right)

/-- `WeibullEnsembleToProbabilistic.transform_fn` (wrappers.py:498-502). -/
noncomputable def weibullFn (d : Dim) (skipna : Bool) (x : StatVar L (FV K)) : Except Err (StatVar L (FV K)) :=
  if d ∈ x.arr.dims then .ok ((x.reduce d (npSum skipna)).map (fun s => s / FV.ofNat ((x.arr.coords d).card + 1))) else .error .keyError

/-- `WeibullEnsembleToProbabilistic` (wrappers.py:469-502). -/
noncomputable def weibull (which : String) (d : Dim) (skipna : Bool) : Except Err (InputTransform L K) :=
  if which = "predictions" then mkTransform which "ensemble_to_probabilistic_by_weibull_plotting_position" (fun _ => weibullFn d skipna)
  else .error .assertionError

/-- `Inline` (wrappers.py:505-540). -/
def inline (which : String) (f : StatVar L (FV K) → Except Err (StatVar L (FV K))) (suffix : String) : Except Err (InputTransform L K) :=
  mkTransform which suffix (fun _ => f)

/-- `ReLU.transform_fn` (wrappers.py:562-563): `xr.where(da > 0, da, 0).where(~np.isnan(da))`. -/
def reluFn (x : StatVar L (FV K)) : StatVar L (FV K) :=
  x.map (fun v => FV.keepIf (if FV.lt 0 v then v else 0) (!v.isnan))

/-- `ReLU` (wrappers.py:543-563). -/
def relu (which : String) : Except Err (InputTransform L K) := mkTransform which "relu" (fun _ x => .ok (reluFn x))

/-- `ShiftAlongNewDim.transform_fn` (wrappers.py:643-660) for shifts given as an array. -/
noncomputable def shiftFn (shifts : DA L (FV K)) (x : StatVar L (FV K)) : StatVar L (FV K) := x.zipWith (· + ·) ⟨shifts, none⟩

/-- `ShiftAlongNewDim` (wrappers.py:566-660); a Dataset without the shift dimension is a `RuntimeError` (here `valueError`). -/
noncomputable def shiftAlongNewDim (label : FV K → L) (which : String) (th : Thresholds L K) (d : Dim) (suffix : String) :
    Except Err (InputTransform L K) :=
  mkTransform which suffix (fun name x => match th with
    | .list ts => .ok (shiftFn (thresholdArray label d ts) x)
    | .array a => .ok (shiftFn a x)
    | .dataset vs => do
      let a ← pyItem vs name
      if d ∈ a.dims then .ok (shiftFn a x) else .error .valueError)

/-- `da.sel({d: l})` of one label: the dimension is dropped, `KeyError` if the label is missing. -/
def selLabel (d : Dim) (l : L) (x : StatVar L (FV K)) : Except Err (StatVar L (FV K)) :=
  if d ∉ x.arr.dims then .error .keyError
  else if l ∈ x.arr.coords d then
    .ok ⟨{ dims := x.arr.dims.erase d, coords := x.arr.coords, val := fun e => x.arr.val (DA.setLabel e d l) },
      x.mask.map (fun m => if d ∈ m.dims then
        { dims := m.dims.erase d, coords := m.coords, val := fun e => m.val (DA.setLabel e d l) } else m)⟩
  else .error .keyError

end transforms

section wrapping
variable {L K : Type} [DecidableEq L] [Field K] [LinearOrder K] [IsStrictOrderedRing K]

/-- `xarray_tree.map_structure(transform_fn, variables)` (wrappers.py:794-804). -/
def InputTransform.mapVars (tr : InputTransform L K) (vs : Vars (StatVar L (FV K))) : Except Err (Vars (StatVar L (FV K))) :=
  vs.mapM (fun kv => do
    let a ← tr.fn kv.1 kv.2
    return (kv.1, a))

/-- `WrappedStatistic` (wrappers.py:769-805). -/
def wrappedStatistic (s : FStatistic L K) (tr : InputTransform L K) : FStatistic L K :=
  { uniqueName := s.uniqueName ++ "_" ++ tr.which ++ "_" ++ tr.suffix,
    compute := fun p t => do
      let p' ← if tr.which = "predictions" ∨ tr.which = "both" then tr.mapVars p else .ok p
      let t' ← if tr.which = "targets" ∨ tr.which = "both" then tr.mapVars t else .ok t
      s.compute p' t' }

/-- `RenamedStatistic` (wrappers.py:808-824). -/
def renamedStatistic (s : FStatistic L K) (name : String) : FStatistic L K := { uniqueName := name, compute := s.compute }

/-- The statistics of `WrappedMetric` (wrappers.py:850-865): the wrappers are applied from the last transform to the first. -/
def wrapAll (trs : List (InputTransform L K)) (suffix : Option String) (s : FStatistic L K) : FStatistic L K :=
  let w := trs.reverse.foldl wrappedStatistic s
  match suffix with
  | some x => renamedStatistic w (s.uniqueName ++ "_" ++ x)
  | none => w

/-- `WrappedMetric` (wrappers.py:827-871). -/
def wrappedMetric (m : FMetric L K) (trs : List (InputTransform L K)) (suffix : Option String) : FMetric L K :=
  { statistics := m.statistics.map (fun ks => (ks.1, wrapAll trs suffix ks.2)),
    valuesFromMeanStatistics := m.valuesFromMeanStatistics }

/-- `SubselectVariablesForStatistic` (wrappers.py:874-901). -/
def subselectStatistic (vars : List String) (s : FStatistic L K) : FStatistic L K :=
  { uniqueName := s.uniqueName ++ "_" ++ pyJoin "_" vars,
    compute := fun p t => s.compute (p.filter (fun kv => decide (kv.1 ∈ vars))) (t.filter (fun kv => decide (kv.1 ∈ vars))) }

/-- `SubselectVariables` (wrappers.py:904-930). -/
def subselectVariables (vars : List String) (m : FMetric L K) : FMetric L K :=
  { statistics := m.statistics.map (fun ks => (ks.1, subselectStatistic vars ks.2)),
    valuesFromMeanStatistics := m.valuesFromMeanStatistics }

end wrapping
end WBX
