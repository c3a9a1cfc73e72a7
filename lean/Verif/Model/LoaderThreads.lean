import Verif.Model.Loaders

/-!
# An `XarrayDataLoader` used by several threads

`maybe_prepare_dataset` keeps its intermediate results in the attribute `_ds` of the loader, without a lock. Reading and assigning an attribute are
the atomic steps; between any two of them other threads may run. Simplifications: opening the file and the steps of the preparation are
functions of their arguments, and a load after the preparation reads `_ds` once.
-/

namespace WBX

/-- Where a thread is in `load_chunk` (xarray_loaders.py:150-157) and `maybe_prepare_dataset` (xarray_loaders.py:116-141). -/
inductive LoadPhase (D R : Type) where
  /-- before `if self._preprocessed` (line 118) -/
  | start
  /-- before `if self._ds is None` (line 121) -/
  | check
  /-- before the assignment of the opened dataset (lines 124-127) -/
  | opening
  /-- before the evaluation of the next step on `self._ds`, or, if none is left, before `self._preprocessed = True` (lines 129-141) -/
  | reading (rest : List (D → Except Err D))
  /-- the next value of `self._ds` has been computed but not assigned -/
  | writing (value : D) (rest : List (D → Except Err D))
  /-- before reading `self._ds` in `_load_chunk_from_source` (lines 196-206) -/
  | loading
  /-- returned or raised -/
  | done (result : Except Err R)

/-- One atomic step of one thread calling `load_chunk` with arguments `a` (xarray_loaders.py:116-157). -/
def threadStep {D A R : Type} (p : Preparation D) (load : D → A → Except Err R) (a : A) (s : XarrayState D) : LoadPhase D R → XarrayState D × LoadPhase D R
  | .start => if s.preprocessed then (s, .loading) else (s, .check)
  | .check => match s.ds with
    | none => (s, .opening)
    | some _ => (s, .reading p.steps)
  | .opening => match p.opened with
    | .ok d => ({ s with ds := some d }, .reading p.steps)
    | .error e => (s, .done (.error e))
  | .reading [] => ({ s with preprocessed := true }, .loading)
  | .reading (f :: fs) => match s.ds with
    | none => (s, .done (.error .attributeError))
    | some d => match f d with
      | .ok d' => (s, .writing d' fs)
      | .error e => (s, .done (.error e))
  | .writing d fs => ({ s with ds := some d }, .reading fs)
  | .loading => match s.ds with
    | none => (s, .done (.error .assertionError))
    | some d => (s, .done (load d a))
  | .done r => (s, .done r)

/-- The loader and all threads that use it. -/
structure LoaderThreads (ι D R : Type) where
  shared : XarrayState D
  phase : ι → LoadPhase D R

/-- Thread `i` takes a step. -/
def LoaderThreads.step {ι D A R : Type} [DecidableEq ι] (p : Preparation D) (load : D → A → Except Err R) (args : ι → A) (c : LoaderThreads ι D R) (i : ι) :
    LoaderThreads ι D R :=
  let r := threadStep p load (args i) c.shared (c.phase i)
  { shared := r.1, phase := fun j => if j = i then r.2 else c.phase j }

/-- A schedule: which thread runs next. -/
def LoaderThreads.run {ι D A R : Type} [DecidableEq ι] (p : Preparation D) (load : D → A → Except Err R) (args : ι → A) (schedule : List ι)
    (c : LoaderThreads ι D R) : LoaderThreads ι D R := schedule.foldl (LoaderThreads.step p load args) c

/-- All threads are about to call `load_chunk` on a loader. -/
def LoaderThreads.calls {ι D R : Type} (s : XarrayState D) : LoaderThreads ι D R := { shared := s, phase := fun _ => .start }

end WBX
