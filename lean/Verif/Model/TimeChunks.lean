import Verif.Model.Basic

/-!
# Model of `/repo/weatherbenchX/time_chunks.py`

Times are elements of arbitrary types `I` (init times) and `T` (lead times); `astype('datetime64[ns]')`
is not modelled (it does not change which element is where).
-/

namespace WBX

/-- The `lead_times` argument of `TimeChunks.__init__` (time_chunks.py:40-46): an array, a slice with
optional start/stop/step, or something else (rejected at line 152). -/
inductive LeadArg (T : Type) where
  | arr (ts : List T)
  | slice (start stop step : Option T)
  | other

/-- A lead-time chunk yielded by iteration (time_chunks.py:27): an array or the whole slice. -/
inductive LeadChunk (T : Type) where
  | arr (ts : List T)
  | slice (start stop : T)

/-- State of a constructed `TimeChunks` (time_chunks.py:154-159).
`leadSize` is `None` when the lead times are a slice and no chunk size was given. -/
structure TimeChunks (I T : Type) where
  initTimes : List I
  leadTimes : LeadArg T
  initSize : Nat
  leadSize : Option Nat
  initChunks : List (List I)
  leadChunks : List (LeadChunk T)

namespace TimeChunks

variable {I T : Type}

/-- Python's `range(0, n, step)` for `n, step ≥ 0` (used at time_chunks.py:129 and 149):
step 0 raises `ValueError`, otherwise `0, step, 2*step, ...` below `n`. -/
def pyRange (n step : Nat) : Except Err (List Nat) :=
  if step = 0 then .error .valueError
  else .ok ((List.range ((n + step - 1) / step)).map (fun k => k * step))

/-- Python slicing `xs[i : i + c]` for nonnegative `i`, `c` (time_chunks.py:128 and 148). -/
def pySlice {α : Type} (xs : List α) (i c : Nat) : List α := (xs.drop i).take c

/-- `[xs[i : i+size] for i in range(0, len(xs), size)]` (time_chunks.py:127-130 and 147-150). -/
def split {α : Type} (xs : List α) (size : Nat) : Except Err (List (List α)) := do
  let starts ← pyRange xs.length size
  return starts.map (fun i => pySlice xs i size)

/-- `if chunk_size is not None and chunk_size < 0` (time_chunks.py:112-119). -/
def isNegative : Option Int → Bool
  | some c => decide (c < 0)
  | none => false

/-- `if not chunk_size: chunk_size = len(times)` (time_chunks.py:124-125 and 144-145); the argument is
known to be nonnegative here. -/
def effectiveSize (c : Option Int) (len : Nat) : Nat :=
  match c with
  | none => len
  | some c => if c = 0 then len else c.toNat

/-- `TimeChunks.__init__` (time_chunks.py:38-159), checks in source order. -/
def make (initTimes : List I) (leadTimes : LeadArg T) (initSize leadSize : Option Int) :
    Except Err (TimeChunks I T) := do
  if isNegative initSize then throw .valueError
  if isNegative leadSize then throw .valueError
  let isz := effectiveSize initSize initTimes.length
  let ichunks ← split initTimes isz
  match leadTimes with
  | .slice start stop step =>
    match start, stop with
    | some a, some b =>
      if step.isSome then throw .valueError
      -- `if lead_time_chunk_size:` - truthy means nonzero
      match leadSize with
      | some c => if c ≠ 0 then throw .valueError
      | none => pure ()
      return { initTimes := initTimes, leadTimes := leadTimes, initSize := isz,
               leadSize := leadSize.map Int.toNat, initChunks := ichunks, leadChunks := [.slice a b] }
    | _, _ => throw .valueError
  | .arr ts =>
    let lsz := effectiveSize leadSize ts.length
    let lchunks ← split ts lsz
    return { initTimes := initTimes, leadTimes := leadTimes, initSize := isz,
             leadSize := some lsz, initChunks := ichunks, leadChunks := lchunks.map .arr }
  | .other => throw .valueError

/-- `TimeChunks.__iter__` (time_chunks.py:177-178): `itertools.product`. -/
def iter (tc : TimeChunks I T) : List (List I × LeadChunk T) :=
  tc.initChunks.flatMap (fun i => tc.leadChunks.map (fun l => (i, l)))

/-- `TimeChunks.__len__` (time_chunks.py:180-181). -/
def len (tc : TimeChunks I T) : Nat := tc.initChunks.length * tc.leadChunks.length

/-- Python list indexing with a nonnegative index. -/
def pyGet {α : Type} (xs : List α) (i : Nat) : Except Err α :=
  match xs[i]? with
  | some x => .ok x
  | none => .error .indexError

/-- `TimeChunks.__getitem__` (time_chunks.py:183-188). -/
def getItem (tc : TimeChunks I T) (index : Int) : Except Err (List I × LeadChunk T) := do
  if index < 0 ∨ index ≥ (tc.len : Int) then throw .indexError
  let i := index.toNat
  let ic ← pyGet tc.initChunks (i / tc.leadChunks.length)
  let lc ← pyGet tc.leadChunks (i % tc.leadChunks.length)
  return (ic, lc)

/-- `TimeChunkOffsets` (time_chunks.py:30-33). -/
structure Offsets where
  initTime : Nat
  leadTime : Nat
  deriving DecidableEq, Repr

/-- One step of `iter_with_chunk_offsets` (time_chunks.py:198-202): `None * int` raises `TypeError`. -/
def offsetsAt (tc : TimeChunks I T) (index : Nat) : Except Err Offsets :=
  match tc.leadSize with
  | none => .error .typeError
  | some ls => .ok { initTime := tc.initSize * (index / tc.leadChunks.length)
                     leadTime := ls * (index % tc.leadChunks.length) }

/-- `TimeChunks.iter_with_chunk_offsets` (time_chunks.py:190-202), run to completion. -/
def iterWithOffsets (tc : TimeChunks I T) :
    Except Err (List (Offsets × (List I × LeadChunk T))) :=
  tc.iter.zipIdx.mapM (fun p => do
    let o ← tc.offsetsAt p.2
    return (o, p.1))

end TimeChunks
end WBX
