import Verif.Model.Binning

/-!
# Model of the sets that can be given to `BySets` and `ByTimeUnitSets` (`/repo/weatherbenchX/binning.py:495-503, 680-690`)
-/

namespace WBX
variable {L K : Type} [DecidableEq L] [Field K] [LinearOrder K] [IsStrictOrderedRing K] [FloorRing K]

/-- A value of the dictionary `sets`. -/
inductive SetArg (L : Type)
  /-- a list, a tuple or another `Sequence` that is not text -/
  | sequence (xs : List L)
  /-- a numpy array or something that numpy converts to one with these entries -/
  | array (xs : List L)
  /-- a single value, for example text -/
  | single (x : L)
  /-- a Python `set`, `frozenset` or `dict`: not a `Sequence`, and for numpy a single object -/
  | collection (xs : List L)

/-- The entries of the numpy array that is given to `isin` (binning.py:495-500, 683-688): a `Sequence` gives its items; anything else becomes a list with one element, of which numpy makes
an array with one more dimension (an array), with one entry (a single value), or with one object, which is equal to no value of a coordinate (a Python set). -/
def SetArg.entries : SetArg L → List L
  | .sequence xs => xs
  | .array xs => xs
  | .single x => [x]
  | .collection _ => []

/-- `BySets` (binning.py:640-705) with the sets as they are given. -/
def setsMaskGiven (binDim : Option Dim) (coordName : Dim) (sets : List (L × SetArg L)) (complements : Bool) (notIn : L → L) (globalBin : Option L) (coord : DA L L) :
    Except Err (DA L Bool) :=
  setsMask binDim coordName (sets.map (fun s => (s.1, s.2.entries))) complements notIn globalBin coord

/-- `ByTimeUnitSets` (binning.py:444-514) with the sets as they are given. -/
def timeUnitSetsMaskGiven {T : Type} (dt : String → Option (T → K)) (number : K → L) (unit : String) (timeDim : Dim) (binDim : Option Dim) (sets : List (L × SetArg L))
    (globalBin : Option L) (coord : TimeCoord L K T) : Except Err (DA L Bool) :=
  timeUnitSetsMask dt number unit timeDim binDim (sets.map (fun s => (s.1, s.2.entries))) globalBin coord

end WBX
