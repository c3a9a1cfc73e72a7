import Verif.Model.Wrappers
import Verif.Model.Naming

/-!
# Model of the transforms `Rename`, `Select` and `StackToNewDimension` (`/repo/weatherbenchX/metrics/wrappers.py:663-766`)

Labels have no order by themselves: where positions matter, `order` lists the labels of each dimension in the order that the arrays have. Coordinates other than
those of the dimensions and the mask are not modelled, nor are `sel_kwargs`, `isel_kwargs` and vectorized indexers.
-/

namespace WBX
open DA
variable {L K V : Type} [DecidableEq L] [Field K] [LinearOrder K] [IsStrictOrderedRing K]

/-! ### Rename -/

/-- `Rename.transform_fn` (wrappers.py:685-686): `da.rename(renames)`. A key that is not a dimension and a new name that is used twice are `ValueError`s. -/
def renameFn (dict : List (String × String)) (x : StatVar L V) : Except Err (StatVar L V) :=
  if dict.any (fun kv => decide (kv.1 ∉ x.arr.dims)) then .error .valueError
  else if (x.arr.dims.image (newName dict)).card ≠ x.arr.dims.card then .error .valueError
  else .ok ⟨x.arr.renameDims (newName dict), x.mask.map (fun m => m.renameDims (newName dict))⟩

/-- `Rename` (wrappers.py:663-686); `text` is the text of the dictionary. -/
def renameTransform (which : String) (dict : List (String × String)) (text : String) : Except Err (InputTransform L K) :=
  mkTransform which ("rename_" ++ text) (fun _ x => renameFn dict x)

/-! ### Select -/

/-- The array with only the labels of dimension `d` that satisfy `P`. -/
def DA.filterLabels (d : Dim) (P : L → Bool) (a : DA L V) : DA L V :=
  { a with coords := fun k => if k = d then (a.coords k).filter (fun l => P l = true) else a.coords k }

/-- See `DA.filterLabels`; the mask coordinate is selected along. -/
def StatVar.filterLabels (d : Dim) (P : L → Bool) (x : StatVar L V) : StatVar L V := ⟨x.arr.filterLabels d P, x.mask.map (DA.filterLabels d P)⟩

/-- `da.sel({d: …})`: one label, several labels or a slice. -/
inductive Indexer (L : Type) where
  | label (l : L)
  | labels (ls : List L)
  | slice (start stop : Option L)

/-- Whether a slice contains a label: both ends are included. -/
def inSlice [LinearOrder L] (start stop : Option L) (l : L) : Bool := decide ((∀ s, start = some s → s ≤ l) ∧ ∀ s, stop = some s → l ≤ s)

/-- `da.sel({d: ix})` (wrappers.py:722-723) on a sorted index; a missing dimension or label is a `KeyError`. -/
def selIndexer [LinearOrder L] (d : Dim) (ix : Indexer L) (x : StatVar L (FV K)) : Except Err (StatVar L (FV K)) :=
  match ix with
  | .label l => selLabel d l x
  | .labels ls =>
    if d ∉ x.arr.dims then .error .keyError
    else if ls.all (fun l => decide (l ∈ x.arr.coords d)) then .ok (x.filterLabels d (fun l => decide (l ∈ ls)))
    else .error .keyError
  | .slice start stop => if d ∉ x.arr.dims then .error .keyError else .ok (x.filterLabels d (inSlice start stop))

/-- `da.isel({d: …})`: one position, several positions or a slice. -/
inductive Position where
  | at (i : ℤ)
  | list (is : List ℤ)
  | slice (start stop : Option ℕ)

/-- The label at a position; negative positions count from the end. `IndexError` outside. -/
def labelAtPosition (ls : List L) (i : ℤ) : Except Err L :=
  match (if 0 ≤ i then ls[i.toNat]? else if 0 ≤ i + ls.length then ls[(i + ls.length).toNat]? else none) with
  | some l => .ok l
  | none => .error .indexError

/-- `da.isel({d: pos})` (wrappers.py:724-725) of an array whose labels along `d` are, in order, `ls`; a missing dimension is a `ValueError`. -/
def iselPosition (d : Dim) (ls : List L) (pos : Position) (x : StatVar L (FV K)) : Except Err (StatVar L (FV K)) :=
  if d ∉ x.arr.dims then .error .valueError
  else match pos with
    | .at i => do
      let l ← labelAtPosition ls i
      selLabel d l x
    | .list is => do
      let chosen ← is.mapM (labelAtPosition ls)
      return x.filterLabels d (fun l => decide (l ∈ chosen))
    | .slice start stop =>
      let chosen := ((match stop with | some b => ls.take b | none => ls).drop (start.getD 0))
      .ok (x.filterLabels d (fun l => decide (l ∈ chosen)))

/-- The labels along `d` in order after `sel`. -/
def orderAfter (order : Dim → List L) (sel : List (Dim × Indexer L)) (x : StatVar L V) (d : Dim) : List L :=
  match pyGet? d sel with
  | some (.labels ls) => ls
  | _ => (order d).filter (fun l => decide (l ∈ x.arr.coords d))

/-- `Select.transform_fn` (wrappers.py:720-726). -/
def selectFn [LinearOrder L] (order : Dim → List L) (sel : List (Dim × Indexer L)) (isel : List (Dim × Position)) (x : StatVar L (FV K)) : Except Err (StatVar L (FV K)) := do
  let y ← sel.foldlM (fun x kv => selIndexer kv.1 kv.2 x) x
  isel.foldlM (fun z kv => iselPosition kv.1 (orderAfter order sel y kv.1) kv.2 z) y

/-- `Select` (wrappers.py:689-726); `text` is the text of the arguments. -/
def selectTransform [LinearOrder L] (which : String) (order : Dim → List L) (sel : List (Dim × Indexer L)) (isel : List (Dim × Position)) (text : String) :
    Except Err (InputTransform L K) :=
  mkTransform which ("select_" ++ text) (fun _ x => selectFn order sel isel x)

/-! ### StackToNewDimension -/

/-- All combinations of labels of the dimensions, the last dimension varying fastest (the order of `stack`). -/
def combos (order : Dim → List L) : List Dim → List (List L)
  | [] => [[]]
  | d :: ds => (order d).flatMap (fun l => (combos order ds).map (fun ls => l :: ls))

/-- The cell with the given labels of the given dimensions. -/
def putLabels (e : Dim → L) : List Dim → List L → (Dim → L)
  | d :: ds, l :: ls => putLabels (setLabel e d l) ds ls
  | _, _ => e

/-- One stacked array: at position `i` of the new dimension the value of the `i`-th combination. The labels of the new dimension are its positions, given by `label`. -/
def stackArray (label : ℕ → L) (order : Dim → List L) (ds : List Dim) (new : Dim) (a : DA L V) : DA L V where
  dims := insert new (a.dims \ ds.toFinset)
  coords := fun k => if k = new then ((List.range (combos order ds).length).map label).toFinset else a.coords k
  val := fun e =>
    match (List.range (combos order ds).length).find? (fun i => decide (label i = e new)) with
    | some i => a.val (putLabels e ds ((combos order ds).getD i []))
    | none => a.val e

/-- `StackToNewDimension.transform_fn` (wrappers.py:762-766): stack under a temporary name, drop the labels of the stacked dimensions, rename. A dimension to stack that the
array does not have is a `KeyError`; a new name that another dimension has is a `ValueError`. A mask coordinate along a stacked dimension is stacked too. No dimension to stack is
taken as an error. -/
def stackFn (label : ℕ → L) (order : Dim → List L) (ds : List Dim) (new : Dim) (x : StatVar L V) : Except Err (StatVar L V) :=
  if ds.any (fun d => decide (d ∉ x.arr.dims)) then .error .keyError
  else if new ∈ x.arr.dims ∧ new ∉ ds then .error .valueError
  else if ds = [] then .error .valueError
  else .ok ⟨stackArray label order ds new x.arr, x.mask.map (fun m => if ds.any (fun d => decide (d ∈ m.dims)) then stackArray label order ds new m else m)⟩

/-- `StackToNewDimension` (wrappers.py:729-766); `text` is the text of the list of dimensions. -/
def stackTransform (which : String) (label : ℕ → L) (order : Dim → List L) (ds : List Dim) (new : Dim) (text : String) : Except Err (InputTransform L K) :=
  mkTransform which ("stack_" ++ text ++ "_to_" ++ new) (fun _ x => stackFn label order ds new x)

end WBX
