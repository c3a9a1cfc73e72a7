import Verif.Model.Aggregation
import Verif.Model.Beam
import Mathlib.Data.List.Sort

/-!
# Model of the serialisation of `AggregationState` (`/repo/weatherbenchX/aggregation.py:196-258`)

`xr.DataTree` is a tree of datasets with named children; an `xr.Dataset` is an insertion-ordered list of named
arrays. Strings are lists of characters where they are searched or split.
Library contracts (xarray): the Dataset constructor outer-joins the labels of its arrays and fills with NaN (`fill`);
`DataTree(children=...)` rejects names containing `/`; `to_dict` lists the nodes breadth first under their absolute
paths; `from_dict` takes the entry `/` as root data and sets the other paths in order of depth, creating missing nodes
and refusing to overwrite an existing one; paths are split at `/` and empty and `.` components are dropped (as in
`PurePosixPath`). A `..` component, which xarray resolves to the parent, is an error here.
Not modelled: names/attrs of the arrays, scalar and non-dimension coordinates.
-/

namespace WBX

mutual
/-- `xr.DataTree`: the dataset of the node and its children. -/
inductive DT (α : Type) where
  | node (ds : List (String × α)) (children : DTs α)
/-- Named children, in insertion order. -/
inductive DTs (α : Type) where
  | nil
  | cons (k : String) (t : DT α) (rest : DTs α)
end

namespace Serialize

variable {L V : Type} [DecidableEq L]

/-- The `xr.Dataset` of the given arrays: labels are outer-joined, missing cells become `fill` (NaN). -/
def mkDataset (fill : V) (kvs : List (String × DA L V)) : List (String × DA L V) :=
  let C := DA.outerCoords (kvs.map Prod.snd)
  kvs.map (fun kv => (kv.1, { dims := kv.2.dims, coords := C,
                              val := fun e => if kv.2.InDom e then kv.2.val e else fill }))

/-- The two variable names used in the datasets of the leaves (aggregation.py:200-201). -/
def swsName : String := "sum_weighted_statistics"
/-- The second of them. -/
def swName : String := "sum_weights"

mutual
/-- `AggregationState.to_data_tree` (aggregation.py:196-208), by recursion on `sum_weighted_statistics`. -/
def toDataTree (fill : V) : Tree (DA L V) → Tree (DA L V) → Except Err (DT (DA L V))
  | .leaf a, w => do
    let b ← w.asLeaf
    return .node (mkDataset fill [(swsName, a), (swName, b)]) .nil
  | .dict d, w => do
    let cs ← toDataTrees fill d w
    return .node [] cs
  | .seq _, _ => .error .typeError
/-- The children of aggregation.py:203-206; a name containing `/` is rejected by `xr.DataTree`. -/
def toDataTrees (fill : V) : Dict (DA L V) → Tree (DA L V) → Except Err (DTs (DA L V))
  | .nil, _ => .ok .nil
  | .cons k v rest, w => do
    let wk ← w.item k
    let t ← toDataTree fill v wk
    let ts ← toDataTrees fill rest w
    if '/' ∈ k.toList then .error .valueError else return .cons k t ts
end

/-- `dataset[name]`. -/
def dsGet {α : Type} (ds : List (String × α)) (name : String) : Except Err α :=
  match pyGet? name ds with
  | some a => .ok a
  | none => .error .keyError

mutual
/-- `AggregationState.from_data_tree` (aggregation.py:210-225). A Dataset is true iff it has variables. -/
def fromDataTree {α : Type} : DT α → Except Err (Tree α × Tree α)
  | .node ds children =>
    if ds ≠ [] then do
      let a ← dsGet ds swsName
      let b ← dsGet ds swName
      return (.leaf a, .leaf b)
    else do
      let cs ← fromDataTrees children
      return (.dict cs.1, .dict cs.2)
/-- The dict comprehensions of aggregation.py:218-225. -/
def fromDataTrees {α : Type} : DTs α → Except Err (Dict α × Dict α)
  | .nil => .ok (.nil, .nil)
  | .cons k t rest => do
    let p ← fromDataTree t
    let r ← fromDataTrees rest
    return (.cons k p.1 r.1, .cons k p.2 r.2)
end

mutual
/-- The nodes in depth-first order, with the names on the way from the root. -/
def nodes {α : Type} : DT α → List (List String × List (String × α))
  | .node ds children => ([], ds) :: nodesOf children
/-- The nodes below a list of children. -/
def nodesOf {α : Type} : DTs α → List (List String × List (String × α))
  | .nil => []
  | .cons k t rest => (nodes t).map (fun p => (k :: p.1, p.2)) ++ nodesOf rest
end

/-- Stable sort of path entries by depth. -/
def sortByDepth {β : Type} (l : List (List String × β)) : List (List String × β) :=
  l.insertionSort (fun p q => p.1.length ≤ q.1.length)

/-- `DataTree.to_dict()`: breadth-first list of nodes. -/
def toDict {α : Type} (t : DT α) : List (List String × List (String × α)) := sortByDepth (nodes t)

/-- `sep.join(parts)`. -/
def joinWith (sep : List Char) : List (List Char) → List Char
  | [] => []
  | [x] => x
  | x :: y :: rest => x ++ sep ++ joinWith sep (y :: rest)

/-- The absolute path of a node, `/` for the root. -/
def pathStr (comps : List String) : List Char := '/' :: joinWith ['/'] (comps.map String.toList)

/-- `s.lstrip(c)` for a single character. -/
def lstrip (c : Char) (s : List Char) : List Char := s.dropWhile (· = c)

/-- `s.replace(old, new)` for nonempty `old`: left to right, non-overlapping; `n` is the number of characters of a match
still to be skipped. -/
def replaceGo (old new : List Char) : ℕ → List Char → List Char
  | _, [] => []
  | n + 1, _ :: cs => replaceGo old new n cs
  | 0, c :: cs => if old <+: c :: cs then new ++ replaceGo old new (old.length - 1) cs else c :: replaceGo old new 0 cs

/-- `s.replace(old, new)`. -/
def replace (old new s : List Char) : List Char := replaceGo old new 0 s

/-- `s.rsplit(sep, 1)` for nonempty `sep`, unpacked into two parts; `none` if `sep` does not occur. -/
def rsplit1 (sep : List Char) : List Char → Option (List Char × List Char)
  | [] => none
  | c :: cs => match rsplit1 sep cs with
    | some (a, b) => some (c :: a, b)
    | none => if sep <+: c :: cs then some ([], (c :: cs).drop sep.length) else none

/-- `AggregationState.to_dataset` (aggregation.py:227-247). -/
def toDataset (fill : V) (sep : String) (s : Tree (DA L V) × Tree (DA L V)) : Except Err (List (String × DA L V)) := do
  let t ← toDataTree fill s.1 s.2
  let result := (toDict t).foldl (fun res entry =>
    let path := replace ['/'] sep.toList (lstrip '/' (pathStr entry.1))
    entry.2.foldl (fun res kv => pyInsert (String.ofList (path ++ sep.toList ++ kv.1.toList)) kv.2 res) res) []
  return mkDataset fill result

/-- Splitting at a character (`str.split`). -/
def splitAtChar (c : Char) : List Char → List (List Char)
  | [] => [[]]
  | x :: xs => if x = c then [] :: splitAtChar c xs
    else match splitAtChar c xs with
      | [] => [[x]]
      | p :: ps => (x :: p) :: ps

/-- The components of a path (`PurePosixPath` drops empty and `.` components). -/
def parsePath (s : List Char) : List String :=
  ((splitAtChar '/' s).filter (fun p => p ≠ [] ∧ p ≠ ['.'])).map String.ofList

mutual
/-- `tree._set_item(path, node, allow_overwrite=False, new_nodes_along_path=True)` on the children. -/
def setItem {α : Type} (ds : List (String × α)) : List String → DT α → Except Err (DT α)
  | [], _ => .error .keyError
  | k :: rest, .node ds0 children => do
    let cs ← setChild ds k rest children
    return .node ds0 cs
/-- Setting an item below the child `k`. -/
def setChild {α : Type} (ds : List (String × α)) (k : String) (rest : List String) : DTs α → Except Err (DTs α)
  | .nil => match rest with
    | [] => .ok (.cons k (.node ds .nil) .nil)
    | _ => do
      let t ← setNew ds rest
      return .cons k t .nil
  | .cons k' t more =>
    if k' = k then do
      let t' ← setItem ds rest t
      return .cons k' t' more
    else do
      let more' ← setChild ds k rest more
      return .cons k' t more'
/-- A fresh chain of nodes. -/
def setNew {α : Type} (ds : List (String × α)) : List String → Except Err (DT α)
  | [] => .ok (.node ds .nil)
  | k :: rest => do
    let t ← setNew ds rest
    return .node [] (.cons k t .nil)
end

/-- `xr.DataTree.from_dict(d)`. -/
def fromDict {α : Type} (d : List (List Char × List (String × α))) : Except Err (DT α) :=
  let root := (d.find? (fun p => p.1 = ['/'])).elim [] Prod.snd
  let others := (d.filter (fun p => p.1 ≠ ['/'])).map (fun p => (parsePath p.1, p.2))
  if others.any (fun p => ".." ∈ p.1) then .error .valueError
  else (sortByDepth others).foldlM (fun t p => setItem p.2 p.1 t) (.node root .nil)

/-- `d[path][name] = a` on a `defaultdict(xr.Dataset)` (aggregation.py:257). The arrays come from one Dataset, so
their labels already agree. -/
def putGroup {α : Type} (path : List Char) (name : String) (a : α) :
    List (List Char × List (String × α)) → List (List Char × List (String × α))
  | [] => [(path, [(name, a)])]
  | (p, ds) :: rest => if p = path then (p, pyInsert name a ds) :: rest else (p, ds) :: putGroup path name a rest

/-- The loop of `from_dataset` (aggregation.py:253-257). -/
def groupPaths {α : Type} (sep : List Char) : List (String × α) → List (List Char × List (String × α)) →
    Except Err (List (List Char × List (String × α)))
  | [], acc => .ok acc
  | (key, a) :: rest, acc =>
    if sep = [] then .error .valueError
    else match rsplit1 sep key.toList with
      | none => .error .valueError
      | some (path, name) => groupPaths sep rest (putGroup ('/' :: replace sep ['/'] path) (String.ofList name) a acc)

/-- `AggregationState.from_dataset` (aggregation.py:249-258). -/
def fromDataset {α : Type} (sep : String) (ds : List (String × α)) : Except Err (Tree α × Tree α) := do
  let d ← groupPaths sep.toList ds []
  let t ← fromDict d
  fromDataTree t

end Serialize
end WBX
