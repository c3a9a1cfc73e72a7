import Verif.Model.Basic

/-!
# Model of `/repo/weatherbenchX/xarray_tree.py`

Nested Python structures of dicts (insertion-ordered, string keys), lists/tuples and leaves.
Simplifications: an `xr.Dataset` is treated as a dict (the attempt to re-merge results into a Dataset,
xarray_tree.py:50-60, only changes the container type), lists, tuples and sets are one constructor `seq`;
a dict passed where the first structure is a sequence, or a container where the first structure is a leaf,
is a `TypeError` (in Python the failure comes from the mapped function).
-/

namespace WBX

mutual
/-- A nested structure. -/
inductive Tree (α : Type) where
  | leaf (a : α)
  | dict (kvs : Dict α)
  | seq (xs : Seq α)
/-- Insertion-ordered dict items. -/
inductive Dict (α : Type) where
  | nil
  | cons (k : String) (v : Tree α) (rest : Dict α)
/-- Items of a list / tuple. -/
inductive Seq (α : Type) where
  | nil
  | cons (v : Tree α) (rest : Seq α)
end

namespace Dict
variable {α : Type}

/-- Keys in insertion order (`d.keys()`). -/
def keys : Dict α → List String
  | .nil => []
  | .cons k _ rest => k :: rest.keys

/-- `d[k]`: `KeyError` if absent. -/
def get (d : Dict α) (k : String) : Except Err (Tree α) :=
  match d with
  | .nil => .error .keyError
  | .cons k' v rest => if k' = k then .ok v else rest.get k

/-- A Python dict from an item list. -/
def ofList : List (String × Tree α) → Dict α
  | [] => .nil
  | (k, v) :: rest => .cons k v (ofList rest)

/-- The items of a dict. -/
def toList : Dict α → List (String × Tree α)
  | .nil => []
  | .cons k v rest => (k, v) :: rest.toList

end Dict

namespace Seq
variable {α : Type}
/-- A sequence from its elements. -/
def ofList : List (Tree α) → Seq α
  | [] => .nil
  | v :: rest => .cons v (ofList rest)
end Seq

namespace Tree
variable {α β : Type}

/-- `s[k]` for a structure (xarray_tree.py:63): only dicts can be indexed by a key. -/
def item (t : Tree α) (k : String) : Except Err (Tree α) :=
  match t with
  | .dict d => d.get k
  | _ => .error .typeError

/-- The leaf value of a structure passed to the mapped function (xarray_tree.py:68). -/
def asLeaf : Tree α → Except Err α
  | .leaf a => .ok a
  | _ => .error .typeError

/-- The elements iterated by `zip` (xarray_tree.py:67). -/
def asSeq : Tree α → Except Err (Seq α)
  | .seq xs => .ok xs
  | _ => .error .typeError

/-- One step of `zip(*structures)` over the structures other than the first: the heads and tails, or `none`
as soon as one of them is exhausted. -/
def unconsAll : List (Seq α) → Option (List (Tree α) × List (Seq α))
  | [] => some ([], [])
  | .nil :: _ => none
  | .cons v rest :: more =>
    match unconsAll more with
    | none => none
    | some (hs, ts) => some (v :: hs, rest :: ts)

mutual
/-- `map_structure(func, first, *others)` (xarray_tree.py:42-68) by recursion on the first structure. -/
def mapWith (f : List α → Except Err β) : Tree α → List (Tree α) → Except Err (Tree β)
  | .leaf a, others => do
    let os ← others.mapM asLeaf
    let b ← f (a :: os)
    return .leaf b
  | .dict d, others => do
    let r ← mapWithDict f d others
    return .dict r
  | .seq xs, others => do
    let os ← others.mapM asSeq
    let r ← mapWithSeq f xs os
    return .seq r
/-- The dict comprehension of xarray_tree.py:61-65. -/
def mapWithDict (f : List α → Except Err β) : Dict α → List (Tree α) → Except Err (Dict β)
  | .nil, _ => .ok .nil
  | .cons k v rest, others => do
    let os ← others.mapM (fun o => o.item k)
    let b ← mapWith f v os
    let r ← mapWithDict f rest others
    return .cons k b r
/-- The generator over `zip(*structures)` of xarray_tree.py:67: stops at the shortest structure. -/
def mapWithSeq (f : List α → Except Err β) : Seq α → List (Seq α) → Except Err (Seq β)
  | .nil, _ => .ok .nil
  | .cons v rest, others =>
    match unconsAll others with
    | none => .ok .nil
    | some (hs, ts) => do
      let b ← mapWith f v hs
      let r ← mapWithSeq f rest ts
      return .cons b r
end

/-- `map_structure(func, *structures)` (xarray_tree.py:42-68): `ValueError` without structures. -/
def mapStructure (f : List α → Except Err β) : List (Tree α) → Except Err (Tree β)
  | [] => .error .valueError
  | t :: ts => mapWith f t ts

end Tree
end WBX
