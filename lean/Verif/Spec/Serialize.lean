import Verif.Model.Serialize
import Verif.Spec.Aggregation

/-!
# Specification vocabulary for serialisation
-/

namespace WBX

mutual
/-- The leaf reached by following the keys `p` from the top of a nested dict. -/
def Tree.getPath {α : Type} : Tree α → List String → Option α
  | .leaf a, [] => some a
  | .dict d, k :: p => Dict.getPath d k p
  | _, _ => none
def Dict.getPath {α : Type} : Dict α → String → List String → Option α
  | .nil, _, _ => none
  | .cons k v rest, k', p => if k = k' then Tree.getPath v p else Dict.getPath rest k' p
end

mutual
/-- Every dict key of the structure satisfies `P`. -/
def Tree.AllKeys {α : Type} (P : String → Prop) : Tree α → Prop
  | .leaf _ => True
  | .dict d => d.AllKeys P
  | .seq xs => xs.AllKeys P
def Dict.AllKeys {α : Type} (P : String → Prop) : Dict α → Prop
  | .nil => True
  | .cons k v rest => P k ∧ v.AllKeys P ∧ rest.AllKeys P
def Seq.AllKeys {α : Type} (P : String → Prop) : Seq α → Prop
  | .nil => True
  | .cons v rest => v.AllKeys P ∧ rest.AllKeys P
end

mutual
/-- The structure consists of dicts and leaves only. -/
def Tree.DictsOnly {α : Type} : Tree α → Prop
  | .leaf _ => True
  | .dict d => d.DictsOnly
  | .seq _ => False
def Dict.DictsOnly {α : Type} : Dict α → Prop
  | .nil => True
  | .cons _ v rest => v.DictsOnly ∧ rest.DictsOnly
end

/-- A name usable as a component of a path. -/
def GoodName (k : String) : Prop := '/' ∉ k.toList ∧ k ≠ "" ∧ k ≠ "." ∧ k ≠ ".."

/-- Two strings have no character in common. -/
def NoCommonChar (k sep : String) : Prop := ∀ c ∈ k.toList, c ∉ sep.toList

/-- Two arrays have the same labels on the dimensions they share. -/
def DA.SameLabels {L V : Type} (a b : DA L V) : Prop := ∀ d ∈ a.dims, d ∈ b.dims → a.coords d = b.coords d

end WBX
