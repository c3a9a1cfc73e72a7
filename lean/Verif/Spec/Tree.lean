import Verif.Model.Tree

/-!
# Specification vocabulary for nested structures

`Tree.map g t` is the structure with `g` applied to every leaf; `Tree.shape` forgets the leaves;
`Tree.WF` says that dict keys are unique, as in Python.
-/

namespace WBX
variable {α β γ : Type}

mutual
/-- Apply `g` to every leaf. -/
def Tree.map (g : α → β) : Tree α → Tree β
  | .leaf a => .leaf (g a)
  | .dict d => .dict (d.map g)
  | .seq xs => .seq (xs.map g)
def Dict.map (g : α → β) : Dict α → Dict β
  | .nil => .nil
  | .cons k v rest => .cons k (v.map g) (rest.map g)
def Seq.map (g : α → β) : Seq α → Seq β
  | .nil => .nil
  | .cons v rest => .cons (v.map g) (rest.map g)
end

/-- The structure without its leaves. -/
def Tree.shape (t : Tree α) : Tree Unit := t.map (fun _ => ())

mutual
/-- Unique keys in every dict. -/
def Tree.WF : Tree α → Prop
  | .leaf _ => True
  | .dict d => d.keys.Nodup ∧ d.WF
  | .seq xs => xs.WF
def Dict.WF : Dict α → Prop
  | .nil => True
  | .cons _ v rest => v.WF ∧ rest.WF
def Seq.WF : Seq α → Prop
  | .nil => True
  | .cons v rest => v.WF ∧ rest.WF
end

mutual
/-- A property holds at every leaf. -/
def Tree.All (P : α → Prop) : Tree α → Prop
  | .leaf a => P a
  | .dict d => d.All P
  | .seq xs => xs.All P
def Dict.All (P : α → Prop) : Dict α → Prop
  | .nil => True
  | .cons _ v rest => v.All P ∧ rest.All P
def Seq.All (P : α → Prop) : Seq α → Prop
  | .nil => True
  | .cons v rest => v.All P ∧ rest.All P
end

mutual
/-- Same keys/positions, and related leaves. -/
def Tree.Rel (r : α → β → Prop) : Tree α → Tree β → Prop
  | .leaf a, .leaf b => r a b
  | .dict d, .dict d' => Dict.Rel r d d'
  | .seq s, .seq s' => Seq.Rel r s s'
  | _, _ => False
def Dict.Rel (r : α → β → Prop) : Dict α → Dict β → Prop
  | .nil, .nil => True
  | .cons k v rest, .cons k' v' rest' => k = k' ∧ Tree.Rel r v v' ∧ Dict.Rel r rest rest'
  | _, _ => False
def Seq.Rel (r : α → β → Prop) : Seq α → Seq β → Prop
  | .nil, .nil => True
  | .cons v rest, .cons v' rest' => Tree.Rel r v v' ∧ Seq.Rel r rest rest'
  | _, _ => False
end

end WBX
