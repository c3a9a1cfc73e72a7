import Verif.Model.Transforms

/-!
# What selecting and stacking mean
-/

namespace WBX
variable {L V : Type} [DecidableEq L]

/-- The labels that an indexer keeps. -/
def Indexer.Keeps [LE L] : Indexer L → L → Prop
  | .label l, k => k = l
  | .labels ls, k => k ∈ ls
  | .slice start stop, k => (∀ s, start = some s → s ≤ k) ∧ ∀ s, stop = some s → k ≤ s

/-- `r` is `a` with only the selected labels; dimensions of which one label is selected are gone, the values are those at that label. -/
structure Selected [LE L] (sel : List (Dim × Indexer L)) (a r : DA L V) : Prop where
  dims : ∀ k, k ∈ r.dims ↔ k ∈ a.dims ∧ ∀ l, (k, Indexer.label l) ∉ sel
  labels : ∀ k ∈ r.dims, ∀ l, l ∈ r.coords k ↔ l ∈ a.coords k ∧ ∀ ix, (k, ix) ∈ sel → ix.Keeps l
  values : ∀ e e' : Dim → L, (∀ k l, (k, Indexer.label l) ∈ sel → e' k = l) → (∀ k, (∀ l, (k, Indexer.label l) ∉ sel) → e' k = e k) → r.val e = a.val e'

/-- `l` is the label at position `i` of the labels `ls`; negative positions count from the end. -/
def AtPosition (ls : List L) (i : ℤ) (l : L) : Prop := ∃ n : ℕ, ls[n]? = some l ∧ (i = n ∨ i = (n : ℤ) - ls.length)

/-- The labels at the positions. -/
def PositionsOf (ls : List L) : Position → Indexer L → Prop
  | .at i, .label l => AtPosition ls i l
  | .list is, .labels ks => List.Forall₂ (AtPosition ls) is ks
  | .slice start stop, .labels ks => ∀ l, l ∈ ks ↔ ∃ n : ℕ, ls[n]? = some l ∧ start.getD 0 ≤ n ∧ ∀ b, stop = some b → n < b
  | _, _ => False

/-- The position of the combination of the positions `js` of dimensions with the sizes `ns`, the last one varying fastest. -/
def rowMajor : List ℕ → List ℕ → ℕ
  | _ :: ns, j :: js => j * ns.prod + rowMajor ns js
  | _, _ => 0

/-- `ls` are the labels at the positions `js` of the dimensions `ds`. -/
def PickedLabels (order : Dim → List L) : List Dim → List ℕ → List L → Prop
  | [], [], [] => True
  | d :: ds, j :: js, l :: ls => (order d)[j]? = some l ∧ PickedLabels order ds js ls
  | _, _, _ => False

end WBX
