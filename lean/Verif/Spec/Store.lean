import Verif.Model.Unaggregated

/-!
# Specification of a store written by region writes

What `xbeam.Rechunk` followed by `xbeam.ChunksToZarr` guarantee (contract of xarray-beam): elements may be split, merged,
reordered and written again after a failure, but every value in the store was carried by an element for that cell, and every
cell for which an element carries a value has been written.
-/

namespace WBX
variable {L V : Type} [DecidableEq L]

structure IsStoreOf (ws : List (Write L V)) (st : Store L V) : Prop where
  carried : ∀ n c v, st n c = some v → ∃ w ∈ ws, w.name = n ∧ w.valueAt c = some v
  complete : ∀ w ∈ ws, ∀ c, (w.valueAt c).isSome → (st w.name c).isSome

/-- The label at position `i` in the store is `x`, at position `j` it is `y`: the cell of the array. -/
def atTimes (e : Dim → L) (x y : L) : Dim → L := DA.setLabel (DA.setLabel e "init_time" x) "lead_time" y

/-- The variables of the store of a dictionary of statistics, with their arrays. -/
def storeVars (stats : List (String × List (String × Option (StatVar L V)))) : List (String × Option (StatVar L V)) :=
  stats.flatMap (fun st => st.2.map (fun vr => (statisticName st.1 vr.1, vr.2)))

end WBX
