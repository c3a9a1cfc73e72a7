import Verif.Model.MetricsBase

/-!
# Aggregation states as tables: for every statistic and variable, the sum of weighted statistics and the sum of weights
-/

namespace WBX
variable {L V : Type} [DecidableEq L]

/-- Entries by statistic and variable. -/
abbrev StateTable (L V : Type) := List (String × Vars (DA L V × DA L V))

/-- The state with these entries. -/
def AggState.ofTable (t : StateTable L V) : AggState L V :=
  some (.dict (Dict.ofList (t.map (fun sv => (sv.1, Aggregator.leaves (sv.2.map (fun v => (v.1, v.2.1))))))),
        .dict (Dict.ofList (t.map (fun sv => (sv.1, Aggregator.leaves (sv.2.map (fun v => (v.1, v.2.2))))))))

/-- Names are not repeated. -/
def UniqueNames (t : StateTable L V) : Prop := (t.map Prod.fst).Nodup ∧ ∀ sv ∈ t, (sv.2.map Prod.fst).Nodup

/-- A function of the two arrays of each entry, under the same names. -/
def StateTable.mapEntries {α : Type} (f : DA L V → DA L V → α) (t : StateTable L V) : List (String × Vars α) :=
  t.map (fun sv => (sv.1, sv.2.map (fun v => (v.1, f v.2.1 v.2.2))))

/-- The entry of a table under a statistic and a variable. -/
def entry? {α : Type} (t : List (String × Vars α)) (s v : String) : Option α := (pyGet? s t).bind (pyGet? v)

end WBX
