import Verif.Model.Beam
import Verif.Spec.Aggregation
import Mathlib.Data.Option.Defs
import Mathlib.Data.List.Defs
import Mathlib.Data.List.ProdSigma

/-!
# Specification vocabulary for the pipeline
-/

namespace WBX
variable {L V : Type} [DecidableEq L]

/-- The entry `t[s][v]` of a two-level dict, if present. -/
def Tree.get2 {α : Type} (t : Tree α) (s v : String) : Option α :=
  match t with
  | .dict d => match d.get s with
    | .ok (.dict d') => match d'.get v with
      | .ok (.leaf a) => some a
      | _ => none
    | _ => none
  | _ => none

/-- The chunks of the pipeline: for each init chunk `(offset, labels)` and each lead chunk, the offsets and the chunk of
the statistics. -/
def gridChunks (Is Js : List (ℕ × Finset L)) (statistics : List (String × List (String × Option (StatVar L V)))) :
    List ((ℕ × ℕ) × List (String × List (String × Option (StatVar L V)))) :=
  (Is ×ˢ Js).map (fun q => ((q.1.1, q.2.1), chunkOf "lead_time" q.2.2 (chunkOf "init_time" q.1.2 statistics)))

/-- Every array of the dict has a label in each of its dimensions, and one in each chunk along the time dimensions it
keeps. -/
def Populated (Is Js : List (ℕ × Finset L)) (t : Tree (DA L V)) : Prop :=
  ∀ s v a, t.get2 s v = some a → (∀ d ∈ a.dims, (a.coords d).Nonempty) ∧
    ("init_time" ∈ a.dims → ∀ i ∈ Is, (a.coords "init_time" ∩ i.2).Nonempty) ∧
    ("lead_time" ∈ a.dims → ∀ j ∈ Js, (a.coords "lead_time" ∩ j.2).Nonempty)

end WBX
