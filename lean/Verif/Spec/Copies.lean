import Verif.Spec.Roles
import Verif.Spec.Repeated

/-!
# Specification for C107: ensembles in which every member is listed several times
-/

namespace WBX
variable {L V : Type} [DecidableEq L]

/-- The members `C'` are copies of the members `C`, `n` of each; `π` says of which. -/
structure Copies (n : ℕ) (C C' : Finset L) (π : L → L) : Prop where
  maps : ∀ l ∈ C', π l ∈ C
  fibres : ∀ l ∈ C, (C'.filter (fun l' => π l' = l)).card = n

/-- `a.isel({d: [...]})` with repeated positions, and new labels: the member `l ∈ C'` is a copy of the member `π l`. -/
def DA.copied (d : Dim) (C' : Finset L) (π : L → L) (a : DA L V) : DA L V :=
  { dims := a.dims, coords := fun k => if k = d then C' else a.coords k, val := fun e => a.val (DA.setLabel e d (π (e d))) }

/-- The values are copied; masks here do not have the member dimension. -/
def StatVar.copied (d : Dim) (C' : Finset L) (π : L → L) (a : StatVar L V) : StatVar L V := ⟨a.arr.copied d C' π, a.mask⟩

/-- All variables. -/
def copyMembers (d : Dim) (C' : Finset L) (π : L → L) (vs : Vars (StatVar L V)) : Vars (StatVar L V) := vs.map (fun kv => (kv.1, kv.2.copied d C' π))

/-- A forecast with members `C` on dimension `d`, and a mask (if any) that does not look at the members. -/
structure EnsembleOf (d : Dim) (C : Finset L) (a : StatVar L V) : Prop where
  has : d ∈ a.arr.dims
  labels : a.arr.coords d = C
  mask : ∀ m, a.mask = some m → m.Without d

/-- Observations with or without members of their own, and a mask (if any) that does not look at the members. -/
structure MayHaveMembers (d : Dim) (t : StatVar L V) : Prop where
  own : d ∉ t.arr.dims → t.arr.Without d
  mask : ∀ m, t.mask = some m → m.Without d

end WBX
