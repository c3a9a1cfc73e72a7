import Verif.Model.Wrappers

/-!
# Specification of chunk locality

Cutting the data into chunks along a dimension `c` (a time dimension) and computing statistics of each chunk must give the chunks of the
statistics of the whole data.
-/

namespace WBX
variable {L V K : Type} [DecidableEq L]

/-- One chunk of an array: only the labels `S` of dimension `c`, also of its `mask` coordinate. -/
def StatVar.chunk (c : Dim) (S : Finset L) (a : StatVar L V) : StatVar L V := ⟨a.arr.restrict c S, a.mask.map (DA.restrict c S)⟩

/-- One chunk of a dictionary of arrays. -/
def chunkVars (c : Dim) (S : Finset L) (vs : Vars (StatVar L V)) : Vars (StatVar L V) := vs.map (fun kv => (kv.1, kv.2.chunk c S))

/-- One chunk of the statistics of one name. -/
def chunkStats (c : Dim) (S : Finset L) (vs : Vars (Option (StatVar L V))) : Vars (Option (StatVar L V)) :=
  vs.map (fun kv => (kv.1, kv.2.map (StatVar.chunk c S)))

/-- The array has no mask, or the mask `m`. -/
def MaskIn (m : DA L Bool) (a : StatVar L V) : Prop := a.mask = none ∨ a.mask = some m

/-- The data of an evaluation: every array has the dimension `c`, and predictions and targets of a variable do not have two different
masks. -/
structure Chunkable (c : Dim) (p t : Vars (StatVar L V)) : Prop where
  dimP : ∀ v a, (v, a) ∈ p → c ∈ a.arr.dims
  dimT : ∀ v a, (v, a) ∈ t → c ∈ a.arr.dims
  masks : ∃ μ : String → DA L Bool, (∀ v a, (v, a) ∈ p → MaskIn (μ v) a) ∧ ∀ v a, (v, a) ∈ t → MaskIn (μ v) a

/-- No array has a mask (the data were loaded without `add_nan_mask`). -/
def Unmasked (p t : Vars (StatVar L V)) : Prop := (∀ v a, (v, a) ∈ p → a.mask = none) ∧ ∀ v a, (v, a) ∈ t → a.mask = none

/-- For the data described by `H`, the statistics of a chunk are the chunk of the statistics. -/
def Statistic.LocalOn (H : Vars (StatVar L V) → Vars (StatVar L V) → Prop) (c : Dim) (s : Statistic (StatVar L V) (Option (StatVar L V))) : Prop :=
  ∀ (S : Finset L) (p t : Vars (StatVar L V)) (out : Vars (Option (StatVar L V))), H p t → s.compute p t = .ok out →
    s.compute (chunkVars c S p) (chunkVars c S t) = .ok (chunkStats c S out)

/-- The statistics of a chunk are the chunk of the statistics. -/
def Statistic.ChunkLocal (c : Dim) (s : Statistic (StatVar L V) (Option (StatVar L V))) : Prop := s.LocalOn (Chunkable c) c

end WBX
