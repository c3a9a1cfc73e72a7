import Verif.Model.Aggregation
import Verif.Spec.Array
import Verif.Spec.Tree

/-!
# Specification vocabulary for aggregation states
-/

namespace WBX
variable {L V : Type} [DecidableEq L]

/-- Two aggregation states are the same: both zero, or the same nested keys with the same labelled arrays. -/
def AggState.Same : AggState L V → AggState L V → Prop
  | none, none => True
  | some (a, b), some (a', b') => Tree.Rel DA.Same a a' ∧ Tree.Rel DA.Same b b'
  | _, _ => False

/-- The nested keys of a state together with the dimension set of every array. -/
def AggState.signature (p : Tree (DA L V) × Tree (DA L V)) : Tree (Finset Dim) × Tree (Finset Dim) :=
  (p.1.map DA.dims, p.2.map DA.dims)

/-- The state is zero or has signature `σ`. -/
def AggState.HasSig (σ : Tree (Finset Dim) × Tree (Finset Dim)) (s : AggState L V) : Prop :=
  ∀ p, s = some p → AggState.signature p = σ

/-- One chunk of a dictionary of statistics: every variable restricted to the labels `S` of dimension `c`. -/
def chunkOf (c : Dim) (S : Finset L) (statistics : List (String × List (String × Option (StatVar L V)))) :
    List (String × List (String × Option (StatVar L V))) :=
  statistics.map (fun st => (st.1, st.2.map (fun vr => (vr.1, vr.2.map (fun s =>
    { arr := s.arr.restrict c S, mask := s.mask.map (DA.restrict c S) })))))

/-- Keys are unique, as in Python dicts. -/
def UniqueKeys (statistics : List (String × List (String × Option (StatVar L V)))) : Prop :=
  (statistics.map Prod.fst).Nodup ∧ ∀ st ∈ statistics, (st.2.map Prod.fst).Nodup

end WBX

namespace WBX
variable {L V : Type} [DecidableEq L]

/-- A binning whose bins are discovered from the data of the chunk (e.g. `ByExactCoord`): on a chunk it gives the
chunk of the whole mask restricted to some bin labels `T`; the dropped bins have an all-zero mask on that chunk; and
every bin of the whole mask occurs in some chunk of every partition. -/
def ChunkwiseBin [Zero V] (c : Dim) (b : BinBy L V) : Prop :=
  ∀ a : DA L V, c ∈ a.dims → b.binDim ∈ (b.createBinMask a).dims ∧ ∃ T : Finset L → Finset L,
    (∀ S, (b.createBinMask (a.restrict c S)).Same (((b.createBinMask a).restrict c S).restrict b.binDim (T S))) ∧
    (∀ S e, (b.createBinMask a).InDom e → e c ∈ S → e c ∈ a.coords c → e b.binDim ∉ T S →
      (b.createBinMask a).val e = 0) ∧
    (∀ Ss : List (Finset L), Ss ≠ [] → Partition Ss (a.coords c) → ∀ l ∈ (b.createBinMask a).coords b.binDim,
      ∃ S ∈ Ss, l ∈ T S)

namespace Aggregator

/-- Every weight and bin mask of the aggregator is computed label by label along `c`. -/
def Local (agg : Aggregator L V) (c : Dim) : Prop :=
  (∀ w ∈ agg.weighBy, LocalAlong c w) ∧ (∀ b ∈ agg.binBy, LocalAlong c b.createBinMask)

/-- Weights are local along `c`, bins may depend on the chunk. -/
def VaryingLocal [Zero V] (agg : Aggregator L V) (c : Dim) : Prop :=
  (∀ w ∈ agg.weighBy, LocalAlong c w) ∧ (∀ b ∈ agg.binBy, ChunkwiseBin c b ∧ b.binDim ∉ agg.reduceDims ∧ b.binDim ≠ c)

end Aggregator

end WBX

namespace WBX
variable {L V : Type} [DecidableEq L]

/-- Weights and bin masks are computed from dimensions and labels only, not from the values of the statistic. -/
def Aggregator.CoordOnly (agg : Aggregator L V) : Prop :=
  (∀ w ∈ agg.weighBy, ∀ a a' : DA L V, a.dims = a'.dims → a.coords = a'.coords → w a = w a') ∧
  (∀ b ∈ agg.binBy, ∀ a a' : DA L V, a.dims = a'.dims → a.coords = a'.coords → b.createBinMask a = b.createBinMask a')

/-- All weights and bin masks the aggregator applies to a statistic. -/
def Aggregator.allFactors (agg : Aggregator L V) (stat : DA L V) : List (DA L V) :=
  agg.weighBy.map (fun w => w stat) ++ agg.binBy.map (fun b => b.createBinMask stat)

end WBX
