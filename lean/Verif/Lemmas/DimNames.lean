import Verif.Spec.DimNames
import Verif.Lemmas.Relabel
import Mathlib.Data.List.Dedup

/-!
# Other names for dimensions: every operation commutes with them
-/

namespace WBX
open DA Aggregator
set_option linter.unusedSectionVars false

section arrays
variable {L V W U : Type} [DecidableEq L] (σ : Equiv.Perm Dim)

theorem redim_dims (a : DA L V) : (a.redim σ).dims = a.dims.map σ.toEmbedding := rfl

theorem mem_redim {d : Dim} (a : DA L V) : σ d ∈ (a.redim σ).dims ↔ d ∈ a.dims := by
  rw [redim_dims, Finset.mem_map_equiv, Equiv.symm_apply_apply]

theorem redim_coords (d : Dim) (a : DA L V) : (a.redim σ).coords (σ d) = a.coords d := by
  show a.coords (σ.symm (σ d)) = _
  rw [Equiv.symm_apply_apply]

theorem redim_map (f : V → W) (a : DA L V) : (a.redim σ).map f = (a.map f).redim σ := rfl

theorem redim_scalar (v : V) : (DA.scalar v : DA L V).redim σ = DA.scalar v := by
  refine DA.extAll ?_ rfl rfl
  simp [DA.redim, DA.scalar]

theorem redim_zip (f : V → W → U) (a : DA L V) (b : DA L W) : DA.zipWith f (a.redim σ) (b.redim σ) = (DA.zipWith f a b).redim σ := by
  refine DA.extAll ?_ ?_ rfl
  · simp only [DA.zipWith, DA.redim, Finset.map_union]
  · funext d
    simp only [DA.zipWith, DA.joinCoords, DA.redim, Finset.mem_map_equiv]

/-- Setting a label in the renamed dimension. -/
theorem set_redim (e : Dim → L) (d : Dim) (l : L) : (fun k => setLabel e (σ d) l (σ k)) = setLabel (fun k => e (σ k)) d l := by
  funext k
  unfold setLabel
  simp only [EmbeddingLike.apply_eq_iff_eq]

theorem redim_sumDim [AddCommMonoid V] (d : Dim) (a : DA L V) : (a.redim σ).sumDim (σ d) = (a.sumDim d).redim σ := by
  refine DA.extAll ?_ rfl ?_
  · simp only [DA.sumDim, DA.redim, Finset.map_erase, Equiv.coe_toEmbedding]
  · funext e
    show ∑ l ∈ (a.redim σ).coords (σ d), (a.redim σ).val (setLabel e (σ d) l) = ∑ l ∈ a.coords d, a.val (setLabel (fun k => e (σ k)) d l)
    rw [redim_coords]
    refine Finset.sum_congr rfl (fun l _ => ?_)
    show a.val (fun k => setLabel e (σ d) l (σ k)) = _
    rw [set_redim]

theorem redim_sumDims [AddCommMonoid V] : ∀ (ds : List Dim) (a : DA L V), DA.sumDims (ds.map σ) (a.redim σ) = (DA.sumDims ds a).redim σ
  | [], _ => rfl
  | d :: ds, a => by rw [List.map_cons, DA.sumDims, DA.sumDims, redim_sumDim, redim_sumDims ds]

theorem redim_foldl [Mul V] : ∀ (bs : List (DA L V)) (a : DA L V),
    (bs.map (DA.redim σ)).foldl (DA.zipWith (· * ·)) (a.redim σ) = (bs.foldl (DA.zipWith (· * ·)) a).redim σ
  | [], _ => rfl
  | b :: bs, a => by rw [List.map_cons, List.foldl_cons, List.foldl_cons, redim_zip, redim_foldl bs]

theorem redim_dot [AddCommMonoid V] [Mul V] (a : DA L V) (bs : List (DA L V)) (ds : List Dim) :
    DA.dot (a.redim σ) (bs.map (DA.redim σ)) (ds.map σ) = (DA.dot a bs ds).redim σ := by
  rw [DA.dot, DA.dot, redim_foldl, redim_sumDims]

end arrays

section aggregation
variable {L V : Type} [DecidableEq L] [AddCommMonoid V] [Mul V] [One V] [Div V] [IsNull V] {σ : Equiv.Perm Dim}

theorem redim_binMasks (stat : DA L V) : ∀ {bs bs' : List (BinBy L V)},
    List.Forall₂ (fun b b' => b'.binDim = σ b.binDim ∧ ∀ a : DA L V, b'.createBinMask (a.redim σ) = (b.createBinMask a).redim σ) bs bs' →
    binMasks (stat.redim σ) bs' = (binMasks stat bs).map (List.map (DA.redim σ))
  | [], [], _ => rfl
  | b :: bs, b' :: bs', h => by
    obtain ⟨⟨h1, h2⟩, h3⟩ := List.forall₂_cons.mp h
    rw [binMasks, binMasks]
    have hs : (((b.createBinMask stat).redim σ).dims \ {σ b.binDim} ⊆ (stat.redim σ).dims) ↔ (b.createBinMask stat).dims \ {b.binDim} ⊆ stat.dims := by
      have e : ((b.createBinMask stat).redim σ).dims \ {σ b.binDim} = ((b.createBinMask stat).dims \ {b.binDim}).map σ.toEmbedding := by
        rw [redim_dims, Finset.map_sdiff, Finset.map_singleton]
        rfl
      rw [e, redim_dims, Finset.map_subset_map]
    simp only [h2, h1, hs, redim_binMasks stat h3]
    split
    · cases binMasks stat bs <;> rfl
    · rfl

theorem redim_weights (stat : DA L V) : ∀ {ws ws' : List (DA L V → DA L V)},
    List.Forall₂ (fun w w' => ∀ a : DA L V, w' (a.redim σ) = (w a).redim σ) ws ws' →
    ws'.map (fun w => w (stat.redim σ)) = (ws.map (fun w => w stat)).map (DA.redim σ)
  | [], [], _ => rfl
  | w :: ws, w' :: ws', h => by
    obtain ⟨h1, h2⟩ := List.forall₂_cons.mp h
    simp only [List.map_cons, h1 stat, redim_weights stat h2]

theorem redim_names : ∀ {bs bs' : List (BinBy L V)},
    List.Forall₂ (fun b b' => b'.binDim = σ b.binDim ∧ ∀ a : DA L V, b'.createBinMask (a.redim σ) = (b.createBinMask a).redim σ) bs bs' →
    bs'.map (·.binDim) = (bs.map (·.binDim)).map σ
  | [], [], _ => rfl
  | b :: bs, b' :: bs', h => by
    obtain ⟨h1, h2⟩ := List.forall₂_cons.mp h
    simp only [List.map_cons, h1.1, redim_names h2]

theorem redim_all (a : DA L V) (ds : List Dim) : (ds.map σ).all (fun d => decide (d ∈ (a.redim σ).dims)) = ds.all (fun d => decide (d ∈ a.dims)) := by
  rw [List.all_map]
  refine congrArg (fun g => ds.all g) (funext (fun d => ?_))
  exact decide_eq_decide.mpr (mem_redim σ a)

theorem redim_aggregationFn {agg agg' : Aggregator L V} (h : agg.Redims σ agg') (stat : DA L V) :
    agg'.aggregationFn (stat.redim σ) = (agg.aggregationFn stat).map (Option.map (DA.redim σ)) := by
  unfold aggregationFn
  rw [h.dims, redim_all, redim_binMasks stat h.bins, redim_weights stat h.weights, redim_names h.bins, List.dedup_map_of_injective σ.injective, List.dedup_map_of_injective σ.injective]
  have hl : agg'.binBy.length = agg.binBy.length := h.bins.length_eq.symm
  rw [hl]
  split
  · rfl
  · dsimp only
    rw [List.length_map]
    split
    · rfl
    · cases binMasks stat agg.binBy with
      | none => rfl
      | some masks =>
        simp only [Option.map_some, ← List.map_append, redim_dot]
        rfl

theorem redim_applyMask {agg agg' : Aggregator L V} (h : agg.Redims σ agg') (stat : StatVar L V) :
    agg'.applyMask (stat.redim σ) = ((agg.applyMask stat).1.redim σ, (agg.applyMask stat).2.redim σ) := by
  obtain ⟨a, m⟩ := stat
  unfold applyMask
  rw [h.masked, h.skipna]
  cases agg.masked <;> cases m <;> cases agg.skipna <;>
    simp [StatVar.redim, redim_map, DA.where_, DA.broadcastLike, redim_zip]

theorem redim_aggregateStatVar {agg agg' : Aggregator L V} (h : agg.Redims σ agg') (stat : StatVar L V) :
    agg'.aggregateStatVar (stat.redim σ) = (agg.aggregateStatVar stat).map (Option.map (fun q => (q.1.redim σ, q.2.redim σ))) := by
  unfold aggregateStatVar
  rw [redim_applyMask h]
  dsimp only
  rw [redim_aggregationFn h, redim_aggregationFn h]
  rcases agg.aggregationFn (agg.applyMask stat).1 with e | o
  · rfl
  · rcases agg.aggregationFn (agg.applyMask stat).2 with e | o'
    · cases o <;> rfl
    · cases o <;> cases o' <;> rfl

theorem redim_perVar {agg agg' : Aggregator L V} (h : agg.Redims σ agg') : ∀ vars : Vars (Option (StatVar L V)),
    agg'.perVar (redimStats σ vars) = (agg.perVar vars).map (List.map (fun kq => (kq.1, (kq.2.1.redim σ, kq.2.2.redim σ))))
  | [] => rfl
  | (k, none) :: vars => by
    have := redim_perVar h vars
    unfold redimStats at this ⊢
    rw [List.map_cons, perVar]
    simp only [Option.map_none]
    rw [perVar, this]
  | (k, some s) :: vars => by
    have ih := redim_perVar h vars
    unfold redimStats at ih ⊢
    rw [List.map_cons, perVar]
    simp only [Option.map_some]
    rw [perVar, ih, redim_aggregateStatVar h]
    rcases agg.aggregateStatVar s with e | o
    · rfl
    · rcases agg.perVar vars with e | rs
      · cases o <;> rfl
      · cases o <;> rfl

theorem redim_meanVars {agg agg' : Aggregator L V} (h : agg.Redims σ agg') (vars : Vars (Option (StatVar L V))) :
    meanVars agg' (redimStats σ vars) = (meanVars agg vars).map (redimValues σ) := by
  unfold meanVars
  rw [redim_perVar h]
  rcases agg.perVar vars with e | r
  · rfl
  · simp only [Except.map, bind, Except.bind, pure, Except.pure, List.map_map, redimValues, Except.ok.injEq]
    refine List.map_congr_left (fun q _ => ?_)
    simp [redim_zip]

end aggregation
end WBX
