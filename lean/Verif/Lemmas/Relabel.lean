import Verif.Spec.Relabel
import Verif.Props.MetricsBase

/-!
# Relabelled arrays: every operation commutes with new labels
-/

namespace WBX
open DA Aggregator
set_option linter.unusedSectionVars false

section arrays
variable {L V W U : Type} [DecidableEq L] (ρ : Dim → Equiv.Perm L)

theorem DA.extAll {a b : DA L V} (h1 : a.dims = b.dims) (h2 : a.coords = b.coords) (h3 : a.val = b.val) : a = b := by
  cases a; cases b; simp only at h1 h2 h3; rw [h1, h2, h3]

theorem relabel_dims (a : DA L V) : (a.relabel ρ).dims = a.dims := rfl

theorem relabel_map (f : V → W) (a : DA L V) : (a.relabel ρ).map f = (a.map f).relabel ρ := rfl

theorem relabel_scalar (v : V) : (DA.scalar v : DA L V).relabel ρ = DA.scalar v := by
  refine DA.extAll rfl ?_ rfl
  funext d
  simp [DA.relabel, DA.scalar]

theorem relabel_zip (f : V → W → U) (a : DA L V) (b : DA L W) : DA.zipWith f (a.relabel ρ) (b.relabel ρ) = (DA.zipWith f a b).relabel ρ := by
  refine DA.extAll rfl ?_ rfl
  funext d
  simp only [DA.zipWith, DA.joinCoords, DA.relabel]
  split
  · split
    · rw [Finset.map_inter]
    · rfl
  · rfl

/-- Going back to the old labels after setting a new one. -/
theorem back_set (e : Dim → L) (d : Dim) (l : L) :
    (fun k => (ρ k).symm (setLabel e d (ρ d l) k)) = setLabel (fun k => (ρ k).symm (e k)) d l := by
  funext k
  unfold setLabel
  by_cases h : k = d
  · subst h; simp
  · simp [h]

theorem relabel_sumDim [AddCommMonoid V] (d : Dim) (a : DA L V) : (a.relabel ρ).sumDim d = (a.sumDim d).relabel ρ := by
  refine DA.extAll rfl rfl ?_
  funext e
  simp only [DA.sumDim, DA.relabel, Finset.sum_map]
  refine Finset.sum_congr rfl (fun l _ => ?_)
  rw [Equiv.toEmbedding_apply, back_set]

theorem relabel_sumDims [AddCommMonoid V] : ∀ (ds : List Dim) (a : DA L V), DA.sumDims ds (a.relabel ρ) = (DA.sumDims ds a).relabel ρ
  | [], _ => rfl
  | d :: ds, a => by rw [DA.sumDims, DA.sumDims, relabel_sumDim, relabel_sumDims ds]

theorem relabel_foldl [Mul V] : ∀ (bs : List (DA L V)) (a : DA L V),
    (bs.map (DA.relabel ρ)).foldl (DA.zipWith (· * ·)) (a.relabel ρ) = (bs.foldl (DA.zipWith (· * ·)) a).relabel ρ
  | [], _ => rfl
  | b :: bs, a => by rw [List.map_cons, List.foldl_cons, List.foldl_cons, relabel_zip, relabel_foldl bs]

theorem relabel_dot [AddCommMonoid V] [Mul V] (a : DA L V) (bs : List (DA L V)) (ds : List Dim) :
    DA.dot (a.relabel ρ) (bs.map (DA.relabel ρ)) ds = (DA.dot a bs ds).relabel ρ := by
  rw [DA.dot, DA.dot, relabel_foldl, relabel_sumDims]

end arrays

section aggregation
variable {L V : Type} [DecidableEq L] [AddCommMonoid V] [Mul V] [One V] [Div V] [IsNull V] {ρ : Dim → Equiv.Perm L}

theorem relabel_binMasks (stat : DA L V) : ∀ {bs bs' : List (BinBy L V)},
    List.Forall₂ (fun b b' => b'.binDim = b.binDim ∧ ∀ a : DA L V, b'.createBinMask (a.relabel ρ) = (b.createBinMask a).relabel ρ) bs bs' →
    binMasks (stat.relabel ρ) bs' = (binMasks stat bs).map (List.map (DA.relabel ρ))
  | [], [], _ => rfl
  | b :: bs, b' :: bs', h => by
    obtain ⟨⟨h1, h2⟩, h3⟩ := List.forall₂_cons.mp h
    rw [binMasks, binMasks]
    simp only [h2, h1, relabel_dims, relabel_binMasks stat h3]
    split
    · cases binMasks stat bs <;> rfl
    · rfl

theorem relabel_weights (stat : DA L V) : ∀ {ws ws' : List (DA L V → DA L V)},
    List.Forall₂ (fun w w' => ∀ a : DA L V, w' (a.relabel ρ) = (w a).relabel ρ) ws ws' →
    ws'.map (fun w => w (stat.relabel ρ)) = (ws.map (fun w => w stat)).map (DA.relabel ρ)
  | [], [], _ => rfl
  | w :: ws, w' :: ws', h => by
    obtain ⟨h1, h2⟩ := List.forall₂_cons.mp h
    simp only [List.map_cons, h1 stat, relabel_weights stat h2]

theorem relabel_names : ∀ {bs bs' : List (BinBy L V)},
    List.Forall₂ (fun b b' => b'.binDim = b.binDim ∧ ∀ a : DA L V, b'.createBinMask (a.relabel ρ) = (b.createBinMask a).relabel ρ) bs bs' →
    bs'.map (·.binDim) = bs.map (·.binDim)
  | [], [], _ => rfl
  | b :: bs, b' :: bs', h => by
    obtain ⟨h1, h2⟩ := List.forall₂_cons.mp h
    simp only [List.map_cons, h1.1, relabel_names h2]

theorem relabel_aggregationFn {agg agg' : Aggregator L V} (h : agg.Relabels ρ agg') (stat : DA L V) :
    agg'.aggregationFn (stat.relabel ρ) = (agg.aggregationFn stat).map (Option.map (DA.relabel ρ)) := by
  unfold aggregationFn
  rw [h.dims, relabel_dims, relabel_binMasks stat h.bins, relabel_weights stat h.weights, relabel_names h.bins]
  have hl : agg'.binBy.length = agg.binBy.length := h.bins.length_eq.symm
  rw [hl]
  split
  · rfl
  · dsimp only
    split
    · rfl
    · cases binMasks stat agg.binBy with
      | none => rfl
      | some masks =>
        simp only [Option.map_some, ← List.map_append, relabel_dot]
        rfl

theorem relabel_applyMask {agg agg' : Aggregator L V} (h : agg.Relabels ρ agg') (stat : StatVar L V) :
    agg'.applyMask (stat.relabel ρ) = ((agg.applyMask stat).1.relabel ρ, (agg.applyMask stat).2.relabel ρ) := by
  obtain ⟨a, m⟩ := stat
  unfold applyMask
  rw [h.masked, h.skipna]
  cases agg.masked <;> cases m <;> cases agg.skipna <;>
    simp [StatVar.relabel, relabel_map, DA.where_, DA.broadcastLike, relabel_zip]

theorem relabel_aggregateStatVar {agg agg' : Aggregator L V} (h : agg.Relabels ρ agg') (stat : StatVar L V) :
    agg'.aggregateStatVar (stat.relabel ρ) = (agg.aggregateStatVar stat).map (Option.map (fun q => (q.1.relabel ρ, q.2.relabel ρ))) := by
  unfold aggregateStatVar
  rw [relabel_applyMask h]
  dsimp only
  rw [relabel_aggregationFn h, relabel_aggregationFn h]
  rcases agg.aggregationFn (agg.applyMask stat).1 with e | o
  · rfl
  · rcases agg.aggregationFn (agg.applyMask stat).2 with e | o'
    · cases o <;> rfl
    · cases o <;> cases o' <;> rfl

theorem relabel_perVar {agg agg' : Aggregator L V} (h : agg.Relabels ρ agg') : ∀ vars : Vars (Option (StatVar L V)),
    agg'.perVar (relabelStats ρ vars) = (agg.perVar vars).map (List.map (fun kq => (kq.1, (kq.2.1.relabel ρ, kq.2.2.relabel ρ))))
  | [] => rfl
  | (k, none) :: vars => by
    have := relabel_perVar h vars
    unfold relabelStats at this ⊢
    rw [List.map_cons, perVar]
    simp only [Option.map_none]
    rw [perVar, this]
  | (k, some s) :: vars => by
    have ih := relabel_perVar h vars
    unfold relabelStats at ih ⊢
    rw [List.map_cons, perVar]
    simp only [Option.map_some]
    rw [perVar, ih, relabel_aggregateStatVar h]
    rcases agg.aggregateStatVar s with e | o
    · rfl
    · rcases agg.perVar vars with e | rs
      · cases o <;> rfl
      · cases o <;> rfl

theorem relabel_meanVars {agg agg' : Aggregator L V} (h : agg.Relabels ρ agg') (vars : Vars (Option (StatVar L V))) :
    meanVars agg' (relabelStats ρ vars) = (meanVars agg vars).map (relabelValues ρ) := by
  unfold meanVars
  rw [relabel_perVar h]
  rcases agg.perVar vars with e | r
  · rfl
  · simp only [Except.map, bind, Except.bind, pure, Except.pure, List.map_map, relabelValues, Except.ok.injEq]
    refine List.map_congr_left (fun q _ => ?_)
    simp [relabel_zip]

end aggregation
end WBX
