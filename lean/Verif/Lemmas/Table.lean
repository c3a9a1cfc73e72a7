import Verif.Spec.Table
import Verif.Lemmas.StateTable
import Verif.Lemmas.MetricAlone
import Verif.Lemmas.PipelineState

set_option linter.unusedSectionVars false

namespace WBX
variable {L V : Type} [DecidableEq L]
open Aggregator

theorem bind_ok_of {α β : Type} {x : Except Err α} {a : α} {f : α → Except Err β} {y : Except Err β} (h : x = .ok a) (h2 : f a = y) : (x >>= f) = y := by
  rw [h]; exact h2

theorem entry?_map {α β : Type} (f : α → β) (t : List (String × Vars α)) (s v : String) :
    entry? (t.map (fun sv => (sv.1, sv.2.map (fun w => (w.1, f w.2))))) s v = (entry? t s v).map f := by
  unfold entry?
  rw [pyGet?_map (fun vs : Vars α => vs.map (fun w => (w.1, f w.2)))]
  cases pyGet? s t with
  | none => rfl
  | some vs => simp [pyGet?_map]

theorem entry?_mapEntries {α : Type} (f : DA L V → DA L V → α) (t : StateTable L V) (s v : String) :
    entry? (t.mapEntries f) s v = (entry? t s v).map (fun p => f p.1 p.2) :=
  entry?_map (fun p : DA L V × DA L V => f p.1 p.2) t s v

/-- The tree of one component of the table. -/
def compTree {α β : Type} (f : α → β) (t : List (String × Vars α)) : Tree β :=
  .dict (Dict.ofList (t.map (fun sv => (sv.1, leaves (sv.2.map (fun v => (v.1, f v.2)))))))

theorem compTree_map {α β γ : Type} (f : α → β) (g : β → γ) (t : List (String × Vars α)) : (compTree f t).map g = compTree (fun a => g (f a)) t := by
  simp only [compTree, Tree.map, map_ofList, List.map_map]
  congr 2
  apply List.map_congr_left
  intro sv _
  simp [leaves_map, List.map_map, Function.comp_def]

theorem compTree_wf {α β : Type} (f : α → β) (t : List (String × Vars α)) (h : (t.map Prod.fst).Nodup ∧ ∀ sv ∈ t, (sv.2.map Prod.fst).Nodup) : (compTree f t).WF := by
  simp only [compTree, Tree.WF, keys_ofList, wf_ofList, List.map_map]
  refine ⟨by simpa [Function.comp_def] using h.1, ?_⟩
  intro p hp
  rw [List.mem_map] at hp
  obtain ⟨sv, hsv, rfl⟩ := hp
  exact leaves_wf _ (by simpa [Function.comp_def] using h.2 sv hsv)

theorem compTree_all {α β : Type} (f : α → β) (P : β → Prop) (t : List (String × Vars α)) : (compTree f t).All P ↔ ∀ sv ∈ t, ∀ v ∈ sv.2, P (f v.2) := by
  simp only [compTree, Tree.All, all_ofList]
  constructor
  · intro h sv hsv v hv
    have := h (sv.1, leaves (sv.2.map (fun v => (v.1, f v.2)))) (List.mem_map.mpr ⟨sv, hsv, rfl⟩)
    rw [leaves_all] at this
    exact this (v.1, f v.2) (List.mem_map.mpr ⟨v, hv, rfl⟩)
  · intro h p hp
    rw [List.mem_map] at hp
    obtain ⟨sv, hsv, rfl⟩ := hp
    rw [leaves_all]
    intro q hq
    rw [List.mem_map] at hq
    obtain ⟨v, hv, rfl⟩ := hq
    exact h sv hsv v hv

theorem leafVars_ofList {α : Type} (vs : Vars α) : leafVars (Dict.ofList (vs.map (fun p => (p.1, Tree.leaf p.2)))) = .ok vs := by
  induction vs with
  | nil => rfl
  | cons v vs ih => simp only [List.map_cons, Dict.ofList, leafVars, ih, Tree.asLeaf]; rfl

theorem twoLevels_ofList {α β : Type} (f : α → β) (t : List (String × Vars α)) :
    twoLevels (Dict.ofList (t.map (fun sv => (sv.1, leaves (sv.2.map (fun v => (v.1, f v.2))))))) = .ok (t.map (fun sv => (sv.1, sv.2.map (fun v => (v.1, f v.2))))) := by
  induction t with
  | nil => rfl
  | cons sv t ih =>
    simp only [List.map_cons, Dict.ofList, twoLevels, leaves]
    have := leafVars_ofList (sv.2.map (fun v => (v.1, f v.2)))
    simp only [leaves] at ih
    rw [this, ih]; rfl

namespace AggState

theorem ofTable_eq (t : StateTable L V) : ofTable t = some (compTree Prod.fst t, compTree Prod.snd t) := rfl

theorem mean_ofTable [Div V] (t : StateTable L V) (h : UniqueNames t) :
    (ofTable t).meanStatistics = .ok (compTree (fun p => DA.zipWith (· / ·) p.1 p.2) t) := by
  rw [ofTable_eq]
  unfold meanStatistics
  have := Tree.mapStructure_cols (ι := Bool) (fun (as : List (DA L V)) => match as with
    | [s, w] => (Except.ok (DA.zipWith (· / ·) s w) : Except Err (DA L V))
    | _ => .error .typeError) [true, false] (by simp) (compTree (fun p : DA L V × DA L V => fun b : Bool => if b then p.1 else p.2) t) (compTree_wf _ _ h)
  simp only [List.map_cons, List.map_nil, compTree_map, if_true] at this
  refine Eq.trans this ?_
  rw [Tree.mapE_ok_of_all _ (fun f => DA.zipWith (· / ·) (f true) (f false)), compTree_map]
  · rfl
  · rw [compTree_all]; intro sv _ v _; rfl

theorem metricTable_ofTable {D : Type} [Div V] (t : StateTable L V) (h : UniqueNames t) (metrics : List (String × Metric D (Option (StatVar L V)) (DA L V))) :
    (ofTable t).metricTable metrics = computeMetricsFromStatistics metrics (t.mapEntries (DA.zipWith (· / ·))) := by
  unfold metricTable
  rw [mean_ofTable t h]
  have h2 := twoLevels_ofList (fun p : DA L V × DA L V => DA.zipWith (· / ·) p.1 p.2) t
  simp only [bind, Except.bind, compTree]
  rw [h2]
  rfl

theorem map_ofTable (t : StateTable L V) (h : UniqueNames t) (f : DA L V → Except Err (DA L V)) (g : DA L V → DA L V)
    (hf : ∀ sv ∈ t, ∀ v ∈ sv.2, f v.2.1 = .ok (g v.2.1) ∧ f v.2.2 = .ok (g v.2.2)) :
    (ofTable t).map f = .ok (ofTable (t.mapEntries (fun a b => (g a, g b)))) := by
  rw [ofTable_eq]
  unfold AggState.map mapMulti
  simp only [List.any_cons, Option.isNone_some, List.any_nil, Bool.or_self, Bool.false_eq_true, if_false, List.filterMap_cons, id_eq, List.filterMap_nil, List.map_cons, List.map_nil]
  have h1 := Tree.mapStructure_one_of_all (fun (as : List (DA L V)) => match as with
    | [a] => f a
    | _ => .error .typeError) g (compTree Prod.fst t) (compTree_wf _ _ h) ((compTree_all _ _ _).mpr (fun sv hsv v hv => (hf sv hsv v hv).1))
  have h2 := Tree.mapStructure_one_of_all (fun (as : List (DA L V)) => match as with
    | [a] => f a
    | _ => .error .typeError) g (compTree Prod.snd t) (compTree_wf _ _ h) ((compTree_all _ _ _).mpr (fun sv hsv v hv => (hf sv hsv v hv).2))
  refine bind_ok_of h1 (bind_ok_of h2 ?_)
  simp only [compTree_map, ofTable_eq]
  simp [compTree, StateTable.mapEntries, Function.comp_def, pure, Except.pure]

theorem unique_mapEntries (t : StateTable L V) (h : UniqueNames t) (f : DA L V → DA L V → DA L V × DA L V) : UniqueNames (t.mapEntries f) := by
  refine ⟨by simpa [StateTable.mapEntries, Function.comp_def] using h.1, ?_⟩
  intro sv hsv
  simp only [StateTable.mapEntries, List.mem_map] at hsv
  obtain ⟨sv', hsv', rfl⟩ := hsv
  simpa [Function.comp_def] using h.2 sv' hsv'

theorem dot_ofTable [AddCommMonoid V] [Mul V] (t : StateTable L V) (h : UniqueNames t) (arrays : List (DA L V)) (dims : List Dim) :
    (ofTable t).dot arrays dims = .ok (ofTable (t.mapEntries (fun a b => (DA.dot a arrays dims.dedup, DA.dot b arrays dims.dedup)))) :=
  map_ofTable t h _ (fun a => DA.dot a arrays dims.dedup) (fun _ _ _ _ => ⟨rfl, rfl⟩)

theorem sumAlongDims_ofTable [AddCommMonoid V] (t : StateTable L V) (h : UniqueNames t) (dims : List Dim)
    (hd : ∀ sv ∈ t, ∀ v ∈ sv.2, ∀ d ∈ dims, d ∈ v.2.1.dims ∧ d ∈ v.2.2.dims) :
    (ofTable t).sumAlongDims dims = .ok (ofTable (t.mapEntries (fun a b => (DA.sumDims dims.dedup a, DA.sumDims dims.dedup b)))) :=
  map_ofTable t h _ (fun a => DA.sumDims dims.dedup a) (fun sv hsv v hv =>
    ⟨if_pos (List.all_eq_true.mpr (fun d hdd => decide_eq_true (hd sv hsv v hv d hdd).1)),
     if_pos (List.all_eq_true.mpr (fun d hdd => decide_eq_true (hd sv hsv v hv d hdd).2))⟩)

end AggState
end WBX
