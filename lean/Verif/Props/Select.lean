import Verif.Lemmas.Select
import Verif.Props.Locality
import Verif.Props.LocalityWrappers
import Verif.Props.PerfectEnsemble

/-!
# C100: the score at a label of a kept dimension depends only on the data at that label
-/

set_option linter.unusedSectionVars false

namespace WBX
open DA Aggregator

section select
variable {L V : Type} [DecidableEq L] [AddCommMonoid V] [Mul V] [One V] [Div V] [IsNull V] {agg : Aggregator L V} {c : Dim} {p t p' t' : Vars (StatVar L V)}
  {m : Metric (StatVar L V) (Option (StatVar L V)) (DA L V)}

theorem forall₂_table {T' T : List (String × Vars (DA L V))} (h : List.Forall₂ (fun a b => a.1 = b.1 ∧ VarsSame a.2 b.2) T' T) : TableSame T' T := fun _ => item_forall₂ h

theorem VarsSame.trans {x y z : Vars (DA L V)} (h : VarsSame x y) (h' : VarsSame y z) : VarsSame x z := by
  intro v
  have h1 := h v
  have h2 := h' v
  revert h1 h2
  cases pyGet? v x <;> cases pyGet? v y <;> cases pyGet? v z <;> intro h1 h2 <;> cases h1 <;> cases h2
  · exact .none
  · rename_i a b; exact .some (a.trans b)

/-- **C100** Selecting labels of a dimension that is not averaged over and then evaluating gives what evaluating everything and then selecting gives. -/
theorem C100_select (hloc : agg.Local c) (hk : c ∉ agg.reduceDims) (hm : Selectable c m) (hc : Chunkable c p t) (S : Finset L) {out : Vars (DA L V)}
    (h : metricAlone m agg p t = .ok out) :
    ∃ out', metricAlone m agg (chunkVars c S p) (chunkVars c S t) = .ok out' ∧ VarsSame out' (selectLabels c S out) := by
  unfold metricAlone at h ⊢
  obtain ⟨T, hT, h⟩ := bind_ok_iff.mp h
  obtain ⟨T', hT', hf⟩ := means_select hloc hk S hc (fun ks hks => ⟨hm.statistics ks hks, hm.dims ks hks p t hc⟩) hT
  have hsel := hm.formula S T out h
  have htab : TableSame (T.map (fun sv => (sv.1, selectLabels c S sv.2))) T' := by
    refine TableSame.symm (forall₂_table ?_)
    rw [List.forall₂_map_right_iff]
    exact hf
  obtain ⟨out', ho, hs⟩ := (hm.extensional.same _ _ htab).ok_left hsel
  exact ⟨out', bind_ok_iff.mpr ⟨T', hT', ho⟩, VarsSame.symm hs⟩

/-- Metrics whose statistics are functions of labelled arrays give the same values for the same data. -/
theorem metricAlone_respects (hagg : agg.RespectsSame) (hm : m.Extensional) (hr : ∀ ks ∈ m.statistics, RespectsArrays ks.2) (hp : IsDict p) (hp' : IsDict p') (ht : IsDict t) (ht' : IsDict t')
    (h1 : ∀ v, Option.Rel StatVar.Same (pyGet? v p) (pyGet? v p')) (h2 : ∀ v, Option.Rel StatVar.Same (pyGet? v t) (pyGet? v t')) :
    SameValues (metricAlone m agg p t) (metricAlone m agg p' t') := by
  have key : ∀ l : List (String × Statistic (StatVar L V) (Option (StatVar L V))), (∀ ks ∈ l, RespectsArrays ks.2) → SameOutcome (List.Forall₂ (fun a b => a.1 = b.1 ∧ VarsSame a.2 b.2))
      (l.mapM (fun ks => do
        let v ← ks.2.compute p t
        let mean ← meanVars agg v
        return (ks.1, mean)))
      (l.mapM (fun ks => do
        let v ← ks.2.compute p' t'
        let mean ← meanVars agg v
        return (ks.1, mean))) := by
    intro l
    induction l with
    | nil => intro _; exact .gives .nil
    | cons ks l ih =>
      intro hl
      rw [List.mapM_cons, List.mapM_cons]
      refine SameOutcome.bind (r := fun a b => a.1 = b.1 ∧ VarsSame a.2 b.2) ?_ ?_
      · exact SameOutcome.bind (hl ks (by simp) p p' t t' hp hp' ht ht' h1 h2) (fun x y hxy => SameOutcome.bind (meanVars_same hagg hxy) (fun x' y' hxy' => .gives ⟨rfl, hxy'⟩))
      · intro a b hab
        exact SameOutcome.bind (ih (fun ks hks => hl ks (by simp [hks]))) (fun as bs h => .gives (.cons hab h))
  unfold metricAlone
  exact SameOutcome.bind (key _ hr) (fun x y hxy => hm.same x y (forall₂_table hxy))

theorem isDict_chunkVars (S : Finset L) (h : IsDict p) : IsDict (chunkVars c S p) := by
  unfold IsDict chunkVars at *
  simpa [Function.comp_def] using h

/-- **C100** No leakage: two evaluations of data that agree at the labels `S` of a kept dimension give the same scores there, whatever the data are at other labels. -/
theorem C100_no_leakage (hloc : agg.Local c) (hagg : agg.RespectsSame) (hk : c ∉ agg.reduceDims) (hm : Selectable c m) (hr : ∀ ks ∈ m.statistics, RespectsArrays ks.2)
    (hc : Chunkable c p t) (hc' : Chunkable c p' t') (hp : IsDict p) (hp' : IsDict p') (ht : IsDict t) (ht' : IsDict t') {S : Finset L}
    (h1 : AgreeAtLabels c S p p') (h2 : AgreeAtLabels c S t t') {out out' : Vars (DA L V)} (h : metricAlone m agg p t = .ok out) (h' : metricAlone m agg p' t' = .ok out') :
    ScoresAgree c S out out' := by
  obtain ⟨a, ha, sa⟩ := C100_select hloc hk hm hc S h
  obtain ⟨b, hb, sb⟩ := C100_select hloc hk hm hc' S h'
  have := metricAlone_respects hagg hm.extensional hr (isDict_chunkVars S hp) (isDict_chunkVars S hp') (isDict_chunkVars S ht) (isDict_chunkVars S ht') h1 h2
  rw [ha, hb] at this
  cases this with
  | gives hab => exact VarsSame.trans (VarsSame.symm sa) (VarsSame.trans hab sb)

/-- A statistic computed variable by variable from labelled arrays. -/
theorem respects_perVariable {name : String} {f : StatVar L V → StatVar L V → Except Err (Option (Option (StatVar L V)))}
    (hf : ∀ a a' b b', StatVar.Same a a' → StatVar.Same b b' → SameOutcome (Option.Rel (Option.Rel StatVar.Same)) (f a b) (f a' b')) : RespectsArrays (perVariableStatistic name f) := by
  have okk : ∀ {p p' t t' : Vars (StatVar L V)}, IsDict p → IsDict p' → (∀ v, Option.Rel StatVar.Same (pyGet? v p) (pyGet? v p')) →
      (∀ v, Option.Rel StatVar.Same (pyGet? v t) (pyGet? v t')) → ∀ {x}, (perVariableStatistic name f).compute p t = .ok x → ∃ y, (perVariableStatistic name f).compute p' t' = .ok y := by
    intro p p' t t' hp hp' h1 h2 x hx
    have hx := perVariableLoop_ok_iff.mp ⟨x, hx⟩
    refine perVariableLoop_ok_iff.mpr (fun v a' b' ha' hb' => ?_)
    have r1 := h1 v
    have r2 := h2 v
    rw [(pyGet?_eq_some hp' v a').mpr ha'] at r1
    rw [hb'] at r2
    cases ga : pyGet? v p with
    | none => rw [ga] at r1; cases r1
    | some a =>
      cases gb : pyGet? v t with
      | none => rw [gb] at r2; cases r2
      | some b =>
        rw [ga] at r1; rw [gb] at r2
        cases r1 with
        | some r1 => cases r2 with
          | some r2 =>
            obtain ⟨o, ho⟩ := hx v a b ((pyGet?_eq_some hp v a).mp ga) gb
            obtain ⟨o', ho', _⟩ := (hf a a' b b' r1 r2).ok_left ho
            exact ⟨o', ho'⟩
  have mem : ∀ {p p' t t' : Vars (StatVar L V)}, IsDict p → IsDict p' → IsDict t → IsDict t' → (∀ v, Option.Rel StatVar.Same (pyGet? v p) (pyGet? v p')) →
      (∀ v, Option.Rel StatVar.Same (pyGet? v t) (pyGet? v t')) → ∀ {x y}, (perVariableStatistic name f).compute p t = .ok x → (perVariableStatistic name f).compute p' t' = .ok y →
      ∀ {v s}, pyGet? v x = some s → ∃ s', pyGet? v y = some s' ∧ Option.Rel StatVar.Same s s' := by
    intro p p' t t' hp hp' ht ht' h1 h2 x y hx hy v s hs
    obtain ⟨n1, m1⟩ := C21_statistic name f p t hp ht x hx
    obtain ⟨n2, m2⟩ := C21_statistic name f p' t' hp' ht' y hy
    obtain ⟨a, b, ha, hb, hfab⟩ := (m1 v s).mp ((pyGet?_eq_some n1 v s).mp hs)
    have r1 := h1 v
    have r2 := h2 v
    rw [(pyGet?_eq_some hp v a).mpr ha] at r1
    rw [(pyGet?_eq_some ht v b).mpr hb] at r2
    cases ga : pyGet? v p' with
    | none => rw [ga] at r1; cases r1
    | some a' =>
      cases gb : pyGet? v t' with
      | none => rw [gb] at r2; cases r2
      | some b' =>
        rw [ga] at r1; rw [gb] at r2
        cases r1 with
        | some r1 => cases r2 with
          | some r2 =>
            obtain ⟨o, ho, hrel⟩ := (hf a a' b b' r1 r2).ok_left hfab
            cases hrel with
            | some hrel => exact ⟨_, (pyGet?_eq_some n2 v _).mpr ((m2 v _).mpr ⟨a', b', (pyGet?_eq_some hp' v a').mp ga, (pyGet?_eq_some ht' v b').mp gb, ho⟩), hrel⟩
  have symm : ∀ {q q' : Vars (StatVar L V)}, (∀ v, Option.Rel StatVar.Same (pyGet? v q) (pyGet? v q')) → ∀ v, Option.Rel StatVar.Same (pyGet? v q') (pyGet? v q) := by
    intro q q' h v
    have := h v
    revert this
    cases pyGet? v q <;> cases pyGet? v q' <;> intro this <;> cases this
    · exact .none
    · rename_i h; exact .some h.symm
  intro p p' t t' hp hp' ht ht' h1 h2
  refine SameOutcome.intro (fun x hx => ?_) (fun y hy => okk hp' hp (symm h1) (symm h2) hy)
  obtain ⟨y, hy⟩ := okk hp hp' h1 h2 hx
  refine ⟨y, hy, (C21_statistic name f p t hp ht x hx).1, (C21_statistic name f p' t' hp' ht' y hy).1, fun v => ?_⟩
  cases hg : pyGet? v x with
  | some s =>
    obtain ⟨s', hs', hr⟩ := mem hp hp' ht ht' h1 h2 hx hy hg
    rw [hs']
    exact .some hr
  | none =>
    cases hg' : pyGet? v y with
    | none => exact .none
    | some s' =>
      obtain ⟨s, hs, _⟩ := mem hp' hp ht' ht (symm h1) (symm h2) hy hx hg'
      rw [hg] at hs
      cases hs

end select
end WBX
