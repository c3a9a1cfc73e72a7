import Verif.Spec.Rename
import Verif.Props.RelabelMore
import Verif.Props.Select

/-!
# C103: what the variables are called, and their order, does not matter
-/

set_option linter.unusedSectionVars false

namespace WBX
open DA Aggregator

section lookups
variable {α : Type} {f : String → String}

theorem pyGet?_rename (hf : Function.Injective f) (k : String) : ∀ l : Vars α, pyGet? (f k) (renameVars f l) = pyGet? k l
  | [] => rfl
  | kv :: l => by
    have ih := pyGet?_rename hf k l
    show (if f kv.1 = f k then some kv.2 else pyGet? (f k) (renameVars f l)) = if kv.1 = k then some kv.2 else pyGet? k l
    rw [ih]
    simp only [hf.eq_iff]

theorem pyItem_rename (hf : Function.Injective f) (k : String) (l : Vars α) : pyItem (renameVars f l) (f k) = pyItem l k := by
  unfold pyItem
  rw [pyGet?_rename hf]

theorem pyItem_table (k : String) (l : List (String × Vars α)) : pyItem (renameTable f l) k = (pyItem l k).map (renameVars f) := pyItem_image (renameVars f) l k

theorem rename_keys (l : Vars α) : (renameVars f l).map Prod.fst = (l.map Prod.fst).map f := by
  simp only [renameVars, List.map_map, Function.comp_def]

theorem commonVariables_rename {M : Type} (hf : Function.Injective f) (vs : List (Vars M)) : commonVariables (vs.map (renameVars f)) = (commonVariables vs).map (List.map f) := by
  cases vs with
  | nil => rfl
  | cons v vs =>
    show Except.ok _ = Except.ok _
    congr 1
    rw [rename_keys, List.filter_map]
    congr 1
    refine List.filter_congr (fun k _ => ?_)
    rw [Function.comp_apply, List.all_map]
    refine congrArg (fun g => vs.all g) (funext (fun w => ?_))
    rw [Function.comp_apply, rename_keys]
    exact decide_eq_decide.mpr (List.mem_map_of_injective hf)

end lookups

section pipeline
variable {L V D : Type} [DecidableEq L] [AddCommMonoid V] [Mul V] [One V] [Div V] [IsNull V] {f : String → String}

theorem perVar_rename (agg : Aggregator L V) : ∀ vs : Vars (Option (StatVar L V)), agg.perVar (renameVars f vs) = (agg.perVar vs).map (renameVars f)
  | [] => rfl
  | (k, none) :: vs => perVar_rename agg vs
  | (k, some s) :: vs => by
    have ih := perVar_rename agg vs
    show agg.perVar ((f k, some s) :: renameVars f vs) = _
    rw [perVar, perVar, ih]
    rcases agg.aggregateStatVar s with e | o
    · rfl
    · rcases agg.perVar vs with e | rs
      · rfl
      · rcases o with _ | q <;> rfl

theorem meanVars_rename (agg : Aggregator L V) (vs : Vars (Option (StatVar L V))) : meanVars agg (renameVars f vs) = (meanVars agg vs).map (renameVars f) := by
  unfold meanVars
  rw [perVar_rename]
  refine bind_image (fun pv => ?_)
  show Except.ok _ = Except.ok _
  simp only [renameVars, List.map_map, Function.comp_def]

/-- **C103** Other names for the same variables: the metric has the same values, under the other names, or the same error. -/
theorem C103_rename {m m' : Metric D (Option (StatVar L V)) (DA L V)} (agg : Aggregator L V) (hm : m.Renames f m') (p t : Vars D) :
    metricAlone m' agg (renameVars f p) (renameVars f t) = (metricAlone m agg p t).map (renameVars f) := by
  unfold metricAlone
  have key : (m'.statistics.mapM (fun ks => do
        let v ← ks.2.compute (renameVars f p) (renameVars f t)
        let mean ← meanVars agg v
        return (ks.1, mean)) : Except Err (List (String × Vars (DA L V)))) = Except.map (List.map (fun kv : String × Vars (DA L V) => (kv.1, renameVars f kv.2))) (m.statistics.mapM (fun ks => do
        let v ← ks.2.compute p t
        let mean ← meanVars agg v
        return (ks.1, mean))) := by
    refine mapM_image₂ (R := fun ks ks' => ks'.1 = ks.1 ∧ ks.2.Renames f ks'.2) (fun ks ks' hks => ?_) hm.statistics
    rw [hks.2 p t, hks.1]
    rcases ks.2.compute p t with e | v
    · rfl
    · show (meanVars agg (renameVars f v) >>= fun mean => _) = _
      rw [meanVars_rename]
      show _ = Except.map _ (meanVars agg v >>= fun mean => _)
      rcases meanVars agg v with e | mean <;> rfl
  rw [key]
  exact bind_image (fun means => hm.formula means)

/-- **C103** The same for the table of all metrics of an evaluation. -/
theorem C103_table {metrics metrics' : List (String × Metric (StatVar L V) (Option (StatVar L V)) (DA L V))} (agg : Aggregator L V)
    (hm : List.Forall₂ (fun nm nm' => nm'.1 = nm.1 ∧ nm.2.Renames f nm'.2) metrics metrics') {p t : Vars (StatVar L V)} (hdict : ReturnDicts metrics p t) (hid : NamesIdentify metrics p t)
    (hdict' : ReturnDicts metrics' (renameVars f p) (renameVars f t)) (hid' : NamesIdentify metrics' (renameVars f p) (renameVars f t)) {table : List (String × Vars (DA L V))}
    (h : metricTableForSingleChunk metrics agg p t = .ok table) : metricTableForSingleChunk metrics' agg (renameVars f p) (renameVars f t) = .ok (renameTable f table) := by
  rw [C20_together_iff_alone metrics agg p t hdict hid] at h
  rw [C20_together_iff_alone metrics' agg _ _ hdict' hid']
  have := mapM_image₂ (R := fun (nm nm' : String × Metric (StatVar L V) (Option (StatVar L V)) (DA L V)) => nm'.1 = nm.1 ∧ nm.2.Renames f nm'.2)
    (f := fun nm : String × Metric (StatVar L V) (Option (StatVar L V)) (DA L V) => (do let v ← metricAlone nm.2 agg p t; return (nm.1, v) : Except Err (String × Vars (DA L V))))
    (f' := fun nm : String × Metric (StatVar L V) (Option (StatVar L V)) (DA L V) => (do let v ← metricAlone nm.2 agg (renameVars f p) (renameVars f t); return (nm.1, v) : Except Err (String × Vars (DA L V))))
    (g := fun kv : String × Vars (DA L V) => (kv.1, renameVars f kv.2)) (fun nm nm' hn => by
      rw [C103_rename agg hn.2, hn.1]
      exact bind_image (fun v => rfl)) hm
  rw [this, h]
  rfl

theorem lookups_perm {α : Type} {r : α → α → Prop} (hr : ∀ x, r x x) {p p' : Vars α} (hp : IsDict p) (h : p.Perm p') : IsDict p' ∧ ∀ v, Option.Rel r (pyGet? v p) (pyGet? v p') := by
  have hp' : IsDict p' := (h.map Prod.fst).nodup_iff.mp hp
  refine ⟨hp', fun v => ?_⟩
  have : pyGet? v p = pyGet? v p' := by
    ext a
    rw [pyGet?_eq_some hp, pyGet?_eq_some hp', h.mem_iff]
  rw [this]
  cases pyGet? v p'
  · exact .none
  · exact .some (hr _)

/-- **C103** The order in which predictions and targets list their variables does not matter. -/
theorem C103_order {agg : Aggregator L V} {p t p' t' : Vars (StatVar L V)} {m : Metric (StatVar L V) (Option (StatVar L V)) (DA L V)} (hagg : agg.RespectsSame) (hm : m.Extensional)
    (hr : ∀ ks ∈ m.statistics, RespectsArrays ks.2) (hp : IsDict p) (ht : IsDict t) (h1 : p.Perm p') (h2 : t.Perm t') : SameValues (metricAlone m agg p t) (metricAlone m agg p' t') := by
  obtain ⟨hp', r1⟩ := lookups_perm (r := StatVar.Same) StatVar.Same.refl hp h1
  obtain ⟨ht', r2⟩ := lookups_perm (r := StatVar.Same) StatVar.Same.refl ht h2
  exact metricAlone_respects hagg hm hr hp hp' ht ht' r1 r2

end pipeline

section statistics
variable {D S M : Type} {f : String → String}

/-- Every statistic that is computed variable by variable. -/
theorem perVariable_renames (hf : Function.Injective f) (name name' : String) (g : D → D → Except Err (Option S)) : (perVariableStatistic name g).Renames f (perVariableStatistic name' g) := by
  intro p t
  show perVariableLoop g (renameVars f t) (renameVars f p) = (perVariableLoop g t p).map (renameVars f)
  induction p with
  | nil => rfl
  | cons x p ih =>
    obtain ⟨v, a⟩ := x
    show perVariableLoop g (renameVars f t) ((f v, a) :: renameVars f p) = _
    rw [perVariableLoop, perVariableLoop, ih, pyGet?_rename hf]
    rcases pyGet? v t with _ | b
    · rfl
    · dsimp only
      rcases g a b with e | r
      · rfl
      · rcases perVariableLoop g t p with e | rs
        · rfl
        · rcases r with _ | x <;> rfl

theorem perVariableValues_rename (hf : Function.Injective f) (names : List String) (g : List (String × M) → Except Err M) (sv : List (String × Vars M)) :
    perVariableValues names g (renameTable f sv) = (perVariableValues names g sv).map (renameVars f) := by
  unfold perVariableValues
  rw [mapM_image (f := pyItem sv) (g := renameVars f) (fun k _ => pyItem_table k sv)]
  refine bind_image (fun vs => ?_)
  rw [commonVariables_rename hf]
  refine bind_image (fun common => ?_)
  rw [List.mapM_map]
  refine mapM_image (fun v _ => ?_)
  rw [Function.comp_apply]
  have : ∀ s : String, (do
      let m ← pyItem (renameTable f sv) s
      let x ← pyItem m (f v)
      return (s, x) : Except Err (String × M)) = (do
      let m ← pyItem sv s
      let x ← pyItem m v
      return (s, x)) := by
    intro s
    rw [pyItem_table]
    rcases pyItem sv s with e | m
    · rfl
    · show (pyItem (renameVars f m) (f v) >>= fun x => _) = _
      rw [pyItem_rename hf]
      rfl
  simp only [this]
  rcases (names.mapM (fun s => (do
      let m ← pyItem sv s
      let x ← pyItem m v
      return (s, x) : Except Err (String × M)))) with e | xs
  · rfl
  · show (g xs >>= fun x => _) = Except.map _ (g xs >>= fun x => _)
    rcases g xs with e | x <;> rfl

theorem forall₂_names' {R : Statistic D S → Statistic D S → Prop} :
    ∀ {l l' : List (String × Statistic D S)}, List.Forall₂ (fun ks ks' => ks'.1 = ks.1 ∧ R ks.2 ks'.2) l l' → l'.map Prod.fst = l.map Prod.fst
  | [], [], _ => rfl
  | x :: l, x' :: l', h => by
    obtain ⟨h1, h2⟩ := List.forall₂_cons.mp h
    rw [List.map_cons, List.map_cons, h1.1, forall₂_names' h2]

/-- A metric computed variable by variable. -/
theorem perVariableMetric_renames (hf : Function.Injective f) {stats stats' : List (String × Statistic D S)} (hs : List.Forall₂ (fun ks ks' => ks'.1 = ks.1 ∧ ks.2.Renames f ks'.2) stats stats')
    (g : List (String × M) → Except Err M) : (perVariableMetric stats g).Renames f (perVariableMetric stats' g) := by
  refine ⟨hs, fun sv => ?_⟩
  show perVariableValues (stats'.map Prod.fst) g _ = _
  rw [forall₂_names' hs]
  exact perVariableValues_rename hf _ g sv

theorem statistic_renames {s s' : Statistic D S} (hs : s.Renames f s') : (s.toMetric (M := M)).Renames f s'.toMetric :=
  ⟨.cons ⟨rfl, hs⟩ .nil, fun sv => pyItem_table "self" sv⟩

/-- **C103** Every metric whose statistics and formula are given variable by variable treats all variables alike; nothing is asked of the functions. -/
theorem C103_per_variable (g : List (String × M) → Except Err M) (stats : List (String × Statistic D S)) (h : ∀ ks ∈ stats, ∃ name c, ks.2 = perVariableStatistic name c) :
    (perVariableMetric stats g).NameBlind := by
  intro f hf
  refine perVariableMetric_renames hf ?_ g
  induction stats with
  | nil => exact .nil
  | cons ks stats ih =>
    refine .cons ⟨rfl, ?_⟩ (ih (fun x hx => h x (by simp [hx])))
    obtain ⟨name, c, hc⟩ := h ks (by simp)
    rw [hc]
    exact perVariable_renames hf _ _ c

/-- **C103** So does every statistic computed variable by variable when it is used as a metric. -/
theorem C103_statistic (name : String) (g : D → D → Except Err (Option S)) : ((perVariableStatistic name g).toMetric (M := M)).NameBlind :=
  fun _ hf => statistic_renames (perVariable_renames hf _ _ g)

end statistics
end WBX
