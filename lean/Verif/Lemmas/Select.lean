import Verif.Spec.Select
import Verif.Lemmas.Roles
import Verif.Lemmas.Locality

/-!
# Lemmas for C100
-/

set_option linter.unusedSectionVars false

namespace WBX
open DA Aggregator

theorem mapM_nat {α β γ : Type} {f : α → Except Err β} {f' : α → Except Err γ} (r : β → γ) : ∀ {l : List α} {out : List β}, (∀ a ∈ l, ∀ b, f a = .ok b → f' a = .ok (r b)) →
    l.mapM f = .ok out → l.mapM f' = .ok (out.map r)
  | [], out, _, h => by
    rw [List.mapM_nil] at h
    cases h; rfl
  | a :: l, out, hf, h => by
    rw [List.mapM_cons] at h ⊢
    obtain ⟨b, hb, h⟩ := bind_ok_iff.mp h
    obtain ⟨bs, hbs, h⟩ := bind_ok_iff.mp h
    cases h
    rw [hf a (by simp) b hb, mapM_nat r (fun a ha => hf a (by simp [ha])) hbs]
    rfl

theorem pyItem_map_ok {β γ : Type} (f : β → γ) {xs : List (String × β)} {k : String} {b : β} (h : pyItem xs k = .ok b) : pyItem (xs.map (fun kv => (kv.1, f kv.2))) k = .ok (f b) := by
  unfold pyItem at h ⊢
  rw [pyGet?_map f xs k]
  cases hg : pyGet? k xs with
  | none => rw [hg] at h; cases h
  | some x => rw [hg] at h; cases h; rfl

theorem commonVariables_map {M : Type} (ρ : M → M) : ∀ (vs : List (Vars M)), commonVariables (vs.map (fun v => v.map (fun kv => (kv.1, ρ kv.2)))) = commonVariables vs
  | [] => rfl
  | v :: vs => by
    simp only [List.map_cons, commonVariables, List.map_map, Function.comp_def, List.all_map]

theorem perVariableValues_map {M : Type} (ρ : M → M) {names : List String} {g : List (String × M) → Except Err M}
    (hg : ∀ xs y, g xs = .ok y → g (xs.map (fun kv => (kv.1, ρ kv.2))) = .ok (ρ y)) {sv : List (String × Vars M)} {out : Vars M} (h : perVariableValues names g sv = .ok out) :
    perVariableValues names g (sv.map (fun s => (s.1, s.2.map (fun kv => (kv.1, ρ kv.2))))) = .ok (out.map (fun kv => (kv.1, ρ kv.2))) := by
  unfold perVariableValues at h ⊢
  obtain ⟨vs, hvs, h⟩ := bind_ok_iff.mp h
  obtain ⟨common, hc, h⟩ := bind_ok_iff.mp h
  refine bind_ok_iff.mpr ⟨vs.map (fun v => v.map (fun kv => (kv.1, ρ kv.2))), mapM_nat _ (fun a _ b hb => pyItem_map_ok (fun v : Vars M => v.map (fun kv => (kv.1, ρ kv.2))) hb) hvs, ?_⟩
  refine bind_ok_iff.mpr ⟨common, (commonVariables_map ρ vs).trans hc, ?_⟩
  refine mapM_nat (fun kv : String × M => (kv.1, ρ kv.2)) (fun v _ b hb => ?_) h
  obtain ⟨pv, hpv, hb⟩ := bind_ok_iff.mp hb
  obtain ⟨x, hx, hb⟩ := bind_ok_iff.mp hb
  cases hb
  refine bind_ok_iff.mpr ⟨pv.map (fun kv => (kv.1, ρ kv.2)), mapM_nat (fun kv : String × M => (kv.1, ρ kv.2)) (fun s _ q hq => ?_) hpv, bind_ok_iff.mpr ⟨ρ x, hg _ _ hx, rfl⟩⟩
  obtain ⟨m, hm, hq⟩ := bind_ok_iff.mp hq
  obtain ⟨y, hy, hq⟩ := bind_ok_iff.mp hq
  cases hq
  exact bind_ok_iff.mpr ⟨_, pyItem_map_ok (fun v : Vars M => v.map (fun kv => (kv.1, ρ kv.2))) hm, bind_ok_iff.mpr ⟨ρ y, pyItem_map_ok ρ hy, rfl⟩⟩

section formula
variable {L V : Type} [DecidableEq L] {c : Dim}

theorem selects_perVariable {statistics : List (String × Statistic (StatVar L V) (Option (StatVar L V)))} {g : List (String × DA L V) → Except Err (DA L V)}
    (hg : ∀ (S : Finset L) xs y, g xs = .ok y → g (xs.map (fun kv => (kv.1, kv.2.restrict c S))) = .ok (y.restrict c S)) : FormulaSelects c (perVariableMetric statistics g) :=
  fun S _ _ h => perVariableValues_map (DA.restrict c S) (hg S) h

theorem selects_statistic (s : Statistic (StatVar L V) (Option (StatVar L V))) : FormulaSelects c (s.toMetric (M := DA L V)) :=
  fun S _ _ h => pyItem_map_ok (selectLabels c S) h

theorem FormulaSelects.of_values {m m' : Metric (StatVar L V) (Option (StatVar L V)) (DA L V)} (h : FormulaSelects c m) (he : m'.valuesFromMeanStatistics = m.valuesFromMeanStatistics) :
    FormulaSelects c m' := by
  unfold FormulaSelects at h ⊢
  rw [he]; exact h

end formula

section aggregate
variable {L V : Type} [DecidableEq L] [AddCommMonoid V] [Mul V] [One V] [Div V] [IsNull V] {agg : Aggregator L V} {c : Dim}

theorem aggregationFn_select (hloc : agg.Local c) (hk : c ∉ agg.reduceDims) {a r : DA L V} (hc : c ∈ a.dims) (S : Finset L) (h : agg.aggregationFn a = .ok (some r)) :
    ∃ r', agg.aggregationFn (a.restrict c S) = .ok (some r') ∧ r'.Same (r.restrict c S) := by
  obtain ⟨h1, h2, h3, rfl⟩ := aggregationFn_some h
  refine ⟨sumDims agg.reduceDims.dedup (agg.product (a.restrict c S)), ?_, ?_⟩
  · obtain ⟨-, -, -, k4⟩ := aggregationFn_eq agg (a.restrict c S)
    rw [k4 h1 h2 ((BinsApply.restrict hloc hc S).mpr h3)]
    rfl
  · change (sumDims agg.reduceDims.dedup (agg.product (a.restrict c S))).Same ((sumDims agg.reduceDims.dedup (agg.product a)).restrict c S)
    rw [← sumDims_restrict_of_not_mem (fun h => hk (List.mem_dedup.mp h))]
    apply sumDims_congr (product_restrict hloc hc S) (List.nodup_dedup _)
    intro d hd
    apply mem_dims_product
    exact h1 d (by simpa using hd)

theorem aggregateStatVar_select (hloc : agg.Local c) (hk : c ∉ agg.reduceDims) {s : StatVar L V} {q : DA L V × DA L V} (hc : c ∈ s.arr.dims) (S : Finset L)
    (h : agg.aggregateStatVar s = .ok (some q)) : ∃ q', agg.aggregateStatVar (s.chunk c S) = .ok (some q') ∧ PairSame q' (q.1.restrict c S, q.2.restrict c S) := by
  obtain ⟨h1, h2⟩ := aggregateStatVar_some h
  obtain ⟨d1, d2⟩ := applyMask_dims agg s hc
  obtain ⟨r1, hr1, hs1⟩ := aggregationFn_select hloc hk d1 S h1
  obtain ⟨r2, hr2, hs2⟩ := aggregationFn_select hloc hk d2 S h2
  refine ⟨(r1, r2), ?_, hs1, hs2⟩
  have hm := applyMask_restrict agg c S s
  rw [show s.restrict c S = s.chunk c S from rfl] at hm
  rw [aggregateStatVar_eq, hm]
  simp [hr1, hr2, Except.bind]

theorem perVar_select (hloc : agg.Local c) (hk : c ∉ agg.reduceDims) (S : Finset L) : ∀ {xs : List (String × Option (StatVar L V))} {r : List (String × (DA L V × DA L V))},
    (∀ v s, (v, some s) ∈ xs → c ∈ s.arr.dims) → agg.perVar xs = .ok r →
    ∃ r', agg.perVar (chunkStats c S xs) = .ok r' ∧ List.Forall₂ (fun a b => a.1 = b.1 ∧ PairSame a.2 (b.2.1.restrict c S, b.2.2.restrict c S)) r' r
  | [], r, _, h => by
    simp only [perVar, Except.ok.injEq] at h
    subst h
    exact ⟨[], rfl, .nil⟩
  | (k, none) :: xs, r, hx, h => by
    simp only [perVar] at h
    obtain ⟨r', hr', hf⟩ := perVar_select hloc hk S (fun v s hs => hx v s (by simp [hs])) h
    exact ⟨r', by simpa only [chunkStats, List.map_cons, Option.map_none, perVar] using hr', hf⟩
  | (k, some s) :: xs, r, hx, h => by
    simp only [perVar] at h
    obtain ⟨o, ho, h⟩ := bind_ok_iff.mp h
    obtain ⟨rs, hrs, h⟩ := bind_ok_iff.mp h
    obtain ⟨rs', hrs', hf⟩ := perVar_select hloc hk S (fun v s hs => hx v s (by simp [hs])) hrs
    have hc := hx k s (by simp)
    simp only [chunkStats, List.map_cons, Option.map_some, perVar]
    have hrs'' : agg.perVar (xs.map (fun kv => (kv.1, kv.2.map (StatVar.chunk c S)))) = .ok rs' := hrs'
    cases o with
    | none =>
      cases h
      have hn : agg.aggregateStatVar (s.chunk c S) = .ok none := aggregateStatVar_chunk_none hloc hc S ho
      rw [hn, hrs'']
      exact ⟨rs', rfl, hf⟩
    | some q =>
      cases h
      obtain ⟨q', hq', hs⟩ := aggregateStatVar_select hloc hk hc S ho
      rw [hq', hrs'']
      exact ⟨(k, q') :: rs', rfl, .cons ⟨rfl, hs⟩ hf⟩

theorem varsSame_of_forall₂ {x y : Vars (DA L V)} (h : List.Forall₂ (fun a b => a.1 = b.1 ∧ a.2.Same b.2) x y) : VarsSame x y := fun _ => item_forall₂ h

theorem meanVars_select (hloc : agg.Local c) (hk : c ∉ agg.reduceDims) (S : Finset L) {xs : List (String × Option (StatVar L V))} {r : Vars (DA L V)}
    (hx : ∀ v s, (v, some s) ∈ xs → c ∈ s.arr.dims) (h : meanVars agg xs = .ok r) : ∃ r', meanVars agg (chunkStats c S xs) = .ok r' ∧ VarsSame r' (selectLabels c S r) := by
  unfold meanVars at h
  obtain ⟨pv, hpv, h⟩ := bind_ok_iff.mp h
  cases h
  obtain ⟨pv', hpv', hf⟩ := perVar_select hloc hk S hx hpv
  refine ⟨pv'.map (fun q => (q.1, DA.zipWith (· / ·) q.2.1 q.2.2)), bind_ok_iff.mpr ⟨pv', hpv', rfl⟩, varsSame_of_forall₂ ?_⟩
  unfold selectLabels
  rw [List.map_map, List.forall₂_map_left_iff, List.forall₂_map_right_iff]
  refine hf.imp (fun a b hab => ⟨hab.1, ?_⟩)
  simp only [Function.comp_def]
  rw [← restrict_zipWith]
  exact zipWith_congr hab.2.1 hab.2.2

theorem means_select (hloc : agg.Local c) (hk : c ∉ agg.reduceDims) (S : Finset L) {H : Vars (StatVar L V) → Vars (StatVar L V) → Prop} {p t : Vars (StatVar L V)} (hH : H p t) :
    ∀ {l : List (String × Statistic (StatVar L V) (Option (StatVar L V)))} {T : List (String × Vars (DA L V))}, (∀ ks ∈ l, ks.2.LocalOn H c ∧ KeepsDim c ks.2 p t) →
    l.mapM (fun ks => do
      let v ← ks.2.compute p t
      let mean ← meanVars agg v
      return (ks.1, mean)) = .ok T →
    ∃ T', l.mapM (fun ks => do
      let v ← ks.2.compute (chunkVars c S p) (chunkVars c S t)
      let mean ← meanVars agg v
      return (ks.1, mean)) = .ok T' ∧ List.Forall₂ (fun a b => a.1 = b.1 ∧ VarsSame a.2 (selectLabels c S b.2)) T' T
  | [], T, _, h => by
    rw [List.mapM_nil] at h
    cases h
    exact ⟨[], rfl, .nil⟩
  | ks :: l, T, hl, h => by
    rw [List.mapM_cons] at h
    obtain ⟨b, hb, h⟩ := bind_ok_iff.mp h
    obtain ⟨bs, hbs, h⟩ := bind_ok_iff.mp h
    cases h
    obtain ⟨v, hv, hb⟩ := bind_ok_iff.mp hb
    obtain ⟨mean, hmean, hb⟩ := bind_ok_iff.mp hb
    cases hb
    obtain ⟨hloc1, hkeep⟩ := hl ks (by simp)
    obtain ⟨r', hr', hs⟩ := meanVars_select hloc hk S (hkeep v hv) hmean
    obtain ⟨T', hT', hf⟩ := means_select hloc hk S hH (fun ks hks => hl ks (by simp [hks])) hbs
    refine ⟨(ks.1, r') :: T', ?_, .cons ⟨rfl, hs⟩ hf⟩
    rw [List.mapM_cons]
    exact bind_ok_iff.mpr ⟨(ks.1, r'), bind_ok_iff.mpr ⟨_, hloc1 S p t v hH hv, bind_ok_iff.mpr ⟨r', hr', rfl⟩⟩, bind_ok_iff.mpr ⟨T', hT', rfl⟩⟩

end aggregate
end WBX
