import Verif.Lemmas.Relabel
import Verif.Model.Wrappers
import Verif.Lemmas.PipelineState

/-!
# C102: what the labels are called does not matter
-/

set_option linter.unusedSectionVars false

namespace WBX
open DA Aggregator

section pipeline

theorem mapM_image {α β γ : Type} {f : α → Except Err β} {f' : α → Except Err γ} {g : β → γ} : ∀ {l : List α}, (∀ x ∈ l, f' x = (f x).map g) → l.mapM f' = (l.mapM f).map (List.map g)
  | [], _ => rfl
  | x :: l, h => by
    rw [List.mapM_cons, List.mapM_cons, h x List.mem_cons_self, mapM_image (fun y hy => h y (List.mem_cons_of_mem _ hy))]
    rcases f x with e | b
    · rfl
    · rcases l.mapM f with e | bs
      · rfl
      · rfl

theorem mapM_image₂ {α α' β γ : Type} {R : α → α' → Prop} {f : α → Except Err β} {f' : α' → Except Err γ} {g : β → γ} (h : ∀ x x', R x x' → f' x' = (f x).map g) :
    ∀ {l : List α} {l' : List α'}, List.Forall₂ R l l' → l'.mapM f' = (l.mapM f).map (List.map g)
  | [], [], _ => rfl
  | x :: l, x' :: l', hl => by
    obtain ⟨h1, h2⟩ := List.forall₂_cons.mp hl
    rw [List.mapM_cons, List.mapM_cons, h x x' h1, mapM_image₂ h h2]
    rcases f x with e | b
    · rfl
    · rcases l.mapM f with e | bs
      · rfl
      · rfl

theorem bind_image {α α' β β' : Type} {x : Except Err α} {g : α → α'} {k : α → Except Err β} {k' : α' → Except Err β'} {h : β → β'} (hk : ∀ y, k' (g y) = (k y).map h) :
    (x.map g >>= k') = (x >>= k).map h := by
  rcases x with e | y
  · rfl
  · exact hk y

theorem pyItem_image {β γ : Type} (g : β → γ) (l : List (String × β)) (k : String) : pyItem (l.map (fun kv => (kv.1, g kv.2))) k = (pyItem l k).map g := by
  unfold pyItem
  rw [(pyGet?_map g l k)]
  cases pyGet? k l <;> rfl

variable {L V : Type} [DecidableEq L] [AddCommMonoid V] [Mul V] [One V] [Div V] [IsNull V] {ρ : Dim → Equiv.Perm L}

/-- **C102** New labels for the same data: the metric has the same values, at the new labels, or the same error. -/
theorem C102_relabel {m m' : Metric (StatVar L V) (Option (StatVar L V)) (DA L V)} {agg agg' : Aggregator L V} (hagg : agg.Relabels ρ agg') (hm : m.Relabels ρ m') (p t : Vars (StatVar L V)) :
    metricAlone m' agg' (relabelVars ρ p) (relabelVars ρ t) = (metricAlone m agg p t).map (relabelValues ρ) := by
  unfold metricAlone
  have key : (m'.statistics.mapM (fun ks => do
        let v ← ks.2.compute (relabelVars ρ p) (relabelVars ρ t)
        let mean ← meanVars agg' v
        return (ks.1, mean)) : Except Err (List (String × Vars (DA L V)))) = Except.map (List.map (fun kv : String × Vars (DA L V) => (kv.1, relabelValues ρ kv.2))) (m.statistics.mapM (fun ks => do
        let v ← ks.2.compute p t
        let mean ← meanVars agg v
        return (ks.1, mean))) := by
    refine mapM_image₂ (R := fun ks ks' => ks'.1 = ks.1 ∧ ks.2.Relabels ρ ks'.2) (fun ks ks' hks => ?_) hm.statistics
    rw [hks.2 p t, hks.1]
    rcases ks.2.compute p t with e | v
    · rfl
    · show (meanVars agg' (relabelStats ρ v) >>= fun mean => _) = _
      rw [relabel_meanVars hagg]
      show _ = Except.map _ (meanVars agg v >>= fun mean => _)
      rcases meanVars agg v with e | mean <;> rfl
  rw [key]
  exact bind_image (fun means => hm.formula means)

end pipeline

section formulas
variable {L V : Type} [DecidableEq L] {ρ : Dim → Equiv.Perm L}

theorem commonVariables_image {M N : Type} (g : M → N) (vs : List (Vars M)) : commonVariables (vs.map (List.map (fun kv => (kv.1, g kv.2)))) = commonVariables vs := by
  have hf : ∀ w : Vars M, (w.map (fun kv => (kv.1, g kv.2))).map Prod.fst = w.map Prod.fst := fun w => by rw [List.map_map]; rfl
  cases vs with
  | nil => rfl
  | cons v vs =>
    rw [List.map_cons, commonVariables, commonVariables, hf]
    simp only [List.all_map, Function.comp_def, hf]

theorem perVariableValues_image {names : List String} {g g' : List (String × DA L V) → Except Err (DA L V)}
    (hg : ∀ xs : List (String × DA L V), g' (xs.map (fun kv => (kv.1, kv.2.relabel ρ))) = (g xs).map (DA.relabel ρ)) (sv : List (String × Vars (DA L V))) :
    perVariableValues names g' (sv.map (fun kv => (kv.1, relabelValues ρ kv.2))) = (perVariableValues names g sv).map (relabelValues ρ) := by
  unfold perVariableValues
  rw [mapM_image (f := pyItem sv) (g := relabelValues ρ) (fun k _ => pyItem_image (relabelValues ρ) sv k)]
  rcases names.mapM (pyItem sv) with e | vs
  · rfl
  · show (commonVariables (vs.map (relabelValues ρ)) >>= fun common => _) = Except.map _ (commonVariables vs >>= fun common => _)
    rw [show vs.map (relabelValues ρ) = vs.map (List.map (fun kv => (kv.1, kv.2.relabel ρ))) from rfl, commonVariables_image]
    rcases commonVariables vs with e | common
    · rfl
    · refine mapM_image (fun v _ => ?_)
      rw [mapM_image (f := fun s => do
        let m ← pyItem sv s
        let x ← pyItem m v
        return (s, x)) (g := fun kv => (kv.1, kv.2.relabel ρ)) (fun s _ => ?_)]
      · rcases names.mapM (fun s => (do
          let m ← pyItem sv s
          let x ← pyItem m v
          return (s, x) : Except Err (String × DA L V))) with e | xs
        · rfl
        · show (g' (xs.map (fun kv => (kv.1, kv.2.relabel ρ))) >>= fun x => _) = Except.map _ (g xs >>= fun x => _)
          rw [hg]
          rcases g xs with e | x <;> rfl
      · rw [pyItem_image]
        rcases pyItem sv s with e | m
        · rfl
        · show (pyItem (relabelValues ρ m) v >>= fun x => _) = Except.map _ (pyItem m v >>= fun x => _)
          rw [show relabelValues ρ m = m.map (fun kv => (kv.1, kv.2.relabel ρ)) from rfl, pyItem_image]
          rcases pyItem m v with e | x <;> rfl

theorem forall₂_names {R : Statistic (StatVar L V) (Option (StatVar L V)) → Statistic (StatVar L V) (Option (StatVar L V)) → Prop} :
    ∀ {l l' : List (String × Statistic (StatVar L V) (Option (StatVar L V)))}, List.Forall₂ (fun ks ks' => ks'.1 = ks.1 ∧ R ks.2 ks'.2) l l' → l'.map Prod.fst = l.map Prod.fst
  | [], [], _ => rfl
  | x :: l, x' :: l', h => by
    obtain ⟨h1, h2⟩ := List.forall₂_cons.mp h
    rw [List.map_cons, List.map_cons, h1.1, forall₂_names h2]

theorem perVariableMetric_relabels {stats stats' : List (String × Statistic (StatVar L V) (Option (StatVar L V)))} {g g' : List (String × DA L V) → Except Err (DA L V)}
    (hs : List.Forall₂ (fun ks ks' => ks'.1 = ks.1 ∧ ks.2.Relabels ρ ks'.2) stats stats')
    (hg : ∀ xs : List (String × DA L V), g' (xs.map (fun kv => (kv.1, kv.2.relabel ρ))) = (g xs).map (DA.relabel ρ)) : (perVariableMetric stats g).Relabels ρ (perVariableMetric stats' g') := by
  refine ⟨hs, fun sv => ?_⟩
  show perVariableValues (stats'.map Prod.fst) g' _ = _
  rw [forall₂_names hs]
  exact perVariableValues_image hg sv

theorem statistic_relabels {s s' : Statistic (StatVar L V) (Option (StatVar L V))} (hs : s.Relabels ρ s') : (s.toMetric (M := DA L V)).Relabels ρ s'.toMetric :=
  ⟨.cons ⟨rfl, hs⟩ .nil, fun sv => pyItem_image (relabelValues ρ) sv "self"⟩

/-- A statistic that is computed variable by variable. -/
theorem perVariable_relabels {name name' : String} {f f' : StatVar L V → StatVar L V → Except Err (Option (Option (StatVar L V)))}
    (hf : ∀ a b, f' (a.relabel ρ) (b.relabel ρ) = (f a b).map (Option.map (Option.map (StatVar.relabel ρ)))) : (perVariableStatistic name f).Relabels ρ (perVariableStatistic name' f') := by
  intro p t
  show perVariableLoop f' (relabelVars ρ t) (relabelVars ρ p) = (perVariableLoop f t p).map (relabelStats ρ)
  induction p with
  | nil => rfl
  | cons x p ih =>
    obtain ⟨v, a⟩ := x
    show perVariableLoop f' (relabelVars ρ t) ((v, a.relabel ρ) :: relabelVars ρ p) = _
    rw [perVariableLoop, perVariableLoop, ih]
    rw [show pyGet? v (relabelVars ρ t) = (pyGet? v t).map (StatVar.relabel ρ) from pyGet?_map (StatVar.relabel ρ) t v]
    rcases pyGet? v t with _ | b
    · rfl
    · simp only [Option.map_some]
      rw [hf]
      rcases f a b with e | r
      · rfl
      · rcases perVariableLoop f t p with e | rs
        · rfl
        · rcases r with _ | x <;> rfl

end formulas

section arrays
variable {L : Type} [DecidableEq L] {ρ : Dim → Equiv.Perm L}

theorem relabel_equals {V : Type} (a b : DA L V) : (a.relabel ρ).Equals (b.relabel ρ) ↔ a.Equals b := by
  have back : ∀ (c : DA L V) (e : Dim → L), (c.relabel ρ).InDom e ↔ c.InDom (fun k => (ρ k).symm (e k)) := by
    intro c e
    unfold DA.InDom
    refine forall₂_congr (fun d _ => ?_)
    simp only [DA.relabel, Finset.mem_map_equiv]
  constructor
  · rintro ⟨h1, h2, h3⟩
    refine ⟨h1, fun d hd => Finset.map_injective _ (h2 d hd), fun e he => ?_⟩
    have := h3 (fun k => ρ k (e k)) (by rw [back]; simpa using he)
    simpa [DA.relabel] using this
  · rintro ⟨h1, h2, h3⟩
    exact ⟨h1, fun d hd => congrArg (Finset.map (ρ d).toEmbedding) (h2 d hd), fun e he => h3 _ ((back a e).mp he)⟩

theorem relabel_combineMask (m m' : Option (DA L Bool)) : combineMask (m.map (DA.relabel ρ)) (m'.map (DA.relabel ρ)) = (combineMask m m').map (DA.relabel ρ) := by
  classical
  rcases m with _ | m <;> rcases m' with _ | m'
  · rfl
  · rfl
  · rfl
  · simp only [Option.map_some, combineMask, relabel_equals]
    split <;> rfl

theorem sv_map {V W : Type} (f : V → W) (a : StatVar L V) : (a.relabel ρ).map f = (a.map f).relabel ρ := rfl

theorem sv_zip {U V W : Type} (f : V → W → U) (a : StatVar L V) (b : StatVar L W) : (a.relabel ρ).zipWith f (b.relabel ρ) = (a.zipWith f b).relabel ρ := by
  unfold StatVar.zipWith StatVar.relabel
  dsimp only
  rw [relabel_zip, relabel_combineMask]

theorem sv_bare {V : Type} (a : DA L V) : (⟨a.relabel ρ, none⟩ : StatVar L V) = (⟨a, none⟩ : StatVar L V).relabel ρ := rfl

variable {K : Type} [Field K] [LinearOrder K] [IsStrictOrderedRing K]

theorem statOf_relabels {name name' : String} {f f' : StatVar L (FV K) → StatVar L (FV K) → StatVar L (FV K)} (hf : ∀ a b, f' (a.relabel ρ) (b.relabel ρ) = (f a b).relabel ρ) :
    (statOf name f).Relabels ρ (statOf name' f') :=
  perVariable_relabels (fun a b => by rw [hf]; rfl)

theorem statOfE_relabels {name name' : String} {f f' : StatVar L (FV K) → StatVar L (FV K) → Except Err (StatVar L (FV K))}
    (hf : ∀ a b, f' (a.relabel ρ) (b.relabel ρ) = (f a b).map (StatVar.relabel ρ)) : (statOfE name f).Relabels ρ (statOfE name' f') :=
  perVariable_relabels (fun a b => by rw [hf]; rcases f a b with e | s <;> rfl)

theorem item_bind {β : Type} {xs : List (String × DA L (FV K))} {k : String} {g g' : DA L (FV K) → Except Err β} {φ : β → β} (h : ∀ x, g' (x.relabel ρ) = (g x).map φ) :
    (pyItem (xs.map (fun kv => (kv.1, kv.2.relabel ρ))) k >>= g') = (pyItem xs k >>= g).map φ := by
  rw [pyItem_image]
  rcases pyItem xs k with e | x
  · rfl
  · exact h x

theorem metric1_relabels {n1 : String} {s1 r1 : FStatistic L K} {f g : DA L (FV K) → DA L (FV K)} (h1 : s1.Relabels ρ r1)
    (hf : ∀ a, g (a.relabel ρ) = (f a).relabel ρ) : (metric1 (n1, s1) f).Relabels ρ (metric1 (n1, r1) g) :=
  perVariableMetric_relabels (.cons ⟨rfl, h1⟩ (.nil))
    (fun xs => item_bind (fun x1 => by rw [hf]; rfl))

theorem metric2_relabels {n1 n2 : String} {s1 s2 r1 r2 : FStatistic L K} {f g : DA L (FV K) → DA L (FV K) → DA L (FV K)} (h1 : s1.Relabels ρ r1) (h2 : s2.Relabels ρ r2)
    (hf : ∀ a b, g (a.relabel ρ) (b.relabel ρ) = (f a b).relabel ρ) : (metric2 (n1, s1) (n2, s2) f).Relabels ρ (metric2 (n1, r1) (n2, r2) g) :=
  perVariableMetric_relabels (.cons ⟨rfl, h1⟩ (.cons ⟨rfl, h2⟩ (.nil)))
    (fun xs => item_bind (fun x1 => item_bind (fun x2 => by rw [hf]; rfl)))

theorem metric3_relabels {n1 n2 n3 : String} {s1 s2 s3 r1 r2 r3 : FStatistic L K} {f g : DA L (FV K) → DA L (FV K) → DA L (FV K) → DA L (FV K)} (h1 : s1.Relabels ρ r1) (h2 : s2.Relabels ρ r2) (h3 : s3.Relabels ρ r3)
    (hf : ∀ a b c, g (a.relabel ρ) (b.relabel ρ) (c.relabel ρ) = (f a b c).relabel ρ) : (metric3 (n1, s1) (n2, s2) (n3, s3) f).Relabels ρ (metric3 (n1, r1) (n2, r2) (n3, r3) g) :=
  perVariableMetric_relabels (.cons ⟨rfl, h1⟩ (.cons ⟨rfl, h2⟩ (.cons ⟨rfl, h3⟩ (.nil))))
    (fun xs => item_bind (fun x1 => item_bind (fun x2 => item_bind (fun x3 => by rw [hf]; rfl))))

theorem metric4_relabels {n1 n2 n3 n4 : String} {s1 s2 s3 s4 r1 r2 r3 r4 : FStatistic L K} {f g : DA L (FV K) → DA L (FV K) → DA L (FV K) → DA L (FV K) → DA L (FV K)} (h1 : s1.Relabels ρ r1) (h2 : s2.Relabels ρ r2) (h3 : s3.Relabels ρ r3) (h4 : s4.Relabels ρ r4)
    (hf : ∀ a b c d, g (a.relabel ρ) (b.relabel ρ) (c.relabel ρ) (d.relabel ρ) = (f a b c d).relabel ρ) : (metric4 (n1, s1) (n2, s2) (n3, s3) (n4, s4) f).Relabels ρ (metric4 (n1, r1) (n2, r2) (n3, r3) (n4, r4) g) :=
  perVariableMetric_relabels (.cons ⟨rfl, h1⟩ (.cons ⟨rfl, h2⟩ (.cons ⟨rfl, h3⟩ (.cons ⟨rfl, h4⟩ (.nil)))))
    (fun xs => item_bind (fun x1 => item_bind (fun x2 => item_bind (fun x3 => item_bind (fun x4 => by rw [hf]; rfl)))))

theorem relabel_add (a b : DA L (FV K)) : (a.relabel ρ).add (b.relabel ρ) = (a.add b).relabel ρ := relabel_zip ..
theorem relabel_sub (a b : DA L (FV K)) : (a.relabel ρ).sub (b.relabel ρ) = (a.sub b).relabel ρ := relabel_zip ..
theorem relabel_mul (a b : DA L (FV K)) : (a.relabel ρ).mul (b.relabel ρ) = (a.mul b).relabel ρ := relabel_zip ..
theorem relabel_div (a b : DA L (FV K)) : (a.relabel ρ).div (b.relabel ρ) = (a.div b).relabel ρ := relabel_zip ..
theorem relabel_smul (k : K) (a : DA L (FV K)) : (a.relabel ρ).smul k = (a.smul k).relabel ρ := rfl

/-- Formulas built from elementwise operations commute with new labels. -/
macro "formula_relabels" : tactic => `(tactic| (intros; simp only [relabel_add, relabel_sub, relabel_mul, relabel_div, relabel_smul, relabel_map]))

end arrays

section metrics
variable {L K : Type} [DecidableEq L] [Field K] [LinearOrder K] [IsStrictOrderedRing K] {ρ : Dim → Equiv.Perm L}

theorem error_blind : (errorStatistic (L := L) (K := K)).Blind ρ := statOf_relabels (fun a b => sv_zip _ a b)
theorem absoluteError_blind : (absoluteErrorStatistic (L := L) (K := K)).Blind ρ := statOf_relabels (fun a b => by rw [absoluteError, error, sv_zip, sv_map]; rfl)
theorem squaredError_blind : (squaredErrorStatistic (L := L) (K := K)).Blind ρ := statOf_relabels (fun a b => by rw [squaredError, sv_zip, sv_map]; rfl)

/-- **C102** Bias, mean absolute error and mean squared error do not look at labels. -/
theorem C102_deterministic : ((errorStatistic (L := L) (K := K)).toMetric (M := DA L (FV K))).Blind ρ ∧ ((absoluteErrorStatistic (L := L) (K := K)).toMetric (M := DA L (FV K))).Blind ρ ∧
    ((squaredErrorStatistic (L := L) (K := K)).toMetric (M := DA L (FV K))).Blind ρ :=
  ⟨statistic_relabels error_blind, statistic_relabels absoluteError_blind, statistic_relabels squaredError_blind⟩

/-- **C102** Nor does the root mean squared error. -/
theorem C102_rmse : (rmse (L := L)).Blind ρ :=
  metric1_relabels (n1 := "SquaredError") (f := fun x => x.map FV.sqrt) squaredError_blind (fun _ => rfl)

/-- **C102** Nor do the mean prediction and the mean target. -/
theorem C102_passthrough (name : String) (copyNans : Bool) : (statOf (L := L) (K := K) name (predictionPassthrough copyNans)).Blind ρ ∧
    (statOf (L := L) (K := K) name (targetPassthrough copyNans)).Blind ρ := by
  have h : ∀ a b : StatVar L (FV K), predictionPassthrough copyNans (a.relabel ρ) (b.relabel ρ) = (predictionPassthrough copyNans a b).relabel ρ := by
    intro a b
    cases copyNans <;> simp only [predictionPassthrough, sv_map, sv_zip, if_true, if_false, Bool.false_eq_true]
  exact ⟨statOf_relabels h, statOf_relabels (fun a b => h b a)⟩

theorem contingency_blind (name : String) (f : Bool → Bool → Bool) : (statOf (L := L) (K := K) name (contingency f)).Blind ρ :=
  statOf_relabels (fun a b => by simp only [contingency, sv_map, sv_zip])

/-- **C102** Nor do the categorical scores. -/
theorem C102_categorical : (csi (L := L) (K := K)).Blind ρ ∧ (accuracy (L := L) (K := K)).Blind ρ ∧ (recall (L := L) (K := K)).Blind ρ ∧ (falseAlarmRate (L := L) (K := K)).Blind ρ ∧
    (precision (L := L) (K := K)).Blind ρ ∧ (f1Score (L := L) (K := K)).Blind ρ ∧ (frequencyBias (L := L) (K := K)).Blind ρ ∧ (hss (L := L) (K := K)).Blind ρ ∧ (ets (L := L) (K := K)).Blind ρ := by
  have tp : (tpStatistic (L := L) (K := K)).Blind ρ := contingency_blind _ _
  have fp : (fpStatistic (L := L) (K := K)).Blind ρ := contingency_blind _ _
  have fn : (fnStatistic (L := L) (K := K)).Blind ρ := contingency_blind _ _
  have tn : (tnStatistic (L := L) (K := K)).Blind ρ := contingency_blind _ _
  exact ⟨metric3_relabels tp fp fn (by formula_relabels), metric4_relabels tp fp fn tn (by formula_relabels), metric2_relabels tp fn (by formula_relabels), metric2_relabels tp fp (by formula_relabels),
    metric2_relabels tp fp (by formula_relabels), metric3_relabels tp fp fn (by formula_relabels), metric3_relabels tp fp fn (by formula_relabels), metric4_relabels tp fp fn tn (by formula_relabels),
    metric4_relabels tp fp fn tn (by formula_relabels)⟩

/-- **C102** Nor does the symmetric extremal dependence index. -/
theorem C102_sedi : (sedi (L := L)).Blind ρ :=
  metric4_relabels (contingency_blind _ _) (contingency_blind _ _) (contingency_blind _ _) (contingency_blind _ _) (fun a b c d => by
    simp only [sediFormula, relabel_add, relabel_sub, relabel_div, relabel_map])

end metrics
end WBX
