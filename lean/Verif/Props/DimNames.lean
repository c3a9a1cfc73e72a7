import Verif.Lemmas.DimNames
import Verif.Props.RelabelMore

/-!
# C104: what the dimensions are called does not matter
-/

set_option linter.unusedSectionVars false

namespace WBX
open DA Aggregator

section pipeline

variable {L V : Type} [DecidableEq L] [AddCommMonoid V] [Mul V] [One V] [Div V] [IsNull V] {σ : Equiv.Perm Dim}

/-- **C104** Other names for the dimensions of the same data: the metric has the same values, with the other names, or the same error. -/
theorem C104_redim {m m' : Metric (StatVar L V) (Option (StatVar L V)) (DA L V)} {agg agg' : Aggregator L V} (hagg : agg.Redims σ agg') (hm : m.Redims σ m') (p t : Vars (StatVar L V)) :
    metricAlone m' agg' (redimVars σ p) (redimVars σ t) = (metricAlone m agg p t).map (redimValues σ) := by
  unfold metricAlone
  have key : (m'.statistics.mapM (fun ks => do
        let v ← ks.2.compute (redimVars σ p) (redimVars σ t)
        let mean ← meanVars agg' v
        return (ks.1, mean)) : Except Err (List (String × Vars (DA L V)))) = Except.map (List.map (fun kv : String × Vars (DA L V) => (kv.1, redimValues σ kv.2))) (m.statistics.mapM (fun ks => do
        let v ← ks.2.compute p t
        let mean ← meanVars agg v
        return (ks.1, mean))) := by
    refine mapM_image₂ (R := fun ks ks' => ks'.1 = ks.1 ∧ ks.2.Redims σ ks'.2) (fun ks ks' hks => ?_) hm.statistics
    rw [hks.2 p t, hks.1]
    rcases ks.2.compute p t with e | v
    · rfl
    · show (meanVars agg' (redimStats σ v) >>= fun mean => _) = _
      rw [redim_meanVars hagg]
      show _ = Except.map _ (meanVars agg v >>= fun mean => _)
      rcases meanVars agg v with e | mean <;> rfl
  rw [key]
  exact bind_image (fun means => hm.formula means)

end pipeline

section formulas
variable {L V : Type} [DecidableEq L] {σ : Equiv.Perm Dim}

theorem commonVariables_redim {M N : Type} (g : M → N) (vs : List (Vars M)) : commonVariables (vs.map (List.map (fun kv => (kv.1, g kv.2)))) = commonVariables vs := by
  have hf : ∀ w : Vars M, (w.map (fun kv => (kv.1, g kv.2))).map Prod.fst = w.map Prod.fst := fun w => by rw [List.map_map]; rfl
  cases vs with
  | nil => rfl
  | cons v vs =>
    rw [List.map_cons, commonVariables, commonVariables, hf]
    simp only [List.all_map, Function.comp_def, hf]

theorem perVariableValues_redim {names : List String} {g g' : List (String × DA L V) → Except Err (DA L V)}
    (hg : ∀ xs : List (String × DA L V), g' (xs.map (fun kv => (kv.1, kv.2.redim σ))) = (g xs).map (DA.redim σ)) (sv : List (String × Vars (DA L V))) :
    perVariableValues names g' (sv.map (fun kv => (kv.1, redimValues σ kv.2))) = (perVariableValues names g sv).map (redimValues σ) := by
  unfold perVariableValues
  rw [mapM_image (f := pyItem sv) (g := redimValues σ) (fun k _ => pyItem_image (redimValues σ) sv k)]
  rcases names.mapM (pyItem sv) with e | vs
  · rfl
  · show (commonVariables (vs.map (redimValues σ)) >>= fun common => _) = Except.map _ (commonVariables vs >>= fun common => _)
    rw [show vs.map (redimValues σ) = vs.map (List.map (fun kv => (kv.1, kv.2.redim σ))) from rfl, commonVariables_redim]
    rcases commonVariables vs with e | common
    · rfl
    · refine mapM_image (fun v _ => ?_)
      rw [mapM_image (f := fun s => do
        let m ← pyItem sv s
        let x ← pyItem m v
        return (s, x)) (g := fun kv => (kv.1, kv.2.redim σ)) (fun s _ => ?_)]
      · rcases names.mapM (fun s => (do
          let m ← pyItem sv s
          let x ← pyItem m v
          return (s, x) : Except Err (String × DA L V))) with e | xs
        · rfl
        · show (g' (xs.map (fun kv => (kv.1, kv.2.redim σ))) >>= fun x => _) = Except.map _ (g xs >>= fun x => _)
          rw [hg]
          rcases g xs with e | x <;> rfl
      · rw [pyItem_image]
        rcases pyItem sv s with e | m
        · rfl
        · show (pyItem (redimValues σ m) v >>= fun x => _) = Except.map _ (pyItem m v >>= fun x => _)
          rw [show redimValues σ m = m.map (fun kv => (kv.1, kv.2.redim σ)) from rfl, pyItem_image]
          rcases pyItem m v with e | x <;> rfl

theorem forall₂_names_redim {R : Statistic (StatVar L V) (Option (StatVar L V)) → Statistic (StatVar L V) (Option (StatVar L V)) → Prop} :
    ∀ {l l' : List (String × Statistic (StatVar L V) (Option (StatVar L V)))}, List.Forall₂ (fun ks ks' => ks'.1 = ks.1 ∧ R ks.2 ks'.2) l l' → l'.map Prod.fst = l.map Prod.fst
  | [], [], _ => rfl
  | x :: l, x' :: l', h => by
    obtain ⟨h1, h2⟩ := List.forall₂_cons.mp h
    rw [List.map_cons, List.map_cons, h1.1, forall₂_names_redim h2]

theorem perVariableMetric_redims {stats stats' : List (String × Statistic (StatVar L V) (Option (StatVar L V)))} {g g' : List (String × DA L V) → Except Err (DA L V)}
    (hs : List.Forall₂ (fun ks ks' => ks'.1 = ks.1 ∧ ks.2.Redims σ ks'.2) stats stats')
    (hg : ∀ xs : List (String × DA L V), g' (xs.map (fun kv => (kv.1, kv.2.redim σ))) = (g xs).map (DA.redim σ)) : (perVariableMetric stats g).Redims σ (perVariableMetric stats' g') := by
  refine ⟨hs, fun sv => ?_⟩
  show perVariableValues (stats'.map Prod.fst) g' _ = _
  rw [forall₂_names_redim hs]
  exact perVariableValues_redim hg sv

theorem statistic_redims {s s' : Statistic (StatVar L V) (Option (StatVar L V))} (hs : s.Redims σ s') : (s.toMetric (M := DA L V)).Redims σ s'.toMetric :=
  ⟨.cons ⟨rfl, hs⟩ .nil, fun sv => pyItem_image (redimValues σ) sv "self"⟩

/-- A statistic that is computed variable by variable. -/
theorem perVariable_redims {name name' : String} {f f' : StatVar L V → StatVar L V → Except Err (Option (Option (StatVar L V)))}
    (hf : ∀ a b, f' (a.redim σ) (b.redim σ) = (f a b).map (Option.map (Option.map (StatVar.redim σ)))) : (perVariableStatistic name f).Redims σ (perVariableStatistic name' f') := by
  intro p t
  show perVariableLoop f' (redimVars σ t) (redimVars σ p) = (perVariableLoop f t p).map (redimStats σ)
  induction p with
  | nil => rfl
  | cons x p ih =>
    obtain ⟨v, a⟩ := x
    show perVariableLoop f' (redimVars σ t) ((v, a.redim σ) :: redimVars σ p) = _
    rw [perVariableLoop, perVariableLoop, ih]
    rw [show pyGet? v (redimVars σ t) = (pyGet? v t).map (StatVar.redim σ) from pyGet?_map (StatVar.redim σ) t v]
    rcases pyGet? v t with _ | b
    · rfl
    · simp only [Option.map_some]
      rw [hf]
      rcases f a b with e | r
      · rfl
      · rcases perVariableLoop f t p with e | rs
        · rfl
        · rcases r with _ | x <;> rfl

end formulas

section arrays
variable {L : Type} [DecidableEq L] {σ : Equiv.Perm Dim}

theorem redim_inDom {V : Type} (c : DA L V) (e : Dim → L) : (c.redim σ).InDom e ↔ c.InDom (fun k => e (σ k)) := by
  unfold DA.InDom
  constructor
  · intro h d hd
    have := h (σ d) ((mem_redim σ c).mpr hd)
    rwa [redim_coords] at this
  · intro h d hd
    have := h (σ.symm d) (Finset.mem_map_equiv.mp hd)
    dsimp only at this
    rw [σ.apply_symm_apply] at this
    exact this

theorem redim_equals {V : Type} (a b : DA L V) : (a.redim σ).Equals (b.redim σ) ↔ a.Equals b := by
  constructor
  · rintro ⟨h1, h2, h3⟩
    refine ⟨Finset.map_injective _ h1, fun d hd => ?_, fun e he => ?_⟩
    · have := h2 (σ d) ((mem_redim σ a).mpr hd)
      rwa [redim_coords, redim_coords] at this
    · have := h3 (fun k => e (σ.symm k)) (by rw [redim_inDom]; simpa using he)
      simpa [DA.redim] using this
  · rintro ⟨h1, h2, h3⟩
    exact ⟨congrArg (Finset.map σ.toEmbedding) h1, fun d hd => h2 _ (Finset.mem_map_equiv.mp hd), fun e he => h3 _ ((redim_inDom a e).mp he)⟩

theorem redim_combineMask (m m' : Option (DA L Bool)) : combineMask (m.map (DA.redim σ)) (m'.map (DA.redim σ)) = (combineMask m m').map (DA.redim σ) := by
  classical
  rcases m with _ | m <;> rcases m' with _ | m'
  · rfl
  · rfl
  · rfl
  · simp only [Option.map_some, combineMask, redim_equals]
    split <;> rfl

theorem redim_sv_map {V W : Type} (f : V → W) (a : StatVar L V) : (a.redim σ).map f = (a.map f).redim σ := rfl

theorem redim_sv_zip {U V W : Type} (f : V → W → U) (a : StatVar L V) (b : StatVar L W) : (a.redim σ).zipWith f (b.redim σ) = (a.zipWith f b).redim σ := by
  unfold StatVar.zipWith StatVar.redim
  dsimp only
  rw [redim_zip, redim_combineMask]

theorem redim_sv_bare {V : Type} (a : DA L V) : (⟨a.redim σ, none⟩ : StatVar L V) = (⟨a, none⟩ : StatVar L V).redim σ := rfl

variable {K : Type} [Field K] [LinearOrder K] [IsStrictOrderedRing K]

theorem statOf_redims {name name' : String} {f f' : StatVar L (FV K) → StatVar L (FV K) → StatVar L (FV K)} (hf : ∀ a b, f' (a.redim σ) (b.redim σ) = (f a b).redim σ) :
    (statOf name f).Redims σ (statOf name' f') :=
  perVariable_redims (fun a b => by rw [hf]; rfl)

theorem statOfE_redims {name name' : String} {f f' : StatVar L (FV K) → StatVar L (FV K) → Except Err (StatVar L (FV K))}
    (hf : ∀ a b, f' (a.redim σ) (b.redim σ) = (f a b).map (StatVar.redim σ)) : (statOfE name f).Redims σ (statOfE name' f') :=
  perVariable_redims (fun a b => by rw [hf]; rcases f a b with e | s <;> rfl)

theorem item_redim {β : Type} {xs : List (String × DA L (FV K))} {k : String} {g g' : DA L (FV K) → Except Err β} {φ : β → β} (h : ∀ x, g' (x.redim σ) = (g x).map φ) :
    (pyItem (xs.map (fun kv => (kv.1, kv.2.redim σ))) k >>= g') = (pyItem xs k >>= g).map φ := by
  rw [pyItem_image]
  rcases pyItem xs k with e | x
  · rfl
  · exact h x

theorem metric1_redims {n1 : String} {s1 r1 : FStatistic L K} {f g : DA L (FV K) → DA L (FV K)} (h1 : s1.Redims σ r1)
    (hf : ∀ a, g (a.redim σ) = (f a).redim σ) : (metric1 (n1, s1) f).Redims σ (metric1 (n1, r1) g) :=
  perVariableMetric_redims (.cons ⟨rfl, h1⟩ (.nil))
    (fun xs => item_redim (fun x1 => by rw [hf]; rfl))

theorem metric2_redims {n1 n2 : String} {s1 s2 r1 r2 : FStatistic L K} {f g : DA L (FV K) → DA L (FV K) → DA L (FV K)} (h1 : s1.Redims σ r1) (h2 : s2.Redims σ r2)
    (hf : ∀ a b, g (a.redim σ) (b.redim σ) = (f a b).redim σ) : (metric2 (n1, s1) (n2, s2) f).Redims σ (metric2 (n1, r1) (n2, r2) g) :=
  perVariableMetric_redims (.cons ⟨rfl, h1⟩ (.cons ⟨rfl, h2⟩ (.nil)))
    (fun xs => item_redim (fun x1 => item_redim (fun x2 => by rw [hf]; rfl)))

theorem metric3_redims {n1 n2 n3 : String} {s1 s2 s3 r1 r2 r3 : FStatistic L K} {f g : DA L (FV K) → DA L (FV K) → DA L (FV K) → DA L (FV K)} (h1 : s1.Redims σ r1) (h2 : s2.Redims σ r2) (h3 : s3.Redims σ r3)
    (hf : ∀ a b c, g (a.redim σ) (b.redim σ) (c.redim σ) = (f a b c).redim σ) : (metric3 (n1, s1) (n2, s2) (n3, s3) f).Redims σ (metric3 (n1, r1) (n2, r2) (n3, r3) g) :=
  perVariableMetric_redims (.cons ⟨rfl, h1⟩ (.cons ⟨rfl, h2⟩ (.cons ⟨rfl, h3⟩ (.nil))))
    (fun xs => item_redim (fun x1 => item_redim (fun x2 => item_redim (fun x3 => by rw [hf]; rfl))))

theorem metric4_redims {n1 n2 n3 n4 : String} {s1 s2 s3 s4 r1 r2 r3 r4 : FStatistic L K} {f g : DA L (FV K) → DA L (FV K) → DA L (FV K) → DA L (FV K) → DA L (FV K)} (h1 : s1.Redims σ r1) (h2 : s2.Redims σ r2) (h3 : s3.Redims σ r3) (h4 : s4.Redims σ r4)
    (hf : ∀ a b c d, g (a.redim σ) (b.redim σ) (c.redim σ) (d.redim σ) = (f a b c d).redim σ) : (metric4 (n1, s1) (n2, s2) (n3, s3) (n4, s4) f).Redims σ (metric4 (n1, r1) (n2, r2) (n3, r3) (n4, r4) g) :=
  perVariableMetric_redims (.cons ⟨rfl, h1⟩ (.cons ⟨rfl, h2⟩ (.cons ⟨rfl, h3⟩ (.cons ⟨rfl, h4⟩ (.nil)))))
    (fun xs => item_redim (fun x1 => item_redim (fun x2 => item_redim (fun x3 => item_redim (fun x4 => by rw [hf]; rfl)))))

theorem redim_add (a b : DA L (FV K)) : (a.redim σ).add (b.redim σ) = (a.add b).redim σ := redim_zip ..
theorem redim_sub (a b : DA L (FV K)) : (a.redim σ).sub (b.redim σ) = (a.sub b).redim σ := redim_zip ..
theorem redim_mul (a b : DA L (FV K)) : (a.redim σ).mul (b.redim σ) = (a.mul b).redim σ := redim_zip ..
theorem redim_div (a b : DA L (FV K)) : (a.redim σ).div (b.redim σ) = (a.div b).redim σ := redim_zip ..
theorem redim_smul (k : K) (a : DA L (FV K)) : (a.redim σ).smul k = (a.smul k).redim σ := rfl

/-- Formulas built from elementwise operations commute with other names for dimensions. -/
macro "formula_redims" : tactic => `(tactic| (intros; simp only [redim_add, redim_sub, redim_mul, redim_div, redim_smul, redim_map]))

end arrays

section metrics
variable {L K : Type} [DecidableEq L] [Field K] [LinearOrder K] [IsStrictOrderedRing K] {σ : Equiv.Perm Dim}

theorem error_dimBlind : (errorStatistic (L := L) (K := K)).DimBlind σ := statOf_redims (fun a b => redim_sv_zip _ a b)
theorem absoluteError_dimBlind : (absoluteErrorStatistic (L := L) (K := K)).DimBlind σ := statOf_redims (fun a b => by rw [absoluteError, error, redim_sv_zip, redim_sv_map]; rfl)
theorem squaredError_dimBlind : (squaredErrorStatistic (L := L) (K := K)).DimBlind σ := statOf_redims (fun a b => by rw [squaredError, redim_sv_zip, redim_sv_map]; rfl)

/-- **C104** Bias, mean absolute error and mean squared error do not look at the names of dimensions. -/
theorem C104_deterministic : ((errorStatistic (L := L) (K := K)).toMetric (M := DA L (FV K))).DimBlind σ ∧ ((absoluteErrorStatistic (L := L) (K := K)).toMetric (M := DA L (FV K))).DimBlind σ ∧
    ((squaredErrorStatistic (L := L) (K := K)).toMetric (M := DA L (FV K))).DimBlind σ :=
  ⟨statistic_redims error_dimBlind, statistic_redims absoluteError_dimBlind, statistic_redims squaredError_dimBlind⟩

/-- **C104** Nor does the root mean squared error. -/
theorem C104_rmse : (rmse (L := L)).DimBlind σ :=
  metric1_redims (n1 := "SquaredError") (f := fun x => x.map FV.sqrt) squaredError_dimBlind (fun _ => rfl)

/-- **C104** Nor do the mean prediction and the mean target. -/
theorem C104_passthrough (name : String) (copyNans : Bool) : (statOf (L := L) (K := K) name (predictionPassthrough copyNans)).DimBlind σ ∧
    (statOf (L := L) (K := K) name (targetPassthrough copyNans)).DimBlind σ := by
  have h : ∀ a b : StatVar L (FV K), predictionPassthrough copyNans (a.redim σ) (b.redim σ) = (predictionPassthrough copyNans a b).redim σ := by
    intro a b
    cases copyNans <;> simp only [predictionPassthrough, redim_sv_map, redim_sv_zip, if_true, if_false, Bool.false_eq_true]
  exact ⟨statOf_redims h, statOf_redims (fun a b => h b a)⟩

theorem contingency_dimBlind (name : String) (f : Bool → Bool → Bool) : (statOf (L := L) (K := K) name (contingency f)).DimBlind σ :=
  statOf_redims (fun a b => by simp only [contingency, redim_sv_map, redim_sv_zip])

/-- **C104** Nor do the categorical scores. -/
theorem C104_categorical : (csi (L := L) (K := K)).DimBlind σ ∧ (accuracy (L := L) (K := K)).DimBlind σ ∧ (recall (L := L) (K := K)).DimBlind σ ∧ (falseAlarmRate (L := L) (K := K)).DimBlind σ ∧
    (precision (L := L) (K := K)).DimBlind σ ∧ (f1Score (L := L) (K := K)).DimBlind σ ∧ (frequencyBias (L := L) (K := K)).DimBlind σ ∧ (hss (L := L) (K := K)).DimBlind σ ∧ (ets (L := L) (K := K)).DimBlind σ := by
  have tp : (tpStatistic (L := L) (K := K)).DimBlind σ := contingency_dimBlind _ _
  have fp : (fpStatistic (L := L) (K := K)).DimBlind σ := contingency_dimBlind _ _
  have fn : (fnStatistic (L := L) (K := K)).DimBlind σ := contingency_dimBlind _ _
  have tn : (tnStatistic (L := L) (K := K)).DimBlind σ := contingency_dimBlind _ _
  exact ⟨metric3_redims tp fp fn (by formula_redims), metric4_redims tp fp fn tn (by formula_redims), metric2_redims tp fn (by formula_redims), metric2_redims tp fp (by formula_redims),
    metric2_redims tp fp (by formula_redims), metric3_redims tp fp fn (by formula_redims), metric3_redims tp fp fn (by formula_redims), metric4_redims tp fp fn tn (by formula_redims),
    metric4_redims tp fp fn tn (by formula_redims)⟩

/-- **C104** Nor does the symmetric extremal dependence index. -/
theorem C104_sedi : (sedi (L := L)).DimBlind σ :=
  metric4_redims (contingency_dimBlind _ _) (contingency_dimBlind _ _) (contingency_dimBlind _ _) (contingency_dimBlind _ _) (fun a b c d => by
    simp only [sediFormula, redim_add, redim_sub, redim_div, redim_map])

end metrics
end WBX
