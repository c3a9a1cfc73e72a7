import Verif.Lemmas.Repeated
import Verif.Props.DimNamesGrid

/-!
# C106: repeating the data along a further dimension changes nothing
-/

set_option linter.unusedSectionVars false

namespace WBX
open DA Aggregator

section pipeline
variable {L V : Type} [DecidableEq L] [AddCommMonoid V] [Mul V] [One V] [Div V] [IsNull V] {d : Dim} {C : Finset L} {sides : Sides}

/-- **C106** Data repeated for the labels `C` of a further dimension `d`, over which the aggregation averages too: every metric of this kind has the same values, or the same error. -/
theorem C106_repeat {m : Metric (StatVar L V) (Option (StatVar L V)) (DA L V)} {agg : Aggregator L V} (hagg : agg.Ignores d C) (hm : m.Repeats sides d C)
    (hdiv : ∀ x y : V, (C.card • x) / (C.card • y) = x / y) {p t : Vars (StatVar L V)} (hp : WithoutDim d p) (ht : WithoutDim d t) :
    metricAlone m (agg.averagedOver d) (sides.ofPredictions (repeatVars d C) p) (sides.ofTargets (repeatVars d C) t) = (metricAlone m agg p t).map (sameValuesAs d C) := by
  unfold metricAlone
  have key := mapM_image (f' := fun ks : String × Statistic (StatVar L V) (Option (StatVar L V)) => (do
        let v ← ks.2.compute (sides.ofPredictions (repeatVars d C) p) (sides.ofTargets (repeatVars d C) t)
        let mean ← meanVars (agg.averagedOver d) v
        return (ks.1, mean) : Except Err (String × Vars (DA L V)))) (f := fun ks => (do
        let v ← ks.2.compute p t
        let mean ← meanVars agg v
        return (ks.1, mean) : Except Err (String × Vars (DA L V)))) (g := fun kv : String × Vars (DA L V) => (kv.1, sameValuesAs d C kv.2)) (l := m.statistics) (fun ks hks => by
    obtain ⟨h1, h2⟩ := hm.statistics ks hks p t hp ht
    rw [h1]
    rcases hv : ks.2.compute p t with e | v
    · rfl
    · show (meanVars (agg.averagedOver d) (repeatStats d C v) >>= fun mean => _) = _
      rw [repeated_meanVars hagg hdiv (h2 v hv)]
      show _ = Except.map _ (meanVars agg v >>= fun mean => _)
      rcases meanVars agg v with e | mean <;> rfl)
  rw [key]
  exact bind_image (fun means => hm.formula means)

/-- `sameValuesAs` has the same arrays: variables, dimensions, values, and labels of the dimensions. -/
theorem C106_same_arrays {a : DA L V} (h : d ∉ a.dims) : (a.withLabels d C).Same a :=
  ⟨rfl, fun k hk => by show (if k = d then C else a.coords k) = _; rw [if_neg (fun hkd => h (by rw [← hkd]; exact hk))], fun _ _ => rfl⟩

theorem statistic_repeats {s : Statistic (StatVar L V) (Option (StatVar L V))} (hs : s.Repeats sides d C) : (s.toMetric (M := DA L V)).Repeats sides d C :=
  ⟨fun ks hks => by rw [List.mem_singleton.1 hks]; exact hs, fun sv => pyItem_image (sameValuesAs d C) sv "self"⟩

/-- A statistic that is computed variable by variable. -/
theorem perVariable_repeats {name : String} {f : StatVar L V → StatVar L V → Except Err (Option (Option (StatVar L V)))}
    (hf : ∀ a b, a.Without d → b.Without d → f (sides.ofPredictions (StatVar.repeated d C) a) (sides.ofTargets (StatVar.repeated d C) b) = (f a b).map (Option.map (Option.map (StatVar.repeated d C))) ∧
      ∀ x, f a b = .ok (some (some x)) → x.Without d) : (perVariableStatistic name f).Repeats sides d C := by
  intro p t hp ht
  have hget : ∀ v, pyGet? v (sides.ofTargets (repeatVars d C) t) = (pyGet? v t).map (sides.ofTargets (StatVar.repeated d C)) := by
    intro v
    cases sides
    · exact pyGet?_map (StatVar.repeated d C) t v
    · show pyGet? v t = (pyGet? v t).map id
      rw [Option.map_id]; rfl
    · exact pyGet?_map (StatVar.repeated d C) t v
  have hcons : ∀ (v : String) (a : StatVar L V) (q : Vars (StatVar L V)), sides.ofPredictions (repeatVars d C) ((v, a) :: q) =
      (v, sides.ofPredictions (StatVar.repeated d C) a) :: sides.ofPredictions (repeatVars d C) q := by
    intro v a q; cases sides <;> rfl
  show perVariableLoop f _ _ = (perVariableLoop f t p).map (repeatStats d C) ∧ ∀ out, perVariableLoop f t p = .ok out → _
  induction p with
  | nil =>
    refine ⟨by cases sides <;> rfl, fun out h => ?_⟩
    cases h
    exact fun v a hm => absurd hm (by simp)
  | cons x p ih =>
    obtain ⟨v, a⟩ := x
    obtain ⟨ih1, ih2⟩ := ih (fun kv hkv => hp kv (List.mem_cons_of_mem _ hkv))
    rw [hcons, perVariableLoop, perVariableLoop, ih1, hget]
    rcases hb : pyGet? v t with _ | b
    · exact ⟨rfl, ih2⟩
    · obtain ⟨h1, h2⟩ := hf a b (hp _ List.mem_cons_self) (ht _ (pyGet?_mem hb))
      simp only [Option.map_some]
      rw [h1]
      rcases hr : f a b with e | r
      · exact ⟨rfl, fun out h => by cases h⟩
      · rcases hrs : perVariableLoop f t p with e | rs
        · exact ⟨rfl, fun out h => by cases h⟩
        · refine ⟨by rcases r with _ | x <;> rfl, fun out h => ?_⟩
          rcases r with _ | x
          · cases h
            exact ih2 _ hrs
          · cases h
            intro w y hm
            rcases List.mem_cons.1 hm with heq | hm
            · obtain ⟨rfl, rfl⟩ := Prod.mk.inj heq
              exact h2 y hr
            · exact ih2 _ hrs w y hm

theorem perVariableValues_each {names : List String} {g : List (String × DA L V) → Except Err (DA L V)} {φ : DA L V → DA L V}
    (hg : ∀ xs : List (String × DA L V), g (xs.map (fun kv => (kv.1, φ kv.2))) = (g xs).map φ) (sv : List (String × Vars (DA L V))) :
    perVariableValues names g (sv.map (fun kv => (kv.1, kv.2.map (fun q => (q.1, φ q.2))))) = (perVariableValues names g sv).map (List.map (fun q => (q.1, φ q.2))) := by
  unfold perVariableValues
  rw [mapM_image (f := fun s => pyItem sv s) (g := List.map (fun q : String × DA L V => (q.1, φ q.2))) (fun s _ => pyItem_image _ sv s)]
  rcases names.mapM (fun s => pyItem sv s) with e | vs
  · rfl
  · show (commonVariables (vs.map (List.map (fun q => (q.1, φ q.2)))) >>= fun common => _) = Except.map _ (commonVariables vs >>= fun common => _)
    rw [commonVariables_redim]
    rcases commonVariables vs with e | common
    · rfl
    · refine mapM_image (fun v _ => ?_)
      rw [mapM_image (f := fun s => do
        let m ← pyItem sv s
        let x ← pyItem m v
        return (s, x)) (g := fun kv => (kv.1, φ kv.2)) (fun s _ => ?_)]
      · rcases names.mapM (fun s => (do
          let m ← pyItem sv s
          let x ← pyItem m v
          return (s, x) : Except Err (String × DA L V))) with e | xs
        · rfl
        · show (g (xs.map (fun kv => (kv.1, φ kv.2))) >>= fun x => _) = Except.map _ (g xs >>= fun x => _)
          rw [hg]
          rcases g xs with e | x <;> rfl
      · rw [pyItem_image]
        rcases pyItem sv s with e | m
        · rfl
        · show (pyItem (m.map (fun q => (q.1, φ q.2))) v >>= fun x => _) = Except.map _ (pyItem m v >>= fun x => _)
          rw [pyItem_image]
          rcases pyItem m v with e | x <;> rfl

theorem perVariableMetric_repeats {stats : List (String × Statistic (StatVar L V) (Option (StatVar L V)))} {g : List (String × DA L V) → Except Err (DA L V)}
    (hs : ∀ ks ∈ stats, ks.2.Repeats sides d C) (hg : ∀ xs : List (String × DA L V), g (xs.map (fun kv => (kv.1, kv.2.withLabels d C))) = (g xs).map (DA.withLabels d C)) :
    (perVariableMetric stats g).Repeats sides d C :=
  ⟨hs, fun sv => perVariableValues_each hg sv⟩

end pipeline

section metrics
variable {L K : Type} [DecidableEq L] [Field K] [LinearOrder K] [IsStrictOrderedRing K] {d : Dim} {C : Finset L} {sides : Sides}

theorem StatVar.Without.map {V W : Type} {a : StatVar L V} (h : a.Without d) (f : V → W) : (a.map f).Without d := ⟨h.1.map f, h.2⟩

theorem StatVar.Without.zip {U V W : Type} {a : StatVar L V} {b : StatVar L W} (h : a.Without d) (h' : b.Without d) (f : V → W → U) : (a.zipWith f b).Without d := by
  refine ⟨h.1.zip h'.1 f, fun m hm => ?_⟩
  have hm : combineMask a.mask b.mask = some m := hm
  rcases ha : a.mask with _ | x <;> rcases hb : b.mask with _ | y <;> rw [ha, hb] at hm <;> unfold combineMask at hm
  · cases hm
  · exact h'.2 m (by rw [hb]; exact hm)
  · exact h.2 m (by rw [ha]; exact hm)
  · dsimp only at hm
    split at hm
    · exact h.2 m (by rw [ha]; exact hm)
    · cases hm

theorem repeated_sv_zip {U V W : Type} (f : V → W → U) {a : StatVar L V} {b : StatVar L W} (ha : a.Without d) (hb : b.Without d) :
    (sides.ofPredictions (StatVar.repeated d C) a).zipWith f (sides.ofTargets (StatVar.repeated d C) b) = (a.zipWith f b).repeated d C := by
  unfold StatVar.zipWith StatVar.repeated
  cases sides
  · show (⟨_, _⟩ : StatVar L U) = ⟨_, _⟩
    rw [← repeated_zip]; rfl
  · show (⟨_, _⟩ : StatVar L U) = ⟨_, _⟩
    rw [← repeated_zip_left _ _ hb.1.1]; rfl
  · show (⟨_, _⟩ : StatVar L U) = ⟨_, _⟩
    rw [← repeated_zip_right _ ha.1.1]; rfl

theorem repeated_sv_map {V W : Type} (f : V → W) (a : StatVar L V) : (a.repeated d C).map f = (a.map f).repeated d C := rfl

theorem statOf_repeats {name : String} {f : StatVar L (FV K) → StatVar L (FV K) → StatVar L (FV K)}
    (hf : ∀ a b, a.Without d → b.Without d → f (sides.ofPredictions (StatVar.repeated d C) a) (sides.ofTargets (StatVar.repeated d C) b) = (f a b).repeated d C ∧ (f a b).Without d) :
    (statOf name f).Repeats sides d C := by
  refine perVariable_repeats (fun a b ha hb => ⟨by rw [(hf a b ha hb).1]; rfl, fun x hx => ?_⟩)
  cases hx
  exact (hf a b ha hb).2

theorem error_repeats : (errorStatistic (L := L) (K := K)).Repeats sides d C :=
  statOf_repeats (fun _ _ ha hb => ⟨repeated_sv_zip _ ha hb, ha.zip hb _⟩)
theorem absoluteError_repeats : (absoluteErrorStatistic (L := L) (K := K)).Repeats sides d C :=
  statOf_repeats (fun _ _ ha hb => ⟨by rw [absoluteError, error, repeated_sv_zip _ ha hb]; rfl, (ha.zip hb _).map _⟩)
theorem squaredError_repeats : (squaredErrorStatistic (L := L) (K := K)).Repeats sides d C :=
  statOf_repeats (fun _ _ ha hb => ⟨by rw [squaredError, repeated_sv_zip _ ha hb]; rfl, (ha.zip hb _).map _⟩)

/-- **C106** The mean error, mean absolute error and mean squared error. -/
theorem C106_deterministic : ((errorStatistic (L := L) (K := K)).toMetric (M := DA L (FV K))).Repeats sides d C ∧ ((absoluteErrorStatistic (L := L) (K := K)).toMetric (M := DA L (FV K))).Repeats sides d C ∧
    ((squaredErrorStatistic (L := L) (K := K)).toMetric (M := DA L (FV K))).Repeats sides d C :=
  ⟨statistic_repeats error_repeats, statistic_repeats absoluteError_repeats, statistic_repeats squaredError_repeats⟩

theorem item_labels {β : Type} {xs : List (String × DA L (FV K))} {k : String} {g g' : DA L (FV K) → Except Err β} {φ : β → β} (h : ∀ x, g' (x.withLabels d C) = (g x).map φ) :
    (pyItem (xs.map (fun kv => (kv.1, kv.2.withLabels d C))) k >>= g') = (pyItem xs k >>= g).map φ := by
  rw [pyItem_image]
  rcases pyItem xs k with e | x
  · rfl
  · exact h x

theorem metric1_repeats {n1 : String} {s1 : FStatistic L K} {f : DA L (FV K) → DA L (FV K)} (h1 : s1.Repeats sides d C)
    (hf : ∀ a, f (a.withLabels d C) = (f a).withLabels d C) : (metric1 (n1, s1) f).Repeats sides d C :=
  perVariableMetric_repeats (fun ks hks => by rw [List.mem_singleton.1 hks]; exact h1) (fun _ => item_labels (fun _ => by rw [hf]; rfl))

theorem metric2_repeats {n1 n2 : String} {s1 s2 : FStatistic L K} {f : DA L (FV K) → DA L (FV K) → DA L (FV K)} (h1 : s1.Repeats sides d C) (h2 : s2.Repeats sides d C)
    (hf : ∀ a b, f (a.withLabels d C) (b.withLabels d C) = (f a b).withLabels d C) : (metric2 (n1, s1) (n2, s2) f).Repeats sides d C :=
  perVariableMetric_repeats (fun ks hks => by
    simp only [List.mem_cons, List.not_mem_nil, or_false] at hks
    rcases hks with rfl | rfl
    · exact h1
    · exact h2) (fun _ => item_labels (fun _ => item_labels (fun _ => by rw [hf]; rfl)))

theorem metric3_repeats {n1 n2 n3 : String} {s1 s2 s3 : FStatistic L K} {f : DA L (FV K) → DA L (FV K) → DA L (FV K) → DA L (FV K)} (h1 : s1.Repeats sides d C) (h2 : s2.Repeats sides d C) (h3 : s3.Repeats sides d C)
    (hf : ∀ a b c, f (a.withLabels d C) (b.withLabels d C) (c.withLabels d C) = (f a b c).withLabels d C) : (metric3 (n1, s1) (n2, s2) (n3, s3) f).Repeats sides d C :=
  perVariableMetric_repeats (fun ks hks => by
    simp only [List.mem_cons, List.not_mem_nil, or_false] at hks
    rcases hks with rfl | rfl | rfl
    · exact h1
    · exact h2
    · exact h3) (fun _ => item_labels (fun _ => item_labels (fun _ => item_labels (fun _ => by rw [hf]; rfl))))

theorem metric4_repeats {n1 n2 n3 n4 : String} {s1 s2 s3 s4 : FStatistic L K} {f : DA L (FV K) → DA L (FV K) → DA L (FV K) → DA L (FV K) → DA L (FV K)} (h1 : s1.Repeats sides d C) (h2 : s2.Repeats sides d C)
    (h3 : s3.Repeats sides d C) (h4 : s4.Repeats sides d C) (hf : ∀ a b c e, f (a.withLabels d C) (b.withLabels d C) (c.withLabels d C) (e.withLabels d C) = (f a b c e).withLabels d C) :
    (metric4 (n1, s1) (n2, s2) (n3, s3) (n4, s4) f).Repeats sides d C :=
  perVariableMetric_repeats (fun ks hks => by
    simp only [List.mem_cons, List.not_mem_nil, or_false] at hks
    rcases hks with rfl | rfl | rfl | rfl
    · exact h1
    · exact h2
    · exact h3
    · exact h4) (fun _ => item_labels (fun _ => item_labels (fun _ => item_labels (fun _ => item_labels (fun _ => by rw [hf]; rfl)))))

theorem labels_add (a b : DA L (FV K)) : (a.withLabels d C).add (b.withLabels d C) = (a.add b).withLabels d C := withLabels_zip ..
theorem labels_sub (a b : DA L (FV K)) : (a.withLabels d C).sub (b.withLabels d C) = (a.sub b).withLabels d C := withLabels_zip ..
theorem labels_mul (a b : DA L (FV K)) : (a.withLabels d C).mul (b.withLabels d C) = (a.mul b).withLabels d C := withLabels_zip ..
theorem labels_div (a b : DA L (FV K)) : (a.withLabels d C).div (b.withLabels d C) = (a.div b).withLabels d C := withLabels_zip ..
theorem labels_smul (k : K) (a : DA L (FV K)) : (a.withLabels d C).smul k = (a.smul k).withLabels d C := rfl

/-- Formulas built from elementwise operations. -/
macro "formula_labels" : tactic => `(tactic| (intros; simp only [labels_add, labels_sub, labels_mul, labels_div, labels_smul, withLabels_map]))

theorem contingency_repeats (name : String) (f : Bool → Bool → Bool) : (statOf (L := L) (K := K) name (contingency f)).Repeats sides d C := by
  refine statOf_repeats (fun a b ha hb => ⟨?_, ?_⟩)
  · have h1 : (sides.ofPredictions (StatVar.repeated d C) a).map FV.toBool = sides.ofPredictions (StatVar.repeated d C) (a.map FV.toBool) := by cases sides <;> rfl
    have h2 : (sides.ofTargets (StatVar.repeated d C) b).map FV.toBool = sides.ofTargets (StatVar.repeated d C) (b.map FV.toBool) := by cases sides <;> rfl
    unfold contingency
    dsimp only
    rw [h1, h2, repeated_sv_zip _ (ha.map _) (hb.map _), repeated_sv_zip _ ha hb, repeated_sv_map]
    exact repeated_sv_zip (sides := .both) _ ((ha.map _).zip (hb.map _) _) ((ha.zip hb _).map _)
  · exact ((ha.map _).zip (hb.map _) _).zip ((ha.zip hb _).map _) _

/-- **C106** The categorical scores. -/
theorem C106_categorical : (csi (L := L) (K := K)).Repeats sides d C ∧ (accuracy (L := L) (K := K)).Repeats sides d C ∧ (recall (L := L) (K := K)).Repeats sides d C ∧ (falseAlarmRate (L := L) (K := K)).Repeats sides d C ∧
    (precision (L := L) (K := K)).Repeats sides d C ∧ (f1Score (L := L) (K := K)).Repeats sides d C ∧ (frequencyBias (L := L) (K := K)).Repeats sides d C ∧ (hss (L := L) (K := K)).Repeats sides d C ∧ (ets (L := L) (K := K)).Repeats sides d C := by
  have tp : (tpStatistic (L := L) (K := K)).Repeats sides d C := contingency_repeats _ _
  have fp : (fpStatistic (L := L) (K := K)).Repeats sides d C := contingency_repeats _ _
  have fn : (fnStatistic (L := L) (K := K)).Repeats sides d C := contingency_repeats _ _
  have tn : (tnStatistic (L := L) (K := K)).Repeats sides d C := contingency_repeats _ _
  exact ⟨metric3_repeats tp fp fn (by formula_labels), metric4_repeats tp fp fn tn (by formula_labels), metric2_repeats tp fn (by formula_labels), metric2_repeats tp fp (by formula_labels),
    metric2_repeats tp fp (by formula_labels), metric3_repeats tp fp fn (by formula_labels), metric3_repeats tp fp fn (by formula_labels), metric4_repeats tp fp fn tn (by formula_labels),
    metric4_repeats tp fp fn tn (by formula_labels)⟩

/-- **C106** For floats, whose sums may contain NaN and infinities: no further condition, as long as there is at least one label. -/
theorem C106_floats {m : Metric (StatVar L (FV K)) (Option (StatVar L (FV K))) (DA L (FV K))} {agg : Aggregator L (FV K)} (hagg : agg.Ignores d C) (hm : m.Repeats sides d C) (hC : C.Nonempty)
    {p t : Vars (StatVar L (FV K))} (hp : WithoutDim d p) (ht : WithoutDim d t) :
    metricAlone m (agg.averagedOver d) (sides.ofPredictions (repeatVars d C) p) (sides.ofTargets (repeatVars d C) t) = (metricAlone m agg p t).map (sameValuesAs d C) :=
  C106_repeat hagg hm (FV.nsmul_div _ (Finset.card_ne_zero.2 hC)) hp ht

/-- An aggregation without weights and bins. -/
theorem C106_plain (reduceDims : List Dim) (masked skipna : Bool) (h : d ∉ reduceDims) :
    (⟨reduceDims, [], [], masked, skipna⟩ : Aggregator L (FV K)).Ignores d C :=
  ⟨h, fun _ hw => absurd hw (by simp), fun _ hb => absurd hb (by simp)⟩

end metrics

section roots
variable {L : Type} [DecidableEq L] {d : Dim} {C : Finset L} {sides : Sides}

/-- **C106** The root mean squared error. -/
theorem C106_rmse : (rmse (L := L)).Repeats sides d C := metric1_repeats squaredError_repeats (fun _ => rfl)

/-- **C106** The symmetric extremal dependence index. -/
theorem C106_sedi : (sedi (L := L)).Repeats sides d C :=
  metric4_repeats (contingency_repeats _ _) (contingency_repeats _ _) (contingency_repeats _ _) (contingency_repeats _ _) (fun _ _ _ _ => by
    simp only [sediFormula, labels_add, labels_sub, labels_div, withLabels_map])

end roots
end WBX
