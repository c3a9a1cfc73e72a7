import Verif.Props.Select

/-!
# C100: which metrics work label by label; several thresholds at once
-/

set_option linter.unusedSectionVars false

namespace WBX
open DA Aggregator

section metrics
variable {L K : Type} [DecidableEq L] [Field K] [LinearOrder K] [IsStrictOrderedRing K] {c d : Dim}

theorem pyItem_bind_map {β : Type} {ρ : DA L (FV K) → DA L (FV K)} {xs : List (String × DA L (FV K))} {k : String} {g : DA L (FV K) → Except Err β} {y : β} {g' : DA L (FV K) → Except Err β} {y' : β}
    (h : (pyItem xs k >>= g) = .ok y) (hg : ∀ x, g x = .ok y → g' (ρ x) = .ok y') : (pyItem (xs.map (fun kv => (kv.1, ρ kv.2))) k >>= g') = .ok y' := by
  obtain ⟨x, hx, h⟩ := bind_ok_iff.mp h
  exact bind_ok_iff.mpr ⟨ρ x, pyItem_map_ok ρ hx, hg x h⟩

theorem selects_metric1 {s1 : String × FStatistic L K} {f : DA L (FV K) → DA L (FV K)} (hf : ∀ (S : Finset L) a, f (a.restrict c S) = (f a).restrict c S) :
    FormulaSelects c (metric1 s1 f) :=
  selects_perVariable (fun S _ _ h => pyItem_bind_map h (fun x hx => by cases hx; rw [hf]; rfl))

theorem selects_metric2 {s1 s2 : String × FStatistic L K} {f : DA L (FV K) → DA L (FV K) → DA L (FV K)}
    (hf : ∀ (S : Finset L) a b, f (a.restrict c S) (b.restrict c S) = (f a b).restrict c S) : FormulaSelects c (metric2 s1 s2 f) :=
  selects_perVariable (fun S _ _ h => pyItem_bind_map h (fun x hx => pyItem_bind_map hx (fun y hy => by cases hy; rw [hf]; rfl)))

theorem selects_metric3 {s1 s2 s3 : String × FStatistic L K} {f : DA L (FV K) → DA L (FV K) → DA L (FV K) → DA L (FV K)}
    (hf : ∀ (S : Finset L) a b e, f (a.restrict c S) (b.restrict c S) (e.restrict c S) = (f a b e).restrict c S) : FormulaSelects c (metric3 s1 s2 s3 f) :=
  selects_perVariable (fun S _ _ h => pyItem_bind_map h (fun x hx => pyItem_bind_map hx (fun y hy => pyItem_bind_map hy (fun z hz => by cases hz; rw [hf]; rfl))))

theorem selects_metric4 {s1 s2 s3 s4 : String × FStatistic L K} {f : DA L (FV K) → DA L (FV K) → DA L (FV K) → DA L (FV K) → DA L (FV K)}
    (hf : ∀ (S : Finset L) a b e g, f (a.restrict c S) (b.restrict c S) (e.restrict c S) (g.restrict c S) = (f a b e g).restrict c S) : FormulaSelects c (metric4 s1 s2 s3 s4 f) :=
  selects_perVariable (fun S _ _ h => pyItem_bind_map h (fun x hx => pyItem_bind_map hx (fun y hy => pyItem_bind_map hy (fun z hz => pyItem_bind_map hz (fun w hw => by cases hw; rw [hf]; rfl)))))

theorem restrict_add (S : Finset L) (a b : DA L (FV K)) : (a.restrict c S).add (b.restrict c S) = (a.add b).restrict c S := restrict_zipWith ..
theorem restrict_sub (S : Finset L) (a b : DA L (FV K)) : (a.restrict c S).sub (b.restrict c S) = (a.sub b).restrict c S := restrict_zipWith ..
theorem restrict_mul (S : Finset L) (a b : DA L (FV K)) : (a.restrict c S).mul (b.restrict c S) = (a.mul b).restrict c S := restrict_zipWith ..
theorem restrict_div (S : Finset L) (a b : DA L (FV K)) : (a.restrict c S).div (b.restrict c S) = (a.div b).restrict c S := restrict_zipWith ..
theorem restrict_smul (S : Finset L) (k : K) (a : DA L (FV K)) : (a.restrict c S).smul k = (a.smul k).restrict c S := rfl

/-- Formulas built from elementwise operations commute with selecting labels. -/
macro "formula_selects" : tactic => `(tactic| (intros; simp only [restrict_add, restrict_sub, restrict_mul, restrict_div, restrict_smul, restrict_map]))

theorem keeps_statOf {name : String} {f : StatVar L (FV K) → StatVar L (FV K) → StatVar L (FV K)} (hf : ∀ a b, c ∈ a.arr.dims → c ∈ b.arr.dims → c ∈ (f a b).arr.dims) {p t : Vars (StatVar L (FV K))}
    (h : Chunkable c p t) : KeepsDim c (statOf name f) p t := by
  have key : ∀ (p : Vars (StatVar L (FV K))), (∀ v a, (v, a) ∈ p → c ∈ a.arr.dims) → ∀ out, perVariableLoop (fun p t => .ok (some (some (f p t)))) t p = .ok out →
      ∀ v x, (v, some x) ∈ out → c ∈ x.arr.dims := by
    intro p
    induction p with
    | nil => intro _ out ho v x hx; cases ho; simp at hx
    | cons kv p ih =>
      obtain ⟨k, a⟩ := kv
      intro hp out ho v x hx
      rw [perVariableLoop] at ho
      cases hg : pyGet? k t with
      | none => rw [hg] at ho; exact ih (fun v a h => hp v a (by simp [h])) out ho v x hx
      | some b =>
        rw [hg] at ho
        obtain ⟨o, hoo, ho⟩ := bind_ok_iff.mp ho
        obtain ⟨rs, hrs, ho⟩ := bind_ok_iff.mp ho
        cases hoo
        cases ho
        rcases List.mem_cons.mp hx with e | hx
        · cases e
          exact hf a b (hp k a (by simp)) (h.dimT k b (pyItem_mem (by unfold pyItem; rw [hg])))
        · exact ih (fun v a h => hp v a (by simp [h])) rs hrs v x hx
  intro out ho
  exact key p h.dimP out ho

theorem keeps_statOfE {name : String} {f : StatVar L (FV K) → StatVar L (FV K) → Except Err (StatVar L (FV K))} (hf : ∀ a b s, c ∈ a.arr.dims → c ∈ b.arr.dims → f a b = .ok s → c ∈ s.arr.dims)
    {p t : Vars (StatVar L (FV K))} (h : Chunkable c p t) : KeepsDim c (statOfE name f) p t := by
  have key : ∀ (p : Vars (StatVar L (FV K))), (∀ v a, (v, a) ∈ p → c ∈ a.arr.dims) → ∀ out, perVariableLoop (fun p t => do
      let s ← f p t
      return some (some s)) t p = .ok out → ∀ v x, (v, some x) ∈ out → c ∈ x.arr.dims := by
    intro p
    induction p with
    | nil => intro _ out ho v x hx; cases ho; simp at hx
    | cons kv p ih =>
      obtain ⟨k, a⟩ := kv
      intro hp out ho v x hx
      rw [perVariableLoop] at ho
      cases hg : pyGet? k t with
      | none => rw [hg] at ho; exact ih (fun v a h => hp v a (by simp [h])) out ho v x hx
      | some b =>
        rw [hg] at ho
        obtain ⟨o, hoo, ho⟩ := bind_ok_iff.mp ho
        obtain ⟨rs, hrs, ho⟩ := bind_ok_iff.mp ho
        obtain ⟨s, hs, hoo⟩ := bind_ok_iff.mp hoo
        cases hoo
        cases ho
        rcases List.mem_cons.mp hx with e | hx
        · cases e
          exact hf a b _ (hp k a (by simp)) (h.dimT k b (pyItem_mem (by unfold pyItem; rw [hg]))) hs
        · exact ih (fun v a h => hp v a (by simp [h])) rs hrs v x hx
  intro out ho
  exact key p h.dimP out ho

theorem selectable_statistic {s : FStatistic L K} (hs : s.ChunkLocal c) (hk : ∀ p t, Chunkable c p t → KeepsDim c s p t) : Selectable c (s.toMetric (M := DA L (FV K))) where
  extensional := extensional_statistic s
  formula := selects_statistic s
  statistics := fun ks hks => by simp only [Statistic.toMetric, List.mem_singleton] at hks; subst hks; exact hs
  dims := fun ks hks => by simp only [Statistic.toMetric, List.mem_singleton] at hks; subst hks; exact hk

/-- **C100** Bias, mean absolute error and mean squared error work label by label along every dimension. -/
theorem C100_deterministic : Selectable c ((errorStatistic (L := L) (K := K)).toMetric (M := DA L (FV K))) ∧ Selectable c ((absoluteErrorStatistic (L := L) (K := K)).toMetric (M := DA L (FV K))) ∧
    Selectable c ((squaredErrorStatistic (L := L) (K := K)).toMetric (M := DA L (FV K))) :=
  ⟨selectable_statistic C74_error (fun _ _ => keeps_statOf (fun _ _ h _ => Finset.mem_union_left _ h)),
    selectable_statistic C74_absolute_error (fun _ _ => keeps_statOf (fun _ _ h _ => Finset.mem_union_left _ h)),
    selectable_statistic C74_squared_error (fun _ _ => keeps_statOf (fun _ _ h _ => Finset.mem_union_left _ h))⟩

/-- **C100** So does the root mean squared error. -/
theorem C100_rmse : Selectable c (rmse (L := L)) where
  extensional := extensional_rmse
  formula := selects_metric1 (s1 := ("SquaredError", squaredErrorStatistic)) (f := fun x => x.map FV.sqrt) (fun _ _ => rfl)
  statistics := fun ks hks => by simp only [rmse, perVariableMetric, List.mem_singleton] at hks; subst hks; exact C74_squared_error
  dims := fun ks hks _ _ => by
    simp only [rmse, perVariableMetric, List.mem_singleton] at hks; subst hks
    exact keeps_statOf (fun _ _ h _ => Finset.mem_union_left _ h)

theorem keeps_contingency (f : Bool → Bool → Bool) (a b : StatVar L (FV K)) (h : c ∈ a.arr.dims) (_ : c ∈ b.arr.dims) : c ∈ (contingency f a b).arr.dims :=
  Finset.mem_union_left _ (Finset.mem_union_left _ h)

/-- The four entries of the contingency table. -/
def IsContingency (s : FStatistic L K) : Prop := s = tpStatistic ∨ s = fpStatistic ∨ s = fnStatistic ∨ s = tnStatistic

theorem IsContingency.chunkLocal {s : FStatistic L K} (h : IsContingency s) : s.ChunkLocal c := by
  obtain ⟨h1, h2, h3, h4⟩ := C74_contingency (L := L) (K := K) (c := c)
  rcases h with rfl | rfl | rfl | rfl <;> assumption

theorem IsContingency.keepsDim {s : FStatistic L K} (h : IsContingency s) {p t : Vars (StatVar L (FV K))} (hc : Chunkable c p t) : KeepsDim c s p t := by
  rcases h with rfl | rfl | rfl | rfl <;> exact keeps_statOf (keeps_contingency _) hc

theorem IsContingency.respects {s : FStatistic L K} (h : IsContingency s) : RespectsArrays s := by
  have key : ∀ (name : String) (f : Bool → Bool → Bool), RespectsArrays (statOf name (contingency (L := L) (K := K) f)) := by
    intro name f
    refine respects_perVariable (fun a a' b b' h h' => .gives (.some (.some ?_)))
    exact StatVar.zipWith_same (StatVar.zipWith_same (StatVar.map_same _ h) (StatVar.map_same _ h')) (StatVar.map_same _ (StatVar.zipWith_same h h'))
  rcases h with rfl | rfl | rfl | rfl <;> exact key _ _

/-- A metric whose statistics are entries of the contingency table. -/
def OfContingency (m : FMetric L K) : Prop := ∀ ks ∈ m.statistics, IsContingency ks.2

theorem selectable_contingency {m : FMetric L K} (he : m.Extensional) (hf : FormulaSelects c m) (hs : OfContingency m) : Selectable c m :=
  ⟨he, hf, fun ks hks => (hs ks hks).chunkLocal, fun ks hks _ _ hc => (hs ks hks).keepsDim hc⟩

theorem ofContingency_all : OfContingency (csi (L := L) (K := K)) ∧ OfContingency (accuracy (L := L) (K := K)) ∧ OfContingency (recall (L := L) (K := K)) ∧
    OfContingency (falseAlarmRate (L := L) (K := K)) ∧ OfContingency (precision (L := L) (K := K)) ∧ OfContingency (f1Score (L := L) (K := K)) ∧
    OfContingency (frequencyBias (L := L) (K := K)) ∧ OfContingency (hss (L := L) (K := K)) ∧ OfContingency (ets (L := L) (K := K)) := by
  refine ⟨?_, ?_, ?_, ?_, ?_, ?_, ?_, ?_, ?_⟩ <;> intro ks hks <;>
    simp only [csi, accuracy, recall, falseAlarmRate, precision, f1Score, frequencyBias, hss, ets, metric2, metric3, metric4, perVariableMetric, List.mem_cons, List.not_mem_nil, or_false] at hks <;>
    unfold IsContingency <;> rcases hks with rfl | rfl | rfl | rfl <;> simp

/-- **C100** So do the categorical scores. -/
theorem C100_categorical : Selectable c (csi (L := L) (K := K)) ∧ Selectable c (accuracy (L := L) (K := K)) ∧ Selectable c (recall (L := L) (K := K)) ∧
    Selectable c (falseAlarmRate (L := L) (K := K)) ∧ Selectable c (precision (L := L) (K := K)) ∧ Selectable c (f1Score (L := L) (K := K)) ∧
    Selectable c (frequencyBias (L := L) (K := K)) ∧ Selectable c (hss (L := L) (K := K)) ∧ Selectable c (ets (L := L) (K := K)) := by
  obtain ⟨e1, e2, e3, e4, e5, e6, e7, e8, e9⟩ := extensional_categorical (L := L) (K := K)
  obtain ⟨o1, o2, o3, o4, o5, o6, o7, o8, o9⟩ := ofContingency_all (L := L) (K := K)
  exact ⟨selectable_contingency e1 (selects_metric3 (by formula_selects)) o1, selectable_contingency e2 (selects_metric4 (by formula_selects)) o2,
    selectable_contingency e3 (selects_metric2 (by formula_selects)) o3, selectable_contingency e4 (selects_metric2 (by formula_selects)) o4,
    selectable_contingency e5 (selects_metric2 (by formula_selects)) o5, selectable_contingency e6 (selects_metric3 (by formula_selects)) o6,
    selectable_contingency e7 (selects_metric3 (by formula_selects)) o7, selectable_contingency e8 (selects_metric4 (by formula_selects)) o8,
    selectable_contingency e9 (selects_metric4 (by formula_selects)) o9⟩

theorem reduce_dims (hd : d ≠ c) {V W : Type} (f : Finset L → (L → V) → W) {a : StatVar L V} (h : c ∈ a.arr.dims) : c ∈ (a.reduce d f).arr.dims := Finset.mem_erase.mpr ⟨hd.symm, h⟩

theorem varDim_keeps (hd : d ≠ c) {skipna : Bool} {a s : StatVar L (FV K)} (h : c ∈ a.arr.dims) (hs : a.varDim skipna d = .ok s) : c ∈ s.arr.dims := by
  unfold StatVar.varDim at hs
  split_ifs at hs
  cases hs
  exact reduce_dims hd _ h

theorem meanDim_keeps (hd : d ≠ c) {skipna : Bool} {a s : StatVar L (FV K)} (h : c ∈ a.arr.dims) (hs : a.meanDim skipna d = .ok s) : c ∈ s.arr.dims := by
  unfold StatVar.meanDim at hs
  split_ifs at hs
  cases hs
  exact reduce_dims hd _ h

theorem crpsSkill_keeps (hd : d ≠ c) (hd' : d ++ "_PSEUDO_FOR_TARGETS" ≠ c) {skipna : Bool} {p t s : StatVar L (FV K)} (h : c ∈ p.arr.dims) (hs : crpsSkill d skipna p t = .ok s) : c ∈ s.arr.dims := by
  unfold crpsSkill at hs
  split_ifs at hs with h1
  · obtain ⟨t', _, hs⟩ := bind_ok_iff.mp hs
    dsimp only at hs
    split_ifs at hs
    cases hs
    exact Finset.mem_union_left _ (reduce_dims hd' _ (reduce_dims hd _ (Finset.mem_union_left _ h)))
  · exact meanDim_keeps hd (a := (p.zipWith (· - ·) t).map FV.abs) (Finset.mem_union_left _ h) hs

theorem crpsSpread_keeps (hd : d ≠ c) (hd' : "ensemble_dim_2" ≠ c) {argsort : List (FV K) → List ℕ} {order : List L} {useSort fair : Bool} {which : String} {skipna : Bool}
    {p t s : StatVar L (FV K)} (h : c ∈ p.arr.dims) (h' : c ∈ t.arr.dims) (hs : crpsSpread argsort order d useSort fair which skipna p t = .ok s) : c ∈ s.arr.dims := by
  unfold crpsSpread at hs
  obtain ⟨da, hda, hs⟩ := bind_ok_iff.mp hs
  have hc : c ∈ da.arr.dims := by
    unfold whichArray at hda
    split_ifs at hda <;> cases hda <;> assumption
  obtain ⟨n, hn, hs⟩ := bind_ok_iff.mp hs
  dsimp only at hs
  split at hs
  · cases hs
  split at hs
  · split at hs
    · cases hs
    obtain ⟨m, hm, hs⟩ := bind_ok_iff.mp hs
    cases hs
    refine Finset.mem_union_left _ ?_
    have := meanDim_keeps hd (a := StatVar.zipWith _ _ _) (Finset.mem_union_right _ hc) hm
    exact this
  · obtain ⟨da2, _, hs⟩ := bind_ok_iff.mp hs
    cases hs
    exact Finset.mem_union_left _ (reduce_dims hd' _ (reduce_dims hd _ (Finset.mem_union_left _ hc)))

/-- **C100** So does the CRPS of an ensemble. -/
theorem C100_crps (hd : d ≠ c) (hd' : d ++ "_PSEUDO_FOR_TARGETS" ≠ c) (h2 : "ensemble_dim_2" ≠ c) (hdd : d ≠ "ensemble_dim_2") (argsort : List (FV K) → List ℕ) (order : List L) (useSort fair skipna : Bool) :
    Selectable c (crpsEnsemble argsort order d useSort fair skipna) where
  extensional := (extensional_ensemble argsort order order d useSort fair skipna).1
  formula := selects_metric2 (by formula_selects)
  statistics := fun ks hks => by
    simp only [crpsEnsemble, metric2, perVariableMetric, List.mem_cons, List.not_mem_nil, or_false] at hks
    rcases hks with rfl | rfl
    · exact C74_crps_skill hd hd' skipna
    · exact C74_crps_spread hd h2 hdd argsort order useSort fair "predictions" skipna
  dims := fun ks hks p t hc => by
    simp only [crpsEnsemble, metric2, perVariableMetric, List.mem_cons, List.not_mem_nil, or_false] at hks
    rcases hks with rfl | rfl
    · exact keeps_statOfE (fun a b s h _ hs => crpsSkill_keeps hd hd' h hs) hc
    · exact keeps_statOfE (fun a b s h h' hs => crpsSpread_keeps hd h2 h h' hs) hc

/-- **C100** … and the root mean ensemble variance. -/
theorem C100_root_mean_variance (hd : d ≠ c) (skipna : Bool) : Selectable c (ensembleRootMeanVariance (L := L) d skipna) where
  extensional := extensional_metric1 (by formula_same)
  formula := selects_metric1 (by formula_selects)
  statistics := fun ks hks => by
    simp only [ensembleRootMeanVariance, metric1, perVariableMetric, List.mem_singleton] at hks; subst hks
    exact C74_ensemble_variance hd skipna
  dims := fun ks hks p t hc => by
    simp only [ensembleRootMeanVariance, metric1, perVariableMetric, List.mem_singleton] at hks; subst hks
    exact keeps_statOfE (fun a b s h _ hs => varDim_keeps hd h hs) hc

/-- The statistics of the deterministic scores are functions of the labelled arrays. -/
theorem respects_deterministic : RespectsArrays (errorStatistic (L := L) (K := K)) ∧ RespectsArrays (absoluteErrorStatistic (L := L) (K := K)) ∧ RespectsArrays (squaredErrorStatistic (L := L) (K := K)) :=
  ⟨respects_perVariable (fun _ _ _ _ h h' => .gives (.some (.some (StatVar.zipWith_same h h')))),
    respects_perVariable (fun _ _ _ _ h h' => .gives (.some (.some (StatVar.map_same _ (StatVar.zipWith_same h h'))))),
    respects_perVariable (fun _ _ _ _ h h' => .gives (.some (.some (StatVar.map_same _ (StatVar.zipWith_same h h')))))⟩

end metrics
end WBX
