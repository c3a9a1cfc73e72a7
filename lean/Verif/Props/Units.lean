import Verif.Lemmas.Units
import Verif.Lemmas.OneDim
import Mathlib.Tactic.FieldSimp
import Mathlib.Tactic.NormNum

/-!
# C88: metrics under a change of units
-/

namespace WBX
set_option linter.unusedSectionVars false

section generic
variable {L K : Type} [DecidableEq L] [Field K] [LinearOrder K] [IsStrictOrderedRing K]

theorem pyItem_scaleValues (k : String → K) (vs : Vars (DA L (FV K))) (v : String) :
    pyItem (scaleValues k vs) v = (pyItem vs v).map (DA.map (FV.times (k v))) := by
  unfold pyItem
  rw [pyGet?_scaleValues]
  rcases pyGet? v vs with _ | x <;> rfl

theorem pyItem_scaleMeans (kk : String → String → K) (sv : List (String × Vars (DA L (FV K)))) (n : String) :
    pyItem (scaleMeans kk sv) n = (pyItem sv n).map (scaleValues (kk n)) := by
  unfold pyItem
  have : pyGet? n (scaleMeans kk sv) = (pyGet? n sv).map (scaleValues (kk n)) := by
    induction sv with
    | nil => rfl
    | cons x sv ih =>
      by_cases h : x.1 = n
      · subst h; simp [scaleMeans, pyGet?]
      · simp only [scaleMeans, List.map_cons, pyGet?] at ih ⊢
        rw [if_neg h, if_neg h, ih]
  rw [this]
  rcases pyGet? n sv with _ | x <;> rfl

theorem keys_scaleValues (k : String → K) (vs : Vars (DA L (FV K))) : (scaleValues k vs).map Prod.fst = vs.map Prod.fst := by
  unfold scaleValues
  rw [List.map_map]; rfl

theorem perVariableValues_times {names : List String} {g : List (String × DA L (FV K)) → Except Err (DA L (FV K))}
    {kk : String → String → K} {k : String → K}
    (hg : ∀ v xs, g (xs.map (fun nx => (nx.1, nx.2.map (FV.times (kk nx.1 v))))) = (g xs).map (DA.map (FV.times (k v))))
    (sv : List (String × Vars (DA L (FV K)))) :
    perVariableValues names g (scaleMeans kk sv) = (perVariableValues names g sv).map (scaleValues k) := by
  have h1 : ∀ v, (names.mapM (fun s => do
      let m ← pyItem (scaleMeans kk sv) s
      let x ← pyItem m v
      return (s, x)) : Except Err _) = (names.mapM (fun s => do
      let m ← pyItem sv s
      let x ← pyItem m v
      return (s, x)) : Except Err _).map (List.map (fun nx : String × DA L (FV K) => (nx.1, nx.2.map (FV.times (kk nx.1 v))))) := by
    intro v
    induction names with
    | nil => rfl
    | cons n names ih =>
      rw [List.mapM_cons, List.mapM_cons, ih, pyItem_scaleMeans]
      rcases pyItem sv n with e | m
      · rfl
      · show (do
          let x ← pyItem (scaleValues (kk n) m) v
          return (n, x)) >>= _ = _
        rw [pyItem_scaleValues]
        show _ = Except.map _ (((do
          let x ← pyItem m v
          return (n, x)) >>= _) : Except Err _)
        rcases pyItem m v with e | x
        · rfl
        · generalize (List.mapM _ names : Except Err _) = r
          rcases r with e | r <;> rfl
  have h2 : (names.mapM (pyItem (scaleMeans kk sv)) >>= commonVariables : Except Err _) = (names.mapM (pyItem sv) >>= commonVariables) := by
    have : ∀ (names : List String), (∃ e : Err, names.mapM (pyItem (scaleMeans kk sv)) = .error e ∧ names.mapM (pyItem sv) = .error e) ∨
        ∃ a b, names.mapM (pyItem (scaleMeans kk sv)) = .ok a ∧ names.mapM (pyItem sv) = .ok b ∧
          a.map (List.map Prod.fst) = b.map (List.map Prod.fst) := by
      intro names
      induction names with
      | nil => exact Or.inr ⟨[], [], rfl, rfl, rfl⟩
      | cons n names ih =>
        rw [List.mapM_cons, List.mapM_cons, pyItem_scaleMeans]
        rcases pyItem sv n with e | m
        · exact Or.inl ⟨e, rfl, rfl⟩
        · rcases ih with ⟨e, ha, hb⟩ | ⟨a, b, ha, hb, hab⟩
          · rw [ha, hb]; exact Or.inl ⟨e, rfl, rfl⟩
          · rw [ha, hb]
            refine Or.inr ⟨_, _, rfl, rfl, ?_⟩
            simp only [List.map_cons, hab, keys_scaleValues]
    rcases this names with ⟨e, ha, hb⟩ | ⟨a, b, ha, hb, hab⟩
    · rw [ha, hb]
    · rw [ha, hb]
      show commonVariables a = commonVariables b
      rcases a with _ | ⟨x, a⟩ <;> rcases b with _ | ⟨y, b⟩
      · rfl
      · cases hab
      · cases hab
      · simp only [List.map_cons, List.cons.injEq] at hab
        have hall : ∀ key : String, a.all (fun w => key ∈ w.map Prod.fst) = b.all (fun w => key ∈ w.map Prod.fst) := by
          intro key
          have e1 : a.all (fun w => key ∈ w.map Prod.fst) = (a.map (List.map Prod.fst)).all (fun w => decide (key ∈ w)) := by
            rw [List.all_map]; rfl
          have e2 : b.all (fun w => key ∈ w.map Prod.fst) = (b.map (List.map Prod.fst)).all (fun w => decide (key ∈ w)) := by
            rw [List.all_map]; rfl
          rw [e1, e2, hab.2]
        simp only [commonVariables, hab.1, hall]
  have hassoc : ∀ sv', perVariableValues names g sv' = ((names.mapM (pyItem sv') >>= commonVariables) >>= fun common =>
      common.mapM (fun v => do
        let perVar ← names.mapM (fun s => do
          let m ← pyItem sv' s
          let x ← pyItem m v
          return (s, x))
        let x ← g perVar
        return (v, x))) := by
    intro sv'
    unfold perVariableValues
    generalize (List.mapM (pyItem sv') names : Except Err _) = r
    rcases r with e | r <;> rfl
  rw [hassoc, hassoc, h2]
  generalize ((names.mapM (pyItem sv) >>= commonVariables : Except Err _)) = r
  rcases r with e | common
  · rfl
  · show (common.mapM _ : Except Err _) = Except.map _ (common.mapM _)
    induction common with
    | nil => rfl
    | cons v common ih =>
      rw [List.mapM_cons, List.mapM_cons, ih, h1 v]
      generalize (List.mapM _ names : Except Err _) = xs
      rcases xs with e | xs
      · rfl
      · show ((do
          let x ← g _
          return (v, x)) >>= _) = Except.map _ (((do
          let x ← g xs
          return (v, x)) >>= _) : Except Err _)
        rw [hg v xs]
        rcases g xs with e | x
        · rfl
        · generalize (List.mapM _ common : Except Err _) = r
          rcases r with e | r <;> rfl

/-- Per-variable statistics: it is enough to look at one variable. -/
theorem perVariable_scales {name : String} {f : StatVar L (FV K) → StatVar L (FV K) → Except Err (Option (Option (StatVar L (FV K))))}
    {c d k : String → K}
    (hf : ∀ v p t, f (p.map (FV.affine (c v) (d v))) (t.map (FV.affine (c v) (d v))) =
      (f p t).map (Option.map (Option.map (fun s => s.map (FV.times (k v)))))) :
    Statistic.ScalesBy (perVariableStatistic name f) c d k := by
  intro p t
  show perVariableLoop f _ _ = Except.map _ (perVariableLoop f t p)
  have hget : ∀ v, pyGet? v (changeUnits c d t) = (pyGet? v t).map (fun x => x.map (FV.affine (c v) (d v))) := by
    intro v
    induction t with
    | nil => rfl
    | cons x t ih =>
      by_cases h : x.1 = v
      · subst h; simp [changeUnits, pyGet?]
      · simp only [changeUnits, List.map_cons, pyGet?] at ih ⊢
        rw [if_neg h, if_neg h, ih]
  induction p with
  | nil => rfl
  | cons x p ih =>
    obtain ⟨v, a⟩ := x
    show perVariableLoop f (changeUnits c d t) ((v, a.map (FV.affine (c v) (d v))) :: changeUnits c d p) = _
    unfold perVariableLoop
    rw [hget v]
    rcases pyGet? v t with _ | b
    · exact ih
    · simp only [Option.map_some]
      rw [hf v a b, ih]
      rcases f a b with e | _ | r
      · rfl
      · rcases perVariableLoop f t p with e | rs <;> rfl
      · rcases perVariableLoop f t p with e | rs <;> rfl

theorem statOf_scales {name : String} {f : StatVar L (FV K) → StatVar L (FV K) → StatVar L (FV K)} {c d k : String → K}
    (hf : ∀ v p t, f (p.map (FV.affine (c v) (d v))) (t.map (FV.affine (c v) (d v))) = (f p t).map (FV.times (k v))) :
    Statistic.ScalesBy (statOf name f) c d k :=
  perVariable_scales (fun v p t => by rw [hf]; rfl)

theorem statOfE_scales {name : String} {f : StatVar L (FV K) → StatVar L (FV K) → Except Err (StatVar L (FV K))} {c d k : String → K}
    (hf : ∀ v p t, f (p.map (FV.affine (c v) (d v))) (t.map (FV.affine (c v) (d v))) = (f p t).map (fun s => s.map (FV.times (k v)))) :
    Statistic.ScalesBy (statOfE name f) c d k :=
  perVariable_scales (fun v p t => by rw [hf]; rcases f p t with e | s <;> rfl)

theorem toMetric_scales {agg : Aggregator L (FV K)} (h : agg.CoordOnly) {s : FStatistic L K} {c d k : String → K}
    (hk : ∀ v, k v ≠ 0) (hs : s.ScalesBy c d k) : Metric.ScalesBy s.toMetric agg c d k := by
  refine metricAlone_times h (kk := fun _ => k) (fun _ => hk) ?_ (fun sv => pyItem_scaleMeans _ sv "self")
  intro ks hks
  rw [List.mem_singleton.mp hks]
  exact hs

theorem metric1_scales {agg : Aggregator L (FV K)} (h : agg.CoordOnly) {s : String × FStatistic L K} {f : DA L (FV K) → DA L (FV K)}
    {c d k1 k : String → K} (hk : ∀ v, k1 v ≠ 0) (hs : s.2.ScalesBy c d k1)
    (hf : ∀ v x, f (x.map (FV.times (k1 v))) = (f x).map (FV.times (k v))) : Metric.ScalesBy (metric1 s f) agg c d k := by
  refine metricAlone_times h (kk := fun _ => k1) (fun _ => hk) ?_ (perVariableValues_times ?_)
  · intro ks hks
    rw [List.mem_singleton.mp hks]
    exact hs
  · intro v xs
    have := pyItem_scaleValues (fun _ => k1 v) xs s.1
    unfold scaleValues at this
    rw [this]
    rcases pyItem xs s.1 with e | x
    · rfl
    · exact congrArg Except.ok (hf v x)

theorem pyItem_pairs {kk : String → String → K} {v : String} (xs : List (String × DA L (FV K))) (n : String) :
    pyItem (xs.map (fun nx => (nx.1, nx.2.map (FV.times (kk nx.1 v))))) n = (pyItem xs n).map (DA.map (FV.times (kk n v))) :=
  pyItem_scaleValues (fun n => kk n v) xs n

theorem metric2_scales {agg : Aggregator L (FV K)} (h : agg.CoordOnly) {n1 n2 : String} (hn : n1 ≠ n2) {s1 s2 : FStatistic L K}
    {f : DA L (FV K) → DA L (FV K) → DA L (FV K)}
    {c d k1 k2 k : String → K} (hk1 : ∀ v, k1 v ≠ 0) (hk2 : ∀ v, k2 v ≠ 0) (hs1 : s1.ScalesBy c d k1) (hs2 : s2.ScalesBy c d k2)
    (hf : ∀ v x y, f (x.map (FV.times (k1 v))) (y.map (FV.times (k2 v))) = (f x y).map (FV.times (k v))) :
    Metric.ScalesBy (metric2 (n1, s1) (n2, s2) f) agg c d k := by
  refine metricAlone_times h (kk := fun n => if n = n1 then k1 else k2) ?_ ?_ (perVariableValues_times ?_)
  · intro n v
    by_cases hn' : n = n1
    · rw [if_pos hn']; exact hk1 v
    · rw [if_neg hn']; exact hk2 v
  · intro ks hks
    rcases List.mem_cons.mp hks with rfl | hks
    · dsimp only; rw [if_pos rfl]; exact hs1
    · rw [List.mem_singleton.mp hks]
      dsimp only; rw [if_neg (Ne.symm hn)]; exact hs2
  · intro v xs
    have h1 := pyItem_pairs (kk := fun n => if n = n1 then k1 else k2) (v := v) xs n1
    have h2 := pyItem_pairs (kk := fun n => if n = n1 then k1 else k2) (v := v) xs n2
    dsimp only at h1 h2 ⊢
    rw [h1, h2, if_pos rfl, if_neg (Ne.symm hn)]
    rcases pyItem xs n1 with e | x
    · rfl
    · rcases pyItem xs n2 with e | y
      · rfl
      · exact congrArg Except.ok (hf v x y)

/-! ### Statistics of one variable -/

theorem StatVar.sub_affine {c : K} (hc : c ≠ 0) (d : K) (p t : StatVar L (FV K)) :
    (p.map (FV.affine c d)).zipWith (· - ·) (t.map (FV.affine c d)) = (p.zipWith (· - ·) t).map (FV.times c) := by
  simp only [StatVar.zipWith, StatVar.map, DA.zipWith, DA.map, StatVar.mk.injEq, DA.mk.injEq]
  refine ⟨⟨trivial, rfl, ?_⟩, trivial⟩
  funext e
  exact FV.affine_sub hc d _ _

theorem StatVar.map_map {U V W : Type} (f : V → W) (g : U → V) (s : StatVar L U) : (s.map g).map f = s.map (fun x => f (g x)) := rfl

theorem StatVar.map_congr' {V W : Type} {f g : V → W} (h : ∀ x, f x = g x) (s : StatVar L V) : s.map f = s.map g := by
  have : f = g := funext h
  rw [this]

theorem StatVar.abs_times {c : K} (hc : c ≠ 0) (s : StatVar L (FV K)) :
    (s.map (FV.times c)).map FV.abs = (s.map FV.abs).map (FV.times |c|) := StatVar.map_congr' (FV.abs_times hc) s

theorem StatVar.sq_times {c : K} (hc : c ≠ 0) (s : StatVar L (FV K)) :
    (s.map (FV.times c)).map FV.sq = (s.map FV.sq).map (FV.times (c * c)) := StatVar.map_congr' (FV.sq_times hc) s

end generic

/-! ### Deterministic metrics -/

section deterministic
variable {L K : Type} [DecidableEq L] [Field K] [LinearOrder K] [IsStrictOrderedRing K]
variable {agg : Aggregator L (FV K)} (hagg : agg.CoordOnly) {c : String → K} (hc : ∀ v, c v ≠ 0) (d : String → K)
include hagg hc

/-- C88: the bias is multiplied by the factor. -/
theorem C88_bias : Metric.ScalesBy errorStatistic.toMetric agg c d c :=
  toMetric_scales hagg hc (statOf_scales (fun v p t => StatVar.sub_affine (hc v) (d v) p t))

/-- C88: the mean absolute error is multiplied by the absolute value of the factor. -/
theorem C88_mae : Metric.ScalesBy absoluteErrorStatistic.toMetric agg c d (fun v => |c v|) :=
  toMetric_scales hagg (fun v => abs_ne_zero.mpr (hc v)) (statOf_scales (fun v p t => by
    unfold absoluteError error
    rw [StatVar.sub_affine (hc v) (d v) p t, StatVar.abs_times (hc v)]))

/-- C88: the mean squared error is multiplied by the square of the factor. -/
theorem C88_mse : Metric.ScalesBy squaredErrorStatistic.toMetric agg c d (fun v => c v * c v) :=
  toMetric_scales hagg (fun v => mul_ne_zero (hc v) (hc v)) (statOf_scales (fun v p t => by
    unfold squaredError
    rw [StatVar.sub_affine (hc v) (d v) p t, StatVar.sq_times (hc v)]))

end deterministic

theorem DA.sqrt_times {L : Type} [DecidableEq L] {k : ℝ} (hk : k ≠ 0) (x : DA L (FV ℝ)) :
    (x.map (FV.times (k * k))).map FV.sqrt = (x.map FV.sqrt).map (FV.times |k|) := by
  simp only [DA.map, DA.mk.injEq, true_and]
  funext e
  exact FV.sqrt_times hk _

section roots
variable {L : Type} [DecidableEq L] {agg : Aggregator L (FV ℝ)} (hagg : agg.CoordOnly) {c : String → ℝ} (hc : ∀ v, c v ≠ 0) (d : String → ℝ)
include hagg hc

/-- C88: the root mean squared error is multiplied by the absolute value of the factor. -/
theorem C88_rmse : Metric.ScalesBy rmse agg c d (fun v => |c v|) :=
  metric1_scales (s := ("SquaredError", squaredErrorStatistic)) hagg (fun v => mul_ne_zero (hc v) (hc v))
    (statOf_scales (fun v p t => by
      unfold squaredError
      rw [StatVar.sub_affine (hc v) (d v) p t, StatVar.sq_times (hc v)]))
    (fun v x => DA.sqrt_times (hc v) x)

end roots
end WBX
