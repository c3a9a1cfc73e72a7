import Verif.Props.RepeatedGrid
import Verif.Model.Ensemble

/-!
# C106: ensembles
-/

set_option linter.unusedSectionVars false

namespace WBX
open DA Aggregator

section reductions
variable {L : Type} [DecidableEq L] {d k k' : Dim} {C : Finset L}

/-- Repeated or not. -/
def StatVar.repeatedIf {V : Type} (d : Dim) (C : Finset L) (r : Bool) (a : StatVar L V) : StatVar L V := if r then a.repeated d C else a

theorem repeatedIf_map {V W : Type} (f : V → W) (r : Bool) (a : StatVar L V) : (a.repeatedIf d C r).map f = (a.map f).repeatedIf d C r := by cases r <;> rfl

theorem repeatedIf_zip {U V W : Type} (f : V → W → U) {a : StatVar L V} {b : StatVar L W} (ha : a.Without d) (hb : b.Without d) (r s : Bool) :
    (a.repeatedIf d C r).zipWith f (b.repeatedIf d C s) = (a.zipWith f b).repeatedIf d C (r || s) := by
  cases r <;> cases s
  · rfl
  · exact repeated_sv_zip (sides := .targets) f ha hb
  · exact repeated_sv_zip (sides := .predictions) f ha hb
  · exact repeated_sv_zip (sides := .both) f ha hb

theorem reduce_repeatedIf {V W : Type} (f : Finset L → (L → V) → W) (hk : k ≠ d) (r : Bool) (a : StatVar L V) : (a.repeatedIf d C r).reduce k f = (a.reduce k f).repeatedIf d C r := by
  cases r
  · rfl
  · show (⟨_, _⟩ : StatVar L W) = ⟨_, _⟩
    congr 1
    refine DA.same_of ?_ rfl ?_
    · show (insert d a.arr.dims).erase k = insert d (a.arr.dims.erase k)
      rw [Finset.erase_insert_of_ne hk.symm]
    · funext e
      show f (if k = d then C else a.arr.coords k) _ = f (a.arr.coords k) _
      rw [if_neg hk]; rfl

theorem StatVar.Without.reduce {V W : Type} (f : Finset L → (L → V) → W) (hk : k ≠ d) {a : StatVar L V} (h : a.Without d) : (a.reduce k f).Without d := by
  obtain ⟨a, m⟩ := a
  refine ⟨⟨fun hd => h.1.1 (Finset.mem_of_mem_erase hd), fun e l => ?_⟩, fun m' hm => ?_⟩
  · show f _ (fun l' => a.val (setLabel (setLabel e d l) k l')) = f _ (fun l' => a.val (setLabel e k l'))
    congr 1
    funext l'
    rw [setLabel_comm e hk.symm]
    exact h.1.2 _ _
  · rcases m with _ | m
    · cases hm
    · have hm : (if k ∈ m.dims then none else some m) = some m' := hm
      split at hm
      · cases hm
      · exact h.2 m' hm

theorem mem_repeatedIf {V : Type} (hk : k ≠ d) (r : Bool) (a : StatVar L V) : k ∈ (a.repeatedIf d C r).arr.dims ↔ k ∈ a.arr.dims := by
  cases r
  · exact Iff.rfl
  · show k ∈ insert d a.arr.dims ↔ _
    rw [Finset.mem_insert]
    exact or_iff_right hk

theorem coords_repeatedIf {V : Type} (hk : k ≠ d) (r : Bool) (a : StatVar L V) : (a.repeatedIf d C r).arr.coords k = a.arr.coords k := by
  cases r
  · rfl
  · show (if k = d then C else a.arr.coords k) = _
    rw [if_neg hk]

theorem DA.Without.rename {V : Type} (hk : k ≠ d) (hk' : k' ≠ d) {a : DA L V} (h : a.Without d) : (a.rename k k').Without d := by
  unfold DA.rename
  split
  · refine ⟨?_, fun e l => ?_⟩
    · show d ∉ insert k' (a.dims.erase k)
      rw [Finset.mem_insert]
      exact fun hh => hh.elim hk'.symm (fun hd => h.1 (Finset.mem_of_mem_erase hd))
    · show a.val (setLabel (setLabel e d l) k (setLabel e d l k')) = a.val (setLabel e k (e k'))
      rw [show setLabel e d l k' = e k' from if_neg hk', setLabel_comm e hk.symm]
      exact h.2 _ _
  · exact h

theorem rename_repeated {V : Type} (hk : k ≠ d) (hk' : k' ≠ d) (a : DA L V) : (a.repeated d C).rename k k' = (a.rename k k').repeated d C := by
  have hin : k ∈ (a.repeated d C).dims ↔ k ∈ a.dims := by
    show k ∈ insert d a.dims ↔ _
    rw [Finset.mem_insert]
    exact or_iff_right hk
  unfold DA.rename
  simp only [hin]
  split
  · refine DA.same_of ?_ ?_ rfl
    · show insert k' ((insert d a.dims).erase k) = insert d (insert k' (a.dims.erase k))
      rw [Finset.erase_insert_of_ne hk.symm, Finset.insert_comm]
    · funext j
      show (if j = k' then (if k = d then C else a.coords k) else if j = d then C else a.coords j) = if j = d then C else if j = k' then a.coords k else a.coords j
      by_cases h1 : j = k'
      · have hjd : j ≠ d := by rw [h1]; exact hk'
        rw [if_pos h1, if_neg hk, if_neg hjd, if_pos h1]
      · rw [if_neg h1, if_neg h1]
  · rfl

variable {V W : Type}

/-- The second computation repeats the result of the first one (if `r`), or has the same error; the result of the first one does not have the dimension. -/
def Lifts (d : Dim) (C : Finset L) (r : Bool) (x y : Except Err (StatVar L V)) : Prop := y = x.map (StatVar.repeatedIf d C r) ∧ ∀ o, x = .ok o → o.Without d

theorem Lifts.pure {r : Bool} {a : StatVar L V} (h : a.Without d) : Lifts d C r (.ok a) (.ok (a.repeatedIf d C r)) := ⟨rfl, fun o ho => by cases ho; exact h⟩

theorem Lifts.pure' {r : Bool} {a b : StatVar L V} (h : a.Without d) (hb : b = a.repeatedIf d C r) : Lifts d C r (.ok a) (.ok b) := by rw [hb]; exact .pure h

theorem Lifts.error {r : Bool} (e : Err) : Lifts (V := V) d C r (.error e) (.error e) := ⟨rfl, fun o ho => by cases ho⟩

theorem Lifts.bind {r s : Bool} {x y : Except Err (StatVar L V)} {f g : StatVar L V → Except Err (StatVar L W)} (h : Lifts d C r x y) (hf : ∀ a, a.Without d → Lifts d C s (f a) (g (a.repeatedIf d C r))) :
    Lifts d C s (x >>= f) (y >>= g) := by
  rw [h.1]
  rcases x with e | a
  · exact .error e
  · exact hf a (h.2 a rfl)

theorem rename_lifts (hk : k ≠ d) (hk' : k' ≠ d) (r : Bool) {a : StatVar L V} (h : a.Without d) : Lifts d C r (a.rename k k') ((a.repeatedIf d C r).rename k k') := by
  obtain ⟨a, m⟩ := a
  unfold StatVar.rename
  simp only [mem_repeatedIf hk, mem_repeatedIf hk']
  split
  · refine .pure' ⟨h.1.rename hk hk', fun m' hm => ?_⟩ ?_
    · rcases m with _ | m
      · cases hm
      · cases hm
        exact (h.2 m rfl).rename hk hk'
    · cases r
      · rfl
      · show (⟨_, _⟩ : StatVar L V) = ⟨_, _⟩
        congr 1
        exact rename_repeated hk hk' a
  · exact .error _

variable {K : Type} [Field K] [LinearOrder K] [IsStrictOrderedRing K]

theorem meanDim_lifts (hk : k ≠ d) (skipna r : Bool) {a : StatVar L (FV K)} (h : a.Without d) : Lifts d C r (a.meanDim skipna k) ((a.repeatedIf d C r).meanDim skipna k) := by
  unfold StatVar.meanDim
  simp only [mem_repeatedIf hk, reduce_repeatedIf _ hk]
  split
  · exact .pure (h.reduce _ hk)
  · exact .error _

theorem varDim_lifts (hk : k ≠ d) (skipna r : Bool) {a : StatVar L (FV K)} (h : a.Without d) : Lifts d C r (a.varDim skipna k) ((a.repeatedIf d C r).varDim skipna k) := by
  unfold StatVar.varDim
  simp only [mem_repeatedIf hk, reduce_repeatedIf _ hk]
  split
  · exact .pure (h.reduce _ hk)
  · exact .error _

theorem scalar_sv_without (x : V) : (⟨DA.scalar x, none⟩ : StatVar L V).Without d := ⟨scalar_without x, fun _ h => by cases h⟩

/-- The size of the ensemble is a number without `skipna`, and is not repeated. -/
theorem sizeDim_lifts (hk : k ≠ d) (skipna r : Bool) {a : StatVar L (FV K)} (h : a.Without d) : Lifts d C (r && skipna) (a.sizeDim skipna k) ((a.repeatedIf d C r).sizeDim skipna k) := by
  unfold StatVar.sizeDim
  simp only [mem_repeatedIf hk, reduce_repeatedIf _ hk, coords_repeatedIf hk]
  split
  · cases skipna
    · rw [Bool.and_false]
      exact .pure' (scalar_sv_without _) rfl
    · rw [Bool.and_true]
      simp only [↓reduceIte]
      exact .pure (h.reduce _ hk)
  · exact .error _

theorem rank_repeatedIf (argsort : List (FV K) → List ℕ) (order : List L) (hk : k ≠ d) (r : Bool) {a : StatVar L (FV K)} (h : a.Without d) :
    rankDA argsort order k (a.repeatedIf d C r) = (rankDA argsort order k a).repeatedIf d C r ∧ (rankDA argsort order k a).Without d := by
  refine ⟨by cases r <;> rfl, ⟨h.1.1, fun e l => ?_⟩, h.2⟩
  show FV.ofNat (rankdata argsort (order.map (fun l' => a.arr.val (setLabel (setLabel e d l) k l'))) (order.idxOf (setLabel e d l k))) = FV.ofNat (rankdata argsort (order.map (fun l' => a.arr.val (setLabel e k l'))) (order.idxOf (e k)))
  rw [show setLabel e d l k = e k from if_neg hk]
  simp only [setLabel_comm e hk.symm, h.1.2]

end reductions

section statistics
variable {L K : Type} [DecidableEq L] [Field K] [LinearOrder K] [IsStrictOrderedRing K] {d k : Dim} {C : Finset L} {sides : Sides}

/-- The predictions are repeated. -/
def Sides.preds : Sides → Bool
  | .targets => false
  | _ => true

/-- The targets are repeated. -/
def Sides.targs : Sides → Bool
  | .predictions => false
  | _ => true

theorem ofPredictions_if (a : StatVar L (FV K)) : sides.ofPredictions (StatVar.repeated d C) a = a.repeatedIf d C sides.preds := by cases sides <;> rfl
theorem ofTargets_if (a : StatVar L (FV K)) : sides.ofTargets (StatVar.repeated d C) a = a.repeatedIf d C sides.targs := by cases sides <;> rfl

theorem statOfE_repeats {name : String} {f : StatVar L (FV K) → StatVar L (FV K) → Except Err (StatVar L (FV K))}
    (hf : ∀ a b, a.Without d → b.Without d → Lifts d C true (f a b) (f (a.repeatedIf d C sides.preds) (b.repeatedIf d C sides.targs))) : (statOfE name f).Repeats sides d C := by
  refine perVariable_repeats (fun a b ha hb => ?_)
  obtain ⟨h1, h2⟩ := hf a b ha hb
  rw [ofPredictions_if, ofTargets_if, h1]
  rcases hr : f a b with e | s
  · exact ⟨rfl, fun x hx => by cases hx⟩
  · exact ⟨rfl, fun x hx => by cases hx; exact h2 _ hr⟩

/-- The spread of the forecasts: repeated exactly if the forecasts are. -/
theorem ensembleVariance_repeats (hk : k ≠ d) (skipna : Bool) (hs : sides.preds = true) : (ensembleVarianceStatistic (L := L) (K := K) k skipna).Repeats sides d C :=
  statOfE_repeats (fun a b ha _ => by rw [hs]; exact varDim_lifts hk skipna true ha)

theorem preds_or_targs (s : Sides) : (s.preds || s.targs) = true := by cases s <;> rfl

theorem absorb (r s x : Bool) (h : (r || s) = true) : (r || s || (r && x)) = true := by rw [h]; rfl

theorem unbiasedMSE_repeats (hk : k ≠ d) (skipna : Bool) : (unbiasedMSEStatistic (L := L) (K := K) k skipna).Repeats sides d C := by
  refine statOfE_repeats (fun p t hp ht => ?_)
  unfold unbiasedMSE
  refine (meanDim_lifts hk skipna _ hp).bind (fun pm hpm => (varDim_lifts hk skipna _ hp).bind (fun pv hpv => (sizeDim_lifts hk skipna _ hp).bind (fun pn hpn => ?_)))
  simp only [mem_repeatedIf hk]
  have hor := preds_or_targs sides
  split
  · refine (meanDim_lifts hk skipna _ ht).bind (fun tm htm => (varDim_lifts hk skipna _ ht).bind (fun tv htv => (sizeDim_lifts hk skipna _ ht).bind (fun tn htn => ?_)))
    have hw := ((hpm.zip htm (· - ·)).map FV.sq).zip (hpv.zip hpn (· / ·)) (· - ·)
    refine .pure' (hw.zip (htv.zip htn (· / ·)) _) ?_
    rw [repeatedIf_zip _ hpm htm, repeatedIf_map, repeatedIf_zip _ hpv hpn, repeatedIf_zip _ ((hpm.zip htm _).map _) (hpv.zip hpn _), repeatedIf_zip _ htv htn, repeatedIf_zip _ hw (htv.zip htn _), hor]
    rfl
  · have hw := ((hpm.zip ht (· - ·)).map FV.sq).zip (hpv.zip hpn (· / ·)) (· - ·)
    refine .pure' (hw.map _) ?_
    rw [repeatedIf_zip _ hpm ht, repeatedIf_map, repeatedIf_zip _ hpv hpn, repeatedIf_zip _ ((hpm.zip ht _).map _) (hpv.zip hpn _), repeatedIf_map, hor]
    rfl

theorem crpsSkill_repeats (hk : k ≠ d) (hk' : k ++ "_PSEUDO_FOR_TARGETS" ≠ d) (skipna : Bool) : (crpsSkillStatistic (L := L) (K := K) k skipna).Repeats sides d C := by
  refine statOfE_repeats (fun p t hp ht => ?_)
  have hor := preds_or_targs sides
  unfold crpsSkill
  dsimp only
  simp only [mem_repeatedIf hk]
  split
  · refine (rename_lifts hk hk' _ ht).bind (fun t' ht' => ?_)
    rw [repeatedIf_zip _ hp ht', repeatedIf_map, hor]
    have ha : ((p.zipWith (fun x y : FV K => x - y) t').map FV.abs).Without d := (hp.zip ht' _).map _
    simp only [mem_repeatedIf hk, reduce_repeatedIf _ hk, reduce_repeatedIf _ hk']
    split
    · refine .pure' (((ha.reduce _ hk).reduce _ hk').zip ((ha.reduce _ hk).reduce _ hk') _) ?_
      rw [repeatedIf_zip _ ((ha.reduce _ hk).reduce _ hk') ((ha.reduce _ hk).reduce _ hk')]
      rfl
    · exact .error _
  · rw [repeatedIf_zip _ hp ht, repeatedIf_map, hor]
    exact meanDim_lifts hk skipna true ((hp.zip ht _).map _)

theorem crpsSpread_repeats (argsort : List (FV K) → List ℕ) (order : List L) (hk : k ≠ d) (hk' : "ensemble_dim_2" ≠ d) (useSort fair : Bool) (skipna : Bool) (hs : sides.preds = true) :
    (crpsSpreadStatistic argsort order k useSort fair "predictions" skipna).Repeats sides d C := by
  refine statOfE_repeats (fun p t hp ht => ?_)
  rw [hs]
  unfold crpsSpread
  have hw : ∀ p t : StatVar L (FV K), whichArray "predictions" p t = .ok p := fun p t => if_pos rfl
  rw [hw, hw]
  show Lifts d C true (p.sizeDim skipna k >>= _) ((p.repeatedIf d C true).sizeDim skipna k >>= _)
  refine (sizeDim_lifts hk skipna true hp).bind (fun n hn => ?_)
  dsimp only
  rw [coords_repeatedIf hk]
  split
  · exact .error _
  · split
    · split
      · exact .error _
      · obtain ⟨hr1, hr2⟩ := rank_repeatedIf (C := C) argsort order hk true hp
        rw [hr1, repeatedIf_map, repeatedIf_zip _ (hr2.map _) hn, repeatedIf_map, repeatedIf_zip _ (((hr2.map _).zip hn _).map _) hp]
        refine (meanDim_lifts hk false _ ((((hr2.map _).zip hn _).map _).zip hp _)).bind (fun m hm => ?_)
        refine .pure' ((hm.map _).zip (hn.map _) _) ?_
        rw [repeatedIf_map, repeatedIf_map, repeatedIf_zip _ (hm.map _) (hn.map _)]
        rfl
    · refine (rename_lifts hk hk' true hp).bind (fun q hq => ?_)
      have ha : ((p.zipWith (fun x y : FV K => x - y) q).map FV.abs).Without d := (hp.zip hq _).map _
      rw [repeatedIf_zip _ hp hq, repeatedIf_map, reduce_repeatedIf _ hk, reduce_repeatedIf _ hk', repeatedIf_map, repeatedIf_zip _ hn (hn.map _)]
      have hr := (ha.reduce (npSum skipna) hk).reduce (npSum false) hk'
      refine .pure' (hr.zip (hn.zip (hn.map _) _) _) ?_
      rw [repeatedIf_zip _ hr (hn.zip (hn.map _) _)]
      rfl

/-- **C106** The CRPS of an ensemble whose forecasts are repeated (the observations too, or broadcast). -/
theorem C106_crps (argsort : List (FV K) → List ℕ) (order : List L) (hk : k ≠ d) (hk' : k ++ "_PSEUDO_FOR_TARGETS" ≠ d) (hk2 : "ensemble_dim_2" ≠ d) (useSort fair skipna : Bool) (hs : sides ≠ .targets) :
    (crpsEnsemble argsort order k useSort fair skipna).Repeats sides d C :=
  metric2_repeats (crpsSkill_repeats hk hk' skipna) (crpsSpread_repeats argsort order hk hk2 useSort fair skipna (by cases sides <;> first | rfl | exact absurd rfl hs)) (by formula_labels)

/-- **C106** The unbiased squared error of the ensemble mean, whichever side is repeated. -/
theorem C106_unbiased (hk : k ≠ d) (skipna : Bool) : ((unbiasedMSEStatistic (L := L) (K := K) k skipna).toMetric (M := DA L (FV K))).Repeats sides d C := statistic_repeats (unbiasedMSE_repeats hk skipna)

/-- **C106** The variance of the ensemble, if the forecasts are repeated. -/
theorem C106_variance (hk : k ≠ d) (skipna : Bool) (hs : sides ≠ .targets) : ((ensembleVarianceStatistic (L := L) (K := K) k skipna).toMetric (M := DA L (FV K))).Repeats sides d C :=
  statistic_repeats (ensembleVariance_repeats hk skipna (by cases sides <;> first | rfl | exact absurd rfl hs))

/-- **C106** ★ If only the observations are repeated, the spread of the forecasts does not have the dimension that is averaged over, and the aggregation leaves it out without an error: whatever the
ensemble, there is no mean of the spread. -/
theorem C106_spread_missing (argsort : List (FV K) → List ℕ) (order : List L) (useSort fair skipna : Bool) (reduceDims : List Dim) {p t s : StatVar L (FV K)} (hp : p.Without d) (hk : k ≠ d) (hk2 : "ensemble_dim_2" ≠ d)
    (h : crpsSpread argsort order k useSort fair "predictions" skipna p (t.repeated d C) = .ok s) :
    (⟨d :: reduceDims, [], [], false, false⟩ : Aggregator L (FV K)).aggregateStatVar s = .ok none := by
  have hs : s.Without d := by
    have hsame : crpsSpread argsort order k useSort fair "predictions" skipna p (t.repeated d C) = crpsSpread argsort order k useSort fair "predictions" skipna p p := rfl
    rw [hsame] at h
    have := (crpsSpread_repeats (C := C) (sides := .both) argsort order hk hk2 useSort fair skipna rfl [("x", p)] [("x", p)] (fun kv hkv => by rw [List.mem_singleton.1 hkv]; exact hp)
      (fun kv hkv => by rw [List.mem_singleton.1 hkv]; exact hp)).2 [("x", some s)] (by
        show perVariableLoop _ _ _ = _
        simp [perVariableLoop, pyGet?, h, bind, Except.bind, pure, Except.pure])
    exact this "x" s List.mem_cons_self
  have hno : ∀ a : DA L (FV K), a.dims = s.arr.dims → (⟨d :: reduceDims, [], [], false, false⟩ : Aggregator L (FV K)).aggregationFn a = .ok none := by
    intro a ha
    unfold aggregationFn
    rw [if_pos]
    have hd : d ∉ a.dims := by rw [ha]; exact hs.1.1
    simp [hd]
  unfold aggregateStatVar applyMask
  simp only [hno _ rfl, Bool.false_eq_true, if_false, bind, Except.bind, pure, Except.pure]
  rw [hno (DA.map _ s.arr) rfl]

/-- **C106** ★ The CRPS then has no values at all, and no error: variables without a mean spread are left out. -/
theorem C106_crps_empty (argsort : List (FV K) → List ℕ) (order : List L) (useSort fair skipna : Bool) (skill : Vars (DA L (FV K))) :
    (crpsEnsemble argsort order k useSort fair skipna).valuesFromMeanStatistics [("CRPSSkill", skill), ("CRPSSpread", [])] = .ok [] := by
  show perVariableValues ["CRPSSkill", "CRPSSpread"] _ _ = _
  unfold perVariableValues
  rw [show (["CRPSSkill", "CRPSSpread"].mapM (pyItem [("CRPSSkill", skill), ("CRPSSpread", ([] : Vars (DA L (FV K))))]) : Except Err _) = .ok [skill, []] from rfl]
  simp only [bind, Except.bind]
  rw [show commonVariables [skill, ([] : Vars (DA L (FV K)))] = .ok [] from congrArg Except.ok (List.filter_eq_nil_iff.2 (fun k _ => by simp))]
  rfl

theorem aggregate_none {agg : Aggregator L (FV K)} (hd : d ∈ agg.reduceDims) {s : StatVar L (FV K)} (hs : s.Without d) : agg.aggregateStatVar s = .ok none := by
  have hno : ∀ a : DA L (FV K), a.Without d → agg.aggregationFn a = .ok none := by
    intro a ha
    unfold aggregationFn
    rw [if_pos]
    intro hall
    exact ha.1 (of_decide_eq_true (List.all_eq_true.1 hall d hd))
  obtain ⟨h1, h2⟩ := applyMask_without agg hs
  unfold aggregateStatVar
  dsimp only
  rw [hno _ h1, hno _ h2]
  rfl

theorem perVar_none {agg : Aggregator L (FV K)} (hd : d ∈ agg.reduceDims) : ∀ {vars : Vars (Option (StatVar L (FV K)))}, (∀ v a, (v, some a) ∈ vars → a.Without d) → agg.perVar vars = .ok []
  | [], _ => rfl
  | (_, none) :: vars, h => by
    rw [perVar]
    exact perVar_none hd (fun v a hm => h v a (List.mem_cons_of_mem _ hm))
  | (k, some s) :: vars, h => by
    rw [perVar, aggregate_none hd (h k s List.mem_cons_self), perVar_none hd (fun v a hm => h v a (List.mem_cons_of_mem _ hm))]
    rfl

theorem loop_without {f : StatVar L (FV K) → StatVar L (FV K) → Except Err (Option (Option (StatVar L (FV K))))} (hf : ∀ a b x, a.Without d → f a b = .ok (some (some x)) → x.Without d) (t : Vars (StatVar L (FV K))) :
    ∀ {p : Vars (StatVar L (FV K))} {out}, WithoutDim d p → perVariableLoop f t p = .ok out → ∀ v a, (v, some a) ∈ out → a.Without d
  | [], out, _, h => by
    cases h
    exact fun v a hm => absurd hm (by simp)
  | (v, a) :: p, out, hp, h => by
    have ih := fun {out} => loop_without hf t (p := p) (out := out) (fun kv hkv => hp kv (List.mem_cons_of_mem _ hkv))
    rw [perVariableLoop] at h
    rcases hb : pyGet? v t with _ | b
    · rw [hb] at h
      exact ih h
    · rw [hb] at h
      dsimp only at h
      rcases hr : f a b with e | r
      · rw [hr] at h; cases h
      · rcases hrs : perVariableLoop f t p with e | rs
        · rw [hr, hrs] at h; cases h
        · rw [hr, hrs] at h
          rcases r with _ | x
          · cases h
            exact ih hrs
          · cases h
            intro w y hm
            rcases List.mem_cons.1 hm with heq | hm
            · obtain ⟨rfl, rfl⟩ := Prod.mk.inj heq
              exact hf a b y (hp _ List.mem_cons_self) hr
            · exact ih hrs w y hm

theorem spread_without (argsort : List (FV K) → List ℕ) (order : List L) (hk : k ≠ d) (hk2 : "ensemble_dim_2" ≠ d) (useSort fair skipna : Bool) {p t s : StatVar L (FV K)} (hp : p.Without d)
    (h : crpsSpread argsort order k useSort fair "predictions" skipna p t = .ok s) : s.Without d := by
  have hsame : crpsSpread argsort order k useSort fair "predictions" skipna p t = crpsSpread argsort order k useSort fair "predictions" skipna p p := rfl
  rw [hsame] at h
  have := (crpsSpread_repeats (C := ∅) (sides := .both) argsort order hk hk2 useSort fair skipna rfl [("x", p)] [("x", p)] (fun kv hkv => by rw [List.mem_singleton.1 hkv]; exact hp)
    (fun kv hkv => by rw [List.mem_singleton.1 hkv]; exact hp)).2 [("x", some s)] (by
      show perVariableLoop _ _ _ = _
      simp [perVariableLoop, pyGet?, h, bind, Except.bind, pure, Except.pure])
  exact this "x" s List.mem_cons_self

/-- **C106** ★ The whole evaluation: a dimension that is averaged over and that the forecasts do not have (only the observations do, for example several observing systems) makes the CRPS lose every
value, with any weights, bins, masks and observations. The evaluation succeeds and returns nothing. -/
theorem C106_crps_lost (argsort : List (FV K) → List ℕ) (order : List L) (hk : k ≠ d) (hk2 : "ensemble_dim_2" ≠ d) (useSort fair skipna : Bool) {agg : Aggregator L (FV K)} (hd : d ∈ agg.reduceDims)
    {p t : Vars (StatVar L (FV K))} (hp : WithoutDim d p) {out : Vars (DA L (FV K))} (h : metricAlone (crpsEnsemble argsort order k useSort fair skipna) agg p t = .ok out) : out = [] := by
  unfold metricAlone at h
  have hst : (crpsEnsemble argsort order k useSort fair skipna).statistics = [("CRPSSkill", crpsSkillStatistic k skipna), ("CRPSSpread", crpsSpreadStatistic argsort order k useSort fair "predictions" skipna)] := rfl
  rw [hst] at h
  simp only [List.mapM_cons, List.mapM_nil, bind, Except.bind, pure, Except.pure] at h
  rcases h1 : (crpsSkillStatistic k skipna).compute p t with e | v1
  · rw [h1] at h; cases h
  · rw [h1] at h
    dsimp only at h
    rcases h2 : meanVars agg v1 with e | m1
    · rw [h2] at h; cases h
    · rw [h2] at h
      dsimp only at h
      rcases h3 : (crpsSpreadStatistic argsort order k useSort fair "predictions" skipna).compute p t with e | v2
      · rw [h3] at h; cases h
      · rw [h3] at h
        dsimp only at h
        have hv2 : ∀ v a, (v, some a) ∈ v2 → a.Without d := by
          refine loop_without (fun a b x ha hx => ?_) t hp h3
          rcases hs : crpsSpread argsort order k useSort fair "predictions" skipna a b with e | s
          · rw [hs] at hx; cases hx
          · rw [hs] at hx
            cases hx
            exact spread_without argsort order hk hk2 useSort fair skipna ha hs
        have hm : meanVars agg v2 = .ok [] := by
          unfold meanVars
          rw [perVar_none hd hv2]
          rfl
        rw [hm] at h
        have := C106_crps_empty argsort order (k := k) useSort fair skipna m1
        dsimp only at h
        rw [this] at h
        cases h
        rfl

end statistics

/-- The hypotheses are met by members on `realization` and a repetition over `center`. -/
example : "realization" ≠ "center" ∧ "realization" ++ "_PSEUDO_FOR_TARGETS" ≠ "center" ∧ "ensemble_dim_2" ≠ "center" ∧ Sides.both ≠ Sides.targets := by
  refine ⟨by decide +kernel, by decide +kernel, by decide +kernel, by intro h; cases h⟩

/-- Two members, observations of two systems, an average over the systems: an evaluation that succeeds and has no values. -/
example : metricAlone (crpsEnsemble (L := ℕ) (K := ℚ) (fun _ => []) [1, 2] "realization" false true false) ⟨["system"], [], [], false, false⟩
    [("x", ⟨⟨{"realization"}, fun _ => {1, 2}, fun e => .fin (e "realization")⟩, none⟩)] [("x", ⟨⟨{"system"}, fun _ => {5, 6}, fun e => .fin (e "system")⟩, none⟩)] = .ok [] := by
  rfl

/-- The CRPS in the example evaluation, with forecasts and observations repeated over two centers. -/
example {L : Type} [DecidableEq L] {C : Finset L} (argsort : List (FV ℝ) → List ℕ) (members : List L) (name : String → L) (order : List L) (degrees : L → ℝ) (f : Example.Flags) (hf : "center" ∉ f.reduceDims) (hC : C.Nonempty)
    {p t : Vars (StatVar L (FV ℝ))} (hp : WithoutDim "center" p) (ht : WithoutDim "center" t) :
    metricAlone (crpsEnsemble argsort members "realization" false true false) (Example.aggregator name order degrees { f with reduceDims := "center" :: f.reduceDims }) (repeatVars "center" C p) (repeatVars "center" C t) =
      (metricAlone (crpsEnsemble argsort members "realization" false true false) (Example.aggregator name order degrees f) p t).map (sameValuesAs "center" C) :=
  C106_example (by decide +kernel) (by decide +kernel) (by decide +kernel) hC .both name order f hf
    (C106_crps argsort members (by decide +kernel) (by decide +kernel) (by decide +kernel) false true false (by intro h; cases h)) hp ht

end WBX
