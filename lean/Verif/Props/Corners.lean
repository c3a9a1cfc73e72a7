import Verif.Props.Serialize
import Verif.Props.Load
import Verif.Props.Encodings
import Verif.Props.Deterministic

set_option linter.unusedSectionVars false

/-!
# Theorems added because an edit of the model went unnoticed (see `seeded/LOG.jsonl`)
-/

namespace WBX
open DA

/-! ### C14: names with a slash -/

section slash
open Serialize
variable {L V : Type} [DecidableEq L]

mutual
theorem toDataTree_keys (fill : V) : (t w : Tree (DA L V)) → (r : DT (DA L V)) → toDataTree fill t w = .ok r → t.AllKeys (fun k => '/' ∉ k.toList)
  | .leaf _, _, _, _ => trivial
  | .dict d, w, r, h => by
    simp only [toDataTree] at h
    obtain ⟨cs, hcs, _⟩ := bind_ok_iff.mp h
    exact toDataTrees_keys fill d w cs hcs
  | .seq _, _, _, h => by simp [toDataTree] at h
theorem toDataTrees_keys (fill : V) : (d : Dict (DA L V)) → (w : Tree (DA L V)) → (r : DTs (DA L V)) → toDataTrees fill d w = .ok r → d.AllKeys (fun k => '/' ∉ k.toList)
  | .nil, _, _, _ => trivial
  | .cons k v rest, w, r, h => by
    simp only [toDataTrees] at h
    obtain ⟨wk, _, h⟩ := bind_ok_iff.mp h
    obtain ⟨t, ht, h⟩ := bind_ok_iff.mp h
    obtain ⟨ts, hts, h⟩ := bind_ok_iff.mp h
    by_cases hk : '/' ∈ k.toList
    · rw [if_pos hk] at h; cases h
    · exact ⟨hk, toDataTree_keys fill v wk t ht, toDataTrees_keys fill rest w ts hts⟩
end

/-- **C14** A state is only written as a data tree if no name, at any depth, contains a slash: such names cannot silently become further levels. -/
theorem C14_slash (fill : V) (s w : Tree (DA L V)) (r : DT (DA L V)) (h : toDataTree fill s w = .ok r) : s.AllKeys (fun k => '/' ∉ k.toList) :=
  toDataTree_keys fill s w r h

end slash

/-! ### C19: setup after failures -/

section setup
open Load
variable {I J O D : Type}

/-- Which of the `setup` calls raise, in order. -/
def setupResults : List (Call I J O) → List Bool
  | [] => []
  | .setup r :: cs => r :: setupResults cs
  | .process _ :: cs => setupResults cs

theorem process_state (f : DoFn I J D) (inp : O × (I × J)) (w : Worker I J D) :
    (process f inp w).1.initialized = w.initialized ∧ (process f inp w).1.trace.countP Event.isSetup = w.trace.countP Event.isSetup := by
  obtain ⟨o, i, j⟩ := inp
  simp only [process]
  cases f.targets i j with
  | error e => simp [Event.isSetup]
  | ok t => cases hp : f.predictions i j t <;> simp [Event.isSetup, hp]

/-- **C19** A worker calls the initialisation function at every `setup` until it has succeeded once, and then never again: a failed initialisation is repeated, not skipped. -/
theorem C19_setup_until_success (f : DoFn I J D) (hf : f.hasSetupFn = true) (cs : List (Call I J O)) :
    (run f cs {}).1.trace.countP Event.isSetup = ((setupResults cs).takeWhile id).length + if (setupResults cs).all id then 0 else 1 := by
  have main : ∀ (cs : List (Call I J O)) (w : Worker I J D), w.initialized = false →
      (run f cs w).1.trace.countP Event.isSetup = w.trace.countP Event.isSetup + (((setupResults cs).takeWhile id).length + if (setupResults cs).all id then 0 else 1) := by
    intro cs
    induction cs with
    | nil => intro w _; simp [run, setupResults]
    | cons c cs ih =>
      intro w hw
      cases c with
      | process inp =>
        rw [run]
        have hp := process_state f inp w
        have := ih (process f inp w).1 (by rw [hp.1, hw])
        change _ = _ + (((setupResults cs).takeWhile id).length + if (setupResults cs).all id then 0 else 1)
        rw [← hp.2, ← this]
        cases (process f inp w).2 <;> rfl
      | setup r =>
        rw [run]
        cases r with
        | true =>
          have hs : (setup f true w).1 = { w with trace := w.trace ++ [.setupFn] } := by simp [setup, hf, hw]
          rw [hs, ih { w with trace := w.trace ++ [.setupFn] } hw]
          simp [setupResults, Event.isSetup]
          omega
        | false =>
          have hs : (setup f false w).1 = { initialized := true, trace := w.trace ++ [.setupFn] } := by simp [setup, hf, hw]
          rw [hs, run_initialized f cs _ rfl]
          simp [setupResults, Event.isSetup]
  simpa using main cs {} rfl

/-- Two failures and a success: three calls, whatever follows. -/
example (f : DoFn I J D) (hf : f.hasSetupFn = true) (inp : O × (I × J)) :
    (run f [.setup true, .process inp, .setup true, .setup false, .process inp, .setup false] {}).1.trace.countP Event.isSetup = 3 := by
  rw [C19_setup_until_success f hf]; rfl

end setup

/-! ### C36: thresholds by time -/

section thresholds
variable {L K : Type} [DecidableEq L] [Field K] [LinearOrder K] [IsStrictOrderedRing K]

theorem selBy_ok {V : Type} (a : DA L V) (d k : Dim) (C : Dim → Finset L) (f : (Dim → L) → L) (h : ∀ e : Dim → L, e k ∈ C k → f e ∈ a.coords d) :
    a.selBy d [k] C f = .ok { dims := a.dims.erase d ∪ {k}, coords := fun k' => if k' = k then C k' else a.coords k', val := fun e => a.val (setLabel e d (f e)) } := by
  unfold DA.selBy
  rw [if_pos (fun e he => h e (he k (by simp)))]
  simp

theorem setLabel_own (d : Dim) (e : Dim → L) : setLabel e d (e d) = e := by
  funext k; unfold setLabel; split
  · next hk => rw [hk]
  · rfl

/-- **C36** Thresholds by day of year and lead time are read, for a forecast chunk, at the day of the year of the initialisation time (not of the valid time). -/
theorem C36_day_of_year (tm : TimeLabels L) (th : DA L (FV K)) (chunk : StatVar L (FV K))
    (h1 : "init_time" ∈ chunk.arr.dims) (h2 : "lead_time" ∈ chunk.arr.dims) (h3 : "valid_time" ∉ th.dims) (h4 : "init_time" ∉ th.dims)
    (h5 : "dayofyear" ∈ th.dims) (h6 : "lead_time" ∈ th.dims)
    (hi : ∀ i ∈ chunk.arr.coords "init_time", tm.dayofyear i ∈ th.coords "dayofyear") (hl : ∀ l ∈ chunk.arr.coords "lead_time", l ∈ th.coords "lead_time") :
    ∃ r, selectThresholdsByTime tm th chunk = .ok r ∧ "dayofyear" ∉ r.dims ∧ "init_time" ∈ r.dims ∧ "lead_time" ∈ r.dims ∧
      ∀ e, r.val e = th.val (setLabel (setLabel e "dayofyear" (tm.dayofyear (e "init_time"))) "lead_time" (e "lead_time")) := by
  unfold selectThresholdsByTime
  simp only [h1, h2, h3, h4, h5, h6, and_self, false_and, if_true, if_false]
  rw [selBy_ok _ _ _ _ _ (fun e he => hl _ he)]
  simp only [bind, Except.bind]
  rw [selBy_ok _ _ _ _ _ (fun e he => by simpa using hi _ he)]
  refine ⟨_, rfl, by simp, by simp, by simp [h6], fun e => ?_⟩
  simp [setLabel]

/-- **C36** Thresholds by initialisation and lead time are read at those of the forecast. -/
theorem C36_init_lead (tm : TimeLabels L) (th : DA L (FV K)) (chunk : StatVar L (FV K))
    (h1 : "init_time" ∈ chunk.arr.dims) (h2 : "lead_time" ∈ chunk.arr.dims) (h3 : "valid_time" ∉ th.dims) (h4 : "init_time" ∈ th.dims) (h6 : "lead_time" ∈ th.dims)
    (hi : ∀ i ∈ chunk.arr.coords "init_time", i ∈ th.coords "init_time") (hl : ∀ l ∈ chunk.arr.coords "lead_time", l ∈ th.coords "lead_time") :
    ∃ r, selectThresholdsByTime tm th chunk = .ok r ∧ ∀ e, r.val e = th.val e := by
  unfold selectThresholdsByTime
  simp only [h1, h2, h3, h4, h6, and_self, if_true, if_false]
  rw [selBy_ok _ _ _ _ _ (fun e he => hi _ he)]
  simp only [bind, Except.bind]
  rw [selBy_ok _ _ _ _ _ (fun e he => by simpa using hl _ he)]
  refine ⟨_, rfl, fun e => ?_⟩
  simp [setLabel_own]

/-- **C36** A chunk by valid time (observations): thresholds by valid time at that time, thresholds by day of year at its day of year, and all others unchanged. -/
theorem C36_observations (tm : TimeLabels L) (th : DA L (FV K)) (chunk : StatVar L (FV K))
    (h1 : ¬ ("init_time" ∈ chunk.arr.dims ∧ "lead_time" ∈ chunk.arr.dims)) (h2 : "valid_time" ∈ chunk.arr.dims) :
    ("valid_time" ∈ th.dims → (∀ v ∈ chunk.arr.coords "valid_time", v ∈ th.coords "valid_time") →
      ∃ r, selectThresholdsByTime tm th chunk = .ok r ∧ ∀ e, r.val e = th.val e) ∧
    ("valid_time" ∉ th.dims → "dayofyear" ∈ th.dims → (∀ v ∈ chunk.arr.coords "valid_time", tm.dayofyear v ∈ th.coords "dayofyear") →
      ∃ r, selectThresholdsByTime tm th chunk = .ok r ∧ "dayofyear" ∉ r.dims ∧ ∀ e, r.val e = th.val (setLabel e "dayofyear" (tm.dayofyear (e "valid_time")))) ∧
    ("valid_time" ∉ th.dims → "dayofyear" ∉ th.dims → selectThresholdsByTime tm th chunk = .ok th) := by
  unfold selectThresholdsByTime
  simp only [if_neg h1, h2, if_true]
  refine ⟨fun h3 hv => ?_, fun h3 h4 hv => ?_, fun h3 h4 => by simp [h3, h4]⟩
  · simp only [h3, if_true]
    rw [selBy_ok _ _ _ _ _ (fun e he => hv _ he)]
    refine ⟨_, rfl, fun e => ?_⟩
    simp [setLabel_own]
  · simp only [h3, h4, if_true, if_false]
    rw [selBy_ok _ _ _ _ _ (fun e he => hv _ he)]
    exact ⟨_, rfl, by simp, fun e => rfl⟩

end thresholds

/-! ### C67: passthrough statistics, and C68: masks -/

section pass
variable {L K : Type} [DecidableEq L] [Field K] [LinearOrder K] [IsStrictOrderedRing K]

/-- **C67** The statistic whose mean is the mean prediction: the prediction itself, and with `copy_nans` NaN exactly where the prediction or the target is NaN. -/
theorem C67_prediction_passthrough (copyNans : Bool) (p t : StatVar L (FV K)) (e : Dim → L) :
    (predictionPassthrough copyNans p t).arr.val e = if copyNans = true ∧ t.arr.val e = .nan then .nan else p.arr.val e := by
  have h0 : ∀ x : FV K, x + 0 = x := add_zero
  cases copyNans with
  | false => simp [predictionPassthrough, StatVar.zipWith, StatVar.map, zipWith, DA.map]
  | true =>
    simp only [predictionPassthrough, StatVar.zipWith, StatVar.map, zipWith, DA.map, if_true, FV.keepIf, true_and, h0]
    cases t.arr.val e <;> simp [FV.isnan]

/-- **C67** Likewise for the mean target. -/
theorem C67_target_passthrough (copyNans : Bool) (p t : StatVar L (FV K)) (e : Dim → L) :
    (targetPassthrough copyNans p t).arr.val e = if copyNans = true ∧ p.arr.val e = .nan then .nan else t.arr.val e :=
  C67_prediction_passthrough copyNans t p e

/-- **C67** Predictions and targets on the same labels: no label is lost. -/
theorem C67_labels (copyNans : Bool) (p t : StatVar L (FV K)) (hd : p.arr.dims = t.arr.dims) (hc : p.arr.coords = t.arr.coords) :
    (predictionPassthrough copyNans p t).arr.dims = p.arr.dims ∧ ∀ d ∈ p.arr.dims, (predictionPassthrough copyNans p t).arr.coords d = p.arr.coords d := by
  cases copyNans with
  | false =>
    refine ⟨by simp [predictionPassthrough, StatVar.zipWith, StatVar.map, zipWith, DA.map, hd], ?_⟩
    intro d hdd
    simp [predictionPassthrough, StatVar.zipWith, StatVar.map, zipWith, DA.map, joinCoords, hdd, hd ▸ hdd, hc]
  | true =>
    refine ⟨by simp [predictionPassthrough, StatVar.zipWith, StatVar.map, zipWith, DA.map, hd], ?_⟩
    intro d hdd
    simp [predictionPassthrough, StatVar.zipWith, StatVar.map, zipWith, DA.map, joinCoords, hdd, hd ▸ hdd, hc]

/-- **C68** The mask of a statistic of predictions and targets: that of the one that has a mask; that of both if they agree; none if they differ. -/
theorem C68_masks {U V W : Type} (f : U → V → W) (p : StatVar L U) (t : StatVar L V) :
    (t.mask = none → (p.zipWith f t).mask = p.mask) ∧ (p.mask = none → (p.zipWith f t).mask = t.mask) ∧
    (∀ m m', p.mask = some m → t.mask = some m' → m.Equals m' → (p.zipWith f t).mask = p.mask) ∧
    (∀ m m', p.mask = some m → t.mask = some m' → ¬ m.Equals m' → (p.zipWith f t).mask = none) := by
  unfold StatVar.zipWith
  refine ⟨fun h => ?_, fun h => ?_, fun m m' h h' he => ?_, fun m m' h h' hne => ?_⟩
  · simp only [h]; cases p.mask <;> rfl
  · simp only [h]; rfl
  · simp [h, h', combineMask, he]
  · simp [h, h', combineMask, hne]

/-- **C68** (finding) Squared errors of predictions and targets with different masks have no mask at all, so every cell counts, also those that both masks exclude. -/
theorem C68_conflict (p t : StatVar L (FV K)) (m m' : DA L Bool) (hp : p.mask = some m) (ht : t.mask = some m') (hne : ¬ m.Equals m') : (squaredError p t).mask = none :=
  (C68_masks (· - ·) p t).2.2.2 m m' hp ht hne

example : ∃ p t : StatVar ℕ (FV ℚ), (squaredError p t).mask = none ∧ p.mask ≠ none ∧ t.mask ≠ none := by
  refine ⟨⟨DA.scalar 0, some (DA.scalar true)⟩, ⟨DA.scalar 0, some (DA.scalar false)⟩, C68_conflict _ _ _ _ rfl rfl ?_, by simp, by simp⟩
  intro h
  have := h.2.2 (fun _ => 0) (by intro d hd; simp [scalar] at hd)
  simp [scalar] at this

end pass

/-! ### C05: the zero state -/

/-- **C05** The state of no chunks stays that of no chunks when dimensions are summed. -/
theorem C05_zero_along_dims {L V : Type} [DecidableEq L] [AddCommMonoid V] (dims : List Dim) :
    (AggState.sum ([] : List (AggState L V)) >>= AggState.sumAlongDims dims) = AggState.sum [] := rfl

end WBX
