import Verif.Props.LaterTimes

/-!
# C105: latency, several variables, and a whole evaluation of a chunk
-/

set_option linter.unusedSectionVars false

namespace WBX
open DA Aggregator

section latency
variable {L V : Type} [DecidableEq L] [AddCommGroup L] [LinearOrder L] {c : L}

/-- **C105** The forecast that is available under a latency is the one that is `c` later. -/
theorem C105_available (nominal : List L) (latency init : L) :
    availableInitTime (laterTimes c nominal) latency (init + c) = (availableInitTime nominal latency init).map (· + c) := by
  unfold availableInitTime laterTimes
  have : (nominal.map (· + c)).map (fun t => t + latency - (init + c)) = nominal.map (fun t => t + latency - init) := by
    rw [List.map_map]
    refine List.map_congr_left (fun t _ => ?_)
    simp only [Function.comp_apply]
    abel
  simp only [this, List.getElem?_map]
  split
  · rfl
  · rename_i idx _
    cases nominal[idx]? <;> rfl

theorem shiftLabels_later (d : Dim) (offset : L) (a : DA L V) : shiftLabels d offset (a.relabel (later c)) = (shiftLabels d offset a).relabel (later c) := by
  refine DA.extAll rfl ?_ ?_
  · funext k
    simp only [shiftLabels, DA.relabel]
    split
    · ext l
      simp only [Finset.mem_image, Finset.mem_map, Equiv.toEmbedding_apply]
      by_cases hd : k = "init_time" ∨ k = "valid_time"
      · rw [later_time hd]
        simp only [Equiv.coe_addRight]
        constructor
        · rintro ⟨x, ⟨y, hy, rfl⟩, rfl⟩; exact ⟨y + offset, ⟨y, hy, rfl⟩, by abel⟩
        · rintro ⟨x, ⟨y, hy, rfl⟩, rfl⟩; exact ⟨y + c, ⟨y, hy, rfl⟩, by abel⟩
      · rw [later_other hd]
        simp only [Equiv.refl_apply, exists_eq_right]
    · rfl
  · funext e
    simp only [shiftLabels, DA.relabel]
    congr 1
    funext k
    unfold setLabel
    by_cases hk : k = d
    · subst hk
      rw [if_pos rfl, if_pos rfl]
      by_cases hd : k = "init_time" ∨ k = "valid_time"
      · rw [later_time hd]
        simp only [Equiv.addRight_symm, Equiv.coe_addRight]
        abel
      · rw [later_other hd]; rfl
    · rw [if_neg hk, if_neg hk]

theorem concatAlong_relabel (ρ : Dim → Equiv.Perm L) (d : Dim) (as : List (DA L V)) : concatAlong d (as.map (DA.relabel ρ)) = (concatAlong d as).map (DA.relabel ρ) := by
  cases as with
  | nil => rfl
  | cons a as =>
    have hfold : ∀ bs : List (DA L V), (bs.map (DA.relabel ρ)).foldr (fun b s => b.coords d ∪ s) ∅ = (bs.foldr (fun (b : DA L V) (s : Finset L) => b.coords d ∪ s) ∅).map (ρ d).toEmbedding := by
      intro bs
      induction bs with
      | nil => rfl
      | cons b bs ih => rw [List.map_cons, List.foldr_cons, List.foldr_cons, ih, Finset.map_union]; rfl
    have hfind : ∀ (bs : List (DA L V)) (l : L), (bs.map (DA.relabel ρ)).find? (fun b => decide (l ∈ b.coords d)) = (bs.find? (fun b => decide ((ρ d).symm l ∈ b.coords d))).map (DA.relabel ρ) := by
      intro bs l
      induction bs with
      | nil => rfl
      | cons b bs ih =>
        have : (l ∈ (b.relabel ρ).coords d) ↔ (ρ d).symm l ∈ b.coords d := by
          show l ∈ (b.coords d).map (ρ d).toEmbedding ↔ _
          rw [Finset.mem_map_equiv]
        rw [List.map_cons, List.find?_cons, List.find?_cons, ih]
        simp only [this]
        by_cases h : (ρ d).symm l ∈ b.coords d
        · simp [h]
        · simp [h]
    show Except.ok _ = Except.ok _
    congr 1
    refine DA.extAll rfl ?_ ?_
    · funext k
      simp only [DA.relabel]
      split
      · rename_i hk; rw [hk]; exact hfold (a :: as)
      · rfl
    · funext e
      have := hfind (a :: as) (e d)
      simp only [List.map_cons] at this
      simp only [DA.relabel] at this ⊢
      rw [this]
      cases (a :: as).find? (fun b => decide ((ρ d).symm (e d) ∈ b.coords d)) <;> rfl

/-- **C105** A latency around a loader that has nothing to do with the dates. -/
theorem C105_latency {source source' : List L → LeadTimes L → Except Err (DA L V)} (h : DateFree c source source') (nominal : List L) (latency : L) :
    DateFree c (latencySource source nominal latency) (latencySource source' (laterTimes c nominal) latency) := by
  intro inits leads
  cases leads with
  | none => rfl
  | slice start stop =>
    cases inits with
    | nil => rfl
    | cons i is =>
      show (availableInitTime (laterTimes c nominal) latency (i + c) >>= fun _ => _) = Except.map _ (availableInitTime nominal latency i >>= fun _ => _)
      rw [C105_available]
      rcases availableInitTime nominal latency i with e | t <;> rfl
  | exact ls =>
    show ((laterTimes c inits).mapM (latencyOne source' (laterTimes c nominal) latency ls) >>= fun chunks => concatAlong "init_time" chunks) = _
    have hone : ∀ i ∈ inits, latencyOne source' (laterTimes c nominal) latency ls (i + c) = (latencyOne source nominal latency ls i).map (DA.relabel (later c)) := by
      intro i _
      unfold latencyOne
      rw [C105_available]
      rcases availableInitTime nominal latency i with e | t
      · rfl
      · show (source' [t + c] (.exact (ls.map (· + (i + c - (t + c))))) >>= fun raw => _) = Except.map _ (source [t] (.exact (ls.map (· + (i - t)))) >>= fun raw => _)
        rw [show i + c - (t + c) = i - t by abel, show [t + c] = laterTimes c [t] from rfl, h]
        rcases source [t] (.exact (ls.map (· + (i - t)))) with e | raw
        · rfl
        · show Except.ok _ = Except.ok _
          congr 1
          rw [shiftLabels_later, shiftLabels_later]
    rw [show laterTimes c inits = inits.map (· + c) from rfl, List.mapM_map, mapM_image (f := latencyOne source nominal latency ls) (f' := latencyOne source' (laterTimes c nominal) latency ls ∘ fun x => x + c) (g := DA.relabel (later c)) hone]
    show _ = Except.map _ (inits.mapM (latencyOne source nominal latency ls) >>= fun chunks => concatAlong "init_time" chunks)
    rcases inits.mapM (latencyOne source nominal latency ls) with e | chunks
    · rfl
    · exact concatAlong_relabel _ _ chunks

/-- The same source of forecasts `c` later. -/
structure LaterLoader (c : L) (d d' : LatencyLoader L V) : Prop where
  nominal : d'.nominal = laterTimes c d.nominal
  latency : d'.latency = d.latency
  load : ∀ i leads, d'.load (i + c) leads = (d.load i leads).map (DA.relabel (later c))

/-- **C105** Several sources with latencies: the same source is chosen. -/
theorem C105_multiple (argmin : List (L × L) → ℕ) {loaders loaders' : List (LatencyLoader L V)} (h : List.Forall₂ (LaterLoader c) loaders loaders') :
    DateFree c (multipleLatencyLoad argmin loaders) (multipleLatencyLoad argmin loaders') := by
  intro inits leads
  have hkeys : ∀ i : L, loaderKeys loaders' (i + c) = loaderKeys loaders i := by
    intro i
    unfold loaderKeys
    induction h with
    | nil => rfl
    | cons hd _ ih =>
      rw [List.mapM_cons, List.mapM_cons, ih, hd.nominal, hd.latency, C105_available]
      congr 1
      rename_i d d' _ _ _
      rcases availableInitTime d.nominal d.latency i with e | t
      · rfl
      · show Except.ok _ = Except.ok _
        rw [show i + c - (t + c) = i - t by abel]
  have hget : ∀ n : ℕ, (loaders[n]? = none ∧ loaders'[n]? = none) ∨ ∃ d d', loaders[n]? = some d ∧ loaders'[n]? = some d' ∧ LaterLoader c d d' := by
    clear hkeys
    induction h with
    | nil => exact fun n => Or.inl ⟨rfl, rfl⟩
    | cons hd _ ih =>
      intro n
      cases n with
      | zero => exact Or.inr ⟨_, _, rfl, rfl, hd⟩
      | succ n => exact ih n
  unfold multipleLatencyLoad
  rw [laterTimes, List.mapM_map, mapM_image (f := fun init => (do
      let keys ← loaderKeys loaders init
      match loaders[argmin keys]? with
      | some d => d.load init leads
      | none => .error .indexError)) (g := DA.relabel (later c)) (fun i _ => ?_)]
  · exact bind_image (fun chunks => concatAlong_relabel _ _ chunks)
  · rw [Function.comp_apply, hkeys]
    rcases loaderKeys loaders i with e | keys
    · rfl
    · rcases hget (argmin keys) with ⟨h1, h2⟩ | ⟨d, d', h1, h2, hd⟩
      · show (match loaders'[argmin keys]? with | some d => _ | none => _) = Except.map _ (match loaders[argmin keys]? with | some d => _ | none => _)
        rw [h1, h2]; rfl
      · show (match loaders'[argmin keys]? with | some d => _ | none => _) = Except.map _ (match loaders[argmin keys]? with | some d => _ | none => _)
        rw [h1, h2]; exact hd.load i leads

end latency

section evaluation
variable {L : Type} [DecidableEq L] [AddCommGroup L] {c : L}

/-- **C105** All variables of a dataset. -/
theorem C105_variables {K : Type} [Field K] [LinearOrder K] {load : DA L (FV K) → List L → LeadTimes L → Except Err (DA L (FV K))} (h : ∀ ds, DateFree c (load ds) (load (ds.relabel (later c)))) (addNanMask : Bool) (ds : Vars (DA L (FV K)))
    (inits : List L) (leads : LeadChunk L) :
    loadVars load addNanMask (ds.map (fun kv => (kv.1, kv.2.relabel (later c)))) (laterTimes c inits) leads = (loadVars load addNanMask ds inits leads).map (relabelVars (later c)) := by
  unfold loadVars
  rw [List.mapM_map]
  refine mapM_image (fun kv _ => ?_)
  rw [Function.comp_apply]
  dsimp only
  rw [h]
  refine bind_image (fun r => ?_)
  cases addNanMask <;> rfl

/-- **C105** A chunk of an evaluation at times that are `c` later: the values of the metric are the same, at labels that are `c` later. -/
theorem C105_evaluation {V : Type} [AddCommMonoid V] [Mul V] [One V] [Div V] [IsNull V] {loadT loadT' loadP loadP' : List L → LeadTimes L → Except Err (Vars (StatVar L V))}
    (ht : DateFreeVars c loadT loadT') (hp : DateFreeVars c loadP loadP') {m m' : Metric (StatVar L V) (Option (StatVar L V)) (DA L V)} (hm : m.Relabels (later c) m')
    {agg agg' : Aggregator L V} (hagg : agg.Relabels (later c) agg') (inits : List L) (leads : LeadTimes L) :
    evaluateChunk loadT' loadP' m' agg' (laterTimes c inits) leads = (evaluateChunk loadT loadP m agg inits leads).map (relabelValues (later c)) := by
  unfold evaluateChunk
  rw [ht, hp]
  exact bind_image (fun t => bind_image (fun p => C102_relabel hagg hm p t))

/-- **C105** The example evaluation: regions and area weights are the same at all times. -/
theorem C105_example (name : String → L) (order : List L) (degrees : L → ℝ) (f : Example.Flags) {m m' : FMetric L ℝ} (hm : m.Relabels (later c) m')
    {loadT loadT' loadP loadP' : List L → LeadTimes L → Except Err (Vars (StatVar L (FV ℝ)))} (ht : DateFreeVars c loadT loadT') (hp : DateFreeVars c loadP loadP') (inits : List L) (leads : LeadTimes L) :
    evaluateChunk loadT' loadP' m' (Example.aggregator name order degrees f) (laterTimes c inits) leads =
      (evaluateChunk loadT loadP m (Example.aggregator name order degrees f) inits leads).map (relabelValues (later c)) := by
  refine C105_evaluation ht hp hm ?_ inits leads
  have := example_relabels (ρ := later c) (degrees := degrees) (degrees' := degrees) ⟨fun l => by rw [later_other (by decide)]; rfl, fun l => ⟨0, by rw [later_other (by decide)]; simp⟩⟩ name order f
  rw [later_other (by decide), later_other (by decide)] at this
  simpa using this

/-- Loading the forecasts and the observations of an evaluation is `DateFree`, so the root mean squared errors of the example evaluation, in all regions, are the same `c` later. -/
example [LinearOrder L] (name : String → L) (order : List L) (degrees : L → ℝ) (f : Example.Flags) (forecasts observations : DA L (FV ℝ)) (inits : List L) (leads : LeadTimes L) :
    evaluateChunk (fun i l => do return [("t", ⟨← loadTargets (observations.relabel (later c)) i l, none⟩)]) (fun i l => do return [("t", ⟨← loadPredictions (forecasts.relabel (later c)) i l, none⟩)]) rmse
        (Example.aggregator name order degrees f) (laterTimes c inits) leads =
      (evaluateChunk (fun i l => do return [("t", ⟨← loadTargets observations i l, none⟩)]) (fun i l => do return [("t", ⟨← loadPredictions forecasts i l, none⟩)]) rmse (Example.aggregator name order degrees f) inits leads).map
        (relabelValues (later c)) := by
  refine C105_example name order degrees f C102_rmse ?_ ?_ inits leads
  · intro i l
    show (loadTargets (observations.relabel (later c)) (laterTimes c i) l >>= fun _ => _) = _
    rw [C105_targets]
    exact bind_image (fun a => rfl)
  · intro i l
    show (loadPredictions (forecasts.relabel (later c)) (laterTimes c i) l >>= fun _ => _) = _
    rw [C105_predictions]
    exact bind_image (fun a => rfl)

end evaluation

/-! ### Where the date matters -/

/-- ★ **C105** A climatology whose fields of the date differ after `c` is not the same `c` later: its labels do not move with the data. -/
theorem C105_climatology_dates : ∃ (fields : ClimFields ℤ) (ds : DA ℤ ℤ) (c : ℤ), ¬ DateFree c (loadClimatology fields ds) (loadClimatology fields (ds.relabel (later c))) := by
  refine ⟨[("dayofyear", id)], ⟨{"dayofyear"}, fun _ => {0, 1}, fun e => e "dayofyear"⟩, 1, fun h => ?_⟩
  have := h [0] .none
  unfold loadClimatology selFields at this
  simp only [laterTimes, List.map_cons, List.map_nil, List.all_cons, List.all_nil, DA.relabel, later] at this
  simp [setFields, setLabel, Except.map] at this
  have h2 := congrFun (congrArg DA.val this) (fun _ => 0)
  simp [DA.relabel, later] at h2

/-- Climatologies by hour are the same after whole days. -/
example (days : ℤ) : Periodic (24 * days) [("hour", fun t : ℤ => t % 24)] :=
  ⟨fun f hf t => by rw [List.mem_singleton.1 hf]; simp, fun f hf => by rw [List.mem_singleton.1 hf]; decide⟩

/-- Init times 0, 6, 12 in chunks of two, and a day later. -/
example : (TimeChunks.make [0, 6, 12] (.arr [0]) (some 2) none : Except Err (TimeChunks ℤ ℤ)).map (fun tc => tc.initChunks) = .ok [[0, 6], [12]] ∧
    (TimeChunks.make (laterTimes 24 [0, 6, 12]) (.arr [0]) (some 2) none : Except Err (TimeChunks ℤ ℤ)).map (fun tc => tc.initChunks) = .ok [[24, 30], [36]] := by
  constructor <;> decide +kernel

end WBX
