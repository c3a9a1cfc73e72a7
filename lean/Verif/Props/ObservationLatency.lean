import Verif.Model.ObservationLatency
import Verif.Props.Parquet
import Verif.Props.Latency
import Verif.Props.Spatial
import Verif.Lemmas.Table
import Verif.Props.MetricsBase

/-!
# C46: a latency does not change observations
-/

set_option linter.unusedSectionVars false

namespace WBX
variable {K : Type}

/-- The rows for one init time and lead time, with the labels `q`. -/
noncomputable def pairRows (o : ParquetOptions K) (store : ℤ → Option (List (ObsRow K))) (keep : ObsRow K → Bool) (q : ℤ × ℤ) : Except Err (List (Obs K)) :=
  (loadSingleTime o store (q.1 + q.2) none).map (fun rows => (rows.map (fun r => ({ row := r, initLead := some q } : Obs K))).filter (fun x => keep x.row))

theorem mapM_map_except {α β γ : Type} (f : α → Except Err β) (g : β → γ) : ∀ l : List α, l.mapM (fun a => (f a).map g) = (l.mapM f).map (List.map g)
  | [] => rfl
  | a :: as => by
    rw [List.mapM_cons, List.mapM_cons, mapM_map_except f g as]
    cases h1 : f a with
    | error e => rfl
    | ok b =>
      cases h2 : as.mapM f with
      | error e => rfl
      | ok bs => rfl

theorem pdConcat_map {α β : Type} (F : List α → List β) (hF : ∀ ts : List (List α), F ts.flatten = (ts.map F).flatten) (ts : List (List α)) :
    (pdConcat ts).map F = pdConcat (ts.map F) := by
  cases ts with
  | nil => rfl
  | cons t ts => exact congrArg Except.ok (hF _)

theorem observationSource_exact (o : ParquetOptions K) (store : ℤ → Option (List (ObsRow K))) (keep : ObsRow K → Bool) (inits leads : List ℤ) :
    observationSource o store keep inits (.exact leads) = (inits.flatMap (fun i => leads.map (fun l => (i, l)))).mapM (pairRows o store keep) >>= pdConcat := by
  unfold observationSource loadObservations
  have h1 : (fun q : ℤ × ℤ => (do let rows ← loadSingleTime o store (q.1 + q.2) none; return rows.map (fun r => ({ row := r, initLead := some q } : Obs K)) : Except Err (List (Obs K)))) =
      fun q => (loadSingleTime o store (q.1 + q.2) none).map (fun rows => rows.map (fun r => ({ row := r, initLead := some q } : Obs K))) := by
    funext q
    cases loadSingleTime o store (q.1 + q.2) none <;> rfl
  have h2 : pairRows o store keep = fun q => ((loadSingleTime o store (q.1 + q.2) none).map (fun rows => rows.map (fun r => ({ row := r, initLead := some q } : Obs K)))).map
      (List.filter (fun x => keep x.row)) := by
    funext q
    unfold pairRows
    cases loadSingleTime o store (q.1 + q.2) none <;> rfl
  rw [h2, mapM_map_except]
  dsimp only
  rw [h1]
  generalize (List.mapM _ _ : Except Err (List (List (Obs K)))) = ts
  cases ts with
  | error e => rfl
  | ok ts =>
    show (pdConcat ts).map _ = pdConcat (ts.map _)
    exact pdConcat_map _ (fun ts => by rw [List.filter_flatten]) ts

theorem mapM_append_except {α β : Type} (f : α → Except Err β) : ∀ l l' : List α, ((l ++ l').mapM f : Except Err (List β)) = (l.mapM f >>= fun r => l'.mapM f >>= fun r' => (.ok (r ++ r') : Except Err _) : Except Err (List β))
  | [], l' => by
    show (l'.mapM f : Except Err (List β)) = (l'.mapM f >>= fun r' => (.ok r' : Except Err _) : Except Err (List β))
    cases l'.mapM f <;> rfl
  | a :: as, l' => by
    rw [List.cons_append, List.mapM_cons, List.mapM_cons, mapM_append_except f as l']
    cases h1 : f a with
    | error e => rfl
    | ok b =>
      cases h2 : as.mapM f with
      | error e => rfl
      | ok bs =>
        cases h3 : l'.mapM f with
        | error e => simp [bind, Except.bind, pure, Except.pure]
        | ok cs => simp [bind, Except.bind, pure, Except.pure]

theorem pdConcat_ne {α : Type} {ts : List (List α)} (h : ts ≠ []) : pdConcat ts = .ok ts.flatten := by
  cases ts with
  | nil => exact absurd rfl h
  | cons t ts => rfl

theorem mapM_pairs {α ι β : Type} (f : α → Except Err (List β)) (pairs : ι → List α) (hne : ∀ i, pairs i ≠ []) : ∀ l : List ι,
    (l.flatMap pairs).mapM f >>= (fun ts => .ok ts.flatten) = l.mapM (fun i => (pairs i).mapM f >>= pdConcat) >>= (fun ts => .ok ts.flatten)
  | [] => rfl
  | i :: is => by
    have ih := mapM_pairs f pairs hne is
    rw [List.flatMap_cons, mapM_append_except, List.mapM_cons]
    cases h1 : (pairs i).mapM f with
    | error e => rfl
    | ok r =>
      have hr : r ≠ [] := by
        rintro rfl
        have := mapM_ok_length _ _ _ h1
        exact hne i (List.length_eq_zero_iff.mp this)
      have h2 : (Except.ok r >>= pdConcat : Except Err (List β)) = .ok r.flatten := pdConcat_ne hr
      rw [h2]
      cases h3 : (is.flatMap pairs).mapM f with
      | error e =>
        rw [h3] at ih
        cases h4 : is.mapM (fun i => (pairs i).mapM f >>= pdConcat) with
        | error e' => rw [h4] at ih; exact ih
        | ok ts => rw [h4] at ih; simp [bind, Except.bind] at ih
      | ok ts =>
        rw [h3] at ih
        cases h4 : is.mapM (fun i => (pairs i).mapM f >>= pdConcat) with
        | error e' => rw [h4] at ih; simp [bind, Except.bind] at ih
        | ok ts' =>
          rw [h4] at ih
          have h5 : ts.flatten = ts'.flatten := Except.ok.inj ih
          show Except.ok ((r ++ ts).flatten) = Except.ok ((r.flatten :: ts').flatten)
          rw [List.flatten_append, List.flatten_cons, h5]

/-- **C46** (observations) A loader of sparse observations that is wrapped with a latency loads the same observations, with the same init and lead times, as without, whatever the latency and
the nominal init times, as long as each init time has an available one: the valid time does not change. It fails in the same way, too. `keep` stands for `dropna`. -/
theorem C46_observations (o : ParquetOptions K) (store : ℤ → Option (List (ObsRow K))) (keep : ObsRow K → Bool) (nominal : List ℤ) (latency : ℤ) (inits leads : List ℤ)
    (h : ∀ i ∈ inits, ∃ t ∈ nominal, t + latency ≤ i) :
    latencyObservations (observationSource o store keep) nominal latency inits (.exact leads) = observationSource o store keep inits (.exact leads) := by
  have hone : ∀ i ∈ inits, latencyObsOne (observationSource o store keep) nominal latency leads i = (leads.map (fun l => (i, l))).mapM (pairRows o store keep) >>= pdConcat := by
    intro i hi
    obtain ⟨a, ha, -⟩ | ⟨-, hno⟩ := availableInitTime_cases nominal latency i
    · unfold latencyObsOne
      rw [ha]
      show (observationSource o store keep [a] (.exact (leads.map (· + (i - a)))) >>= fun raw => .ok (raw.map (shiftObs (i - a)))) = _
      rw [observationSource_exact]
      have hp : ([a].flatMap (fun i' => (leads.map (· + (i - a))).map (fun l => (i', l)))) = (leads.map (fun l => (i, l))).map (fun q => (a, q.2 + (i - a))) := by
        simp [List.map_map, Function.comp_def]
      rw [hp, List.mapM_map]
      have hpair : ∀ l, pairRows o store keep (i, l) = (pairRows o store keep (a, l + (i - a))).map (List.map (shiftObs (i - a))) := by
        intro l
        unfold pairRows
        have hv : (a, l + (i - a)).1 + (a, l + (i - a)).2 = (i, l).1 + (i, l).2 := by dsimp only; ring
        rw [hv]
        cases loadSingleTime o store ((i, l).1 + (i, l).2) none with
        | error e => rfl
        | ok rows =>
          show Except.ok _ = Except.ok _
          congr 1
          clear hp
          dsimp only
          induction rows with
          | nil => rfl
          | cons r rs ih =>
            simp only [List.map_cons]
            by_cases hk : keep r = true
            · rw [List.filter_cons_of_pos (by exact hk), List.filter_cons_of_pos (by exact hk), List.map_cons, ih]
              simp [shiftObs]
            · rw [List.filter_cons_of_neg (by exact hk), List.filter_cons_of_neg (by exact hk), ih]
      have hfun : (leads.map (fun l => (i, l))).mapM (pairRows o store keep) =
          ((leads.map (fun l => (i, l))).mapM (fun q => pairRows o store keep (a, q.2 + (i - a)))).map (List.map (List.map (shiftObs (i - a)))) := by
        rw [← mapM_map_except, List.mapM_map, List.mapM_map]
        congr 1
        funext l
        exact hpair l
      rw [hfun]
      rw [show (pairRows o store keep ∘ fun q : ℤ × ℤ => (a, q.2 + (i - a))) = fun q : ℤ × ℤ => pairRows o store keep (a, q.2 + (i - a)) from rfl]
      generalize (leads.map (fun l => (i, l))).mapM (fun q => pairRows o store keep (a, q.2 + (i - a))) = ts
      cases ts with
      | error e => rfl
      | ok ts =>
        show ((pdConcat ts).map _ : Except Err _) = pdConcat _
        exact pdConcat_map _ (fun ts => by rw [List.map_flatten]) ts
    · obtain ⟨t, ht, hle⟩ := h i hi
      exact absurd hle (hno t ht)
  have hall : inits.mapM (latencyObsOne (observationSource o store keep) nominal latency leads) =
      inits.mapM (fun i => (leads.map (fun l => (i, l))).mapM (pairRows o store keep) >>= pdConcat) := mapM_ok_congr _ _ _ hone
  unfold latencyObservations
  dsimp only
  rw [hall, observationSource_exact]
  by_cases hl : leads = []
  · subst hl
    cases inits with
    | nil => rfl
    | cons i is =>
      rw [List.mapM_cons]
      have : ((i :: is).flatMap (fun i => ([] : List ℤ).map (fun l => (i, l)))) = [] := by simp
      rw [this]
      rfl
  · cases inits with
    | nil => rfl
    | cons i is =>
      have hp := mapM_pairs (pairRows o store keep) (fun i : ℤ => leads.map (fun l => (i, l))) (fun i hc => hl (List.map_eq_nil_iff.mp hc)) (i :: is)
      generalize hA : List.mapM (pairRows o store keep) ((i :: is).flatMap _) = A at hp ⊢
      generalize hB : List.mapM (fun i => (leads.map (fun l => (i, l))).mapM (pairRows o store keep) >>= pdConcat) (i :: is) = B at hp ⊢
      cases B with
      | error e =>
        cases A with
        | error e' => exact hp.symm
        | ok ts => simp [bind, Except.bind] at hp
      | ok ts' =>
        cases A with
        | error e' => simp [bind, Except.bind] at hp
        | ok ts =>
          have h5 : ts.flatten = ts'.flatten := Except.ok.inj hp
          have h6 : ts' ≠ [] := by
            rintro rfl
            have := mapM_ok_length _ _ _ hB
            simp at this
          have h7 : ts ≠ [] := by
            rintro rfl
            have := mapM_ok_length _ _ _ hA
            simp [hl] at this
          show pdConcat ts' = pdConcat ts
          rw [pdConcat_ne h6, pdConcat_ne h7, h5]

/-- **C46** (observations) The wrapped loader returns something exactly if every init time has an available nominal init time and the loader without latency returns something. Without lead times
it always fails with a `ValueError`. -/
theorem C46_observations_loads (o : ParquetOptions K) (store : ℤ → Option (List (ObsRow K))) (keep : ObsRow K → Bool) (nominal : List ℤ) (latency : ℤ) (inits leads : List ℤ) :
    ((∃ obs, latencyObservations (observationSource o store keep) nominal latency inits (.exact leads) = .ok obs) ↔
      (∀ i ∈ inits, ∃ t ∈ nominal, t + latency ≤ i) ∧ ∃ obs, observationSource o store keep inits (.exact leads) = .ok obs) ∧
    latencyObservations (observationSource o store keep) nominal latency inits .none = .error .valueError := by
  refine ⟨⟨?_, fun h => ?_⟩, rfl⟩
  · rintro ⟨obs, h⟩
    have hall : ∀ i ∈ inits, ∃ t ∈ nominal, t + latency ≤ i := by
      intro i hi
      unfold latencyObservations at h
      obtain ⟨chunks, hc, -⟩ := bind_ok_iff.mp h
      obtain ⟨c, hci⟩ : ∃ c, latencyObsOne (observationSource o store keep) nominal latency leads i = .ok c := by
        obtain ⟨c, -, hci⟩ := mapM_mem _ _ _ hc i hi
        exact ⟨c, hci⟩
      unfold latencyObsOne at hci
      obtain ⟨a, ha, -⟩ := bind_ok_iff.mp hci
      have hla := ((C46_available nominal latency i).1 a).mp ha
      exact ⟨a, hla.1, hla.2.1⟩
    exact ⟨hall, obs, by rw [← C46_observations o store keep nominal latency inits leads hall]; exact h⟩
  · rw [C46_observations o store keep nominal latency inits leads h.1]
    exact h.2

/-- The hypotheses are met: a nominal init time of 60 that is available from 90 on; an init time of 100 and a lead time of 20. -/
example : (∀ i ∈ [(100 : ℤ)], ∃ t ∈ [(60 : ℤ), 120], t + 30 ≤ i) ∧
    ∃ obs, latencyObservations (observationSource exParquet exStore (fun _ => true)) [60, 120] 30 [100] (.exact [20]) = .ok obs := by
  have h : ∀ i ∈ [(100 : ℤ)], ∃ t ∈ [(60 : ℤ), 120], t + 30 ≤ i := by simp
  refine ⟨h, ?_⟩
  rw [C46_observations _ _ _ _ _ _ _ h, observationSource_exact]
  obtain ⟨rows, hr⟩ := exParquet_loads
  refine ⟨_, bind_ok_of (a := [(rows.map (fun r => ({ row := r, initLead := some (100, 20) } : Obs ℚ))).filter (fun _ => true)]) ?_ rfl⟩
  show List.mapM (pairRows exParquet exStore (fun _ => true)) [(100, 20)] = _
  have hp : pairRows exParquet exStore (fun _ => true) (100, 20) = .ok ((rows.map (fun r => ({ row := r, initLead := some (100, 20) } : Obs ℚ))).filter (fun _ => true)) := by
    unfold pairRows
    have h120 : ((100, 20) : ℤ × ℤ).1 + ((100, 20) : ℤ × ℤ).2 = 120 := by norm_num
    rw [h120, hr]
    rfl
  rw [List.mapM_cons, hp]
  rfl

end WBX
