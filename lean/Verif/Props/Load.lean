import Verif.Model.Load
import Mathlib.Data.List.Perm.Basic

/-!
# C19: loading initialises once and passes the targets as reference
-/

namespace WBX.Load
variable {I J O D : Type}

/-- The number of calls of `setup_fn` in a trace. -/
def Event.isSetup : Event I J D → Bool
  | .setupFn => true
  | _ => false

/-- The calls that process a chunk. -/
def inputs : List (Call I J O) → List (O × (I × J))
  | [] => []
  | .setup _ :: cs => inputs cs
  | .process inp :: cs => inp :: inputs cs

/-- No `setup` call of the list raises. -/
def SetupOk (cs : List (Call I J O)) : Prop := ∀ r, Call.setup r ∈ cs → r = false

theorem run_initialized (f : DoFn I J D) : (cs : List (Call I J O)) → (w : Worker I J D) → w.initialized = true →
    (run f cs w).1.trace.countP Event.isSetup = w.trace.countP Event.isSetup
  | [], w, _ => rfl
  | .setup r :: cs, w, h => by
    rw [run]
    have : (setup f r w).1 = w := by simp [setup, h]
    rw [this]
    exact run_initialized f cs w h
  | .process inp :: cs, w, h => by
    obtain ⟨o, i, j⟩ := inp
    have hp : (process f (o, i, j) w).1.initialized = true ∧
        (process f (o, i, j) w).1.trace.countP Event.isSetup = w.trace.countP Event.isSetup := by
      simp only [process]
      split
      · simp [h, Event.isSetup]
      · split <;> simp [h, Event.isSetup]
    have := run_initialized f cs _ hp.1
    rw [hp.2] at this
    rw [run]
    split <;> exact this

theorem run_count (f : DoFn I J D) : (cs : List (Call I J O)) → (w : Worker I J D) → SetupOk cs →
    (run f cs w).1.trace.countP Event.isSetup ≤ w.trace.countP Event.isSetup + 1
  | [], w, _ => by simp [run]
  | .setup r :: cs, w, h => by
    have hr : r = false := h r (by simp)
    subst hr
    rw [run]
    by_cases hc : f.hasSetupFn ∧ ¬ w.initialized
    · have h1 : (setup f false w).1 = { initialized := true, trace := w.trace ++ [.setupFn] } := by simp [setup, hc]
      rw [h1, run_initialized f cs _ rfl]
      simp [Event.isSetup]
    · have h1 : (setup f false w).1 = w := by simp only [setup, if_neg hc]
      rw [h1]
      exact run_count f cs w (fun r hr => h r (by simp [hr]))
  | .process inp :: cs, w, h => by
    obtain ⟨o, i, j⟩ := inp
    have hp : (process f (o, i, j) w).1.trace.countP Event.isSetup = w.trace.countP Event.isSetup := by
      simp only [process]
      split
      · simp [Event.isSetup]
      · split <;> simp [Event.isSetup]
    have := run_count f cs (process f (o, i, j) w).1 (fun r hr => h r (by simp [hr]))
    rw [hp] at this
    rw [run]
    split <;> exact this

section C19

/-- C19: over any sequence of `setup` and `process` calls a worker receives, `setup_fn` runs at most once (unless a call of
`setup_fn` itself raises, in which case it is retried). -/
theorem C19_setup_at_most_once (f : DoFn I J D) (cs : List (Call I J O)) (h : SetupOk cs) :
    (run f cs {}).1.trace.countP Event.isSetup ≤ 1 := by
  simpa using run_count f cs {} h

/-- C19: without a `setup_fn` no initialisation ever happens. -/
theorem C19_no_setup_fn (f : DoFn I J D) (hf : f.hasSetupFn = false) (cs : List (Call I J O)) (w : Worker I J D) :
    (run f cs w).1.trace.countP Event.isSetup = w.trace.countP Event.isSetup := by
  induction cs generalizing w with
  | nil => rfl
  | cons c cs ih =>
    cases c with
    | setup r =>
      have : (setup f r w).1 = w := by simp [setup, hf]
      rw [run, this]
      exact ih w
    | process inp =>
      obtain ⟨o, i, j⟩ := inp
      have hp : (process f (o, i, j) w).1.trace.countP Event.isSetup = w.trace.countP Event.isSetup := by
        simp only [process]
        split
        · simp [Event.isSetup]
        · split <;> simp [Event.isSetup]
      have := ih (process f (o, i, j) w).1
      rw [hp] at this
      rw [run]
      split <;> exact this

/-- The effects of processing one chunk. -/
def chunkEvents (f : DoFn I J D) (i : I) (j : J) : List (Event I J D) :=
  match f.targets i j with
  | .error _ => [.loadTargets i j]
  | .ok t => [.loadTargets i j, .loadPredictions i j t]

/-- The output for one chunk; nothing if a loader raises. -/
def chunkOutput (f : DoFn I J D) (inp : O × (I × J)) : List (O × (D × D)) :=
  match f.targets inp.2.1 inp.2.2 with
  | .error _ => []
  | .ok t => match f.predictions inp.2.1 inp.2.2 t with
    | .error _ => []
    | .ok p => [(inp.1, (p, t))]

theorem process_eq (f : DoFn I J D) (inp : O × (I × J)) (w : Worker I J D) :
    (process f inp w).1 = { w with trace := w.trace ++ chunkEvents f inp.2.1 inp.2.2 } ∧
    (match (process f inp w).2 with | .ok out => out | .error _ => []) = chunkOutput f inp := by
  obtain ⟨o, i, j⟩ := inp
  simp only [process, chunkEvents, chunkOutput]
  rcases h1 : f.targets i j with e | t
  · simp
  · rcases h2 : f.predictions i j t with e | p
    · simp [h2]
    · simp [h2]

/-- C19: if the runner calls `setup` first (the Beam contract) and it does not raise, then the trace is: one run of
`setup_fn` (if there is one), and then for each processed chunk, in order, the loading of its targets followed by the
loading of its predictions with exactly these targets as reference. -/
theorem C19_trace (f : DoFn I J D) (cs : List (Call I J O)) (h : SetupOk cs) :
    (run f (.setup false :: cs) {}).1.trace =
      (if f.hasSetupFn then [.setupFn] else []) ++ (inputs cs).flatMap (fun inp => chunkEvents f inp.2.1 inp.2.2) := by
  have main : ∀ (cs : List (Call I J O)) (w : Worker I J D), SetupOk cs → (f.hasSetupFn = false ∨ w.initialized = true) →
      (run f cs w).1.trace = w.trace ++ (inputs cs).flatMap (fun inp => chunkEvents f inp.2.1 inp.2.2) := by
    intro cs
    induction cs with
    | nil => intro w _ _; simp [run, inputs]
    | cons c cs ih =>
      intro w hok hw
      cases c with
      | setup r =>
        have : (setup f r w).1 = w := by
          rcases hw with hw | hw <;> simp [setup, hw]
        rw [run, this, inputs]
        exact ih w (fun r hr => hok r (by simp [hr])) hw
      | process inp =>
        have hp := (process_eq f inp w).1
        have := ih (process f inp w).1 (fun r hr => hok r (by simp [hr])) (by rw [hp]; exact hw)
        rw [hp] at this
        simp only [List.append_assoc] at this
        rw [inputs, List.flatMap_cons, run]
        rw [hp]
        split <;> exact this
  rw [run]
  by_cases hs : f.hasSetupFn
  · have : (setup f false ({} : Worker I J D)).1 = { initialized := true, trace := [.setupFn] } := by simp [setup, hs]
    rw [this, main cs _ h (Or.inr rfl)]
    simp [hs]
  · have : (setup f false ({} : Worker I J D)).1 = {} := by simp [setup, hs]
    rw [this, main cs _ h (Or.inl (by simpa using hs))]
    simp [hs]

/-- C19: the outputs are, chunk by chunk and independently of the history of the worker, the offsets with the predictions
loaded with the chunk's targets as reference, and these targets. -/
theorem C19_outputs (f : DoFn I J D) (cs : List (Call I J O)) (w : Worker I J D) :
    (run f cs w).2 = (inputs cs).flatMap (chunkOutput f) := by
  induction cs generalizing w with
  | nil => rfl
  | cons c cs ih =>
    cases c with
    | setup r => rw [run, inputs]; exact ih _
    | process inp =>
      have hp := (process_eq f inp w).2
      have := ih (process f inp w).1
      rw [inputs, List.flatMap_cons, run, ← hp]
      rcases ho : (process f inp w).2 with e | out
      · simpa [ho] using this
      · simp [ho, this]

/-- C19: hence distributing the chunks over any number of workers, with any interleaved `setup` calls, gives the outputs
of the whole list up to order. -/
theorem C19_workers_agree (f : DoFn I J D) (workers : List (List (Call I J O))) (chunks : List (O × (I × J)))
    (h : (workers.flatMap inputs).Perm chunks) :
    (workers.flatMap (fun cs => (run f cs {}).2)).Perm (chunks.flatMap (chunkOutput f)) := by
  have : workers.flatMap (fun cs => (run f cs {}).2) = (workers.flatMap inputs).flatMap (chunkOutput f) := by
    rw [List.flatMap_assoc]
    apply List.flatMap_congr
    intro cs _
    exact C19_outputs f cs {}
  rw [this]
  exact h.flatMap_right _

end C19

/-! ### A concrete worker -/

/-- Targets are the sum of the times; predictions depend on the reference; lead time 3 has no targets. -/
def exDoFn : DoFn ℕ ℕ ℕ :=
  { targets := fun i j => if j = 3 then .error .keyError else .ok (i + j), predictions := fun i j t => .ok (i * j + t),
    hasSetupFn := true }

example : SetupOk ([.process (0, (1, 2)), .setup false, .process (1, (1, 3)), .process (2, (5, 2))] : List (Call ℕ ℕ ℕ)) := by
  intro r hr; simpa using hr

example : (run exDoFn [.setup false, .process (0, (1, 2)), .setup false, .process (1, (1, 3)), .process (2, (5, 2))] {}).2
    = [(0, (5, 3)), (2, (17, 7))] := rfl

end WBX.Load
