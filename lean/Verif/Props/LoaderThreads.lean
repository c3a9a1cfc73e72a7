import Verif.Model.LoaderThreads
import Verif.Props.LoadChunk

/-!
# C89: one loader used by several threads
-/

namespace WBX
set_option linter.unusedSectionVars false

section threads
variable {ι D A R : Type} [DecidableEq ι] (p : Preparation D) (load : D → A → Except Err R) (args : ι → A)

theorem run_append (s1 s2 : List ι) (c : LoaderThreads ι D R) :
    LoaderThreads.run p load args (s1 ++ s2) c = LoaderThreads.run p load args s2 (LoaderThreads.run p load args s1 c) := List.foldl_append ..

/-- An invariant of all steps holds along every schedule. -/
theorem run_invariant {P : LoaderThreads ι D R → Prop} (hstep : ∀ c i, P c → P (c.step p load args i)) (schedule : List ι) {c : LoaderThreads ι D R} (h : P c) :
    P (LoaderThreads.run p load args schedule c) := by
  induction schedule generalizing c with
  | nil => exact h
  | cons i l ih => exact ih (hstep c i h)

/-- C89: a loader that has been prepared can be used by any number of threads, under every schedule: its state does not change, and every call returns what
it returns alone. -/
theorem C89_prepared (d : D) (schedule : List ι) (i : ι) {r : Except Err R} :
    (LoaderThreads.run p load args schedule (LoaderThreads.calls { ds := some d, preprocessed := true })).shared = { ds := some d, preprocessed := true } ∧
    ((LoaderThreads.run p load args schedule (LoaderThreads.calls { ds := some d, preprocessed := true })).phase i = .done r → r = load d (args i)) := by
  have key : ∀ c : LoaderThreads ι D R, c = LoaderThreads.run p load args schedule (LoaderThreads.calls { ds := some d, preprocessed := true }) →
      c.shared = { ds := some d, preprocessed := true } ∧ ∀ i, c.phase i = .start ∨ c.phase i = .loading ∨ c.phase i = .done (load d (args i)) := by
    rintro c rfl
    refine run_invariant (P := fun c => c.shared = { ds := some d, preprocessed := true } ∧
      ∀ i, c.phase i = .start ∨ c.phase i = .loading ∨ c.phase i = .done (load d (args i))) p load args ?_ schedule ⟨rfl, fun _ => Or.inl rfl⟩
    rintro c j ⟨hs, hp⟩
    have hstep : (threadStep p load (args j) c.shared (c.phase j)).1 = { ds := some d, preprocessed := true } ∧
        ((threadStep p load (args j) c.shared (c.phase j)).2 = .loading ∨ (threadStep p load (args j) c.shared (c.phase j)).2 = .done (load d (args j))) := by
      rw [hs]
      rcases hp j with h | h | h <;> rw [h]
      · exact ⟨rfl, Or.inl rfl⟩
      · exact ⟨rfl, Or.inr rfl⟩
      · exact ⟨rfl, Or.inr rfl⟩
    refine ⟨hstep.1, fun i => ?_⟩
    show (if i = j then _ else _) = LoadPhase.start ∨ _
    by_cases hij : i = j
    · subst hij
      simp only [LoaderThreads.step, if_true]
      exact Or.inr hstep.2
    · simp only [LoaderThreads.step, if_neg hij]
      exact hp i
  obtain ⟨h1, h2⟩ := key _ rfl
  refine ⟨h1, fun h => ?_⟩
  rcases h2 i with h' | h' | h' <;> rw [h] at h'
  · cases h'
  · cases h'
  · exact (LoadPhase.done.inj h')

/-! ### A thread alone does what `load_chunk` does -/

/-- A configuration with the phase of one thread shown. -/
def oneThread (i : ι) (ph : ι → LoadPhase D R) (q : XarrayState D × LoadPhase D R) : LoaderThreads ι D R :=
  { shared := q.1, phase := fun j => if j = i then q.2 else ph j }

theorem step_oneThread (i : ι) (ph : ι → LoadPhase D R) (q : XarrayState D × LoadPhase D R) :
    (oneThread i ph q).step p load args i = oneThread i ph (threadStep p load (args i) q.1 q.2) := by
  unfold LoaderThreads.step oneThread
  simp only [if_true, LoaderThreads.mk.injEq, true_and]
  funext j
  by_cases h : j = i <;> simp [h]

theorem run_done (i : ι) (ph : ι → LoadPhase D R) (s : XarrayState D) (r : Except Err R) (n : ℕ) :
    LoaderThreads.run p load args (List.replicate n i) (oneThread i ph (s, .done r)) = oneThread i ph (s, .done r) := by
  induction n with
  | zero => rfl
  | succ n ih =>
    rw [List.replicate_succ]
    show LoaderThreads.run p load args (List.replicate n i) (LoaderThreads.step p load args _ i) = _
    rw [step_oneThread]
    exact ih

theorem run_reading (i : ι) (ph : ι → LoadPhase D R) (d : D) (pre : Bool) (fs : List (D → Except Err D)) :
    LoaderThreads.run p load args (List.replicate (2 * fs.length + 2) i) (oneThread i ph ({ ds := some d, preprocessed := pre }, .reading fs)) =
      match runSteps fs d with
      | (d', .ok ()) => oneThread i ph ({ ds := some d', preprocessed := true }, .done (load d' (args i)))
      | (d', .error e) => oneThread i ph ({ ds := some d', preprocessed := pre }, .done (.error e)) := by
  induction fs generalizing d with
  | nil =>
    show LoaderThreads.step p load args (LoaderThreads.step p load args _ i) i = _
    rw [step_oneThread, step_oneThread]; rfl
  | cons f fs ih =>
    rw [show 2 * (f :: fs).length + 2 = (2 * fs.length + 2) + 1 + 1 by simp only [List.length_cons]; omega, List.replicate_succ, List.replicate_succ]
    show LoaderThreads.run p load args (List.replicate (2 * fs.length + 2) i) (LoaderThreads.step p load args (LoaderThreads.step p load args _ i) i) = _
    rw [step_oneThread, step_oneThread]
    cases hf : f d with
    | ok d' =>
      simp only [threadStep, runSteps, hf]
      exact ih d'
    | error e =>
      simp only [threadStep, runSteps, hf]
      exact run_done p load args i ph _ _ _

/-- C89: a call of `load_chunk` that is not interrupted by other threads does what the sequential model of C49 says: the small steps are those of the code there. -/
theorem C89_alone (i : ι) (ph : ι → LoadPhase D R) (s : XarrayState D) :
    LoaderThreads.run p load args (List.replicate (2 * p.steps.length + 5) i) (oneThread i ph (s, .start)) =
      oneThread i ph ((xarrayLoadChunk p load (args i) s).1, .done (xarrayLoadChunk p load (args i) s).2) := by
  have hsplit : ∀ n c, LoaderThreads.run p load args (List.replicate (n + 1) i) c = LoaderThreads.run p load args (List.replicate n i) (LoaderThreads.step p load args c i) := by
    intro n c; rw [List.replicate_succ]; rfl
  have hdone : ∀ k m s r, LoaderThreads.run p load args (List.replicate (k + m) i) (oneThread i ph (s, .done r)) = oneThread i ph (s, .done r) :=
    fun k m s r => run_done p load args i ph s r (k + m)
  have hsteps : ∀ d k, LoaderThreads.run p load args (List.replicate (2 * p.steps.length + 2 + k) i) (oneThread i ph ({ ds := some d, preprocessed := false }, .reading p.steps)) =
      match runSteps p.steps d with
      | (d', .ok ()) => oneThread i ph ({ ds := some d', preprocessed := true }, .done (load d' (args i)))
      | (d', .error e) => oneThread i ph ({ ds := some d', preprocessed := false }, .done (.error e)) := by
    intro d k
    rw [List.replicate_add, run_append, run_reading]
    rcases runSteps p.steps d with ⟨d', _ | ⟨⟨⟩⟩⟩
    · exact run_done p load args i ph _ _ k
    · exact run_done p load args i ph _ _ k
  rw [show 2 * p.steps.length + 5 = 2 * p.steps.length + 4 + 1 by omega, hsplit, step_oneThread]
  obtain ⟨ds, pre⟩ := s
  cases pre with
  | true =>
    rw [show 2 * p.steps.length + 4 = 2 * p.steps.length + 3 + 1 by omega, hsplit]
    simp only [threadStep, if_true]
    rw [step_oneThread]
    cases ds with
    | none => simp only [threadStep, xarrayLoadChunk, maybePrepare, if_true]; exact run_done p load args i ph _ _ _
    | some d => simp only [threadStep, xarrayLoadChunk, maybePrepare, if_true]; exact run_done p load args i ph _ _ _
  | false =>
    have hb : ¬ (false = true) := by decide
    simp only [threadStep, if_neg hb]
    rw [show 2 * p.steps.length + 4 = 2 * p.steps.length + 3 + 1 by omega, hsplit, step_oneThread]
    cases ds with
    | some d =>
      simp only [threadStep]
      rw [show 2 * p.steps.length + 3 = 2 * p.steps.length + 2 + 1 by omega, hsteps]
      simp only [xarrayLoadChunk, maybePrepare, startDataset, if_neg hb]
      rcases runSteps p.steps d with ⟨d', _ | ⟨⟨⟩⟩⟩ <;> rfl
    | none =>
      simp only [threadStep]
      rw [hsplit (2 * p.steps.length + 2), step_oneThread]
      simp only [threadStep, xarrayLoadChunk, maybePrepare, startDataset, if_neg hb]
      cases ho : p.opened with
      | error e =>
        exact run_done p load args i ph _ _ _
      | ok d =>
        rw [show 2 * p.steps.length + 2 = 2 * p.steps.length + 2 + 0 by omega]
        refine (hsteps d 0).trans ?_
        dsimp only
        rcases runSteps p.steps d with ⟨d', _ | ⟨⟨⟩⟩⟩ <;> rfl

/-- C89: so it is enough that one call has returned before the threads start: then every schedule of any number of threads gives each of them the chunk of
the prepared dataset. -/
theorem C89_after_first_call {s : XarrayState D} (hs : s.preprocessed = false) {d : D} (h : prepared p s = .ok d) (a : A) (schedule : List ι) (i : ι) {r : Except Err R}
    (hr : (LoaderThreads.run p load args schedule (LoaderThreads.calls (xarrayLoadChunk p load a s).1)).phase i = .done r) :
    r = load d (args i) ∧ r = (xarrayLoadChunk p load (args i) s).2 := by
  rw [xarrayLoadChunk_prepared p load hs h] at hr ⊢
  have := (C89_prepared p load args d schedule i (r := r)).2 hr
  exact ⟨this, this⟩

/-! ### No thread waits for another -/

/-- Steps a thread still has to take. -/
def LoadPhase.remaining (n : ℕ) : LoadPhase D R → ℕ
  | .start => 2 * n + 5
  | .check => 2 * n + 4
  | .opening => 2 * n + 3
  | .reading rest => 2 * rest.length + 2
  | .writing _ rest => 2 * rest.length + 3
  | .loading => 1
  | .done _ => 0

theorem remaining_step (a : A) (s : XarrayState D) (ph : LoadPhase D R) :
    (threadStep p load a s ph).2.remaining p.steps.length ≤ ph.remaining p.steps.length - 1 := by
  cases ph with
  | start => simp only [threadStep]; split_ifs <;> simp [LoadPhase.remaining]
  | check => simp only [threadStep]; split <;> simp [LoadPhase.remaining]
  | opening => simp only [threadStep]; split <;> simp [LoadPhase.remaining]
  | reading rest =>
    cases rest with
    | nil => simp [threadStep, LoadPhase.remaining]
    | cons f fs =>
      simp only [threadStep]
      split
      · simp [LoadPhase.remaining]
      · split <;> simp [LoadPhase.remaining] <;> omega
  | writing d rest => simp [threadStep, LoadPhase.remaining]
  | loading => simp only [threadStep]; split <;> simp [LoadPhase.remaining]
  | done r => simp [threadStep, LoadPhase.remaining]

/-- C89: no call can be blocked: under every schedule, a thread that has been given `2 n + 5` steps of its own (`n` steps of preparation) has returned or raised. -/
theorem C89_no_waiting (schedule : List ι) (s : XarrayState D) (i : ι) (h : 2 * p.steps.length + 5 ≤ schedule.count i) :
    ∃ r, (LoaderThreads.run p load args schedule (LoaderThreads.calls s)).phase i = .done r := by
  have key : ∀ (schedule : List ι) (c : LoaderThreads ι D R), ((LoaderThreads.run p load args schedule c).phase i).remaining p.steps.length ≤
      (c.phase i).remaining p.steps.length - schedule.count i := by
    intro schedule
    induction schedule with
    | nil => intro c; simp [LoaderThreads.run]
    | cons j l ih =>
      intro c
      have h1 := ih (c.step p load args j)
      refine le_trans h1 ?_
      by_cases hij : i = j
      · subst hij
        have h2 := remaining_step p load (args i) c.shared (c.phase i)
        simp only [LoaderThreads.step, if_true, List.count_cons_self]
        omega
      · simp only [LoaderThreads.step, if_neg hij]
        rw [List.count_cons_of_ne (Ne.symm hij)]
  have h1 := key schedule (LoaderThreads.calls s)
  have h2 : ((LoaderThreads.calls s : LoaderThreads ι D R).phase i).remaining p.steps.length = 2 * p.steps.length + 5 := rfl
  rw [h2] at h1
  cases hph : (LoaderThreads.run p load args schedule (LoaderThreads.calls s)).phase i with
  | done r => exact ⟨r, rfl⟩
  | _ => rw [hph] at h1; simp only [LoadPhase.remaining] at h1; omega

/-! ### Threads that start on a loader that has not been prepared -/

/-- C89: if the dataset was given to the constructor and the preparation is a single step that may be repeated (renaming with nothing left to rename), threads may
start right away: every schedule gives each of them the chunk of the prepared dataset. -/
theorem C89_single_step {f : D → Except Err D} (hsteps : p.steps = [f]) {d0 d : D} (h0 : f d0 = .ok d) (h1 : f d = .ok d) (schedule : List ι) (i : ι) {r : Except Err R}
    (hr : (LoaderThreads.run p load args schedule (LoaderThreads.calls { ds := some d0 })).phase i = .done r) : r = load d (args i) := by
  have key := run_invariant (P := fun c : LoaderThreads ι D R =>
      (c.shared.ds = some d ∨ (c.shared.ds = some d0 ∧ c.shared.preprocessed = false ∧ ∀ j, c.phase j = .start ∨ c.phase j = .check ∨ c.phase j = .reading [f] ∨ c.phase j = .writing d [])) ∧
      (∀ j, c.phase j = .start ∨ c.phase j = .check ∨ c.phase j = .reading [f] ∨ c.phase j = .writing d [] ∨
        c.phase j = .reading [] ∨ c.phase j = .loading ∨ c.phase j = .done (load d (args j)))) p load args ?_ schedule
      (c := LoaderThreads.calls { ds := some d0 }) ⟨Or.inr ⟨rfl, rfl, fun _ => Or.inl rfl⟩, fun _ => Or.inl rfl⟩
  · rcases key.2 i with h | h | h | h | h | h | h <;> rw [hr] at h
    · cases h
    · cases h
    · cases h
    · cases h
    · cases h
    · cases h
    · exact LoadPhase.done.inj h
  · rintro c j ⟨hd, hp⟩
    have hds : ∃ d', c.shared.ds = some d' ∧ f d' = .ok d := by
      rcases hd with h | ⟨h, -, -⟩
      · exact ⟨d, h, h1⟩
      · exact ⟨d0, h, h0⟩
    obtain ⟨d', hd', hf⟩ := hds
    obtain ⟨⟨ds, pre⟩, ph⟩ := c
    dsimp only at hd hp hd'
    subst hd'
    rcases hd with h | ⟨h, hpre, hearly⟩
    · -- the dataset is prepared
      cases h
      have hstep : ((threadStep p load (args j) { ds := some d, preprocessed := pre } (ph j)).1.ds = some d) ∧
          ((threadStep p load (args j) { ds := some d, preprocessed := pre } (ph j)).2 = .start ∨ (threadStep p load (args j) { ds := some d, preprocessed := pre } (ph j)).2 = .check ∨
            (threadStep p load (args j) { ds := some d, preprocessed := pre } (ph j)).2 = .reading [f] ∨ (threadStep p load (args j) { ds := some d, preprocessed := pre } (ph j)).2 = .writing d [] ∨
            (threadStep p load (args j) { ds := some d, preprocessed := pre } (ph j)).2 = .reading [] ∨ (threadStep p load (args j) { ds := some d, preprocessed := pre } (ph j)).2 = .loading ∨
            (threadStep p load (args j) { ds := some d, preprocessed := pre } (ph j)).2 = .done (load d (args j))) := by
        rcases hp j with h | h | h | h | h | h | h <;> rw [h]
        · cases pre <;> simp [threadStep]
        · simp [threadStep, hsteps]
        · simp [threadStep, hf]
        · simp [threadStep]
        · simp [threadStep]
        · simp [threadStep]
        · simp [threadStep]
      refine ⟨Or.inl hstep.1, fun k => ?_⟩
      by_cases hk : k = j
      · subst hk
        simp only [LoaderThreads.step, if_true]
        exact hstep.2
      · simp only [LoaderThreads.step, if_neg hk]
        exact hp k
    · cases h
      subst hpre
      rcases hearly j with h | h | h | h
      · refine ⟨Or.inr ⟨by simp [LoaderThreads.step, h, threadStep], by simp [LoaderThreads.step, h, threadStep], fun k => ?_⟩, fun k => ?_⟩
        · by_cases hk : k = j
          · subst hk; simp [LoaderThreads.step, h, threadStep]
          · simp only [LoaderThreads.step, if_neg hk]; exact hearly k
        · by_cases hk : k = j
          · subst hk; simp [LoaderThreads.step, h, threadStep]
          · simp only [LoaderThreads.step, if_neg hk]; exact hp k
      · refine ⟨Or.inr ⟨by simp [LoaderThreads.step, h, threadStep], by simp [LoaderThreads.step, h, threadStep], fun k => ?_⟩, fun k => ?_⟩
        · by_cases hk : k = j
          · subst hk; simp [LoaderThreads.step, h, threadStep, hsteps]
          · simp only [LoaderThreads.step, if_neg hk]; exact hearly k
        · by_cases hk : k = j
          · subst hk; simp [LoaderThreads.step, h, threadStep, hsteps]
          · simp only [LoaderThreads.step, if_neg hk]; exact hp k
      · refine ⟨Or.inr ⟨by simp [LoaderThreads.step, h, threadStep, hf], by simp [LoaderThreads.step, h, threadStep, hf], fun k => ?_⟩, fun k => ?_⟩
        · by_cases hk : k = j
          · subst hk; simp [LoaderThreads.step, h, threadStep, hf]
          · simp only [LoaderThreads.step, if_neg hk]; exact hearly k
        · by_cases hk : k = j
          · subst hk; simp [LoaderThreads.step, h, threadStep, hf]
          · simp only [LoaderThreads.step, if_neg hk]; exact hp k
      · refine ⟨Or.inl (by simp [LoaderThreads.step, h, threadStep]), fun k => ?_⟩
        by_cases hk : k = j
        · subst hk; simp [LoaderThreads.step, h, threadStep]
        · simp only [LoaderThreads.step, if_neg hk]; exact hp k

/-! ### Findings: threads that start on a loader that has not been prepared -/

theorem calls_oneThread (i : ι) (s : XarrayState D) : (LoaderThreads.calls s : LoaderThreads ι D R) = oneThread i (fun _ => .start) (s, .start) := by
  unfold LoaderThreads.calls oneThread
  congr 1
  funext j
  by_cases h : j = i <;> simp [h]

theorem oneThread_swap {i j : ι} (hij : i ≠ j) (ph : ι → LoadPhase D R) (s : XarrayState D) (a b : LoadPhase D R) :
    oneThread i (fun k => if k = j then b else ph k) (s, a) = oneThread j (fun k => if k = i then a else ph k) (s, b) := by
  unfold oneThread
  congr 1
  funext k
  by_cases h1 : k = i
  · subst h1; simp [hij]
  · by_cases h2 : k = j
    · subst h2; simp [Ne.symm hij]
    · simp [h1, h2]

theorem oneThread_start (i j : ι) (s : XarrayState D) (q : LoadPhase D R) :
    oneThread i (fun _ => .start) (s, q) = oneThread i (fun k => if k = j then .start else .start) (s, q) := by
  congr 1
  funext k
  by_cases h : k = j <;> simp [h]

/-- C89, finding: a loader with a given dataset that two threads use for the first time at the same moment may prepare it twice: for every preparation that
can be applied to its own result, there is a schedule in which one thread returns the chunk of the twice prepared dataset without an error, and the loader keeps that dataset
for all later calls. -/
theorem C89_applied_twice {i j : ι} (hij : i ≠ j) {d0 d1 d2 : D} (h1 : runSteps p.steps d0 = (d1, .ok ())) (h2 : runSteps p.steps d1 = (d2, .ok ())) :
    ∃ schedule : List ι,
      (LoaderThreads.run p load args schedule (LoaderThreads.calls { ds := some d0 })).phase j = .done (load d1 (args j)) ∧
      (LoaderThreads.run p load args schedule (LoaderThreads.calls { ds := some d0 })).phase i = .done (load d2 (args i)) ∧
      (LoaderThreads.run p load args schedule (LoaderThreads.calls { ds := some d0 })).shared = { ds := some d2, preprocessed := true } := by
  refine ⟨[i, i] ++ (List.replicate (2 * p.steps.length + 5) j ++ List.replicate (2 * p.steps.length + 2) i), ?_⟩
  have key : LoaderThreads.run p load args ([i, i] ++ (List.replicate (2 * p.steps.length + 5) j ++ List.replicate (2 * p.steps.length + 2) i))
      (LoaderThreads.calls { ds := some d0 }) =
      oneThread i (fun k => if k = j then .done (load d1 (args j)) else .start) ({ ds := some d2, preprocessed := true }, .done (load d2 (args i))) := by
    rw [run_append, run_append, calls_oneThread i]
    rw [show LoaderThreads.run p load args [i, i] (oneThread i (fun _ => .start) ({ ds := some d0 }, .start)) =
        oneThread j (fun k => if k = i then .reading p.steps else .start) (({ ds := some d0 } : XarrayState D), .start) by
      show LoaderThreads.step p load args (LoaderThreads.step p load args _ i) i = _
      rw [step_oneThread, step_oneThread, ← oneThread_swap hij, ← oneThread_start]
      rfl]
    rw [C89_alone, ← oneThread_swap hij]
    have hx : xarrayLoadChunk p load (args j) ({ ds := some d0 } : XarrayState D) = ({ ds := some d1, preprocessed := true }, load d1 (args j)) := by
      simp [xarrayLoadChunk, maybePrepare, startDataset, h1]
    rw [hx, run_reading, h2]
  rw [key]
  refine ⟨?_, ?_, rfl⟩
  · simp [oneThread, Ne.symm hij]
  · simp [oneThread]

/-- C89, finding: a loader that opens a file may show its raw content: for every preparation there is a schedule of three threads in which one thread returns the chunk of
the dataset as it is in the file, without any preparation, although the loader says that it is prepared. -/
theorem C89_raw {i j k : ι} (hij : i ≠ j) (hik : i ≠ k) (hjk : j ≠ k) {d0 d1 : D} (h0 : p.opened = .ok d0) (h1 : runSteps p.steps d0 = (d1, .ok ())) :
    ∃ schedule : List ι,
      (LoaderThreads.run p load args schedule (LoaderThreads.calls { ds := none })).phase j = .done (load d1 (args j)) ∧
      (LoaderThreads.run p load args schedule (LoaderThreads.calls { ds := none })).phase k = .done (load d0 (args k)) ∧
      (LoaderThreads.run p load args schedule (LoaderThreads.calls { ds := none })).shared = { ds := some d0, preprocessed := true } := by
  refine ⟨[i, i] ++ (List.replicate (2 * p.steps.length + 5) j ++ [k, i, k]), ?_⟩
  have key : LoaderThreads.run p load args ([i, i] ++ (List.replicate (2 * p.steps.length + 5) j ++ [k, i, k])) (LoaderThreads.calls { ds := none }) =
      LoaderThreads.run p load args [k, i, k]
        (oneThread i (fun l => if l = j then .done (load d1 (args j)) else .start) ({ ds := some d1, preprocessed := true }, .opening)) := by
    rw [run_append, run_append, calls_oneThread i]
    rw [show LoaderThreads.run p load args [i, i] (oneThread i (fun _ => .start) ({ ds := none }, .start)) =
        oneThread j (fun k => if k = i then .opening else .start) (({ ds := none } : XarrayState D), .start) by
      show LoaderThreads.step p load args (LoaderThreads.step p load args _ i) i = _
      rw [step_oneThread, step_oneThread, ← oneThread_swap hij, ← oneThread_start]
      rfl]
    rw [C89_alone, ← oneThread_swap hij]
    have hx : xarrayLoadChunk p load (args j) ({ ds := none } : XarrayState D) = ({ ds := some d1, preprocessed := true }, load d1 (args j)) := by
      simp [xarrayLoadChunk, maybePrepare, startDataset, h0, h1]
    rw [hx]
  rw [key]
  refine ⟨?_, ?_, ?_⟩
  · simp [LoaderThreads.run, LoaderThreads.step, oneThread, threadStep, Ne.symm hij, hjk, Ne.symm hik, Ne.symm hjk, h0, hik]
  · simp [LoaderThreads.run, LoaderThreads.step, oneThread, threadStep, Ne.symm hij, hjk, Ne.symm hik, Ne.symm hjk, h0, hik]
  · simp [LoaderThreads.run, LoaderThreads.step, oneThread, threadStep, Ne.symm hij, hjk, Ne.symm hik, Ne.symm hjk, h0, hik]

end threads

/-! ### Even repeatable steps can be lost -/

/-- A preparation of three steps, each of which may be repeated and which may come in any order: step `n` adds the mark `n` to the dataset. -/
def exMarks : Preparation (Finset ℕ) := { opened := .ok ∅, steps := [fun d => .ok (insert 1 d), fun d => .ok (insert 2 d), fun d => .ok (insert 3 d)] }

/-- C89, finding: that all steps may be repeated and exchanged does not help: a thread that has fallen behind overwrites the work of another one. Here all three calls return
without an error, the loader says that it is prepared, and the second step is missing for good. -/
theorem C89_lost_step :
    ∃ schedule : List ℕ, ∃ c : LoaderThreads ℕ (Finset ℕ) (Finset ℕ),
      LoaderThreads.run exMarks (fun d (_ : Unit) => .ok d) (fun _ => ()) schedule (LoaderThreads.calls { ds := some ∅ }) = c ∧
      c.shared = { ds := some {1, 3}, preprocessed := true } ∧ c.phase 1 = .done (.ok {1, 3}) ∧ (∀ d, runSteps exMarks.steps d = (d ∪ {1, 2, 3}, .ok ())) ∧
      (xarrayLoadChunk exMarks (fun d (_ : Unit) => .ok d) () c.shared).2 = .ok ({1, 3} : Finset ℕ) := by
  have h31 : ({1, 3} : Finset ℕ) = insert 3 (insert 1 ∅) := by decide
  rw [h31]
  have hrun : ∃ c : LoaderThreads ℕ (Finset ℕ) (Finset ℕ), LoaderThreads.run exMarks (fun d (_ : Unit) => .ok d) (fun _ => ())
      [0, 0, 0, 1, 1, 1, 1, 1, 1, 0, 1, 0, 0, 0, 0, 0, 0, 1, 1, 1] (LoaderThreads.calls { ds := some ∅ }) = c ∧
      c.shared = { ds := some (insert 3 (insert 1 ∅)), preprocessed := true } ∧ c.phase 1 = .done (.ok (insert 3 (insert 1 ∅))) := ⟨_, rfl, rfl, rfl⟩
  obtain ⟨c, h1, h2, h3⟩ := hrun
  refine ⟨_, c, h1, h2, h3, fun d => ?_, by rw [h2]; rfl⟩
  simp only [exMarks, runSteps, Prod.mk.injEq, and_true]
  ext n
  simp only [Finset.mem_insert, Finset.mem_union, Finset.mem_singleton]
  tauto

/-- The hypotheses of C89 are met: a step that subtracts 273 is applied twice. -/
example : ∃ schedule : List Bool,
    (LoaderThreads.run (R := ℤ) { opened := .ok (300 : ℤ), steps := [fun d => .ok (d - 273)] } (fun d (_ : Unit) => .ok d) (fun _ => ()) schedule
      (LoaderThreads.calls { ds := some 300 })).phase true = .done (.ok (-246)) := by
  obtain ⟨s, -, h, -⟩ := C89_applied_twice (R := ℤ) { opened := .ok (300 : ℤ), steps := [fun d => .ok (d - 273)] } (fun d (_ : Unit) => .ok d) (fun _ => ())
    (i := true) (j := false) (by decide) (d0 := 300) (d1 := 27) (d2 := -246) rfl rfl
  exact ⟨s, h⟩

/-- The raw content of the file (in kelvin) is returned although the loader has converted it to degrees. -/
example : ∃ schedule : List ℕ,
    (LoaderThreads.run (R := ℤ) { opened := .ok (300 : ℤ), steps := [fun d => .ok (d - 273)] } (fun d (_ : Unit) => .ok d) (fun _ => ()) schedule
      (LoaderThreads.calls { ds := none })).phase 2 = .done (.ok 300) := by
  obtain ⟨s, -, h, -⟩ := C89_raw (R := ℤ) { opened := .ok (300 : ℤ), steps := [fun d => .ok (d - 273)] } (fun d (_ : Unit) => .ok d) (fun _ => ())
    (i := 0) (j := 1) (k := 2) (by decide) (by decide) (by decide) (d0 := 300) (d1 := 27) rfl rfl
  exact ⟨s, h⟩

/-- One call first, then threads: each returns the chunk of the prepared dataset. -/
example (schedule : List ℕ) (i : ℕ) {r : Except Err ℤ}
    (hr : (LoaderThreads.run { opened := .ok (300 : ℤ), steps := [fun d => .ok (d - 273)] } (fun d (a : ℤ) => .ok (d + a)) (fun n : ℕ => (n : ℤ)) schedule
      (LoaderThreads.calls (xarrayLoadChunk (R := ℤ) { opened := .ok (300 : ℤ), steps := [fun d => .ok (d - 273)] } (fun d (a : ℤ) => .ok (d + a)) 5 { ds := none }).1)).phase i = .done r) :
    r = .ok (27 + (i : ℤ)) :=
  (C89_after_first_call (R := ℤ) { opened := .ok (300 : ℤ), steps := [fun d => .ok (d - 273)] } (fun d (a : ℤ) => .ok (d + a)) (fun n : ℕ => (n : ℤ)) (s := { ds := none }) rfl (d := 27) rfl 5 schedule i hr).1

/-- Taking the absolute value may be repeated. -/
example (schedule : List ℕ) (i : ℕ) {r : Except Err ℤ}
    (hr : (LoaderThreads.run { opened := .error .fileNotFound, steps := [fun d : ℤ => .ok |d|] } (fun d (_ : Unit) => .ok d) (fun _ : ℕ => ()) schedule
      (LoaderThreads.calls { ds := some (-5) })).phase i = .done r) : r = .ok 5 :=
  C89_single_step (R := ℤ) { opened := .error .fileNotFound, steps := [fun d : ℤ => .ok |d|] } (fun d (_ : Unit) => .ok d) (fun _ : ℕ => ()) rfl rfl rfl schedule i hr

end WBX
