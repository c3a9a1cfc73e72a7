import Verif.Props.Loaders

/-!
# C49: loading a chunk does not depend on what was loaded before; the order of the steps
-/

set_option linter.unusedSectionVars false

namespace WBX
open DA

/-! ### Histories -/

section
variable {D A R : Type} (p : Preparation D) (load : D → A → Except Err R)

/-- The preparation as a function: all steps, in order. -/
def prepared (s : XarrayState D) : Except Err D := do
  let ds ← startDataset p s
  p.steps.foldlM (fun ds f => f ds) ds

theorem runSteps_ok {steps : List (D → Except Err D)} : ∀ {ds r : D}, steps.foldlM (fun ds f => f ds) ds = .ok r → runSteps steps ds = (r, .ok ()) := by
  induction steps with
  | nil => intro ds r h; simp only [List.foldlM_nil, pure, Except.pure, Except.ok.injEq] at h; simp [runSteps, h]
  | cons f fs ih =>
    intro ds r h
    rw [List.foldlM_cons] at h
    obtain ⟨ds', h1, h2⟩ := bind_ok_iff.mp h
    simp only [runSteps, h1]
    exact ih h2

theorem runSteps_error {steps : List (D → Except Err D)} {err : Err} : ∀ {ds : D}, steps.foldlM (fun ds f => f ds) ds = .error err → (runSteps steps ds).2 = .error err := by
  induction steps with
  | nil => intro ds h; simp [pure, Except.pure] at h
  | cons f fs ih =>
    intro ds h
    rw [List.foldlM_cons] at h
    cases h1 : f ds with
    | ok ds' =>
      rw [h1] at h
      simp only [runSteps, h1]
      exact ih h
    | error err' =>
      rw [h1] at h
      simp only [bind, Except.bind, Except.error.injEq] at h
      simp [runSteps, h1, h]

theorem xarrayLoadChunk_prepared {s : XarrayState D} (hs : s.preprocessed = false) {ds : D} (h : prepared p s = .ok ds) (a : A) :
    xarrayLoadChunk p load a s = ({ ds := some ds, preprocessed := true }, load ds a) := by
  obtain ⟨d0, h0, h1⟩ := bind_ok_iff.mp h
  have hm : maybePrepare p s = ({ ds := some ds, preprocessed := true }, .ok ()) := by
    unfold maybePrepare
    rw [if_neg (by simp [hs])]
    rw [h0]
    simp only [runSteps_ok h1]
  simp only [xarrayLoadChunk, hm]

theorem xarrayLoadChunk_again (ds : D) (a : A) :
    xarrayLoadChunk p load a { ds := some ds, preprocessed := true } = ({ ds := some ds, preprocessed := true }, load ds a) := by
  simp [xarrayLoadChunk, maybePrepare]

/-- **C49** History independence: for a fresh loader (nothing loaded yet) whose preparation succeeds, the results of any sequence of calls are, one by one, those that each call would
give on a fresh loader, and each is computed from the dataset after one application of every preparation step. Failed loads in between change nothing. -/
theorem C49_history {s : XarrayState D} (hs : s.preprocessed = false) {ds : D} (h : prepared p s = .ok ds) (calls : List A) :
    (xarrayCalls p load calls s).2 = calls.map (fun a => (xarrayLoadChunk p load a s).2) ∧ (xarrayCalls p load calls s).2 = calls.map (load ds) := by
  have hagain : ∀ calls : List A, (xarrayCalls p load calls { ds := some ds, preprocessed := true }).2 = calls.map (load ds) := by
    intro calls
    induction calls with
    | nil => rfl
    | cons a as ih =>
      simp only [xarrayCalls, xarrayLoadChunk_again, List.map_cons, ih]
  have hmain : (xarrayCalls p load calls s).2 = calls.map (load ds) := by
    cases calls with
    | nil => rfl
    | cons a as => simp only [xarrayCalls, xarrayLoadChunk_prepared p load hs h, List.map_cons, hagain]
  refine ⟨?_, hmain⟩
  rw [hmain]
  refine List.map_congr_left (fun a _ => ?_)
  rw [xarrayLoadChunk_prepared p load hs h]

/-- **C49** In particular the order of the calls does not matter: after a permutation of the calls the same arguments give the same results. -/
theorem C49_order_of_calls {s : XarrayState D} (hs : s.preprocessed = false) {ds : D} (h : prepared p s = .ok ds) {calls calls' : List A} (hperm : calls.Perm calls') :
    (calls.zip (xarrayCalls p load calls s).2).Perm (calls'.zip (xarrayCalls p load calls' s).2) := by
  rw [(C49_history p load hs h calls).2, (C49_history p load hs h calls').2]
  have : ∀ l : List A, l.zip (l.map (load ds)) = l.map (fun a => (a, load ds a)) := by
    intro l
    induction l with
    | nil => rfl
    | cons a as ih => simp [ih]
  rw [this, this]
  exact hperm.map _

/-- **C49** If the preparation fails, so does the call, with its error. -/
theorem C49_preparation_error {s : XarrayState D} (hs : s.preprocessed = false) {err : Err} (h : prepared p s = .error err) (a : A) :
    (xarrayLoadChunk p load a s).2 = .error err := by
  have hm : (maybePrepare p s).2 = .error err := by
    unfold maybePrepare
    rw [if_neg (by simp [hs])]
    cases h0 : startDataset p s with
    | error e0 =>
      have he : e0 = err := by
        unfold prepared at h
        rw [h0] at h
        simpa [bind, Except.bind] using h
      rw [he]
    | ok d0 =>
      have h1 : p.steps.foldlM (fun ds f => f ds) d0 = .error err := by
        unfold prepared at h
        rw [h0] at h
        exact h
      have h2 := runSteps_error h1
      simp only
      cases hr : runSteps p.steps d0 with
      | mk d1 r1 =>
        rw [hr] at h2
        simp only at h2
        subst h2
        rfl
  unfold xarrayLoadChunk
  cases hmm : maybePrepare p s with
  | mk s' r' =>
    rw [hmm] at hm
    simp only at hm
    subst hm
    rfl

/-- **C49** If opening or the first step fails, the loader is left as it was: it can be used again. -/
theorem C49_first_step_fails {s : XarrayState D} (hs : s.preprocessed = false) {ds : D} (h0 : s.ds = some ds) {f : D → Except Err D} {fs : List (D → Except Err D)}
    (hsteps : p.steps = f :: fs) {err : Err} (hf : f ds = .error err) (calls : List A) :
    (xarrayCalls p load calls s).1 = s ∧ (xarrayCalls p load calls s).2 = calls.map (fun _ => .error err) := by
  have hone : ∀ a, xarrayLoadChunk p load a s = (s, .error err) := by
    intro a
    unfold xarrayLoadChunk maybePrepare
    rw [if_neg (by simp [hs])]
    simp only [startDataset, h0, hsteps, runSteps, hf]
    cases s
    simp_all
  induction calls with
  | nil => exact ⟨rfl, rfl⟩
  | cons a as ih =>
    simp only [xarrayCalls, hone, List.map_cons]
    exact ⟨ih.1, by rw [ih.2]⟩

end

/-- A loader whose preprocessing adds one and whose choice of variables fails for datasets below two. -/
def exPreparation : Preparation ℤ where
  opened := .ok 0
  steps := [fun ds => .ok (ds + 1), fun ds => if ds < 2 then .error .keyError else .ok ds]

/-- **C49** (finding) A failed preparation leaves the steps it has completed behind: the next call applies the preprocessing again. Here the first call fails, as it should; the second one, with the
same arguments, succeeds on a dataset that has been preprocessed twice. -/
theorem C49_retry_after_failure :
    (xarrayCalls exPreparation (fun ds (_ : Unit) => (.ok ds : Except Err ℤ)) [(), ()] { ds := none }).2 = [.error .keyError, .ok 2] := by
  simp [xarrayCalls, xarrayLoadChunk, maybePrepare, exPreparation, runSteps, startDataset]

/-! ### The steps of `load_chunk` -/

section
variable {L K R : Type} [DecidableEq L]

/-- **C49** The order: the chunk from the source is processed, then interpolated; then the mask is added, that is false exactly where the final value is NaN; then the values are copied
into a coordinate. The values returned are those after the interpolation. -/
theorem C49_order {o : LoaderOptions L K R} {chunk r : Vars (LoadedVar L K)} {ref : Option R} (h : finishChunk o chunk ref = .ok r) :
    ∃ c1 c2, (match o.processChunkFn with | some f => f chunk | none => .ok chunk) = .ok c1 ∧
      (match o.interpolation with | some f => f c1 ref | none => .ok c1) = .ok c2 ∧
      r.map (fun v => (v.1, v.2.arr)) = c2.map (fun v => (v.1, v.2.arr)) ∧
      (o.addNanMask = true → ∀ v ∈ r, ∃ m, v.2.mask = some m ∧ m.dims = v.2.arr.dims ∧ m.coords = v.2.arr.coords ∧ ∀ e, m.val e = true ↔ ¬ (v.2.arr.val e).isnan = true) ∧
      (o.addNanMask = false → r.map (fun v => v.2.mask) = c2.map (fun v => v.2.mask)) ∧
      (o.addValuesToCoords = true → ∀ v ∈ r, v.2.valuesAsCoord = some v.2.arr) ∧
      (o.addValuesToCoords = false → r.map (fun v => v.2.valuesAsCoord) = c2.map (fun v => v.2.valuesAsCoord)) := by
  unfold finishChunk at h
  simp only [bind_ok_iff] at h
  obtain ⟨c1, h1, c2, h2, h⟩ := h
  simp only [pure, Except.pure, Except.ok.injEq] at h
  refine ⟨c1, c2, h1, h2, ?_⟩
  subst h
  have hm : ∀ c : Vars (LoadedVar L K), addNanMaskToData none c = c.map (fun v => (v.1, { v.2 with mask := some (v.2.arr.map (fun x => !x.isnan)) })) := by
    intro c; simp [addNanMaskToData]
  cases hmask : o.addNanMask <;> cases hval : o.addValuesToCoords
  · simp
  · simp
    rintro a b x y - - rfl
    rfl
  · simp only [if_true, hm]
    simp
    rintro a b x y - - rfl
    exact ⟨_, rfl, rfl, rfl, fun e => by simp [DA.map]⟩
  · simp only [if_true, hm]
    simp
    refine ⟨?_, ?_⟩
    · rintro a b x y - - rfl
      exact ⟨_, rfl, rfl, rfl, fun e => by simp [DA.map]⟩
    · rintro a b x y - - rfl
      rfl

/-- **C49** Without any option the chunk is returned as it is. -/
theorem C49_no_options (chunk : Vars (LoadedVar L K)) (ref : Option R) (compute : Bool) :
    finishChunk { interpolation := none, compute := compute, addNanMask := false, processChunkFn := none, addValuesToCoords := false } chunk ref = .ok chunk := rfl

/-- **C49** `add_nan_mask_to_data` with a subset of the variables leaves the others, and all values, alone. -/
theorem C49_mask_subset (subset : List String) (data : Vars (LoadedVar L K)) :
    (addNanMaskToData (some subset) data).map (fun v => (v.1, v.2.arr)) = data.map (fun v => (v.1, v.2.arr)) ∧
    (∀ v ∈ data, v.1 ∉ subset → v ∈ addNanMaskToData (some subset) data) ∧
    ∀ v ∈ addNanMaskToData (some subset) data, v.1 ∈ subset → v.2.mask = some (v.2.arr.map (fun x => !x.isnan)) := by
  refine ⟨?_, fun v hv hn => ?_, fun v hv hs => ?_⟩
  · unfold addNanMaskToData
    rw [List.map_map]
    refine List.map_congr_left (fun v _ => ?_)
    simp only [Function.comp_apply]
    split <;> rfl
  · unfold addNanMaskToData
    refine List.mem_map.mpr ⟨v, hv, ?_⟩
    rw [if_neg (by simp [hn])]
  · unfold addNanMaskToData at hv
    obtain ⟨w, hw, rfl⟩ := List.mem_map.mp hv
    split
    · rfl
    · next hneg =>
      rw [if_neg hneg] at hs
      exact absurd (Or.inr (by simpa using hs)) hneg

/-- **C49** A loader wrapped with a latency applies the wrapped loader's options once, to the adjusted chunk, except (finding) `add_values_to_coords`, which is dropped: with it the plain loader
adds the coordinate and the wrapped one does not. -/
theorem C49_latency_options {o : LoaderOptions L K R} {chunk r r' : Vars (LoadedVar L K)} {ref : Option R} (h : finishChunk o chunk ref = .ok r)
    (h' : finishChunk (latencyOptions o) chunk ref = .ok r') :
    r'.map (fun v => (v.1, v.2.arr)) = r.map (fun v => (v.1, v.2.arr)) ∧ (o.addValuesToCoords = false → r' = r) ∧
    (o.addValuesToCoords = true → (∀ v ∈ r, v.2.valuesAsCoord ≠ none) ∧ ∀ c2, (applyProcess o chunk >>= fun c => applyInterpolation o c ref) = .ok c2 →
      r'.map (fun v => v.2.valuesAsCoord) = c2.map (fun v => v.2.valuesAsCoord)) := by
  obtain ⟨c1, c2, h1, h2, h3, -, -, h6, -⟩ := C49_order h
  obtain ⟨c1', c2', h1', h2', h3', -, -, -, h7⟩ := C49_order h'
  have e1 : c1' = c1 := by
    have : (Except.ok c1' : Except Err _) = .ok c1 := by rw [← h1, ← h1']; rfl
    exact Except.ok.inj this
  subst e1
  have e2 : c2' = c2 := by
    have : (Except.ok c2' : Except Err _) = .ok c2 := by rw [← h2, ← h2']; rfl
    exact Except.ok.inj this
  subst e2
  refine ⟨by rw [h3, h3'], fun hf => ?_, fun ht => ⟨fun v hv => by rw [h6 ht v hv]; simp, fun c hc => ?_⟩⟩
  · have : latencyOptions o = o := by
      cases o
      simp only at hf
      subst hf
      rfl
    rw [this, h] at h'
    exact (Except.ok.inj h').symm
  · have : (applyProcess o chunk >>= fun c => applyInterpolation o c ref) = .ok c2' := bind_ok_iff.mpr ⟨c1', h1, h2⟩
    rw [this, Except.ok.injEq] at hc
    rw [← hc]
    exact h7 rfl

end

/-! ### The hypotheses are met -/

example : prepared exPreparation { ds := some 5 } = .ok 6 := by simp [prepared, startDataset, exPreparation, bind, Except.bind, pure, Except.pure]
example : (xarrayCalls exPreparation (fun ds (a : ℤ) => if a = 0 then (.error .keyError : Except Err ℤ) else .ok (ds * a)) [1, 0, 2] { ds := some 5 }).2 =
    [.ok 6, .error .keyError, .ok 12] := by
  rw [(C49_history _ _ rfl (show prepared exPreparation { ds := some 5 } = .ok 6 by simp [prepared, startDataset, exPreparation, bind, Except.bind, pure, Except.pure]) _).2]
  simp
/-- Options: double the values, add the mask and the values. -/
def exOptions : LoaderOptions ℕ ℤ Unit where
  interpolation := none
  compute := true
  addNanMask := true
  processChunkFn := some (fun c => .ok (c.map (fun v => (v.1, { v.2 with arr := v.2.arr.map (fun x => x + x) }))))
  addValuesToCoords := true
/-- A chunk with a NaN. -/
def exChunk : Vars (LoadedVar ℕ ℤ) :=
  [("t", { arr := { dims := {"x"}, coords := fun _ => {0, 1}, val := fun e => if e "x" = 0 then .nan else .fin 3 } })]
example : ∃ r, finishChunk exOptions exChunk none = .ok r ∧ r ≠ [] ∧ ∀ v ∈ r, v.2.valuesAsCoord = some v.2.arr := by
  refine ⟨_, rfl, ?_⟩
  simp [exOptions, exChunk, addNanMaskToData]

end WBX
