import Verif.Spec.LaterTimes
import Verif.Props.RelabelMore

/-!
# C105: there is nothing special about the dates
-/

set_option linter.unusedSectionVars false

namespace WBX
open DA

section chunks
variable {I J T : Type}

/-- The same chunks with other init times. -/
def TimeChunks.mapInits (f : I → J) (tc : TimeChunks I T) : TimeChunks J T :=
  { tc with initTimes := tc.initTimes.map f, initChunks := tc.initChunks.map (List.map f) }

theorem split_map (f : I → J) (xs : List I) (size : ℕ) : TimeChunks.split (xs.map f) size = (TimeChunks.split xs size).map (List.map (List.map f)) := by
  unfold TimeChunks.split
  rw [List.length_map]
  rcases TimeChunks.pyRange xs.length size with e | starts
  · rfl
  show Except.ok _ = Except.ok _
  rw [List.map_map]
  congr 1
  refine List.map_congr_left (fun i _ => ?_)
  simp only [Function.comp_apply, TimeChunks.pySlice, List.map_take, List.map_drop]

/-- **C105** Chunks only depend on the number of the init times and on their order: other init times give the same chunks of the other init times, or the same error. -/
theorem C105_chunks (f : I → J) (inits : List I) (leads : LeadArg T) (initSize leadSize : Option Int) :
    TimeChunks.make (inits.map f) leads initSize leadSize = (TimeChunks.make inits leads initSize leadSize).map (TimeChunks.mapInits f) := by
  unfold TimeChunks.make
  dsimp only
  rw [List.length_map, split_map]
  by_cases h1 : TimeChunks.isNegative initSize = true
  · simp [h1]; rfl
  by_cases h2 : TimeChunks.isNegative leadSize = true
  · simp [h1, h2]; rfl
  simp only [h1, h2]
  rcases TimeChunks.split inits (TimeChunks.effectiveSize initSize inits.length) with e | ic
  · rfl
  · cases leads with
    | slice start stop step =>
      cases start with
      | none => rfl
      | some a =>
        cases stop with
        | none => rfl
        | some b =>
          cases step with
          | some s => rfl
          | none =>
            cases leadSize with
            | none => rfl
            | some n =>
              by_cases hn : n = 0
              · simp [hn]; rfl
              · simp [hn]; rfl
    | arr ts =>
      simp only
      rcases TimeChunks.split ts (TimeChunks.effectiveSize leadSize ts.length) with e | lc <;> rfl
    | other => rfl

/-- **C105** They are visited in the same order with the same offsets. -/
theorem C105_offsets (f : I → J) (tc : TimeChunks I T) :
    (tc.mapInits f).iterWithOffsets = tc.iterWithOffsets.map (List.map (fun o => (o.1, (o.2.1.map f, o.2.2)))) := by
  have hi : (tc.mapInits f).iter = tc.iter.map (fun c => (c.1.map f, c.2)) := by
    unfold TimeChunks.iter TimeChunks.mapInits
    simp only [List.flatMap_map, List.map_flatMap, List.map_map, Function.comp_def]
  unfold TimeChunks.iterWithOffsets
  rw [hi, List.zipIdx_map, List.mapM_map]
  refine mapM_image (fun q _ => ?_)
  rw [Function.comp_apply]
  show (tc.offsetsAt q.2 >>= fun o => _) = _
  rcases tc.offsetsAt q.2 with e | o <;> rfl

end chunks

section loaders
variable {L V : Type} [DecidableEq L] [AddCommGroup L] {c : L}

theorem later_time {d : Dim} (h : d = "init_time" ∨ d = "valid_time") : later c d = Equiv.addRight c := if_pos h
theorem later_other {d : Dim} (h : ¬ (d = "init_time" ∨ d = "valid_time")) : later c d = Equiv.refl L := if_neg h

theorem toFinset_later {d : Dim} (h : d = "init_time" ∨ d = "valid_time") (l : List L) : (laterTimes c l).toFinset = l.toFinset.map (later c d).toEmbedding := by
  rw [later_time h, ← toFinset_relabel]
  rfl

theorem mem_coords_later {d : Dim} (h : d = "init_time" ∨ d = "valid_time") (a : DA L V) (t : L) : t + c ∈ (a.relabel (later c)).coords d ↔ t ∈ a.coords d := by
  show t + c ∈ (a.coords d).map (later c d).toEmbedding ↔ _
  rw [later_time h]
  simp

theorem selList_later {d : Dim} (h : d = "init_time" ∨ d = "valid_time") (inits : List L) (a : DA L V) :
    selList d (laterTimes c inits) (a.relabel (later c)) = (selList d inits a).map (DA.relabel (later c)) := by
  unfold selList
  have : (laterTimes c inits).all (fun l => decide (l ∈ (a.relabel (later c)).coords d)) = inits.all (fun l => decide (l ∈ a.coords d)) := by
    rw [laterTimes, List.all_map]
    congr 1
    funext l
    simp only [Function.comp_apply, mem_coords_later h]
  rw [this]
  split
  · show Except.ok _ = Except.ok _
    congr 1
    refine DA.extAll rfl ?_ rfl
    funext k
    simp only [DA.relabel]
    split
    · rename_i hk; rw [hk, toFinset_later h]
    · rfl
  · rfl

theorem selList_same {d : Dim} (h : ¬ (d = "init_time" ∨ d = "valid_time")) (ls : List L) (a : DA L V) :
    selList d ls (a.relabel (later c)) = (selList d ls a).map (DA.relabel (later c)) := by
  unfold selList
  have hc : (a.relabel (later c)).coords d = a.coords d := by
    show (a.coords d).map (later c d).toEmbedding = _
    rw [later_other h]
    simp
  rw [hc]
  split
  · show Except.ok _ = Except.ok _
    congr 1
    refine DA.extAll rfl ?_ rfl
    funext k
    simp only [DA.relabel]
    split
    · rename_i hk; rw [hk, later_other h]; simp
    · rfl
  · rfl

theorem initLead_later (inits leads : List L) {k : Dim} (hk : k ∈ ({"init_time", "lead_time"} : Finset Dim)) :
    initLead (laterTimes c inits) leads k = (initLead inits leads k).map (later c k).toEmbedding := by
  unfold initLead
  split
  · rename_i h; exact toFinset_later (Or.inl h) inits
  · rename_i h
    simp only [Finset.mem_insert, Finset.mem_singleton, h, false_or] at hk
    subst hk
    rw [later_other (by decide)]
    simp

/-- **C105** Forecasts: from forecasts with later init times, later init times get the same values. -/
theorem C105_predictions [LinearOrder L] (ds : DA L V) : DateFree c (loadPredictions ds) (loadPredictions (ds.relabel (later c))) := by
  intro inits leads
  cases leads with
  | none => exact selList_later (Or.inl rfl) inits ds
  | exact ls =>
    show (selList "init_time" (laterTimes c inits) (ds.relabel (later c)) >>= fun a => selList "lead_time" ls a) = _
    rw [selList_later (Or.inl rfl)]
    exact bind_image (fun a => selList_same (by decide) ls a)
  | slice start stop =>
    show (selList "init_time" (laterTimes c inits) (ds.relabel (later c)) >>= fun a => _) = _
    rw [selList_later (Or.inl rfl)]
    refine bind_image (fun a => ?_)
    show Except.ok _ = Except.ok _
    congr 1
    refine DA.extAll rfl ?_ rfl
    funext k
    simp only [selSlice, DA.relabel]
    split
    · rename_i hk
      subst hk
      rw [later_other (by decide)]
      simp
    · rfl

/-- **C105** Targets: the valid times are later by the same time, and so found. -/
theorem C105_targets (ds : DA L V) : DateFree c (loadTargets ds) (loadTargets (ds.relabel (later c))) := by
  intro inits leads
  cases leads with
  | none => exact selList_later (Or.inr rfl) inits ds
  | slice start stop => rfl
  | exact ls =>
    unfold loadTargets selArray
    have :  (laterTimes c inits).all (fun i => ls.all (fun l => decide (i + l ∈ (ds.relabel (later c)).coords "valid_time"))) =
        inits.all (fun i => ls.all (fun l => decide (i + l ∈ ds.coords "valid_time"))) := by
      rw [laterTimes, List.all_map]
      congr 1
      funext i
      rw [Function.comp_apply]
      congr 1
      funext l
      rw [show i + c + l = (i + l) + c by abel, decide_eq_decide]
      exact mem_coords_later (Or.inr rfl) ds (i + l)
    dsimp only
    rw [this]
    split
    · show Except.ok _ = Except.ok _
      congr 1
      refine DA.extAll rfl ?_ ?_
      · funext k
        simp only [DA.relabel]
        split
        · rename_i hk; exact initLead_later inits ls hk
        · rfl
      · funext e
        simp only [DA.relabel]
        congr 1
        funext k
        unfold setLabel
        by_cases hk : k = "valid_time"
        · subst hk
          rw [if_pos rfl, if_pos rfl, later_time (Or.inr rfl), later_time (d := "init_time") (Or.inl rfl), later_other (d := "lead_time") (by decide)]
          simp only [Equiv.addRight_symm, Equiv.coe_addRight, Equiv.refl_symm, Equiv.refl_apply]
          abel
        · rw [if_neg hk, if_neg hk]
    · rfl

/-- **C105** The persistence baseline. -/
theorem C105_persistence (ds : DA L V) : DateFree c (loadPersistence ds) (loadPersistence (ds.relabel (later c))) := by
  intro inits leads
  cases leads with
  | none => rfl
  | slice start stop => rfl
  | exact ls =>
    unfold loadPersistence
    dsimp only
    rw [selList_later (Or.inr rfl)]
    refine bind_image (fun a => ?_)
    show Except.ok _ = Except.ok _
    congr 1
    refine DA.extAll rfl ?_ ?_
    · funext k
      simp only [DA.relabel]
      split
      · rename_i hk; subst hk; rw [later_time (Or.inl rfl), later_time (Or.inr rfl)]
      · split
        · rename_i hk; subst hk; rw [later_other (by decide)]; simp
        · rfl
    · funext e
      simp only [DA.relabel]
      congr 1
      funext k
      unfold setLabel
      by_cases hk : k = "valid_time"
      · subst hk; rw [if_pos rfl, if_pos rfl, later_time (Or.inr rfl), later_time (Or.inl rfl)]
      · rw [if_neg hk, if_neg hk]

/-- The fields of the date do not change when `c` passes, and the dimensions of the climatology are not times. -/
structure Periodic (c : L) (fields : ClimFields L) : Prop where
  same : ∀ f ∈ fields, ∀ t, f.2 (t + c) = f.2 t
  dims : ∀ f ∈ fields, ¬ (f.1 = "init_time" ∨ f.1 = "valid_time")

theorem setFields_later {fields : ClimFields L} (t : L) : ∀ e : Dim → L, Periodic c fields →
    (fun k => (later c k).symm (setFields fields (t + c) e k)) = setFields fields t (fun k => (later c k).symm (e k)) := by
  unfold setFields
  induction fields with
  | nil => exact fun e _ => rfl
  | cons f fs ih =>
    intro e h
    rw [List.foldl_cons, List.foldl_cons, ih _ ⟨fun g hg => h.same g (List.mem_cons_of_mem _ hg), fun g hg => h.dims g (List.mem_cons_of_mem _ hg)⟩]
    congr 1
    have := back_set (later c) e f.1 (f.2 t)
    rw [later_other (h.dims f List.mem_cons_self)] at this
    rw [h.same f List.mem_cons_self]
    exact this

theorem selFields_later {fields : ClimFields L} (h : Periodic c fields) {ds : Finset Dim} {C C' : Dim → Finset L} (hC : ∀ k ∈ ds, C' k = (C k).map (later c k).toEmbedding)
    {times : (Dim → L) → L} (ht : ∀ e, times (fun k => (later c k).symm (e k)) + c = times e) {wanted : List L} (a : DA L V) :
    selFields fields ds C' times (laterTimes c wanted) (a.relabel (later c)) = (selFields fields ds C times wanted a).map (DA.relabel (later c)) := by
  unfold selFields
  have : (laterTimes c wanted).all (fun t => fields.all (fun f => decide (f.2 t ∈ (a.relabel (later c)).coords f.1))) = wanted.all (fun t => fields.all (fun f => decide (f.2 t ∈ a.coords f.1))) := by
    rw [laterTimes, List.all_map, Bool.eq_iff_iff]
    simp only [List.all_eq_true, Function.comp_apply, decide_eq_true_eq]
    refine forall₂_congr (fun t _ => forall₂_congr (fun f hf => ?_))
    rw [h.same f hf]
    show f.2 t ∈ (a.coords f.1).map (later c f.1).toEmbedding ↔ _
    rw [later_other (h.dims f hf)]
    simp
  rw [this]
  split
  · show Except.ok _ = Except.ok _
    congr 1
    refine DA.extAll rfl ?_ ?_
    · funext k
      simp only [DA.relabel]
      split
      · rename_i hk; exact hC k hk
      · rfl
    · funext e
      simp only [DA.relabel]
      congr 1
      rw [← ht e]
      exact setFields_later _ e h
  · rfl

/-- **C105** A climatology, if the date has the same fields after `c` (for example a climatology by hour after whole days). -/
theorem C105_climatology {fields : ClimFields L} (h : Periodic c fields) (ds : DA L V) : DateFree c (loadClimatology fields ds) (loadClimatology fields (ds.relabel (later c))) := by
  intro inits leads
  cases leads with
  | none =>
    refine selFields_later h (fun k hk => ?_) (fun e => ?_) ds
    · rw [Finset.mem_singleton] at hk; exact toFinset_later (Or.inl hk) inits
    · dsimp only; rw [later_time (Or.inl rfl)]; simp
  | slice start stop => rfl
  | exact ls =>
    show selFields fields _ _ _ ((laterTimes c inits).flatMap (fun i => ls.map (fun l => i + l))) _ = _
    rw [show (laterTimes c inits).flatMap (fun i => ls.map (fun l => i + l)) = laterTimes c (inits.flatMap (fun i => ls.map (fun l => i + l))) by
      simp only [laterTimes, List.flatMap_map, List.map_flatMap, List.map_map, Function.comp_def, add_right_comm]]
    refine selFields_later h (fun k hk => initLead_later inits ls hk) (fun e => ?_) ds
    dsimp only
    rw [later_time (d := "init_time") (Or.inl rfl), later_other (d := "lead_time") (by decide)]
    simp only [Equiv.addRight_symm, Equiv.coe_addRight, Equiv.refl_symm, Equiv.refl_apply]
    abel

end loaders
end WBX
