import Verif.Props.RelabelMore
import Verif.Model.Opportunism

/-!
# C102: the climatology at the valid times, under other names for the times
-/

set_option linter.unusedSectionVars false

namespace WBX
open DA Aggregator

section
variable {L : Type} [DecidableEq L] {ρ : Dim → Equiv.Perm L}

/-- The new labels of times follow the old ones: valid times are labelled like times, and sums, days of the year and hours of new labels are the new labels of the old ones. -/
structure TimesRelabel (ρ : Dim → Equiv.Perm L) (tm tm' : ClimTimes L) : Prop where
  valid : ρ "valid_time" = ρ "time"
  add : ∀ a b, tm'.add (ρ "init_time" a) (ρ "lead_time" b) = ρ "time" (tm.add a b)
  dayofyear : ∀ x, tm'.dayofyear (ρ "time" x) = ρ "dayofyear" (tm.dayofyear x)
  hour : ∀ x, tm'.hour (ρ "time" x) = ρ "hour" (tm.hour x)

variable {V : Type} {d : Dim} {ds : List Dim} {C : Dim → Finset L} {f f' : (Dim → L) → L}

theorem selBy_relabel (hf : ∀ e, f' e = ρ d (f (fun k => (ρ k).symm (e k)))) (a : DA L V) :
    (a.relabel ρ).selBy d ds (fun k => (C k).map (ρ k).toEmbedding) f' = (a.selBy d ds C f).map (DA.relabel ρ) := by
  unfold DA.selBy
  have hc : (∀ e : Dim → L, (∀ k ∈ ds, e k ∈ (C k).map (ρ k).toEmbedding) → f' e ∈ (a.relabel ρ).coords d) ↔ ∀ e : Dim → L, (∀ k ∈ ds, e k ∈ C k) → f e ∈ a.coords d := by
    simp only [DA.relabel, Finset.mem_map_equiv, hf, Equiv.symm_apply_apply]
    constructor
    · intro h e he
      have := h (fun k => ρ k (e k)) (fun k hk => by simpa using he k hk)
      simpa using this
    · intro h e he
      exact h (fun k => (ρ k).symm (e k)) he
  by_cases h : ∀ e : Dim → L, (∀ k ∈ ds, e k ∈ C k) → f e ∈ a.coords d
  · rw [if_pos (hc.mpr h), if_pos h]
    show Except.ok _ = Except.ok _
    congr 1
    refine DA.extAll rfl ?_ ?_
    · funext k
      simp only [DA.relabel]
      split <;> rfl
    · funext e
      simp only [DA.relabel, back_label, hf, Equiv.symm_apply_apply]
  · rw [if_neg (fun hh => h (hc.mp hh)), if_neg h]
    rfl

theorem sv_selBy (hf : ∀ e, f' e = ρ d (f (fun k => (ρ k).symm (e k)))) (c : StatVar L V) :
    (c.relabel ρ).selBy d ds (fun k => (C k).map (ρ k).toEmbedding) f' = (c.selBy d ds C f).map (StatVar.relabel ρ) := by
  obtain ⟨a, m⟩ := c
  unfold StatVar.selBy
  show (if d ∈ a.dims then _ else _) = Except.map _ (if d ∈ a.dims then _ else _)
  split
  · show ((a.relabel ρ).selBy d ds (fun k => (C k).map (ρ k).toEmbedding) f' >>= _) = _
    rw [selBy_relabel hf]
    refine bind_image (fun arr => ?_)
    rcases m with _ | m
    · rfl
    · show (if d ∈ m.dims then _ else _) = Except.map _ (if d ∈ m.dims then _ else _)
      split
      · show ((m.relabel ρ).selBy d ds (fun k => (C k).map (ρ k).toEmbedding) f' >>= _) = _
        rw [selBy_relabel hf]
        exact bind_image (fun m => rfl)
      · rfl
  · rfl

variable {tm tm' : ClimTimes L} {W : Type}

theorem selClimatology_relabel (h : TimesRelabel ρ tm tm') (hf : ∀ e, f' e = ρ "time" (f (fun k => (ρ k).symm (e k)))) (c : StatVar L V) :
    selClimatology tm' ds (fun k => (C k).map (ρ k).toEmbedding) f' (c.relabel ρ) = (selClimatology tm ds C f c).map (StatVar.relabel ρ) := by
  unfold selClimatology
  have day : ∀ e, tm'.dayofyear (f' e) = ρ "dayofyear" (tm.dayofyear (f (fun k => (ρ k).symm (e k)))) := fun e => by rw [hf, h.dayofyear]
  have hour : ∀ e, tm'.hour (f' e) = ρ "hour" (tm.hour (f (fun k => (ρ k).symm (e k)))) := fun e => by rw [hf, h.hour]
  simp only [show (c.relabel ρ).arr.dims = c.arr.dims from rfl]
  split
  · exact sv_selBy hf c
  · split
    · rw [sv_selBy (f := fun e => tm.dayofyear (f e)) day]
      exact bind_image (fun c => sv_selBy (f := fun e => tm.hour (f e)) hour c)
    · exact sv_selBy (f := fun e => tm.dayofyear (f e)) day c

theorem alignClimatology_relabel (h : TimesRelabel ρ tm tm') (p : StatVar L W) (c : StatVar L V) :
    alignClimatology tm' (p.relabel ρ) (c.relabel ρ) = (alignClimatology tm p c).map (StatVar.relabel ρ) := by
  unfold alignClimatology
  simp only [show (p.relabel ρ).arr.dims = p.arr.dims from rfl]
  split
  · exact selClimatology_relabel (f := fun e => e "valid_time") h (fun e => by dsimp only; rw [← h.valid, Equiv.apply_symm_apply]) c
  · split
    · exact selClimatology_relabel (f := fun e => tm.add (e "init_time") (e "lead_time")) h (fun e => by
        dsimp only
        rw [← h.add, Equiv.apply_symm_apply, Equiv.apply_symm_apply]) c
    · rfl

/-- **C102** Anomaly correlation and activity with a climatology by day of the year and hour: new names for all times at once (for example hours since another date) do not change them. -/
theorem C102_climatology (h : TimesRelabel ρ tm tm') (clims : Vars (StatVar L (FV ℝ))) :
    (acc clims (alignClimatology tm)).Relabels ρ (acc (relabelVars ρ clims) (alignClimatology tm')) ∧
    (predictionActivity clims (alignClimatology tm)).Relabels ρ (predictionActivity (relabelVars ρ clims) (alignClimatology tm')) :=
  C102_anomalies (fun a c => alignClimatology_relabel h a c)

end
end WBX
