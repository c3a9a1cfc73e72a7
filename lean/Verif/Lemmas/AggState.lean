import Verif.Lemmas.Aggregation
import Verif.Spec.Aggregation

set_option linter.unusedSectionVars false

namespace WBX
variable {α β γ ι : Type}

mutual
theorem Tree.map_eq_map_iff (g h : α → β) : (t : Tree α) → (t.map g = t.map h ↔ t.All (fun a => g a = h a))
  | .leaf a => by simp [Tree.map, Tree.All]
  | .dict d => by simp [Tree.map, Tree.All, Dict.map_eq_map_iff g h d]
  | .seq d => by simp [Tree.map, Tree.All, Seq.map_eq_map_iff g h d]
theorem Dict.map_eq_map_iff (g h : α → β) : (t : Dict α) → (t.map g = t.map h ↔ t.All (fun a => g a = h a))
  | .nil => by simp [Dict.map, Dict.All]
  | .cons k v rest => by
    simp [Dict.map, Dict.All, Tree.map_eq_map_iff g h v, Dict.map_eq_map_iff g h rest]
theorem Seq.map_eq_map_iff (g h : α → β) : (t : Seq α) → (t.map g = t.map h ↔ t.All (fun a => g a = h a))
  | .nil => by simp [Seq.map, Seq.All]
  | .cons v rest => by
    simp [Seq.map, Seq.All, Tree.map_eq_map_iff g h v, Seq.map_eq_map_iff g h rest]
end

theorem Tree.all_and {P Q : α → Prop} (t : Tree α) (h1 : t.All P) (h2 : t.All Q) : t.All (fun a => P a ∧ Q a) := by
  have := Tree.all_forall (ι := Bool) (P := fun b a => bif b then P a else Q a) t
    (fun b => by cases b <;> simpa)
  exact Tree.all_imp (fun a h => ⟨by simpa using h true, by simpa using h false⟩) t this

mutual
theorem Tree.rel_refl {r : α → α → Prop} (hr : ∀ a, r a a) : (t : Tree α) → Tree.Rel r t t
  | .leaf a => hr a
  | .dict d => by simpa [Tree.Rel] using Dict.rel_refl hr d
  | .seq d => by simpa [Tree.Rel] using Seq.rel_refl hr d
theorem Dict.rel_refl {r : α → α → Prop} (hr : ∀ a, r a a) : (t : Dict α) → Dict.Rel r t t
  | .nil => trivial
  | .cons k v rest => ⟨rfl, Tree.rel_refl hr v, Dict.rel_refl hr rest⟩
theorem Seq.rel_refl {r : α → α → Prop} (hr : ∀ a, r a a) : (t : Seq α) → Seq.Rel r t t
  | .nil => trivial
  | .cons v rest => ⟨Tree.rel_refl hr v, Seq.rel_refl hr rest⟩
end

open DA
variable {L V : Type} [DecidableEq L]

namespace AggState

theorem Same.refl (s : AggState L V) : AggState.Same s s := by
  cases s with
  | none => trivial
  | some p => exact ⟨Tree.rel_refl DA.Same.refl _, Tree.rel_refl DA.Same.refl _⟩

/-- Nonzero states with signature `σ`. -/
abbrev Sig (σ : Tree (Finset Dim) × Tree (Finset Dim)) :=
  {p : Tree (DA L V) × Tree (DA L V) // AggState.signature p = σ}

/-- The universal table of all states with a signature. -/
theorem exists_univ_table (σ : Tree (Finset Dim) × Tree (Finset Dim)) (hσ : σ.1.WF ∧ σ.2.WF) :
    ∃ T1 T2 : Tree (Sig (L := L) (V := V) σ → DA L V), T1.WF ∧ T2.WF ∧
      (∀ p, T1.map (fun v => v p) = p.1.1 ∧ T2.map (fun v => v p) = p.1.2) ∧
      T1.All (fun v => ∀ p q, (v p).dims = (v q).dims) ∧ T2.All (fun v => ∀ p q, (v p).dims = (v q).dims) := by
  have key : ∀ (proj : Tree (DA L V) × Tree (DA L V) → Tree (DA L V)) (τ : Tree (Finset Dim)), τ.WF →
      (∀ p : Sig (L := L) (V := V) σ, (proj p.1).map DA.dims = τ) →
      ∃ T : Tree (Sig (L := L) (V := V) σ → DA L V), T.WF ∧ (∀ p, T.map (fun v => v p) = proj p.1) ∧
        T.All (fun v => ∀ p q, (v p).dims = (v q).dims) := by
    intro proj τ hτ hp
    obtain ⟨T, hT1, hT2⟩ := Tree.exists_table τ.shape (fun p : Sig (L := L) (V := V) σ => proj p.1)
      (fun p => by rw [← hp p, Tree.shape, Tree.shape, Tree.map_map])
    refine ⟨T, ?_, hT2, ?_⟩
    · rw [← Tree.wf_shape, hT1, Tree.wf_shape]; exact hτ
    · apply Tree.all_forall
      intro p
      apply Tree.all_forall
      intro q
      rw [← Tree.map_eq_map_iff]
      have h1 := congrArg (Tree.map DA.dims) (hT2 p)
      have h2 := congrArg (Tree.map DA.dims) (hT2 q)
      rw [Tree.map_map] at h1 h2
      rw [h1, h2, hp, hp]
  obtain ⟨T1, a1, a2, a3⟩ := key Prod.fst σ.1 hσ.1 (fun p => congrArg Prod.fst p.2)
  obtain ⟨T2, b1, b2, b3⟩ := key Prod.snd σ.2 hσ.2 (fun p => congrArg Prod.snd p.2)
  exact ⟨T1, T2, a1, b1, fun p => ⟨a2 p, b2 p⟩, a3, b3⟩

variable [AddCommMonoid V]

theorem sum_of_table {σ : Tree (Finset Dim) × Tree (Finset Dim)}
    {T1 T2 : Tree (ι → DA L V)} (w1 : T1.WF) (w2 : T2.WF) (is : List ι) (hne : is ≠ [])
    (states : List (AggState L V))
    (hs : states.filterMap id = is.map (fun i => (T1.map (fun v => v i), T2.map (fun v => v i)))) :
    AggState.sum states = .ok (some (T1.map (fun v => combiningSum (is.map v)),
      T2.map (fun v => combiningSum (is.map v)))) := by
  unfold AggState.sum
  rw [hs]
  have htup : (is.map (fun i => (T1.map (fun v => v i), T2.map (fun v => v i)))).map
      (fun p => tuple p.1 p.2) = is.map (fun i => (tuple T1 T2).map (fun v => v i)) := by
    rw [List.map_map]; rfl
  have hemp : (is.map (fun i => (tuple T1 T2).map (fun v => v i))).isEmpty = false := by
    cases is with
    | nil => exact absurd rfl hne
    | cons => rfl
  simp only
  rw [htup, hemp]
  simp only [Bool.false_eq_true, if_false]
  rw [Tree.mapStructure_cols _ is hne (tuple T1 T2) ⟨w1, w2, trivial⟩, Tree.mapE_ok]
  rfl

/-- The nonzero states of a list whose states all have signature `σ`. -/
theorem exists_sig_list {σ : Tree (Finset Dim) × Tree (Finset Dim)} (states : List (AggState L V))
    (h : ∀ s ∈ states, HasSig σ s) :
    ∃ is : List (Sig (L := L) (V := V) σ), states.filterMap id = is.map (fun p => p.1) := by
  induction states with
  | nil => exact ⟨[], rfl⟩
  | cons s states ih =>
    obtain ⟨is, his⟩ := ih (fun s hs => h s (by simp [hs]))
    cases s with
    | none => exact ⟨is, by simpa using his⟩
    | some p => exact ⟨⟨p, h (some p) (by simp) p rfl⟩ :: is, by simpa using his⟩

theorem sum_of_sig {σ : Tree (Finset Dim) × Tree (Finset Dim)}
    {T1 T2 : Tree (Sig (L := L) (V := V) σ → DA L V)} (w1 : T1.WF) (w2 : T2.WF)
    (hp : ∀ p, T1.map (fun v => v p) = p.1.1 ∧ T2.map (fun v => v p) = p.1.2)
    (states : List (AggState L V)) (is : List (Sig (L := L) (V := V) σ))
    (his : states.filterMap id = is.map (fun p => p.1)) :
    AggState.sum states = .ok (if is = [] then none else some (T1.map (fun v => combiningSum (is.map v)),
      T2.map (fun v => combiningSum (is.map v)))) := by
  by_cases hne : is = []
  · subst hne
    unfold AggState.sum
    rw [his]
    rfl
  · rw [if_neg hne]
    apply sum_of_table (σ := σ) w1 w2 is hne
    rw [his]
    apply List.map_congr_left
    intro p _
    rw [(hp p).1, (hp p).2]

theorem combiningSum_two [AddCommMonoid V] (a b : DA L V) (h : a.dims = b.dims) :
    (combiningSum [a, b]).dims = a.dims := combiningSum_dims_of_same (by simp) (by simp [h])

/-- Existence form: the sum of states with one signature succeeds, and it again has the signature. -/
theorem sum_group {σ : Tree (Finset Dim) × Tree (Finset Dim)}
    {T1 T2 : Tree (Sig (L := L) (V := V) σ → DA L V)}
    (hp : ∀ p, T1.map (fun v => v p) = p.1.1 ∧ T2.map (fun v => v p) = p.1.2)
    (d1 : T1.All (fun v => ∀ p q, (v p).dims = (v q).dims))
    (d2 : T2.All (fun v => ∀ p q, (v p).dims = (v q).dims))
    (is : List (Sig (L := L) (V := V) σ)) (hne : is ≠ []) :
    ∃ r : Sig (L := L) (V := V) σ, r.1 = (T1.map (fun v => combiningSum (is.map v)),
      T2.map (fun v => combiningSum (is.map v))) ∧
      T1.All (fun v => v r = combiningSum (is.map v)) ∧ T2.All (fun v => v r = combiningSum (is.map v)) := by
  obtain ⟨i, is', rfl⟩ := List.exists_cons_of_ne_nil hne
  have hsig : AggState.signature (T1.map (fun v => combiningSum ((i :: is').map v)),
      T2.map (fun v => combiningSum ((i :: is').map v))) = σ := by
    have hd : ∀ (T : Tree (Sig (L := L) (V := V) σ → DA L V)),
        T.All (fun v => ∀ p q, (v p).dims = (v q).dims) →
        (T.map (fun v => combiningSum ((i :: is').map v))).map DA.dims = (T.map (fun v => v i)).map DA.dims := by
      intro T hT
      rw [Tree.map_map, Tree.map_map, Tree.map_eq_map_iff]
      refine Tree.all_imp ?_ T hT
      intro v hv
      apply combiningSum_dims_of_same (by simp)
      intro a ha
      rw [List.mem_map] at ha
      obtain ⟨p, _, rfl⟩ := ha
      exact hv p i
    refine Eq.trans ?_ i.2
    simp only [AggState.signature]
    rw [hd T1 d1, hd T2 d2, (hp i).1, (hp i).2]
  refine ⟨⟨_, hsig⟩, rfl, ?_, ?_⟩
  · rw [← Tree.map_eq_map_iff]; exact (hp ⟨_, hsig⟩).1
  · rw [← Tree.map_eq_map_iff]; exact (hp ⟨_, hsig⟩).2

end AggState
end WBX
