import Verif.Spec.Tree
import Mathlib.Tactic.Choose
import Mathlib.Tactic.TypeStar

namespace WBX
variable {α β γ ι : Type}

mutual
theorem Tree.map_id : (t : Tree α) → t.map id = t
  | .leaf a => rfl
  | .dict d => by simp [Tree.map, Dict.map_id d]
  | .seq s => by simp [Tree.map, Seq.map_id s]
theorem Dict.map_id : (d : Dict α) → d.map id = d
  | .nil => rfl
  | .cons k v rest => by simp [Dict.map, Tree.map_id v, Dict.map_id rest]
theorem Seq.map_id : (s : Seq α) → s.map id = s
  | .nil => rfl
  | .cons v rest => by simp [Seq.map, Tree.map_id v, Seq.map_id rest]
end

mutual
theorem Tree.map_map (g : α → β) (h : β → γ) : (t : Tree α) → (t.map g).map h = t.map (fun a => h (g a))
  | .leaf a => rfl
  | .dict d => by simp [Tree.map, Dict.map_map g h d]
  | .seq s => by simp [Tree.map, Seq.map_map g h s]
theorem Dict.map_map (g : α → β) (h : β → γ) :
    (d : Dict α) → (d.map g).map h = d.map (fun a => h (g a))
  | .nil => rfl
  | .cons k v rest => by simp [Dict.map, Tree.map_map g h v, Dict.map_map g h rest]
theorem Seq.map_map (g : α → β) (h : β → γ) : (s : Seq α) → (s.map g).map h = s.map (fun a => h (g a))
  | .nil => rfl
  | .cons v rest => by simp [Seq.map, Tree.map_map g h v, Seq.map_map g h rest]
end

theorem Dict.keys_map (g : α → β) : (d : Dict α) → (d.map g).keys = d.keys
  | .nil => rfl
  | .cons k v rest => by simp [Dict.map, Dict.keys, Dict.keys_map g rest]

mutual
/-- Map a function that may raise, left to right. -/
def Tree.mapE (g : α → Except Err β) : Tree α → Except Err (Tree β)
  | .leaf a => do let b ← g a; return .leaf b
  | .dict d => do let r ← d.mapE g; return .dict r
  | .seq s => do let r ← s.mapE g; return .seq r
def Dict.mapE (g : α → Except Err β) : Dict α → Except Err (Dict β)
  | .nil => .ok .nil
  | .cons k v rest => do let b ← v.mapE g; let r ← rest.mapE g; return .cons k b r
def Seq.mapE (g : α → Except Err β) : Seq α → Except Err (Seq β)
  | .nil => .ok .nil
  | .cons v rest => do let b ← v.mapE g; let r ← rest.mapE g; return .cons b r
end

mutual
theorem Tree.mapE_ok (g : α → β) : (t : Tree α) → t.mapE (fun a => .ok (g a)) = .ok (t.map g)
  | .leaf a => rfl
  | .dict d => by simp [Tree.mapE, Tree.map, Dict.mapE_ok g d, bind, Except.bind, pure, Except.pure]
  | .seq s => by simp [Tree.mapE, Tree.map, Seq.mapE_ok g s, bind, Except.bind, pure, Except.pure]
theorem Dict.mapE_ok (g : α → β) : (d : Dict α) → d.mapE (fun a => .ok (g a)) = .ok (d.map g)
  | .nil => rfl
  | .cons k v rest => by
    simp [Dict.mapE, Dict.map, Tree.mapE_ok g v, Dict.mapE_ok g rest, bind, Except.bind, pure, Except.pure]
theorem Seq.mapE_ok (g : α → β) : (s : Seq α) → s.mapE (fun a => .ok (g a)) = .ok (s.map g)
  | .nil => rfl
  | .cons v rest => by
    simp [Seq.mapE, Seq.map, Tree.mapE_ok g v, Seq.mapE_ok g rest, bind, Except.bind, pure, Except.pure]
end

theorem mapM_map_ok {δ ε : Type} (f : δ → Except Err ε) (g : ι → δ) (h : ι → ε) (l : List ι)
    (hf : ∀ i, f (g i) = .ok (h i)) : (l.map g).mapM f = .ok (l.map h) := by
  induction l with
  | nil => rfl
  | cons x xs ih =>
    rw [List.map_cons, List.mapM_cons, hf, ih]; rfl

theorem Dict.get_map (g : α → β) (k : String) : (d : Dict α) →
    (d.map g).get k = (d.get k).map (Tree.map g)
  | .nil => rfl
  | .cons k' v rest => by
    simp only [Dict.map, Dict.get]
    split
    · rfl
    · exact Dict.get_map g k rest

theorem unconsAll_map (l : List ι) (h : ι → Tree α) (t : ι → Seq α) :
    Tree.unconsAll (l.map (fun i => Seq.cons (h i) (t i))) = some (l.map h, l.map t) := by
  induction l with
  | nil => rfl
  | cons x xs ih => simp [Tree.unconsAll, ih]

theorem Dict.mem_keys_of_get : {d : Dict α} → {k : String} → {v : Tree α} → d.get k = .ok v → k ∈ d.keys
  | .nil, _, _, h => by simp [Dict.get] at h
  | .cons k' v' rest, k, v, h => by
    simp only [Dict.get] at h
    split at h
    · next h' => simp [Dict.keys, h']
    · simp [Dict.keys, Dict.mem_keys_of_get h]

mutual
/-- Key lemma: on the columns of one table of leaves, `map_structure` maps over the rows. -/
theorem Tree.mapWith_cols (f : List α → Except Err β) (i : ι) (is : List ι) :
    (T : Tree (ι → α)) → T.WF →
    Tree.mapWith f (T.map (fun v => v i)) (is.map (fun j => T.map (fun v => v j)))
      = T.mapE (fun v => f (v i :: is.map v))
  | .leaf v, _ => by
    simp only [Tree.map, Tree.mapWith, Tree.mapE]
    rw [mapM_map_ok Tree.asLeaf (fun j => Tree.leaf (v j)) v is (fun _ => rfl)]
    rfl
  | .dict D, h => by
    simp only [Tree.map, Tree.mapWith, Tree.mapE]
    rw [Dict.mapWith_cols f i is D D h.1 h.2 ?_]
    intro k v hkv
    exact hkv
  | .seq S, h => by
    simp only [Tree.map, Tree.mapWith, Tree.mapE]
    rw [mapM_map_ok Tree.asSeq (fun j => Tree.seq (S.map (fun v => v j))) (fun j => S.map (fun v => v j)) is
      (fun _ => rfl)]
    simp only [bind, Except.bind]
    rw [Seq.mapWith_cols f i is S h]
theorem Dict.mapWith_cols (f : List α → Except Err β) (i : ι) (is : List ι) (D : Dict (ι → α)) :
    (d : Dict (ι → α)) → d.keys.Nodup → d.WF → (∀ k v, d.get k = .ok v → D.get k = .ok v) →
    Tree.mapWithDict f (d.map (fun v => v i)) (is.map (fun j => Tree.dict (D.map (fun v => v j))))
      = d.mapE (fun v => f (v i :: is.map v))
  | .nil, _, _, _ => rfl
  | .cons k v rest, hn, hw, hD => by
    simp only [Dict.keys, List.nodup_cons] at hn
    simp only [Dict.map, Tree.mapWithDict, Dict.mapE]
    have hk : D.get k = .ok v := hD k v (by simp [Dict.get])
    rw [mapM_map_ok (fun o => Tree.item o k) (fun j => Tree.dict (D.map (fun v => v j)))
      (fun j => v.map (fun w => w j)) is (fun j => by simp [Tree.item, Dict.get_map, hk, Except.map])]
    simp only [bind, Except.bind]
    rw [Tree.mapWith_cols f i is v hw.1, Dict.mapWith_cols f i is D rest hn.2 hw.2 ?_]
    intro k' v' h'
    apply hD
    have hne : k ≠ k' := by
      rintro rfl
      exact hn.1 (Dict.mem_keys_of_get h')
    simp [Dict.get, hne, h']
theorem Seq.mapWith_cols (f : List α → Except Err β) (i : ι) (is : List ι) :
    (s : Seq (ι → α)) → s.WF →
    Tree.mapWithSeq f (s.map (fun v => v i)) (is.map (fun j => s.map (fun v => v j)))
      = s.mapE (fun v => f (v i :: is.map v))
  | .nil, _ => rfl
  | .cons v rest, hw => by
    simp only [Seq.map, Tree.mapWithSeq, Seq.mapE]
    rw [unconsAll_map]
    simp only
    rw [Tree.mapWith_cols f i is v hw.1, Seq.mapWith_cols f i is rest hw.2]
end

theorem Tree.mapStructure_cols (f : List α → Except Err β) (is : List ι) (hne : is ≠ [])
    (T : Tree (ι → α)) (hT : T.WF) :
    Tree.mapStructure f (is.map (fun j => T.map (fun v => v j))) = T.mapE (fun v => f (is.map v)) := by
  obtain ⟨i, is, rfl⟩ := List.exists_cons_of_ne_nil hne
  exact Tree.mapWith_cols f i is T hT

mutual
/-- Same-shape structures are the columns of one table. -/
theorem Tree.exists_table : (s : Tree Unit) → (ts : ι → Tree α) → (∀ i, (ts i).shape = s) →
    ∃ T : Tree (ι → α), T.shape = s ∧ ∀ i, T.map (fun v => v i) = ts i
  | .leaf _, ts, h => by
    have h' : ∀ i, ∃ a, ts i = .leaf a := by
      intro i
      have := h i
      cases ht : ts i with
      | leaf a => exact ⟨a, rfl⟩
      | dict d => simp [ht, Tree.shape, Tree.map] at this
      | seq d => simp [ht, Tree.shape, Tree.map] at this
    choose v hv using h'
    exact ⟨.leaf v, rfl, fun i => (hv i).symm⟩
  | .dict d, ts, h => by
    have h' : ∀ i, ∃ a, ts i = .dict a ∧ a.map (fun _ => ()) = d := by
      intro i
      have := h i
      cases ht : ts i with
      | leaf a => simp [ht, Tree.shape, Tree.map] at this
      | dict a => exact ⟨a, rfl, by simpa [ht, Tree.shape, Tree.map] using this⟩
      | seq d => simp [ht, Tree.shape, Tree.map] at this
    choose v hv using h'
    obtain ⟨T, h1, h2⟩ := Dict.exists_table d v (fun i => (hv i).2)
    exact ⟨.dict T, by simp [Tree.shape, Tree.map, h1], fun i => by simp [Tree.map, h2, (hv i).1]⟩
  | .seq d, ts, h => by
    have h' : ∀ i, ∃ a, ts i = .seq a ∧ a.map (fun _ => ()) = d := by
      intro i
      have := h i
      cases ht : ts i with
      | leaf a => simp [ht, Tree.shape, Tree.map] at this
      | dict d => simp [ht, Tree.shape, Tree.map] at this
      | seq a => exact ⟨a, rfl, by simpa [ht, Tree.shape, Tree.map] using this⟩
    choose v hv using h'
    obtain ⟨T, h1, h2⟩ := Seq.exists_table d v (fun i => (hv i).2)
    exact ⟨.seq T, by simp [Tree.shape, Tree.map, h1], fun i => by simp [Tree.map, h2, (hv i).1]⟩
theorem Dict.exists_table : (s : Dict Unit) → (ts : ι → Dict α) → (∀ i, (ts i).map (fun _ => ()) = s) →
    ∃ T : Dict (ι → α), T.map (fun _ => ()) = s ∧ ∀ i, T.map (fun v => v i) = ts i
  | .nil, ts, h => by
    refine ⟨.nil, rfl, fun i => ?_⟩
    have := h i
    cases ht : ts i with
    | nil => rfl
    | cons k v rest => simp [ht, Dict.map] at this
  | .cons k v rest, ts, h => by
    have h' : ∀ i, ∃ a b, ts i = .cons k a b ∧ a.shape = v ∧ b.map (fun _ => ()) = rest := by
      intro i
      have := h i
      cases ht : ts i with
      | nil => simp [ht, Dict.map] at this
      | cons k' a b =>
        simp only [ht, Dict.map, Dict.cons.injEq] at this
        exact ⟨a, b, by rw [this.1], this.2.1, this.2.2⟩
    choose a b hab using h'
    obtain ⟨T1, h1, h2⟩ := Tree.exists_table v a (fun i => (hab i).2.1)
    obtain ⟨T2, h3, h4⟩ := Dict.exists_table rest b (fun i => (hab i).2.2)
    refine ⟨.cons k T1 T2, ?_, fun i => by simp [Dict.map, h2, h4, (hab i).1]⟩
    simp only [Dict.map, h3]
    rw [← h1]; rfl
theorem Seq.exists_table : (s : Seq Unit) → (ts : ι → Seq α) → (∀ i, (ts i).map (fun _ => ()) = s) →
    ∃ T : Seq (ι → α), T.map (fun _ => ()) = s ∧ ∀ i, T.map (fun v => v i) = ts i
  | .nil, ts, h => by
    refine ⟨.nil, rfl, fun i => ?_⟩
    have := h i
    cases ht : ts i with
    | nil => rfl
    | cons v rest => simp [ht, Seq.map] at this
  | .cons v rest, ts, h => by
    have h' : ∀ i, ∃ a b, ts i = .cons a b ∧ a.shape = v ∧ b.map (fun _ => ()) = rest := by
      intro i
      have := h i
      cases ht : ts i with
      | nil => simp [ht, Seq.map] at this
      | cons a b =>
        simp only [ht, Seq.map, Seq.cons.injEq] at this
        exact ⟨a, b, rfl, this.1, this.2⟩
    choose a b hab using h'
    obtain ⟨T1, h1, h2⟩ := Tree.exists_table v a (fun i => (hab i).2.1)
    obtain ⟨T2, h3, h4⟩ := Seq.exists_table rest b (fun i => (hab i).2.2)
    refine ⟨.cons T1 T2, ?_, fun i => by simp [Seq.map, h2, h4, (hab i).1]⟩
    simp only [Seq.map, h3]
    rw [← h1]; rfl
end

mutual
theorem Tree.wf_map (g : α → β) : (t : Tree α) → ((t.map g).WF ↔ t.WF)
  | .leaf a => by simp [Tree.map, Tree.WF]
  | .dict d => by simp [Tree.map, Tree.WF, Dict.wf_map g d, Dict.keys_map]
  | .seq s => by simp [Tree.map, Tree.WF, Seq.wf_map g s]
theorem Dict.wf_map (g : α → β) : (t : Dict α) → ((t.map g).WF ↔ t.WF)
  | .nil => by simp [Dict.map, Dict.WF]
  | .cons k v rest => by simp [Dict.map, Dict.WF, Tree.wf_map g v, Dict.wf_map g rest]
theorem Seq.wf_map (g : α → β) : (t : Seq α) → ((t.map g).WF ↔ t.WF)
  | .nil => by simp [Seq.map, Seq.WF]
  | .cons v rest => by simp [Seq.map, Seq.WF, Tree.wf_map g v, Seq.wf_map g rest]
end

theorem Tree.wf_shape (t : Tree α) : t.shape.WF ↔ t.WF := Tree.wf_map _ t

mutual
theorem Tree.all_map (g : α → β) (P : β → Prop) : (t : Tree α) → ((t.map g).All P ↔ t.All (fun a => P (g a)))
  | .leaf a => by simp [Tree.map, Tree.All]
  | .dict d => by simp [Tree.map, Tree.All, Dict.all_map g P d]
  | .seq s => by simp [Tree.map, Tree.All, Seq.all_map g P s]
theorem Dict.all_map (g : α → β) (P : β → Prop) :
    (t : Dict α) → ((t.map g).All P ↔ t.All (fun a => P (g a)))
  | .nil => by simp [Dict.map, Dict.All]
  | .cons k v rest => by simp [Dict.map, Dict.All, Tree.all_map g P v, Dict.all_map g P rest]
theorem Seq.all_map (g : α → β) (P : β → Prop) :
    (t : Seq α) → ((t.map g).All P ↔ t.All (fun a => P (g a)))
  | .nil => by simp [Seq.map, Seq.All]
  | .cons v rest => by simp [Seq.map, Seq.All, Tree.all_map g P v, Seq.all_map g P rest]
end

mutual
theorem Tree.rel_map (r : β → γ → Prop) (g : α → β) (h : α → γ) : (t : Tree α) →
    t.All (fun a => r (g a) (h a)) → Tree.Rel r (t.map g) (t.map h)
  | .leaf a, H => by simpa [Tree.map, Tree.Rel, Tree.All] using H
  | .dict d, H => by simpa [Tree.map, Tree.Rel] using Dict.rel_map r g h d (by simpa [Tree.All] using H)
  | .seq d, H => by simpa [Tree.map, Tree.Rel] using Seq.rel_map r g h d (by simpa [Tree.All] using H)
theorem Dict.rel_map (r : β → γ → Prop) (g : α → β) (h : α → γ) : (t : Dict α) →
    t.All (fun a => r (g a) (h a)) → Dict.Rel r (t.map g) (t.map h)
  | .nil, _ => by simp [Dict.map, Dict.Rel]
  | .cons k v rest, H => by
    simp only [Dict.All] at H
    simp [Dict.map, Dict.Rel, Tree.rel_map r g h v H.1, Dict.rel_map r g h rest H.2]
theorem Seq.rel_map (r : β → γ → Prop) (g : α → β) (h : α → γ) : (t : Seq α) →
    t.All (fun a => r (g a) (h a)) → Seq.Rel r (t.map g) (t.map h)
  | .nil, _ => by simp [Seq.map, Seq.Rel]
  | .cons v rest, H => by
    simp only [Seq.All] at H
    simp [Seq.map, Seq.Rel, Tree.rel_map r g h v H.1, Seq.rel_map r g h rest H.2]
end

mutual
theorem Tree.all_of_forall {P : α → Prop} (h : ∀ a, P a) : (t : Tree α) → t.All P
  | .leaf a => h a
  | .dict d => Dict.all_of_forall h d
  | .seq d => Seq.all_of_forall h d
theorem Dict.all_of_forall {P : α → Prop} (h : ∀ a, P a) : (t : Dict α) → t.All P
  | .nil => trivial
  | .cons _ v rest => ⟨Tree.all_of_forall h v, Dict.all_of_forall h rest⟩
theorem Seq.all_of_forall {P : α → Prop} (h : ∀ a, P a) : (t : Seq α) → t.All P
  | .nil => trivial
  | .cons v rest => ⟨Tree.all_of_forall h v, Seq.all_of_forall h rest⟩
end

mutual
theorem Tree.all_imp {P Q : α → Prop} (h : ∀ a, P a → Q a) : (t : Tree α) → t.All P → t.All Q
  | .leaf a, H => h a H
  | .dict d, H => Dict.all_imp h d H
  | .seq d, H => Seq.all_imp h d H
theorem Dict.all_imp {P Q : α → Prop} (h : ∀ a, P a → Q a) : (t : Dict α) → t.All P → t.All Q
  | .nil, _ => trivial
  | .cons _ v rest, H => ⟨Tree.all_imp h v H.1, Dict.all_imp h rest H.2⟩
theorem Seq.all_imp {P Q : α → Prop} (h : ∀ a, P a → Q a) : (t : Seq α) → t.All P → t.All Q
  | .nil, _ => trivial
  | .cons v rest, H => ⟨Tree.all_imp h v H.1, Seq.all_imp h rest H.2⟩
end

mutual
theorem Tree.all_forall {ι : Sort*} {P : ι → α → Prop} :
    (t : Tree α) → (∀ i, t.All (P i)) → t.All (fun a => ∀ i, P i a)
  | .leaf a, H => H
  | .dict d, H => Dict.all_forall d H
  | .seq d, H => Seq.all_forall d H
theorem Dict.all_forall {ι : Sort*} {P : ι → α → Prop} :
    (t : Dict α) → (∀ i, t.All (P i)) → t.All (fun a => ∀ i, P i a)
  | .nil, _ => trivial
  | .cons _ v rest, H => ⟨Tree.all_forall v (fun i => (H i).1), Dict.all_forall rest (fun i => (H i).2)⟩
theorem Seq.all_forall {ι : Sort*} {P : ι → α → Prop} :
    (t : Seq α) → (∀ i, t.All (P i)) → t.All (fun a => ∀ i, P i a)
  | .nil, _ => trivial
  | .cons v rest, H => ⟨Tree.all_forall v (fun i => (H i).1), Seq.all_forall rest (fun i => (H i).2)⟩
end

theorem Tree.mapWithDict_keys (f : List α → Except Err β) (others : List (Tree α)) :
    (d : Dict α) → (d' : Dict β) → Tree.mapWithDict f d others = .ok d' → d'.keys = d.keys
  | .nil, d', h => by simp [Tree.mapWithDict] at h; subst h; rfl
  | .cons k v rest, d', h => by
    simp only [Tree.mapWithDict, bind, Except.bind] at h
    split at h
    · simp at h
    · split at h
      · simp at h
      · split at h
        · simp at h
        · next h3 =>
          simp [pure, Except.pure] at h
          subst h
          simp [Dict.keys, Tree.mapWithDict_keys f others rest _ h3]

end WBX

namespace WBX
variable {α β : Type}
mutual
theorem Tree.mapE_ok_of_all (f : α → Except Err β) (g : α → β) : (t : Tree α) → t.All (fun a => f a = .ok (g a)) →
    t.mapE f = .ok (t.map g)
  | .leaf a, h => by simp only [Tree.All] at h; simp [Tree.mapE, h, Tree.map, bind, Except.bind, pure, Except.pure]
  | .dict d, h => by
    simp only [Tree.All] at h
    simp [Tree.mapE, Tree.map, Dict.mapE_ok_of_all f g d h, bind, Except.bind, pure, Except.pure]
  | .seq s, h => by
    simp only [Tree.All] at h
    simp [Tree.mapE, Tree.map, Seq.mapE_ok_of_all f g s h, bind, Except.bind, pure, Except.pure]
theorem Dict.mapE_ok_of_all (f : α → Except Err β) (g : α → β) : (d : Dict α) → d.All (fun a => f a = .ok (g a)) →
    d.mapE f = .ok (d.map g)
  | .nil, _ => rfl
  | .cons k v rest, h => by
    simp only [Dict.All] at h
    simp [Dict.mapE, Dict.map, Tree.mapE_ok_of_all f g v h.1, Dict.mapE_ok_of_all f g rest h.2, bind, Except.bind,
      pure, Except.pure]
theorem Seq.mapE_ok_of_all (f : α → Except Err β) (g : α → β) : (s : Seq α) → s.All (fun a => f a = .ok (g a)) →
    s.mapE f = .ok (s.map g)
  | .nil, _ => rfl
  | .cons v rest, h => by
    simp only [Seq.All] at h
    simp [Seq.mapE, Seq.map, Tree.mapE_ok_of_all f g v h.1, Seq.mapE_ok_of_all f g rest h.2, bind, Except.bind,
      pure, Except.pure]
end

/-- `map_structure` of a one-argument function over one structure. -/
theorem Tree.mapStructure_one_of_all (f : List α → Except Err β) (g : α → β) (t : Tree α) (ht : t.WF)
    (h : t.All (fun a => f [a] = .ok (g a))) : Tree.mapStructure f [t] = .ok (t.map g) := by
  have := Tree.mapStructure_cols (ι := Unit) f [()] (by simp) (t.map (fun a _ => a)) ((Tree.wf_map _ _).mpr ht)
  simp only [List.map_cons, List.map_nil, Tree.map_map] at this
  rw [show (fun a : α => a) = id from rfl, Tree.map_id] at this
  rw [this, Tree.mapE_ok_of_all _ (fun v => g (v ())), Tree.map_map]
  exact (Tree.all_map _ _ _).mpr h
end WBX
