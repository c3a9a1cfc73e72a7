import Verif.Lemmas.Serialize

/-!
# Lemmas for serialisation: trees of datasets
-/

namespace WBX
set_option linter.unusedSectionVars false
variable {α β γ : Type}

mutual
/-- The leaves with their key paths. -/
def Tree.entries : Tree β → List (List String × β)
  | .leaf b => [([], b)]
  | .dict d => d.entries
  | .seq _ => []
def Dict.entries : Dict β → List (List String × β)
  | .nil => []
  | .cons k v rest => v.entries.map (fun p => (k :: p.1, p.2)) ++ rest.entries
end

theorem Dict.entries_head : (d : Dict β) → ∀ p b, (p, b) ∈ d.entries → ∃ k p', p = k :: p' ∧ k ∈ d.keys
  | .nil, p, b, h => by simp [Dict.entries] at h
  | .cons k v rest, p, b, h => by
    rw [Dict.entries, List.mem_append] at h
    rcases h with h | h
    · obtain ⟨q, hq, he⟩ := List.mem_map.mp h
      simp only [Prod.mk.injEq] at he
      exact ⟨k, q.1, he.1.symm, by simp [Dict.keys]⟩
    · obtain ⟨k', p', rfl, hk⟩ := Dict.entries_head rest p b h
      exact ⟨k', p', rfl, by simp [Dict.keys, hk]⟩

mutual
theorem Tree.getPath_iff : (t : Tree β) → t.WF → ∀ p b, t.getPath p = some b ↔ (p, b) ∈ t.entries
  | .leaf a, _, p, b => by
    rcases p with _ | ⟨k, p⟩ <;> simp [Tree.getPath, Tree.entries, eq_comm]
  | .dict d, h, p, b => by
    rcases p with _ | ⟨k, p⟩
    · simp only [Tree.getPath, Tree.entries, reduceCtorEq, false_iff]
      intro hm
      obtain ⟨k, p', hc, -⟩ := Dict.entries_head d _ _ hm
      simp at hc
    · rw [Tree.getPath, Tree.entries]
      exact Dict.getPath_iff d h.1 h.2 k p b
  | .seq _, _, p, b => by simp [Tree.getPath, Tree.entries]
theorem Dict.getPath_iff : (d : Dict β) → d.keys.Nodup → d.WF → ∀ k p b,
    d.getPath k p = some b ↔ (k :: p, b) ∈ d.entries
  | .nil, _, _, k, p, b => by simp [Dict.getPath, Dict.entries]
  | .cons k' v rest, hn, hw, k, p, b => by
    rw [Dict.keys, List.nodup_cons] at hn
    rw [Dict.getPath, Dict.entries, List.mem_append]
    by_cases hk : k' = k
    · subst hk
      rw [if_pos rfl, Tree.getPath_iff v hw.1 p b]
      constructor
      · intro h
        exact Or.inl (List.mem_map.mpr ⟨(p, b), h, rfl⟩)
      · rintro (h | h)
        · obtain ⟨q, hq, he⟩ := List.mem_map.mp h
          simp only [Prod.mk.injEq, List.cons.injEq, true_and] at he
          obtain ⟨rfl, rfl⟩ := he
          exact hq
        · obtain ⟨k'', p', he, hm⟩ := Dict.entries_head rest _ _ h
          simp only [List.cons.injEq] at he
          rw [← he.1] at hm
          exact absurd hm hn.1
    · rw [if_neg hk, Dict.getPath_iff rest hn.2 hw.2 k p b]
      constructor
      · exact Or.inr
      · rintro (h | h)
        · obtain ⟨q, hq, he⟩ := List.mem_map.mp h
          simp only [Prod.mk.injEq, List.cons.injEq] at he
          exact absurd he.1.1 hk
        · exact h
end

mutual
/-- A leaf has nothing below it. -/
theorem Tree.getPath_append : (t : Tree β) → ∀ p r a b, t.getPath p = some a → t.getPath (p ++ r) = some b → r = []
  | .leaf _, p, r, a, b, h1, h2 => by
    rcases p with _ | ⟨k, p⟩
    · rcases r with _ | ⟨k, r⟩
      · rfl
      · simp [Tree.getPath] at h2
    · simp [Tree.getPath] at h1
  | .dict d, p, r, a, b, h1, h2 => by
    rcases p with _ | ⟨k, p⟩
    · simp [Tree.getPath] at h1
    · rw [Tree.getPath] at h1
      rw [List.cons_append, Tree.getPath] at h2
      exact Dict.getPath_append d k p r a b h1 h2
  | .seq _, p, r, a, b, h1, h2 => by simp [Tree.getPath] at h1
theorem Dict.getPath_append : (d : Dict β) → ∀ k p r a b, d.getPath k p = some a → d.getPath k (p ++ r) = some b → r = []
  | .nil, k, p, r, a, b, h1, h2 => by simp [Dict.getPath] at h1
  | .cons k' v rest, k, p, r, a, b, h1, h2 => by
    rw [Dict.getPath] at h1 h2
    by_cases hk : k' = k
    · rw [if_pos hk] at h1 h2
      exact Tree.getPath_append v p r a b h1 h2
    · rw [if_neg hk] at h1 h2
      exact Dict.getPath_append rest k p r a b h1 h2
end

theorem Tree.entries_antichain (t : Tree β) (ht : t.WF) (p q : List String) (a b : β) (hp : (p, a) ∈ t.entries)
    (hq : (q, b) ∈ t.entries) (h : p <+: q) : p = q := by
  obtain ⟨r, rfl⟩ := h
  rw [← Tree.getPath_iff t ht] at hp hq
  have := Tree.getPath_append t p r a b hp hq
  simp [this]

mutual
theorem Tree.entries_nodup : (t : Tree β) → t.WF → (t.entries.map Prod.fst).Nodup
  | .leaf _, _ => by simp [Tree.entries]
  | .dict d, h => by rw [Tree.entries]; exact Dict.entries_nodup d h.1 h.2
  | .seq _, _ => by simp [Tree.entries]
theorem Dict.entries_nodup : (d : Dict β) → d.keys.Nodup → d.WF → (d.entries.map Prod.fst).Nodup
  | .nil, _, _ => by simp [Dict.entries]
  | .cons k v rest, hn, hw => by
    rw [Dict.keys, List.nodup_cons] at hn
    rw [Dict.entries, List.map_append, List.nodup_append]
    refine ⟨?_, Dict.entries_nodup rest hn.2 hw.2, ?_⟩
    · rw [List.map_map]
      have : (Prod.fst ∘ fun p : List String × β => (k :: p.1, p.2)) = (fun p => k :: p) ∘ Prod.fst := rfl
      rw [this, ← List.map_map]
      exact (Tree.entries_nodup v hw.1).map (fun x y h => by simpa using h)
    · intro p hp q hq he
      subst he
      simp only [List.map_map, List.mem_map, Function.comp] at hp hq
      obtain ⟨x, hx, rfl⟩ := hp
      obtain ⟨y, hy, he⟩ := hq
      obtain ⟨k', p', he', hk'⟩ := Dict.entries_head rest y.1 y.2 hy
      rw [he', List.cons.injEq] at he
      rw [he.1] at hk'
      exact hn.1 hk'
end

mutual
theorem Tree.entries_map (g : β → γ) : (t : Tree β) → (t.map g).entries = t.entries.map (fun p => (p.1, g p.2))
  | .leaf _ => rfl
  | .dict d => by rw [Tree.map, Tree.entries, Tree.entries, Dict.entries_map g d]
  | .seq _ => rfl
theorem Dict.entries_map (g : β → γ) : (d : Dict β) → (d.map g).entries = d.entries.map (fun p => (p.1, g p.2))
  | .nil => rfl
  | .cons k v rest => by
    rw [Dict.map, Dict.entries, Dict.entries, Tree.entries_map g v, Dict.entries_map g rest]
    simp [Function.comp_def]
end

mutual
theorem Tree.entries_keys (P : String → Prop) : (t : Tree β) → t.AllKeys P → ∀ p b, (p, b) ∈ t.entries → ∀ k ∈ p, P k
  | .leaf _, _, p, b, h => by simp [Tree.entries] at h; simp [h.1]
  | .dict d, hk, p, b, h => Dict.entries_keys P d hk p b (by simpa [Tree.entries] using h)
  | .seq _, _, p, b, h => by simp [Tree.entries] at h
theorem Dict.entries_keys (P : String → Prop) : (d : Dict β) → d.AllKeys P → ∀ p b, (p, b) ∈ d.entries → ∀ k ∈ p, P k
  | .nil, _, p, b, h => by simp [Dict.entries] at h
  | .cons k v rest, hk, p, b, h => by
    rw [Dict.entries, List.mem_append] at h
    rcases h with h | h
    · obtain ⟨q, hq, he⟩ := List.mem_map.mp h
      simp only [Prod.mk.injEq] at he
      intro k' hk'
      rw [← he.1, List.mem_cons] at hk'
      rcases hk' with rfl | hk'
      · exact hk.1
      · exact Tree.entries_keys P v hk.2.1 q.1 q.2 hq k' hk'
    · exact Dict.entries_keys P rest hk.2.2 p b h
end

mutual
theorem Tree.allKeys_map (g : β → γ) (P : String → Prop) : (t : Tree β) → ((t.map g).AllKeys P ↔ t.AllKeys P)
  | .leaf _ => Iff.rfl
  | .dict d => by rw [Tree.map, Tree.AllKeys, Tree.AllKeys]; exact Dict.allKeys_map g P d
  | .seq s => by rw [Tree.map, Tree.AllKeys, Tree.AllKeys]; exact Seq.allKeys_map g P s
theorem Dict.allKeys_map (g : β → γ) (P : String → Prop) : (d : Dict β) → ((d.map g).AllKeys P ↔ d.AllKeys P)
  | .nil => Iff.rfl
  | .cons k v rest => by
    rw [Dict.map, Dict.AllKeys, Dict.AllKeys, Tree.allKeys_map g P v, Dict.allKeys_map g P rest]
theorem Seq.allKeys_map (g : β → γ) (P : String → Prop) : (d : Seq β) → ((d.map g).AllKeys P ↔ d.AllKeys P)
  | .nil => Iff.rfl
  | .cons v rest => by
    rw [Seq.map, Seq.AllKeys, Seq.AllKeys, Tree.allKeys_map g P v, Seq.allKeys_map g P rest]
end

mutual
theorem Tree.allKeys_imp {P Q : String → Prop} (h : ∀ k, P k → Q k) : (t : Tree β) → t.AllKeys P → t.AllKeys Q
  | .leaf _, _ => trivial
  | .dict d, hd => Dict.allKeys_imp h d hd
  | .seq s, hs => Seq.allKeys_imp h s hs
theorem Dict.allKeys_imp {P Q : String → Prop} (h : ∀ k, P k → Q k) : (d : Dict β) → d.AllKeys P → d.AllKeys Q
  | .nil, _ => trivial
  | .cons _ v rest, hd => ⟨h _ hd.1, Tree.allKeys_imp h v hd.2.1, Dict.allKeys_imp h rest hd.2.2⟩
theorem Seq.allKeys_imp {P Q : String → Prop} (h : ∀ k, P k → Q k) : (d : Seq β) → d.AllKeys P → d.AllKeys Q
  | .nil, _ => trivial
  | .cons v rest, hd => ⟨Tree.allKeys_imp h v hd.1, Seq.allKeys_imp h rest hd.2⟩
end

mutual
theorem Tree.dictsOnly_map (g : β → γ) : (t : Tree β) → ((t.map g).DictsOnly ↔ t.DictsOnly)
  | .leaf _ => Iff.rfl
  | .dict d => by rw [Tree.map, Tree.DictsOnly, Tree.DictsOnly]; exact Dict.dictsOnly_map g d
  | .seq s => Iff.rfl
theorem Dict.dictsOnly_map (g : β → γ) : (d : Dict β) → ((d.map g).DictsOnly ↔ d.DictsOnly)
  | .nil => Iff.rfl
  | .cons k v rest => by
    rw [Dict.map, Dict.DictsOnly, Dict.DictsOnly, Tree.dictsOnly_map g v, Dict.dictsOnly_map g rest]
end

/-- A pair of structures of the same shape is a structure of pairs. -/
theorem Tree.exists_zip (a b : Tree α) (h : a.shape = b.shape) :
    ∃ t : Tree (α × α), a = t.map Prod.fst ∧ b = t.map Prod.snd := by
  obtain ⟨T, hT⟩ := Tree.exists_table a.shape (fun i : Bool => if i then a else b) (by
    intro i; cases i <;> simp [h])
  refine ⟨T.map (fun f => (f true, f false)), ?_, ?_⟩
  · rw [Tree.map_map]; exact (hT.2 true).symm
  · rw [Tree.map_map]; exact (hT.2 false).symm

namespace Serialize

mutual
/-- The DataTree of a structure whose leaves become the datasets `f b`. -/
def pureDT (f : β → List (String × α)) : Tree β → DT α
  | .leaf b => .node (f b) .nil
  | .dict d => .node [] (pureDTs f d)
  | .seq _ => .node [] .nil
def pureDTs (f : β → List (String × α)) : Dict β → DTs α
  | .nil => .nil
  | .cons k v rest => .cons k (pureDT f v) (pureDTs f rest)
end

mutual
theorem nodes_filter (f : β → List (String × α)) (hf : ∀ b, f b ≠ []) : (t : Tree β) →
    (nodes (pureDT f t)).filter (fun p => p.2 ≠ []) = t.entries.map (fun p => (p.1, f p.2))
  | .leaf b => by simp [pureDT, nodes, nodesOf, Tree.entries, hf b]
  | .dict d => by
    rw [pureDT, nodes, List.filter_cons_of_neg (by simp), Tree.entries, nodesOf_filter f hf d]
  | .seq _ => by simp [pureDT, nodes, nodesOf, Tree.entries]
theorem nodesOf_filter (f : β → List (String × α)) (hf : ∀ b, f b ≠ []) : (d : Dict β) →
    (nodesOf (pureDTs f d)).filter (fun p => p.2 ≠ []) = d.entries.map (fun p => (p.1, f p.2))
  | .nil => by simp [pureDTs, nodesOf, Dict.entries]
  | .cons k v rest => by
    rw [pureDTs, nodesOf, List.filter_append, nodesOf_filter f hf rest, List.filter_map, Dict.entries, List.map_append]
    congr 1
    have := nodes_filter f hf v
    simp only [Function.comp_def]
    rw [this]
    simp [Function.comp_def]
end

/-- The dataset at a path, `none` if there is no such node. -/
def child? : DTs α → String → Option (DT α)
  | .nil, _ => none
  | .cons k t rest, k' => if k = k' then some t else child? rest k'

def dsAt : List String → DT α → Option (List (String × α))
  | [], .node ds _ => some ds
  | k :: p, .node _ cs => (child? cs k).bind (dsAt p)

theorem setNew_spec (ds : List (String × α)) : (p : List String) → ∃ t, setNew ds p = .ok t ∧
    ∀ q, dsAt q t = if q = p then some ds else if q <+: p then some [] else none
  | [] => ⟨.node ds .nil, rfl, by
      intro q
      rcases q with _ | ⟨k, q⟩
      · rfl
      · simp [dsAt, child?]⟩
  | k :: p => by
    obtain ⟨t, ht, hq⟩ := setNew_spec ds p
    refine ⟨.node [] (.cons k t .nil), by simp [setNew, ht, bind, Except.bind, pure, Except.pure], ?_⟩
    intro q
    rcases q with _ | ⟨k', q⟩
    · simp [dsAt]
    · by_cases hk : k = k'
      · subst hk
        simp [dsAt, child?, hq q]
      · have hk' : ¬ k' = k := fun h => hk h.symm
        simp [dsAt, child?, hk, hk']

theorem setChild_eq (ds : List (String × α)) (k : String) (rest : List String) : (cs : DTs α) →
    (child? cs k = none → ∃ cs' t, setChild ds k rest cs = .ok cs' ∧ setNew ds rest = .ok t ∧ child? cs' k = some t ∧
      ∀ k', k' ≠ k → child? cs' k' = child? cs k') ∧
    (∀ t t', child? cs k = some t → setItem ds rest t = .ok t' → ∃ cs', setChild ds k rest cs = .ok cs' ∧
      child? cs' k = some t' ∧ ∀ k', k' ≠ k → child? cs' k' = child? cs k')
  | .nil => by
    constructor
    · intro _
      obtain ⟨t, ht, -⟩ := setNew_spec ds rest
      refine ⟨.cons k t .nil, t, ?_, ht, by simp [child?], fun k' hk' => by simp [child?, hk'.symm]⟩
      rcases rest with _ | ⟨k', rest⟩
      · simp only [setNew, Except.ok.injEq] at ht
        subst ht
        rfl
      · simp [setChild, ht, bind, Except.bind, pure, Except.pure]
    · intro t t' h
      simp [child?] at h
  | .cons k0 t0 more => by
    obtain ⟨ih1, ih2⟩ := setChild_eq ds k rest more
    constructor
    · intro h
      rw [child?] at h
      by_cases hk : k0 = k
      · simp [hk] at h
      · rw [if_neg hk] at h
        obtain ⟨cs', t, h1, h2, h3, h4⟩ := ih1 h
        refine ⟨.cons k0 t0 cs', t, ?_, h2, ?_, ?_⟩
        · simp [setChild, hk, h1, bind, Except.bind, pure, Except.pure]
        · simp [child?, hk, h3]
        · intro k' hk'
          by_cases h0 : k0 = k'
          · simp [child?, h0]
          · simp [child?, h0, h4 k' hk']
    · intro t t' h hs
      rw [child?] at h
      by_cases hk : k0 = k
      · rw [if_pos hk] at h
        simp only [Option.some.injEq] at h
        subst h
        refine ⟨.cons k0 t' more, ?_, by simp [child?, hk], ?_⟩
        · simp [setChild, hk, hs, bind, Except.bind, pure, Except.pure]
        · intro k' hk'
          simp [child?, hk, hk'.symm]
      · rw [if_neg hk] at h
        obtain ⟨cs', h1, h3, h4⟩ := ih2 t t' h hs
        refine ⟨.cons k0 t0 cs', ?_, by simp [child?, hk, h3], ?_⟩
        · simp [setChild, hk, h1, bind, Except.bind, pure, Except.pure]
        · intro k' hk'
          by_cases h0 : k0 = k'
          · simp [child?, h0]
          · simp [child?, h0, h4 k' hk']

/-- Setting a new path: the new node gets the dataset, missing nodes on the way are empty, nothing else changes. -/
theorem setItem_spec (ds : List (String × α)) : (p : List String) → (t : DT α) → dsAt p t = none →
    ∃ t', setItem ds p t = .ok t' ∧
      ∀ q, dsAt q t' = if q = p then some ds else if q <+: p then some ((dsAt q t).getD []) else dsAt q t
  | [], .node ds0 cs, h => by simp [dsAt] at h
  | k :: p, .node ds0 cs, h => by
    rw [dsAt] at h
    obtain ⟨h1, h2⟩ := setChild_eq ds k p cs
    rcases hc : child? cs k with _ | t0
    · obtain ⟨cs', t, e1, e2, e3, e4⟩ := h1 hc
      refine ⟨.node ds0 cs', by simp [setItem, e1, bind, Except.bind, pure, Except.pure], ?_⟩
      obtain ⟨t', ht', hq⟩ := setNew_spec ds p
      rw [e2] at ht'
      simp only [Except.ok.injEq] at ht'
      subst ht'
      intro q
      rcases q with _ | ⟨k', q⟩
      · simp [dsAt]
      · by_cases hk : k' = k
        · subst hk
          simp [dsAt, e3, hq q, hc]
        · simp [dsAt, e4 k' hk, hk]
    · rw [hc] at h
      simp only [Option.bind_some] at h
      obtain ⟨t', ht', hq⟩ := setItem_spec ds p t0 h
      obtain ⟨cs', e1, e3, e4⟩ := h2 t0 t' hc ht'
      refine ⟨.node ds0 cs', by simp [setItem, e1, bind, Except.bind, pure, Except.pure], ?_⟩
      intro q
      rcases q with _ | ⟨k', q⟩
      · simp [dsAt]
      · by_cases hk : k' = k
        · subst hk
          simp [dsAt, e3, hq q, hc]
        · simp [dsAt, e4 k' hk, hk]

/-- Setting the paths of an antichain one after the other. -/
theorem foldlM_setItem : (l done : List (List String × List (String × α))) → (t : DT α) →
    (∀ p ∈ l ++ done, p.1 ≠ []) → ((l ++ done).map Prod.fst).Nodup →
    (∀ p ∈ l ++ done, ∀ q ∈ l ++ done, p.1 <+: q.1 → p.1 = q.1) →
    (∀ q, (∀ d, (q, d) ∈ done → dsAt q t = some d) ∧
      ((∀ d, (q, d) ∉ done) → dsAt q t = if q = [] ∨ ∃ p ∈ done, q <+: p.1 then some [] else none)) →
    ∃ t', l.foldlM (fun t p => setItem p.2 p.1 t) t = .ok t' ∧
      ∀ q, (∀ d, (q, d) ∈ l ++ done → dsAt q t' = some d) ∧
        ((∀ d, (q, d) ∉ l ++ done) → dsAt q t' = some [] ∨ dsAt q t' = none)
  | [], done, t, _, _, _, h => by
    refine ⟨t, rfl, fun q => ⟨fun d hd => (h q).1 d (by simpa using hd), fun hd => ?_⟩⟩
    rw [(h q).2 (by simpa using hd)]
    split <;> simp
  | (p, ds) :: l, done, t, hne, hnd, hac, h => by
    have hp : dsAt p t = none := by
      have hnot : ∀ d, (p, d) ∉ done := by
        intro d hd
        simp only [List.cons_append, List.map_cons, List.nodup_cons, List.mem_map] at hnd
        exact hnd.1 ⟨(p, d), by simp [hd], rfl⟩
      rw [(h p).2 hnot, if_neg]
      rintro (h0 | ⟨q, hq, hpq⟩)
      · exact hne (p, ds) (by simp) h0
      · have := hac (p, ds) (by simp) q (by simp [hq]) hpq
        simp only at this
        exact hnot q.2 (by rw [this]; exact hq)
    obtain ⟨t1, ht1, hq1⟩ := setItem_spec ds p t hp
    have hperm : (l ++ (p, ds) :: done).Perm ((p, ds) :: l ++ done) := List.perm_middle
    obtain ⟨t', ht', hq'⟩ := foldlM_setItem l ((p, ds) :: done) t1 (by
        intro q hq; exact hne q (hperm.mem_iff.mp hq)) ((hperm.map Prod.fst).nodup_iff.mpr hnd) (by
        intro q hq r hr; exact hac q (hperm.mem_iff.mp hq) r (hperm.mem_iff.mp hr)) (by
        intro q
        constructor
        · intro d hd
          rw [hq1 q]
          by_cases hqp : q = p
          · rw [if_pos hqp]
            subst hqp
            rcases List.mem_cons.mp hd with he | hd
            · simp only [Prod.mk.injEq, true_and] at he
              rw [he]
            · exfalso
              simp only [List.cons_append, List.map_cons, List.nodup_cons, List.mem_map] at hnd
              exact hnd.1 ⟨(q, d), by simp [hd], rfl⟩
          · rw [if_neg hqp]
            have hd' : (q, d) ∈ done := by
              rcases List.mem_cons.mp hd with he | hd
              · simp only [Prod.mk.injEq] at he
                exact absurd he.1 hqp
              · exact hd
            rw [(h q).1 d hd', if_neg]
            intro hpre
            have := hac (q, d) (by simp [hd']) (p, ds) (by simp) hpre
            exact hqp this
        · intro hd
          have hqp : q ≠ p := fun he => hd ds (by simp [he])
          have hd' : ∀ d, (q, d) ∉ done := fun d hd' => hd d (by simp [hd'])
          rw [hq1 q, if_neg hqp, (h q).2 hd']
          by_cases hpre : q <+: p
          · have hR : q = [] ∨ ∃ p' ∈ (p, ds) :: done, q <+: p'.1 := Or.inr ⟨(p, ds), by simp, hpre⟩
            rw [if_pos hpre, if_pos hR]
            split <;> rfl
          · rw [if_neg hpre]
            congr 1
            simp [hpre])
    refine ⟨t', by simp [List.foldlM, ht1, bind, Except.bind, ht'], ?_⟩
    intro q
    obtain ⟨e1, e2⟩ := hq' q
    exact ⟨fun d hd => e1 d (hperm.mem_iff.mpr hd), fun hd => e2 (fun d hd' => hd d (hperm.mem_iff.mp hd'))⟩

/-- What `from_data_tree` finds at a path. -/
def leafAt (name : String) : List String → DT α → Option α
  | [], .node ds _ => pyGet? name ds
  | k :: p, .node ds cs => if ds ≠ [] then none else (child? cs k).bind (leafAt name p)

mutual
theorem fromDataTree_get : (t : DT α) → ∀ r, fromDataTree t = .ok r → ∀ p,
    r.1.getPath p = leafAt swsName p t ∧ r.2.getPath p = leafAt swName p t
  | .node ds cs, r, h, p => by
    rw [fromDataTree] at h
    by_cases hd : ds = []
    · rw [if_neg (by simp [hd])] at h
      rcases hc : fromDataTrees cs with e | rs
      · rw [hc] at h; simp [bind, Except.bind] at h
      · rw [hc] at h
        simp only [bind, Except.bind, pure, Except.pure, Except.ok.injEq] at h
        subst h
        rcases p with _ | ⟨k, p⟩
        · simp [Tree.getPath, leafAt, hd, pyGet?]
        · simp only [Tree.getPath, leafAt, hd]
          simpa using fromDataTrees_get cs rs hc k p
    · rw [if_pos hd] at h
      rcases h1 : pyGet? swsName ds with _ | a
      · simp [dsGet, h1, bind, Except.bind] at h
      rcases h2 : pyGet? swName ds with _ | b
      · simp [dsGet, h1, h2, bind, Except.bind] at h
      simp only [dsGet, h1, h2, bind, Except.bind, pure, Except.pure, Except.ok.injEq] at h
      subst h
      rcases p with _ | ⟨k, p⟩
      · simp [Tree.getPath, leafAt, h1, h2]
      · simp [Tree.getPath, leafAt, hd]
theorem fromDataTrees_get : (cs : DTs α) → ∀ r, fromDataTrees cs = .ok r → ∀ k p,
    r.1.getPath k p = (child? cs k).bind (leafAt swsName p) ∧ r.2.getPath k p = (child? cs k).bind (leafAt swName p)
  | .nil, r, h, k, p => by
    simp only [fromDataTrees, Except.ok.injEq] at h
    subst h
    simp [Dict.getPath, child?]
  | .cons k0 t rest, r, h, k, p => by
    rw [fromDataTrees] at h
    rcases h1 : fromDataTree t with e | a
    · rw [h1] at h; simp [bind, Except.bind] at h
    rcases h2 : fromDataTrees rest with e | b
    · rw [h1, h2] at h; simp [bind, Except.bind] at h
    rw [h1, h2] at h
    simp only [bind, Except.bind, pure, Except.pure, Except.ok.injEq] at h
    subst h
    simp only [Dict.getPath, child?]
    by_cases hk : k0 = k
    · simpa [hk] using fromDataTree_get t a h1 p
    · simpa [hk] using fromDataTrees_get rest b h2 k p
end

mutual
/-- Every nonempty dataset of the tree satisfies `P`. -/
def AllDS (P : List (String × α) → Prop) : DT α → Prop
  | .node ds cs => (ds ≠ [] → P ds) ∧ AllDSs P cs
def AllDSs (P : List (String × α) → Prop) : DTs α → Prop
  | .nil => True
  | .cons _ t rest => AllDS P t ∧ AllDSs P rest
end

mutual
theorem setItem_all (P : List (String × α) → Prop) (ds : List (String × α)) (hP : P ds) : (p : List String) → (t : DT α) →
    AllDS P t → ∀ t', setItem ds p t = .ok t' → AllDS P t'
  | [], _, _, t', h => by simp [setItem] at h
  | k :: p, .node ds0 cs, ha, t', h => by
    rw [setItem] at h
    rcases hc : setChild ds k p cs with e | cs'
    · rw [hc] at h; simp [bind, Except.bind] at h
    · rw [hc] at h
      simp only [bind, Except.bind, pure, Except.pure, Except.ok.injEq] at h
      subst h
      exact ⟨ha.1, setChild_all P ds hP k p cs ha.2 cs' hc⟩
theorem setChild_all (P : List (String × α) → Prop) (ds : List (String × α)) (hP : P ds) (k : String)
    (p : List String) : (cs : DTs α) → AllDSs P cs → ∀ cs', setChild ds k p cs = .ok cs' → AllDSs P cs'
  | .nil, _, cs', h => by
    have hn := setNew_all P ds hP p
    obtain ⟨t, ht, -⟩ := setNew_spec ds p
    rcases p with _ | ⟨k', p⟩
    · simp only [setChild, Except.ok.injEq] at h
      subst h
      exact ⟨⟨fun _ => hP, trivial⟩, trivial⟩
    · simp only [setChild, ht, bind, Except.bind, pure, Except.pure, Except.ok.injEq] at h
      subst h
      exact ⟨hn t ht, trivial⟩
  | .cons k0 t rest, ha, cs', h => by
    rw [setChild] at h
    by_cases hk : k0 = k
    · rw [if_pos hk] at h
      rcases hc : setItem ds p t with e | t'
      · rw [hc] at h; simp [bind, Except.bind] at h
      · rw [hc] at h
        simp only [bind, Except.bind, pure, Except.pure, Except.ok.injEq] at h
        subst h
        exact ⟨setItem_all P ds hP p t ha.1 t' hc, ha.2⟩
    · rw [if_neg hk] at h
      rcases hc : setChild ds k p rest with e | r'
      · rw [hc] at h; simp [bind, Except.bind] at h
      · rw [hc] at h
        simp only [bind, Except.bind, pure, Except.pure, Except.ok.injEq] at h
        subst h
        exact ⟨ha.1, setChild_all P ds hP k p rest ha.2 r' hc⟩
theorem setNew_all (P : List (String × α) → Prop) (ds : List (String × α)) (hP : P ds) : (p : List String) →
    ∀ t, setNew ds p = .ok t → AllDS P t
  | [], t, h => by
    simp only [setNew, Except.ok.injEq] at h
    subst h
    exact ⟨fun _ => hP, trivial⟩
  | k :: p, t, h => by
    rw [setNew] at h
    rcases hc : setNew ds p with e | t'
    · rw [hc] at h; simp [bind, Except.bind] at h
    · rw [hc] at h
      simp only [bind, Except.bind, pure, Except.pure, Except.ok.injEq] at h
      subst h
      exact ⟨fun h => absurd rfl h, setNew_all P ds hP p t' hc, trivial⟩
end

theorem foldlM_all (P : List (String × α) → Prop) : (l : List (List String × List (String × α))) → (t : DT α) →
    AllDS P t → (∀ p ∈ l, P p.2) → ∀ t', l.foldlM (fun t p => setItem p.2 p.1 t) t = .ok t' → AllDS P t'
  | [], t, ha, _, t', h => by
    simp only [List.foldlM, pure, Except.pure, Except.ok.injEq] at h
    subst h; exact ha
  | p :: l, t, ha, hl, t', h => by
    rw [List.foldlM] at h
    rcases hc : setItem p.2 p.1 t with e | t1
    · rw [hc] at h; simp [bind, Except.bind] at h
    · rw [hc] at h
      simp only [bind, Except.bind] at h
      exact foldlM_all P l t1 (setItem_all P p.2 (hl p (by simp)) p.1 t ha t1 hc) (fun q hq => hl q (by simp [hq])) t' h

/-- The two variables of a leaf dataset are there. -/
def HasBoth (ds : List (String × α)) : Prop := (∃ a, pyGet? swsName ds = some a) ∧ ∃ b, pyGet? swName ds = some b

mutual
theorem fromDataTree_ok : (t : DT α) → AllDS HasBoth t → ∃ r, fromDataTree t = .ok r
  | .node ds cs, h => by
    rw [fromDataTree]
    by_cases hd : ds = []
    · rw [if_neg (by simp [hd])]
      obtain ⟨r, hr⟩ := fromDataTrees_ok cs h.2
      exact ⟨_, by simp only [hr, bind, Except.bind, pure, Except.pure]; rfl⟩
    · rw [if_pos hd]
      obtain ⟨⟨a, ha⟩, b, hb⟩ := h.1 hd
      exact ⟨_, by simp only [dsGet, ha, hb, bind, Except.bind, pure, Except.pure]; rfl⟩
theorem fromDataTrees_ok : (cs : DTs α) → AllDSs HasBoth cs → ∃ r, fromDataTrees cs = .ok r
  | .nil, _ => ⟨_, rfl⟩
  | .cons k t rest, h => by
    obtain ⟨a, ha⟩ := fromDataTree_ok t h.1
    obtain ⟨b, hb⟩ := fromDataTrees_ok rest h.2
    exact ⟨_, by simp only [fromDataTrees, ha, hb, bind, Except.bind, pure, Except.pure]; rfl⟩
end

/-- Below nodes with empty datasets, the leaf is the variable of the dataset. -/
theorem leafAt_eq (name : String) : (p : List String) → (t : DT α) →
    (∀ q, q <+: p → q ≠ p → dsAt q t = some [] ∨ dsAt q t = none) →
    leafAt name p t = (dsAt p t).bind (pyGet? name)
  | [], .node ds cs, _ => by simp [leafAt, dsAt]
  | k :: p, .node ds cs, h => by
    have h0 : ds = [] := by
      rcases h [] (by simp) (by simp) with h | h <;> simpa [dsAt] using h
    rw [leafAt, if_neg (by simp [h0]), dsAt]
    rcases hc : child? cs k with _ | t
    · rfl
    · simp only [Option.bind_some]
      apply leafAt_eq name p t
      intro q hq hne
      have := h (k :: q) (by simpa using hq) (by simpa using hne)
      simpa [dsAt, hc] using this

/-- If the path is not a dataset path, the leaf there is missing. -/
theorem leafAt_none (name : String) : (p : List String) → (t : DT α) → (dsAt p t = some [] ∨ dsAt p t = none) →
    leafAt name p t = none
  | [], .node ds cs, h => by
    have h0 : ds = [] := by simpa [dsAt] using h
    simp [leafAt, h0, pyGet?]
  | k :: p, .node ds cs, h => by
    rw [leafAt]
    split
    · rfl
    · rcases hc : child? cs k with _ | t
      · rfl
      · simp only [Option.bind_some]
        exact leafAt_none name p t (by simpa [dsAt, hc] using h)

end Serialize
end WBX
