import Verif.Lemmas.SerializeTree
import Verif.Lemmas.Array
import Mathlib.Data.List.Nodup
import Mathlib.Data.List.Perm.Basic
import Mathlib.Algebra.Order.Ring.Rat

/-!
# C14: serialisation of aggregation states round-trips
-/

namespace WBX
set_option linter.unusedSectionVars false
variable {L V : Type} [DecidableEq L]

mutual
theorem Tree.getPath_map {α β : Type} (g : α → β) : (t : Tree α) → ∀ p, (t.map g).getPath p = (t.getPath p).map g
  | .leaf a, p => by rcases p with _ | ⟨k, p⟩ <;> rfl
  | .dict d, p => by
    rcases p with _ | ⟨k, p⟩
    · rfl
    · rw [Tree.map, Tree.getPath, Tree.getPath]; exact Dict.getPath_map g d k p
  | .seq _, p => by rcases p with _ | ⟨k, p⟩ <;> rfl
theorem Dict.getPath_map {α β : Type} (g : α → β) : (d : Dict α) → ∀ k p, (d.map g).getPath k p = (d.getPath k p).map g
  | .nil, k, p => rfl
  | .cons k' v rest, k, p => by
    rw [Dict.map, Dict.getPath, Dict.getPath]
    split
    · exact Tree.getPath_map g v p
    · exact Dict.getPath_map g rest k p
end

mutual
theorem Tree.rel_map_of_entries {α β γ : Type} (r : β → γ → Prop) (g : α → β) (h : α → γ) : (t : Tree α) → t.DictsOnly →
    (∀ p a, (p, a) ∈ t.entries → r (g a) (h a)) → Tree.Rel r (t.map g) (t.map h)
  | .leaf a, _, H => H [] a (by simp [Tree.entries])
  | .dict d, hd, H => Dict.rel_map_of_entries r g h d hd (by simpa [Tree.entries] using H)
  | .seq _, hd, _ => by simp [Tree.DictsOnly] at hd
theorem Dict.rel_map_of_entries {α β γ : Type} (r : β → γ → Prop) (g : α → β) (h : α → γ) : (d : Dict α) → d.DictsOnly →
    (∀ p a, (p, a) ∈ d.entries → r (g a) (h a)) → Dict.Rel r (d.map g) (d.map h)
  | .nil, _, _ => trivial
  | .cons k v rest, hd, H => by
    refine ⟨rfl, Tree.rel_map_of_entries r g h v hd.1 ?_, Dict.rel_map_of_entries r g h rest hd.2 ?_⟩
    · intro p a hp
      exact H (k :: p) a (by rw [Dict.entries, List.mem_append]; exact Or.inl (List.mem_map.mpr ⟨(p, a), hp, rfl⟩))
    · intro p a hp
      exact H p a (by rw [Dict.entries, List.mem_append]; exact Or.inr hp)
end

namespace Serialize

/-- Reindexing to labels `C`, missing cells filled. -/
def reFill (fill : V) (C : Dim → Finset L) (a : DA L V) : DA L V :=
  { dims := a.dims, coords := C, val := fun e => if a.InDom e then a.val e else fill }

theorem reFill_same (fill : V) (C : Dim → Finset L) (a : DA L V) (h : ∀ d ∈ a.dims, C d = a.coords d) :
    (reFill fill C a).Same a := by
  refine ⟨rfl, h, ?_⟩
  intro e he
  have : a.InDom e := fun d hd => by rw [← h d hd]; exact he d hd
  simp [reFill, this]

theorem outerCoords_compat (l : List (DA L V)) (h : ∀ a ∈ l, ∀ b ∈ l, a.SameLabels b) (a : DA L V) (ha : a ∈ l)
    (d : Dim) (hd : d ∈ a.dims) : DA.outerCoords l d = a.coords d := by
  ext x
  rw [DA.mem_outerCoords]
  constructor
  · rintro ⟨b, hb, hdb, hx⟩
    rw [h a ha b hb d hd hdb]; exact hx
  · intro hx
    exact ⟨a, ha, hd, hx⟩

/-- The dataset of a leaf in the DataTree. -/
def leafDS (fill : V) (p : DA L V × DA L V) : DA L V × DA L V :=
  (reFill fill (DA.outerCoords [p.1, p.2]) p.1, reFill fill (DA.outerCoords [p.1, p.2]) p.2)

theorem leafDS_same (fill : V) (p : DA L V × DA L V) (h : p.1.SameLabels p.2) :
    (leafDS fill p).1.Same p.1 ∧ (leafDS fill p).2.Same p.2 := by
  have hc : ∀ a ∈ [p.1, p.2], ∀ b ∈ [p.1, p.2], a.SameLabels b := by
    intro a ha b hb
    simp only [List.mem_cons, List.not_mem_nil, or_false] at ha hb
    rcases ha with rfl | rfl <;> rcases hb with rfl | rfl
    · exact fun _ _ _ => rfl
    · exact h
    · exact fun d h1 h2 => (h d h2 h1).symm
    · exact fun _ _ _ => rfl
  exact ⟨reFill_same fill _ _ (outerCoords_compat _ hc p.1 (by simp)), reFill_same fill _ _ (outerCoords_compat _ hc p.2 (by simp))⟩

/-- The dataset with two variables. -/
def pairDS {α : Type} (p : α × α) : List (String × α) := [(swsName, p.1), (swName, p.2)]

mutual
theorem fromDataTree_pure {α β : Type} (g : β → α × α) : (t : Tree β) → t.DictsOnly →
    fromDataTree (pureDT (fun b => pairDS (g b)) t) = .ok (t.map (fun b => (g b).1), t.map (fun b => (g b).2))
  | .leaf b, _ => by
    simp [pureDT, fromDataTree, pairDS, dsGet, pyGet?, swsName, swName, bind, Except.bind, pure, Except.pure, Tree.map]
  | .dict d, h => by
    simp [pureDT, fromDataTree, fromDataTrees_pure g d h, bind, Except.bind, pure, Except.pure, Tree.map]
  | .seq _, h => by simp [Tree.DictsOnly] at h
theorem fromDataTrees_pure {α β : Type} (g : β → α × α) : (d : Dict β) → d.DictsOnly →
    fromDataTrees (pureDTs (fun b => pairDS (g b)) d) = .ok (d.map (fun b => (g b).1), d.map (fun b => (g b).2))
  | .nil, _ => rfl
  | .cons k v rest, h => by
    simp [pureDTs, fromDataTrees, fromDataTree_pure g v h.1, fromDataTrees_pure g rest h.2, bind, Except.bind, pure,
      Except.pure, Dict.map]
end

theorem mkDataset_pair (fill : V) (a b : DA L V) :
    mkDataset fill [(swsName, a), (swName, b)] = pairDS (leafDS fill (a, b)) := rfl

mutual
theorem toDataTree_eq (fill : V) : (t : Tree (DA L V × DA L V)) → t.WF → t.DictsOnly → t.AllKeys (fun k => '/' ∉ k.toList) →
    toDataTree fill (t.map Prod.fst) (t.map Prod.snd) = .ok (pureDT (fun p => pairDS (leafDS fill p)) t)
  | .leaf p, _, _, _ => rfl
  | .dict d, hw, hd, hk => by
    have := toDataTrees_eq fill d hw.1 hw.2 hd hk (d.map Prod.snd) (by
      intro k v hv
      rw [Dict.get_map, hv]; rfl)
    simp only [Tree.map, toDataTree, this, bind, Except.bind, pure, Except.pure]
    rfl
  | .seq _, _, hd, _ => by simp [Tree.DictsOnly] at hd
theorem toDataTrees_eq (fill : V) : (d : Dict (DA L V × DA L V)) → d.keys.Nodup → d.WF → d.DictsOnly →
    d.AllKeys (fun k => '/' ∉ k.toList) → (W : Dict (DA L V)) →
    (∀ k v, d.get k = .ok v → W.get k = .ok (v.map Prod.snd)) →
    toDataTrees fill (d.map Prod.fst) (.dict W) = .ok (pureDTs (fun p => pairDS (leafDS fill p)) d)
  | .nil, _, _, _, _, W, _ => rfl
  | .cons k v rest, hn, hw, hd, hk, W, hW => by
    rw [Dict.keys, List.nodup_cons] at hn
    have h1 : W.get k = .ok (v.map Prod.snd) := hW k v (by simp [Dict.get])
    have h2 := toDataTree_eq fill v hw.1 hd.1 hk.2.1
    have h3 := toDataTrees_eq fill rest hn.2 hw.2 hd.2 hk.2.2 W (by
      intro k' v' hv'
      apply hW k' v'
      rw [Dict.get, if_neg]
      · exact hv'
      · rintro rfl
        exact hn.1 (Dict.mem_keys_of_get hv'))
    have hk1 := hk.1
    simp only [Dict.map, toDataTrees, Tree.item, h1, h2, h3, bind, Except.bind, pure, Except.pure, hk1, if_false]
    rfl
end

theorem foldl_items {α : Type} (K : List String → String → String) : (l : List (List String × List (String × α))) →
    (acc : List (String × α)) →
    l.foldl (fun res entry => entry.2.foldl (fun res kv => pyInsert (K entry.1 kv.1) kv.2 res) res) acc
      = (l.flatMap (fun entry => entry.2.map (fun kv => (K entry.1 kv.1, kv.2)))).foldl
          (fun res kv => pyInsert kv.1 kv.2 res) acc
  | [], acc => rfl
  | e :: l, acc => by
    rw [List.foldl_cons, List.flatMap_cons, List.foldl_append, List.foldl_map, foldl_items K l]

theorem pyInsert_new {α : Type} (k : String) (v : α) : (acc : List (String × α)) → k ∉ acc.map Prod.fst →
    pyInsert k v acc = acc ++ [(k, v)]
  | [], _ => rfl
  | (k', v') :: rest, h => by
    simp only [List.map_cons, List.mem_cons, not_or] at h
    rw [pyInsert, if_neg (fun h' => h.1 h'.symm), pyInsert_new k v rest h.2, List.cons_append]

theorem foldl_pyInsert {α : Type} : (l acc : List (String × α)) → ((acc ++ l).map Prod.fst).Nodup →
    l.foldl (fun res kv => pyInsert kv.1 kv.2 res) acc = acc ++ l
  | [], acc, _ => by simp
  | kv :: l, acc, h => by
    rw [List.foldl_cons, pyInsert_new, foldl_pyInsert l]
    · simp
    · simpa using h
    · rw [List.map_append, List.nodup_append] at h
      intro hm
      exact h.2.2 _ hm kv.1 (by simp) rfl

theorem putGroup_new {α : Type} (p : List Char) (n : String) (a : α) : (acc : List (List Char × List (String × α))) →
    p ∉ acc.map Prod.fst → putGroup p n a acc = acc ++ [(p, [(n, a)])]
  | [], _ => rfl
  | (p', d) :: rest, h => by
    simp only [List.map_cons, List.mem_cons, not_or] at h
    rw [putGroup, if_neg (fun h' => h.1 h'.symm), putGroup_new p n a rest h.2, List.cons_append]

theorem putGroup_last {α : Type} (p : List Char) (n : String) (a : α) (ds : List (String × α)) :
    (acc : List (List Char × List (String × α))) → p ∉ acc.map Prod.fst →
    putGroup p n a (acc ++ [(p, ds)]) = acc ++ [(p, pyInsert n a ds)]
  | [], _ => by simp [putGroup]
  | (p', d) :: rest, h => by
    simp only [List.map_cons, List.mem_cons, not_or] at h
    rw [List.cons_append, putGroup, if_neg (fun h' => h.1 h'.symm), putGroup_last p n a ds rest h.2, List.cons_append]

/-- The items of the Dataset for a list of leaves. -/
def itemsOf {α : Type} (sep : String) (E : List (List String × (α × α))) : List (String × α) :=
  E.flatMap (fun e => [(keyOf sep e.1 swsName, e.2.1), (keyOf sep e.1 swName, e.2.2)])

theorem pathStr_inj (p q : List String) (hp : ∀ k ∈ p, GoodName k) (hq : ∀ k ∈ q, GoodName k)
    (h : pathStr p = pathStr q) : p = q := by
  rw [← parsePath_pathStr p hp, h, parsePath_pathStr q hq]

theorem groupPaths_items {α : Type} (sep : String) (hsep : sep ≠ "") (h1 : NoCommonChar swsName sep)
    (h2 : NoCommonChar swName sep) : (E : List (List String × (α × α))) → (acc : List (List Char × List (String × α))) →
    (∀ e ∈ E, ∀ k ∈ e.1, GoodName k ∧ NoCommonChar k sep) → (E.map Prod.fst).Nodup →
    (∀ e ∈ E, pathStr e.1 ∉ acc.map Prod.fst) →
    groupPaths sep.toList (itemsOf sep E) acc = .ok (acc ++ E.map (fun e => (pathStr e.1, pairDS e.2)))
  | [], acc, _, _, _ => by simp [itemsOf, groupPaths]
  | (p, x, y) :: E, acc, hg, hn, hacc => by
    have hs : sep.toList ≠ [] := by
      intro h
      apply hsep
      rw [← String.ofList_toList (s := sep), h]
    have hitems : itemsOf sep ((p, x, y) :: E)
        = (keyOf sep p swsName, x) :: (keyOf sep p swName, y) :: itemsOf sep E := rfl
    obtain ⟨p1, hp1, hq1⟩ := split_keyOf sep p swsName hsep (fun k hk => (hg (p, x, y) (by simp) k hk).2) h1
    obtain ⟨p2, hp2, hq2⟩ := split_keyOf sep p swName hsep (fun k hk => (hg (p, x, y) (by simp) k hk).2) h2
    have hnew := hacc (p, x, y) (by simp)
    rw [hitems, groupPaths, if_neg hs, hp1]
    simp only
    rw [groupPaths, if_neg hs, hp2]
    simp only
    rw [hq1, hq2, String.ofList_toList, String.ofList_toList, putGroup_new _ _ _ _ hnew, putGroup_last _ _ _ _ _ hnew]
    rw [groupPaths_items sep hsep h1 h2 E _ (fun e he => hg e (by simp [he])) (by
      simp only [List.map_cons, List.nodup_cons] at hn; exact hn.2)]
    · simp [pairDS, pyInsert, swsName, swName]
    · intro e he
      rw [List.map_append, List.mem_append, not_or]
      refine ⟨hacc e (by simp [he]), ?_⟩
      simp only [List.map_cons, List.map_nil, List.mem_singleton]
      intro hee
      have := pathStr_inj e.1 p (fun k hk => (hg e (by simp [he]) k hk).1)
        (fun k hk => (hg (p, x, y) (by simp) k hk).1) hee
      simp only [List.map_cons, List.nodup_cons] at hn
      exact hn.1 (by rw [← this]; exact List.mem_map_of_mem he)

theorem sortByDepth_perm {β : Type} (l : List (List String × β)) : (sortByDepth l).Perm l := List.perm_insertionSort _ _

theorem keyOf_inj (sep : String) (hsep : sep ≠ "") (p q : List String) (n m : String)
    (hp : ∀ k ∈ p, GoodName k ∧ NoCommonChar k sep) (hq : ∀ k ∈ q, GoodName k ∧ NoCommonChar k sep)
    (hn : NoCommonChar n sep) (hm : NoCommonChar m sep) (h : keyOf sep p n = keyOf sep q m) : p = q ∧ n = m := by
  obtain ⟨p1, h1, e1⟩ := split_keyOf sep p n hsep (fun k hk => (hp k hk).2) hn
  obtain ⟨p2, h2, e2⟩ := split_keyOf sep q m hsep (fun k hk => (hq k hk).2) hm
  rw [h, h2] at h1
  simp only [Option.some.injEq, Prod.mk.injEq] at h1
  refine ⟨pathStr_inj p q (fun k hk => (hp k hk).1) (fun k hk => (hq k hk).1) ?_, ?_⟩
  · rw [← e1, ← e2, h1.1]
  · rw [← String.ofList_toList (s := n), ← h1.2, String.ofList_toList]

theorem itemsOf_nodup {α : Type} (sep : String) (hsep : sep ≠ "") (h1 : NoCommonChar swsName sep)
    (h2 : NoCommonChar swName sep) (E : List (List String × (α × α)))
    (hg : ∀ e ∈ E, ∀ k ∈ e.1, GoodName k ∧ NoCommonChar k sep) (hn : (E.map Prod.fst).Nodup) :
    ((itemsOf sep E).map Prod.fst).Nodup := by
  unfold itemsOf
  rw [List.map_flatMap, List.nodup_flatMap]
  refine ⟨?_, ?_⟩
  · intro e he
    simp only [List.map_cons, List.map_nil, List.nodup_cons, List.mem_singleton, List.not_mem_nil, not_false_eq_true,
      List.nodup_nil, and_true]
    intro h
    have := (keyOf_inj sep hsep e.1 e.1 _ _ (hg e he) (hg e he) h1 h2 h).2
    simp [swsName, swName] at this
  · rw [List.Nodup, List.pairwise_map] at hn
    refine List.Pairwise.imp_of_mem ?_ hn
    intro e f he hf hne
    simp only [Function.onFun, List.map_cons, List.map_nil, List.disjoint_iff_ne]
    intro a ha b hb hab
    subst hab
    simp only [List.mem_cons, List.not_mem_nil, or_false] at ha hb
    have hh : ∀ n m, NoCommonChar n sep → NoCommonChar m sep → keyOf sep e.1 n = keyOf sep f.1 m → False := by
      intro n m hn' hm' h
      exact hne (keyOf_inj sep hsep e.1 f.1 _ _ (hg e he) (hg f hf) hn' hm' h).1
    rcases ha with rfl | rfl <;> rcases hb with hb | hb
    · exact hh _ _ h1 h1 hb
    · exact hh _ _ h1 h2 hb
    · exact hh _ _ h2 h1 hb
    · exact hh _ _ h2 h2 hb

theorem flatMap_filter_ne {α : Type} (K : List String → String → String) : (l : List (List String × List (String × α))) →
    (l.filter (fun p => p.2 ≠ [])).flatMap (fun entry => entry.2.map (fun kv => (K entry.1 kv.1, kv.2)))
      = l.flatMap (fun entry => entry.2.map (fun kv => (K entry.1 kv.1, kv.2)))
  | [] => rfl
  | (p, ds) :: l => by
    by_cases h : ds = []
    · rw [List.filter_cons_of_neg (by simp [h]), List.flatMap_cons, flatMap_filter_ne K l, h]; rfl
    · rw [List.filter_cons_of_pos (by simp [h]), List.flatMap_cons, List.flatMap_cons, flatMap_filter_ne K l]

theorem perm_map_exists {α β : Type} {f : α → β} {l' m : List β} (h : l'.Perm m) : ∀ {l : List α}, m = l.map f →
    ∃ E : List α, E.Perm l ∧ E.map f = l' := by
  induction h with
  | nil =>
    intro l hl
    have : l = [] := by simpa using hl.symm
    exact ⟨[], by simp [this], rfl⟩
  | cons x h ih =>
    intro l hl
    rcases l with _ | ⟨a, l⟩
    · simp at hl
    · simp only [List.map_cons, List.cons.injEq] at hl
      obtain ⟨E, hE, he⟩ := ih hl.2
      exact ⟨a :: E, hE.cons a, by simp [he, hl.1]⟩
  | swap x y m =>
    intro l hl
    rcases l with _ | ⟨a, _ | ⟨b, l⟩⟩
    · simp at hl
    · simp at hl
    · simp only [List.map_cons, List.cons.injEq] at hl
      exact ⟨b :: a :: l, List.Perm.swap _ _ _, by simp [hl]⟩
  | trans h1 h2 ih1 ih2 =>
    intro l hl
    obtain ⟨E2, hE2, he2⟩ := ih2 hl
    obtain ⟨E1, hE1, he1⟩ := ih1 he2.symm
    exact ⟨E1, hE1.trans hE2, he1⟩

/-- What `to_dataset` stores, before the labels are joined: one pair of items per leaf. -/
theorem toDataset_eq (fill : V) (sep : String) (t : Tree (DA L V × DA L V)) (hw : t.WF) (hd : t.DictsOnly)
    (hk : t.AllKeys (fun k => GoodName k ∧ NoCommonChar k sep)) (hsep : sep ≠ "") (h1 : NoCommonChar swsName sep)
    (h2 : NoCommonChar swName sep) :
    ∃ E : List (List String × (DA L V × DA L V)), E.Perm (t.entries.map (fun p => (p.1, leafDS fill p.2))) ∧
      toDataset fill sep (t.map Prod.fst, t.map Prod.snd) = .ok (mkDataset fill (itemsOf sep E)) := by
  have hk' : t.AllKeys (fun k => '/' ∉ k.toList) := by
    have : ∀ (P Q : String → Prop), (∀ k, P k → Q k) → t.AllKeys P → t.AllKeys Q := by
      intro P Q hPQ
      exact Tree.allKeys_imp hPQ t
    exact this _ _ (fun k hk => hk.1.1) hk
  have hperm : ((toDict (pureDT (fun p => pairDS (leafDS fill p)) t)).filter (fun p => p.2 ≠ [])).Perm
      ((t.entries.map (fun p => (p.1, leafDS fill p.2))).map (fun p => (p.1, pairDS p.2))) := by
    rw [List.map_map]
    have := nodes_filter (fun p => pairDS (leafDS fill p)) (by intro b; simp [pairDS]) t
    rw [show ((fun p : List String × (DA L V × DA L V) => (p.1, pairDS p.2)) ∘
      fun p : List String × (DA L V × DA L V) => (p.1, leafDS fill p.2))
      = fun p => (p.1, pairDS (leafDS fill p.2)) from rfl, ← this]
    exact (sortByDepth_perm _).filter _
  obtain ⟨E, hE, hEe⟩ := perm_map_exists hperm rfl
  refine ⟨E, hE, ?_⟩
  have hgood : ∀ e ∈ E, ∀ k ∈ e.1, GoodName k ∧ NoCommonChar k sep := by
    intro e he
    obtain ⟨q, hq, rfl⟩ := List.mem_map.mp (hE.mem_iff.mp he)
    exact Tree.entries_keys _ t hk q.1 q.2 hq
  have hnodup : (E.map Prod.fst).Nodup := by
    rw [(hE.map Prod.fst).nodup_iff, List.map_map]
    exact Tree.entries_nodup t hw
  unfold toDataset
  simp only [toDataTree_eq fill t hw hd hk', bind, Except.bind, pure, Except.pure, Except.ok.injEq]
  congr 1
  rw [foldl_items (fun comps name => String.ofList (replace ['/'] sep.toList (lstrip '/' (pathStr comps)) ++ sep.toList
    ++ name.toList)), ← flatMap_filter_ne (fun comps name => String.ofList (replace ['/'] sep.toList
    (lstrip '/' (pathStr comps)) ++ sep.toList ++ name.toList)), ← hEe, List.flatMap_map]
  rw [show E.flatMap (fun a => (pairDS a.2).map (fun kv =>
      (String.ofList (replace ['/'] sep.toList (lstrip '/' (pathStr a.1)) ++ sep.toList ++ kv.1.toList), kv.2)))
      = itemsOf sep E from ?_]
  · have := foldl_pyInsert (itemsOf sep E) [] (by simpa using itemsOf_nodup sep hsep h1 h2 E hgood hnodup)
    simpa using this
  · unfold itemsOf
    apply List.flatMap_congr
    intro e he
    simp only [pairDS, List.map_cons, List.map_nil]
    rw [keyOf_eq sep e.1 swsName (fun k hk => (hgood e he k hk).1), keyOf_eq sep e.1 swName (fun k hk => (hgood e he k hk).1)]

/-- The tree built from the leaf paths has the leaves at their places. -/
theorem fromDict_get {α : Type} (E : List (List String × (α × α))) (hg : ∀ e ∈ E, ∀ k ∈ e.1, GoodName k)
    (hn : (E.map Prod.fst).Nodup) (hac : ∀ e ∈ E, ∀ f ∈ E, e.1 <+: f.1 → e.1 = f.1) :
    ∃ t r, fromDict (E.map (fun e => (pathStr e.1, pairDS e.2))) = .ok t ∧ fromDataTree t = .ok r ∧
      (∀ e ∈ E, r.1.getPath e.1 = some e.2.1 ∧ r.2.getPath e.1 = some e.2.2) ∧
      (∀ p, p ∉ E.map Prod.fst → r.1.getPath p = none ∧ r.2.getPath p = none) := by
  have hroot : ∀ e ∈ E, pathStr e.1 = ['/'] ↔ e.1 = [] := by
    intro e he
    constructor
    · intro h
      exact pathStr_inj e.1 [] (hg e he) (by simp) h
    · intro h; rw [h]; rfl
  by_cases h0 : ∃ e ∈ E, e.1 = []
  · -- the state is a single array
    obtain ⟨e, he, he0⟩ := h0
    have hE : E = [e] := by
      have hall : ∀ f ∈ E, f = e := by
        intro f hf
        have := hac e he f hf (by simp [he0])
        exact (List.inj_on_of_nodup_map hn he hf this).symm
      have hnd : E.Nodup := List.Nodup.of_map _ hn
      rcases E with _ | ⟨a, _ | ⟨b, E⟩⟩
      · simp at he
      · rw [hall a (by simp)]
      · have h1 := hall a (by simp)
        have h2 := hall b (by simp)
        rw [h1, h2] at hnd
        simp at hnd
    obtain ⟨p, x, y⟩ := e
    simp only at he0
    subst he0
    subst hE
    refine ⟨.node (pairDS (x, y)) .nil, (.leaf x, .leaf y), ?_, ?_, ?_, ?_⟩
    · simp [fromDict, pathStr, joinWith, sortByDepth, pairDS, pure, Except.pure]
    · simp [fromDataTree, pairDS, dsGet, pyGet?, swsName, swName, bind, Except.bind, pure, Except.pure]
    · intro e he
      simp only [List.mem_singleton] at he
      subst he
      exact ⟨rfl, rfl⟩
    · intro p hp
      rcases p with _ | ⟨k, p⟩
      · simp at hp
      · exact ⟨rfl, rfl⟩
  · have h0' : ∀ e ∈ E, e.1 ≠ [] := fun e he h => h0 ⟨e, he, h⟩
    have hfind : (E.map (fun e => (pathStr e.1, pairDS e.2))).find? (fun p => p.1 = ['/']) = none := by
      rw [List.find?_eq_none]
      intro q hq
      obtain ⟨e, he, rfl⟩ := List.mem_map.mp hq
      simp only [decide_eq_true_eq]
      exact fun h => h0' e he ((hroot e he).mp h)
    have hfilter : (E.map (fun e => (pathStr e.1, pairDS e.2))).filter (fun p => p.1 ≠ ['/'])
        = E.map (fun e => (pathStr e.1, pairDS e.2)) := by
      rw [List.filter_eq_self]
      intro q hq
      obtain ⟨e, he, rfl⟩ := List.mem_map.mp hq
      simp only [decide_eq_true_eq]
      exact fun h => h0' e he ((hroot e he).mp h)
    have hothers : (E.map (fun e => (pathStr e.1, pairDS e.2))).map (fun p => (parsePath p.1, p.2))
        = E.map (fun e => (e.1, pairDS e.2)) := by
      rw [List.map_map]
      apply List.map_congr_left
      intro e he
      simp only [Function.comp]
      rw [parsePath_pathStr e.1 (hg e he)]
    have hdots : ¬ (E.map (fun e => (e.1, pairDS e.2))).any (fun p => ".." ∈ p.1) = true := by
      simp only [List.any_map, List.any_eq_true, not_exists, not_and, Function.comp, decide_eq_true_eq]
      intro e he hm
      exact (hg e he _ hm).2.2.2 rfl
    set S := sortByDepth (E.map (fun e => (e.1, pairDS e.2))) with hS
    have hperm : S.Perm (E.map (fun e => (e.1, pairDS e.2))) := sortByDepth_perm _
    have hmemS : ∀ q, q ∈ S ↔ ∃ e ∈ E, (e.1, pairDS e.2) = q := by
      intro q; rw [hperm.mem_iff, List.mem_map]
    obtain ⟨t, ht, hq⟩ := foldlM_setItem S [] (.node [] .nil) (by
        intro p hp
        rw [List.append_nil, hmemS] at hp
        obtain ⟨e, he, rfl⟩ := hp
        exact h0' e he) (by
        rw [List.append_nil, (hperm.map Prod.fst).nodup_iff, List.map_map]
        exact hn) (by
        intro p hp q hq
        rw [List.append_nil, hmemS] at hp hq
        obtain ⟨e, he, rfl⟩ := hp
        obtain ⟨f, hf, rfl⟩ := hq
        exact hac e he f hf) (by
        intro q
        refine ⟨by simp, fun _ => ?_⟩
        rcases q with _ | ⟨k, q⟩
        · simp [dsAt]
        · simp [dsAt, child?])
    obtain ⟨r, hr⟩ := fromDataTree_ok t (foldlM_all HasBoth S (.node [] .nil) ⟨fun h => absurd rfl h, trivial⟩ (by
      intro p hp
      obtain ⟨e, he, rfl⟩ := (hmemS p).mp hp
      exact ⟨⟨e.2.1, by simp [pairDS, pyGet?]⟩, ⟨e.2.2, by simp [pairDS, pyGet?, swsName, swName]⟩⟩) t ht)
    refine ⟨t, r, ?_, hr, ?_, ?_⟩
    · unfold fromDict
      simp only [hfind, hfilter, hothers, hdots, Bool.false_eq_true, if_false]
      exact ht
    · intro e he
      have hds : dsAt e.1 t = some (pairDS e.2) := (hq e.1).1 _ (by rw [List.append_nil, hmemS]; exact ⟨e, he, rfl⟩)
      have hpre : ∀ q, q <+: e.1 → q ≠ e.1 → dsAt q t = some [] ∨ dsAt q t = none := by
        intro q hqp hqne
        apply (hq q).2
        intro d hd
        rw [List.append_nil, hmemS] at hd
        obtain ⟨f, hf, hfe⟩ := hd
        simp only [Prod.mk.injEq] at hfe
        rw [← hfe.1] at hqp hqne
        exact hqne (hac f hf e he hqp)
      obtain ⟨g1, g2⟩ := fromDataTree_get t r hr e.1
      rw [g1, g2, leafAt_eq _ _ _ hpre, leafAt_eq _ _ _ hpre, hds]
      simp [pairDS, pyGet?, swsName, swName]
    · intro p hp
      have hds : dsAt p t = some [] ∨ dsAt p t = none := by
        apply (hq p).2
        intro d hd
        rw [List.append_nil, hmemS] at hd
        obtain ⟨f, hf, hfe⟩ := hd
        simp only [Prod.mk.injEq] at hfe
        exact hp (List.mem_map.mpr ⟨f, hf, hfe.1⟩)
      obtain ⟨g1, g2⟩ := fromDataTree_get t r hr p
      rw [g1, g2, leafAt_none _ _ _ hds, leafAt_none _ _ _ hds]
      exact ⟨rfl, rfl⟩

theorem itemsOf_map {α β : Type} (sep : String) (g : α → β) (E : List (List String × (α × α))) :
    (itemsOf sep E).map (fun kv => (kv.1, g kv.2)) = itemsOf sep (E.map (fun e => (e.1, (g e.2.1, g e.2.2)))) := by
  unfold itemsOf
  rw [List.map_flatMap, List.flatMap_map]
  rfl

end Serialize

open Serialize

/-- All the arrays of a state. -/
def stateArrays (s : Tree (DA L V) × Tree (DA L V)) : List (DA L V) :=
  s.1.entries.map Prod.snd ++ s.2.entries.map Prod.snd

section C14

/-- C14: `from_data_tree(to_data_tree(s))` is `s` with the same nested keys in the same order and the same arrays, for every
depth of nesting, when the keys contain no `/` and each pair of arrays agrees on the labels of its common dimensions. -/
theorem C14_data_tree_roundtrip (fill : V) (s : Tree (DA L V) × Tree (DA L V)) (hshape : s.1.shape = s.2.shape)
    (hw : s.1.WF) (hd : s.1.DictsOnly) (hk : s.1.AllKeys (fun k => '/' ∉ k.toList))
    (hlab : ∀ p a b, s.1.getPath p = some a → s.2.getPath p = some b → a.SameLabels b) :
    ∃ t r, toDataTree fill s.1 s.2 = .ok t ∧ fromDataTree t = .ok r ∧
      Tree.Rel DA.Same r.1 s.1 ∧ Tree.Rel DA.Same r.2 s.2 := by
  obtain ⟨sa, sb⟩ := s
  obtain ⟨t, rfl, rfl⟩ := Tree.exists_zip sa sb hshape
  simp only at hw hd hk hlab ⊢
  rw [Tree.wf_map] at hw
  rw [Tree.dictsOnly_map] at hd
  rw [Tree.allKeys_map] at hk
  refine ⟨_, _, toDataTree_eq fill t hw hd hk, fromDataTree_pure (leafDS fill) t hd, ?_, ?_⟩
  · apply Tree.rel_map_of_entries _ _ _ t hd
    intro p ab hab
    rw [← Tree.getPath_iff t hw] at hab
    exact (leafDS_same fill ab (hlab p ab.1 ab.2 (by rw [Tree.getPath_map, hab]; rfl)
      (by rw [Tree.getPath_map, hab]; rfl))).1
  · apply Tree.rel_map_of_entries _ _ _ t hd
    intro p ab hab
    rw [← Tree.getPath_iff t hw] at hab
    exact (leafDS_same fill ab (hlab p ab.1 ab.2 (by rw [Tree.getPath_map, hab]; rfl)
      (by rw [Tree.getPath_map, hab]; rfl))).2

/-- C14: `from_dataset(to_dataset(s, sep), sep)` has exactly the leaves of `s`, at the same nested keys and with the same
arrays, for every depth of nesting, when the keys are proper path components sharing no character with the separator
and all arrays agree on the labels of common dimensions. -/
theorem C14_dataset_roundtrip (fill : V) (sep : String) (s : Tree (DA L V) × Tree (DA L V))
    (hshape : s.1.shape = s.2.shape) (hw : s.1.WF) (hd : s.1.DictsOnly)
    (hk : s.1.AllKeys (fun k => GoodName k ∧ NoCommonChar k sep)) (hsep : sep ≠ "")
    (h1 : NoCommonChar "sum_weighted_statistics" sep) (h2 : NoCommonChar "sum_weights" sep)
    (hlab : ∀ a ∈ stateArrays s, ∀ b ∈ stateArrays s, a.SameLabels b) :
    ∃ ds r, toDataset fill sep s = .ok ds ∧ fromDataset sep ds = .ok r ∧
      ∀ p, Option.Rel DA.Same (r.1.getPath p) (s.1.getPath p) ∧ Option.Rel DA.Same (r.2.getPath p) (s.2.getPath p) := by
  obtain ⟨sa, sb⟩ := s
  obtain ⟨t, rfl, rfl⟩ := Tree.exists_zip sa sb hshape
  simp only at hw hd hk ⊢
  rw [Tree.wf_map] at hw
  rw [Tree.dictsOnly_map] at hd
  rw [Tree.allKeys_map] at hk
  have hlab' : ∀ p ab, (p, ab) ∈ t.entries → ∀ q cd, (q, cd) ∈ t.entries →
      ∀ a b, (a = ab.1 ∨ a = ab.2) → (b = cd.1 ∨ b = cd.2) → a.SameLabels b := by
    have hm : ∀ p ab, (p, ab) ∈ t.entries → ∀ a, (a = ab.1 ∨ a = ab.2) →
        a ∈ stateArrays (t.map Prod.fst, t.map Prod.snd) := by
      intro p ab hab a ha
      unfold stateArrays
      rw [Tree.entries_map, Tree.entries_map, List.mem_append]
      simp only [List.map_map, List.mem_map, Function.comp]
      rcases ha with rfl | rfl
      · exact Or.inl ⟨(p, ab), hab, rfl⟩
      · exact Or.inr ⟨(p, ab), hab, rfl⟩
    intro p ab hab q cd hcd a b ha hb
    exact hlab a (hm p ab hab a ha) b (hm q cd hcd b hb)
  obtain ⟨E, hE, hds⟩ := toDataset_eq fill sep t hw hd hk hsep h1 h2
  set C := DA.outerCoords ((itemsOf sep E).map Prod.snd) with hC
  set E' := E.map (fun e => (e.1, (reFill fill C e.2.1, reFill fill C e.2.2))) with hE'
  have hmk : mkDataset fill (itemsOf sep E) = itemsOf sep E' := by
    rw [hE', ← itemsOf_map sep (reFill fill C) E]; rfl
  have hgood : ∀ e ∈ E, ∀ k ∈ e.1, GoodName k ∧ NoCommonChar k sep := by
    intro e he
    obtain ⟨q, hq, rfl⟩ := List.mem_map.mp (hE.mem_iff.mp he)
    exact Tree.entries_keys _ t hk q.1 q.2 hq
  have hmap : E'.map Prod.fst = E.map Prod.fst := by rw [hE', List.map_map]; rfl
  have hgood' : ∀ e ∈ E', ∀ k ∈ e.1, GoodName k ∧ NoCommonChar k sep := by
    intro e he
    obtain ⟨f, hf, rfl⟩ := List.mem_map.mp he
    exact hgood f hf
  have hpaths : (E.map Prod.fst).Perm (t.entries.map Prod.fst) := by
    have := hE.map Prod.fst
    rw [List.map_map] at this
    exact this
  have hnodup : (E'.map Prod.fst).Nodup := by
    rw [hmap, hpaths.nodup_iff]
    exact Tree.entries_nodup t hw
  have hac : ∀ e ∈ E', ∀ f ∈ E', e.1 <+: f.1 → e.1 = f.1 := by
    have hmem : ∀ e ∈ E', ∃ b, (e.1, b) ∈ t.entries := by
      intro e he
      have : e.1 ∈ t.entries.map Prod.fst := by
        rw [← hpaths.mem_iff, ← hmap]; exact List.mem_map_of_mem he
      obtain ⟨q, hq, hqe⟩ := List.mem_map.mp this
      exact ⟨q.2, by rw [← hqe]; exact hq⟩
    intro e he f hf hpre
    obtain ⟨a, ha⟩ := hmem e he
    obtain ⟨b, hb⟩ := hmem f hf
    exact Tree.entries_antichain t hw _ _ _ _ ha hb hpre
  have hgrp := groupPaths_items sep hsep h1 h2 E' [] hgood' hnodup (by simp)
  obtain ⟨T, r, hT, hr, hget, hnone⟩ := fromDict_get E' (fun e he k hk => (hgood' e he k hk).1) hnodup hac
  refine ⟨_, r, hds, ?_, ?_⟩
  · rw [hmk]
    unfold fromDataset
    simp only [hgrp, List.nil_append, hT, hr, bind, Except.bind]
  · -- the labels of every array in the Dataset are its own
    have hCa : ∀ p ab, (p, ab) ∈ t.entries → ∀ a, (a = (leafDS fill ab).1 ∨ a = (leafDS fill ab).2) →
        ∀ d ∈ a.dims, C d = a.coords d := by
      have hself : ∀ p ab, (p, ab) ∈ t.entries → (leafDS fill ab).1.Same ab.1 ∧ (leafDS fill ab).2.Same ab.2 := by
        intro p ab hab
        exact leafDS_same fill ab (hlab' p ab hab p ab hab ab.1 ab.2 (Or.inl rfl) (Or.inr rfl))
      have hcompat : ∀ p ab, (p, ab) ∈ t.entries → ∀ q cd, (q, cd) ∈ t.entries →
          ∀ a b, (a = (leafDS fill ab).1 ∨ a = (leafDS fill ab).2) → (b = (leafDS fill cd).1 ∨ b = (leafDS fill cd).2) →
          a.SameLabels b := by
        intro p ab hab q cd hcd a b ha hb d hda hdb
        obtain ⟨s1, s2⟩ := hself p ab hab
        obtain ⟨s3, s4⟩ := hself q cd hcd
        have hl := hlab' p ab hab q cd hcd
        rcases ha with rfl | rfl <;> rcases hb with rfl | rfl
        · rw [s1.coords d hda, s3.coords d hdb]
          exact hl _ _ (Or.inl rfl) (Or.inl rfl) d (by rw [← s1.dims]; exact hda) (by rw [← s3.dims]; exact hdb)
        · rw [s1.coords d hda, s4.coords d hdb]
          exact hl _ _ (Or.inl rfl) (Or.inr rfl) d (by rw [← s1.dims]; exact hda) (by rw [← s4.dims]; exact hdb)
        · rw [s2.coords d hda, s3.coords d hdb]
          exact hl _ _ (Or.inr rfl) (Or.inl rfl) d (by rw [← s2.dims]; exact hda) (by rw [← s3.dims]; exact hdb)
        · rw [s2.coords d hda, s4.coords d hdb]
          exact hl _ _ (Or.inr rfl) (Or.inr rfl) d (by rw [← s2.dims]; exact hda) (by rw [← s4.dims]; exact hdb)
      have hitem : ∀ a, a ∈ (itemsOf sep E).map Prod.snd ↔ ∃ p ab, (p, ab) ∈ t.entries ∧
          (a = (leafDS fill ab).1 ∨ a = (leafDS fill ab).2) := by
        intro a
        unfold itemsOf
        rw [List.map_flatMap, List.mem_flatMap]
        constructor
        · rintro ⟨e, he, ha⟩
          obtain ⟨q, hq, rfl⟩ := List.mem_map.mp (hE.mem_iff.mp he)
          exact ⟨q.1, q.2, hq, by simpa using ha⟩
        · rintro ⟨p, ab, hab, ha⟩
          exact ⟨(p, leafDS fill ab), hE.mem_iff.mpr (List.mem_map.mpr ⟨(p, ab), hab, rfl⟩), by simpa using ha⟩
      intro p ab hab a ha d hda
      apply outerCoords_compat _ _ a ((hitem a).mpr ⟨p, ab, hab, ha⟩) d hda
      intro x hx y hy
      obtain ⟨p', ab', hab', hx'⟩ := (hitem x).mp hx
      obtain ⟨q', cd', hcd', hy'⟩ := (hitem y).mp hy
      exact hcompat p' ab' hab' q' cd' hcd' x y hx' hy'
    intro p
    rw [Tree.getPath_map, Tree.getPath_map]
    rcases hg : t.getPath p with _ | ab
    · have : p ∉ E'.map Prod.fst := by
        rw [hmap, hpaths.mem_iff]
        intro hm
        obtain ⟨q, hq, rfl⟩ := List.mem_map.mp hm
        rw [(Tree.getPath_iff t hw q.1 q.2).mpr hq] at hg
        simp at hg
      obtain ⟨g1, g2⟩ := hnone p this
      rw [g1, g2]
      exact ⟨.none, .none⟩
    · have hab := (Tree.getPath_iff t hw p ab).mp hg
      have hmem : (p, (reFill fill C (leafDS fill ab).1, reFill fill C (leafDS fill ab).2)) ∈ E' := by
        rw [hE', List.mem_map]
        exact ⟨(p, leafDS fill ab), hE.mem_iff.mpr (List.mem_map.mpr ⟨(p, ab), hab, rfl⟩), rfl⟩
      obtain ⟨g1, g2⟩ := hget _ hmem
      simp only at g1 g2
      rw [g1, g2]
      obtain ⟨s1, s2⟩ := leafDS_same fill ab (hlab' p ab hab p ab hab ab.1 ab.2 (Or.inl rfl) (Or.inr rfl))
      exact ⟨.some ((reFill_same fill C _ (hCa p ab hab _ (Or.inl rfl))).trans s1),
        .some ((reFill_same fill C _ (hCa p ab hab _ (Or.inr rfl))).trans s2)⟩

/-- `from_dataset(to_dataset(s, sep), sep)`. -/
def throughDataset (fill : V) (sep : String) (s : Tree (DA L V) × Tree (DA L V)) :
    Except Err (Tree (DA L V) × Tree (DA L V)) := do
  let ds ← toDataset fill sep s
  fromDataset sep ds

/-- `s` is a state whose statistics and weights are the same nested dict. -/
def bothOf (t : Tree (DA L V)) : Tree (DA L V) × Tree (DA L V) := (t, t)

set_option linter.unusedSimpArgs false in
/-- C14, finding: names that contain the separator are mis-split and may even collide: a state with the two different
leaves `["a#b"]["c"]` and `["a"]["b#c"]` comes back as the single leaf `["a"]["b"]["c"]`. -/
theorem C14_separator_in_names_collides (fill v w : V) :
    (throughDataset (L := L) fill "#" (bothOf (.dict (.cons "a#b" (.dict (.cons "c" (.leaf (DA.scalar v)) .nil))
        (.cons "a" (.dict (.cons "b#c" (.leaf (DA.scalar w)) .nil)) .nil))))).map
      (fun r => ((r.1.getPath ["a#b", "c"]).isSome, (r.1.getPath ["a", "b#c"]).isSome,
        (r.1.getPath ["a", "b", "c"]).isSome)) = .ok (false, false, true) := by
  unfold throughDataset bothOf
  simp [toDataset, toDataTree, toDataTrees, Tree.item, Dict.get, Tree.asLeaf, bind, Except.bind, pure, Except.pure,
    toDict, sortByDepth, nodes, nodesOf, List.orderedInsert, pathStr, joinWith, replace, replaceGo, lstrip, pyInsert,
    mkDataset, swsName, swName]
  simp [fromDataset, groupPaths, rsplit1, replace, replaceGo, putGroup, pyInsert, fromDict, parsePath, splitAtChar,
    sortByDepth, setItem, setChild, setNew, List.orderedInsert, fromDataTree, fromDataTrees, dsGet, pyGet?, swsName,
    swName, bind, Except.bind, pure, Except.pure, Functor.map, Except.map, Tree.getPath, Dict.getPath]

set_option linter.unusedSimpArgs false in
/-- C14, finding: a separator occurring in the fixed variable names (`_`) does not round-trip, although no statistic or
variable name contains it. -/
theorem C14_underscore_separator_fails (fill v : V) :
    throughDataset (L := L) fill "_" (bothOf (.dict (.cons "a" (.dict (.cons "b" (.leaf (DA.scalar v)) .nil)) .nil)))
      = .error .keyError := by
  unfold throughDataset bothOf
  simp [toDataset, toDataTree, toDataTrees, Tree.item, Dict.get, Tree.asLeaf, bind, Except.bind, pure, Except.pure,
    toDict, sortByDepth, nodes, nodesOf, List.orderedInsert, pathStr, joinWith, replace, replaceGo, lstrip, pyInsert,
    mkDataset, swsName, swName]
  simp [fromDataset, groupPaths, rsplit1, replace, replaceGo, putGroup, pyInsert, fromDict, parsePath, splitAtChar,
    sortByDepth, setItem, setChild, setNew, List.orderedInsert, fromDataTree, fromDataTrees, dsGet, pyGet?, swsName,
    swName, bind, Except.bind, pure, Except.pure, Functor.map, Except.map, Tree.getPath, Dict.getPath]

set_option linter.unusedSimpArgs false in
/-- C14, finding: a separator of several characters can fail although no name contains it. -/
theorem C14_long_separator_ambiguous (fill v : V) :
    (throughDataset (L := L) fill "##" (bothOf (.dict (.cons "a#" (.dict (.cons "b" (.leaf (DA.scalar v)) .nil)) .nil)))).map
      (fun r => ((r.1.getPath ["a#", "b"]).isSome, (r.1.getPath ["a", "#b"]).isSome)) = .ok (false, true) := by
  unfold throughDataset bothOf
  simp [toDataset, toDataTree, toDataTrees, Tree.item, Dict.get, Tree.asLeaf, bind, Except.bind, pure, Except.pure,
    toDict, sortByDepth, nodes, nodesOf, List.orderedInsert, pathStr, joinWith, replace, replaceGo, lstrip, pyInsert,
    mkDataset, swsName, swName]
  simp [fromDataset, groupPaths, rsplit1, replace, replaceGo, putGroup, pyInsert, fromDict, parsePath, splitAtChar,
    sortByDepth, setItem, setChild, setNew, List.orderedInsert, fromDataTree, fromDataTrees, dsGet, pyGet?, swsName,
    swName, bind, Except.bind, pure, Except.pure, Functor.map, Except.map, Tree.getPath, Dict.getPath]

/-- C14: a state holding a list instead of dicts and arrays is rejected with `TypeError`. -/
theorem C14_sequences_rejected (fill : V) (xs : Seq (DA L V)) (w : Tree (DA L V)) :
    toDataTree fill (.seq xs) w = .error .typeError := rfl

end C14

/-! ### A concrete state meeting the hypotheses -/

def exSArr : DA ℕ ℚ := { dims := {"lead_time"}, coords := fun _ => {1, 2}, val := fun e => e "lead_time" }
def exSState : Tree (DA ℕ ℚ) × Tree (DA ℕ ℚ) :=
  (.dict (.cons "SquaredError" (.dict (.cons "2m.temperature" (.leaf exSArr) (.cons "geopotential" (.leaf (DA.scalar 3)) .nil)))
     (.cons "AbsoluteError" (.dict (.cons "geopotential" (.leaf exSArr) .nil)) .nil)),
   .dict (.cons "SquaredError" (.dict (.cons "2m.temperature" (.leaf exSArr) (.cons "geopotential" (.leaf (DA.scalar 1)) .nil)))
     (.cons "AbsoluteError" (.dict (.cons "geopotential" (.leaf (DA.scalar 5)) .nil)) .nil)))

example : exSState.1.shape = exSState.2.shape ∧ exSState.1.WF ∧ exSState.1.DictsOnly ∧
    exSState.1.AllKeys (fun k => GoodName k ∧ NoCommonChar k "#") ∧ "#" ≠ "" ∧
    NoCommonChar "sum_weighted_statistics" "#" ∧ NoCommonChar "sum_weights" "#" ∧
    (∀ a ∈ stateArrays exSState, ∀ b ∈ stateArrays exSState, a.SameLabels b) := by
  refine ⟨rfl, ?_, ?_, ?_, by decide, ?_, ?_, ?_⟩
  · simp [exSState, Tree.WF, Dict.WF, Dict.keys]
  · simp [exSState, Tree.DictsOnly, Dict.DictsOnly]
  · simp [exSState, Tree.AllKeys, Dict.AllKeys, GoodName, NoCommonChar]
  · simp [NoCommonChar]
  · simp [NoCommonChar]
  · intro a ha b hb
    have hab : ∀ a ∈ stateArrays exSState, ∀ d ∈ a.dims, a.coords d = {1, 2} := by
      simp [stateArrays, exSState, Tree.entries, Dict.entries, exSArr, DA.scalar]
    intro d h1 h2
    rw [hab a ha d h1, hab b hb d h2]

end WBX
