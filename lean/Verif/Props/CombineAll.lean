import Verif.Props.CombineErrors

set_option linter.unusedSectionVars false

/-!
# C82: combining the results of the public benchmark: all files
-/

namespace WBX.CombineResults
open WBX DA
variable {V : Type} [IsNull V]

/-- Two datasets have no common cell. -/
def Disjoint (s t : File V) : Prop := ∀ v a b, (v, a) ∈ s → (v, b) ∈ t → ∀ e, a.InDom e → ¬ b.InDom e

/-- Arrays of the same name have the same dimensions. -/
def SameDims (s t : File V) : Prop := ∀ v a b, (v, a) ∈ s → (v, b) ∈ t → a.dims = b.dims

/-- `out` consists of all cells of the datasets in `S`, and of `fill` elsewhere. -/
structure Merged (fill : V) (S : List (File V)) (out : File V) : Prop where
  nodup : (out.map Prod.fst).Nodup
  mem : ∀ v, v ∈ out.map Prod.fst ↔ ∃ s ∈ S, v ∈ s.map Prod.fst
  dims : ∀ v x, (v, x) ∈ out → ∀ s ∈ S, ∀ a, (v, a) ∈ s → x.dims = a.dims
  labels : ∀ v x, (v, x) ∈ out → ∀ d l, l ∈ x.coords d ↔ ∃ s ∈ S, l ∈ labelsOf s d
  value : ∀ v x, (v, x) ∈ out → ∀ s ∈ S, ∀ a, (v, a) ∈ s → ∀ e, a.InDom e → x.val e = a.val e
  empty : ∀ v x, (v, x) ∈ out → ∀ e, (∀ s ∈ S, ∀ a, (v, a) ∈ s → ¬ a.InDom e) → x.val e = fill

theorem merged_nil (fill : V) : Merged fill [] ([] : File V) := by
  constructor <;> simp

theorem Merged.labelsOf {fill : V} {S : List (File V)} {r : File V} (h : Merged fill S r) (d : Dim) (l : String) : l ∈ labelsOf r d ↔ ∃ s ∈ S, l ∈ labelsOf s d := by
  rw [mem_labelsOf]
  constructor
  · rintro ⟨⟨v, x⟩, hx, _, hl⟩
    exact (h.labels v x hx d l).mp hl
  · rintro ⟨s, hs, hl⟩
    obtain ⟨⟨v, a⟩, ha, hd, hl'⟩ := mem_labelsOf.mp hl
    obtain ⟨⟨v', x⟩, hx, e⟩ := List.mem_map.mp ((h.mem v).mpr ⟨s, hs, List.mem_map.mpr ⟨(v, a), ha, rfl⟩⟩)
    dsimp only at e
    subst e
    exact ⟨_, hx, by show d ∈ x.dims; rw [h.dims _ x hx s hs a ha]; exact hd, (h.labels _ x hx d l).mpr ⟨s, hs, hl⟩⟩

theorem labels_append (r s : File V) (d : Dim) (l : String) : l ∈ labelsOf (r ++ s) d ↔ l ∈ labelsOf r d ∨ l ∈ labelsOf s d := by
  simp only [mem_labelsOf, List.mem_append]
  constructor
  · rintro ⟨kv, h | h, h'⟩
    · exact Or.inl ⟨kv, h, h'⟩
    · exact Or.inr ⟨kv, h, h'⟩
  · rintro (⟨kv, h, h'⟩ | ⟨kv, h, h'⟩)
    · exact ⟨kv, Or.inl h, h'⟩
    · exact ⟨kv, Or.inr h, h'⟩

theorem inDom_labels {s : File V} {v : String} {a : DA String V} (ha : (v, a) ∈ s) {e : Dim → String} (he : a.InDom e) {d : Dim} (hd : d ∈ a.dims) : e d ∈ labelsOf s d :=
  mem_labelsOf.mpr ⟨(v, a), ha, hd, he d hd⟩

/-- The array that `merge` gives for a variable of the first dataset. -/
def mergedOld (fill : V) (r s : File V) (kv : String × DA String V) : String × DA String V :=
  (kv.1, match pyGet? kv.1 s with
      | some b => mergeArrays fill (labelsOf (r ++ s)) kv.2 b
      | none => reindexTo fill (labelsOf (r ++ s)) kv.2)

/-- One step: a dataset without common cells is added, and there is no conflict. -/
theorem merge_step {fill : V} (hfill : ∀ x : V, IsNull.isnull x = true ↔ x = fill) {S : List (File V)} {r s : File V} (h : Merged fill S r) (hs : (s.map Prod.fst).Nodup)
    (hdis : ∀ t ∈ S, Disjoint t s) (hdims : ∀ t ∈ S, SameDims t s) : ∃ out, merge fill r s = .ok out ∧ Merged fill (S ++ [s]) out := by
  have hnew : ∀ v x b, (v, x) ∈ r → (v, b) ∈ s → ∀ e, b.InDom e → x.val e = fill := by
    intro v x b hx hb e he
    exact h.empty v x hx e (fun t ht a ha hin => hdis t ht v a b ha hb e hin he)
  have hxdims : ∀ v x b, (v, x) ∈ r → (v, b) ∈ s → x.dims = b.dims := by
    intro v x b hx hb
    obtain ⟨t, ht, hv⟩ := (h.mem v).mp (List.mem_map.mpr ⟨(v, x), hx, rfl⟩)
    obtain ⟨⟨v', a⟩, ha, e⟩ := List.mem_map.mp hv
    dsimp only at e
    subst e
    rw [h.dims _ x hx t ht a ha, hdims t ht _ a b ha hb]
  have hnc : ¬ ∃ v a b, (v, a) ∈ r ∧ (v, b) ∈ s ∧ Conflict a b := by
    rintro ⟨v, x, b, hx, hb, e, _, heb, hnx, _, _⟩
    rw [hnew v x b hx hb e heb, (hfill fill).mpr rfl] at hnx
    cases hnx
  have hlab : ∀ d l, l ∈ labelsOf (r ++ s) d ↔ ∃ t ∈ S ++ [s], l ∈ labelsOf t d := by
    intro d l
    rw [labels_append, h.labelsOf]
    simp only [List.mem_append, List.mem_singleton]
    constructor
    · rintro (⟨t, ht, hl⟩ | hl)
      · exact ⟨t, Or.inl ht, hl⟩
      · exact ⟨s, Or.inr rfl, hl⟩
    · rintro ⟨t, ht | rfl, hl⟩
      · exact Or.inl ⟨t, ht, hl⟩
      · exact Or.inr hl
  refine ⟨r.map (mergedOld fill r s) ++ (s.filter (fun kv => kv.1 ∉ r.map Prod.fst)).map (fun kv => (kv.1, reindexTo fill (labelsOf (r ++ s)) kv.2)), ?_, ?_⟩
  · unfold merge
    rw [if_neg hnc]
    rfl
  -- the three kinds of arrays of the result
  have hcases : ∀ v y, (v, y) ∈ r.map (mergedOld fill r s) ++ (s.filter (fun kv => kv.1 ∉ r.map Prod.fst)).map (fun kv => (kv.1, reindexTo fill (labelsOf (r ++ s)) kv.2)) →
      (∃ x b, (v, x) ∈ r ∧ (v, b) ∈ s ∧ y = mergeArrays fill (labelsOf (r ++ s)) x b) ∨
      (∃ x, (v, x) ∈ r ∧ (∀ b, (v, b) ∉ s) ∧ y = reindexTo fill (labelsOf (r ++ s)) x) ∨
      (∃ b, (v, b) ∈ s ∧ v ∉ r.map Prod.fst ∧ y = reindexTo fill (labelsOf (r ++ s)) b) := by
    intro v y hy
    rcases List.mem_append.mp hy with hy | hy
    · obtain ⟨⟨v', x⟩, hx, e⟩ := List.mem_map.mp hy
      obtain ⟨e1, e2⟩ := Prod.mk.inj e
      dsimp only at e1 e2
      subst e1
      cases hb : pyGet? v' s with
      | some b =>
        rw [hb] at e2
        exact Or.inl ⟨x, b, hx, pyGet?_mem hb, e2.symm⟩
      | none =>
        rw [hb] at e2
        refine Or.inr (Or.inl ⟨x, hx, ?_, e2.symm⟩)
        intro b hb'
        rw [(pyGet?_eq_some hs v' b).mpr hb'] at hb
        cases hb
    · obtain ⟨⟨v', b⟩, hb, e⟩ := List.mem_map.mp hy
      obtain ⟨e1, e2⟩ := Prod.mk.inj e
      dsimp only at e1 e2
      subst e1
      rw [List.mem_filter] at hb
      exact Or.inr (Or.inr ⟨b, hb.1, by simpa using hb.2, e2.symm⟩)
  have hone : ∀ {v a b}, (v, a) ∈ s → (v, b) ∈ s → a = b := by
    intro v a b ha hb
    exact (Prod.mk.inj (List.inj_on_of_nodup_map hs ha hb rfl)).2
  have hold : (r.map (mergedOld fill r s)).map Prod.fst = r.map Prod.fst := by
    rw [List.map_map]
    rfl
  have hnews : ((s.filter (fun kv => kv.1 ∉ r.map Prod.fst)).map (fun kv => (kv.1, reindexTo fill (labelsOf (r ++ s)) kv.2))).map Prod.fst =
      (s.filter (fun kv => kv.1 ∉ r.map Prod.fst)).map Prod.fst := by
    rw [List.map_map]
    rfl
  have hrdom : ∀ v x, (v, x) ∈ r → ∀ t ∈ S, ∀ a, (v, a) ∈ t → ∀ e, a.InDom e → x.InDom e := by
    intro v x hx t ht a ha e he d hd
    rw [h.dims v x hx t ht a ha] at hd
    exact (h.labels v x hx d (e d)).mpr ⟨t, ht, inDom_labels ha he hd⟩
  constructor
  · rw [List.map_append, hold, hnews]
    refine List.Nodup.append h.nodup (hs.sublist (List.filter_sublist.map _)) ?_
    intro v hv hv'
    obtain ⟨kv, hkv, rfl⟩ := List.mem_map.mp hv'
    rw [List.mem_filter] at hkv
    have := hkv.2
    simp only [decide_eq_true_eq] at this
    exact this hv
  · intro v
    rw [List.map_append, hold, hnews, List.mem_append, h.mem]
    simp only [List.mem_append, List.mem_singleton]
    constructor
    · rintro (⟨t, ht, hv⟩ | hv)
      · exact ⟨t, Or.inl ht, hv⟩
      · obtain ⟨kv, hkv, rfl⟩ := List.mem_map.mp hv
        exact ⟨s, Or.inr rfl, List.mem_map_of_mem (List.mem_of_mem_filter hkv)⟩
    · rintro ⟨t, ht | rfl, hv⟩
      · exact Or.inl ⟨t, ht, hv⟩
      · by_cases hr : v ∈ r.map Prod.fst
        · exact Or.inl ((h.mem v).mp hr)
        · obtain ⟨kv, hkv, rfl⟩ := List.mem_map.mp hv
          exact Or.inr (List.mem_map.mpr ⟨kv, List.mem_filter.mpr ⟨hkv, by simpa using hr⟩, rfl⟩)
  · intro v y hy t ht a ha
    rcases hcases v y hy with ⟨x, b, hx, hb, rfl⟩ | ⟨x, hx, hb, rfl⟩ | ⟨b, hb, hr, rfl⟩
    · show x.dims ∪ b.dims = a.dims
      rw [← hxdims v x b hx hb, Finset.union_self]
      rcases List.mem_append.mp ht with ht | ht
      · exact h.dims v x hx t ht a ha
      · rw [List.mem_singleton] at ht
        subst ht
        rw [hxdims v x a hx ha]
    · show x.dims = a.dims
      rcases List.mem_append.mp ht with ht | ht
      · exact h.dims v x hx t ht a ha
      · rw [List.mem_singleton] at ht
        subst ht
        exact absurd ha (hb a)
    · show b.dims = a.dims
      rcases List.mem_append.mp ht with ht | ht
      · exact absurd ((h.mem v).mpr ⟨t, ht, List.mem_map.mpr ⟨(v, a), ha, rfl⟩⟩) hr
      · rw [List.mem_singleton] at ht
        subst ht
        rw [hone hb ha]
  · intro v y hy d l
    rw [← hlab]
    rcases hcases v y hy with ⟨x, b, hx, hb, rfl⟩ | ⟨x, hx, hb, rfl⟩ | ⟨b, hb, hr, rfl⟩ <;> exact Iff.rfl
  · intro v y hy t ht a ha e he
    rcases hcases v y hy with ⟨x, b, hx, hb, rfl⟩ | ⟨x, hx, hb, rfl⟩ | ⟨b, hb, hr, rfl⟩
    · show (if x.InDom e ∧ IsNull.isnull (x.val e) = false then x.val e else if b.InDom e then b.val e else fill) = a.val e
      rcases List.mem_append.mp ht with ht | ht
      · have hxe := h.value v x hx t ht a ha e he
        have hbe : ¬ b.InDom e := hdis t ht v a b ha hb e he
        by_cases hnull : IsNull.isnull (x.val e) = true
        · rw [if_neg (fun hh => by rw [hnull] at hh; exact absurd hh.2 (by simp)), if_neg hbe, ← hxe]
          exact ((hfill _).mp hnull).symm
        · rw [if_pos ⟨hrdom v x hx t ht a ha e he, by simpa using hnull⟩, hxe]
      · rw [List.mem_singleton] at ht
        subst ht
        have hab := hone hb ha
        subst hab
        have hxe := hnew v x b hx hb e he
        rw [if_neg (fun hh => by rw [hxe, (hfill fill).mpr rfl] at hh; exact absurd hh.2 (by simp)), if_pos he]
    · show (if x.InDom e then x.val e else fill) = a.val e
      rcases List.mem_append.mp ht with ht | ht
      · rw [if_pos (hrdom v x hx t ht a ha e he)]
        exact h.value v x hx t ht a ha e he
      · rw [List.mem_singleton] at ht
        subst ht
        exact absurd ha (hb a)
    · show (if b.InDom e then b.val e else fill) = a.val e
      rcases List.mem_append.mp ht with ht | ht
      · exact absurd ((h.mem v).mpr ⟨t, ht, List.mem_map.mpr ⟨(v, a), ha, rfl⟩⟩) hr
      · rw [List.mem_singleton] at ht
        subst ht
        have hab := hone hb ha
        subst hab
        rw [if_pos he]
  · intro v y hy e he
    have heS : ∀ t ∈ S, ∀ a, (v, a) ∈ t → ¬ a.InDom e := fun t ht a ha => he t (List.mem_append_left _ ht) a ha
    have hes : ∀ b, (v, b) ∈ s → ¬ b.InDom e := fun b hb => he s (by simp) b hb
    rcases hcases v y hy with ⟨x, b, hx, hb, rfl⟩ | ⟨x, hx, hb, rfl⟩ | ⟨b, hb, hr, rfl⟩
    · show (if x.InDom e ∧ IsNull.isnull (x.val e) = false then x.val e else if b.InDom e then b.val e else fill) = fill
      rw [h.empty v x hx e heS, if_neg (hes b hb), ite_self]
    · show (if x.InDom e then x.val e else fill) = fill
      rw [h.empty v x hx e heS, ite_self]
    · show (if b.InDom e then b.val e else fill) = fill
      rw [if_neg (hes b hb)]

/-- Merging any number of datasets without common cells, in order. -/
theorem merge_all {fill : V} (hfill : ∀ x : V, IsNull.isnull x = true ↔ x = fill) : ∀ (T S : List (File V)) (r : File V), Merged fill S r → (∀ s ∈ T, (s.map Prod.fst).Nodup) →
    (S ++ T).Pairwise Disjoint → (S ++ T).Pairwise SameDims → ∃ out, T.foldlM (merge fill) r = .ok out ∧ Merged fill (S ++ T) out
  | [], S, r, h, _, _, _ => ⟨r, rfl, by simpa using h⟩
  | s :: T, S, r, h, hn, hdis, hdims => by
    have h1 := List.pairwise_append.mp hdis
    have h2 := List.pairwise_append.mp hdims
    obtain ⟨r', e, h'⟩ := merge_step hfill h (hn s (by simp)) (fun t ht => h1.2.2 t ht s (by simp)) (fun t ht => h2.2.2 t ht s (by simp))
    have ea : S ++ s :: T = (S ++ [s]) ++ T := by simp
    rw [ea] at hdis hdims ⊢
    obtain ⟨out, e', h''⟩ := merge_all hfill T (S ++ [s]) r' h' (fun s hs => hn s (by simp [hs])) hdis hdims
    exact ⟨out, by rw [List.foldlM_cons, e]; exact e', h''⟩

/-! ### The loops over the files -/

/-- The cell of the results of one model, resolution and year. -/
def At (model resolution year : String) (e : Dim → String) : Prop := e "model" = model ∧ e "resolution" = resolution ∧ e "year" = year

theorem expandDims_inDom {m r y : String} {a : DA String V} (hm : "model" ∉ a.dims) (hr : "resolution" ∉ a.dims) (hy : "year" ∉ a.dims) {e : Dim → String} :
    (expandDims m r y a).InDom e ↔ At m r y e ∧ a.InDom e := by
  have c1 : (expandDims m r y a).coords "model" = {m} := rfl
  have c2 : (expandDims m r y a).coords "resolution" = {r} := by
    simp [expandDims]
  have c3 : (expandDims m r y a).coords "year" = {y} := by
    simp [expandDims]
  have c4 : ∀ d ∈ a.dims, (expandDims m r y a).coords d = a.coords d := by
    intro d hd
    have n1 : d ≠ "model" := by rintro rfl; exact hm hd
    have n2 : d ≠ "resolution" := by rintro rfl; exact hr hd
    have n3 : d ≠ "year" := by rintro rfl; exact hy hd
    simp [expandDims, n1, n2, n3]
  constructor
  · intro h
    refine ⟨⟨?_, ?_, ?_⟩, ?_⟩
    · have := h "model" (by simp [expandDims])
      rwa [c1, Finset.mem_singleton] at this
    · have := h "resolution" (by simp [expandDims])
      rwa [c2, Finset.mem_singleton] at this
    · have := h "year" (by simp [expandDims])
      rwa [c3, Finset.mem_singleton] at this
    · intro d hd
      rw [← c4 d hd]
      exact h d (by simp [expandDims, hd])
  · rintro ⟨⟨h1, h2, h3⟩, h⟩ d hd
    have hd : d ∈ insert "model" (insert "resolution" (insert "year" a.dims)) := hd
    simp only [Finset.mem_insert] at hd
    rcases hd with rfl | rfl | rfl | hd
    · rw [c1, h1]; exact Finset.mem_singleton_self _
    · rw [c2, h2]; exact Finset.mem_singleton_self _
    · rw [c3, h3]; exact Finset.mem_singleton_self _
    · rw [c4 d hd]; exact h d hd

/-- The index of a file: the model with its display name, the year and the resolution. -/
abbrev Key := (String × String) × String × String

/-- All files, in the order of the loops. -/
def allKeys (models : List (String × String)) : List Key := models.flatMap (fun m => years.flatMap (fun y => resolutions.map (fun r => (m, y, r))))

theorem mem_allKeys {models : List (String × String)} {k : Key} : k ∈ allKeys models ↔ k.1 ∈ models ∧ k.2.1 ∈ years ∧ k.2.2 ∈ resolutions := by
  obtain ⟨m, y, r⟩ := k
  simp only [allKeys, List.mem_flatMap, List.mem_map, Prod.mk.injEq]
  constructor
  · rintro ⟨m', hm, y', hy, r', hr, rfl, rfl, rfl⟩
    exact ⟨hm, hy, hr⟩
  · rintro ⟨hm, hy, hr⟩
    exact ⟨m, hm, y, hy, r, hr, rfl, rfl, rfl⟩

/-- The files of one model. -/
def modelKeys (m : String × String) : List Key := years.flatMap (fun y => resolutions.map (fun r => (m, y, r)))

theorem modelKeys_pairwise (m : String × String) : (modelKeys m).Pairwise (fun k k' => (k.2.2, k.2.1) ≠ (k'.2.2, k'.2.1)) := by
  have h : (modelKeys m).map (fun k => (k.2.2, k.2.1)) = years.flatMap (fun y => resolutions.map (fun r => (r, y))) := by
    unfold modelKeys
    rw [List.map_flatMap]
    simp only [List.map_map, Function.comp_def]
  have hn : (years.flatMap (fun y => resolutions.map (fun r => (r, y)))).Nodup := by decide
  rw [← h] at hn
  exact List.pairwise_map.mp hn

/-- No two files are put into the same place. -/
theorem allKeys_pairwise {models : List (String × String)} (h : (models.map Prod.snd).Nodup) :
    (allKeys models).Pairwise (fun k k' => ∀ e, At k.1.2 k.2.2 k.2.1 e → ¬ At k'.1.2 k'.2.2 k'.2.1 e) := by
  show (models.flatMap modelKeys).Pairwise _
  induction models with
  | nil => exact List.Pairwise.nil
  | cons m models ih =>
    rw [List.map_cons, List.nodup_cons] at h
    rw [List.flatMap_cons, List.pairwise_append]
    refine ⟨(modelKeys_pairwise m).imp ?_, ih h.2, ?_⟩
    · rintro k k' hne e ⟨_, h2, h3⟩ ⟨_, h2', h3'⟩
      exact hne (by rw [← h2, ← h2', ← h3, ← h3'])
    · rintro k hk k' hk' e ⟨h1, _⟩ ⟨h1', _⟩
      have e1 : k.1 = m := by
        unfold modelKeys at hk
        simp only [List.mem_flatMap, List.mem_map] at hk
        obtain ⟨_, _, _, _, rfl⟩ := hk
        rfl
      have h2 := (mem_allKeys (models := models)).mp hk'
      rw [e1] at h1
      exact h.1 (List.mem_map.mpr ⟨k'.1, h2.1, by rw [← h1, ← h1']⟩)

/-- One file in its place. -/
def placed (k : Key) (ds : File V) : File V := ds.map (fun kv => (kv.1, expandDims k.1.2 k.2.2 k.2.1 kv.2))

/-- The files that exist, in their places. -/
def placedFiles (files : Key → Option (File V)) (keys : List Key) : List (File V) := keys.filterMap (fun k => (files k).map (placed k))

theorem combine_eq (fill : V) (models : List (String × String)) (files : String → String → String → Option (Except Err (File V))) (ok : Key → Option (File V))
    (h : ∀ k ∈ allKeys models, files k.1.1 k.2.1 k.2.2 = (ok k).map .ok) :
    combine fill models files = (placedFiles ok (allKeys models)).foldlM (merge fill) [] := by
  unfold combine placedFiles
  show (allKeys models).foldlM _ [] = _
  generalize ([] : File V) = r
  revert h r
  induction allKeys models with
  | nil => intro _ _; rfl
  | cons k ks ih =>
    intro h r
    have ih := ih (fun k hk => h k (by simp [hk]))
    have hk := h k (by simp)
    rw [List.foldlM_cons, hk, List.filterMap_cons]
    cases hok : ok k with
    | none => exact ih r
    | some ds =>
      simp only [Option.map_some, List.foldlM_cons]
      show (merge fill r (placed k ds) >>= _) = _
      cases hm : merge fill r (placed k ds) with
      | error er => rfl
      | ok r' => exact ih r'

theorem foldlM_error {α β : Type} (f : α → β → Except Err α) {k : β} (hk : ∀ r, ∃ er, f r k = .error er) : ∀ (l : List β) (r : α), k ∈ l → ∃ er, l.foldlM f r = .error er
  | [], _, h => by cases h
  | k' :: l, r, h => by
    rw [List.foldlM_cons]
    rcases List.mem_cons.mp h with rfl | h
    · obtain ⟨er, e⟩ := hk r
      exact ⟨er, by rw [e]; rfl⟩
    · cases hf : f r k' with
      | error er => exact ⟨er, rfl⟩
      | ok r' => exact foldlM_error f hk l r' h

/-- A failed file makes the combination fail. -/
theorem combine_error (fill : V) {models : List (String × String)} {files : String → String → String → Option (Except Err (File V))} {k : Key} (hk : k ∈ allKeys models) {er : Err}
    (h : files k.1.1 k.2.1 k.2.2 = some (.error er)) : ∃ er', combine fill models files = .error er' := by
  unfold combine
  refine foldlM_error _ (k := k) ?_ _ _ hk
  intro r
  rw [h]
  exact ⟨er, rfl⟩

end WBX.CombineResults
