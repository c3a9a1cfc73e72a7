import Verif.Model.StationaryBootstrap
import Verif.Props.MetricsBase
import Verif.Props.Transforms
import Verif.Lemmas.TimeChunks

set_option linter.unusedSectionVars false

/-!
# C80: `apply_to_slices` calls the function once per combination of labels and puts the results in their places
-/

namespace WBX
open DA

section specification
variable {L V S A : Type} [DecidableEq L]

/-- The array at the labels `c` of the dimensions `dims`, which stay as dimensions of size one. -/
def Ordered.at (dims : List Dim) (c : Dim → L) (a : Ordered L V) : Ordered L V where
  arr := { dims := a.arr.dims, coords := fun d => if d ∈ a.arr.dims ∧ d ∈ dims then {c d} else a.arr.coords d, val := a.arr.val }
  order := fun d => if d ∈ a.arr.dims ∧ d ∈ dims then [c d] else a.order d

/-- The arrays have the same labels, in the same order, along the dimensions that are sliced, and every one of these dimensions occurs. -/
structure SameLabels (labels : Dim → List L) (dims : List Dim) (leaves : List (Ordered L V)) : Prop where
  present : ∀ d ∈ dims, ∃ a ∈ leaves, d ∈ a.arr.dims
  labels : ∀ d ∈ dims, ∀ a ∈ leaves, d ∈ a.arr.dims → a.order d = labels d

/-- `s'` can be the state after some calls with the given arguments that begin in the state `s`. -/
inductive Reached {R : Type} (arguments : A → Prop) (f : S → A → Except Err (R × S)) (s : S) : S → Prop
  | start : Reached arguments f s s
  | call {s1 s2 : S} {a : A} {r : R} : Reached arguments f s s1 → arguments a → f s1 a = .ok (r, s2) → Reached arguments f s s2

/-- The arguments at some labels of the dimensions. -/
def IsSlice (mapArgs : (Ordered L V → Ordered L V) → A → A) (dims : List Dim) (labels : Dim → List L) (args a : A) : Prop :=
  ∃ c : Dim → L, (∀ d ∈ dims, c d ∈ labels d) ∧ a = mapArgs (Ordered.at dims c) args

end specification

section lemmas
variable {L V S A : Type} [DecidableEq L]

theorem mem_ndindex {ns js : List ℕ} : js ∈ ndindex ns ↔ List.Forall₂ (· < ·) js ns := by
  induction ns generalizing js with
  | nil => simp [ndindex]
  | cons n ns ih =>
    simp only [ndindex, List.mem_flatMap, List.mem_range, List.mem_map]
    constructor
    · rintro ⟨i, hi, js', hjs, rfl⟩
      exact .cons hi (ih.mp hjs)
    · intro h
      cases h with
      | @cons i _ js' _ h1 h2 => exact ⟨i, h1, js', ih.mpr h2, rfl⟩

theorem sliceSizes_ok {labels : Dim → List L} {dims : List Dim} {leaves : List (Ordered L V)} (h : SameLabels labels dims leaves) :
    sliceSizes dims leaves = .ok (dims.map (fun d => (labels d).length)) := by
  unfold sliceSizes
  apply TimeChunks.mapM_ok_of_forall
  intro d hd
  unfold sliceSize
  have hall : ∀ n ∈ (leaves.filter (fun a => decide (d ∈ a.arr.dims))).map (fun a => (a.order d).length), n = (labels d).length := by
    intro n hn
    obtain ⟨a, ha, rfl⟩ := List.mem_map.mp hn
    obtain ⟨ha, had⟩ := List.mem_filter.mp ha
    rw [h.labels d hd a ha (by simpa using had)]
  cases hl : (leaves.filter (fun a => decide (d ∈ a.arr.dims))).map (fun a => (a.order d).length) with
  | nil =>
    obtain ⟨a, ha, had⟩ := h.present d hd
    have : a ∈ leaves.filter (fun a => decide (d ∈ a.arr.dims)) := List.mem_filter.mpr ⟨ha, by simpa using had⟩
    rw [List.map_eq_nil_iff] at hl
    rw [hl] at this
    cases this
  | cons n ns =>
    rw [hl] at hall
    have hn := hall n (by simp)
    show (if (ns.all fun m => m == n) = true then Except.ok n else _) = _
    rw [if_pos, hn]
    rw [List.all_eq_true]
    intro m hm
    rw [hall m (by simp [hm]), hn, beq_iff_eq]

/-- The labels at the given positions. -/
def LabelsAt (labels : Dim → List L) (dims : List Dim) (js : List ℕ) (c : Dim → L) : Prop :=
  ∀ d ∈ dims, ∃ i, (dims.zip js).lookup d = some i ∧ (labels d)[i]? = some (c d)

theorem lookup_zip_none {dims : List Dim} {js : List ℕ} {d : Dim} (hd : d ∉ dims) : (dims.zip js).lookup d = none := by
  induction dims generalizing js with
  | nil => rfl
  | cons d' dims ih =>
    cases js with
    | nil => rfl
    | cons j js =>
      rw [List.zip_cons_cons, List.lookup_cons]
      have : (d == d') = false := by simp; rintro rfl; exact hd (by simp)
      rw [this]
      exact ih (fun h => hd (by simp [h]))

theorem lookup_zip_isSome {dims : List Dim} {js : List ℕ} {d : Dim} (hl : dims.length = js.length) (hd : d ∈ dims) : ((dims.zip js).lookup d).isSome := by
  induction dims generalizing js with
  | nil => cases hd
  | cons d' dims ih =>
    cases js with
    | nil => cases hl
    | cons j js =>
      rw [List.zip_cons_cons, List.lookup_cons]
      by_cases h : d = d'
      · subst h; simp
      · have : (d == d') = false := by simpa using h
        rw [this]
        exact ih (by simpa using hl) (by simpa [h] using hd)

theorem positions_exist {labels : Dim → List L} {dims : List Dim} (hn : dims.Nodup) {c : Dim → L} (hc : ∀ d ∈ dims, c d ∈ labels d) :
    ∃ js, List.Forall₂ (· < ·) js (dims.map (fun d => (labels d).length)) ∧ LabelsAt labels dims js c := by
  induction dims with
  | nil => exact ⟨[], .nil, fun d hd => absurd hd (by simp)⟩
  | cons d dims ih =>
    obtain ⟨js, h1, h2⟩ := ih (List.nodup_cons.mp hn).2 (fun d' hd' => hc d' (by simp [hd']))
    obtain ⟨i, hi, hic⟩ := List.mem_iff_getElem.mp (hc d (by simp))
    refine ⟨i :: js, .cons hi h1, ?_⟩
    intro d' hd'
    rw [List.zip_cons_cons, List.lookup_cons]
    by_cases h : d' = d
    · subst h
      exact ⟨i, by simp, by rw [List.getElem?_eq_getElem hi, hic]⟩
    · have : (d' == d) = false := by simpa using h
      rw [this]
      exact h2 d' (by simpa [h] using hd')

theorem positions_label [Inhabited L] {labels : Dim → List L} {dims : List Dim} (hn : dims.Nodup) {js : List ℕ} (h : List.Forall₂ (· < ·) js (dims.map (fun d => (labels d).length))) :
    ∃ c, LabelsAt labels dims js c := by
  induction dims generalizing js with
  | nil => exact ⟨fun _ => default, fun d hd => absurd hd (by simp)⟩
  | cons d dims ih =>
    cases h with
    | @cons i _ js _ h1 h2 =>
      obtain ⟨c, hc⟩ := ih (List.nodup_cons.mp hn).2 h2
      refine ⟨fun d' => if d' = d then (labels d)[i] else c d', ?_⟩
      intro d' hd'
      rw [List.zip_cons_cons, List.lookup_cons]
      by_cases h : d' = d
      · subst h
        exact ⟨i, by simp, by simp only [if_true]; exact List.getElem?_eq_getElem h1⟩
      · have : (d' == d) = false := by simpa using h
        simp only [this, if_neg h]
        exact hc d' (by simpa [h] using hd')

theorem iselOne_at {labels : Dim → List L} {dims : List Dim} {js : List ℕ} {c : Dim → L} (h : LabelsAt labels dims js c) {a : Ordered L V} (ha : ∀ d ∈ dims, d ∈ a.arr.dims → a.order d = labels d) :
    iselOne (dims.zip js) a = a.at dims c := by
  have hord : ∀ d, (match (dims.zip js).lookup d with
      | some i => if d ∈ a.arr.dims then (a.order d)[i]?.toList else a.order d
      | none => a.order d) = (a.at dims c).order d := by
    intro d
    by_cases hd : d ∈ dims
    · obtain ⟨i, hi, hic⟩ := h d hd
      rw [hi]
      by_cases had : d ∈ a.arr.dims
      · simp only [Ordered.at, if_pos had, had, hd, and_self, if_true, ha d hd had, hic]; rfl
      · simp only [Ordered.at, if_neg had, had, false_and, if_false]
    · rw [lookup_zip_none hd]
      simp only [Ordered.at, hd, and_false, if_false]
  unfold iselOne
  have hfun : (fun d => (match (dims.zip js).lookup d with
      | some i => if d ∈ a.arr.dims then (a.order d)[i]?.toList else a.order d
      | none => a.order d)) = (a.at dims c).order := funext hord
  simp only [hfun]
  unfold Ordered.at
  congr 2
  funext d
  by_cases had : d ∈ a.arr.dims
  · by_cases hd : d ∈ dims
    · obtain ⟨i, hi, hic⟩ := h d hd
      simp only [had, hd, hi, Option.isSome_some, and_self, if_true, ha d hd had, hic]; rfl
    · simp [had, hd, lookup_zip_none hd]
  · simp [had]

theorem runCalls_mem {R : Type} {arguments : A → Prop} {f : S → A → Except Err (R × S)} {as : List A} {s s' : S} {rs : List R} (h : runCalls f s as = .ok (rs, s')) (ha : ∀ a ∈ as, arguments a) :
    List.Forall₂ (fun a r => ∃ s1 s2, Reached arguments f s s1 ∧ f s1 a = .ok (r, s2)) as rs ∧ Reached arguments f s s' := by
  suffices H : ∀ s0, Reached arguments f s0 s → List.Forall₂ (fun a r => ∃ s1 s2, Reached arguments f s0 s1 ∧ f s1 a = .ok (r, s2)) as rs ∧ Reached arguments f s0 s' from H s .start
  intro s0 h0
  induction as generalizing s rs with
  | nil =>
    injection h with h
    injection h with h1 h2
    subst h1; subst h2
    exact ⟨.nil, h0⟩
  | cons a as ih =>
    rw [runCalls] at h
    obtain ⟨r, hr, h⟩ := bind_ok_iff.mp h
    obtain ⟨rs', hrs, h⟩ := bind_ok_iff.mp h
    injection h with h
    injection h with h1 h2
    subst h1; subst h2
    have := ih (s := r.2) (rs := rs'.1) hrs (fun b hb => ha b (by simp [hb])) (h0.call (ha a (by simp)) hr)
    exact ⟨.cons ⟨s, r.2, h0, hr⟩ this.1, this.2⟩

theorem runCalls_ok {R : Type} {arguments : A → Prop} {f : S → A → Except Err (R × S)} {as : List A} {s : S} (ha : ∀ a ∈ as, arguments a)
    (h : ∀ a ∈ as, ∀ s1, Reached arguments f s s1 → ∃ r, f s1 a = .ok r) : ∃ r, runCalls f s as = .ok r := by
  suffices H : ∀ s', Reached arguments f s s' → ∃ r, runCalls f s' as = .ok r from H s .start
  intro s' h0
  induction as generalizing s' with
  | nil => exact ⟨_, rfl⟩
  | cons a as ih =>
    obtain ⟨r, hr⟩ := h a (by simp) s' h0
    obtain ⟨rs, hrs⟩ := ih (fun b hb => ha b (by simp [hb])) (fun b hb => h b (by simp [hb])) r.2 (h0.call (ha a (by simp)) hr)
    refine ⟨(r.1 :: rs.1, rs.2), ?_⟩
    rw [runCalls]
    exact bind_ok_iff.mpr ⟨r, hr, bind_ok_iff.mpr ⟨rs, hrs, rfl⟩⟩

/-- What a call at the labels `c` has to return: the sliced dimensions with these labels, and further dimensions that are the same for all calls. -/
structure SliceResult (dims : List Dim) (rest : Finset Dim) (restLabels : Dim → Finset L) (c : Dim → L) (r : DA L V) : Prop where
  shape : r.dims = dims.toFinset ∪ rest
  sliced : ∀ d ∈ dims, r.coords d = {c d}
  others : ∀ d ∈ rest, d ∉ dims ∧ r.coords d = restLabels d

/-- `R` consists of the results of the calls. -/
structure Assembled (dims : List Dim) (labels : Dim → List L) (rest : Finset Dim) (restLabels : Dim → Finset L) (call : (Dim → L) → DA L V → Prop) (R : DA L V) : Prop where
  shape : R.dims = dims.toFinset ∪ rest
  sliced : ∀ d ∈ dims, R.coords d = (labels d).toFinset
  others : ∀ d ∈ rest, R.coords d = restLabels d
  value : ∀ e : Dim → L, (∀ d ∈ dims, e d ∈ labels d) → ∃ r, call e r ∧ R.val e = r.val e

theorem forall₂_mem_right {α β : Type} {P : α → β → Prop} {as : List α} {bs : List β} (h : List.Forall₂ P as bs) {b : β} (hb : b ∈ bs) : ∃ a ∈ as, P a b := by
  induction h with
  | nil => cases hb
  | cons h1 _ ih =>
    rcases List.mem_cons.mp hb with rfl | hb
    · exact ⟨_, by simp, h1⟩
    · obtain ⟨a, ha, hab⟩ := ih hb
      exact ⟨a, by simp [ha], hab⟩

theorem forall₂_mem_left {α β : Type} {P : α → β → Prop} {as : List α} {bs : List β} (h : List.Forall₂ P as bs) {a : α} (ha : a ∈ as) : ∃ b ∈ bs, P a b := by
  induction h with
  | nil => cases ha
  | cons h1 _ ih =>
    rcases List.mem_cons.mp ha with rfl | ha
    · exact ⟨_, by simp, h1⟩
    · obtain ⟨b, hb, hab⟩ := ih ha
      exact ⟨b, by simp [hb], hab⟩

theorem forall₂_zip_right {α β : Type} {P : α → β → Prop} {as : List α} {bs : List β} (h : List.Forall₂ P as bs) {b : β} (hb : b ∈ bs) : ∃ a, (a, b) ∈ as.zip bs ∧ P a b := by
  induction h with
  | nil => cases hb
  | cons h1 _ ih =>
    rcases List.mem_cons.mp hb with rfl | hb
    · exact ⟨_, by simp, h1⟩
    · obtain ⟨a, ha, hab⟩ := ih hb
      exact ⟨a, by simp [ha], hab⟩

theorem forall₂_zip {α β : Type} {P : α → β → Prop} {as : List α} {bs : List β} (h : List.Forall₂ P as bs) {a : α} {b : β} (hb : (a, b) ∈ as.zip bs) : P a b := by
  induction h with
  | nil => cases hb
  | cons h1 _ ih =>
    rw [List.zip_cons_cons] at hb
    rcases List.mem_cons.mp hb with hb | hb
    · injection hb with e1 e2
      rw [e1, e2]; exact h1
    · exact ih hb

theorem forall₂_imp_mem {α β : Type} {P Q : α → β → Prop} {as : List α} {bs : List β} (h : List.Forall₂ P as bs) (hi : ∀ a ∈ as, ∀ b, P a b → Q a b) : List.Forall₂ Q as bs := by
  induction h with
  | nil => exact .nil
  | cons h1 _ ih => exact .cons (hi _ (by simp) _ h1) (ih (fun a ha b => hi a (by simp [ha]) b))

theorem combineTiles_slices {dims : List Dim} {labels : Dim → List L} {rest : Finset Dim} {restLabels : Dim → Finset L} {cs : List (Dim → L)} {rs : List (DA L V)}
    (h : List.Forall₂ (SliceResult dims rest restLabels) cs rs) (hcs : cs ≠ [])
    (hin : ∀ c ∈ cs, ∀ d ∈ dims, c d ∈ labels d)
    (hcover : ∀ e : Dim → L, (∀ d ∈ dims, e d ∈ labels d) → ∃ c ∈ cs, ∀ d ∈ dims, c d = e d)
    (hmany : 1 < cs.length → ∃ c ∈ cs, ∃ c' ∈ cs, ∃ d ∈ dims, c d ≠ c' d) :
    ∃ R, combineTiles rs = .ok R ∧ Assembled dims labels rest restLabels (fun e r => ∃ c, (∀ d ∈ dims, c d = e d) ∧ (c, r) ∈ cs.zip rs) R := by
  have hlen := h.length_eq
  cases rs with
  | nil => cases cs with
    | nil => exact absurd rfl hcs
    | cons => cases hlen
  | cons r rs =>
    have hres : ∀ s ∈ r :: rs, ∃ c ∈ cs, SliceResult dims rest restLabels c s := fun s hs => forall₂_mem_right h hs
    obtain ⟨c0, hc0, h0⟩ := hres r (by simp)
    have hcd : ∀ d, d ∈ concatDims r rs ↔ d ∈ dims ∧ ∃ s ∈ rs, s.coords d ≠ r.coords d := by
      intro d
      simp only [concatDims, Finset.mem_filter, List.any_eq_true, decide_eq_true_eq]
      constructor
      · rintro ⟨hd, s, hs, hne⟩
        refine ⟨?_, s, hs, hne⟩
        by_contra hnd
        rw [h0.shape, Finset.mem_union] at hd
        rcases hd with hd | hd
        · exact hnd (List.mem_toFinset.mp hd)
        · obtain ⟨c, _, h1⟩ := hres s (by simp [hs])
          exact hne (by rw [(h1.others d hd).2, (h0.others d hd).2])
      · rintro ⟨hd, s, hs, hne⟩
        exact ⟨by rw [h0.shape]; exact Finset.mem_union_left _ (List.mem_toFinset.mpr hd), s, hs, hne⟩
    -- labels of dimensions that are not concatenated are the same everywhere
    have hsame : ∀ d ∈ dims, d ∉ concatDims r rs → ∀ s ∈ r :: rs, s.coords d = r.coords d := by
      intro d hd hnd s hs
      rcases List.mem_cons.mp hs with rfl | hs
      · rfl
      · by_contra hne
        exact hnd ((hcd d).mpr ⟨hd, s, hs, hne⟩)
    have hall : ∀ s ∈ r :: rs, ∀ c, SliceResult dims rest restLabels c s → ∀ e : Dim → L, (∀ d ∈ dims, e d ∈ labels d) → (∀ d ∈ concatDims r rs, e d ∈ s.coords d) → ∀ d ∈ dims, c d = e d := by
      intro s hs c hc e he hm d hd
      by_cases hd' : d ∈ concatDims r rs
      · have := hm d hd'
        rw [hc.sliced d hd, Finset.mem_singleton] at this
        exact this.symm
      · obtain ⟨c', hc', hce⟩ := hcover e he
        obtain ⟨s', hs', h'⟩ := forall₂_mem_left h hc'
        have h1 := hsame d hd hd' s hs
        have h2 := hsame d hd hd' s' hs'
        rw [hc.sliced d hd] at h1
        rw [h'.sliced d hd] at h2
        have := h1.trans h2.symm
        rw [← hce d hd]
        exact Finset.singleton_injective this
    refine ⟨joinTiles r rs, ?_, ?_⟩
    · rw [combineTiles, if_neg, if_neg, if_neg, if_neg]
      · rintro ⟨e, he, hno⟩
        classical
        obtain ⟨e', he'⟩ : ∃ e' : Dim → L, e' = fun d => if d ∈ concatDims r rs then e d else c0 d := ⟨_, rfl⟩
        have hlab : ∀ d ∈ dims, e' d ∈ labels d := by
          intro d hd
          rw [he']
          by_cases hd' : d ∈ concatDims r rs
          · simp only [if_pos hd']
            obtain ⟨s, hs, hes⟩ := he d hd'
            obtain ⟨c, hc, h1⟩ := hres s hs
            rw [h1.sliced d hd, Finset.mem_singleton] at hes
            rw [hes]
            exact hin c hc d hd
          · simp only [if_neg hd']
            exact hin c0 hc0 d hd
        obtain ⟨c, hc, hce⟩ := hcover e' hlab
        obtain ⟨s, hs, h1⟩ := forall₂_mem_left h hc
        obtain ⟨d, hd, hno⟩ := hno s hs
        have hd' := ((hcd d).mp hd).1
        rw [h1.sliced d hd', Finset.mem_singleton, hce d hd', he'] at hno
        simp only [if_pos hd] at hno
        exact hno trivial
      · rintro ⟨d, hd, s, hs, s', hs', hne, hdis⟩
        have hd' := ((hcd d).mp hd).1
        obtain ⟨c, _, h1⟩ := hres s hs
        obtain ⟨c', _, h2⟩ := hres s' hs'
        rw [h1.sliced d hd', h2.sliced d hd'] at hne hdis
        apply hdis
        rw [Finset.disjoint_singleton]
        intro hcc
        exact hne (by rw [hcc])
      · rintro ⟨hemp, hrs⟩
        have hl : 1 < cs.length := by
          rw [hlen, List.length_cons]
          have := List.length_pos_of_ne_nil hrs
          omega
        obtain ⟨c, hc, c', hc', d, hd, hne⟩ := hmany hl
        obtain ⟨s, hs, h1⟩ := forall₂_mem_left h hc
        obtain ⟨s', hs', h2⟩ := forall₂_mem_left h hc'
        have hnd : d ∉ concatDims r rs := by rw [hemp]; simp
        have e1 := hsame d hd hnd s hs
        have e2 := hsame d hd hnd s' hs'
        rw [h1.sliced d hd] at e1
        rw [h2.sliced d hd] at e2
        exact hne (Finset.singleton_injective (e1.trans e2.symm))
      · rintro ⟨s, hs, hne⟩
        obtain ⟨c, _, h1⟩ := hres s (by simp [hs])
        exact hne (by rw [h1.shape, h0.shape])
    · constructor
      · exact h0.shape
      · intro d hd
        classical
        ext l
        simp only [joinTiles]
        by_cases hd' : d ∈ concatDims r rs
        · rw [if_pos hd', Finset.mem_biUnion, List.mem_toFinset]
          constructor
          · rintro ⟨s, hs, hl⟩
            obtain ⟨c, hc, h1⟩ := hres s (List.mem_toFinset.mp hs)
            rw [h1.sliced d hd, Finset.mem_singleton] at hl
            rw [hl]
            exact hin c hc d hd
          · intro hl
            obtain ⟨c, hc, hce⟩ := hcover (fun k => if k = d then l else c0 k) (by
              intro k hk
              by_cases hkd : k = d
              · subst hkd; simpa using hl
              · simp only [if_neg hkd]; exact hin c0 hc0 k hk)
            obtain ⟨s, hs, h1⟩ := forall₂_mem_left h hc
            refine ⟨s, List.mem_toFinset.mpr hs, ?_⟩
            rw [h1.sliced d hd, hce d hd, Finset.mem_singleton]
            simp
        · rw [if_neg hd', h0.sliced d hd, Finset.mem_singleton, List.mem_toFinset]
          constructor
          · rintro rfl; exact hin c0 hc0 d hd
          · intro hl
            obtain ⟨c, hc, hce⟩ := hcover (fun k => if k = d then l else c0 k) (by
              intro k hk
              by_cases hkd : k = d
              · subst hkd; simpa using hl
              · simp only [if_neg hkd]; exact hin c0 hc0 k hk)
            obtain ⟨s, hs, h1⟩ := forall₂_mem_left h hc
            have := hsame d hd hd' s hs
            rw [h1.sliced d hd, h0.sliced d hd] at this
            have hcl : c d = l := by rw [hce d hd]; simp
            rw [← hcl]
            exact Finset.singleton_injective this
      · intro d hd
        simp only [joinTiles]
        rw [if_neg (fun hd' => (h0.others d hd).1 ((hcd d).mp hd').1), (h0.others d hd).2]
      · intro e he
        obtain ⟨c, hc, hce⟩ := hcover e he
        obtain ⟨s, hs, h1⟩ := forall₂_mem_left h hc
        classical
        cases hf : (r :: rs).reverse.find? (fun s => decide (∀ d ∈ concatDims r rs, e d ∈ s.coords d)) with
        | none =>
          have := List.find?_eq_none.mp hf s (List.mem_reverse.mpr hs)
          exact absurd (by
            rw [decide_eq_true_eq]
            intro d hd
            rw [h1.sliced d ((hcd d).mp hd).1, hce d ((hcd d).mp hd).1, Finset.mem_singleton]) this
        | some s' =>
          have hp := List.find?_some hf
          have hm := List.mem_reverse.mp (List.mem_of_find?_eq_some hf)
          obtain ⟨c', hzip, h2⟩ := forall₂_zip_right h hm
          exact ⟨s', ⟨c', hall s' hm c' h2 e he (by simpa using hp), hzip⟩, by simp only [joinTiles, hf]⟩

theorem ndindex_ne_nil {ns : List ℕ} (h : ∀ n ∈ ns, 0 < n) : ndindex ns ≠ [] := by
  induction ns with
  | nil => simp [ndindex]
  | cons n ns ih =>
    intro he
    have h1 : (0 :: (ndindex ns).head (ih (fun m hm => h m (by simp [hm])))) ∈ ndindex (n :: ns) :=
      mem_ndindex.mpr (.cons (h n (by simp)) (mem_ndindex.mp (List.head_mem _)))
    rw [he] at h1
    cases h1

theorem ndindex_nodup (ns : List ℕ) : (ndindex ns).Nodup := by
  induction ns with
  | nil => simp [ndindex]
  | cons n ns ih =>
    rw [ndindex, List.nodup_flatMap]
    refine ⟨fun i _ => ih.map (fun a b hab => by simpa using hab), ?_⟩
    refine (List.nodup_range (n := n)).pairwise_of_forall_ne ?_
    intro a _ b _ hab
    rw [Function.onFun, List.disjoint_left]
    intro x hx hx'
    obtain ⟨_, _, rfl⟩ := List.mem_map.mp hx
    obtain ⟨_, _, he⟩ := List.mem_map.mp hx'
    exact hab (by simp only [List.cons.injEq] at he; exact he.1.symm)

theorem labels_inj {labels : Dim → List L} {dims : List Dim} (hn : dims.Nodup) (hl : ∀ d ∈ dims, (labels d).Nodup) {js js' : List ℕ}
    (h1 : List.Forall₂ (· < ·) js (dims.map (fun d => (labels d).length))) (h2 : List.Forall₂ (· < ·) js' (dims.map (fun d => (labels d).length))) {c c' : Dim → L}
    (hc : LabelsAt labels dims js c) (hc' : LabelsAt labels dims js' c') (he : ∀ d ∈ dims, c d = c' d) : js = js' := by
  induction dims generalizing js js' with
  | nil => cases h1; cases h2; rfl
  | cons d dims ih =>
    cases h1 with
    | @cons i _ js _ hi h1 =>
      cases h2 with
      | @cons i' _ js' _ hi' h2 =>
        have hnd := (List.nodup_cons.mp hn).1
        have htl : ∀ {k : ℕ} {ks : List ℕ} {b : Dim → L}, LabelsAt labels (d :: dims) (k :: ks) b → LabelsAt labels dims ks b := by
          intro k ks b hb d' hd'
          have := hb d' (by simp [hd'])
          rw [List.zip_cons_cons, List.lookup_cons] at this
          have hne : (d' == d) = false := by simp; rintro rfl; exact hnd hd'
          rw [hne] at this
          exact this
        have hhd : ∀ {k : ℕ} {ks : List ℕ} {b : Dim → L}, LabelsAt labels (d :: dims) (k :: ks) b → (labels d)[k]? = some (b d) := by
          intro k ks b hb
          obtain ⟨i, h1, h2⟩ := hb d (by simp)
          rw [List.zip_cons_cons, List.lookup_cons] at h1
          simp at h1
          rw [h1]; exact h2
        have e1 := hhd hc
        have e2 := hhd hc'
        rw [he d (by simp), ← e2] at e1
        have := (List.Nodup.getElem_inj_iff (hl d (by simp)) (hi := hi) (hj := hi')).mp (by
          rw [List.getElem?_eq_getElem hi, List.getElem?_eq_getElem hi'] at e1
          exact Option.some.inj e1)
        subst this
        rw [ih (List.nodup_cons.mp hn).2 (fun d' hd' => hl d' (by simp [hd'])) h1 h2 (htl hc) (htl hc') (fun d' hd' => he d' (by simp [hd']))]

end lemmas

section theorems
variable {L V S A : Type} [DecidableEq L] [Inhabited L] {mapArgs : (Ordered L V → Ordered L V) → A → A} {leaves : A → List (Ordered L V)} {f : S → A → Except Err (DA L V × S)} {dims : List Dim}
  {labels : Dim → List L} {args : A} {s : S} {rest : Finset Dim} {restLabels : Dim → Finset L}

/-- `map_structure` applies a function to all arrays of the arguments. -/
def MapsLeaves (mapArgs : (Ordered L V → Ordered L V) → A → A) (leaves : A → List (Ordered L V)) : Prop := ∀ a g h, (∀ x ∈ leaves a, g x = h x) → mapArgs g a = mapArgs h a

/-- The function is called for every combination of the labels of the dimensions, on the arguments at these labels, and the result at a cell is the one of the call at the labels of
the cell: in the state of the function that some calls before have left behind. This holds if the arguments have the same labels and the function keeps the dimensions. -/
theorem C80_apply (hmap : MapsLeaves mapArgs leaves) (hd : dims.Nodup) (hs : SameLabels labels dims (leaves args)) (hl : ∀ d ∈ dims, labels d ≠ [] ∧ (labels d).Nodup)
    (hf : ∀ c : Dim → L, (∀ d ∈ dims, c d ∈ labels d) → ∀ s1, Reached (IsSlice mapArgs dims labels args) f s s1 → ∃ r, f s1 (mapArgs (Ordered.at dims c) args) = .ok r ∧ SliceResult dims rest restLabels c r.1) :
    ∃ R s', applyToSlices mapArgs leaves f dims args s = .ok (R, s') ∧ Reached (IsSlice mapArgs dims labels args) f s s' ∧
      Assembled dims labels rest restLabels (fun e r => ∃ s1 s2, Reached (IsSlice mapArgs dims labels args) f s s1 ∧ f s1 (mapArgs (Ordered.at dims e) args) = .ok (r, s2)) R := by
  set ns := dims.map (fun d => (labels d).length) with hns
  -- the labels of every call
  have hlab : ∀ js ∈ ndindex ns, ∃ c, LabelsAt labels dims js c := fun js hjs => positions_label hd (mem_ndindex.mp hjs)
  have hmem : ∀ {js c}, LabelsAt labels dims js c → ∀ d ∈ dims, c d ∈ labels d := by
    intro js c hc d hd'
    obtain ⟨i, _, hi⟩ := hc d hd'
    exact List.mem_of_getElem? hi
  have harg : ∀ {js c}, LabelsAt labels dims js c → mapArgs (iselOne (dims.zip js)) args = mapArgs (Ordered.at dims c) args := by
    intro js c hc
    exact hmap args _ _ (fun x hx => iselOne_at hc (fun d hd' hxd => hs.labels d hd' x hx hxd))
  have hslices : ∀ a ∈ (ndindex ns).map (fun js => mapArgs (iselOne (dims.zip js)) args), IsSlice mapArgs dims labels args a := by
    intro a ha
    obtain ⟨js, hjs, rfl⟩ := List.mem_map.mp ha
    obtain ⟨c, hc⟩ := hlab js hjs
    exact ⟨c, hmem hc, harg hc⟩
  have hrun : ∃ r, runCalls f s ((ndindex ns).map (fun js => mapArgs (iselOne (dims.zip js)) args)) = .ok r := by
    apply runCalls_ok hslices
    intro a ha s1 h1
    obtain ⟨js, hjs, rfl⟩ := List.mem_map.mp ha
    obtain ⟨c, hc⟩ := hlab js hjs
    rw [harg hc]
    obtain ⟨r, hr, _⟩ := hf c (hmem hc) s1 h1
    exact ⟨r, hr⟩
  obtain ⟨⟨rs, s'⟩, hrun⟩ := hrun
  obtain ⟨hcalls, hreach⟩ := runCalls_mem hrun hslices
  rw [List.forall₂_map_left_iff] at hcalls
  classical
  obtain ⟨cell, hcell⟩ : ∃ cell : List ℕ → (Dim → L), ∀ js ∈ ndindex ns, LabelsAt labels dims js (cell js) :=
    ⟨fun js => if h : js ∈ ndindex ns then (hlab js h).choose else fun _ => default, fun js h => by simp only [dif_pos h]; exact (hlab js h).choose_spec⟩
  have hres : List.Forall₂ (SliceResult dims rest restLabels) ((ndindex ns).map cell) rs := by
    rw [List.forall₂_map_left_iff]
    refine forall₂_imp_mem hcalls ?_
    rintro js hjs r ⟨s1, s2, h1, h2⟩
    rw [harg (hcell js hjs)] at h2
    obtain ⟨r', hr', hok⟩ := hf _ (hmem (hcell js hjs)) s1 h1
    rw [h2] at hr'
    injection hr' with hr'
    rw [← hr'] at hok
    exact hok
  have hne : ndindex ns ≠ [] := by
    apply ndindex_ne_nil
    intro n hn
    obtain ⟨d, hd', rfl⟩ := List.mem_map.mp hn
    exact List.length_pos_of_ne_nil (hl d hd').1
  obtain ⟨R, hR, hA⟩ := combineTiles_slices (labels := labels) hres (by simpa using hne)
    (by
      intro c hc d hd'
      obtain ⟨js, hjs, rfl⟩ := List.mem_map.mp hc
      exact hmem (hcell js hjs) d hd')
    (by
      intro e he
      obtain ⟨js, h1, h2⟩ := positions_exist hd he
      refine ⟨cell js, List.mem_map.mpr ⟨js, mem_ndindex.mpr h1, rfl⟩, ?_⟩
      intro d hd'
      obtain ⟨i, hi, hic⟩ := h2 d hd'
      obtain ⟨i', hi', hic'⟩ := hcell js (mem_ndindex.mpr h1) d hd'
      rw [hi] at hi'
      rw [← Option.some.inj hi', hic] at hic'
      exact (Option.some.inj hic').symm)
    (by
      intro hlen
      rw [List.length_map] at hlen
      match hm : ndindex ns, hlen with
      | js :: js' :: tail, _ =>
        have hnd := ndindex_nodup ns
        rw [hm] at hnd
        have hneq : js ≠ js' := by
          rintro rfl
          exact (List.nodup_cons.mp hnd).1 (by simp)
        have hj : js ∈ ndindex ns := by rw [hm]; simp
        have hj' : js' ∈ ndindex ns := by rw [hm]; simp
        refine ⟨cell js, by simp, cell js', by simp, ?_⟩
        by_contra hcon
        push Not at hcon
        exact hneq (labels_inj hd (fun d hd' => (hl d hd').2) (mem_ndindex.mp hj) (mem_ndindex.mp hj') (hcell js hj) (hcell js' hj') hcon))
  refine ⟨R, s', ?_, hreach, hA.shape, hA.sliced, hA.others, ?_⟩
  · unfold applyToSlices
    exact bind_ok_iff.mpr ⟨_, sliceSizes_ok hs, bind_ok_iff.mpr ⟨(rs, s'), hrun, bind_ok_iff.mpr ⟨R, hR, rfl⟩⟩⟩
  · intro e he
    obtain ⟨r, ⟨c, hce, hzip⟩, hval⟩ := hA.value e he
    refine ⟨r, ?_, hval⟩
    rw [List.zip_map_left] at hzip
    obtain ⟨⟨js, r'⟩, hjs, heq⟩ := List.mem_map.mp hzip
    simp only [Prod.map_apply, id_eq, Prod.mk.injEq] at heq
    obtain ⟨rfl, rfl⟩ := heq
    obtain ⟨s1, s2, h1, h2⟩ := forall₂_zip hcalls hjs
    have hjm := (List.of_mem_zip hjs).1
    refine ⟨s1, s2, h1, ?_⟩
    rw [← h2, harg (js := js) (c := e)]
    intro d hd'
    obtain ⟨i, hi, hic⟩ := hcell js hjm d hd'
    exact ⟨i, hi, by rw [hic, hce d hd']⟩

/-- For a function without a state that computes what is known of the whole array at the labels of the call, the result is this array. -/
theorem C80_whole {g : A → Except Err (DA L V)} {F : DA L V} (hmap : MapsLeaves mapArgs leaves) (hd : dims.Nodup) (hs : SameLabels labels dims (leaves args))
    (hl : ∀ d ∈ dims, labels d ≠ [] ∧ (labels d).Nodup) (hF : ∀ d ∈ dims, d ∈ F.dims ∧ F.coords d = (labels d).toFinset)
    (hg : ∀ c : Dim → L, (∀ d ∈ dims, c d ∈ labels d) → ∃ r, g (mapArgs (Ordered.at dims c) args) = .ok r ∧ r.dims = F.dims ∧ (∀ d ∈ F.dims, r.coords d = if d ∈ dims then {c d} else F.coords d) ∧
      ∀ e, (∀ d ∈ dims, e d = c d) → r.val e = F.val e) :
    ∃ R, applyToSlices mapArgs leaves (fun (_ : Unit) a => (g a).map (fun r => (r, ()))) dims args () = .ok (R, ()) ∧ R.Same F := by
  have hfd : F.dims = dims.toFinset ∪ (F.dims \ dims.toFinset) := by
    ext k
    simp only [Finset.mem_union, List.mem_toFinset, Finset.mem_sdiff]
    constructor
    · intro hk; by_cases h : k ∈ dims <;> simp [h, hk]
    · rintro (h | h)
      · exact (hF k h).1
      · exact h.1
  obtain ⟨R, s', hR, _, hA⟩ := C80_apply (f := fun (_ : Unit) a => (g a).map (fun r => (r, ()))) (s := ()) (rest := F.dims \ dims.toFinset) (restLabels := F.coords) hmap hd hs hl (by
    intro c hc s1 _
    obtain ⟨r, hr, h1, h2, h3⟩ := hg c hc
    refine ⟨(r, ()), by rw [hr]; rfl, ?_, ?_, ?_⟩
    · rw [h1]; exact hfd
    · intro d hd'
      rw [h2 d (hF d hd').1, if_pos hd']
    · intro d hd'
      rw [Finset.mem_sdiff, List.mem_toFinset] at hd'
      exact ⟨hd'.2, by rw [h2 d hd'.1, if_neg hd'.2]⟩)
  refine ⟨R, hR, by rw [hA.shape, ← hfd], ?_, ?_⟩
  · intro d hd'
    rw [hA.shape, ← hfd] at hd'
    by_cases h : d ∈ dims
    · rw [hA.sliced d h, (hF d h).2]
    · rw [hA.others d (by rw [Finset.mem_sdiff, List.mem_toFinset]; exact ⟨hd', h⟩)]
  · intro e he
    have hlab : ∀ d ∈ dims, e d ∈ labels d := by
      intro d hd'
      have := he d (by rw [hA.shape]; exact Finset.mem_union_left _ (List.mem_toFinset.mpr hd'))
      rw [hA.sliced d hd', List.mem_toFinset] at this
      exact this
    obtain ⟨r, ⟨s1, s2, _, h2⟩, hval⟩ := hA.value e hlab
    obtain ⟨r', hr', _, _, h3⟩ := hg e hlab
    rw [hr'] at h2
    injection h2 with h2
    injection h2 with h2 _
    rw [hval, ← h2, h3 e (fun _ _ => rfl)]

/-- Arguments with different sizes of a sliced dimension, or a dimension that no argument has, raise a `ValueError`, before any call. -/
theorem C80_sizes (h : (∃ d ∈ dims, ∀ a ∈ leaves args, d ∉ a.arr.dims) ∨
      ∃ d ∈ dims, ∃ a ∈ leaves args, ∃ b ∈ leaves args, d ∈ a.arr.dims ∧ d ∈ b.arr.dims ∧ (a.order d).length ≠ (b.order d).length) :
    applyToSlices mapArgs leaves f dims args s = .error .valueError := by
  have herr : sliceSizes dims (leaves args) = .error .valueError := by
    obtain ⟨d, hd, hbad⟩ : ∃ d ∈ dims, sliceSize (leaves args) d = .error .valueError := by
      rcases h with ⟨d, hd, hno⟩ | ⟨d, hd, a, ha, b, hb, hda, hdb, hne⟩
      · refine ⟨d, hd, ?_⟩
        have : (leaves args).filter (fun a => decide (d ∈ a.arr.dims)) = [] := by
          rw [List.filter_eq_nil_iff]
          intro a ha
          simpa using hno a ha
        rw [sliceSize, this]; rfl
      · refine ⟨d, hd, ?_⟩
        unfold sliceSize
        have ma : (a.order d).length ∈ ((leaves args).filter (fun a => decide (d ∈ a.arr.dims))).map (fun a => (a.order d).length) :=
          List.mem_map.mpr ⟨a, List.mem_filter.mpr ⟨ha, by simpa using hda⟩, rfl⟩
        have mb : (b.order d).length ∈ ((leaves args).filter (fun a => decide (d ∈ a.arr.dims))).map (fun a => (a.order d).length) :=
          List.mem_map.mpr ⟨b, List.mem_filter.mpr ⟨hb, by simpa using hdb⟩, rfl⟩
        cases hl : ((leaves args).filter (fun a => decide (d ∈ a.arr.dims))).map (fun a => (a.order d).length) with
        | nil => rfl
        | cons n ns =>
          rw [hl] at ma mb
          show (if (ns.all fun m => m == n) = true then (.ok n : Except Err ℕ) else .error .valueError) = _
          rw [if_neg]
          intro hall
          rw [List.all_eq_true] at hall
          have hx : ∀ m ∈ n :: ns, m = n := by
            intro m hm
            rcases List.mem_cons.mp hm with rfl | hm
            · rfl
            · simpa using hall m hm
          exact hne ((hx _ ma).trans (hx _ mb).symm)
    unfold sliceSizes
    clear h
    induction dims with
    | nil => cases hd
    | cons d' dims ih =>
      rw [List.mapM_cons]
      rcases List.mem_cons.mp hd with rfl | hd
      · rw [hbad]; rfl
      · rw [ih hd]
        unfold sliceSize
        cases hx : ((leaves args).filter (fun a => decide (d' ∈ a.arr.dims))).map (fun a => (a.order d').length) with
        | nil => rfl
        | cons n ns =>
          dsimp only
          by_cases hn : (ns.all fun m => m == n) = true
          · rw [if_pos hn]; rfl
          · rw [if_neg hn]; rfl
  unfold applyToSlices
  rw [herr]; rfl

/-- ★ A function whose results do not have the sliced dimensions but are otherwise alike: with more than one slice, a `ValueError`. -/
theorem C80_not_kept {shape : Finset Dim} {shapeLabels : Dim → Finset L} (hmap : MapsLeaves mapArgs leaves) (hd : dims.Nodup) (hs : SameLabels labels dims (leaves args))
    (hf : ∀ c : Dim → L, (∀ d ∈ dims, c d ∈ labels d) → ∀ s1, Reached (IsSlice mapArgs dims labels args) f s s1 → ∃ r, f s1 (mapArgs (Ordered.at dims c) args) = .ok r ∧ r.1.dims = shape ∧ ∀ d ∈ shape, r.1.coords d = shapeLabels d)
    (hmany : 1 < (ndindex (dims.map (fun d => (labels d).length))).length) :
    applyToSlices mapArgs leaves f dims args s = .error .valueError := by
  set ns := dims.map (fun d => (labels d).length) with hns
  have hall : ∀ js ∈ ndindex ns, ∀ s1, Reached (IsSlice mapArgs dims labels args) f s s1 → ∃ r, f s1 (mapArgs (iselOne (dims.zip js)) args) = .ok r ∧ r.1.dims = shape ∧ ∀ d ∈ shape, r.1.coords d = shapeLabels d := by
    intro js hjs s1 h1
    obtain ⟨c, hc⟩ := positions_label hd (mem_ndindex.mp hjs)
    rw [hmap args (iselOne (dims.zip js)) (Ordered.at dims c) (fun x hx => iselOne_at hc (fun d hd' hxd => hs.labels d hd' x hx hxd))]
    refine hf c (fun d hd' => ?_) s1 h1
    obtain ⟨i, _, hi⟩ := hc d hd'
    exact List.mem_of_getElem? hi
  have hslices : ∀ a ∈ (ndindex ns).map (fun js => mapArgs (iselOne (dims.zip js)) args), IsSlice mapArgs dims labels args a := by
    intro a ha
    obtain ⟨js, hjs, rfl⟩ := List.mem_map.mp ha
    obtain ⟨c, hc⟩ := positions_label hd (mem_ndindex.mp hjs)
    refine ⟨c, fun d hd' => ?_, hmap args _ _ (fun x hx => iselOne_at hc (fun d hd' hxd => hs.labels d hd' x hx hxd))⟩
    obtain ⟨i, _, hi⟩ := hc d hd'
    exact List.mem_of_getElem? hi
  obtain ⟨⟨rs, s'⟩, hrun⟩ : ∃ r, runCalls f s ((ndindex ns).map (fun js => mapArgs (iselOne (dims.zip js)) args)) = .ok r := by
    apply runCalls_ok hslices
    intro a ha s1 h1
    obtain ⟨js, hjs, rfl⟩ := List.mem_map.mp ha
    obtain ⟨r, hr, _⟩ := hall js hjs s1 h1
    exact ⟨r, hr⟩
  obtain ⟨hcalls, _⟩ := runCalls_mem hrun hslices
  have hlen := hcalls.length_eq
  rw [List.forall₂_map_left_iff] at hcalls
  have hshape : ∀ r ∈ rs, r.dims = shape ∧ ∀ d ∈ shape, r.coords d = shapeLabels d := by
    intro r hr
    obtain ⟨js, hjs, s1, s2, h1, h2⟩ := forall₂_mem_right hcalls hr
    obtain ⟨r', hr', h⟩ := hall js hjs s1 h1
    rw [h2] at hr'
    injection hr' with hr'
    rw [← hr'] at h
    exact h
  have herr : combineTiles rs = .error .valueError := by
    match rs, hlen with
    | [], _ => rfl
    | [r], hlen => rw [List.length_map] at hlen; simp at hlen; omega
    | r :: r' :: rs, _ =>
      rw [combineTiles, if_neg, if_pos]
      · refine ⟨?_, by simp⟩
        unfold concatDims
        rw [Finset.filter_eq_empty_iff]
        intro d hd'
        obtain ⟨h1, h2⟩ := hshape r (by simp)
        rw [h1] at hd'
        simp only [List.any_eq_true, decide_eq_true_eq, not_exists, not_and, not_not]
        intro t ht
        rw [(hshape t (by simp [List.mem_cons.mp ht])).2 d hd', h2 d hd']
      · rintro ⟨t, ht, hne⟩
        exact hne (by rw [(hshape t (by simp [List.mem_cons.mp ht])).1, (hshape r (by simp)).1])
  unfold applyToSlices
  rw [sliceSizes_ok hs]
  show (do
    let results ← runCalls f s ((ndindex ns).map (fun js => mapArgs (iselOne (dims.zip js)) args))
    let r ← combineTiles results.1
    return (r, results.2) : Except Err _) = _
  rw [hrun]
  show (do
    let r ← combineTiles rs
    return (r, s') : Except Err _) = _
  rw [herr]; rfl

theorem find_last {α : Type} (p : α → Bool) {as bs : List α} {x : α} (hx : p x = true) (hb : ∀ b ∈ bs, p b = false) : (as ++ x :: bs).reverse.find? p = some x := by
  rw [List.reverse_append, List.reverse_cons, List.append_assoc, List.find?_append]
  have : bs.reverse.find? p = none := by
    rw [List.find?_eq_none]
    intro b hb' h
    rw [hb b (List.mem_reverse.mp hb')] at h
    cases h
  rw [this]
  simp [List.find?_cons, hx]

theorem ndindex_two {m n i : ℕ} (hi : i < m) (hn : 0 < n) : ∃ A B, ndindex [m, n] = A ++ [i, n - 1] :: B ∧ ∀ js ∈ B, ∃ i' j, js = [i', j] ∧ i' ≠ i := by
  have h1 : ∀ n : ℕ, ndindex [n] = (List.range n).map (fun j => [j]) := by
    intro n
    simp only [ndindex, List.map_cons, List.map_nil]
    induction List.range n with
    | nil => rfl
    | cons a l ih => simp [ih]
  have h2 : ndindex [m, n] = (List.range m).flatMap (fun i => (List.range n).map (fun j => [i, j])) := by
    rw [ndindex, h1]
    simp [List.map_map, Function.comp_def]
  obtain ⟨k, rfl⟩ : ∃ k, m = i + (k + 1) := ⟨m - i - 1, by omega⟩
  obtain ⟨n, rfl⟩ : ∃ k, n = k + 1 := ⟨n - 1, by omega⟩
  refine ⟨(List.range i).flatMap (fun i => (List.range (n + 1)).map (fun j => [i, j])) ++ (List.range n).map (fun j => [i, j]),
    ((List.range k).map (fun x => i + (x + 1))).flatMap (fun i => (List.range (n + 1)).map (fun j => [i, j])), ?_, ?_⟩
  · rw [h2, List.range_add (n := i), List.flatMap_append, List.range_succ_eq_map (n := k), List.map_cons, List.flatMap_cons, Nat.add_zero, List.range_succ (n := n), List.map_append]
    simp [List.map_map, Function.comp_def]
  · intro js hjs
    obtain ⟨i', hi', hj⟩ := List.mem_flatMap.mp hjs
    obtain ⟨x, _, rfl⟩ := List.mem_map.mp hi'
    obtain ⟨j, _, rfl⟩ := List.mem_map.mp hj
    exact ⟨_, _, rfl, by omega⟩

theorem forall₂_split {α β : Type} {P : α → β → Prop} {A B : List α} {x : α} {rs : List β} (h : List.Forall₂ P (A ++ x :: B) rs) :
    ∃ A' y B', rs = A' ++ y :: B' ∧ P x y ∧ List.Forall₂ P B B' := by
  induction A generalizing rs with
  | nil =>
    cases h with
    | @cons _ y _ B' h1 h2 => exact ⟨[], y, B', rfl, h1, h2⟩
  | cons a A ih =>
    cases h with
    | @cons _ y _ rs h1 h2 =>
      obtain ⟨A', z, B', rfl, h3, h4⟩ := ih h2
      exact ⟨y :: A', z, B', rfl, h3, h4⟩

theorem combineTiles_join {rs : List (DA L V)} {R : DA L V} (h : combineTiles rs = .ok R) : ∃ r tl, rs = r :: tl ∧ joinTiles r tl = R := by
  match rs, h with
  | [], h => cases h
  | r :: tl, h =>
    refine ⟨r, tl, rfl, ?_⟩
    rw [combineTiles] at h
    split_ifs at h
    exact Except.ok.inj h

/-- ★ A function that keeps the dimension `d` but not the dimension `q`: the calls along `q` are all made, and the one at the last label of `q` gives the result. -/
theorem C80_last_slice {d q : Dim} (hmap : MapsLeaves mapArgs leaves) (hdq : d ≠ q) (hs : SameLabels labels [d, q] (leaves args)) (hq : labels q ≠ []) (hl : 2 ≤ (labels d).length) (hnd : (labels d).Nodup)
    (hf : ∀ c : Dim → L, c d ∈ labels d → c q ∈ labels q → ∀ s1, Reached (IsSlice mapArgs [d, q] labels args) f s s1 → ∃ r, f s1 (mapArgs (Ordered.at [d, q] c) args) = .ok r ∧ SliceResult [d] rest restLabels c r.1)
    {R : DA L V} {s' : S} (hR : applyToSlices mapArgs leaves f [d, q] args s = .ok (R, s')) (e : Dim → L) (he : e d ∈ labels d) :
    ∃ s1 s2 r, Reached (IsSlice mapArgs [d, q] labels args) f s s1 ∧ f s1 (mapArgs (Ordered.at [d, q] (setLabel e q ((labels q).getLast hq))) args) = .ok (r, s2) ∧ R.val e = r.val e := by
  have hd : [d, q].Nodup := by simp [hdq]
  unfold applyToSlices at hR
  obtain ⟨ns, hn, hR⟩ := bind_ok_iff.mp hR
  rw [sliceSizes_ok hs] at hn
  obtain rfl := Except.ok.inj hn
  obtain ⟨rs, hrun, hR⟩ := bind_ok_iff.mp hR
  obtain ⟨R', hR', hR⟩ := bind_ok_iff.mp hR
  obtain ⟨rfl, _⟩ : R' = R ∧ rs.2 = s' := by
    have := Except.ok.inj hR
    exact ⟨congrArg Prod.fst this, congrArg Prod.snd this⟩
  have hslices : ∀ a ∈ (ndindex ([d, q].map (fun d => (labels d).length))).map (fun js => mapArgs (iselOne ([d, q].zip js)) args), IsSlice mapArgs [d, q] labels args a := by
    intro a ha
    obtain ⟨js, hjs, rfl⟩ := List.mem_map.mp ha
    obtain ⟨c, hc⟩ := positions_label hd (mem_ndindex.mp hjs)
    refine ⟨c, fun k hk => ?_, hmap args _ _ (fun x hx => iselOne_at hc (fun d hd' hxd => hs.labels d hd' x hx hxd))⟩
    obtain ⟨i, _, hi⟩ := hc k hk
    exact List.mem_of_getElem? hi
  obtain ⟨hcalls, _⟩ := runCalls_mem hrun hslices
  rw [List.forall₂_map_left_iff] at hcalls
  have hres : ∀ js ∈ ndindex ([d, q].map (fun d => (labels d).length)), ∀ r, (∃ s1 s2, Reached (IsSlice mapArgs [d, q] labels args) f s s1 ∧ f s1 (mapArgs (iselOne ([d, q].zip js)) args) = .ok (r, s2)) →
      ∀ c, LabelsAt labels [d, q] js c → SliceResult [d] rest restLabels c r := by
    rintro js hjs r ⟨s1, s2, h1, h2⟩ c hc
    rw [hmap args (iselOne ([d, q].zip js)) (Ordered.at [d, q] c) (fun x hx => iselOne_at hc (fun d hd' hxd => hs.labels d hd' x hx hxd))] at h2
    have hm : ∀ k ∈ [d, q], c k ∈ labels k := by
      intro k hk
      obtain ⟨i, _, hi⟩ := hc k hk
      exact List.mem_of_getElem? hi
    obtain ⟨r', hr', hok⟩ := hf c (hm d (by simp)) (hm q (by simp)) s1 h1
    rw [h2] at hr'
    injection hr' with hr'
    rw [← hr'] at hok
    exact hok
  obtain ⟨i, hi, hie⟩ := List.mem_iff_getElem.mp he
  have hqn : 0 < (labels q).length := List.length_pos_of_ne_nil hq
  obtain ⟨A, B, hAB, hB⟩ := ndindex_two hi hqn
  have hns : [d, q].map (fun d => (labels d).length) = [(labels d).length, (labels q).length] := rfl
  rw [hns] at hcalls hres
  have hlabels : ∀ {i j : ℕ} (hi : i < (labels d).length) (hj : j < (labels q).length) (b : Dim → L), b d = (labels d)[i] → b q = (labels q)[j] → LabelsAt labels [d, q] [i, j] b := by
    intro i j hi hj b h1 h2 k hk
    have hqd : (q == d) = false := by simpa using Ne.symm hdq
    rcases List.mem_cons.mp hk with rfl | hk
    · exact ⟨i, by simp [List.lookup], by rw [h1]; exact List.getElem?_eq_getElem hi⟩
    · have : k = q := by simpa using hk
      subst this
      exact ⟨j, by simp [List.lookup, hqd], by rw [h2]; exact List.getElem?_eq_getElem hj⟩
  have hall := hcalls
  rw [hAB] at hcalls
  obtain ⟨A', y, B', hsplit, hy, hBB⟩ := forall₂_split hcalls
  have hjs : [i, (labels q).length - 1] ∈ ndindex [(labels d).length, (labels q).length] := by rw [hAB]; simp
  have hlast : (labels q)[(labels q).length - 1]'(by omega) = (labels q).getLast hq := (List.getLast_eq_getElem hq).symm
  have hce : LabelsAt labels [d, q] [i, (labels q).length - 1] (setLabel e q ((labels q).getLast hq)) := by
    apply hlabels hi (by omega)
    · simp [setLabel, hdq, hie]
    · simp [setLabel, hlast]
  have hyr := hres _ hjs y hy _ hce
  obtain ⟨r0, tl, hr0, rfl⟩ := combineTiles_join hR'
  have hin : ∀ r ∈ rs.1, ∃ i j, ∃ hi : i < (labels d).length, ∃ hj : j < (labels q).length, [i, j] ∈ ndindex [(labels d).length, (labels q).length] ∧
      SliceResult [d] rest restLabels (fun k => if k = d then (labels d)[i] else (labels q)[j]) r := by
    intro r hr
    obtain ⟨js, hjs, hcall⟩ := forall₂_mem_right hall hr
    obtain ⟨i, j, hi, hj, rfl⟩ : ∃ i j, i < (labels d).length ∧ j < (labels q).length ∧ js = [i, j] := by
      have := mem_ndindex.mp hjs
      cases this with
      | @cons i _ _ _ h1 h2 =>
        cases h2 with
        | @cons j _ _ _ h2 h3 =>
          cases h3
          exact ⟨i, j, h1, h2, rfl⟩
    exact ⟨i, j, hi, hj, hjs, hres _ hjs r hcall _ (hlabels hi hj _ (if_pos rfl) (if_neg (Ne.symm hdq)))⟩
  have hcat : ∀ k, k ∈ concatDims r0 tl ↔ k = d := by
    intro k
    obtain ⟨i0, j0, hi0, hj0, _, h0⟩ := hin r0 (by rw [hr0]; simp)
    simp only [concatDims, Finset.mem_filter, List.any_eq_true, decide_eq_true_eq]
    constructor
    · rintro ⟨hk, t, ht, hne⟩
      by_contra hkd
      rw [h0.shape, Finset.mem_union, List.mem_toFinset, List.mem_singleton] at hk
      obtain ⟨_, _, _, _, _, h1⟩ := hin t (by rw [hr0]; simp [ht])
      rcases hk with hk | hk
      · exact hkd hk
      · exact hne (by rw [(h1.others k hk).2, (h0.others k hk).2])
    · rintro rfl
      refine ⟨by rw [h0.shape]; simp, ?_⟩
      -- some call has another label of `d`
      obtain ⟨i1, hi1, hne⟩ : ∃ i1, i1 < (labels k).length ∧ i1 ≠ i0 := by
        by_cases h : i0 = 0
        · exact ⟨1, by omega, by omega⟩
        · exact ⟨0, by omega, fun e => h e.symm⟩
      have hj1 : [i1, 0] ∈ ndindex [(labels k).length, (labels q).length] := mem_ndindex.mpr (.cons hi1 (.cons hqn .nil))
      obtain ⟨t, ht, hcall⟩ := forall₂_mem_left hall hj1
      have h1 := hres _ hj1 t hcall (fun x => if x = k then (labels k)[i1] else (labels q)[0]) (hlabels hi1 hqn _ (if_pos rfl) (if_neg (Ne.symm hdq)))
      have hco : t.coords k ≠ r0.coords k := by
        rw [h1.sliced k (by simp), h0.sliced k (by simp)]
        simp only [if_true]
        intro he
        exact hne ((List.Nodup.getElem_inj_iff hnd).mp (Finset.singleton_injective he))
      rw [hr0] at ht
      rcases List.mem_cons.mp ht with rfl | ht
      · exact absurd rfl hco
      · exact ⟨t, ht, hco⟩
  obtain ⟨s1, s2, h1, h2⟩ := hy
  refine ⟨s1, s2, y, h1, ?_, ?_⟩
  · rw [← h2]
    rw [hmap args (iselOne ([d, q].zip [i, (labels q).length - 1])) (Ordered.at [d, q] _) (fun x hx => iselOne_at hce (fun d hd' hxd => hs.labels d hd' x hx hxd))]
  · classical
    have hfind : (r0 :: tl).reverse.find? (fun s => decide (∀ d ∈ concatDims r0 tl, e d ∈ s.coords d)) = some y := by
      rw [← hr0, hsplit]
      apply find_last
      · rw [decide_eq_true_eq]
        intro k hk
        rw [hcat] at hk
        subst hk
        rw [hyr.sliced k (by simp)]
        simp [setLabel, hdq]
      · intro b hb
        rw [decide_eq_false_iff_not]
        intro hk
        have hk := hk d ((hcat d).mpr rfl)
        obtain ⟨js, hjs', hcall⟩ := forall₂_mem_right hBB hb
        obtain ⟨i', j', rfl, hne⟩ := hB js hjs'
        have hm : [i', j'] ∈ ndindex [(labels d).length, (labels q).length] := by rw [hAB]; simp [hjs']
        have hlt := mem_ndindex.mp hm
        cases hlt with
        | cons hi' hlt =>
          cases hlt with
          | cons hj' _ =>
            have h3 := hres _ hm b hcall (fun x => if x = d then (labels d)[i'] else (labels q)[j']) (hlabels hi' hj' _ (if_pos rfl) (if_neg (Ne.symm hdq)))
            rw [h3.sliced d (by simp), Finset.mem_singleton] at hk
            simp only [if_true] at hk
            rw [← hie] at hk
            exact hne ((List.Nodup.getElem_inj_iff hnd).mp hk).symm
    simp only [joinTiles, hfind]

/-- ★ ... without an error. -/
theorem C80_last_slice_accepted {d q : Dim} (hmap : MapsLeaves mapArgs leaves) (hdq : d ≠ q) (hs : SameLabels labels [d, q] (leaves args)) (hq : labels q ≠ []) (hl : 2 ≤ (labels d).length) (hnd : (labels d).Nodup)
    (hf : ∀ c : Dim → L, c d ∈ labels d → c q ∈ labels q → ∀ s1, Reached (IsSlice mapArgs [d, q] labels args) f s s1 → ∃ r, f s1 (mapArgs (Ordered.at [d, q] c) args) = .ok r ∧ SliceResult [d] rest restLabels c r.1) :
    ∃ R s', applyToSlices mapArgs leaves f [d, q] args s = .ok (R, s') ∧ R.dims = insert d rest ∧ R.coords d = (labels d).toFinset := by
  have hd : [d, q].Nodup := by simp [hdq]
  set ns := [d, q].map (fun d => (labels d).length) with hns
  have hlab : ∀ js ∈ ndindex ns, ∃ c, LabelsAt labels [d, q] js c := fun js hjs => positions_label hd (mem_ndindex.mp hjs)
  have hmem : ∀ {js c}, LabelsAt labels [d, q] js c → ∀ k ∈ [d, q], c k ∈ labels k := by
    intro js c hc k hk
    obtain ⟨i, _, hi⟩ := hc k hk
    exact List.mem_of_getElem? hi
  have harg : ∀ {js c}, LabelsAt labels [d, q] js c → mapArgs (iselOne ([d, q].zip js)) args = mapArgs (Ordered.at [d, q] c) args := by
    intro js c hc
    exact hmap args _ _ (fun x hx => iselOne_at hc (fun k hk hxd => hs.labels k hk x hx hxd))
  have hslices : ∀ a ∈ (ndindex ns).map (fun js => mapArgs (iselOne ([d, q].zip js)) args), IsSlice mapArgs [d, q] labels args a := by
    intro a ha
    obtain ⟨js, hjs, rfl⟩ := List.mem_map.mp ha
    obtain ⟨c, hc⟩ := hlab js hjs
    exact ⟨c, hmem hc, harg hc⟩
  have hrun : ∃ r, runCalls f s ((ndindex ns).map (fun js => mapArgs (iselOne ([d, q].zip js)) args)) = .ok r := by
    apply runCalls_ok hslices
    intro a ha s1 h1
    obtain ⟨js, hjs, rfl⟩ := List.mem_map.mp ha
    obtain ⟨c, hc⟩ := hlab js hjs
    rw [harg hc]
    obtain ⟨r, hr, _⟩ := hf c (hmem hc d (by simp)) (hmem hc q (by simp)) s1 h1
    exact ⟨r, hr⟩
  obtain ⟨⟨rs, s'⟩, hrun⟩ := hrun
  obtain ⟨hcalls, _⟩ := runCalls_mem hrun hslices
  rw [List.forall₂_map_left_iff] at hcalls
  classical
  obtain ⟨cell, hcell⟩ : ∃ cell : List ℕ → (Dim → L), ∀ js ∈ ndindex ns, LabelsAt labels [d, q] js (cell js) :=
    ⟨fun js => if h : js ∈ ndindex ns then (hlab js h).choose else fun _ => default, fun js h => by simp only [dif_pos h]; exact (hlab js h).choose_spec⟩
  have hres : List.Forall₂ (SliceResult [d] rest restLabels) ((ndindex ns).map cell) rs := by
    rw [List.forall₂_map_left_iff]
    refine forall₂_imp_mem hcalls ?_
    rintro js hjs r ⟨s1, s2, h1, h2⟩
    rw [harg (hcell js hjs)] at h2
    obtain ⟨r', hr', hok⟩ := hf _ (hmem (hcell js hjs) d (by simp)) (hmem (hcell js hjs) q (by simp)) s1 h1
    rw [h2] at hr'
    injection hr' with hr'
    rw [← hr'] at hok
    exact hok
  have hqn : 0 < (labels q).length := List.length_pos_of_ne_nil hq
  have hcover : ∀ l ∈ labels d, ∃ c ∈ (ndindex ns).map cell, c d = l := by
    intro l hl'
    obtain ⟨i, hi, rfl⟩ := List.mem_iff_getElem.mp hl'
    have hj : [i, 0] ∈ ndindex ns := mem_ndindex.mpr (.cons hi (.cons hqn .nil))
    refine ⟨cell [i, 0], List.mem_map.mpr ⟨_, hj, rfl⟩, ?_⟩
    obtain ⟨i', hi', hic⟩ := hcell _ hj d (by simp)
    have hii : i = i' := by simpa [List.lookup] using hi'
    subst hii
    rw [List.getElem?_eq_getElem hi] at hic
    exact (Option.some.inj hic).symm
  obtain ⟨R, hR, hA⟩ := combineTiles_slices (labels := labels) hres (by
      have hd0 : 0 < (labels d).length := by omega
      have h0 : [0, 0] ∈ ndindex ns := mem_ndindex.mpr (.cons hd0 (.cons hqn .nil))
      intro hnil
      rw [List.map_eq_nil_iff] at hnil
      rw [hnil] at h0
      cases h0)
    (by
      intro c hc k hk
      obtain ⟨js, hjs, rfl⟩ := List.mem_map.mp hc
      exact hmem (hcell js hjs) k (by simp at hk; simp [hk]))
    (by
      intro e he
      obtain ⟨c, hc, hce⟩ := hcover (e d) (he d (by simp))
      exact ⟨c, hc, fun k hk => by obtain rfl := List.mem_singleton.mp hk; exact hce⟩)
    (by
      intro _
      obtain ⟨c, hc, hc0⟩ := hcover (labels d)[0] (List.getElem_mem _)
      obtain ⟨c', hc', hc1⟩ := hcover (labels d)[1] (List.getElem_mem _)
      refine ⟨c, hc, c', hc', d, by simp, ?_⟩
      rw [hc0, hc1]
      intro heq
      exact absurd ((List.Nodup.getElem_inj_iff hnd).mp heq) (by simp))
  refine ⟨R, s', ?_, by rw [hA.shape]; ext k; simp, hA.sliced d (by simp)⟩
  unfold applyToSlices
  exact bind_ok_iff.mpr ⟨_, sliceSizes_ok hs, bind_ok_iff.mpr ⟨(rs, s'), hrun, bind_ok_iff.mpr ⟨R, hR, rfl⟩⟩⟩

end theorems

section examples

/-- Two labels of `x` and two of `y`. -/
def exSquare : Ordered ℕ ℕ where
  arr := { dims := {"x", "y"}, coords := fun _ => {0, 1}, val := fun e => 10 * e "x" + e "y" }
  order := fun _ => [0, 1]

theorem exSquare_labels : SameLabels (fun _ => [0, 1]) ["x", "y"] [exSquare] where
  present := by intro d hd; exact ⟨exSquare, by simp, by simpa [exSquare] using hd⟩
  labels := by intro d _ a ha _; obtain rfl := List.mem_singleton.mp ha; rfl

theorem mapsLeaves_one : MapsLeaves (fun f (a : Ordered ℕ ℕ) => f a) (fun a => [a]) := by
  intro a g h hg
  exact hg a (by simp)

/-- Squaring slice by slice is squaring. -/
example : ∃ R, applyToSlices (fun f (a : Ordered ℕ ℕ) => f a) (fun a => [a]) (fun (_ : Unit) a => (Except.ok (a.arr.map (fun v => v * v)) : Except Err _).map (fun r => (r, ()))) ["x", "y"] exSquare () = .ok (R, ()) ∧
    R.Same (exSquare.arr.map (fun v => v * v)) :=
  C80_whole (labels := fun _ => [0, 1]) (g := fun a => .ok (a.arr.map (fun v => v * v))) mapsLeaves_one (by simp) exSquare_labels (by simp) (by simp [exSquare, DA.map]) (by
    intro c _
    refine ⟨_, rfl, rfl, ?_, fun e _ => rfl⟩
    intro d hd
    have : d ∈ ["x", "y"] := by simpa [exSquare, DA.map] using hd
    have hd' : d ∈ exSquare.arr.dims := hd
    show (if d ∈ exSquare.arr.dims ∧ d ∈ ["x", "y"] then {c d} else exSquare.arr.coords d) = _
    rw [if_pos ⟨hd', this⟩, if_pos this])

/-- A function that returns a number for every slice. -/
def exNumber (_ : Unit) (a : Ordered ℕ ℕ) : Except Err (DA ℕ ℕ × Unit) := .ok (DA.scalar (a.arr.val (fun d => (a.order d).headD 0)), ())

example : applyToSlices (fun f (a : Ordered ℕ ℕ) => f a) (fun a => [a]) exNumber ["x", "y"] exSquare () = .error .valueError :=
  C80_not_kept (labels := fun _ => [0, 1]) (shape := ∅) (shapeLabels := fun _ => ∅) mapsLeaves_one (by simp) exSquare_labels (by
    intro c _ s1 _
    exact ⟨_, rfl, rfl, by simp⟩) (by decide)

/-- A function that keeps `x` only. -/
def exKeepX (_ : Unit) (a : Ordered ℕ ℕ) : Except Err (DA ℕ ℕ × Unit) :=
  .ok ({ dims := {"x"}, coords := a.arr.coords, val := fun _ => a.arr.val (fun d => (a.order d).headD 0) }, ())

/-- The results are those at `y = 1`. -/
example : ∃ R, applyToSlices (fun f (a : Ordered ℕ ℕ) => f a) (fun a => [a]) exKeepX ["x", "y"] exSquare () = .ok (R, ()) ∧ R.dims = {"x"} ∧ R.val (fun _ => 0) = 1 := by
  have hf : ∀ c : Dim → ℕ, c "x" ∈ [0, 1] → c "y" ∈ [0, 1] → ∀ s1, Reached (IsSlice (fun f (a : Ordered ℕ ℕ) => f a) ["x", "y"] (fun _ => [0, 1]) exSquare) exKeepX () s1 →
      ∃ r, exKeepX s1 (Ordered.at ["x", "y"] c exSquare) = .ok r ∧ SliceResult ["x"] ∅ (fun _ => ∅) c r.1 := by
    intro c _ _ s1 _
    refine ⟨_, rfl, by simp, ?_, by simp⟩
    intro d hd
    obtain rfl := List.mem_singleton.mp hd
    simp [Ordered.at, exSquare]
  obtain ⟨R, s', hR, hdims, _⟩ := C80_last_slice_accepted (labels := fun _ => [0, 1]) (f := exKeepX) (s := ()) mapsLeaves_one (by simp) exSquare_labels (by simp) (by simp) (by simp) hf
  refine ⟨R, hR, by simpa using hdims, ?_⟩
  obtain ⟨s1, s2, r, _, hr, hval⟩ := C80_last_slice mapsLeaves_one (by simp) exSquare_labels (by simp) (by simp) (by simp) hf hR (fun _ => 0) (by simp)
  rw [hval]
  have := congrArg Prod.fst (Except.ok.inj hr)
  dsimp only at this
  rw [← this]
  simp [Ordered.at, exSquare, setLabel]

/-- No array has `z`. -/
example : applyToSlices (fun f (a : Ordered ℕ ℕ) => f a) (fun a => [a]) exNumber ["z"] exSquare () = .error .valueError :=
  C80_sizes (Or.inl ⟨"z", by simp, by intro a ha; obtain rfl := List.mem_singleton.mp ha; simp [exSquare]⟩)

end examples
end WBX
