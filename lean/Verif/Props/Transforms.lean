import Verif.Spec.Transforms
import Verif.Props.Naming
import Verif.Props.LocalityWrappers
import Mathlib.Data.List.GetD

/-!
# C77: the transforms `Rename`, `Select` and `StackToNewDimension`
-/

set_option linter.unusedSectionVars false
set_option linter.unusedVariables false

namespace WBX
open DA
variable {L K V W : Type} [DecidableEq L] [Field K] [LinearOrder K] [IsStrictOrderedRing K]

/-! ### Select -/

section select
variable [LinearOrder L]

theorem Selected.nil (a : DA L V) : Selected [] a a :=
  ⟨fun k => by simp, fun k _ l => by simp, fun e e' _ h => congrArg a.val (funext fun k => (h k (by simp)).symm)⟩

theorem Selected.comp {sel sel' : List (Dim × Indexer L)} {a b c : DA L V} (h : Selected sel a b) (h' : Selected sel' b c) : Selected (sel ++ sel') a c where
  dims := fun k => by
    rw [h'.dims, h.dims]
    simp only [List.mem_append, not_or]
    exact ⟨fun h => ⟨h.1.1, fun l => ⟨h.1.2 l, h.2 l⟩⟩, fun h => ⟨⟨h.1, fun l => (h.2 l).1⟩, fun l => (h.2 l).2⟩⟩
  labels := fun k hk l => by
    rw [h'.labels k hk, h.labels k ((h'.dims k).mp hk).1]
    simp only [List.mem_append]
    constructor
    · rintro ⟨⟨h1, h2⟩, h3⟩
      exact ⟨h1, fun ix hix => hix.elim (h2 ix) (h3 ix)⟩
    · rintro ⟨h1, h2⟩
      exact ⟨⟨h1, fun ix hix => h2 ix (Or.inl hix)⟩, fun ix hix => h2 ix (Or.inr hix)⟩
  values := fun e e' h1 h2 => by
    classical
    rw [h'.values e (fun k => if ∃ l, (k, Indexer.label l) ∈ sel' then e' k else e k)]
    · refine h.values _ _ (fun k l hk => h1 k l (List.mem_append_left _ hk)) ?_
      intro k hk
      by_cases hl : ∃ l, (k, Indexer.label l) ∈ sel'
      · rw [if_pos hl]
      · rw [if_neg hl]
        refine h2 k ?_
        intro l hkl
        rcases List.mem_append.mp hkl with hkl | hkl
        · exact hk l hkl
        · exact hl ⟨l, hkl⟩
    · intro k l hk
      rw [if_pos ⟨l, hk⟩]
      exact h1 k l (List.mem_append_right _ hk)
    · intro k hk
      rw [if_neg (by rintro ⟨l, hl⟩; exact hk l hl)]

theorem selected_label {d : Dim} {l : L} {x y : StatVar L (FV K)} (h : selLabel d l x = .ok y) :
    d ∈ x.arr.dims ∧ l ∈ x.arr.coords d ∧ Selected [(d, .label l)] x.arr y.arr := by
  unfold selLabel at h
  split_ifs at h with h1 h2
  injection h with h
  subst h
  refine ⟨h1, h2, ?_, ?_, ?_⟩
  · intro k
    simp only [Finset.mem_erase, List.mem_singleton, Prod.mk.injEq, Indexer.label.injEq, not_and]
    constructor
    · rintro ⟨a, b⟩; exact ⟨b, fun _ hk => absurd hk a⟩
    · rintro ⟨a, b⟩; exact ⟨fun hk => b l hk rfl, a⟩
  · intro k hk j
    simp only [Finset.mem_erase] at hk
    simp only [List.mem_singleton, Prod.mk.injEq]
    exact ⟨fun hj => ⟨hj, fun ix hix => absurd hix.1 hk.1⟩, fun hj => hj.1⟩
  · intro e e' h1 h2
    dsimp only
    congr 1
    funext k
    unfold DA.setLabel
    split_ifs with hk
    · subst hk; exact (h1 k l (by simp)).symm
    · exact (h2 k (by simp [hk])).symm

theorem selected_filter {d : Dim} {P : L → Bool} {a : DA L V} {ix : Indexer L} (hix : ∀ l, ix ≠ .label l) (hP : ∀ l ∈ a.coords d, P l = true ↔ ix.Keeps l) :
    Selected [(d, ix)] a (a.filterLabels d P) := by
  refine ⟨?_, ?_, ?_⟩
  · intro k
    simp only [DA.filterLabels, List.mem_singleton, Prod.mk.injEq, not_and]
    exact ⟨fun h => ⟨h, fun l _ e => hix l e.symm⟩, fun h => h.1⟩
  · intro k hk l
    simp only [DA.filterLabels, List.mem_singleton, Prod.mk.injEq]
    split_ifs with hkd
    · subst hkd
      simp only [Finset.mem_filter]
      constructor
      · rintro ⟨h1, h2⟩
        exact ⟨h1, fun ix' e => e.2 ▸ (hP l h1).mp h2⟩
      · rintro ⟨h1, h2⟩
        exact ⟨h1, (hP l h1).mpr (h2 ix (by simp))⟩
    · exact ⟨fun h => ⟨h, fun _ e => absurd e.1 hkd⟩, fun h => h.1⟩
  · intro e e' _ h2
    simp only [DA.filterLabels]
    congr 1
    funext k
    refine (h2 k ?_).symm
    intro l
    simp only [List.mem_singleton, Prod.mk.injEq, not_and]
    exact fun _ e => hix l e.symm

theorem inSlice_iff {start stop : Option L} {l : L} : inSlice start stop l = true ↔ (Indexer.slice start stop).Keeps l := by
  simp [inSlice, Indexer.Keeps]

/-- The labels that an indexer names must be there. -/
def Indexer.Present (ix : Indexer L) (C : Finset L) : Prop :=
  match ix with
  | .label l => l ∈ C
  | .labels ls => ∀ l ∈ ls, l ∈ C
  | .slice _ _ => True

theorem selected_indexer {d : Dim} {ix : Indexer L} {x y : StatVar L (FV K)} (h : selIndexer d ix x = .ok y) :
    d ∈ x.arr.dims ∧ ix.Present (x.arr.coords d) ∧ Selected [(d, ix)] x.arr y.arr := by
  unfold selIndexer at h
  cases ix with
  | label l => exact selected_label h
  | labels ls =>
    dsimp only at h
    split_ifs at h with h1 h2
    injection h with h
    subst h
    exact ⟨h1, by simpa [Indexer.Present] using h2, selected_filter (by simp) (fun l _ => by simp [Indexer.Keeps])⟩
  | slice a b =>
    dsimp only at h
    split_ifs at h with h1
    injection h with h
    subst h
    exact ⟨h1, trivial, selected_filter (by simp) (fun l _ => inSlice_iff)⟩

theorem selIndexer_cases (d : Dim) (ix : Indexer L) (x : StatVar L (FV K)) :
    (d ∈ x.arr.dims ∧ ix.Present (x.arr.coords d) ∧ ∃ y, selIndexer d ix x = .ok y) ∨
      (¬ (d ∈ x.arr.dims ∧ ix.Present (x.arr.coords d)) ∧ selIndexer d ix x = .error .keyError) := by
  by_cases hd : d ∈ x.arr.dims
  · cases ix with
    | label l =>
      by_cases hl : l ∈ x.arr.coords d
      · left; exact ⟨hd, hl, by simp [selIndexer, selLabel, hd, hl]⟩
      · right; exact ⟨fun h => hl h.2, by simp [selIndexer, selLabel, hd, hl]⟩
    | labels ls =>
      by_cases hl : ∀ l ∈ ls, l ∈ x.arr.coords d
      · left
        refine ⟨hd, hl, x.filterLabels d (fun l => decide (l ∈ ls)), ?_⟩
        simp only [selIndexer]
        rw [if_neg (by simpa using hd), if_pos (by simpa using hl)]
      · right
        refine ⟨fun h => hl h.2, ?_⟩
        simp only [selIndexer]
        rw [if_neg (by simpa using hd), if_neg (by simpa using hl)]
    | slice a b => left; exact ⟨hd, trivial, by simp [selIndexer, hd]⟩
  · right
    refine ⟨fun h => hd h.1, ?_⟩
    cases ix <;> simp [selIndexer, selLabel, hd]

theorem selectFn_sel {order : Dim → List L} {sel : List (Dim × Indexer L)} {x : StatVar L (FV K)} :
    selectFn order sel [] x = sel.foldlM (fun x kv => selIndexer kv.1 kv.2 x) x := by
  unfold selectFn
  cases sel.foldlM (fun x kv => selIndexer kv.1 kv.2 x) x <;> rfl

theorem selFold_selected {sel : List (Dim × Indexer L)} {x y : StatVar L (FV K)} (h : sel.foldlM (fun x kv => selIndexer kv.1 kv.2 x) x = .ok y) :
    Selected sel x.arr y.arr := by
  induction sel generalizing x with
  | nil =>
    simp only [List.foldlM_nil, pure, Except.pure, Except.ok.injEq] at h
    subst h
    exact .nil _
  | cons kv sel ih =>
    rw [List.foldlM_cons] at h
    obtain ⟨x1, h1, h2⟩ := bind_ok_iff.mp h
    exact (selected_indexer h1).2.2.comp (ih h2)

/-- C77: `Select(sel=…)`: exactly the labels that all indexers keep, with unchanged values; a dimension of which one label is selected is dropped. -/
theorem C77_select {order : Dim → List L} {sel : List (Dim × Indexer L)} {x y : StatVar L (FV K)} (h : selectFn order sel [] x = .ok y) :
    Selected sel x.arr y.arr := by
  rw [selectFn_sel] at h
  exact selFold_selected h

/-- C77: `Select(sel=…)` works exactly if the array has all the dimensions and all the named labels; otherwise it is a `KeyError`. -/
theorem C77_select_ok {order : Dim → List L} {sel : List (Dim × Indexer L)} (hn : (sel.map Prod.fst).Nodup) (x : StatVar L (FV K)) :
    ((∀ kv ∈ sel, kv.1 ∈ x.arr.dims ∧ kv.2.Present (x.arr.coords kv.1)) ∧ ∃ y, selectFn order sel [] x = .ok y) ∨
      (¬ (∀ kv ∈ sel, kv.1 ∈ x.arr.dims ∧ kv.2.Present (x.arr.coords kv.1)) ∧ selectFn order sel [] x = .error .keyError) := by
  simp only [selectFn_sel]
  induction sel generalizing x with
  | nil => left; exact ⟨by simp, x, rfl⟩
  | cons kv sel ih =>
    obtain ⟨d, ix⟩ := kv
    simp only [List.map_cons, List.nodup_cons] at hn
    rcases selIndexer_cases d ix x with ⟨h1, h2, y, h3⟩ | ⟨h1, h3⟩
    · have hs := (selected_indexer h3).2.2
      have keep : ∀ kv ∈ sel, (kv.1 ∈ y.arr.dims ∧ kv.2.Present (y.arr.coords kv.1)) ↔ (kv.1 ∈ x.arr.dims ∧ kv.2.Present (x.arr.coords kv.1)) := by
        rintro ⟨k, jx⟩ hk
        have hne : k ≠ d := fun e => hn.1 (by rw [← e]; exact List.mem_map_of_mem hk)
        have hdims : k ∈ y.arr.dims ↔ k ∈ x.arr.dims := by rw [hs.dims]; simp [hne]
        rw [hdims]
        refine and_congr_right fun hkd => ?_
        have : y.arr.coords k = x.arr.coords k := by
          ext l
          rw [hs.labels k (hdims.mpr hkd)]
          simp [hne]
        rw [this]
      rcases ih hn.2 y with ⟨i1, z, i2⟩ | ⟨i1, i2⟩
      · left
        refine ⟨?_, z, ?_⟩
        · rintro kv hkv
          rcases List.mem_cons.mp hkv with rfl | hkv
          · exact ⟨h1, h2⟩
          · exact (keep kv hkv).mp (i1 kv hkv)
        · rw [List.foldlM_cons]
          exact bind_ok_iff.mpr ⟨y, h3, i2⟩
      · right
        refine ⟨fun hall => i1 fun kv hkv => (keep kv hkv).mpr (hall kv (List.mem_cons_of_mem _ hkv)), ?_⟩
        rw [List.foldlM_cons]
        change (selIndexer d ix x >>= _) = _
        rw [h3]
        exact i2
    · right
      refine ⟨fun hall => h1 (hall (d, ix) (by simp)), ?_⟩
      rw [List.foldlM_cons]
      change (selIndexer d ix x >>= _) = _
      rw [h3]
      rfl

theorem labelAtPosition_ok {ls : List L} {i : ℤ} {l : L} (h : labelAtPosition ls i = .ok l) : AtPosition ls i l := by
  unfold labelAtPosition at h
  split at h
  next l' h' =>
    injection h with h
    subst h
    split_ifs at h' with h1 h2
    · exact ⟨i.toNat, h', Or.inl (by omega)⟩
    · exact ⟨(i + ls.length).toNat, h', Or.inr (by omega)⟩
  next => exact absurd h (by simp)

/-- C77: a position exists exactly if it is at least `-n` and less than `n` for `n` labels; otherwise it is an `IndexError`. -/
theorem C77_position (ls : List L) (i : ℤ) :
    (-(ls.length : ℤ) ≤ i ∧ i < ls.length ∧ ∃ l, labelAtPosition ls i = .ok l ∧ AtPosition ls i l) ∨
      (¬ (-(ls.length : ℤ) ≤ i ∧ i < ls.length) ∧ labelAtPosition ls i = .error .indexError) := by
  by_cases h : -(ls.length : ℤ) ≤ i ∧ i < ls.length
  · left
    refine ⟨h.1, h.2, ?_⟩
    obtain ⟨l, hl⟩ : ∃ l, labelAtPosition ls i = .ok l := by
      unfold labelAtPosition
      by_cases h0 : 0 ≤ i
      · have : i.toNat < ls.length := by omega
        rw [if_pos h0, List.getElem?_eq_getElem this]
        exact ⟨_, rfl⟩
      · have : (i + ls.length).toNat < ls.length := by omega
        rw [if_neg h0, if_pos (by omega), List.getElem?_eq_getElem this]
        exact ⟨_, rfl⟩
    exact ⟨l, hl, labelAtPosition_ok hl⟩
  · right
    refine ⟨h, ?_⟩
    unfold labelAtPosition
    by_cases h0 : 0 ≤ i
    · have : ls.length ≤ i.toNat := by omega
      rw [if_pos h0, List.getElem?_eq_none this]
    · rw [if_neg h0, if_neg (by omega)]

theorem forall₂_of_mapM {α β : Type} {f : α → Except Err β} : {l : List α} → {r : List β} → l.mapM f = .ok r → List.Forall₂ (fun a b => f a = .ok b) l r
  | [], r, h => by
    simp only [List.mapM_nil, pure, Except.pure, Except.ok.injEq] at h
    subst h
    exact .nil
  | a :: l, r, h => by
    rw [List.mapM_cons] at h
    obtain ⟨b, hb, h⟩ := bind_ok_iff.mp h
    obtain ⟨bs, hbs, h⟩ := bind_ok_iff.mp h
    cases h
    exact .cons hb (forall₂_of_mapM hbs)

theorem selected_isel {d : Dim} {ls : List L} {pos : Position} {x y : StatVar L (FV K)} (h : iselPosition d ls pos x = .ok y) :
    d ∈ x.arr.dims ∧ ∃ ix, PositionsOf ls pos ix ∧ Selected [(d, ix)] x.arr y.arr := by
  unfold iselPosition at h
  split_ifs at h with hd
  refine ⟨hd, ?_⟩
  cases pos with
  | «at» i =>
    obtain ⟨l, hl, h⟩ := bind_ok_iff.mp h
    exact ⟨.label l, labelAtPosition_ok hl, (selected_label h).2.2⟩
  | list is =>
    obtain ⟨ks, hks, h⟩ := bind_ok_iff.mp h
    cases h
    exact ⟨.labels ks, (forall₂_of_mapM hks).imp fun _ _ => labelAtPosition_ok, selected_filter (by simp) (fun l _ => by simp [Indexer.Keeps])⟩
  | slice a b =>
    dsimp only at h
    injection h with h
    subst h
    refine ⟨.labels _, ?_, selected_filter (by simp) (fun l _ => by rw [decide_eq_true_iff]; rfl)⟩
    intro l
    cases b with
    | none =>
      simp only [List.mem_iff_getElem?, List.getElem?_drop]
      constructor
      · rintro ⟨n, hn⟩
        exact ⟨_, hn, by omega, by simp⟩
      · rintro ⟨n, hn, h1, -⟩
        exact ⟨n - a.getD 0, by rw [show a.getD 0 + (n - a.getD 0) = n by omega]; exact hn⟩
    | some b =>
      simp only [List.mem_iff_getElem?, List.getElem?_drop, List.getElem?_take]
      constructor
      · rintro ⟨n, hn⟩
        split_ifs at hn with hb
        exact ⟨_, hn, by omega, by intro b' e; cases e; exact hb⟩
      · rintro ⟨n, hn, h1, h2⟩
        refine ⟨n - a.getD 0, ?_⟩
        rw [show a.getD 0 + (n - a.getD 0) = n by omega, if_pos (h2 b rfl)]
        exact hn

/-- C77: `Select(sel=…, isel=…)`: first the selection by label, then the selection by position among the labels that are left, in the order that `sel` leaves them in: the order
asked for if labels are listed, else the order of the array. -/
theorem C77_select_isel {order : Dim → List L} {sel : List (Dim × Indexer L)} (hn : (sel.map Prod.fst).Nodup) {isel : List (Dim × Position)} {x z : StatVar L (FV K)}
    (horder : ∀ d ∈ x.arr.dims, (order d).toFinset = x.arr.coords d) (h : selectFn order sel isel x = .ok z) :
    ∃ (y : StatVar L (FV K)) (left : Dim → List L) (ixs : List (Dim × Indexer L)), Selected sel x.arr y.arr ∧
      (∀ d ∈ y.arr.dims, (left d).toFinset = y.arr.coords d ∧ (∀ ls, (d, Indexer.labels ls) ∈ sel → left d = ls) ∧
        ((∀ ls, (d, Indexer.labels ls) ∉ sel) → (left d).Sublist (order d))) ∧
      List.Forall₂ (fun p q => p.1 = q.1 ∧ PositionsOf (left p.1) p.2 q.2) isel ixs ∧ Selected ixs y.arr z.arr := by
  obtain ⟨y, h1, h2⟩ := bind_ok_iff.mp h
  have hsel := selFold_selected h1
  have hpres : ∀ kv ∈ sel, kv.2.Present (x.arr.coords kv.1) := by
    rcases C77_select_ok (order := order) hn x with ⟨h3, -⟩ | ⟨-, h3⟩
    · exact fun kv hkv => (h3 kv hkv).2
    · rw [selectFn_sel, h1] at h3
      exact absurd h3 (by simp)
  have hleft : ∀ d ∈ y.arr.dims, (orderAfter order sel y d).toFinset = y.arr.coords d ∧ (∀ ls, (d, Indexer.labels ls) ∈ sel → orderAfter order sel y d = ls) ∧
        ((∀ ls, (d, Indexer.labels ls) ∉ sel) → (orderAfter order sel y d).Sublist (order d)) := by
    intro d hd
    have hdx := ((hsel.dims d).mp hd).1
    by_cases hls : ∃ ls, (d, Indexer.labels ls) ∈ sel
    · obtain ⟨ls, hls⟩ := hls
      have hget : pyGet? d sel = some (.labels ls) := (pyGet?_eq_some hn d _).mpr hls
      have ho : orderAfter order sel y d = ls := by unfold orderAfter; rw [hget]
      refine ⟨?_, ?_, fun hno => absurd hls (hno ls)⟩
      · rw [ho]
        ext l
        rw [hsel.labels d hd, List.mem_toFinset]
        constructor
        · intro hl
          refine ⟨hpres _ hls l hl, fun ix hix => ?_⟩
          have : ix = .labels ls := by
            have := (pyGet?_eq_some hn d ix).mpr hix
            rw [hget] at this
            exact (Option.some.inj this).symm
          subst this
          exact hl
        · exact fun hl => hl.2 _ hls
      · intro ls' hls'
        have := (pyGet?_eq_some hn d _).mpr hls'
        rw [hget] at this
        rw [ho]
        simpa using this
    · push Not at hls
      have ho : orderAfter order sel y d = (order d).filter (fun l => decide (l ∈ y.arr.coords d)) := by
        unfold orderAfter
        cases hg : pyGet? d sel with
        | none => rfl
        | some ix =>
          cases ix with
          | labels ls => exact absurd (pyGet?_mem hg) (hls ls)
          | label l => rfl
          | slice a b => rfl
      rw [ho]
      refine ⟨?_, fun ls h => absurd h (hls ls), fun _ => List.filter_sublist⟩
      ext l
      simp only [List.mem_toFinset, List.mem_filter, decide_eq_true_eq, and_iff_right_iff_imp]
      intro hl
      have := ((hsel.labels d hd l).mp hl).1
      rw [← horder d hdx] at this
      exact List.mem_toFinset.mp this
  refine ⟨y, orderAfter order sel y, ?_⟩
  suffices ∀ (w : StatVar L (FV K)), isel.foldlM (fun z kv => iselPosition kv.1 (orderAfter order sel y kv.1) kv.2 z) w = .ok z →
      ∃ ixs, List.Forall₂ (fun p q => p.1 = q.1 ∧ PositionsOf (orderAfter order sel y p.1) p.2 q.2) isel ixs ∧ Selected ixs w.arr z.arr by
    obtain ⟨ixs, a1, a2⟩ := this y h2
    exact ⟨ixs, hsel, hleft, a1, a2⟩
  clear h h2
  intro w hw
  induction isel generalizing w with
  | nil =>
    simp only [List.foldlM_nil, pure, Except.pure, Except.ok.injEq] at hw
    subst hw
    exact ⟨[], .nil, .nil _⟩
  | cons kv isel ih =>
    rw [List.foldlM_cons] at hw
    obtain ⟨w1, h1, h2⟩ := bind_ok_iff.mp hw
    obtain ⟨-, ix, a1, a2⟩ := selected_isel h1
    obtain ⟨ixs, b1, b2⟩ := ih w1 h2
    exact ⟨(kv.1, ix) :: ixs, .cons ⟨rfl, a1⟩ b1, a2.comp b2⟩

/-- Selecting labels of a dimension is cutting. -/
theorem filterLabels_restrict {d : Dim} {P : L → Bool} {S : Finset L} {a : DA L V} (h : ∀ l ∈ a.coords d, P l = true ↔ l ∈ S) : a.filterLabels d P = a.restrict d S := by
  unfold DA.filterLabels DA.restrict
  congr 1
  funext k
  split_ifs with hk
  · subst hk
    ext l
    simp only [Finset.mem_filter, Finset.mem_inter]
    exact ⟨fun hl => ⟨hl.1, (h l hl.1).mp hl.2⟩, fun hl => ⟨hl.1, (h l hl.1).mpr hl.2⟩⟩
  · rfl

theorem filterLabels_chunk {d : Dim} {P : L → Bool} {S : Finset L} {x : StatVar L V} (h : ∀ l ∈ x.arr.coords d, P l = true ↔ l ∈ S)
    (hm : ∀ m, x.mask = some m → ∀ l ∈ m.coords d, P l = true ↔ l ∈ S) : x.filterLabels d P = x.chunk d S := by
  unfold StatVar.filterLabels StatVar.chunk
  rw [filterLabels_restrict h]
  cases hx : x.mask with
  | none => rfl
  | some m => simp only [Option.map_some, filterLabels_restrict (hm m hx)]

theorem selIndexer_chunk {d : Dim} {ix : Indexer L} (hix : ∀ l, ix ≠ .label l) {x : StatVar L (FV K)} {S : Finset L} (hd : d ∈ x.arr.dims) (hp : ix.Present (x.arr.coords d))
    (h : ∀ l ∈ x.arr.coords d, ix.Keeps l ↔ l ∈ S) (hm : ∀ m, x.mask = some m → ∀ l ∈ m.coords d, ix.Keeps l ↔ l ∈ S) : selIndexer d ix x = .ok (x.chunk d S) := by
  cases ix with
  | label l => exact absurd rfl (hix l)
  | labels ls =>
    simp only [selIndexer]
    rw [if_neg (by simpa using hd), if_pos (by simpa using (show ∀ l ∈ ls, l ∈ x.arr.coords d from hp))]
    rw [filterLabels_chunk (S := S) (fun l hl => by simpa [Indexer.Keeps] using h l hl) (fun m e l hl => by simpa [Indexer.Keeps] using hm m e l hl)]
  | slice a b =>
    simp only [selIndexer]
    rw [if_neg (by simpa using hd)]
    rw [filterLabels_chunk (S := S) (fun l hl => inSlice_iff.trans (h l hl)) (fun m e l hl => inSlice_iff.trans (hm m e l hl))]

/-- C77: `Select('both', {d: labels or slice})` around a statistic that does not work along `d` is the selection of the statistic: each statistic of the selected data has the values
that it has without the selection. -/
theorem C77_select_statistic {s : FStatistic L K} {d : Dim} (hs : s.ChunkLocal d) {ix : Indexer L} (hix : ∀ l, ix ≠ .label l) {order : Dim → List L} {text : String}
    {tr : InputTransform L K} (htr : selectTransform "both" order [(d, ix)] [] text = .ok tr) {p t : Vars (StatVar L (FV K))} (hpt : Chunkable d p t)
    {out : Vars (Option (StatVar L (FV K)))} (hout : s.compute p t = .ok out) {S : Finset L}
    (hpres : ∀ v a, (v, a) ∈ p ∨ (v, a) ∈ t → ix.Present (a.arr.coords d))
    (hS : ∀ v a, (v, a) ∈ p ∨ (v, a) ∈ t → (∀ l ∈ a.arr.coords d, ix.Keeps l ↔ l ∈ S) ∧ ∀ m, a.mask = some m → ∀ l ∈ m.coords d, ix.Keeps l ↔ l ∈ S) :
    (wrappedStatistic s tr).compute p t = .ok (chunkStats d S out) := by
  have hw : tr.which = "both" ∧ tr.fn = fun _ x => selectFn order [(d, ix)] [] x := by
    unfold selectTransform mkTransform at htr
    rw [if_pos (by simp)] at htr
    injection htr with htr
    subst htr
    exact ⟨rfl, rfl⟩
  have key : ∀ vs : Vars (StatVar L (FV K)), (∀ v a, (v, a) ∈ vs → selIndexer d ix a = .ok (a.chunk d S)) → tr.mapVars vs = .ok (chunkVars d S vs) := by
    intro vs hvs
    rw [mapVars_ok_iff]
    unfold chunkVars
    rw [List.forall₂_map_right_iff]
    refine List.forall₂_same.mpr ?_
    rintro ⟨v, a⟩ hv
    refine ⟨rfl, ?_⟩
    rw [hw.2]
    dsimp only
    rw [selectFn_sel, List.foldlM_cons, hvs v a hv]
    rfl
  have ht : ∀ side, touches side tr := fun side => Or.inr hw.1
  refine wrappedStatistic_ok.mpr ⟨chunkVars d S p, chunkVars d S t, ?_, ?_, hs S p t out hpt hout⟩
  · unfold sideVars
    rw [if_pos (ht _)]
    exact key p fun v a hv => selIndexer_chunk hix (hpt.dimP v a hv) (hpres v a (Or.inl hv)) (hS v a (Or.inl hv)).1 (hS v a (Or.inl hv)).2
  · unfold sideVars
    rw [if_pos (ht _)]
    exact key t fun v a hv => selIndexer_chunk hix (hpt.dimT v a hv) (hpres v a (Or.inr hv)) (hS v a (Or.inr hv)).1 (hS v a (Or.inr hv)).2

end select

/-! ### Rename -/

/-- C77: `Rename`: every dimension gets the name that the dictionary has for it, all at the same time; other names, all labels and all values stay, also those of the mask. -/
theorem C77_rename {dict : List (String × String)} (hn : (dict.map Prod.fst).Nodup) {x r : StatVar L V} (h : renameFn dict x = .ok r) {f : String → String}
    (hf : ∀ kv ∈ dict, f kv.1 = kv.2) (hf' : ∀ k, (∀ kv ∈ dict, kv.1 ≠ k) → f k = k) :
    Renamed f x.arr r.arr ∧ (x.mask = none → r.mask = none) ∧ ∀ m, x.mask = some m → m.dims ⊆ x.arr.dims → ∃ m', r.mask = some m' ∧ Renamed f m m' := by
  have he : f = newName dict := by
    funext k
    by_cases hk : k ∈ dict.map Prod.fst
    · obtain ⟨kv, hkv, rfl⟩ := List.mem_map.mp hk
      rw [hf kv hkv, newName_mem hn (x := kv.2) hkv]
    · rw [newName_not_mem hk, hf']
      rintro kv hkv rfl
      exact hk (List.mem_map_of_mem hkv)
  subst he
  unfold renameFn at h
  split_ifs at h with h1 h2
  injection h with h
  subst h
  have hi := Finset.card_image_iff.mp (not_not.mp h2)
  refine ⟨renamed_renameDims fun d hd d' hd' e => hi hd hd' e, fun hm => by simp [hm], fun m hm hs => ⟨m.renameDims (newName dict), by simp [hm], ?_⟩⟩
  exact renamed_renameDims fun d hd d' hd' e => hi (hs hd) (hs hd') e

/-- C77: a name that is not a dimension and two dimensions with the same new name are `ValueError`s. -/
theorem C77_rename_errors {dict : List (String × String)} (x : StatVar L V) :
    ((∃ kv ∈ dict, kv.1 ∉ x.arr.dims) → renameFn dict x = .error .valueError) ∧
    (∀ d ∈ x.arr.dims, ∀ d' ∈ x.arr.dims, d ≠ d' → newName dict d = newName dict d' → renameFn dict x = .error .valueError) := by
  constructor
  · rintro ⟨kv, hkv, h⟩
    unfold renameFn
    rw [if_pos (List.any_eq_true.mpr ⟨kv, hkv, by simpa using h⟩)]
  · intro d hd d' hd' hne e
    unfold renameFn
    split_ifs with h1 h2
    · rfl
    · rfl
    · exact absurd (Finset.card_image_iff.mp (not_not.mp h2) hd hd' e) hne

/-- C77: a cellwise function of the renamed arrays is the renamed result: renaming dimensions does not change which values are compared. -/
theorem C77_rename_cellwise {U : Type} {f : Dim → Dim} (g : V → W → U) {a a' : DA L V} {b b' : DA L W} (ha : Renamed f a a') (hb : Renamed f b b')
    (hi : ∀ d ∈ a.dims, ∀ d' ∈ b.dims, f d = f d' → d = d') : Renamed f (a.zipWith g b) (a'.zipWith g b') where
  dims := fun k => by
    simp only [DA.zipWith, Finset.mem_union, ha.dims, hb.dims]
    constructor
    · rintro (⟨d, h1, h2⟩ | ⟨d, h1, h2⟩)
      · exact ⟨d, Or.inl h1, h2⟩
      · exact ⟨d, Or.inr h1, h2⟩
    · rintro ⟨d, h1 | h1, h2⟩
      · exact Or.inl ⟨d, h1, h2⟩
      · exact Or.inr ⟨d, h1, h2⟩
  injective := by
    simp only [DA.zipWith, Finset.mem_union]
    rintro d (h1 | h1) d' (h2 | h2) e
    · exact ha.injective d h1 d' h2 e
    · exact hi d h1 d' h2 e
    · exact (hi d' h2 d h1 e.symm).symm
    · exact hb.injective d h1 d' h2 e
  labels := by
    intro d hd
    have e1 : f d ∈ a'.dims ↔ d ∈ a.dims := by
      rw [ha.dims]
      constructor
      · rintro ⟨d', h1, h2⟩
        rcases Finset.mem_union.mp hd with h | h
        · exact h
        · rwa [hi d' h1 d h h2] at h1
      · exact fun h => ⟨d, h, rfl⟩
    have e2 : f d ∈ b'.dims ↔ d ∈ b.dims := by
      rw [hb.dims]
      constructor
      · rintro ⟨d', h1, h2⟩
        rcases Finset.mem_union.mp hd with h | h
        · rwa [← hi d h d' h1 h2.symm] at h1
        · exact h
      · exact fun h => ⟨d, h, rfl⟩
    simp only [DA.zipWith, DA.joinCoords]
    by_cases h1 : d ∈ a.dims <;> by_cases h2 : d ∈ b.dims
    · simp only [e1, e2, h1, h2, ha.labels d h1, hb.labels d h2]
    · simp [e1, e2, h1, h2, ha.labels d h1]
    · simp [e1, e2, h1, h2, hb.labels d h2]
    · exact absurd (Finset.mem_union.mp hd) (by simp [h1, h2])
  values := fun e => by simp only [DA.zipWith, ha.values, hb.values]

/-! ### StackToNewDimension -/

theorem length_flatMap_const {α β : Type} (g : α → List β) {m : ℕ} (hm : ∀ a, (g a).length = m) (xs : List α) : (xs.flatMap g).length = xs.length * m := by
  induction xs with
  | nil => simp
  | cons x xs ih => rw [List.flatMap_cons, List.length_append, ih, hm, List.length_cons]; ring

theorem flatMap_get {α β : Type} (g : α → List β) {m : ℕ} (hm : ∀ a, (g a).length = m) (xs : List α) (j r : ℕ) (hr : r < m) :
    (xs.flatMap g)[j * m + r]? = xs[j]?.bind (fun a => (g a)[r]?) := by
  induction xs generalizing j with
  | nil => simp
  | cons x xs ih =>
    rw [List.flatMap_cons]
    cases j with
    | zero =>
      rw [List.getElem?_append_left (by rw [hm]; omega)]
      simp
    | succ j =>
      rw [List.getElem?_append_right (by rw [hm, Nat.succ_mul]; omega), hm]
      rw [show (j + 1) * m + r - m = j * m + r by rw [Nat.succ_mul]; omega, ih]
      simp

theorem combos_length (order : Dim → List L) (ds : List Dim) : (combos order ds).length = (ds.map (fun d => (order d).length)).prod := by
  induction ds with
  | nil => rfl
  | cons d ds ih =>
    unfold combos
    rw [length_flatMap_const (m := (combos order ds).length) _ (fun a => by simp), ih]
    simp

theorem rowMajor_lt {ns js : List ℕ} (h : List.Forall₂ (· < ·) js ns) : rowMajor ns js < ns.prod := by
  induction h with
  | nil => simp [rowMajor]
  | @cons j n js ns h1 _ ih =>
    simp only [rowMajor, List.prod_cons]
    calc j * ns.prod + rowMajor ns js < j * ns.prod + ns.prod := by omega
      _ = (j + 1) * ns.prod := by ring
      _ ≤ n * ns.prod := Nat.mul_le_mul_right _ h1

theorem rowMajor_inj {ns js js' : List ℕ} (h : List.Forall₂ (· < ·) js ns) (h' : List.Forall₂ (· < ·) js' ns) (e : rowMajor ns js = rowMajor ns js') : js = js' := by
  induction h generalizing js' with
  | nil => cases h'; rfl
  | @cons j n js ns h1 h2 ih =>
    cases h' with
    | @cons j' _ js' _ h1' h2' =>
      simp only [rowMajor] at e
      have b := rowMajor_lt h2
      have b' := rowMajor_lt h2'
      have hj : j = j' := by
        have e1 : (j * ns.prod + rowMajor ns js) / ns.prod = j := by
          rw [Nat.add_comm, Nat.add_mul_div_right _ _ (by omega), Nat.div_eq_of_lt b, Nat.zero_add]
        have e2 : (j' * ns.prod + rowMajor ns js') / ns.prod = j' := by
          rw [Nat.add_comm, Nat.add_mul_div_right _ _ (by omega), Nat.div_eq_of_lt b', Nat.zero_add]
        rw [← e1, e, e2]
      subst hj
      rw [ih h2' (by omega)]

theorem rowMajor_surj (ns : List ℕ) (i : ℕ) (hi : i < ns.prod) : ∃ js, List.Forall₂ (· < ·) js ns ∧ rowMajor ns js = i := by
  induction ns generalizing i with
  | nil => exact ⟨[], .nil, by simp only [List.prod_nil] at hi; simp only [rowMajor]; omega⟩
  | cons n ns ih =>
    rw [List.prod_cons] at hi
    have hp : 0 < ns.prod := Nat.pos_of_ne_zero (by rintro e; rw [e] at hi; omega)
    obtain ⟨js, h1, h2⟩ := ih (i % ns.prod) (Nat.mod_lt _ hp)
    refine ⟨i / ns.prod :: js, .cons ((Nat.div_lt_iff_lt_mul hp).mpr hi) h1, ?_⟩
    simp only [rowMajor, h2]
    exact Nat.div_add_mod' i ns.prod

/-- C77: the positions along the new dimension and the combinations of positions along the stacked dimensions correspond to each other, one to one. -/
theorem C77_stack_positions (ns : List ℕ) :
    (∀ js, List.Forall₂ (· < ·) js ns → rowMajor ns js < ns.prod) ∧ ∀ i < ns.prod, ∃! js, List.Forall₂ (· < ·) js ns ∧ rowMajor ns js = i := by
  refine ⟨fun js h => rowMajor_lt h, fun i hi => ?_⟩
  obtain ⟨js, h1, h2⟩ := rowMajor_surj ns i hi
  exact ⟨js, ⟨h1, h2⟩, fun js' h' => rowMajor_inj h'.1 h1 (h'.2.trans h2.symm)⟩

theorem picked_lt {order : Dim → List L} {ds : List Dim} {js : List ℕ} {ls : List L} (h : PickedLabels order ds js ls) :
    List.Forall₂ (· < ·) js (ds.map (fun d => (order d).length)) := by
  induction ds generalizing js ls with
  | nil => cases js <;> cases ls <;> first | exact .nil | exact absurd h (by simp [PickedLabels])
  | cons d ds ih =>
    cases js with
    | nil => exact absurd h (by simp [PickedLabels])
    | cons j js =>
      cases ls with
      | nil => exact absurd h (by simp [PickedLabels])
      | cons l ls =>
        obtain ⟨h1, h2⟩ := h
        exact .cons (List.getElem?_eq_some_iff.mp h1).1 (ih h2)

theorem picked_length {order : Dim → List L} {ds : List Dim} {js : List ℕ} {ls : List L} (h : PickedLabels order ds js ls) : ls.length = ds.length := by
  induction ds generalizing js ls with
  | nil => cases js <;> cases ls <;> first | rfl | exact absurd h (by simp [PickedLabels])
  | cons d ds ih =>
    cases js with
    | nil => exact absurd h (by simp [PickedLabels])
    | cons j js =>
      cases ls with
      | nil => exact absurd h (by simp [PickedLabels])
      | cons l ls => simp [ih h.2]

theorem combos_get {order : Dim → List L} {ds : List Dim} {js : List ℕ} {ls : List L} (h : PickedLabels order ds js ls) :
    (combos order ds)[rowMajor (ds.map (fun d => (order d).length)) js]? = some ls := by
  induction ds generalizing js ls with
  | nil => cases js <;> cases ls <;> first | rfl | exact absurd h (by simp [PickedLabels])
  | cons d ds ih =>
    cases js with
    | nil => exact absurd h (by simp [PickedLabels])
    | cons j js =>
      cases ls with
      | nil => exact absurd h (by simp [PickedLabels])
      | cons l ls =>
        obtain ⟨h1, h2⟩ := h
        unfold combos
        simp only [List.map_cons, rowMajor]
        rw [← combos_length order ds]
        rw [flatMap_get _ (m := (combos order ds).length) (fun a => by simp) _ _ _ (by rw [combos_length]; exact rowMajor_lt (picked_lt h2))]
        rw [h1]
        simp [ih h2]

theorem putLabels_not_mem {e : Dim → L} : {ds : List Dim} → {ls : List L} → {k : Dim} → k ∉ ds → putLabels e ds ls k = e k
  | [], ls, k, _ => by simp [putLabels]
  | d :: ds, [], k, _ => by simp [putLabels]
  | d :: ds, l :: ls, k, h => by
    simp only [List.mem_cons, not_or] at h
    rw [putLabels, putLabels_not_mem h.2, DA.setLabel, if_neg h.1]

theorem putLabels_get {e : Dim → L} {ds : List Dim} (hds : ds.Nodup) {ls : List L} {i : ℕ} {d : Dim} {l : L} (hd : ds[i]? = some d) (hl : ls[i]? = some l) :
    putLabels e ds ls d = l := by
  induction ds generalizing ls i e with
  | nil => simp at hd
  | cons k ds ih =>
    cases ls with
    | nil => simp at hl
    | cons j ls =>
      rw [List.nodup_cons] at hds
      rw [putLabels]
      cases i with
      | zero =>
        simp only [List.getElem?_cons_zero, Option.some.injEq] at hd hl
        subst hd hl
        rw [putLabels_not_mem hds.1, DA.setLabel, if_pos rfl]
      | succ i =>
        simp only [List.getElem?_cons_succ] at hd hl
        exact ih hds.2 hd hl

theorem find_label {label : ℕ → L} (hl : Function.Injective label) {n i : ℕ} (hi : i < n) :
    (List.range n).find? (fun j => decide (label j = label i)) = some i := by
  have : (fun j => decide (label j = label i)) = fun j => j == i := by
    funext j
    by_cases h : j = i
    · subst h; simp
    · have h' : ¬ label j = label i := fun e => h (hl e)
      simp [h, h']
  rw [this]
  rw [List.find?_eq_some_iff_append]
  refine ⟨by simp, List.range i, List.range' (i + 1) (n - i - 1), ?_, ?_⟩
  · rw [List.range_eq_range', List.range_eq_range', ← List.range'_succ]
    have := List.range'_append_1 (s := 0) (m := i) (n := n - i - 1 + 1)
    rw [Nat.zero_add] at this
    rw [this]
    congr 1
    omega
  · intro j hj
    have := List.mem_range.mp hj
    simp only [Bool.not_eq_true', beq_eq_false_iff_ne]
    omega

theorem stack_val {label : ℕ → L} (hl : Function.Injective label) {order : Dim → List L} {ds : List Dim} {new : Dim} {a : DA L V} {e : Dim → L} {i : ℕ} {ls : List L}
    (hi : (combos order ds)[i]? = some ls) (he : e new = label i) : (stackArray label order ds new a).val e = a.val (putLabels e ds ls) := by
  have hlt := (List.getElem?_eq_some_iff.mp hi).1
  simp only [stackArray, he, find_label hl hlt]
  rw [List.getD_eq_getElem?_getD, hi]
  rfl

/-- C77: the value of the stacked array at the position that belongs to a combination of positions along the stacked dimensions (the last one varying fastest) is the value of the array
at the labels at these positions. -/
theorem C77_stack {label : ℕ → L} (hl : Function.Injective label) {order : Dim → List L} {ds : List Dim} (hds : ds.Nodup) {new : Dim} {x y : StatVar L V}
    (hwf : x.arr.WF) (h : stackFn label order ds new x = .ok y) {js : List ℕ} {ls : List L} (hj : PickedLabels order ds js ls) {e e' : Dim → L}
    (he : e new = label (rowMajor (ds.map (fun d => (order d).length)) js)) (h1 : ∀ (i : ℕ) d l, ds[i]? = some d → ls[i]? = some l → e' d = l)
    (h2 : ∀ k ∈ x.arr.dims, k ∉ ds → e' k = e k) : y.arr.val e = x.arr.val e' := by
  unfold stackFn at h
  split_ifs at h
  injection h with h
  subst h
  rw [stack_val hl (combos_get hj) he]
  refine hwf _ _ fun k hk => ?_
  by_cases hkd : k ∈ ds
  · obtain ⟨i, hi⟩ := List.mem_iff_getElem?.mp hkd
    have hlen : ls.length = ds.length := picked_length hj
    have hi' := (List.getElem?_eq_some_iff.mp hi).1
    have hli : ls[i]? = some (ls[i]'(by omega)) := List.getElem?_eq_getElem _
    rw [putLabels_get hds hi hli, h1 i k _ hi hli]
  · rw [putLabels_not_mem hkd, h2 k hk hkd]

/-- C77: a mask along one of the stacked dimensions is stacked with the values, so that every value keeps its mask; another mask stays. -/
theorem C77_stack_mask {label : ℕ → L} (hl : Function.Injective label) {order : Dim → List L} {ds : List Dim} (hds : ds.Nodup) {new : Dim} {x y : StatVar L V}
    (h : stackFn label order ds new x = .ok y) :
    (x.mask = none → y.mask = none) ∧ ∀ m, x.mask = some m → ∃ m', y.mask = some m' ∧ ((∀ d ∈ ds, d ∉ m.dims) → m' = m) ∧
      ((∃ d ∈ ds, d ∈ m.dims) → (∀ k, k ∈ m'.dims ↔ k = new ∨ (k ∈ m.dims ∧ k ∉ ds)) ∧ (m.WF → ∀ js ls, PickedLabels order ds js ls → ∀ e e' : Dim → L,
        e new = label (rowMajor (ds.map (fun d => (order d).length)) js) → (∀ (i : ℕ) d l, ds[i]? = some d → ls[i]? = some l → e' d = l) →
        (∀ k ∈ m.dims, k ∉ ds → e' k = e k) → m'.val e = m.val e')) := by
  unfold stackFn at h
  split_ifs at h
  injection h with h
  subst h
  refine ⟨fun hm => by simp [hm], fun m hm => ?_⟩
  refine ⟨if (ds.any fun d => decide (d ∈ m.dims)) = true then stackArray label order ds new m else m, by simp only [hm, Option.map_some], ?_, ?_⟩
  · intro hno
    rw [if_neg]
    simpa using hno
  · rintro ⟨d, h1, h2⟩
    rw [if_pos (List.any_eq_true.mpr ⟨d, h1, by simpa using h2⟩)]
    refine ⟨fun k => by simp [stackArray], ?_⟩
    intro hwf js ls hj e e' he h3 h4
    rw [stack_val hl (combos_get hj) he]
    refine hwf _ _ fun k hk => ?_
    by_cases hkd : k ∈ ds
    · obtain ⟨i, hi⟩ := List.mem_iff_getElem?.mp hkd
      have hlen : ls.length = ds.length := picked_length hj
      have hi' := (List.getElem?_eq_some_iff.mp hi).1
      have hli : ls[i]? = some (ls[i]'(by omega)) := List.getElem?_eq_getElem _
      rw [putLabels_get hds hi hli, h3 i k _ hi hli]
    · rw [putLabels_not_mem hkd, h4 k hk hkd]

/-- C77: the dimensions and labels of the stacked array: the stacked dimensions are replaced by the new one, which has as many positions as there are combinations of labels. The new
name may be that of a stacked dimension. -/
theorem C77_stack_labels {label : ℕ → L} (hl : Function.Injective label) {order : Dim → List L} {ds : List Dim} {new : Dim} {x y : StatVar L V}
    (h : stackFn label order ds new x = .ok y) :
    (∀ k, k ∈ y.arr.dims ↔ k = new ∨ (k ∈ x.arr.dims ∧ k ∉ ds)) ∧ (∀ k ∈ y.arr.dims, k ≠ new → y.arr.coords k = x.arr.coords k) ∧
      (∀ l, l ∈ y.arr.coords new ↔ ∃ i < (ds.map (fun d => (order d).length)).prod, label i = l) ∧
      (y.arr.coords new).card = (ds.map (fun d => (order d).length)).prod := by
  unfold stackFn at h
  split_ifs at h
  injection h with h
  subst h
  have hc : (stackArray label order ds new x.arr).coords new = (Finset.range (ds.map (fun d => (order d).length)).prod).image label := by
    ext l
    simp only [stackArray, if_pos, combos_length, List.mem_toFinset, List.mem_map, List.mem_range, Finset.mem_image, Finset.mem_range]
  refine ⟨?_, ?_, ?_, ?_⟩
  · intro k
    simp [stackArray]
  · intro k _ hk
    simp only [stackArray, if_neg hk]
  · intro l
    rw [hc]
    simp
  · rw [hc, Finset.card_image_of_injective _ hl, Finset.card_range]

/-- C77: a dimension to stack that the array does not have is a `KeyError`; a new name that another dimension has is a `ValueError`; otherwise stacking works, also under the name of a
stacked dimension. -/
theorem C77_stack_errors (label : ℕ → L) (order : Dim → List L) {ds : List Dim} (hds : ds ≠ []) (new : Dim) (x : StatVar L V) :
    ((∃ d ∈ ds, d ∉ x.arr.dims) → stackFn label order ds new x = .error .keyError) ∧
    ((∀ d ∈ ds, d ∈ x.arr.dims) → new ∈ x.arr.dims → new ∉ ds → stackFn label order ds new x = .error .valueError) ∧
    ((∀ d ∈ ds, d ∈ x.arr.dims) → (new ∈ x.arr.dims → new ∈ ds) → ∃ y, stackFn label order ds new x = .ok y) := by
  refine ⟨?_, ?_, ?_⟩
  · rintro ⟨d, h1, h2⟩
    unfold stackFn
    rw [if_pos (List.any_eq_true.mpr ⟨d, h1, by simpa using h2⟩)]
  · intro h1 h2 h3
    unfold stackFn
    rw [if_neg (by simpa using h1), if_pos ⟨h2, h3⟩]
  · intro h1 h2
    unfold stackFn
    rw [if_neg (by simpa using h1), if_neg (fun h => h.2 (h2 h.1)), if_neg hds]
    exact ⟨_, rfl⟩

section sums
variable [AddCommMonoid V]

theorem list_sum_comm {α β : Type} [DecidableEq β] (cs : List α) (S : Finset β) (f : β → α → V) :
    (cs.map (fun c => ∑ l ∈ S, f l c)).sum = ∑ l ∈ S, (cs.map (f l)).sum := by
  induction cs with
  | nil => simp
  | cons c cs ih => simp only [List.map_cons, List.sum_cons, ih, Finset.sum_add_distrib]

theorem sum_flatMap' {α : Type} (g : α → List V) (xs : List α) : (xs.flatMap g).sum = (xs.map (fun a => (g a).sum)).sum := by
  induction xs with
  | nil => rfl
  | cons x xs ih => rw [List.flatMap_cons, List.sum_append, ih]; rfl

theorem length_of_combo {order : Dim → List L} {ds : List Dim} {c : List L} (hm : c ∈ combos order ds) : c.length = ds.length := by
  induction ds generalizing c with
  | nil => simp only [combos, List.mem_singleton] at hm; subst hm; rfl
  | cons d ds ih =>
    simp only [combos, List.mem_flatMap, List.mem_map] at hm
    obtain ⟨l, _, c', hc', rfl⟩ := hm
    simp [ih hc']

theorem setLabel_putLabels {e : Dim → L} {ds : List Dim} {ls : List L} {d : Dim} {l : L} (hd : d ∉ ds) :
    DA.setLabel (putLabels e ds ls) d l = putLabels (DA.setLabel e d l) ds ls := by
  induction ds generalizing e ls with
  | nil => simp [putLabels]
  | cons k ds ih =>
    simp only [List.mem_cons, not_or] at hd
    cases ls with
    | nil => simp [putLabels]
    | cons j ls =>
      rw [putLabels, putLabels, ih hd.2]
      congr 1
      funext i
      unfold DA.setLabel
      by_cases h1 : i = d
      · subst h1; simp [hd.1]
      · simp [h1]

theorem sumDims_combos {order : Dim → List L} {ds : List Dim} (hds : ds.Nodup) {a : DA L V} (ho : ∀ d ∈ ds, (order d).Nodup ∧ (order d).toFinset = a.coords d) (e : Dim → L) :
    (DA.sumDims ds a).val e = ((combos order ds).map (fun c => a.val (putLabels e ds c))).sum := by
  induction ds generalizing a with
  | nil => simp [DA.sumDims, combos, putLabels]
  | cons d ds ih =>
    rw [List.nodup_cons] at hds
    rw [DA.sumDims, ih (a := DA.sumDim d a) hds.2 (fun k hk => ho k (List.mem_cons_of_mem _ hk))]
    obtain ⟨h1, h2⟩ := ho d (by simp)
    simp only [DA.sumDim, setLabel_putLabels hds.1]
    rw [list_sum_comm]
    have hcomb : combos order (d :: ds) = (order d).flatMap (fun l => (combos order ds).map (fun ls => l :: ls)) := rfl
    rw [hcomb, ← h2, List.sum_toFinset _ h1, List.map_flatMap, sum_flatMap']
    congr 1
    refine List.map_congr_left fun l _ => ?_
    rw [List.map_map]
    rfl

/-- C77: the sum over the new dimension is the sum over the stacked dimensions: no value is lost or counted twice. -/
theorem C77_stack_sum {label : ℕ → L} (hl : Function.Injective label) {order : Dim → List L} {ds : List Dim} (hds : ds.Nodup) {new : Dim} {x y : StatVar L V} (hwf : x.arr.WF)
    (ho : ∀ d ∈ ds, (order d).Nodup ∧ (order d).toFinset = x.arr.coords d) (h : stackFn label order ds new x = .ok y) :
    (DA.sumDim new y.arr).Same (DA.sumDims ds x.arr) := by
  unfold stackFn at h
  split_ifs at h with c1 c2 c3
  injection h with h
  subst h
  have hnew : ∀ k ∈ x.arr.dims, k ∉ ds → k ≠ new := by
    rintro k hk hkd rfl
    exact c2 ⟨hk, hkd⟩
  have hd : (DA.sumDims ds x.arr).dims = x.arr.dims \ ds.toFinset := by
    clear c1 c2 c3 hnew hwf ho
    generalize x.arr = a
    induction ds generalizing a with
    | nil => simp [DA.sumDims]
    | cons d ds ih =>
      rw [List.nodup_cons] at hds
      rw [DA.sumDims, ih hds.2]
      ext k
      simp only [DA.sumDim, Finset.mem_sdiff, Finset.mem_erase, List.mem_toFinset, List.mem_cons, not_or]
      tauto
  have hco : ∀ (ds : List Dim) (a : DA L V), (DA.sumDims ds a).coords = a.coords := by
    intro ds
    induction ds with
    | nil => intro a; rfl
    | cons d ds ih => intro a; rw [DA.sumDims, ih]; rfl
  refine ⟨?_, ?_, ?_⟩
  · rw [hd]
    ext k
    simp only [DA.sumDim, stackArray, Finset.mem_erase, Finset.mem_insert, Finset.mem_sdiff, List.mem_toFinset]
    constructor
    · rintro ⟨h1, h2 | h2⟩
      · exact absurd h2 h1
      · exact h2
    · exact fun h => ⟨hnew k h.1 h.2, Or.inr h⟩
  · intro k hk
    rw [hco]
    simp only [DA.sumDim, Finset.mem_erase] at hk
    simp only [DA.sumDim, stackArray, if_neg hk.1]
  · intro e _
    rw [sumDims_combos hds ho e]
    simp only [DA.sumDim]
    have hc : (stackArray label order ds new x.arr).coords new = (Finset.range (combos order ds).length).image label := by
      ext l
      simp only [stackArray, if_pos, List.mem_toFinset, List.mem_map, List.mem_range, Finset.mem_image, Finset.mem_range]
    rw [hc, Finset.sum_image (fun _ _ _ _ e => hl e)]
    have hval : ∀ i ∈ Finset.range (combos order ds).length, (stackArray label order ds new x.arr).val (DA.setLabel e new (label i)) =
        x.arr.val (putLabels e ds ((combos order ds).getD i [])) := by
      intro i hi
      have hi' := Finset.mem_range.mp hi
      have hg : (combos order ds)[i]? = some ((combos order ds).getD i []) := by
        rw [List.getD_eq_getElem?_getD, List.getElem?_eq_getElem hi']
        rfl
      rw [stack_val hl hg (by simp [DA.setLabel])]
      have hlen : ((combos order ds).getD i []).length = ds.length := length_of_combo (List.mem_of_getElem? hg)
      refine hwf _ _ fun k hk => ?_
      by_cases hkd : k ∈ ds
      · obtain ⟨j, hj⟩ := List.mem_iff_getElem?.mp hkd
        have hj' := (List.getElem?_eq_some_iff.mp hj).1
        have hcj := List.getElem?_eq_getElem (l := (combos order ds).getD i []) (i := j) (by omega)
        rw [putLabels_get hds hj hcj, putLabels_get hds hj hcj]
      · rw [putLabels_not_mem hkd, putLabels_not_mem hkd, DA.setLabel, if_neg (hnew k hk hkd)]
    rw [Finset.sum_congr rfl hval]
    generalize hcs : combos order ds = cs
    rw [Finset.sum_range]
    rw [← List.sum_ofFn]
    congr 1
    refine List.ext_getElem (by simp) ?_
    intro i h1 h2
    have hi : i < cs.length := by simpa using h2
    simp

end sums

/-- C77: a cellwise function of two stacked arrays is the stacked result: the same cells are compared as without stacking. -/
theorem C77_stack_cellwise {U : Type} (label : ℕ → L) (order : Dim → List L) (ds : List Dim) (new : Dim) (g : V → W → U) {a : DA L V} {b : DA L W}
    {x : StatVar L V} {y : StatVar L W} {x' : StatVar L V} {y' : StatVar L W} (hx : stackFn label order ds new x = .ok x') (hy : stackFn label order ds new y = .ok y') :
    ∃ r, stackFn label order ds new ⟨x.arr.zipWith g y.arr, none⟩ = .ok r ∧ r.arr.Same (x'.arr.zipWith g y'.arr) := by
  unfold stackFn at hx hy
  split_ifs at hx with a1 a2 a3
  split_ifs at hy with b1 b2
  injection hx with hx
  injection hy with hy
  subst hx hy
  simp only [List.any_eq_true, decide_eq_true_eq, not_exists, not_and, not_not] at a1 b1 a2 b2
  obtain ⟨r, hr⟩ := (C77_stack_errors label order a3 new (⟨x.arr.zipWith g y.arr, none⟩ : StatVar L U)).2.2
    (fun d hd => Finset.mem_union_left _ (a1 d hd)) (fun hn => (Finset.mem_union.mp hn).elim a2 b2)
  refine ⟨r, hr, ?_⟩
  unfold stackFn at hr
  split_ifs at hr
  injection hr with hr
  subst hr
  refine ⟨?_, ?_, ?_⟩
  · ext k
    simp only [stackArray, DA.zipWith, Finset.mem_insert, Finset.mem_sdiff, Finset.mem_union]
    tauto
  · intro k hk
    simp only [stackArray, Finset.mem_insert, Finset.mem_sdiff, List.mem_toFinset] at hk
    by_cases hkn : k = new
    · simp [stackArray, DA.zipWith, DA.joinCoords, hkn]
    · have hkd := (hk.resolve_left hkn).2
      simp [stackArray, DA.zipWith, DA.joinCoords, hkn, hkd]
  · intro e _
    simp only [stackArray, DA.zipWith]
    cases (List.range (combos order ds).length).find? (fun i => decide (label i = e new)) <;> rfl

/-! ### Chunks along other dimensions -/

/-- A transform of arrays without masks that commutes with cutting. -/
def InputTransform.ChunkLocalUnmasked (c : Dim) (tr : InputTransform L K) : Prop :=
  ∀ (S : Finset L) (name : String) (x y : StatVar L (FV K)), x.mask = none → c ∈ x.arr.dims → tr.fn name x = .ok y →
    tr.fn name (x.chunk c S) = .ok (y.chunk c S) ∧ y.mask = none ∧ c ∈ y.arr.dims

/-- C77: wrapping in such transforms keeps a statistic local. -/
theorem C77_wrapped_local {c : Dim} {s : FStatistic L K} (hs : s.LocalOn (ChunkableUnmasked c) c) {tr : InputTransform L K} (htr : tr.ChunkLocalUnmasked c) :
    (wrappedStatistic s tr).LocalOn (ChunkableUnmasked c) c := by
  intro S p t out hpt hout
  obtain ⟨⟨dP, dT, μ, mP, mT⟩, nP, nT⟩ := hpt
  obtain ⟨p', t', hp, ht, hout⟩ := wrappedStatistic_ok.mp hout
  have key : ∀ (side : String) (x x' : Vars (StatVar L (FV K))), (∀ v a, (v, a) ∈ x → c ∈ a.arr.dims) → (∀ v a, (v, a) ∈ x → a.mask = none) →
      sideVars side tr x = .ok x' → sideVars side tr (chunkVars c S x) = .ok (chunkVars c S x') ∧
        (∀ v a, (v, a) ∈ x' → c ∈ a.arr.dims) ∧ ∀ v a, (v, a) ∈ x' → a.mask = none := by
    intro side x x' d1 m1 h
    unfold sideVars at h ⊢
    by_cases hc : touches side tr
    · rw [if_pos hc] at h ⊢
      rw [mapVars_ok_iff] at h ⊢
      induction h with
      | nil => exact ⟨.nil, by simp, by simp⟩
      | @cons kv kv' l l' h1 h2 ih =>
        obtain ⟨i1, i2, i3⟩ := ih (fun v a h => d1 v a (List.mem_cons_of_mem _ h)) (fun v a h => m1 v a (List.mem_cons_of_mem _ h))
        obtain ⟨e1, e2, e3⟩ := htr S kv.1 kv.2 kv'.2 (m1 _ _ List.mem_cons_self) (d1 _ _ List.mem_cons_self) h1.2
        refine ⟨.cons ⟨h1.1, e1⟩ i1, ?_, ?_⟩
        · intro v a hva
          rcases List.mem_cons.mp hva with rfl | hva
          · exact e3
          · exact i2 v a hva
        · intro v a hva
          rcases List.mem_cons.mp hva with rfl | hva
          · exact e2
          · exact i3 v a hva
    · rw [if_neg hc, Except.ok.injEq] at h
      subst h
      rw [if_neg hc]
      exact ⟨rfl, d1, m1⟩
  obtain ⟨a1, a2, a3⟩ := key _ p p' dP nP hp
  obtain ⟨b1, b2, b3⟩ := key _ t t' dT nT ht
  refine wrappedStatistic_ok.mpr ⟨_, _, a1, b1, hs S p' t' out ⟨⟨a2, b2, μ, ?_, ?_⟩, a3, b3⟩ hout⟩
  · exact fun v a h => Or.inl (a3 v a h)
  · exact fun v a h => Or.inl (b3 v a h)

theorem mkTransform_localU {c : Dim} {which suffix : String} {fn : String → StatVar L (FV K) → Except Err (StatVar L (FV K))} {tr : InputTransform L K}
    (h : mkTransform which suffix fn = .ok tr)
    (hfn : ∀ (S : Finset L) (name : String) (x y : StatVar L (FV K)), x.mask = none → c ∈ x.arr.dims → fn name x = .ok y →
      fn name (x.chunk c S) = .ok (y.chunk c S) ∧ y.mask = none ∧ c ∈ y.arr.dims) : tr.ChunkLocalUnmasked c := by
  unfold mkTransform at h
  split at h
  · injection h with h
    subst h
    exact hfn
  · exact absurd h (by simp)

/-- C77: stacking other dimensions commutes with cutting the data into chunks. -/
theorem C77_stack_local {c : Dim} {label : ℕ → L} {order : Dim → List L} {ds : List Dim} {new : Dim} {which text : String} (hc : c ∉ ds) (hn : c ≠ new)
    {tr : InputTransform L K} (h : stackTransform which label order ds new text = .ok tr) : tr.ChunkLocalUnmasked c := by
  refine mkTransform_localU h ?_
  intro S name x y hm hx hy
  unfold stackFn at hy ⊢
  split_ifs at hy with c1 c2 c3
  injection hy with hy
  subst hy
  rw [if_neg (by exact c1), if_neg (by exact c2), if_neg c3]
  refine ⟨?_, by simp [hm], ?_⟩
  · simp only [StatVar.chunk, hm, Option.map_none, Except.ok.injEq, StatVar.mk.injEq, and_true]
    unfold stackArray DA.restrict
    congr 1
    funext k
    by_cases hk : k = new
    · subst hk; simp [hn.symm]
    · simp [hk]
  · simp [stackArray, hx, hc]

section
variable [LinearOrder L]

theorem selLabel_chunkU {c d : Dim} (hcd : c ≠ d) {l : L} {S : Finset L} {x y : StatVar L (FV K)} (hm : x.mask = none) (hc : c ∈ x.arr.dims)
    (h : selLabel d l x = .ok y) : selLabel d l (x.chunk c S) = .ok (y.chunk c S) ∧ y.mask = none ∧ c ∈ y.arr.dims := by
  unfold selLabel at h ⊢
  have hcoord : (x.chunk c S).arr.coords d = x.arr.coords d := by simp [StatVar.chunk, DA.restrict, hcd.symm]
  have hdims : (x.chunk c S).arr.dims = x.arr.dims := rfl
  split_ifs at h with h1 h2
  injection h with h
  subst h
  rw [hcoord, hdims, if_neg (not_not.mpr h1), if_pos h2]
  refine ⟨?_, by simp [hm], ?_⟩
  · simp [StatVar.chunk, hm, DA.restrict]
  · exact Finset.mem_erase.mpr ⟨hcd, hc⟩

theorem filterLabels_chunkU {c d : Dim} (hcd : c ≠ d) {P : L → Bool} {S : Finset L} {x : StatVar L (FV K)} (hm : x.mask = none) :
    (x.chunk c S).filterLabels d P = (x.filterLabels d P).chunk c S := by
  unfold StatVar.filterLabels StatVar.chunk
  simp only [hm, Option.map_none, StatVar.mk.injEq, and_true]
  unfold DA.filterLabels DA.restrict
  congr 1
  funext k
  by_cases h1 : k = d
  · subst h1; simp [hcd.symm]
  · simp [h1]

theorem selIndexer_chunkU {c d : Dim} (hcd : c ≠ d) {ix : Indexer L} {S : Finset L} {x y : StatVar L (FV K)} (hm : x.mask = none) (hc : c ∈ x.arr.dims)
    (h : selIndexer d ix x = .ok y) : selIndexer d ix (x.chunk c S) = .ok (y.chunk c S) ∧ y.mask = none ∧ c ∈ y.arr.dims := by
  have hcoord : (x.chunk c S).arr.coords d = x.arr.coords d := by simp [StatVar.chunk, DA.restrict, hcd.symm]
  have hdims : (x.chunk c S).arr.dims = x.arr.dims := rfl
  unfold selIndexer at h ⊢
  cases ix with
  | label l => exact selLabel_chunkU hcd hm hc h
  | labels ls =>
    dsimp only at h ⊢
    rw [hcoord, hdims]
    split_ifs at h with h1 h2
    injection h with h
    subst h
    rw [if_neg (not_not.mpr h1), if_pos h2, filterLabels_chunkU hcd hm]
    exact ⟨rfl, by simp [StatVar.filterLabels, hm], hc⟩
  | slice a b =>
    dsimp only at h ⊢
    rw [hdims]
    split_ifs at h with h1
    injection h with h
    subst h
    rw [if_neg (not_not.mpr h1), filterLabels_chunkU hcd hm]
    exact ⟨rfl, by simp [StatVar.filterLabels, hm], hc⟩

theorem iselPosition_chunkU {c d : Dim} (hcd : c ≠ d) {ls : List L} {pos : Position} {S : Finset L} {x y : StatVar L (FV K)} (hm : x.mask = none) (hc : c ∈ x.arr.dims)
    (h : iselPosition d ls pos x = .ok y) : iselPosition d ls pos (x.chunk c S) = .ok (y.chunk c S) ∧ y.mask = none ∧ c ∈ y.arr.dims := by
  have hdims : (x.chunk c S).arr.dims = x.arr.dims := rfl
  unfold iselPosition at h ⊢
  rw [hdims]
  split_ifs at h with h1
  rw [if_neg (not_not.mpr h1)]
  cases pos with
  | «at» i =>
    obtain ⟨l, hl, h⟩ := bind_ok_iff.mp h
    obtain ⟨a1, a2⟩ := selLabel_chunkU (S := S) hcd hm hc h
    exact ⟨bind_ok_iff.mpr ⟨l, hl, a1⟩, a2⟩
  | list is =>
    obtain ⟨ks, hks, h⟩ := bind_ok_iff.mp h
    cases h
    refine ⟨bind_ok_iff.mpr ⟨ks, hks, ?_⟩, by simp [StatVar.filterLabels, hm], hc⟩
    rw [filterLabels_chunkU hcd hm]
    rfl
  | slice a b =>
    dsimp only at h ⊢
    injection h with h
    subst h
    rw [filterLabels_chunkU hcd hm]
    exact ⟨rfl, by simp [StatVar.filterLabels, hm], hc⟩

/-- C77: selecting along other dimensions commutes with cutting the data into chunks. -/
theorem C77_select_local {c : Dim} {order : Dim → List L} {sel : List (Dim × Indexer L)} {isel : List (Dim × Position)} {which text : String}
    (hs : ∀ kv ∈ sel, kv.1 ≠ c) (hi : ∀ kv ∈ isel, kv.1 ≠ c) {tr : InputTransform L K} (h : selectTransform which order sel isel text = .ok tr) :
    tr.ChunkLocalUnmasked c := by
  refine mkTransform_localU h ?_
  intro S name x z hm hx hz
  obtain ⟨y, h1, h2⟩ := bind_ok_iff.mp hz
  have k1 : ∀ (l : List (Dim × Indexer L)) (x y : StatVar L (FV K)), (∀ kv ∈ l, kv.1 ≠ c) → x.mask = none → c ∈ x.arr.dims →
      l.foldlM (fun x kv => selIndexer kv.1 kv.2 x) x = .ok y →
      l.foldlM (fun x kv => selIndexer kv.1 kv.2 x) (x.chunk c S) = .ok (y.chunk c S) ∧ y.mask = none ∧ c ∈ y.arr.dims := by
    intro l
    induction l with
    | nil =>
      intro x y _ hm hx h
      simp only [List.foldlM_nil, pure, Except.pure, Except.ok.injEq] at h
      subst h
      exact ⟨rfl, hm, hx⟩
    | cons kv l ih =>
      intro x y hl hm hx h
      rw [List.foldlM_cons] at h
      obtain ⟨x1, a1, a2⟩ := bind_ok_iff.mp h
      obtain ⟨b1, b2, b3⟩ := selIndexer_chunkU (S := S) (hl kv (by simp)).symm hm hx a1
      obtain ⟨d1, d2⟩ := ih x1 y (fun kv hkv => hl kv (List.mem_cons_of_mem _ hkv)) b2 b3 a2
      rw [List.foldlM_cons]
      exact ⟨bind_ok_iff.mpr ⟨_, b1, d1⟩, d2⟩
  have k2 : ∀ (l : List (Dim × Position)) (g : Dim → List L) (x y : StatVar L (FV K)), (∀ kv ∈ l, kv.1 ≠ c) → x.mask = none → c ∈ x.arr.dims →
      l.foldlM (fun x kv => iselPosition kv.1 (g kv.1) kv.2 x) x = .ok y →
      l.foldlM (fun x kv => iselPosition kv.1 (g kv.1) kv.2 x) (x.chunk c S) = .ok (y.chunk c S) ∧ y.mask = none ∧ c ∈ y.arr.dims := by
    intro l g
    induction l with
    | nil =>
      intro x y _ hm hx h
      simp only [List.foldlM_nil, pure, Except.pure, Except.ok.injEq] at h
      subst h
      exact ⟨rfl, hm, hx⟩
    | cons kv l ih =>
      intro x y hl hm hx h
      rw [List.foldlM_cons] at h
      obtain ⟨x1, a1, a2⟩ := bind_ok_iff.mp h
      obtain ⟨b1, b2, b3⟩ := iselPosition_chunkU (S := S) (hl kv (by simp)).symm hm hx a1
      obtain ⟨d1, d2⟩ := ih x1 y (fun kv hkv => hl kv (List.mem_cons_of_mem _ hkv)) b2 b3 a2
      rw [List.foldlM_cons]
      exact ⟨bind_ok_iff.mpr ⟨_, b1, d1⟩, d2⟩
  obtain ⟨a1, a2, a3⟩ := k1 sel x y hs hm hx h1
  obtain ⟨b1, b2⟩ := k2 isel (orderAfter order sel y) y z hi a2 a3 h2
  refine ⟨bind_ok_iff.mpr ⟨_, a1, ?_⟩, b2⟩
  have hord : ∀ kv ∈ isel, orderAfter order sel (y.chunk c S) kv.1 = orderAfter order sel y kv.1 := by
    intro kv hkv
    have : (y.chunk c S).arr.coords kv.1 = y.arr.coords kv.1 := by simp [StatVar.chunk, DA.restrict, hi kv hkv]
    unfold orderAfter
    rw [this]
  have hcong : ∀ (l : List (Dim × Position)) (w : StatVar L (FV K)), (∀ kv ∈ l, kv ∈ isel) →
      l.foldlM (fun z kv => iselPosition kv.1 (orderAfter order sel (y.chunk c S) kv.1) kv.2 z) w =
        l.foldlM (fun z kv => iselPosition kv.1 (orderAfter order sel y kv.1) kv.2 z) w := by
    intro l
    induction l with
    | nil => intro w _; rfl
    | cons kv l ih =>
      intro w hl
      rw [List.foldlM_cons, List.foldlM_cons, hord kv (hl kv (by simp))]
      congr 1
      funext w'
      exact ih w' fun kv hkv => hl kv (List.mem_cons_of_mem _ hkv)
  rw [hcong isel _ (fun _ h => h)]
  exact b1

end

/-! ### Concrete cases -/

/-- Two members at two init times. -/
def exTwoByTwo : StatVar ℕ (FV ℚ) := ⟨{ dims := {"init_time", "number"}, coords := fun _ => {0, 1}, val := fun e => .fin (10 * e "init_time" + e "number") }, none⟩

theorem exTwoByTwo_wf : exTwoByTwo.arr.WF := by
  intro e e' h
  have h1 := h "init_time" (by simp [exTwoByTwo])
  have h2 := h "number" (by simp [exTwoByTwo])
  simp [exTwoByTwo, h1, h2]

/-- The hypotheses of `C77_stack`, `C77_stack_labels` and `C77_stack_sum` hold: init times and members stacked to an ensemble of four members, under the old name of the members.
Position 2 of it is member 0 of init time 1. -/
example : ∃ y, stackFn id (fun _ => [0, 1]) ["init_time", "number"] "number" exTwoByTwo = .ok y ∧ PickedLabels (fun _ => [0, 1]) ["init_time", "number"] [1, 0] [1, 0] ∧
    rowMajor (["init_time", "number"].map fun _ => [0, 1].length) [1, 0] = 2 ∧ (∀ d ∈ ["init_time", "number"], ([0, 1] : List ℕ).Nodup ∧ ([0, 1] : List ℕ).toFinset = exTwoByTwo.arr.coords d) ∧
    y.arr.val (fun _ => 2) = .fin 10 := by
  obtain ⟨y, hy⟩ := (C77_stack_errors id (fun _ => [0, 1]) (ds := ["init_time", "number"]) (by simp) "number" exTwoByTwo).2.2 (by simp [exTwoByTwo]) (by simp)
  refine ⟨y, hy, by simp [PickedLabels], by simp [rowMajor], ?_, ?_⟩
  · intro d _
    exact ⟨by decide, by simp [exTwoByTwo]⟩
  · rw [C77_stack (fun _ _ h => h) (by decide) exTwoByTwo_wf hy (js := [1, 0]) (ls := [1, 0]) (by simp [PickedLabels]) (e' := fun k => if k = "init_time" then 1 else 0)]
    · simp [exTwoByTwo]
    · simp [rowMajor]
    · intro i d l hd hl
      match i with
      | 0 => simp at hd hl; subst hd hl; rfl
      | 1 => simp at hd hl; subst hd hl; rfl
      | i + 2 => simp at hd
    · intro k hk hkd
      simp only [exTwoByTwo, Finset.mem_insert, Finset.mem_singleton] at hk
      rcases hk with rfl | rfl <;> simp at hkd

/-- The hypotheses of `C77_select_isel` hold: member 1 at the last init time. -/
example : ∃ z, selectFn (fun _ => [0, 1]) [("number", .labels [1])] [("init_time", .at (-1))] exTwoByTwo = .ok z ∧ "init_time" ∉ z.arr.dims ∧ z.arr.coords "number" = {1} ∧
    z.arr.val (fun _ => 1) = .fin 11 := by
  refine ⟨_, rfl, ?_, ?_, ?_⟩
  · simp
  · simp [StatVar.filterLabels, DA.filterLabels, exTwoByTwo]
    decide
  · simp [StatVar.filterLabels, DA.filterLabels, exTwoByTwo, DA.setLabel]
    norm_num

/-- The hypotheses of `C77_rename` hold: the two dimensions can be swapped. -/
example : ∃ r, renameFn [("init_time", "number"), ("number", "init_time")] exTwoByTwo = .ok r := by
  unfold renameFn
  rw [if_neg (by simp [exTwoByTwo]), if_neg]
  · exact ⟨_, rfl⟩
  · have h1 : newName [("init_time", "number"), ("number", "init_time")] "init_time" = "number" := by decide
    have h2 : newName [("init_time", "number"), ("number", "init_time")] "number" = "init_time" := by decide
    simp only [exTwoByTwo, Finset.image_insert, Finset.image_singleton, h1, h2]
    decide

end WBX
