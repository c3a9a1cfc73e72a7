import Verif.Model.Beam
import Verif.Lemmas.Chunking
import Mathlib.Data.List.Perm.Basic

set_option linter.unusedSectionVars false

namespace WBX
open DA
variable {L V : Type} [DecidableEq L]

section C16
variable [AddCommMonoid V]

theorem combineRun_sound {D : Finset Dim} {xs : List (DA L V)} {acc : Option (DA L V)} (h : CombineRun xs acc)
    (hD : ∀ x ∈ xs, x.dims = D) :
    (acc = none ↔ xs = []) ∧ ∀ v, acc = some v → v.Same (combiningSum xs) := by
  induction h with
  | create => simp [CombiningSum.createAccumulator]
  | @add xs acc x h ih =>
    have ih := ih (fun y hy => hD y (by simp [hy]))
    cases acc with
    | none =>
      have : xs = [] := ih.1.mp rfl
      subst this
      refine ⟨by simp [CombiningSum.addInput], ?_⟩
      intro v hv
      simp only [CombiningSum.addInput, Option.some.injEq] at hv
      subst hv
      exact (combiningSum_singleton x).symm
    | some a =>
      have hne : xs ≠ [] := fun h => by simpa using ih.1.mpr h
      refine ⟨by simp [CombiningSum.addInput], ?_⟩
      intro v hv
      simp only [CombiningSum.addInput, Option.some.injEq] at hv
      subst hv
      have h1 : (combiningSum [a, x]).Same (combiningSum [combiningSum xs, combiningSum [x]]) := by
        have := combiningSum_congr [true, false] (fun b => if b then a else x)
          (fun b => if b then combiningSum xs else combiningSum [x]) (by
            intro b _
            cases b
            · exact (combiningSum_singleton x).symm
            · exact ih.2 a rfl)
        simpa using this
      refine h1.trans ?_
      have h2 := combiningSum_flatten (D := D) [xs, [x]] (by simp [hne]) (by
        intro as has b hb
        simp only [List.mem_cons, List.not_mem_nil, or_false] at has
        rcases has with rfl | rfl
        · exact hD b (by simp [hb])
        · exact hD b (by simp at hb; simp [hb]))
      simpa using h2
  | merge accs h ih =>
    have ih' := fun p hp => ih p hp (fun y hy => hD y (List.mem_flatten.mpr ⟨p.1, List.mem_map.mpr ⟨p, hp, rfl⟩, hy⟩))
    -- keep the nonempty accumulators
    have key : ∃ ps : List (List (DA L V) × DA L V), (accs.map Prod.snd).filterMap id = ps.map Prod.snd ∧
        (accs.map Prod.fst).flatten = (ps.map Prod.fst).flatten ∧
        ∀ p ∈ ps, p.1 ≠ [] ∧ p.2.Same (combiningSum p.1) ∧ ∀ x ∈ p.1, x.dims = D := by
      have hDs : ∀ p ∈ accs, ∀ x ∈ p.1, x.dims = D := fun p hp x hx =>
        hD x (List.mem_flatten.mpr ⟨p.1, List.mem_map.mpr ⟨p, hp, rfl⟩, hx⟩)
      clear h hD ih
      induction accs with
      | nil => exact ⟨[], by simp⟩
      | cons p accs ihh =>
        obtain ⟨ps, h1, h2, h3⟩ := ihh (fun q hq => ih' q (by simp [hq])) (fun q hq => hDs q (by simp [hq]))
        have hp := ih' p (by simp)
        rcases p with ⟨xs, _ | a⟩
        · have : xs = [] := hp.1.mp rfl
          subst this
          refine ⟨ps, ?_, ?_, h3⟩
          · simpa using h1
          · simpa using h2
        · refine ⟨(xs, a) :: ps, ?_, ?_, ?_⟩
          · simpa using h1
          · simpa using h2
          · intro q hq
            rcases List.mem_cons.mp hq with rfl | hq
            · exact ⟨fun h => by simpa using hp.1.mpr h, hp.2 a rfl, hDs (xs, some a) (by simp)⟩
            · exact h3 q hq
    obtain ⟨ps, h1, h2, h3⟩ := key
    rw [h2]
    unfold CombiningSum.mergeAccumulators
    simp only [h1]
    cases ps with
    | nil => simp
    | cons p ps =>
      have hp : p.1 ≠ [] := (h3 p (by simp)).1
      refine ⟨by simp [hp], ?_⟩
      intro v hv
      simp only [List.map_cons, List.isEmpty_cons, Bool.false_eq_true, if_false, Option.some.injEq] at hv
      subst hv
      have a1 := combiningSum_congr (p :: ps) Prod.snd (fun q => combiningSum q.1) (fun q hq => (h3 q hq).2.1)
      have a2 := combiningSum_flatten (D := D) ((p :: ps).map Prod.fst) (by
          intro as has; rw [List.mem_map] at has; obtain ⟨q, hq, rfl⟩ := has; exact (h3 q hq).1) (by
          intro as has; rw [List.mem_map] at has; obtain ⟨q, hq, rfl⟩ := has; exact (h3 q hq).2.2)
      rw [List.map_map] at a2
      exact a1.trans a2

end C16

/-! ### Concatenation is the combining sum when the time blocks form a grid -/
section Concat
variable [AddCommMonoid V]

theorem sum_find {α : Type} (as : List α) (P : α → Bool) (f : α → V)
    (hex : as.Pairwise (fun a b => ¬ (P a = true ∧ P b = true))) (h0 : ∀ a ∈ as, P a = false → f a = 0) :
    (as.map f).sum = match as.find? P with | some a => f a | none => 0 := by
  induction as with
  | nil => simp
  | cons a as ih =>
    rw [List.pairwise_cons] at hex
    rw [List.map_cons, List.sum_cons, List.find?_cons]
    cases hp : P a with
    | true =>
      have : (as.map f).sum = 0 := by
        apply List.sum_eq_zero
        intro v hv
        rw [List.mem_map] at hv
        obtain ⟨b, hb, rfl⟩ := hv
        apply h0 b (by simp [hb])
        have := hex.1 b hb
        simpa [hp] using this
      simp [this]
    | false =>
      rw [h0 a (by simp) hp, zero_add, ih hex.2 (fun b hb => h0 b (by simp [hb]))]

/-- The time blocks of the arrays form a grid: any two arrays differ in a kept time dimension; along a kept time
dimension blocks are equal or ordered; every combination of blocks occurs. -/
structure TimeGrid [LinearOrder L] (D : Finset Dim) (as : List (DA L V)) : Prop where
  dims : ∀ a ∈ as, a.dims = D
  distinct : as.Pairwise (fun a b => ∃ d ∈ D, d ∈ timeDims ∧ a.coords d ≠ b.coords d)
  ordered : ∀ a ∈ as, ∀ b ∈ as, ∀ d ∈ D, d ∈ timeDims → a.coords d = b.coords d ∨
    (∀ x ∈ a.coords d, ∀ y ∈ b.coords d, x < y) ∨ (∀ x ∈ a.coords d, ∀ y ∈ b.coords d, y < x)
  nonempty : ∀ a ∈ as, ∀ d ∈ D, d ∈ timeDims → (a.coords d).Nonempty
  complete : ∀ a ∈ as, ∀ b ∈ as, ∃ k ∈ as, ("init_time" ∈ D → k.coords "init_time" = a.coords "init_time") ∧
    ("lead_time" ∈ D → k.coords "lead_time" = b.coords "lead_time")

theorem TimeGrid.perm [LinearOrder L] {D : Finset Dim} {as bs : List (DA L V)} (h : TimeGrid D as) (hp : as.Perm bs) :
    TimeGrid D bs where
  dims a ha := h.dims a (hp.mem_iff.mpr ha)
  distinct := (hp.pairwise_iff (by rintro a b ⟨d, h1, h2, h3⟩; exact ⟨d, h1, h2, h3.symm⟩)).mp h.distinct
  ordered a ha b hb := h.ordered a (hp.mem_iff.mpr ha) b (hp.mem_iff.mpr hb)
  nonempty a ha := h.nonempty a (hp.mem_iff.mpr ha)
  complete a ha b hb := by
    obtain ⟨k, hk, h1⟩ := h.complete a (hp.mem_iff.mpr ha) b (hp.mem_iff.mpr hb)
    exact ⟨k, hp.mem_iff.mp hk, h1⟩

theorem mem_timeDims (d : Dim) : d ∈ timeDims ↔ d = "init_time" ∨ d = "lead_time" := by simp [timeDims]

theorem concatArrays_same [LinearOrder L] (fill : V) {D : Finset Dim} {as : List (DA L V)} (hne : as ≠ [])
    (hg : TimeGrid D as) (hcells : ∀ d ∈ D, (outerCoords as d).Nonempty) :
    ∃ r, concatArrays fill as = .ok r ∧ r.Same (combiningSum as) := by
  let al : DA L V → DA L V := alignExceptTime (outerCoords as)
  have hald : ∀ a ∈ as, (al a).dims = D := fun a ha => hg.dims a ha
  have halc : ∀ a, ∀ d, d ∈ timeDims → (al a).coords d = a.coords d := by
    intro a d hd; simp [al, alignExceptTime, hd]
  have halc' : ∀ a, ∀ d, d ∉ timeDims → (al a).coords d = outerCoords as d := by
    intro a d hd; simp [al, alignExceptTime, hd]
  have hfil : (as.map al).filter hasCells = as.map al := by
    rw [List.filter_eq_self]
    intro a ha
    rw [List.mem_map] at ha
    obtain ⟨a, ha, rfl⟩ := ha
    unfold hasCells
    rw [decide_eq_true_eq]
    intro d hd
    rw [hald a ha] at hd
    by_cases ht : d ∈ timeDims
    · rw [halc a d ht]; exact hg.nonempty a ha d hd ht
    · rw [halc' a d ht]; exact hcells d hd
  have hinDom : ∀ a ∈ as, ∀ e, (al a).InDom e ↔ (∀ d ∈ D, d ∈ timeDims → e d ∈ a.coords d) ∧
      (∀ d ∈ D, d ∉ timeDims → e d ∈ outerCoords as d) := by
    intro a ha e
    unfold InDom
    rw [hald a ha]
    constructor
    · intro h
      exact ⟨fun d hd ht => halc a d ht ▸ h d hd, fun d hd ht => halc' a d ht ▸ h d hd⟩
    · rintro ⟨h1, h2⟩ d hd
      by_cases ht : d ∈ timeDims
      · rw [halc a d ht]; exact h1 d hd ht
      · rw [halc' a d ht]; exact h2 d hd ht
  have houter : ∀ d ∈ D, outerCoords (as.map al) d = outerCoords as d := by
    intro d hd
    ext l
    simp only [mem_outerCoords, List.mem_map, exists_exists_and_eq_and]
    by_cases ht : d ∈ timeDims
    · constructor
      · rintro ⟨a, ha, h1, h2⟩; exact ⟨a, ha, h1, halc a d ht ▸ h2⟩
      · rintro ⟨a, ha, h1, h2⟩; exact ⟨a, ha, h1, (halc a d ht).symm ▸ h2⟩
    · constructor
      · rintro ⟨a, ha, h1, h2⟩
        rw [halc' a d ht, mem_outerCoords] at h2
        exact h2
      · intro h
        obtain ⟨a, ha⟩ := List.exists_mem_of_ne_nil _ hne
        refine ⟨a, ha, by rw [hald a ha]; exact hd, ?_⟩
        rw [halc' a d ht, mem_outerCoords]
        exact h
  unfold concatArrays
  simp only
  have hmap : (as.map (alignExceptTime (outerCoords as))) = as.map al := rfl
  rw [hmap, hfil]
  have hne' : as.map al ≠ [] := by simpa using hne
  have hie : (as.map al).isEmpty = false := by
    rw [List.isEmpty_eq_false_iff]; exact hne'
  rw [hie]
  simp only [Bool.false_eq_true, if_false]
  -- all checks pass
  have hbs : ∀ bs : List (DA L V), bs = as.map al → ∃ r, combineByCoords fill bs = .ok r ∧ r.dims = D ∧
      r.coords = outerCoords (as.map al) ∧ r.val = fun e => match (as.map al).find? (fun a => decide (a.InDom e)) with
                 | some a => a.val e
                 | none => fill := by
    intro bs hb
    cases bs with
    | nil => exact absurd hb.symm hne'
    | cons a0 rest =>
      have hdims : ∀ a ∈ a0 :: rest, a.dims = D := by
        intro a ha
        rw [hb, List.mem_map] at ha
        obtain ⟨a, ha, rfl⟩ := ha
        exact hald a ha
      have htime : ∀ a ∈ a0 :: rest, ∀ b ∈ a0 :: rest, ∀ d ∈ D, d ∉ timeDims → a.coords d = b.coords d := by
        intro a ha b hbb d hd ht
        rw [hb, List.mem_map] at ha hbb
        obtain ⟨a, ha, rfl⟩ := ha
        obtain ⟨b, hbb, rfl⟩ := hbb
        rw [halc' a d ht, halc' b d ht]
      have hpw : (a0 :: rest).Pairwise (fun a b => ∃ d ∈ D, d ∈ timeDims ∧ a.coords d ≠ b.coords d) := by
        rw [hb, List.pairwise_map]
        refine hg.distinct.imp ?_
        rintro a b ⟨d, h1, h2, h3⟩
        exact ⟨d, h1, h2, by rw [halc a d h2, halc b d h2]; exact h3⟩
      have hcut : ∀ d, d ∈ a0.dims.filter (fun d => ∃ a ∈ rest, a.coords d ≠ a0.coords d) ↔
          d ∈ D ∧ ∃ a ∈ rest, a.coords d ≠ a0.coords d := by
        intro d; rw [Finset.mem_filter, hdims a0 (by simp)]
      unfold combineByCoords
      simp only
      rw [if_neg (by rw [not_not]; intro a ha; rw [hdims a (by simp [ha]), hdims a0 (by simp)])]
      rw [if_neg ?_, if_neg ?_, if_neg ?_]
      · refine ⟨_, rfl, hdims a0 (by simp), by rw [hb], by rw [hb]; rfl⟩
      · rw [not_not, List.nodup_iff_pairwise_ne, List.pairwise_map]
        refine hpw.imp_of_mem ?_
        rintro a b ha hb' ⟨d, h1, h2, h3⟩ heq
        have hdc : d ∈ a0.dims.filter (fun d => ∃ a ∈ rest, a.coords d ≠ a0.coords d) := by
          rw [hcut]
          refine ⟨h1, ?_⟩
          by_contra hno
          push Not at hno
          have hall : ∀ x ∈ a0 :: rest, x.coords d = a0.coords d := by
            intro x hx
            rcases List.mem_cons.mp hx with rfl | hx
            · rfl
            · exact hno x hx
          exact h3 ((hall a ha).trans (hall b hb').symm)
        have hm := Finset.mem_image_of_mem (fun d => (d, a.coords d)) hdc
        rw [heq] at hm
        rw [Finset.mem_image] at hm
        obtain ⟨d', _, hd'⟩ := hm
        simp only [Prod.mk.injEq] at hd'
        obtain ⟨rfl, hd'⟩ := hd'
        exact h3 hd'.symm
      · rw [not_not]
        intro d hd a ha b hbb
        rw [hcut] at hd
        have htd : d ∈ timeDims := by
          by_contra ht
          obtain ⟨x, hx, hne2⟩ := hd.2
          exact hne2 (htime x (by simp [hx]) a0 (by simp) d hd.1 ht)
        rw [hb, List.mem_map] at ha hbb
        obtain ⟨a, ha, rfl⟩ := ha
        obtain ⟨b, hbb, rfl⟩ := hbb
        rw [halc a d htd, halc b d htd]
        unfold blockBefore
        simp only [decide_eq_true_eq]
        rcases hg.ordered a ha b hbb d hd.1 htd with h | h | h
        · exact Or.inl h
        · exact Or.inr (Or.inl h)
        · exact Or.inr (Or.inr (fun x hx y hy => h y hy x hx))
      · rintro ⟨hr, hce⟩
        obtain ⟨b, hbr⟩ := List.exists_mem_of_ne_nil _ hr
        rw [List.pairwise_cons] at hpw
        obtain ⟨d, h1, h2, h3⟩ := hpw.1 b hbr
        have : d ∈ (∅ : Finset Dim) := by
          rw [← hce, hcut]
          exact ⟨h1, b, hbr, h3.symm⟩
        simp at this
  obtain ⟨r, hr, rd, rc, rv⟩ := hbs _ rfl
  refine ⟨r, hr, ?_, ?_, ?_⟩
  · rw [rd, combiningSum_dims_of_same hne hg.dims]
  · intro d hd
    rw [rd] at hd
    rw [rc, houter d hd, combiningSum_coords _ _ (by rw [combiningSum_dims_of_same hne hg.dims]; exact hd)]
  · intro e he
    have he' : ∀ d ∈ D, e d ∈ outerCoords as d := by
      intro d hd
      have := he d (rd ▸ hd)
      rw [rc, houter d hd] at this
      exact this
    have hex : as.Pairwise (fun a b => ¬ ((decide ((al a).InDom e) = true) ∧ decide ((al b).InDom e) = true)) := by
      refine hg.distinct.imp_of_mem ?_
      rintro a b ha hb ⟨d, h1, h2, h3⟩ ⟨ha', hb'⟩
      rw [decide_eq_true_eq, hinDom _ (by assumption)] at ha' hb'
      have q1 := ha'.1 d h1 h2
      have q2 := hb'.1 d h1 h2
      rcases hg.ordered a ha b hb d h1 h2 with h | h | h
      · exact h3 h
      · exact lt_irrefl _ (h _ q1 _ q2)
      · exact lt_irrefl _ (h _ q1 _ q2)
    have hsum := sum_find as (fun a => decide ((al a).InDom e)) (fun a => if a.InDom e then a.val e else 0) hex (by
      intro a ha hf
      rw [decide_eq_false_iff_not, hinDom a ha] at hf
      rw [if_neg]
      intro hd
      apply hf
      refine ⟨fun d h1 _ => hd d (by rw [hg.dims a ha]; exact h1), fun d h1 _ => he' d h1⟩)
    rw [combiningSum_val, hsum, rv]
    simp only
    rw [List.find?_map]
    -- some array covers the cell
    have hcov : ∃ k ∈ as, (al k).InDom e := by
      have hpick : ∀ d ∈ D, ∃ a ∈ as, e d ∈ a.coords d := by
        intro d hd
        have := he' d hd
        rw [mem_outerCoords] at this
        obtain ⟨a, ha, -, h⟩ := this
        exact ⟨a, ha, h⟩
      obtain ⟨a00, ha00⟩ := List.exists_mem_of_ne_nil _ hne
      have hi : ∃ a ∈ as, "init_time" ∈ D → e "init_time" ∈ a.coords "init_time" := by
        by_cases h : "init_time" ∈ D
        · obtain ⟨a, ha, h'⟩ := hpick _ h; exact ⟨a, ha, fun _ => h'⟩
        · exact ⟨a00, ha00, fun h' => absurd h' h⟩
      have hl : ∃ a ∈ as, "lead_time" ∈ D → e "lead_time" ∈ a.coords "lead_time" := by
        by_cases h : "lead_time" ∈ D
        · obtain ⟨a, ha, h'⟩ := hpick _ h; exact ⟨a, ha, fun _ => h'⟩
        · exact ⟨a00, ha00, fun h' => absurd h' h⟩
      obtain ⟨a, ha, hia⟩ := hi
      obtain ⟨b, hb, hlb⟩ := hl
      obtain ⟨k, hk, k1, k2⟩ := hg.complete a ha b hb
      refine ⟨k, hk, (hinDom k hk e).mpr ⟨?_, fun d hd _ => he' d hd⟩⟩
      intro d hd ht
      rw [mem_timeDims] at ht
      rcases ht with rfl | rfl
      · rw [k1 hd]; exact hia hd
      · rw [k2 hd]; exact hlb hd
    obtain ⟨k, hk, hkd⟩ := hcov
    have hcomp : ((fun a : DA L V => decide (a.InDom e)) ∘ al) = (fun a => decide ((al a).InDom e)) := rfl
    rw [hcomp]
    cases hf : as.find? (fun a => decide ((al a).InDom e)) with
    | none =>
      rw [List.find?_eq_none] at hf
      have := hf k hk
      simp [hkd] at this
    | some a => rfl

end Concat
end WBX
