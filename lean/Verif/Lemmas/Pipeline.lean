import Verif.Lemmas.Beam

set_option linter.unusedSectionVars false

namespace WBX
open DA
variable {L V : Type} [DecidableEq L]

/-! ### Grouping by key -/

theorem flatten_groups_perm {α κ : Type} [DecidableEq κ] (f : α → κ) (ks : List κ) (hn : ks.Nodup) (xs : List α)
    (hc : ∀ x ∈ xs, f x ∈ ks) : ((ks.map (fun k => xs.filter (fun x => f x = k))).flatten).Perm xs := by
  induction ks generalizing xs with
  | nil =>
    cases xs with
    | nil => simp
    | cons x xs => simpa using hc x (by simp)
  | cons k ks ih =>
    rw [List.nodup_cons] at hn
    rw [List.map_cons, List.flatten_cons]
    have h1 : (ks.map (fun k' => xs.filter (fun x => f x = k')))
        = ks.map (fun k' => (xs.filter (fun x => ¬ f x = k)).filter (fun x => f x = k')) := by
      apply List.map_congr_left
      intro k' hk'
      rw [List.filter_filter]
      apply List.filter_congr
      intro x _
      have : k' ≠ k := fun h => hn.1 (h ▸ hk')
      by_cases h : f x = k'
      · simp [h, this]
      · simp [h]
    rw [h1]
    have h2 := ih hn.2 (xs.filter (fun x => ¬ f x = k)) (by
      intro x hx
      rw [List.mem_filter] at hx
      have := hc x hx.1
      rcases List.mem_cons.mp this with h | h
      · simp [h] at hx
      · exact h)
    refine (h2.append_left _).trans ?_
    have := List.filter_append_perm (fun x => decide (f x = k)) xs
    simpa using this

section Core
variable [AddCommMonoid V] [LinearOrder L]

/-- Blocks of labels in increasing order. -/
def OrderedBlocks (Ss : List (Finset L)) : Prop :=
  Ss.Pairwise (fun S T => ∀ x ∈ S, ∀ y ∈ T, x < y)

/-- The key under which chunk `q` of a variable is emitted. -/
def gridKey (D : Finset Dim) (ty : Bool) (st v : String) (q : (ℕ × Finset L) × (ℕ × Finset L)) : AggKey :=
  ⟨ty, st, v, if "init_time" ∈ D then some q.1.1 else none, if "lead_time" ∈ D then some q.2.1 else none⟩

/-- One variable's way through `CombinePerKey` and `ConcatPerStatisticPerVariable`. -/
theorem pipeline_var (fill : V) {D : Finset Dim} (ty : Bool) (st v : String) {Is Js : List (ℕ × Finset L)}
    (hI : (Is.map Prod.fst).Nodup) (hJ : (Js.map Prod.fst).Nodup) (hneI : Is ≠ []) (hneJ : Js ≠ [])
    (A : (ℕ × Finset L) × (ℕ × Finset L) → DA L V) (hdim : ∀ q, (A q).dims = D)
    {Ci Cl : Finset L}
    (hci : "init_time" ∈ D → ∀ q ∈ Is ×ˢ Js, (A q).coords "init_time" = Ci ∩ q.1.2)
    (hcl : "lead_time" ∈ D → ∀ q ∈ Is ×ˢ Js, (A q).coords "lead_time" = Cl ∩ q.2.2)
    (hi1 : "init_time" ∈ D → ∀ i ∈ Is, (Ci ∩ i.2).Nonempty) (hl1 : "lead_time" ∈ D → ∀ j ∈ Js, (Cl ∩ j.2).Nonempty)
    (oi : OrderedBlocks (Is.map Prod.snd)) (ol : OrderedBlocks (Js.map Prod.snd))
    (hcells : ∀ d ∈ D, (outerCoords ((Is ×ˢ Js).map A) d).Nonempty)
    (combined : List (AggKey × DA L V)) (hnd : (combined.map Prod.fst).Nodup)
    (hkeys : ∀ k, k ∈ combined.map Prod.fst ↔ k ∈ (Is ×ˢ Js).map (gridKey D ty st v))
    (hval : ∀ k x, (k, x) ∈ combined → ∃ inputs acc,
      inputs.Perm ((((Is ×ˢ Js).map (fun q => (gridKey D ty st v q, A q))).filter (fun kv => kv.1 = k)).map Prod.snd) ∧
      CombineRun inputs acc ∧ CombiningSum.extractOutput acc = some x)
    (arrays : List (DA L V)) (hp : arrays.Perm (combined.map Prod.snd)) :
    ∃ r, concatArrays fill arrays = .ok r ∧ r.Same (combiningSum ((Is ×ˢ Js).map A)) := by
  have hpairI : ∀ i ∈ Is, ∀ i' ∈ Is, i.1 = i'.1 → i = i' := by
    intro i hi i' hi' h
    exact List.inj_on_of_nodup_map hI hi hi' h
  have hpairJ : ∀ i ∈ Js, ∀ i' ∈ Js, i.1 = i'.1 → i = i' := by
    intro i hi i' hi' h
    exact List.inj_on_of_nodup_map hJ hi hi' h
  let E := (Is ×ˢ Js).map (fun q => (gridKey D ty st v q, A q))
  let grp : AggKey → List (DA L V) := fun k => (E.filter (fun kv => kv.1 = k)).map Prod.snd
  have hgrp : ∀ k a, a ∈ grp k ↔ ∃ q ∈ Is ×ˢ Js, gridKey D ty st v q = k ∧ A q = a := by
    intro k a
    simp only [grp, E, List.mem_map, List.mem_filter, decide_eq_true_eq]
    constructor
    · rintro ⟨kv, ⟨⟨q, hq, rfl⟩, hk⟩, rfl⟩; exact ⟨q, hq, hk, rfl⟩
    · rintro ⟨q, hq, hk, rfl⟩; exact ⟨_, ⟨⟨q, hq, rfl⟩, hk⟩, rfl⟩
  have hgd : ∀ k, ∀ a ∈ grp k, a.dims = D := by
    intro k a ha
    obtain ⟨q, _, _, rfl⟩ := (hgrp k a).mp ha
    exact hdim q
  have hcomb : ∀ kx ∈ combined, ∃ q ∈ Is ×ˢ Js, gridKey D ty st v q = kx.1 ∧ grp kx.1 ≠ [] ∧
      kx.2.Same (combiningSum (grp kx.1)) := by
    rintro ⟨k, x⟩ hkx
    have hk : k ∈ combined.map Prod.fst := List.mem_map.mpr ⟨_, hkx, rfl⟩
    rw [hkeys, List.mem_map] at hk
    obtain ⟨q, hq, hqk⟩ := hk
    have hne : grp k ≠ [] := List.ne_nil_of_mem ((hgrp k (A q)).mpr ⟨q, hq, hqk, rfl⟩)
    obtain ⟨inputs, acc, hpm, hrun, hout⟩ := hval k x hkx
    have hs := combineRun_sound (D := D) hrun (by
      intro y hy
      exact hgd k y (hpm.mem_iff.mp hy))
    refine ⟨q, hq, hqk, hne, ?_⟩
    exact (hs.2 x hout).trans (combiningSum_perm hpm)
  -- coordinates of the combined arrays along kept time dimensions
  have hxd : ∀ kx ∈ combined, kx.2.dims = D := by
    intro kx hkx
    obtain ⟨q, hq, hqk, hne, hs⟩ := hcomb kx hkx
    rw [hs.dims, combiningSum_dims_of_same hne (hgd kx.1)]
  have hxi : "init_time" ∈ D → ∀ kx ∈ combined, ∀ q ∈ Is ×ˢ Js, gridKey D ty st v q = kx.1 →
      kx.2.coords "init_time" = Ci ∩ q.1.2 := by
    intro hD kx hkx q hq hqk
    obtain ⟨-, -, -, hne, hs⟩ := hcomb kx hkx
    rw [hs.coords _ (by rw [hxd kx hkx]; exact hD), combiningSum_coords _ _ (by
      rw [combiningSum_dims_of_same hne (hgd kx.1)]; exact hD)]
    have hall : ∀ a ∈ grp kx.1, a.coords "init_time" = Ci ∩ q.1.2 := by
      intro a ha
      obtain ⟨q', hq', hk', rfl⟩ := (hgrp kx.1 a).mp ha
      have : gridKey D ty st v q' = gridKey D ty st v q := hk'.trans hqk.symm
      simp only [gridKey, hD, if_true, AggKey.mk.injEq, Option.some.injEq] at this
      have h1 := (List.mem_product.mp hq').1
      have h2 := (List.mem_product.mp hq).1
      rw [hci hD q' hq', hpairI _ h1 _ h2 this.2.2.2.1]
    ext l
    rw [mem_outerCoords]
    obtain ⟨a0, ha0⟩ := List.exists_mem_of_ne_nil _ hne
    constructor
    · rintro ⟨a, ha, -, hl⟩; rw [hall a ha] at hl; exact hl
    · intro hl
      exact ⟨a0, ha0, by rw [hgd _ _ ha0]; exact hD, by rw [hall a0 ha0]; exact hl⟩
  have hxl : "lead_time" ∈ D → ∀ kx ∈ combined, ∀ q ∈ Is ×ˢ Js, gridKey D ty st v q = kx.1 →
      kx.2.coords "lead_time" = Cl ∩ q.2.2 := by
    intro hD kx hkx q hq hqk
    obtain ⟨-, -, -, hne, hs⟩ := hcomb kx hkx
    rw [hs.coords _ (by rw [hxd kx hkx]; exact hD), combiningSum_coords _ _ (by
      rw [combiningSum_dims_of_same hne (hgd kx.1)]; exact hD)]
    have hall : ∀ a ∈ grp kx.1, a.coords "lead_time" = Cl ∩ q.2.2 := by
      intro a ha
      obtain ⟨q', hq', hk', rfl⟩ := (hgrp kx.1 a).mp ha
      have : gridKey D ty st v q' = gridKey D ty st v q := hk'.trans hqk.symm
      simp only [gridKey, hD, if_true, AggKey.mk.injEq, Option.some.injEq] at this
      have h1 := (List.mem_product.mp hq').2
      have h2 := (List.mem_product.mp hq).2
      rw [hcl hD q' hq', hpairJ _ h1 _ h2 this.2.2.2.2]
    ext l
    rw [mem_outerCoords]
    obtain ⟨a0, ha0⟩ := List.exists_mem_of_ne_nil _ hne
    constructor
    · rintro ⟨a, ha, -, hl⟩; rw [hall a ha] at hl; exact hl
    · intro hl
      exact ⟨a0, ha0, by rw [hgd _ _ ha0]; exact hD, by rw [hall a0 ha0]; exact hl⟩
  -- blocks are ordered
  have hord : ∀ {Ks : List (ℕ × Finset L)}, OrderedBlocks (Ks.map Prod.snd) → ∀ i ∈ Ks, ∀ i' ∈ Ks, i = i' ∨
      (∀ x ∈ i.2, ∀ y ∈ i'.2, x < y) ∨ (∀ x ∈ i.2, ∀ y ∈ i'.2, y < x) := by
    intro Ks ho
    induction Ks with
    | nil => simp
    | cons k Ks ih =>
      unfold OrderedBlocks at ho
      rw [List.map_cons, List.pairwise_cons] at ho
      intro i hi i' hi'
      rcases List.mem_cons.mp hi with rfl | h1 <;> rcases List.mem_cons.mp hi' with rfl | h2
      · exact Or.inl rfl
      · exact Or.inr (Or.inl (ho.1 _ (List.mem_map.mpr ⟨_, h2, rfl⟩)))
      · exact Or.inr (Or.inr (fun x hx y hy => ho.1 _ (List.mem_map.mpr ⟨_, h1, rfl⟩) y hy x hx))
      · exact ih ho.2 i h1 i' h2
  have hblk : ∀ {C : Finset L} {S T : Finset L}, (∀ x ∈ S, ∀ y ∈ T, x < y) ∨ (∀ x ∈ S, ∀ y ∈ T, y < x) →
      (C ∩ S).Nonempty → C ∩ S ≠ C ∩ T := by
    rintro C S T h ⟨x, hx⟩ heq
    have hxT : x ∈ C ∩ T := heq ▸ hx
    rw [Finset.mem_inter] at hx hxT
    rcases h with h | h
    · exact lt_irrefl _ (h x hx.2 x hxT.2)
    · exact lt_irrefl _ (h x hx.2 x hxT.2)
  have hgrid : TimeGrid D (combined.map Prod.snd) := by
    constructor
    · intro a ha
      rw [List.mem_map] at ha
      obtain ⟨kx, hkx, rfl⟩ := ha
      exact hxd kx hkx
    · rw [List.pairwise_map]
      rw [List.nodup_iff_pairwise_ne, List.pairwise_map] at hnd
      refine hnd.imp_of_mem ?_
      intro kx ky hkx hky hne
      obtain ⟨q, hq, hqk, -⟩ := hcomb kx hkx
      obtain ⟨q', hq', hqk', -⟩ := hcomb ky hky
      have hmI := (List.mem_product.mp hq).1
      have hmI' := (List.mem_product.mp hq').1
      have hmJ := (List.mem_product.mp hq).2
      have hmJ' := (List.mem_product.mp hq').2
      by_cases hDi : "init_time" ∈ D ∧ q.1 ≠ q'.1
      · refine ⟨"init_time", hDi.1, by simp [timeDims], ?_⟩
        rw [hxi hDi.1 kx hkx q hq hqk, hxi hDi.1 ky hky q' hq' hqk']
        exact hblk ((hord oi _ hmI _ hmI').resolve_left hDi.2) (hi1 hDi.1 _ hmI)
      · by_cases hDl : "lead_time" ∈ D ∧ q.2 ≠ q'.2
        · refine ⟨"lead_time", hDl.1, by simp [timeDims], ?_⟩
          rw [hxl hDl.1 kx hkx q hq hqk, hxl hDl.1 ky hky q' hq' hqk']
          exact hblk ((hord ol _ hmJ _ hmJ').resolve_left hDl.2) (hl1 hDl.1 _ hmJ)
        · exfalso
          apply hne
          rw [← hqk, ← hqk']
          unfold gridKey
          congr 1
          · split
            · next h => rw [Classical.not_not.mp (fun h' => hDi ⟨h, h'⟩)]
            · rfl
          · split
            · next h => rw [Classical.not_not.mp (fun h' => hDl ⟨h, h'⟩)]
            · rfl
    · intro a ha b hb d hd ht
      rw [List.mem_map] at ha hb
      obtain ⟨kx, hkx, rfl⟩ := ha
      obtain ⟨ky, hky, rfl⟩ := hb
      obtain ⟨q, hq, hqk, -⟩ := hcomb kx hkx
      obtain ⟨q', hq', hqk', -⟩ := hcomb ky hky
      have hmI := (List.mem_product.mp hq).1
      have hmI' := (List.mem_product.mp hq').1
      have hmJ := (List.mem_product.mp hq).2
      have hmJ' := (List.mem_product.mp hq').2
      rw [mem_timeDims] at ht
      rcases ht with rfl | rfl
      · rw [hxi hd kx hkx q hq hqk, hxi hd ky hky q' hq' hqk']
        rcases hord oi _ hmI _ hmI' with h | h | h
        · rw [h]; exact Or.inl rfl
        · refine Or.inr (Or.inl ?_)
          intro x hx y hy
          exact h x (Finset.mem_inter.mp hx).2 y (Finset.mem_inter.mp hy).2
        · refine Or.inr (Or.inr ?_)
          intro x hx y hy
          exact h x (Finset.mem_inter.mp hx).2 y (Finset.mem_inter.mp hy).2
      · rw [hxl hd kx hkx q hq hqk, hxl hd ky hky q' hq' hqk']
        rcases hord ol _ hmJ _ hmJ' with h | h | h
        · rw [h]; exact Or.inl rfl
        · refine Or.inr (Or.inl ?_)
          intro x hx y hy
          exact h x (Finset.mem_inter.mp hx).2 y (Finset.mem_inter.mp hy).2
        · refine Or.inr (Or.inr ?_)
          intro x hx y hy
          exact h x (Finset.mem_inter.mp hx).2 y (Finset.mem_inter.mp hy).2
    · intro a ha d hd ht
      rw [List.mem_map] at ha
      obtain ⟨kx, hkx, rfl⟩ := ha
      obtain ⟨q, hq, hqk, -⟩ := hcomb kx hkx
      rw [mem_timeDims] at ht
      rcases ht with rfl | rfl
      · rw [hxi hd kx hkx q hq hqk]; exact hi1 hd _ (List.mem_product.mp hq).1
      · rw [hxl hd kx hkx q hq hqk]; exact hl1 hd _ (List.mem_product.mp hq).2
    · intro a ha b hb
      rw [List.mem_map] at ha hb
      obtain ⟨kx, hkx, rfl⟩ := ha
      obtain ⟨ky, hky, rfl⟩ := hb
      obtain ⟨q, hq, hqk, -⟩ := hcomb kx hkx
      obtain ⟨q', hq', hqk', -⟩ := hcomb ky hky
      have hmm : (q.1, q'.2) ∈ Is ×ˢ Js := List.mem_product.mpr ⟨(List.mem_product.mp hq).1, (List.mem_product.mp hq').2⟩
      have : gridKey D ty st v (q.1, q'.2) ∈ combined.map Prod.fst :=
        (hkeys _).mpr (List.mem_map.mpr ⟨_, hmm, rfl⟩)
      rw [List.mem_map] at this
      obtain ⟨kz, hkz, hz⟩ := this
      refine ⟨kz.2, List.mem_map.mpr ⟨kz, hkz, rfl⟩, ?_, ?_⟩
      · intro hD
        rw [hxi hD kz hkz _ hmm hz.symm, hxi hD kx hkx q hq hqk]
      · intro hD
        rw [hxl hD kz hkz _ hmm hz.symm, hxl hD ky hky q' hq' hqk']
  -- the combined arrays sum up to all inputs
  have hsum : (combiningSum (combined.map Prod.snd)).Same (combiningSum ((Is ×ˢ Js).map A)) := by
    have h1 := combiningSum_congr combined Prod.snd (fun kx => combiningSum (grp kx.1)) (by
      intro kx hkx
      obtain ⟨-, -, -, -, hs⟩ := hcomb kx hkx
      exact hs)
    have h2 := combiningSum_flatten (D := D) (combined.map (fun kx => grp kx.1)) (by
      intro as has
      rw [List.mem_map] at has
      obtain ⟨kx, hkx, rfl⟩ := has
      obtain ⟨-, -, -, hne, -⟩ := hcomb kx hkx
      exact hne) (by
      intro as has
      rw [List.mem_map] at has
      obtain ⟨kx, hkx, rfl⟩ := has
      exact hgd kx.1)
    rw [List.map_map] at h2
    refine h1.trans (h2.trans (combiningSum_perm ?_))
    have h3 := flatten_groups_perm (fun kv : AggKey × DA L V => kv.1) (combined.map Prod.fst) hnd E (by
      intro kv hkv
      rw [hkeys]
      rw [List.mem_map] at hkv ⊢
      obtain ⟨q, hq, rfl⟩ := hkv
      exact ⟨q, hq, rfl⟩)
    have h4 := h3.map Prod.snd
    rw [List.map_flatten, List.map_map, List.map_map] at h4
    have h5 : E.map Prod.snd = (Is ×ˢ Js).map A := by simp [E, List.map_map, Function.comp_def]
    rw [h5] at h4
    exact h4
  have hgrid' := hgrid.perm hp.symm
  have hcne : combined ≠ [] := by
    obtain ⟨i, hi⟩ := List.exists_mem_of_ne_nil _ hneI
    obtain ⟨j, hj⟩ := List.exists_mem_of_ne_nil _ hneJ
    intro h
    have := (hkeys (gridKey D ty st v (i, j))).mpr (List.mem_map.mpr ⟨_, List.mem_product.mpr ⟨hi, hj⟩, rfl⟩)
    simp [h] at this
  have hane : arrays ≠ [] := by
    rintro rfl
    have := hp.symm.eq_nil
    simp at this
    exact hcne this
  have hA : (combiningSum arrays).Same (combiningSum ((Is ×ˢ Js).map A)) := (combiningSum_perm hp).trans hsum
  obtain ⟨r, h1, h2⟩ := concatArrays_same fill hane hgrid' (by
    intro d hd
    have e1 : d ∈ (combiningSum arrays).dims := by
      rw [combiningSum_dims_of_same hane hgrid'.dims]; exact hd
    have := hA.coords d e1
    rw [combiningSum_coords _ _ e1, combiningSum_coords _ _ (hA.dims ▸ e1)] at this
    rw [this]
    exact hcells d hd)
  exact ⟨r, h1, h2.trans hA⟩

end Core
end WBX
