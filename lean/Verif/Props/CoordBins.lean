import Verif.Props.Regions
import Verif.Props.Chunking

/-!
# C42: bins by exact value, by interval and by set; C43: land and sea
-/

set_option linter.unusedSectionVars false

namespace WBX
open DA
variable {L K V : Type} [DecidableEq L] [Field K] [LinearOrder K] [IsStrictOrderedRing K] [FloorRing K]

/-! ### Values of a coordinate -/

/-- The unique values of a coordinate are the values of its cells. -/
theorem mem_uniqueValues [Inhabited L] {coord : DA L L} (hwf : coord.WF) {l : L} : l ∈ uniqueValues coord ↔ ∃ e, coord.InDom e ∧ coord.val e = l := by
  unfold uniqueValues
  rw [Finset.mem_image]
  constructor
  · rintro ⟨p, hp, rfl⟩
    rw [Finset.mem_pi] at hp
    refine ⟨_, fun d hd => ?_, rfl⟩
    simp only [hd, dif_pos]
    exact hp d hd
  · rintro ⟨e, he, rfl⟩
    refine ⟨fun d _ => e d, Finset.mem_pi.mpr (fun d hd => he d hd), hwf _ _ (fun d hd => ?_)⟩
    simp [hd]

theorem wf_setLabel {W : Type} {a : DA L W} (hwf : a.WF) {d : Dim} (hd : d ∉ a.dims) (e : Dim → L) (l : L) : a.val (setLabel e d l) = a.val e :=
  hwf _ _ (fun d' hd' => setLabel_other e (fun h : d' = d => hd (h ▸ hd')) l)

section
variable [Inhabited L] {name : Dim} {str : L → L} {stat : DA L V} {coord : DA L L} {r : DA L Bool}

/-- **C42** `ByExactCoord`: the bins are the values of the coordinate in the data, and a cell is in the bin `l` iff its coordinate value is `l`. -/
theorem C42_exact (hwf : coord.WF) (h : exactCoordMask name none str stat coord = .ok r) :
    (∀ l, l ∈ r.coords name ↔ ∃ e, coord.InDom e ∧ coord.val e = l) ∧ ∀ e, r.val e = true ↔ coord.val e = e name := by
  unfold exactCoordMask at h
  split at h
  · simp at h
  · simp only [Except.ok.injEq] at h
    subst h
    refine ⟨fun l => ?_, fun e => by simp [coordMask]⟩
    simp only [coordMask, if_pos]
    exact mem_uniqueValues hwf

/-- **C42** Every cell is in exactly one bin. -/
theorem C42_exact_one_hot (hwf : coord.WF) (hd : name ∉ coord.dims) (h : exactCoordMask name none str stat coord = .ok r) {e : Dim → L} (he : coord.InDom e) :
    ∃! l, l ∈ r.coords name ∧ r.val (setLabel e name l) = true := by
  obtain ⟨h1, h2⟩ := C42_exact hwf h
  refine ⟨coord.val e, ⟨(h1 _).mpr ⟨e, he, rfl⟩, ?_⟩, ?_⟩
  · rw [h2, wf_setLabel hwf hd, setLabel_same]
  · rintro l ⟨-, hl⟩
    rw [h2, wf_setLabel hwf hd, setLabel_same] at hl
    exact hl.symm

/-- **C42** With `add_global_bin` there is one more bin, which contains everything; the labels of the others are converted to strings. -/
theorem C42_exact_global (hwf : coord.WF) {g : L} (h : exactCoordMask name (some g) str stat coord = .ok r) :
    (∀ l, l ∈ r.coords name ↔ l = g ∨ ∃ e, coord.InDom e ∧ str (coord.val e) = l) ∧ (∀ e, e name = g → r.val e = true) ∧
    ∀ e, e name ≠ g → (r.val e = true ↔ str (coord.val e) = e name) := by
  unfold exactCoordMask at h
  split at h
  · simp at h
  · simp only [Except.ok.injEq] at h
    subst h
    refine ⟨fun l => ?_, fun e he => by simp [coordMask, he], fun e he => by simp [coordMask, he]⟩
    simp only [coordMask, if_pos, Finset.mem_insert, Finset.mem_image, mem_uniqueValues hwf]
    constructor
    · rintro (rfl | ⟨x, ⟨e, he, rfl⟩, rfl⟩)
      · exact .inl rfl
      · exact .inr ⟨e, he, rfl⟩
    · rintro (rfl | ⟨e, he, rfl⟩)
      · exact .inl rfl
      · exact .inr ⟨_, ⟨e, he, rfl⟩, rfl⟩

/-- **C42** `ByExactCoord` fails exactly if the coordinate is a dimension of the statistic. -/
theorem C42_exact_error (g : Option L) : ((∃ r, exactCoordMask name g str stat coord = .ok r) ↔ name ∉ stat.dims) ∧
    (name ∈ stat.dims → exactCoordMask name g str stat coord = .error .assertionError) := by
  unfold exactCoordMask
  by_cases h : name ∈ stat.dims <;> simp [h]

/-- **C42** The bins of `ByExactCoord` found in the chunks of the data fit together: this is the condition under which aggregating the chunks gives the
aggregate of the whole (`C07_bins_varying_per_chunk`). `coordOf a` is the coordinate of the array `a`. -/
theorem C42_exact_chunks [Zero V] [One V] (g : Option L) (coordOf : DA L V → DA L L) {c : Dim} (hcn : c ≠ name)
    (hchunk : ∀ a S, c ∈ a.dims → coordOf (a.restrict c S) = (coordOf a).restrict c S) (hwf : ∀ a, (coordOf a).WF)
    (hlab : ∀ a, c ∈ (coordOf a).dims → (coordOf a).coords c = a.coords c) (hdim : ∀ a, name ∉ (coordOf a).dims) :
    ChunkwiseBin c { binDim := name, createBinMask := fun a => toFactor (coordMask name g str (coordOf a)) } := by
  intro a hca
  have hwfS : ∀ S, ((coordOf a).restrict c S).WF := fun S => hwf a
  -- values of a chunk
  have hsub : ∀ S l, l ∈ uniqueValues ((coordOf a).restrict c S) → l ∈ uniqueValues (coordOf a) := by
    intro S l hl
    obtain ⟨e, he, rfl⟩ := (mem_uniqueValues (hwfS S)).mp hl
    refine (mem_uniqueValues (hwf a)).mpr ⟨e, fun d hd => ?_, rfl⟩
    have := he d hd
    simp only [restrict] at this
    split at this
    · exact (Finset.mem_inter.mp this).1
    · exact this
  have hin : ∀ S (e : Dim → L), (coordOf a).InDom e → e c ∈ S → (coordOf a).val e ∈ uniqueValues ((coordOf a).restrict c S) := by
    intro S e he hS
    refine (mem_uniqueValues (hwfS S)).mpr ⟨e, fun d hd => ?_, rfl⟩
    simp only [restrict]
    split
    · next h => subst h; exact Finset.mem_inter.mpr ⟨he d hd, hS⟩
    · exact he d hd
  have hpart : ∀ Ss : List (Finset L), Ss ≠ [] → Partition Ss (a.coords c) → ∀ l ∈ uniqueValues (coordOf a), ∃ S ∈ Ss, l ∈ uniqueValues ((coordOf a).restrict c S) := by
    intro Ss hne hp l hl
    obtain ⟨e, he, rfl⟩ := (mem_uniqueValues (hwf a)).mp hl
    by_cases hc : c ∈ (coordOf a).dims
    · obtain ⟨S, hS, hm⟩ := hp.2 (e c) (hlab a hc ▸ he c hc)
      exact ⟨S, hS, hin S e he hm⟩
    · obtain ⟨S, hS⟩ := List.exists_mem_of_ne_nil Ss hne
      refine ⟨S, hS, (mem_uniqueValues (hwfS S)).mpr ⟨e, fun d hd => ?_, rfl⟩⟩
      simp only [restrict]
      rw [if_neg (fun h : d = c => hc (h ▸ hd))]
      exact he d hd
  cases g with
  | none =>
    refine ⟨by simp [toFactor, DA.map, coordMask], fun S => uniqueValues ((coordOf a).restrict c S), fun S => ?_, fun S e he hS _ hT => ?_, fun Ss hne hp l hl => ?_⟩
    · dsimp only
      rw [hchunk a S hca]
      refine ⟨rfl, fun d hd => ?_, fun e _ => rfl⟩
      simp only [toFactor, DA.map, coordMask, restrict]
      by_cases h1 : d = name
      · subst h1
        simp only [if_pos, if_neg hcn.symm]
        exact (Finset.inter_eq_right.mpr (fun l hl => hsub S l hl)).symm
      · simp [h1]
    · simp only [toFactor, DA.map, coordMask, decide_eq_true_eq]
      rw [if_neg]
      intro heq
      refine hT ?_
      simp only at heq ⊢
      rw [← heq]
      refine hin S e (fun d hd => ?_) hS
      have := he d (by simp [toFactor, DA.map, coordMask, hd])
      simpa [toFactor, DA.map, coordMask, show d ≠ name from fun h => hdim a (h ▸ hd)] using this
    · refine hpart Ss hne hp l ?_
      simpa [toFactor, DA.map, coordMask] using hl
  | some g =>
    refine ⟨by simp [toFactor, DA.map, coordMask], fun S => insert g ((uniqueValues ((coordOf a).restrict c S)).image str), fun S => ?_, fun S e he hS _ hT => ?_, fun Ss hne hp l hl => ?_⟩
    · dsimp only
      rw [hchunk a S hca]
      refine ⟨rfl, fun d hd => ?_, fun e _ => rfl⟩
      simp only [toFactor, DA.map, coordMask, restrict]
      by_cases h1 : d = name
      · subst h1
        simp only [if_pos, if_neg hcn.symm]
        exact (Finset.inter_eq_right.mpr (Finset.insert_subset_insert _ (Finset.image_subset_image (fun l hl => hsub S l hl)))).symm
      · simp [h1]
    · have hg : e name ≠ g := fun h => hT (by rw [h]; simp)
      simp only [toFactor, DA.map, coordMask, if_neg hg, decide_eq_true_eq]
      rw [if_neg]
      intro heq
      refine hT (Finset.mem_insert_of_mem (Finset.mem_image.mpr ⟨(coordOf a).val e, hin S e (fun d hd => ?_) hS, heq⟩))
      have := he d (by simp [toFactor, DA.map, coordMask, hd])
      simpa [toFactor, DA.map, coordMask, show d ≠ name from fun h => hdim a (h ▸ hd)] using this
    · simp only [toFactor, DA.map, coordMask, if_pos, Finset.mem_insert, Finset.mem_image] at hl
      rcases hl with rfl | ⟨x, hx, rfl⟩
      · obtain ⟨S, hS⟩ := List.exists_mem_of_ne_nil Ss hne
        exact ⟨S, hS, by simp⟩
      · obtain ⟨S, hS, hm⟩ := hpart Ss hne hp x hx
        exact ⟨S, hS, Finset.mem_insert_of_mem (Finset.mem_image_of_mem _ hm)⟩

end

/-! ### Intervals -/

/-- Among the intervals between successive increasing edges, exactly one contains a number between the first and the last edge. -/
theorem interval_unique : (ts : List K) → ts.Pairwise (· < ·) → (x : K) →
    ((∃ p ∈ ts.zip ts.tail, p.1 ≤ x ∧ x < p.2) ↔ ∃ lo hi, ts.head? = some lo ∧ ts.getLast? = some hi ∧ lo ≤ x ∧ x < hi) ∧
    ∀ p ∈ ts.zip ts.tail, ∀ q ∈ ts.zip ts.tail, p.1 ≤ x → x < p.2 → q.1 ≤ x → x < q.2 → p = q
  | [], _, x => by simp
  | [a], _, x => by
    simp only [List.tail_cons, List.zip_nil_right, List.not_mem_nil, false_and, exists_false, false_iff, List.head?_cons, List.getLast?_singleton, Option.some.injEq]
    refine ⟨?_, by simp⟩
    rintro ⟨lo, hi, rfl, rfl, h1, h2⟩
    exact absurd h1 (not_le.mpr h2)
  | a :: b :: l, h, x => by
    obtain ⟨i1, i2⟩ := interval_unique (b :: l) (List.Pairwise.of_cons h) x
    have hab : a < b := (List.pairwise_cons.mp h).1 b (by simp)
    have hz : (a :: b :: l).zip (a :: b :: l).tail = (a, b) :: (b :: l).zip (b :: l).tail := rfl
    -- later intervals begin at `b` or above
    have hlow : ∀ p ∈ (b :: l).zip (b :: l).tail, b ≤ p.1 := by
      intro p hp
      have hm := (List.of_mem_zip hp).1
      rcases List.mem_cons.mp hm with heq | hm
      · exact heq.ge
      · exact ((List.pairwise_cons.mp (List.Pairwise.of_cons h)).1 _ hm).le
    have hbl : ∀ hi, (b :: l).getLast? = some hi → b ≤ hi := by
      intro hi hh
      have hm := List.mem_of_getLast? hh
      rcases List.mem_cons.mp hm with rfl | hm
      · exact le_refl _
      · exact ((List.pairwise_cons.mp (List.Pairwise.of_cons h)).1 _ hm).le
    rw [hz]
    constructor
    · constructor
      · rintro ⟨p, hp, h1, h2⟩
        rcases List.mem_cons.mp hp with rfl | hp
        · obtain ⟨hi, hh⟩ : ∃ hi, (b :: l).getLast? = some hi := ⟨_, List.getLast?_eq_getLast_of_ne_nil (by simp)⟩
          exact ⟨a, hi, rfl, by rw [List.getLast?_cons_cons]; exact hh, h1, lt_of_lt_of_le h2 (hbl hi hh)⟩
        · obtain ⟨lo, hi, e1, e2, h3, h4⟩ := i1.mp ⟨p, hp, h1, h2⟩
          simp only [List.head?_cons, Option.some.injEq] at e1
          subst e1
          exact ⟨a, hi, rfl, by rw [List.getLast?_cons_cons]; exact e2, hab.le.trans h3, h4⟩
      · rintro ⟨lo, hi, e1, e2, h3, h4⟩
        simp only [List.head?_cons, Option.some.injEq] at e1
        subst e1
        rcases lt_or_ge x b with hx | hx
        · exact ⟨(a, b), by simp, h3, hx⟩
        · rw [List.getLast?_cons_cons] at e2
          obtain ⟨p, hp, h5⟩ := i1.mpr ⟨b, hi, rfl, e2, hx, h4⟩
          exact ⟨p, List.mem_cons_of_mem _ hp, h5⟩
    · intro p hp q hq p1 p2 q1 q2
      rcases List.mem_cons.mp hp with rfl | hp <;> rcases List.mem_cons.mp hq with rfl | hq
      · rfl
      · exact absurd ((hlow q hq).trans q1) (not_le.mpr p2)
      · exact absurd ((hlow p hp).trans p1) (not_le.mpr q2)
      · exact i2 p hp q hq p1 p2 q1 q2

section
variable {name : Dim} {number : K → L} {edges : List K} {stat : DA L V} {coord : DA L K} {r : DA L Bool}

theorem coordBinsMask_ok {g : Option L} (h : coordBinsMask name number g edges stat coord = .ok r) (hne : coordBins number g edges coord ≠ []) :
    concatBins name (coordBins number g edges coord) = .ok r := by
  unfold coordBinsMask at h
  split at h
  · simp at h
  · split at h
    · next heq => exact absurd heq hne
    · next heq => rw [heq]; exact h

/-- The left edges are a sublist of the edges. -/
theorem zip_tail_nodup {α : Type} {l : List α} (h : l.Nodup) : ((l.zip l.tail).map Prod.fst).Nodup := by
  have hsub : ∀ (l m : List α), ((l.zip m).map Prod.fst).Sublist l := by
    intro l
    induction l with
    | nil => simp
    | cons a l ih =>
      intro m
      cases m with
      | nil => simp
      | cons b m => simpa using ih m
  exact (hsub _ _).nodup h

/-- **C42** `ByCoordBins`: the bin between two successive edges is labelled by the left edge and contains the cells whose coordinate is at or above the left
and below the right edge. -/
theorem C42_intervals (hinc : edges.Pairwise (· < ·)) (hnum : Function.Injective number) (h2 : 2 ≤ edges.length)
    (h : coordBinsMask name number none edges stat coord = .ok r) :
    (∀ l, l ∈ r.coords name ↔ ∃ p ∈ edges.zip edges.tail, l = number p.1) ∧
    ∀ p ∈ edges.zip edges.tail, ∀ e : Dim → L, e name = number p.1 → (r.val e = true ↔ p.1 ≤ coord.val e ∧ coord.val e < p.2) := by
  have hne : coordBins number none edges coord ≠ [] := by
    match edges, h2 with
    | a :: b :: l, _ => simp [coordBins]
  have hc := coordBinsMask_ok h hne
  have hl : (coordBins number none edges coord).map Prod.fst = ((edges.zip edges.tail).map Prod.fst).map number := by
    simp [coordBins, List.map_map, Function.comp_def]
  refine ⟨fun l => ?_, fun p hp e he => ?_⟩
  · rw [(concatBins_ok hc).2.1, hl, List.mem_toFinset, List.map_map, List.mem_map]
    exact ⟨fun ⟨p, hp, h⟩ => ⟨p, hp, h.symm⟩, fun ⟨p, hp, h⟩ => ⟨p, hp, h.symm⟩⟩
  · rw [concatBins_val hc (by rw [hl]; exact List.Nodup.map hnum (zip_tail_nodup (hinc.imp (fun h => h.ne)))) (l := number p.1)
      (m := coord.map (fun x => decide (p.1 ≤ x) && decide (x < p.2))) (by simp only [coordBins, List.append_nil, List.mem_map]; exact ⟨p, hp, rfl⟩) he]
    simp [DA.map]

/-- **C42** A cell whose coordinate lies between the outer edges (the last one excluded) is in exactly one bin; any other cell in none. -/
theorem C42_intervals_one_hot (hinc : edges.Pairwise (· < ·)) (hnum : Function.Injective number) (hwf : coord.WF) (hd : name ∉ coord.dims) {lo hi : K}
    (hlo : edges.head? = some lo) (hhi : edges.getLast? = some hi) (h2 : 2 ≤ edges.length)
    (h : coordBinsMask name number none edges stat coord = .ok r) (e : Dim → L) :
    (lo ≤ coord.val e ∧ coord.val e < hi → ∃! l, l ∈ r.coords name ∧ r.val (setLabel e name l) = true) ∧
    (¬ (lo ≤ coord.val e ∧ coord.val e < hi) → ∀ l ∈ r.coords name, r.val (setLabel e name l) = false) := by
  obtain ⟨h3, h4⟩ := C42_intervals hinc hnum h2 h
  obtain ⟨i1, i2⟩ := interval_unique edges hinc (coord.val e)
  have h5 : ∀ p ∈ edges.zip edges.tail, (r.val (setLabel e name (number p.1)) = true ↔ p.1 ≤ coord.val e ∧ coord.val e < p.2) := by
    intro p hp
    rw [h4 p hp _ (setLabel_same _ _ _), wf_setLabel hwf hd]
  constructor
  · rintro ⟨x1, x2⟩
    obtain ⟨p, hp, hpx⟩ := i1.mpr ⟨lo, hi, hlo, hhi, x1, x2⟩
    refine ⟨number p.1, ⟨(h3 _).mpr ⟨p, hp, rfl⟩, (h5 p hp).mpr hpx⟩, ?_⟩
    rintro l ⟨hl, hv⟩
    obtain ⟨q, hq, rfl⟩ := (h3 l).mp hl
    obtain ⟨q1, q2⟩ := (h5 q hq).mp hv
    rw [i2 p hp q hq hpx.1 hpx.2 q1 q2]
  · intro hx l hl
    obtain ⟨p, hp, rfl⟩ := (h3 l).mp hl
    rw [← Bool.not_eq_true, h5 p hp]
    intro hpx
    obtain ⟨lo', hi', e1, e2, x1, x2⟩ := i1.mp ⟨p, hp, hpx⟩
    rw [hlo, Option.some.injEq] at e1
    rw [hhi, Option.some.injEq] at e2
    subst e1 e2
    exact hx ⟨x1, x2⟩

/-- **C42** The global bin of `ByCoordBins` contains everything, and the other bins are as without it. -/
theorem C42_intervals_global {g : L} (hinc : edges.Pairwise (· < ·)) (hnum : Function.Injective number) (hg : ∀ x, number x ≠ g)
    (h : coordBinsMask name number (some g) edges stat coord = .ok r) :
    (∀ e : Dim → L, e name = g → r.val e = true) ∧
    ∀ p ∈ edges.zip edges.tail, ∀ e : Dim → L, e name = number p.1 → (r.val e = true ↔ p.1 ≤ coord.val e ∧ coord.val e < p.2) := by
  have hc := coordBinsMask_ok h (by simp [coordBins])
  have hl : (coordBins number (some g) edges coord).map Prod.fst = ((edges.zip edges.tail).map Prod.fst).map number ++ [g] := by
    simp [coordBins, List.map_map, Function.comp_def]
  have hn : ((coordBins number (some g) edges coord).map Prod.fst).Nodup := by
    rw [hl, List.nodup_append]
    refine ⟨List.Nodup.map hnum (zip_tail_nodup (hinc.imp (fun h => h.ne))), by simp, ?_⟩
    intro l hl l' hl'
    obtain ⟨x, -, rfl⟩ := List.mem_map.mp hl
    rw [List.mem_singleton] at hl'
    subst hl'
    exact hg x
  refine ⟨fun e he => ?_, fun p hp e he => ?_⟩
  · rw [concatBins_val hc hn (l := g) (m := coord.map (fun _ => true)) (by simp [coordBins]) he]
    rfl
  · rw [concatBins_val hc hn (l := number p.1)
      (m := coord.map (fun x => decide (p.1 ≤ x) && decide (x < p.2))) (by simp only [coordBins]; exact List.mem_append_left _ (List.mem_map.mpr ⟨p, hp, rfl⟩)) he]
    simp [DA.map]

/-- **C42** `ByCoordBins` fails exactly if the coordinate is a dimension of the statistic; with fewer than two edges (and no global bin) there are no bins. -/
theorem C42_intervals_error (g : Option L) : ((∃ r, coordBinsMask name number g edges stat coord = .ok r) ↔ name ∉ stat.dims) ∧
    (name ∈ stat.dims → coordBinsMask name number g edges stat coord = .error .valueError) ∧
    (edges.length < 2 → ∀ r, coordBinsMask name number none edges stat coord = .ok r → r.coords name = ∅) := by
  refine ⟨⟨?_, fun h => ?_⟩, fun h => by unfold coordBinsMask; rw [if_pos h], fun hlen r hr => ?_⟩
  · rintro ⟨r, hr⟩ h
    unfold coordBinsMask at hr
    rw [if_pos h] at hr
    simp at hr
  · unfold coordBinsMask
    rw [if_neg h]
    cases coordBins number g edges coord with
    | nil => exact ⟨_, rfl⟩
    | cons m ms => exact concatBins_exists _ (by simp)
  · have : coordBins number none edges coord = [] := by
      match edges, hlen with
      | [], _ => simp [coordBins]
      | [a], _ => simp [coordBins]
    unfold coordBinsMask at hr
    split at hr
    · simp at hr
    · rw [this] at hr
      simp only [Except.ok.injEq] at hr
      subst hr
      simp

end

/-! ### Sets -/

section
variable {binDim : Dim} {coordName : Dim} {sets : List (L × List L)} {notIn : L → L} {coord : DA L L} {r : DA L Bool}

/-- The labels of the bins of `BySets`. -/
def setLabels (sets : List (L × List L)) (complements : Bool) (notIn : L → L) (g : Option L) : List L :=
  sets.flatMap (fun s => s.1 :: (if complements then [notIn s.1] else [])) ++ g.toList

theorem setBins_labels (complements : Bool) (g : Option L) : (setBins sets complements notIn g coord).map Prod.fst = setLabels sets complements notIn g := by
  unfold setBins setLabels
  rw [List.map_append, List.map_flatMap]
  congr 1
  · congr 1
    funext s
    cases complements <;> simp
  · cases g <;> simp

/-- **C42** `BySets`: a cell is in the bin of a set iff its coordinate is in the set, in the bin of the complement iff it is not, and always in the global bin. -/
theorem C42_sets {complements : Bool} {g : Option L} (hn : (setLabels sets complements notIn g).Nodup)
    (h : setsMask (some binDim) coordName sets complements notIn g coord = .ok r) :
    r.coords binDim = (setLabels sets complements notIn g).toFinset ∧
    (∀ s ∈ sets, ∀ e : Dim → L, (e binDim = s.1 → (r.val e = true ↔ coord.val e ∈ s.2)) ∧
      (complements = true → e binDim = notIn s.1 → (r.val e = true ↔ coord.val e ∉ s.2))) ∧
    ∀ g', g = some g' → ∀ e : Dim → L, e binDim = g' → r.val e = true := by
  unfold setsMask at h
  simp only at h
  split at h
  · simp at h
  · have hl := setBins_labels (sets := sets) (notIn := notIn) (coord := coord) complements g
    refine ⟨by rw [(concatBins_ok h).2.1, hl], fun s hs e => ⟨fun he => ?_, fun hcomp he => ?_⟩, ?_⟩
    · rw [concatBins_val h (by rw [hl]; exact hn) (l := s.1) (m := coord.map (fun x => decide (x ∈ s.2)))
        (List.mem_append_left _ (List.mem_flatMap.mpr ⟨s, hs, by simp⟩)) he]
      simp [DA.map]
    · rw [concatBins_val h (by rw [hl]; exact hn) (l := notIn s.1) (m := coord.map (fun x => !decide (x ∈ s.2)))
        (List.mem_append_left _ (List.mem_flatMap.mpr ⟨s, hs, by simp [hcomp]⟩)) he]
      simp [DA.map]
    · rintro g' rfl e he
      rw [concatBins_val h (by rw [hl]; exact hn) (l := g') (m := coord.map (fun _ => true))
        (List.mem_append_right _ (by simp)) he]
      rfl

/-- **C42** `BySets` needs a bin dimension other than the coordinate, and at least one bin. -/
theorem C42_sets_error {complements : Bool} {g : Option L} (b : Option Dim) :
    ((∃ r, setsMask b coordName sets complements notIn g coord = .ok r) ↔ (∃ d, b = some d ∧ d ≠ coordName) ∧ (sets ≠ [] ∨ g ≠ none)) ∧
    ∀ err, setsMask b coordName sets complements notIn g coord = .error err → err = .valueError := by
  have hnil : setBins sets complements notIn g coord = [] ↔ sets = [] ∧ g = none := by
    unfold setBins
    rw [List.append_eq_nil_iff]
    constructor
    · rintro ⟨h1, h2⟩
      constructor
      · cases sets with
        | nil => rfl
        | cons s ss => simp at h1
      · cases g <;> simp_all
    · rintro ⟨rfl, rfl⟩; simp
  cases b with
  | none => simp [setsMask]
  | some d =>
    by_cases hd : d = coordName
    · simp [setsMask, hd]
    · unfold setsMask
      simp only [if_neg hd]
      refine ⟨⟨?_, ?_⟩, fun err he => (concatBins_error he).2⟩
      · rintro ⟨r, hr⟩
        refine ⟨⟨d, rfl, hd⟩, ?_⟩
        by_contra hcon
        push Not at hcon
        rw [hnil.mpr hcon] at hr
        simp [concatBins] at hr
      · rintro ⟨-, h⟩
        refine concatBins_exists _ (fun hc => ?_)
        obtain ⟨h1, h2⟩ := hnil.mp hc
        rcases h with h | h
        · exact h h1
        · exact h h2

end

/-! ### Land and sea -/

section
variable {binDim : Dim} {fraction : DA L (FV K)} {threshold : FV K} {label : String → L} {g : Bool} {r : DA L Bool}

theorem landSea_labels_nodup (hlab : label "land" ≠ label "sea" ∧ label "land" ≠ label "global" ∧ label "sea" ≠ label "global") :
    ((landSeaBins fraction threshold label g).map Prod.fst).Nodup := by
  obtain ⟨h1, h2, h3⟩ := hlab
  cases g <;> simp [landSeaBins, h1, h2, h3]

/-- **C43** A point is in the land bin iff its land fraction is at or above the threshold, and in the sea bin iff it is not in the land bin: every point is in
exactly one of the two. The global bin contains every point. -/
theorem C43_land_sea (hlab : label "land" ≠ label "sea" ∧ label "land" ≠ label "global" ∧ label "sea" ≠ label "global")
    (h : landSeaMask binDim fraction threshold label g = .ok r) (e : Dim → L) :
    (e binDim = label "land" → r.val e = FV.le threshold (fraction.val e)) ∧ (e binDim = label "sea" → r.val e = !FV.le threshold (fraction.val e)) ∧
    (g = true → e binDim = label "global" → r.val e = true) := by
  have hn := landSea_labels_nodup (fraction := fraction) (threshold := threshold) (g := g) hlab
  unfold landSeaMask at h
  refine ⟨fun he => ?_, fun he => ?_, fun hg he => ?_⟩
  · rw [concatBins_val h hn (l := label "land") (m := fraction.map (fun x => FV.le threshold x)) (by simp [landSeaBins]) he]
    rfl
  · rw [concatBins_val h hn (l := label "sea") (m := (fraction.map (fun x => FV.le threshold x)).map (!·)) (by simp [landSeaBins]) he]
    rfl
  · subst hg
    rw [concatBins_val h hn (l := label "global") (m := (fraction.map (fun x => FV.le threshold x)).map (fun _ => true)) (by simp [landSeaBins]) he]
    rfl

/-- **C43** As factors, land and sea add up to one — to the global bin — at every point. -/
theorem C43_partition (hlab : label "land" ≠ label "sea" ∧ label "land" ≠ label "global" ∧ label "sea" ≠ label "global")
    (hwf : fraction.WF) (hd : binDim ∉ fraction.dims) (h : landSeaMask binDim fraction threshold label true = .ok r) (e : Dim → L) :
    (toFactor r : DA L K).val (setLabel e binDim (label "land")) + (toFactor r : DA L K).val (setLabel e binDim (label "sea")) = 1 ∧
    (toFactor r : DA L K).val (setLabel e binDim (label "global")) = 1 := by
  have h1 := (C43_land_sea hlab h (setLabel e binDim (label "land"))).1 (setLabel_same _ _ _)
  have h2 := (C43_land_sea hlab h (setLabel e binDim (label "sea"))).2.1 (setLabel_same _ _ _)
  have h3 := (C43_land_sea hlab h (setLabel e binDim (label "global"))).2.2 rfl (setLabel_same _ _ _)
  rw [wf_setLabel hwf hd] at h1 h2
  simp only [toFactor, DA.map, h1, h2, h3]
  cases FV.le threshold (fraction.val e) <;> simp

/-- **C43** (finding) A point whose land fraction is missing counts as sea. -/
theorem C43_nan_is_sea (hlab : label "land" ≠ label "sea" ∧ label "land" ≠ label "global" ∧ label "sea" ≠ label "global")
    (h : landSeaMask binDim fraction threshold label g = .ok r) (e : Dim → L) (hnan : fraction.val e = .nan) :
    (e binDim = label "land" → r.val e = false) ∧ (e binDim = label "sea" → r.val e = true) := by
  obtain ⟨h1, h2, -⟩ := C43_land_sea hlab h e
  have hle : FV.le threshold (.nan : FV K) = false := by cases threshold <;> rfl
  rw [hnan, hle] at h1 h2
  exact ⟨h1, h2⟩

/-- **C43** The binning always succeeds; its labels are `land`, `sea` and, if wanted, `global`. -/
theorem C43_labels : ∃ r, landSeaMask binDim fraction threshold label g = .ok r ∧
    r.coords binDim = (if g then {label "land", label "sea", label "global"} else {label "land", label "sea"}) := by
  obtain ⟨r, hr⟩ := concatBins_exists (L := L) binDim (ms := landSeaBins fraction threshold label g) (by simp [landSeaBins])
  refine ⟨r, hr, ?_⟩
  rw [(concatBins_ok hr).2.1]
  cases g
  · ext l; simp [landSeaBins]
  · ext l; simp [landSeaBins]

end

/-! ### Chunks -/

/-- Bins that are functions of one coordinate: the bins of a chunk are the chunk of the bins. -/
theorem concatBins_restrict {W : Type} (d : Dim) {c : Dim} (hc : c ≠ d) (S : Finset L) (coord : DA L W) (fs : List (L × (W → Bool))) :
    concatBins d (fs.map (fun q => (q.1, (coord.restrict c S).map q.2))) = (concatBins d (fs.map (fun q => (q.1, coord.map q.2)))).map (DA.restrict c S) := by
  cases fs with
  | nil => rfl
  | cons q fs =>
    obtain ⟨l, f⟩ := q
    simp only [List.map_cons, concatBins, Except.map]
    congr 1
    have hfind : ∀ (co : DA L W) (x : L), findBin ((l, co.map f) :: fs.map (fun q => (q.1, co.map q.2))) x = (findBin ((l, f) :: fs) x).map co.map := by
      intro co x
      have : (l, co.map f) :: fs.map (fun q => (q.1, co.map q.2)) = ((l, f) :: fs).map (fun q => (q.1, co.map q.2)) := rfl
      rw [this]
      generalize (l, f) :: fs = gs
      unfold findBin
      rw [List.find?_map, Option.map_map, Option.map_map]
      rfl
    have hdims : ∀ gs : List (L × (W → Bool)), ((gs.map (fun q => (q.1, (coord.restrict c S).map q.2))).foldr (fun q s => q.2.dims ∪ s) ∅) =
        ((gs.map (fun q => (q.1, coord.map q.2))).foldr (fun q s => q.2.dims ∪ s) ∅) := by
      intro gs
      induction gs with
      | nil => rfl
      | cons q gs ih => simp only [List.map_cons, List.foldr_cons, ih]; rfl
    unfold DA.restrict
    congr 1
    · have := hdims ((l, f) :: fs)
      simp only [List.map_cons] at this
      rw [← this]
      rfl
    · funext k
      by_cases h1 : k = d
      · subst h1
        simp [hc.symm, Function.comp_def]
      · rw [if_neg h1]
        simp only [if_neg h1]
        rfl
    · funext e
      have h1 := hfind (coord.restrict c S) (e d)
      have h2 := hfind coord (e d)
      unfold DA.restrict at h1
      rw [h1]
      dsimp only
      rw [h2]
      cases findBin ((l, f) :: fs) (e d) <;> rfl

/-- **C41**/**C42** The masks of `LongitudeBins`, `ByCoordBins` and `BySets` on a chunk of the data are the chunk of the masks on all the data. -/
theorem C42_chunks {c binDim : Dim} (hc : c ≠ binDim) (S : Finset L) :
    (∀ (number : K → L) degrees range (lon : DA L K), longitudeBins binDim number degrees range (lon.restrict c S) =
      (longitudeBins binDim number degrees range lon).map (DA.restrict c S)) ∧
    (∀ (number : K → L) g edges (stat : DA L V) (coord : DA L K), coordBinsMask binDim number g edges (stat.restrict c S) (coord.restrict c S) =
      (coordBinsMask binDim number g edges stat coord).map (DA.restrict c S)) ∧
    (∀ coordName sets complements (notIn : L → L) g (coord : DA L L), setsMask (some binDim) coordName sets complements notIn g (coord.restrict c S) =
      (setsMask (some binDim) coordName sets complements notIn g coord).map (DA.restrict c S)) := by
  refine ⟨fun number degrees range lon => ?_, fun number g edges stat coord => ?_, fun coordName sets complements notIn g coord => ?_⟩
  · have := concatBins_restrict binDim hc S lon ((bandStarts range.1 (lonEnd range) degrees).map (fun start => (number (mod360 start), lonMask (start, start + degrees))))
    rw [List.map_map, List.map_map] at this
    exact this
  · have heq : ∀ co : DA L K, coordBins number g edges co = (((edges.zip edges.tail).map (fun q : K × K => (number q.1, fun x : K => decide (q.1 ≤ x) && decide (x < q.2)))) ++
        g.toList.map (fun g => (g, fun _ => true))).map (fun q : L × (K → Bool) => (q.1, co.map q.2)) := by
      intro co
      unfold coordBins
      rw [List.map_append, List.map_map, List.map_map]
      congr 1
      cases g <;> rfl
    unfold coordBinsMask
    by_cases hd : binDim ∈ stat.dims
    · rw [if_pos hd, if_pos (by exact hd)]; rfl
    · rw [if_neg hd, if_neg (by exact hd)]
      generalize hfs : ((edges.zip edges.tail).map (fun q : K × K => (number q.1, fun x : K => decide (q.1 ≤ x) && decide (x < q.2)))) ++ g.toList.map (fun g => (g, fun _ => true)) = fs at heq
      have := concatBins_restrict binDim hc S coord fs
      rw [heq, heq]
      cases fs with
      | nil =>
        simp only [List.map_nil, Except.map, DA.restrict]
        congr 2
        funext k
        by_cases h1 : k = binDim
        · subst h1; simp [hc.symm]
        · simp [h1]
      | cons q fs => exact this
  · have heq : ∀ co : DA L L, setBins sets complements notIn g co = ((sets.flatMap (fun s : L × List L => (s.1, fun x => decide (x ∈ s.2)) ::
        (if complements then [(notIn s.1, fun x => !decide (x ∈ s.2))] else []))) ++ g.toList.map (fun g => (g, fun _ => true))).map (fun q : L × (L → Bool) => (q.1, co.map q.2)) := by
      intro co
      unfold setBins
      rw [List.map_append, List.map_flatMap, List.map_map]
      congr 1
      · congr 1
        funext s
        cases complements <;> rfl
      · cases g <;> rfl
    unfold setsMask
    by_cases hd : binDim = coordName
    · simp [hd, Except.map]
    · simp only [if_neg hd]
      rw [heq, heq]
      exact concatBins_restrict binDim hc S coord _

/-! ### The hypotheses are met -/

/-- The lead times of five observations. -/
def exLead : DA ℕ ℕ := { dims := {"index"}, coords := fun _ => {0, 1, 2, 3, 4}, val := fun e => (e "index") % 2 }
def exSparse : DA ℕ ℚ := { dims := {"index"}, coords := fun _ => {0, 1, 2, 3, 4}, val := fun e => e "index" }

theorem exLead_wf : exLead.WF := fun e e' h => by simp [exLead, h "index" (by simp [exLead])]

example : ∃ r, exactCoordMask "lead_time" none id exSparse exLead = .ok r ∧ r.val (fun d => if d = "index" then 3 else 1) = true :=
  ⟨_, rfl, by simp [coordMask, exLead]⟩
/-- The coordinate of the chunks of a statistic with dimension `index`. -/
example : ChunkwiseBin (V := ℚ) "index" { binDim := "lead_time", createBinMask := fun a => toFactor (coordMask "lead_time" none id
    ({ dims := {"index"}, coords := a.coords, val := fun e => (e "index") % 2 } : DA ℕ ℕ)) } :=
  C42_exact_chunks none _ (by decide) (fun a S h => rfl) (fun a e e' h => by simp [h "index" (by simp)]) (fun a h => rfl) (fun a => by simp)
example : ([0, 1, 3] : List ℚ).Pairwise (· < ·) := by norm_num
example : ∃ r, coordBinsMask "depth" (id : ℚ → ℚ) none [0, 1, 3] ({ dims := {"index"}, coords := fun _ => {0, 1}, val := fun e => e "index" } : DA ℚ ℚ)
    ({ dims := {"index"}, coords := fun _ => {0, 1}, val := fun e => 2 * e "index" } : DA ℚ ℚ) = .ok r := ⟨_, rfl⟩
example : (setLabels [(0, [3, 4]), (1, [5])] true (· + 10) (some 100)).Nodup := by decide
example : ∃ r, setsMask (some "group") "station" [(0, [3, 4]), (1, [5])] true (· + 10) (some 100) exLead = .ok r := ⟨_, rfl⟩

end WBX
