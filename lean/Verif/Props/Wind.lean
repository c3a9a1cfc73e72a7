import Verif.Props.Deterministic

/-!
# C24 (wind vector errors)
-/

set_option linter.unusedSectionVars false

namespace WBX
open DA Aggregator
variable {L : Type} [DecidableEq L]

section
variable {K : Type} [Field K] [LinearOrder K] [IsStrictOrderedRing K]

/-- **C24** Constructing the statistic raises `ValueError` exactly when the three name lists differ in length. -/
theorem C24_construct (u v vector : List String) :
    ((∃ st, windVectorSquaredError (L := L) (K := K) u v vector = .ok st) ↔ u.length = v.length ∧ v.length = vector.length) ∧
    (¬ (u.length = v.length ∧ v.length = vector.length) →
      windVectorSquaredError (L := L) (K := K) u v vector = .error .valueError) := by
  unfold windVectorSquaredError windVectors
  by_cases h : u.length = v.length ∧ v.length = vector.length
  · simp [h, bind, Except.bind, pure, Except.pure]
  · simp [h, bind, Except.bind]

/-- Component `k` of the configured vectors is present on both sides. -/
def Present (p t : Vars (StatVar L (FV K))) (k : String) : Prop := (∃ a, (k, a) ∈ p) ∧ ∃ b, (k, b) ∈ t

/-- The array for a vector with components `u`, `v`. -/
def IsWindError (p t : Vars (StatVar L (FV K))) (u v : String) (s : StatVar L (FV K)) : Prop :=
  ∃ pu pv tu tv, (u, pu) ∈ p ∧ (v, pv) ∈ p ∧ (u, tu) ∈ t ∧ (v, tv) ∈ t ∧
    s = (squaredError pu tu).zipWith (· + ·) (squaredError pv tv)

theorem pyItem_ok_iff {β : Type} {d : List (String × β)} (hd : (d.map Prod.fst).Nodup) {k : String} {x : β} :
    pyItem d k = .ok x ↔ (k, x) ∈ d := by
  rw [← pyGet?_eq_some hd]
  unfold pyItem
  cases pyGet? k d <;> simp

theorem windLoop_spec (p t : Vars (StatVar L (FV K))) (hp : (p.map Prod.fst).Nodup) (ht : (t.map Prod.fst).Nodup) :
    (l : List (String × String × String)) → (out r : Vars (Option (StatVar L (FV K)))) → windLoop p t l out = .ok r →
    (l.map (fun x => x.2.2)).Nodup → (out.map Prod.fst).Nodup → (∀ x ∈ l, x.2.2 ∉ out.map Prod.fst) →
    r.map Prod.fst = out.map Prod.fst ++ l.map (fun x => x.2.2) ∧
    ∀ w o, (w, o) ∈ r ↔ (w, o) ∈ out ∨ ∃ u v s, (u, v, w) ∈ l ∧ o = some s ∧ IsWindError p t u v s
  | [], out, r, h, _, _, _ => by
    simp only [windLoop, Except.ok.injEq] at h
    subst h; simp
  | (u, v, w) :: l, out, r, h, hl, ho, hlo => by
    rw [windLoop] at h
    obtain ⟨pu, h1, h⟩ := bind_pair_ok _ _ _ h
    obtain ⟨pv, h2, h⟩ := bind_pair_ok _ _ _ h
    obtain ⟨tu, h3, h⟩ := bind_pair_ok _ _ _ h
    obtain ⟨tv, h4, h⟩ := bind_pair_ok _ _ _ h
    rw [pyItem_ok_iff hp] at h1 h2
    rw [pyItem_ok_iff ht] at h3 h4
    have hw : w ∉ out.map Prod.fst := hlo (u, v, w) (by simp)
    have hins : ∀ x : Option (StatVar L (FV K)), pyInsert w x out = out ++ [(w, x)] := by
      intro x
      have : ∀ (o : Vars (Option (StatVar L (FV K)))), w ∉ o.map Prod.fst → pyInsert w x o = o ++ [(w, x)] := by
        intro o
        induction o with
        | nil => intro _; rfl
        | cons a o ih =>
          intro hh
          simp only [List.map_cons, List.mem_cons, not_or] at hh
          obtain ⟨k, y⟩ := a
          simp only [pyInsert, List.cons_append]
          rw [if_neg (fun hk => hh.1 hk.symm), ih hh.2]
      exact this out hw
    rw [hins] at h
    simp only [List.map_cons, List.nodup_cons] at hl
    obtain ⟨g1, g2⟩ := windLoop_spec p t hp ht l _ r h hl.2 (by
      rw [List.map_append, List.nodup_append]
      refine ⟨ho, by simp, ?_⟩
      intro a ha b hb
      simp at hb
      subst hb
      rintro rfl; exact hw ha) (by
      intro x hx
      rw [List.map_append, List.mem_append, not_or]
      refine ⟨hlo x (by simp [hx]), ?_⟩
      simp only [List.map_cons, List.map_nil, List.mem_singleton]
      intro hxw
      exact hl.1 (List.mem_map.mpr ⟨x, hx, hxw⟩))
    refine ⟨by rw [g1]; simp, ?_⟩
    intro w' o
    rw [g2]
    simp only [List.mem_append, Prod.mk.injEq, List.mem_cons, List.not_mem_nil, or_false]
    constructor
    · rintro ((h | ⟨rfl, rfl⟩) | ⟨u', v', s, hm, ho', hs⟩)
      · exact .inl h
      · exact .inr ⟨u, v, _, .inl ⟨rfl, rfl, rfl⟩, rfl, pu, pv, tu, tv, h1, h2, h3, h4, rfl⟩
      · exact .inr ⟨u', v', s, .inr hm, ho', hs⟩
    · rintro (h | ⟨u', v', s, ⟨rfl, rfl, rfl⟩ | hm, ho', hs⟩)
      · exact .inl (.inl h)
      · obtain ⟨pu', pv', tu', tv', k1, k2, k3, k4, hs⟩ := hs
        have e1 := (pyItem_ok_iff hp).mpr h1; rw [(pyItem_ok_iff hp).mpr k1] at e1
        have e2 := (pyItem_ok_iff hp).mpr h2; rw [(pyItem_ok_iff hp).mpr k2] at e2
        have e3 := (pyItem_ok_iff ht).mpr h3; rw [(pyItem_ok_iff ht).mpr k3] at e3
        have e4 := (pyItem_ok_iff ht).mpr h4; rw [(pyItem_ok_iff ht).mpr k4] at e4
        simp only [Except.ok.injEq] at e1 e2 e3 e4
        subst e1 e2 e3 e4
        exact .inl (.inr ⟨rfl, by rw [ho', hs]; rfl⟩)
      · exact .inr ⟨u', v', s, hm, ho', hs⟩

theorem pyItem_cases {β : Type} (d : List (String × β)) (k : String) :
    (∃ x, pyItem d k = .ok x ∧ (k, x) ∈ d) ∨ (pyItem d k = .error .keyError ∧ ∀ x, (k, x) ∉ d) := by
  unfold pyItem
  cases h : pyGet? k d with
  | some x => exact .inl ⟨x, rfl, pyGet?_mem h⟩
  | none =>
    right
    refine ⟨rfl, fun x hx => ?_⟩
    have := (pyGet?_none_iff (l := d) (k := k)).mp h
    exact this (List.mem_map.mpr ⟨_, hx, rfl⟩)

theorem windLoop_total (p t : Vars (StatVar L (FV K))) :
    (l : List (String × String × String)) → (out : Vars (Option (StatVar L (FV K)))) →
    ((∀ x ∈ l, Present p t x.1 ∧ Present p t x.2.1) → ∃ r, windLoop p t l out = .ok r) ∧
    (¬ (∀ x ∈ l, Present p t x.1 ∧ Present p t x.2.1) → windLoop p t l out = .error .keyError)
  | [], out => by simp [windLoop]
  | (u, v, w) :: l, out => by
    rw [windLoop]
    rcases pyItem_cases p u with ⟨pu, h1, m1⟩ | ⟨h1, n1⟩
    swap
    · rw [h1]
      refine ⟨fun h => ?_, fun _ => rfl⟩
      obtain ⟨a, ha⟩ := (h (u, v, w) (by simp)).1.1
      exact absurd ha (n1 a)
    rcases pyItem_cases p v with ⟨pv, h2, m2⟩ | ⟨h2, n2⟩
    swap
    · rw [h1, h2]
      refine ⟨fun h => ?_, fun _ => rfl⟩
      obtain ⟨a, ha⟩ := (h (u, v, w) (by simp)).2.1
      exact absurd ha (n2 a)
    rcases pyItem_cases t u with ⟨tu, h3, m3⟩ | ⟨h3, n3⟩
    swap
    · rw [h1, h2, h3]
      refine ⟨fun h => ?_, fun _ => rfl⟩
      obtain ⟨a, ha⟩ := (h (u, v, w) (by simp)).1.2
      exact absurd ha (n3 a)
    rcases pyItem_cases t v with ⟨tv, h4, m4⟩ | ⟨h4, n4⟩
    swap
    · rw [h1, h2, h3, h4]
      refine ⟨fun h => ?_, fun _ => rfl⟩
      obtain ⟨a, ha⟩ := (h (u, v, w) (by simp)).2.2
      exact absurd ha (n4 a)
    rw [h1, h2, h3, h4]
    obtain ⟨g1, g2⟩ := windLoop_total p t l (pyInsert w
      (some (((pu.zipWith (· - ·) tu).map FV.sq).zipWith (· + ·) ((pv.zipWith (· - ·) tv).map FV.sq))) out)
    refine ⟨fun h => g1 (fun x hx => h x (by simp [hx])), fun h => g2 (fun hh => h ?_)⟩
    intro x hx
    rcases List.mem_cons.mp hx with rfl | hx
    · exact ⟨⟨⟨_, m1⟩, _, m3⟩, ⟨_, m2⟩, _, m4⟩
    · exact hh x hx

/-- **C24** For distinct vector names the result has exactly the configured vectors, each with the sum of the squared errors
of its two components. -/
theorem C24_statistic {u v vector : List String} {st} (hst : windVectorSquaredError (L := L) (K := K) u v vector = .ok st)
    (hvec : vector.Nodup) (p t : Vars (StatVar L (FV K))) (hp : (p.map Prod.fst).Nodup) (ht : (t.map Prod.fst).Nodup)
    {r} (hr : st.compute p t = .ok r) :
    r.map Prod.fst = vector ∧
    ∀ w o, (w, o) ∈ r ↔ ∃ (i : ℕ) (s : StatVar L (FV K)), vector[i]? = some w ∧ o = some s ∧
      ∃ cu cv, u[i]? = some cu ∧ v[i]? = some cv ∧ IsWindError p t cu cv s := by
  unfold windVectorSquaredError windVectors at hst
  by_cases h : u.length = v.length ∧ v.length = vector.length
  swap
  · simp [h, bind, Except.bind] at hst
  simp only [h, and_self, if_true, bind, Except.bind, pure, Except.pure, Except.ok.injEq] at hst
  subst hst
  have hmap : (u.zip (v.zip vector)).map (fun x => x.2.2) = vector := by
    rw [show (fun x : String × String × String => x.2.2) = Prod.snd ∘ Prod.snd from rfl, ← List.map_map,
      List.map_snd_zip (by simp [h.1, h.2]), List.map_snd_zip (by simp [h.2])]
  obtain ⟨g1, g2⟩ := windLoop_spec p t hp ht _ [] r hr (by rw [hmap]; exact hvec) (by simp) (by simp)
  rw [hmap] at g1
  refine ⟨by simpa using g1, fun w o => ?_⟩
  rw [g2]
  simp only [List.not_mem_nil, false_or]
  constructor
  · rintro ⟨cu, cv, s, hm, ho, hs⟩
    obtain ⟨i, hi⟩ := List.mem_iff_getElem?.mp hm
    rw [List.getElem?_zip_eq_some] at hi
    obtain ⟨hi1, hi2⟩ := hi
    simp only at hi2
    rw [List.getElem?_zip_eq_some] at hi2
    exact ⟨i, s, hi2.2, ho, cu, cv, hi1, hi2.1, hs⟩
  · rintro ⟨i, s, hi, ho, cu, cv, hu, hv, hs⟩
    refine ⟨cu, cv, s, List.mem_iff_getElem?.mpr ⟨i, ?_⟩, ho, hs⟩
    rw [List.getElem?_zip_eq_some]
    refine ⟨hu, ?_⟩
    rw [List.getElem?_zip_eq_some]
    exact ⟨hv, hi⟩

/-- **C24** Every configured component must be present in predictions and targets: otherwise `KeyError`. -/
theorem C24_missing {u v vector : List String} {st} (hst : windVectorSquaredError (L := L) (K := K) u v vector = .ok st)
    (p t : Vars (StatVar L (FV K))) :
    ((∀ c, c ∈ u ∨ c ∈ v → Present p t c) → ∃ r, st.compute p t = .ok r) ∧
    ((∃ c, (c ∈ u ∨ c ∈ v) ∧ ¬ Present p t c) → st.compute p t = .error .keyError) := by
  unfold windVectorSquaredError windVectors at hst
  by_cases h : u.length = v.length ∧ v.length = vector.length
  swap
  · simp [h, bind, Except.bind] at hst
  simp only [h, and_self, if_true, bind, Except.bind, pure, Except.pure, Except.ok.injEq] at hst
  subst hst
  obtain ⟨g1, g2⟩ := windLoop_total p t (u.zip (v.zip vector)) []
  have hu : (u.zip (v.zip vector)).map Prod.fst = u := List.map_fst_zip (by simp [h.1, h.2])
  have hv : (u.zip (v.zip vector)).map (fun x => x.2.1) = v := by
    rw [show (fun x : String × String × String => x.2.1) = Prod.fst ∘ Prod.snd from rfl, ← List.map_map,
      List.map_snd_zip (by simp [h.1, h.2]), List.map_fst_zip (by simp [h.2])]
  constructor
  · intro hc
    refine g1 (fun x hx => ⟨hc _ (.inl ?_), hc _ (.inr ?_)⟩)
    · rw [← hu]; exact List.mem_map.mpr ⟨x, hx, rfl⟩
    · rw [← hv]; exact List.mem_map.mpr ⟨x, hx, rfl⟩
  · rintro ⟨c, hc, hn⟩
    refine g2 (fun hall => hn ?_)
    rcases hc with hc | hc
    · rw [← hu] at hc
      obtain ⟨x, hx, rfl⟩ := List.mem_map.mp hc
      exact (hall x hx).1
    · rw [← hv] at hc
      obtain ⟨x, hx, rfl⟩ := List.mem_map.mp hc
      exact (hall x hx).2

/-- The array of a vector, cell by cell. -/
theorem C24_pointwise {p t : Vars (StatVar L (FV K))} {cu cv : String} {s : StatVar L (FV K)} (h : IsWindError p t cu cv s) :
    ∃ pu pv tu tv, (cu, pu) ∈ p ∧ (cv, pv) ∈ p ∧ (cu, tu) ∈ t ∧ (cv, tv) ∈ t ∧ ∀ e,
      s.arr.val e = (pu.arr.val e - tu.arr.val e) * (pu.arr.val e - tu.arr.val e) +
        (pv.arr.val e - tv.arr.val e) * (pv.arr.val e - tv.arr.val e) := by
  obtain ⟨pu, pv, tu, tv, h1, h2, h3, h4, rfl⟩ := h
  exact ⟨pu, pv, tu, tv, h1, h2, h3, h4, fun _ => rfl⟩

end

theorem windVectorRMSE_value {agg : Aggregator L (FV ℝ)} {p t : Vars (StatVar L (FV ℝ))}
    {u v vector : List String} {st} (hst : windVectorSquaredError (L := L) (K := ℝ) u v vector = .ok st)
    {m} (hm : windVectorRMSE u v vector = .ok m) {w : String} {x : DA L (FV ℝ)} (h : ValueOf m agg p t w x) :
    ∃ vars s q, st.compute p t = .ok vars ∧ (w, some s) ∈ vars ∧ agg.aggregateStatVar s = .ok (some q) ∧
      x = (DA.zipWith (· / ·) q.1 q.2).map FV.sqrt := by
  unfold windVectorRMSE at hm
  rw [hst] at hm
  simp only [bind, Except.bind, pure, Except.pure, Except.ok.injEq] at hm
  subst hm
  obtain ⟨r, hr, hx⟩ := h
  unfold metricAlone at hr
  obtain ⟨means, hmeans, hr⟩ := bind_pair_ok _ _ _ hr
  have hF := means_forall agg p t _ _ hmeans
  simp only at hF
  rw [List.forall₂_cons_left_iff] at hF
  obtain ⟨m, l, ⟨h1, vars, h2, h3⟩, hnil, rfl⟩ := hF
  rw [List.forall₂_nil_left_iff] at hnil
  subst hnil
  obtain ⟨k, ms⟩ := m
  simp only at h1 h3
  subst h1
  simp only [pyItem, pyGet?, if_true, Except.ok.injEq] at hr
  subst hr
  obtain ⟨⟨w', y⟩, hy, he⟩ := List.mem_map.mp hx
  rw [Prod.mk.injEq] at he
  obtain ⟨rfl, rfl⟩ := he
  obtain ⟨s, q, g1, g2, g3⟩ := meanVars_mem h3 hy
  exact ⟨vars, s, q, h2, g1, g2, by rw [g3]⟩

/-- **C24** The wind vector RMSE at a result cell, when both component errors are evaluated on the same finite cells (same
grid and mask): its square is the sum of the MSEs of the two components. -/
theorem C24_rmse_sq {agg : Aggregator L (FV ℝ)} {p t : Vars (StatVar L (FV ℝ))} (hp : (p.map Prod.fst).Nodup)
    (ht : (t.map Prod.fst).Nodup) {u v vector : List String} (hvec : vector.Nodup)
    {m} (hm : windVectorRMSE u v vector = .ok m) {i : ℕ} {w cu cv : String} (hw : vector[i]? = some w)
    (hu : u[i]? = some cu) (hv : v[i]? = some cv) {pu pv tu tv : StatVar L (FV ℝ)} (mpu : (cu, pu) ∈ p) (mpv : (cv, pv) ∈ p)
    (mtu : (cu, tu) ∈ t) (mtv : (cv, tv) ∈ t)
    (hgrid : (error pv tv).arr.dims = (error pu tu).arr.dims ∧ (error pv tv).arr.coords = (error pu tu).arr.coords ∧
      (error pv tv).mask = (error pu tu).mask)
    {e cs} (Eu : Evaluated agg (error pu tu) e cs) (Ev : Evaluated agg (error pv tv) e cs)
    (hW : GoodWeights agg (error pu tu) cs) {x xu xv : DA L (FV ℝ)} (hx : ValueOf m agg p t w x)
    (hxu : ValueOf squaredErrorStatistic.toMetric agg p t cu xu) (hxv : ValueOf squaredErrorStatistic.toMetric agg p t cv xv) :
    ∃ r mu mv : ℝ, x.val e = FV.fin r ∧ xu.val e = FV.fin mu ∧ xv.val e = FV.fin mv ∧ 0 ≤ r ∧ r ^ 2 = mu + mv := by
  obtain ⟨hd, hc, hmask⟩ := hgrid
  obtain ⟨st, hst⟩ := ((C24_construct (L := L) (K := ℝ) u v vector).1).mpr (by
    by_contra hlen
    unfold windVectorRMSE at hm
    rw [(C24_construct (L := L) (K := ℝ) u v vector).2 hlen] at hm
    simp [bind, Except.bind] at hm)
  obtain ⟨vars, s, q, h1, h2, h3, rfl⟩ := windVectorRMSE_value hst hm hx
  obtain ⟨i', s', hi', hs', cu', cv', hu', hv', hE⟩ := ((C24_statistic hst hvec p t hp ht h1).2 w (some s)).mp h2
  have hii : i' = i := by
    obtain ⟨b1, b2⟩ := List.getElem?_eq_some_iff.mp hi'
    obtain ⟨b3, b4⟩ := List.getElem?_eq_some_iff.mp hw
    exact (List.Nodup.getElem_inj_iff hvec).mp (b2.trans b4.symm)
  subst hii
  rw [hu] at hu'; rw [hv] at hv'
  simp only [Option.some.injEq] at hu' hv' hs'
  subst hu' hv' hs'
  obtain ⟨pu', pv', tu', tv', k1, k2, k3, k4, hs⟩ := hE
  have e1 := (pyItem_ok_iff hp).mpr mpu; rw [(pyItem_ok_iff hp).mpr k1] at e1
  have e2 := (pyItem_ok_iff hp).mpr mpv; rw [(pyItem_ok_iff hp).mpr k2] at e2
  have e3 := (pyItem_ok_iff ht).mpr mtu; rw [(pyItem_ok_iff ht).mpr k3] at e3
  have e4 := (pyItem_ok_iff ht).mpr mtv; rw [(pyItem_ok_iff ht).mpr k4] at e4
  simp only [Except.ok.injEq] at e1 e2 e3 e4
  subst e1 e2 e3 e4
  have hsd : s.arr.dims = (error pu' tu').arr.dims := by
    rw [hs]
    show (error pu' tu').arr.dims ∪ (error pv' tv').arr.dims = _
    rw [hd, Finset.union_self]
  have hsc : s.arr.coords = (error pu' tu').arr.coords := by
    rw [hs]
    funext d
    show DA.joinCoords (error pu' tu').arr (error pv' tv').arr d = _
    unfold DA.joinCoords
    rw [hc, hd]
    simp
  have hsm : s.mask = (error pu' tu').mask := by
    rw [hs]
    show combineMask (error pu' tu').mask (error pv' tv').mask = _
    rw [hmask]
    rcases (error pu' tu').mask with _ | k <;> simp [combineMask]
  have hval : ∀ e', s.arr.val e' = ((error pu' tu').arr.val e').sq + ((error pv' tv').arr.val e').sq := by
    intro e'; rw [hs]; rfl
  have hws : cellWeight agg s = cellWeight agg (error pu' tu') := by
    funext e'; unfold cellWeight; rw [Eu.coordOnly.allFactors_eq hsd hsc]
  have hwv : cellWeight agg (error pv' tv') = cellWeight agg (error pu' tu') := by
    funext e'; unfold cellWeight; rw [Eu.coordOnly.allFactors_eq hd hc]
  have hfinS : ∀ e' ∈ cs, (s.arr.val e').isFin = true ∧
      (s.arr.val e').num = errAt pu' tu' e' ^ 2 + errAt pv' tv' e' ^ 2 := by
    intro e' he'
    have fu := FV.sq_isFin (Eu.finite e' he')
    have fv := FV.sq_isFin (Ev.finite e' he')
    rw [hval]
    refine ⟨(FV.add_isFin fu.1 fv.1).1, ?_⟩
    rw [(FV.add_isFin fu.1 fv.1).2, fu.2, fv.2, error_num Eu he', error_num Ev he']
  have ES : Evaluated agg s e cs := by
    refine ⟨Eu.coordOnly, ?_, ?_, ?_, ?_, fun e' he' => (hfinS e' he').1⟩
    · intro m hm'
      rw [Eu.coordOnly.allFactors_eq hsd hsc] at hm'
      have := Eu.covers m hm'
      unfold CoversLabels at this ⊢
      rw [hsc, hsd]; exact this
    · rw [hsm, hsd, hsc]; exact Eu.maskOk
    · rw [Eu.coordOnly.allFactors_eq hsd hsc]; exact Eu.weightsFinite
    · intro e'
      rw [Eu.cells e', hsc]
      refine and_congr_right (fun hg => ?_)
      constructor
      · intro hcnt
        have he' := (Eu.cells e').mpr ⟨hg, hcnt⟩
        have hf := (hfinS e' he').1
        unfold counted at hcnt ⊢
        rw [hsm]
        rw [Bool.and_eq_true] at hcnt ⊢
        refine ⟨hcnt.1, ?_⟩
        revert hf
        cases s.arr.val e' <;> simp [FV.isFin, FV.isnan]
      · intro hcnt
        unfold counted at hcnt ⊢
        rw [hsm] at hcnt
        rw [Bool.and_eq_true] at hcnt ⊢
        refine ⟨hcnt.1, ?_⟩
        have h2 := hcnt.2
        rw [hval] at h2
        revert h2
        cases (error pu' tu').arr.val e' <;> simp [FV.isnan, FV.sq]
  have hmean := evaluated_mean ES h3 (by rw [hws]; exact hW.2.ne')
  rw [wmean_congr hws (fun e' he' => (hfinS e' he').2)] at hmean
  have hxu' := C22_mse_value hp ht mpu mtu Eu hW hxu
  have hxv' := C22_mse_value hp ht mpv mtv Ev ⟨by rw [hwv]; exact hW.1, by rw [hwv]; exact hW.2⟩ hxv
  have nn := wmean_sq_nonneg hp ht mpu mtu Eu hW (errAt pu' tu')
  have nnv : 0 ≤ wmean agg (error pv' tv') cs (fun e' => errAt pv' tv' e' ^ 2) :=
    wmean_sq_nonneg hp ht mpv mtv Ev ⟨by rw [hwv]; exact hW.1, by rw [hwv]; exact hW.2⟩ (errAt pv' tv')
  have hsplit : wmean agg (error pu' tu') cs (fun e' => errAt pu' tu' e' ^ 2 + errAt pv' tv' e' ^ 2) =
      wmean agg (error pu' tu') cs (fun e' => errAt pu' tu' e' ^ 2) + wmean agg (error pv' tv') cs (fun e' => errAt pv' tv' e' ^ 2) := by
    unfold wmean
    rw [hwv, ← add_div, ← Finset.sum_add_distrib]
    congr 1
    exact Finset.sum_congr rfl (fun e' _ => by ring)
  refine ⟨Real.sqrt (wmean agg (error pu' tu') cs (fun e' => errAt pu' tu' e' ^ 2 + errAt pv' tv' e' ^ 2)), _, _, ?_, hxu', hxv',
    Real.sqrt_nonneg _, ?_⟩
  · show FV.sqrt ((DA.zipWith (· / ·) q.1 q.2).val e) = _
    rw [hmean]
    simp only [FV.sqrt]
    rw [if_neg]
    rw [hsplit]
    exact not_lt.mpr (add_nonneg nn nnv)
  · rw [Real.sq_sqrt, hsplit]
    rw [hsplit]; exact add_nonneg nn nnv

/-! ### The hypotheses are met: one vector `wind` with components `u` = (1, 2, 3)-like data and `v` the same -/
section C24ex

theorem wind_exists (agg : Aggregator L (FV ℝ)) (a b : StatVar L (FV ℝ)) {q q'}
    (hq : agg.aggregateStatVar (squaredError a b) = .ok (some q))
    (hq' : agg.aggregateStatVar ((squaredError a b).zipWith (· + ·) (squaredError a b)) = .ok (some q'))
    (pu pv pw : String) (huv : pu ≠ pv) :
    ∃ m, windVectorRMSE (L := L) [pu] [pv] [pw] = .ok m ∧
      ValueOf m agg [(pu, a), (pv, a)] [(pu, b), (pv, b)] pw ((DA.zipWith (· / ·) q'.1 q'.2).map FV.sqrt) ∧
      ValueOf squaredErrorStatistic.toMetric agg [(pu, a), (pv, a)] [(pu, b), (pv, b)] pu (DA.zipWith (· / ·) q.1 q.2) ∧
      ValueOf squaredErrorStatistic.toMetric agg [(pu, a), (pv, a)] [(pu, b), (pv, b)] pv (DA.zipWith (· / ·) q.1 q.2) := by
  have hmse : metricAlone squaredErrorStatistic.toMetric agg [(pu, a), (pv, a)] [(pu, b), (pv, b)] =
      .ok [(pu, DA.zipWith (· / ·) q.1 q.2), (pv, DA.zipWith (· / ·) q.1 q.2)] := by
    simp [metricAlone, Statistic.toMetric, squaredErrorStatistic, statOf, perVariableStatistic, perVariableLoop, meanVars,
      perVar, hq, pyGet?, pyItem, bind, Except.bind, pure, Except.pure, huv]
  refine ⟨_, rfl, ⟨[(pw, (DA.zipWith (· / ·) q'.1 q'.2).map FV.sqrt)], ?_, by simp⟩, ⟨_, hmse, by simp⟩, ⟨_, hmse, by simp⟩⟩
  have hq'' : agg.aggregateStatVar (((a.zipWith (· - ·) b).map FV.sq).zipWith (· + ·) ((a.zipWith (· - ·) b).map FV.sq)) =
    .ok (some q') := hq'
  simp [metricAlone, windLoop, pyInsert, meanVars, perVar, hq'', pyGet?, pyItem, bind, Except.bind, pure, Except.pure, huv]

example : ∃ m, ∃ x xu xv : DA ℕ (FV ℝ), ∃ r mu mv : ℝ, windVectorRMSE (L := ℕ) ["u"] ["v"] ["w"] = .ok m ∧
    ValueOf m detAgg [("u", exPred), ("v", exPred)] [("u", exTarget), ("v", exTarget)] "w" x ∧
    x.val (exCell 0) = FV.fin r ∧ xu.val (exCell 0) = FV.fin mu ∧ xv.val (exCell 0) = FV.fin mv ∧ 0 ≤ r ∧ r ^ 2 = mu + mv := by
  have hr : ∀ s : StatVar ℕ (FV ℝ), "x" ∈ s.arr.dims → ∀ d ∈ detAgg.reduceDims, d ∈ s.arr.dims := by
    intro s hs; simpa [detAgg] using hs
  obtain ⟨q, h1⟩ := exists_aggregate detAgg rfl (squaredError exPred exTarget) (hr _ (by
    simp [squaredError, StatVar.map, StatVar.zipWith, DA.map, DA.zipWith, exPred]))
  obtain ⟨q', h2⟩ := exists_aggregate detAgg rfl ((squaredError exPred exTarget).zipWith (· + ·) (squaredError exPred exTarget))
    (hr _ (by simp [squaredError, StatVar.map, StatVar.zipWith, DA.map, DA.zipWith, exPred]))
  obtain ⟨m, hm, v1, v2, v3⟩ := wind_exists detAgg exPred exTarget h1 h2 "u" "v" "w" (by simp)
  obtain ⟨r, mu, mv, h⟩ := C24_rmse_sq (p := [("u", exPred), ("v", exPred)]) (t := [("u", exTarget), ("v", exTarget)])
    (by simp) (by simp) (by simp) hm (i := 0) rfl rfl rfl (by simp) (by simp) (by simp) (by simp) ⟨rfl, rfl, rfl⟩
    exEvaluated.1 exEvaluated.1 exEvaluated.2 v1 v2 v3
  exact ⟨m, _, _, _, r, mu, mv, hm, v1, h⟩

/-- A missing component is an error, not a skipped vector. -/
example (a b : StatVar ℕ (FV ℝ)) : ∃ st, windVectorSquaredError (L := ℕ) (K := ℝ) ["u"] ["v"] ["w"] = .ok st ∧
    st.compute [("u", a)] [("u", b)] = .error .keyError := by
  obtain ⟨st, hst⟩ := ((C24_construct (L := ℕ) (K := ℝ) ["u"] ["v"] ["w"]).1).mpr (by simp)
  refine ⟨st, hst, (C24_missing hst _ _).2 ⟨"v", by simp, ?_⟩⟩
  simp [Present]

end C24ex
end WBX
