import Verif.Lemmas.WMean
import Verif.Lemmas.MetricN
import Verif.Lemmas.OneDim
import Verif.Props.Wind
import Verif.Spec.Seeps

/-!
# C28 (SEEPS)
-/

set_option linter.unusedSectionVars false

namespace WBX
open DA Aggregator
variable {L : Type} [DecidableEq L] {K : Type} [Field K] [LinearOrder K] [IsStrictOrderedRing K]

/-- **C28** Every finite amount is in exactly one category (for a dry threshold below the wet threshold). -/
theorem C28_category (dryMm : K) {w : K} (hw : dryMm / 1000 < w) (x : K) (c : SeepsCat) :
    seepsCat dryMm (.fin w) (.fin x) c = if seepsClass (dryMm / 1000) w x = c then 1 else 0 := by
  unfold seepsCat seepsClass FV.keepIf
  simp only [FV.isnan, FV.le, FV.lt, FV.ofBool]
  by_cases h1 : x ≤ dryMm / 1000
  · have h2 : ¬ dryMm / 1000 < x := not_lt.mpr h1
    have h3 : ¬ w ≤ x := not_le.mpr (lt_of_le_of_lt h1 hw)
    cases c <;> simp [h1, h2, h3]
  · have h2 : dryMm / 1000 < x := not_le.mp h1
    by_cases h3 : x < w
    · have h4 : ¬ w ≤ x := not_le.mpr h3
      cases c <;> simp [h1, h2, h3, h4]
    · have h4 : w ≤ x := not_lt.mp h3
      cases c <;> simp [h1, h2, h3, h4]

/-- **C28** NaN precipitation has NaN category. -/
theorem C28_category_nan (dryMm : K) (w : FV K) (c : SeepsCat) : seepsCat dryMm w .nan c = FV.nan := by
  cases c <;> rfl

theorem seepsMatrix_fin {p : K} (h0 : 0 < p) (h1 : p < 1) (f t : SeepsCat) :
    seepsMatrix (FV.fin p) f t = FV.fin (seepsTable p f t) := by
  have a : (1 : K) - p ≠ 0 := (sub_pos.mpr h1).ne'
  have b : (2 : K) + p ≠ 0 := by positivity
  unfold seepsMatrix seepsTable
  cases f <;> cases t <;> simp [FV.zero_def, FV.fin_div_fin_of_ne, a, b, h0.ne'] <;> field_simp <;> norm_num

/-- **C28** The score of a finite forecast/observation pair is the entry of the SEEPS matrix of their two categories. -/
theorem C28_score (dryMm : K) {w p : K} (hw : dryMm / 1000 < w) (h0 : 0 < p) (h1 : p < 1) (x y : K) :
    seepsScore dryMm (.fin p) (.fin w) (.fin x) (.fin y) =
      FV.fin (seepsTable p (seepsClass (dryMm / 1000) w x) (seepsClass (dryMm / 1000) w y)) := by
  unfold seepsScore seepsCats
  simp only [C28_category dryMm hw, seepsMatrix_fin h0 h1]
  cases seepsClass (dryMm / 1000) w x <;> cases seepsClass (dryMm / 1000) w y <;>
    simp [FV.one_def, FV.zero_def, seepsTable]

example : seepsScore (1000 : ℚ) (.fin (1/2)) (.fin 5) (.fin 0) (.fin 7) = FV.fin 4 := by
  rw [C28_score (w := 5) (p := 1/2) 1000 (by norm_num) (by norm_num) (by norm_num)]
  norm_num [seepsClass, seepsTable]

/-- **C28** NaN on either side gives a NaN score. -/
theorem C28_score_nan (dryMm : K) (p1 w x : FV K) :
    seepsScore dryMm p1 w .nan x = FV.nan ∧ seepsScore dryMm p1 w x .nan = FV.nan := by
  unfold seepsScore seepsCats
  constructor <;> simp [C28_category_nan]

/-- **C28** Matching categories score zero, different ones a positive number. -/
theorem C28_sign {p : K} (h0 : 0 < p) (h1 : p < 1) (f t : SeepsCat) :
    (f = t → seepsTable p f t = 0) ∧ (f ≠ t → 0 < seepsTable p f t) := by
  have a : (0 : K) < 1 - p := sub_pos.mpr h1
  have b : (0 : K) < 2 + p := by positivity
  refine ⟨fun h => ?_, fun h => ?_⟩
  · subst h; cases f <;> rfl
  · cases f <;> cases t <;> first | exact absurd rfl h | (simp only [seepsTable]; positivity)

/-- The per-cell table behind C28_constant: the expected score of every constant forecast under the climatological category
probabilities is 1. -/
theorem C28_equitable {p : K} (h0 : 0 < p) (h1 : p < 1) (f : SeepsCat) :
    seepsClimProb p .dry * seepsTable p f .dry + seepsClimProb p .light * seepsTable p f .light +
      seepsClimProb p .heavy * seepsTable p f .heavy = 1 := by
  have a : (1 : K) - p ≠ 0 := (sub_pos.mpr h1).ne'
  have b : (2 : K) + p ≠ 0 := by positivity
  have c := h0.ne'
  cases f <;> simp only [seepsTable, seepsClimProb] <;> field_simp <;> ring

/-- **C28** (found) Where the wet threshold of the climatology is NaN, every pair of wet amounts scores 0: as good as a perfect
forecast, and not NaN. -/
theorem C28_nan_threshold (dryMm : K) {p : K} (h0 : 0 < p) (h1 : p < 1) {x y : K} (hx : dryMm / 1000 < x) (hy : dryMm / 1000 < y) :
    seepsScore dryMm (.fin p) .nan (.fin x) (.fin y) = FV.fin 0 := by
  unfold seepsScore seepsCats
  have z : ∀ x, dryMm / 1000 < x → ∀ c, seepsCat dryMm .nan (.fin x) c = 0 := by
    intro x hx c
    cases c <;> simp [seepsCat, FV.keepIf, FV.ofBool, FV.le, FV.lt, FV.isnan, not_le.mpr hx]
  simp [z x hx, z y hy, seepsMatrix_fin h0 h1, FV.zero_def]

/-! ### The statistic and the metric -/

/-- **C28** One variable: with a mask on both sides `ValueError`; otherwise the result at a cell is the score where
`min_p1 ≤ p1 ≤ max_p1` and NaN elsewhere, and its mask is that condition combined with the mask of the data. -/
theorem C28_per_variable (dryMm minP1 maxP1 : K) (wet p1 : DA L (FV K)) (a b : StatVar L (FV K)) :
    (a.mask ≠ none → b.mask ≠ none → seepsPerVariable dryMm minP1 maxP1 wet p1 a b = .error .valueError) ∧
    (a.mask = none ∨ b.mask = none → ∃ s m, seepsPerVariable dryMm minP1 maxP1 wet p1 a b = .ok s ∧ s.mask = some m ∧ ∀ e,
      let inRange := FV.le (.fin minP1) (p1.val e) = true ∧ FV.le (p1.val e) (.fin maxP1) = true
      (inRange → s.arr.val e = seepsScore dryMm (p1.val e) (wet.val e) (a.arr.val e) (b.arr.val e)) ∧
      (¬ inRange → s.arr.val e = FV.nan) ∧
      (m.val e = true ↔ inRange ∧ (∀ k, a.mask = some k → k.val e = true) ∧ (∀ k, b.mask = some k → k.val e = true))) := by
  have key : ∀ (x : FV K) (e : Dim → L),
      ((FV.le (.fin minP1) (p1.val e) = true ∧ FV.le (p1.val e) (.fin maxP1) = true) →
        FV.keepIf x (FV.le (.fin minP1) (p1.val e) && FV.le (p1.val e) (.fin maxP1)) = x) ∧
      (¬ (FV.le (.fin minP1) (p1.val e) = true ∧ FV.le (p1.val e) (.fin maxP1) = true) →
        FV.keepIf x (FV.le (.fin minP1) (p1.val e) && FV.le (p1.val e) (.fin maxP1)) = FV.nan) := by
    intro x e
    unfold FV.keepIf
    constructor
    · rintro ⟨h1, h2⟩; simp [h1, h2]
    · intro h
      rw [if_neg]
      rw [Bool.and_eq_true]; exact h
  unfold seepsPerVariable
  rcases ha : a.mask with _ | k <;> rcases hb : b.mask with _ | k'
  · refine ⟨fun h => absurd rfl h, fun _ => ⟨_, _, rfl, rfl, fun e => ⟨(key _ e).1, (key _ e).2, ?_⟩⟩⟩
    simp [DA.map]
  · refine ⟨fun h => absurd rfl h, fun _ => ⟨_, _, rfl, rfl, fun e => ⟨(key _ e).1, (key _ e).2, ?_⟩⟩⟩
    simp [DA.map, DA.zipWith]
  · refine ⟨fun _ h => absurd rfl h, fun _ => ⟨_, _, rfl, rfl, fun e => ⟨(key _ e).1, (key _ e).2, ?_⟩⟩⟩
    simp [DA.map, DA.zipWith]
  · refine ⟨fun _ _ => rfl, fun h => ?_⟩
    simp at h

/-- **C28** Parameter lists of different lengths fail the assertion. -/
theorem C28_construct (name : String) (names : List String) (dryMm minP1 maxP1 : List K) (clim : Vars (SeepsClimatology L K))
    (select meanP1) :
    ((∃ st, seeps name names dryMm minP1 maxP1 clim select meanP1 = .ok st) ↔
      names.length = dryMm.length ∧ dryMm.length = minP1.length ∧ minP1.length = maxP1.length) ∧
    (¬ (names.length = dryMm.length ∧ dryMm.length = minP1.length ∧ minP1.length = maxP1.length) →
      seeps name names dryMm minP1 maxP1 clim select meanP1 = .error .assertionError) := by
  unfold seeps
  by_cases h : names.length = dryMm.length ∧ dryMm.length = minP1.length ∧ minP1.length = maxP1.length
  · simp [h]
  · simp [h]

theorem pyInsert_mem_iff {β : Type} (k : String) (x : β) {o : List (String × β)} {w : String} {y : β}
    (h : (w, y) ∈ pyInsert k x o) : (w = k ∧ y = x) ∨ (w, y) ∈ o := by
  induction o with
  | nil => simp [pyInsert] at h; exact .inl h
  | cons a o ih =>
    obtain ⟨k', z⟩ := a
    rw [pyInsert] at h
    split at h
    · rename_i hk
      rcases List.mem_cons.mp h with h | h
      · simp only [Prod.mk.injEq] at h
        exact .inl ⟨by rw [h.1]; first | exact hk | rfl, h.2⟩
      · exact .inr (List.mem_cons_of_mem _ h)
    · rcases List.mem_cons.mp h with h | h
      · exact .inr (by rw [h]; simp)
      · rcases ih h with h | h
        · exact .inl h
        · exact .inr (List.mem_cons_of_mem _ h)

theorem seepsLoop_mem (clim : Vars (SeepsClimatology L K)) (select meanP1) (p t : Vars (StatVar L (FV K))) :
    (l : List (String × K × K × K)) → (out r : Vars (Option (StatVar L (FV K)))) →
    seepsLoop clim select meanP1 p t l out = .ok r → ∀ w o, (w, o) ∈ r → (w, o) ∈ out ∨
      ∃ d lo hi a b c wet p1 s, (w, d, lo, hi) ∈ l ∧ (w, a) ∈ p ∧ (w, b) ∈ t ∧ (w, c) ∈ clim ∧ select a c.threshold = .ok wet ∧
        meanP1 c.dryFraction = .ok p1 ∧ seepsPerVariable d lo hi wet p1 a b = .ok s ∧ o = some s
  | [], out, r, h, w, o, ho => by
    simp only [seepsLoop, Except.ok.injEq] at h
    subst h; exact .inl ho
  | (v, d, lo, hi) :: l, out, r, h, w, o, ho => by
    rw [seepsLoop] at h
    obtain ⟨a, h1, h⟩ := bind_pair_ok _ _ _ h
    obtain ⟨b, h2, h⟩ := bind_pair_ok _ _ _ h
    obtain ⟨c, h3, h⟩ := bind_pair_ok _ _ _ h
    obtain ⟨wet, h4, h⟩ := bind_pair_ok _ _ _ h
    obtain ⟨p1, h5, h⟩ := bind_pair_ok _ _ _ h
    obtain ⟨s, h6, h⟩ := bind_pair_ok _ _ _ h
    rcases seepsLoop_mem clim select meanP1 p t l _ r h w o ho with hin | ⟨d', lo', hi', a', b', c', w', p', s', g, rest⟩
    · rcases pyInsert_mem_iff _ _ hin with ⟨rfl, rfl⟩ | hin
      · exact .inr ⟨d, lo, hi, a, b, c, wet, p1, s, by simp, pyItem_mem h1, pyItem_mem h2, pyItem_mem h3, h4, h5, h6, rfl⟩
      · exact .inl hin
    · exact .inr ⟨d', lo', hi', a', b', c', w', p', s', by simp [g], rest⟩

open Classical in
/-- **C28** End to end: a forecast that predicts the same category `f` everywhere gets the SEEPS value 1 when the observed
categories occur with the climatological frequencies (dry with probability `p1`, light twice as often as heavy), for any weights. -/
theorem C28_constant {agg : Aggregator L (FV K)} {p t : Vars (StatVar L (FV K))} (hp : (p.map Prod.fst).Nodup)
    (ht : (t.map Prod.fst).Nodup) {name v : String} {dryMm minP1 maxP1 : K} {clim : Vars (SeepsClimatology L K)}
    (hclim : (clim.map Prod.fst).Nodup) {c : SeepsClimatology L K} (hc : (v, c) ∈ clim) {select meanP1} {st}
    (hst : seeps name [v] [dryMm] [minP1] [maxP1] clim select meanP1 = .ok st) {a b : StatVar L (FV K)} (ha : (v, a) ∈ p)
    (hb : (v, b) ∈ t) {wet p1 : DA L (FV K)} (hwet : select a c.threshold = .ok wet) (hp1 : meanP1 c.dryFraction = .ok p1)
    {s : StatVar L (FV K)} (hs : seepsPerVariable dryMm minP1 maxP1 wet p1 a b = .ok s)
    {e : Dim → L} {cs : Finset (Dim → L)} (E : Evaluated agg s e cs) (hW : GoodWeights agg s cs)
    {pr : K} (h0 : 0 < pr) (h1 : pr < 1) (hpr : ∀ e' ∈ cs, p1.val e' = FV.fin pr)
    (x y w : (Dim → L) → K) (hx : ∀ e' ∈ cs, a.arr.val e' = FV.fin (x e')) (hy : ∀ e' ∈ cs, b.arr.val e' = FV.fin (y e'))
    (hwv : ∀ e' ∈ cs, wet.val e' = FV.fin (w e')) (hdw : ∀ e' ∈ cs, dryMm / 1000 < w e')
    {f : SeepsCat} (hconst : ∀ e' ∈ cs, seepsClass (dryMm / 1000) (w e') (x e') = f)
    (hfreq : ∀ k, (∑ e' ∈ cs.filter (fun e' => seepsClass (dryMm / 1000) (w e') (y e') = k), cellWeight agg s e') /
      (∑ e' ∈ cs, cellWeight agg s e') = seepsClimProb pr k)
    {X : DA L (FV K)} (h : ValueOf st.toMetric agg p t v X) : X.val e = FV.fin 1 := by
  obtain ⟨vars, s', q, g1, g2, g3, rfl⟩ := valueOf_statistic h
  unfold seeps at hst
  simp only [List.length_singleton, and_self, if_true, Except.ok.injEq] at hst
  subst hst
  have hss : s' = s := by
    rcases seepsLoop_mem clim select meanP1 p t _ [] vars g1 v (some s') g2 with h | ⟨d, lo, hi, a', b', c', w', p', s'', m, ma, mb, mc, k1, k2, k3, k4⟩
    · simp at h
    · simp only [List.zip_cons_cons, List.zip_nil_right, List.mem_singleton, Prod.mk.injEq, true_and] at m
      obtain ⟨rfl, rfl, rfl⟩ := m
      have e1 := (pyItem_ok_iff hp).mpr ma; rw [(pyItem_ok_iff hp).mpr ha] at e1
      have e2 := (pyItem_ok_iff ht).mpr mb; rw [(pyItem_ok_iff ht).mpr hb] at e2
      have e3 := (pyItem_ok_iff hclim).mpr mc; rw [(pyItem_ok_iff hclim).mpr hc] at e3
      simp only [Except.ok.injEq] at e1 e2 e3
      subst e1 e2 e3
      rw [hwet] at k1; rw [hp1] at k2
      simp only [Except.ok.injEq] at k1 k2
      subst k1 k2
      rw [hs] at k3
      simp only [Except.ok.injEq] at k3
      simp only [Option.some.injEq] at k4
      rw [k4, k3]
  subst hss
  rw [evaluated_mean E g3 hW.2.ne']
  congr 1
  have hmask : a.mask = none ∨ b.mask = none := by
    by_contra hn
    push Not at hn
    rw [(C28_per_variable dryMm minP1 maxP1 wet p1 a b).1 hn.1 hn.2] at hs
    simp at hs
  obtain ⟨s'', m, hs'', -, hval⟩ := (C28_per_variable dryMm minP1 maxP1 wet p1 a b).2 hmask
  rw [hs] at hs''
  simp only [Except.ok.injEq] at hs''
  subst hs''
  have hnum : ∀ e' ∈ cs, (s'.arr.val e').num =
      (if seepsClass (dryMm / 1000) (w e') (y e') = .dry then 1 else 0) * seepsTable pr f .dry +
      (if seepsClass (dryMm / 1000) (w e') (y e') = .light then 1 else 0) * seepsTable pr f .light +
      (if seepsClass (dryMm / 1000) (w e') (y e') = .heavy then 1 else 0) * seepsTable pr f .heavy := by
    intro e' he'
    obtain ⟨v1, v2, -⟩ := hval e'
    have hf := E.finite e' he'
    have hin : FV.le (.fin minP1) (p1.val e') = true ∧ FV.le (p1.val e') (.fin maxP1) = true := by
      by_contra hn
      rw [v2 hn] at hf
      simp [FV.isFin] at hf
    rw [v1 hin, hpr e' he', hx e' he', hy e' he', hwv e' he', C28_score dryMm (hdw e' he') h0 h1, hconst e' he']
    cases seepsClass (dryMm / 1000) (w e') (y e') <;> simp [FV.num]
  rw [wmean_congr' hnum, wmean_add, wmean_add]
  have comm : ∀ (k : SeepsCat), wmean agg s' cs (fun e' => (if seepsClass (dryMm / 1000) (w e') (y e') = k then 1 else 0) * seepsTable pr f k) =
      seepsClimProb pr k * seepsTable pr f k := by
    intro k
    rw [← hfreq k, ← wmean_indicator, mul_comm, ← wmean_smul]
    exact wmean_congr' (fun e' _ => mul_comm _ _)
  rw [comm, comm, comm]
  exact C28_equitable h0 h1 f

/-! ### The hypotheses of `C28_constant` are met -/
section C28ex

/-- Four cells with observations 0 (dry), 2, 3 (light), 9 (heavy); the forecast is always dry; `p1 = 1/4`. -/
noncomputable def seepsY : ℕ → ℝ := fun n => if n = 0 then 0 else if n = 1 then 2 else if n = 2 then 3 else 9
noncomputable def seepsArr (f : ℕ → ℝ) : DA ℕ (FV ℝ) :=
  { dims := {"x"}, coords := fun _ => {0, 1, 2, 3}, val := fun e => .fin (f (e "x")) }

theorem seeps_exists {name v : String} {d lo hi : K} {c : SeepsClimatology L K} {select meanP1} {st}
    (hst : seeps name [v] [d] [lo] [hi] [(v, c)] select meanP1 = .ok st) {a b : StatVar L (FV K)} {wet p1 : DA L (FV K)}
    (hwet : select a c.threshold = .ok wet) (hp1 : meanP1 c.dryFraction = .ok p1) {s : StatVar L (FV K)}
    (hs : seepsPerVariable d lo hi wet p1 a b = .ok s) {agg : Aggregator L (FV K)} {q}
    (hq : agg.aggregateStatVar s = .ok (some q)) :
    ValueOf st.toMetric agg [(v, a)] [(v, b)] v (DA.zipWith (· / ·) q.1 q.2) := by
  simp only [seeps, List.length_singleton, and_self, if_true, Except.ok.injEq] at hst
  subst hst
  refine ⟨[(v, DA.zipWith (· / ·) q.1 q.2)], ?_, by simp⟩
  simp only [metricAlone, Statistic.toMetric, List.zip_cons_cons, List.zip_nil_right, seepsLoop, pyItem, pyGet?, if_true, bind,
    Except.bind, hwet, hp1, hs, pyInsert, List.mapM_cons, List.mapM_nil, pure, Except.pure, meanVars, perVar, hq, List.map_cons,
    List.map_nil]

theorem seepsY_class (n : ℕ) : seepsClass (1000 / 1000 : ℝ) 5 (seepsY n) =
    if n = 0 then .dry else if n = 1 ∨ n = 2 then .light else .heavy := by
  unfold seepsY seepsClass
  by_cases h0 : n = 0
  · simp [h0]
  by_cases h1 : n = 1
  · norm_num [h1]
  by_cases h2 : n = 2
  · norm_num [h2]
  · norm_num [h0, h1, h2]

noncomputable def seepsPred : StatVar ℕ (FV ℝ) := ⟨seepsArr 0, none⟩
noncomputable def seepsObs : StatVar ℕ (FV ℝ) := ⟨seepsArr seepsY, none⟩
noncomputable def seepsWet : DA ℕ (FV ℝ) := seepsArr (fun _ => 5)
noncomputable def seepsP1 : DA ℕ (FV ℝ) := seepsArr (fun _ => 1 / 4)

open Classical in
theorem seepsEx_stat : ∃ s : StatVar ℕ (FV ℝ), seepsPerVariable 1000 (1 / 10) (17 / 20) seepsWet seepsP1 seepsPred seepsObs = .ok s ∧
    Evaluated mAgg s (exCell 0) (({0, 1, 2, 3} : Finset ℕ).image exCell) ∧ ∃ q, mAgg.aggregateStatVar s = .ok (some q) := by
  obtain ⟨s, m, hs, hm, hval⟩ := (C28_per_variable (1000 : ℝ) (1 / 10) (17 / 20) seepsWet seepsP1 seepsPred seepsObs).2 (.inl rfl)
  have hs' := hs
  simp only [seepsPerVariable, seepsPred, seepsObs, Except.ok.injEq] at hs'
  have hin : ∀ e : Dim → ℕ, FV.le (.fin (1 / 10 : ℝ)) (seepsP1.val e) = true ∧ FV.le (seepsP1.val e) (.fin (17 / 20 : ℝ)) = true := by
    intro e; simp [seepsP1, seepsArr, FV.le]; norm_num
  have hmv : ∀ e, m.val e = true := fun e => (hval e).2.2.mpr ⟨hin e, by simp [seepsPred], by simp [seepsObs]⟩
  have hd : s.arr.dims = {"x"} := by rw [← hs']; simp [DA.zipWith, DA.map, seepsArr, seepsWet, seepsP1]
  have hc : s.arr.coords = fun _ => {0, 1, 2, 3} := by
    rw [← hs']; funext d; simp [DA.zipWith, DA.map, joinCoords, seepsArr, seepsWet, seepsP1]
  have hmd : m.dims = {"x"} ∧ m.coords = fun _ => {0, 1, 2, 3} := by
    rw [← hs'] at hm
    simp only [Option.some.injEq] at hm
    rw [← hm]; exact ⟨rfl, rfl⟩
  have hv : ∀ e, (s.arr.val e).isFin = true := by
    intro e
    rw [(hval e).1 (hin e)]
    show (seepsScore 1000 (.fin (1 / 4)) (.fin 5) (.fin 0) (.fin (seepsY (e "x")))).isFin = true
    rw [C28_score (K := ℝ) 1000 (by norm_num) (by norm_num) (by norm_num)]
    rfl
  refine ⟨s, hs, evaluated1 s {0, 1, 2, 3} (by rw [hc]) (by
    intro m' hm'
    rw [hm, Option.some.injEq] at hm'
    subst hm'
    rw [hmd.1, hmd.2, hd, hc]
    simp) {0, 1, 2, 3} (by
      intro n
      have : counted mAgg s (exCell n) = true := by
        unfold counted; rw [hm]; simp [mAgg, hmv]
      simp [this]) (fun n _ => hv _), exists_aggregate mAgg rfl s (by simp [mAgg, hd])⟩

theorem seepsEx_freq (s : StatVar ℕ (FV ℝ)) [DecidableEq (Dim → ℕ)] (k : SeepsCat) :
    (∑ e' ∈ (({0, 1, 2, 3} : Finset ℕ).image exCell).filter (fun e' => seepsClass (1000 / 1000) 5 (seepsY (e' "x")) = k),
      cellWeight mAgg s e') / (∑ e' ∈ ({0, 1, 2, 3} : Finset ℕ).image exCell, cellWeight mAgg s e') = seepsClimProb (1 / 4) k := by
  have hw : ∀ e', cellWeight mAgg s e' = 1 := by intro e'; simp [cellWeight, allFactors, mAgg]
  simp only [hw, Finset.sum_const, nsmul_eq_mul, mul_one]
  rw [Finset.filter_image, Finset.card_image_of_injective _ exCell_inj, Finset.card_image_of_injective _ exCell_inj]
  have hx : ∀ n, exCell n "x" = n := fun n => by simp [exCell]
  simp only [hx, seepsY_class]
  cases k
  · rw [show (({0, 1, 2, 3} : Finset ℕ).filter (fun n => (if n = 0 then SeepsCat.dry else if n = 1 ∨ n = 2 then .light else .heavy) = .dry)) = {0} by decide]
    norm_num [seepsClimProb]
  · rw [show (({0, 1, 2, 3} : Finset ℕ).filter (fun n => (if n = 0 then SeepsCat.dry else if n = 1 ∨ n = 2 then .light else .heavy) = .light)) = {1, 2} by decide]
    norm_num [seepsClimProb]
  · rw [show (({0, 1, 2, 3} : Finset ℕ).filter (fun n => (if n = 0 then SeepsCat.dry else if n = 1 ∨ n = 2 then .light else .heavy) = .heavy)) = {3} by decide]
    norm_num [seepsClimProb]

open Classical in
example (v : String) : ∃ st, seeps (L := ℕ) (K := ℝ) "SEEPS" [v] [1000] [1 / 10] [17 / 20] [(v, ⟨seepsWet, seepsP1⟩)]
      (fun _ w => .ok w) (fun q => .ok q) = .ok st ∧
    ∃ X, ValueOf st.toMetric mAgg [(v, seepsPred)] [(v, seepsObs)] v X ∧ X.val (exCell 0) = FV.fin 1 := by
  obtain ⟨st, hst⟩ := ((C28_construct (L := ℕ) (K := ℝ) "SEEPS" [v] [1000] [1 / 10] [17 / 20]
    [(v, ⟨seepsWet, seepsP1⟩)] (fun _ w => .ok w) (fun q => .ok q)).1).mpr (by simp)
  obtain ⟨s, hs, E, q, hq⟩ := seepsEx_stat
  have hX := seeps_exists hst (a := seepsPred) (b := seepsObs) rfl rfl hs hq
  refine ⟨st, hst, _, hX, ?_⟩
  exact C28_constant (by simp) (by simp) (by simp) (c := ⟨seepsWet, seepsP1⟩) (by simp) hst (a := seepsPred) (b := seepsObs) (by simp)
    (by simp) rfl rfl hs E (mAgg_good s {0, 1, 2, 3} (by simp)) (pr := 1 / 4) (by norm_num) (by norm_num) (fun e' _ => rfl)
    (fun _ => 0) (fun e' => seepsY (e' "x")) (fun _ => 5) (fun e' _ => rfl) (fun e' _ => rfl) (fun e' _ => rfl)
    (fun e' _ => by norm_num) (f := .dry) (fun e' _ => by norm_num [seepsClass]) (seepsEx_freq s) hX

end C28ex
end WBX
