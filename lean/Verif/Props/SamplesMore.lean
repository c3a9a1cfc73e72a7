import Verif.Props.SamplesEnsemble
import Verif.Props.DimNamesMore

/-!
# C108: wind vectors, thresholds and climatologies
-/

set_option linter.unusedSectionVars false

namespace WBX
open DA Aggregator

section wind
variable {L K : Type} [DecidableEq L] [Field K] [LinearOrder K] [IsStrictOrderedRing K] {d : Dim} {C C' : Finset L} {π : L → L} {n : ℕ}

theorem windLoop_listed (h : Lists C C' π) {p t : Vars (StatVar L (FV K))} (hp : CasesOf d C p) (ht : CasesOf d C t) : ∀ (vs : List (String × String × String)) (out : Vars (Option (StatVar L (FV K)))),
    (∀ v a, (v, some a) ∈ out → a.Along d C) →
    windLoop (listCases d C' π p) (listCases d C' π t) vs (listStats d C' π out) = (windLoop p t vs out).map (listStats d C' π) ∧ ∀ r, windLoop p t vs out = .ok r → ∀ v a, (v, some a) ∈ r → a.Along d C
  | [], out, hout => ⟨rfl, fun r hr => by cases hr; exact hout⟩
  | (u, v, vector) :: rest, out, hout => by
    have item : ∀ (q : Vars (StatVar L (FV K))) (k : String), pyItem (listCases d C' π q) k = (pyItem q k).map (StatVar.listed d C' π) := fun q k => pyItem_image _ q k
    rw [windLoop, windLoop, item, item, item, item]
    rcases h1 : pyItem p u with e | pu
    · exact ⟨rfl, fun r hr => by cases hr⟩
    rcases h2 : pyItem p v with e | pv
    · exact ⟨rfl, fun r hr => by cases hr⟩
    rcases h3 : pyItem t u with e | tu
    · exact ⟨rfl, fun r hr => by cases hr⟩
    rcases h4 : pyItem t v with e | tv
    · exact ⟨rfl, fun r hr => by cases hr⟩
    have a1 := hp _ (pyItem_mem h1)
    have a2 := hp _ (pyItem_mem h2)
    have a3 := ht _ (pyItem_mem h3)
    have a4 := ht _ (pyItem_mem h4)
    have b1 := (a1.zip a3 (fun x y : FV K => x - y)).map FV.sq
    have b2 := (a2.zip a4 (fun x y : FV K => x - y)).map FV.sq
    have ih := windLoop_listed h hp ht rest (pyInsert vector (some (((pu.zipWith (fun x y : FV K => x - y) tu).map FV.sq).zipWith (fun x y : FV K => x + y) ((pv.zipWith (fun x y : FV K => x - y) tv).map FV.sq))) out) (fun w a hm => by
      rcases pyInsert_mem _ _ _ _ hm with heq | hm
      · obtain ⟨rfl, heq⟩ := Prod.mk.inj heq
        cases heq
        exact b1.zip b2 _
      · exact hout w a hm)
    refine ⟨?_, ih.2⟩
    refine Eq.trans ?_ ih.1
    show windLoop _ _ rest (pyInsert vector _ _) = _
    rw [listed_sv_zip h _ a1 a3, listed_sv_map, listed_sv_zip h _ a2 a4, listed_sv_map, listed_sv_zip h _ b1 b2]
    congr 1
    exact pyInsert_image (Option.map (StatVar.listed d C' π)) vector (some _) out

/-- **C108** The squared error of wind vectors. -/
theorem C108_wind (h : Lists C C' π) {u v vector : List String} {s : FStatistic L K} (hs : windVectorSquaredError u v vector = .ok s) : (s.toMetric (M := DA L (FV K))).CaseByCase d C C' π := by
  refine statistic_cases (fun p t hp ht => ?_)
  unfold windVectorSquaredError at hs
  rcases hw : windVectors u v vector with e | vs
  · rw [hw] at hs; cases hs
  · rw [hw] at hs
    cases hs
    exact windLoop_listed h hp ht vs [] (fun v a hm => absurd hm (by simp))

/-- **C108** How often the absolute error exceeds thresholds, if these do not differ between the cases. -/
theorem C108_exceedance (h : Lists C C' π) {thresholds : DA L (FV K)} (hth : thresholds.Without d) : ((errorExceedanceStatistic thresholds).toMetric (M := DA L (FV K))).EachCase d C C' π := by
  refine ⟨fun ks hks p t hp ht => ?_, fun sv => pyItem_image (sameValuesAs d C') sv "self"⟩
  rw [List.mem_singleton.1 hks]
  refine perVariable_at (P := fun a => a.Along d C ∧ d ∈ a.arr.dims) (fun a b ha hb => ?_) hp ht
  have ha : a.Kept d C true := ha
  have hb : b.Kept d C true := hb
  have ht : (⟨thresholds, none⟩ : StatVar L (FV K)).Kept d C false := ⟨hth, rfl⟩
  have h1 := Kept.map (Kept.zip ha hb (fun x y : FV K => x - y)) FV.abs
  have h2 := Kept.zip (U := FV K) h1 ht (fun a h : FV K => FV.ofBool (FV.lt h a))
  have h3 := Kept.zip h2 (Kept.map h1 (fun v : FV K => !v.isnan)) FV.keepIf
  have h4 := Kept.zip h3 (Kept.map (V := FV K) (W := Bool) ht (fun v => !v.isnan)) FV.keepIf
  have key : errorExceedance thresholds (a.listedIf d C' π true) (b.listedIf d C' π true) = (errorExceedance thresholds a b).listedIf d C' π true := by
    unfold errorExceedance
    dsimp only
    rw [listedIf_zip h _ ha hb, listedIf_map]
    have e2 := listedIf_zip (U := FV K) h (π := π) (fun a h : FV K => FV.ofBool (FV.lt h a)) h1 ht
    have e3 := listedIf_zip h FV.keepIf h2 (Kept.map h1 (fun v : FV K => !v.isnan))
    have e4 := listedIf_zip h FV.keepIf h3 (Kept.map ht (fun v : FV K => !v.isnan))
    refine Eq.trans ?_ e4
    refine congrArg (fun z : StatVar L (FV K) => z.zipWith FV.keepIf ((⟨thresholds, none⟩ : StatVar L (FV K)).map (fun v : FV K => !v.isnan))) ?_
    refine Eq.trans ?_ e3
    rw [← listedIf_map]
    refine congrArg (fun z : StatVar L (FV K) => z.zipWith FV.keepIf (((((a.zipWith (fun x y : FV K => x - y) b).map FV.abs).listedIf d C' π true)).map (fun v : FV K => !v.isnan))) ?_
    exact e2
  have key : errorExceedance thresholds (a.listed d C' π) (b.listed d C' π) = (errorExceedance thresholds a b).listed d C' π := key
  refine ⟨by rw [key]; rfl, fun x hx => ?_⟩
  cases hx
  exact Kept.along h4

end wind

section climatology
variable {L : Type} [DecidableEq L] {d : Dim} {C C' : Finset L} {π : L → L} {n : ℕ}

theorem mapM_listed {α α' β γ : Type} {f : α → Except Err β} {f' : α → Except Err γ} {g : β → γ} {P : β → Prop} : ∀ {l : List α}, (∀ x ∈ l, f' x = (f x).map g ∧ ∀ y, f x = .ok y → P y) →
    l.mapM f' = (l.mapM f).map (List.map g) ∧ ∀ out, l.mapM f = .ok out → ∀ y ∈ out, P y
  | [], _ => ⟨rfl, fun out h => by cases h; exact fun y hy => absurd hy (by simp)⟩
  | x :: l, h => by
    obtain ⟨i1, i2⟩ := mapM_listed (α' := α') (f := f) (f' := f') (g := g) (P := P) (l := l) (fun y hy => h y (List.mem_cons_of_mem _ hy))
    obtain ⟨h1, h2⟩ := h x List.mem_cons_self
    rw [List.mapM_cons, List.mapM_cons, h1, i1]
    rcases hx : f x with e | b
    · exact ⟨rfl, fun out h => by cases h⟩
    · rcases hl : l.mapM f with e | bs
      · exact ⟨rfl, fun out h => by cases h⟩
      · refine ⟨rfl, fun out h => ?_⟩
        cases h
        intro y hy
        rcases List.mem_cons.1 hy with rfl | hy
        · exact h2 _ hx
        · exact i2 _ hl y hy

theorem bind_listed {α β : Type} {x x' : Except Err α} {f : α → Except Err (Vars (Option (StatVar L β)))} {f' : α → Except Err (Vars (Option (StatVar L β)))} {g : Vars (Option (StatVar L β)) → Vars (Option (StatVar L β))}
    {P : Vars (Option (StatVar L β)) → Prop} (hx : x' = x) (hf : ∀ a, f' a = (f a).map g ∧ ∀ out, f a = .ok out → P out) : (x' >>= f') = (x >>= f).map g ∧ ∀ out, (x >>= f) = .ok out → P out := by
  rw [hx]
  rcases x with e | a
  · exact ⟨rfl, fun out h => by cases h⟩
  · exact hf a

/-- `align'` selects from the climatology for the listed cases what `align` selects for the cases. -/
def AlignLists (d : Dim) (C C' : Finset L) (π : L → L) (align align' : StatVar L (FV ℝ) → StatVar L (FV ℝ) → Except Err (StatVar L (FV ℝ))) : Prop :=
  ∀ a c, a.Along d C → align' (a.listed d C' π) c = (align a c).map (StatVar.listed d C' π) ∧ ∀ x, align a c = .ok x → x.Along d C

theorem withClimatology_listed {name : String} {clims : Vars (StatVar L (FV ℝ))} {align align' : StatVar L (FV ℝ) → StatVar L (FV ℝ) → Except Err (StatVar L (FV ℝ))}
    {f : StatVar L (FV ℝ) → StatVar L (FV ℝ) → StatVar L (FV ℝ) → StatVar L (FV ℝ)} (ha : AlignLists d C C' π align align')
    (hf : ∀ a b c, a.Along d C → b.Along d C → c.Along d C → f (a.listed d C' π) (b.listed d C' π) (c.listed d C' π) = (f a b c).listed d C' π ∧ (f a b c).Along d C) {p t : Vars (StatVar L (FV ℝ))} (hp : CasesOf d C p) (ht : CasesOf d C t) :
    (withClimatology name clims align' f).compute (listCases d C' π p) (listCases d C' π t) = ((withClimatology name clims align f).compute p t).map (listStats d C' π) ∧
      ∀ out, (withClimatology name clims align f).compute p t = .ok out → ∀ v a, (v, some a) ∈ out → a.Along d C := by
  refine bind_listed (mapM_climatology clims p (StatVar.listed d C' π)) (fun cs => ?_)
  · have item : ∀ k : String, pyItem (listCases d C' π t) k = (pyItem t k).map (StatVar.listed d C' π) := fun k => pyItem_image _ t k
    have key := mapM_listed (α' := Unit) (l := p) (f := fun kv => (do
      let b ← pyItem t kv.1
      let c ← pyItem cs kv.1
      let al ← align kv.2 c
      return (kv.1, some (f kv.2 b al)) : Except Err (String × Option (StatVar L (FV ℝ))))) (f' := fun kv => (do
      let b ← pyItem (listCases d C' π t) kv.1
      let c ← pyItem cs kv.1
      let al ← align' (kv.2.listed d C' π) c
      return (kv.1, some (f (kv.2.listed d C' π) b al)) : Except Err (String × Option (StatVar L (FV ℝ))))) (g := fun kv => (kv.1, kv.2.map (StatVar.listed d C' π))) (P := fun kv => ∀ a, kv.2 = some a → a.Along d C) (fun kv hkv => by
        rw [item]
        rcases hb : pyItem t kv.1 with e | b
        · exact ⟨rfl, fun y hy => by cases hy⟩
        · show (pyItem cs kv.1 >>= fun c => _) = Except.map _ (pyItem cs kv.1 >>= fun c => _) ∧ ∀ y, (pyItem cs kv.1 >>= fun c => _) = .ok y → _
          rcases pyItem cs kv.1 with e | c
          · exact ⟨rfl, fun y hy => by cases hy⟩
          · obtain ⟨h1, h2⟩ := ha kv.2 c (hp kv hkv)
            show (align' (kv.2.listed d C' π) c >>= fun al => _) = Except.map _ (align kv.2 c >>= fun al => _) ∧ ∀ y, (align kv.2 c >>= fun al => _) = .ok y → _
            rw [h1]
            rcases hal : align kv.2 c with e | al
            · exact ⟨rfl, fun y hy => by cases hy⟩
            · obtain ⟨g1, g2⟩ := hf kv.2 b al (hp kv hkv) (ht _ (pyItem_mem hb)) (h2 al hal)
              refine ⟨?_, fun y hy => ?_⟩
              · show Except.ok (kv.1, some (f (kv.2.listed d C' π) (b.listed d C' π) (al.listed d C' π))) = _
                rw [g1]; rfl
              · cases hy
                intro a h
                cases h
                exact g2)
    refine ⟨?_, fun out hout v a hm => key.2 out hout _ hm a rfl⟩
    refine Eq.trans ?_ key.1
    show (p.map (fun kv => (kv.1, kv.2.listed d C' π))).mapM _ = _
    rw [List.mapM_map]
    rfl

/-- **C108** Anomaly correlation and activity: the climatology is selected for each case. -/
theorem C108_anomalies {clims : Vars (StatVar L (FV ℝ))} {align align' : StatVar L (FV ℝ) → StatVar L (FV ℝ) → Except Err (StatVar L (FV ℝ))} {agg : Aggregator L (FV ℝ)} (hn : n ≠ 0) (h : Copies n C C' π) (hagg : agg.TreatsAlike d C' π)
    (ha : AlignLists d C C' π align align') {p t : Vars (StatVar L (FV ℝ))} (hp : CasesOf d C p) (ht : CasesOf d C t) :
    metricAlone (acc clims align') agg (listCases d C' π p) (listCases d C' π t) = (metricAlone (acc clims align) agg p t).map (sameValuesAs d C') ∧
    metricAlone (predictionActivity clims align') agg (listCases d C' π p) (listCases d C' π t) = (metricAlone (predictionActivity clims align) agg p t).map (sameValuesAs d C') := by
  have h1 := fun {p t : Vars (StatVar L (FV ℝ))} (hp : CasesOf d C p) (ht : CasesOf d C t) => withClimatology_listed (name := "SquaredPredictionAnomaly") (clims := clims) (f := squaredPredictionAnomaly) ha (fun a b c ha _ hc => ⟨by
    rw [squaredPredictionAnomaly, listed_sv_zip (Copies.lists hn h) _ ha hc, listed_sv_map]; rfl, (ha.zip hc _).map _⟩) hp ht
  have h2 := fun {p t : Vars (StatVar L (FV ℝ))} (hp : CasesOf d C p) (ht : CasesOf d C t) => withClimatology_listed (name := "SquaredTargetAnomaly") (clims := clims) (f := squaredTargetAnomaly) ha (fun a b c _ hb hc => ⟨by
    rw [squaredTargetAnomaly, listed_sv_zip (Copies.lists hn h) _ hb hc, listed_sv_map]; rfl, (hb.zip hc _).map _⟩) hp ht
  have h3 := fun {p t : Vars (StatVar L (FV ℝ))} (hp : CasesOf d C p) (ht : CasesOf d C t) => withClimatology_listed (name := "AnomalyCovariance") (clims := clims) (f := anomalyCovariance) ha (fun a b c ha hb hc => ⟨by
    rw [anomalyCovariance, listed_sv_zip (Copies.lists hn h) _ ha hc, listed_sv_zip (h.lists hn) _ hb hc, listed_sv_zip (h.lists hn) _ (ha.zip hc _) (hb.zip hc _)]; rfl, (ha.zip hc _).zip (hb.zip hc _) _⟩) hp ht
  have item := fun (xs : List (String × DA L (FV ℝ))) (k : String) => pyItem_image (DA.withLabels d C') xs k
  refine ⟨metricAlone_listed h hagg (FV.nsmul_div n hn) (.cons ⟨rfl, h1 hp ht⟩ (.cons ⟨rfl, h2 hp ht⟩ (.cons ⟨rfl, h3 hp ht⟩ .nil))) (fun sv => perVariableValues_each (fun xs => ?_) sv),
    metricAlone_listed h hagg (FV.nsmul_div n hn) (.cons ⟨rfl, h1 hp ht⟩ .nil) (fun sv => perVariableValues_each (fun xs => ?_) sv)⟩
  · exact item_labels (fun cov => item_labels (fun pp => item_labels (fun tt => by
      unfold accFormula
      simp only [withLabels_map, withLabels_zip]; rfl)))
  · exact item_labels (fun x => rfl)

/-- A climatology that is zero in every case. -/
example : AlignLists d C C' π (fun a _ => .ok (a.map (fun _ => FV.fin 0))) (fun a _ => .ok (a.map (fun _ => FV.fin 0))) :=
  fun a _ ha => ⟨rfl, fun x hx => by cases hx; exact ha.map _⟩

end climatology
end WBX
