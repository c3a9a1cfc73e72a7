import Verif.Props.SelectMore
import Verif.Props.RolesMore

/-!
# C100: no leakage in the spread and skill of ensembles
-/

set_option linter.unusedSectionVars false

namespace WBX
open DA Aggregator

section
variable {L K : Type} [DecidableEq L] [Field K] [LinearOrder K] [IsStrictOrderedRing K] {d : Dim}

theorem valuesOnly_npMean (skipna : Bool) : ValuesOnly (L := L) (npMean (K := K) skipna) := by
  intro C x y h
  have h1 := valuesOnly_npSum (L := L) (K := K) skipna C x y h
  have h2 := valuesOnly_card (L := L) (K := K) skipna C x y h
  dsimp only at h2
  unfold npMean
  rw [h1, h2]

theorem present_on (skipna : Bool) {C : Finset L} {x y : L → FV K} (h : ∀ l ∈ C, x l = y l) : present skipna C x = present skipna C y := by
  unfold present
  cases skipna with
  | false => rfl
  | true => simp only [if_true]; exact Finset.filter_congr (fun l hl => by rw [h l hl])

theorem valuesOnly_npVar1 (skipna : Bool) : ValuesOnly (L := L) (npVar1 (K := K) skipna) := by
  intro C x y h
  have h1 := valuesOnly_npMean (L := L) (K := K) skipna C x y h
  have h2 : npSum skipna C (fun l => (x l - npMean skipna C x).sq) = npSum skipna C (fun l => (y l - npMean skipna C y).sq) :=
    valuesOnly_npSum skipna C _ _ (fun l hl => by rw [h l hl, h1])
  unfold npVar1
  rw [h2, present_on skipna h]

theorem meanDim_same (skipna : Bool) {a b : StatVar L (FV K)} (h : a.Same b) : SameOutcome StatVar.Same (a.meanDim skipna d) (b.meanDim skipna d) := by
  unfold StatVar.meanDim
  rw [← h.arr.dims]
  split_ifs with hd
  · exact .gives (reduce_same (valuesOnly_npMean skipna) h hd)
  · exact .fails _ _

theorem varDim_same (skipna : Bool) {a b : StatVar L (FV K)} (h : a.Same b) : SameOutcome StatVar.Same (a.varDim skipna d) (b.varDim skipna d) := by
  unfold StatVar.varDim
  rw [← h.arr.dims]
  split_ifs with hd
  · exact .gives (reduce_same (valuesOnly_npVar1 skipna) h hd)
  · exact .fails _ _

theorem sizeDim_same (skipna : Bool) {a b : StatVar L (FV K)} (h : a.Same b) : SameOutcome StatVar.Same (a.sizeDim skipna d) (b.sizeDim skipna d) := by
  unfold StatVar.sizeDim
  rw [← h.arr.dims]
  by_cases hd : d ∈ a.arr.dims
  · rw [if_pos hd, if_pos hd]
    cases skipna with
    | true => exact .gives (reduce_same (valuesOnly_card true) h hd)
    | false =>
      refine .gives ?_
      rw [if_neg (by simp), if_neg (by simp), h.arr.coords d hd]
      exact StatVar.Same.refl _
  · rw [if_neg hd, if_neg hd]
    exact .fails _ _

theorem unbiasedMSE_same (skipna : Bool) {p p' t t' : StatVar L (FV K)} (h : p.Same p') (h' : t.Same t') : SameOutcome StatVar.Same (unbiasedMSE d skipna p t) (unbiasedMSE d skipna p' t') := by
  unfold unbiasedMSE
  refine (meanDim_same skipna h).bind (fun pm pm' hpm => (varDim_same skipna h).bind (fun pv pv' hpv => (sizeDim_same skipna h).bind (fun pn pn' hpn => ?_)))
  dsimp only
  rw [← h'.arr.dims]
  split
  · refine (meanDim_same skipna h').bind (fun tm tm' htm => (varDim_same skipna h').bind (fun tv tv' htv => (sizeDim_same skipna h').bind (fun tn tn' htn => .gives ?_)))
    exact StatVar.zipWith_same (StatVar.zipWith_same (StatVar.map_same _ (StatVar.zipWith_same hpm htm)) (StatVar.zipWith_same hpv hpn)) (StatVar.zipWith_same htv htn)
  · exact .gives (StatVar.map_same _ (StatVar.zipWith_same (StatVar.map_same _ (StatVar.zipWith_same hpm h')) (StatVar.zipWith_same hpv hpn)))

theorem respects_statOfE {name : String} {f : StatVar L (FV K) → StatVar L (FV K) → Except Err (StatVar L (FV K))}
    (hf : ∀ a a' b b', StatVar.Same a a' → StatVar.Same b b' → SameOutcome StatVar.Same (f a b) (f a' b')) : RespectsArrays (statOfE name f) :=
  respects_perVariable (fun a a' b b' h h' => (hf a a' b b' h h').bind (fun _ _ hs => .gives (.some (.some hs))))

theorem respects_moments (d : Dim) (skipna : Bool) : RespectsArrays (ensembleVarianceStatistic (L := L) (K := K) d skipna) ∧ RespectsArrays (unbiasedMSEStatistic (L := L) (K := K) d skipna) :=
  ⟨respects_statOfE (fun _ _ _ _ h _ => varDim_same skipna h), respects_statOfE (fun _ _ _ _ h h' => unbiasedMSE_same skipna h h')⟩

/-- **C100** No leakage into the spread-skill ratio of an ensemble: data that agree at some lead times have the same ratio there. -/
theorem C100_spread_skill_no_leakage {c d : Dim} (hd : d ≠ c) (skipna : Bool) {agg : Aggregator L (FV ℝ)} {p p' t t' : Vars (StatVar L (FV ℝ))} (hloc : agg.Local c) (hagg : agg.RespectsSame)
    (hk : c ∉ agg.reduceDims) (hc : Chunkable c p t) (hc' : Chunkable c p' t') (hp : IsDict p) (hp' : IsDict p') (ht : IsDict t) (ht' : IsDict t') {S : Finset L}
    (h1 : AgreeAtLabels c S p p') (h2 : AgreeAtLabels c S t t') {out out' : Vars (DA L (FV ℝ))} (h : metricAlone (spreadSkillRatio d skipna) agg p t = .ok out)
    (h' : metricAlone (spreadSkillRatio d skipna) agg p' t' = .ok out') : ScoresAgree c S out out' := by
  refine C100_no_leakage hloc hagg hk (C100_spread_skill hd skipna).2 (fun ks hks => ?_) hc hc' hp hp' ht ht' h1 h2 h h'
  simp only [spreadSkillRatio, metric2, perVariableMetric, List.mem_cons, List.not_mem_nil, or_false] at hks
  rcases hks with rfl | rfl
  · exact (respects_moments d skipna).1
  · exact (respects_moments d skipna).2

end
end WBX
