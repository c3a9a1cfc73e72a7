import Verif.Props.Samples
import Verif.Props.RepeatedEnsemble

/-!
# C108: ensembles
-/

set_option linter.unusedSectionVars false

namespace WBX
open DA Aggregator

section reductions
variable {L : Type} [DecidableEq L] {d k k' : Dim} {C C' : Finset L} {π : L → L} {n : ℕ} {V W : Type}

/-- Listed or not. -/
def StatVar.listedIf (d : Dim) (C' : Finset L) (π : L → L) (r : Bool) (a : StatVar L V) : StatVar L V := if r then a.listed d C' π else a

/-- An array with the cases, or a number. -/
def StatVar.Kept (d : Dim) (C : Finset L) (r : Bool) (a : StatVar L V) : Prop := if r then a.Along d C ∧ d ∈ a.arr.dims else a.arr.Without d ∧ a.mask = none

theorem Kept.along {r : Bool} {a : StatVar L V} (h : a.Kept d C r) : a.Along d C := by
  cases r
  · exact ⟨⟨fun hd => absurd hd h.1.1, fun _ => h.1⟩, fun m hm => absurd (h.2.symm.trans hm) (by simp)⟩
  · exact h.1

theorem Kept.map {r : Bool} {a : StatVar L V} (h : a.Kept d C r) (f : V → W) : (a.map f).Kept d C r := by
  cases r
  · exact ⟨h.1.map f, h.2⟩
  · exact ⟨h.1.map f, h.2⟩

theorem listedIf_map (f : V → W) (r : Bool) (a : StatVar L V) : (a.listedIf d C' π r).map f = (a.map f).listedIf d C' π r := by cases r <;> rfl

theorem combineMask_none (m : Option (DA L Bool)) : combineMask m none = m := by cases m <;> rfl
theorem combineMask_none_left (m : Option (DA L Bool)) : combineMask none m = m := by cases m <;> rfl

variable {U : Type}

theorem Kept.zip {r s : Bool} {a : StatVar L V} {b : StatVar L W} (ha : a.Kept d C r) (hb : b.Kept d C s) (f : V → W → U) : (a.zipWith f b).Kept d C (r || s) := by
  cases r <;> cases s
  · refine ⟨ha.1.zip hb.1 f, ?_⟩
    show combineMask a.mask b.mask = none
    rw [ha.2, hb.2]; rfl
  · exact ⟨StatVar.Along.zip (Kept.along ha) (Kept.along hb) f, Finset.mem_union_right _ hb.2⟩
  · exact ⟨StatVar.Along.zip (Kept.along ha) (Kept.along hb) f, Finset.mem_union_left _ ha.2⟩
  · exact ⟨StatVar.Along.zip (Kept.along ha) (Kept.along hb) f, Finset.mem_union_left _ ha.2⟩

theorem listed_zip_right (f : V → W → U) {a : DA L V} {b : DA L W} (ha : a.Without d) : DA.zipWith f a (b.copied d C' π) = (DA.zipWith f a b).copied d C' π := by
  refine DA.same_of rfl ?_ ?_
  · funext j
    show (if j ∈ a.dims then (if j ∈ b.dims then a.coords j ∩ (if j = d then C' else b.coords j) else a.coords j) else if j = d then C' else b.coords j) =
      if j = d then C' else if j ∈ a.dims then (if j ∈ b.dims then a.coords j ∩ b.coords j else a.coords j) else b.coords j
    by_cases hj : j = d
    · rw [if_pos hj, if_pos hj, if_neg (fun (hh : j ∈ a.dims) => ha.1 (by rw [← hj]; exact hh))]
    · rw [if_neg hj, if_neg hj]
  · funext e
    show f (a.val e) _ = f (a.val (setLabel e d (π (e d)))) _
    rw [ha.2]; rfl

theorem listedIf_zip (h : Lists C C' π) (f : V → W → U) {r s : Bool} {a : StatVar L V} {b : StatVar L W} (ha : a.Kept d C r) (hb : b.Kept d C s) :
    (a.listedIf d C' π r).zipWith f (b.listedIf d C' π s) = (a.zipWith f b).listedIf d C' π (r || s) := by
  cases r <;> cases s
  · rfl
  · show (⟨DA.zipWith f a.arr (b.arr.copied d C' π), combineMask a.mask (b.mask.map _)⟩ : StatVar L U) = ⟨(DA.zipWith f a.arr b.arr).copied d C' π, (combineMask a.mask b.mask).map _⟩
    rw [listed_zip_right f ha.1, ha.2, combineMask_none_left, combineMask_none_left]
  · show (⟨DA.zipWith f (a.arr.copied d C' π) b.arr, combineMask (a.mask.map _) b.mask⟩ : StatVar L U) = ⟨(DA.zipWith f a.arr b.arr).copied d C' π, (combineMask a.mask b.mask).map _⟩
    rw [listed_zip_left f ha.2 hb.1, hb.2, combineMask_none, combineMask_none]
  · exact listed_sv_zip h f (Kept.along ha) (Kept.along hb)

theorem mem_listedIf (r : Bool) (a : StatVar L V) : (a.listedIf d C' π r).arr.dims = a.arr.dims := by cases r <;> rfl

theorem coords_listedIf (hk : k ≠ d) (r : Bool) (a : StatVar L V) : (a.listedIf d C' π r).arr.coords k = a.arr.coords k := by
  cases r
  · rfl
  · show (if k = d then C' else a.arr.coords k) = _
    rw [if_neg hk]

theorem reduce_listed (f : Finset L → (L → V) → W) (hk : k ≠ d) (a : StatVar L V) : (a.listed d C' π).reduce k f = (a.reduce k f).listed d C' π := by
  obtain ⟨a, m⟩ := a
  show (⟨_, dropMask k (m.map _)⟩ : StatVar L W) = ⟨_, (dropMask k m).map _⟩
  congr 1
  · refine DA.same_of rfl rfl ?_
    funext e
    show f (if k = d then C' else a.coords k) (fun l => a.val (setLabel (setLabel e k l) d (π (setLabel e k l d)))) = f (a.coords k) (fun l => a.val (setLabel (setLabel e d (π (e d))) k l))
    rw [if_neg hk]
    congr 1
    funext l
    rw [show setLabel e k l d = e d from if_neg hk.symm, setLabel_comm e hk]
  · rcases m with _ | m
    · rfl
    · show (if k ∈ m.dims then none else some (m.copied d C' π)) = (if k ∈ m.dims then none else some m).map _
      split <;> rfl

theorem reduce_listedIf (f : Finset L → (L → V) → W) (hk : k ≠ d) (r : Bool) (a : StatVar L V) : (a.listedIf d C' π r).reduce k f = (a.reduce k f).listedIf d C' π r := by
  cases r
  · rfl
  · exact reduce_listed f hk a

theorem Kept.reduce {a : StatVar L V} (h : a.Kept d C true) (f : Finset L → (L → V) → W) (hk : k ≠ d) : (a.reduce k f).Kept d C true := by
  have hd : d ∈ (a.reduce k f).arr.dims := Finset.mem_erase.2 ⟨hk.symm, h.2⟩
  refine ⟨⟨⟨fun _ => h.1.1.1 h.2, fun hh => absurd hd hh⟩, fun m hm => ?_⟩, hd⟩
  obtain ⟨a, m'⟩ := a
  rcases m' with _ | m'
  · cases hm
  · have hm : (if k ∈ m'.dims then none else some m') = some m := hm
    split at hm
    · cases hm
    · exact h.1.2 m hm

theorem rename_listed (hk : k ≠ d) (hk' : k' ≠ d) (a : DA L V) : (a.copied d C' π).rename k k' = (a.rename k k').copied d C' π := by
  unfold DA.rename
  show (if k ∈ a.dims then _ else _) = _
  split
  · refine DA.same_of rfl ?_ ?_
    · funext j
      show (if j = k' then (if k = d then C' else a.coords k) else if j = d then C' else a.coords j) = if j = d then C' else if j = k' then a.coords k else a.coords j
      by_cases h1 : j = k'
      · have hjd : j ≠ d := by rw [h1]; exact hk'
        rw [if_pos h1, if_neg hk, if_neg hjd, if_pos h1]
      · rw [if_neg h1, if_neg h1]
    · funext e
      show a.val (setLabel (setLabel e k (e k')) d (π (setLabel e k (e k') d))) = a.val (setLabel (setLabel e d (π (e d))) k (setLabel e d (π (e d)) k'))
      rw [show setLabel e k (e k') d = e d from if_neg hk.symm, show setLabel e d (π (e d)) k' = e k' from if_neg hk', setLabel_comm e hk]
  · rfl

theorem DA.Along.rename (hk : k ≠ d) (hk' : k' ≠ d) {a : DA L V} (h : a.Along d C) : (a.rename k k').Along d C := by
  by_cases hd : d ∈ a.dims
  · unfold DA.rename
    split
    · have hin : d ∈ insert k' (a.dims.erase k) := Finset.mem_insert_of_mem (Finset.mem_erase.2 ⟨hk.symm, hd⟩)
      refine ⟨fun _ => ?_, fun hh => absurd hin hh⟩
      show (if d = k' then a.coords k else a.coords d) = C
      rw [if_neg hk'.symm]
      exact h.1 hd
    · exact h
  · have hw := (h.2 hd).rename hk hk'
    exact ⟨fun hh => absurd hh hw.1, fun _ => hw⟩

/-- The second computation lists the result of the first one (if `r`), or has the same error; the result of the first one has the cases. -/
def Listing (d : Dim) (C C' : Finset L) (π : L → L) (r : Bool) (x y : Except Err (StatVar L V)) : Prop := y = x.map (StatVar.listedIf d C' π r) ∧ ∀ o, x = .ok o → o.Kept d C r

theorem Listing.pure' {r : Bool} {a b : StatVar L V} (h : a.Kept d C r) (hb : b = a.listedIf d C' π r) : Listing d C C' π r (.ok a) (.ok b) := ⟨by rw [hb]; rfl, fun o ho => by cases ho; exact h⟩

theorem Listing.pure {r : Bool} {a : StatVar L V} (h : a.Kept d C r) : Listing d C C' π r (.ok a) (.ok (a.listedIf d C' π r)) := .pure' h rfl

theorem Listing.error {r : Bool} (e : Err) : Listing (V := V) d C C' π r (.error e) (.error e) := ⟨rfl, fun o ho => by cases ho⟩

theorem Listing.bind {r s : Bool} {x y : Except Err (StatVar L V)} {f g : StatVar L V → Except Err (StatVar L W)} (h : Listing d C C' π r x y) (hf : ∀ a, a.Kept d C r → Listing d C C' π s (f a) (g (a.listedIf d C' π r))) :
    Listing d C C' π s (x >>= f) (y >>= g) := by
  rw [h.1]
  rcases x with e | a
  · exact .error e
  · exact hf a (h.2 a rfl)

theorem rename_listing (hk : k ≠ d) (hk' : k' ≠ d) {a : StatVar L V} (h : a.Kept d C true) : Listing d C C' π true (a.rename k k') ((a.listedIf d C' π true).rename k k') := by
  obtain ⟨a, m⟩ := a
  unfold StatVar.rename
  simp only [mem_listedIf]
  split
  · refine .pure' ⟨⟨h.1.1.rename hk hk', fun m' hm => ?_⟩, ?_⟩ ?_
    · rcases m with _ | m
      · cases hm
      · cases hm
        exact (h.1.2 m rfl).rename hk hk'
    · show d ∈ (a.rename k k').dims
      unfold DA.rename
      split
      · exact Finset.mem_insert_of_mem (Finset.mem_erase.2 ⟨hk.symm, h.2⟩)
      · exact h.2
    · show (⟨_, _⟩ : StatVar L V) = ⟨_, _⟩
      congr 1
      · exact rename_listed hk hk' a
      · rcases m with _ | m
        · rfl
        · exact congrArg some (rename_listed hk hk' m)
  · exact .error _

variable {K : Type} [Field K] [LinearOrder K] [IsStrictOrderedRing K]

theorem meanDim_listing (hk : k ≠ d) (skipna : Bool) {a : StatVar L (FV K)} (h : a.Kept d C true) : Listing d C C' π true (a.meanDim skipna k) ((a.listedIf d C' π true).meanDim skipna k) := by
  unfold StatVar.meanDim
  simp only [mem_listedIf, reduce_listedIf _ hk]
  split
  · exact .pure (Kept.reduce h _ hk)
  · exact .error _

theorem varDim_listing (hk : k ≠ d) (skipna : Bool) {a : StatVar L (FV K)} (h : a.Kept d C true) : Listing d C C' π true (a.varDim skipna k) ((a.listedIf d C' π true).varDim skipna k) := by
  unfold StatVar.varDim
  simp only [mem_listedIf, reduce_listedIf _ hk]
  split
  · exact .pure (Kept.reduce h _ hk)
  · exact .error _

/-- The size of the ensemble is a number without `skipna`, and is not listed. -/
theorem sizeDim_listing (hk : k ≠ d) (skipna : Bool) {a : StatVar L (FV K)} (h : a.Kept d C true) : Listing d C C' π skipna (a.sizeDim skipna k) ((a.listedIf d C' π true).sizeDim skipna k) := by
  unfold StatVar.sizeDim
  simp only [mem_listedIf, reduce_listedIf _ hk, coords_listedIf hk]
  split
  · cases skipna
    · exact .pure' ⟨scalar_without _, rfl⟩ rfl
    · simp only [↓reduceIte]
      exact .pure (Kept.reduce h _ hk)
  · exact .error _

theorem rank_listed (argsort : List (FV K) → List ℕ) (order : List L) (hk : k ≠ d) (a : StatVar L (FV K)) :
    rankDA argsort order k (a.listedIf d C' π true) = (rankDA argsort order k a).listedIf d C' π true := by
  show (⟨_, _⟩ : StatVar L (FV K)) = ⟨_, _⟩
  congr 1
  refine DA.same_of rfl rfl ?_
  funext e
  show FV.ofNat (rankdata argsort (order.map (fun l => a.arr.val (setLabel (setLabel e k l) d (π (setLabel e k l d))))) (order.idxOf (e k))) =
    FV.ofNat (rankdata argsort (order.map (fun l => a.arr.val (setLabel (setLabel e d (π (e d))) k l))) (order.idxOf (setLabel e d (π (e d)) k)))
  rw [show setLabel e d (π (e d)) k = e k from if_neg hk]
  simp only [show ∀ l, setLabel e k l d = e d from fun l => if_neg hk.symm, setLabel_comm e hk]

theorem rank_kept (argsort : List (FV K) → List ℕ) (order : List L) {a : StatVar L (FV K)} (h : a.Kept d C true) : (rankDA argsort order k a).Kept d C true :=
  ⟨⟨⟨h.1.1.1, fun hd => absurd h.2 hd⟩, h.1.2⟩, h.2⟩

end reductions

section statistics
variable {L K : Type} [DecidableEq L] [Field K] [LinearOrder K] [IsStrictOrderedRing K] {d k : Dim} {C C' : Finset L} {π : L → L} {n : ℕ}

/-- A statistic lists what it lists, on arrays that all have the dimension. -/
def EachCaseOf (d : Dim) (C C' : Finset L) (π : L → L) (s : FStatistic L K) : Prop := ∀ p t, AllHaveCases d C p → AllHaveCases d C t →
    s.compute (listCases d C' π p) (listCases d C' π t) = (s.compute p t).map (listStats d C' π) ∧ ∀ out, s.compute p t = .ok out → ∀ v a, (v, some a) ∈ out → a.Along d C

theorem statOfE_listing {name : String} {f : StatVar L (FV K) → StatVar L (FV K) → Except Err (StatVar L (FV K))}
    (hf : ∀ a b, a.Kept d C true → b.Kept d C true → Listing d C C' π true (f a b) (f (a.listedIf d C' π true) (b.listedIf d C' π true))) : EachCaseOf d C C' π (statOfE name f) := by
  intro p t hp ht
  refine perVariable_at (P := fun a => a.Along d C ∧ d ∈ a.arr.dims) (fun a b ha hb => ?_) hp ht
  obtain ⟨h1, h2⟩ := hf a b ha hb
  have h1 : f (a.listed d C' π) (b.listed d C' π) = (f a b).map (StatVar.listedIf d C' π true) := h1
  rw [h1]
  rcases hr : f a b with e | s
  · exact ⟨rfl, fun x hx => by cases hx⟩
  · exact ⟨rfl, fun x hx => by cases hx; exact Kept.along (h2 _ hr)⟩

theorem variance_listing (hk : k ≠ d) (skipna : Bool) : EachCaseOf d C C' π (ensembleVarianceStatistic (L := L) (K := K) k skipna) := statOfE_listing (fun _ _ ha _ => varDim_listing hk skipna ha)

theorem unbiasedMSE_listing (h : Lists C C' π) (hk : k ≠ d) (skipna : Bool) : EachCaseOf d C C' π (unbiasedMSEStatistic (L := L) (K := K) k skipna) := by
  refine statOfE_listing (fun p t hp ht => ?_)
  unfold unbiasedMSE
  refine (meanDim_listing hk skipna hp).bind (fun pm hpm => (varDim_listing hk skipna hp).bind (fun pv hpv => (sizeDim_listing hk skipna hp).bind (fun pn hpn => ?_)))
  simp only [mem_listedIf]
  split
  · refine (meanDim_listing hk skipna ht).bind (fun tm htm => (varDim_listing hk skipna ht).bind (fun tv htv => (sizeDim_listing hk skipna ht).bind (fun tn htn => ?_)))
    have hw := Kept.zip (Kept.map (Kept.zip hpm htm (· - ·)) FV.sq) (Kept.zip hpv hpn (· / ·)) (· - ·)
    refine .pure' (Kept.zip hw (Kept.zip htv htn (· / ·)) _) ?_
    rw [listedIf_zip h _ hpm htm, listedIf_map, listedIf_zip h _ hpv hpn, listedIf_zip h _ (Kept.map (Kept.zip hpm htm _) _) (Kept.zip hpv hpn _), listedIf_zip h _ htv htn,
      listedIf_zip h _ hw (Kept.zip htv htn _)]
    rfl
  · have hw := Kept.zip (Kept.map (Kept.zip hpm ht (· - ·)) FV.sq) (Kept.zip hpv hpn (· / ·)) (· - ·)
    refine .pure' (Kept.map hw _) ?_
    rw [listedIf_zip h _ hpm ht, listedIf_map, listedIf_zip h _ hpv hpn, listedIf_zip h _ (Kept.map (Kept.zip hpm ht _) _) (Kept.zip hpv hpn _), listedIf_map]
    rfl

theorem crpsSkill_listing (h : Lists C C' π) (hk : k ≠ d) (hk' : k ++ "_PSEUDO_FOR_TARGETS" ≠ d) (skipna : Bool) : EachCaseOf d C C' π (crpsSkillStatistic (L := L) (K := K) k skipna) := by
  refine statOfE_listing (fun p t hp ht => ?_)
  unfold crpsSkill
  dsimp only
  simp only [mem_listedIf]
  split
  · refine (rename_listing hk hk' ht).bind (fun t' ht' => ?_)
    have ha : ((p.zipWith (fun x y : FV K => x - y) t').map FV.abs).Kept d C true := Kept.map (Kept.zip hp ht' _) _
    rw [listedIf_zip h _ hp ht', listedIf_map]
    simp only [Bool.or_self, mem_listedIf, reduce_listedIf _ hk, reduce_listedIf _ hk']
    split
    · have h2 := fun f g => Kept.reduce (W := FV K) (Kept.reduce (W := FV K) ha f hk) g hk'
      refine .pure' (Kept.zip (h2 _ _) (h2 _ _) _) ?_
      rw [listedIf_zip h _ (h2 _ _) (h2 _ _)]
      rfl
    · exact .error _
  · rw [listedIf_zip h _ hp ht, listedIf_map]
    exact meanDim_listing hk skipna (Kept.map (Kept.zip hp ht _) _)

theorem crpsSpread_listing (argsort : List (FV K) → List ℕ) (order : List L) (h : Lists C C' π) (hk : k ≠ d) (hk' : "ensemble_dim_2" ≠ d) (useSort fair skipna : Bool) :
    EachCaseOf d C C' π (crpsSpreadStatistic argsort order k useSort fair "predictions" skipna) := by
  refine statOfE_listing (fun p t hp ht => ?_)
  unfold crpsSpread
  have hw : ∀ p t : StatVar L (FV K), whichArray "predictions" p t = .ok p := fun p t => if_pos rfl
  rw [hw, hw]
  show Listing d C C' π true (p.sizeDim skipna k >>= _) ((p.listedIf d C' π true).sizeDim skipna k >>= _)
  refine (sizeDim_listing hk skipna hp).bind (fun m hm => ?_)
  dsimp only
  rw [coords_listedIf hk]
  split
  · exact .error _
  · split
    · split
      · exact .error _
      · have hr := rank_kept (k := k) argsort order hp
        have hc := Kept.map (Kept.zip (Kept.map hr (fun x => FV.ofNat 2 * x)) hm (· - ·)) (fun x => x - FV.ofNat 1)
        rw [rank_listed argsort order hk, listedIf_map, listedIf_zip h _ (Kept.map hr _) hm, listedIf_map, listedIf_zip h _ hc hp]
        refine (meanDim_listing hk false (Kept.zip hc hp _)).bind (fun q hq => ?_)
        refine .pure' (Kept.zip (Kept.map hq _) (Kept.map hm _) _) ?_
        rw [listedIf_map, listedIf_map, listedIf_zip h _ (Kept.map hq _) (Kept.map hm _)]
        rfl
    · refine (rename_listing hk hk' hp).bind (fun q hq => ?_)
      have ha : ((p.zipWith (fun x y : FV K => x - y) q).map FV.abs).Kept d C true := Kept.map (Kept.zip hp hq _) _
      have hr := Kept.reduce (W := FV K) (Kept.reduce (W := FV K) ha (npSum skipna) hk) (npSum false) hk'
      have hz := Kept.zip hm (Kept.map hm (fun x => x - FV.ofNat (if fair then 1 else 0))) (fun x y : FV K => x * y)
      rw [listedIf_zip h _ hp hq, listedIf_map, reduce_listedIf _ hk, reduce_listedIf _ hk', listedIf_map, listedIf_zip h _ hm (Kept.map hm _)]
      refine .pure' (Kept.zip hr hz _) ?_
      exact listedIf_zip h _ hr hz

/-- **C108** The pipeline for metrics of ensembles. -/
theorem C108_ensembles {m : FMetric L K} {agg : Aggregator L (FV K)} (hn : n ≠ 0) (h : Copies n C C' π) (hagg : agg.TreatsAlike d C' π) (hm : m.EachCase d C C' π) {p t : Vars (StatVar L (FV K))} (hp : AllHaveCases d C p) (ht : AllHaveCases d C t) :
    metricAlone m agg (listCases d C' π p) (listCases d C' π t) = (metricAlone m agg p t).map (sameValuesAs d C') :=
  metricAlone_cases h hagg (FV.nsmul_div n hn) (fun ks hks => hm.statistics ks hks p t hp ht) hm.formula

theorem eachCase_of {m : FMetric L K} (hm : m.Repeats .both d C') (hs : ∀ ks ∈ m.statistics, EachCaseOf d C C' π ks.2) : m.EachCase d C C' π := ⟨hs, hm.formula⟩

/-- **C108** The CRPS of an ensemble with members along another dimension: fair or not, with sorting or pairwise. -/
theorem C108_crps (argsort : List (FV K) → List ℕ) (order : List L) (h : Lists C C' π) (hk : k ≠ d) (hk' : k ++ "_PSEUDO_FOR_TARGETS" ≠ d) (hk2 : "ensemble_dim_2" ≠ d) (useSort fair skipna : Bool) :
    (crpsEnsemble (L := L) (K := K) argsort order k useSort fair skipna).EachCase d C C' π := by
  refine eachCase_of (C106_crps argsort order hk hk' hk2 useSort fair skipna (by simp)) (fun ks hks => ?_)
  simp only [crpsEnsemble, metric2, perVariableMetric, List.mem_cons, List.not_mem_nil, or_false] at hks
  rcases hks with rfl | rfl
  · exact crpsSkill_listing h hk hk' skipna
  · exact crpsSpread_listing argsort order h hk hk2 useSort fair skipna

/-- **C108** The unbiased squared error of the ensemble mean, and the variance of the ensemble. -/
theorem C108_moments (h : Lists C C' π) (hk : k ≠ d) (skipna : Bool) :
    ((unbiasedMSEStatistic (L := L) (K := K) k skipna).toMetric (M := DA L (FV K))).EachCase d C C' π ∧ ((ensembleVarianceStatistic (L := L) (K := K) k skipna).toMetric (M := DA L (FV K))).EachCase d C C' π :=
  ⟨eachCase_of (C106_unbiased hk skipna) (fun ks hks => by rw [List.mem_singleton.1 (show ks ∈ [_] from hks)]; exact unbiasedMSE_listing h hk skipna),
   eachCase_of (C106_variance hk skipna (by simp)) (fun ks hks => by rw [List.mem_singleton.1 (show ks ∈ [_] from hks)]; exact variance_listing hk skipna)⟩

end statistics

section roots
variable {L : Type} [DecidableEq L] {d k : Dim} {C C' : Finset L} {π : L → L} {n : ℕ}

/-- **C108** The ratio of spread and skill, and the root mean variance and unbiased root mean squared error. -/
theorem C108_spread_skill (h : Lists C C' π) (hk : k ≠ d) (skipna : Bool) : (spreadSkillRatio (L := L) k skipna).EachCase d C C' π ∧ (unbiasedRMSE (L := L) k skipna).EachCase d C C' π ∧
    (ensembleRootMeanVariance (L := L) k skipna).EachCase d C C' π := by
  have hv := ensembleVariance_repeats (L := L) (K := ℝ) (sides := .both) (C := C') hk skipna rfl
  have hu := unbiasedMSE_repeats (L := L) (K := ℝ) (sides := .both) (C := C') hk skipna
  refine ⟨eachCase_of (metric2_repeats hv hu (fun _ _ => by simp only [labels_div, withLabels_map])) (fun ks hks => ?_), eachCase_of (metric1_repeats hu (fun _ => rfl)) (fun ks hks => ?_),
    eachCase_of (metric1_repeats hv (fun _ => rfl)) (fun ks hks => ?_)⟩
  · simp only [spreadSkillRatio, metric2, perVariableMetric, List.mem_cons, List.not_mem_nil, or_false] at hks
    rcases hks with rfl | rfl
    · exact variance_listing hk skipna
    · exact unbiasedMSE_listing h hk skipna
  · rw [List.mem_singleton.1 (show ks ∈ [_] from hks)]
    exact unbiasedMSE_listing h hk skipna
  · rw [List.mem_singleton.1 (show ks ∈ [_] from hks)]
    exact variance_listing hk skipna

/-- The fair CRPS of an ensemble, for forecasts that occur twice each in the data, in the example evaluation. -/
example {degrees : L → ℝ} (argsort : List (FV ℝ) → List ℕ) (name : String → L) (order members : List L) (f : Example.Flags) (hf : "init_time" ∈ f.reduceDims) (h : Copies 2 C C' π) {p t : Vars (StatVar L (FV ℝ))}
    (hp : AllHaveCases "init_time" C p) (ht : AllHaveCases "init_time" C t) :
    metricAlone (crpsEnsemble argsort members "realization" false true false) (Example.aggregator name order degrees f) (listCases "init_time" C' π p) (listCases "init_time" C' π t) =
      (metricAlone (crpsEnsemble argsort members "realization" false true false) (Example.aggregator name order degrees f) p t).map (sameValuesAs "init_time" C') :=
  C108_ensembles (by decide) h (example_treatsAlike (by decide +kernel) (by decide +kernel) (by decide +kernel) name order f hf)
    (C108_crps argsort members (h.lists (by decide)) (by decide +kernel) (by decide +kernel) (by decide +kernel) false true false) hp ht

/-- Two init times of a forecast with three members, listed twice each; the observations have both times. -/
example : Copies 2 ({1, 3} : Finset ℕ) {1, 2, 3, 4} firstOf ∧ AllHaveCases "init_time" {1, 3} [("t2m", (⟨⟨{"init_time", "realization"}, fun k => if k = "init_time" then {1, 3} else {0, 1, 2}, fun e => e "init_time" + e "realization"⟩, none⟩ : StatVar ℕ ℕ))] ∧
    AllHaveCases "init_time" {1, 3} [("t2m", (⟨⟨{"init_time"}, fun _ => {1, 3}, fun e => e "init_time"⟩, none⟩ : StatVar ℕ ℕ))] :=
  ⟨twoMembers_copies, fun kv hkv => by rw [List.mem_singleton.1 hkv]; exact ⟨⟨⟨fun _ => rfl, fun hd => absurd (by decide +kernel) hd⟩, fun _ h => by cases h⟩, by decide +kernel⟩,
   fun kv hkv => by rw [List.mem_singleton.1 hkv]; exact ⟨⟨⟨fun _ => rfl, fun hd => absurd (by decide +kernel) hd⟩, fun _ h => by cases h⟩, by decide +kernel⟩⟩

end roots
end WBX
