import Verif.Spec.Samples
import Verif.Lemmas.Repeated
import Verif.Props.Copies

/-!
# Cases that are listed several times
-/

namespace WBX
open DA Aggregator
set_option linter.unusedSectionVars false

section arrays
variable {L V W U : Type} [DecidableEq L] {d : Dim} {C C' : Finset L} {π : L → L} {n : ℕ}

theorem listed_zip (f : V → W → U) (a : DA L V) (b : DA L W) : DA.zipWith f (a.copied d C' π) (b.copied d C' π) = (DA.zipWith f a b).copied d C' π := by
  refine DA.same_of rfl ?_ rfl
  funext k
  simp only [DA.zipWith, DA.joinCoords, DA.copied]
  by_cases hk : k = d
  · simp [hk]
  · simp [hk]

/-- With an array that does not have the dimension. -/
theorem listed_zip_left (f : V → W → U) {a : DA L V} {b : DA L W} (ha : d ∈ a.dims) (hb : b.Without d) : DA.zipWith f (a.copied d C' π) b = (DA.zipWith f a b).copied d C' π := by
  refine DA.same_of rfl ?_ ?_
  · funext k
    simp only [DA.zipWith, DA.joinCoords, DA.copied]
    by_cases hk : k = d
    · subst hk; simp [ha, hb.1]
    · simp [hk]
  · funext e
    show f _ (b.val e) = f _ (b.val (setLabel e d (π (e d))))
    rw [hb.2]; rfl

theorem listed_foldl [Mul V] : ∀ (bs : List (DA L V)) {a : DA L V}, d ∈ a.dims → (∀ b ∈ bs, b.Without d) →
    bs.foldl (DA.zipWith (· * ·)) (a.copied d C' π) = (bs.foldl (DA.zipWith (· * ·)) a).copied d C' π
  | [], _, _, _ => rfl
  | b :: bs, a, ha, hb => by
    rw [List.foldl_cons, List.foldl_cons, listed_zip_left _ ha (hb b List.mem_cons_self), listed_foldl bs (Finset.mem_union_left _ ha) (fun c hc => hb c (List.mem_cons_of_mem _ hc))]

theorem foldl_coords [Mul V] : ∀ (bs : List (DA L V)) {a : DA L V}, d ∈ a.dims → (∀ b ∈ bs, b.Without d) → (bs.foldl (DA.zipWith (· * ·)) a).coords d = a.coords d
  | [], _, _, _ => rfl
  | b :: bs, a, ha, hb => by
    rw [List.foldl_cons, foldl_coords bs (Finset.mem_union_left _ ha) (fun c hc => hb c (List.mem_cons_of_mem _ hc))]
    show joinCoords a b d = _
    unfold joinCoords
    rw [if_pos ha, if_neg (hb b List.mem_cons_self).1]

variable [AddCommMonoid V]

theorem sum_listed (h : Copies n C C' π) {a : DA L V} (ha : a.coords d = C) : (a.copied d C' π).sumDim d = ((a.sumDim d).times n).withLabels d C' := by
  refine DA.same_of rfl rfl ?_
  funext e
  show ∑ l ∈ (if d = d then C' else _), a.val (setLabel (setLabel e d l) d (π (setLabel e d l d))) = n • ∑ l ∈ a.coords d, a.val (setLabel e d l)
  simp only [if_pos, setLabel_twice, setLabel_same, ha]
  exact h.sum (fun l => a.val (setLabel e d l))

theorem sumDim_listed {k : Dim} (hk : k ≠ d) (a : DA L V) : (a.copied d C' π).sumDim k = (a.sumDim k).copied d C' π := by
  refine DA.same_of rfl rfl ?_
  funext e
  show ∑ l ∈ (if k = d then C' else a.coords k), a.val (setLabel (setLabel e k l) d (π (setLabel e k l d))) = ∑ l ∈ a.coords k, a.val (setLabel (setLabel e d (π (e d))) k l)
  rw [if_neg hk]
  refine Finset.sum_congr rfl (fun l _ => ?_)
  rw [show setLabel e k l d = e d from if_neg hk.symm, setLabel_comm e hk]

theorem sumDims_listed (h : Copies n C C' π) : ∀ (ds : List Dim) {a : DA L V}, ds.Nodup → d ∈ ds → a.coords d = C → DA.sumDims ds (a.copied d C' π) = ((DA.sumDims ds a).times n).withLabels d C'
  | [], _, _, hd, _ => absurd hd (by simp)
  | k :: ds, a, hn, hd, ha => by
    rw [DA.sumDims, DA.sumDims]
    by_cases hk : k = d
    · subst hk
      rw [sum_listed h ha, sumDims_times _ _ _ (List.nodup_cons.1 hn).1]
    · rw [sumDim_listed hk, sumDims_listed h ds (a := a.sumDim k) (List.nodup_cons.1 hn).2 ((List.mem_cons.1 hd).resolve_left (Ne.symm hk)) ha]

theorem listed_dot [Mul V] (h : Copies n C C' π) {a : DA L V} (hda : d ∈ a.dims) (ha : a.coords d = C) {bs : List (DA L V)} (hb : ∀ b ∈ bs, b.Without d) {ds : List Dim} (hn : ds.Nodup) (hd : d ∈ ds) :
    DA.dot (a.copied d C' π) bs ds = ((DA.dot a bs ds).times n).withLabels d C' := by
  rw [DA.dot, DA.dot, listed_foldl bs hda hb, sumDims_listed h ds hn hd (by rw [foldl_coords bs hda hb, ha])]

end arrays

section along
variable {L V W U : Type} [DecidableEq L] {d : Dim} {C C' : Finset L} {π : L → L} {n : ℕ}

theorem Copies.lists (hn : n ≠ 0) (h : Copies n C C' π) : Lists C C' π := by
  refine ⟨h.maps, fun l hl => ?_⟩
  obtain ⟨l', hl'⟩ := Finset.card_pos.1 (show 0 < (C'.filter (fun l' => π l' = l)).card by rw [h.fibres _ hl]; exact Nat.pos_of_ne_zero hn)
  obtain ⟨hl1, hl2⟩ := Finset.mem_filter.1 hl'
  exact ⟨l', hl1, hl2⟩

theorem ListedTimes.lists {m : L → ℕ} (h : ListedTimes m C C' π) : Lists C C' π := by
  refine ⟨h.maps, fun l hl => ?_⟩
  obtain ⟨l', hl'⟩ := Finset.card_pos.1 (show 0 < (C'.filter (fun l' => π l' = l)).card by rw [h.fibres _ hl]; exact Nat.pos_of_ne_zero (h.positive l))
  obtain ⟨hl1, hl2⟩ := Finset.mem_filter.1 hl'
  exact ⟨l', hl1, hl2⟩

theorem DA.Along.map {a : DA L V} (h : a.Along d C) (f : V → W) : (a.map f).Along d C := ⟨h.1, fun hd => (h.2 hd).map f⟩

theorem DA.Along.zip {a : DA L V} {b : DA L W} (h : a.Along d C) (h' : b.Along d C) (f : V → W → U) : (DA.zipWith f a b).Along d C := by
  refine ⟨fun hd => ?_, fun hd => ?_⟩
  · show joinCoords a b d = C
    unfold joinCoords
    by_cases ha : d ∈ a.dims <;> by_cases hb : d ∈ b.dims
    · rw [if_pos ha, if_pos hb, h.1 ha, h'.1 hb, Finset.inter_self]
    · rw [if_pos ha, if_neg hb, h.1 ha]
    · rw [if_neg ha, h'.1 hb]
    · exact absurd (Finset.mem_union.1 hd) (not_or.2 ⟨ha, hb⟩)
  · have hd := not_or.1 (fun hh => hd (Finset.mem_union.2 hh))
    exact (h.2 hd.1).zip (h'.2 hd.2) f

/-- Two masks agree exactly if they agree on the listed cases. -/
theorem listed_equals (h : Lists C C' π) {m m' : DA L V} (hm : m.Along d C) (hm' : m'.Along d C) : (m.copied d C' π).Equals (m'.copied d C' π) ↔ m.Equals m' := by
  refine ⟨fun ⟨h1, h2, h3⟩ => ?_, fun ⟨h1, h2, h3⟩ => ?_⟩
  · have h1 : m.dims = m'.dims := h1
    refine ⟨h1, fun k hk => ?_, fun e he => ?_⟩
    · by_cases hkd : k = d
      · subst hkd
        rw [hm.1 hk, hm'.1 (h1 ▸ hk)]
      · have := h2 k hk
        simpa [DA.copied, hkd] using this
    · by_cases hd : d ∈ m.dims
      · have hed : e d ∈ C := by rw [← hm.1 hd]; exact he d hd
        obtain ⟨l', hl1, hl2⟩ := h.onto _ hed
        have := h3 (setLabel e d l') (fun k hk => by
          show setLabel e d l' k ∈ (if k = d then C' else m.coords k)
          by_cases hkd : k = d
          · rw [if_pos hkd, hkd, setLabel_same]; exact hl1
          · rw [if_neg hkd, show setLabel e d l' k = e k from if_neg hkd]; exact he k hk)
        have hself : setLabel e d (e d) = e := by
          funext k
          unfold setLabel
          split_ifs with hk
          · rw [hk]
          · rfl
        simpa only [DA.copied, setLabel_twice, setLabel_same, hl2, hself] using this
      · have := h3 e (fun k hk => by
          show e k ∈ (if k = d then C' else m.coords k)
          rw [if_neg (fun (hkd : k = d) => hd (by rw [← hkd]; exact hk))]; exact he k hk)
        have : m.val (setLabel e d (π (e d))) = m'.val (setLabel e d (π (e d))) := this
        rwa [(hm.2 hd).2, (hm'.2 (h1 ▸ hd)).2] at this
  · refine ⟨h1, fun k hk => ?_, fun e he => ?_⟩
    · show (if k = d then C' else m.coords k) = if k = d then C' else m'.coords k
      rw [h2 k hk]
    · refine h3 _ (fun k hk => ?_)
      have := he k hk
      by_cases hkd : k = d
      · subst hkd
        rw [setLabel_same, hm.1 hk]
        refine h.maps _ ?_
        simpa [DA.copied] using this
      · rw [show setLabel e d (π (e d)) k = e k from if_neg hkd]
        simpa [DA.copied, hkd] using this

theorem listed_combineMask (h : Lists C C' π) {m m' : Option (DA L Bool)} (hm : ∀ x, m = some x → x.Along d C) (hm' : ∀ x, m' = some x → x.Along d C) :
    combineMask (m.map (DA.copied d C' π)) (m'.map (DA.copied d C' π)) = (combineMask m m').map (DA.copied d C' π) := by
  rcases m with _ | x <;> rcases m' with _ | y
  · rfl
  · rfl
  · rfl
  · have := listed_equals h (hm x rfl) (hm' y rfl)
    simp only [Option.map_some]
    unfold combineMask
    dsimp only
    by_cases hE : x.Equals y
    · rw [if_pos hE, if_pos (this.2 hE)]; rfl
    · rw [if_neg hE, if_neg (fun hh => hE (this.1 hh))]; rfl

theorem combineMask_along {m m' : Option (DA L Bool)} (hm : ∀ x, m = some x → x.Along d C) (hm' : ∀ x, m' = some x → x.Along d C) : ∀ x, combineMask m m' = some x → x.Along d C := by
  intro z hz
  rcases m with _ | x <;> rcases m' with _ | y <;> unfold combineMask at hz
  · cases hz
  · exact hm' z hz
  · exact hm z hz
  · dsimp only at hz
    split at hz
    · exact hm z hz
    · cases hz

theorem StatVar.Along.map {a : StatVar L V} (h : a.Along d C) (f : V → W) : (a.map f).Along d C := ⟨h.1.map f, h.2⟩
theorem StatVar.Along.zip {a : StatVar L V} {b : StatVar L W} (h : a.Along d C) (h' : b.Along d C) (f : V → W → U) : (a.zipWith f b).Along d C := ⟨h.1.zip h'.1 f, combineMask_along h.2 h'.2⟩
theorem listed_sv_map (f : V → W) (a : StatVar L V) : (a.listed d C' π).map f = (a.map f).listed d C' π := rfl
theorem listed_sv_zip (h : Lists C C' π) (f : V → W → U) {a : StatVar L V} {b : StatVar L W} (ha : a.Along d C) (hb : b.Along d C) : (a.listed d C' π).zipWith f (b.listed d C' π) = (a.zipWith f b).listed d C' π := by
  unfold StatVar.zipWith StatVar.listed
  dsimp only
  rw [listed_zip, listed_combineMask h ha.2 hb.2]

end along

section aggregation
variable {L V : Type} [DecidableEq L] [AddCommMonoid V] [Mul V] [One V] [Div V] [IsNull V] {d : Dim} {C C' : Finset L} {π : L → L} {n : ℕ}

theorem listed_binMasks {stat : DA L V} : ∀ {bs : List (BinBy L V)}, (∀ b ∈ bs, ∀ a : DA L V, (b.createBinMask a).Without d ∧ b.createBinMask (a.copied d C' π) = b.createBinMask a) →
    binMasks (stat.copied d C' π) bs = binMasks stat bs
  | [], _ => rfl
  | b :: bs, h => by
    rw [binMasks, binMasks, (h b List.mem_cons_self stat).2, listed_binMasks (fun c hc => h c (List.mem_cons_of_mem _ hc))]
    rfl

theorem listed_aggregationFn {agg : Aggregator L V} (h : Copies n C C' π) (hagg : agg.TreatsAlike d C' π) {stat : DA L V} (hs : stat.Along d C) :
    agg.aggregationFn (stat.copied d C' π) = (agg.aggregationFn stat).map (Option.map (fun a => (a.times n).withLabels d C')) := by
  have hw : agg.weighBy.map (fun w => w (stat.copied d C' π)) = agg.weighBy.map (fun w => w stat) := List.map_congr_left (fun w hw => (hagg.weights w hw stat).2)
  unfold aggregationFn
  dsimp only
  rw [show (stat.copied d C' π).dims = stat.dims from rfl, hw, listed_binMasks hagg.bins]
  split
  · rfl
  · next hall =>
    have hd : d ∈ stat.dims := by
      have hall := not_not.1 hall
      exact of_decide_eq_true (List.all_eq_true.1 hall d hagg.dims)
    split
    · rfl
    · rcases hm : binMasks stat agg.binBy with _ | masks
      · rfl
      · show Except.ok _ = Except.ok _
        congr 1
        show some _ = some _
        congr 1
        refine listed_dot h hd (hs.1 hd) (fun b hb => ?_) (List.nodup_dedup _) (by rw [List.mem_dedup]; exact hagg.dims)
        rcases List.mem_append.1 hb with hb | hb
        · obtain ⟨w, hw, rfl⟩ := List.mem_map.1 hb
          exact (hagg.weights w hw stat).1
        · exact binMasks_without (fun b hb => (hagg.bins b hb stat).1) hm b hb

theorem listed_applyMask (agg : Aggregator L V) (stat : StatVar L V) :
    agg.applyMask (stat.listed d C' π) = ((agg.applyMask stat).1.copied d C' π, (agg.applyMask stat).2.copied d C' π) := by
  have hmap : ∀ {X Y : Type} (f : X → Y) (a : DA L X), (a.copied d C' π).map f = (a.map f).copied d C' π := fun _ _ => rfl
  obtain ⟨a, m⟩ := stat
  unfold applyMask
  cases agg.masked <;> cases m <;> cases agg.skipna <;>
    simp [StatVar.listed, hmap, DA.where_, DA.broadcastLike, listed_zip]

theorem applyMask_along (agg : Aggregator L V) {stat : StatVar L V} (hs : stat.Along d C) : (agg.applyMask stat).1.Along d C ∧ (agg.applyMask stat).2.Along d C := by
  obtain ⟨a, m⟩ := stat
  have ha : a.Along d C := hs.1
  unfold applyMask
  cases agg.masked
  · cases agg.skipna
    · exact ⟨ha, ha.map _⟩
    · exact ⟨ha.zip (ha.map _) _, (ha.map _).map _⟩
  · cases m with
    | none =>
      cases agg.skipna
      · exact ⟨ha, ha.map _⟩
      · exact ⟨ha.zip (ha.map _) _, (ha.map _).map _⟩
    | some m =>
      have hm := hs.2 m rfl
      cases agg.skipna
      · exact ⟨ha.zip hm _, (hm.zip (ha.zip hm _) _).map _⟩
      · exact ⟨ha.zip (hm.zip (ha.map _) _) _, ((hm.zip (ha.map _) _).zip (ha.zip (hm.zip (ha.map _) _) _) _).map _⟩

theorem listed_aggregateStatVar {agg : Aggregator L V} (h : Copies n C C' π) (hagg : agg.TreatsAlike d C' π) {stat : StatVar L V} (hs : stat.Along d C) :
    agg.aggregateStatVar (stat.listed d C' π) = (agg.aggregateStatVar stat).map (Option.map (fun q => ((q.1.times n).withLabels d C', (q.2.times n).withLabels d C'))) := by
  unfold aggregateStatVar
  rw [listed_applyMask agg stat]
  dsimp only
  rw [listed_aggregationFn h hagg (applyMask_along agg hs).1, listed_aggregationFn h hagg (applyMask_along agg hs).2]
  rcases agg.aggregationFn (agg.applyMask stat).1 with e | o
  · rfl
  · rcases agg.aggregationFn (agg.applyMask stat).2 with e | o'
    · cases o <;> rfl
    · cases o <;> cases o' <;> rfl

theorem listed_perVar {agg : Aggregator L V} (h : Copies n C C' π) (hagg : agg.TreatsAlike d C' π) : ∀ vars : Vars (Option (StatVar L V)), (∀ v a, (v, some a) ∈ vars → a.Along d C) →
    agg.perVar (listStats d C' π vars) = (agg.perVar vars).map (List.map (fun kq => (kq.1, ((kq.2.1.times n).withLabels d C', (kq.2.2.times n).withLabels d C'))))
  | [], _ => rfl
  | (k, none) :: vars, hv => by
    have := listed_perVar h hagg vars (fun v a hm => hv v a (List.mem_cons_of_mem _ hm))
    unfold listStats at this ⊢
    rw [List.map_cons, perVar]
    simp only [Option.map_none]
    rw [perVar, this]
  | (k, some s) :: vars, hv => by
    have ih := listed_perVar h hagg vars (fun v a hm => hv v a (List.mem_cons_of_mem _ hm))
    unfold listStats at ih ⊢
    rw [List.map_cons, perVar]
    simp only [Option.map_some]
    rw [perVar, ih, listed_aggregateStatVar h hagg (hv k s List.mem_cons_self)]
    rcases agg.aggregateStatVar s with e | o
    · rfl
    · rcases agg.perVar vars with e | rs
      · cases o <;> rfl
      · cases o <;> rfl

/-- The mean over the listed cases is the mean over the cases. -/
theorem listed_meanVars {agg : Aggregator L V} (h : Copies n C C' π) (hagg : agg.TreatsAlike d C' π) (hdiv : ∀ x y : V, (n • x) / (n • y) = x / y) {vars : Vars (Option (StatVar L V))} (hv : ∀ v a, (v, some a) ∈ vars → a.Along d C) :
    meanVars agg (listStats d C' π vars) = (meanVars agg vars).map (sameValuesAs d C') := by
  unfold meanVars
  rw [listed_perVar h hagg vars hv]
  rcases agg.perVar vars with e | r
  · rfl
  · simp only [Except.map, bind, Except.bind, pure, Except.pure, List.map_map, sameValuesAs, Except.ok.injEq]
    refine List.map_congr_left (fun q _ => ?_)
    simp only [Function.comp_apply, withLabels_zip]
    congr 2
    refine DA.same_of rfl rfl ?_
    funext e
    exact hdiv _ _

end aggregation
end WBX
