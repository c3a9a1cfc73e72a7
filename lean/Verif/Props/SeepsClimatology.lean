import Verif.Model.SeepsClimatology
import Verif.Props.Seeps
import Verif.Props.LocalityClimatology
import Verif.Props.Climatology

set_option linter.unusedSectionVars false
set_option linter.unusedVariables false

/-! # C28, C74: SEEPS with its climatology -/

namespace WBX
open DA
variable {L K : Type} [DecidableEq L] [Field K] [LinearOrder K] [IsStrictOrderedRing K]
variable {tm : ClimTimes L}

theorem DA.selBy_val {V : Type} {h t : DA L V} {k : Dim} {ds : List Dim} {C : Dim → Finset L} {f : (Dim → L) → L} (ht : h.selBy k ds C f = .ok t) (e : Dim → L) :
    t.val e = h.val (setLabel e k (f e)) := by
  unfold DA.selBy at ht
  split at ht
  · injection ht with ht
    subst ht
    rfl
  · exact absurd ht (by simp)

/-- The cell of a climatology for a time: its day of the year and its hour; the other labels are those of `e`. -/
def atTime (tm : ClimTimes L) (e : Dim → L) (time : L) : Dim → L :=
  fun k => if k = "dayofyear" then tm.dayofyear time else if k = "hour" then tm.hour time else e k

/-- C28: the wet threshold of a cell is that of the climatology for the valid time of the cell. -/
theorem C28_wet_threshold {p : StatVar L (FV K)} {wet w : DA L (FV K)} (h : seepsWetThreshold tm p wet = .ok w) (e : Dim → L) :
    w.val e = wet.val (atTime tm e (tm.add (e "init_time") (e "lead_time"))) := by
  unfold seepsWetThreshold at h
  split at h
  swap
  · exact absurd h (by simp)
  split at h
  swap
  · exact absurd h (by simp)
  obtain ⟨a, ha, h⟩ := bind_ok_iff.mp h
  rw [DA.selBy_val h, DA.selBy_val ha]
  congr 1

/-- C28: the wet threshold is found exactly if the climatology has the days and hours of all valid times; otherwise it is a `KeyError`, and
an `AttributeError` for predictions without init or lead times. -/
theorem C28_wet_threshold_exists {p : StatVar L (FV K)} {wet : DA L (FV K)} :
    (¬ ("init_time" ∈ p.arr.dims ∧ "lead_time" ∈ p.arr.dims) → seepsWetThreshold tm p wet = .error .attributeError) ∧
    ("init_time" ∈ p.arr.dims ∧ "lead_time" ∈ p.arr.dims →
      (("dayofyear" ∈ wet.dims ∧ "hour" ∈ wet.dims ∧ ∀ i ∈ p.arr.coords "init_time", ∀ l ∈ p.arr.coords "lead_time",
          tm.dayofyear (tm.add i l) ∈ wet.coords "dayofyear" ∧ tm.hour (tm.add i l) ∈ wet.coords "hour") → ∃ w, seepsWetThreshold tm p wet = .ok w) ∧
      (¬ ("dayofyear" ∈ wet.dims ∧ "hour" ∈ wet.dims ∧ ∀ i ∈ p.arr.coords "init_time", ∀ l ∈ p.arr.coords "lead_time",
          tm.dayofyear (tm.add i l) ∈ wet.coords "dayofyear" ∧ tm.hour (tm.add i l) ∈ wet.coords "hour") → seepsWetThreshold tm p wet = .error .keyError)) := by
  constructor
  · intro h
    unfold seepsWetThreshold
    rw [if_neg h]
  intro h
  unfold seepsWetThreshold
  rw [if_pos h]
  by_cases hd : "dayofyear" ∈ wet.dims ∧ "hour" ∈ wet.dims
  swap
  · rw [if_neg hd]
    refine ⟨fun h => absurd ⟨h.1, h.2.1⟩ hd, fun _ => rfl⟩
  rw [if_pos hd]
  have lab : ∀ e : Dim → L, (∀ k ∈ ["init_time", "lead_time"], e k ∈ p.arr.coords k) ↔ (e "init_time" ∈ p.arr.coords "init_time" ∧ e "lead_time" ∈ p.arr.coords "lead_time") := by
    intro e
    simp
  by_cases h1 : ∀ i ∈ p.arr.coords "init_time", ∀ l ∈ p.arr.coords "lead_time", tm.dayofyear (tm.add i l) ∈ wet.coords "dayofyear"
  · have e1 : ∃ a, wet.selBy "dayofyear" ["init_time", "lead_time"] p.arr.coords (fun e => tm.dayofyear (tm.add (e "init_time") (e "lead_time"))) = .ok a ∧ a.coords "hour" = wet.coords "hour" := by
      unfold DA.selBy
      rw [if_pos (fun e he => h1 _ ((lab e).mp he).1 _ ((lab e).mp he).2)]
      exact ⟨_, rfl, by simp⟩
    obtain ⟨a, ha, hc⟩ := e1
    by_cases h2 : ∀ i ∈ p.arr.coords "init_time", ∀ l ∈ p.arr.coords "lead_time", tm.hour (tm.add i l) ∈ wet.coords "hour"
    · refine ⟨fun _ => ?_, fun hn => absurd ⟨hd.1, hd.2, fun i hi l hl => ⟨h1 i hi l hl, h2 i hi l hl⟩⟩ hn⟩
      have e2 : ∃ w, a.selBy "hour" ["init_time", "lead_time"] p.arr.coords (fun e => tm.hour (tm.add (e "init_time") (e "lead_time"))) = .ok w := by
        unfold DA.selBy
        rw [if_pos (fun e he => by rw [hc]; exact h2 _ ((lab e).mp he).1 _ ((lab e).mp he).2)]
        exact ⟨_, rfl⟩
      obtain ⟨w, hw⟩ := e2
      exact ⟨w, bind_ok_iff.mpr ⟨a, ha, hw⟩⟩
    · refine ⟨fun hh => absurd (fun i hi l hl => (hh.2.2 i hi l hl).2) h2, fun _ => ?_⟩
      rw [ha]
      show DA.selBy _ _ _ _ _ = _
      unfold DA.selBy
      rw [if_neg]
      intro hall
      refine h2 (fun i hi l hl => ?_)
      have := hall (fun k => if k = "init_time" then i else l) ((lab _).mpr ⟨by simpa using hi, by simpa using hl⟩)
      rw [hc] at this
      simpa using this
  · refine ⟨fun hh => absurd (fun i hi l hl => (hh.2.2 i hi l hl).1) h1, fun _ => ?_⟩
    have : wet.selBy "dayofyear" ["init_time", "lead_time"] p.arr.coords (fun e => tm.dayofyear (tm.add (e "init_time") (e "lead_time"))) = .error .keyError := by
      unfold DA.selBy
      rw [if_neg]
      intro hall
      refine h1 (fun i hi l hl => ?_)
      have := hall (fun k => if k = "init_time" then i else l) ((lab _).mpr ⟨by simpa using hi, by simpa using hl⟩)
      simpa using this
    rw [this]
    rfl

/-- C28: the dry fraction is the mean over all hours and days of the year, without the missing values; NaN if all are missing. -/
theorem C28_dry_fraction {a p1 : DA L (FV K)} (h : seepsDryFraction a = .ok p1) (e : Dim → L) (x : L → L → K) (given : Finset (L × L))
    (hg : given ⊆ a.coords "hour" ×ˢ a.coords "dayofyear")
    (hx : ∀ hr ∈ a.coords "hour", ∀ day ∈ a.coords "dayofyear", a.val (setLabel (setLabel e "hour" hr) "dayofyear" day) = if (hr, day) ∈ given then FV.fin (x hr day) else FV.nan) :
    (given.Nonempty → p1.val e = FV.fin ((∑ hd ∈ given, x hd.1 hd.2) / given.card)) ∧ (given = ∅ → p1.val e = FV.nan) := by
  unfold seepsDryFraction at h
  split at h
  swap
  · exact absurd h (by simp)
  injection h with h
  subst h
  dsimp only
  have hy : yearValues a e = given := by
    ext ⟨hr, day⟩
    unfold yearValues
    rw [Finset.mem_filter, Finset.mem_product]
    constructor
    · rintro ⟨⟨h1, h2⟩, h3⟩
      rw [hx hr h1 day h2] at h3
      by_contra hn
      rw [if_neg hn] at h3
      exact absurd h3 (by simp [FV.isnan])
    · intro hm
      have h12 := Finset.mem_product.mp (hg hm)
      refine ⟨h12, ?_⟩
      dsimp only at h12 ⊢
      rw [hx hr h12.1 day h12.2, if_pos hm]
      rfl
  rw [hy]
  constructor
  · intro hne
    have hsum : ∑ hd ∈ given, a.val (setLabel (setLabel e "hour" hd.1) "dayofyear" hd.2) = FV.fin (∑ hd ∈ given, x hd.1 hd.2) := by
      refine FV.sum_fin given _ _ ?_
      intro hd hm
      have h12 := Finset.mem_product.mp (hg hm)
      rw [hx _ h12.1 _ h12.2, if_pos hm]
    rw [hsum]
    unfold FV.ofNat
    rw [FV.fin_div_fin_of_ne]
    exact Nat.cast_ne_zero.mpr (Finset.card_pos.mpr hne).ne'
  · rintro rfl
    simp only [Finset.sum_empty, Finset.card_empty, FV.ofNat, Nat.cast_zero, FV.zero_def]
    show FV.div _ _ = _
    simp [FV.div]

/-- C28: a dry fraction without the dimension `hour` or without `dayofyear` is a `ValueError`; with both, the other dimensions are kept. -/
theorem C28_dry_fraction_dims (a : DA L (FV K)) : (("hour" ∉ a.dims ∨ "dayofyear" ∉ a.dims) → seepsDryFraction a = .error .valueError) ∧
    ("hour" ∈ a.dims → "dayofyear" ∈ a.dims → ∃ p1, seepsDryFraction a = .ok p1 ∧ p1.dims = a.dims \ {"hour", "dayofyear"}) := by
  unfold seepsDryFraction
  constructor
  · intro h
    rw [if_neg (by tauto)]
  · intro h1 h2
    rw [if_pos ⟨h1, h2⟩]
    refine ⟨_, rfl, ?_⟩
    ext d
    simp only [Finset.mem_erase, Finset.mem_sdiff, Finset.mem_insert, Finset.mem_singleton]
    tauto

/-- C28: the statistic of a cell. It is the score of the categories of forecast and observation, for the wet threshold of the climatology at the valid time of the cell and the mean
dry fraction of the year, if that is within the limits; otherwise it is NaN and masked. -/
theorem C28_cell {name : String} {names : List String} {dryMm minP1 maxP1 : List K} {clim : Vars (SeepsClimatology L K)} {st : FStatistic L K}
    (hst : seepsStatistic tm name names dryMm minP1 maxP1 clim = .ok st) {p t : Vars (StatVar L (FV K))} {out : Vars (Option (StatVar L (FV K)))} (hout : st.compute p t = .ok out)
    {v : String} {o : Option (StatVar L (FV K))} (hv : (v, o) ∈ out) :
    ∃ dry lo hi a b c p1 s m, (v, dry, lo, hi) ∈ names.zip (dryMm.zip (minP1.zip maxP1)) ∧ (v, a) ∈ p ∧ (v, b) ∈ t ∧ (v, c) ∈ clim ∧ seepsDryFraction c.dryFraction = .ok p1 ∧
      o = some s ∧ s.mask = some m ∧ ∀ e,
        (FV.le (.fin lo) (p1.val e) = true ∧ FV.le (p1.val e) (.fin hi) = true →
          s.arr.val e = seepsScore dry (p1.val e) (c.threshold.val (atTime tm e (tm.add (e "init_time") (e "lead_time")))) (a.arr.val e) (b.arr.val e)) ∧
        (¬ (FV.le (.fin lo) (p1.val e) = true ∧ FV.le (p1.val e) (.fin hi) = true) → s.arr.val e = FV.nan ∧ m.val e = false) := by
  unfold seepsStatistic seeps at hst
  split at hst
  swap
  · exact absurd hst (by simp)
  injection hst with hst
  subst hst
  rcases seepsLoop_mem clim _ _ p t _ [] out hout v o hv with h | ⟨d, lo, hi, a, b, c, wet, p1, s, m1, ma, mb, mc, k1, k2, k3, rfl⟩
  · exact absurd h (by simp)
  have hmask : a.mask = none ∨ b.mask = none := by
    by_contra hn
    push Not at hn
    rw [(C28_per_variable d lo hi wet p1 a b).1 hn.1 hn.2] at k3
    simp at k3
  obtain ⟨s', m, h1, h2, h3⟩ := (C28_per_variable d lo hi wet p1 a b).2 hmask
  rw [k3] at h1
  injection h1 with h1
  subst h1
  refine ⟨d, lo, hi, a, b, c, p1, s, m, m1, ma, mb, mc, k2, rfl, h2, ?_⟩
  intro e
  obtain ⟨e1, e2, e3⟩ := h3 e
  refine ⟨fun hr => ?_, fun hr => ⟨e2 hr, ?_⟩⟩
  · rw [e1 hr, C28_wet_threshold k1]
  · by_contra hne
    exact hr (e3.mp (by simpa using hne)).1

/-! ### Chunks -/

variable {c : Dim} {S : Finset L}

theorem zip_cutArr {U V W : Type} {a : DA L V} (hc : c ∈ a.dims) {h h' : DA L W} (H : CutOf c S h h') (f : V → W → U) :
    DA.zipWith f (a.restrict c S) h' = (DA.zipWith f a h).restrict c S :=
  (congrArg StatVar.arr (chunk_zipCut (a := ⟨a, none⟩) hc H f)).symm

theorem seepsWet_cut {p : StatVar L (FV K)} {wet w : DA L (FV K)} (h : seepsWetThreshold tm p wet = .ok w) :
    ∃ w', seepsWetThreshold tm (p.chunk c S) wet = .ok w' ∧ CutOf c S w w' := by
  unfold seepsWetThreshold at h ⊢
  rw [chunk_dims]
  split at h
  swap
  · exact absurd h (by simp)
  rename_i h1
  rw [if_pos h1]
  split at h
  swap
  · exact absurd h (by simp)
  rename_i h2
  rw [if_pos h2]
  obtain ⟨a, ha, h⟩ := bind_ok_iff.mp h
  obtain ⟨u, hu, u2, hu2, H⟩ := selBy_twice (c := c) (S := S) ha h (by decide)
  exact ⟨u2, bind_ok_iff.mpr ⟨u, hu, hu2⟩, H⟩

theorem seepsPerVariable_chunk {d lo hi : K} {wet wet' p1 : DA L (FV K)} (H : CutOf c S wet wet') (hp1 : p1.coords c = ∅) {a b s : StatVar L (FV K)} (da : c ∈ a.arr.dims)
    (h : seepsPerVariable d lo hi wet p1 a b = .ok s) : seepsPerVariable d lo hi wet' p1 (a.chunk c S) (b.chunk c S) = .ok (s.chunk c S) := by
  have hfix : ∀ (f : FV K → Bool), (p1.map f).restrict c S = p1.map f := by
    intro f
    refine DA.ext' rfl ?_ rfl
    intro k
    simp only [DA.restrict, DA.map]
    split_ifs with hk
    · subst hk
      rw [hp1]
      simp
    · rfl
  have hquad : ∀ (g : FV K × FV K × FV K × FV K → FV K) (r : FV K → Bool),
      DA.zipWith FV.keepIf ((DA.zipWith (fun (x : FV K × FV K) (y : FV K × FV K) => (x.1, x.2, y.1, y.2)) (DA.zipWith Prod.mk (a.chunk c S).arr (b.chunk c S).arr) (DA.zipWith Prod.mk wet' p1)).map g) (p1.map r) =
      (DA.zipWith FV.keepIf ((DA.zipWith (fun (x : FV K × FV K) (y : FV K × FV K) => (x.1, x.2, y.1, y.2)) (DA.zipWith Prod.mk a.arr b.arr) (DA.zipWith Prod.mk wet p1)).map g) (p1.map r)).restrict c S := by
    intro g r
    have e1 : DA.zipWith Prod.mk (a.chunk c S).arr (b.chunk c S).arr = (DA.zipWith Prod.mk a.arr b.arr).restrict c S := (zip_restrict _ _ _).symm
    have d1 : c ∈ (DA.zipWith Prod.mk a.arr b.arr).dims := Finset.mem_union_left _ da
    rw [e1, zip_cutArr d1 (H.zip (CutOf.refl S p1) Prod.mk)]
    refine zip_cutArr (a := (DA.zipWith _ (DA.zipWith Prod.mk a.arr b.arr) _).map g) ?_ (CutOf.refl S _) FV.keepIf
    exact Finset.mem_union_left _ d1
  have hand : ∀ (r : FV K → Bool) (m : DA L Bool), DA.zipWith (· && ·) (p1.map r) (m.restrict c S) = (DA.zipWith (· && ·) (p1.map r) m).restrict c S := by
    intro r m
    rw [zip_restrict, hfix]
  unfold seepsPerVariable at h ⊢
  dsimp only at h ⊢
  rw [hquad]
  rcases ha : a.mask with _ | m <;> rcases hb : b.mask with _ | m' <;> rw [ha, hb] at h <;> simp only [StatVar.chunk, ha, hb, Option.map_none, Option.map_some] at h ⊢
  · injection h with h
    subst h
    simp only [Option.map_some, hfix]
  · injection h with h
    subst h
    simp only [Option.map_some, hand]
  · injection h with h
    subst h
    simp only [Option.map_some, hand]
  · exact absurd h (by simp)

theorem chunkStats_insert (v : String) (s : StatVar L (FV K)) (out : Vars (Option (StatVar L (FV K)))) :
    pyInsert v (some (s.chunk c S)) (chunkStats c S out) = chunkStats c S (pyInsert v (some s) out) := by
  unfold chunkStats
  induction out with
  | nil => rfl
  | cons kv out ih =>
    obtain ⟨k, x⟩ := kv
    rw [List.map_cons, pyInsert, pyInsert]
    by_cases h : k = v
    · simp only [h, if_true, List.map_cons, Option.map_some]
    · simp only [if_neg h, List.map_cons, ih]

/-- C74: SEEPS, whose climatology has no labels of the time dimension itself. -/
theorem C74_seeps {name : String} {names : List String} {dryMm minP1 maxP1 : List K} {clim : Vars (SeepsClimatology L K)} {st : FStatistic L K}
    (hst : seepsStatistic tm name names dryMm minP1 maxP1 clim = .ok st) (hcl : ∀ v a, (v, a) ∈ clim → a.dryFraction.coords c = ∅) : st.ChunkLocal c := by
  unfold seepsStatistic seeps at hst
  split at hst
  swap
  · exact absurd hst (by simp)
  injection hst with hst
  subst hst
  intro S p t out hpt hout
  dsimp only at hout ⊢
  have key : ∀ (l : List (String × K × K × K)) (acc out : Vars (Option (StatVar L (FV K)))), seepsLoop clim (seepsWetThreshold tm) seepsDryFraction p t l acc = .ok out →
      seepsLoop clim (seepsWetThreshold tm) seepsDryFraction (chunkVars c S p) (chunkVars c S t) l (chunkStats c S acc) = .ok (chunkStats c S out) := by
    intro l
    induction l with
    | nil =>
      intro acc out h
      simp only [seepsLoop, Except.ok.injEq] at h
      subst h
      rfl
    | cons x l ih =>
      obtain ⟨v, d, lo, hi⟩ := x
      intro acc out h
      rw [seepsLoop] at h ⊢
      obtain ⟨a, h1, h⟩ := bind_ok_iff.mp h
      obtain ⟨b, h2, h⟩ := bind_ok_iff.mp h
      obtain ⟨cl, h3, h⟩ := bind_ok_iff.mp h
      obtain ⟨wet, h4, h⟩ := bind_ok_iff.mp h
      obtain ⟨p1, h5, h⟩ := bind_ok_iff.mp h
      obtain ⟨s, h6, h⟩ := bind_ok_iff.mp h
      obtain ⟨wet', h4', H⟩ := seepsWet_cut (c := c) (S := S) h4
      have hp1 : p1.coords c = ∅ := by
        unfold seepsDryFraction at h5
        split at h5
        · injection h5 with h5
          subst h5
          exact hcl _ _ (pyItem_mem h3)
        · exact absurd h5 (by simp)
      refine bind_ok_iff.mpr ⟨_, pyItem_chunkVars h1, bind_ok_iff.mpr ⟨_, pyItem_chunkVars h2, bind_ok_iff.mpr ⟨_, h3, bind_ok_iff.mpr ⟨_, h4', bind_ok_iff.mpr ⟨_, h5,
        bind_ok_iff.mpr ⟨_, seepsPerVariable_chunk H hp1 (hpt.dimP _ _ (pyItem_mem h1)) h6, ?_⟩⟩⟩⟩⟩⟩
      rw [chunkStats_insert]
      exact ih _ _ h
  exact key _ [] out hout

/-! ### Instance: hours as labels; the wet threshold grows with the day, the dry fraction of one hour is missing -/

noncomputable def exRainClimatology : SeepsClimatology ℕ ℝ where
  threshold := { dims := {"dayofyear", "hour"}, coords := fun k => if k = "dayofyear" then {1, 2} else {0, 6, 12, 18}, val := fun e => .fin (e "dayofyear" * 3) }
  dryFraction := { dims := {"dayofyear", "hour"}, coords := fun k => if k = "dayofyear" then {1} else if k = "hour" then {0, 6, 12} else ∅, val := fun e => if e "hour" = 6 then .nan else if e "hour" = 0 then .fin (1 / 4) else .fin (3 / 4) }

def exRainfall (x : ℝ) : StatVar ℕ (FV ℝ) := ⟨{ dims := {"init_time", "lead_time"}, coords := fun k => if k = "init_time" then {24, 36} else {6, 12}, val := fun _ => .fin x }, none⟩

theorem exRainfall_wet : ∃ w, seepsWetThreshold exHours (exRainfall 0) exRainClimatology.threshold = .ok w :=
  ((C28_wet_threshold_exists.2 ⟨by simp [exRainfall], by simp [exRainfall]⟩).1 ⟨by simp [exRainClimatology], by simp [exRainClimatology], by
    simp [exRainfall, exHours, exRainClimatology]⟩)

/-- The mean of the two values that are given. -/
theorem exRainfall_dry : ∃ p1, seepsDryFraction exRainClimatology.dryFraction = .ok p1 ∧ ∀ e, p1.val e = FV.fin (1 / 2) := by
  have h : ∃ p1, seepsDryFraction exRainClimatology.dryFraction = .ok p1 := by
    unfold seepsDryFraction
    exact ⟨_, if_pos (by simp [exRainClimatology])⟩
  obtain ⟨p1, h⟩ := h
  refine ⟨p1, h, fun e => ?_⟩
  rw [(C28_dry_fraction h e (fun hr _ => if hr = 0 then 1 / 4 else 3 / 4) {(0, 1), (12, 1)} (by simp [exRainClimatology]) ?_).1 (by simp)]
  · norm_num
  · intro hr h1 day h2
    have hne : ¬ "hour" = "dayofyear" := by simp
    simp only [exRainClimatology, if_true, if_neg hne, Finset.mem_insert, Finset.mem_singleton] at h1 h2
    subst h2
    rcases h1 with rfl | rfl | rfl <;> simp [exRainClimatology, setLabel]

/-- An observation of 5 where no rain was forecast; at the first init time (day 1) it is heavy, at the second (from hour 48 on, day 2) light. -/
example : ∃ st, seepsStatistic exHours "SEEPS" ["rain"] [1000] [1 / 10] [17 / 20] [("rain", exRainClimatology)] = .ok st ∧
    ∃ s, st.compute [("rain", exRainfall 0)] [("rain", exRainfall 5)] = .ok [("rain", some s)] ∧
      s.arr.val (fun k => if k = "init_time" then 24 else 6) = FV.fin 4 ∧ s.arr.val (fun k => if k = "init_time" then 36 else 12) = FV.fin 1 := by
  obtain ⟨st, hst⟩ := ((C28_construct (L := ℕ) (K := ℝ) "SEEPS" ["rain"] [1000] [1 / 10] [17 / 20] [("rain", exRainClimatology)] (seepsWetThreshold exHours) seepsDryFraction).1).mpr (by simp)
  refine ⟨st, hst, ?_⟩
  obtain ⟨w, hw⟩ := exRainfall_wet
  obtain ⟨p1, hp, hpv⟩ := exRainfall_dry
  obtain ⟨s, m, h1, -, h3⟩ := (C28_per_variable (1000 : ℝ) (1 / 10) (17 / 20) w p1 (exRainfall 0) (exRainfall 5)).2 (.inl rfl)
  have hout : st.compute [("rain", exRainfall 0)] [("rain", exRainfall 5)] = .ok [("rain", some s)] := by
    simp only [seeps, List.length_singleton, and_self, if_true, Except.ok.injEq] at hst
    subst hst
    simp only [List.zip_cons_cons, List.zip_nil_right, seepsLoop, pyItem, pyGet?, if_true, bind, Except.bind, hw, hp, h1, pyInsert]
  have hin : ∀ e : Dim → ℕ, FV.le (.fin (1 / 10 : ℝ)) (p1.val e) = true ∧ FV.le (p1.val e) (.fin (17 / 20 : ℝ)) = true := by
    intro e
    rw [hpv]
    simp [FV.le]
    norm_num
  refine ⟨s, hout, ?_, ?_⟩
  · rw [(h3 _).1 (hin _), C28_wet_threshold hw, hpv]
    have : exRainClimatology.threshold.val (atTime exHours (fun k => if k = "init_time" then 24 else 6) (exHours.add 24 6)) = FV.fin 3 := by
      simp [exRainClimatology, atTime, exHours]
    simp only [if_true, show ¬ "lead_time" = "init_time" by simp, if_false]
    rw [this]
    show seepsScore 1000 (.fin (1 / 2)) (.fin 3) (.fin 0) (.fin 5) = _
    rw [C28_score (K := ℝ) 1000 (by norm_num) (by norm_num) (by norm_num)]
    norm_num [seepsClass, seepsTable]
  · rw [(h3 _).1 (hin _), C28_wet_threshold hw, hpv]
    have : exRainClimatology.threshold.val (atTime exHours (fun k => if k = "init_time" then 36 else 12) (exHours.add 36 12)) = FV.fin 6 := by
      simp [exRainClimatology, atTime, exHours]
      norm_num
    simp only [if_true, show ¬ "lead_time" = "init_time" by simp, if_false]
    rw [this]
    show seepsScore 1000 (.fin (1 / 2)) (.fin 6) (.fin 0) (.fin 5) = _
    rw [C28_score (K := ℝ) 1000 (by norm_num) (by norm_num) (by norm_num)]
    norm_num [seepsClass, seepsTable]

example {st : FStatistic ℕ ℝ} (hst : seepsStatistic exHours "SEEPS" ["rain"] [1000] [1 / 10] [17 / 20] [("rain", exRainClimatology)] = .ok st) : st.ChunkLocal "init_time" :=
  C74_seeps hst (by
    intro v a hv
    simp only [List.mem_singleton, Prod.mk.injEq] at hv
    rw [hv.2]
    simp [exRainClimatology])

example : ∀ s, s ∈ (acc [("t", exClim)] (fun p cl => alignClimatology exHours p cl)).statistics ++ (predictionActivity [("t", exClim)] (fun p cl => alignClimatology exHours p cl)).statistics →
    s.2.ChunkLocal "init_time" :=
  C74_anomalies (by
    intro v a hv
    simp only [List.mem_singleton, Prod.mk.injEq] at hv
    rw [hv.2]
    rfl) (C74_align exHours)

end WBX
