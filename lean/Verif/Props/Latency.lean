import Verif.Model.Loaders
import Verif.Props.Wrappers
import Verif.Props.MetricsBase
import Verif.Props.Regions
import Mathlib.Algebra.Order.Group.Int

/-!
# C46, C47: latency wrappers
-/

set_option linter.unusedSectionVars false

namespace WBX
open DA
variable {L V : Type} [DecidableEq L] [AddCommGroup L] [LinearOrder L] [IsOrderedAddMonoid L]

/-! ### The available init time -/

omit [DecidableEq L] [AddCommGroup L] [IsOrderedAddMonoid L] in
theorem nanArgmax_spec : ∀ xs : List (Option L), (nanArgmax xs = none ∧ ∀ x ∈ xs, x = none) ∨
    ∃ i a, nanArgmax xs = some i ∧ xs[i]? = some (some a) ∧ ∀ b, some b ∈ xs → b ≤ a
  | [] => .inl ⟨rfl, by simp⟩
  | x :: xs => by
    rcases nanArgmax_spec xs with ⟨h1, h2⟩ | ⟨i, a, h1, h2, h3⟩
    · cases x with
      | none => left; exact ⟨by simp [nanArgmax, h1], by simpa using h2⟩
      | some y =>
        right
        refine ⟨0, y, by simp [nanArgmax, h1], rfl, fun b hb => ?_⟩
        rcases List.mem_cons.mp hb with hb | hb
        · exact (Option.some.inj hb).le
        · exact absurd (h2 _ hb) (by simp)
    · right
      cases x with
      | none =>
        refine ⟨i + 1, a, by simp [nanArgmax, h1], by simpa using h2, fun b hb => ?_⟩
        rcases List.mem_cons.mp hb with hb | hb
        · simp at hb
        · exact h3 b hb
      | some y =>
        by_cases hya : y < a
        · refine ⟨i + 1, a, by simp [nanArgmax, h1, h2, hya], by simpa using h2, fun b hb => ?_⟩
          rcases List.mem_cons.mp hb with hb | hb
          · rw [Option.some.inj hb]; exact hya.le
          · exact h3 b hb
        · refine ⟨0, y, by simp [nanArgmax, h1, h2, hya], rfl, fun b hb => ?_⟩
          rcases List.mem_cons.mp hb with hb | hb
          · exact (Option.some.inj hb).le
          · exact (h3 b hb).trans (not_lt.mp hya)

/-- `a` is the latest of the nominal init times whose forecast is available at `init`. -/
def LatestAvailable (nominal : List L) (latency init a : L) : Prop :=
  a ∈ nominal ∧ a + latency ≤ init ∧ ∀ t ∈ nominal, t + latency ≤ init → t ≤ a

/-- **C46** `get_available_init_time` gives the latest nominal init time whose data is available at the queried time — `nominal + latency ≤ init` —
and raises `ValueError` exactly if there is none. -/
theorem C46_available (nominal : List L) (latency init : L) : (∀ a, availableInitTime nominal latency init = .ok a ↔ LatestAvailable nominal latency init a) ∧
    (availableInitTime nominal latency init = .error .valueError ↔ ∀ t ∈ nominal, ¬ t + latency ≤ init) := by
  have hmem : ∀ b, some b ∈ (nominal.map (fun t => t + latency - init)).map (fun d => if d ≤ 0 then some d else none) ↔
      ∃ t ∈ nominal, t + latency ≤ init ∧ b = t + latency - init := by
    intro b
    simp only [List.map_map, List.mem_map, Function.comp_apply]
    constructor
    · rintro ⟨t, ht, h⟩
      split at h
      · next h0 => exact ⟨t, ht, sub_nonpos.mp h0, (Option.some.inj h).symm⟩
      · simp at h
    · rintro ⟨t, ht, h, rfl⟩
      exact ⟨t, ht, by rw [if_pos (sub_nonpos.mpr h)]⟩
  have hget : ∀ (i : ℕ) (b : L), ((nominal.map (fun t => t + latency - init)).map (fun d => if d ≤ 0 then some d else none))[i]? = some (some b) →
      ∃ t, nominal[i]? = some t ∧ t + latency ≤ init ∧ b = t + latency - init := by
    intro i b h
    rw [List.getElem?_map, List.getElem?_map] at h
    cases hn : nominal[i]? with
    | none => rw [hn] at h; simp at h
    | some t =>
      rw [hn] at h
      simp only [Option.map_some, Option.some.injEq] at h
      split at h
      · next h0 => exact ⟨t, rfl, sub_nonpos.mp h0, (Option.some.inj h).symm⟩
      · simp at h
  unfold availableInitTime
  simp only
  rcases nanArgmax_spec ((nominal.map (fun t => t + latency - init)).map (fun d => if d ≤ 0 then some d else none)) with ⟨h1, h2⟩ | ⟨i, b, h1, h2, h3⟩
  · rw [h1]
    have hno : ∀ t ∈ nominal, ¬ t + latency ≤ init := fun t ht hle => by
      have := h2 _ ((hmem _).mpr ⟨t, ht, hle, rfl⟩)
      simp at this
    refine ⟨fun a => ⟨fun h => by simp at h, fun h => absurd h.2.1 (hno a h.1)⟩, ⟨fun _ => hno, fun _ => rfl⟩⟩
  · rw [h1]
    obtain ⟨t, ht, hle, rfl⟩ := hget i b h2
    simp only [ht]
    have hm := List.mem_of_getElem? ht
    have hmax : ∀ t' ∈ nominal, t' + latency ≤ init → t' ≤ t := fun t' ht' hle' => by
      have := h3 _ ((hmem _).mpr ⟨t', ht', hle', rfl⟩)
      rw [sub_le_sub_iff_right, add_le_add_iff_right] at this
      exact this
    refine ⟨fun a => ⟨fun h => ?_, fun h => ?_⟩, ⟨fun h => by simp at h, fun h => absurd hle (h t hm)⟩⟩
    · have := Except.ok.inj h
      subst this
      exact ⟨hm, hle, hmax⟩
    · rw [le_antisymm (h.2.2 t hm hle) (hmax a h.1 h.2.1)]

omit [DecidableEq L] in
/-- The latest available time is unique. -/
theorem LatestAvailable.unique {nominal : List L} {latency init a b : L} (ha : LatestAvailable nominal latency init a) (hb : LatestAvailable nominal latency init b) : a = b :=
  le_antisymm (hb.2.2 a ha.1 ha.2.1) (ha.2.2 b hb.1 hb.2.1)

/-- Either there is a latest available time, or none is available. -/
theorem availableInitTime_cases (nominal : List L) (latency init : L) : (∃ a, availableInitTime nominal latency init = .ok a ∧ LatestAvailable nominal latency init a) ∨
    (availableInitTime nominal latency init = .error .valueError ∧ ∀ t ∈ nominal, ¬ t + latency ≤ init) := by
  by_cases h : ∀ t ∈ nominal, ¬ t + latency ≤ init
  · exact .inr ⟨(C46_available nominal latency init).2.mpr h, h⟩
  · left
    push Not at h
    obtain ⟨t, ht, hle⟩ := h
    have hne : (nominal.filter (fun t => decide (t + latency ≤ init))).toFinset.Nonempty := ⟨t, by simp [ht, hle]⟩
    have hla : LatestAvailable nominal latency init ((nominal.filter (fun t => decide (t + latency ≤ init))).toFinset.max' hne) := by
      have hm := Finset.max'_mem _ hne
      simp only [List.mem_toFinset, List.mem_filter, decide_eq_true_eq] at hm
      exact ⟨hm.1, hm.2, fun t' ht' hle' => Finset.le_max' _ _ (by simp [ht', hle'])⟩
    exact ⟨_, ((C46_available nominal latency init).1 _).mpr hla, hla⟩

theorem mapM_out_mem {α β : Type} {f : α → Except Err β} : ∀ {l : List α} {r : List β}, l.mapM f = .ok r → ∀ y ∈ r, ∃ x ∈ l, f x = .ok y
  | [], r, h => by
    simp only [List.mapM_nil, pure, Except.pure, Except.ok.injEq] at h
    subst h
    simp
  | x :: l, r, h => by
    rw [List.mapM_cons] at h
    obtain ⟨y, hy, h⟩ := bind_ok_iff.mp h
    obtain ⟨ys, hys, h⟩ := bind_ok_iff.mp h
    simp only [pure, Except.pure, Except.ok.injEq] at h
    subst h
    intro z hz
    rcases List.mem_cons.mp hz with rfl | hz
    · exact ⟨x, by simp, hy⟩
    · obtain ⟨x', hx', h'⟩ := mapM_out_mem hys z hz
      exact ⟨x', by simp [hx'], h'⟩

/-! ### Concatenation -/

theorem concatAlong_ok {d : Dim} {as : List (DA L V)} {r : DA L V} (h : concatAlong d as = .ok r) :
    ∃ a rest, as = a :: rest ∧ r.dims = a.dims ∧ (∀ k, k ≠ d → r.coords k = a.coords k) ∧ (∀ l, l ∈ r.coords d ↔ ∃ b ∈ as, l ∈ b.coords d) ∧
      ∀ e b, b ∈ as → e d ∈ b.coords d → (∀ b' ∈ as, e d ∈ b'.coords d → b'.val e = b.val e) → r.val e = b.val e := by
  cases as with
  | nil => simp [concatAlong] at h
  | cons a rest =>
    simp only [concatAlong, Except.ok.injEq] at h
    subst h
    refine ⟨a, rest, rfl, rfl, fun k hk => by simp [hk], fun l => ?_, fun e b hb he huniq => ?_⟩
    · simp only [if_pos]
      have : ∀ bs : List (DA L V), l ∈ bs.foldr (fun b s => b.coords d ∪ s) ∅ ↔ ∃ b ∈ bs, l ∈ b.coords d := by
        intro bs
        induction bs with
        | nil => simp
        | cons b bs ih => rw [List.foldr_cons, Finset.mem_union, ih]; simp
      exact this _
    · simp only
      cases hf : (a :: rest).find? (fun b => decide (e d ∈ b.coords d)) with
      | none =>
        rw [List.find?_eq_none] at hf
        exact absurd he (by simpa using hf b hb)
      | some c =>
        have hc := List.mem_of_find?_eq_some hf
        have hp := List.find?_some hf
        exact huniq c hc (by simpa using hp)

theorem shiftLabels_val (d : Dim) (o : L) (a : DA L V) (e : Dim → L) : (shiftLabels d o a).val e = a.val (setLabel e d (e d - o)) := rfl

theorem mem_shift (d : Dim) (o : L) (a : DA L V) (l : L) : l ∈ (shiftLabels d o a).coords d ↔ l - o ∈ a.coords d := by
  simp only [shiftLabels, if_pos, Finset.mem_image]
  constructor
  · rintro ⟨x, hx, rfl⟩; simpa using hx
  · intro h; exact ⟨l - o, h, by simp⟩

/-! ### The wrapper -/

/-- What is required of a source for the init times and lead times it is asked for: the result has these labels. -/
def LabelledSource (source : List L → LeadTimes L → Except Err (DA L V)) : Prop :=
  ∀ inits leads r, source inits (.exact leads) = .ok r → "init_time" ∈ r.dims ∧ "lead_time" ∈ r.dims ∧
    r.coords "init_time" = inits.toFinset ∧ r.coords "lead_time" = leads.toFinset

section
variable {source : List L → LeadTimes L → Except Err (DA L V)} {nominal : List L} {latency : L} {inits leads : List L} {r : DA L V}

theorem latencyOne_ok (hs : LabelledSource source) {init : L} {c : DA L V} (h : latencyOne source nominal latency leads init = .ok c) :
    ∃ a raw, LatestAvailable nominal latency init a ∧ source [a] (.exact (leads.map (· + (init - a)))) = .ok raw ∧ c.dims = raw.dims ∧
      c.coords "init_time" = {init} ∧ c.coords "lead_time" = leads.toFinset ∧ (∀ k, k ≠ "init_time" → k ≠ "lead_time" → c.coords k = raw.coords k) ∧
      ∀ e, c.val e = raw.val (setLabel (setLabel e "init_time" (e "init_time" - (init - a))) "lead_time" (e "lead_time" + (init - a))) := by
  unfold latencyOne at h
  simp only [bind_ok_iff] at h
  obtain ⟨a, ha, raw, hraw, h⟩ := h
  simp only [pure, Except.pure, Except.ok.injEq] at h
  subst h
  obtain ⟨-, -, h1, h2⟩ := hs _ _ _ hraw
  have hne : ("init_time" : Dim) ≠ "lead_time" := by decide
  refine ⟨a, raw, ((C46_available nominal latency init).1 a).mp ha, hraw, rfl, ?_, ?_, fun k hk hk' => by simp [shiftLabels, hk, hk'], fun e => ?_⟩
  · simp only [shiftLabels, if_neg hne, if_pos, h1]
    simp
  · simp only [shiftLabels, if_neg hne.symm, if_pos, h2]
    ext l
    simp only [Finset.mem_image, List.mem_toFinset, List.mem_map]
    constructor
    · rintro ⟨x, ⟨y, hy, rfl⟩, rfl⟩
      rwa [add_neg_cancel_right]
    · intro hl
      exact ⟨l + (init - a), ⟨l, hl, rfl⟩, by rw [add_neg_cancel_right]⟩
  · simp only [shiftLabels_val, sub_neg_eq_add]
    congr 1
    funext k
    by_cases h1 : k = "lead_time"
    · subst h1; simp [setLabel, hne.symm]
    · by_cases h2 : k = "init_time"
      · subst h2; simp [setLabel, hne]
      · simp [setLabel, h1, h2]

/-- **C46** What the wrapper returns: the labels are the queried init and lead times, and the value for a queried init time and lead time is the value of the latest
available nominal init time `a`, at the lead time longer by `init - a` — so the valid time `a + (lead + (init - a)) = init + lead` is the queried one. -/
theorem C46_loaded (hs : LabelledSource source) (h : latencySource source nominal latency inits (.exact leads) = .ok r) :
    r.coords "init_time" = inits.toFinset ∧ r.coords "lead_time" = leads.toFinset ∧
    ∀ init ∈ inits, ∃ a raw, LatestAvailable nominal latency init a ∧ source [a] (.exact (leads.map (· + (init - a)))) = .ok raw ∧
      (∀ e : Dim → L, e "init_time" = init → r.val e = raw.val (setLabel (setLabel e "init_time" a) "lead_time" (e "lead_time" + (init - a)))) ∧
      ∀ lead, a + (lead + (init - a)) = init + lead := by
  unfold latencySource at h
  simp only [bind_ok_iff] at h
  obtain ⟨chunks, hc, h⟩ := h
  obtain ⟨c0, rest, hcr, hd, hk, hi, hv⟩ := concatAlong_ok h
  have hmem : ∀ c ∈ chunks, ∃ init ∈ inits, latencyOne source nominal latency leads init = .ok c := fun c hcc => mapM_out_mem hc c hcc
  have hmem' : ∀ init ∈ inits, ∃ c ∈ chunks, latencyOne source nominal latency leads init = .ok c := fun i hii => mapM_mem _ _ _ hc i hii
  refine ⟨?_, ?_, ?_⟩
  · ext l
    rw [hi, List.mem_toFinset]
    constructor
    · rintro ⟨b, hb, hl⟩
      obtain ⟨init, hin, ho⟩ := hmem b hb
      obtain ⟨a, raw, -, -, -, h1, -⟩ := latencyOne_ok hs ho
      rw [h1, Finset.mem_singleton] at hl
      rwa [hl]
    · intro hl
      obtain ⟨c, hcc, ho⟩ := hmem' l hl
      obtain ⟨a, raw, -, -, -, h1, -⟩ := latencyOne_ok hs ho
      exact ⟨c, hcc, by rw [h1]; simp⟩
  · rw [hk _ (by decide)]
    obtain ⟨init, hin, ho⟩ := hmem c0 (by rw [hcr]; simp)
    obtain ⟨a, raw, -, -, -, -, h2, -⟩ := latencyOne_ok hs ho
    exact h2
  · intro init hin
    obtain ⟨c, hcc, ho⟩ := hmem' init hin
    obtain ⟨a, raw, hla, hraw, -, h1, -, -, h3⟩ := latencyOne_ok hs ho
    refine ⟨a, raw, hla, hraw, fun e he => ?_, fun lead => by abel⟩
    rw [hv e c hcc (by rw [h1, he]; simp) ?_, h3, he, sub_sub_cancel]
    intro b' hb' hb'e
    obtain ⟨init', hin', ho'⟩ := hmem b' hb'
    obtain ⟨a', raw', -, -, -, h1', -⟩ := latencyOne_ok hs ho'
    rw [h1', Finset.mem_singleton, he] at hb'e
    subst hb'e
    rw [ho, Except.ok.injEq] at ho'
    rw [ho']

/-- **C46** Errors: no lead times is a `ValueError`; (finding) a slice of lead times is a `TypeError`; a query for which nothing is available is a `ValueError`. -/
theorem C46_errors : latencySource source nominal latency inits .none = .error .valueError ∧
    (∀ start stop init, init ∈ inits.head? → (∃ t ∈ nominal, t + latency ≤ init) → latencySource source nominal latency inits (.slice start stop) = .error .typeError) ∧
    ∀ init rest, inits = init :: rest → (∀ t ∈ nominal, ¬ t + latency ≤ init) → latencySource source nominal latency inits (.exact leads) = .error .valueError := by
  refine ⟨rfl, fun start stop init hi hav => ?_, fun init rest hi hno => ?_⟩
  · cases inits with
    | nil => simp at hi
    | cons i rest =>
      simp only [List.head?_cons, Option.mem_def, Option.some.injEq] at hi
      subst hi
      simp only [latencySource]
      rcases availableInitTime_cases nominal latency i with ⟨a, ha, -⟩ | ⟨-, hno⟩
      · rw [ha]; rfl
      · obtain ⟨t, ht, hle⟩ := hav
        exact absurd hle (hno t ht)
  · subst hi
    simp only [latencySource, List.mapM_cons, latencyOne]
    rw [(C46_available nominal latency init).2.mpr hno]
    rfl

end

/-! ### With predictions from a dataset -/

theorem selList_ok {d : Dim} {ls : List L} {a r : DA L V} (h : selList d ls a = .ok r) :
    (∀ l ∈ ls, l ∈ a.coords d) ∧ r.dims = a.dims ∧ r.coords d = ls.toFinset ∧ (∀ k, k ≠ d → r.coords k = a.coords k) ∧ r.val = a.val := by
  unfold selList at h
  split at h
  · next hall =>
    simp only [Except.ok.injEq] at h
    subst h
    refine ⟨fun l hl => ?_, rfl, by simp, fun k hk => by simp [hk], rfl⟩
    have := List.all_eq_true.mp hall l hl
    simpa using this
  · simp at h

theorem selList_error {d : Dim} {ls : List L} {a : DA L V} (h : ¬ ∀ l ∈ ls, l ∈ a.coords d) : selList d ls a = .error .keyError := by
  unfold selList
  rw [if_neg]
  intro hall
  refine h (fun l hl => ?_)
  have := List.all_eq_true.mp hall l hl
  simpa using this

theorem selList_exists {d : Dim} {ls : List L} {a : DA L V} (h : ∀ l ∈ ls, l ∈ a.coords d) : ∃ r, selList d ls a = .ok r := by
  unfold selList
  rw [if_pos (List.all_eq_true.mpr (fun l hl => by simpa using h l hl))]
  exact ⟨_, rfl⟩

/-- The predictions of a dataset with dimensions `init_time` and `lead_time` have the labels asked for. -/
theorem predictions_labelled {ds : DA L V} (h1 : "init_time" ∈ ds.dims) (h2 : "lead_time" ∈ ds.dims) : LabelledSource (loadPredictions ds) := by
  intro inits leads r h
  unfold loadPredictions at h
  simp only [bind_ok_iff] at h
  obtain ⟨a, ha, hr⟩ := h
  obtain ⟨-, d1, c1, k1, v1⟩ := selList_ok ha
  obtain ⟨-, d2, c2, k2, v2⟩ := selList_ok hr
  refine ⟨by rw [d2, d1]; exact h1, by rw [d2, d1]; exact h2, by rw [k2 _ (by decide), c1], c2⟩

theorem loadPredictions_val {ds : DA L V} {inits leads : List L} {r : DA L V} (h : loadPredictions ds inits (.exact leads) = .ok r) : r.val = ds.val := by
  unfold loadPredictions at h
  simp only [bind_ok_iff] at h
  obtain ⟨a, ha, hr⟩ := h
  rw [(selList_ok hr).2.2.2.2, (selList_ok ha).2.2.2.2]

/-- **C46** With predictions from a dataset: the value for a queried init and lead time is the value in the dataset of the latest available init time, at the lead time with
the same valid time. -/
theorem C46_predictions {ds : DA L V} (h1 : "init_time" ∈ ds.dims) (h2 : "lead_time" ∈ ds.dims) {nominal : List L} {latency : L} {inits leads : List L} {r : DA L V}
    (h : latencySource (loadPredictions ds) nominal latency inits (.exact leads) = .ok r) {e : Dim → L} (he : e "init_time" ∈ inits) :
    ∃ a, LatestAvailable nominal latency (e "init_time") a ∧
      r.val e = ds.val (setLabel (setLabel e "init_time" a) "lead_time" (e "lead_time" + (e "init_time" - a))) := by
  obtain ⟨-, -, h3⟩ := C46_loaded (predictions_labelled h1 h2) h
  obtain ⟨a, raw, ha, hraw, hv, -⟩ := h3 _ he
  exact ⟨a, ha, by rw [hv e rfl, loadPredictions_val hraw]⟩

/-- **C46** No data from the future: what is returned for a queried init time depends only on forecasts that are available at that time. Two datasets that agree on
all cells with `init_time + latency ≤` the query give the same result. -/
theorem C46_no_leakage {ds ds' : DA L V} (h1 : "init_time" ∈ ds.dims) (h2 : "lead_time" ∈ ds.dims) (h1' : "init_time" ∈ ds'.dims) (h2' : "lead_time" ∈ ds'.dims)
    {nominal : List L} {latency : L} {inits leads : List L} {r r' : DA L V}
    (h : latencySource (loadPredictions ds) nominal latency inits (.exact leads) = .ok r)
    (h' : latencySource (loadPredictions ds') nominal latency inits (.exact leads) = .ok r') {e : Dim → L} (he : e "init_time" ∈ inits)
    (hagree : ∀ e' : Dim → L, e' "init_time" + latency ≤ e "init_time" → ds.val e' = ds'.val e') : r.val e = r'.val e := by
  obtain ⟨a, ha, hr⟩ := C46_predictions h1 h2 h he
  obtain ⟨a', ha', hr'⟩ := C46_predictions h1' h2' h' he
  have := ha.unique ha'
  subst this
  rw [hr, hr', hagree]
  simp [setLabel, ha.2.1]

/-! ### Several loaders -/

/-- **C47** The loader chosen for an init time has an available forecast that is at least as recent as that of every other loader, and among the loaders with the same
available init time it has the largest latency. -/
theorem C47_freshest {loaders : List (LatencyLoader L V)} {init : L} {keys : List (L × L)} (hk : loaderKeys loaders init = .ok keys) {idx : ℕ} (hi : IsArgmin keys idx) :
    ∃ d a, loaders[idx]? = some d ∧ LatestAvailable d.nominal d.latency init a ∧
      ∀ d' ∈ loaders, ∃ a', LatestAvailable d'.nominal d'.latency init a' ∧ a' ≤ a ∧ (a' = a → d'.latency ≤ d.latency) := by
  -- the keys, loader by loader
  have hkey : ∀ (d : LatencyLoader L V) (k : L × L), (do
      let available ← availableInitTime d.nominal d.latency init
      return (init - available, -d.latency) : Except Err (L × L)) = .ok k → ∃ a, LatestAvailable d.nominal d.latency init a ∧ k = (init - a, -d.latency) := by
    intro d k h
    simp only [bind_ok_iff, pure, Except.pure, Except.ok.injEq] at h
    obtain ⟨a, ha, rfl⟩ := h
    exact ⟨a, ((C46_available _ _ _).1 a).mp ha, rfl⟩
  have hget : ∀ (ls : List (LatencyLoader L V)) (ks : List (L × L)), loaderKeys ls init = .ok ks → ∀ (i : ℕ) (k : L × L), ks[i]? = some k →
      ∃ (d : LatencyLoader L V) (a : L), ls[i]? = some d ∧ LatestAvailable d.nominal d.latency init a ∧ k = (init - a, -d.latency) := by
    intro ls
    induction ls with
    | nil =>
      intro ks h i k hi
      simp only [loaderKeys, List.mapM_nil, pure, Except.pure, Except.ok.injEq] at h
      subst h
      simp at hi
    | cons d ls ih =>
      intro ks h i k hi
      unfold loaderKeys at h
      rw [List.mapM_cons] at h
      obtain ⟨k0, hk0, h⟩ := bind_pair_ok _ _ _ h
      obtain ⟨ks', hks', h⟩ := bind_pair_ok _ _ _ h
      simp only [pure, Except.pure, Except.ok.injEq] at h
      subst h
      cases i with
      | zero =>
        simp only [List.getElem?_cons_zero, Option.some.injEq] at hi
        subst hi
        obtain ⟨a, ha, rfl⟩ := hkey d _ hk0
        exact ⟨d, a, rfl, ha, rfl⟩
      | succ i =>
        simp only [List.getElem?_cons_succ] at hi ⊢
        exact ih ks' hks' i k hi
  obtain ⟨k, hki, hmin⟩ := hi
  obtain ⟨d, a, hd, ha, rfl⟩ := hget _ _ hk idx k hki
  refine ⟨d, a, hd, ha, fun d' hd' => ?_⟩
  obtain ⟨k', hk', hkk⟩ := mapM_mem _ _ _ hk d' hd'
  obtain ⟨a', ha', rfl⟩ := hkey d' k' hkk
  refine ⟨a', ha', ?_⟩
  have := hmin _ hk'
  simp only [sub_lt_sub_iff_left, sub_right_inj, neg_le_neg_iff] at this
  rcases this with h | ⟨h, h'⟩
  · exact ⟨h.le, fun heq => absurd heq h.ne⟩
  · exact ⟨h.ge, fun _ => h'⟩

/-- **C47** A smallest key exists if there is a loader, so that the sort has a result. -/
theorem C47_argmin_exists : ∀ keys : List (L × L), keys ≠ [] → ∃ idx, IsArgmin keys idx
  | [], h => absurd rfl h
  | [k], _ => ⟨0, k, rfl, by simp⟩
  | k :: k2 :: ks, _ => by
    obtain ⟨i, m, hm, hmin⟩ := C47_argmin_exists (k2 :: ks) (by simp)
    by_cases h : k.1 < m.1 ∨ k.1 = m.1 ∧ k.2 ≤ m.2
    · refine ⟨0, k, rfl, fun k' hk' => ?_⟩
      rcases List.mem_cons.mp hk' with rfl | hk'
      · exact .inr ⟨rfl, le_refl _⟩
      · rcases hmin k' hk' with h1 | ⟨h1, h2⟩
        · rcases h with h | ⟨h, -⟩
          · exact .inl (h.trans h1)
          · exact .inl (h ▸ h1)
        · rcases h with h | ⟨h, h'⟩
          · exact .inl (h1 ▸ h)
          · exact .inr ⟨h.trans h1, h'.trans h2⟩
    · refine ⟨i + 1, m, by simpa using hm, fun k' hk' => ?_⟩
      rcases List.mem_cons.mp hk' with rfl | hk'
      · push Not at h
        rcases lt_or_eq_of_le h.1 with h1 | h1
        · exact .inl h1
        · exact .inr ⟨h1, (h.2 h1.symm).le⟩
      · exact hmin k' hk'

/-- **C47** (finding) If one of the loaders has no forecast available at the queried time, the whole query fails with a `ValueError`, even if other loaders have one. -/
theorem C47_one_unavailable {loaders : List (LatencyLoader L V)} {init : L} (hd : ∃ d ∈ loaders, ∀ t ∈ d.nominal, ¬ t + d.latency ≤ init) :
    ∃ err, loaderKeys loaders init = .error err := by
  cases hk : loaderKeys loaders init with
  | error err => exact ⟨err, rfl⟩
  | ok keys =>
    obtain ⟨d, hd, hno⟩ := hd
    obtain ⟨k, -, hkk⟩ := mapM_mem _ _ _ hk d hd
    rw [(C46_available d.nominal d.latency init).2.mpr hno] at hkk
    simp [bind, Except.bind] at hkk

/-- **C47** The result for an init time is what the chosen loader gives. -/
theorem C47_loaded {argmin : List (L × L) → ℕ} (hargmin : ∀ ks, ks ≠ [] → IsArgmin ks (argmin ks)) {loaders : List (LatencyLoader L V)}
    (hlab : ∀ d ∈ loaders, ∀ init leads c, d.load init leads = .ok c → c.coords "init_time" = {init})
    {inits : List L} {leads : LeadTimes L} {r : DA L V} (h : multipleLatencyLoad argmin loaders inits leads = .ok r) :
    r.coords "init_time" = inits.toFinset ∧ ∀ init ∈ inits, ∃ d ∈ loaders, ∃ a c, LatestAvailable d.nominal d.latency init a ∧ d.load init leads = .ok c ∧
      (∀ e : Dim → L, e "init_time" = init → r.val e = c.val e) ∧
      ∀ d' ∈ loaders, ∃ a', LatestAvailable d'.nominal d'.latency init a' ∧ a' ≤ a ∧ (a' = a → d'.latency ≤ d.latency) := by
  unfold multipleLatencyLoad at h
  simp only [bind_ok_iff] at h
  obtain ⟨chunks, hc, h⟩ := h
  obtain ⟨c0, rest, hcr, hdm, hk, hi, hv⟩ := concatAlong_ok h
  -- the load of one init time
  have hone : ∀ init c, (do
      let keys ← loaderKeys loaders init
      match loaders[argmin keys]? with
      | some d => d.load init leads
      | none => .error .indexError : Except Err (DA L V)) = .ok c →
      ∃ d ∈ loaders, ∃ a, LatestAvailable d.nominal d.latency init a ∧ d.load init leads = .ok c ∧
        ∀ d' ∈ loaders, ∃ a', LatestAvailable d'.nominal d'.latency init a' ∧ a' ≤ a ∧ (a' = a → d'.latency ≤ d.latency) := by
    intro init c ho
    obtain ⟨keys, hkeys, ho⟩ := bind_ok_iff.mp ho
    have hne : keys ≠ [] := by
      rintro rfl
      cases loaders with
      | nil => simp at ho
      | cons d ds =>
        simp only [loaderKeys, List.mapM_cons] at hkeys
        obtain ⟨k0, -, hkeys⟩ := bind_pair_ok _ _ _ hkeys
        obtain ⟨ks, -, hkeys⟩ := bind_pair_ok _ _ _ hkeys
        simp [pure, Except.pure] at hkeys
    obtain ⟨d, a, hd, ha, hall⟩ := C47_freshest hkeys (hargmin keys hne)
    rw [hd] at ho
    exact ⟨d, List.mem_of_getElem? hd, a, ha, ho, hall⟩
  refine ⟨?_, fun init hin => ?_⟩
  · ext l
    rw [hi, List.mem_toFinset]
    constructor
    · rintro ⟨b, hb, hl⟩
      obtain ⟨init, hin, ho⟩ := mapM_out_mem hc b hb
      obtain ⟨d, hd, a, -, hload, -⟩ := hone init b ho
      rw [hlab d hd _ _ _ hload, Finset.mem_singleton] at hl
      rwa [hl]
    · intro hl
      obtain ⟨c, hcc, ho⟩ := mapM_mem _ _ _ hc l hl
      obtain ⟨d, hd, a, -, hload, -⟩ := hone l c ho
      exact ⟨c, hcc, by rw [hlab d hd _ _ _ hload]; simp⟩
  · obtain ⟨c, hcc, ho⟩ := mapM_mem _ _ _ hc init hin
    obtain ⟨d, hd, a, ha, hload, hall⟩ := hone init c ho
    refine ⟨d, hd, a, c, ha, hload, fun e he => ?_, hall⟩
    refine hv e c hcc (by rw [hlab d hd _ _ _ hload, he]; simp) (fun b' hb' hb'e => ?_)
    obtain ⟨init', hin', ho'⟩ := mapM_out_mem hc b' hb'
    obtain ⟨d', hd', a', -, hload', -⟩ := hone init' b' ho'
    rw [hlab d' hd' _ _ _ hload', Finset.mem_singleton, he] at hb'e
    subst hb'e
    rw [ho, Except.ok.injEq] at ho'
    rw [ho']

/-! ### The hypotheses are met -/

/-- Forecasts at 0, 12, 24 with a latency of 5: at 16 the latest available one is that of 0. -/
example : LatestAvailable ([0, 12, 24] : List ℤ) 5 16 0 := ⟨by simp, by norm_num, by simp⟩
/-- Forecasts with hourly lead times. -/
def exForecast : DA ℤ ℤ := { dims := {"init_time", "lead_time"}, coords := fun d => if d = "init_time" then {0, 12, 24} else {0, 1, 6, 12, 16, 17}, val := fun e => 100 * e "init_time" + e "lead_time" }
example : ∃ r, latencySource (loadPredictions exForecast) [0, 12, 24] 5 [16] (.exact [0, 1]) = .ok r ∧ r.val (fun d => if d = "init_time" then 16 else 1) = 17 := by
  have ha : availableInitTime ([0, 12, 24] : List ℤ) 5 16 = .ok 0 := ((C46_available _ _ _).1 0).mpr ⟨by simp, by norm_num, by simp⟩
  obtain ⟨r1, hr1⟩ := selList_exists (d := "init_time") (ls := [0]) (a := exForecast) (by simp [exForecast])
  obtain ⟨-, -, -, k1, -⟩ := selList_ok hr1
  obtain ⟨r2, hr2⟩ := selList_exists (d := "lead_time") (ls := [16, 17]) (a := r1) (by rw [k1 _ (by decide)]; simp [exForecast])
  have hload : loadPredictions exForecast [0] (.exact [16, 17]) = .ok r2 := by
    unfold loadPredictions
    rw [hr1]
    exact hr2
  have h1 : ∃ r, latencySource (loadPredictions exForecast) [0, 12, 24] 5 [16] (.exact [0, 1]) = .ok r := by
    simp only [latencySource, List.mapM_cons, List.mapM_nil, latencyOne, ha, bind, Except.bind]
    norm_num
    rw [hload]
    exact ⟨_, rfl⟩
  obtain ⟨r, hr⟩ := h1
  refine ⟨r, hr, ?_⟩
  obtain ⟨a, hla, hv⟩ := C46_predictions (by simp [exForecast]) (by simp [exForecast]) hr (e := fun d => if d = "init_time" then 16 else 1) (by simp)
  have : a = 0 := hla.unique (show LatestAvailable ([0, 12, 24] : List ℤ) 5 16 0 from ⟨by simp, by norm_num, by simp⟩)
  subst this
  rw [hv]
  simp [exForecast, setLabel]

end WBX
