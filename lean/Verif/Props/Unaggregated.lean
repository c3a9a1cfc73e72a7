import Verif.Spec.Store
import Verif.Spec.Aggregation
import Verif.Props.TimeChunks
import Verif.Props.MetricsBase
import Verif.Props.Wrappers
import Verif.Props.Latency
import Verif.Props.Regions

set_option linter.unusedSectionVars false

/-! # C73: the unaggregated pipeline -/

namespace WBX
open DA
variable {L V D M : Type} [DecidableEq L]

/-- C73: writing the elements one region at a time, in any order and any number of times each, gives a store as required. -/
theorem C73_any_order (ws run : List (Write L V)) (h : ∀ w, w ∈ run ↔ w ∈ ws) :
    IsStoreOf ws (run.foldl Store.write (fun _ _ => none)) := by
  have key : ∀ (run : List (Write L V)) (n : String) (c : StoreCell L),
      (∀ v, run.foldl Store.write (fun _ _ => none) n c = some v → ∃ w ∈ run, w.name = n ∧ w.valueAt c = some v) ∧
      (∀ w ∈ run, w.name = n → (w.valueAt c).isSome → (run.foldl Store.write (fun _ _ => none) n c).isSome) := by
    intro run n c
    induction run using List.reverseRecOn with
    | nil => exact ⟨by intro v hv; exact absurd hv (by simp), by intro w hw; exact absurd hw (by simp)⟩
    | append_singleton run w ih =>
      rw [List.foldl_append]
      simp only [List.foldl_cons, List.foldl_nil]
      set st := run.foldl Store.write (fun _ _ => none) with hst
      refine ⟨?_, ?_⟩
      · intro v hv
        unfold Store.write at hv
        by_cases hn : n = w.name
        · rw [if_pos hn] at hv
          cases hw : w.valueAt c with
          | some u =>
            rw [hw] at hv
            exact ⟨w, by simp, hn.symm, by rw [hw]; exact hv⟩
          | none =>
            rw [hw] at hv
            obtain ⟨w', h1, h2⟩ := ih.1 v hv
            exact ⟨w', by simp [h1], h2⟩
        · rw [if_neg hn] at hv
          obtain ⟨w', h1, h2⟩ := ih.1 v hv
          exact ⟨w', by simp [h1], h2⟩
      · intro w' hw' hn hs
        unfold Store.write
        by_cases hnw : n = w.name
        · rw [if_pos hnw]
          cases hw : w.valueAt c with
          | some u => rfl
          | none =>
            rcases List.mem_append.mp hw' with h1 | h1
            · exact ih.2 w' h1 hn hs
            · rw [List.mem_singleton] at h1
              subst h1
              rw [hw] at hs
              exact absurd hs (by simp)
        · rw [if_neg hnw]
          rcases List.mem_append.mp hw' with h1 | h1
          · exact ih.2 w' h1 hn hs
          · rw [List.mem_singleton] at h1
            subst h1
            exact absurd hn.symm hnw
  refine ⟨?_, ?_⟩
  · intro n c v hv
    obtain ⟨w, h1, h2⟩ := (key run n c).1 v hv
    exact ⟨w, (h w).mp h1, h2⟩
  · intro w hw c hs
    exact (key run w.name c).2 w ((h w).mpr hw) rfl hs

theorem split_cover {α : Type} {xs : List α} {c : ℕ} {cs : List (List α)} (h : TimeChunks.split xs c = .ok cs) {i : ℕ} {x : α}
    (hi : xs[i]? = some x) : ∃ ch, cs[i / c]? = some ch ∧ ch[i - c * (i / c)]? = some x := by
  obtain ⟨hc, rfl⟩ := TimeChunks.split_ok h
  have hlt : i < xs.length := (List.getElem?_eq_some_iff.mp hi).1
  have h1 : i / c < (xs.length + c - 1) / c := by
    by_contra hge
    rw [not_lt] at hge
    have h2 := TimeChunks.ceil_mul_ge xs.length c hc
    have h3 := Nat.mul_le_mul_right c hge
    have h4 := Nat.div_mul_le_self i c
    omega
  refine ⟨TimeChunks.pySlice xs (i / c * c) c, ?_, ?_⟩
  · rw [List.getElem?_map, List.getElem?_range h1]
    rfl
  · unfold TimeChunks.pySlice
    have h4 := Nat.div_add_mod i c
    have h5 := Nat.mod_lt i hc
    rw [List.getElem?_take_of_lt (by omega), List.getElem?_drop, Nat.mul_comm c (i / c)] 
    rw [show i / c * c + (i - i / c * c) = i by rw [Nat.mul_comm] at h4; omega]
    exact hi

/-- The element of the pipeline that contains a pair of positions. -/
theorem chunk_cover {is ts : List L} {a b : Option Int} {tc : TimeChunks L L} (h : TimeChunks.make is (.arr ts) a b = .ok tc)
    {out} (ho : tc.iterWithOffsets = .ok out) {i j : ℕ} {x y : L} (hi : is[i]? = some x) (hj : ts[j]? = some y) :
    ∃ o ic lc, (o, (ic, LeadChunk.arr lc)) ∈ out ∧ o.initTime ≤ i ∧ ic[i - o.initTime]? = some x ∧
      o.leadTime ≤ j ∧ lc[j - o.leadTime]? = some y := by
  obtain ⟨-, -, his, hls, hsi, lcs, hl, hlc⟩ := TimeChunks.make_arr_ok h
  have hout : tc.iterWithOffsets = .ok (tc.iter.zipIdx.map (fun p =>
      (⟨tc.initSize * (p.2 / tc.leadChunks.length),
        TimeChunks.effectiveSize b ts.length * (p.2 % tc.leadChunks.length)⟩, p.1))) := by
    unfold TimeChunks.iterWithOffsets
    apply TimeChunks.mapM_ok_of_forall
    intro x _
    simp [TimeChunks.offsetsAt, hls, bind, Except.bind, pure, Except.pure]
  rw [hout] at ho
  injection ho with ho
  subst ho
  rw [his]
  set A := TimeChunks.effectiveSize a is.length
  set B := TimeChunks.effectiveSize b ts.length
  obtain ⟨ic, h1, h2⟩ := split_cover hsi hi
  obtain ⟨lc, h3, h4⟩ := split_cover hl hj
  have hn : tc.leadChunks.length = lcs.length := by rw [hlc]; simp
  have hlt : j / B < lcs.length := (List.getElem?_eq_some_iff.mp h3).1
  set k := i / A * lcs.length + j / B with hk
  have hdiv : k / lcs.length = i / A := by
    rw [hk, Nat.mul_comm, Nat.mul_add_div (Nat.lt_of_le_of_lt (Nat.zero_le _) hlt), Nat.div_eq_of_lt hlt, Nat.add_zero]
  have hmod : k % lcs.length = j / B := by
    rw [hk, Nat.mul_comm, Nat.mul_add_mod, Nat.mod_eq_of_lt hlt]
  have hget : tc.iter[k]? = some (ic, LeadChunk.arr lc) := by
    rw [TimeChunks.iter, TimeChunks.product_getElem?, hn, hdiv, hmod, h1, hlc, List.getElem?_map, h3]
    rfl
  refine ⟨⟨A * (k / tc.leadChunks.length), B * (k % tc.leadChunks.length)⟩, ic, lc, ?_, ?_⟩
  · rw [List.mem_map]
    exact ⟨((ic, .arr lc), k), List.mem_zipIdx_iff_getElem?.mpr hget, rfl⟩
  · simp only [hn, hdiv, hmod]
    exact ⟨Nat.mul_div_le i A, h2, Nat.mul_div_le j B, h4⟩

theorem getElem?_sub_of_slice {α : Type} {xs ch : List α} {o i : ℕ} (h : ch = (xs.drop o).take ch.length) (hoi : o ≤ i) {x : α}
    (hx : ch[i - o]? = some x) : xs[i]? = some x := by
  rw [h] at hx
  have hlt := (List.getElem?_eq_some_iff.mp hx).1
  rw [List.length_take] at hlt
  rw [List.getElem?_take_of_lt (by omega), List.getElem?_drop, show o + (i - o) = i by omega] at hx
  exact hx

theorem mem_formatStatistics {o : TimeChunks.Offsets} {is ts : List L} {stats : List (String × Vars (Option (StatVar L V)))} {ws : List (Write L V)}
    (h : formatStatistics o is ts stats = .ok ws) (w : Write L V) :
    w ∈ ws ↔ ∃ st ∈ stats, ∃ v s, (v, some s) ∈ st.2 ∧ w = formatStatistic o is ts st.1 v s := by
  unfold formatStatistics at h
  constructor
  · intro hw
    obtain ⟨x, hx, hxw⟩ := mapM_out_mem h _ hw
    rw [List.mem_flatMap] at hx
    obtain ⟨st, hst, hx⟩ := hx
    obtain ⟨⟨v, r⟩, hvr, rfl⟩ := List.mem_map.mp hx
    cases r with
    | none => exact absurd hxw (by simp)
    | some s =>
      injection hxw with hxw
      exact ⟨st, hst, v, s, hvr, hxw.symm⟩
  · rintro ⟨st, hst, v, s, hvr, rfl⟩
    have hx : (st.1, (v, some s)) ∈ stats.flatMap (fun st => st.2.map (fun vr => (st.1, vr))) :=
      List.mem_flatMap.mpr ⟨st, hst, List.mem_map.mpr ⟨_, hvr, rfl⟩⟩
    obtain ⟨y, hym, hy⟩ := mapM_mem _ _ _ h _ hx
    injection hy with hy
    rw [hy]
    exact hym

/-- The statistics of a chunk are the whole statistics restricted to the times of the chunk. -/
def ChunksOf (tc : TimeChunks L L) (compute : List L → LeadChunk L → Except Err (List (String × Vars (Option (StatVar L V)))))
    (whole : List (String × Vars (Option (StatVar L V)))) : Prop :=
  ∀ c ∈ tc.iter, ∀ lc, c.2 = .arr lc →
    compute c.1 c.2 = .ok (chunkOf "lead_time" lc.toFinset (chunkOf "init_time" c.1.toFinset whole))

variable {metrics : List (String × Metric D (Option (StatVar L V)) M)} {targets : List L → LeadChunk L → Except Err (Vars D)}
  {predictions : List L → LeadChunk L → Vars D → Except Err (Vars D)} {between : L → L → List L} {tc : TimeChunks L L}

theorem mem_unaggregatedWrites {ws : List (Write L V)} (h : unaggregatedWrites metrics targets predictions between tc = .ok ws) :
    ∃ out, tc.iterWithOffsets = .ok out ∧ (∀ w ∈ ws, ∃ p ∈ out, ∃ stats, chunkStatistics metrics targets predictions p.2.1 p.2.2 = .ok stats ∧
      ∃ st ∈ stats, ∃ v s, (v, some s) ∈ st.2 ∧ w = formatStatistic p.1 p.2.1 (chunkLeads between p.2.2) st.1 v s) ∧
      (∀ p ∈ out, ∃ stats, chunkStatistics metrics targets predictions p.2.1 p.2.2 = .ok stats ∧
        ∀ st ∈ stats, ∀ v s, (v, some s) ∈ st.2 → formatStatistic p.1 p.2.1 (chunkLeads between p.2.2) st.1 v s ∈ ws) := by
  unfold unaggregatedWrites at h
  obtain ⟨out, ho, h⟩ := bind_ok_iff.mp h
  obtain ⟨wss, hw, h⟩ := bind_ok_iff.mp h
  injection h with h
  subst h
  refine ⟨out, ho, ?_, ?_⟩
  · intro w hmem
    obtain ⟨l, hl, hwl⟩ := List.mem_flatten.mp hmem
    obtain ⟨p, hp, hpl⟩ := mapM_out_mem hw _ hl
    obtain ⟨stats, hs, hpl⟩ := bind_ok_iff.mp hpl
    obtain ⟨st, hst, v, s, hv, rfl⟩ := (mem_formatStatistics hpl w).mp hwl
    exact ⟨p, hp, stats, hs, st, hst, v, s, hv, rfl⟩
  · intro p hp
    obtain ⟨l, hl, hpl⟩ := mapM_mem _ _ _ hw _ hp
    obtain ⟨stats, hs, hpl⟩ := bind_ok_iff.mp hpl
    refine ⟨stats, hs, ?_⟩
    intro st hst v s hv
    exact List.mem_flatten.mpr ⟨l, hl, (mem_formatStatistics hpl _).mpr ⟨st, hst, v, s, hv, rfl⟩⟩

theorem mem_chunkOf {c : Dim} {S : Finset L} {stats : List (String × List (String × Option (StatVar L V)))} {st : String × List (String × Option (StatVar L V))}
    (h : st ∈ chunkOf c S stats) {v : String} {s : StatVar L V} (hv : (v, some s) ∈ st.2) :
    ∃ st' ∈ stats, st'.1 = st.1 ∧ ∃ s', (v, some s') ∈ st'.2 ∧ s = ⟨s'.arr.restrict c S, s'.mask.map (DA.restrict c S)⟩ := by
  unfold chunkOf at h
  obtain ⟨st', h1, rfl⟩ := List.mem_map.mp h
  obtain ⟨⟨v', r⟩, h2, h3⟩ := List.mem_map.mp hv
  rw [Prod.mk.injEq] at h3
  obtain ⟨rfl, h3⟩ := h3
  obtain ⟨s', rfl, rfl⟩ := Option.map_eq_some_iff.mp h3
  exact ⟨st', h1, rfl, s', h2, rfl⟩

theorem chunkOf_mem {c : Dim} {S : Finset L} {stats : List (String × List (String × Option (StatVar L V)))} {k : String} {vs : List (String × Option (StatVar L V))}
    (h : (k, vs) ∈ stats) {v : String} {s : StatVar L V} (hv : (v, some s) ∈ vs) :
    ∃ vs', (k, vs') ∈ chunkOf c S stats ∧ (v, some ⟨s.arr.restrict c S, s.mask.map (DA.restrict c S)⟩) ∈ vs' :=
  ⟨_, List.mem_map.mpr ⟨_, h, rfl⟩, List.mem_map.mpr ⟨_, hv, rfl⟩⟩

/-- C73: whatever the chunking, the order of the writes and the retries, the store holds at the positions `i`, `j` of the
time coordinates - and at any label of the other dimensions - the value of the statistic of the whole data at the `i`-th
init time and the `j`-th lead time. -/
theorem C73_value {is ts : List L} {a b : Option Int} (htc : TimeChunks.make is (.arr ts) a b = .ok tc)
    {ws : List (Write L V)} (hws : unaggregatedWrites metrics targets predictions between tc = .ok ws)
    {st : Store L V} (hst : IsStoreOf ws st)
    {whole : List (String × Vars (Option (StatVar L V)))} (hwhole : ChunksOf tc (chunkStatistics metrics targets predictions) whole)
    (hnames : ((storeVars whole).map Prod.fst).Nodup)
    {k v : String} {vs : Vars (Option (StatVar L V))} (hk : (k, vs) ∈ whole) {s : StatVar L V} (hv : (v, some s) ∈ vs)
    (hi : "init_time" ∈ s.arr.dims) (hl : "lead_time" ∈ s.arr.dims) {i j : ℕ} {x y : L} (hx : is[i]? = some x) (hy : ts[j]? = some y)
    (e : Dim → L) :
    st (k ++ "." ++ v) ⟨i, j, e⟩ = if s.arr.InDom (atTimes e x y) then some (s.arr.val (atTimes e x y)) else none := by
  obtain ⟨out, ho, hin, hall⟩ := mem_unaggregatedWrites hws
  obtain ⟨out', ho', hsnd, hoff⟩ := TimeChunks.C03_offsets htc
  rw [ho] at ho'
  injection ho' with ho'
  subst ho'
  have huniq : ∀ k' vs' v' (s' : StatVar L V), (k', vs') ∈ whole → (v', some s') ∈ vs' → statisticName k' v' = statisticName k v → s' = s := by
    intro k' vs' v' s' hk' hv' hn
    have h1 : (statisticName k' v', some s') ∈ storeVars whole := List.mem_flatMap.mpr ⟨_, hk', List.mem_map.mpr ⟨_, hv', rfl⟩⟩
    have h2 : (statisticName k v, some s) ∈ storeVars whole := List.mem_flatMap.mpr ⟨_, hk, List.mem_map.mpr ⟨_, hv, rfl⟩⟩
    rw [hn] at h1
    have := List.inj_on_of_nodup_map hnames h1 h2 rfl
    simpa using this
  -- what an element carries for the cell
  have hcarry : ∀ w ∈ ws, w.name = k ++ "." ++ v → ∀ u, w.valueAt ⟨i, j, e⟩ = some u →
      s.arr.InDom (atTimes e x y) ∧ u = s.arr.val (atTimes e x y) := by
    intro w hw hname u hu
    obtain ⟨p, hp, stats, hs, st', hst', v', s', hv', rfl⟩ := hin w hw
    obtain ⟨lc, hlc, o1, -, -, o2, -, -⟩ := hoff p hp
    have hpm : p.2 ∈ tc.iter := by rw [← hsnd]; exact List.mem_map.mpr ⟨p, hp, rfl⟩
    rw [hwhole p.2 hpm lc hlc] at hs
    injection hs with hs
    subst hs
    obtain ⟨st1, m1, n1, s1, hv1, rfl⟩ := mem_chunkOf hst' hv'
    obtain ⟨st2, m2, n2, s2, hv2, rfl⟩ := mem_chunkOf m1 hv1
    have hs2 : s2 = s := huniq st2.1 st2.2 v' s2 m2 hv2 (by
      rw [n2, n1]; exact hname)
    subst hs2
    simp only [formatStatistic, Write.valueAt, DA.restrict, hi, hl, if_true, hlc, chunkLeads, labelAt] at hu
    by_cases hoi : p.1.initTime ≤ i
    swap
    · simp [hoi] at hu
    by_cases hol : p.1.leadTime ≤ j
    swap
    · simp [hol] at hu
    rw [if_pos hoi, if_pos hol] at hu
    cases hix : p.2.1[i - p.1.initTime]? with
    | none => rw [hix] at hu; exact absurd hu (by simp)
    | some x' =>
      cases hjx : lc[j - p.1.leadTime]? with
      | none => rw [hix, hjx] at hu; exact absurd hu (by simp)
      | some y' =>
        have e1 := getElem?_sub_of_slice o1 hoi hix
        have e2 := getElem?_sub_of_slice o2 hol hjx
        rw [hx] at e1
        rw [hy] at e2
        injection e1 with e1
        injection e2 with e2
        subst e1 e2
        rw [hix, hjx] at hu
        simp only at hu
        split at hu
        · rename_i hd
          injection hu with hu
          refine ⟨?_, hu.symm⟩
          intro d hd'
          have := hd d hd'
          simp only at this
          by_cases h1 : d = "lead_time"
          · rw [if_pos h1] at this
            rw [Finset.mem_inter] at this
            by_cases h2 : d = "init_time"
            · rw [if_pos h2, Finset.mem_inter] at this
              exact this.1.1
            · rw [if_neg h2] at this
              exact this.1
          · rw [if_neg h1] at this
            by_cases h2 : d = "init_time"
            · rw [if_pos h2, Finset.mem_inter] at this
              exact this.1
            · rw [if_neg h2] at this
              exact this
        · exact absurd hu (by simp)
  by_cases hdom : s.arr.InDom (atTimes e x y)
  · rw [if_pos hdom]
    obtain ⟨o, ic, lc, hmem, b1, b2, b3, b4⟩ := chunk_cover htc ho hx hy
    obtain ⟨stats, hs, hput⟩ := hall _ hmem
    have hpm : (ic, LeadChunk.arr lc) ∈ tc.iter := by rw [← hsnd]; exact List.mem_map.mpr ⟨_, hmem, rfl⟩
    rw [hwhole _ hpm lc rfl] at hs
    injection hs with hs
    subst hs
    obtain ⟨vs1, m1, v1⟩ := chunkOf_mem (c := "init_time") (S := ic.toFinset) hk hv
    obtain ⟨vs2, m2, v2⟩ := chunkOf_mem (c := "lead_time") (S := lc.toFinset) m1 v1
    have hw := hput _ m2 _ _ v2
    have hsome : ((formatStatistic o ic lc k v ⟨(s.arr.restrict "init_time" ic.toFinset).restrict "lead_time" lc.toFinset,
        (s.mask.map (DA.restrict "init_time" ic.toFinset)).map (DA.restrict "lead_time" lc.toFinset)⟩).valueAt ⟨i, j, e⟩).isSome := by
      simp only [formatStatistic, Write.valueAt, DA.restrict, hi, hl, if_true, labelAt, if_pos b1, if_pos b3, b2, b4]
      rw [if_pos]
      · rfl
      · intro d hd
        have hd' := hdom d hd
        unfold atTimes at hd'
        dsimp only
        by_cases h1 : d = "lead_time"
        · subst h1
          rw [if_pos rfl, if_neg (by decide), Finset.mem_inter]
          refine ⟨hd', ?_⟩
          rw [List.mem_toFinset, setLabel, if_pos rfl]
          exact List.mem_of_getElem? b4
        · rw [if_neg h1]
          by_cases h2 : d = "init_time"
          · subst h2
            rw [if_pos rfl, Finset.mem_inter]
            refine ⟨hd', ?_⟩
            rw [List.mem_toFinset, setLabel, if_neg h1, setLabel, if_pos rfl]
            exact List.mem_of_getElem? b2
          · rw [if_neg h2]
            exact hd'
    have h2 := hst.complete _ hw ⟨i, j, e⟩ hsome
    obtain ⟨u, hu⟩ := Option.isSome_iff_exists.mp h2
    obtain ⟨w, hwm, hwn, hwv⟩ := hst.carried _ _ _ hu
    have := (hcarry w hwm hwn u hwv).2
    rw [this] at hu
    exact hu
  · rw [if_neg hdom]
    cases hu : st (k ++ "." ++ v) ⟨i, j, e⟩ with
    | none => rfl
    | some u =>
      obtain ⟨w, hwm, hwn, hwv⟩ := hst.carried _ _ _ hu
      exact absurd (hcarry w hwm hwn u hwv).1 hdom

/-- C73: the run succeeds whenever the statistics of the chunks can be computed and none of them is `None`. -/
theorem C73_run_exists {is ts : List L} {a b : Option Int} (htc : TimeChunks.make is (.arr ts) a b = .ok tc)
    {whole : List (String × Vars (Option (StatVar L V)))} (hwhole : ChunksOf tc (chunkStatistics metrics targets predictions) whole)
    (hsome : ∀ st ∈ whole, ∀ vr ∈ st.2, vr.2 ≠ none) :
    ∃ ws, unaggregatedWrites metrics targets predictions between tc = .ok ws ∧ ∃ st, IsStoreOf ws st := by
  obtain ⟨out, ho, hsnd, hoff⟩ := TimeChunks.C03_offsets htc
  obtain ⟨r, hr⟩ := mapM_ok_of_mem (fun x : TimeChunks.Offsets × (List L × LeadChunk L) => do
    let stats ← chunkStatistics metrics targets predictions x.2.1 x.2.2
    formatStatistics x.1 x.2.1 (chunkLeads between x.2.2) stats) out (by
      intro x hx
      obtain ⟨lc, hlc, -⟩ := hoff x hx
      have h1 := hwhole x.2 (by rw [← hsnd]; exact List.mem_map.mpr ⟨x, hx, rfl⟩) lc hlc
      obtain ⟨ys, hys⟩ := mapM_ok_of_mem (fun y : String × (String × Option (StatVar L V)) =>
        match y.2.2 with
        | some s => (.ok (formatStatistic x.1 x.2.1 (chunkLeads between x.2.2) y.1 y.2.1 s) : Except Err (Write L V))
        | none => .error .typeError)
        ((chunkOf "lead_time" lc.toFinset (chunkOf "init_time" x.2.1.toFinset whole)).flatMap (fun st => st.2.map (fun vr => (st.1, vr)))) (by
          intro y hy
          obtain ⟨st, hst, hy⟩ := List.mem_flatMap.mp hy
          obtain ⟨vr, hvr, rfl⟩ := List.mem_map.mp hy
          unfold chunkOf at hst
          rw [List.map_map] at hst
          obtain ⟨st0, hst0, rfl⟩ := List.mem_map.mp hst
          simp only [Function.comp_apply, List.map_map] at hvr
          obtain ⟨vr0, hvr0, rfl⟩ := List.mem_map.mp hvr
          obtain ⟨s, hs⟩ := Option.ne_none_iff_exists'.mp (hsome st0 hst0 vr0 hvr0)
          simp only [Function.comp_apply, hs, Option.map_some]
          exact ⟨_, rfl⟩)
      exact ⟨ys, bind_ok_iff.mpr ⟨_, h1, hys⟩⟩)
  exact ⟨r.flatten, bind_ok_iff.mpr ⟨out, ho, bind_ok_iff.mpr ⟨r, hr, rfl⟩⟩, _, C73_any_order r.flatten r.flatten (fun _ => Iff.rfl)⟩

/-- C73: the time coordinates of the store are all the init times and all the lead times asked for, and the template has no
variable that the statistics of the first chunk do not have. -/
theorem C73_template {is ts : List L} {a b : Option Int} (htc : TimeChunks.make is (.arr ts) a b = .ok tc) {first : List (String × StatVar L V)}
    {tmpl : Template L} (h : templateOf tc first = .ok tmpl) :
    tmpl.names = first.map Prod.fst ∧ (∀ x ∈ first, x.2.mask = none) ∧
    ((∃ x ∈ first, "init_time" ∈ x.2.arr.dims) → tmpl.initTimes = some is) ∧
    ((∃ x ∈ first, "lead_time" ∈ x.2.arr.dims) → tmpl.leadTimes = some ts) ∧
    (tmpl.validTime = true ↔ (∃ x ∈ first, "init_time" ∈ x.2.arr.dims) ∧ ∃ x ∈ first, "lead_time" ∈ x.2.arr.dims) := by
  have hinit : tc.initTimes = is ∧ tc.leadTimes = .arr ts := by
    unfold TimeChunks.make at htc
    cases ha : TimeChunks.isNegative a <;> cases hb : TimeChunks.isNegative b <;>
      simp [ha, hb, bind, Except.bind, throw, throwThe, MonadExceptOf.throw, pure, Except.pure] at htc
    cases h1 : TimeChunks.split is (TimeChunks.effectiveSize a is.length) with
    | error e => rw [h1] at htc; exact absurd htc (by simp)
    | ok x =>
      cases h2 : TimeChunks.split ts (TimeChunks.effectiveSize b ts.length) with
      | error e => rw [h1, h2] at htc; exact absurd htc (by simp)
      | ok y =>
        rw [h1, h2] at htc
        simp only [Except.ok.injEq] at htc
        subst htc
        exact ⟨rfl, rfl⟩
  unfold templateOf at h
  by_cases hm : (first.any fun x => x.2.mask.isSome) = true
  · rw [if_pos hm] at h
    exact absurd h (by simp [throw, throwThe, MonadExceptOf.throw, bind, Except.bind])
  · rw [if_neg hm] at h
    have hmask : ∀ x ∈ first, x.2.mask = none := by
      intro x hx
      cases hxm : x.2.mask with
      | none => rfl
      | some m => exact absurd (List.any_eq_true.mpr ⟨x, hx, by rw [hxm]; rfl⟩) hm
    have hiff : ∀ d : Dim, (first.any fun x => decide (d ∈ x.2.arr.dims)) = true ↔ ∃ x ∈ first, d ∈ x.2.arr.dims := by
      intro d
      simp
    simp only [pure_bind, templateLeads, hinit.2, Except.map] at h
    by_cases h1 : (first.any fun x => decide ("lead_time" ∈ x.2.arr.dims)) = true
    · by_cases h2 : (first.any fun x => decide ("init_time" ∈ x.2.arr.dims)) = true
      · rw [if_pos h1, if_pos h2] at h
        simp only [bind, Except.bind, pure, Except.pure, Except.ok.injEq] at h
        subst h
        exact ⟨rfl, hmask, fun _ => by rw [hinit.1], fun _ => rfl, ⟨fun _ => ⟨(hiff _).mp h2, (hiff _).mp h1⟩, fun _ => rfl⟩⟩
      · rw [if_pos h1, if_neg h2] at h
        simp only [bind, Except.bind, pure, Except.pure, Except.ok.injEq] at h
        subst h
        rw [hiff] at h2
        exact ⟨rfl, hmask, fun h => absurd h h2, fun _ => rfl, ⟨fun h => absurd h (by simp), fun h => absurd h.1 h2⟩⟩
    · by_cases h2 : (first.any fun x => decide ("init_time" ∈ x.2.arr.dims)) = true
      · rw [if_neg h1, if_pos h2] at h
        simp only [bind, Except.bind, pure, Except.pure, Except.ok.injEq] at h
        subst h
        rw [hiff] at h1
        exact ⟨rfl, hmask, fun _ => by rw [hinit.1], fun h => absurd h h1, ⟨fun h => absurd h (by simp), fun h => absurd h.2 h1⟩⟩
      · rw [if_neg h1, if_neg h2] at h
        simp only [bind, Except.bind, pure, Except.pure, Except.ok.injEq] at h
        subst h
        rw [hiff] at h1 h2
        exact ⟨rfl, hmask, fun h => absurd h h2, fun h => absurd h h1, ⟨fun h => absurd h (by simp), fun h => absurd h.2 h1⟩⟩

/-- C73: an empty request and a `mask` coordinate (data loaded with `add_nan_mask=True`) are refused with a `ValueError`. -/
theorem C73_refused (tc : TimeChunks L L) :
    (tc.iter = [] → getTemplate metrics targets predictions tc = .error .valueError) ∧
    (∀ c stats, tc.iter[0]? = some c → chunkStatistics metrics targets predictions c.1 c.2 = .ok stats →
      (∃ x ∈ statArrays stats, x.2.mask.isSome = true) → getTemplate metrics targets predictions tc = .error .valueError) := by
  have hget := TimeChunks.C02_getItem tc 0
  rw [if_neg (by decide)] at hget
  refine ⟨?_, ?_⟩
  · intro h
    rw [h] at hget
    unfold getTemplate
    rw [hget]
    rfl
  · intro c stats hc hs hmask
    rw [show Int.toNat 0 = 0 from rfl, hc] at hget
    unfold getTemplate
    rw [hget]
    simp only [hs, bind, Except.bind, templateOf]
    rw [if_pos (List.any_eq_true.mpr (by simpa using hmask))]
    rfl

/-- C73, finding: lead times given as a slice never work here. As soon as a statistic has the dimension `lead_time` the
template is a `TypeError`: `TimeChunks` only accepts slices without a step, and the template needs the step. -/
theorem C73_slice_raises {is : List L} {sa sb ss : Option L} {a b : Option Int} (htc : TimeChunks.make is (.slice sa sb ss) a b = .ok tc)
    {first : List (String × StatVar L V)} (hmask : ∀ x ∈ first, x.2.mask = none) (hl : ∃ x ∈ first, "lead_time" ∈ x.2.arr.dims) :
    templateOf tc first = .error .typeError := by
  have hleads : tc.leadTimes = .slice sa sb ss := by
    unfold TimeChunks.make at htc
    cases ha : TimeChunks.isNegative a <;> cases hb : TimeChunks.isNegative b <;>
      simp [ha, hb, bind, Except.bind, throw, throwThe, MonadExceptOf.throw, pure, Except.pure] at htc
    cases h1 : TimeChunks.split is (TimeChunks.effectiveSize a is.length) with
    | error e => rw [h1] at htc; exact absurd htc (by simp)
    | ok x =>
      rw [h1] at htc
      dsimp only at htc
      split at htc
      · split at htc
        · exact absurd htc (by simp)
        · split at htc
          · split at htc
            · simp only [Except.ok.injEq] at htc
              rw [← htc]
            · exact absurd htc (by simp)
          · simp only [Except.ok.injEq] at htc
            rw [← htc]
      · exact absurd htc (by simp)
  unfold templateOf
  have hm : ¬ (first.any fun x => x.2.mask.isSome) = true := by
    intro h
    obtain ⟨x, hx, h⟩ := List.any_eq_true.mp h
    rw [hmask x hx] at h
    exact absurd h (by simp)
  rw [if_neg hm, if_pos (List.any_eq_true.mpr (by simpa using hl))]
  simp [templateLeads, hleads, Except.map, bind, Except.bind, pure, Except.pure]

/-- C73: the Zarr chunk size of every dimension of the template is the user's if given, else the chunk size of the times, else
the whole dimension. -/
theorem C73_zarr_chunks (tc : TimeChunks L L) (sizes : List (Dim × ℕ)) (user : List (Dim × ℤ)) (hu : (user.map Prod.fst).Nodup)
    (hsz : (sizes.map Prod.fst).Nodup) (hpos : 0 < tc.initSize) (d : Dim) :
    (∀ n, (d, n) ∈ user → pyGet? d (zarrChunks (statChunks tc sizes) (some user)) = some n) ∧
    (d ∉ user.map Prod.fst → ∀ size, (d, size) ∈ sizes → pyGet? d (zarrChunks (statChunks tc sizes) (some user)) =
      some (if d = "init_time" then (tc.initSize : ℤ) else if d = "lead_time" then
        (match tc.leadSize with | none => -1 | some n => if n = 0 then -1 else (n : ℤ)) else (size : ℤ))) ∧
    zarrChunks (statChunks tc sizes) none = statChunks tc sizes := by
  have hkeep : ∀ (user : List (Dim × ℤ)) (st : List (Dim × ℤ)), d ∉ user.map Prod.fst →
      pyGet? d (user.foldl (fun d kv => pyInsert kv.1 kv.2 d) st) = pyGet? d st := by
    intro user
    induction user with
    | nil => intro st _; rfl
    | cons kv user ih =>
      intro st hd
      rw [List.map_cons, List.mem_cons, not_or] at hd
      rw [List.foldl_cons, ih _ hd.2, pyGet?_insert, if_neg (Ne.symm hd.1)]
  refine ⟨?_, ?_, rfl⟩
  · intro n hn
    unfold zarrChunks
    rw [Option.getD_some]
    generalize statChunks tc sizes = st
    induction user generalizing st with
    | nil => exact absurd hn (by simp)
    | cons kv user ih =>
      rw [List.map_cons, List.nodup_cons] at hu
      rw [List.foldl_cons]
      rcases List.mem_cons.mp hn with h | h
      · subst h
        rw [hkeep user _ hu.1, pyGet?_insert, if_pos rfl]
      · exact ih hu.2 h _
  · intro hd size hsize
    unfold zarrChunks
    rw [Option.getD_some, hkeep user _ hd]
    unfold statChunks
    rw [pyGet?_eq_some]
    · refine List.mem_map.mpr ⟨(d, size), hsize, ?_⟩
      simp only [Prod.mk.injEq, true_and]
      by_cases h1 : d = "init_time"
      · rw [if_pos h1, if_pos h1]
        obtain ⟨n, hn⟩ : ∃ n, tc.initSize = n + 1 := ⟨tc.initSize - 1, by omega⟩
        rw [hn]
        rfl
      · rw [if_neg h1, if_neg h1]
        by_cases h2 : d = "lead_time"
        · rw [if_pos h2, if_pos h2]
          cases tc.leadSize with
          | none => rfl
          | some n => cases n <;> simp [orMinusOne]
        · rw [if_neg h2, if_neg h2]
    · rw [List.map_map]
      exact hsz

theorem write_last (st : Store L V) (w : Write L V) {c : StoreCell L} {v : V} (h : w.valueAt c = some v) : st.write w w.name c = some v := by
  unfold Store.write
  rw [if_pos rfl, h]

/-- C73, finding: a statistic without time dimensions is written by every chunk to the same cells. The result is the value of
the chunk that happens to be written last: the same elements written in another order give another store. -/
theorem C73_no_time_dims (o o' : TimeChunks.Offsets) (is is' ts ts' : List L) (k v : String) (s s' : StatVar L V)
    (h : "init_time" ∉ s.arr.dims ∧ "lead_time" ∉ s.arr.dims) (h' : "init_time" ∉ s'.arr.dims ∧ "lead_time" ∉ s'.arr.dims)
    (e : Dim → L) (he : s.arr.InDom e) (he' : s'.arr.InDom e) (i j : ℕ) :
    let w := formatStatistic o is ts k v s
    let w' := formatStatistic o' is' ts' k v s'
    ([w, w'].foldl Store.write (fun _ _ => none)) (k ++ "." ++ v) ⟨i, j, e⟩ = some (s'.arr.val e) ∧
    ([w', w].foldl Store.write (fun _ _ => none)) (k ++ "." ++ v) ⟨i, j, e⟩ = some (s.arr.val e) := by
  have hset : ∀ e : Dim → L, setLabel (setLabel e "init_time" (e "init_time")) "lead_time" (e "lead_time") = e := by
    intro e
    funext d
    unfold setLabel
    split
    · rename_i hd; rw [hd]
    · split
      · rename_i hd; rw [hd]
      · rfl
  have hval : ∀ (o : TimeChunks.Offsets) (is ts : List L) (s : StatVar L V), "init_time" ∉ s.arr.dims ∧ "lead_time" ∉ s.arr.dims →
      s.arr.InDom e → (formatStatistic o is ts k v s).valueAt ⟨i, j, e⟩ = some (s.arr.val e) := by
    intro o is ts s hs hd
    simp only [formatStatistic, Write.valueAt, if_neg hs.1, if_neg hs.2, labelAt, hset]
    rw [if_pos hd]
  exact ⟨write_last _ _ (hval o' is' ts' s' h' he'), write_last _ _ (hval o is ts s h he)⟩

/-- C73, finding: the names of different statistics can be the same; each variable then overwrites the other. -/
theorem C73_name_collision : statisticName "a" "b.c" = statisticName "a.b" "c" ∧ ("a", "b.c") ≠ ("a.b", "c") := by decide

end WBX
