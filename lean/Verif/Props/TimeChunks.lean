import Verif.Lemmas.TimeChunks

/-!
# Properties C01-C04: `TimeChunks`
-/

namespace WBX.TimeChunks

variable {I T : Type}

/-- The (init, lead) pairs evaluated for one array chunk. Specification helper. -/
def pairsOf : List I × LeadChunk T → List (I × T)
  | (is, .arr ts) => is ×ˢ ts
  | (_, .slice _ _) => []

/-- C01: iteration over array times is the cartesian product, in order, of a list of init chunks that
concatenates to the init times and a list of lead chunks that concatenates to the lead times, and every
(init, lead) pair of the request occurs in the chunks exactly as often as in the request. -/
theorem C01_cover {is : List I} {ts : List T} {a b : Option Int} {tc : TimeChunks I T}
    (h : make is (.arr ts) a b = .ok tc) :
    (∃ (ics : List (List I)) (lcs : List (List T)),
        ics.flatten = is ∧ lcs.flatten = ts ∧ tc.iter = ics ×ˢ (lcs.map LeadChunk.arr)) ∧
    (tc.iter.flatMap pairsOf).Perm (is ×ˢ ts) := by
  obtain ⟨-, -, -, -, hi, lcs, hl, hlc⟩ := make_arr_ok h
  refine ⟨⟨tc.initChunks, lcs, split_flatten hi, split_flatten hl, ?_⟩, ?_⟩
  · rw [← hlc]; rfl
  · have := flatMap_product_perm tc.initChunks lcs
    rw [split_flatten hi, split_flatten hl] at this
    convert this using 1
    rw [iter, hlc, List.flatMap_assoc, List.flatMap_assoc]
    congr 1
    funext x
    rw [List.flatMap_map, List.flatMap_map, List.flatMap_map]
    rfl

/-- C01, duplicate-free form: if no init time and no lead time is repeated, every pair of the request is in
exactly one chunk. -/
theorem C01_exactly_once {is : List I} {ts : List T} {a b : Option Int} {tc : TimeChunks I T}
    (h : make is (.arr ts) a b = .ok tc) (hi : is.Nodup) (ht : ts.Nodup) (i : I) (t : T)
    (hmi : i ∈ is) (hmt : t ∈ ts) :
    (tc.iter.flatMap pairsOf).Nodup ∧ (i, t) ∈ tc.iter.flatMap pairsOf := by
  have hp := (C01_cover h).2
  exact ⟨hp.nodup_iff.mpr (hi.product ht), hp.mem_iff.mpr (List.mem_product.mpr ⟨hmi, hmt⟩)⟩

/-- C01 for a lead-time slice: the init chunks concatenate to the init times and each is paired with the
requested slice. -/
theorem C01_cover_slice {is : List I} {sa sb ss : Option T} {a b : Option Int} {tc : TimeChunks I T}
    (h : make is (.slice sa sb ss) a b = .ok tc) :
    ∃ (ics : List (List I)) (x y : T), ics.flatten = is ∧ sa = some x ∧ sb = some y ∧
      tc.iter = ics.map (fun ic => (ic, LeadChunk.slice x y)) := by
  obtain ⟨-, -, -, -, -, hi, x, y, hx, hy, hlc⟩ := make_slice_ok h
  refine ⟨tc.initChunks, x, y, split_flatten hi, hx, hy, ?_⟩
  rw [iter, hlc]
  exact List.flatMap_pure_eq_map _ _

example : (make [1, 2, 3, 4, 5] (.arr [10, 20, 30]) (some 2) (some 2)).isOk = true := by decide
example : (make (T := Nat) [1, 2, 3] (.slice (some 0) (some 6) none) (some 2) none).isOk = true := by
  decide

/-- C02: `len` is the number of chunks yielded by iteration. -/
theorem C02_len (tc : TimeChunks I T) : tc.len = tc.iter.length := (iter_length tc).symm

/-- C02: indexing agrees with iteration on valid indices and raises `IndexError` on all others. -/
theorem C02_getItem (tc : TimeChunks I T) (index : Int) :
    tc.getItem index =
      match (if index < 0 then none else tc.iter[index.toNat]?) with
      | some chunk => .ok chunk
      | none => .error .indexError := by
  unfold getItem
  by_cases h : index < 0 ∨ index ≥ (tc.len : Int)
  · have hn : (if index < 0 then none else tc.iter[index.toNat]?) = none := by
      split
      · rfl
      · rw [List.getElem?_eq_none_iff, iter_length]; omega
    rw [hn]
    simp [h, throw, throwThe, MonadExceptOf.throw, bind, Except.bind]
  · have hp : ¬ index < 0 := by omega
    have hlen : index.toNat < tc.iter.length := by rw [iter_length]; omega
    have hget := List.getElem?_eq_getElem hlen
    have hprod := product_getElem? tc.initChunks tc.leadChunks index.toNat
    rw [show (tc.initChunks.flatMap fun x => tc.leadChunks.map fun y => (x, y)) = tc.iter from rfl,
      hget] at hprod
    simp only [h, if_false, hp, bind, Except.bind, pure, Except.pure, pyGet, hget]
    cases h1 : tc.initChunks[index.toNat / tc.leadChunks.length]? with
    | none => simp [h1] at hprod
    | some x =>
      cases h2 : tc.leadChunks[index.toNat % tc.leadChunks.length]? with
      | none => simp [h1, h2] at hprod
      | some y =>
        simp [h1, h2] at hprod
        simp [hprod]
        omega

example : ((make [1, 2, 3, 4, 5] (.arr [10, 20, 30]) (some 2) (some 2)).map (·.len)) = .ok 6 := by
  rfl

/-- C03: over array lead times, `iter_with_chunk_offsets` succeeds and yields, in iteration order, exactly
the chunks of iteration; each comes with offsets at which it is found in the full arrays. -/
theorem C03_offsets {is : List I} {ts : List T} {a b : Option Int} {tc : TimeChunks I T}
    (h : make is (.arr ts) a b = .ok tc) :
    ∃ out, tc.iterWithOffsets = .ok out ∧ out.map Prod.snd = tc.iter ∧
      ∀ p ∈ out, ∃ lc : List T, p.2.2 = .arr lc ∧
        p.2.1 = (is.drop p.1.initTime).take p.2.1.length ∧ p.1.initTime < is.length ∧ p.2.1 ≠ [] ∧
        lc = (ts.drop p.1.leadTime).take lc.length ∧ p.1.leadTime < ts.length ∧ lc ≠ [] := by
  obtain ⟨-, -, his, hls, hi, lcs, hl, hlc⟩ := make_arr_ok h
  set isz := effectiveSize a is.length with hisz
  set lsz := effectiveSize b ts.length with hlsz
  refine ⟨tc.iter.zipIdx.map (fun p => (⟨isz * (p.2 / tc.leadChunks.length),
      lsz * (p.2 % tc.leadChunks.length)⟩, p.1)), ?_, ?_, ?_⟩
  · unfold iterWithOffsets
    apply mapM_ok_of_forall
    intro x _
    simp [offsetsAt, hls, his, bind, Except.bind, pure, Except.pure]
  · rw [List.map_map]
    exact List.zipIdx_map_fst 0 tc.iter
  · intro p hp
    rw [List.mem_map] at hp
    obtain ⟨⟨c, k⟩, hk, rfl⟩ := hp
    have hk' := List.mem_zipIdx_iff_getElem?.mp hk
    rw [iter, product_getElem?] at hk'
    simp only [Option.bind_eq_some_iff, Option.map_eq_some_iff] at hk'
    obtain ⟨ic, hic, lc, hlc', rfl⟩ := hk'
    simp only at hic hlc' ⊢
    have h1 := split_getElem? hi hic
    rw [hlc, List.getElem?_map, Option.map_eq_some_iff] at hlc'
    obtain ⟨l, hl', rfl⟩ := hlc'
    have hlen : tc.leadChunks.length = lcs.length := by rw [hlc]; simp
    have h2 := split_getElem? hl hl'
    refine ⟨l, rfl, h1.1, h1.2.1, h1.2.2.1, ?_, ?_, h2.2.2.1⟩
    · rw [hlen]; simpa using h2.1
    · rw [hlen]; simpa using h2.2.1

/-- C03: distinct chunks have distinct offsets. -/
theorem C03_offsets_injective {is : List I} {ts : List T} {a b : Option Int} {tc : TimeChunks I T}
    (h : make is (.arr ts) a b = .ok tc) {out} (ho : tc.iterWithOffsets = .ok out) :
    (out.map Prod.fst).Nodup := by
  obtain ⟨-, -, his, hls, hi, lcs, hl, hlc⟩ := make_arr_ok h
  have hout : tc.iterWithOffsets = .ok (tc.iter.zipIdx.map (fun p =>
      (⟨tc.initSize * (p.2 / tc.leadChunks.length),
        effectiveSize b ts.length * (p.2 % tc.leadChunks.length)⟩, p.1))) := by
    unfold iterWithOffsets
    apply mapM_ok_of_forall
    intro x _
    simp [offsetsAt, hls, bind, Except.bind, pure, Except.pure]
  rw [hout] at ho
  injection ho with ho
  subst ho
  rw [List.map_map]
  have hsz : 0 < tc.initSize := by rw [his]; exact (split_ok hi).1
  have hlz : 0 < effectiveSize b ts.length := (split_ok hl).1
  have hz : tc.iter.zipIdx.map Prod.snd = List.range tc.iter.length := by
    rw [List.zipIdx_map_snd, List.range_eq_range']
  have heq : (tc.iter.zipIdx.map (Prod.fst ∘ fun p : (List I × LeadChunk T) × Nat =>
      ((⟨tc.initSize * (p.2 / tc.leadChunks.length),
        effectiveSize b ts.length * (p.2 % tc.leadChunks.length)⟩ : Offsets), p.1))) =
      (List.range tc.iter.length).map (fun k => (⟨tc.initSize * (k / tc.leadChunks.length),
        effectiveSize b ts.length * (k % tc.leadChunks.length)⟩ : Offsets)) := by
    rw [← hz, List.map_map]; rfl
  rw [heq]
  refine List.nodup_range.map ?_
  intro x y hxy
  simp only [Offsets.mk.injEq] at hxy
  have hd := Nat.eq_of_mul_eq_mul_left hsz hxy.1
  have hm := Nat.eq_of_mul_eq_mul_left hlz hxy.2
  rw [← Nat.div_add_mod x tc.leadChunks.length, ← Nat.div_add_mod y tc.leadChunks.length, hd, hm]

/-- C03, finding: for a lead-time slice with `lead_time_chunk_size=None` (the documented usage) the offsets
cannot be computed: `TypeError` for every nonempty request. -/
theorem C03_slice_none_raises {is : List I} {sa sb ss : Option T} {a : Option Int} {tc : TimeChunks I T}
    (h : make is (.slice sa sb ss) a none = .ok tc) (hne : is ≠ []) :
    tc.iterWithOffsets = .error .typeError := by
  obtain ⟨-, -, -, -, hls, hi, x, y, hx, hy, hlc⟩ := make_slice_ok h
  have hiter : tc.iter ≠ [] := by
    intro h0
    have hflat := split_flatten hi
    rw [iter, hlc] at h0
    simp at h0
    rw [List.eq_nil_iff_forall_not_mem.mpr (fun x hx => h0 x hx)] at hflat
    exact hne (by simpa using hflat.symm)
  obtain ⟨c, cs, hcs⟩ := List.exists_cons_of_ne_nil hiter
  unfold iterWithOffsets
  rw [hcs]
  simp [List.zipIdx_cons, List.mapM_cons, offsetsAt, hls, bind, Except.bind]

/-- C03 for a lead-time slice with chunk size 0: offsets are correct and the lead offset is 0. -/
theorem C03_slice_zero_ok {is : List I} {sa sb ss : Option T} {a : Option Int} {tc : TimeChunks I T}
    (h : make is (.slice sa sb ss) a (some 0) = .ok tc) :
    ∃ out, tc.iterWithOffsets = .ok out ∧ out.map Prod.snd = tc.iter ∧
      ∀ p ∈ out, p.1.leadTime = 0 ∧
        p.2.1 = (is.drop p.1.initTime).take p.2.1.length ∧ p.1.initTime < is.length ∧ p.2.1 ≠ [] := by
  obtain ⟨-, -, -, his, hls, hi, x, y, hx, hy, hlc⟩ := make_slice_ok h
  refine ⟨tc.iter.zipIdx.map (fun p => (⟨tc.initSize * (p.2 / tc.leadChunks.length),
      0 * (p.2 % tc.leadChunks.length)⟩, p.1)), ?_, ?_, ?_⟩
  · unfold iterWithOffsets
    apply mapM_ok_of_forall
    intro x _
    simp [offsetsAt, hls, bind, Except.bind, pure, Except.pure]
  · rw [List.map_map]
    exact List.zipIdx_map_fst 0 tc.iter
  · intro p hp
    rw [List.mem_map] at hp
    obtain ⟨⟨c, k⟩, hk, rfl⟩ := hp
    have hk' := List.mem_zipIdx_iff_getElem?.mp hk
    rw [iter, product_getElem?] at hk'
    simp only [Option.bind_eq_some_iff, Option.map_eq_some_iff] at hk'
    obtain ⟨ic, hic, lc, hlc', rfl⟩ := hk'
    rw [← his] at hi
    have h1 := split_getElem? hi hic
    exact ⟨by simp, h1.1, h1.2.1, h1.2.2.1⟩

/-- What the documentation of the constructor asks of a chunk size: absent or nonnegative. -/
def SizeOk (c : Option Int) : Prop := ∀ v, c = some v → 0 ≤ v

/-- A chunk size usable for the given times: nonnegative, and if it is absent or 0 (single chunk) the times
are nonempty. -/
def SizeUsable {α : Type} (c : Option Int) (times : List α) : Prop :=
  SizeOk c ∧ (times = [] → ∃ v, c = some v ∧ 0 < v)

/-- The lead-time argument is acceptable with this lead chunk size. -/
def LeadOk (l : LeadArg T) (c : Option Int) : Prop :=
  match l with
  | .arr ts => SizeUsable c ts
  | .slice start stop step => start.isSome ∧ stop.isSome ∧ step = none ∧ (c = none ∨ c = some 0)
  | .other => False

theorem isNegative_false_iff (c : Option Int) : isNegative c = false ↔ SizeOk c := by
  cases c <;> simp [isNegative, SizeOk]

theorem effectiveSize_pos_iff {α : Type} (c : Option Int) (xs : List α) (h : SizeOk c) :
    0 < effectiveSize c xs.length ↔ SizeUsable c xs := by
  cases c with
  | none =>
    simp [effectiveSize, SizeUsable, h, List.length_pos_iff]
  | some v =>
    have hv := h v rfl
    by_cases h0 : v = 0
    · subst h0
      simp [effectiveSize, SizeUsable, h, List.length_pos_iff]
    · have : 0 < v := by omega
      simp [effectiveSize, SizeUsable, h, h0, this]

/-- C04: construction succeeds exactly for the documented arguments; every rejection is a `ValueError`. -/
theorem C04_accepts_iff (is : List I) (l : LeadArg T) (a b : Option Int) :
    (∃ tc, make is l a b = .ok tc) ↔ SizeUsable a is ∧ SizeOk b ∧ LeadOk l b := by
  constructor
  · rintro ⟨tc, h⟩
    cases l with
    | arr ts =>
      obtain ⟨ha, hb, -, -, hi, lcs, hl, -⟩ := make_arr_ok h
      rw [isNegative_false_iff] at ha hb
      exact ⟨(effectiveSize_pos_iff a is ha).mp (split_ok hi).1, hb,
        (effectiveSize_pos_iff b ts hb).mp (split_ok hl).1⟩
    | slice sa sb ss =>
      obtain ⟨ha, hb, hss, -, -, hi, x, y, hx, hy, -⟩ := make_slice_ok h
      rw [isNegative_false_iff] at ha
      refine ⟨(effectiveSize_pos_iff a is ha).mp (split_ok hi).1, ?_, ?_⟩
      · rcases hb with rfl | rfl <;> simp [SizeOk]
      · simp [LeadOk, hx, hy, hss, hb]
    | other =>
      unfold make at h
      cases ha : isNegative a <;> cases hb : isNegative b <;>
        simp [ha, hb, bind, Except.bind, throw, throwThe, MonadExceptOf.throw, pure, Except.pure] at h
      cases hs : split is (effectiveSize a is.length) <;> simp [hs] at h
  · rintro ⟨ha, hb, hl⟩
    have hna := (isNegative_false_iff a).mpr ha.1
    have hnb := (isNegative_false_iff b).mpr hb
    have hsa := split_of_pos ((effectiveSize_pos_iff a is ha.1).mpr ha) is
    cases l with
    | arr ts =>
      have hsb := split_of_pos ((effectiveSize_pos_iff b ts hb).mpr hl) ts
      exact ⟨_, by
        unfold make
        simp [hna, hnb, hsa, hsb, bind, Except.bind, pure, Except.pure]; rfl⟩
    | slice sa sb ss =>
      obtain ⟨h1, h2, rfl, h4⟩ := hl
      obtain ⟨x, rfl⟩ := Option.isSome_iff_exists.mp h1
      obtain ⟨y, rfl⟩ := Option.isSome_iff_exists.mp h2
      rcases h4 with rfl | rfl
      · exact ⟨_, by unfold make; simp [hna, hnb, hsa, bind, Except.bind, pure, Except.pure]; rfl⟩
      · exact ⟨_, by unfold make; simp [hna, hnb, hsa, bind, Except.bind, pure, Except.pure]; rfl⟩
    | other => exact hl.elim

theorem split_error {α : Type} {xs : List α} {c : Nat} {e : Err} (h : split xs c = .error e) :
    e = .valueError := by
  rcases Nat.eq_zero_or_pos c with rfl | hc
  · rw [split_zero] at h; cases h; rfl
  · rw [split_of_pos hc] at h; cases h

/-- C04: every rejection is a `ValueError`. -/
theorem C04_rejects_valueError (is : List I) (l : LeadArg T) (a b : Option Int) (e : Err)
    (h : make is l a b = .error e) : e = .valueError := by
  unfold make at h
  cases ha : isNegative a <;> cases hb : isNegative b <;>
    simp [ha, hb, bind, Except.bind, throw, throwThe, MonadExceptOf.throw, pure, Except.pure] at h
  · cases hs : split is (effectiveSize a is.length) with
    | error e' => simp [hs] at h; subst h; exact split_error hs
    | ok ics =>
      cases l with
      | arr ts =>
        cases hl : split ts (effectiveSize b ts.length) with
        | error e' => simp [hs, hl] at h; subst h; exact split_error hl
        | ok lcs => simp [hs, hl] at h
      | slice sa sb ss =>
        cases sa <;> cases sb <;> cases ss <;> simp [hs] at h <;> try exact h.symm
        cases b with
        | none => simp at h
        | some c =>
          by_cases hc : c = 0
          · simp [hc] at h
          · simp [hc] at h; exact h.symm
      | other => simp [hs] at h; exact h.symm
  all_goals exact h.symm

/-- C04: every chunk is nonempty and at most the chunk size long; only the last one may be shorter. -/
theorem C04_chunk_sizes {is : List I} {ts : List T} {a b : Option Int} {tc : TimeChunks I T}
    (h : make is (.arr ts) a b = .ok tc) :
    ∃ (ics : List (List I)) (lcs : List (List T)), tc.iter = ics ×ˢ (lcs.map LeadChunk.arr) ∧
      (∀ j c, ics[j]? = some c → c ≠ [] ∧ c.length ≤ tc.initSize ∧
        (j + 1 < ics.length → c.length = tc.initSize)) ∧
      (∀ j c, lcs[j]? = some c → c ≠ [] ∧ some c.length ≤ tc.leadSize ∧
        (j + 1 < lcs.length → some c.length = tc.leadSize)) := by
  obtain ⟨-, -, his, hls, hi, lcs, hl, hlc⟩ := make_arr_ok h
  refine ⟨tc.initChunks, lcs, by rw [← hlc]; rfl, ?_, ?_⟩
  · intro j c hj
    have := split_getElem? hi hj
    rw [his]
    exact ⟨this.2.2.1, this.2.2.2.1, this.2.2.2.2⟩
  · intro j c hj
    have := split_getElem? hl hj
    rw [hls]
    exact ⟨this.2.2.1, by simpa using this.2.2.2.1, fun h => by rw [this.2.2.2.2 h]⟩

/-- C04: a requested positive chunk size is the one used; `None` or 0 means one chunk of everything. -/
theorem C04_size_used {is : List I} {l : LeadArg T} {a b : Option Int} {tc : TimeChunks I T}
    (h : make is l a b = .ok tc) :
    (∀ v, a = some v → 0 < v → (tc.initSize : Int) = v) ∧
    ((a = none ∨ a = some 0) → tc.initSize = is.length) := by
  have hsz : tc.initSize = effectiveSize a is.length := by
    cases l with
    | arr ts => exact (make_arr_ok h).2.2.1
    | slice => exact (make_slice_ok h).2.2.2.1
    | other =>
      exact absurd ((C04_accepts_iff is (.other : LeadArg T) a b).mp ⟨tc, h⟩).2.2 (by simp [LeadOk])
  rw [hsz]
  constructor
  · rintro v rfl hv
    have : v ≠ 0 := by omega
    simp [effectiveSize, this]; omega
  · rintro (rfl | rfl) <;> simp [effectiveSize]

example : SizeUsable (some 2) [1, 2, 3] ∧ SizeOk (some 0) ∧
    LeadOk (T := Nat) (.slice (some 1) (some 2) none) (some 0) := by
  simp [SizeUsable, SizeOk, LeadOk]
/-- Finding recorded: empty init times with the default chunk size are rejected (range step 0). -/
example : ¬ SizeUsable (α := Nat) none [] := by simp [SizeUsable]

end WBX.TimeChunks
