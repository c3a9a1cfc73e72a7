import Verif.Props.Wrappers
import Verif.Props.RankHistogram
import Mathlib.Data.Rat.Encodable
import Mathlib.Data.Nat.Pairing

/-!
# C36: CDF and bin encodings; C37: binarisation
-/

set_option linter.unusedSectionVars false

namespace WBX
open DA Classical
variable {L K : Type} [DecidableEq L] [Field K] [LinearOrder K] [IsStrictOrderedRing K]

/-! ### Float comparisons -/

theorem FV.lt_zero_sub (a b : FV K) : FV.lt 0 (b - a) = FV.lt a b := by
  rcases a with _ | a | a <;> rcases b with _ | b | b <;> try simp [FV.lt, FV.sub_def, FV.zero_def]
  · cases a <;> cases b <;> rfl
  · cases a <;> rfl

theorem FV.lt_trans {a b c : FV K} (h : FV.lt a b = true) (h' : FV.lt b c = true) : FV.lt a c = true := by
  rcases a with _ | a | a <;> rcases b with _ | b | b <;> rcases c with _ | c | c <;> simp_all [FV.lt]
  exact h.trans h'

theorem FV.lt_not_nan {a b : FV K} (h : FV.lt a b = true) : a.isnan = false ∧ b.isnan = false := by
  rcases a with _ | a | a <;> rcases b with _ | b | b <;> simp_all [FV.lt, FV.isnan]

theorem FV.not_le {a b : FV K} (ha : a.isnan = false) (hb : b.isnan = false) : FV.le a b = !FV.lt b a := by
  rcases a with _ | a | a <;> rcases b with _ | b | b <;> simp_all [FV.lt, FV.le, FV.isnan]
  · cases a <;> cases b <;> rfl
  · rw [← decide_not]
    congr 1
    exact propext not_lt.symm

theorem FV.le_lt_trans {a b c : FV K} (h : FV.le a b = true) (h' : FV.lt b c = true) : FV.lt a c = true := by
  rcases a with _ | a | a <;> rcases b with _ | b | b <;> rcases c with _ | c | c <;> simp_all [FV.lt, FV.le]
  exact h.trans_lt h'

theorem FV.lt_le_trans {a b c : FV K} (h : FV.lt a b = true) (h' : FV.le b c = true) : FV.lt a c = true := by
  rcases a with _ | a | a <;> rcases b with _ | b | b <;> rcases c with _ | c | c <;> simp_all [FV.lt, FV.le]
  exact h.trans_le h'

theorem FV.lt_le {a b : FV K} (h : FV.lt a b = true) : FV.le a b = true := by
  rcases a with _ | a | a <;> rcases b with _ | b | b <;> simp_all [FV.lt, FV.le]
  exact h.le

theorem FV.le_trans' {a b c : FV K} (h : FV.le a b = true) (h' : FV.le b c = true) : FV.le a c = true := by
  rcases a with _ | a | a <;> rcases b with _ | b | b <;> rcases c with _ | c | c <;> simp_all [FV.lt, FV.le]
  · cases a <;> cases b <;> cases c <;> simp_all
  · exact h.trans h'

/-! ### Threshold arrays -/

theorem thresholdArray_val {label : FV K → L} (hl : Function.Injective label) {d : Dim} {ts : List (FV K)} {t : FV K} (ht : t ∈ ts)
    {e : Dim → L} (he : e d = label t) : (thresholdArray label d ts).val e = t := by
  unfold thresholdArray
  simp only [he]
  have : ts.find? (fun u => decide (label u = label t)) = some t := by
    cases h : ts.find? (fun u => decide (label u = label t)) with
    | none => exact absurd (List.find?_eq_none.mp h t ht) (by simp)
    | some u =>
      have := List.find?_some h
      simp only [decide_eq_true_eq] at this
      rw [hl this]
  rw [this]

theorem zip_tail_map {α β : Type} (f : α → β) (l : List α) : (l.map f).zip (l.map f).tail = (l.zip l.tail).map (fun p => (f p.1, f p.2)) := by
  rw [← List.map_tail, List.zip_map]
  rfl

theorem pairwise_iff_zip {α : Type} {R : α → α → Prop} (htr : ∀ a b c, R a b → R b c → R a c) (l : List α) :
    l.Pairwise R ↔ ∀ p ∈ l.zip l.tail, R p.1 p.2 := by
  induction l with
  | nil => simp
  | cons a l ih =>
    cases l with
    | nil => simp
    | cons b l =>
      rw [List.pairwise_cons, ih]
      simp only [List.tail_cons, List.zip_cons_cons, List.mem_cons, forall_eq_or_imp]
      constructor
      · rintro ⟨⟨h1, h2⟩, h3⟩
        exact ⟨h1, h3⟩
      · rintro ⟨h1, h3⟩
        have hp := ih.mpr h3
        rw [List.pairwise_cons] at hp
        exact ⟨⟨h1, fun c hc => htr _ _ _ h1 (hp.1 c hc)⟩, h3⟩

/-- The monotonicity check accepts exactly the strictly increasing lists (which then contain no NaN if they have two elements). -/
theorem increasing_list {label : FV K → L} (hl : Function.Injective label) (d : Dim) (ts : List (FV K)) :
    increasingAlong d (ts.map label) (thresholdArray label d ts) ↔ ts.Pairwise (fun a b => FV.lt a b = true) := by
  rw [pairwise_iff_zip (R := fun a b : FV K => FV.lt a b = true) (fun a b c => FV.lt_trans), increasingAlong, zip_tail_map]
  constructor
  · intro h p hp
    have hm := List.of_mem_zip hp
    have := h (fun _ => label p.1) (by intro k hk; simp [thresholdArray]; exact ⟨p.1, hm.1, rfl⟩) (label p.1, label p.2) (List.mem_map.mpr ⟨p, hp, rfl⟩)
    rw [thresholdArray_val hl (List.mem_of_mem_tail hm.2) (setLabel_same _ _ _), thresholdArray_val hl hm.1 (setLabel_same _ _ _), FV.lt_zero_sub] at this
    exact this
  · intro h e _ q hq
    obtain ⟨p, hp, rfl⟩ := List.mem_map.mp hq
    have hm := List.of_mem_zip hp
    rw [thresholdArray_val hl (List.mem_of_mem_tail hm.2) (setLabel_same _ _ _), thresholdArray_val hl hm.1 (setLabel_same _ _ _), FV.lt_zero_sub]
    exact h p hp

/-! ### C36 -/

/-- **C36** The CDF encoding at a cell, for thresholds of any shape: NaN if the value or the threshold is NaN, else 1 if `x <= t`
(`x < t` if not right-inclusive) and 0 otherwise. -/
theorem C36_cdf_value {th : DA L (FV K)} {order : List L} {d : Dim} {enforce right : Bool} {x s : StatVar L (FV K)}
    (h : computeCdf th order d enforce right x = .ok s) (e : Dim → L) :
    s.arr.val e = if (x.arr.val e).isnan = true ∨ (th.val e).isnan = true then FV.nan
      else if (if right then FV.le (x.arr.val e) (th.val e) else FV.lt (x.arr.val e) (th.val e)) = true then 1 else 0 := by
  unfold computeCdf at h
  split at h
  · simp at h
  · rw [Except.ok.injEq] at h
    subst h
    simp only [StatVar.zipWith, StatVar.map, zipWith, DA.map, FV.keepIf, FV.ofBool]
    cases (x.arr.val e).isnan <;> cases (th.val e).isnan <;> simp

/-- **C36** With `enforce_monotonicity`, a list of thresholds is accepted iff it is strictly increasing; else `ValueError`. -/
theorem C36_monotonicity {label : FV K → L} (hl : Function.Injective label) (tm : TimeLabels L) (ts : List (FV K)) (d : Dim) (right : Bool)
    (name : String) (x : StatVar L (FV K)) :
    (ts.Pairwise (fun a b => FV.lt a b = true) → ∃ s, cdfFn tm label (.list ts) (ts.map label) d true right name x = .ok s) ∧
    (¬ ts.Pairwise (fun a b => FV.lt a b = true) → cdfFn tm label (.list ts) (ts.map label) d true right name x = .error .valueError) := by
  rw [← increasing_list hl d ts]
  constructor
  · intro h
    simp only [cdfFn, Thresholds.forCdf, bind, Except.bind, computeCdf]
    rw [if_neg (by simp [h])]
    exact ⟨_, rfl⟩
  · intro h
    simp only [cdfFn, Thresholds.forCdf, bind, Except.bind, computeCdf]
    rw [if_pos ⟨trivial, h⟩]

/-- **C36** A larger threshold never has a smaller CDF value. -/
theorem C36_cdf_monotone {th : DA L (FV K)} {order : List L} {d : Dim} {enforce right : Bool} {x s : StatVar L (FV K)}
    (h : computeCdf th order d enforce right x = .ok s) {e e' : Dim → L} (hx : x.arr.val e = x.arr.val e')
    (ht : FV.le (th.val e) (th.val e') = true) (h1 : s.arr.val e = 1) : s.arr.val e' = 1 := by
  rw [C36_cdf_value h] at h1 ⊢
  rw [← hx]
  have h01 : (0 : FV K) ≠ 1 := by simp [FV.zero_def, FV.one_def]
  have hn1 : FV.nan ≠ (1 : FV K) := by simp [FV.one_def]
  generalize x.arr.val e = v at h1
  generalize th.val e = a at ht h1
  generalize th.val e' = b at ht
  by_cases hn : v.isnan = true ∨ a.isnan = true
  · rw [if_pos hn] at h1
    exact absurd h1 hn1
  · rw [if_neg hn] at h1
    have hn' : ¬ (v.isnan = true ∨ b.isnan = true) := by
      push Not at hn ⊢
      refine ⟨hn.1, ?_⟩
      rcases a with _ | a | a <;> rcases b with _ | b | b <;> simp_all [FV.le, FV.isnan]
    rw [if_neg hn']
    cases right
    · simp only [Bool.false_eq_true, if_false] at h1 ⊢
      by_cases hc : FV.lt v a = true
      · rw [if_pos (FV.lt_le_trans hc ht)]
      · rw [if_neg hc] at h1; exact absurd h1 h01
    · simp only [if_true] at h1 ⊢
      by_cases hc : FV.le v a = true
      · rw [if_pos (FV.le_trans' hc ht)]
      · rw [if_neg hc] at h1; exact absurd h1 h01

section bins
variable {label : FV K → L} {binName : L → L → L} {tm : TimeLabels L} {ts : List (FV K)} {d : Dim} {enforce : Bool} {name : String}
  {a s : StatVar L (FV K)}

theorem binsFn_list (h : binsFn tm label binName (.list ts) (ts.map label) d enforce name a = .ok s) :
    ∃ cdf, computeCdf (thresholdArray label d ts) (ts.map label) d enforce true a = .ok cdf ∧ s = diffBins binName (ts.map label) d cdf := by
  unfold binsFn cdfFn at h
  simp only [Thresholds.forCdf] at h
  obtain ⟨cdf, h1, h2⟩ := bind_ok_iff.mp h
  simp only [pure, Except.pure, Except.ok.injEq] at h2
  obtain ⟨_, h3, h4⟩ := bind_ok_iff.mp h1
  rw [Except.ok.injEq] at h3
  subst h3
  exact ⟨cdf, h4, h2.symm⟩

/-- **C36** The labels of the bin dimension are the pairs of consecutive thresholds. -/
theorem C36_bin_labels (h : binsFn tm label binName (.list ts) (ts.map label) d enforce name a = .ok s) :
    d ∈ s.arr.dims ∧ ∀ l, l ∈ s.arr.coords d ↔ ∃ p ∈ ts.zip ts.tail, l = binName (label p.1) (label p.2) := by
  obtain ⟨cdf, h1, rfl⟩ := binsFn_list h
  constructor
  · unfold computeCdf at h1
    split at h1
    · simp at h1
    · rw [Except.ok.injEq] at h1
      subst h1
      simp [diffBins, StatVar.zipWith, StatVar.map, zipWith, DA.map, thresholdArray]
  · intro l
    simp only [diffBins, if_true, zip_tail_map, List.map_map, List.mem_toFinset, List.mem_map, Function.comp, Prod.exists]
    constructor
    · rintro ⟨a, b, h1, rfl⟩; exact ⟨a, b, h1, rfl⟩
    · rintro ⟨a, b, h1, rfl⟩; exact ⟨a, b, h1, rfl⟩

/-- **C36** In the bin between consecutive thresholds `t < t'` the encoding of `x` is 1 iff `t < x <= t'`, 0 otherwise, and NaN iff `x`
is NaN. -/
theorem C36_bin_value (hl : Function.Injective label) (hb : Function.Injective2 binName)
    (hts : ts.Pairwise (fun a b => FV.lt a b = true)) (h : binsFn tm label binName (.list ts) (ts.map label) d enforce name a = .ok s)
    {e : Dim → L} {x : FV K} (hx : ∀ l, a.arr.val (setLabel e d l) = x) {p : FV K × FV K} (hp : p ∈ ts.zip ts.tail)
    (he : e d = binName (label p.1) (label p.2)) :
    s.arr.val e = if x.isnan = true then FV.nan else if FV.lt p.1 x = true ∧ FV.le x p.2 = true then 1 else 0 := by
  obtain ⟨cdf, h1, rfl⟩ := binsFn_list h
  have hlt : FV.lt p.1 p.2 = true := (pairwise_iff_zip (R := fun a b : FV K => FV.lt a b = true) (fun a b c => FV.lt_trans) ts).mp hts p hp
  have hfind : ((ts.map label).zip (ts.map label).tail).find? (fun q => decide (binName q.1 q.2 = e d)) = some (label p.1, label p.2) := by
    rw [zip_tail_map]
    cases hf : ((ts.zip ts.tail).map (fun q => (label q.1, label q.2))).find? (fun q => decide (binName q.1 q.2 = e d)) with
    | none =>
      have := List.find?_eq_none.mp hf (label p.1, label p.2) (List.mem_map.mpr ⟨p, hp, rfl⟩)
      simp [he] at this
    | some q =>
      have hq := List.find?_some hf
      simp only [decide_eq_true_eq, he] at hq
      obtain ⟨e1, e2⟩ := hb hq
      rw [← e1, ← e2]
  simp only [diffBins, hfind]
  have hm := List.of_mem_zip hp
  rw [C36_cdf_value h1, C36_cdf_value h1, hx, hx, thresholdArray_val hl (List.mem_of_mem_tail hm.2) (setLabel_same _ _ _),
    thresholdArray_val hl hm.1 (setLabel_same _ _ _)]
  obtain ⟨n1, n2⟩ := FV.lt_not_nan hlt
  simp only [n1, n2, Bool.false_eq_true, or_false, if_true]
  by_cases hxn : x.isnan = true
  · simp [hxn]
  · simp only [hxn, Bool.false_eq_true, if_false]
    have hxn' : x.isnan = false := by simpa using hxn
    by_cases h2 : FV.le x p.1 = true
    · have h3 : FV.le x p.2 = true := FV.le_trans' h2 (FV.lt_le hlt)
      have h4 : FV.lt p.1 x = false := by
        rw [FV.not_le hxn' n1] at h2
        simpa using h2
      simp [h2, h3, h4, FV.one_def, FV.zero_def]
    · have h4 : FV.lt p.1 x = true := by
        rw [FV.not_le hxn' n1] at h2
        simpa using h2
      by_cases h5 : FV.le x p.2 = true
      · simp [h2, h4, h5, FV.one_def, FV.zero_def]
      · simp [h2, h5, FV.zero_def]

/-- A value in the range of the thresholds is in exactly one interval. -/
theorem exists_interval : (ts : List (FV K)) → ts.Pairwise (fun a b => FV.lt a b = true) → (x : FV K) → x.isnan = false →
    ((∃ p ∈ ts.zip ts.tail, FV.lt p.1 x = true ∧ FV.le x p.2 = true) ↔ ∃ lo hi, ts.head? = some lo ∧ ts.getLast? = some hi ∧ FV.lt lo x = true ∧ FV.le x hi = true) ∧
    ∀ p ∈ ts.zip ts.tail, ∀ q ∈ ts.zip ts.tail, FV.lt p.1 x = true → FV.le x p.2 = true → FV.lt q.1 x = true → FV.le x q.2 = true → p = q
  | [], _, x, _ => by simp
  | [a], _, x, hx => by
    simp only [List.tail_cons, List.zip_nil_right, List.not_mem_nil, false_and, exists_false, false_iff, List.head?_cons, List.getLast?_singleton, Option.some.injEq]
    refine ⟨?_, by simp⟩
    rintro ⟨lo, hi, rfl, rfl, h1, h2⟩
    rw [FV.not_le hx (FV.lt_not_nan h1).1, h1] at h2
    simp at h2
  | a :: b :: ts, h, x, hx => by
    obtain ⟨ih1, ih2⟩ := exists_interval (b :: ts) (List.pairwise_cons.mp h).2 x hx
    have hab : FV.lt a b = true := (List.pairwise_cons.mp h).1 b (by simp)
    have hnb := FV.lt_not_nan hab
    simp only [List.tail_cons, List.zip_cons_cons, List.mem_cons] at ih1 ih2 ⊢
    have hge : ∀ p ∈ (b :: ts).zip ts, FV.lt p.1 x = true → FV.lt b x = true := by
      intro p hp h1
      have hm := List.of_mem_zip hp
      rcases List.mem_cons.mp hm.1 with e | e
      · rw [← e]; exact h1
      · exact FV.lt_trans ((List.pairwise_cons.mp (List.pairwise_cons.mp h).2).1 _ e) h1
    constructor
    · constructor
      · rintro ⟨p, rfl | hp, h1, h2⟩
        · refine ⟨a, (b :: ts).getLast (by simp), by simp, by simp [List.getLast?_eq_getLast_of_ne_nil, List.getLast?_cons_cons], h1, ?_⟩
          rcases List.mem_cons.mp (List.getLast_mem (l := b :: ts) (by simp)) with e | e
          · rw [e]; exact h2
          · exact FV.le_trans' h2 (FV.lt_le ((List.pairwise_cons.mp (List.pairwise_cons.mp h).2).1 _ e))
        · obtain ⟨lo, hi, e1, e2, h3, h4⟩ := ih1.mp ⟨p, hp, h1, h2⟩
          refine ⟨a, hi, by simp, by rw [List.getLast?_cons_cons]; exact e2, FV.lt_trans hab (hge p hp h1), h4⟩
      · rintro ⟨lo, hi, e1, e2, h3, h4⟩
        simp only [List.head?_cons, Option.some.injEq] at e1
        subst e1
        by_cases hxb : FV.le x b = true
        · exact ⟨(a, b), Or.inl rfl, h3, hxb⟩
        · have hbx : FV.lt b x = true := by
            rw [FV.not_le hx hnb.2] at hxb
            simpa using hxb
          obtain ⟨p, hp, h⟩ := ih1.mpr ⟨b, hi, by simp, by rw [List.getLast?_cons_cons] at e2; exact e2, hbx, h4⟩
          exact ⟨p, Or.inr hp, h⟩
    · have hno : ∀ q ∈ (b :: ts).zip ts, FV.lt q.1 x = true → FV.le x b = true → False := by
        intro q hq h1 h2
        have := hge q hq h1
        rw [FV.not_le hx hnb.2, this] at h2
        simp at h2
      rintro p (rfl | hp) q (rfl | hq) h1 h2 h3 h4
      · rfl
      · exact (hno q hq h3 h2).elim
      · exact (hno p hp h1 h4).elim
      · exact ih2 p hp q hq h1 h2 h3 h4

/-- **C36** For a value that is not NaN, the encoding is 1 in exactly one bin and 0 in all others if the value lies above the first and
at or below the last threshold, and 0 in all bins otherwise. -/
theorem C36_one_hot (hl : Function.Injective label) (hb : Function.Injective2 binName)
    (hts : ts.Pairwise (fun a b => FV.lt a b = true)) (h : binsFn tm label binName (.list ts) (ts.map label) d enforce name a = .ok s)
    {e : Dim → L} {x : FV K} (hx : ∀ l, a.arr.val (setLabel e d l) = x) (hn : x.isnan = false) :
    (∀ l ∈ s.arr.coords d, s.arr.val (setLabel e d l) = 1 ∨ s.arr.val (setLabel e d l) = 0) ∧
    ((∃ lo hi, ts.head? = some lo ∧ ts.getLast? = some hi ∧ FV.lt lo x = true ∧ FV.le x hi = true) →
      ∃! l, l ∈ s.arr.coords d ∧ s.arr.val (setLabel e d l) = 1) ∧
    (¬ (∃ lo hi, ts.head? = some lo ∧ ts.getLast? = some hi ∧ FV.lt lo x = true ∧ FV.le x hi = true) →
      ∀ l ∈ s.arr.coords d, s.arr.val (setLabel e d l) = 0) := by
  obtain ⟨-, hc⟩ := C36_bin_labels h
  obtain ⟨i1, i2⟩ := exists_interval ts hts x hn
  have hv : ∀ p ∈ ts.zip ts.tail, s.arr.val (setLabel e d (binName (label p.1) (label p.2))) =
      if FV.lt p.1 x = true ∧ FV.le x p.2 = true then 1 else 0 := by
    intro p hp
    rw [C36_bin_value hl hb hts h (e := setLabel e d (binName (label p.1) (label p.2))) (x := x) (fun l => by rw [setLabel_twice]; exact hx l) hp (setLabel_same _ _ _)]
    simp [hn]
  have h01 : (0 : FV K) ≠ 1 := by simp [FV.zero_def, FV.one_def]
  refine ⟨fun l hm => ?_, fun hr => ?_, fun hr l hm => ?_⟩
  · obtain ⟨p, hp, rfl⟩ := (hc l).mp hm
    rw [hv p hp]
    split <;> simp
  · obtain ⟨p, hp, hpx⟩ := i1.mpr hr
    refine ⟨binName (label p.1) (label p.2), ⟨(hc _).mpr ⟨p, hp, rfl⟩, by rw [hv p hp, if_pos hpx]⟩, ?_⟩
    rintro l ⟨hm, h1⟩
    obtain ⟨q, hq, rfl⟩ := (hc l).mp hm
    rw [hv q hq] at h1
    split at h1
    · next hqx => rw [i2 p hp q hq hpx.1 hpx.2 hqx.1 hqx.2]
    · exact absurd h1 h01
  · obtain ⟨p, hp, rfl⟩ := (hc l).mp hm
    rw [hv p hp, if_neg]
    intro hpx
    exact hr (i1.mp ⟨p, hp, hpx⟩)

end bins

/-- **C36** Thresholds by valid time are read, for a forecast chunk, at initialisation time plus lead time; a missing valid time is a
`KeyError`. -/
theorem C36_valid_time (tm : TimeLabels L) (th : DA L (FV K)) (chunk : StatVar L (FV K))
    (h1 : "init_time" ∈ chunk.arr.dims) (h2 : "lead_time" ∈ chunk.arr.dims) (h3 : "valid_time" ∈ th.dims) :
    ((∀ i ∈ chunk.arr.coords "init_time", ∀ l ∈ chunk.arr.coords "lead_time", tm.add i l ∈ th.coords "valid_time") →
      ∃ r, selectThresholdsByTime tm th chunk = .ok r ∧ "valid_time" ∉ r.dims ∧
        ∀ e, r.val e = th.val (setLabel e "valid_time" (tm.add (e "init_time") (e "lead_time")))) ∧
    ((∃ i ∈ chunk.arr.coords "init_time", ∃ l ∈ chunk.arr.coords "lead_time", tm.add i l ∉ th.coords "valid_time") →
      selectThresholdsByTime tm th chunk = .error .keyError) := by
  unfold selectThresholdsByTime
  simp only [h1, h2, h3, and_self, if_true, DA.selBy, List.mem_cons, List.not_mem_nil, or_false, forall_eq_or_imp, forall_eq]
  constructor
  · intro h
    rw [if_pos (fun e he => h _ he.1 _ he.2)]
    exact ⟨_, rfl, by simp, fun e => rfl⟩
  · rintro ⟨i, hi, l, hl, hn⟩
    rw [if_neg]
    intro h
    have := h (fun k => if k = "init_time" then i else l) ⟨by simpa using hi, by simpa using hl⟩
    simp at this
    exact hn this

/-! ### C37 -/

/-- **C37** Binarisation: NaN where the value is NaN, else 1 if the value exceeds the threshold and 0 if not; a NaN threshold gives 0
(finding: it is not propagated, unlike in the CDF encoding). -/
theorem C37_value (th : DA L (FV K)) (x : StatVar L (FV K)) (e : Dim → L) :
    (binarize th x).arr.val e = if (x.arr.val e).isnan = true then FV.nan else if FV.lt (th.val e) (x.arr.val e) = true then 1 else 0 := by
  simp only [binarize, StatVar.zipWith, StatVar.map, zipWith, DA.map, FV.keepIf, FV.ofBool]
  by_cases h : (x.arr.val e).isnan = true <;> simp [h]

/-- **C37** (finding) A NaN threshold gives 0 for every value that is not NaN. -/
theorem C37_nan_threshold (th : DA L (FV K)) (x : StatVar L (FV K)) (e : Dim → L) (ht : th.val e = FV.nan)
    (hx : (x.arr.val e).isnan = false) : (binarize th x).arr.val e = 0 := by
  rw [C37_value, ht, hx]
  simp [FV.lt]

/-- **C37** For a list of thresholds, the cell with label `t` is compared with `t`. -/
theorem C37_list {label : FV K → L} (hl : Function.Injective label) {which : String} {ts : List (FV K)} {d : Dim} {str suffix}
    {tr : InputTransform L K} (h : continuousToBinary label which (.list ts) d str suffix = .ok tr) {name : String} {x s : StatVar L (FV K)}
    (hs : tr.fn name x = .ok s) {t : FV K} (ht : t ∈ ts) {e : Dim → L} (he : e d = label t) :
    d ∈ s.arr.dims ∧ s.arr.val e = if (x.arr.val e).isnan = true then FV.nan else if FV.lt t (x.arr.val e) = true then 1 else 0 := by
  unfold continuousToBinary at h
  obtain ⟨text, -, h⟩ := bind_ok_iff.mp h
  unfold mkTransform at h
  split at h
  · rw [Except.ok.injEq] at h
    subst h
    simp only [Thresholds.forBinary, bind, Except.bind, pure, Except.pure, Except.ok.injEq] at hs
    subst hs
    refine ⟨by simp [binarize, StatVar.zipWith, zipWith, thresholdArray], ?_⟩
    rw [C37_value, thresholdArray_val hl ht he]
  · simp at h

/-- **C37** Raising the threshold never turns a 0 into a 1. -/
theorem C37_antitone (th : DA L (FV K)) (x : StatVar L (FV K)) {e e' : Dim → L} (hx : x.arr.val e = x.arr.val e')
    (ht : FV.le (th.val e) (th.val e') = true) (h : (binarize th x).arr.val e' = 1) : (binarize th x).arr.val e = 1 := by
  rw [C37_value] at h ⊢
  rw [hx]
  have h01 : (0 : FV K) ≠ 1 := by simp [FV.zero_def, FV.one_def]
  have hn1 : FV.nan ≠ (1 : FV K) := by simp [FV.one_def]
  split at h
  · exact absurd h hn1
  · next hn =>
    rw [if_neg hn]
    split at h
    · next hc => rw [if_pos (FV.le_lt_trans ht hc)]
    · exact absurd h h01

/-- **C37** The mean of the binarised members is the fraction of the members above the threshold, a number in `[0, 1]`. -/
theorem C37_probability {th : DA L (FV K)} {x s : StatVar L (FV K)} {d : Dim} (hd : d ∈ x.arr.dims) (hd' : d ∉ th.dims)
    {e : Dim → L} {M : Finset L} {y : L → K} (hM : Members x d e M y) (hne : M.Nonempty) {t : FV K}
    (ht : ∀ l, th.val (setLabel e d l) = t) {skipna skipIfMissing : Bool}
    (h : ensembleMeanFn d skipna skipIfMissing (binarize th x) = .ok s) :
    s.arr.val e = FV.fin (((M.filter (fun l => FV.lt t (FV.fin (y l)) = true)).card : K) / M.card) ∧
    0 ≤ ((M.filter (fun l => FV.lt t (FV.fin (y l)) = true)).card : K) / M.card ∧
    ((M.filter (fun l => FV.lt t (FV.fin (y l)) = true)).card : K) / M.card ≤ 1 := by
  have hdb : d ∈ (binarize th x).arr.dims := by simp [binarize, StatVar.zipWith, zipWith, StatVar.map, DA.map, hd]
  have hcb : (binarize th x).arr.coords d = M := by
    rw [← hM.1]
    simp [binarize, StatVar.zipWith, zipWith, StatVar.map, DA.map, joinCoords, hd, hd']
  have hpos : (0 : K) < M.card := by exact_mod_cast hne.card_pos
  refine ⟨?_, by positivity, (div_le_one hpos).mpr (by exact_mod_cast Finset.card_filter_le _ _)⟩
  unfold ensembleMeanFn at h
  rw [if_neg (by simp [hdb]), StatVar.meanDim, if_pos hdb, Except.ok.injEq] at h
  subst h
  simp only [StatVar.reduce, hcb]
  rw [npMean_fin (y := fun l => if FV.lt t (FV.fin (y l)) = true then (1 : K) else 0) (fun l hl => ?_) hne]
  · simp [eMean]
  · rw [C37_value, hM.2 l hl, ht]
    simp only [FV.isnan, Bool.false_eq_true, if_false]
    split <;> rfl

/-- **C37** The Weibull plotting position: members above the threshold divided by `n + 1`; never 1. -/
theorem C37_weibull {th : DA L (FV K)} {x s : StatVar L (FV K)} {d : Dim} (hd : d ∈ x.arr.dims) (hd' : d ∉ th.dims)
    {e : Dim → L} {M : Finset L} {y : L → K} (hM : Members x d e M y) {t : FV K}
    (ht : ∀ l, th.val (setLabel e d l) = t) {skipna : Bool} (h : weibullFn d skipna (binarize th x) = .ok s) :
    s.arr.val e = FV.fin (((M.filter (fun l => FV.lt t (FV.fin (y l)) = true)).card : K) / (M.card + 1)) ∧
    ((M.filter (fun l => FV.lt t (FV.fin (y l)) = true)).card : K) / (M.card + 1) < 1 := by
  have hdb : d ∈ (binarize th x).arr.dims := by simp [binarize, StatVar.zipWith, zipWith, StatVar.map, DA.map, hd]
  have hcb : (binarize th x).arr.coords d = M := by
    rw [← hM.1]
    simp [binarize, StatVar.zipWith, zipWith, StatVar.map, DA.map, joinCoords, hd, hd']
  have hpos : (0 : K) < M.card + 1 := by positivity
  refine ⟨?_, (div_lt_one hpos).mpr ?_⟩
  · unfold weibullFn at h
    rw [if_pos hdb, Except.ok.injEq] at h
    subst h
    simp only [StatVar.map, DA.map, StatVar.reduce, hcb]
    rw [npSum_fin (y := fun l => if FV.lt t (FV.fin (y l)) = true then (1 : K) else 0) (fun l hl => ?_)]
    · unfold FV.ofNat
      rw [FV.fin_div_fin_of_ne _ (show ((M.card + 1 : ℕ) : K) ≠ 0 by exact_mod_cast Nat.succ_ne_zero M.card)]
      simp
    · rw [C37_value, hM.2 l hl, ht]
      simp only [FV.isnan, Bool.false_eq_true, if_false]
      split <;> rfl
  · have : (M.filter (fun l => FV.lt t (FV.fin (y l)) = true)).card ≤ M.card := Finset.card_filter_le _ _
    have : ((M.filter (fun l => FV.lt t (FV.fin (y l)) = true)).card : K) ≤ M.card := by exact_mod_cast this
    linarith

/-- **C37** `ReLU` is the positive part; NaN stays NaN. -/
theorem C37_relu (x : StatVar L (FV K)) (e : Dim → L) :
    (∀ v, x.arr.val e = FV.fin v → (reluFn x).arr.val e = FV.fin (max v 0)) ∧ (x.arr.val e = FV.nan → (reluFn x).arr.val e = FV.nan) := by
  constructor
  · intro v hv
    simp only [reluFn, StatVar.map, DA.map, hv, FV.isnan, FV.keepIf, FV.lt, FV.zero_def]
    by_cases h : 0 < v
    · simp [h, max_eq_left h.le]
    · simp [h, max_eq_right (not_lt.mp h)]
  · intro hv
    simp [reluFn, StatVar.map, DA.map, hv, FV.isnan, FV.keepIf]

/-! ### Concrete cases -/

/-- Labels for floats in the examples: any injection will do. -/
noncomputable def exLabel : FV ℚ → ℕ := fun x => match x with
  | .nan => 0
  | .inf true => 1
  | .inf false => 2
  | .fin q => Encodable.encode q + 3

theorem exLabel_inj : Function.Injective exLabel := by
  intro x y h
  rcases x with _ | (_ | _) | x <;> rcases y with _ | (_ | _) | y <;> simp [exLabel] at h ⊢ <;> omega

def exBinName (a b : ℕ) : ℕ := Nat.pair a b

theorem exBinName_inj : Function.Injective2 exBinName := fun a a' b b' h => by
  have := Nat.pair_eq_pair.mp h
  exact ⟨this.1, this.2⟩

/-- Non-vacuity of C36: the value 1 with thresholds -∞, 1/2, 1, ∞ lies in the bin (1/2, 1]. -/
example (tm : TimeLabels ℕ) (name : String) : ∃ s : StatVar ℕ (FV ℚ),
    binsFn tm exLabel exBinName (.list [.inf true, .fin (1 / 2), .fin 1, .inf false])
      ([FV.inf true, .fin (1 / 2), .fin 1, .inf false].map exLabel) "bin" true name ⟨DA.scalar (FV.fin 1), none⟩ = .ok s ∧
    s.arr.val (fun _ => exBinName (exLabel (.fin (1 / 2))) (exLabel (.fin 1))) = 1 ∧
    s.arr.val (fun _ => exBinName (exLabel (.fin 1)) (exLabel (.inf false))) = 0 := by
  have hts : [FV.inf true, .fin (1 / 2 : ℚ), .fin 1, .inf false].Pairwise (fun a b => FV.lt a b = true) := by
    simp [FV.lt]; norm_num
  obtain ⟨c, hc⟩ := (C36_monotonicity exLabel_inj tm _ "bin" true name (⟨DA.scalar (FV.fin 1), none⟩ : StatVar ℕ (FV ℚ))).1 hts
  have h : binsFn tm exLabel exBinName (.list [.inf true, .fin (1 / 2), .fin 1, .inf false])
      ([FV.inf true, .fin (1 / 2), .fin 1, .inf false].map exLabel) "bin" true name ⟨DA.scalar (FV.fin 1), none⟩ =
      .ok (diffBins exBinName ([FV.inf true, .fin (1 / 2), .fin 1, .inf false].map exLabel) "bin" c) := by
    unfold binsFn; rw [hc]; rfl
  refine ⟨_, h, ?_, ?_⟩
  · rw [C36_bin_value exLabel_inj exBinName_inj hts h (x := FV.fin 1) (fun l => rfl) (p := (.fin (1 / 2), .fin 1)) (by simp) rfl]
    simp [FV.isnan, FV.lt, FV.le]; norm_num
  · rw [C36_bin_value exLabel_inj exBinName_inj hts h (x := FV.fin 1) (fun l => rfl) (p := (.fin 1, .inf false)) (by simp) rfl]
    simp [FV.isnan, FV.lt, FV.le]

/-- Non-vacuity of C37: three members 1, 2, 3 and the threshold 1: two of three exceed it. -/
example : ∃ s, ensembleMeanFn "number" false false (binarize (DA.scalar (FV.fin 1)) crpsPred) = .ok s ∧
    s.arr.val (exCell 1) = FV.fin (2 / 3) := by
  have hM : Members crpsPred "number" (exCell 1) (Finset.range 3) (fun l => (l : ℝ) + 1) :=
    ⟨rfl, fun l _ => by simp [crpsPred, setLabel, exCell]⟩
  obtain ⟨s, h⟩ : ∃ s, ensembleMeanFn "number" false false (binarize (DA.scalar (FV.fin 1)) crpsPred) = .ok s := by
    unfold ensembleMeanFn StatVar.meanDim
    rw [if_neg (by simp), if_pos (by simp [binarize, StatVar.zipWith, zipWith, StatVar.map, DA.map, crpsPred])]
    exact ⟨_, rfl⟩
  refine ⟨s, h, ?_⟩
  rw [(C37_probability (by simp [crpsPred]) (by simp [DA.scalar]) hM (by simp) (t := FV.fin 1) (fun _ => rfl) h).1]
  have : ((Finset.range 3).filter (fun l : ℕ => FV.lt (FV.fin (1 : ℝ)) (FV.fin ((l : ℝ) + 1)) = true)) = {1, 2} := by
    ext l
    simp only [FV.lt, Finset.mem_filter, Finset.mem_range, decide_eq_true_eq, Finset.mem_insert, Finset.mem_singleton]
    constructor
    · rintro ⟨h1, h2⟩
      have : (0 : ℝ) < l := by linarith
      have : 0 < l := by exact_mod_cast this
      omega
    · rintro (rfl | rfl) <;> norm_num
  rw [this]
  norm_num

end WBX
