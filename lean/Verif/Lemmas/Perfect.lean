import Verif.Spec.Perfect
import Verif.Lemmas.MetricN
import Verif.Lemmas.Ensemble

/-!
# Values that are a given number or NaN, through sums, quotients, masks and means
-/

set_option linter.unusedSectionVars false

namespace WBX
open DA Aggregator
variable {L K : Type} [DecidableEq L] [Field K] [LinearOrder K] [IsStrictOrderedRing K]

/-- NaN or a given number. -/
def NanOr (c : K) (x : FV K) : Prop := x = FV.nan ∨ x = FV.fin c

namespace NanOr
theorem nan {c : K} : NanOr c FV.nan := .inl rfl
theorem self {c : K} : NanOr c (FV.fin c) := .inr rfl

theorem zero_add {x y : FV K} (hx : NanOr 0 x) (hy : NanOr 0 y) : NanOr 0 (x + y) := by
  rcases hx with rfl | rfl <;> rcases hy with rfl | rfl <;> simp [NanOr]

theorem sum {ι : Type} [DecidableEq ι] (s : Finset ι) (f : ι → FV K) (h : ∀ i ∈ s, NanOr 0 (f i)) : NanOr 0 (∑ i ∈ s, f i) := by
  induction s using Finset.induction_on with
  | empty => exact .inr rfl
  | insert i s hi ih =>
    rw [Finset.sum_insert hi]
    exact (h i (Finset.mem_insert_self _ _)).zero_add (ih (fun j hj => h j (Finset.mem_insert_of_mem hj)))

theorem zero_mul {x : FV K} (hx : NanOr 0 x) (y : FV K) : NanOr 0 (x * y) := by
  rcases hx with rfl | rfl
  · simp [NanOr]
  · rcases y with _ | b | y <;> simp [NanOr, FV.fin_mul_inf]

theorem zero_div {x : FV K} (hx : NanOr 0 x) (y : FV K) : NanOr 0 (x / y) := by
  rcases hx with rfl | rfl
  · simp [NanOr]
  · rcases y with _ | b | y
    · simp [NanOr]
    · exact .inr rfl
    · by_cases h : y = 0
      · left; simp [FV.fin_div_fin, h]
      · right; rw [FV.fin_div_fin_of_ne _ h, _root_.zero_div]

theorem sub_self (x : FV K) : NanOr 0 (x - x) := by
  rcases x with _ | b | x
  · simp [NanOr]
  · left
    rw [FV.sub_def]
    cases b <;> rfl
  · right; simp

theorem abs {x : FV K} (hx : NanOr 0 x) : NanOr 0 x.abs := by
  rcases hx with rfl | rfl
  · exact .inl rfl
  · right; simp [FV.abs]

theorem sq {x : FV K} (hx : NanOr 0 x) : NanOr 0 x.sq := hx.zero_mul x

theorem zero_sub {x y : FV K} (hx : NanOr 0 x) (hy : NanOr 0 y) : NanOr 0 (x - y) := by
  rcases hx with rfl | rfl <;> rcases hy with rfl | rfl <;> simp [NanOr]

theorem keepIf {c : K} {x : FV K} (hx : NanOr c x) (b : Bool) : NanOr c (FV.keepIf x b) := by
  unfold FV.keepIf
  split_ifs
  · exact hx
  · exact .inl rfl

theorem div_self (x : FV K) : NanOr 1 (x / x) := by
  rcases x with _ | b | x
  · simp [NanOr]
  · exact .inl rfl
  · by_cases h : x = 0
    · left; simp [FV.fin_div_fin, h]
    · right; rw [FV.fin_div_fin_of_ne _ h, _root_.div_self h]

theorem add_zero' {x z : FV K} (hz : NanOr 0 z) : x + z = FV.nan ∨ x + z = x := by
  rcases hz with rfl | rfl
  · left; simp
  · right; exact add_zero x

theorem sqrt {x : FV ℝ} (hx : NanOr 0 x) : NanOr 0 x.sqrt := by
  rcases hx with rfl | rfl
  · exact .inl rfl
  · right; simp [FV.sqrt]

end NanOr

theorem OnlyOrNaN.map {c c' : K} {f : FV K → FV K} (hf : ∀ x, NanOr c x → NanOr c' (f x)) {a : DA L (FV K)} (h : OnlyOrNaN c a) : OnlyOrNaN c' (a.map f) :=
  fun e he => hf _ (h e he)

theorem inDom_zipLeft {V W U : Type} {f : V → W → U} {a : DA L V} {b : DA L W} {e : Dim → L} (he : (DA.zipWith f a b).InDom e) : a.InDom e :=
  (inDom_zipWith.mp he).1

theorem inDom_zipRight {V W U : Type} {f : V → W → U} {a : DA L V} {b : DA L W} {e : Dim → L} (he : (DA.zipWith f a b).InDom e) : b.InDom e :=
  (inDom_zipWith.mp he).2

theorem OnlyOrNaN.left {c c' : K} {W : Type} {f : FV K → W → FV K} (hf : ∀ x y, NanOr c x → NanOr c' (f x y)) {a : DA L (FV K)} (b : DA L W)
    (h : OnlyOrNaN c a) : OnlyOrNaN c' (DA.zipWith f a b) := fun e he => hf _ _ (h e (inDom_zipLeft he))

theorem OnlyOrNaN.both {c c' c'' : K} {f : FV K → FV K → FV K} (hf : ∀ x y, NanOr c x → NanOr c' y → NanOr c'' (f x y)) {a b : DA L (FV K)}
    (h : OnlyOrNaN c a) (h' : OnlyOrNaN c' b) : OnlyOrNaN c'' (DA.zipWith f a b) := fun e he => hf _ _ (h e (inDom_zipLeft he)) (h' e (inDom_zipRight he))

theorem inDom_setLabel_mem {V : Type} {a : DA L V} {d : Dim} {e : Dim → L} (he : ∀ k ∈ a.dims.erase d, e k ∈ a.coords k) {l : L} (hl : l ∈ a.coords d) :
    a.InDom (setLabel e d l) := by
  intro k hk
  by_cases h : k = d
  · subst h; simpa [setLabel] using hl
  · simpa [setLabel, h] using he k (Finset.mem_erase.mpr ⟨h, hk⟩)

theorem OnlyOrNaN.sumDim {d : Dim} {a : DA L (FV K)} (h : OnlyOrNaN 0 a) : OnlyOrNaN 0 (sumDim d a) := fun _ he =>
  NanOr.sum _ _ (fun _ hl => h _ (inDom_setLabel_mem he hl))

theorem OnlyOrNaN.sumDims : (ds : List Dim) → {a : DA L (FV K)} → OnlyOrNaN 0 a → OnlyOrNaN 0 (sumDims ds a)
  | [], _, h => h
  | _ :: ds, _, h => OnlyOrNaN.sumDims ds h.sumDim

theorem OnlyOrNaN.foldl : (bs : List (DA L (FV K))) → {a : DA L (FV K)} → OnlyOrNaN 0 a → OnlyOrNaN 0 (bs.foldl (DA.zipWith (· * ·)) a)
  | [], _, h => h
  | b :: bs, _, h => OnlyOrNaN.foldl bs (h.left (fun _ y hx => hx.zero_mul y) b)

theorem aggregationFn_only {agg : Aggregator L (FV K)} {a y : DA L (FV K)} (h : OnlyOrNaN 0 a) (hy : agg.aggregationFn a = .ok (some y)) : OnlyOrNaN 0 y := by
  unfold Aggregator.aggregationFn at hy
  dsimp only at hy
  split_ifs at hy
  · split at hy
    · cases hy
    · simp only [Except.ok.injEq, Option.some.injEq] at hy
      subst hy
      exact (OnlyOrNaN.foldl _ h).sumDims _
  · cases hy

theorem applyMask_only {agg : Aggregator L (FV K)} {s : StatVar L (FV K)} (h : OnlyOrNaN 0 s.arr) : OnlyOrNaN 0 (agg.applyMask s).1 := by
  have hw : ∀ m : DA L Bool, OnlyOrNaN 0 (s.arr.where_ m 0) := fun m => h.left (fun x b hx => by
    cases b
    · exact .inr rfl
    · exact hx) m
  unfold Aggregator.applyMask
  split
  · exact hw _
  · split_ifs
    · exact hw _
    · exact h

/-- The mean of a statistic that is 0 or NaN at every cell is 0 or NaN, whatever the weights, bins and masks. -/
theorem aggregate_only {agg : Aggregator L (FV K)} {s : StatVar L (FV K)} (h : OnlyOrNaN 0 s.arr) {q : DA L (FV K) × DA L (FV K)}
    (hq : agg.aggregateStatVar s = .ok (some q)) : OnlyOrNaN 0 (DA.zipWith (· / ·) q.1 q.2) := by
  unfold Aggregator.aggregateStatVar at hq
  dsimp only at hq
  obtain ⟨o, ho, hq⟩ := bind_pair_ok _ _ _ hq
  obtain ⟨o', ho', hq⟩ := bind_pair_ok _ _ _ hq
  rcases o with _ | y
  · cases hq
  rcases o' with _ | z
  · cases hq
  simp only [pure, Except.pure, Except.ok.injEq, Option.some.injEq] at hq
  subst hq
  exact (aggregationFn_only (applyMask_only h) ho).left (fun _ y hx => hx.zero_div y) z

theorem isMeanOf_only {agg : Aggregator L (FV K)} {p t : Vars (StatVar L (FV K))} {v : String} {st : FStatistic L K} {y : DA L (FV K)}
    (h : ∀ vars s, st.compute p t = .ok vars → (v, some s) ∈ vars → OnlyOrNaN 0 s.arr) (hy : IsMeanOf agg p t v st y) : OnlyOrNaN 0 y := by
  obtain ⟨vars, s, q, h1, h2, h3, rfl⟩ := hy
  exact aggregate_only (h vars s h1 h2) h3

end WBX
