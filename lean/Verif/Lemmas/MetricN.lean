import Verif.Lemmas.MetricAlone
import Verif.Model.Categorical

/-!
# Values of metrics with two, three or four statistics
-/

set_option linter.unusedSectionVars false

namespace WBX
open DA Aggregator
variable {L K : Type} [DecidableEq L] [Field K] [LinearOrder K] [IsStrictOrderedRing K]
variable {agg : Aggregator L (FV K)} {p t : Vars (StatVar L (FV K))} {v : String} {x : DA L (FV K)}

theorem item_hd {β : Type} (k : String) (a : β) (l : List (String × β)) : pyItem ((k, a) :: l) k = .ok a := by
  simp [pyItem, pyGet?]

theorem item_tl {β : Type} {k k' : String} (h : k ≠ k') (a : β) (l : List (String × β)) :
    pyItem ((k', a) :: l) k = pyItem l k := by
  simp [pyItem, pyGet?, Ne.symm h]

theorem valueOf_metric2 {s1 s2 : String × FStatistic L K} {f} (h12 : s1.1 ≠ s2.1)
    (h : ValueOf (metric2 s1 s2 f) agg p t v x) :
    ∃ y1 y2, IsMeanOf agg p t v s1.2 y1 ∧ IsMeanOf agg p t v s2.2 y2 ∧ x = f y1 y2 := by
  obtain ⟨ys, hys, hg⟩ := valueOf_perVariable (by simp [h12]) h
  rw [List.forall₂_cons_left_iff] at hys
  obtain ⟨⟨k1, y1⟩, l1, ⟨e1, m1⟩, hys, rfl⟩ := hys
  rw [List.forall₂_cons_left_iff] at hys
  obtain ⟨⟨k2, y2⟩, l2, ⟨e2, m2⟩, hys, rfl⟩ := hys
  rw [List.forall₂_nil_left_iff] at hys
  subst hys
  simp only at e1 e2
  subst e1 e2
  rw [item_hd, item_tl h12.symm, item_hd] at hg
  simp only [bind, Except.bind, pure, Except.pure, Except.ok.injEq] at hg
  exact ⟨y1, y2, m1, m2, hg.symm⟩

theorem valueOf_metric3 {s1 s2 s3 : String × FStatistic L K} {f} (h12 : s1.1 ≠ s2.1) (h13 : s1.1 ≠ s3.1) (h23 : s2.1 ≠ s3.1)
    (h : ValueOf (metric3 s1 s2 s3 f) agg p t v x) :
    ∃ y1 y2 y3, IsMeanOf agg p t v s1.2 y1 ∧ IsMeanOf agg p t v s2.2 y2 ∧ IsMeanOf agg p t v s3.2 y3 ∧ x = f y1 y2 y3 := by
  obtain ⟨ys, hys, hg⟩ := valueOf_perVariable (by simp [h12, h13, h23]) h
  rw [List.forall₂_cons_left_iff] at hys
  obtain ⟨⟨k1, y1⟩, l1, ⟨e1, m1⟩, hys, rfl⟩ := hys
  rw [List.forall₂_cons_left_iff] at hys
  obtain ⟨⟨k2, y2⟩, l2, ⟨e2, m2⟩, hys, rfl⟩ := hys
  rw [List.forall₂_cons_left_iff] at hys
  obtain ⟨⟨k3, y3⟩, l3, ⟨e3, m3⟩, hys, rfl⟩ := hys
  rw [List.forall₂_nil_left_iff] at hys
  subst hys
  simp only at e1 e2 e3
  subst e1 e2 e3
  rw [item_hd, item_tl h12.symm, item_hd, item_tl h13.symm, item_tl h23.symm, item_hd] at hg
  simp only [bind, Except.bind, pure, Except.pure, Except.ok.injEq] at hg
  exact ⟨y1, y2, y3, m1, m2, m3, hg.symm⟩

theorem valueOf_metric4 {s1 s2 s3 s4 : String × FStatistic L K} {f} (h12 : s1.1 ≠ s2.1) (h13 : s1.1 ≠ s3.1) (h23 : s2.1 ≠ s3.1)
    (h14 : s1.1 ≠ s4.1) (h24 : s2.1 ≠ s4.1) (h34 : s3.1 ≠ s4.1)
    (h : ValueOf (metric4 s1 s2 s3 s4 f) agg p t v x) :
    ∃ y1 y2 y3 y4, IsMeanOf agg p t v s1.2 y1 ∧ IsMeanOf agg p t v s2.2 y2 ∧ IsMeanOf agg p t v s3.2 y3 ∧
      IsMeanOf agg p t v s4.2 y4 ∧ x = f y1 y2 y3 y4 := by
  obtain ⟨ys, hys, hg⟩ := valueOf_perVariable (by simp [h12, h13, h23, h14, h24, h34]) h
  rw [List.forall₂_cons_left_iff] at hys
  obtain ⟨⟨k1, y1⟩, l1, ⟨e1, m1⟩, hys, rfl⟩ := hys
  rw [List.forall₂_cons_left_iff] at hys
  obtain ⟨⟨k2, y2⟩, l2, ⟨e2, m2⟩, hys, rfl⟩ := hys
  rw [List.forall₂_cons_left_iff] at hys
  obtain ⟨⟨k3, y3⟩, l3, ⟨e3, m3⟩, hys, rfl⟩ := hys
  rw [List.forall₂_cons_left_iff] at hys
  obtain ⟨⟨k4, y4⟩, l4, ⟨e4, m4⟩, hys, rfl⟩ := hys
  rw [List.forall₂_nil_left_iff] at hys
  subst hys
  simp only at e1 e2 e3 e4
  subst e1 e2 e3 e4
  rw [item_hd, item_tl h12.symm, item_hd, item_tl h13.symm, item_tl h23.symm, item_hd, item_tl h14.symm, item_tl h24.symm,
    item_tl h34.symm, item_hd] at hg
  simp only [bind, Except.bind, pure, Except.pure, Except.ok.injEq] at hg
  exact ⟨y1, y2, y3, y4, m1, m2, m3, m4, hg.symm⟩

theorem exists_metric2 {s1 s2 : String × FStatistic L K} {f} (h12 : s1.1 ≠ s2.1) {y1 y2}
    (m1 : OneMean agg p t v s1.2 y1) (m2 : OneMean agg p t v s2.2 y2) : ValueOf (metric2 s1 s2 f) agg p t v (f y1 y2) := by
  refine exists_perVariable (by simp [h12]) (by simp) (ys := [(s1.1, y1), (s2.1, y2)]) (.cons ⟨rfl, m1⟩ (.cons ⟨rfl, m2⟩ .nil)) ?_
  rw [item_hd, item_tl h12.symm, item_hd]
  rfl

theorem exists_metric3 {s1 s2 s3 : String × FStatistic L K} {f} (h12 : s1.1 ≠ s2.1) (h13 : s1.1 ≠ s3.1) (h23 : s2.1 ≠ s3.1)
    {y1 y2 y3} (m1 : OneMean agg p t v s1.2 y1) (m2 : OneMean agg p t v s2.2 y2) (m3 : OneMean agg p t v s3.2 y3) :
    ValueOf (metric3 s1 s2 s3 f) agg p t v (f y1 y2 y3) := by
  refine exists_perVariable (by simp [h12, h13, h23]) (by simp) (ys := [(s1.1, y1), (s2.1, y2), (s3.1, y3)])
    (.cons ⟨rfl, m1⟩ (.cons ⟨rfl, m2⟩ (.cons ⟨rfl, m3⟩ .nil))) ?_
  rw [item_hd, item_tl h12.symm, item_hd, item_tl h13.symm, item_tl h23.symm, item_hd]
  rfl

theorem exists_metric4 {s1 s2 s3 s4 : String × FStatistic L K} {f} (h12 : s1.1 ≠ s2.1) (h13 : s1.1 ≠ s3.1) (h23 : s2.1 ≠ s3.1)
    (h14 : s1.1 ≠ s4.1) (h24 : s2.1 ≠ s4.1) (h34 : s3.1 ≠ s4.1)
    {y1 y2 y3 y4} (m1 : OneMean agg p t v s1.2 y1) (m2 : OneMean agg p t v s2.2 y2) (m3 : OneMean agg p t v s3.2 y3)
    (m4 : OneMean agg p t v s4.2 y4) : ValueOf (metric4 s1 s2 s3 s4 f) agg p t v (f y1 y2 y3 y4) := by
  refine exists_perVariable (by simp [h12, h13, h23, h14, h24, h34]) (by simp)
    (ys := [(s1.1, y1), (s2.1, y2), (s3.1, y3), (s4.1, y4)])
    (.cons ⟨rfl, m1⟩ (.cons ⟨rfl, m2⟩ (.cons ⟨rfl, m3⟩ (.cons ⟨rfl, m4⟩ .nil)))) ?_
  rw [item_hd, item_tl h12.symm, item_hd, item_tl h13.symm, item_tl h23.symm, item_hd, item_tl h14.symm, item_tl h24.symm,
    item_tl h34.symm, item_hd]
  rfl

end WBX
