import Verif.Model.TimeChunks
import Mathlib.Data.List.ProdSigma
import Mathlib.Data.List.Perm.Basic
import Mathlib.Data.Nat.Basic
import Mathlib.Tactic.Ring
import Mathlib.Tactic.Linarith
import Mathlib.Data.List.Nodup

namespace WBX.TimeChunks

variable {I T α : Type}

theorem flatten_range_take (xs : List α) (c k : Nat) :
    ((List.range k).map (fun j => pySlice xs (j * c) c)).flatten = xs.take (k * c) := by
  induction k with
  | zero => simp
  | succ k ih =>
    rw [List.range_succ, List.map_append, List.flatten_append, ih, Nat.succ_mul, List.take_add]
    simp [pySlice]

theorem split_ok {xs : List α} {c : Nat} {cs : List (List α)} (h : split xs c = .ok cs) :
    0 < c ∧ cs = (List.range ((xs.length + c - 1) / c)).map (fun j => pySlice xs (j * c) c) := by
  unfold split pyRange at h
  by_cases hc : c = 0
  · simp [hc, bind, Except.bind] at h
  · simp only [hc, if_false, bind, Except.bind, pure, Except.pure, List.map_map] at h
    refine ⟨Nat.pos_of_ne_zero hc, ?_⟩
    injection h with h
    exact h.symm

theorem split_of_pos {c : Nat} (hc : 0 < c) (xs : List α) :
    split xs c = .ok ((List.range ((xs.length + c - 1) / c)).map (fun j => pySlice xs (j * c) c)) := by
  unfold split pyRange
  simp [Nat.pos_iff_ne_zero.mp hc, bind, Except.bind, pure, Except.pure, Function.comp_def]

theorem split_zero (xs : List α) : split xs 0 = .error .valueError := by
  simp [split, pyRange, bind, Except.bind]

theorem ceil_mul_ge (n c : Nat) (hc : 0 < c) : n ≤ (n + c - 1) / c * c := by
  have h := Nat.div_add_mod (n + c - 1) c
  have h2 := Nat.mod_lt (n + c - 1) hc
  rw [Nat.mul_comm] at h
  omega

theorem lt_ceil (n c j : Nat) (hc : 0 < c) (hj : j < (n + c - 1) / c) : j * c < n := by
  have h1 : (j + 1) * c ≤ (n + c - 1) / c * c := Nat.mul_le_mul_right c hj
  have h2 : (n + c - 1) / c * c ≤ n + c - 1 := Nat.div_mul_le_self _ _
  rw [Nat.succ_mul] at h1
  omega

theorem split_flatten {xs : List α} {c : Nat} {cs : List (List α)} (h : split xs c = .ok cs) :
    cs.flatten = xs := by
  obtain ⟨hc, rfl⟩ := split_ok h
  rw [flatten_range_take]
  exact List.take_of_length_le (ceil_mul_ge _ _ hc)

theorem split_getElem? {xs : List α} {c : Nat} {cs : List (List α)} (h : split xs c = .ok cs)
    {j : Nat} {ch : List α} (hj : cs[j]? = some ch) :
    ch = (xs.drop (c * j)).take ch.length ∧ c * j < xs.length ∧ ch ≠ [] ∧ ch.length ≤ c ∧
      (j + 1 < cs.length → ch.length = c) := by
  obtain ⟨hc, rfl⟩ := split_ok h
  simp only [List.getElem?_map, List.length_map, List.length_range] at *
  rw [Option.map_eq_some_iff] at hj
  obtain ⟨a, ha, rfl⟩ := hj
  rw [List.getElem?_eq_some_iff] at ha
  obtain ⟨hlt, ha⟩ := ha
  simp only [List.length_range] at hlt
  simp only [List.getElem_range] at ha
  subst ha
  have hlt' := lt_ceil _ _ _ hc hlt
  have hcomm : c * j = j * c := Nat.mul_comm _ _
  refine ⟨?_, by omega, ?_, ?_, ?_⟩
  · simp [pySlice, hcomm]
  · intro h0
    have := congrArg List.length h0
    simp [pySlice] at this
    omega
  · simp [pySlice]
  · intro hj1
    have := lt_ceil _ _ _ hc hj1
    simp [pySlice]
    rw [Nat.succ_mul] at this
    omega

theorem product_getElem? {β : Type} (xs : List α) (ys : List β) (i : Nat) :
    (xs.flatMap (fun x => ys.map (fun y => (x, y))))[i]? =
      (xs[i / ys.length]?).bind (fun x => (ys[i % ys.length]?).map (fun y => (x, y))) := by
  induction xs generalizing i with
  | nil => simp
  | cons x xs ih =>
    rw [List.flatMap_cons]
    by_cases hy : ys.length = 0
    · have : ys = [] := List.length_eq_zero_iff.mp hy
      subst this
      simp
    · have hy' : 0 < ys.length := Nat.pos_of_ne_zero hy
      by_cases h : i < ys.length
      · rw [List.getElem?_append_left (by simpa using h), Nat.div_eq_of_lt h, Nat.mod_eq_of_lt h]
        simp
      · rw [List.getElem?_append_right (by simpa using h), ih]
        have h1 : i / ys.length = (i - ys.length) / ys.length + 1 := by
          rw [← Nat.sub_add_cancel (Nat.le_of_not_lt h), Nat.add_div_right _ hy']
          simp
        have h2 : i % ys.length = (i - ys.length) % ys.length := by
          conv_lhs => rw [← Nat.sub_add_cancel (Nat.le_of_not_lt h)]
          simp
        rw [h1, h2]
        simp

theorem iter_length (tc : TimeChunks I T) : tc.iter.length = tc.len := by
  simp [iter, len, List.length_flatMap]

theorem mapM_ok_of_forall {β γ : Type} (f : β → Except Err γ) (g : β → γ) (l : List β)
    (h : ∀ x ∈ l, f x = .ok (g x)) : l.mapM f = .ok (l.map g) := by
  induction l with
  | nil => rfl
  | cons x xs ih =>
    rw [List.mapM_cons, h x (by simp), ih (fun y hy => h y (by simp [hy]))]
    rfl

/-- What a successful construction from arrays looks like. -/
theorem make_arr_ok {is : List I} {ts : List T} {a b : Option Int} {tc : TimeChunks I T}
    (h : make is (.arr ts) a b = .ok tc) :
    isNegative a = false ∧ isNegative b = false ∧
    tc.initSize = effectiveSize a is.length ∧ tc.leadSize = some (effectiveSize b ts.length) ∧
    split is (effectiveSize a is.length) = .ok tc.initChunks ∧
    ∃ lcs, split ts (effectiveSize b ts.length) = .ok lcs ∧ tc.leadChunks = lcs.map .arr := by
  unfold make at h
  cases ha : isNegative a <;> cases hb : isNegative b <;>
    simp [ha, hb, bind, Except.bind, throw, throwThe, MonadExceptOf.throw, pure, Except.pure] at h
  cases hs : split is (effectiveSize a is.length) with
  | error e => simp [hs] at h
  | ok ics =>
    cases hl : split ts (effectiveSize b ts.length) with
    | error e => simp [hs, hl] at h
    | ok lcs =>
      simp [hs, hl] at h
      subst h
      exact ⟨rfl, rfl, rfl, rfl, rfl, lcs, rfl, rfl⟩

theorem make_slice_ok {is : List I} {sa sb ss : Option T} {a b : Option Int} {tc : TimeChunks I T}
    (h : make is (.slice sa sb ss) a b = .ok tc) :
    isNegative a = false ∧ (b = none ∨ b = some 0) ∧ ss = none ∧
    tc.initSize = effectiveSize a is.length ∧ tc.leadSize = b.map Int.toNat ∧
    split is (effectiveSize a is.length) = .ok tc.initChunks ∧
    ∃ x y, sa = some x ∧ sb = some y ∧ tc.leadChunks = [.slice x y] := by
  unfold make at h
  cases ha : isNegative a <;> cases hb : isNegative b <;>
    simp [ha, hb, bind, Except.bind, throw, throwThe, MonadExceptOf.throw, pure, Except.pure] at h
  cases hs : split is (effectiveSize a is.length) with
  | error e => simp [hs] at h
  | ok ics =>
    cases sa with
    | none => simp [hs] at h
    | some x =>
      cases sb with
      | none => simp [hs] at h
      | some y =>
        cases ss with
        | some z => simp [hs] at h
        | none =>
          cases b with
          | none =>
            simp [hs] at h; subst h
            exact ⟨rfl, Or.inl rfl, rfl, rfl, rfl, rfl, x, y, rfl, rfl, rfl⟩
          | some c =>
            by_cases hc : c = 0
            · subst hc
              simp [hs] at h; subst h
              exact ⟨rfl, Or.inr rfl, rfl, rfl, rfl, rfl, x, y, rfl, rfl, rfl⟩
            · simp [hs, hc] at h

theorem flatMap_product_perm {β : Type} (xss : List (List α)) (yss : List (List β)) :
    ((xss.flatMap (fun x => yss.map (fun y => (x, y)))).flatMap (fun p => p.1 ×ˢ p.2)).Perm
      (xss.flatten ×ˢ yss.flatten) := by
  induction xss with
  | nil => simp
  | cons x xs ih =>
    simp only [List.flatMap_cons, List.flatMap_append, List.flatten_cons]
    have h1 : ∀ (a b : List α) (c : List β), (a ++ b) ×ˢ c = a ×ˢ c ++ b ×ˢ c := by
      intro a b c
      simp [SProd.sprod, List.product, List.flatMap_append]
    rw [h1]
    refine List.Perm.append ?_ ih
    rw [List.flatMap_map]
    clear ih
    induction yss with
    | nil => simp
    | cons y ys ihy =>
      simp only [List.flatMap_cons, List.flatten_cons]
      refine (List.Perm.append_left _ ihy).trans ?_
      clear ihy
      induction x with
      | nil => simp
      | cons v vs ihv =>
        simp only [List.product_cons, List.map_append]
        refine List.Perm.trans ?_ (List.Perm.append_left _ ihv)
        simp only [List.append_assoc]
        refine List.Perm.append_left _ ?_
        rw [← List.append_assoc, ← List.append_assoc]
        exact List.Perm.append_right _ List.perm_append_comm

end WBX.TimeChunks
