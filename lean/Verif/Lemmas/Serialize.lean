import Verif.Spec.Serialize
import Verif.Lemmas.Tree
import Verif.Lemmas.Beam

/-!
# Lemmas for serialisation: strings
-/

namespace WBX.Serialize
set_option linter.unusedSectionVars false

theorem replaceGo_skip (old new : List Char) : (n : ℕ) → (s t : List Char) → s.length = n →
    replaceGo old new n (s ++ t) = replaceGo old new 0 t
  | 0, s, t, h => by
    have : s = [] := List.length_eq_zero_iff.mp h
    subst this; rfl
  | n + 1, [], t, h => by simp at h
  | n + 1, c :: s, t, h => by
    rw [List.cons_append, replaceGo]
    exact replaceGo_skip old new n s t (by simpa using h)

theorem replace_old (old new t : List Char) (h : old ≠ []) : replace old new (old ++ t) = new ++ replace old new t := by
  obtain ⟨c, cs, rfl⟩ := List.exists_cons_of_ne_nil h
  unfold replace
  rw [List.cons_append, replaceGo, if_pos (by rw [← List.cons_append]; exact List.prefix_append _ _)]
  congr 1
  exact replaceGo_skip _ _ _ cs t (by simp)

theorem replace_append (old new : List Char) (h : old ≠ []) : (s t : List Char) → (∀ c ∈ s, c ∉ old) →
    replace old new (s ++ t) = s ++ replace old new t
  | [], t, _ => rfl
  | c :: s, t, hs => by
    have hn : ¬ old <+: (c :: (s ++ t)) := by
      intro hp
      obtain ⟨x, xs, rfl⟩ := List.exists_cons_of_ne_nil h
      have := (List.cons_prefix_cons.mp hp).1
      exact hs c (by simp) (by simp [this])
    have ih := replace_append old new h s t (fun c' hc' => hs c' (by simp [hc']))
    unfold replace at ih ⊢
    rw [List.cons_append, replaceGo, if_neg hn, ih, List.cons_append]

theorem replace_nil (old new : List Char) : replace old new [] = [] := rfl

theorem replace_none (old new s : List Char) (h : old ≠ []) (hs : ∀ c ∈ s, c ∉ old) : replace old new s = s := by
  have := replace_append old new h s [] hs
  simpa [replace_nil] using this

/-- Replacing the separator of a joined list of names that do not use its characters. -/
theorem replace_join (old new : List Char) (h : old ≠ []) : (ps : List (List Char)) →
    (∀ p ∈ ps, ∀ c ∈ p, c ∉ old) → replace old new (joinWith old ps) = joinWith new ps
  | [], _ => rfl
  | [x], hp => by
    simp only [joinWith]
    exact replace_none old new x h (hp x (by simp))
  | x :: y :: rest, hp => by
    simp only [joinWith]
    rw [List.append_assoc, replace_append old new h x _ (hp x (by simp)), replace_old _ _ _ h,
      replace_join old new h (y :: rest) (fun p hp' => hp p (by simp [List.mem_cons.mp hp'])), List.append_assoc]

theorem rsplit1_none (sep : List Char) (h : sep ≠ []) : (v : List Char) → (∀ c ∈ v, c ∉ sep) → rsplit1 sep v = none
  | [], _ => rfl
  | c :: v, hv => by
    rw [rsplit1, rsplit1_none sep h v (fun c' hc' => hv c' (by simp [hc']))]
    simp only
    rw [if_neg]
    intro hp
    obtain ⟨x, xs, rfl⟩ := List.exists_cons_of_ne_nil h
    exact hv c (by simp) (by simp [(List.cons_prefix_cons.mp hp).1])

/-- No occurrence of the separator starts inside its own tail when followed by characters it does not have. -/
theorem rsplit1_tail (sep v : List Char) (h : sep ≠ []) (hv : ∀ c ∈ v, c ∉ sep) : (s : List Char) →
    s.length < sep.length → rsplit1 sep (s ++ v) = none
  | [], _ => by simpa using rsplit1_none sep h v hv
  | c :: s, hl => by
    rw [List.cons_append, rsplit1, rsplit1_tail sep v h hv s (by simp at hl; omega)]
    simp only
    rw [if_neg]
    rintro ⟨t, ht⟩
    -- the last character of the separator would be a character of `v`
    have hlen := congrArg List.length ht
    simp only [List.length_append, List.length_cons] at hlen
    have hl' : (c :: s).length < sep.length := hl
    simp only [List.length_cons] at hl'
    have hx : (c :: (s ++ v))[s.length + 1]? = v[0]? := by
      rw [← List.cons_append, List.getElem?_append_right (by simp)]
      simp
    rw [← ht, List.getElem?_append_left (by omega)] at hx
    have hlt : s.length + 1 < sep.length := by omega
    rw [List.getElem?_eq_getElem hlt] at hx
    have hmem : sep[s.length + 1] ∈ v := List.mem_of_getElem? hx.symm
    exact hv _ hmem (List.getElem_mem hlt)

/-- `rsplit` finds the separator before a last part that does not use its characters. -/
theorem rsplit1_append (sep v : List Char) (h : sep ≠ []) (hv : ∀ c ∈ v, c ∉ sep) : (p : List Char) →
    rsplit1 sep (p ++ sep ++ v) = some (p, v)
  | [] => by
    obtain ⟨x, xs, hx⟩ := List.exists_cons_of_ne_nil h
    have hr := rsplit1_tail sep v h hv xs (by simp [hx])
    rw [List.nil_append]
    conv => lhs; arg 2; rw [hx]
    rw [List.cons_append, rsplit1, hr]
    simp only
    rw [if_pos (by rw [← List.cons_append, ← hx]; exact List.prefix_append _ _), ← List.cons_append, ← hx]
    simp
  | c :: p => by
    have := rsplit1_append sep v h hv p
    rw [List.cons_append, List.cons_append, rsplit1, this]

theorem splitAtChar_ne_nil (c : Char) : (s : List Char) → splitAtChar c s ≠ []
  | [] => by simp [splitAtChar]
  | x :: xs => by
    rw [splitAtChar]
    split
    · simp
    · split <;> simp

theorem splitAtChar_none (c : Char) : (s : List Char) → c ∉ s → splitAtChar c s = [s]
  | [], _ => rfl
  | x :: xs, h => by
    rw [splitAtChar, if_neg (by intro hx; exact h (by simp [hx])), splitAtChar_none c xs (by intro hx; exact h (by simp [hx]))]

theorem splitAtChar_append (c : Char) : (s t : List Char) → c ∉ s → splitAtChar c (s ++ c :: t) = s :: splitAtChar c t
  | [], t, _ => by rw [List.nil_append, splitAtChar, if_pos rfl]
  | x :: xs, t, h => by
    rw [List.cons_append, splitAtChar, if_neg (by intro hx; exact h (by simp [hx])),
      splitAtChar_append c xs t (by intro hx; exact h (by simp [hx]))]

theorem splitAtChar_join (c : Char) : (ps : List (List Char)) → ps ≠ [] → (∀ p ∈ ps, c ∉ p) →
    splitAtChar c (joinWith [c] ps) = ps
  | [], h, _ => absurd rfl h
  | [x], _, hp => splitAtChar_none c x (hp x (by simp))
  | x :: y :: rest, _, hp => by
    rw [joinWith, List.append_assoc, List.singleton_append, splitAtChar_append c x _ (hp x (by simp)),
      splitAtChar_join c (y :: rest) (by simp) (fun p hp' => hp p (by simp [List.mem_cons.mp hp']))]

/-- A path built from good names parses back into the names. -/
theorem parsePath_pathStr (comps : List String) (h : ∀ k ∈ comps, GoodName k) : parsePath (pathStr comps) = comps := by
  unfold parsePath pathStr
  rw [splitAtChar, if_pos rfl]
  by_cases hc : comps = []
  · subst hc; simp [joinWith, splitAtChar]
  · rw [splitAtChar_join '/' _ (by simpa using hc) (by
      intro p hp
      obtain ⟨k, hk, rfl⟩ := List.mem_map.mp hp
      exact (h k hk).1)]
    rw [List.filter_cons_of_neg (by simp), List.filter_eq_self.mpr, List.map_map]
    · conv => rhs; rw [← List.map_id comps]
      apply List.map_congr_left
      intro k _
      simp
    · intro p hp
      obtain ⟨k, hk, rfl⟩ := List.mem_map.mp hp
      obtain ⟨-, h2, h3, -⟩ := h k hk
      simp only [decide_eq_true_eq]
      refine ⟨?_, ?_⟩
      · intro hx
        apply h2
        rw [← String.ofList_toList (s := k), hx]
      · intro hx
        apply h3
        rw [← String.ofList_toList (s := k), hx]

theorem lstrip_join : (ps : List (List Char)) → (∀ p ∈ ps, p ≠ [] ∧ '/' ∉ p) →
    lstrip '/' ('/' :: joinWith ['/'] ps) = joinWith ['/'] ps := by
  intro ps h
  unfold lstrip
  rw [List.dropWhile_cons_of_pos (by simp)]
  rcases ps with _ | ⟨x, rest⟩
  · rfl
  · obtain ⟨hne, hs⟩ := h x (by simp)
    obtain ⟨c, cs, rfl⟩ := List.exists_cons_of_ne_nil hne
    have : ∃ t, joinWith ['/'] ((c :: cs) :: rest) = c :: t := by
      rcases rest with _ | ⟨y, rest⟩
      · exact ⟨cs, rfl⟩
      · exact ⟨_, rfl⟩
    obtain ⟨t, ht⟩ := this
    rw [ht, List.dropWhile_cons_of_neg]
    simp only [decide_eq_true_eq]
    rintro rfl
    exact hs (by simp)

/-- The key of a leaf in the Dataset. -/
def keyOf (sep : String) (comps : List String) (name : String) : String :=
  String.ofList (joinWith sep.toList (comps.map String.toList) ++ sep.toList ++ name.toList)

theorem keyOf_eq (sep : String) (comps : List String) (name : String) (h : ∀ k ∈ comps, GoodName k) :
    String.ofList (replace ['/'] sep.toList (lstrip '/' (pathStr comps)) ++ sep.toList ++ name.toList)
      = keyOf sep comps name := by
  unfold keyOf pathStr
  rw [lstrip_join, replace_join]
  · simp
  · intro p hp c hc
    obtain ⟨k, hk, rfl⟩ := List.mem_map.mp hp
    have := (h k hk).1
    simp only [List.mem_singleton]
    rintro rfl
    exact this hc
  · intro p hp
    obtain ⟨k, hk, rfl⟩ := List.mem_map.mp hp
    refine ⟨?_, (h k hk).1⟩
    intro hx
    apply (h k hk).2.1
    rw [← String.ofList_toList (s := k), hx]

/-- A key splits back into the path and the name. -/
theorem split_keyOf (sep : String) (comps : List String) (name : String) (hsep : sep ≠ "")
    (hk : ∀ k ∈ comps, NoCommonChar k sep) (hn : NoCommonChar name sep) :
    ∃ p, rsplit1 sep.toList (keyOf sep comps name).toList = some (p, name.toList) ∧
      '/' :: replace sep.toList ['/'] p = pathStr comps := by
  have hs : sep.toList ≠ [] := by
    intro h
    apply hsep
    rw [← String.ofList_toList (s := sep), h]
  refine ⟨joinWith sep.toList (comps.map String.toList), ?_, ?_⟩
  · unfold keyOf
    rw [String.toList_ofList]
    exact rsplit1_append _ _ hs hn _
  · unfold pathStr
    rw [replace_join _ _ hs]
    intro p hp c hc
    obtain ⟨k, hk', rfl⟩ := List.mem_map.mp hp
    exact hk k hk' c hc

end WBX.Serialize
