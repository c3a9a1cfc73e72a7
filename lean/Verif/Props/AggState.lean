import Verif.Lemmas.AggState
import Mathlib.Data.Rat.Defs
import Mathlib.Tactic.NormNum

/-!
# Properties C05, C06, C15: combining sums, aggregation states, `map_structure`
-/

namespace WBX
open DA
variable {L V : Type} [DecidableEq L] [AddCommMonoid V]

/-! ## C05 -/

/-- C05: no coordinate label is dropped or invented: a label is in the result iff it is in some input that has the
dimension. Holds for arbitrary (also differing) dimensions. -/
theorem C05_labels (as : List (DA L V)) (d : Dim) :
    (d ∈ (combiningSum as).dims ↔ ∃ a ∈ as, d ∈ a.dims) ∧
    (d ∈ (combiningSum as).dims →
      ∀ l, l ∈ (combiningSum as).coords d ↔ ∃ a ∈ as, d ∈ a.dims ∧ l ∈ a.coords d) := by
  refine ⟨mem_combiningSum_dims as d, fun hd l => ?_⟩
  rw [combiningSum_coords as d hd, mem_outerCoords]

/-- C05: the value at a cell is the sum of the values of exactly those inputs that have the cell. -/
theorem C05_value (as : List (DA L V)) (e : Dim → L) :
    (combiningSum as).val e = ((as.filter (fun a => decide (a.InDom e))).map (fun a => a.val e)).sum := by
  rw [combiningSum_val]
  induction as with
  | nil => rfl
  | cons a as ih =>
    by_cases h : a.InDom e <;> simp [h, ih]

/-- C05: the order of the inputs is irrelevant. -/
theorem C05_order {as bs : List (DA L V)} (h : as.Perm bs) : (combiningSum as).Same (combiningSum bs) :=
  combiningSum_perm h

/-- C05: the grouping of the inputs is irrelevant when all have the same dimensions. -/
theorem C05_grouping {D : Finset Dim} (groups : List (List (DA L V))) (hne : ∀ g ∈ groups, g ≠ [])
    (h : ∀ g ∈ groups, ∀ a ∈ g, a.dims = D) :
    (combiningSum (groups.map combiningSum)).Same (combiningSum groups.flatten) :=
  combiningSum_flatten groups hne h

/-- A one-dimensional array with constant value, for examples. -/
def exArr (labels : Finset ℕ) (v : ℚ) : DA ℕ ℚ :=
  { dims := {"t"}, coords := fun _ => labels, val := fun _ => v }

example : ∀ g ∈ [[exArr {0, 1} 2, exArr {1, 2} 3], [exArr {5} 7]], ∀ a ∈ g, a.dims = {"t"} := by
  simp [exArr]
example : (combiningSum [exArr {0, 1} 2, exArr {1, 2} 3]).val (fun _ => 1) = 5 := by
  simp [combiningSum_val, exArr, DA.InDom]; norm_num
example : (combiningSum [exArr {0, 1} 2, exArr {1, 2} 3]).val (fun _ => 0) = 2 := by
  simp [combiningSum_val, exArr, DA.InDom]

/-- C05, finding: with differing dimensions the grouping matters (a scalar `1`, and two one-dimensional arrays with
different labels): at label 1, `(a + b) + c` misses the scalar. -/
theorem C05_grouping_fails_for_differing_dims :
    ∃ a b c : DA ℕ ℚ, ¬ (combiningSum [combiningSum [a, b], c]).Same (combiningSum [a, combiningSum [b, c]]) := by
  refine ⟨DA.scalar 1, exArr {0} 10, exArr {1} 100, fun h => ?_⟩
  have hd : "t" ∈ (combiningSum [combiningSum [DA.scalar 1, exArr {0} 10], exArr {1} 100]).dims := by
    simp [mem_combiningSum_dims, exArr]
  have hin : (combiningSum [combiningSum [DA.scalar 1, exArr {0} 10], exArr {1} 100]).InDom (fun _ => 1) := by
    intro d hd
    rw [combiningSum_coords _ _ hd, mem_outerCoords]
    simp only [mem_combiningSum_dims] at hd
    refine ⟨exArr {1} 100, by simp, ?_, by simp [exArr]⟩
    simp only [List.mem_cons, List.not_mem_nil, or_false, exists_eq_or_imp, exists_eq_left,
      mem_combiningSum_dims] at hd
    rcases hd with (h | h) | h
    · simp [DA.scalar] at h
    · exact h
    · exact h
  have h1 := h.val _ hin
  have e1 : ¬ (combiningSum [DA.scalar 1, exArr {0} 10]).InDom (fun _ => 1) := by
    intro H
    have hdd : "t" ∈ (combiningSum [DA.scalar 1, exArr {0} 10]).dims := by
      simp [mem_combiningSum_dims, exArr]
    have := H "t" hdd
    rw [combiningSum_coords _ _ hdd, mem_outerCoords] at this
    simp [exArr, DA.scalar] at this
  have e2 : (combiningSum [exArr {0} 10, exArr {1} 100]).InDom (fun _ => 1) := by
    intro d hdd
    rw [combiningSum_coords _ _ hdd, mem_outerCoords]
    refine ⟨exArr {1} 100, by simp, ?_, by simp [exArr]⟩
    rw [mem_combiningSum_dims] at hdd
    simpa [exArr] using hdd
  rw [combiningSum_val, combiningSum_val] at h1
  simp only [List.map_cons, List.map_nil, List.sum_cons, List.sum_nil, add_zero, e1, e2, if_true, if_false] at h1
  rw [combiningSum_val] at h1
  simp [exArr, DA.scalar, DA.InDom] at h1

/-! ## C06 -/

/-- C06: the sum of states of one signature (mixed with zero states, grouped in any way) succeeds and does not
depend on the grouping. -/
theorem C06_grouping {σ : Tree (Finset Dim) × Tree (Finset Dim)} (hσ : σ.1.WF ∧ σ.2.WF)
    (groups : List (List (AggState L V))) (h : ∀ g ∈ groups, ∀ s ∈ g, AggState.HasSig σ s) :
    ∃ (sums : List (AggState L V)) (total flat : AggState L V),
      groups.mapM AggState.sum = .ok sums ∧ AggState.sum sums = .ok total ∧
      AggState.sum groups.flatten = .ok flat ∧ AggState.Same total flat := by
  obtain ⟨T1, T2, w1, w2, hp, d1, d2⟩ := AggState.exists_univ_table (L := L) (V := V) σ hσ
  -- the nonzero states of each group
  have hidx : ∃ iss : List (List (AggState.Sig (L := L) (V := V) σ)),
      groups.map (List.filterMap id) = iss.map (List.map (fun p => p.1)) := by
    clear hp d1 d2 w1 w2
    induction groups with
    | nil => exact ⟨[], rfl⟩
    | cons g gs ih =>
      obtain ⟨iss, hiss⟩ := ih (fun g hg => h g (by simp [hg]))
      obtain ⟨is, his⟩ := AggState.exists_sig_list g (h g (by simp))
      exact ⟨is :: iss, by simp only [List.map_cons, hiss, his]⟩
  obtain ⟨iss, hiss⟩ := hidx
  -- sums of groups
  have hsums : groups.mapM AggState.sum = .ok (iss.map (fun is => if is = [] then none else
      some (T1.map (fun v => combiningSum (is.map v)), T2.map (fun v => combiningSum (is.map v))))) := by
    clear h d1 d2
    induction groups generalizing iss with
    | nil =>
      cases iss with
      | nil => rfl
      | cons => simp at hiss
    | cons g gs ih =>
      cases iss with
      | nil => simp at hiss
      | cons is iss =>
        simp only [List.map_cons, List.cons.injEq] at hiss
        rw [List.mapM_cons, AggState.sum_of_sig w1 w2 hp g is hiss.1, ih iss hiss.2]
        rfl
  -- representatives of the group sums
  have hreps : ∃ rs : List (AggState.Sig (L := L) (V := V) σ),
      (iss.map (fun is => if is = [] then none else some (T1.map (fun v => combiningSum (is.map v)),
        T2.map (fun v => combiningSum (is.map v))))).filterMap id = rs.map (fun p => p.1) ∧
      (rs = [] ↔ iss.flatten = []) ∧
      T1.All (fun v => rs.map v = (iss.filter (· ≠ [])).map (fun is => combiningSum (is.map v))) ∧
      T2.All (fun v => rs.map v = (iss.filter (· ≠ [])).map (fun is => combiningSum (is.map v))) := by
    clear hsums hiss h
    induction iss with
    | nil => exact ⟨[], rfl, by simp, Tree.all_of_forall (by simp) _, Tree.all_of_forall (by simp) _⟩
    | cons is iss ih =>
      obtain ⟨rs, h1, h2, h3, h4⟩ := ih
      by_cases hne : is = []
      · subst hne
        exact ⟨rs, by simpa using h1, by simpa using h2, by simpa using h3, by simpa using h4⟩
      · obtain ⟨r, hr, a1, a2⟩ := AggState.sum_group hp d1 d2 is hne
        refine ⟨r :: rs, ?_, by simp [hne], ?_, ?_⟩
        · simp only [List.map_cons, hne, if_false]
          rw [List.filterMap_cons]
          simp only [id, hr]
          rw [← h1]; rfl
        · refine Tree.all_imp ?_ T1 (Tree.all_and T1 a1 h3)
          rintro v ⟨hv1, hv2⟩
          simp [hne, hv1, hv2]
        · refine Tree.all_imp ?_ T2 (Tree.all_and T2 a2 h4)
          rintro v ⟨hv1, hv2⟩
          simp [hne, hv1, hv2]
  obtain ⟨rs, hrs, hnil, hall1, hall2⟩ := hreps
  have hflat : groups.flatten.filterMap id = iss.flatten.map (fun p => p.1) := by
    rw [List.filterMap_flatten, hiss, List.map_flatten]
  refine ⟨_, _, _, hsums, AggState.sum_of_sig w1 w2 hp _ rs hrs,
    AggState.sum_of_sig w1 w2 hp _ iss.flatten hflat, ?_⟩
  by_cases hrn : rs = []
  · rw [if_pos hrn, if_pos (hnil.mp hrn)]; trivial
  · rw [if_neg hrn, if_neg (fun H => hrn (hnil.mpr H))]
    have leafwise : ∀ (T : Tree (AggState.Sig (L := L) (V := V) σ → DA L V)),
        T.All (fun v => ∀ p q, (v p).dims = (v q).dims) →
        T.All (fun v => rs.map v = (iss.filter (· ≠ [])).map (fun is => combiningSum (is.map v))) →
        Tree.Rel DA.Same (T.map (fun v => combiningSum (rs.map v)))
          (T.map (fun v => combiningSum (iss.flatten.map v))) := by
      intro T hd hT
      apply Tree.rel_map
      refine Tree.all_imp ?_ T (Tree.all_and T hd hT)
      rintro v ⟨hv, hv2⟩
      rw [hv2]
      obtain ⟨r, rs', hr⟩ := List.exists_cons_of_ne_nil hrn
      have := combiningSum_flatten (D := (v r).dims) ((iss.filter (· ≠ [])).map (List.map v)) (by
          intro as has
          rw [List.mem_map] at has
          obtain ⟨is, his, rfl⟩ := has
          rw [List.mem_filter] at his
          simpa using his.2) (by
          intro as has a ha
          rw [List.mem_map] at has
          obtain ⟨is, _, rfl⟩ := has
          rw [List.mem_map] at ha
          obtain ⟨p, _, rfl⟩ := ha
          exact hv p r)
      rw [List.map_map] at this
      refine this.trans ?_
      rw [← List.map_flatten]
      have hff : (iss.filter (· ≠ [])).flatten = iss.flatten := by
        clear * -
        induction iss with
        | nil => rfl
        | cons is iss ih => by_cases h : is = [] <;> simp [h] <;> simpa using ih
      rw [hff]
      exact DA.Same.refl _
    exact ⟨leafwise T1 d1 hall1, leafwise T2 d2 hall2⟩

/-- C06: the sum does not depend on the order of the states. -/
theorem C06_order {σ : Tree (Finset Dim) × Tree (Finset Dim)} (hσ : σ.1.WF ∧ σ.2.WF)
    {as bs : List (AggState L V)} (hp : as.Perm bs) (h : ∀ s ∈ as, AggState.HasSig σ s) :
    ∃ r r', AggState.sum as = .ok r ∧ AggState.sum bs = .ok r' ∧ AggState.Same r r' := by
  obtain ⟨T1, T2, w1, w2, hpp, d1, d2⟩ := AggState.exists_univ_table (L := L) (V := V) σ hσ
  obtain ⟨is, his⟩ := AggState.exists_sig_list as h
  obtain ⟨js, hjs⟩ := AggState.exists_sig_list bs (fun s hs => h s (hp.mem_iff.mpr hs))
  have hperm : is.Perm js := by
    have : (is.map (fun p => p.1)).Perm (js.map (fun p => p.1)) := by
      rw [← his, ← hjs]; exact hp.filterMap id
    exact (List.map_perm_map_iff (Subtype.val_injective)).mp this
  refine ⟨_, _, AggState.sum_of_sig w1 w2 hpp as is his, AggState.sum_of_sig w1 w2 hpp bs js hjs, ?_⟩
  by_cases hn : is = []
  · have : js = [] := by
      have := hperm.length_eq
      rw [hn] at this
      exact List.length_eq_zero_iff.mp this.symm
    rw [if_pos hn, if_pos this]; trivial
  · have : js ≠ [] := by
      intro H
      have := hperm.length_eq
      rw [H] at this
      exact hn (List.length_eq_zero_iff.mp this)
    rw [if_neg hn, if_neg this]
    exact ⟨Tree.rel_map _ _ _ _ (Tree.all_of_forall (fun v => combiningSum_perm (hperm.map v)) _),
      Tree.rel_map _ _ _ _ (Tree.all_of_forall (fun v => combiningSum_perm (hperm.map v)) _)⟩

/-- C06: zero states contribute nothing, wherever they occur, for arbitrary other states (no hypothesis). -/
theorem C06_zero_neutral (as bs : List (AggState L V)) :
    AggState.sum (as ++ AggState.zero :: bs) = AggState.sum (as ++ bs) := by
  unfold AggState.sum AggState.zero
  simp [List.filterMap_append, List.filterMap_cons]

/-- C06: `zero + s` and `s + zero` are `s`. -/
theorem C06_zero_add {σ : Tree (Finset Dim) × Tree (Finset Dim)} (hσ : σ.1.WF ∧ σ.2.WF) (s : AggState L V)
    (h : AggState.HasSig σ s) :
    ∃ r, AggState.add AggState.zero s = .ok r ∧ AggState.add s AggState.zero = .ok r ∧ AggState.Same r s := by
  have h1 : AggState.add AggState.zero s = AggState.sum [s] := C06_zero_neutral [] [s]
  have h2 : AggState.add s AggState.zero = AggState.sum [s] := C06_zero_neutral [s] []
  rw [h1, h2]
  cases s with
  | none => exact ⟨none, rfl, rfl, trivial⟩
  | some p =>
    obtain ⟨T1, T2, w1, w2, hpp, d1, d2⟩ := AggState.exists_univ_table (L := L) (V := V) σ hσ
    have hs := AggState.sum_of_sig w1 w2 hpp [some p] [⟨p, h p rfl⟩] rfl
    rw [if_neg (by simp)] at hs
    refine ⟨_, hs, hs, ?_⟩
    have e1 := (hpp ⟨p, h p rfl⟩).1
    have e2 := (hpp ⟨p, h p rfl⟩).2
    simp only at e1 e2
    constructor
    · conv => arg 3; rw [← e1]
      exact Tree.rel_map _ _ _ _ (Tree.all_of_forall (fun v => combiningSum_singleton _) _)
    · conv => arg 3; rw [← e2]
      exact Tree.rel_map _ _ _ _ (Tree.all_of_forall (fun v => combiningSum_singleton _) _)

/-- A leaf state for examples. -/
def exState (k : String) (labels : Finset ℕ) (v : ℚ) : AggState ℕ ℚ :=
  some (.dict (.cons k (.leaf (exArr labels v)) .nil), .dict (.cons k (.leaf (exArr labels 1)) .nil))

example : ∃ σ : Tree (Finset Dim) × Tree (Finset Dim), (σ.1.WF ∧ σ.2.WF) ∧
    ∀ s ∈ [exState "a" {0} 3, AggState.zero, exState "a" {0, 1} 4], AggState.HasSig σ s := by
  refine ⟨(.dict (.cons "a" (.leaf {"t"}) .nil), .dict (.cons "a" (.leaf {"t"}) .nil)), ?_, ?_⟩
  · simp [Tree.WF, Dict.WF, Dict.keys]
  · simp [AggState.HasSig, exState, AggState.zero, AggState.signature, Tree.map, Dict.map, exArr]

/-- C06, finding: with differing keys `+` is not commutative - the keys of the left operand decide: here the left
order silently drops key "b", the other order raises `KeyError`. -/
theorem C06_keys_of_first_decide :
    ∃ (a b : AggState ℕ ℚ) (r : AggState ℕ ℚ), AggState.add a b = .ok r ∧
      AggState.add b a = .error .keyError := by
  let leaf (v : ℚ) : Tree (DA ℕ ℚ) := .leaf (exArr {0} v)
  refine ⟨some (.dict (.cons "a" (leaf 1) .nil), .dict (.cons "a" (leaf 1) .nil)),
    some (.dict (.cons "a" (leaf 2) (.cons "b" (leaf 3) .nil)), .dict (.cons "a" (leaf 2) (.cons "b" (leaf 3) .nil))),
    _, rfl, rfl⟩

end WBX

/-! ## C15 -/

namespace WBX
variable {α β γ : Type}

/-- A one-argument function as the n-ary argument of `map_structure`. -/
def unary (g : α → β) : List α → Except Err β
  | [a] => .ok (g a)
  | _ => .error .typeError

/-- C15: mapping a total function over one structure keeps the structure and maps every leaf. -/
theorem C15_map_one (g : α → β) (t : Tree α) (ht : t.WF) :
    Tree.mapStructure (unary g) [t] = .ok (t.map g) := by
  have := Tree.mapStructure_cols (ι := Unit) (unary g) [()] (by simp) (t.map (fun a _ => a))
    ((Tree.wf_map _ _).mpr ht)
  simp only [List.map_cons, List.map_nil, Tree.map_map] at this
  rw [show (fun a : α => a) = id from rfl, Tree.map_id] at this
  rw [this]
  have h2 : (fun v : Unit → α => unary g [v ()]) = fun v => Except.ok (g (v ())) := rfl
  rw [h2, Tree.mapE_ok, Tree.map_map]

/-- C15: identity and composition. -/
theorem C15_functor (g : α → β) (h : β → γ) (t : Tree α) (ht : t.WF) :
    Tree.mapStructure (unary id) [t] = .ok t ∧
    (Tree.mapStructure (unary g) [t]).bind (fun u => Tree.mapStructure (unary h) [u])
      = Tree.mapStructure (unary (h ∘ g)) [t] := by
  refine ⟨by rw [C15_map_one _ _ ht, Tree.map_id], ?_⟩
  rw [C15_map_one _ _ ht, C15_map_one _ _ ht]
  simp only [Except.bind]
  rw [C15_map_one _ _ ((Tree.wf_map g t).mpr ht), Tree.map_map]
  rfl

/-- C15: several structures of the same shape are combined leaf by leaf, for any (possibly raising) function:
whatever table `T` of leaves they are the columns of, the result is `func` mapped over its rows. -/
theorem C15_zip {ι : Type} (f : List α → Except Err β) (is : List ι) (hne : is ≠ []) (T : Tree (ι → α))
    (hT : T.WF) (g : (ι → α) → β) (hf : ∀ v, f (is.map v) = .ok (g v)) :
    Tree.mapStructure f (is.map (fun j => T.map (fun v => v j))) = .ok (T.map g) := by
  rw [Tree.mapStructure_cols f is hne T hT]
  rw [show (fun v => f (is.map v)) = fun v => .ok (g v) from funext hf, Tree.mapE_ok]

/-- C15: structures of equal shape always form such a table. -/
theorem C15_same_shape_table {ι : Type} (s : Tree Unit) (ts : ι → Tree α) (h : ∀ i, (ts i).shape = s) :
    ∃ T : Tree (ι → α), T.shape = s ∧ ∀ i, T.map (fun v => v i) = ts i := Tree.exists_table s ts h

/-- C15: no structures is a `ValueError`. -/
theorem C15_empty (f : List α → Except Err β) : Tree.mapStructure f [] = .error .valueError := rfl

/-- C15: for dicts, the result has exactly the keys of the first dict, whatever keys the others have. -/
theorem C15_keys_of_first (f : List α → Except Err β) (d : Dict α) (others : List (Tree α)) (r : Tree β)
    (h : Tree.mapStructure f (.dict d :: others) = .ok r) : ∃ d', r = .dict d' ∧ d'.keys = d.keys := by
  simp only [Tree.mapStructure, Tree.mapWith, bind, Except.bind] at h
  split at h
  · simp at h
  · next h1 =>
    simp [pure, Except.pure] at h
    exact ⟨_, h.symm, Tree.mapWithDict_keys f others _ _ h1⟩

example : (Tree.dict (.cons "a" (.leaf 1) (.cons "b" (.seq (.cons (.leaf 2) .nil)) .nil)) : Tree ℕ).WF := by
  simp [Tree.WF, Dict.WF, Dict.keys, Seq.WF]

end WBX
