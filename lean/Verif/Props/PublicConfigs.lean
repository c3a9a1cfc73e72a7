import Verif.Model.PublicConfigs
import Verif.Props.BenchmarkNames
import Verif.Props.Loaders
import Verif.Lemmas.Serialize
import Verif.Lemmas.PipelineState

set_option linter.unusedSectionVars false
set_option linter.unusedVariables false

/-! # C86: the configurations of the public benchmark -/

namespace WBX.PublicConfigs
open WBX

/-! ### The text of names and paths -/

/-- The text `old` does not begin at any of the first `n` characters of `s`. -/
def NotWithin (old s : List Char) (n : ℕ) : Prop := ∀ i < n, ¬ old <+: s.drop i

theorem replace_first {old : List Char} (ho : old ≠ []) (new : List Char) : ∀ (a b : List Char), NotWithin old (a ++ old ++ b) a.length →
    Serialize.replace old new (a ++ old ++ b) = a ++ new ++ Serialize.replace old new b
  | [], b, _ => by simpa using Serialize.replace_old old new b ho
  | c :: a, b, h => by
    have h0 : ¬ old <+: c :: (a ++ old ++ b) := h 0 (by simp)
    have ih := replace_first ho new a b (fun i hi => h (i + 1) (by simpa using hi))
    unfold Serialize.replace at ih ⊢
    rw [List.cons_append, List.cons_append, Serialize.replaceGo, if_neg h0, ih, List.cons_append, List.cons_append]

theorem replace_absent {old : List Char} (new : List Char) : ∀ (s : List Char), NotWithin old s s.length → Serialize.replace old new s = s
  | [], _ => rfl
  | c :: s, h => by
    have h0 : ¬ old <+: c :: s := h 0 (by simp)
    have ih := replace_absent new s (fun i hi => h (i + 1) (by simpa using hi))
    unfold Serialize.replace at ih ⊢
    rw [Serialize.replaceGo, if_neg h0, ih]

/-- C86: where a text occurs once, it is replaced and everything else stays. -/
theorem C86_replace {a b old new : String} (ho : old ≠ "") (ha : NotWithin old.toList (a ++ old ++ b).toList a.toList.length) (hb : NotWithin old.toList b.toList b.toList.length) :
    replaceText (a ++ old ++ b) old new = a ++ new ++ b := by
  unfold replaceText
  have ho' : old.toList ≠ [] := fun h => ho (String.toList_inj.mp (by rw [h]; rfl))
  simp only [String.toList_append] at ha ⊢
  rw [replace_first ho' new.toList _ _ ha, replace_absent _ _ hb]
  refine String.toList_inj.mp ?_
  have h1 : ∀ l : List Char, (String.ofList l).toList = l := fun l => String.toList_ofList
  rw [h1]
  simp only [String.toList_append]

/-! ### The first member -/

section members
variable {L V : Type} [DecidableEq L]

theorem iselFirst_vars {first : Dim → Option L} {d : Dim} {ds r : Dataset L V} (h : iselFirst first d ds = .ok r) :
    ∃ l, first d = some l ∧ d ∉ r.dims ∧ List.Forall₂ (fun v w => w.1 = v.1 ∧ w.2.dims = v.2.dims.erase d ∧ (∀ k, w.2.coords k = v.2.coords k) ∧
      ∀ e : Dim → L, w.2.val e = v.2.val (if d ∈ v.2.dims then DA.setLabel e d l else e)) ds.vars r.vars := by
  unfold iselFirst at h
  rcases hf : first d with _ | l
  · rw [hf] at h
    exact absurd h (by simp)
  · rw [hf] at h
    injection h with h
    subst h
    refine ⟨l, rfl, ?_, ?_⟩
    · have h1 : ∀ (cs : List (String × Finset Dim)), d ∉ (cs.map (fun c => (c.1, c.2.erase d))).foldr (fun c s => c.2 ∪ s) ∅ := by
        intro cs
        induction cs with
        | nil => simp
        | cons c cs ih =>
          rw [List.map_cons, List.foldr_cons, Finset.mem_union]
          rintro (h | h)
          · simp at h
          · exact ih h
      unfold Dataset.dims
      dsimp only
      generalize hvs : ds.vars = vs
      clear hvs
      induction vs with
      | nil => exact h1 _
      | cons v vs ih =>
        rw [List.map_cons, List.foldr_cons, Finset.mem_union]
        rintro (h | h)
        · dsimp only at h
          split_ifs at h with hm
          · simp at h
          · exact hm h
        · exact ih h
    · dsimp only
      generalize hvs : ds.vars = vs
      clear hvs
      induction vs with
      | nil => exact List.Forall₂.nil
      | cons v vs ih =>
        rw [List.map_cons]
        refine List.Forall₂.cons ?_ ih
        by_cases hm : d ∈ v.2.dims
        · simp only [if_pos hm]
          exact ⟨trivial, trivial, fun _ => trivial, fun _ => trivial⟩
        · simp only [if_neg hm]
          exact ⟨trivial, (Finset.erase_eq_of_notMem hm).symm, fun _ => trivial, fun _ => trivial⟩

/-- The names of a member dimension, in the order in which they are tried. -/
def memberDims : List Dim := ["number", "sample", "member", "realization"]

/-- C86: the data of a single member are those of the ensemble at the first label of its member dimension; the dimension is gone, nothing else changes. The member dimension is the
first one of `number`, `sample`, `member` and `realization` that the dataset has. -/
theorem C86_first_member {first : Dim → Option L} {ds r : Dataset L V} (h : selectFirstMember first ds = .ok r) :
    ∃ before d after l, memberDims = before ++ d :: after ∧ d ∈ ds.dims ∧ (∀ k ∈ before, k ∉ ds.dims) ∧ first d = some l ∧ d ∉ r.dims ∧
      List.Forall₂ (fun v w => w.1 = v.1 ∧ w.2.dims = v.2.dims.erase d ∧ (∀ k, w.2.coords k = v.2.coords k) ∧
        ∀ e : Dim → L, w.2.val e = v.2.val (if d ∈ v.2.dims then DA.setLabel e d l else e)) ds.vars r.vars := by
  unfold selectFirstMember at h
  by_cases h1 : "number" ∈ ds.dims
  · rw [if_pos h1] at h
    obtain ⟨l, a, b, c⟩ := iselFirst_vars h
    exact ⟨[], "number", _, l, rfl, h1, by simp, a, b, c⟩
  rw [if_neg h1] at h
  by_cases h2 : "sample" ∈ ds.dims
  · rw [if_pos h2] at h
    obtain ⟨l, a, b, c⟩ := iselFirst_vars h
    exact ⟨["number"], "sample", _, l, rfl, h2, by simpa using h1, a, b, c⟩
  rw [if_neg h2] at h
  by_cases h3 : "member" ∈ ds.dims
  · rw [if_pos h3] at h
    obtain ⟨l, a, b, c⟩ := iselFirst_vars h
    exact ⟨["number", "sample"], "member", _, l, rfl, h3, by simpa using ⟨h1, h2⟩, a, b, c⟩
  rw [if_neg h3] at h
  by_cases h4 : "realization" ∈ ds.dims
  · rw [if_pos h4] at h
    obtain ⟨l, a, b, c⟩ := iselFirst_vars h
    exact ⟨["number", "sample", "member"], "realization", _, l, rfl, h4, by simpa using ⟨h1, h2, h3⟩, a, b, c⟩
  · rw [if_neg h4] at h
    exact absurd h (by simp)

/-- C86: a dataset without a member dimension is refused, any other with at least one member is accepted. -/
theorem C86_member_dimension (first : Dim → Option L) (ds : Dataset L V) :
    ((∀ d ∈ memberDims, d ∉ ds.dims) → selectFirstMember first ds = .error .valueError) ∧
    ((∃ d ∈ memberDims, d ∈ ds.dims) → (∀ d ∈ ds.dims, (first d).isSome) → ∃ r, selectFirstMember first ds = .ok r) := by
  constructor
  · intro h
    simp only [memberDims, List.mem_cons, List.not_mem_nil, or_false, forall_eq_or_imp, forall_eq] at h
    obtain ⟨h1, h2, h3, h4⟩ := h
    unfold selectFirstMember
    rw [if_neg h1, if_neg h2, if_neg h3, if_neg h4]
  · intro h hf
    have ok : ∀ d, d ∈ ds.dims → ∃ r, iselFirst first d ds = .ok r := by
      intro d hd
      obtain ⟨l, hl⟩ := Option.isSome_iff_exists.mp (hf d hd)
      unfold iselFirst
      rw [hl]
      exact ⟨_, rfl⟩
    unfold selectFirstMember
    split_ifs with h1 h2 h3 h4
    · exact ok _ h1
    · exact ok _ h2
    · exact ok _ h3
    · exact ok _ h4
    · obtain ⟨d, hd, hds⟩ := h
      simp only [memberDims, List.mem_cons, List.not_mem_nil, or_false] at hd
      rcases hd with rfl | rfl | rfl | rfl <;> contradiction

end members

/-! ### The single member configurations -/

/-- The name belongs to an ensemble: it starts with one of the prefixes. -/
def IsEnsemble (prefixes : List String) (name : String) : Prop := ∃ p ∈ prefixes, ∃ rest, name = p ++ rest

theorem startsWith_iff (s p : String) : startsWith s p = true ↔ ∃ rest, s = p ++ rest := by
  unfold startsWith
  rw [List.isPrefixOf_iff_prefix]
  constructor
  · rintro ⟨t, ht⟩
    refine ⟨String.ofList t, String.toList_inj.mp ?_⟩
    rw [String.toList_append, ← ht, String.toList_ofList]
  · rintro ⟨t, rfl⟩
    rw [String.toList_append]
    exact List.prefix_append _ _

theorem isEnsemble_iff (prefixes : List String) (name : String) : prefixes.any (fun p => startsWith name p) = true ↔ IsEnsemble prefixes name := by
  rw [List.any_eq_true]
  unfold IsEnsemble
  constructor
  · rintro ⟨p, hp, h⟩
    exact ⟨p, hp, (startsWith_iff _ _).mp h⟩
  · rintro ⟨p, hp, h⟩
    exact ⟨p, hp, (startsWith_iff _ _).mpr h⟩

/-- The name of the single member. -/
def memberName (name : String) : String := replaceText name "_mean" "_single_member"

/-- `s` is the configuration of the first member of the ensemble with the mean `c`. -/
structure FirstMemberOf (c s : LoaderConfig) : Prop where
  path : s.path = replaceText c.path "_mean.zarr" ".zarr"
  names : s.names = c.names
  levels : s.levels = c.levels
  kwargs : ∃ k, s.kwargs = some k ∧ k.preprocess = some .firstMember ∧ k.rename = (c.kwargs.getD {}).rename ∧ k.nanMask = (c.kwargs.getD {}).nanMask

theorem singleMember_ok {c s : LoaderConfig} (h : singleMember c = .ok s) : FirstMemberOf c s := by
  unfold singleMember at h
  rcases hk : c.kwargs with _ | k
  · rw [hk] at h
    injection h with h
    subst h
    exact ⟨rfl, rfl, rfl, _, rfl, rfl, by rw [hk]; rfl, by rw [hk]; rfl⟩
  · rw [hk] at h
    dsimp only at h
    split_ifs at h
    injection h with h
    subst h
    exact ⟨rfl, rfl, rfl, _, rfl, rfl, by rw [hk]; rfl, by rw [hk]; rfl⟩

variable {prefixes : List String}

theorem singleMembers_fold : ∀ (table acc out : List (String × LoaderConfig)),
    table.foldlM (fun acc kv => (do
      if prefixes.any (fun p => startsWith kv.1 p) then
        let s ← singleMember kv.2
        return pyInsert (replaceText kv.1 "_mean" "_single_member") s acc
      else return acc : Except Err _)) acc = .ok out →
    (acc.map Prod.fst).Nodup →
    (out.map Prod.fst).Nodup ∧
    (∀ name, (∀ kv ∈ table, IsEnsemble prefixes kv.1 → memberName kv.1 ≠ name) → pyGet? name out = pyGet? name acc) ∧
    ∀ name c, (name, c) ∈ table → IsEnsemble prefixes name → (∀ kv ∈ table, IsEnsemble prefixes kv.1 → memberName kv.1 = memberName name → kv = (name, c)) →
      ∃ s, FirstMemberOf c s ∧ pyGet? (memberName name) out = some s := by
  intro table
  induction table with
  | nil =>
    intro acc out h hn
    injection h with h
    subst h
    exact ⟨hn, fun _ _ => rfl, fun _ _ h => absurd h (by simp)⟩
  | cons kv table ih =>
    intro acc out h hn
    rw [List.foldlM_cons] at h
    obtain ⟨acc', h1, h⟩ := bind_ok_iff.mp h
    by_cases he : prefixes.any (fun p => startsWith kv.1 p) = true
    · rw [if_pos he] at h1
      obtain ⟨s, hs, h1⟩ := bind_ok_iff.mp h1
      injection h1 with h1
      subst h1
      have hn' : ((pyInsert (replaceText kv.1 "_mean" "_single_member") s acc).map Prod.fst).Nodup := by
        rw [pyInsert_keys]
        split_ifs with hk
        · exact hn
        · exact List.nodup_append.mpr ⟨hn, by simp, by
            intro a ha b hb
            simp only [List.mem_singleton] at hb
            rintro rfl
            exact hk (hb ▸ ha)⟩
      obtain ⟨i1, i2, i3⟩ := ih _ _ h hn'
      refine ⟨i1, ?_, ?_⟩
      · intro name hname
        rw [i2 name (fun x hx => hname x (List.mem_cons_of_mem _ hx)), pyGet?_insert, if_neg]
        exact hname kv (by simp) ((isEnsemble_iff _ _).mp he)
      · intro name c hm hens huniq
        by_cases hin : (name, c) ∈ table
        · exact i3 name c hin hens (fun x hx => huniq x (List.mem_cons_of_mem _ hx))
        · have heq : kv = (name, c) := by
            rcases List.mem_cons.mp hm with h | h
            · exact h.symm
            · exact absurd h hin
          subst heq
          refine ⟨s, singleMember_ok hs, ?_⟩
          rw [i2, pyGet?_insert]
          · exact if_pos rfl
          · intro x hx hxe heq2
            have := huniq x (List.mem_cons_of_mem _ hx) hxe heq2
            exact hin (this ▸ hx)
    · rw [if_neg he] at h1
      injection h1 with h1
      subst h1
      obtain ⟨i1, i2, i3⟩ := ih _ _ h hn
      refine ⟨i1, fun name hname => i2 name (fun x hx => hname x (List.mem_cons_of_mem _ hx)), ?_⟩
      intro name c hm hens huniq
      rcases List.mem_cons.mp hm with h | h
      · subst h
        exact absurd ((isEnsemble_iff _ _).mpr hens) he
      · exact i3 name c h hens (fun x hx => huniq x (List.mem_cons_of_mem _ hx))

theorem foldl_insert_other {α : Type} : ∀ (l d : List (String × α)) (k : String), pyGet? k l = none → pyGet? k (l.foldl (fun d ka => pyInsert ka.1 ka.2 d) d) = pyGet? k d := by
  intro l
  induction l with
  | nil => intros; rfl
  | cons x l ih =>
    intro d k h
    rw [pyGet?] at h
    split_ifs at h with hk
    rw [List.foldl_cons, ih _ _ h, pyGet?_insert, if_neg hk]

/-- C86: for every table of configurations, the table that is used has for every ensemble a configuration of its first member, under the name of the member, with the path of the ensemble instead of
that of its mean and all other settings of the mean; every other name keeps its configuration. -/
theorem C86_single_members {table out : List (String × LoaderConfig)} (h : withSingleMembers prefixes table = .ok out) :
    (∀ name c, (name, c) ∈ table → IsEnsemble prefixes name → (∀ kv ∈ table, IsEnsemble prefixes kv.1 → memberName kv.1 = memberName name → kv = (name, c)) →
      ∃ s, FirstMemberOf c s ∧ pyGet? (memberName name) out = some s) ∧
    ∀ name, (∀ kv ∈ table, IsEnsemble prefixes kv.1 → memberName kv.1 ≠ name) → pyGet? name out = pyGet? name table := by
  unfold withSingleMembers at h
  obtain ⟨s, hs, h⟩ := bind_ok_iff.mp h
  injection h with h
  subst h
  obtain ⟨i1, i2, i3⟩ := singleMembers_fold table [] s hs (by simp)
  constructor
  · intro name c hm hens huniq
    obtain ⟨x, hx, hg⟩ := i3 name c hm hens huniq
    exact ⟨x, hx, foldl_insert_get s table _ x i1 (pyGet?_mem hg)⟩
  · intro name hname
    exact foldl_insert_other _ _ _ (i2 name hname)

/-- C86: the table can be made unless an ensemble already has a preprocessing function, which is an `AssertionError`. -/
theorem C86_table_exists (table : List (String × LoaderConfig)) :
    ((∀ kv ∈ table, IsEnsemble prefixes kv.1 → ((kv.2.kwargs.getD {}).preprocess = none)) → ∃ out, withSingleMembers prefixes table = .ok out) ∧
    ((∃ kv ∈ table, IsEnsemble prefixes kv.1 ∧ ((kv.2.kwargs.getD {}).preprocess ≠ none)) → withSingleMembers prefixes table = .error .assertionError) := by
  have key : ∀ (table acc : List (String × LoaderConfig)),
      ((∀ kv ∈ table, IsEnsemble prefixes kv.1 → ((kv.2.kwargs.getD {}).preprocess = none)) → ∃ out, table.foldlM (fun acc kv => (do
        if prefixes.any (fun p => startsWith kv.1 p) then
          let s ← singleMember kv.2
          return pyInsert (replaceText kv.1 "_mean" "_single_member") s acc
        else return acc : Except Err _)) acc = .ok out) ∧
      ((∃ kv ∈ table, IsEnsemble prefixes kv.1 ∧ ((kv.2.kwargs.getD {}).preprocess ≠ none)) → table.foldlM (fun acc kv => (do
        if prefixes.any (fun p => startsWith kv.1 p) then
          let s ← singleMember kv.2
          return pyInsert (replaceText kv.1 "_mean" "_single_member") s acc
        else return acc : Except Err _)) acc = .error .assertionError) := by
    intro table
    induction table with
    | nil => exact fun acc => ⟨fun _ => ⟨acc, rfl⟩, fun ⟨kv, h, _⟩ => absurd h (by simp)⟩
    | cons kv table ih =>
      intro acc
      rw [List.foldlM_cons]
      by_cases he : prefixes.any (fun p => startsWith kv.1 p) = true
      · rw [if_pos he]
        have hens := (isEnsemble_iff _ _).mp he
        by_cases hp : (kv.2.kwargs.getD {}).preprocess = none
        · have hs : ∃ s, singleMember kv.2 = .ok s := by
            unfold singleMember
            rcases hk : kv.2.kwargs with _ | k
            · exact ⟨_, rfl⟩
            · rw [hk] at hp
              dsimp only
              rw [if_neg (by rw [show k.preprocess = none from hp]; simp)]
              exact ⟨_, rfl⟩
          obtain ⟨s, hs⟩ := hs
          rw [hs]
          obtain ⟨j1, j2⟩ := ih (pyInsert (replaceText kv.1 "_mean" "_single_member") s acc)
          refine ⟨fun h => j1 (fun x hx => h x (List.mem_cons_of_mem _ hx)), ?_⟩
          rintro ⟨x, hx, hxe, hxp⟩
          rcases List.mem_cons.mp hx with rfl | hx
          · exact absurd hp hxp
          · exact j2 ⟨x, hx, hxe, hxp⟩
        · have hs : singleMember kv.2 = .error .assertionError := by
            unfold singleMember
            rcases hk : kv.2.kwargs with _ | k
            · rw [hk] at hp
              exact absurd rfl hp
            · rw [hk] at hp
              dsimp only
              exact if_pos (Option.isSome_iff_ne_none.mpr hp)
          rw [hs]
          exact ⟨fun h => absurd (h kv (by simp) hens) hp, fun _ => rfl⟩
      · rw [if_neg he]
        obtain ⟨j1, j2⟩ := ih acc
        refine ⟨fun h => j1 (fun x hx => h x (List.mem_cons_of_mem _ hx)), ?_⟩
        rintro ⟨x, hx, hxe, hxp⟩
        rcases List.mem_cons.mp hx with rfl | hx
        · exact absurd ((isEnsemble_iff _ _).mpr hxe) he
        · exact j2 ⟨x, hx, hxe, hxp⟩
  unfold withSingleMembers singleMembers
  constructor
  · intro h
    obtain ⟨s, hs⟩ := (key table []).1 h
    exact ⟨_, bind_ok_iff.mpr ⟨s, hs, rfl⟩⟩
  · intro h
    rw [(key table []).2 h]
    rfl

/-- C86, finding: the rule for the names presumes `_mean` in them. An ensemble without it loses its own configuration to its single member. -/
theorem C86_name_without_mean :
    ∃ (table out : List (String × LoaderConfig)) (c s : LoaderConfig), withSingleMembers ensemblePrefixes table = .ok out ∧ pyGet? "ens_64x32_2020" table = some c ∧
      pyGet? "ens_64x32_2020" out = some s ∧ c.kwargs = none ∧ s.kwargs = some { preprocess := some .firstMember } :=
  ⟨[("ens_64x32_2020", ⟨"ens.zarr", ["t"], none, none⟩)], [("ens_64x32_2020", ⟨"ens.zarr", ["t"], none, some { preprocess := some .firstMember }⟩)],
    ⟨"ens.zarr", ["t"], none, none⟩, ⟨"ens.zarr", ["t"], none, some { preprocess := some .firstMember }⟩, by decide +kernel, by decide +kernel, by decide +kernel, rfl, rfl⟩

/-! ### Non-vacuity -/

/-- The name of the single member of the ECMWF ensemble. -/
example : replaceText ("ens" ++ "_mean" ++ "_64x32_2018") "_mean" "_single_member" = "ens" ++ "_single_member" ++ "_64x32_2018" :=
  C86_replace (by decide) (by unfold NotWithin; decide) (by unfold NotWithin; decide)

/-- A table with an ensemble mean and another forecast. -/
def exConfigs : List (String × LoaderConfig) := [("hres_a", ⟨"hres.zarr", ["t"], none, none⟩), ("ens_mean_a", ⟨"ens_mean.zarr", ["t"], some [500], none⟩)]

example : ∃ out, withSingleMembers ensemblePrefixes exConfigs = .ok out ∧ pyGet? "hres_a" out = pyGet? "hres_a" exConfigs ∧
    pyGet? "ens_single_member_a" out = some ⟨"ens.zarr", ["t"], some [500], some { preprocess := some .firstMember }⟩ :=
  ⟨_, rfl, by decide +kernel, by decide +kernel⟩

/-- An ensemble with two members (labels 0 and 1) and a mask without members. -/
def exMembers : Dataset ℕ ℚ :=
  { vars := [("t", { dims := {"number", "x"}, coords := fun _ => {0, 1}, val := fun e => e "number" + 2 * e "x" }), ("land", { dims := {"x"}, coords := fun _ => {0, 1}, val := fun e => e "x" })],
    coords := [("number", {"number"})] }

example : ∃ r, selectFirstMember (fun _ => some 0) exMembers = .ok r ∧ r.vars.map (fun v => (v.1, decide ("number" ∈ v.2.dims), v.2.val (fun _ => 1))) = [("t", false, 2), ("land", false, 1)] := by
  refine ⟨_, rfl, ?_⟩
  simp [exMembers, DA.setLabel]

end WBX.PublicConfigs
