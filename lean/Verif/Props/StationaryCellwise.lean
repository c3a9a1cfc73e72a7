import Verif.Props.StationaryBootstrap
import Verif.Lemmas.MetricAlone
import Verif.Props.Wind

set_option linter.unusedSectionVars false

/-!
# C80, per-variable metrics: the values of the replicates, cell by cell
-/

namespace WBX
open DA

section items
variable {M : Type} {names : List String} {g : List (String × M) → Except Err M} {sv : List (String × Vars M)}

/-- The value of a per-variable metric for one variable, from the mean statistics of this variable. -/
def valueOfVar (names : List String) (g : List (String × M) → Except Err M) (sv : List (String × Vars M)) (v : String) : Except Err M := do
  let perVar ← names.mapM (fun s => do
    let m ← pyItem sv s
    let x ← pyItem m v
    return (s, x))
  g perVar

/-- All statistics have the variable. -/
def CommonVar (names : List String) (sv : List (String × Vars M)) (v : String) : Prop := ∀ s ∈ names, ∃ m x, pyItem sv s = .ok m ∧ pyItem m v = .ok x

theorem pyItem_mapM {F : String → Except Err M} : ∀ {l : List String} {r : Vars M}, l.mapM (fun v => do
    let x ← F v
    return (v, x)) = .ok r → (∀ v ∈ l, pyItem r v = F v) ∧ r.map Prod.fst = l
  | [], r, h => by cases h; simp
  | a :: l, r, h => by
    rw [List.mapM_cons] at h
    obtain ⟨y, hy, h⟩ := bind_ok_iff.mp h
    obtain ⟨ys, hys, h⟩ := bind_ok_iff.mp h
    obtain ⟨x, hx, hy⟩ := bind_ok_iff.mp hy
    cases hy
    cases h
    obtain ⟨h1, h2⟩ := pyItem_mapM hys
    refine ⟨?_, by simp [h2]⟩
    intro v hv
    by_cases hva : a = v
    · subst hva
      unfold pyItem pyGet?
      simp [hx]
    · have : v ∈ l := by
        rcases List.mem_cons.mp hv with rfl | hv
        · exact absurd rfl hva
        · exact hv
      rw [← h1 v this]
      unfold pyItem
      rw [pyGet?, if_neg hva]

theorem mem_keys_iff {β : Type} {m : Vars β} {v : String} : v ∈ m.map Prod.fst ↔ ∃ x, pyItem m v = .ok x := by
  unfold pyItem
  cases h : pyGet? v m with
  | none =>
    have := (pyGet?_none_iff v m).mp h
    simp [this]
  | some x =>
    refine ⟨fun _ => ⟨x, rfl⟩, fun _ => ?_⟩
    exact List.mem_map.mpr ⟨_, pyGet?_mem h, rfl⟩

theorem common_mem {vs : List (Vars M)} (hvs : names.mapM (pyItem sv) = .ok vs) {common : List String} (hc : commonVariables vs = .ok common) (v : String) : v ∈ common ↔ CommonVar names sv v := by
  have hall : v ∈ common ↔ ∀ m ∈ vs, v ∈ m.map Prod.fst := by
    cases vs with
    | nil => cases hc
    | cons m ms =>
      cases hc
      simp only [List.mem_filter, List.all_eq_true, decide_eq_true_eq, List.forall_mem_cons]
  rw [hall]
  constructor
  · intro h s hs
    obtain ⟨m, hm, hsm⟩ := mapM_mem _ _ _ hvs s hs
    obtain ⟨x, hx⟩ := mem_keys_iff.mp (h m hm)
    exact ⟨m, x, hsm, hx⟩
  · intro h m hm
    obtain ⟨s, hs, hsm⟩ := mapM_out_mem hvs m hm
    obtain ⟨m', x, hm', hx⟩ := h s hs
    rw [hsm] at hm'
    obtain rfl := Except.ok.inj hm'
    exact mem_keys_iff.mpr ⟨x, hx⟩

theorem perVariableValues_eq (names : List String) (g : List (String × M) → Except Err M) (sv : List (String × Vars M)) : perVariableValues names g sv = (do
    let vs ← names.mapM (pyItem sv)
    let common ← commonVariables vs
    common.mapM (fun v => do
      let x ← valueOfVar names g sv v
      return (v, x)) : Except Err _) := by
  unfold perVariableValues valueOfVar
  simp only [bind_assoc]

theorem perVariable_item {values : Vars M} (h : perVariableValues names g sv = .ok values) {v : String} : (∃ x, pyItem values v = .ok x) ↔ CommonVar names sv v := by
  rw [perVariableValues_eq] at h
  obtain ⟨vs, hvs, h⟩ := bind_ok_iff.mp h
  obtain ⟨common, hc, h⟩ := bind_ok_iff.mp h
  obtain ⟨_, h2⟩ := pyItem_mapM h
  rw [← common_mem hvs hc, ← h2, mem_keys_iff]

theorem perVariable_value {values : Vars M} (h : perVariableValues names g sv = .ok values) {v : String} (hv : CommonVar names sv v) : pyItem values v = valueOfVar names g sv v := by
  rw [perVariableValues_eq] at h
  obtain ⟨vs, hvs, h⟩ := bind_ok_iff.mp h
  obtain ⟨common, hc, h⟩ := bind_ok_iff.mp h
  exact (pyItem_mapM h).1 v ((common_mem hvs hc v).mpr hv)

theorem perVariable_ok (hnames : names ≠ []) (hall : ∀ s ∈ names, ∃ m, pyItem sv s = .ok m) (hg : ∀ v, CommonVar names sv v → ∃ r, valueOfVar names g sv v = .ok r) :
    ∃ values, perVariableValues names g sv = .ok values := by
  rw [perVariableValues_eq]
  obtain ⟨vs, hvs⟩ := mapM_ok_of_mem _ names hall
  obtain ⟨common, hc⟩ : ∃ common, commonVariables vs = .ok common := by
    cases vs with
    | nil =>
      cases names with
      | nil => exact absurd rfl hnames
      | cons s names =>
        obtain ⟨m, hm, _⟩ := mapM_mem _ _ _ hvs s (by simp)
        cases hm
    | cons => exact ⟨_, rfl⟩
  obtain ⟨values, hv⟩ := mapM_ok_of_mem (fun v => do
      let x ← valueOfVar names g sv v
      return (v, x) : String → Except Err (String × M)) common (by
    intro v hv
    obtain ⟨r, hr⟩ := hg v ((common_mem hvs hc v).mp hv)
    exact ⟨(v, r), bind_ok_iff.mpr ⟨r, hr, rfl⟩⟩)
  exact ⟨values, bind_ok_iff.mpr ⟨vs, hvs, bind_ok_iff.mpr ⟨common, hc, hv⟩⟩⟩

/-- The statistics restricted to one variable, as `StationaryBootstrap` does it. -/
def onlyVar {β : Type} (v : String) (sv : List (String × Vars β)) : List (String × Vars β) := sv.map (fun s => (s.1, ((pyGet? v s.2).map (fun x => (v, x))).toList))

theorem onlyVar_item {β : Type} (v : String) (sv : List (String × Vars β)) (s : String) :
    pyGet? s (onlyVar v sv) = (pyGet? s sv).map (fun m => ((pyGet? v m).map (fun x => (v, x))).toList) :=
  pyGet?_map (fun m : Vars β => ((pyGet? v m).map (fun x => (v, x))).toList) sv s

/-- The shortcut for several variables does not change the result: for a per-variable metric, the value of a variable is the same from the statistics of this variable alone. -/
theorem C80_single_variable {values : Vars M} {v : String} {r : M} (h : perVariableValues names g sv = .ok values) (hr : pyItem values v = .ok r) :
    ∃ values', perVariableValues names g (onlyVar v sv) = .ok values' ∧ pyItem values' v = .ok r := by
  have hv := (perVariable_item h).mp ⟨r, hr⟩
  have hval := perVariable_value h hv
  rw [hr] at hval
  have hitem : ∀ s ∈ names, ∃ m x, pyItem sv s = .ok m ∧ pyItem m v = .ok x ∧ pyItem (onlyVar v sv) s = .ok [(v, x)] := by
    intro s hs
    obtain ⟨m, x, hm, hx⟩ := hv s hs
    refine ⟨m, x, hm, hx, ?_⟩
    unfold pyItem at hm hx ⊢
    rw [onlyVar_item]
    cases hm' : pyGet? s sv with
    | none => rw [hm'] at hm; cases hm
    | some m' =>
      rw [hm'] at hm
      cases hm
      cases hx' : pyGet? v m with
      | none => rw [hx'] at hx; cases hx
      | some x' =>
        rw [hx'] at hx
        cases hx
        simp [hx']
  have hpv : ∀ w, CommonVar names (onlyVar v sv) w → names ≠ [] → w = v := by
    intro w hw hne
    cases names with
    | nil => exact absurd rfl hne
    | cons s names =>
      obtain ⟨m, x, hm, hx⟩ := hw s (by simp)
      obtain ⟨_, x', _, _, h3⟩ := hitem s (by simp)
      rw [h3] at hm
      cases hm
      have := pyItem_mem hx
      simp only [List.mem_singleton, Prod.mk.injEq] at this
      exact this.1
  have hsame : valueOfVar names g (onlyVar v sv) v = valueOfVar names g sv v := by
    unfold valueOfVar
    congr 1
    apply mapM_ok_congr
    intro s hs
    obtain ⟨m, x, h1, h2, h3⟩ := hitem s hs
    rw [h1, h3]
    show (do
      let x ← pyItem [(v, x)] v
      return (s, x) : Except Err _) = (do
      let x ← pyItem m v
      return (s, x) : Except Err _)
    rw [h2]
    simp [pyItem, pyGet?]
  have hne : names ≠ [] := by
    rintro rfl
    rw [perVariableValues_eq] at h
    obtain ⟨vs, hvs, h⟩ := bind_ok_iff.mp h
    obtain ⟨common, hc, h⟩ := bind_ok_iff.mp h
    cases hvs
    cases hc
  obtain ⟨values', hok⟩ := perVariable_ok (g := g) (sv := onlyVar v sv) hne (fun s hs => by
    obtain ⟨_, x, _, _, h3⟩ := hitem s hs
    exact ⟨_, h3⟩) (by
    intro w hw
    obtain rfl := hpv w hw hne
    exact ⟨r, by rw [hsame, ← hval]⟩)
  refine ⟨values', hok, ?_⟩
  rw [perVariable_value hok, hsame, ← hval]
  intro s hs
  obtain ⟨_, x, _, _, h3⟩ := hitem s hs
  exact ⟨_, x, h3, by simp [pyItem, pyGet?]⟩

end items

section cellwise
variable {L D : Type} [DecidableEq L] [Inhabited L] {o : StationaryOptions L} {n : ℕ} {var : String} {dims : List Dim} {labels : Dim → List L} {args : SliceArgs L}
  {statistics : List (String × Statistic D (Option (StatVar L (FV ℝ))))} {g : List (String × DA L (FV ℝ)) → Except Err (DA L (FV ℝ))} {h : List (String × FV ℝ) → FV ℝ}

/-- The function of the mean statistics is computed cell by cell with `h`. -/
def Cellwise (names : List String) (g : List (String × DA L (FV ℝ)) → Except Err (DA L (FV ℝ))) (h : List (String × FV ℝ) → FV ℝ) : Prop :=
  ∀ (xs : List (String × DA L (FV ℝ))) (shape : Finset Dim) (C : Dim → Finset L), xs.map Prod.fst = names → (∀ x ∈ xs, x.2.dims = shape ∧ ∀ d ∈ shape, x.2.coords d = C d) →
    ∃ r, g xs = .ok r ∧ r.dims = shape ∧ (∀ d ∈ shape, r.coords d = C d) ∧ ∀ e, r.val e = h (xs.map (fun x => (x.1, x.2.val e)))

/-- All arrays have the unit dimension and the dimensions `dims`, with the same labels. -/
structure PlainArgs (o : StationaryOptions L) (n : ℕ) (names : List String) (var : String) (dims : List Dim) (labels : Dim → List L) (args : SliceArgs L) : Prop where
  draws : ValidDraws o n
  nodup : dims.Nodup
  unit : o.unitDim ∉ dims
  replicate : replicateDim ∉ dims ∧ replicateDim ≠ o.unitDim
  distinct : ∀ d ∈ dims, labels d ≠ [] ∧ (labels d).Nodup
  enough : o.meanBlockLength.isSome ∨ 8 ≤ n
  arrays : ∀ a ∈ args.leaves, a.arr.dims = insert o.unitDim dims.toFinset ∧ (∀ d ∈ dims, a.order d = labels d) ∧ (a.order o.unitDim).length = n
  tangents : args.tangents.arr.WF
  some : names ≠ []
  statistics : ∀ s ∈ names, ∃ vars x, pyItem args.table s = .ok vars ∧ pyItem vars var = .ok x

/-- The mean statistics of the replicate `e replicateDim` at the cell `e`. -/
def MeansAt (o : StationaryOptions L) (names : List String) (var : String) (table : OrderedTable L) (indices : L → List ℕ) (e : Dim → L) (cells : List (String × FV ℝ)) : Prop :=
  List.Forall₂ (fun s x => x.1 = s ∧ ∃ vars X W, pyItem table s = .ok vars ∧ pyItem vars var = .ok (X, W) ∧
    x.2 = resampledMean (series o.unitDim X e) (series o.unitDim W e) (indices (e replicateDim))) names cells

theorem pyItem_map {α β : Type} (f : α → β) (l : Vars α) (k : String) : pyItem (l.map (fun x => (x.1, f x.2))) k = (pyItem l k).map f := by
  unfold pyItem
  rw [pyGet?_map f l k]
  cases pyGet? k l <;> rfl

theorem resampledMeans_item {d : Dim} {replicates : Finset L} {indices : L → List ℕ} {table : OrderedTable L} {c : Dim → L} {s : String} :
    pyItem (resampledMeans d replicates indices (table.map (fun sv => (sv.1, sv.2.map (fun v => (v.1, Ordered.at dims c v.2.1, Ordered.at dims c v.2.2)))))) s =
      (pyItem table s).map (fun vars => vars.map (fun v => (v.1, zipWith (· / ·) (resampledArray d replicates indices (Ordered.at dims c v.2.1)) (resampledArray d replicates indices (Ordered.at dims c v.2.2))))) := by
  unfold resampledMeans
  rw [List.map_map]
  refine Eq.trans ?_ (pyItem_map (fun vars : Vars (Ordered L (FV ℝ) × Ordered L (FV ℝ)) => vars.map (fun v => (v.1, zipWith (· / ·) (resampledArray d replicates indices (Ordered.at dims c v.2.1)) (resampledArray d replicates indices (Ordered.at dims c v.2.2))))) table s)
  congr 1
  apply List.map_congr_left
  intro sv _
  simp only [Function.comp_def, List.map_map]

theorem mapM_names {M : Type} {F : String → Except Err M} : ∀ {l : List String}, (∀ s ∈ l, ∃ x, F s = .ok x) → ∃ r, l.mapM (fun s => do
    let x ← F s
    return (s, x)) = .ok r ∧ r.map Prod.fst = l ∧ List.Forall₂ (fun s x => x.1 = s ∧ F s = .ok x.2) l r
  | [], _ => ⟨[], rfl, rfl, .nil⟩
  | s :: l, h => by
    obtain ⟨x, hx⟩ := h s (by simp)
    obtain ⟨r, h1, h2, h3⟩ := mapM_names (F := F) (l := l) (fun s hs => h s (by simp [hs]))
    refine ⟨(s, x) :: r, ?_, by simp [h2], .cons ⟨rfl, hx⟩ h3⟩
    rw [List.mapM_cons]
    exact bind_ok_iff.mpr ⟨(s, x), bind_ok_iff.mpr ⟨x, hx, rfl⟩, bind_ok_iff.mpr ⟨r, h1, rfl⟩⟩

theorem leaf_dims (hp : PlainArgs o n (statistics.map Prod.fst) var dims labels args) {indices : L → List ℕ} {c : Dim → L} {X W : Ordered L (FV ℝ)} (hX : X ∈ args.leaves) (hW : W ∈ args.leaves) :
    (zipWith (· / ·) (resampledArray o.unitDim o.replicates indices (X.at dims c)) (resampledArray o.unitDim o.replicates indices (W.at dims c))).dims = dims.toFinset ∪ {replicateDim} ∧
    ∀ d ∈ dims.toFinset ∪ {replicateDim}, (zipWith (· / ·) (resampledArray o.unitDim o.replicates indices (X.at dims c)) (resampledArray o.unitDim o.replicates indices (W.at dims c))).coords d =
      if d = replicateDim then o.replicates else {c d} := by
  have hd : ∀ a ∈ args.leaves, (resampledArray o.unitDim o.replicates indices (a.at dims c)).dims = dims.toFinset ∪ {replicateDim} ∧
      ∀ d ∈ dims.toFinset ∪ {replicateDim}, (resampledArray o.unitDim o.replicates indices (a.at dims c)).coords d = if d = replicateDim then o.replicates else {c d} := by
    intro a ha
    constructor
    · show insert replicateDim (a.arr.dims.erase o.unitDim) = _
      rw [(hp.arrays a ha).1, Finset.erase_insert (by simpa using hp.unit), Finset.union_comm]
      rfl
    · intro d hd
      show (if d = replicateDim then o.replicates else (a.at dims c).arr.coords d) = _
      by_cases hr : d = replicateDim
      · rw [if_pos hr, if_pos hr]
      · rw [if_neg hr, if_neg hr]
        have hd : d ∈ dims := by simpa [hr] using hd
        show (if d ∈ a.arr.dims ∧ d ∈ dims then {c d} else a.arr.coords d) = _
        rw [if_pos ⟨by rw [(hp.arrays a ha).1]; simp [hd], hd⟩]
  obtain ⟨hx1, hx2⟩ := hd X hX
  obtain ⟨hw1, hw2⟩ := hd W hW
  refine ⟨?_, ?_⟩
  · show _ ∪ _ = _
    rw [hx1, hw1, Finset.union_self]
  · intro d hd
    show joinCoords _ _ d = _
    unfold joinCoords
    rw [hx1, hw1, hx2 d hd, hw2 d hd]
    simp [hd]

/-- One call of a cellwise metric for one slice. -/
theorem cellwise_call (hg : Cellwise (statistics.map Prod.fst) g h) (hp : PlainArgs o n (statistics.map Prod.fst) var dims labels args) (indices : L → List ℕ) (c : Dim → L) :
    ∃ values r, (perVariableMetric statistics g).valuesFromMeanStatistics (resampledMeans o.unitDim o.replicates indices (args.map (Ordered.at dims c)).table) = .ok values ∧
      pyItem values var = .ok r ∧ SliceResult dims {replicateDim} (fun _ => o.replicates) c r ∧
      ∀ e, ∃ cells, MeansAt o (statistics.map Prod.fst) var args.table indices e cells ∧ r.val e = h cells := by
  set means := resampledMeans o.unitDim o.replicates indices (args.map (Ordered.at dims c)).table with hmeans
  have hitem : ∀ s, pyItem means s = (pyItem args.table s).map (fun vars => vars.map (fun v => (v.1, zipWith (· / ·) (resampledArray o.unitDim o.replicates indices (Ordered.at dims c v.2.1))
      (resampledArray o.unitDim o.replicates indices (Ordered.at dims c v.2.2))))) := fun s => resampledMeans_item
  -- the arrays of a common variable
  have hvar : ∀ v, CommonVar (statistics.map Prod.fst) means v → ∀ s ∈ statistics.map Prod.fst, ∃ vars X W, pyItem args.table s = .ok vars ∧ pyItem vars v = .ok (X, W) ∧
      X ∈ args.leaves ∧ W ∈ args.leaves ∧ (do
        let m ← pyItem means s
        let x ← pyItem m v
        return x : Except Err _) =
          .ok (zipWith (· / ·) (resampledArray o.unitDim o.replicates indices (X.at dims c)) (resampledArray o.unitDim o.replicates indices (W.at dims c))) := by
    intro v hv s hs
    obtain ⟨m, x, hm, hx⟩ := hv s hs
    rw [hitem] at hm
    cases hvars : pyItem args.table s with
    | error err => rw [hvars] at hm; cases hm
    | ok vars =>
      rw [hvars] at hm
      obtain rfl := Except.ok.inj hm
      rw [pyItem_map (fun v : Ordered L (FV ℝ) × Ordered L (FV ℝ) => zipWith (· / ·) (resampledArray o.unitDim o.replicates indices (Ordered.at dims c v.1)) (resampledArray o.unitDim o.replicates indices (Ordered.at dims c v.2))) vars v] at hx
      cases hXW : pyItem vars v with
      | error err => rw [hXW] at hx; cases hx
      | ok XW =>
        obtain ⟨X, W⟩ := XW
        refine ⟨vars, X, W, rfl, hXW, ?_, ?_, ?_⟩
        · exact (mem_leaves (pyItem_mem hvars) (pyItem_mem hXW)).1
        · exact (mem_leaves (pyItem_mem hvars) (pyItem_mem hXW)).2
        · rw [hitem, hvars]
          refine bind_ok_iff.mpr ⟨_, rfl, ?_⟩
          refine Eq.trans (pyItem_map (fun v : Ordered L (FV ℝ) × Ordered L (FV ℝ) => zipWith (· / ·) (resampledArray o.unitDim o.replicates indices (Ordered.at dims c v.1)) (resampledArray o.unitDim o.replicates indices (Ordered.at dims c v.2))) vars v) ?_
          rw [hXW]; rfl
  have hone : ∀ v, CommonVar (statistics.map Prod.fst) means v → ∃ r, valueOfVar (statistics.map Prod.fst) g means v = .ok r ∧ SliceResult dims {replicateDim} (fun _ => o.replicates) c r ∧
      ∀ e, ∃ cells, MeansAt o (statistics.map Prod.fst) v args.table indices e cells ∧ r.val e = h cells := by
    intro v hv
    obtain ⟨xs, h1, h2, h3⟩ := mapM_names (F := fun s => (do
        let m ← pyItem means s
        let x ← pyItem m v
        return x : Except Err _)) (l := statistics.map Prod.fst) (fun s hs => by
      obtain ⟨vars, X, W, _, _, _, _, hx⟩ := hvar v hv s hs
      exact ⟨_, hx⟩)
    obtain ⟨r, hr1, hr2, hr3, hr4⟩ := hg xs (dims.toFinset ∪ {replicateDim}) (fun d => if d = replicateDim then o.replicates else {c d}) h2 (by
      intro x hx
      obtain ⟨s, hs, _, hsx⟩ := forall₂_mem_right h3 hx
      obtain ⟨vars, X, W, _, _, hX, hW, hsx'⟩ := hvar v hv s hs
      rw [hsx'] at hsx
      rw [← Except.ok.inj hsx]
      exact leaf_dims hp hX hW)
    refine ⟨r, ?_, ⟨hr2, ?_, ?_⟩, ?_⟩
    · unfold valueOfVar
      refine bind_ok_iff.mpr ⟨xs, ?_, hr1⟩
      rw [← h1]
      congr 1
      funext s
      simp only [bind_assoc, pure_bind]
    · intro d hd
      rw [hr3 d (by simp [hd]), if_neg]
      rintro rfl
      exact hp.replicate.1 hd
    · intro d hd
      obtain rfl := Finset.mem_singleton.mp hd
      exact ⟨hp.replicate.1, by rw [hr3 _ (by simp), if_pos rfl]⟩
    · intro e
      refine ⟨xs.map (fun x => (x.1, x.2.val e)), ?_, hr4 e⟩
      unfold MeansAt
      rw [List.forall₂_map_right_iff]
      refine forall₂_imp_mem h3 ?_
      rintro s hs x ⟨hx1, hx2⟩
      obtain ⟨vars, X, W, hv1, hv2, _, _, hsx⟩ := hvar v hv s hs
      refine ⟨hx1, vars, X, W, hv1, hv2, ?_⟩
      rw [hsx] at hx2
      rw [← Except.ok.inj hx2]
      show sumResampled (series o.unitDim (X.at dims c) e) _ / sumResampled (series o.unitDim (W.at dims c) e) _ = _
      rw [series_at X hp.unit, series_at W hp.unit]
      rfl
  have hcv : CommonVar (statistics.map Prod.fst) means var := by
    intro s hs
    obtain ⟨vars, x, hv, hx⟩ := hp.statistics s hs
    refine ⟨_, zipWith (· / ·) (resampledArray o.unitDim o.replicates indices (x.1.at dims c)) (resampledArray o.unitDim o.replicates indices (x.2.at dims c)), by rw [hitem, hv]; rfl, ?_⟩
    refine Eq.trans (pyItem_map (fun v : Ordered L (FV ℝ) × Ordered L (FV ℝ) => zipWith (· / ·) (resampledArray o.unitDim o.replicates indices (Ordered.at dims c v.1)) (resampledArray o.unitDim o.replicates indices (Ordered.at dims c v.2))) vars var) ?_
    rw [hx]; rfl
  obtain ⟨values, hvalues⟩ := perVariable_ok (g := g) (sv := means) hp.some (fun s hs => by
    obtain ⟨m, _, hm, _⟩ := hcv s hs
    exact ⟨m, hm⟩) (fun v hv => by
    obtain ⟨r, hr, _⟩ := hone v hv
    exact ⟨r, hr⟩)
  obtain ⟨r, hr, h2, h3⟩ := hone var hcv
  exact ⟨values, r, hvalues, by rw [perVariable_value hvalues hcv, hr], h2, h3⟩

/-- A metric that is computed cell by cell from statistics which all have the unit dimension and the dimensions of the metric can be resampled. -/
theorem cellwise_resamplable (hg : Cellwise (statistics.map Prod.fst) g h) (hp : PlainArgs o n (statistics.map Prod.fst) var dims labels args) :
    Resamplable o n (perVariableMetric statistics g) var dims labels {replicateDim} (fun _ => o.replicates) args where
  draws := hp.draws
  nodup := hp.nodup
  unit := hp.unit
  same := ⟨fun d hd => ⟨args.tangents, by simp [SliceArgs.leaves], by rw [(hp.arrays _ (by simp [SliceArgs.leaves])).1]; simp [hd]⟩, fun d hd a ha _ => (hp.arrays a ha).2.1 d hd⟩
  distinct := hp.distinct
  units := fun a ha => ⟨by rw [(hp.arrays a ha).1]; simp, (hp.arrays a ha).2.2⟩
  tangents := ⟨(hp.arrays _ (by simp [SliceArgs.leaves])).1, hp.tangents⟩
  enough := hp.enough
  keeps := fun indices c _ => by
    obtain ⟨values, r, h1, h2, h3, _⟩ := cellwise_call hg hp indices c
    exact ⟨values, r, h1, h2, h3⟩

/-- With a given mean block length, for a metric that is computed cell by cell: every cell of every replicate is the value of the metric for the means of the statistics over the units at
the positions of this replicate, which are the same for all cells, statistics, variables and metrics. The result has the dimensions of the metric and the one of the replicates. -/
theorem C80_cells {b : ℝ} (hb : o.meanBlockLength = some b) (hsize : 1 ≤ o.cacheSize) (hg : Cellwise (statistics.map Prod.fst) g h) {estimates : Vars (List Dim)} {tangents : Vars (Ordered L (FV ℝ))}
    {table selected : OrderedTable L} {name : String} (hsel : selectStatistics (perVariableMetric statistics g) table = .ok selected)
    {labelsOf : String → Dim → List L} (hp : ∀ est ∈ estimates, ∃ t, pyItem tangents est.1 = .ok t ∧
      PlainArgs o n (statistics.map Prod.fst) est.1 est.2 (labelsOf est.1) { tangents := t, table := statisticsForVariable (decide (estimates.length ≤ 1)) est.1 selected }) :
    ∃ results, stationaryBootstrap o [(name, perVariableMetric statistics g, estimates, tangents)] table = .ok [(name, results)] ∧
      List.Forall₂ (fun est x => x.1 = est.1 ∧ x.2.dims = est.2.toFinset ∪ {replicateDim} ∧ x.2.coords replicateDim = o.replicates ∧ (∀ d ∈ est.2, x.2.coords d = (labelsOf est.1 d).toFinset) ∧
        ∀ e : Dim → L, (∀ d ∈ est.2, e d ∈ labelsOf est.1 d) → ∃ cells, x.2.val e = h cells ∧
          MeansAt o (statistics.map Prod.fst) est.1 (statisticsForVariable (decide (estimates.length ≤ 1)) est.1 selected) (o.sample 0 (n, b)) e cells) estimates results := by
  have hm : ∀ m ∈ [(name, (perVariableMetric statistics g, estimates, tangents))], MetricResamplable o n table m.2 := by
    intro m hm
    obtain rfl := List.mem_singleton.mp hm
    refine ⟨⟨selected, hsel⟩, fun est hest => ?_⟩
    obtain ⟨t, ht, hpl⟩ := hp est hest
    exact ⟨_, labelsOf est.1, _, _, ⟨selected, t, hsel, ht, rfl⟩, cellwise_resamplable hg hpl⟩
  obtain ⟨r, hr, hall⟩ := C80_shared hm hb hsize
  cases hall with
  | @cons _ x _ xs h1 h2 =>
    cases h2
    obtain ⟨xn, results⟩ := x
    obtain ⟨rfl, h1⟩ := h1
    refine ⟨results, hr, ?_⟩
    refine forall₂_imp_mem h1 ?_
    rintro est hest y ⟨hy, args, labels, rest, restLabels, ⟨selected', t, hsel', ht, rfl⟩, hsame, hA⟩
    rw [hsel] at hsel'
    obtain rfl := Except.ok.inj hsel'
    obtain ⟨t', ht', hpl⟩ := hp est hest
    set labels' := labelsOf est.1 with hlabels'
    rw [ht] at ht'
    obtain rfl := Except.ok.inj ht'
    -- a cell, to know the shape of the results
    obtain ⟨c, hc⟩ : ∃ c : Dim → L, ∀ d ∈ est.2, c d ∈ labels' d := ⟨fun d => (labels' d).headD default, fun d hd => by
      have := (hpl.distinct d hd).1
      cases hl : labels' d with
      | nil => exact absurd hl this
      | cons l ls => simp [hl]⟩
    have hlab : ∀ d ∈ est.2, labels d = labels' d := fun d hd => by
      have h1 := hsame.labels d hd t (by simp [SliceArgs.leaves]) (by rw [(hpl.arrays t (by simp [SliceArgs.leaves])).1]; simp [hd])
      rw [← h1, (hpl.arrays t (by simp [SliceArgs.leaves])).2.1 d hd]
    have hcell : ∀ e : Dim → L, (∀ d ∈ est.2, e d ∈ labels' d) → ∃ r, SliceResult est.2 {replicateDim} (fun _ => o.replicates) e r ∧ y.2.val e = r.val e ∧
        ∃ cells, MeansAt o (statistics.map Prod.fst) est.1 (statisticsForVariable (decide (estimates.length ≤ 1)) est.1 selected) (o.sample 0 (n, b)) e cells ∧ r.val e = h cells := by
      intro e he
      obtain ⟨r, ⟨length, indices, _, ⟨rfl, rfl⟩, ⟨values, hv, hvr⟩, _⟩, hval⟩ := hA.value e (fun d hd => by rw [hlab d hd]; exact he d hd)
      obtain ⟨values', r', hv', hvr', hsl, hcells⟩ := cellwise_call hg hpl (o.sample 0 (n, length)) e
      rw [hv] at hv'
      obtain rfl := Except.ok.inj hv'
      rw [hvr] at hvr'
      obtain rfl := Except.ok.inj hvr'
      exact ⟨r, hsl, hval, hcells e⟩
    obtain ⟨r, ⟨length, indices, _, ⟨rfl, rfl⟩, ⟨values, hv, hvr⟩, hsl⟩, _⟩ := hA.value c (fun d hd => by rw [hlab d hd]; exact hc d hd)
    obtain ⟨values', r', hv', hvr', hsl', _⟩ := cellwise_call hg hpl (o.sample 0 (n, length)) c
    rw [hv] at hv'
    obtain rfl := Except.ok.inj hv'
    rw [hvr] at hvr'
    obtain rfl := Except.ok.inj hvr'
    have hshape : est.2.toFinset ∪ rest = est.2.toFinset ∪ {replicateDim} := by rw [← hsl.shape, hsl'.shape]
    have hrest : replicateDim ∈ rest := by
      have : replicateDim ∈ est.2.toFinset ∪ rest := by rw [hshape]; simp
      simpa [hpl.replicate.1] using this
    refine ⟨hy, by rw [hA.shape, hshape], by rw [hA.others _ hrest, ← (hsl.others _ hrest).2, (hsl'.others replicateDim (by simp)).2], fun d hd => by rw [hA.sliced d hd, hlab d hd], ?_⟩
    intro e he
    obtain ⟨r, _, h1, cells, h2, h3⟩ := hcell e he
    exact ⟨cells, by rw [h1, h3], h2⟩

/-- `RMSE` is computed cell by cell. -/
theorem cellwise_rmse : Cellwise (L := L) ["SquaredError"] (fun xs => do
    let x ← pyItem xs "SquaredError"
    return x.map FV.sqrt) (fun cells => ((cells.map Prod.snd).headD .nan).sqrt) := by
  intro xs shape C hx hs
  obtain ⟨x, rfl⟩ : ∃ x, xs = [x] := by
    have := congrArg List.length hx
    rw [List.length_map] at this
    exact List.length_eq_one_iff.mp this
  · simp only [List.map_cons, List.map_nil, List.cons.injEq, and_true] at hx
    obtain ⟨h1, h2⟩ := hs x (by simp)
    refine ⟨x.2.map FV.sqrt, bind_ok_iff.mpr ⟨x.2, by simp [pyItem, pyGet?, hx], rfl⟩, h1, h2, fun e => rfl⟩

end cellwise

section example_
/-- Three initial times and two lead times; the positions of every replicate are 0, 1, 1. -/
noncomputable def exStationary : StationaryOptions ℕ where
  unitDim := "init_time"
  replicates := {7, 8}
  meanBlockLength := some 2
  resolution := none
  cacheSize := 1
  arch := fun _ => 0
  round := fun _ => 0
  draws := fun _ n _ => (0, List.replicate (n - 1) (0, 1))

/-- An array of initial and lead times. -/
noncomputable def exByInit (f : ℕ → ℕ → ℝ) : Ordered ℕ (FV ℝ) where
  arr := { dims := {"init_time", "lead_time"}, coords := fun d => if d = "init_time" then {0, 1, 2} else {0, 6}, val := fun e => .fin (f (e "init_time") (e "lead_time")) }
  order := fun d => if d = "init_time" then [0, 1, 2] else [0, 6]

/-- Sums of squared errors and weights. -/
noncomputable def exByInitTable : OrderedTable ℕ := [("SquaredError", [("t", (exByInit (fun i l => i + l), exByInit (fun _ _ => 2)))])]

theorem exByInit_plain : PlainArgs exStationary 3 ["SquaredError"] "t" ["lead_time"] (fun _ => [0, 6]) { tangents := exByInit (fun i l => i * l), table := exByInitTable } where
  draws := by intro k b; simp [exStationary]
  nodup := by simp
  unit := by simp [exStationary]
  replicate := by simp [replicateDim, exStationary]
  distinct := by simp
  enough := by left; rfl
  arrays := by
    have h : ∀ f, (exByInit f).arr.dims = insert exStationary.unitDim ["lead_time"].toFinset ∧ (∀ d ∈ ["lead_time"], (exByInit f).order d = [0, 6]) ∧ ((exByInit f).order exStationary.unitDim).length = 3 := by
      intro f
      simp [exByInit, exStationary]
    intro a ha
    simp only [SliceArgs.leaves, exByInitTable, List.flatMap_cons, List.map_cons, List.map_nil, List.flatMap_nil, List.append_nil, List.cons_append, List.nil_append, List.mem_cons, List.not_mem_nil, or_false] at ha
    rcases ha with rfl | rfl | rfl
    · exact h _
    · exact h _
    · exact h _
  tangents := by
    intro e e' he
    have h1 := he "init_time" (by simp [exByInit])
    have h2 := he "lead_time" (by simp [exByInit])
    simp only [exByInit, h1, h2]
  some := by simp
  statistics := by
    intro s hs
    obtain rfl := List.mem_singleton.mp hs
    refine ⟨[("t", (exByInit (fun i l => i + l), exByInit (fun _ _ => 2)))], (exByInit (fun i l => i + l), exByInit (fun _ _ => 2)), ?_, ?_⟩
    · simp [exByInitTable, pyItem, pyGet?]
    · simp [pyItem, pyGet?]

/-- The replicate 7 of `RMSE` at lead time 6: the initial times 0, 1 and 1. -/
example : ∃ R, stationaryBootstrap exStationary [("rmse", rmse, [("t", ["lead_time"])], [("t", exByInit (fun i l => i * l))])] exByInitTable = .ok [("rmse", [("t", R)])] ∧
    R.val (fun d => if d = "lead_time" then 6 else 7) = FV.sqrt (.fin (20 / 6)) := by
  have hsel : selectStatistics (rmse (L := ℕ)) exByInitTable = .ok exByInitTable := by
    simp [selectStatistics, rmse, perVariableMetric, squaredErrorStatistic, statOf, perVariableStatistic, exByInitTable, pyItem, pyGet?, List.mapM_cons]
  obtain ⟨results, h1, h2⟩ := C80_cells (o := exStationary) (n := 3) (b := 2) (statistics := [("SquaredError", squaredErrorStatistic)]) (table := exByInitTable) (selected := exByInitTable) (name := "rmse")
    (labelsOf := fun _ _ => [0, 6]) (estimates := [("t", ["lead_time"])]) (tangents := [("t", exByInit (fun i l => i * l))]) rfl (by simp [exStationary]) cellwise_rmse hsel (by
      intro est hest
      obtain rfl := List.mem_singleton.mp hest
      exact ⟨exByInit (fun i l => i * l), by simp [pyItem, pyGet?], exByInit_plain⟩)
  cases h2 with
  | @cons _ x _ xs h2 h3 =>
    cases h3
    obtain ⟨xn, R⟩ := x
    obtain ⟨rfl, hd, hc, _, hv⟩ := h2
    refine ⟨R, h1, ?_⟩
    obtain ⟨cells, hcell, hmeans⟩ := hv (fun d => if d = "lead_time" then 6 else 7) (by simp)
    dsimp only at hcell
    rw [hcell]
    cases hmeans with
    | @cons _ c _ cs hc1 hc2 =>
      obtain ⟨_, vars, X, W, hvars, hXW, hval⟩ := hc1
      have h4 : pyItem (statisticsForVariable (decide ([("t", ["lead_time"])].length ≤ 1)) "t" exByInitTable) "SquaredError" =
          .ok [("t", (exByInit (fun i l => i + l), exByInit (fun _ _ => 2)))] := by
        simp [statisticsForVariable, exByInitTable, pyItem, pyGet?]
      rw [h4] at hvars
      obtain rfl := Except.ok.inj hvars
      have h5 : pyItem [("t", (exByInit (fun i l => i + l), exByInit (fun _ _ => 2)))] "t" = .ok (exByInit (fun i l => i + l), exByInit (fun _ _ => 2)) := by simp [pyItem, pyGet?]
      rw [h5] at hXW
      obtain ⟨rfl, rfl⟩ := Prod.mk.inj (Except.ok.inj hXW)
      have h6 : exStationary.sample 0 (3, 2) 7 = [0, 1, 1] := by
        simp [StationaryOptions.sample, exStationary, stationaryIndices]
      have h7 : replicateDim ≠ "lead_time" := by simp [replicateDim]
      simp only [List.map_cons, List.headD_cons, hval, if_neg h7, h6]
      congr 1
      have h8 : "init_time" ≠ "lead_time" := by simp
      simp [resampledMean, sumResampled, series, exByInit, exStationary, setLabel, FV.isnan]
      norm_num
      rw [FV.fin_div_fin_of_ne _ (by norm_num)]
      norm_num

end example_
end WBX
