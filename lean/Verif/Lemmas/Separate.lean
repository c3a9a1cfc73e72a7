import Verif.Spec.Separate
import Verif.Props.MetricsBase
import Verif.Model.OptimalThresholds

namespace WBX
set_option linter.unusedSectionVars false

section lists
variable {α β : Type}

theorem onlyVars_nil (W : String → Bool) : onlyVars W ([] : Vars α) = [] := rfl

theorem onlyVars_cons (W : String → Bool) (k : String) (x : α) (l : Vars α) :
    onlyVars W ((k, x) :: l) = if W k then (k, x) :: onlyVars W l else onlyVars W l := by
  unfold onlyVars
  rw [List.filter_cons]

theorem onlyVars_get (W : String → Bool) (k : String) : (l : Vars α) →
    pyGet? k (onlyVars W l) = if W k then pyGet? k l else none
  | [] => by simp [onlyVars_nil, pyGet?]
  | (k', x) :: l => by
    rw [onlyVars_cons]
    by_cases hk : k' = k
    · subst hk
      by_cases hW : W k' = true
      · simp [hW, pyGet?]
      · rw [if_neg hW, onlyVars_get W k' l, if_neg hW, if_neg hW]
    · by_cases hW : W k' = true
      · rw [if_pos hW, pyGet?, if_neg hk, onlyVars_get W k l, pyGet?, if_neg hk]
      · rw [if_neg hW, onlyVars_get W k l, pyGet?, if_neg hk]

theorem onlyVars_get_in (W : String → Bool) (k : String) (hW : W k = true) (l : Vars α) :
    pyGet? k (onlyVars W l) = pyGet? k l := by rw [onlyVars_get, if_pos hW]

theorem onlyVars_item_in (W : String → Bool) (k : String) (hW : W k = true) (l : Vars α) :
    pyItem (onlyVars W l) k = pyItem l k := by unfold pyItem; rw [onlyVars_get_in W k hW]

theorem onlyVars_keys (W : String → Bool) (l : Vars α) : (onlyVars W l).map Prod.fst = (l.map Prod.fst).filter W := by
  induction l with
  | nil => rfl
  | cons a l ih =>
    rw [show a = (a.1, a.2) from rfl, onlyVars_cons, List.map_cons, List.filter_cons]
    split_ifs <;> simp [ih]

theorem onlyVars_mem {W : String → Bool} {k : String} {x : α} {l : Vars α} :
    (k, x) ∈ onlyVars W l ↔ (k, x) ∈ l ∧ W k = true := by
  simp [onlyVars]

/-- `onlyVars` of a loop that keeps the names. -/
theorem onlyVars_mapM (W : String → Bool) (f g : String × α → Except Err (String × β)) : (l : Vars α) → (r : Vars β) →
    (∀ x ∈ l, ∀ y, f x = .ok y → y.1 = x.1) → (∀ x ∈ l, W x.1 = true → g x = f x) →
    l.mapM f = .ok r → (onlyVars W l).mapM g = .ok (onlyVars W r)
  | [], r, _, _, h => by
    simp only [List.mapM_nil, pure, Except.pure, Except.ok.injEq] at h
    subst h; rfl
  | (k, x) :: l, r, hk, hg, h => by
    rw [List.mapM_cons] at h
    obtain ⟨y, hy, h⟩ := bind_pair_ok _ _ _ h
    obtain ⟨ys, hys, h⟩ := bind_pair_ok _ _ _ h
    simp only [pure, Except.pure, Except.ok.injEq] at h
    subst h
    have ih := onlyVars_mapM W f g l ys (fun x hx => hk x (by simp [hx])) (fun x hx => hg x (by simp [hx])) hys
    have e := hk (k, x) (by simp) y hy
    obtain ⟨k', y'⟩ := y
    simp only at e
    subst e
    rw [onlyVars_cons, onlyVars_cons]
    by_cases hW : W k' = true
    · rw [if_pos hW, if_pos hW, List.mapM_cons, hg (k', x) (by simp) hW, hy, ih]; rfl
    · rw [if_neg hW, if_neg hW, ih]

end lists

section statistics
variable {D S M : Type}

theorem perVariableLoop_only (f : D → D → Except Err (Option S)) (W : String → Bool) (t : Vars D) : (p : Vars D) →
    (r : Vars S) → perVariableLoop f t p = .ok r →
    perVariableLoop f (onlyVars W t) (onlyVars W p) = .ok (onlyVars W r)
  | [], r, h => by
    simp only [perVariableLoop, Except.ok.injEq] at h
    subst h; rfl
  | (v, a) :: p, r, h => by
    rw [onlyVars_cons]
    rw [perVariableLoop] at h
    rcases ht : pyGet? v t with _ | b
    · rw [ht] at h
      have ih := perVariableLoop_only f W t p r h
      by_cases hW : W v = true
      · rw [if_pos hW, perVariableLoop, onlyVars_get_in W v hW, ht]; exact ih
      · rw [if_neg hW]; exact ih
    · rw [ht] at h
      obtain ⟨x, hx, h⟩ := bind_pair_ok _ _ _ h
      obtain ⟨rs, hrs, h⟩ := bind_pair_ok _ _ _ h
      have ih := perVariableLoop_only f W t p rs hrs
      rcases x with _ | x
      · simp only [pure, Except.pure, Except.ok.injEq] at h
        subst h
        by_cases hW : W v = true
        · rw [if_pos hW, perVariableLoop, onlyVars_get_in W v hW, ht]
          simp only [hx, ih, bind, Except.bind, pure, Except.pure]
        · rw [if_neg hW]; exact ih
      · simp only [pure, Except.pure, Except.ok.injEq] at h
        subst h
        rw [onlyVars_cons]
        by_cases hW : W v = true
        · rw [if_pos hW, if_pos hW, perVariableLoop, onlyVars_get_in W v hW, ht]
          simp only [hx, ih, bind, Except.bind, pure, Except.pure]
        · rw [if_neg hW, if_neg hW]; exact ih

/-- A per-variable statistic treats variables separately. -/
theorem separate_perVariable (name : String) (f : D → D → Except Err (Option S)) : (perVariableStatistic name f).Separate :=
  fun W p t r h => perVariableLoop_only f W t p r h

/-! ### Metrics -/

theorem onlySv_item (W : String → Bool) (sv : List (String × Vars M)) (k : String) :
    pyItem (sv.map (fun kv => (kv.1, onlyVars W kv.2))) k = (pyItem sv k).map (onlyVars W) := by
  unfold pyItem
  have : pyGet? k (sv.map (fun kv => (kv.1, onlyVars W kv.2))) = (pyGet? k sv).map (onlyVars W) := by
    induction sv with
    | nil => rfl
    | cons a sv ih =>
      obtain ⟨k', x⟩ := a
      simp only [List.map_cons, pyGet?]
      by_cases hk : k' = k
      · simp [hk]
      · rw [if_neg hk, if_neg hk, ih]
  rw [this]
  rcases pyGet? k sv with _ | x <;> rfl

theorem separate_toMetric (s : Statistic D S) (h : s.Separate) : (s.toMetric : Metric D S M).Separate := by
  refine ⟨fun ks hks => ?_, fun W sv r hr => ?_⟩
  · simp only [Statistic.toMetric, List.mem_singleton] at hks
    subst hks; exact h
  · simp only [Statistic.toMetric] at hr ⊢
    rw [onlySv_item, hr]; rfl

theorem onlySv_items (W : String → Bool) (sv : List (String × Vars M)) (names : List String) (vs : List (Vars M))
    (h : names.mapM (pyItem sv) = .ok vs) :
    names.mapM (pyItem (sv.map (fun kv => (kv.1, onlyVars W kv.2)))) = .ok (vs.map (onlyVars W)) := by
  induction names generalizing vs with
  | nil => simp only [List.mapM_nil, pure, Except.pure, Except.ok.injEq] at h; subst h; rfl
  | cons n ns ih =>
    rw [List.mapM_cons] at h
    obtain ⟨y, hy, h⟩ := bind_pair_ok _ _ _ h
    obtain ⟨ys, hys, h⟩ := bind_pair_ok _ _ _ h
    simp only [pure, Except.pure, Except.ok.injEq] at h
    subst h
    rw [List.mapM_cons, onlySv_item, hy, ih ys hys]; rfl

theorem commonVariables_only (W : String → Bool) : (vs : List (Vars M)) → (c : List String) → commonVariables vs = .ok c →
    commonVariables (vs.map (onlyVars W)) = .ok (c.filter W)
  | [], c, h => by simp [commonVariables] at h
  | v :: vs, c, h => by
    simp only [commonVariables, Except.ok.injEq] at h
    subst h
    simp only [List.map_cons, commonVariables, Except.ok.injEq]
    rw [onlyVars_keys, List.filter_filter, List.filter_filter]
    apply List.filter_congr
    intro k _
    by_cases hW : W k = true
    · rw [hW, Bool.true_and, Bool.and_true, Bool.eq_iff_iff]
      simp only [List.all_eq_true, List.mem_map, decide_eq_true_eq]
      constructor
      · intro h w hw
        have := h _ ⟨w, hw, rfl⟩
        obtain ⟨x, hx, e⟩ := this
        exact ⟨x, (List.mem_filter.mp hx).1, e⟩
      · rintro h _ ⟨w, hw, rfl⟩
        obtain ⟨x, hx, e⟩ := h w hw
        exact ⟨x, List.mem_filter.mpr ⟨hx, by rw [e]; exact hW⟩, e⟩
    · simp only [Bool.not_eq_true] at hW
      rw [hW]; simp

theorem mapM_filter_names {β : Type} (W : String → Bool) (f g : String → Except Err (String × β)) : (l : List String) → (r : Vars β) →
    (∀ x ∈ l, ∀ y, f x = .ok y → y.1 = x) → (∀ x ∈ l, W x = true → g x = f x) →
    l.mapM f = .ok r → (l.filter W).mapM g = .ok (onlyVars W r)
  | [], r, _, _, h => by
    simp only [List.mapM_nil, pure, Except.pure, Except.ok.injEq] at h
    subst h; rfl
  | k :: l, r, hk, hg, h => by
    rw [List.mapM_cons] at h
    obtain ⟨y, hy, h⟩ := bind_pair_ok _ _ _ h
    obtain ⟨ys, hys, h⟩ := bind_pair_ok _ _ _ h
    simp only [pure, Except.pure, Except.ok.injEq] at h
    subst h
    have ih := mapM_filter_names W f g l ys (fun x hx => hk x (by simp [hx])) (fun x hx => hg x (by simp [hx])) hys
    have e := hk k (by simp) y hy
    obtain ⟨k', y'⟩ := y
    simp only at e
    subst e
    rw [List.filter_cons, onlyVars_cons]
    by_cases hW : W k' = true
    · rw [if_pos hW, if_pos hW, List.mapM_cons, hg k' (by simp) hW, hy, ih]; rfl
    · rw [if_neg hW, if_neg hW, ih]

theorem namedValues_eq {v : String} {names : List String} (W : String → Bool) (hW : W v = true) (sv : List (String × Vars M)) :
    names.mapM (fun s => (do
        let m ← pyItem (sv.map (fun kv => (kv.1, onlyVars W kv.2))) s
        let x ← pyItem m v
        return (s, x) : Except Err (String × M))) = names.mapM (fun s => do
        let m ← pyItem sv s
        let x ← pyItem m v
        return (s, x)) := by
  refine mapM_ok_congr _ _ _ (fun s _ => ?_)
  rw [onlySv_item]
  rcases pyItem sv s with e | m
  · rfl
  · change (do let x ← pyItem (onlyVars W m) v; return (s, x) : Except Err (String × M)) = (do let x ← pyItem m v; return (s, x))
    rw [onlyVars_item_in W v hW]

theorem perVariableNamedValues_only (names : List String) (g : String → List (String × M) → Except Err M) (W : String → Bool)
    (sv : List (String × Vars M)) (r : Vars M) (h : perVariableNamedValues names g sv = .ok r) :
    perVariableNamedValues names g (sv.map (fun kv => (kv.1, onlyVars W kv.2))) = .ok (onlyVars W r) := by
  unfold perVariableNamedValues at h ⊢
  obtain ⟨vs, hvs, h⟩ := bind_pair_ok _ _ _ h
  obtain ⟨c, hc, h⟩ := bind_pair_ok _ _ _ h
  rw [onlySv_items W sv names vs hvs]
  simp only [bind, Except.bind]
  rw [commonVariables_only W vs c hc]
  simp only
  refine mapM_filter_names W _ _ c r ?_ ?_ h
  · intro v _ y hy
    obtain ⟨xs, -, hy⟩ := bind_pair_ok _ _ _ hy
    obtain ⟨x, -, hy⟩ := bind_pair_ok _ _ _ hy
    simp only [pure, Except.pure, Except.ok.injEq] at hy
    rw [← hy]
  · intro v _ hW
    exact congrArg (fun z => (do
        let perVar ← z
        let x ← g v perVar
        return (v, x) : Except Err (String × M))) (namedValues_eq W hW sv)

theorem perVariableNamedValues_isolated (names : List String) (g : String → List (String × M) → Except Err M)
    (sv : List (String × Vars M))
    (h : ∀ v, ∃ r, perVariableNamedValues names g (sv.map (fun kv => (kv.1, justVar v kv.2))) = .ok r) :
    ∃ r, perVariableNamedValues names g sv = .ok r := by
  have hitems : ∀ ns : List String, (∃ vs, ns.mapM (pyItem (sv.map (fun kv => (kv.1, justVar "" kv.2)))) = .ok vs) →
      ∃ vs, ns.mapM (pyItem sv) = .ok vs := by
    rintro ns ⟨vs, hvs⟩
    refine mapM_ok_of_mem _ _ (fun n hn => ?_)
    obtain ⟨y, hy⟩ := mapM_ok_mem _ _ _ hvs n hn
    unfold justVar at hy
    rw [onlySv_item] at hy
    rcases hi : pyItem sv n with e | y
    · rw [hi] at hy; cases hy
    · exact ⟨y, rfl⟩
  obtain ⟨r0, h0⟩ := h ""
  unfold perVariableNamedValues at h0
  obtain ⟨vs0, hvs0, h0⟩ := bind_pair_ok _ _ _ h0
  obtain ⟨vs, hvs⟩ := hitems names ⟨vs0, hvs0⟩
  have hne : vs ≠ [] := by
    rintro rfl
    have e := onlySv_items (fun k => decide (k = "")) sv names [] hvs
    unfold justVar at hvs0
    rw [e] at hvs0
    simp only [List.map_nil, Except.ok.injEq] at hvs0
    subst hvs0
    simp [commonVariables, bind, Except.bind] at h0
  have hc : ∃ c, commonVariables vs = .ok c := by
    cases vs with
    | nil => exact absurd rfl hne
    | cons v vs => exact ⟨_, rfl⟩
  obtain ⟨c, hc⟩ := hc
  unfold perVariableNamedValues
  rw [hvs]
  simp only [bind, Except.bind]
  rw [hc]
  simp only
  refine mapM_ok_of_mem _ _ (fun v hv => ?_)
  obtain ⟨r, hr⟩ := h v
  unfold perVariableNamedValues justVar at hr
  rw [onlySv_items (fun k => decide (k = v)) sv names vs hvs] at hr
  simp only [bind, Except.bind] at hr
  rw [commonVariables_only (fun k => decide (k = v)) vs c hc] at hr
  simp only at hr
  obtain ⟨y, hy⟩ := mapM_ok_mem _ _ _ hr v (List.mem_filter.mpr ⟨hv, by simp⟩)
  refine ⟨y, ?_⟩
  rw [← hy]
  exact (congrArg (fun z => (do
        let perVar ← z
        let x ← g v perVar
        return (v, x) : Except Err (String × M))) (namedValues_eq (fun k => decide (k = v)) (by simp) sv)).symm

theorem perVariableValues_only (names : List String) (g : List (String × M) → Except Err M) (W : String → Bool)
    (sv : List (String × Vars M)) (r : Vars M) (h : perVariableValues names g sv = .ok r) :
    perVariableValues names g (sv.map (fun kv => (kv.1, onlyVars W kv.2))) = .ok (onlyVars W r) :=
  perVariableNamedValues_only names (fun _ => g) W sv r h

/-- A per-variable metric of separate statistics treats variables separately. -/
theorem separate_perVariableMetric (statistics : List (String × Statistic D S)) (g : List (String × M) → Except Err M)
    (h : ∀ ks ∈ statistics, ks.2.Separate) : (perVariableMetric statistics g).Separate :=
  ⟨h, fun W sv r hr => perVariableValues_only _ g W sv r hr⟩

theorem isolated_perVariableMetric (statistics : List (String × Statistic D S)) (g : List (String × M) → Except Err M)
    (h : ∀ ks ∈ statistics, ks.2.Isolated) : (perVariableMetric statistics g).Isolated :=
  ⟨h, fun sv hsv => perVariableNamedValues_isolated _ (fun _ => g) sv hsv⟩

theorem isolated_toMetric (s : Statistic D S) (h : s.Isolated) : (s.toMetric : Metric D S M).Isolated := by
  refine ⟨fun ks hks => ?_, fun sv hsv => ?_⟩
  · simp only [Statistic.toMetric, List.mem_singleton] at hks
    subst hks; exact h
  · obtain ⟨r, hr⟩ := hsv ""
    simp only [Statistic.toMetric] at hr ⊢
    unfold justVar at hr
    rw [onlySv_item] at hr
    rcases hi : pyItem sv "self" with e | y
    · rw [hi] at hr; cases hr
    · exact ⟨y, rfl⟩

theorem perVariableLoop_step (f : D → D → Except Err (Option S)) (t : Vars D) (v : String) (a : D) (p : Vars D) (r : Vars S)
    (h : perVariableLoop f t ((v, a) :: p) = .ok r) :
    (∀ b, pyGet? v t = some b → ∃ x, f a b = .ok x) ∧ ∃ rs, perVariableLoop f t p = .ok rs := by
  rw [perVariableLoop] at h
  rcases ht : pyGet? v t with _ | b
  · rw [ht] at h
    exact ⟨fun b hb => (by cases hb), r, h⟩
  · rw [ht] at h
    obtain ⟨x, hx, h⟩ := bind_pair_ok _ _ _ h
    obtain ⟨rs, hrs, h⟩ := bind_pair_ok _ _ _ h
    exact ⟨fun b' hb => ⟨x, by rw [← Option.some.inj hb]; exact hx⟩, rs, hrs⟩

theorem perVariableLoop_build (f : D → D → Except Err (Option S)) (t : Vars D) (v : String) (a : D) (p : Vars D)
    (h1 : ∀ b, pyGet? v t = some b → ∃ x, f a b = .ok x) (h2 : ∃ rs, perVariableLoop f t p = .ok rs) :
    ∃ r, perVariableLoop f t ((v, a) :: p) = .ok r := by
  obtain ⟨rs, hrs⟩ := h2
  rw [perVariableLoop]
  rcases ht : pyGet? v t with _ | b
  · exact ⟨rs, hrs⟩
  · obtain ⟨x, hx⟩ := h1 b ht
    rcases x with _ | x
    · exact ⟨rs, by simp only [hx, hrs, bind, Except.bind, pure, Except.pure]⟩
    · exact ⟨(v, x) :: rs, by simp only [hx, hrs, bind, Except.bind, pure, Except.pure]⟩

theorem perVariableLoop_just (f : D → D → Except Err (Option S)) (t : Vars D) (v : String) : (p : Vars D) →
    (∃ r, perVariableLoop f (justVar v t) (justVar v p) = .ok r) → ∀ a, (v, a) ∈ p → ∀ b, pyGet? v t = some b → ∃ x, f a b = .ok x
  | [], _, a, ha => by simp at ha
  | (k, a') :: p, h, a, ha => by
    intro b hb
    obtain ⟨r, hr⟩ := h
    unfold justVar at hr
    rw [onlyVars_cons] at hr
    by_cases hk : k = v
    · subst hk
      rw [if_pos (by simp)] at hr
      obtain ⟨e1, e2⟩ := perVariableLoop_step f _ _ _ _ _ hr
      rcases List.mem_cons.mp ha with ha | ha
      · obtain ⟨-, rfl⟩ := Prod.mk.inj ha
        exact e1 b (by rw [onlyVars_get_in _ _ (by simp)]; exact hb)
      · exact perVariableLoop_just f t k p e2 a ha b hb
    · rw [if_neg (by simp [hk])] at hr
      rcases List.mem_cons.mp ha with ha | ha
      · exact absurd (Prod.mk.inj ha).1.symm hk
      · exact perVariableLoop_just f t v p ⟨r, hr⟩ a ha b hb

/-- A per-variable statistic raises only for a variable for which it raises alone. -/
theorem isolated_perVariable (name : String) (f : D → D → Except Err (Option S)) : (perVariableStatistic name f).Isolated := by
  intro p t h
  have key : ∀ q : Vars D, (∀ v a, (v, a) ∈ q → ∀ b, pyGet? v t = some b → ∃ x, f a b = .ok x) →
      ∃ r, perVariableLoop f t q = .ok r := by
    intro q
    induction q with
    | nil => intro _; exact ⟨[], rfl⟩
    | cons x q ih =>
      intro hq
      exact perVariableLoop_build f t x.1 x.2 q (hq x.1 x.2 (by simp)) (ih (fun v a ha => hq v a (by simp [ha])))
  exact key p (fun v a ha b hb => perVariableLoop_just f t v p (h v) a ha b hb)

end statistics
end WBX
