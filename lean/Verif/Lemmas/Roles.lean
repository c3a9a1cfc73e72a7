import Verif.Spec.Roles
import Verif.Props.MetricExtensional
import Verif.Props.Separate
import Verif.Lemmas.MetricN

/-!
# Lemmas for C94
-/

set_option linter.unusedSectionVars false

namespace WBX
open DA Aggregator

theorem SameOutcome.refl {α : Type} {r : α → α → Prop} (h : ∀ x, r x x) (x : Except Err α) : SameOutcome r x x := by
  cases x with
  | ok a => exact .gives (h a)
  | error e => exact .fails _ _

section same
variable {L U V W : Type} [DecidableEq L]

theorem StatVar.Same.refl (a : StatVar L V) : a.Same a := ⟨.refl _, by cases a.mask <;> constructor; exact .refl _⟩

theorem StatVar.Same.symm {a b : StatVar L V} (h : a.Same b) : b.Same a := by
  refine ⟨h.arr.symm, ?_⟩
  have := h.mask
  revert this
  cases a.mask <;> cases b.mask <;> intro this <;> cases this
  · exact .none
  · rename_i h; exact .some h.symm

theorem StatVar.Same.trans {a b c : StatVar L V} (h : a.Same b) (h' : b.Same c) : a.Same c := by
  refine ⟨h.arr.trans h'.arr, ?_⟩
  have h1 := h.mask
  have h2 := h'.mask
  revert h1 h2
  cases a.mask <;> cases b.mask <;> cases c.mask <;> intro h1 h2 <;> cases h1 <;> cases h2
  · exact .none
  · rename_i x y; exact .some (x.trans y)

theorem StatVar.map_same {a b : StatVar L V} (f : V → W) (h : a.Same b) : (a.map f).Same (b.map f) := ⟨same_map h.arr, h.mask⟩

theorem equals_iff {a b : DA L V} : a.Equals b ↔ a.Same b := ⟨fun h => ⟨h.1, h.2.1, h.2.2⟩, fun h => ⟨h.dims, h.coords, h.val⟩⟩

theorem combineMask_same {m m' n n' : Option (DA L Bool)} (h : Option.Rel DA.Same m m') (h' : Option.Rel DA.Same n n') : Option.Rel DA.Same (combineMask m n) (combineMask m' n') := by
  cases h with
  | none => cases h' with
    | none => exact .none
    | some h' => exact .some h'
  | some h => cases h' with
    | none => exact .some h
    | some h' =>
      rename_i a b c d
      have : a.Equals c ↔ b.Equals d := by
        rw [equals_iff, equals_iff]
        exact ⟨fun x => h.symm.trans (x.trans h'), fun x => h.trans (x.trans h'.symm)⟩
      unfold combineMask
      dsimp only
      by_cases hc : a.Equals c
      · rw [if_pos hc, if_pos (this.mp hc)]; exact .some h
      · rw [if_neg hc, if_neg (fun x => hc (this.mpr x))]; exact .none

theorem combineMask_comm (m n : Option (DA L Bool)) : Option.Rel DA.Same (combineMask m n) (combineMask n m) := by
  cases m with
  | none => cases n with
    | none => exact .none
    | some n => exact .some (.refl _)
  | some m => cases n with
    | none => exact .some (.refl _)
    | some n =>
      unfold combineMask
      dsimp only
      by_cases hc : m.Equals n
      · rw [if_pos hc, if_pos (equals_iff.mpr (equals_iff.mp hc).symm)]; exact .some (equals_iff.mp hc)
      · rw [if_neg hc, if_neg (fun x => hc (equals_iff.mpr (equals_iff.mp x).symm))]; exact .none

theorem DA.zipWith_comm {f : V → W → U} {g : W → V → U} (h : ∀ x y, f x y = g y x) (a : DA L V) (b : DA L W) : (zipWith f a b).Same (zipWith g b a) := by
  refine ⟨Finset.union_comm _ _, ?_, fun e _ => h _ _⟩
  intro d hd
  simp only [zipWith, Finset.mem_union] at hd
  simp only [zipWith, joinCoords]
  by_cases h1 : d ∈ a.dims <;> by_cases h2 : d ∈ b.dims <;> simp [h1, h2, Finset.inter_comm]
  tauto

theorem StatVar.zipWith_comm {f : V → W → U} {g : W → V → U} (h : ∀ x y, f x y = g y x) (a : StatVar L V) (b : StatVar L W) : (a.zipWith f b).Same (b.zipWith g a) :=
  ⟨DA.zipWith_comm h _ _, combineMask_comm _ _⟩

theorem StatVar.zipWith_same {f : V → W → U} {a a' : StatVar L V} {b b' : StatVar L W} (h : a.Same a') (h' : b.Same b') : (a.zipWith f b).Same (a'.zipWith f b') :=
  ⟨zipWith_congr h.arr h'.arr, combineMask_same h.mask h'.mask⟩

theorem broadcastLike_same {a a' : DA L V} {b b' : DA L W} (h : a.Same a') (hb : b.Same b') : (a.broadcastLike b).Same (a'.broadcastLike b') := zipWith_congr h hb

theorem where_same {a a' : DA L V} {m m' : DA L Bool} (h : a.Same a') (hm : m.Same m') (x : V) : (a.where_ m x).Same (a'.where_ m' x) := zipWith_congr h hm

/-- Both arrays of a pair. -/
def PairSame (x y : DA L V × DA L V) : Prop := x.1.Same y.1 ∧ x.2.Same y.2

end same

section aggregate
variable {L V : Type} [DecidableEq L] [AddCommMonoid V] [Mul V] [One V] [Div V] [IsNull V] {agg : Aggregator L V}

theorem applyMask_same {a b : StatVar L V} (h : a.Same b) : PairSame (agg.applyMask a) (agg.applyMask b) := by
  have hn : (a.arr.map (fun v => !IsNull.isnull v)).Same (b.arr.map (fun v => !IsNull.isnull v)) := same_map h.arr
  have plain : PairSame (if agg.skipna then
        (a.arr.where_ (a.arr.map (fun v => !IsNull.isnull v)) 0, (a.arr.map (fun v => !IsNull.isnull v)).map boolToV)
      else (a.arr, a.arr.map (fun _ => (1 : V)))) (if agg.skipna then
        (b.arr.where_ (b.arr.map (fun v => !IsNull.isnull v)) 0, (b.arr.map (fun v => !IsNull.isnull v)).map boolToV)
      else (b.arr, b.arr.map (fun _ => (1 : V)))) := by
    split_ifs
    · exact ⟨where_same h.arr hn 0, same_map hn⟩
    · exact ⟨h.arr, same_map (f := fun _ => (1 : V)) h.arr⟩
  unfold applyMask
  cases agg.masked with
  | false => exact plain
  | true =>
    have hm := h.mask
    revert hm
    cases a.mask with
    | none =>
      cases b.mask with
      | none => intro _; exact plain
      | some m => intro hm; cases hm
    | some m =>
      cases b.mask with
      | none => intro hm; cases hm
      | some m' =>
        intro hm
        have hm : m.Same m' := by cases hm; assumption
        dsimp only
        split_ifs
        · have hz := zipWith_congr (f := (· && ·)) hm hn
          have hw := where_same h.arr hz (0 : V)
          exact ⟨hw, same_map (broadcastLike_same hz hw)⟩
        · have hw := where_same h.arr hm (0 : V)
          exact ⟨hw, same_map (broadcastLike_same hm hw)⟩

theorem binMasks_same' {a b : DA L V} (h : a.Same b) : ∀ {bs : List (BinBy L V)}, (∀ b' ∈ bs, (b'.createBinMask a).Same (b'.createBinMask b)) →
    Option.Rel (List.Forall₂ DA.Same) (binMasks a bs) (binMasks b bs)
  | [], _ => .some .nil
  | c :: bs, hb => by
    unfold binMasks
    have hc := hb c (by simp)
    have ih := binMasks_same' h (bs := bs) (fun b' hb' => hb b' (by simp [hb']))
    dsimp only
    rw [← hc.dims, ← h.dims]
    split_ifs
    · revert ih
      cases binMasks a bs <;> cases binMasks b bs <;> intro ih <;> cases ih
      · exact .none
      · rename_i ih; exact .some (.cons hc ih)
    · exact .none

theorem forall₂_foldl {f : V → V → V} {xs ys : List (DA L V)} (h : List.Forall₂ DA.Same xs ys) : ∀ {a b : DA L V}, a.Same b → (xs.foldl (zipWith f) a).Same (ys.foldl (zipWith f) b) := by
  induction h with
  | nil => exact fun h => h
  | cons h _ ih => exact fun hab => ih (zipWith_congr hab h)

theorem aggregationFn_same (hagg : agg.RespectsSame) {a b : DA L V} (h : a.Same b) : SameOutcome (Option.Rel DA.Same) (agg.aggregationFn a) (agg.aggregationFn b) := by
  unfold aggregationFn
  by_cases hd : agg.reduceDims.all (fun d => decide (d ∈ a.dims)) = true
  · have hd' : agg.reduceDims.all (fun d => decide (d ∈ b.dims)) = true := by rw [← h.dims]; exact hd
    rw [if_neg (not_not.mpr hd), if_neg (not_not.mpr hd')]
    have hall' : ∀ d ∈ agg.reduceDims, d ∈ a.dims := fun d h' => by simpa using List.all_eq_true.mp hd d h'
    dsimp only
    by_cases hn : (agg.binBy.map (·.binDim)).dedup.length ≠ agg.binBy.length
    · rw [if_pos hn, if_pos hn]; exact .fails _ _
    · rw [if_neg hn, if_neg hn]
      have hb := binMasks_same' h (bs := agg.binBy) (fun b' hb' => hagg.bins b' hb' _ _ hall' h)
      revert hb
      cases binMasks a agg.binBy with
      | none =>
        cases binMasks b agg.binBy with
        | none => intro _; exact .gives .none
        | some ys => intro hb; cases hb
      | some xs =>
        cases binMasks b agg.binBy with
        | none => intro hb; cases hb
        | some ys =>
          intro hb
          have hb : List.Forall₂ DA.Same xs ys := by cases hb; assumption
          refine .gives (.some ?_)
          have hw : List.Forall₂ DA.Same (agg.weighBy.map (fun w => w a)) (agg.weighBy.map (fun w => w b)) := by
            rw [List.forall₂_map_left_iff, List.forall₂_map_right_iff, List.forall₂_same]
            exact fun w hw => hagg.weights w hw _ _ hall' h
          have hall := List.rel_append hw hb
          refine sumDims_congr (forall₂_foldl hall h) (List.nodup_dedup _) ?_
          intro d hd'
          rw [mem_foldl_zipWith_dims]
          left
          simpa using List.all_eq_true.mp hd d (List.mem_dedup.mp hd')
  · have hd' : ¬ agg.reduceDims.all (fun d => decide (d ∈ b.dims)) = true := by rw [← h.dims]; exact hd
    rw [if_pos hd, if_pos hd']
    exact .gives .none

theorem aggregateStatVar_same (hagg : agg.RespectsSame) {a b : StatVar L V} (h : a.Same b) : SameOutcome (Option.Rel PairSame) (agg.aggregateStatVar a) (agg.aggregateStatVar b) := by
  obtain ⟨h1, h2⟩ := applyMask_same (agg := agg) h
  refine SameOutcome.bind (aggregationFn_same hagg h1) (fun x y hxy => SameOutcome.bind (aggregationFn_same hagg h2) (fun x' y' hxy' => ?_))
  cases hxy with
  | none => exact .gives .none
  | some hxy => cases hxy' with
    | none => exact .gives .none
    | some hxy' => exact .gives (.some ⟨hxy, hxy'⟩)

/-! ### dicts of statistics -/

/-- The mean of one statistic of one variable, if there is one. -/
def meanOf? (agg : Aggregator L V) (s : StatVar L V) : Option (DA L V) :=
  match agg.aggregateStatVar s with
  | .ok (some q) => some (DA.zipWith (· / ·) q.1 q.2)
  | _ => none

theorem meanOf?_same (hagg : agg.RespectsSame) {a b : StatVar L V} (h : a.Same b) : Option.Rel DA.Same (meanOf? agg a) (meanOf? agg b) := by
  have := aggregateStatVar_same hagg h
  unfold meanOf?
  revert this
  generalize agg.aggregateStatVar a = x
  generalize agg.aggregateStatVar b = y
  intro this
  cases this with
  | fails e e' => exact .none
  | gives hr => cases hr with
    | none => exact .none
    | some hq => exact .some (zipWith_congr hq.1 hq.2)

theorem pyGet?_none_of_keys {β : Type} {k : String} {xs : List (String × β)} (h : k ∉ xs.map Prod.fst) : pyGet? k xs = none := by
  induction xs with
  | nil => rfl
  | cons a xs ih =>
    obtain ⟨k', b⟩ := a
    simp only [List.map_cons, List.mem_cons, not_or] at h
    unfold pyGet?
    rw [if_neg (fun hh => h.1 hh.symm)]
    exact ih h.2

theorem perVar_get : (xs : List (String × Option (StatVar L V))) → IsDict xs → (r : List (String × (DA L V × DA L V))) → agg.perVar xs = .ok r → (v : String) →
    pyGet? v r = ((pyGet? v xs).bind id).bind (fun s => match agg.aggregateStatVar s with
      | .ok (some q) => some q
      | _ => none)
  | [], _, r, h, v => by
    simp only [perVar, Except.ok.injEq] at h
    subst h; rfl
  | (k, none) :: xs, hd, r, h, v => by
    simp only [perVar] at h
    have ih := perVar_get xs (List.nodup_cons.mp hd).2 r h v
    rw [ih]
    by_cases hk : k = v
    · subst hk
      have hx : pyGet? k xs = none := pyGet?_none_of_keys (List.nodup_cons.mp hd).1
      rw [hx]
      simp [pyGet?]
    · conv_rhs => unfold pyGet?
      rw [if_neg hk]
  | (k, some s) :: xs, hd, r, h, v => by
    simp only [perVar] at h
    obtain ⟨o, ho, h⟩ := bind_ok_iff.mp h
    obtain ⟨rs, hrs, h⟩ := bind_ok_iff.mp h
    have ih := perVar_get xs (List.nodup_cons.mp hd).2 rs hrs v
    have hx : pyGet? k xs = none := pyGet?_none_of_keys (List.nodup_cons.mp hd).1
    cases o with
    | none =>
      cases h
      rw [ih]
      by_cases hk : k = v
      · subst hk
        rw [hx]
        simp [pyGet?, ho]
      · conv_rhs => unfold pyGet?
        rw [if_neg hk]
    | some q =>
      cases h
      unfold pyGet?
      by_cases hk : k = v
      · subst hk
        rw [if_pos rfl, if_pos rfl]
        simp [ho]
      · rw [if_neg hk, if_neg hk, ih]

theorem meanVars_get {xs : List (String × Option (StatVar L V))} (hd : IsDict xs) {r : Vars (DA L V)} (h : meanVars agg xs = .ok r) (v : String) :
    pyGet? v r = ((pyGet? v xs).bind id).bind (meanOf? agg) := by
  unfold meanVars at h
  obtain ⟨pv, hpv, h⟩ := bind_ok_iff.mp h
  cases h
  refine (pyGet?_map (fun x : DA L V × DA L V => DA.zipWith (· / ·) x.1 x.2) pv v).trans ?_
  rw [perVar_get xs hd pv hpv v]
  cases (pyGet? v xs).bind id with
  | none => rfl
  | some s =>
    simp only [Option.bind_some, meanOf?]
    rcases agg.aggregateStatVar s with e | (_ | q) <;> rfl

/-- The same statistics for the same variables, in any order. -/
def StatsSame (x y : List (String × Option (StatVar L V))) : Prop := IsDict x ∧ IsDict y ∧ ∀ v, Option.Rel (Option.Rel StatVar.Same) (pyGet? v x) (pyGet? v y)

theorem StatsSame.symm {x y : List (String × Option (StatVar L V))} (h : StatsSame x y) : StatsSame y x := by
  refine ⟨h.2.1, h.1, fun v => ?_⟩
  have := h.2.2 v
  revert this
  cases pyGet? v x <;> cases pyGet? v y <;> intro this <;> cases this
  · exact .none
  · rename_i a b h
    refine .some ?_
    cases h with
    | none => exact .none
    | some h => exact .some h.symm

theorem meanVars_ok_of (hagg : agg.RespectsSame) {x y : List (String × Option (StatVar L V))} (h : StatsSame x y) (hx : ∃ r, meanVars agg x = .ok r) : ∃ r, meanVars agg y = .ok r := by
  rw [meanVars_ok_iff, perVar_ok_iff] at hx ⊢
  intro k s hs
  have hk := h.2.2 k
  rw [(pyGet?_eq_some h.2.1 k (some s)).mpr hs] at hk
  cases hg : pyGet? k x with
  | none => rw [hg] at hk; cases hk
  | some o =>
    rw [hg] at hk
    cases hk with
    | some ho =>
      cases ho with
      | some ho =>
        rename_i s'
        obtain ⟨z, hz⟩ := hx k s' ((pyGet?_eq_some h.1 k (some s')).mp hg)
        obtain ⟨w, hw, _⟩ := (aggregateStatVar_same hagg ho).ok_left hz
        exact ⟨w, hw⟩

theorem meanVars_same (hagg : agg.RespectsSame) {x y : List (String × Option (StatVar L V))} (h : StatsSame x y) : SameOutcome VarsSame (meanVars agg x) (meanVars agg y) := by
  refine SameOutcome.intro (fun a ha => ?_) (fun b hb => meanVars_ok_of hagg h.symm ⟨b, hb⟩)
  obtain ⟨b, hb⟩ := meanVars_ok_of hagg h ⟨a, ha⟩
  refine ⟨b, hb, fun v => ?_⟩
  rw [meanVars_get h.1 ha, meanVars_get h.2.1 hb]
  have := h.2.2 v
  revert this
  cases pyGet? v x <;> cases pyGet? v y <;> intro this <;> cases this
  · exact .none
  · rename_i a b h
    cases h with
    | none => exact .none
    | some h => exact meanOf?_same hagg h

end aggregate

section statistic
variable {D S : Type}

theorem perVariableLoop_ok_iff {f : D → D → Except Err (Option S)} {t : Vars D} : ∀ {p : Vars D}, (∃ r, perVariableLoop f t p = .ok r) ↔ ∀ v a b, (v, a) ∈ p → pyGet? v t = some b → ∃ o, f a b = .ok o
  | [] => ⟨fun _ v a b h => by simp at h, fun _ => ⟨[], rfl⟩⟩
  | (v, a) :: p => by
    have ih := perVariableLoop_ok_iff (f := f) (t := t) (p := p)
    rw [perVariableLoop]
    constructor
    · rintro ⟨r, hr⟩ v' a' b' hm hb
      cases hg : pyGet? v t with
      | none =>
        rw [hg] at hr
        rcases List.mem_cons.mp hm with e | hm
        · cases e; rw [hg] at hb; cases hb
        · exact ih.mp ⟨r, hr⟩ v' a' b' hm hb
      | some b =>
        rw [hg] at hr
        obtain ⟨o, ho, hr⟩ := bind_ok_iff.mp hr
        obtain ⟨rs, hrs, hr⟩ := bind_ok_iff.mp hr
        rcases List.mem_cons.mp hm with e | hm
        · cases e; rw [hg] at hb; cases hb; exact ⟨o, ho⟩
        · exact ih.mp ⟨rs, hrs⟩ v' a' b' hm hb
    · intro h
      obtain ⟨rs, hrs⟩ := ih.mpr (fun v' a' b' hm hb => h v' a' b' (by simp [hm]) hb)
      cases hg : pyGet? v t with
      | none => exact ⟨rs, hrs⟩
      | some b =>
        obtain ⟨o, ho⟩ := h v a b (by simp) hg
        dsimp only
        rw [ho, hrs]
        cases o with
        | none => exact ⟨_, rfl⟩
        | some x => exact ⟨_, rfl⟩

end statistic

section mirror
variable {L V : Type} [DecidableEq L]

/-- `f` of predictions and targets is `f'` of targets and predictions, for every common variable. -/
def MirrorFn (f f' : StatVar L V → StatVar L V → Except Err (Option (Option (StatVar L V)))) (p t : Vars (StatVar L V)) : Prop :=
  ∀ v a b, (v, a) ∈ p → (v, b) ∈ t → SameOutcome (Option.Rel (Option.Rel StatVar.Same)) (f a b) (f' b a)

theorem MirrorFn.symm {f f' : StatVar L V → StatVar L V → Except Err (Option (Option (StatVar L V)))} {p t : Vars (StatVar L V)} (h : MirrorFn f f' p t) : MirrorFn f' f t p := by
  intro v a b ha hb
  have := h v b a hb ha
  revert this
  generalize f b a = x
  generalize f' a b = y
  intro this
  cases this with
  | fails e e' => exact .fails _ _
  | gives h =>
    refine .gives ?_
    cases h with
    | none => exact .none
    | some h =>
      refine .some ?_
      cases h with
      | none => exact .none
      | some h => exact .some h.symm

/-- The two statistics, each with its own roles, give the same arrays for the same variables. -/
def Mirrored (s s' : Statistic (StatVar L V) (Option (StatVar L V))) (p t : Vars (StatVar L V)) : Prop :=
  SameOutcome StatsSame (s.compute p t) (s'.compute t p)

variable {p t : Vars (StatVar L V)}

theorem mirrored_ok {name name' : String} {f f' : StatVar L V → StatVar L V → Except Err (Option (Option (StatVar L V)))} (hp : IsDict p) (ht : IsDict t) (h : MirrorFn f f' p t)
    {x : Vars (Option (StatVar L V))} (hx : (perVariableStatistic name f).compute p t = .ok x) : ∃ y, (perVariableStatistic name' f').compute t p = .ok y := by
  have hx := perVariableLoop_ok_iff.mp ⟨x, hx⟩
  refine perVariableLoop_ok_iff.mpr (fun v b a hb ha => ?_)
  have ha' := (pyGet?_eq_some hp v a).mp ha
  obtain ⟨o, ho⟩ := hx v a b ha' ((pyGet?_eq_some ht v b).mpr hb)
  obtain ⟨o', ho', _⟩ := (h v a b ha' hb).ok_left ho
  exact ⟨o', ho'⟩

theorem mirrored_mem {name name' : String} {f f' : StatVar L V → StatVar L V → Except Err (Option (Option (StatVar L V)))} (hp : IsDict p) (ht : IsDict t) (h : MirrorFn f f' p t)
    {x y : Vars (Option (StatVar L V))} (hx : (perVariableStatistic name f).compute p t = .ok x) (hy : (perVariableStatistic name' f').compute t p = .ok y) {v : String}
    {s : Option (StatVar L V)} (hs : pyGet? v x = some s) : ∃ s', pyGet? v y = some s' ∧ Option.Rel StatVar.Same s s' := by
  obtain ⟨n1, m1⟩ := C21_statistic name f p t hp ht x hx
  obtain ⟨n2, m2⟩ := C21_statistic name' f' t p ht hp y hy
  obtain ⟨a, b, ha, hb, hf⟩ := (m1 v s).mp ((pyGet?_eq_some n1 v s).mp hs)
  obtain ⟨o, ho, hr⟩ := (h v a b ha hb).ok_left hf
  cases hr with
  | some hr => exact ⟨_, (pyGet?_eq_some n2 v _).mpr ((m2 v _).mpr ⟨b, a, hb, ha, ho⟩), hr⟩

theorem mirrored_perVariable {name name' : String} {f f' : StatVar L V → StatVar L V → Except Err (Option (Option (StatVar L V)))} (hp : IsDict p) (ht : IsDict t)
    (h : MirrorFn f f' p t) : Mirrored (perVariableStatistic name f) (perVariableStatistic name' f') p t := by
  refine SameOutcome.intro (fun x hx => ?_) (fun y hy => mirrored_ok ht hp h.symm hy)
  obtain ⟨y, hy⟩ := mirrored_ok (name' := name') hp ht h hx
  refine ⟨y, hy, (C21_statistic name f p t hp ht x hx).1, (C21_statistic name' f' t p ht hp y hy).1, fun v => ?_⟩
  cases hg : pyGet? v x with
  | some s =>
    obtain ⟨s', hs', hr⟩ := mirrored_mem hp ht h hx hy hg
    rw [hs']
    exact .some hr
  | none =>
    cases hg' : pyGet? v y with
    | none => exact .none
    | some s' =>
      obtain ⟨s, hs, _⟩ := mirrored_mem ht hp h.symm hy hx hg'
      rw [hg] at hs
      cases hs

variable [AddCommMonoid V] [Mul V] [One V] [Div V] [IsNull V] {agg : Aggregator L V}

theorem means_mirrored (hagg : agg.RespectsSame) : ∀ {l l' : List (String × Statistic (StatVar L V) (Option (StatVar L V)))},
    List.Forall₂ (fun a b => a.1 = b.1 ∧ Mirrored a.2 b.2 p t) l l' → SameOutcome (List.Forall₂ (fun a b => a.1 = b.1 ∧ VarsSame a.2 b.2))
      (l.mapM (fun ks => do
        let v ← ks.2.compute p t
        let mean ← meanVars agg v
        return (ks.1, mean)))
      (l'.mapM (fun ks => do
        let v ← ks.2.compute t p
        let mean ← meanVars agg v
        return (ks.1, mean)))
  | _, _, .nil => .gives .nil
  | _, _, .cons h hs => by
    rw [List.mapM_cons, List.mapM_cons]
    refine SameOutcome.bind (r := fun a b => a.1 = b.1 ∧ VarsSame a.2 b.2) ?_ ?_
    · refine SameOutcome.bind h.2 (fun x y hxy => SameOutcome.bind (meanVars_same hagg hxy) (fun x' y' hxy' => .gives ⟨h.1, hxy'⟩))
    · intro a b hab
      exact SameOutcome.bind (means_mirrored hagg hs) (fun as bs h => .gives (.cons hab h))

/-- Two metrics with the same formula whose statistics mirror each other give the same values when predictions and targets are exchanged. -/
theorem metricAlone_mirrored (hagg : agg.RespectsSame) {m m' : Metric (StatVar L V) (Option (StatVar L V)) (DA L V)} (hm : m.Extensional)
    (hv : m'.valuesFromMeanStatistics = m.valuesFromMeanStatistics)
    (hs : List.Forall₂ (fun a b => a.1 = b.1 ∧ Mirrored a.2 b.2 p t) m.statistics m'.statistics) : SameValues (metricAlone m agg p t) (metricAlone m' agg t p) := by
  refine SameOutcome.bind (means_mirrored hagg hs) (fun x y hxy => ?_)
  rw [hv]
  exact hm.same x y (fun s => item_forall₂ hxy)

end mirror

/-! ### The values of a per-variable metric from the means of its statistics -/

section values
variable {M : Type}

theorem row_of {T : List (String × Vars M)} (v : String) : ∀ {names : List String} {ms : List (Vars M)}, List.Forall₂ (fun s m => pyItem T s = .ok m) names ms →
    (names.mapM (fun s => do
      let m ← pyItem T s
      let x ← pyItem m v
      return (s, x)) : Except Err _) = match ms.mapM (pyGet? v) with
        | some xs => .ok (names.zip xs)
        | none => .error .keyError
  | _, _, .nil => rfl
  | _, _, .cons (a := s) (b := m) (l₁ := names) (l₂ := ms) h hs => by
    rw [List.mapM_cons, row_of v hs, List.mapM_cons, h]
    unfold pyItem
    cases hm : pyGet? v m with
    | none => simp [bind, Except.bind, hm]
    | some x =>
      cases ms.mapM (pyGet? v) <;> simp [bind, Except.bind, hm, pure, Except.pure]

theorem mapM_length_option {α β : Type} {f : α → Option β} : ∀ {l : List α} {r : List β}, l.mapM f = some r → r.length = l.length
  | [], r, h => by
    rw [List.mapM_nil] at h
    cases h; rfl
  | a :: l, r, h => by
    rw [List.mapM_cons] at h
    cases ha : f a with
    | none => rw [ha] at h; cases h
    | some b =>
      rw [ha] at h
      cases hl : l.mapM f with
      | none => rw [hl] at h; cases h
      | some bs =>
        rw [hl] at h
        cases h
        simp [mapM_length_option hl]

theorem mapM_isSome_option {α β : Type} {f : α → Option β} : ∀ {l : List α}, (∃ r, l.mapM f = some r) ↔ ∀ a ∈ l, ∃ b, f a = some b
  | [] => ⟨fun _ a h => by simp at h, fun _ => ⟨[], rfl⟩⟩
  | a :: l => by
    rw [List.mapM_cons]
    cases ha : f a with
    | none => simp [ha]
    | some b =>
      have ih := mapM_isSome_option (f := f) (l := l)
      cases hl : l.mapM f with
      | none =>
        rw [hl] at ih
        constructor
        · rintro ⟨r, hr⟩; cases hr
        · intro h
          obtain ⟨r, hr⟩ := ih.mpr (fun c hc => h c (by simp [hc]))
          cases hr
      | some bs =>
        rw [hl] at ih
        refine ⟨fun _ c hc => ?_, fun _ => ⟨b :: bs, rfl⟩⟩
        rcases List.mem_cons.mp hc with rfl | hc
        · exact ⟨b, ha⟩
        · exact ih.mp ⟨bs, rfl⟩ c hc

theorem common_iff {T : List (String × Vars M)} {v : String} {names : List String} {ms : List (Vars M)} (h : List.Forall₂ (fun s m => pyItem T s = .ok m) names ms) :
    CommonVar names T v ↔ ∃ xs, ms.mapM (pyGet? v) = some xs := by
  rw [mapM_isSome_option]
  induction h with
  | nil => exact ⟨fun _ a h => by simp at h, fun _ s h => by simp at h⟩
  | @cons s m names ms h _ ih =>
    constructor
    · intro hc a ha
      rcases List.mem_cons.mp ha with rfl | ha
      · obtain ⟨m', x, h1, h2⟩ := hc s (by simp)
        rw [h] at h1
        cases h1
        unfold pyItem at h2
        cases hg : pyGet? v a with
        | none => rw [hg] at h2; cases h2
        | some b => exact ⟨b, rfl⟩
      · exact ih.mp (fun s' hs' => hc s' (by simp [hs'])) a ha
    · intro hm s' hs'
      rcases List.mem_cons.mp hs' with rfl | hs'
      · obtain ⟨b, hb⟩ := hm m (by simp)
        exact ⟨m, b, h, by unfold pyItem; rw [hb]⟩
      · exact ih.mpr (fun a ha => hm a (by simp [ha])) s' hs'

/-- The values of a per-variable metric whose formula `F` never fails: for the variables common to all statistics, the formula applied to their means. -/
theorem perVariableValues_get {T : List (String × Vars M)} {names : List String} {ms : List (Vars M)} (hne : names ≠ []) (h : List.Forall₂ (fun s m => pyItem T s = .ok m) names ms)
    {g : List (String × M) → Except Err M} {F : List M → M} (hg : ∀ xs, xs.length = names.length → g (names.zip xs) = .ok (F xs)) :
    ∃ r, perVariableValues names g T = .ok r ∧ ∀ v, pyGet? v r = (ms.mapM (pyGet? v)).map F := by
  have hval : ∀ v xs, ms.mapM (pyGet? v) = some xs → valueOfVar names g T v = .ok (F xs) := by
    intro v xs hxs
    unfold valueOfVar
    rw [row_of v h, hxs]
    exact hg xs (by rw [mapM_length_option hxs, h.length_eq])
  obtain ⟨r, hr⟩ := perVariable_ok (g := g) (sv := T) hne (fun s hs => by
    obtain ⟨i, hi, rfl⟩ := List.getElem_of_mem hs
    have := h.get (i := i) hi (h.length_eq ▸ hi)
    exact ⟨_, this⟩) (fun v hv => by
    obtain ⟨xs, hxs⟩ := (common_iff h).mp hv
    exact ⟨_, hval v xs hxs⟩)
  refine ⟨r, hr, fun v => ?_⟩
  cases hxs : ms.mapM (pyGet? v) with
  | some xs =>
    have := perVariable_value hr ((common_iff h).mpr ⟨xs, hxs⟩)
    rw [hval v xs hxs] at this
    unfold pyItem at this
    cases hg' : pyGet? v r with
    | none => rw [hg'] at this; cases this
    | some y => rw [hg'] at this; cases this; rfl
  | none =>
    cases hg' : pyGet? v r with
    | none => rfl
    | some y =>
      obtain ⟨xs, h'⟩ := (common_iff h).mp ((perVariable_item hr).mp ⟨y, by unfold pyItem; rw [hg']⟩)
      rw [hxs] at h'
      cases h'

end values

section metrics
variable {L K : Type} [DecidableEq L] [Field K] [LinearOrder K] [IsStrictOrderedRing K] {agg : Aggregator L (FV K)} {p t : Vars (StatVar L (FV K))}

/-- The means of a statistic. -/
noncomputable def meansOf (s : FStatistic L K) (agg : Aggregator L (FV K)) (p t : Vars (StatVar L (FV K))) : Except Err (Vars (DA L (FV K))) := do
  let v ← s.compute p t
  meanVars agg v

theorem meansOf_mirrored (hagg : agg.RespectsSame) {s s' : FStatistic L K} (h : Mirrored s s' p t) : SameOutcome VarsSame (meansOf s agg p t) (meansOf s' agg t p) :=
  SameOutcome.bind h (fun _ _ hxy => meanVars_same hagg hxy)

theorem metricAlone_means (m : FMetric L K) : metricAlone m agg p t = (do
    let means ← m.statistics.mapM (fun ks => do
      let mean ← meansOf ks.2 agg p t
      return (ks.1, mean))
    m.valuesFromMeanStatistics means) := by
  unfold metricAlone meansOf
  simp only [bind_assoc]

variable {k1 k2 k3 k4 : String} {s1 s2 s3 s4 : FStatistic L K}

theorem metric2_ok {f} {A B : Vars (DA L (FV K))} (h12 : k1 ≠ k2) (h1 : meansOf s1 agg p t = .ok A) (h2 : meansOf s2 agg p t = .ok B) :
    ∃ r, metricAlone (metric2 (k1, s1) (k2, s2) f) agg p t = .ok r ∧ ∀ v, pyGet? v r = (pyGet? v A).bind (fun a => (pyGet? v B).map (fun b => f a b)) := by
  rw [metricAlone_means]
  obtain ⟨r, hr, hv⟩ := perVariableValues_get (T := [(k1, A), (k2, B)]) (names := [k1, k2]) (ms := [A, B]) (by simp)
    (.cons (item_hd _ _ _) (.cons (by rw [item_tl h12.symm, item_hd]) .nil))
    (g := fun xs => do
      let x ← pyItem xs k1
      let y ← pyItem xs k2
      return f x y) (F := fun xs => match xs with
        | [a, b] => f a b
        | _ => DA.scalar FV.nan) (by
      intro xs hl
      match xs, hl with
      | [a, b], _ =>
        show (do
          let x ← pyItem [(k1, a), (k2, b)] k1
          let y ← pyItem [(k1, a), (k2, b)] k2
          return f x y : Except Err _) = _
        rw [item_hd, item_tl h12.symm, item_hd]; rfl)
  refine ⟨r, ?_, fun v => ?_⟩
  · rw [show (metric2 (k1, s1) (k2, s2) f).statistics = [(k1, s1), (k2, s2)] from rfl]
    rw [List.mapM_cons, List.mapM_cons, List.mapM_nil, h1, h2]
    exact hr
  · rw [hv, List.mapM_cons, List.mapM_cons, List.mapM_nil]
    cases pyGet? v A <;> cases pyGet? v B <;> rfl

theorem metric2_inv {f} {r : Vars (DA L (FV K))} (h : metricAlone (metric2 (k1, s1) (k2, s2) f) agg p t = .ok r) :
    (∃ A, meansOf s1 agg p t = .ok A) ∧ ∃ B, meansOf s2 agg p t = .ok B := by
  rw [metricAlone_means] at h
  obtain ⟨means, hm, -⟩ := bind_ok_iff.mp h
  have hall := mapM_mem _ _ _ hm
  refine ⟨?_, ?_⟩
  · obtain ⟨y, -, hy⟩ := hall (k1, s1) (by simp [metric2, perVariableMetric])
    obtain ⟨A, hA, -⟩ := bind_ok_iff.mp hy
    exact ⟨A, hA⟩
  · obtain ⟨y, -, hy⟩ := hall (k2, s2) (by simp [metric2, perVariableMetric])
    obtain ⟨A, hA, -⟩ := bind_ok_iff.mp hy
    exact ⟨A, hA⟩

theorem metric3_ok {f} {A B C : Vars (DA L (FV K))} (h12 : k1 ≠ k2) (h13 : k1 ≠ k3) (h23 : k2 ≠ k3) (h1 : meansOf s1 agg p t = .ok A) (h2 : meansOf s2 agg p t = .ok B)
    (h3 : meansOf s3 agg p t = .ok C) : ∃ r, metricAlone (metric3 (k1, s1) (k2, s2) (k3, s3) f) agg p t = .ok r ∧
      ∀ v, pyGet? v r = (pyGet? v A).bind (fun a => (pyGet? v B).bind (fun b => (pyGet? v C).map (fun c => f a b c))) := by
  rw [metricAlone_means]
  obtain ⟨r, hr, hv⟩ := perVariableValues_get (T := [(k1, A), (k2, B), (k3, C)]) (names := [k1, k2, k3]) (ms := [A, B, C]) (by simp)
    (.cons (item_hd _ _ _) (.cons (by rw [item_tl h12.symm, item_hd]) (.cons (by rw [item_tl h13.symm, item_tl h23.symm, item_hd]) .nil)))
    (g := fun xs => do
      let x ← pyItem xs k1
      let y ← pyItem xs k2
      let z ← pyItem xs k3
      return f x y z) (F := fun xs => match xs with
        | [a, b, c] => f a b c
        | _ => DA.scalar FV.nan) (by
      intro xs hl
      match xs, hl with
      | [a, b, c], _ =>
        show (do
          let x ← pyItem [(k1, a), (k2, b), (k3, c)] k1
          let y ← pyItem [(k1, a), (k2, b), (k3, c)] k2
          let z ← pyItem [(k1, a), (k2, b), (k3, c)] k3
          return f x y z : Except Err _) = _
        rw [item_hd, item_tl h12.symm, item_hd, item_tl h13.symm, item_tl h23.symm, item_hd]; rfl)
  refine ⟨r, ?_, fun v => ?_⟩
  · rw [show (metric3 (k1, s1) (k2, s2) (k3, s3) f).statistics = [(k1, s1), (k2, s2), (k3, s3)] from rfl]
    rw [List.mapM_cons, List.mapM_cons, List.mapM_cons, List.mapM_nil, h1, h2, h3]
    exact hr
  · rw [hv, List.mapM_cons, List.mapM_cons, List.mapM_cons, List.mapM_nil]
    cases pyGet? v A <;> cases pyGet? v B <;> cases pyGet? v C <;> rfl

theorem metric3_inv {f} {r : Vars (DA L (FV K))} (h : metricAlone (metric3 (k1, s1) (k2, s2) (k3, s3) f) agg p t = .ok r) :
    (∃ A, meansOf s1 agg p t = .ok A) ∧ (∃ B, meansOf s2 agg p t = .ok B) ∧ ∃ C, meansOf s3 agg p t = .ok C := by
  rw [metricAlone_means] at h
  obtain ⟨means, hm, -⟩ := bind_ok_iff.mp h
  have hall : ∀ ks ∈ (metric3 (k1, s1) (k2, s2) (k3, s3) f).statistics, ∃ A, meansOf ks.2 agg p t = .ok A := by
    intro ks hks
    obtain ⟨y, -, hy⟩ := mapM_mem _ _ _ hm ks hks
    obtain ⟨A, hA, -⟩ := bind_ok_iff.mp hy
    exact ⟨A, hA⟩
  exact ⟨hall (k1, s1) (by simp [metric3, perVariableMetric]), hall (k2, s2) (by simp [metric3, perVariableMetric]), hall (k3, s3) (by simp [metric3, perVariableMetric])⟩

theorem metric4_ok {f} {A B C D : Vars (DA L (FV K))} (h12 : k1 ≠ k2) (h13 : k1 ≠ k3) (h23 : k2 ≠ k3) (h14 : k1 ≠ k4) (h24 : k2 ≠ k4) (h34 : k3 ≠ k4)
    (h1 : meansOf s1 agg p t = .ok A) (h2 : meansOf s2 agg p t = .ok B) (h3 : meansOf s3 agg p t = .ok C) (h4 : meansOf s4 agg p t = .ok D) :
    ∃ r, metricAlone (metric4 (k1, s1) (k2, s2) (k3, s3) (k4, s4) f) agg p t = .ok r ∧
      ∀ v, pyGet? v r = (pyGet? v A).bind (fun a => (pyGet? v B).bind (fun b => (pyGet? v C).bind (fun c => (pyGet? v D).map (fun d => f a b c d)))) := by
  rw [metricAlone_means]
  obtain ⟨r, hr, hv⟩ := perVariableValues_get (T := [(k1, A), (k2, B), (k3, C), (k4, D)]) (names := [k1, k2, k3, k4]) (ms := [A, B, C, D]) (by simp)
    (.cons (item_hd _ _ _) (.cons (by rw [item_tl h12.symm, item_hd]) (.cons (by rw [item_tl h13.symm, item_tl h23.symm, item_hd]) (.cons (by rw [item_tl h14.symm, item_tl h24.symm, item_tl h34.symm, item_hd]) .nil))))
    (g := fun xs => do
      let x ← pyItem xs k1
      let y ← pyItem xs k2
      let z ← pyItem xs k3
      let w ← pyItem xs k4
      return f x y z w) (F := fun xs => match xs with
        | [a, b, c, d] => f a b c d
        | _ => DA.scalar FV.nan) (by
      intro xs hl
      match xs, hl with
      | [a, b, c, d], _ =>
        show (do
          let x ← pyItem [(k1, a), (k2, b), (k3, c), (k4, d)] k1
          let y ← pyItem [(k1, a), (k2, b), (k3, c), (k4, d)] k2
          let z ← pyItem [(k1, a), (k2, b), (k3, c), (k4, d)] k3
          let w ← pyItem [(k1, a), (k2, b), (k3, c), (k4, d)] k4
          return f x y z w : Except Err _) = _
        rw [item_hd, item_tl h12.symm, item_hd, item_tl h13.symm, item_tl h23.symm, item_hd, item_tl h14.symm, item_tl h24.symm, item_tl h34.symm, item_hd]; rfl)
  refine ⟨r, ?_, fun v => ?_⟩
  · rw [show (metric4 (k1, s1) (k2, s2) (k3, s3) (k4, s4) f).statistics = [(k1, s1), (k2, s2), (k3, s3), (k4, s4)] from rfl]
    rw [List.mapM_cons, List.mapM_cons, List.mapM_cons, List.mapM_cons, List.mapM_nil, h1, h2, h3, h4]
    exact hr
  · rw [hv, List.mapM_cons, List.mapM_cons, List.mapM_cons, List.mapM_cons, List.mapM_nil]
    cases pyGet? v A <;> cases pyGet? v B <;> cases pyGet? v C <;> cases pyGet? v D <;> rfl

theorem metric4_inv {f} {r : Vars (DA L (FV K))} (h : metricAlone (metric4 (k1, s1) (k2, s2) (k3, s3) (k4, s4) f) agg p t = .ok r) :
    (∃ A, meansOf s1 agg p t = .ok A) ∧ (∃ B, meansOf s2 agg p t = .ok B) ∧ (∃ C, meansOf s3 agg p t = .ok C) ∧ ∃ D, meansOf s4 agg p t = .ok D := by
  rw [metricAlone_means] at h
  obtain ⟨means, hm, -⟩ := bind_ok_iff.mp h
  have hall : ∀ ks ∈ (metric4 (k1, s1) (k2, s2) (k3, s3) (k4, s4) f).statistics, ∃ A, meansOf ks.2 agg p t = .ok A := by
    intro ks hks
    obtain ⟨y, -, hy⟩ := mapM_mem _ _ _ hm ks hks
    obtain ⟨A, hA, -⟩ := bind_ok_iff.mp hy
    exact ⟨A, hA⟩
  exact ⟨hall (k1, s1) (by simp [metric4, perVariableMetric]), hall (k2, s2) (by simp [metric4, perVariableMetric]), hall (k3, s3) (by simp [metric4, perVariableMetric]),
    hall (k4, s4) (by simp [metric4, perVariableMetric])⟩

end metrics
end WBX
