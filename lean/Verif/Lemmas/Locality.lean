import Verif.Spec.Locality
import Verif.Props.MetricsBase
import Verif.Props.Wrappers
import Verif.Lemmas.PipelineState

set_option linter.unusedSectionVars false

namespace WBX
open DA
variable {L K : Type} [DecidableEq L] [Field K] [LinearOrder K] [IsStrictOrderedRing K]
variable {V W U : Type} {c d : Dim} {S : Finset L} {m : DA L Bool}

theorem DA.ext' {a b : DA L V} (h1 : a.dims = b.dims) (h2 : ∀ k, a.coords k = b.coords k) (h3 : a.val = b.val) : a = b := by
  cases a; cases b
  simp only at h1 h2 h3
  rw [h1, h3, funext h2]

theorem chunk_map (f : V → W) (a : StatVar L V) : (a.map f).chunk c S = (a.chunk c S).map f := rfl

theorem zip_restrict (f : V → W → U) (a : DA L V) (b : DA L W) :
    (DA.zipWith f a b).restrict c S = DA.zipWith f (a.restrict c S) (b.restrict c S) := by
  refine DA.ext' rfl ?_ rfl
  intro k
  simp only [DA.zipWith, DA.restrict, DA.joinCoords]
  split_ifs <;> first | rfl | (ext x; simp only [Finset.mem_inter]; tauto)

theorem combineMask_restrict {m1 m2 : Option (DA L Bool)} (h1 : m1 = none ∨ m1 = some m) (h2 : m2 = none ∨ m2 = some m) :
    (combineMask m1 m2).map (DA.restrict c S) = combineMask (m1.map (DA.restrict c S)) (m2.map (DA.restrict c S)) := by
  rcases h1 with rfl | rfl <;> rcases h2 with rfl | rfl <;> simp [combineMask]

theorem combineMask_in {m1 m2 : Option (DA L Bool)} (h1 : m1 = none ∨ m1 = some m) (h2 : m2 = none ∨ m2 = some m) :
    combineMask m1 m2 = none ∨ combineMask m1 m2 = some m := by
  rcases h1 with rfl | rfl <;> rcases h2 with rfl | rfl <;> simp [combineMask]

theorem chunk_zip {a : StatVar L V} {b : StatVar L W} (ha : MaskIn m a) (hb : MaskIn m b) (f : V → W → U) :
    (a.zipWith f b).chunk c S = (a.chunk c S).zipWith f (b.chunk c S) := by
  unfold StatVar.chunk StatVar.zipWith
  rw [StatVar.mk.injEq]
  exact ⟨zip_restrict f _ _, combineMask_restrict ha hb⟩

theorem maskIn_zip {a : StatVar L V} {b : StatVar L W} (ha : MaskIn m a) (hb : MaskIn m b) (f : V → W → U) : MaskIn m (a.zipWith f b) :=
  combineMask_in ha hb

theorem maskIn_map {a : StatVar L V} (ha : MaskIn m a) (f : V → W) : MaskIn m (a.map f) := ha

/-- `h'` has what is needed of `h` for the chunk `S` along `c`: only the labels along `c` may differ, and not those in the chunk. -/
structure CutOf (c : Dim) (S : Finset L) (h h' : DA L W) : Prop where
  dims : h'.dims = h.dims
  val : h'.val = h.val
  coords : ∀ k, k ≠ c → h'.coords k = h.coords k
  chunk : ∀ l ∈ S, (l ∈ h'.coords c ↔ l ∈ h.coords c)
  sub : ∀ l ∈ h'.coords c, l ∈ h.coords c

theorem CutOf.refl (S : Finset L) (h : DA L W) : CutOf c S h h := ⟨rfl, rfl, fun _ _ => rfl, fun _ _ => Iff.rfl, fun _ h => h⟩

theorem CutOf.map {h h' : DA L W} (H : CutOf c S h h') (g : W → U) : CutOf c S (h.map g) (h'.map g) :=
  ⟨H.dims, by simp only [DA.map, H.val], H.coords, H.chunk, H.sub⟩

/-- An array that is the same for all chunks, or cut on its own. -/
theorem chunk_zipCut {a : StatVar L V} (hc : c ∈ a.arr.dims) {h h' : DA L W} (H : CutOf c S h h') (f : V → W → U) :
    (a.zipWith f ⟨h, none⟩).chunk c S = (a.chunk c S).zipWith f ⟨h', none⟩ := by
  unfold StatVar.chunk StatVar.zipWith
  rw [StatVar.mk.injEq]
  refine ⟨DA.ext' ?_ ?_ ?_, ?_⟩
  · simp only [DA.zipWith, DA.restrict, H.dims]
  · intro k
    simp only [DA.zipWith, DA.restrict, DA.joinCoords, H.dims]
    by_cases hk : k = c
    · subst hk
      simp only [hc, if_true]
      split_ifs with h1
      · ext x
        simp only [Finset.mem_inter]
        constructor
        · rintro ⟨⟨h1, h2⟩, h3⟩
          exact ⟨⟨h1, h3⟩, (H.chunk x h3).mpr h2⟩
        · rintro ⟨⟨h1, h3⟩, h2⟩
          exact ⟨⟨h1, (H.chunk x h3).mp h2⟩, h3⟩
      · rfl
    · simp only [if_neg hk, H.coords k hk]
  · simp only [DA.zipWith, DA.restrict, H.val]
  · cases a.mask <;> rfl

/-- An array that is the same for all chunks. -/
theorem chunk_zipFixed {a : StatVar L V} (hc : c ∈ a.arr.dims) {h : DA L W} (f : V → W → U) :
    (a.zipWith f ⟨h, none⟩).chunk c S = (a.chunk c S).zipWith f ⟨h, none⟩ :=
  chunk_zipCut hc (CutOf.refl S h) f

theorem maskIn_none (h : DA L W) : MaskIn m (⟨h, none⟩ : StatVar L W) := Or.inl rfl

theorem dropMask_restrict (m1 : Option (DA L Bool)) : (dropMask d m1).map (DA.restrict c S) = dropMask d (m1.map (DA.restrict c S)) := by
  cases m1 with
  | none => rfl
  | some m1 =>
    simp only [dropMask, Option.map_some]
    by_cases h : d ∈ m1.dims
    · rw [if_pos h, if_pos (by exact h)]; rfl
    · rw [if_neg h, if_neg (by exact h)]; rfl

theorem chunk_reduce (hd : d ≠ c) (f : Finset L → (L → V) → W) (a : StatVar L V) :
    (a.reduce d f).chunk c S = (a.chunk c S).reduce d f := by
  unfold StatVar.chunk StatVar.reduce
  rw [StatVar.mk.injEq]
  refine ⟨DA.ext' rfl (fun _ => rfl) ?_, dropMask_restrict _⟩
  funext e
  simp only [DA.restrict, if_neg hd]

theorem maskIn_reduce {a : StatVar L V} (ha : MaskIn m a) (d : Dim) (f : Finset L → (L → V) → W) : MaskIn m (a.reduce d f) := by
  unfold MaskIn StatVar.reduce at *
  rcases ha with h | h
  · left; simp [h, dropMask]
  · by_cases hd : d ∈ m.dims
    · left; simp [h, dropMask, hd]
    · right; simp [h, dropMask, hd]

theorem chunk_dims (a : StatVar L V) : (a.chunk c S).arr.dims = a.arr.dims := rfl

theorem maskIn_chunk {a : StatVar L V} (ha : MaskIn m a) : MaskIn (m.restrict c S) (a.chunk c S) := by
  unfold MaskIn StatVar.chunk at *
  rcases ha with h | h
  · left; simp [h]
  · right; simp [h]

/-- A function of two arrays that commutes with cutting. -/
def LocalFn (c : Dim) (f : StatVar L (FV K) → StatVar L (FV K) → Except Err (StatVar L (FV K))) : Prop :=
  ∀ (S : Finset L) (m : DA L Bool) (p t s : StatVar L (FV K)), MaskIn m p → MaskIn m t → c ∈ p.arr.dims → c ∈ t.arr.dims → f p t = .ok s →
    f (p.chunk c S) (t.chunk c S) = .ok (s.chunk c S)

theorem pyGet?_chunkVars (vs : Vars (StatVar L V)) (k : String) :
    pyGet? k (chunkVars c S vs) = (pyGet? k vs).map (StatVar.chunk c S) := pyGet?_map _ _ _

theorem perVariable_local {name : String} {f : StatVar L (FV K) → StatVar L (FV K) → Except Err (Option (Option (StatVar L (FV K))))}
    (h : ∀ (S : Finset L) (m : DA L Bool) (p t : StatVar L (FV K)) (s : Option (Option (StatVar L (FV K)))), MaskIn m p → MaskIn m t →
      c ∈ p.arr.dims → c ∈ t.arr.dims → f p t = .ok s → f (p.chunk c S) (t.chunk c S) = .ok (s.map (fun x => x.map (StatVar.chunk c S)))) :
    (perVariableStatistic name f).ChunkLocal c := by
  intro S p t out hpt hout
  obtain ⟨dP, dT, μ, mP, mT⟩ := hpt
  change perVariableLoop f t p = .ok out at hout
  change perVariableLoop f (chunkVars c S t) (chunkVars c S p) = .ok (chunkStats c S out)
  induction p generalizing out with
  | nil =>
    simp only [perVariableLoop, Except.ok.injEq] at hout
    subst hout
    rfl
  | cons vp p ih =>
    obtain ⟨v, a⟩ := vp
    have dP' : ∀ v a, (v, a) ∈ p → c ∈ a.arr.dims := fun v a ha => dP v a (List.mem_cons_of_mem _ ha)
    have mP' : ∀ v a, (v, a) ∈ p → MaskIn (μ v) a := fun v a ha => mP v a (List.mem_cons_of_mem _ ha)
    rw [perVariableLoop] at hout
    change perVariableLoop f (chunkVars c S t) ((v, a.chunk c S) :: chunkVars c S p) = _
    rw [perVariableLoop, pyGet?_chunkVars]
    cases ht : pyGet? v t with
    | none =>
      rw [ht] at hout
      exact ih _ dP' mP' hout
    | some b =>
      rw [ht] at hout
      simp only [Option.map_some]
      dsimp only at hout
      obtain ⟨r, hr, hout⟩ := bind_ok_iff.mp hout
      obtain ⟨rs, hrs, hout⟩ := bind_ok_iff.mp hout
      have hb := pyGet?_mem ht
      have h1 := h S (μ v) a b r (mP v a (by simp)) (mT v b hb) (dP v a (by simp)) (dT v b hb) hr
      rw [h1]
      have h2 := ih _ dP' mP' hrs
      refine bind_ok_iff.mpr ⟨_, rfl, ?_⟩
      rw [h2]
      refine bind_ok_iff.mpr ⟨_, rfl, ?_⟩
      cases r with
      | none =>
        simp only [pure, Except.pure, Except.ok.injEq] at hout
        subst hout
        rfl
      | some x =>
        simp only [pure, Except.pure, Except.ok.injEq] at hout
        subst hout
        rfl

theorem statOfE_local {name : String} {f : StatVar L (FV K) → StatVar L (FV K) → Except Err (StatVar L (FV K))} (h : LocalFn c f) :
    (statOfE name f).ChunkLocal c := by
  refine perVariable_local ?_
  intro S m p t s hp ht dp dt hs
  obtain ⟨x, hx, hs⟩ := bind_ok_iff.mp hs
  injection hs with hs
  subst hs
  exact bind_ok_iff.mpr ⟨_, h S m p t x hp ht dp dt hx, rfl⟩

theorem statOf_local {name : String} {f : StatVar L (FV K) → StatVar L (FV K) → StatVar L (FV K)}
    (h : ∀ (S : Finset L) (m : DA L Bool) (p t : StatVar L (FV K)), MaskIn m p → MaskIn m t → c ∈ p.arr.dims → c ∈ t.arr.dims →
      f (p.chunk c S) (t.chunk c S) = (f p t).chunk c S) : (statOf name f).ChunkLocal c := by
  refine perVariable_local ?_
  intro S m p t s hp ht dp dt hs
  injection hs with hs
  subst hs
  rw [h S m p t hp ht dp dt]
  rfl

end WBX
