import Verif.Model.MaskLayout
import Verif.Props.Spatial

/-!
# C39: the averaged mask is assigned by position
-/

set_option linter.unusedSectionVars false

namespace WBX
open Classical DA
variable {L K : Type} [DecidableEq L] [Field K] [LinearOrder K] [IsStrictOrderedRing K] {labels : Dim → List L} {others : List Dim}
  {f : ℕ → ℕ → (ℕ → ℕ → FV K) → ℕ → ℕ → FV K} {m : DA L Bool}

theorem newMaskOrder_of {tl : List Dim} (ho : ∀ d ∈ others, d ≠ "latitude" ∧ d ≠ "longitude") (ht : tl = ["latitude", "longitude"] ∨ tl = ["longitude", "latitude"]) :
    newMaskOrder (others ++ tl) = others ++ ["latitude", "longitude"] := by
  unfold newMaskOrder
  rw [List.filter_append, List.filter_eq_self.mpr (fun d hd => by simpa using ho d hd)]
  rcases ht with rfl | rfl <;> simp

theorem positionOf_same {source target : List Dim} {e : Dim → L} {d : Dim} (h : target[source.idxOf d]? = some d) (hd : e d ∈ labels d) : positionOf labels source target e d = e d := by
  unfold positionOf
  rw [h]
  dsimp only
  have hi : (labels d).idxOf (e d) < (labels d).length := List.idxOf_lt_length_of_mem hd
  have : (if (labels d).length = 1 then 0 else (labels d).idxOf (e d)) = (labels d).idxOf (e d) := by
    split_ifs with h1
    · omega
    · rfl
  rw [this, List.getElem?_eq_getElem hi]
  simp

theorem positionOf_other {source target : List Dim} {e : Dim → L} {d : Dim} (h : target[source.idxOf d]? = none) : positionOf labels source target e d = e d := by
  unfold positionOf
  rw [h]

/-- C39: if latitude and longitude are the last dimensions of the mask, in this order, then the new mask is the averaged mask, label by label. -/
theorem C39_mask_layout (ho : ∀ d ∈ others, d ≠ "latitude" ∧ d ≠ "longitude") {new : DA L Bool} (h : averageMask ⟨labels "latitude", labels "longitude"⟩ f m = .ok new) :
    ∃ r, averageMaskAt labels (others ++ ["latitude", "longitude"]) f m = .ok r ∧ r.dims = new.dims ∧ r.coords = new.coords ∧
      ∀ e : Dim → L, (∀ d ∈ others ++ ["latitude", "longitude"], e d ∈ labels d) → r.val e = new.val e := by
  refine ⟨{ new with val := fun e => new.val (positionOf labels (others ++ ["latitude", "longitude"]) (others ++ ["latitude", "longitude"]) e) }, bind_ok_iff.mpr ⟨new, h, ?_⟩, rfl, rfl, ?_⟩
  · rw [newMaskOrder_of ho (.inl rfl)]
    unfold assignByPosition
    rw [if_pos]
    refine ⟨rfl, fun st hst => .inl ?_⟩
    rw [show st.1 = st.2 from ?_]
    rw [List.mem_iff_getElem?] at hst
    obtain ⟨i, hi⟩ := hst
    rw [List.getElem?_zip_eq_some] at hi
    exact Option.some.inj (hi.1.symm.trans hi.2)
  · intro e he
    show new.val (positionOf labels (others ++ ["latitude", "longitude"]) (others ++ ["latitude", "longitude"]) e) = new.val e
    congr 1
    funext d
    by_cases hd : d ∈ others ++ ["latitude", "longitude"]
    · refine positionOf_same ?_ (he d hd)
      rw [List.getElem?_eq_getElem (List.idxOf_lt_length_of_mem hd)]
      simp
    · refine positionOf_other ?_
      rw [List.idxOf_eq_length hd]
      simp

/-- C39 (finding): with longitude before latitude, as in many datasets, averaging a masked array raises `ValueError` unless there are as many latitudes as longitudes … -/
theorem C39_mask_layout_raises (ho : ∀ d ∈ others, d ≠ "latitude" ∧ d ≠ "longitude") (hne : (labels "latitude").length ≠ (labels "longitude").length) :
    averageMaskAt labels (others ++ ["longitude", "latitude"]) f m = .error .valueError := by
  unfold averageMaskAt
  rw [newMaskOrder_of ho (.inr rfl)]
  unfold averageMask
  split_ifs with h
  · show assignByPosition labels _ _ _ = _
    unfold assignByPosition
    rw [if_neg]
    rintro ⟨-, hall⟩
    have h1 := hall ("latitude", "longitude") (by rw [List.zip_append rfl]; simp)
    have h2 := hall ("longitude", "latitude") (by rw [List.zip_append rfl]; simp)
    dsimp only at h1 h2
    omega
  · rfl

/-- C39 (finding): … and then the mask is silently transposed: the cell at latitude number `i` and longitude number `j` gets the value of latitude number `j` and longitude number `i`. -/
theorem C39_mask_transposed (ho : ∀ d ∈ others, d ≠ "latitude" ∧ d ≠ "longitude") (hno : others.Nodup) (hnd : (labels "latitude").Nodup ∧ (labels "longitude").Nodup)
    (heq : (labels "latitude").length = (labels "longitude").length)
    {new : DA L Bool} (h : averageMask ⟨labels "latitude", labels "longitude"⟩ f m = .ok new) :
    ∃ r, averageMaskAt labels (others ++ ["longitude", "latitude"]) f m = .ok r ∧
      ∀ (e e' : Dim → L) (i j : ℕ), (∀ d ∈ others, e d ∈ labels d) → (labels "latitude")[i]? = some (e "latitude") → (labels "longitude")[j]? = some (e "longitude") →
        (labels "latitude")[j]? = some (e' "latitude") → (labels "longitude")[i]? = some (e' "longitude") → (∀ d, d ≠ "latitude" → d ≠ "longitude" → e' d = e d) → r.val e = new.val e' := by
  refine ⟨{ new with val := fun e => new.val (positionOf labels (others ++ ["latitude", "longitude"]) (others ++ ["longitude", "latitude"]) e) }, bind_ok_iff.mpr ⟨new, h, ?_⟩, ?_⟩
  · rw [newMaskOrder_of ho (.inr rfl)]
    unfold assignByPosition
    rw [if_pos]
    refine ⟨by simp, fun st hst => .inl ?_⟩
    rw [List.zip_append rfl] at hst
    rcases List.mem_append.mp hst with hst | hst
    · rw [List.mem_iff_getElem?] at hst
      obtain ⟨i, hi⟩ := hst
      rw [List.getElem?_zip_eq_some] at hi
      rw [Option.some.inj (hi.1.symm.trans hi.2)]
    · simp only [List.zip_cons_cons, List.zip_nil_right, List.mem_cons, List.not_mem_nil, or_false] at hst
      rcases hst with rfl | rfl
      · exact heq
      · exact heq.symm
  · intro e e' i j hoe hi hj hj' hi' hrest
    show new.val (positionOf labels (others ++ ["latitude", "longitude"]) (others ++ ["longitude", "latitude"]) e) = new.val e'
    have hlat : "latitude" ∉ others := fun hm => (ho _ hm).1 rfl
    have hlon : "longitude" ∉ others := fun hm => (ho _ hm).2 rfl
    have pos : ∀ (t : Dim) (k : ℕ), (labels t).Nodup → (labels t)[k]? = some (e t) → (labels t).idxOf (e t) = k := by
      intro t k hn hk
      obtain ⟨hlt, hk⟩ := List.getElem?_eq_some_iff.mp hk
      rw [← hk, hn.idxOf_getElem]
    have length : ∀ (t : Dim) (k : ℕ) (x : L), (labels t)[k]? = some x → k < (labels t).length := fun t k x hk => (List.getElem?_eq_some_iff.mp hk).1
    congr 1
    funext d
    by_cases h1 : d = "latitude"
    · subst h1
      unfold positionOf
      rw [show (others ++ ["longitude", "latitude"])[(others ++ ["latitude", "longitude"]).idxOf "latitude"]? = some "longitude" by
        rw [List.idxOf_append_of_notMem hlat]; simp]
      dsimp only
      rw [pos "longitude" j hnd.2 hj]
      have : (if (labels "latitude").length = 1 then 0 else j) = j := by
        have := length _ _ _ hj'
        split_ifs <;> omega
      rw [this, hj']
      rfl
    · by_cases h2 : d = "longitude"
      · subst h2
        unfold positionOf
        rw [show (others ++ ["longitude", "latitude"])[(others ++ ["latitude", "longitude"]).idxOf "longitude"]? = some "latitude" by
          rw [List.idxOf_append_of_notMem hlon]
          rw [List.getElem?_append_right (by omega), Nat.add_sub_cancel_left]
          rfl]
        dsimp only
        rw [pos "latitude" i hnd.1 hi]
        have : (if (labels "longitude").length = 1 then 0 else i) = i := by
          have := length _ _ _ hi'
          split_ifs <;> omega
        rw [this, hi']
        rfl
      · rw [hrest d h1 h2]
        by_cases hd : d ∈ others
        · refine positionOf_same ?_ (hoe d hd)
          rw [List.idxOf_append_of_mem hd, List.getElem?_append_left (List.idxOf_lt_length_of_mem hd), List.getElem?_eq_getElem (List.idxOf_lt_length_of_mem hd)]
          simp
        · refine positionOf_other ?_
          rw [List.idxOf_eq_length (by simp [hd, h1, h2])]
          simp

/-! ### Concrete cases -/

/-- A mask on two latitudes and two longitudes, valid except at latitude 0 and longitude 1. -/
def exHole : DA ℕ Bool where
  dims := {"latitude", "longitude"}
  coords := fun _ => {0, 1}
  val := fun e => !(e "latitude" == 0 && e "longitude" == 1)

/-- Size 1 leaves the mask as it is, if latitude comes first; otherwise the hole is at latitude 1 and longitude 0 afterwards. -/
example : ∃ new r r', averageMask (K := ℚ) ⟨[0, 1], [0, 1]⟩ (fun _ _ x => x) exHole = .ok new ∧ averageMaskAt (K := ℚ) (fun _ => [0, 1]) ["time", "latitude", "longitude"] (fun _ _ x => x) exHole = .ok r ∧
    averageMaskAt (K := ℚ) (fun _ => [0, 1]) ["time", "longitude", "latitude"] (fun _ _ x => x) exHole = .ok r' ∧
    new.val (fun d => if d = "latitude" then 0 else 1) = false ∧ r.val (fun d => if d = "latitude" then 0 else 1) = false ∧
    r'.val (fun d => if d = "latitude" then 0 else 1) = true ∧ r'.val (fun d => if d = "latitude" then 1 else 0) = false := by
  obtain ⟨new, hnew⟩ : ∃ new, averageMask (K := ℚ) ⟨[0, 1], [0, 1]⟩ (fun _ _ x => x) exHole = .ok new := by
    unfold averageMask
    rw [if_pos (by simp [exHole])]
    exact ⟨_, rfl⟩
  have hval : ∀ i j : ℕ, i < 2 → j < 2 → new.val (fun d => if d = "latitude" then i else j) = !(i == 0 && j == 1) := by
    intro i j hi hj
    unfold averageMask at hnew
    rw [if_pos (by simp [exHole])] at hnew
    cases hnew
    interval_cases i <;> interval_cases j <;> simp [gridApply, DA.map, exHole, setLabel, isclose1, FV.ofBool, FV.one_def, FV.zero_def] <;> norm_num
  obtain ⟨r, hr, -, -, hrv⟩ := C39_mask_layout (K := ℚ) (labels := fun _ => [0, 1]) (others := ["time"]) (by simp) hnew
  obtain ⟨r', hr', hrv'⟩ := C39_mask_transposed (K := ℚ) (labels := fun _ => [0, 1]) (others := ["time"]) (by simp) (by simp) (by simp) rfl hnew
  refine ⟨new, r, r', hnew, hr, hr', ?_, ?_, ?_, ?_⟩
  · rw [hval 0 1 (by omega) (by omega)]; rfl
  · rw [hrv _ (by simp), hval 0 1 (by omega) (by omega)]; rfl
  · rw [hrv' _ (fun d => if d = "latitude" then 1 else if d = "longitude" then 0 else 1) 0 1 (by simp) (by simp) (by simp) (by simp) (by simp) (by intro d h1 h2; simp [h1, h2])]
    have : new.val (fun d => if d = "latitude" then 1 else if d = "longitude" then 0 else 1) = new.val (fun d => if d = "latitude" then 1 else 0) := by
      unfold averageMask at hnew
      rw [if_pos (by simp [exHole])] at hnew
      cases hnew
      simp [gridApply, DA.map, exHole, setLabel]
    rw [this, hval 1 0 (by omega) (by omega)]; rfl
  · rw [hrv' _ (fun d => if d = "latitude" then 0 else if d = "longitude" then 1 else 0) 1 0 (by simp) (by simp) (by simp) (by simp) (by simp) (by intro d h1 h2; simp [h1, h2])]
    have : new.val (fun d => if d = "latitude" then 0 else if d = "longitude" then 1 else 0) = new.val (fun d => if d = "latitude" then 0 else 1) := by
      unfold averageMask at hnew
      rw [if_pos (by simp [exHole])] at hnew
      cases hnew
      simp [gridApply, DA.map, exHole, setLabel]
    rw [this, hval 0 1 (by omega) (by omega)]; rfl

/-- 2 latitudes and 3 longitudes, longitude first. -/
example : averageMaskAt (K := ℚ) (fun d => if d = "latitude" then [0, 1] else [0, 1, 2]) ["time", "longitude", "latitude"] (fun _ _ x => x) exHole = .error .valueError :=
  C39_mask_layout_raises (others := ["time"]) (by simp) (by simp)

end WBX
