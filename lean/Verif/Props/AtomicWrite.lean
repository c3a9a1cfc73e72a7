import Verif.Model.AtomicWrite

/-!
# C18: `atomic_write` never exposes a partial file
-/

namespace WBX.AtomicWrite
variable {W Path Dir Byte : Type} [DecidableEq W] [DecidableEq Path] [DecidableEq Dir]

/-- The temporary paths are distinct (uuid1) and no call targets one of them. -/
structure FreshNames (c : Calls W Path Dir Byte) : Prop where
  inj : ∀ w w', c.tmp w = c.tmp w' → w = w'
  notTarget : ∀ w w', c.tmp w ≠ c.target w'

/-- What the temporary file of a call may hold in each phase. -/
def TmpOk (data : List Byte) : Phase → Option (List Byte) → Prop
  | .start, f => f = none
  | .ready, f => f = none
  | .writing n, f => f = some (data.take n) ∧ n ≤ data.length
  | .written, f => f = some data
  | .done, f => f = none
  | .failed, f => f = none
  | .failedEarly, f => f = none
  | .failedMove, f => f = some data
  | .raising, f => f = none ∨ ∃ n, f = some (data.take n)
  | .failedCleanup, f => f = none ∨ ∃ n, f = some (data.take n)
  | .crashed, f => f = none ∨ ∃ n, f = some (data.take n)

/-- The invariant of every interleaving. -/
structure Inv (c : Calls W Path Dir Byte) (s0 s : State W Path Dir Byte) : Prop where
  tmp : ∀ w, TmpOk (c.data w) (s.phase w) (s.file (c.tmp w))
  other : ∀ p, (∀ w, c.tmp w ≠ p) →
    s.file p = match s.moved.find? (fun w => decide (c.target w = p)) with
      | some w => some (c.data w)
      | none => s0.file p
  moved : ∀ w, w ∈ s.moved ↔ s.phase w = .done

theorem Inv.setPhase {c : Calls W Path Dir Byte} {s0 s : State W Path Dir Byte} (h : Inv c s0 s) (w : W) (ph : Phase)
    (hnd : s.phase w ≠ .done) (hph : ph ≠ .done) (ht : TmpOk (c.data w) ph (s.file (c.tmp w))) :
    Inv c s0 (s.setPhase w ph) := by
  refine ⟨?_, h.other, ?_⟩
  · intro w'
    by_cases hw : w' = w
    · subst hw; simpa [State.setPhase] using ht
    · simpa [State.setPhase, Function.update_of_ne hw] using h.tmp w'
  · intro w'
    by_cases hw : w' = w
    · subst hw
      simp only [State.setPhase, Function.update_self]
      exact ⟨fun hm => absurd ((h.moved w').mp hm) hnd, fun he => absurd he hph⟩
    · simpa [State.setPhase, Function.update_of_ne hw] using h.moved w'

theorem Inv.setTmp {c : Calls W Path Dir Byte} (hc : FreshNames c) {s0 s : State W Path Dir Byte} (h : Inv c s0 s) (w : W)
    (f : Option (List Byte)) (ph : Phase) (hnd : s.phase w ≠ .done) (hph : ph ≠ .done) (ht : TmpOk (c.data w) ph f) :
    Inv c s0 ((s.setFile (c.tmp w) f).setPhase w ph) := by
  refine ⟨?_, ?_, ?_⟩
  · intro w'
    by_cases hw : w' = w
    · subst hw; simpa [State.setPhase, State.setFile] using ht
    · have : c.tmp w' ≠ c.tmp w := fun he => hw (hc.inj _ _ he)
      simpa [State.setPhase, State.setFile, Function.update_of_ne hw, Function.update_of_ne this] using h.tmp w'
  · intro p hp
    have : p ≠ c.tmp w := fun he => hp w he.symm
    simpa [State.setPhase, State.setFile, Function.update_of_ne this] using h.other p hp
  · intro w'
    by_cases hw : w' = w
    · subst hw
      simp only [State.setPhase, State.setFile, Function.update_self]
      exact ⟨fun hm => absurd ((h.moved w').mp hm) hnd, fun he => absurd he hph⟩
    · simpa [State.setPhase, State.setFile, Function.update_of_ne hw] using h.moved w'

theorem Inv.step {c : Calls W Path Dir Byte} (hc : FreshNames c) {s0 s s' : State W Path Dir Byte} (h : Inv c s0 s)
    {w : W} (hs : Step c w s s') : Inv c s0 s' := by
  have ht := h.tmp w
  cases hs with
  | makedirs hp ha =>
    rw [hp] at ht
    have := h.setPhase w .ready (by simp [hp]) (by simp) ht
    exact ⟨this.tmp, this.other, this.moved⟩
  | makedirsRaises hp ha => rw [hp] at ht; exact h.setPhase w _ (by simp [hp]) (by simp) ht
  | noMakedirs hp ha => rw [hp] at ht; exact h.setPhase w _ (by simp [hp]) (by simp) ht
  | open_ hp hd => exact h.setTmp hc w _ _ (by simp [hp]) (by simp) (by simp [TmpOk])
  | openRaises hp => rw [hp] at ht; exact h.setPhase w _ (by simp [hp]) (by simp) (Or.inl ht)
  | write hp hn hm => exact h.setTmp hc w _ _ (by simp [hp]) (by simp) ⟨rfl, hm⟩
  | writeRaises hp => rw [hp] at ht; exact h.setPhase w _ (by simp [hp]) (by simp) (Or.inr ⟨_, ht.1⟩)
  | close hp => exact h.setTmp hc w _ _ (by simp [hp]) (by simp) rfl
  | remove hp => exact h.setTmp hc w _ _ (by simp [hp]) (by simp) rfl
  | removeRaises hp => rw [hp] at ht; exact h.setPhase w _ (by simp [hp]) (by simp) ht
  | moveRaises hp => rw [hp] at ht; exact h.setPhase w _ (by simp [hp]) (by simp) ht
  | crash hp =>
    refine h.setPhase w _ (by intro he; simp [he, Phase.finished] at hp) (by simp) ?_
    cases hph : s.phase w with
    | writing n => rw [hph] at ht; exact Or.inr ⟨_, ht.1⟩
    | start => rw [hph] at ht; exact Or.inl ht
    | ready => rw [hph] at ht; exact Or.inl ht
    | written => rw [hph] at ht; exact Or.inr ⟨(c.data w).length, by simpa [TmpOk] using ht⟩
    | raising => rw [hph] at ht; exact ht
    | _ => simp [hph, Phase.finished] at hp
  | @move content hp hf =>
    rw [hp] at ht
    have hcont : content = c.data w := by
      have : s.file (c.tmp w) = some (c.data w) := ht
      rw [hf] at this
      simpa using this
    subst hcont
    refine ⟨?_, ?_, ?_⟩
    · intro w'
      have hne : c.tmp w' ≠ c.target w := hc.notTarget w' w
      by_cases hw : w' = w
      · subst hw; simp [State.setPhase, State.setFile, TmpOk]
      · have : c.tmp w' ≠ c.tmp w := fun he => hw (hc.inj _ _ he)
        simpa [State.setPhase, State.setFile, Function.update_of_ne hw, Function.update_of_ne this,
          Function.update_of_ne hne] using h.tmp w'
    · intro p hp'
      have hpt : p ≠ c.tmp w := fun he => hp' w he.symm
      by_cases hpp : c.target w = p
      · subst hpp
        simp [State.setPhase, State.setFile, Function.update_of_ne hpt]
      · have hpp' : p ≠ c.target w := fun he => hpp he.symm
        have := h.other p hp'
        simpa [State.setPhase, State.setFile, Function.update_of_ne hpt, Function.update_of_ne hpp', hpp] using this
    · intro w'
      by_cases hw : w' = w
      · subst hw; simp [State.setPhase, State.setFile]
      · simpa [State.setPhase, State.setFile, Function.update_of_ne hw, hw] using h.moved w'

theorem inv_of_reachable {c : Calls W Path Dir Byte} (hc : FreshNames c) {s0 s : State W Path Dir Byte}
    (h0 : Initial c s0) (hr : Reachable c s0 s) : Inv c s0 s := by
  induction hr with
  | refl =>
    refine ⟨?_, ?_, ?_⟩
    · intro w; rw [h0.phase w, h0.fresh w]; rfl
    · intro p _; rw [h0.moved]; rfl
    · intro w; rw [h0.moved, h0.phase w]; simp
  | tail _ hn ih =>
    obtain ⟨w, hs⟩ := hn
    exact ih.step hc hs

section C18

/-- C18: at every moment of every interleaving, with calls failing or killed anywhere, a reader of a path sees the old
content or the complete data of one call to that path that has returned. -/
theorem C18_reader_sees_old_or_complete (c : Calls W Path Dir Byte) (hc : FreshNames c) (s0 s : State W Path Dir Byte)
    (h0 : Initial c s0) (hr : Reachable c s0 s) (p : Path) (hp : ∀ w, c.tmp w ≠ p) :
    s.file p = s0.file p ∨ ∃ w, c.target w = p ∧ s.phase w = .done ∧ s.file p = some (c.data w) := by
  have hi := inv_of_reachable hc h0 hr
  have := hi.other p hp
  rcases hf : s.moved.find? (fun w => decide (c.target w = p)) with _ | w
  · rw [hf] at this; exact Or.inl this
  · rw [hf] at this
    refine Or.inr ⟨w, ?_, (hi.moved w).mp (List.mem_of_find?_eq_some hf), this⟩
    simpa using List.find?_some hf

/-- C18: more precisely the content is that of the call that moved last, and the old content if no call to the path
has completed. -/
theorem C18_last_completed_wins (c : Calls W Path Dir Byte) (hc : FreshNames c) (s0 s : State W Path Dir Byte)
    (h0 : Initial c s0) (hr : Reachable c s0 s) (p : Path) (hp : ∀ w, c.tmp w ≠ p) :
    ((∀ w, c.target w = p → s.phase w ≠ .done) → s.file p = s0.file p) ∧
    (∀ w before, s.moved = w :: before → c.target w = p → s.file p = some (c.data w)) := by
  have hi := inv_of_reachable hc h0 hr
  have := hi.other p hp
  constructor
  · intro hno
    have hf : s.moved.find? (fun w => decide (c.target w = p)) = none := by
      rw [List.find?_eq_none]
      intro w hw
      simp only [decide_eq_true_eq]
      exact fun ht => hno w ht ((hi.moved w).mp hw)
    rw [hf] at this; exact this
  · intro w before hm ht
    rw [hm] at this
    simpa [ht] using this

/-- C18: once a call has returned, its path holds the complete data of a call that returned, at every later moment: the old content never
comes back and the file never disappears. -/
theorem C18_returned (c : Calls W Path Dir Byte) (hc : FreshNames c) (s0 s : State W Path Dir Byte)
    (h0 : Initial c s0) (hr : Reachable c s0 s) (w : W) (hw : s.phase w = .done) :
    ∃ w', c.target w' = c.target w ∧ s.phase w' = .done ∧ s.file (c.target w) = some (c.data w') := by
  have hi := inv_of_reachable hc h0 hr
  have := hi.other (c.target w) (fun w' => hc.notTarget w' w)
  rcases hf : s.moved.find? (fun w' => decide (c.target w' = c.target w)) with _ | w'
  · exfalso
    have := List.find?_eq_none.mp hf w ((hi.moved w).mpr hw)
    simp at this
  · rw [hf] at this
    exact ⟨w', by simpa using List.find?_some hf, (hi.moved w').mp (List.mem_of_find?_eq_some hf), this⟩

/-- C18: a call that returned has left no temporary file; a call whose write failed and whose cleanup ran has removed it;
and one that failed before opening never created it. -/
theorem C18_no_temporary_left (c : Calls W Path Dir Byte) (hc : FreshNames c) (s0 s : State W Path Dir Byte)
    (h0 : Initial c s0) (hr : Reachable c s0 s) (w : W)
    (hw : s.phase w = .done ∨ s.phase w = .failed ∨ s.phase w = .failedEarly) : s.file (c.tmp w) = none := by
  have ht := (inv_of_reachable hc h0 hr).tmp w
  rcases hw with h | h | h <;> (rw [h] at ht; exact ht)

/-- C18: files that are neither a target nor a temporary path are never touched. -/
theorem C18_other_files_untouched (c : Calls W Path Dir Byte) (hc : FreshNames c) (s0 s : State W Path Dir Byte)
    (h0 : Initial c s0) (hr : Reachable c s0 s) (p : Path) (hp : ∀ w, c.tmp w ≠ p) (hp' : ∀ w, c.target w ≠ p) :
    s.file p = s0.file p :=
  (C18_last_completed_wins c hc s0 s h0 hr p hp).1 (fun w hw => absurd hw (hp' w))

/-- C18: a failed write takes exactly the cleanup path: from the exception the only steps of the call remove the
temporary file and re-raise, fail to remove it, or are a crash; the target is not touched. -/
theorem C18_exception_only_cleans_up (c : Calls W Path Dir Byte) (hc : FreshNames c) (s s' : State W Path Dir Byte) (w : W)
    (hw : s.phase w = .raising) (hs : Step c w s s') :
    (s'.phase w = .failed ∧ s'.file (c.tmp w) = none ∨ s'.phase w = .failedCleanup ∨ s'.phase w = .crashed) ∧
    s'.file (c.target w) = s.file (c.target w) := by
  have hne : c.target w ≠ c.tmp w := (hc.notTarget w w).symm
  cases hs <;> simp_all [State.setPhase, State.setFile]

/-- C18: any call that has not finished can still complete, whatever the others did: there is a run of its own steps to
`done` after which the path holds its data. -/
theorem C18_can_always_complete (c : Calls W Path Dir Byte) (hc : FreshNames c) (s0 s : State W Path Dir Byte)
    (h0 : Initial c s0) (hr : Reachable c s0 s) (w : W)
    (hdir : s.dir (c.dirOf (c.tmp w)) = true ∨ (c.autoMkdir w = true ∧ c.dirOf (c.tmp w) = c.dirOf (c.target w) ∧
      s.phase w = .start))
    (hw : s.phase w = .start ∨ s.phase w = .ready ∨ (∃ n, s.phase w = .writing n) ∨ s.phase w = .written) :
    ∃ s', Relation.ReflTransGen (Step c w) s s' ∧ s'.phase w = .done ∧ s'.file (c.target w) = some (c.data w) := by
  have hne : c.target w ≠ c.tmp w := (hc.notTarget w w).symm
  -- from `written`
  have hwritten : ∀ s : State W Path Dir Byte, s.phase w = .written → s.file (c.tmp w) = some (c.data w) →
      ∃ s', Relation.ReflTransGen (Step c w) s s' ∧ s'.phase w = .done ∧ s'.file (c.target w) = some (c.data w) := by
    intro s hp hf
    refine ⟨_, Relation.ReflTransGen.single (Step.move hp hf), ?_, ?_⟩
    · simp [State.setPhase]
    · simp [State.setPhase, State.setFile, Function.update_of_ne hne]
  have hwriting : ∀ s : State W Path Dir Byte, ∀ n, s.phase w = .writing n →
      ∃ s', Relation.ReflTransGen (Step c w) s s' ∧ s'.phase w = .done ∧ s'.file (c.target w) = some (c.data w) := by
    intro s n hp
    obtain ⟨s', h1, h2⟩ := hwritten ((s.setFile (c.tmp w) (some (c.data w))).setPhase w .written)
      (by simp [State.setPhase]) (by simp [State.setPhase, State.setFile])
    exact ⟨s', Relation.ReflTransGen.head (Step.close hp) h1, h2⟩
  have hready : ∀ s : State W Path Dir Byte, s.phase w = .ready → s.dir (c.dirOf (c.tmp w)) = true →
      ∃ s', Relation.ReflTransGen (Step c w) s s' ∧ s'.phase w = .done ∧ s'.file (c.target w) = some (c.data w) := by
    intro s hp hd
    obtain ⟨s', h1, h2⟩ := hwriting ((s.setFile (c.tmp w) (some [])).setPhase w (.writing 0)) 0
      (by simp [State.setPhase])
    exact ⟨s', Relation.ReflTransGen.head (Step.open_ hp hd) h1, h2⟩
  rcases hw with hw | hw | ⟨n, hw⟩ | hw
  · rcases ha : c.autoMkdir w with _ | _
    · have hd : s.dir (c.dirOf (c.tmp w)) = true := by
        rcases hdir with h | ⟨h, -⟩
        · exact h
        · simp [ha] at h
      obtain ⟨s', h1, h2⟩ := hready (s.setPhase w .ready) (by simp [State.setPhase]) hd
      exact ⟨s', Relation.ReflTransGen.head (Step.noMakedirs hw ha) h1, h2⟩
    · obtain ⟨s', h1, h2⟩ := hready
        { s.setPhase w .ready with dir := Function.update s.dir (c.dirOf (c.target w)) true }
        (by simp [State.setPhase]) (by
          rcases hdir with h | ⟨-, h, -⟩
          · by_cases he : c.dirOf (c.tmp w) = c.dirOf (c.target w)
            · simp [he]
            · simp [Function.update_of_ne he, h]
          · simp [h])
      exact ⟨s', Relation.ReflTransGen.head (Step.makedirs hw ha) h1, h2⟩
  · exact hready s hw (by
      rcases hdir with h | ⟨-, -, h⟩
      · exact h
      · rw [hw] at h; simp at h)
  · exact hwriting s n hw
  · have ht := (inv_of_reachable hc h0 hr).tmp w
    rw [hw] at ht
    exact hwritten s hw ht

/-- C18, finding: `mv` is outside the `try`, so a failing move re-raises but leaves the complete temporary file behind. -/
theorem C18_failed_move_leaves_temporary (c : Calls W Path Dir Byte) (hc : FreshNames c) (s0 s : State W Path Dir Byte)
    (h0 : Initial c s0) (hr : Reachable c s0 s) (w : W) (hw : s.phase w = .failedMove) :
    s.file (c.tmp w) = some (c.data w) := by
  have ht := (inv_of_reachable hc h0 hr).tmp w
  rw [hw] at ht; exact ht

/-- C18: temporary names with different uuids (of the same length) differ, and a temporary name is never the name of
its own target. -/
theorem C18_temporary_names_distinct (u u' n n' : List Char) (hl : u.length = u'.length) :
    (tmpName u n = tmpName u' n' → u = u') ∧ tmpName u n ≠ n := by
  constructor
  · intro h
    unfold tmpName at h
    simp only [List.append_assoc] at h
    have h1 := List.append_cancel_left h
    exact (List.append_inj h1 hl).1
  · intro h
    have := congrArg List.length h
    unfold tmpName at this
    simp only [List.length_append] at this
    have h4 : "tmp.".toList.length = 4 := by simp
    omega

/-- The uuids of the calls: distinct, of the same length, without slashes, and no target is itself called `tmp.<one of them>.…`. -/
structure FreshUuids (uuid target : W → List Char) : Prop where
  inj : ∀ w w', uuid w = uuid w' → w = w'
  length : ∀ w w', (uuid w).length = (uuid w').length
  noSlash : ∀ w, '/' ∉ uuid w
  notTarget : ∀ w w', ¬ ("tmp.".toList ++ uuid w ++ ['.'] <+: (pathSplit (target w')).2)

theorem split_name_noSlash (p : List Char) : '/' ∉ (pathSplit p).2 := by
  unfold pathSplit
  simp only [List.mem_reverse]
  intro h
  have := (List.all_eq_true.mp (List.all_takeWhile (p := fun x => decide (x ≠ '/')))) _ h
  simp at this

theorem dropWhile_append_of {p : Char → Bool} {a b : List Char} (ha : ∀ x ∈ a, p x = true) (hb : ∀ x, b.head? = some x → p x = false) :
    (a ++ b).dropWhile p = b ∧ (a ++ b).takeWhile p = a := by
  induction a with
  | nil =>
    cases b with
    | nil => simp
    | cons x b => simp [hb x rfl]
  | cons x a ih =>
    have := ih (fun y hy => ha y (by simp [hy]))
    simp [ha x (by simp), this.1, this.2]

/-- The directory part of a split path: nothing, only slashes, or not ending in a slash. -/
theorem split_dir_cases (p : List Char) : (pathSplit p).1 = [] ∨ ((pathSplit p).1 ≠ [] ∧ ∀ x ∈ (pathSplit p).1, x = '/') ∨
    ∃ a c, (pathSplit p).1 = a ++ [c] ∧ c ≠ '/' := by
  unfold pathSplit
  dsimp only
  split_ifs with h
  · by_cases he : (List.dropWhile (fun x => decide (x ≠ '/')) p.reverse).reverse = []
    · exact Or.inl he
    · exact Or.inr (Or.inl ⟨he, by simpa using h⟩)
  · right; right
    generalize (List.dropWhile (fun x => decide (x ≠ '/')) p.reverse) = l at h
    cases hd : List.dropWhile (fun x => decide (x = '/')) l with
    | nil =>
      exfalso
      apply h
      have hall : ∀ l : List Char, List.dropWhile (fun x => decide (x = '/')) l = [] → ∀ x ∈ l, x = '/' := by
        intro l
        induction l with
        | nil => simp
        | cons y l ih =>
          intro h
          by_cases hy : y = '/'
          · subst hy
            rw [List.dropWhile_cons_of_pos (by simp)] at h
            simpa using ih h
          · rw [List.dropWhile_cons_of_neg (by simpa using hy)] at h
            cases h
      simpa using hall l hd
    | cons c a =>
      refine ⟨a.reverse, c, by simp [hd], ?_⟩
      have := List.head?_dropWhile_not (fun x => decide (x = '/')) l
      rw [hd] at this
      simpa using this

/-- C18: splitting a path that was joined from the directory of a path and a name without slash gives the two back. -/
theorem split_join (p n : List Char) (hn : '/' ∉ n) : pathSplit (pathJoin (pathSplit p).1 n) = ((pathSplit p).1, n) := by
  have hh : n.head? ≠ some '/' := fun h => hn (List.mem_of_mem_head? h)
  have hrev : ∀ x ∈ n.reverse, decide (x ≠ '/') = true := by
    intro x hx
    rw [decide_eq_true_eq]
    rintro rfl
    exact hn (List.mem_reverse.mp hx)
  unfold pathJoin
  rw [if_neg hh]
  rcases split_dir_cases p with h | ⟨h1, h2⟩ | ⟨a, c, h, hc⟩
  · rw [h, if_pos (Or.inl rfl)]
    have := dropWhile_append_of (b := []) hrev (by simp)
    rw [List.append_nil] at this
    unfold pathSplit
    simp only [List.nil_append, this.1, this.2]
    simp
  · generalize (pathSplit p).1 = d at h1 h2
    have hlast : d.getLast? = some '/' := by
      rw [List.getLast?_eq_some_getLast h1, h2 _ (List.getLast_mem h1)]
    rw [if_pos (Or.inr hlast)]
    have := dropWhile_append_of (b := d.reverse) hrev (by
      intro x hx
      rw [h2 x (List.mem_reverse.mp (List.mem_of_mem_head? hx))]
      simp)
    unfold pathSplit
    rw [List.reverse_append, this.1, this.2, List.reverse_reverse, List.reverse_reverse]
    dsimp only
    rw [if_pos (by simpa using h2)]
  · rw [h, if_neg (by simp [hc])]
    have := dropWhile_append_of (b := '/' :: (a ++ [c]).reverse) hrev (by simp)
    unfold pathSplit
    rw [show (a ++ [c] ++ '/' :: n).reverse = n.reverse ++ '/' :: (a ++ [c]).reverse by simp, this.1, this.2]
    dsimp only
    rw [if_neg (by simp [hc])]
    simp [hc]

theorem tmpName_noSlash {u p : List Char} (hu : '/' ∉ u) : '/' ∉ tmpName u (pathSplit p).2 := by
  have := split_name_noSlash p
  unfold tmpName
  simp only [List.mem_append, not_or]
  exact ⟨⟨⟨by simp, hu⟩, by simp⟩, this⟩

/-- C18: the temporary path that a call makes out of its path and a uuid is in the directory of the path, and the temporary paths of all calls are distinct
and none is a target, whatever the directories and names. -/
theorem C18_temporary_paths {uuid target : W → List Char} (hu : FreshUuids uuid target) (data : W → List Byte) :
    FreshNames (callsOf uuid target data) ∧
    ∀ w, (callsOf uuid target data).dirOf ((callsOf uuid target data).tmp w) = (callsOf uuid target data).dirOf ((callsOf uuid target data).target w) := by
  have hs : ∀ w, pathSplit (tmpPath (uuid w) (target w)) = ((pathSplit (target w)).1, tmpName (uuid w) (pathSplit (target w)).2) :=
    fun w => split_join _ _ (tmpName_noSlash (hu.noSlash w))
  refine ⟨⟨?_, ?_⟩, fun w => by
    change (pathSplit (tmpPath _ _)).1 = (pathSplit (target w)).1
    rw [hs w]⟩
  · intro w w' h
    change tmpPath _ _ = tmpPath _ _ at h
    have h1 := (Prod.mk.inj ((hs w).symm.trans ((congrArg pathSplit h).trans (hs w')))).2
    exact hu.inj _ _ ((C18_temporary_names_distinct _ _ _ _ (hu.length w w')).1 h1)
  · intro w w' h
    change tmpPath _ _ = target w' at h
    have h1 := congrArg Prod.snd ((hs w).symm.trans (congrArg pathSplit h))
    refine hu.notTarget w w' ?_
    rw [← h1]
    unfold tmpName
    exact List.prefix_append _ _

/-- C18: a call that has not failed can still complete, whatever the other calls did and whether or not the directory exists at the start. -/
theorem C18_completes {uuid target : W → List Char} (hu : FreshUuids uuid target) (data : W → List Byte) (s0 s : State W (List Char) (List Char) Byte)
    (h0 : Initial (callsOf uuid target data) s0) (hr : Reachable (callsOf uuid target data) s0 s) (w : W) (hw : s.phase w = .start) :
    ∃ s', Relation.ReflTransGen (Step (callsOf uuid target data) w) s s' ∧ s'.phase w = .done ∧ s'.file (target w) = some (data w) :=
  C18_can_always_complete _ (C18_temporary_paths hu data).1 s0 s h0 hr w (Or.inr ⟨rfl, (C18_temporary_paths hu data).2 w, hw⟩) (Or.inl hw)

end C18

/-- Two writers of the same file in a directory and one in the root directory. -/
example : FreshUuids (fun w : Fin 3 => "uuid-".toList ++ [Char.ofNat (97 + w.val)]) (fun w => if w.val < 2 then "/out//metrics.nc".toList else "/state.nc".toList) where
  inj := by decide
  length := by decide
  noSlash := by decide
  notTarget := by decide

example : pathSplit "/out//metrics.nc".toList = ("/out".toList, "metrics.nc".toList) ∧ pathSplit "/state.nc".toList = ("/".toList, "state.nc".toList) ∧
    tmpPath "u".toList "/out//metrics.nc".toList = "/out/tmp.u.metrics.nc".toList ∧ tmpPath "u".toList "/state.nc".toList = "/tmp.u.state.nc".toList := by
  decide

/-! ### Concrete runs -/

/-- Two calls writing different data to path 0, with temporary paths 1 and 2. -/
def exCalls : Calls Bool ℕ Unit ℕ :=
  { target := fun _ => 0, tmp := fun w => if w then 1 else 2, data := fun w => if w then [7, 8] else [9],
    dirOf := fun _ => (), autoMkdir := fun _ => true }

def exInit : State Bool ℕ Unit ℕ :=
  { file := fun p => if p = 0 then some [5] else none, dir := fun _ => false, phase := fun _ => .start, moved := [] }

theorem exFresh : FreshNames exCalls := by
  constructor
  · intro w w'; cases w <;> cases w' <;> simp [exCalls]
  · intro w w'; cases w <;> cases w' <;> simp [exCalls]

theorem exInitial : Initial exCalls exInit := by
  constructor
  · intro w; rfl
  · rfl
  · intro w; cases w <;> simp [exInit, exCalls]

/-- A run in which the second call is killed half-way while the first one completes. -/
example : ∃ s, Reachable exCalls exInit s ∧ s.phase true = .done ∧ s.phase false = .crashed ∧ s.file 0 = some [7, 8] ∧
    s.file 2 = some [] := by
  have hstep : ∀ {s s' : State Bool ℕ Unit ℕ} (w : Bool), Reachable exCalls exInit s → Step exCalls w s s' →
      Reachable exCalls exInit s' := fun w hr hs => Relation.ReflTransGen.tail hr ⟨w, hs⟩
  have r1 := hstep false Relation.ReflTransGen.refl (Step.makedirs (by rfl) (by rfl))
  have r2 := hstep false r1 (Step.open_ (by rfl) (by rfl))
  have r3 := hstep true r2 (Step.makedirs (by rfl) (by rfl))
  have r4 := hstep true r3 (Step.open_ (by rfl) (by rfl))
  have r5 := hstep true r4 (Step.write (n := 0) (m := 1) (by rfl) (by omega) (by decide))
  have r6 := hstep true r5 (Step.close (n := 1) (by rfl))
  have r7 := hstep false r6 (Step.crash (by rfl))
  have r8 := hstep true r7 (Step.move (content := [7, 8]) (by rfl) (by rfl))
  exact ⟨_, r8, rfl, rfl, rfl, rfl⟩

/-- Two calls sharing one temporary path. -/
def exClash : Calls Bool ℕ Unit ℕ := { exCalls with tmp := fun _ => 1 }

/-- C18: the uniqueness of the temporary names is needed: with a shared temporary path a reader can see a partial file. -/
theorem C18_shared_temporary_exposes_partial : ∃ s, Reachable exClash exInit s ∧ s.file 0 ≠ exInit.file 0 ∧
    ∀ w, s.file 0 ≠ some (exClash.data w) := by
  have hstep : ∀ {s s' : State Bool ℕ Unit ℕ} (w : Bool), Reachable exClash exInit s → Step exClash w s s' →
      Reachable exClash exInit s' := fun w hr hs => Relation.ReflTransGen.tail hr ⟨w, hs⟩
  have r1 := hstep false Relation.ReflTransGen.refl (Step.makedirs (by rfl) (by rfl))
  have r2 := hstep true r1 (Step.makedirs (by rfl) (by rfl))
  have r3 := hstep false r2 (Step.open_ (by rfl) (by rfl))
  have r4 := hstep false r3 (Step.close (n := 0) (by rfl))
  have r5 := hstep true r4 (Step.open_ (by rfl) (by rfl))
  have r6 := hstep true r5 (Step.write (n := 0) (m := 1) (by rfl) (by omega) (by decide))
  have r7 := hstep false r6 (Step.move (content := [7]) (by rfl) (by rfl))
  refine ⟨_, r7, ?_, ?_⟩
  · show some [7] ≠ some [5]; decide
  · intro w
    cases w
    · show some [7] ≠ some [9]; decide
    · show some [7] ≠ some [7, 8]; decide

end WBX.AtomicWrite
