import Mathlib.Logic.Function.Basic
import Mathlib.Logic.Relation
import Mathlib.Data.List.Basic
import Verif.Model.Basic

/-!
# Model of `atomic_write` (`/repo/weatherbenchX/beam_utils.py:64-101`)

Any number of concurrent writers `W`, each executing one call of `atomic_write`, as a labelled small-step system over a
shared file system. A file is its list of bytes. Each file-system call is one step, except the write, which is a
sequence of steps exposing arbitrary prefixes of the data; a writer may be killed (`crash`) between any two steps,
and every file-system call may raise.
Library contract (docstring lines 75-77): `mv` replaces the destination in one step; a raising `mv` has no effect.
-/

namespace WBX.AtomicWrite

/-- Where a call of `atomic_write` is. -/
inductive Phase
  | start                -- before `makedirs` (line 88)
  | ready                -- before `open` (line 94)
  | writing (n : ℕ)      -- inside `with`, `n` bytes have reached the file (line 95)
  | written              -- file closed, before `mv` (line 101)
  | raising              -- in the `except` block (line 97)
  | done                 -- returned
  | failed               -- the exception was re-raised after removing the temporary file (line 99)
  | failedEarly          -- `makedirs` raised, before any temporary file
  | failedMove           -- `mv` raised (not inside the `try`)
  | failedCleanup        -- `rm` raised something other than `FileNotFoundError`
  | crashed              -- the worker was killed
  deriving DecidableEq

/-- The arguments of the calls; `tmp w` is the temporary path of call `w` (line 90-91). -/
structure Calls (W Path Dir Byte : Type) where
  target : W → Path
  tmp : W → Path
  data : W → List Byte
  dirOf : Path → Dir
  autoMkdir : W → Bool

/-- The shared file system, the phase of each call and, as a history variable, the calls whose `mv` succeeded, most recent
first. -/
structure State (W Path Dir Byte : Type) where
  file : Path → Option (List Byte)
  dir : Dir → Bool
  phase : W → Phase
  moved : List W

variable {W Path Dir Byte : Type} [DecidableEq W] [DecidableEq Path] [DecidableEq Dir]

/-- The state with the phase of `w` changed. -/
def State.setPhase (s : State W Path Dir Byte) (w : W) (p : Phase) : State W Path Dir Byte :=
  { s with phase := Function.update s.phase w p }

/-- The state with a file changed. -/
def State.setFile (s : State W Path Dir Byte) (p : Path) (c : Option (List Byte)) : State W Path Dir Byte :=
  { s with file := Function.update s.file p c }

/-- A call that will take no more steps. -/
def Phase.finished : Phase → Bool
  | .done | .failed | .failedEarly | .failedMove | .failedCleanup | .crashed => true
  | _ => false

/-- One step of call `w` (beam_utils.py:84-101). -/
inductive Step (c : Calls W Path Dir Byte) (w : W) : State W Path Dir Byte → State W Path Dir Byte → Prop
  -- lines 87-88
  | makedirs {s} : s.phase w = .start → c.autoMkdir w = true →
      Step c w s { s.setPhase w .ready with dir := Function.update s.dir (c.dirOf (c.target w)) true }
  | makedirsRaises {s} : s.phase w = .start → c.autoMkdir w = true → Step c w s (s.setPhase w .failedEarly)
  | noMakedirs {s} : s.phase w = .start → c.autoMkdir w = false → Step c w s (s.setPhase w .ready)
  -- line 94
  | open_ {s} : s.phase w = .ready → s.dir (c.dirOf (c.tmp w)) = true →
      Step c w s ((s.setFile (c.tmp w) (some [])).setPhase w (.writing 0))
  | openRaises {s} : s.phase w = .ready → Step c w s (s.setPhase w .raising)
  -- line 95: bytes reach the file
  | write {s n m} : s.phase w = .writing n → n ≤ m → m ≤ (c.data w).length →
      Step c w s ((s.setFile (c.tmp w) (some ((c.data w).take m))).setPhase w (.writing m))
  | writeRaises {s n} : s.phase w = .writing n → Step c w s (s.setPhase w .raising)
  -- end of the `with` block: close flushes everything
  | close {s n} : s.phase w = .writing n →
      Step c w s ((s.setFile (c.tmp w) (some (c.data w))).setPhase w .written)
  -- lines 97-99 (`FileNotFoundError` is suppressed)
  | remove {s} : s.phase w = .raising → Step c w s ((s.setFile (c.tmp w) none).setPhase w .failed)
  | removeRaises {s} : s.phase w = .raising → Step c w s (s.setPhase w .failedCleanup)
  -- line 101: atomic rename of whatever the temporary file holds
  | move {s content} : s.phase w = .written → s.file (c.tmp w) = some content →
      Step c w s { ((s.setFile (c.target w) (some content)).setFile (c.tmp w) none).setPhase w .done with
        moved := w :: s.moved }
  | moveRaises {s} : s.phase w = .written → Step c w s (s.setPhase w .failedMove)
  -- the process dies
  | crash {s} : (s.phase w).finished = false → Step c w s (s.setPhase w .crashed)

/-- Some call takes a step. -/
def Next (c : Calls W Path Dir Byte) (s s' : State W Path Dir Byte) : Prop := ∃ w, Step c w s s'

/-- Every state some interleaving can reach. -/
def Reachable (c : Calls W Path Dir Byte) (s0 s : State W Path Dir Byte) : Prop := Relation.ReflTransGen (Next c) s0 s

/-- A state before any of the calls has started. -/
structure Initial (c : Calls W Path Dir Byte) (s : State W Path Dir Byte) : Prop where
  phase : ∀ w, s.phase w = .start
  moved : s.moved = []
  fresh : ∀ w, s.file (c.tmp w) = none

/-- The temporary name `tmp.{uuid}.{name}` (beam_utils.py:90). -/
def tmpName (uuid name : List Char) : List Char := "tmp.".toList ++ uuid ++ ['.'] ++ name

/-- `os.path.split` on POSIX (beam_utils.py:86): the name is what follows the last slash; trailing slashes of the directory are dropped
unless it consists of slashes only. -/
def pathSplit (p : List Char) : List Char × List Char :=
  let head := (p.reverse.dropWhile (· ≠ '/')).reverse
  (if head.all (· = '/') then head else (head.reverse.dropWhile (· = '/')).reverse, (p.reverse.takeWhile (· ≠ '/')).reverse)

/-- `os.path.join` on POSIX (beam_utils.py:91). -/
def pathJoin (a b : List Char) : List Char :=
  if b.head? = some '/' then b
  else if a = [] ∨ a.getLast? = some '/' then a ++ b
  else a ++ '/' :: b

/-- The temporary path of a call (beam_utils.py:86-91). -/
def tmpPath (uuid target : List Char) : List Char := pathJoin (pathSplit target).1 (tmpName uuid (pathSplit target).2)

/-- Calls of `atomic_write(target, data)` with the default `auto_mkdir` (beam_utils.py:64-91); `uuid w` is what `uuid.uuid1()` returns in
call `w`. Paths are those that `url_to_fs` returns. -/
def callsOf (uuid target : W → List Char) (data : W → List Byte) : Calls W (List Char) (List Char) Byte where
  target := target
  tmp := fun w => tmpPath (uuid w) (target w)
  data := data
  dirOf := fun p => (pathSplit p).1
  autoMkdir := fun _ => true

end WBX.AtomicWrite
