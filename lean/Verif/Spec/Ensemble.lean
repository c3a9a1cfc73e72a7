import Verif.Model.Ensemble

/-!
# What the ensemble statistics are meant to be

An ensemble at a point is a finite set `M` of members with values `x : L → K`.
-/

namespace WBX
variable {L K : Type} [DecidableEq L] [Field K] [LinearOrder K] [IsStrictOrderedRing K]

/-- At cell `e` the ensemble along dimension `d` of `a` has members `M`, with finite values `x`. -/
def Members (a : StatVar L (FV K)) (d : Dim) (e : Dim → L) (M : Finset L) (x : L → K) : Prop :=
  a.arr.coords d = M ∧ ∀ l ∈ M, a.arr.val (DA.setLabel e d l) = FV.fin (x l)

/-- At cell `e` the members along dimension `d` of `a` are finite on `M` and NaN on the other labels. -/
def PresentMembers (a : StatVar L (FV K)) (d : Dim) (e : Dim → L) (M : Finset L) (x : L → K) : Prop :=
  M ⊆ a.arr.coords d ∧ (∀ l ∈ M, a.arr.val (DA.setLabel e d l) = FV.fin (x l)) ∧
    ∀ l ∈ a.arr.coords d, l ∉ M → a.arr.val (DA.setLabel e d l) = FV.nan

/-- The mean over all members. -/
def eMean (M : Finset L) (x : L → K) : K := (∑ l ∈ M, x l) / M.card

/-- Mean absolute error of the members. -/
def eSkill (M : Finset L) (x : L → K) (y : K) : K := (∑ l ∈ M, |x l - y|) / M.card

/-- Mean absolute difference: over all `n(n-1)` pairs of distinct members (fair), or over all `n²` pairs. -/
def eSpread (fair : Bool) (M : Finset L) (x : L → K) : K :=
  (∑ i ∈ M, ∑ j ∈ M, |x i - x j|) / (M.card * (M.card - if fair then 1 else 0))

/-- The CRPS of one ensemble and one observation. -/
def eCRPS (fair : Bool) (M : Finset L) (x : L → K) (y : K) : K := eSkill M x y - 1 / 2 * eSpread fair M x

/-- Mean absolute difference between the members of two ensembles. -/
def eSkill2 {L' : Type} (M : Finset L) (N : Finset L') (x : L → K) (y : L' → K) : K :=
  (∑ i ∈ M, ∑ j ∈ N, |x i - y j|) / (M.card * N.card)

/-- The members at a cell: all labels without `skipna_ensemble`; those that are not NaN with it. -/
def EnsembleAt (sk : Bool) (a : StatVar L (FV K)) (d : Dim) (e : Dim → L) (M : Finset L) (x : L → K) : Prop :=
  if sk then PresentMembers a d e M x else Members a d e M x

/-- The sample variance (with divisor `n - 1`). -/
def eVar (M : Finset L) (x : L → K) : K := (∑ l ∈ M, (x l - eMean M x) ^ 2) / (M.card - 1)

/-- What numpy promises of `argsort`: a permutation of the positions, along which the values never decrease. Ties may come in any
order (the default sort is not stable), and NaN are unconstrained here. -/
def IsArgsort (argsort : List (FV K) → List ℕ) : Prop :=
  ∀ x : List (FV K), (argsort x).Perm (List.range x.length) ∧
    (argsort x).Pairwise (fun i j => FV.lt (x.getD j .nan) (x.getD i .nan) = false)

/-- The empirical distribution function of an ensemble. -/
noncomputable def eCDF (M : Finset L) (x : L → ℝ) (z : ℝ) : ℝ := eMean M (fun l => if x l ≤ z then 1 else 0)

/-- The rank of an observation in an ensemble: the number of members strictly below it (IEEE comparison). -/
def eRank (M : Finset L) (x : L → FV K) (y : FV K) : ℕ := (M.filter (fun l => FV.lt (x l) y = true)).card

end WBX
