import Verif.Model.Basic

/-!
Model of src/petigapcmg.c: the grid hierarchy used by the multigrid preconditioner.

Only the first `dim` entries are kept: `DMDAGetInfo` gives 1 for the others, which changes neither the product nor the
tests.  Integers do not overflow (in the code `M[0]*M[1]*M[2]` may).
-/

namespace PetIGA.MG

/-- `primes`, petigapcmg.c:38-41. -/
def primes : List Int := [2, 3, 5, 7, 11, 13, 17, 19, 23, 29,
  31, 37, 41, 43, 47, 53, 59, 61, 67, 71,
  73, 79, 83, 89, 97, 101, 103, 107, 109, 113,
  127, 131, 137, 139, 149, 151, 157, 163, 167, 173]

/-- The initial value and the loop over the primes, petigapcmg.c:49 and 58-61. -/
def minFactor (M : Int) : Int :=
  match primes.find? fun q => decide (Int.tmod M q = 0) with
  | some q => q
  | none => M

/-- One iteration of the last loop, petigapcmg.c:63-66. -/
def avoidStep (M : List Int) (f : List Int) (ij : Nat × Nat) : List Int :=
  if ij.1 ≠ ij.2 ∧ M.getD ij.1 0 ≤ Int.tdiv (M.getD ij.2 0) (f.getD ij.2 0) then f.set ij.1 1 else f

/-- The pairs `(i,j)` in loop order. -/
def pairs (dim : Nat) : List (Nat × Nat) := (List.range dim).flatMap fun i => (List.range dim).map fun j => (i, j)

/-- `CoarsenFactor`, petigapcmg.c:44-68: the returned flag and the factors. -/
def coarsenFactor (M P : List Int) : Bool × List Int :=
  if M.foldl (· * ·) 1 ≤ 1 then (false, M)
  else if ∀ m ∈ M, m ≤ 2*3 then (false, M)
  else if ∃ q ∈ M.zip P, q.1 ≤ q.2 then (false, M)
  else (true, (pairs M.length).foldl (avoidStep M) (M.map minFactor))

/-- `M[i] /= factor[i]`, petigapcmg.c:88. -/
def coarser (M f : List Int) : List Int := List.zipWith Int.tdiv M f

/-- The loop petigapcmg.c:87-88 of `DMDAComputeCoarsenLevels`: the numbers of intervals of the levels, finest first, when
`n` more levels are allowed. -/
def hierarchy (P : List Int) : Nat → List Int → List (List Int)
  | 0, M => [M]
  | n+1, M => if (coarsenFactor M P).1 then M :: hierarchy P n (coarser M (coarsenFactor M P).2) else [M]

/-- The number of intervals, petigapcmg.c:86 and 105: one less than the nodes without periodicity. -/
def intervals (nodes : List Int) (periodic : List Bool) : List Int :=
  List.zipWith (fun n b => if b then n else n - 1) nodes periodic

/-- `DMDAComputeCoarsenLevels`, petigapcmg.c:74-91: the levels of the hierarchy (at most 64). -/
def levels (nodes : List Int) (periodic : List Bool) (P : List Int) : List (List Int) :=
  hierarchy P 63 (intervals nodes periodic)

/-- Number of nodes of a level, as `DMCoarsen` of a DMDA gives it. -/
def nodesOf (M : List Int) (periodic : List Bool) : List Int :=
  List.zipWith (fun m b => if b then m else m + 1) M periodic

end PetIGA.MG
