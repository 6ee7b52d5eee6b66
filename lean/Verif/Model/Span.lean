import Verif.Model.Axis
/-
Model of `IGA_FindSpan` and `IGA_Greville`, src/petigabasis.c:301-326.
-/
namespace PetIGA.Ax

variable {K : Type} [Field K] [LinearOrder K] [IsStrictOrderedRing K]

/-- The bisection loop of `IGA_FindSpan`, petigabasis.c:308-316, with at most `fuel` iterations:
`none` means that the loop is still running. -/
def findLoop (u : K) (U : Int → K) : Nat → Int → Int → Option Int
  | 0, _, _ => none
  | f+1, low, high =>
    let span := Int.tdiv (high+low) 2
    if u < U span ∨ u ≥ U (span+1) then
      if u < U span then findLoop u U f low span else findLoop u U f span high
    else some span

/-- `IGA_FindSpan`, petigabasis.c:301-318. -/
def findSpan (fuel : Nat) (n p : Int) (u : K) (U : Int → K) : Option Int :=
  if u ≤ U p then some p
  else if u ≥ U (n+1) then some n
  else findLoop u U fuel p (n+1)

/-- `for (j=0; j<p; j++) u += U[i+j+1];` petigabasis.c:324. -/
def grevSum (i : Int) (U : Int → K) : Nat → K
  | 0 => 0
  | j+1 => grevSum i U j + U (i + j + 1)

/-- `IGA_Greville`, petigabasis.c:320-326. -/
def greville (i p : Int) (U : Int → K) : K :=
  if p > 0 then grevSum i U p.toNat / (p:K) else (U 0 + U 1) / 2

end PetIGA.Ax
