import Mathlib.Algebra.BigOperators.Group.Finset.Basic
import Mathlib.Algebra.Ring.Defs
/-
Independent specification of square linear systems stored in row-major arrays.
-/
namespace PetIGA.Spec
open Finset

/-- Row `i` of `K x`, for `K[i*N+j]` the entry in row `i` and column `j`. -/
def rowDot {V : Type} [CommRing V] (N : Nat) (K x : Int → V) (i : Int) : V :=
  ∑ j ∈ range N, K (i * N + j) * x j

/-- `x` solves `K x = F`. -/
def Solves {V : Type} [CommRing V] (N : Nat) (K F x : Int → V) : Prop :=
  ∀ i : Int, 0 ≤ i ∧ i < N → rowDot N K x i = F i

/-- `K` is symmetric. -/
def Symmetric' {V : Type} (N : Nat) (K : Int → V) : Prop :=
  ∀ i j : Int, (0 ≤ i ∧ i < N) → (0 ≤ j ∧ j < N) → K (i * N + j) = K (j * N + i)

end PetIGA.Spec

namespace PetIGA.Spec
open Finset

/-- An element system with `n` unknowns, local unknown `a` being global unknown `glob a`. -/
structure ElemSystem (ι V : Type) where
  n : Nat
  glob : Int → ι
  K : Int → V
  F : Int → V

/-- Entry `(i,j)` of the assembled matrix: the sum of all element entries with these global indices. -/
def asmMat {ι V : Type} [DecidableEq ι] [CommRing V] (L : List (ElemSystem ι V)) (i j : ι) : V :=
  (L.map fun e => ∑ a ∈ range e.n, ∑ b ∈ range e.n, if e.glob a = i ∧ e.glob b = j then e.K ((a : Int) * e.n + b) else 0).sum

/-- Entry `i` of the assembled vector. -/
def asmVec {ι V : Type} [DecidableEq ι] [CommRing V] (L : List (ElemSystem ι V)) (i : ι) : V :=
  (L.map fun e => ∑ a ∈ range e.n, if e.glob a = i then e.F a else 0).sum

/-- How often global unknown `i` occurs in elements. -/
def touch {ι V : Type} [DecidableEq ι] (L : List (ElemSystem ι V)) (i : ι) : Nat :=
  (L.map fun e => ((List.range e.n).filter fun (a : Nat) => decide (e.glob a = i)).length).sum

end PetIGA.Spec
