import Mathlib.Algebra.BigOperators.Group.Finset.Basic
import Mathlib.Algebra.Field.Defs
import Mathlib.Order.Defs.LinearOrder
import Mathlib.Data.List.Forall2
/-
Independent specification of additive Schwarz preconditioners and of positive definite matrices, over the unknowns
`0, …, N-1`.
-/
namespace PetIGA.Spec
open Finset

variable {V : Type} [Field V]

/-- `(A z)_i`. -/
def mulAt (N : Nat) (A : Int → Int → V) (z : Int → V) (i : Int) : V := ∑ j ∈ range N, A i j * z j

/-- `z` is the local correction of `x` on the set of unknowns `idx`: zero elsewhere, with residual zero on `idx`. -/
def LocalSolve (N : Nat) (A : Int → Int → V) (x : Int → V) (idx : List Int) (z : Int → V) : Prop :=
  (∀ i, i ∉ idx → z i = 0) ∧ ∀ i ∈ idx, mulAt N A z i = x i

/-- The local problems on `idx` have at most one solution. -/
def Regular (N : Nat) (A : Int → Int → V) (idx : List Int) : Prop :=
  ∀ z : Int → V, LocalSolve N A (fun _ => 0) idx z → ∀ i, z i = 0

/-- `y` is the sum of the local corrections of `x` over all blocks. -/
def AdditiveSchwarz (N : Nat) (A : Int → Int → V) (blocks : List (List Int)) (x y : Int → V) : Prop :=
  ∃ zs : List (Int → V), List.Forall₂ (LocalSolve N A x) blocks zs ∧
    ∀ i : Int, 0 ≤ i → i < N → y i = (zs.map fun z => z i).sum

/-- Symmetric and positive definite. -/
def PosDef [LinearOrder V] (N : Nat) (A : Int → Int → V) : Prop :=
  (∀ i j : Int, 0 ≤ i → i < N → 0 ≤ j → j < N → A i j = A j i) ∧
  ∀ x : Int → V, (∃ i : Int, 0 ≤ i ∧ i < N ∧ x i ≠ 0) → 0 < ∑ i ∈ range N, ∑ j ∈ range N, x i * A i j * x j

end PetIGA.Spec
