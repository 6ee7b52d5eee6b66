import Verif.Model.Basic
import Mathlib.Data.Real.Basic
/-
Model of the Jacobians obtained by forward automatic differentiation, include/petiga/fad/adtype.hpp,
include/petiga/fad/jacobian.hpp and include/petiga/fad/ijacobian.hpp.

The number types themselves (MiniFAD, Sacado, FADBAD) are external libraries that are not part of the repository.  What
is used of them is modelled by `Dual`: a value and the list of its partial derivatives, with the arithmetic of forward
differentiation; it belongs to the trusted base.  Arithmetic is exact and scalars are real.

The arrays `X[nen][dof]`, `R[nen][dof]` and `J[nen][dof][nen][dof]` are handled by the code through pointers to their
first entries, with `N = nen*dof`; they are modelled by their storage: entry `[a][c]` is number `a*dof+c`.
fad/iejacobian.hpp is not modelled: the wrapper cxx/iejacobian.hpp that would call it cannot be compiled (it names an
undeclared variable).
-/
namespace PetIGA.AD

/-- `AD<ScalarT,nen,dof>::Type`, include/petiga/fad/adtype.hpp:21-40: the value and the entries `dx(0), dx(1), …`. -/
structure Dual where
  val : ℝ
  dx : Nat → ℝ

/-- `Def(x,u,i)`, include/petiga/fad/adtype.hpp:23-38: a variable of value `u`, the `i`-th independent one. -/
def def_ (u : ℝ) (i : Nat) : Dual := ⟨u, fun j => if j = i then 1 else 0⟩

/-- `Def(x,u,i) = s`: the reference returned by `Def` is to `dx(i)`. -/
def defSeed (u s : ℝ) (i : Nat) : Dual := { def_ u i with dx := Function.update (def_ u i).dx i s }

/-- `Input(X,U)`, include/petiga/fad/adtype.hpp:42-43, with the loop variable from `i` on. -/
def inputFrom (i : Nat) : List ℝ → List Dual
  | [] => []
  | u :: U => def_ u i :: inputFrom (i+1) U

/-- `Input(X,U)`, include/petiga/fad/adtype.hpp:42-43, 48-49. -/
def input (U : List ℝ) : List Dual := inputFrom 0 U

/-- `Input(X,U,s)`, include/petiga/fad/adtype.hpp:45-46, with the loop variable from `i` on. -/
def inputSeedFrom (s : ℝ) (i : Nat) : List ℝ → List Dual
  | [] => []
  | u :: U => defSeed u s i :: inputSeedFrom s (i+1) U

/-- `Input(X,U,s)`, include/petiga/fad/adtype.hpp:45-46, 51-52. -/
def inputSeed (U : List ℝ) (s : ℝ) : List Dual := inputSeedFrom s 0 U

/-- Assignment of one entry. -/
def put (J : Int → ℝ) (k : Int) (v : ℝ) : Int → ℝ := fun l => if l = k then v else J l

/-- `Output(R,J)`, include/petiga/fad/adtype.hpp:57-69: `J[i*N+j] = R[i].dx(j)`. -/
def output (N : Nat) (R : Int → Dual) (J : Int → ℝ) : Int → ℝ :=
  (List.range N).foldl (fun J (i : Nat) => (List.range N).foldl
    (fun J (j : Nat) => put J ((i : Int) * N + j) ((R i).dx j)) J) J

/-- The residual of a nonlinear problem, written as a template: the error code it returns and the contents of the output
array, given the input and the contents of the output array before; the instance for real numbers and the instance for
AD numbers.  `P` is what the callback can read of the point and of the context.  Signature: `Function<dim,nen,dof,Scalar>(q,U,F,ctx)`. -/
structure FunctionT (P : Type) where
  real : P → List ℝ → (Int → ℝ) → Option Err × (Int → ℝ)
  ad : P → List Dual → (Int → Dual) → Option Err × (Int → Dual)

/-- The residual of a time dependent problem, `IFunction<dim,nen,dof,Scalar>(q,s,V,t,U,F,ctx)`. -/
structure IFunctionT (P : Type) where
  real : P → ℝ → List ℝ → ℝ → List ℝ → (Int → ℝ) → Option Err × (Int → ℝ)
  ad : P → ℝ → List Dual → ℝ → List Dual → (Int → Dual) → Option Err × (Int → Dual)

/-- A callback returning an error code, as seen by the code that calls it with `CHKERRQ`. -/
def checked {A : Type} (r : Option Err × A) : Res A :=
  match r.1 with
  | none => .ok r.2
  | some e => .err e

/-- `Function`, include/petiga/cxx/function.hpp:4-13: the residual callback registered with the form. -/
def function {P : Type} (T : FunctionT P) (p : P) (U : List ℝ) (F : Int → ℝ) : Res (Int → ℝ) :=
  checked (T.real p U F)

/-- `IFunction`, include/petiga/cxx/ifunction.hpp. -/
def ifunction {P : Type} (T : IFunctionT P) (p : P) (s : ℝ) (V : List ℝ) (t : ℝ) (U : List ℝ) (F : Int → ℝ) :
    Res (Int → ℝ) :=
  checked (T.real p s V t U F)

/-- `Jacobian`, include/petiga/fad/jacobian.hpp:7-21: `N = nen*dof`, `R` is what the local array of AD numbers contains
when it is created.  The value returned by the residual is not looked at and the function returns 0. -/
def jacobian {P : Type} (N : Nat) (R : Int → Dual) (T : FunctionT P) (p : P) (U : List ℝ) (J : Int → ℝ) : Res (Int → ℝ) :=
  let X := input U
  let R' := (T.ad p X R).2
  .ok (output N R' J)

/-- `IJacobian`, include/petiga/fad/ijacobian.hpp:7-24. -/
def ijacobian {P : Type} (N : Nat) (R : Int → Dual) (T : IFunctionT P) (p : P) (s : ℝ) (V : List ℝ) (t : ℝ) (U : List ℝ)
    (J : Int → ℝ) : Res (Int → ℝ) :=
  let Y := inputSeed V s
  let X := input U
  let R' := (T.ad p s Y t X R).2
  .ok (output N R' J)

/-! ### Arithmetic of AD numbers -/

/-- A real number in an expression of AD numbers. -/
def Dual.const (c : ℝ) : Dual := ⟨c, fun _ => 0⟩
/-- Sum. -/
def Dual.add (x y : Dual) : Dual := ⟨x.val + y.val, fun j => x.dx j + y.dx j⟩
/-- Difference. -/
def Dual.sub (x y : Dual) : Dual := ⟨x.val - y.val, fun j => x.dx j - y.dx j⟩
/-- Product. -/
def Dual.mul (x y : Dual) : Dual := ⟨x.val * y.val, fun j => x.dx j * y.val + x.val * y.dx j⟩
/-- Quotient. -/
noncomputable def Dual.div (x y : Dual) : Dual :=
  ⟨x.val / y.val, fun j => (x.dx j * y.val - x.val * y.dx j) / (y.val * y.val)⟩
/-- An elementary function `f` with derivative `f'`: `exp`, `log`, `sqrt`, `pow` with a fixed exponent, … -/
def Dual.app (f f' : ℝ → ℝ) (x : Dual) : Dual := ⟨f x.val, fun j => f' x.val * x.dx j⟩

/-- What a residual computes for one entry of its output: the expression obtained from the template by unrolling its
loops and substituting its local variables.  `varV i`, `varU i` are entries of the inputs `V` and `U`; `out` is what the
entry of the output array contained before the call; `cond e a b` is `(e > 0) ? a : b`. -/
inductive Expr where
  | const (c : ℝ)
  | varV (i : Nat)
  | varU (i : Nat)
  | out
  | add (a b : Expr)
  | sub (a b : Expr)
  | mul (a b : Expr)
  | div (a b : Expr)
  | app (f f' : ℝ → ℝ) (a : Expr)
  | cond (e a b : Expr)

/-- The instance for real numbers. -/
noncomputable def Expr.real (V U : List ℝ) (o : ℝ) : Expr → ℝ
  | .const c => c
  | .varV i => V.getD i 0
  | .varU i => U.getD i 0
  | .out => o
  | .add a b => a.real V U o + b.real V U o
  | .sub a b => a.real V U o - b.real V U o
  | .mul a b => a.real V U o * b.real V U o
  | .div a b => a.real V U o / b.real V U o
  | .app f _ a => f (a.real V U o)
  | .cond e a b => if e.real V U o > 0 then a.real V U o else b.real V U o

/-- The instance for AD numbers; they are compared by their values. -/
noncomputable def Expr.ad (V U : List Dual) (o : Dual) : Expr → Dual
  | .const c => Dual.const c
  | .varV i => V.getD i (Dual.const 0)
  | .varU i => U.getD i (Dual.const 0)
  | .out => o
  | .add a b => (a.ad V U o).add (b.ad V U o)
  | .sub a b => (a.ad V U o).sub (b.ad V U o)
  | .mul a b => (a.ad V U o).mul (b.ad V U o)
  | .div a b => (a.ad V U o).div (b.ad V U o)
  | .app f f' a => (a.ad V U o).app f f'
  | .cond e a b => if (e.ad V U o).val > 0 then a.ad V U o else b.ad V U o

/-- The template whose entry number `i < N` is `code p i`; the other entries of the output array are not written. -/
noncomputable def FunctionT.ofCode {P : Type} (N : Nat) (code : P → Nat → Expr) : FunctionT P where
  real p U F := (none, fun k => if 0 ≤ k ∧ k < N then (code p k.toNat).real [] U (F k) else F k)
  ad p U R := (none, fun k => if 0 ≤ k ∧ k < N then (code p k.toNat).ad [] U (R k) else R k)

/-- The same for time dependent problems; the expressions may use `s` and `t`. -/
noncomputable def IFunctionT.ofCode {P : Type} (N : Nat) (code : P → ℝ → ℝ → Nat → Expr) : IFunctionT P where
  real p s V t U F := (none, fun k => if 0 ≤ k ∧ k < N then (code p s t k.toNat).real V U (F k) else F k)
  ad p s V t U R := (none, fun k => if 0 ≤ k ∧ k < N then (code p s t k.toNat).ad V U (R k) else R k)

end PetIGA.AD
