import Verif.Model.Basic
import Mathlib.Data.Real.Sqrt
import Mathlib.Algebra.BigOperators.Group.Finset.Basic
/-
Model of the finite difference Jacobians, src/petigafdjac.c, with the work vectors of src/petigapoint.c:414-430.
Arithmetic is exact and scalars are real.  A user callback is a function of its input vectors and of the contents of the
output array it is given; it returns an error code or the new contents of the output array.
-/
namespace PetIGA.FD
open Finset

/-- A vector of scalars in memory; entries beyond its length are the memory behind it. -/
abbrev Arr := Nat → ℝ

/-- `DeltaWP`, src/petigafdjac.c:3-11; `sqrteps` is `PETSC_SQRT_MACHINE_EPSILON`. -/
noncomputable def deltaWP (sqrteps : ℝ) (N : Nat) (U : Arr) : ℝ :=
  sqrteps * Real.sqrt (1 + Real.sqrt ((List.range N).foldl (fun s i => s + U i * U i) 0))

/-- What `IGAPointGetWorkVec` uses of the point: `index`, `nvec`, `neq*dof` and the contents of the eight arrays
`wvec`, include/petiga.h. -/
structure Pt where
  index : Int
  nvec : Nat
  size : Nat
  wvec : Nat → Arr

/-- `IGAPointGetWorkVec`, src/petigapoint.c:414-430: the array handed out, with its first entries zeroed. -/
def getWorkVec (p : Pt) : Res (Arr × Pt) :=
  if p.index < 0 then .err .wrongState else
  if p.nvec ≥ 8 then .err .outOfRange else
  .ok (fun i => if i < p.size then 0 else p.wvec p.nvec i, { p with nvec := p.nvec + 1 })

/-- `for (i=0; i<M; i++) J[i*N+j] = (G[i]-F[i])/h;`, src/petigafdjac.c:36, 69, 104, 142, 173. -/
noncomputable def writeCol (M N j : Nat) (h : ℝ) (F G J : Arr) : Arr :=
  (List.range M).foldl (fun J i => Function.update J (i*N+j) ((G i - F i) / h)) J

/-- A callback seen by the loop: `m` perturbed input vectors, the output array before, the output array after. -/
abbrev Callback (m : Nat) := (Fin m → Arr) → Arr → Res Arr

/-- The loop over the columns, src/petigafdjac.c:32-38 (`m = 1`), 63-72 and 98-107 (`m = 2`), 134-146 (`m = 3`),
169-175 (`m = 1`): `cnt` columns are left, the next one is `j`.  `scale a` is the factor of `h` added to input `a`.
The result is what the input vectors contain when the function returns, and the returned value. -/
noncomputable def columns {m : Nat} (f : Callback m) (scale : Fin m → ℝ) (h : ℝ) (M N : Nat) (F : Arr) :
    (cnt j : Nat) → (ins : Fin m → Arr) → (G J : Arr) → (Fin m → Arr) × Res Arr
  | 0, _, ins, _, J => (ins, .ok J)
  | cnt+1, j, ins, G, J =>
    let saved := fun a => ins a j
    let ins1 := fun a => Function.update (ins a) j (saved a + h * scale a)
    match f ins1 G with
    | .ok G' =>
      columns f scale h M N F cnt (j+1) (fun a => Function.update (ins1 a) j (saved a)) G' (writeCol M N j h F G' J)
    | .err e => (ins1, .err e)
    | .ub => (ins1, .ub)

/-- The common body of the five functions: two work vectors, the residual, the columns. -/
noncomputable def fdJacobian {m : Nat} (p : Pt) (f : Callback m) (scale : Fin m → ℝ) (h : ℝ) (M N : Nat)
    (ins : Fin m → Arr) (J : Arr) : (Fin m → Arr) × Res Arr :=
  match getWorkVec p with
  | .ok (F, p1) =>
    match getWorkVec p1 with
    | .ok (G, _) =>
      match f ins F with
      | .ok F' => columns f scale h M N F' N 0 ins G J
      | .err e => (ins, .err e)
      | .ub => (ins, .ub)
    | .err e => (ins, .err e)
    | .ub => (ins, .ub)
  | .err e => (ins, .err e)
  | .ub => (ins, .ub)

/-- `IGAFormJacobianFD`, src/petigafdjac.c:13-40: `M = neq*dof`, `N = nen*dof`; the result gives the contents of `U`. -/
noncomputable def jacobianFD (sqrteps : ℝ) (p : Pt) (M N : Nat) (Function : Arr → Arr → Res Arr) (U J : Arr) :
    Arr × Res Arr :=
  let r := fdJacobian p (fun (x : Fin 1 → Arr) => Function (x 0)) (fun _ => 1) (deltaWP sqrteps N U) M N
    (fun _ => U) J
  (r.1 0, r.2)

/-- `IGAFormIJacobianFD`, src/petigafdjac.c:42-74: the result gives the contents of `V` and `U`. -/
noncomputable def iJacobianFD (sqrteps : ℝ) (p : Pt) (M N : Nat)
    (IFunction : ℝ → Arr → ℝ → Arr → Arr → Res Arr) (s : ℝ) (V : Arr) (t : ℝ) (U J : Arr) : (Arr × Arr) × Res Arr :=
  let r := fdJacobian p (fun (x : Fin 2 → Arr) => IFunction s (x 0) t (x 1)) (fun a => if a = 0 then s else 1)
    (deltaWP sqrteps N U) M N (fun a => if a = 0 then V else U) J
  ((r.1 0, r.1 1), r.2)

/-- `IGAFormIEJacobianFD`, src/petigafdjac.c:76-109. -/
noncomputable def ieJacobianFD (sqrteps : ℝ) (p : Pt) (M N : Nat)
    (IEFunction : ℝ → Arr → ℝ → Arr → ℝ → Arr → Arr → Res Arr) (s : ℝ) (V : Arr) (t : ℝ) (U : Arr) (t0 : ℝ)
    (U0 J : Arr) : (Arr × Arr) × Res Arr :=
  let r := fdJacobian p (fun (x : Fin 2 → Arr) => IEFunction s (x 0) t (x 1) t0 U0)
    (fun a => if a = 0 then s else 1) (deltaWP sqrteps N U) M N (fun a => if a = 0 then V else U) J
  ((r.1 0, r.1 1), r.2)

/-- `IGAFormI2JacobianFD`, src/petigafdjac.c:111-148: the result gives the contents of `A`, `V` and `U`. -/
noncomputable def i2JacobianFD (sqrteps : ℝ) (p : Pt) (M N : Nat)
    (I2Function : ℝ → Arr → ℝ → Arr → ℝ → Arr → Arr → Res Arr) (a : ℝ) (A : Arr) (v : ℝ) (V : Arr) (t : ℝ)
    (U J : Arr) : (Arr × Arr × Arr) × Res Arr :=
  let r := fdJacobian p (fun (x : Fin 3 → Arr) => I2Function a (x 0) v (x 1) t (x 2))
    (fun b => if b = 0 then a else if b = 1 then v else 1) (deltaWP sqrteps N U) M N
    (fun b => if b = 0 then A else if b = 1 then V else U) J
  ((r.1 0, r.1 1, r.1 2), r.2)

/-- `IGAFormRHSJacobianFD`, src/petigafdjac.c:150-177. -/
noncomputable def rhsJacobianFD (sqrteps : ℝ) (p : Pt) (M N : Nat) (RHSFunction : ℝ → Arr → Arr → Res Arr) (t : ℝ)
    (U J : Arr) : Arr × Res Arr :=
  let r := fdJacobian p (fun (x : Fin 1 → Arr) => RHSFunction t (x 0)) (fun _ => 1) (deltaWP sqrteps N U) M N
    (fun _ => U) J
  (r.1 0, r.2)

end PetIGA.FD
