import Verif.Model.BSpline
import Verif.Model.Axis
import Verif.Model.Span
/-
The parts of the evaluation of basis functions and fields that only add, multiply and divide, with every operation
rounded: `fl` is the rounding of the machine, applied to the exact result of each operation.  `fma` says whether the
compiler contracts `a + b*c` to one operation with one rounding, which it may.  Overflow, underflow and infinities are
left out: `fl` is defined on all numbers.
-/
namespace PetIGA.Flt
open PetIGA.Bsp

variable {K : Type} [Field K] (fl : K → K)

/-- `a + b*c`, with two roundings or contracted. -/
def addMul (fma : Bool) (a b c : K) : K := if fma then fl (a + b * c) else fl (a + fl (b * c))

/-- The inner loop `do r = 0, j-1` of petigabsb.f90.in:17-22 with rounding; compare `Bsp.rLoop`. -/
def rLoop (fma : Bool) (left right : Int → K) (j : Int) : Nat → (Int → Int → K) × K → (Int → Int → K) × K
  | 0, s => s
  | r'+1, s =>
    let (ndu, saved) := rLoop fma left right j r' s
    let r : Int := r'
    let ndu := upd2 ndu j r (fl (right (r+1) + left (j-r)))
    let temp := fl (ndu r (j-1) / ndu j r)
    let ndu := upd2 ndu r j (addMul fl fma saved (right (r+1)) temp)
    let saved := fl (left (j-r) * temp)
    (ndu, saved)

/-- The loop `do j = 1, p` of petigabsb.f90.in:12-24 with rounding; compare `Bsp.jLoop`. -/
def jLoop (fma : Bool) (i : Int) (uu : K) (U : Int → K) (t0 : Tri K) : Nat → Tri K
  | 0 => { t0 with ndu := upd2 t0.ndu 0 0 1 }
  | j'+1 =>
    let t := jLoop fma i uu U t0 j'
    let j : Int := j'+1
    let left := upd1 t.left j (fl (uu - U (i+1-j)))
    let right := upd1 t.right j (fl (U (i+j) - uu))
    let (ndu, saved) := rLoop fl fma left right j (j'+1) (t.ndu, 0)
    { ndu := upd2 ndu j j saved, left := left, right := right }

/-- The values of the basis functions, `ders(:,0) = ndu(:,p)`, petigabsb.f90.in:25, copied unchanged by
`IGA_Basis_BSpline`, petigabsp.F90:14. -/
def values (fma : Bool) (t0 : Tri K) (k : Int) (uu : K) (p : Nat) (U : Int → K) (r : Nat) : K :=
  (jLoop fl fma k uu U t0 p).ndu r p

/-- `iN(0,ia) * jN(0,ja) * kN(0,ka)`, petiga1d.F90:68, petiga2d.F90:80, petiga3d.F90:93: from left to right. -/
def tensor : List K → K
  | [] => 1
  | v :: vs => vs.foldl (fun a b => fl (a * b)) v

/-- An order of adding up the terms of a sum: the Fortran standard leaves that of the intrinsic `sum` open, and the
compiler may vectorise the loops. -/
inductive Order (ι : Type) where
  | zero
  | term (a : ι)
  | add (l r : Order ι)
  | fma (l : Order ι) (a : ι)

/-- The terms of an order. -/
def Order.terms {ι : Type} : Order ι → List ι
  | .zero => []
  | .term a => [a]
  | .add l r => l.terms ++ r.terms
  | .fma l a => l.terms ++ [a]

/-- The number of additions a term goes through at most. -/
def Order.depth {ι : Type} : Order ι → Nat
  | .zero => 0
  | .term _ => 0
  | .add l r => max l.depth r.depth + 1
  | .fma l _ => l.depth + 1

/-- The order of the loop `V = 0; do a = 1, nen; V = V + …`. -/
def Order.loop {ι : Type} (fma : Bool) : List ι → Order ι
  | as => as.foldl (fun t a => if fma then .fma t a else .add t (.term a)) .zero

/-- The sum of `x` in the given order; with `fma` the term is added without having been rounded. -/
def total {ι : Type} (x : ι → K) : Order ι → K
  | .zero => 0
  | .term a => fl (x a)
  | .add l r => fl (total x l + total x r)
  | .fma l a => fl (total x l + x a)

/-- The sum of the numbers `x` of the machine in the given order (nothing to be rounded in the terms). -/
def sum {ι : Type} (x : ι → K) : Order ι → K
  | .zero => 0
  | .term a => x a
  | .add l r => fl (sum x l + sum x r)
  | .fma l a => fl (sum x l + x a)

/-- `Rationalize`, petigarat.f90.in:23-27: `R0 = W*R0; W0 = sum(R0); R0 = R0/W0`. -/
def rational {ι : Type} (o : Order ι) (W N : ι → K) (a : ι) : K :=
  fl (fl (W a * N a) / sum fl (fun b => fl (W b * N b)) o)

/-- `IGA_GetValue`, petigaval.F90:182-196, one component, and a component of `X0` of `GeometryMap`,
petigamapgeo.f90.in:27-32: the sum of `N(a) * U(a)`. -/
def value {ι : Type} (o : Order ι) (N U : ι → K) : K := total fl (fun a => N a * U a) o

/-- `IGAAxisInitUniform`, petigaaxis.c:439: `Ui + (PetscReal)i/(PetscReal)N * (Uf-Ui)`, compare `Ax.uniformBreak`; `i` and
`N` are converted exactly. -/
def uniformBreak (fma : Bool) (N : Int) (Ui Uf : K) (i : Int) : K :=
  if i = 0 then Ui else if i = N then Uf else addMul fl fma Ui (fl ((i:K)/(N:K))) (fl (Uf-Ui))

/-- `IGAAxisInitUniform`, petigaaxis.c:401-454, for an axis that is not periodic (the periodic part, petigaaxis.c:441-446,
is not rounded here); compare `Ax.initUniform`.  The knots are copies of the breaks. -/
def initUniform [LinearOrder K] (fma : Bool) (mem : Int → K) (ax : Ax.Axis K) (N : Int) (Ui Uf : K) (C : Int) : Res Unit × Ax.Axis K :=
  let C := if C = Ax.PETSC_DECIDE then ax.p - 1 else C
  if ax.p < 1 then (.err .order, ax)
  else if N < 1 then (.err .wrong, ax)
  else if Ui ≥ Uf then (.err .wrong, ax)
  else if C < 0 ∨ C ≥ ax.p then (.err .wrong, ax)
  else (.ok (), Ax.fillAxis ax N C (uniformBreak fl fma N Ui Uf) mem)

/-- `IGA_Greville`, petigabasis.c:324, with rounding; compare `Ax.grevSum`. -/
def grevSum (i : Int) (U : Int → K) : Nat → K
  | 0 => 0
  | j+1 => fl (grevSum i U j + U (i + j + 1))

/-- `IGA_Greville`, petigabasis.c:320-326, with rounding; compare `Ax.greville`. -/
def greville (i p : Int) (U : Int → K) : K :=
  if p > 0 then fl (grevSum fl i U p.toNat / (p:K)) else fl (fl (U 0 + U 1) / 2)

/-- `IGABasisInitQuadrature`, petigabasis.c:133-142, 152-159: `J = (u1-u0)/2`. -/
def detJac (u0 u1 : K) : K := fl (fl (u1 - u0) / 2)

/-- `(X[iqp] + 1) * J + u0`, petigabasis.c:141, 158. -/
def quadPoint (fma : Bool) (u0 u1 X : K) : K := addMul fl fma u0 (fl (X + 1)) (detJac fl u0 u1)

end PetIGA.Flt
