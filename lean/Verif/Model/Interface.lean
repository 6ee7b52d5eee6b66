import Verif.Model.Basic
import Mathlib.Algebra.Ring.Defs
/-
Model of the C++ interface (include/petiga/cxx/lookup.hpp and the wrappers around it, include/petiga/petiga.hpp) and of the
Fortran interface (src/petigaftn.F90), together with the storage view of the C functions they stand beside
(src/petigaval.F90:145-287, src/petigapoint.c:128-137, 325-412).

Arrays are modelled by their storage: `Nat → K`, entry `[a][c]` of a C++ array with `dof` columns is number `a*dof+c`, entry
`(t,a)` of a Fortran array whose first extent is `D` is number `t-1 + D*(a-1)`.  Arithmetic is exact.
-/
namespace PetIGA.Ifc

/-! ### Selection of a template instance -/

/-- The macros `VAR`, `VAR_MIN`, `VAR_MAX` for one of `DIM`, `DEG`, `DOF` as the user defined them. -/
structure Macros where
  one : Option Int
  min : Option Int
  max : Option Int

/-- `VAR_MIN` and `VAR_MAX` after include/petiga/cxx/lookup.hpp:16-47: `VAR` sets both, otherwise the defaults fill in what
the user has not defined. -/
def Macros.range (m : Macros) (lo hi : Int) : Int × Int :=
  match m.one with
  | some v => (v, v)
  | none => (m.min.getD lo, m.max.getD hi)

/-- The three ranges of a program. -/
structure Config where
  dim : Macros
  deg : Macros
  dof : Macros

/-- `Enable(VAR,N)`, include/petiga/cxx/lookup.hpp:49-50. -/
def enable (r : Int × Int) (n : Int) : Bool := decide (r.1 ≤ n) && decide (r.2 ≥ n)

/-- Ranges with the defaults of include/petiga/cxx/lookup.hpp:21-25, 32-36, 43-47. -/
def Config.dims (c : Config) : Int × Int := c.dim.range 1 3
def Config.degs (c : Config) : Int × Int := c.deg.range 1 3
def Config.dofs (c : Config) : Int × Int := c.dof.range 1 5

/-- The lines `HandleDeg1` to `HandleDeg3` in the order of the file, include/petiga/cxx/lookup.hpp:177-246. -/
def handled : Int → List (List Int)
  | 1 => [[1], [2], [3], [4], [5]]
  | 2 => [[1,1], [1,2], [1,3], [2,2], [1,4], [2,3], [2,4], [3,3], [2,5], [3,4], [3,5], [4,4], [4,5], [5,5]]
  | 3 => [[1,1,1], [1,1,2], [1,1,3], [1,2,2], [1,1,4], [1,2,3], [2,2,2], [1,2,4], [1,3,3], [2,2,3], [1,3,4], [2,2,4],
          [2,3,3], [1,4,4], [2,2,5], [2,3,4], [3,3,3], [2,3,5], [2,4,4], [3,3,4], [2,4,5], [3,3,5], [3,4,4], [2,5,5],
          [3,4,5], [4,4,4], [3,5,5], [4,4,5], [4,5,5], [5,5,5]]
  | _ => []

/-- The label of a case: `(p+1)`, `((p+1)*(q+1))`, `((p+1)*(q+1)*(r+1))`, include/petiga/cxx/lookup.hpp:187, 210, 249. -/
def label : List Int → Int
  | [] => 1
  | [p] => p + 1
  | p :: l => (p + 1) * label l

/-- The case labels left by the preprocessor in the switch over `nen` for one dimension. -/
def nenCases (c : Config) (dim : Int) : List Int :=
  ((handled dim).filter fun l => l.all fun p => enable c.degs p).map label

/-- The case labels in the switch over `dof`, include/petiga/cxx/lookup.hpp:253-268. -/
def dofCases (c : Config) : List Int := [1, 2, 3, 4, 5, 6, 7, 8, 9].filter fun n => enable c.dofs n

/-- The case labels in the switch over `dim`, include/petiga/cxx/lookup.hpp:166-175. -/
def dimCases (c : Config) : List Int := [3, 2, 1].filter fun n => enable c.dims n

/-- A `switch` with these case labels: the label that is taken; `default: break;` otherwise. -/
def switch (labels : List Int) (v : Int) : Option Int := labels.find? fun l => l == v

/-- `LookupTemplate`, include/petiga/cxx/lookup.hpp:166-270: the template arguments of the instance stored in the function
pointer, none if it stays `NULL`. -/
def lookup (c : Config) (dim nen dof : Int) : Option (Int × Int × Int) :=
  match switch (dimCases c) dim with
  | none => none
  | some d =>
    match switch (nenCases c d) nen with
    | none => none
    | some n =>
      match switch (dofCases c) dof with
      | none => none
      | some f => some (d, n, f)

/-- `FunctionCXX`, `JacobianCXX`, `SystemCXX`, `IFunctionCXX`, `IJacobianCXX`, include/petiga/cxx/*.hpp: `LookupTemplateSet`,
`LookupTemplateChk` and the call.  `A` is the remaining arguments and the contents of the output arrays, `B` what the
callback returns. -/
def callCXX {A B : Type} (c : Config) (dim nen dof : Int) (template : Int → Int → Int → A → Res B) (args : A) : Res B :=
  match lookup c dim nen dof with
  | none => .err .user
  | some (d, n, f) => template d n f args

/-! ### Arrays -/

section Arrays
variable {K : Type}

/-- `reinterpret_cast<Scalar (&)[n][dof]>(*U)[a][c]`, include/petiga/cxx/function.hpp:7-11. -/
def view2 (dof : Nat) (U : Nat → K) (a c : Nat) : K := U (a * dof + c)

/-- `reinterpret_cast<Scalar (&)[n][dof][n][dof]>(*J)[a][i][b][j]`, include/petiga/cxx/jacobian.hpp:7-11. -/
def view4 (nen dof : Nat) (J : Nat → K) (a i b j : Nat) : K := J (((a * dof + i) * nen + b) * dof + j)

/-- Assignment of one entry. -/
def set (u : Nat → K) (k : Nat) (v : K) : Nat → K := fun l => if l = k then v else u l

variable [CommRing K]

/-- `Space::Evaluate<offset,num>(q,U,u)`, include/petiga/petiga.hpp:51-119, all five: `D = dim^ider` entries per field; the
loops over `i`, `j`, `k`, `l` run over `t = 0, …, D-1` in this order and `u[c][i]…[l]` is entry number `c*D+t`, `N[a][i]…[l]`
entry number `a*D+t`. -/
def evaluateCXX (D nen dof offset num : Nat) (N U : Nat → K) (u : Nat → K) : Nat → K :=
  let u := (List.range num).foldl (fun u c => (List.range D).foldl (fun u t => set u (c*D+t) 0) u) u
  (List.range nen).foldl (fun u a => (List.range num).foldl (fun u c => (List.range D).foldl
    (fun u t => set u (c*D+t) (u (c*D+t) + N (a*D+t) * view2 dof U a (c+offset))) u) u) u

/-- `Space::EvaluateDiv<offset>`, include/petiga/petiga.hpp:121-129. -/
def evaluateDivCXX (dim nen dof offset : Nat) (N U : Nat → K) : K :=
  (List.range nen).foldl (fun u a => (List.range dim).foldl (fun u i => u + N (a*dim+i) * view2 dof U a (i+offset)) u) 0

/-- `Space::EvaluateDel2<offset,num>`, include/petiga/petiga.hpp:130-141. -/
def evaluateDel2CXX (dim nen dof offset num : Nat) (N U : Nat → K) (u : Nat → K) : Nat → K :=
  let u := (List.range num).foldl (fun u c => set u c 0) u
  (List.range nen).foldl (fun u a => (List.range num).foldl (fun u c => (List.range dim).foldl
    (fun u i => set u c (u c + N ((a*dim+i)*dim+i) * view2 dof U a (c+offset))) u) u) u

/-- `IGA_GetValue` (`D = 1`), `IGA_GetGrad` (`dim`), `IGA_GetHess` (`dim*dim`), `IGA_GetDer3`, `IGA_GetDer4`,
src/petigaval.F90:181-287, called by `IGAPointFormValue` and the like: `V = 0`, then `V(:,i) = V(:,i) + N(:,a)*U(i,a)`. -/
def evaluateC (D nen dof : Nat) (N U : Nat → K) (V : Nat → K) : Nat → K :=
  let V := (List.range (D*dof)).foldl (fun V k => set V k 0) V
  (List.range nen).foldl (fun V a => (List.range dof).foldl (fun V i =>
    fun k => if i*D ≤ k ∧ k < i*D + D then V k + N (k - i*D + D*a) * U (i + dof*a) else V k) V) V

/-- `IGA_GetDel2`, src/petigaval.F90:234-251. -/
def del2C (dim nen dof : Nat) (N U : Nat → K) (V : Nat → K) : Nat → K :=
  let V := (List.range dof).foldl (fun V k => set V k 0) V
  (List.range nen).foldl (fun V a => (List.range dof).foldl (fun V c => (List.range dim).foldl
    (fun V i => set V c (V c + N (i + dim*(i + dim*a)) * U (c + dof*a))) V) V) V

/-- An array section of the Fortran functions: a result with a first extent `D` and fields as second extent. -/
abbrev FArr (K : Type) := Nat → Nat → K

/-- The pointer made by `IGA_Shape0` to `IGA_Shape4`, src/petigaftn.F90:370-411: `c2f(p%shape(r),N,(/dim,…,dim,nen/))`; the
leading extents are taken together, `D = dim^r`.  Indices start from 0 here. -/
def shapeFtn (D : Nat) (mem : Nat → K) : FArr K := fun t a => mem (t + D*a)

/-- `IGA_Shape_Der0_V` to `IGA_Shape_Der4_V`, src/petigaftn.F90:426-437, 450-464, 477-491, 504-518, 531-545, with
`U(dof,nen)`; `V(:,c) = V(:,c) + N(:,a)*U(c,a)`. -/
def derV (nen dof : Nat) (N U : FArr K) : FArr K :=
  (List.range nen).foldl (fun V a => (List.range dof).foldl (fun V c =>
    fun t c' => if c' = c then V t c' + N t a * U c a else V t c') V) (fun _ _ => 0)

/-- `IGA_Shape_Der0_S` to `IGA_Shape_Der4_S`, src/petigaftn.F90:413-425, 438-449, 465-476, 492-503, 519-530, with `U(nen)`. -/
def derS (nen : Nat) (N : FArr K) (U : Nat → K) : Nat → K :=
  (List.range nen).foldl (fun V a => fun t => V t + N t a * U a) (fun _ => 0)

/-- `IGA_Point_Der0_V` to `IGA_Point_Der4_V`, src/petigaftn.F90:602-668: `IGA_Value(p,U)`, `IGA_Grad(p,U)`, … -/
def pointDerV (D nen dof : Nat) (shape : Nat → K) (U : FArr K) : FArr K := derV nen dof (shapeFtn D shape) U

/-- `IGA_Point_Der0_S` to `IGA_Point_Der4_S`. -/
def pointDerS (D nen : Nat) (shape U : Nat → K) : Nat → K := derS nen (shapeFtn D shape) U

/-- `IGA_Shape_Div`, src/petigaftn.F90:546-559: both loops, `N(dim,nen)`, `U(dim,nen)`. -/
def shapeDiv (dim nen : Nat) (N U : FArr K) : K :=
  (List.range nen).foldl (fun V a => (List.range dim).foldl (fun V i => V + N i a * U i a) V) 0

/-- `IGA_Point_Div`, src/petigaftn.F90:670-676: the result is declared `V(DIM)` and the number is assigned to the whole
array. -/
def pointDiv (dim nen : Nat) (shape : Nat → K) (U : FArr K) : Nat → K := fun _ => shapeDiv dim nen (shapeFtn dim shape) U

/-- `IGA_Shape_Del2_V` and `IGA_Point_Del2_V`, src/petigaftn.F90:575-591, 686-692: `V(c) = V(c) + N(i,i,a)*U(c,a)`;
`N(i,i,a)` of the pointer with extents `(/dim,dim,nen/)` is entry `i + dim*(i + dim*a)`. -/
def pointDel2V (dim nen dof : Nat) (shape : Nat → K) (U : FArr K) : Nat → K :=
  (List.range nen).foldl (fun V a => (List.range dof).foldl (fun V c => (List.range dim).foldl
    (fun V i => set V c (V c + shape (i + dim*(i + dim*a)) * U c a)) V) V) (fun _ => 0)

/-- `IGA_Shape_Del2_S` and `IGA_Point_Del2_S`, src/petigaftn.F90:560-574, 678-684. -/
def pointDel2S (dim nen : Nat) (shape U : Nat → K) : K :=
  (List.range nen).foldl (fun V a => (List.range dim).foldl (fun V i => V + shape (i + dim*(i + dim*a)) * U a) V) 0

/-- `dot`, include/petiga/petiga.hpp:314-333, with its overloads for three, two and one components. -/
def dot (dim : Nat) (a b : Nat → K) : K :=
  if dim = 3 then a 0 * b 0 + a 1 * b 1 + a 2 * b 2 else
  if dim = 2 then a 0 * b 0 + a 1 * b 1 else
  if dim = 1 then a 0 * b 0 else
  (List.range dim).foldl (fun s i => s + a i * b i) 0

/-- `trace`, include/petiga/petiga.hpp:335-354; also `div` and `del2`, 375-381. -/
def trace (dim : Nat) (a : Nat → Nat → K) : K :=
  if dim = 3 then a 0 0 + a 1 1 + a 2 2 else
  if dim = 2 then a 0 0 + a 1 1 else
  if dim = 1 then a 0 0 else
  (List.range dim).foldl (fun s i => s + a i i) 0

/-- `adv`, include/petiga/petiga.hpp:366-373. -/
def adv (dim : Nat) (w : Nat → K) (g : Nat → Nat → K) : Nat → K := fun i => dot dim w (g i)

end Arrays

/-! ### The position of a point -/

/-- `IGAPointAtBoundary`, src/petigapoint.c:128-137: the axis and the side. -/
def atBoundaryC (atboundary : Bool) (id : Int) : Int × Int :=
  (if atboundary then id.tdiv 2 else -1, if atboundary then id.tmod 2 else -1)

/-- `IGA_AtBoundary`, src/petigaftn.F90:314-330. -/
def atBoundaryFtn (atboundary : Int) (id : Int) : Bool × Int × Int :=
  if atboundary ≠ 0 then (true, id.tdiv 2, id.tmod 2) else (false, -1, -1)

/-! ### The point structure -/

/-- Types of the components of the structure. -/
inductive Kind where
  | int | bool | ptr
deriving DecidableEq

/-- `struct _n_IGAPoint`, include/petiga.h:644-703: the components as name, type and number of entries. -/
def pointC : List (String × Kind × Nat) :=
  [("refct", .int, 1), ("atboundary", .bool, 1), ("boundary_id", .int, 1), ("count", .int, 1), ("index", .int, 1),
   ("neq", .int, 1), ("nen", .int, 1), ("dof", .int, 1), ("dim", .int, 1), ("nsd", .int, 1), ("npd", .int, 1),
   ("rational", .ptr, 1), ("geometry", .ptr, 1), ("property", .ptr, 1), ("weight", .ptr, 1), ("detJac", .ptr, 1),
   ("point", .ptr, 1), ("normal", .ptr, 1), ("basis", .ptr, 5), ("shape", .ptr, 5), ("mapU", .ptr, 5), ("mapX", .ptr, 5),
   ("detX", .ptr, 1), ("detS", .ptr, 1), ("parent", .ptr, 1), ("nvec", .int, 1), ("wvec", .ptr, 8), ("nmat", .int, 1),
   ("wmat", .ptr, 4)]

/-- `type, bind(C) :: IGAPoint`, src/petigaftn.F90:69-108. -/
def pointFtn : List (String × Kind × Nat) :=
  [("private_refct", .int, 1), ("atboundary", .bool, 1), ("boundary_id", .int, 1), ("count", .int, 1), ("index", .int, 1),
   ("neq", .int, 1), ("nen", .int, 1), ("dof", .int, 1), ("dim", .int, 1), ("nsd", .int, 1), ("npd", .int, 1),
   ("rational", .ptr, 1), ("geometry", .ptr, 1), ("property", .ptr, 1), ("weight", .ptr, 1), ("detJac", .ptr, 1),
   ("point", .ptr, 1), ("normal", .ptr, 1), ("basis", .ptr, 5), ("shape", .ptr, 5), ("mapU", .ptr, 5), ("mapX", .ptr, 5),
   ("detX", .ptr, 1), ("detS", .ptr, 1), ("private_parent", .ptr, 1), ("private_nvec", .int, 1),
   ("private_wvec", .ptr, 8), ("private_nmat", .int, 1), ("private_wmat", .ptr, 4)]

/-- Where a C compiler places the component called `name`: components in order, each at the next multiple of its
alignment.  `size` and `align` of the types are those of the machine. -/
def offsetOf (size align : Kind → Nat) (name : String) : Nat → List (String × Kind × Nat) → Option (Nat × Kind × Nat)
  | _, [] => none
  | o, (n, k, c) :: l =>
    let start := (o + align k - 1) / align k * align k
    if n = name then some (start, k, c) else offsetOf size align name (start + size k * c) l

end PetIGA.Ifc
