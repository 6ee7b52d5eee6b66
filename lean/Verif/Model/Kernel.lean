import Mathlib.Algebra.BigOperators.Group.Finset.Basic
import Mathlib.Algebra.Field.Basic
import Mathlib.Data.Fintype.BigOperators
import Mathlib.Data.Real.Sqrt
/-
Model of the per-point numerical kernels: `TensorBasisFuns` (src/petiga{1,2,3}d.F90), `Rationalize`
(src/petigarat.f90.in), `GeometryMap` (src/petigamapgeo.f90.in), `InverseMap` (src/petigamapinv.f90.in),
`ShapeFunctions` (src/petigamapshf.f90.in), `Determinant`, `Inverse` (src/petigadet.f90.in, src/petigainv.f90.in),
`IGA_GetNormal` and the evaluation kernels (src/petigaval.F90), and the sequence in which
`IGAElementBuildTabulation` (src/petigaelem.c:794-1033) calls them at one quadrature point.

Simplifications, for the whole file.
* Arithmetic is exact (a field, or the real numbers where a square root is taken), so an accumulation loop
  `S = 0; do a…: S = S + f(a)` is the sum `∑ a, f a`; the order of the additions does not matter.
* The 1-based Fortran index `i` of an extent `d` is the element `i-1` of `Fin d`.  The index of a function on the
  element (`node`) ranges over an arbitrary finite type `ι`; for tensor products it is the product of the index
  types of the directions.
* An array the routine does not assign keeps what is in memory: the routines take the old contents as an argument.
-/
namespace PetIGA.Ker
open Finset

/-- The five tables `N0(nen)`, `N1(dim,nen)`, `N2(dim,dim,nen)`, `N3(dim,dim,dim,nen)`,
`N4(dim,dim,dim,dim,nen)` of one quadrature point (declarations e.g. petigarat.f90.in:12-16).  `t2 i j a` is
`N2(i,j,a)`. -/
structure Tab (K : Type) (d : Nat) (ι : Type) where
  t0 : ι → K
  t1 : Fin d → ι → K
  t2 : Fin d → Fin d → ι → K
  t3 : Fin d → Fin d → Fin d → ι → K
  t4 : Fin d → Fin d → Fin d → Fin d → ι → K

variable {K : Type} {d : Nat} {ι κ μ : Type}

/-! ### Tensor product tables -/

/-- A block of assignments `Nr(i1,..,ir,…) = iN(o1,…) * jN(o2,…) * …`: pairs of `[i1,..,ir]` (1-based, as in the
source) and `[o1, o2, …]`. -/
abbrev Rows := List (List Nat × List Nat)

/-- Execution of a block of assignments for one function: every assignment stores `val orders` at its index tuple,
the rest of the memory is kept. -/
def exec (rows : Rows) (val : List Nat → K) (mem : List Nat → K) : List Nat → K :=
  rows.foldl (fun m r t => if t = r.1 then val r.2 else m t) mem

/-- Assignments to `N0` in `TensorBasisFuns`, src/petiga1d.F90:67-67: `(i1..ir)` and the
derivative order taken in each direction. -/
def rows1_0 : Rows :=
  [([], [0])]

/-- Assignments to `N1` in `TensorBasisFuns`, src/petiga1d.F90:72-72: `(i1..ir)` and the
derivative order taken in each direction. -/
def rows1_1 : Rows :=
  [([1], [1])]

/-- Assignments to `N2` in `TensorBasisFuns`, src/petiga1d.F90:77-77: `(i1..ir)` and the
derivative order taken in each direction. -/
def rows1_2 : Rows :=
  [([1, 1], [2])]

/-- Assignments to `N3` in `TensorBasisFuns`, src/petiga1d.F90:82-82: `(i1..ir)` and the
derivative order taken in each direction. -/
def rows1_3 : Rows :=
  [([1, 1, 1], [3])]

/-- Assignments to `N4` in `TensorBasisFuns`, src/petiga1d.F90:87-87: `(i1..ir)` and the
derivative order taken in each direction. -/
def rows1_4 : Rows :=
  [([1, 1, 1, 1], [4])]

/-- Assignments to `N0` in `TensorBasisFuns`, src/petiga2d.F90:80-80: `(i1..ir)` and the
derivative order taken in each direction. -/
def rows2_0 : Rows :=
  [([], [0, 0])]

/-- Assignments to `N1` in `TensorBasisFuns`, src/petiga2d.F90:85-86: `(i1..ir)` and the
derivative order taken in each direction. -/
def rows2_1 : Rows :=
  [([1], [1, 0]), ([2], [0, 1])]

/-- Assignments to `N2` in `TensorBasisFuns`, src/petiga2d.F90:91-94: `(i1..ir)` and the
derivative order taken in each direction. -/
def rows2_2 : Rows :=
  [([1, 1], [2, 0]), ([2, 1], [1, 1]), ([1, 2], [1, 1]), ([2, 2], [0, 2])]

/-- Assignments to `N3` in `TensorBasisFuns`, src/petiga2d.F90:99-106: `(i1..ir)` and the
derivative order taken in each direction. -/
def rows2_3 : Rows :=
  [([1, 1, 1], [3, 0]), ([2, 1, 1], [2, 1]), ([1, 2, 1], [2, 1]), ([2, 2, 1], [1, 2]),
   ([1, 1, 2], [2, 1]), ([2, 1, 2], [1, 2]), ([1, 2, 2], [1, 2]), ([2, 2, 2], [0, 3])]

/-- Assignments to `N4` in `TensorBasisFuns`, src/petiga2d.F90:111-126: `(i1..ir)` and the
derivative order taken in each direction. -/
def rows2_4 : Rows :=
  [([1, 1, 1, 1], [4, 0]), ([2, 1, 1, 1], [3, 1]), ([1, 2, 1, 1], [3, 1]), ([2, 2, 1, 1], [2, 2]),
   ([1, 1, 2, 1], [3, 1]), ([2, 1, 2, 1], [2, 2]), ([1, 2, 2, 1], [2, 2]), ([2, 2, 2, 1], [1, 3]),
   ([1, 1, 1, 2], [3, 1]), ([2, 1, 1, 2], [2, 2]), ([1, 2, 1, 2], [2, 2]), ([2, 2, 1, 2], [1, 3]),
   ([1, 1, 2, 2], [2, 2]), ([2, 1, 2, 2], [1, 3]), ([1, 2, 2, 2], [1, 3]), ([2, 2, 2, 2], [0, 4])]

/-- Assignments to `N0` in `TensorBasisFuns`, src/petiga3d.F90:93-93: `(i1..ir)` and the
derivative order taken in each direction. -/
def rows3_0 : Rows :=
  [([], [0, 0, 0])]

/-- Assignments to `N1` in `TensorBasisFuns`, src/petiga3d.F90:98-100: `(i1..ir)` and the
derivative order taken in each direction. -/
def rows3_1 : Rows :=
  [([1], [1, 0, 0]), ([2], [0, 1, 0]), ([3], [0, 0, 1])]

/-- Assignments to `N2` in `TensorBasisFuns`, src/petiga3d.F90:105-113: `(i1..ir)` and the
derivative order taken in each direction. -/
def rows3_2 : Rows :=
  [([1, 1], [2, 0, 0]), ([2, 1], [1, 1, 0]), ([3, 1], [1, 0, 1]), ([1, 2], [1, 1, 0]),
   ([2, 2], [0, 2, 0]), ([3, 2], [0, 1, 1]), ([1, 3], [1, 0, 1]), ([2, 3], [0, 1, 1]),
   ([3, 3], [0, 0, 2])]

/-- Assignments to `N3` in `TensorBasisFuns`, src/petiga3d.F90:118-144: `(i1..ir)` and the
derivative order taken in each direction. -/
def rows3_3 : Rows :=
  [([1, 1, 1], [3, 0, 0]), ([2, 1, 1], [2, 1, 0]), ([3, 1, 1], [2, 0, 1]), ([1, 2, 1], [2, 1, 0]),
   ([2, 2, 1], [1, 2, 0]), ([3, 2, 1], [1, 1, 1]), ([1, 3, 1], [2, 0, 1]), ([2, 3, 1], [1, 1, 1]),
   ([3, 3, 1], [1, 0, 2]), ([1, 1, 2], [2, 1, 0]), ([2, 1, 2], [1, 2, 0]), ([3, 1, 2], [1, 1, 1]),
   ([1, 2, 2], [1, 2, 0]), ([2, 2, 2], [0, 3, 0]), ([3, 2, 2], [0, 2, 1]), ([1, 3, 2], [1, 1, 1]),
   ([2, 3, 2], [0, 2, 1]), ([3, 3, 2], [0, 1, 2]), ([1, 1, 3], [2, 0, 1]), ([2, 1, 3], [1, 1, 1]),
   ([3, 1, 3], [1, 0, 2]), ([1, 2, 3], [1, 1, 1]), ([2, 2, 3], [0, 2, 1]), ([3, 2, 3], [0, 1, 2]),
   ([1, 3, 3], [1, 0, 2]), ([2, 3, 3], [0, 1, 2]), ([3, 3, 3], [0, 0, 3])]

/-- Assignments to `N4` in `TensorBasisFuns`, src/petiga3d.F90:149-229: `(i1..ir)` and the
derivative order taken in each direction. -/
def rows3_4 : Rows :=
  [([1, 1, 1, 1], [4, 0, 0]), ([2, 1, 1, 1], [3, 1, 0]), ([3, 1, 1, 1], [3, 0, 1]), ([1, 2, 1, 1], [3, 1, 0]),
   ([2, 2, 1, 1], [2, 2, 0]), ([3, 2, 1, 1], [2, 1, 1]), ([1, 3, 1, 1], [3, 0, 1]), ([2, 3, 1, 1], [2, 1, 1]),
   ([3, 3, 1, 1], [2, 0, 2]), ([1, 1, 2, 1], [3, 1, 0]), ([2, 1, 2, 1], [2, 2, 0]), ([3, 1, 2, 1], [2, 1, 1]),
   ([1, 2, 2, 1], [2, 2, 0]), ([2, 2, 2, 1], [1, 3, 0]), ([3, 2, 2, 1], [1, 2, 1]), ([1, 3, 2, 1], [2, 1, 1]),
   ([2, 3, 2, 1], [1, 2, 1]), ([3, 3, 2, 1], [1, 1, 2]), ([1, 1, 3, 1], [3, 0, 1]), ([2, 1, 3, 1], [2, 1, 1]),
   ([3, 1, 3, 1], [2, 0, 2]), ([1, 2, 3, 1], [2, 1, 1]), ([2, 2, 3, 1], [1, 2, 1]), ([3, 2, 3, 1], [1, 1, 2]),
   ([1, 3, 3, 1], [2, 0, 2]), ([2, 3, 3, 1], [1, 1, 2]), ([3, 3, 3, 1], [1, 0, 3]), ([1, 1, 1, 2], [3, 1, 0]),
   ([2, 1, 1, 2], [2, 2, 0]), ([3, 1, 1, 2], [2, 1, 1]), ([1, 2, 1, 2], [2, 2, 0]), ([2, 2, 1, 2], [1, 3, 0]),
   ([3, 2, 1, 2], [1, 2, 1]), ([1, 3, 1, 2], [2, 1, 1]), ([2, 3, 1, 2], [1, 2, 1]), ([3, 3, 1, 2], [1, 1, 2]),
   ([1, 1, 2, 2], [2, 2, 0]), ([2, 1, 2, 2], [1, 3, 0]), ([3, 1, 2, 2], [1, 2, 1]), ([1, 2, 2, 2], [1, 3, 0]),
   ([2, 2, 2, 2], [0, 4, 0]), ([3, 2, 2, 2], [0, 3, 1]), ([1, 3, 2, 2], [1, 2, 1]), ([2, 3, 2, 2], [0, 3, 1]),
   ([3, 3, 2, 2], [0, 2, 2]), ([1, 1, 3, 2], [2, 1, 1]), ([2, 1, 3, 2], [1, 2, 1]), ([3, 1, 3, 2], [1, 1, 2]),
   ([1, 2, 3, 2], [1, 2, 1]), ([2, 2, 3, 2], [0, 3, 1]), ([3, 2, 3, 2], [0, 2, 2]), ([1, 3, 3, 2], [1, 1, 2]),
   ([2, 3, 3, 2], [0, 2, 2]), ([3, 3, 3, 2], [0, 1, 3]), ([1, 1, 1, 3], [3, 0, 1]), ([2, 1, 1, 3], [2, 1, 1]),
   ([3, 1, 1, 3], [2, 0, 2]), ([1, 2, 1, 3], [2, 1, 1]), ([2, 2, 1, 3], [1, 2, 1]), ([3, 2, 1, 3], [1, 1, 2]),
   ([1, 3, 1, 3], [2, 0, 2]), ([2, 3, 1, 3], [1, 1, 2]), ([3, 3, 1, 3], [1, 0, 3]), ([1, 1, 2, 3], [2, 1, 1]),
   ([2, 1, 2, 3], [1, 2, 1]), ([3, 1, 2, 3], [1, 1, 2]), ([1, 2, 2, 3], [1, 2, 1]), ([2, 2, 2, 3], [0, 3, 1]),
   ([3, 2, 2, 3], [0, 2, 2]), ([1, 3, 2, 3], [1, 1, 2]), ([2, 3, 2, 3], [0, 2, 2]), ([3, 3, 2, 3], [0, 1, 3]),
   ([1, 1, 3, 3], [2, 0, 2]), ([2, 1, 3, 3], [1, 1, 2]), ([3, 1, 3, 3], [1, 0, 3]), ([1, 2, 3, 3], [1, 1, 2]),
   ([2, 2, 3, 3], [0, 2, 2]), ([3, 2, 3, 3], [0, 1, 3]), ([1, 3, 3, 3], [1, 0, 3]), ([2, 3, 3, 3], [0, 1, 3]),
   ([3, 3, 3, 3], [0, 0, 4])]

/-- `TensorBasisFuns`, src/petiga1d.F90:50-90, for the table `iN(0:4,ina)` of one point. -/
def tensor1 [Mul K] (order : Int) (iN : Nat → ι → K) (mem : Tab K 1 ι) : Tab K 1 ι :=
  let val : ι → List Nat → K := fun a r => iN (r.getD 0 0) a
  let N := mem
  let N := { N with t0 := fun a => exec rows1_0 (val a) (fun _ => N.t0 a) [] }
  if order < 1 then N else
  let N := { N with t1 := fun i a => exec rows1_1 (val a) (fun _ => N.t1 i a) [i+1] }
  if order < 2 then N else
  let N := { N with t2 := fun i j a => exec rows1_2 (val a) (fun _ => N.t2 i j a) [i+1, j+1] }
  if order < 3 then N else
  let N := { N with t3 := fun i j k a => exec rows1_3 (val a) (fun _ => N.t3 i j k a) [i+1, j+1, k+1] }
  if order < 4 then N else
  { N with t4 := fun i j k l a => exec rows1_4 (val a) (fun _ => N.t4 i j k l a) [i+1, j+1, k+1, l+1] }

/-- `TensorBasisFuns`, src/petiga2d.F90:60-129, for the tables `iN(0:4,ina)`, `jN(0:4,jna)` of one point. -/
def tensor2 [Mul K] (order : Int) (iN : Nat → ι → K) (jN : Nat → κ → K) (mem : Tab K 2 (ι × κ)) :
    Tab K 2 (ι × κ) :=
  let val : ι × κ → List Nat → K := fun a r => iN (r.getD 0 0) a.1 * jN (r.getD 1 0) a.2
  let N := mem
  let N := { N with t0 := fun a => exec rows2_0 (val a) (fun _ => N.t0 a) [] }
  if order < 1 then N else
  let N := { N with t1 := fun i a => exec rows2_1 (val a) (fun _ => N.t1 i a) [i+1] }
  if order < 2 then N else
  let N := { N with t2 := fun i j a => exec rows2_2 (val a) (fun _ => N.t2 i j a) [i+1, j+1] }
  if order < 3 then N else
  let N := { N with t3 := fun i j k a => exec rows2_3 (val a) (fun _ => N.t3 i j k a) [i+1, j+1, k+1] }
  if order < 4 then N else
  { N with t4 := fun i j k l a => exec rows2_4 (val a) (fun _ => N.t4 i j k l a) [i+1, j+1, k+1, l+1] }

/-- `TensorBasisFuns`, src/petiga3d.F90:70-232, for the tables `iN(0:4,ina)`, `jN(0:4,jna)`, `kN(0:4,kna)` of one
point. -/
def tensor3 [Mul K] (order : Int) (iN : Nat → ι → K) (jN : Nat → κ → K) (kN : Nat → μ → K)
    (mem : Tab K 3 (ι × κ × μ)) : Tab K 3 (ι × κ × μ) :=
  let val : ι × κ × μ → List Nat → K := fun a r =>
    iN (r.getD 0 0) a.1 * jN (r.getD 1 0) a.2.1 * kN (r.getD 2 0) a.2.2
  let N := mem
  let N := { N with t0 := fun a => exec rows3_0 (val a) (fun _ => N.t0 a) [] }
  if order < 1 then N else
  let N := { N with t1 := fun i a => exec rows3_1 (val a) (fun _ => N.t1 i a) [i+1] }
  if order < 2 then N else
  let N := { N with t2 := fun i j a => exec rows3_2 (val a) (fun _ => N.t2 i j a) [i+1, j+1] }
  if order < 3 then N else
  let N := { N with t3 := fun i j k a => exec rows3_3 (val a) (fun _ => N.t3 i j k a) [i+1, j+1, k+1] }
  if order < 4 then N else
  { N with t4 := fun i j k l a => exec rows3_4 (val a) (fun _ => N.t4 i j k l a) [i+1, j+1, k+1, l+1] }

/-- Offset of the function `(ia,ja,ka)` in an array `N(ina*jna*kna)` seen as `N(ina,jna,kna)` (column major order;
dummy arguments petiga3d.F90:43,82). -/
def nodePos (ina jna ia ja ka : Nat) : Nat := ia + ina * (ja + jna * ka)

/-- `IGA_Quadrature_1D/2D/3D`, src/petiga1d.F90:1-19, src/petiga2d.F90:1-24, src/petiga3d.F90:1-29: coordinates,
weight and Jacobian of the point `(iq,jq,kq)`; a list per direction of `(X, W, J)` at that point. -/
def quadrature [CommMonoid K] : List (K × K × K) → List K × K × K
  | [] => ([], 1, 1)
  | [(x, w, j)] => ([x], w, j)
  | [(x, w, j), (x', w', j')] => ([x, x'], w * w', j * j')
  | (x, w, j) :: (x', w', j') :: (x'', w'', j'') :: _ => ([x, x', x''], w * w' * w'', j * j' * j'')

/-! ### Determinant and inverse -/

/-- `Determinant`, src/petigadet.f90.in:3-20. -/
def determinant [CommRing K] : (d : Nat) → (Fin d → Fin d → K) → K
  | 1, A => A 0 0
  | 2, A => A 0 0 * A 1 1 - A 1 0 * A 0 1
  | 3, A => A 0 0 * (A 1 1 * A 2 2 - A 2 1 * A 1 2)
          - A 1 0 * (A 0 1 * A 2 2 - A 2 1 * A 0 2)
          + A 2 0 * (A 0 1 * A 1 2 - A 1 1 * A 0 2)
  | _, _ => 0

/-- The entries stored in `invA` before the division by `detA`, src/petigainv.f90.in:13-30 (dimension 2 and 3). -/
def cofactors [CommRing K] : (d : Nat) → (Fin d → Fin d → K) → (Fin d → Fin d → K)
  | 2, A => fun i j => match i, j with
    | 0, 0 => A 1 1
    | 1, 0 => - A 1 0
    | 0, 1 => - A 0 1
    | 1, 1 => A 0 0
  | 3, A => fun i j => match i, j with
    | 0, 0 =>   A 1 1 * A 2 2 - A 1 2 * A 2 1
    | 1, 0 => - A 1 0 * A 2 2 + A 1 2 * A 2 0
    | 2, 0 =>   A 1 0 * A 2 1 - A 1 1 * A 2 0
    | 0, 1 => - A 0 1 * A 2 2 + A 0 2 * A 2 1
    | 1, 1 =>   A 0 0 * A 2 2 - A 0 2 * A 2 0
    | 2, 1 => - A 0 0 * A 2 1 + A 0 1 * A 2 0
    | 0, 2 =>   A 0 1 * A 1 2 - A 0 2 * A 1 1
    | 1, 2 => - A 0 0 * A 1 2 + A 0 2 * A 1 0
    | 2, 2 =>   A 0 0 * A 1 1 - A 0 1 * A 1 0
  | _, _ => fun _ _ => 0

/-- `Inverse`, src/petigainv.f90.in:3-34. -/
def inverse [Field K] (d : Nat) (detA : K) (A : Fin d → Fin d → K) : Fin d → Fin d → K :=
  match d, A with
  | 1, _ => fun _ _ => 1 / detA
  | 2, A => fun i j => cofactors 2 A i j / detA
  | 3, A => fun i j => cofactors 3 A i j / detA
  | _, _ => fun _ _ => 0

variable [Fintype ι]

/-! ### Rational functions -/

/-- `Rationalize`, src/petigarat.f90.in:3-57; the tables are updated in place. -/
def rationalize [Field K] (order : Int) (W : ι → K) (R : Tab K d ι) : Tab K d ι :=
  let S0 := fun a => W a * R.t0 a
  let W0 := ∑ a, S0 a
  let R0 := fun a => S0 a / W0
  let R := { R with t0 := R0 }
  if order < 1 then R else
  let W1 := fun i => ∑ a, W a * R.t1 i a
  let R1 := fun i a => (W a * R.t1 i a - R0 a * W1 i) / W0
  let R := { R with t1 := R1 }
  if order < 2 then R else
  let W2 := fun i j => ∑ a, W a * R.t2 i j a
  let R2 := fun i j a => (W a * R.t2 i j a - R0 a * W2 i j - R1 i a * W1 j - R1 j a * W1 i) / W0
  let R := { R with t2 := R2 }
  if order < 3 then R else
  let W3 := fun i j k => ∑ a, W a * R.t3 i j k a
  let R3 := fun i j k a => (W a * R.t3 i j k a - R0 a * W3 i j k
    - R1 i a * W2 j k - R1 j a * W2 i k - R1 k a * W2 i j
    - R2 j k a * W1 i - R2 i k a * W1 j - R2 i j a * W1 k) / W0
  let R := { R with t3 := R3 }
  if order < 4 then R else
  { R with t4 := fun _ _ _ _ _ => 0 }

/-! ### Geometry -/

/-- `GeometryMap`, src/petigamapgeo.f90.in:3-77: `Xr(:,i) = sum over node of X(i,node)*Mr(:,node)`.  The result
has the coordinate `i` in the place of the function index. -/
def geometryMap [CommRing K] {nsd : Nat} (order : Int) (X : Fin nsd → ι → K) (M : Tab K d ι)
    (mem : Tab K d (Fin nsd)) : Tab K d (Fin nsd) :=
  let O := { mem with t0 := fun i => ∑ a, X i a * M.t0 a }
  if order < 1 then O else
  let O := { O with t1 := fun u i => ∑ a, X i a * M.t1 u a }
  if order < 2 then O else
  let O := { O with t2 := fun u v i => ∑ a, X i a * M.t2 u v a }
  if order < 3 then O else
  let O := { O with t3 := fun u v w i => ∑ a, X i a * M.t3 u v w a }
  if order < 4 then O else
  { O with t4 := fun u v w z i => ∑ a, X i a * M.t4 u v w z a }

/-- `InverseMap`, src/petigamapinv.f90.in:3-79 (`nsd = dim`, as in all its callers).  Input `X1(a,l)`,
`X2(b,a,l)`, `X3(c,b,a,l)`; output `dX` and `E1(i,a)`, `E2(j,i,c)`, `E3(k,j,i,d)`, `E4` in a table with the
parametric direction in the place of the function index (`t0` is not an argument of the routine and is kept). -/
def inverseMap [Field K] (order : Int) (X : Tab K d (Fin d)) (mem : K × Tab K d (Fin d)) : K × Tab K d (Fin d) :=
  if order < 1 then mem else
  let dX := determinant d X.t1
  let E1 := inverse d dX X.t1
  let E := { mem.2 with t1 := E1 }
  if order < 2 then (dX, E) else
  let E2 : Fin d → Fin d → Fin d → K := fun j i c =>
    ∑ k, ∑ a, ∑ b, - (X.t2 b a k * E1 i a * E1 j b * E1 k c)
  let E := { E with t2 := E2 }
  if order < 3 then (dX, E) else
  let E3 : Fin d → Fin d → Fin d → Fin d → K := fun k j i e =>
    ∑ a, ∑ b, ∑ l, ((∑ c, - (X.t3 c b a l * E1 i a * E1 j b * E1 k c * E1 l e))
      - X.t2 b a l * (E1 i a * E2 k j b + E1 j b * E2 k i a + E1 k b * E2 j i a) * E1 l e)
  let E := { E with t3 := E3 }
  if order < 4 then (dX, E) else
  (dX, { E with t4 := fun _ _ _ _ _ => 0 })

omit [Fintype ι] in
/-- `ShapeFunctions`, src/petigamapshf.f90.in:3-83.  `N0` is copied by the caller and is kept here. -/
def shapeFunctions [CommRing K] (order : Int) (E : Tab K d (Fin d)) (N : Tab K d ι) (mem : Tab K d ι) : Tab K d ι :=
  if order < 1 then mem else
  let R := { mem with t1 := fun i n => ∑ a, N.t1 a n * E.t1 i a }
  if order < 2 then R else
  let R := { R with t2 := fun j i n =>
    ∑ a, ((∑ b, N.t2 b a n * E.t1 i a * E.t1 j b) + N.t1 a n * E.t2 j i a) }
  if order < 3 then R else
  let R := { R with t3 := fun k j i n =>
    ∑ a, ((∑ b, ((∑ c, N.t3 c b a n * E.t1 i a * E.t1 j b * E.t1 k c)
        + N.t2 b a n * (E.t1 i a * E.t2 k j b + E.t1 j b * E.t2 k i a + E.t1 k b * E.t2 j i a)))
      + N.t1 a n * E.t3 k j i a) }
  if order < 4 then R else
  { R with t4 := fun _ _ _ _ _ => 0 }

/-- `IGA_GetGradGeomMap`, src/petigaval.F90:113-122: `F = matmul(N,transpose(C))`. -/
def gradGeomMap [CommRing K] {nsd : Nat} (N : Fin d → ι → K) (C : Fin nsd → ι → K) : Fin d → Fin nsd → K :=
  fun u i => ∑ a, N u a * C i a

/-- `IGA_GetInvGradGeomMap`, src/petigaval.F90:124-142. -/
def invGradGeomMap [Field K] {nsd : Nat} (N : Fin d → ι → K) (C : Fin nsd → ι → K) : Fin nsd → Fin d → K :=
  let F : Fin nsd → Fin d → K := fun i u => ∑ a, C i a * N u a
  let M : Fin d → Fin d → K := fun u v => ∑ i, F i u * F i v
  let detM := determinant d M
  let invM := inverse d detM M
  fun i u => ∑ v, invM u v * F i v

/-! ### Normals -/

omit [Fintype ι] in
/-- `normal2d`, src/petigaval.F90:61-78: the vector before normalisation. -/
noncomputable def normal2d (axis : Int) (F : Fin 2 → Fin 2 → ℝ) : Fin 2 → ℝ :=
  let t : Fin 2 → ℝ := if axis = 0 then fun i => F 1 i else if axis = 1 then fun i => - F 0 i else fun _ => 0
  fun i => match i with
    | 0 => t 1
    | 1 => - t 0

/-- `normal3d`, src/petigaval.F90:79-98: the vector before normalisation. -/
noncomputable def normal3d (axis : Int) (F : Fin 3 → Fin 3 → ℝ) : Fin 3 → ℝ :=
  let s : Fin 3 → ℝ := if axis = 0 then F 1 else if axis = 1 then F 2 else if axis = 2 then F 0 else fun _ => 0
  let t : Fin 3 → ℝ := if axis = 0 then F 2 else if axis = 1 then F 0 else if axis = 2 then F 1 else fun _ => 0
  fun i => match i with
    | 0 => s 1 * t 2 - s 2 * t 1
    | 1 => s 2 * t 0 - s 0 * t 2
    | 2 => s 0 * t 1 - s 1 * t 0

/-- `IGA_GetNormal`, src/petigaval.F90:45-99: `dS` and `N`.  For other dimensions nothing is stored (`mem`). -/
noncomputable def getNormal (d : Nat) (axis side : Int) (F : Fin d → Fin d → ℝ) (mem : ℝ × (Fin d → ℝ)) :
    ℝ × (Fin d → ℝ) :=
  let r : ℝ × (Fin d → ℝ) := match d, F, mem with
    | 3, F, _ =>
      let N := normal3d axis F
      let dS := Real.sqrt (∑ i, N i * N i)
      (dS, fun i => N i / dS)
    | 2, F, _ =>
      let N := normal2d axis F
      let dS := Real.sqrt (∑ i, N i * N i)
      (dS, fun i => N i / dS)
    | 1, _, _ => (1, fun _ => 1)
    | _, _, m => m
  if side = 0 then (r.1, fun i => - r.2 i) else r

/-! ### Evaluation of fields -/

/-- `IGA_GetValue`, `IGA_GetGrad`, `IGA_GetHess`, `IGA_GetDer3`, `IGA_GetDer4`, `IGA_EvaluateReal`,
`IGA_EvaluateScalar`, src/petigaval.F90:145-232, 253-287: `V(:,i) = V(:,i) + N(:,a)*U(i,a)`.  `τ` is the index of
the leading dimension of `N` (`1`, `dim`, `dim*dim`, …). -/
def evaluate [CommRing K] {τ : Type} {dof : Nat} (N : τ → ι → K) (U : Fin dof → ι → K) : τ → Fin dof → K :=
  fun t i => ∑ a, N t a * U i a

/-- `IGA_GetDel2`, src/petigaval.F90:234-251. -/
def getDel2 [CommRing K] {dof : Nat} (N : Fin d → Fin d → ι → K) (U : Fin dof → ι → K) : Fin dof → K :=
  fun c => ∑ a, ∑ i, N i i a * U c a

end PetIGA.Ker
