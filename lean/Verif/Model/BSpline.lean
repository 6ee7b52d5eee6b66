import Mathlib.Algebra.Field.Defs
import Mathlib.Algebra.Field.Rat
/-
Model of `BSplineBasisFunsDers` (src/petigabsb.f90.in:3-63) and `IGA_Basis_BSpline`
(src/petigabsp.F90:3-17).  Fortran arrays are functions from indices; their initial contents are
parameters, because Fortran does not initialise local arrays.  Exact arithmetic in a field.
-/
namespace PetIGA.Bsp

variable {K : Type} [Field K]

/-- `A(i) = v` -/
def upd1 (A : Int → K) (i : Int) (v : K) : Int → K := fun x => if x = i then v else A x

/-- `A(i,j) = v` -/
def upd2 (A : Int → Int → K) (i j : Int) (v : K) : Int → Int → K :=
  fun x y => if x = i ∧ y = j then v else A x y

/-- The inner loop `do r = 0, j-1` of petigabsb.f90.in:17-22: `r` iterations done; the state is
`(ndu, saved)`. -/
def rLoop (left right : Int → K) (j : Int) : Nat → (Int → Int → K) × K → (Int → Int → K) × K
  | 0, s => s
  | r'+1, s =>
    let (ndu, saved) := rLoop left right j r' s
    let r : Int := r'
    let ndu := upd2 ndu j r (right (r+1) + left (j-r))
    let temp := ndu r (j-1) / ndu j r
    let ndu := upd2 ndu r j (saved + right (r+1) * temp)
    let saved := left (j-r) * temp
    (ndu, saved)

/-- The state of the first triangular loop. -/
structure Tri (K : Type) where
  ndu : Int → Int → K
  left : Int → K
  right : Int → K

/-- The loop `do j = 1, p` of petigabsb.f90.in:12-24, after `j` iterations; line 11 is the base case. -/
def jLoop (i : Int) (uu : K) (U : Int → K) (t0 : Tri K) : Nat → Tri K
  | 0 => { t0 with ndu := upd2 t0.ndu 0 0 1 }
  | j'+1 =>
    let t := jLoop i uu U t0 j'
    let j : Int := j'+1
    let left := upd1 t.left j (uu - U (i+1-j))
    let right := upd1 t.right j (U (i+j) - uu)
    let (ndu, saved) := rLoop left right j (j'+1) (t.ndu, 0)
    { ndu := upd2 ndu j j saved, left := left, right := right }

/-- The loop `do j = j1, j2` of petigabsb.f90.in:45-48, after `c` iterations; state `(a, d)`. -/
def aLoop (ndu : Int → Int → K) (pk rk s1 s2 j1 : Int) :
    Nat → (Int → Int → K) × K → (Int → Int → K) × K
  | 0, s => s
  | c+1, s =>
    let (a, d) := aLoop ndu pk rk s1 s2 j1 c s
    let j : Int := j1 + c
    let a := upd2 a s2 j ((a s1 j - a s1 (j-1)) / ndu (pk+1) (rk+j))
    (a, d + a s2 j * ndu (rk+j) pk)

/-- The state of the derivative loops. -/
structure DS (K : Type) where
  a : Int → Int → K
  s1 : Int
  s2 : Int
  ders : Int → Int → K

/-- One iteration of `do k = 1, n`, petigabsb.f90.in:29-55. -/
def kStep (p r : Int) (ndu : Int → Int → K) (k : Int) (s : DS K) : DS K :=
  let d : K := 0
  let rk := r - k
  let pk := p - k
  let (a, d) :=
    if r ≥ k then
      let a := upd2 s.a s.s2 0 (s.a s.s1 0 / ndu (pk+1) rk)
      (a, a s.s2 0 * ndu rk pk)
    else (s.a, d)
  let j1 := if rk > -1 then 1 else -rk
  let j2 := if r - 1 ≤ pk then k - 1 else p - r
  let (a, d) := aLoop ndu pk rk s.s1 s.s2 j1 (j2 - j1 + 1).toNat (a, d)
  let (a, d) :=
    if r ≤ pk then
      let a := upd2 a s.s2 k (- a s.s1 (k-1) / ndu (pk+1) r)
      (a, d + a s.s2 k * ndu r pk)
    else (a, d)
  { a := a, s1 := s.s2, s2 := s.s1, ders := upd2 s.ders r k d }

/-- `do k = 1, n`, after `k` iterations. -/
def kLoop (p r : Int) (ndu : Int → Int → K) : Nat → DS K → DS K
  | 0, s => s
  | k+1, s => kStep p r ndu (k+1) (kLoop p r ndu k s)

/-- `do r = 0, p`, petigabsb.f90.in:26-56, after `r` iterations; state `(a, ders)`. -/
def outer (p : Int) (n : Nat) (ndu : Int → Int → K) :
    Nat → (Int → Int → K) × (Int → Int → K) → (Int → Int → K) × (Int → Int → K)
  | 0, s => s
  | r+1, s =>
    let (a, ders) := outer p n ndu r s
    let s' := kLoop p r ndu n { a := upd2 a 0 0 1, s1 := 0, s2 := 1, ders := ders }
    (s'.a, s'.ders)

/-- The final scaling loop `do k = 1, n`, petigabsb.f90.in:57-61, after `k` iterations; state `(ders, r)`. -/
def scale (p : Int) : Nat → (Int → Int → K) × Int → (Int → Int → K) × Int
  | 0, s => s
  | k'+1, s =>
    let (ders, r) := scale p k' s
    let k : Int := k'+1
    (fun x y => if y = k then ders x y * (r : K) else ders x y, r * (p-k))

/-- Contents of the uninitialised memory on entry. -/
structure Junk (K : Type) where
  tri : Tri K
  a : Int → Int → K
  ders : Int → Int → K

/-- `BSplineBasisFunsDers`, petigabsb.f90.in:3-63. -/
def basisFunsDers (J : Junk K) (i : Int) (uu : K) (p n : Nat) (U : Int → K) : Int → Int → K :=
  let t := jLoop i uu U J.tri p
  let ders := fun x y => if y = 0 then t.ndu x p else J.ders x y
  let (_, ders) := outer p n t.ndu (p+1) (J.a, ders)
  (scale p n (ders, p)).1

/-- `IGA_Basis_BSpline`, petigabsp.F90:3-17: `B(0:4,0:p)`, rows `0:d` filled, the others zero. -/
def basis (J : Junk K) (k : Int) (uu : K) (p d : Nat) (U : Int → K) : Int → Int → K :=
  let ders := basisFunsDers J k uu p d U
  fun x y => if 0 ≤ x ∧ x ≤ d then ders y x else 0

end PetIGA.Bsp
