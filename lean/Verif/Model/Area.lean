import Verif.Model.Kernel
/-
Model of `BoundaryArea`, src/petigaelem.c:1118-1164, and of the kernels `IGA_BoundaryArea_2D`, src/petiga2d.F90:276-346,
and `IGA_BoundaryArea_3D`, src/petiga3d.F90:379-464: the factor every load on a side of the domain is multiplied by
before it is added to a degree of freedom of the side.

Simplifications: exact real arithmetic; the control points and weights of the element are functions of the position in
the arrays `geometryX`, `rationalW`.
-/
namespace PetIGA.Area
open Finset

/-- What is read of `BD[i]` for the element: `nen`, the number of points (`IGA_Quadrature_SIZE`), `detJac[ID[i]]`,
`weight + ID[i]*nqp` and `value + ID[i]*nqp*nen*5` (`value j q a` is the entry `N(j,a,q)`). -/
structure ADir where
  nen : Nat
  nqp : Nat
  detJac : ℝ
  weight : Fin nqp → ℝ
  value : Nat → Fin nqp → Fin nen → ℝ

/-- `Rationalize`, petiga2d.F90:318-332 and petiga3d.F90:436-450. -/
noncomputable def rationalize {d : Nat} {ι : Type} [Fintype ι] (W : ι → ℝ) (R0 : ι → ℝ) (R1 : Fin d → ι → ℝ) :
    (ι → ℝ) × (Fin d → ι → ℝ) :=
  let R0 := fun a => W a * R0 a
  let W0 := ∑ a, R0 a
  let R0 := fun a => R0 a / W0
  let R1 := fun i a => W a * R1 i a - R0 a * ∑ b, W b * R1 i b
  (R0, fun i a => R1 i a / W0)

/-- `Jacobian`, petiga2d.F90:333-343 and petiga3d.F90:451-461. -/
noncomputable def jacobian {d nsd : Nat} {ι : Type} [Fintype ι] (N : Fin d → ι → ℝ) (X : Fin nsd → ι → ℝ) : ℝ :=
  let F : Fin d → Fin nsd → ℝ := fun u i => ∑ a, N u a * X i a
  let M : Fin d → Fin d → ℝ := fun u v => ∑ i, F u i * F v i
  Real.sqrt |Ker.determinant d M|

/-- The layer `k-1`, petiga2d.F90:301-310 and petiga3d.F90:404-417, of a direction with `m` functions. -/
def layer (m : Nat) (side : Bool) : Nat := if side then m - 1 else 0

/-- Position in `Cw(m(1),m(2))` of the function `b` of the side, petiga2d.F90:301-310. -/
def node2 (m1 m2 axis : Nat) (side : Bool) (b : Nat) : Nat :=
  if axis = 0 then layer m1 side + m1 * b else b + m1 * layer m2 side

/-- Position in `Cw(m(1),m(2),m(3))` of the function `(b,c)` of the side, petiga3d.F90:404-417. -/
def node3 (m1 m2 m3 axis : Nat) (side : Bool) (b c : Nat) : Nat :=
  if axis = 0 then layer m1 side + m1 * (b + m2 * c)
  else if axis = 1 then b + m1 * (layer m2 side + m2 * c)
  else b + m1 * (c + m2 * layer m3 side)

/-- `IGA_BoundaryArea_2D`, petiga2d.F90:276-317.  `Cx` is declared `Cx(2,m(1),m(2))`, whatever the dimension of the
control points is. -/
noncomputable def area2D (m1 m2 axis : Nat) (side : Bool) (Cx : Nat → ℝ) (rational : Bool) (Cw : Nat → ℝ) (D : ADir) : ℝ :=
  let Xx : Fin 2 → Fin D.nen → ℝ := fun i b => Cx (i + 2 * node2 m1 m2 axis side b)
  let Xw : Fin D.nen → ℝ := fun b => Cw (node2 m1 m2 axis side b)
  ∑ q, (let N0 := fun a => D.value 0 q a
        let N1 : Fin 1 → Fin D.nen → ℝ := fun _ a => D.value 1 q a
        let R := if rational then rationalize Xw N0 N1 else (N0, N1)
        jacobian R.2 Xx * D.weight q)

/-- `IGA_BoundaryArea_3D`, petiga3d.F90:379-435, with `Cx(3,m(1),m(2),m(3))`. -/
noncomputable def area3D (m1 m2 m3 axis : Nat) (side : Bool) (Cx : Nat → ℝ) (rational : Bool) (Cw : Nat → ℝ) (D E : ADir) :
    ℝ :=
  let Xx : Fin 3 → Fin D.nen × Fin E.nen → ℝ := fun i b => Cx (i + 3 * node3 m1 m2 m3 axis side b.1 b.2)
  let Xw : Fin D.nen × Fin E.nen → ℝ := fun b => Cw (node3 m1 m2 m3 axis side b.1 b.2)
  ∑ r, ∑ q, (let N0 := fun (a : Fin D.nen × Fin E.nen) => D.value 0 q a.1 * E.value 0 r a.2
        let N1 : Fin 2 → Fin D.nen × Fin E.nen → ℝ := fun i a =>
          if i = 0 then D.value 1 q a.1 * E.value 0 r a.2 else D.value 0 q a.1 * E.value 1 r a.2
        let R := if rational then rationalize Xw N0 N1 else (N0, N1)
        jacobian R.2 Xx * D.weight q * E.weight r)

/-- The loop `A *= L/(PetscReal)n` over the directions other than `dir`, petigaelem.c:1125-1130. -/
noncomputable def share (dirs : List ADir) (dir : Nat) : ℝ :=
  dirs.zipIdx.foldl (fun A x => if x.2 ≠ dir then A * (x.1.detJac / (x.1.nen : ℝ)) else A) 1

/-- `BoundaryArea`, petigaelem.c:1118-1164.  `geometry` is `element->geometry` (the number of coordinates of the
control points, 0 for none). -/
noncomputable def boundaryArea (dirs : List ADir) (geometry : Nat) (Cx : Nat → ℝ) (rational : Bool) (Cw : Nat → ℝ)
    (dir : Nat) (side : Bool) : ℝ :=
  if dirs.length = 1 then 1 else
  let A := share dirs dir
  if geometry = 0 then A * (if dirs.length = 2 then 2 else 4)
  else match dirs with
    | [d0, d1] => A * area2D d0.nen d1.nen dir side Cx rational Cw (if dir = 0 then d1 else d0)
    | [d0, d1, d2] => A * area3D d0.nen d1.nen d2.nen dir side Cx rational Cw (if dir = 0 then d1 else d0)
        (if dir = 2 then d1 else d2)
    | _ => A * 1

end PetIGA.Area
