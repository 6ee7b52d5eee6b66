import Verif.Model.Assemble
/-
Model of `IGAComputeErrorNorm`, src/petigacomp.c:93-186.  Scalars are real (`PETSC_USE_COMPLEX` is not modelled),
arithmetic is exact.
-/
namespace PetIGA.Asm
open PetIGA.Ax PetIGA.Lay PetIGA.Elem PetIGA.Grid PetIGA.Ker

variable {K : Type} [Field K] [LinearOrder K] [IsStrictOrderedRing K]

/-- `intpow`, src/petigacomp.c:100. -/
def intpowTable : List (List Nat) := [[1,0,0,0,0], [1,1,1,1,1], [1,2,4,8,16], [1,3,9,27,81]]

/-- `intpow[dim][k]`; reading outside the declared bounds is undefined. -/
def intpow (dim k : Int) : Res Nat :=
  if dim < 0 ∨ k < 0 then .ub else
  match intpowTable[dim.toNat]? with
  | none => .ub
  | some row => match row[k.toNat]? with
    | none => .ub
    | some n => .ok n

/-- `PetscClipInterval(x,a,b)`. -/
def clip (x a b : Int) : Int := max a (min x b)

/-- The entries of an array `V[dof][dim**k]`, named by the field and the list of `k` derivative directions. -/
abbrev Ders (d dof : Nat) := List (Fin d) → Fin dof → ℝ

/-- Zero `v_exact` and call `Exact`, if there is one, src/petigacomp.c:114-115. -/
def exactAt {P : Type} {d dof : Nat} (exact : Option (P → Int → Ders d dof → Res (Ders d dof))) (p : P) (order : Int) :
    Res (Ders d dof) :=
  match exact with
  | none => .ok fun _ _ => 0
  | some f => f p order fun _ _ => 0

/-- `ErrorSqr` after the clipping, src/petigacomp.c:107-119.  `size` is the length of the work arrays, `mem` their
contents; `shapeAt p` the tables of point `p`; `exact` the callback, if there is one.  Writing beyond a work array is
undefined.  The point index is not negative inside the point loop. -/
noncomputable def errorAt {P : Type} {d dof nen : Nat} (dim order : Int) (size : Nat) (shapeAt : P → Tab ℝ d (Fin nen))
    (exact : Option (P → Int → Ders d dof → Res (Ders d dof))) (mem : P → Ders d dof)
    (p : P) (U : List ℝ) (errsqr : Nat → ℝ) : Res (Nat → ℝ) :=
  (intpow dim order).bind fun n =>
  if size < dof * n then .ub else
  (pointEvaluate 0 order (shapeAt p) (fun (c : Fin dof) (a : Fin nen) => U.getD (a * dof + c) 0) (mem p)).bind fun approx =>
  (exactAt exact p order).bind fun ex =>
  .ok fun i => if h : i < dof then
      errsqr i + ∑ t : Fin order.toNat → Fin d, |ex (List.ofFn t) ⟨i, h⟩ - approx (List.ofFn t) ⟨i, h⟩| *
        |ex (List.ofFn t) ⟨i, h⟩ - approx (List.ofFn t) ⟨i, h⟩|
    else errsqr i

/-- `ErrorSqr`, src/petigacomp.c:102-121. -/
noncomputable def errorSqr {P : Type} {d dof nen : Nat} (k : Int) (size : Nat) (shapeAt : P → Tab ℝ d (Fin nen))
    (exact : Option (P → Int → Ders d dof → Res (Ders d dof))) (mem : P → Ders d dof)
    (p : P) (U : List ℝ) (errsqr : Nat → ℝ) : Res (Nat → ℝ) :=
  errorAt (clip d 1 3) (clip k 0 4) size shapeAt exact mem p U errsqr

/-- `IGAComputeErrorNorm`, src/petigacomp.c:155-186; `errsqr` is allocated without initialisation. -/
noncomputable def computeErrorNorm {P : Type} {d dof nen : Nat} (colloc : Bool) (Ls : List (Layout K)) (hist : Nat → Hist)
    (k : Int) (gvec : Int → ℝ) (junk : Nat × Int → ℝ) (heap : Nat → Nat → ℝ) (points : List Int → List (QPoint P))
    (shapeAt : P → Tab ℝ d (Fin nen)) (exact : Option (P → Int → Ders d dof → Res (Ders d dof)))
    (mem : P → Ders d dof) (errsqr enorm : Nat → ℝ) : Res (Nat → ℝ) :=
  if k < 0 then .err .outOfRange else
  (intpow d k).bind fun n =>
  (computeScalar colloc Ls hist dof dof gvec junk heap points (errorSqr k (dof * n) shapeAt exact mem) errsqr).bind fun e =>
  .ok fun i => if i < dof then Real.sqrt (e i) else enorm i

end PetIGA.Asm
