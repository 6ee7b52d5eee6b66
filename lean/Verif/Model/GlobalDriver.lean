import Verif.Model.Driver
import Verif.Model.Assemble
/-
The complete assembly loops of src/petigaksp.c, src/petigasnes.c, src/petigats.c and src/petigats2.c: the element
evaluations of Model/Driver.lean inside the element loop and assembly of Model/Assemble.lean.  Galerkin discretisations.
-/
namespace PetIGA.Drv
open PetIGA.Ax PetIGA.Lay PetIGA.Asm

variable {K : Type} [Field K] [LinearOrder K] [IsStrictOrderedRing K]
variable {V P : Type} [CommRing V]

/-- The elements, and what the work arrays of process `r` contain when it comes to element `e`. -/
structure Env (V P : Type) where
  elt : List Int → Elt V P
  pw : Nat → List Int → PWork V
  w : Nat → List Int → Work V

/-- The entries of an element array. -/
def entries (r : Res (Int → V)) : Res (Nat → V) := r.bind fun F => .ok fun i : Nat => F i

/-- `IGAComputeVector`, src/petigaksp.c:33-77. -/
def computeVector (Ls : List (Layout K)) (hist : Nat → Hist) (dof : Nat) (env : Env V P)
    (cb : P → (Int → V) → Res (Int → V)) : Res (Int → V) :=
  computeVec false Ls hist dof (fun _ => ()) (fun _ => ()) fun r e _ => entries (vector (env.elt e) cb (env.pw r e) (env.w r e))

/-- `IGAComputeMatrix`, src/petigaksp.c:79-124. -/
def computeMatrix (Ls : List (Layout K)) (hist : Nat → Hist) (dof : Nat) (env : Env V P)
    (cb : P → (Int → V) → Res (Int → V)) : Res (Int × Int → V) :=
  computeMat false Ls hist dof (fun _ => ()) (fun _ => ()) fun r e _ => entries (matrix (env.elt e) cb (env.pw r e) (env.w r e))

/-- `IGAComputeSystem`, src/petigaksp.c:149-202: matrix and vector.  The one element loop of the code is run twice, once
for each result. -/
def computeSystem (Ls : List (Layout K)) (hist : Nat → Hist) (dof : Nat) (env : Env V P)
    (cb : P → (Int → V) → (Int → V) → Res ((Int → V) × (Int → V))) : Res ((Int × Int → V) × (Int → V)) :=
  (computeMat false Ls hist dof (fun _ => ()) (fun _ => ()) fun r e _ =>
    entries ((system (env.elt e) cb (env.pw r e) (env.w r e)).bind fun s => .ok s.1)).bind fun A =>
  (computeVec false Ls hist dof (fun _ => ()) (fun _ => ()) fun r e _ =>
    entries ((system (env.elt e) cb (env.pw r e) (env.w r e)).bind fun s => .ok s.2)).bind fun b => .ok (A, b)

/-- `IGAComputeFunction`, src/petigasnes.c:23-80. -/
def computeFunction (Ls : List (Layout K)) (hist : Nat → Hist) (dof : Nat) (env : Env V P)
    (cb : P → List V → (Int → V) → Res (Int → V)) (vecU : Int → V) (junk : Nat × Int → V) : Res (Int → V) :=
  computeVec false Ls hist dof vecU junk fun r e U => entries (function (env.elt e) cb U (env.pw r e) (env.w r e))

/-- `IGAComputeJacobian`, src/petigasnes.c:82-139. -/
def computeJacobian (Ls : List (Layout K)) (hist : Nat → Hist) (dof : Nat) (env : Env V P)
    (cb : P → List V → (Int → V) → Res (Int → V)) (vecU : Int → V) (junk : Nat × Int → V) : Res (Int × Int → V) :=
  computeMat false Ls hist dof vecU junk fun r e U => entries (jacobian (env.elt e) cb U (env.pw r e) (env.w r e))

/-- Two vectors gathered by the same element loop. -/
def pair {α : Type} (x y : α → V) : α → V × V := fun i => (x i, y i)

/-- Three vectors. -/
def triple {α : Type} (x y z : α → V) : α → V × V × V := fun i => (x i, y i, z i)

/-- `IGAComputeIFunction`, src/petigats.c:23-90. -/
def computeIFunction (Ls : List (Layout K)) (hist : Nat → Hist) (dof : Nat) (env : Env V P)
    (cb : P → V → List V → V → List V → (Int → V) → Res (Int → V)) (a : V) (vecV : Int → V) (t : V) (vecU : Int → V)
    (junkV junkU : Nat × Int → V) : Res (Int → V) :=
  computeVec false Ls hist dof (pair vecV vecU) (pair junkV junkU) fun r e X =>
    entries (ifunction (env.elt e) cb a (X.map Prod.fst) t (X.map Prod.snd) (env.pw r e) (env.w r e))

/-- `IGAComputeIJacobian`, src/petigats.c:92-159. -/
def computeIJacobian (Ls : List (Layout K)) (hist : Nat → Hist) (dof : Nat) (env : Env V P)
    (cb : P → V → List V → V → List V → (Int → V) → Res (Int → V)) (a : V) (vecV : Int → V) (t : V) (vecU : Int → V)
    (junkV junkU : Nat × Int → V) : Res (Int × Int → V) :=
  computeMat false Ls hist dof (pair vecV vecU) (pair junkV junkU) fun r e X =>
    entries (ijacobian (env.elt e) cb a (X.map Prod.fst) t (X.map Prod.snd) (env.pw r e) (env.w r e))

/-- `IGAComputeIEFunction`, src/petigats.c:182-257. -/
def computeIEFunction (Ls : List (Layout K)) (hist : Nat → Hist) (dof : Nat) (env : Env V P)
    (cb : P → V → List V → V → List V → V → List V → (Int → V) → Res (Int → V)) (a : V) (vecV : Int → V) (t : V)
    (vecU : Int → V) (t0 : V) (vecU0 : Int → V) (junkV junkU junkU0 : Nat × Int → V) : Res (Int → V) :=
  computeVec false Ls hist dof (triple vecV vecU vecU0) (triple junkV junkU junkU0) fun r e X =>
    entries (iefunction (env.elt e) cb a (X.map Prod.fst) t (X.map fun x => x.2.1) t0 (X.map fun x => x.2.2) (env.pw r e) (env.w r e))

/-- `IGAComputeIEJacobian`, src/petigats.c:259-334. -/
def computeIEJacobian (Ls : List (Layout K)) (hist : Nat → Hist) (dof : Nat) (env : Env V P)
    (cb : P → V → List V → V → List V → V → List V → (Int → V) → Res (Int → V)) (a : V) (vecV : Int → V) (t : V)
    (vecU : Int → V) (t0 : V) (vecU0 : Int → V) (junkV junkU junkU0 : Nat × Int → V) : Res (Int × Int → V) :=
  computeMat false Ls hist dof (triple vecV vecU vecU0) (triple junkV junkU junkU0) fun r e X =>
    entries (iejacobian (env.elt e) cb a (X.map Prod.fst) t (X.map fun x => x.2.1) t0 (X.map fun x => x.2.2) (env.pw r e) (env.w r e))

/-- `IGAComputeRHSFunction`, src/petigats.c:357-416. -/
def computeRHSFunction (Ls : List (Layout K)) (hist : Nat → Hist) (dof : Nat) (env : Env V P)
    (cb : P → V → List V → (Int → V) → Res (Int → V)) (t : V) (vecU : Int → V) (junk : Nat × Int → V) : Res (Int → V) :=
  computeVec false Ls hist dof vecU junk fun r e U => entries (rhsfunction (env.elt e) cb t U (env.pw r e) (env.w r e))

/-- `IGAComputeRHSJacobian`, src/petigats.c:418-477. -/
def computeRHSJacobian (Ls : List (Layout K)) (hist : Nat → Hist) (dof : Nat) (env : Env V P)
    (cb : P → V → List V → (Int → V) → Res (Int → V)) (t : V) (vecU : Int → V) (junk : Nat × Int → V) : Res (Int × Int → V) :=
  computeMat false Ls hist dof vecU junk fun r e U => entries (rhsjacobian (env.elt e) cb t U (env.pw r e) (env.w r e))

/-- `IGAComputeI2Function`, src/petigats2.c:23-97. -/
def computeI2Function (Ls : List (Layout K)) (hist : Nat → Hist) (dof : Nat) (env : Env V P)
    (cb : P → V → List V → V → List V → V → List V → (Int → V) → Res (Int → V)) (a : V) (vecA : Int → V) (v : V)
    (vecV : Int → V) (t : V) (vecU : Int → V) (junkA junkV junkU : Nat × Int → V) : Res (Int → V) :=
  computeVec false Ls hist dof (triple vecA vecV vecU) (triple junkA junkV junkU) fun r e X =>
    entries (i2function (env.elt e) cb a (X.map Prod.fst) v (X.map fun x => x.2.1) t (X.map fun x => x.2.2) (env.pw r e) (env.w r e))

/-- `IGAComputeI2Jacobian`, src/petigats2.c:99-175. -/
def computeI2Jacobian (Ls : List (Layout K)) (hist : Nat → Hist) (dof : Nat) (env : Env V P)
    (cb : P → V → List V → V → List V → V → List V → (Int → V) → Res (Int → V)) (a : V) (vecA : Int → V) (v : V)
    (vecV : Int → V) (t : V) (vecU : Int → V) (junkA junkV junkU : Nat × Int → V) : Res (Int × Int → V) :=
  computeMat false Ls hist dof (triple vecA vecV vecU) (triple junkA junkV junkU) fun r e X =>
    entries (i2jacobian (env.elt e) cb a (X.map Prod.fst) v (X.map fun x => x.2.1) t (X.map fun x => x.2.2) (env.pw r e) (env.w r e))

end PetIGA.Drv
