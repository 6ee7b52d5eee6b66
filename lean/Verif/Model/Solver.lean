import Verif.Model.GlobalDriver
/-
The callbacks of a form (`struct _IGAFormOps`, include/petiga.h:227-258), their setters (src/petigaform.c:154-268 and
388-833), the check `IGACheckFormOp` (include/petiga.h:927-935) with which the assembly loops start, and the functions the
solvers of PETSc call: `IGAKSPFormRHS`, `IGAKSPFormOperators` (src/petigaksp.c:204-239), `IGASNESFormFunction`,
`IGASNESFormJacobian` (src/petigasnes.c:141-175), `IGATSFormIFunction`, `IGATSFormIJacobian` (src/petigats.c:478-534),
`IGATSFormI2Function`, `IGATSFormI2Jacobian` (src/petigats2.c:177-227).
-/
namespace PetIGA.Sol
open PetIGA.Ax PetIGA.Lay PetIGA.Asm PetIGA.Drv

/-- The callbacks of `struct _IGAFormOps`, include/petiga.h:230-257. -/
inductive Kind where
  | vector | matrix | system | function | jacobian | ifunction | i2function | ijacobian | i2jacobian
  | iefunction | iejacobian | rhsfunction | rhsjacobian
  deriving DecidableEq

/-- The context pointers of `struct _IGAFormOps`, include/petiga.h:231-257. -/
inductive Slot where
  | vecCtx | matCtx | sysCtx | funCtx | jacCtx | ifunCtx | ijacCtx | iefunCtx | iejacCtx | rhsfunCtx | rhsjacCtx
  deriving DecidableEq

/-- Where the setters store the context, src/petigaform.c:154-268 and 388-833. -/
def setSlot : Kind → Slot
  | .vector => .vecCtx
  | .matrix => .matCtx
  | .system => .sysCtx
  | .function => .funCtx
  | .jacobian => .jacCtx
  | .ifunction => .ifunCtx
  | .i2function => .ifunCtx
  | .ijacobian => .ijacCtx
  | .i2jacobian => .ijacCtx
  | .iefunction => .iefunCtx
  | .iejacobian => .iejacCtx
  | .rhsfunction => .rhsfunCtx
  | .rhsjacobian => .rhsjacCtx

/-- Where the assembly loops read it: `IGAElementNextForm…`, src/petigaksp.c:3-31, src/petigasnes.c:3-21,
src/petigats.c:3-21, 162-180, 337-355, src/petigats2.c:3-21. -/
def getSlot : Kind → Slot
  | .vector => .vecCtx
  | .matrix => .matCtx
  | .system => .sysCtx
  | .function => .funCtx
  | .jacobian => .jacCtx
  | .ifunction => .ifunCtx
  | .i2function => .ifunCtx
  | .ijacobian => .ijacCtx
  | .i2jacobian => .ijacCtx
  | .iefunction => .iefunCtx
  | .iejacobian => .iejacCtx
  | .rhsfunction => .rhsfunCtx
  | .rhsjacobian => .rhsjacCtx

/-- What a callback of each kind is once its context is given, include/petiga.h:154-200. -/
@[reducible] def Body (V P : Type) : Kind → Type
  | .vector => P → (Int → V) → Res (Int → V)
  | .matrix => P → (Int → V) → Res (Int → V)
  | .system => P → (Int → V) → (Int → V) → Res ((Int → V) × (Int → V))
  | .function => P → List V → (Int → V) → Res (Int → V)
  | .jacobian => P → List V → (Int → V) → Res (Int → V)
  | .ifunction => P → V → List V → V → List V → (Int → V) → Res (Int → V)
  | .ijacobian => P → V → List V → V → List V → (Int → V) → Res (Int → V)
  | .i2function => P → V → List V → V → List V → V → List V → (Int → V) → Res (Int → V)
  | .i2jacobian => P → V → List V → V → List V → V → List V → (Int → V) → Res (Int → V)
  | .iefunction => P → V → List V → V → List V → V → List V → (Int → V) → Res (Int → V)
  | .iejacobian => P → V → List V → V → List V → V → List V → (Int → V) → Res (Int → V)
  | .rhsfunction => P → V → List V → (Int → V) → Res (Int → V)
  | .rhsjacobian => P → V → List V → (Int → V) → Res (Int → V)

variable {C V P : Type}

/-- `struct _IGAFormOps`, include/petiga.h:227-258; `C` is the type of the contexts. -/
structure Ops (C V P : Type) where
  fn : (k : Kind) → Option (C → Body V P k)
  ctx : Slot → C

/-- `IGAFormCreate` clears the record, src/petigaform.c:27-47 (`PetscCalloc1(1,&form->ops)`). -/
def create (null : C) : Ops C V P := ⟨fun _ => none, fun _ => null⟩

/-- A call of `IGAFormSet…` or `IGASetForm…` with a function (or `NULL`) and its context. -/
structure Reg (C V P : Type) where
  kind : Kind
  fn : Option (C → Body V P kind)
  ctx : C

/-- `IGAFormSetVector`, …, `IGAFormSetRHSJacobian`, src/petigaform.c:154-268, and `IGASetFormVector`, …,
`IGASetFormRHSJacobian`, src/petigaform.c:388-833: two assignments. -/
def register (ops : Ops C V P) (r : Reg C V P) : Ops C V P :=
  ⟨fun k => if h : r.kind = k then h ▸ r.fn else ops.fn k,
   fun s => if s = setSlot r.kind then r.ctx else ops.ctx s⟩

/-- `IGACheckFormOp` (include/petiga.h:927-935) and the callback the loops then call with its context
(`IGAElementNextForm…`).  Without `PETSC_USE_DEBUG` nothing is checked and a null pointer is called; every
assembly loop visits the interior of at least one element, so that is reached. -/
def callback (debug : Bool) (ops : Ops C V P) (k : Kind) : Res (Body V P k) :=
  match ops.fn k with
  | some f => .ok (f (ops.ctx (getSlot k)))
  | none => if debug then .err .user else .ub

variable {K : Type} [Field K] [LinearOrder K] [IsStrictOrderedRing K] [CommRing V]

/-- What the assembly loops depend on besides the callbacks and the vectors: set-up, histories of the iterators, `dof`,
elements and work arrays, build type, and what the ghosted work vectors contained. -/
structure Run (K V P : Type) where
  debug : Bool
  Ls : List (Layout K)
  hist : Nat → Hist
  dof : Nat
  env : Env V P
  junkA : Nat × Int → V
  junkV : Nat × Int → V
  junkU : Nat × Int → V

/-- `IGASNESFormFunction`, src/petigasnes.c:141-154. -/
def snesFunction (R : Run K V P) (ops : Ops C V P) (U : Int → V) : Res (Int → V) :=
  (callback R.debug ops .function).bind fun cb => computeFunction R.Ls R.hist R.dof R.env cb U R.junkU

/-- `IGASNESFormJacobian`, src/petigasnes.c:156-174: the matrix `P`. -/
def snesJacobian (R : Run K V P) (ops : Ops C V P) (U : Int → V) : Res (Int × Int → V) :=
  (callback R.debug ops .jacobian).bind fun cb => computeJacobian R.Ls R.hist R.dof R.env cb U R.junkU

/-- `IGATSFormIFunction`, src/petigats.c:478-504; `t0`, `U0` are `TSGetTime` and `TSGetSolution`. -/
def tsIFunction (R : Run K V P) (ops : Ops C V P) (t0 : V) (U0 : Int → V) (t : V) (U V' : Int → V) : Res (Int → V) :=
  if (ops.fn .iefunction).isSome then
    (callback R.debug ops .iefunction).bind fun cb =>
      computeIEFunction R.Ls R.hist R.dof R.env cb 0 V' t U t0 U0 R.junkV R.junkU R.junkA
  else
    (callback R.debug ops .ifunction).bind fun cb => computeIFunction R.Ls R.hist R.dof R.env cb 0 V' t U R.junkV R.junkU

/-- `IGATSFormIJacobian`, src/petigats.c:506-537: the matrix `P`. -/
def tsIJacobian (R : Run K V P) (ops : Ops C V P) (t0 : V) (U0 : Int → V) (t : V) (U V' : Int → V) (shift : V) : Res (Int × Int → V) :=
  if (ops.fn .iefunction).isSome then
    (callback R.debug ops .iejacobian).bind fun cb =>
      computeIEJacobian R.Ls R.hist R.dof R.env cb shift V' t U t0 U0 R.junkV R.junkU R.junkA
  else
    (callback R.debug ops .ijacobian).bind fun cb => computeIJacobian R.Ls R.hist R.dof R.env cb shift V' t U R.junkV R.junkU

/-- `IGATSFormI2Function`, src/petigats2.c:177-200. -/
def tsI2Function (R : Run K V P) (ops : Ops C V P) (t : V) (U V' A : Int → V) : Res (Int → V) :=
  if (ops.fn .i2function).isSome then
    (callback R.debug ops .i2function).bind fun cb =>
      computeI2Function R.Ls R.hist R.dof R.env cb 0 A 0 V' t U R.junkA R.junkV R.junkU
  else
    (callback R.debug ops .ifunction).bind fun cb => computeIFunction R.Ls R.hist R.dof R.env cb 0 A t U R.junkV R.junkU

/-- `IGATSFormI2Jacobian`, src/petigats2.c:202-231: the matrix `P`. -/
def tsI2Jacobian (R : Run K V P) (ops : Ops C V P) (t : V) (U V' A : Int → V) (shiftV shiftA : V) : Res (Int × Int → V) :=
  if (ops.fn .i2function).isSome then
    (callback R.debug ops .i2jacobian).bind fun cb =>
      computeI2Jacobian R.Ls R.hist R.dof R.env cb shiftA A shiftV V' t U R.junkA R.junkV R.junkU
  else
    (callback R.debug ops .ijacobian).bind fun cb => computeIJacobian R.Ls R.hist R.dof R.env cb shiftA A t U R.junkV R.junkU

/-- `IGAKSPFormRHS`, src/petigaksp.c:204-216; `b` is the content of the vector before. -/
def kspRHS (R : Run K V P) (ops : Ops C V P) (b : Int → V) : Res (Int → V) :=
  if (ops.fn .system).isSome then .ok b
  else (callback R.debug ops .vector).bind fun cb => computeVector R.Ls R.hist R.dof R.env cb

/-- `IGAKSPFormOperators`, src/petigaksp.c:218-239: the matrix `A`, and the right-hand side of the solver after the call. -/
def kspOperators (R : Run K V P) (ops : Ops C V P) (rhs : Int → V) : Res ((Int × Int → V) × (Int → V)) :=
  if (ops.fn .system).isSome then
    (callback R.debug ops .system).bind fun cb => computeSystem R.Ls R.hist R.dof R.env cb
  else (callback R.debug ops .matrix).bind fun cb => (computeMatrix R.Ls R.hist R.dof R.env cb).bind fun A => .ok (A, rhs)

/-- `KSPSetUp` of a solver prepared by `KSPSetIGA` (src/petigaksp.c:241-259): PETSc calls the right-hand side routine, then the
operators routine; afterwards it solves with the matrix and its right-hand side vector. -/
def kspSetUp (R : Run K V P) (ops : Ops C V P) (b : Int → V) : Res ((Int × Int → V) × (Int → V)) :=
  (kspRHS R ops b).bind fun rhs => kspOperators R ops rhs

end PetIGA.Sol
