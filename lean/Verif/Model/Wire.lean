import Verif.Model.Basic
import Verif.Model.PCMG
/-
How the solvers made from an IGA are connected with it: petigaksp.c:238-405, petigasnes.c:176-236, petigats.c:538-625,
petigats2.c:246-282, petigapcmg.c:116-159, petigapcbddc.c:216-229, petigapch2o.c:7-36.

An IGA is a number.  Only what connects a solver with an IGA is part of the state.  PETSc's part is the following contract:
`KSPSetOperators` and `KSPSetDM` also set the operators and the DM of the preconditioner; `KSPSetFromOptions` lets the
preconditioner process its options first, then sets the type and then calls the handlers of the solver; the
preconditioner first takes over its type and its multigrid options and then calls its handlers; `TSGetSNES`, `SNESGetKSP`
and `KSPGetPC` always give the same object; `TSSetDM` and `SNESSetDM` pass the DM on to the inner solvers.
-/
namespace PetIGA.Wir

/-- The callbacks PetIGA registers with PETSc. -/
inductive Fn where
  | kspRHS | kspOperators | snesFunction | snesJacobian | tsIFunction | tsIJacobian | tsI2Function | tsI2Jacobian
  deriving DecidableEq

/-- A registered callback and its context, an IGA. -/
structure Call where
  fn : Fn
  ctx : Nat
  deriving DecidableEq

/-- A DM: of type `DMIGA`, the DMDA that `IGAPreparePCMG` makes from an IGA, or any other. -/
inductive DMKind where
  | iga (g : Nat) | da (g : Nat) | other
  deriving DecidableEq

/-- A matrix: the IGA composed with it, if any (`IGACreateMat` composes it). -/
structure Mat where
  iga : Option Nat
  deriving DecidableEq

/-- The types of preconditioners that need data of the IGA. -/
inductive PCType where
  | mg | bddc | h2opus | other
  deriving DecidableEq

/-- A preconditioner: `bddc`, `coords` are the IGAs from which PetIGA gave it boundary lists and coordinates. -/
structure PC where
  type : PCType
  composed : Option Nat
  dm : Option DMKind
  ops : Option (Mat × Mat)
  handler : Bool
  galerkin : Bool
  levels : Int
  bddc : Option Nat
  coords : Option Nat

/-- The relevant options: `-pc_type`, `-pc_mg_levels`, whether `-pc_mg_galerkin` is present, `-ksp_type fetidp`. -/
structure Opts where
  pcType : Option PCType
  mgLevels : Option Int
  mgGalerkin : Bool
  fetidp : Bool

/-- A linear solver; `inner` is the BDDC preconditioner inside FETI-DP. -/
structure KSP where
  composed : Option Nat
  dm : Option DMKind
  handler : Bool
  fetidp : Bool
  pc : PC
  inner : PC
  rhs : Option Call
  operators : Option Call

/-- What is known of the IGAs: whether they are set up, and the numbers of nodes, periodicities and processes of the directions. -/
structure Env where
  setup : Nat → Bool
  nodes : Nat → List Int
  periodic : Nat → List Bool
  procs : Nat → List Int

/-- `IGAPreparePCMG`, petigapcmg.c:116-159.  Not modelled here: the contents of the DMDA (C82) and its factors (C53). -/
def prepareMG (E : Env) (o : Opts) (g : Nat) (pc : PC) : PC :=
  if pc.type = .mg then
    let pc := { pc with galerkin := if o.mgGalerkin then pc.galerkin else true }
    if o.mgLevels.isSome ∧ pc.levels = 1 then pc
    else
      let pc := { pc with dm := some (.da g) }
      if pc.levels ≤ 1 then { pc with levels := (MG.levels (E.nodes g) (E.periodic g) (E.procs g)).length } else pc
  else pc

/-- `IGAPreparePCBDDC`, petigapcbddc.c:216-221: what it hands over is the subject of C54, C55, C75.  The check of
the set-up exists in debug builds only. -/
def prepareBDDC (E : Env) (g : Nat) (pc : PC) : Res PC :=
  if ¬ E.setup g then .err .wrongState
  else if pc.type = .bddc then .ok { pc with bddc := some g } else .ok pc

/-- `IGAPreparePCH2OPUS`, petigapch2o.c:7-36. -/
def prepareH2OPUS (E : Env) (g : Nat) (pc : PC) : Res PC :=
  if ¬ E.setup g then .err .wrongState
  else if pc.type = .h2opus then .ok { pc with coords := some g } else .ok pc

/-- The search for the IGA, petigaksp.c:273-285 and 322-334. -/
def find (composed : Option Nat) (dm : Option DMKind) (ops : Option (Mat × Mat)) : Option Nat :=
  let iga := composed
  let iga := match iga, dm with
    | none, some (.iga g) => some g
    | i, _ => i
  match iga, ops with
  | none, some (_, mat) => mat.iga
  | i, _ => i

/-- `IGA_OptionsHandler_PC`, petigaksp.c:307-342. -/
def handlerPC (E : Env) (o : Opts) (pc : PC) : Res PC :=
  match find pc.composed pc.dm pc.ops with
  | none => .ok pc
  | some g => do
    let pc := prepareMG E o g pc
    let pc ← prepareBDDC E g pc
    prepareH2OPUS E g pc

/-- `PCSetFromOptions` (PETSc): the type, the options of multigrid, the handlers. -/
def pcFromOptions (E : Env) (o : Opts) (pc : PC) : Res PC :=
  let pc := { pc with type := o.pcType.getD pc.type }
  let pc := { pc with levels := if pc.type = .mg then o.mgLevels.getD pc.levels else pc.levels }
  if pc.handler then handlerPC E o pc else .ok pc

/-- `IGA_OptionsHandler_KSP`, petigaksp.c:260-305; the operators of the solver are those of its preconditioner. -/
def handlerKSP (E : Env) (ksp : KSP) : Res KSP :=
  match find ksp.composed ksp.dm ksp.pc.ops with
  | none => .ok ksp
  | some g =>
    if ksp.fetidp then do
      let pc ← prepareBDDC E g { ksp.inner with ops := ksp.pc.ops }
      .ok { ksp with inner := pc }
    else .ok ksp

/-- `KSPSetFromOptions` (PETSc). -/
def kspFromOptions (E : Env) (o : Opts) (ksp : KSP) : Res KSP := do
  let pc ← pcFromOptions E o ksp.pc
  let ksp := { ksp with pc := pc, fetidp := ksp.fetidp || o.fetidp }
  if ksp.handler then handlerKSP E ksp else .ok ksp

/-- `KSPSetOperators` (PETSc). -/
def kspSetOperators (A B : Mat) (ksp : KSP) : KSP := { ksp with pc := { ksp.pc with ops := some (A, B) } }

/-- `KSPSetDM` (PETSc). -/
def kspSetDM (d : DMKind) (ksp : KSP) : KSP := { ksp with dm := some d, pc := { ksp.pc with dm := some d } }

/-- `PCSetType` (PETSc). -/
def kspSetPCType (t : PCType) (ksp : KSP) : KSP := { ksp with pc := { ksp.pc with type := t } }

/-- `IGASetOptionsHandlerKSP`, `IGASetOptionsHandlerPC`, petigaksp.c:346-367. -/
def handlers (ksp : KSP) : KSP := { ksp with handler := true, pc := { ksp.pc with handler := true } }

/-- `PCCreate` (PETSc). -/
def pcCreate (t : PCType) : PC :=
  ⟨t, none, none, none, false, false, 0, none, none⟩

/-- `KSPCreate` (PETSc). -/
def kspCreate : KSP := ⟨none, none, false, false, pcCreate .other, pcCreate .bddc, none, none⟩

/-- `IGACreateKSP`, petigaksp.c:385-405. -/
def createKSP (g : Nat) : KSP := handlers { kspCreate with composed := some g }

/-- `KSPSetIGA`, petigaksp.c:238-258. -/
def setKSP (g : Nat) (ksp : KSP) : KSP :=
  kspSetDM (.iga g) { handlers { ksp with composed := some g } with rhs := some ⟨.kspRHS, g⟩, operators := some ⟨.kspOperators, g⟩ }

/-- A nonlinear solver: the vector and matrix it was given are those of an IGA. -/
structure SNES where
  composed : Option Nat
  ksp : KSP
  function : Option Call
  jacobian : Option Call
  vec : Option Nat
  mat : Option Mat

/-- `SNESCreate` (PETSc). -/
def snesCreate : SNES := ⟨none, kspCreate, none, none, none, none⟩

/-- `IGASetOptionsHandlerSNES`, petigasnes.c:196-206. -/
def handlersSNES (s : SNES) : SNES := { s with ksp := handlers s.ksp }

/-- `IGACreateSNES`, petigasnes.c:209-236. -/
def createSNES (g : Nat) : SNES :=
  let s := handlersSNES { snesCreate with composed := some g }
  { s with function := some ⟨.snesFunction, g⟩, vec := some g, jacobian := some ⟨.snesJacobian, g⟩, mat := some ⟨some g⟩ }

/-- `SNESSetIGA`, petigasnes.c:176-194. -/
def setSNES (g : Nat) (s : SNES) : SNES :=
  let s := handlersSNES { s with composed := some g }
  { s with function := some ⟨.snesFunction, g⟩, jacobian := some ⟨.snesJacobian, g⟩, ksp := kspSetDM (.iga g) s.ksp }

/-- `SNESSetFromOptions` (PETSc): the inner linear solver processes its options.  `early` says whether PETSc has given it the
matrix of the Jacobian before that (it does so when it solves). -/
def snesFromOptions (early : Bool) (E : Env) (o : Opts) (s : SNES) : Res SNES := do
  let ksp := match early, s.mat with
    | true, some J => kspSetOperators J J s.ksp
    | _, _ => s.ksp
  let ksp ← kspFromOptions E o ksp
  .ok { s with ksp := ksp }

/-- A time stepper. -/
structure TS where
  composed : Option Nat
  alpha2 : Bool
  snes : SNES
  solution : Option Nat
  velocity : Option Nat
  iFunction : Option Call
  iJacobian : Option Call
  i2Function : Option Call
  i2Jacobian : Option Call
  vec : Option Nat
  mat : Option Mat

/-- `TSCreate` (PETSc). -/
def tsCreate : TS := ⟨none, false, snesCreate, none, none, none, none, none, none, none, none⟩

/-- `IGASetOptionsHandlerTS`, petigats.c:566-576. -/
def handlersTS (t : TS) : TS := { t with snes := handlersSNES t.snes }

/-- `IGACreateTS`, petigats.c:594-625. -/
def createTS (g : Nat) : TS :=
  let t := handlersTS { tsCreate with composed := some g }
  { t with solution := some g, iFunction := some ⟨.tsIFunction, g⟩, vec := some g, iJacobian := some ⟨.tsIJacobian, g⟩, mat := some ⟨some g⟩ }

/-- `IGACreateTS2`, petigats2.c:246-282. -/
def createTS2 (g : Nat) : TS :=
  let t := handlersTS { tsCreate with alpha2 := true, composed := some g }
  { t with solution := some g, velocity := some g,
           iFunction := some ⟨.tsIFunction, g⟩, i2Function := some ⟨.tsI2Function, g⟩, vec := some g,
           iJacobian := some ⟨.tsIJacobian, g⟩, i2Jacobian := some ⟨.tsI2Jacobian, g⟩, mat := some ⟨some g⟩ }

/-- `TSSetIGA`, petigats.c:538-564. -/
def setTS (g : Nat) (t : TS) : TS :=
  let t := handlersTS { t with composed := some g }
  { t with iFunction := some ⟨.tsIFunction, g⟩, iJacobian := some ⟨.tsIJacobian, g⟩, solution := some g,
           i2Function := some ⟨.tsI2Function, g⟩, i2Jacobian := some ⟨.tsI2Jacobian, g⟩,
           snes := { t.snes with ksp := kspSetDM (.iga g) t.snes.ksp } }

/-- `TSSetFromOptions` (PETSc). -/
def tsFromOptions (early : Bool) (E : Env) (o : Opts) (t : TS) : Res TS := do
  let s ← snesFromOptions early E o t.snes
  .ok { t with snes := s }

/-- What a program does with a linear solver between its creation and its use. -/
inductive Act where
  | setOperators (A B : Mat)
  | setDM (d : DMKind)
  | setPCType (t : PCType)
  | fromOptions (o : Opts)

/-- One action. -/
def step (E : Env) (ksp : KSP) : Act → Res KSP
  | .setOperators A B => .ok (kspSetOperators A B ksp)
  | .setDM d => .ok (kspSetDM d ksp)
  | .setPCType t => .ok (kspSetPCType t ksp)
  | .fromOptions o => kspFromOptions E o ksp

/-- A history. -/
def run (E : Env) : KSP → List Act → Res KSP
  | ksp, [] => .ok ksp
  | ksp, a :: as => do
    let ksp ← step E ksp a
    run E ksp as

end PetIGA.Wir
