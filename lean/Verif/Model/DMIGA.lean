import Verif.Model.Basic

/-!
Model of the `DM` of type "iga" (petigadm.c): which objects hold references to which, what a `DM` copies from its IGA when
it is set up, and how it lends its vector and matrix type to the IGA while an object is created.

The memory holds IGAs, `DM`s and the vectors and matrices that were created; entries are never reused, so that a use of a
released object is recognised (`ub`).  Of an IGA the model keeps its numbers of fields, directions and space dimensions, the two
type strings and the identity of its local to global mapping; the content of these is the subject of the other models.
Every call takes an argument `lib` that says whether the PETSc calls inside it succeed.
-/

namespace PetIGA.DMI

/-- The value of `iga->vectype` or `iga->mattype`: the text, and the `DM` whose memory the pointer points to, if it is not the
IGA's own copy. -/
structure Name where
  text : String
  lender : Option Nat
deriving DecidableEq, Repr

/-- An IGA.  `map` is the identity of `iga->lgmap`. -/
structure Iga where
  refct : Int
  freed : Bool
  setup : Bool
  dof : Nat
  dim : Nat
  nsd : Nat
  vtype : Option Name
  mtype : Option Name
  map : Option Nat
deriving DecidableEq, Repr

/-- A `DM` of type "iga": `DM_IGA` (petigadm.c:4-6) and the fields of PETSc's `DM` that petigadm.c writes. -/
structure Dm where
  refct : Int
  freed : Bool
  iga : Option Nat
  called : Bool
  bs : Nat
  dim : Nat
  cdim : Nat
  map : Option Nat
  vtype : Option String
  mtype : Option String
deriving DecidableEq, Repr

/-- What a created object is. -/
inductive Kind where
  | vec | local | mat
deriving DecidableEq, Repr

/-- A vector or matrix: the IGA composed with it (petigavec.c:88, petigamat.c:375) and the `DM` attached to it
(`VecSetDM`, `MatSetDM`); both count as references. -/
structure Obj where
  freed : Bool
  kind : Kind
  type : String
  bs : Nat
  iga : Option Nat
  dm : Option Nat
deriving DecidableEq, Repr

/-- Memory, the number of references that the program itself owns, and a supply of identities for mappings. -/
structure State where
  igas : List Iga
  dms : List Dm
  objs : List Obj
  heldI : Nat → Nat
  heldD : Nat → Nat
  next : Nat

/-- The start of a program. -/
def init : State := { igas := [], dms := [], objs := [], heldI := fun _ => 0, heldD := fun _ => 0, next := 0 }

/-- Outcome of a call: it returned zero, it returned an error (and left the state as given), or its behaviour is undefined. -/
inductive Out where
  | done (s : State)
  | fail (e : Err) (s : State)
  | ub

/-- `ierr = f(); CHKERRQ(ierr); g()` -/
def Out.andThen : Out → (State → Out) → Out
  | .done s, g => g s
  | .fail e s, _ => .fail e s
  | .ub, _ => .ub

/-- Add one to / take one from the references the program owns. -/
def bump (f : Nat → Nat) (k : Nat) : Nat → Nat := fun j => if j = k then f j + 1 else f j
def drop (f : Nat → Nat) (k : Nat) : Nat → Nat := fun j => if j = k then f j - 1 else f j

/-- Replace an IGA / a `DM` / an object. -/
def putI (s : State) (i : Nat) (g : Iga) : State := { s with igas := s.igas.set i g }
def putD (s : State) (d : Nat) (m : Dm) : State := { s with dms := s.dms.set d m }

/-- An object that may be used. -/
def liveI (s : State) (i : Nat) : Option Iga := (s.igas[i]?).bind fun g => if g.freed then none else some g
def liveD (s : State) (d : Nat) : Option Dm := (s.dms[d]?).bind fun m => if m.freed then none else some m

/-- `PetscObjectReference((PetscObject)iga)`. -/
def refI (s : State) (i : Nat) : Out :=
  match liveI s i with
  | none => .ub
  | some g => .done (putI s i { g with refct := g.refct + 1 })

/-- `PetscObjectReference((PetscObject)dm)`. -/
def refD (s : State) (d : Nat) : Out :=
  match liveD s d with
  | none => .ub
  | some m => .done (putD s d { m with refct := m.refct + 1 })

/-- `PetscFree` of a type string: releasing the memory of a `DM` corrupts the heap, now or when the `DM` releases it. -/
def ownName : Option Name → Bool
  | some ⟨_, some _⟩ => false
  | _ => true

/-- `IGADestroy`, petiga.c:78-109: `if (--refct > 0) return; PetscFree(iga->vectype); PetscFree(iga->mattype); …`. -/
def destroyI (s : State) (i : Nat) : Out :=
  match liveI s i with
  | none => .ub
  | some g =>
    if g.refct - 1 > 0 then .done (putI s i { g with refct := g.refct - 1 })
    else if ownName g.vtype && ownName g.mtype then
      .done (putI s i { g with refct := g.refct - 1, freed := true })
    else .ub

/-- `DMDestroy` with `DMDestroy_IGA`, petigadm.c:189-197. -/
def destroyD (s : State) (d : Nat) : Out :=
  match liveD s d with
  | none => .ub
  | some m =>
    if m.refct - 1 > 0 then .done (putD s d { m with refct := m.refct - 1 })
    else
      let s' := putD s d { m with refct := m.refct - 1, freed := true }
      match m.iga with
      | none => .done s'
      | some i => destroyI s' i

/-- `VecDestroy` / `MatDestroy` of an object with one reference: the attached `DM` and the composed IGA are released. -/
def destroyO (s : State) (o : Nat) : Out :=
  match s.objs[o]? with
  | none => .ub
  | some b =>
    if b.freed then .ub
    else
      let s' := { s with objs := s.objs.set o { b with freed := true } }
      (match b.dm with
        | none => Out.done s'
        | some d => destroyD s' d).andThen fun s'' =>
      match b.iga with
      | none => .done s''
      | some i => destroyI s'' i

/-- `IGACreate`, petiga.c:32-63: a new object with one reference.  Simplification: the sizes that the program or the options
set later are given here. -/
def newIga (dof dim nsd : Nat) (v m : Option String) : Iga :=
  { refct := 1, freed := false, setup := false, dof := dof, dim := dim, nsd := nsd,
    vtype := v.map fun t => ⟨t, none⟩, mtype := m.map fun t => ⟨t, none⟩, map := none }

/-- `DMCreate`, `DMSetType(dm,DMIGA)`: petigadm.c:386-433. -/
def newDm (iga : Option Nat) : Dm :=
  { refct := 1, freed := false, iga := iga, called := false, bs := 0, dim := 0, cdim := 0, map := none,
    vtype := none, mtype := none }

/-- The types that `IGASetUp_Stage2` chooses if none was given, petiga.c:1323-1330. -/
def defaultName (old : Option Name) (text : String) : Option Name :=
  match old with
  | none => some ⟨text, none⟩
  | some n => some n

/-- `IGASetUp`, petiga.c:1450-1480, with `IGASetUp_Stage2`, petiga.c:1311-1447.  Simplification: a failure leaves the object as
it was (see C22 for what it really leaves). -/
def setUpI (s : State) (i : Nat) (lib : Bool) : Out :=
  match liveI s i with
  | none => .ub
  | some g =>
    if g.setup then .done s
    else if !(lib && decide (1 ≤ g.dim)) then .fail .wrongState s
    else
      .done { putI s i { g with
                setup := true
                dof := max g.dof 1
                vtype := defaultName g.vtype "standard"
                mtype := defaultName g.mtype (if 1 < g.dof then "baij" else "aij")
                map := some s.next } with next := s.next + 1 }

/-- `IGALoad`, petigaio.c:11-75: `IGAReset` and a new set-up, which makes a new mapping; `dim` and `nsd` come from the file. -/
def loadI (s : State) (i dim nsd : Nat) (lib : Bool) : Out :=
  match liveI s i with
  | none => .ub
  | some g => setUpI (putI s i { g with setup := false, map := none, dim := dim, nsd := nsd }) i lib

/-- `IGASetVecType`, petiga.c:1567-1578: the old string is released. -/
def setVecTypeI (s : State) (i : Nat) (t : String) : Out :=
  match liveI s i with
  | none => .ub
  | some g => if ownName g.vtype then .done (putI s i { g with vtype := some ⟨t, none⟩ }) else .ub

/-- `IGASetMatType`, petiga.c:1580-1591. -/
def setMatTypeI (s : State) (i : Nat) (t : String) : Out :=
  match liveI s i with
  | none => .ub
  | some g => if ownName g.mtype then .done (putI s i { g with mtype := some ⟨t, none⟩ }) else .ub

/-- The type that an object of a kind takes from the IGA: petigavec.c:87, 111; petigamat.c:372. -/
def nameOf (g : Iga) : Kind → Option Name
  | .vec => g.vtype
  | .local => g.vtype
  | .mat => g.mtype

/-- Reading a string: it must not have been released. -/
def readName (s : State) : Option Name → Option String
  | none => none
  | some ⟨t, none⟩ => some t
  | some ⟨t, some d⟩ => (liveD s d).map fun _ => t

/-- `IGACreateVec`, petigavec.c:78-93; `IGACreateLocalVec`, petigavec.c:95-113 (no IGA is composed); `IGACreateMat`,
petigamat.c:345-480.  The new object is number `s.objs.length`; nothing is kept of an object whose creation fails. -/
def createI (s : State) (i : Nat) (k : Kind) (lib : Bool) : Out :=
  match liveI s i with
  | none => .ub
  | some g =>
    if !g.setup then .fail .wrongState s
    else match readName s (nameOf g k) with
      | none => .ub
      | some t =>
        if !lib then .fail .lib s
        else
          let b : Obj := { freed := false, kind := k, type := t, bs := g.dof,
                           iga := if k = .local then none else some i, dm := none }
          let s' := { s with objs := s.objs ++ [b] }
          if k = .local then .done s' else refI s' i

/-- `VecSetDM` / `MatSetDM` on the newest object. -/
def attach (s : State) (d : Nat) : Out :=
  match s.objs.getLast? with
  | none => .ub
  | some b => refD { s with objs := s.objs.dropLast ++ [{ b with dm := some d }] } d

/-- The `DM`'s own type for objects of a kind: petigadm.c:148, 164, 176. -/
def typeOf (m : Dm) : Kind → Option String
  | .vec => m.vtype
  | .local => m.vtype
  | .mat => m.mtype

/-- `iga->vectype = …` / `iga->mattype = …`. -/
def withName (g : Iga) (k : Kind) (n : Option Name) : Iga :=
  match k with
  | .vec => { g with vtype := n }
  | .local => { g with vtype := n }
  | .mat => { g with mtype := n }

/-- `if (vtype) iga->vectype = (char*)vtype;` – the pointer, not a copy: petigadm.c:150, 166, 182. -/
def lend (s : State) (d i : Nat) (k : Kind) (t : Option String) : Out :=
  match t with
  | none => .done s
  | some t => match liveI s i with
    | none => .ub
    | some g => .done (putI s i (withName g k (some ⟨t, some d⟩)))

/-- `if (vtype) iga->vectype = (char*)save;`: petigadm.c:152, 168, 184. -/
def restore (s : State) (i : Nat) (k : Kind) (t : Option String) (save : Option Name) : Out :=
  match t with
  | none => .done s
  | some _ => match liveI s i with
    | none => .ub
    | some g => .done (putI s i (withName g k save))

/-- `DMCreateGlobalVector_IGA`, `DMCreateLocalVector_IGA`, `DMCreateMatrix_IGA`, petigadm.c:141-187.  A null IGA is
dereferenced (the check is compiled out of optimised builds).  `CHKERRQ` returns before the type is restored. -/
def createD (s : State) (d : Nat) (k : Kind) (lib : Bool) : Out :=
  match liveD s d with
  | none => .ub
  | some m => match m.iga with
    | none => .ub
    | some i => match liveI s i with
      | none => .ub
      | some g =>
        let save := nameOf g k
        (lend s d i k (typeOf m k)).andThen fun s =>
        (createI s i k lib).andThen fun s =>
        (restore s i k (typeOf m k) save).andThen fun s =>
        attach s d

/-- `DMIGACreate`, petigadm.c:10-27, without the `DMSetUp` at its end: the new `DM` is number `s.dms.length`. -/
def allocD (s : State) (iga : Option Nat) : State :=
  { s with dms := s.dms ++ [newDm iga], heldD := bump s.heldD s.dms.length }

/-- `DMIGA_GetIGA`, petigadm.c:60-77: a `DM` without an IGA makes one from the options (`dof`, `dim`, `v`, `m`). -/
def ensureIga (s : State) (d dof dim : Nat) (v m : Option String) (lib : Bool) : Out :=
  match liveD s d with
  | none => .ub
  | some dm => match dm.iga with
    | some _ => .done s
    | none =>
      if !lib then .fail .lib s
      else .done (putD { s with igas := s.igas ++ [newIga dof dim 0 v m] } d { dm with iga := some s.igas.length })

/-- `DMSetUp_IGA`, petigadm.c:215-233, after `DMIGA_GetIGA` and with `DMGetLocalToGlobalMapping_IGA`, petigadm.c:79-90. -/
def copyFrom (s : State) (d : Nat) (lib : Bool) : Out :=
  match liveD s d with
  | none => .ub
  | some m => match m.iga with
    | none => .ub
    | some i =>
      (setUpI s i lib).andThen fun s =>
      match liveI s i with
      | none => .ub
      | some g => match readName s g.vtype, readName s g.mtype with
        | some v, some t => .done (putD s d { m with
            map := g.map
            bs := g.dof
            dim := g.dim
            cdim := if 1 ≤ g.nsd then g.nsd else g.dim
            vtype := some v
            mtype := some t })
        | _, _ => .ub

/-- `DMSetUp`: PETSc calls the type's function once and remembers it. -/
def markSetUp (s : State) (d : Nat) : Out :=
  match liveD s d with
  | none => .ub
  | some m => .done (putD s d { m with called := true })

/-- `DMSetUp` of a `DM` of type "iga". -/
def setUpD (s : State) (d dof dim : Nat) (v m : Option String) (lib : Bool) : Out :=
  match liveD s d with
  | none => .ub
  | some dm =>
    if dm.called then .done s
    else
      (ensureIga s d dof dim v m lib).andThen fun s =>
      (copyFrom s d lib).andThen fun s => markSetUp s d

/-- `DMLoad_IGA`, petigadm.c:245-258. -/
def loadD (s : State) (d dof dim nsd : Nat) (v m : Option String) (lib : Bool) : Out :=
  (ensureIga s d dof dim v m lib).andThen fun s =>
  match liveD s d with
  | none => .ub
  | some dm => match dm.iga with
    | none => .ub
    | some i =>
      (loadI s i dim nsd lib).andThen fun s =>
      if dm.called then copyFrom s d lib
      else (copyFrom s d lib).andThen fun s => markSetUp s d

/-- `DMIGACreate`, petigadm.c:10-27. -/
def createFrom (s : State) (i : Nat) (lib : Bool) : Out :=
  let d := s.dms.length
  (refI s i).andThen fun s =>
  let s := allocD s (some i)
  match liveI s i with
  | none => .ub
  | some g => if g.setup then setUpD s d 0 0 none none lib else .done s

/-- `DMIGASetIGA`, petigadm.c:29-45. -/
def setIga (s : State) (d i : Nat) : Out :=
  match liveD s d with
  | none => .ub
  | some m => match liveI s i with
    | none => .ub
    | some _ => match m.iga with
      | some j =>
        if j = i then (refI s i).andThen fun s => destroyI s i
        else .fail .wrongState s
      | none => (refI s i).andThen fun s => .done (putD s d { m with iga := some i })

/-- `IGAClone`, petiga.c:1495-1565: the type strings are not copied, so `IGASetUp_Stage2` chooses the defaults.  The new IGA is
number `s.igas.length` and has one reference. -/
def cloneI (s : State) (i dof : Nat) (lib : Bool) : Out :=
  match liveI s i with
  | none => .ub
  | some g =>
    if !g.setup then .fail .wrongState s
    else if !lib then .fail .lib s
    else
      let n := if 0 < dof then dof else g.dof
      .done { s with
        igas := s.igas ++ [{ newIga n g.dim g.nsd (some "standard") (some (if 1 < n then "baij" else "aij")) with
          setup := true, map := some s.next }]
        next := s.next + 1 }

/-- The number of fields of the IGA that `DMClone_IGA` (petigadm.c:267), `DMCreateCoordinateDM_IGA` (petigadm.c:283-285) and
`DMCreateSubDM_IGA` (petigadm.c:323) ask for. -/
inductive Derived where
  | clone | coord | sub (n : Nat)
deriving DecidableEq, Repr

def Derived.dof (g : Iga) : Derived → Nat
  | .clone => g.dof
  | .coord => max g.dim g.nsd
  | .sub n => n

/-- The three functions that make a `DM` around a clone of the IGA, petigadm.c:260-289, 322-330: the clone is given to the new
`DM` and the creator's reference is released.  Simplification: of a failing call nothing is kept (what the code leaves is
unreachable). -/
def deriveD (s : State) (d : Nat) (w : Derived) (lib : Bool) : Out :=
  match liveD s d with
  | none => .ub
  | some m => match m.iga with
    | none => .ub
    | some i => match liveI s i with
      | none => .ub
      | some g =>
        let j := s.igas.length
        (cloneI s i (w.dof g) lib).andThen fun s =>
        (createFrom s j lib).andThen fun s => destroyI s j

/-- Calls of a program. -/
inductive Op where
  /-- `IGACreate` and the setters of its sizes -/
  | igaCreate (dof dim nsd : Nat)
  /-- `IGASetUp` -/
  | igaSetUp (i : Nat) (lib : Bool)
  /-- `IGALoad` -/
  | igaLoad (i dim nsd : Nat) (lib : Bool)
  /-- `IGASetVecType` -/
  | igaSetVecType (i : Nat) (t : String)
  /-- `IGASetMatType` -/
  | igaSetMatType (i : Nat) (t : String)
  /-- `IGACreateVec`, `IGACreateLocalVec`, `IGACreateMat` -/
  | igaMake (i : Nat) (k : Kind) (lib : Bool)
  /-- `PetscObjectReference` by the program -/
  | igaReference (i : Nat)
  /-- `IGADestroy` by the program -/
  | igaDestroy (i : Nat)
  /-- `DMCreate`, `DMSetType(dm,DMIGA)` -/
  | dmNew
  /-- `DMIGACreate` -/
  | dmCreate (i : Nat) (lib : Bool)
  /-- `DMIGASetIGA` -/
  | dmSetIga (d i : Nat)
  /-- `DMSetVecType` -/
  | dmSetVecType (d : Nat) (t : String)
  /-- `DMSetMatType` -/
  | dmSetMatType (d : Nat) (t : String)
  /-- `DMSetUp` -/
  | dmSetUp (d dof dim : Nat) (v m : Option String) (lib : Bool)
  /-- `DMLoad` -/
  | dmLoad (d dof dim nsd : Nat) (v m : Option String) (lib : Bool)
  /-- `DMCreateGlobalVector`, `DMCreateLocalVector`, `DMCreateMatrix` -/
  | dmMake (d : Nat) (k : Kind) (lib : Bool)
  /-- `DMClone`, `DMCreateCoordinateDM`, `DMCreateSubDM` -/
  | dmDerive (d : Nat) (w : Derived) (lib : Bool)
  /-- `PetscObjectReference` by the program -/
  | dmReference (d : Nat)
  /-- `DMDestroy` by the program -/
  | dmDestroy (d : Nat)
  /-- `VecDestroy`, `MatDestroy` -/
  | destroy (o : Nat)

/-- One call. -/
def step (s : State) : Op → Out
  | .igaCreate dof dim nsd =>
    .done { s with igas := s.igas ++ [newIga dof dim nsd none none], heldI := bump s.heldI s.igas.length }
  | .igaSetUp i lib => setUpI s i lib
  | .igaLoad i dim nsd lib => loadI s i dim nsd lib
  | .igaSetVecType i t => setVecTypeI s i t
  | .igaSetMatType i t => setMatTypeI s i t
  | .igaMake i k lib => createI s i k lib
  | .igaReference i => (refI s i).andThen fun s => .done { s with heldI := bump s.heldI i }
  | .igaDestroy i =>
    if s.heldI i = 0 then .ub else destroyI { s with heldI := drop s.heldI i } i
  | .dmNew => .done (allocD s none)
  | .dmCreate i lib => createFrom s i lib
  | .dmSetIga d i => setIga s d i
  | .dmSetVecType d t => match liveD s d with
    | none => .ub
    | some m => .done (putD s d { m with vtype := some t })
  | .dmSetMatType d t => match liveD s d with
    | none => .ub
    | some m => .done (putD s d { m with mtype := some t })
  | .dmSetUp d dof dim v m lib => setUpD s d dof dim v m lib
  | .dmLoad d dof dim nsd v m lib => loadD s d dof dim nsd v m lib
  | .dmMake d k lib => createD s d k lib
  | .dmDerive d w lib => deriveD s d w lib
  | .dmReference d => (refD s d).andThen fun s => .done { s with heldD := bump s.heldD d }
  | .dmDestroy d =>
    if s.heldD d = 0 then .ub else destroyD { s with heldD := drop s.heldD d } d
  | .destroy o => destroyO s o

/-- A program: calls go on after an error that the program handles; nothing is known after undefined behaviour. -/
def run (s : State) : List Op → Option State
  | [] => some s
  | op :: ops => match step s op with
    | .done s' => run s' ops
    | .fail _ s' => run s' ops
    | .ub => none

end PetIGA.DMI
