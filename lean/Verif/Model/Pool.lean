import Verif.Model.Basic

/-!
Model of the cache of local work vectors, petigavec.c:95-145, petiga.c:141-142, 1341-1342, and the fields
`nwork`, `vwork[16]` of petiga.h:382-383.

A `Vec` is an identity together with the number of entries it was created with; PETSc's `VecCreate` returns a
vector different from all earlier ones and `VecDestroy` (on the only reference) releases it.  A slot of `vwork`
is `none` when it holds a null pointer.  What the program outside the IGA holds is recorded in `held`.
-/

namespace PetIGA.Pool

/-- `sizeof(iga->vwork)/sizeof(Vec)`, petiga.h:383. -/
def cap : Nat := 16

/-- A vector object: identity and number of entries. -/
structure Vec where
  id : Nat
  size : Nat
deriving DecidableEq, Repr

/-- The cache and the objects around it. -/
structure State where
  /-- `setupstage >= 2`, what `IGACheckSetUpStage2` tests. -/
  ready : Bool
  /-- `node_gwidth[0]*node_gwidth[1]*node_gwidth[2]*dof` of the current set-up. -/
  lsize : Nat
  nwork : Nat
  vwork : Nat → Option Vec
  /-- Vectors the callers got and have not given back (ghost state). -/
  held : List Vec
  /-- Vectors released by `VecDestroy` (ghost state). -/
  dead : List Vec
  /-- Identity of the next vector PETSc creates (ghost state). -/
  fresh : Nat

/-- `IGACreate`, petiga.c:32-63: the structure is zeroed. -/
def create : State :=
  { ready := false, lsize := 0, nwork := 0, vwork := fun _ => none, held := [], dead := [], fresh := 0 }

/-- Store in a slot of `vwork`; outside the array the behaviour is undefined. -/
def put (w : Nat → Option Vec) (i : Nat) (v : Option Vec) : Res (Nat → Option Vec) :=
  if i < cap then .ok (fun j => if j = i then v else w j) else .ub

/-- Read a slot of `vwork`; the slot must hold a vector (a null `Vec` handed out is useless to the caller and is
kept apart as undefined behaviour). -/
def read (w : Nat → Option Vec) (i : Nat) : Res Vec :=
  if i < cap then (match w i with | some v => .ok v | none => .ub) else .ub

/-- `IGAGetLocalVec`, petigavec.c:115-129, with `IGACreateLocalVec`, petigavec.c:95-113. -/
def get (s : State) : Res Vec × State :=
  if s.ready then
    if 0 < s.nwork then
      match read s.vwork (s.nwork - 1), put s.vwork (s.nwork - 1) none with
      | .ok v, .ok w => (.ok v, { s with nwork := s.nwork - 1, vwork := w, held := v :: s.held })
      | _, _ => (.ub, s)
    else
      (.ok ⟨s.fresh, s.lsize⟩, { s with held := ⟨s.fresh, s.lsize⟩ :: s.held, fresh := s.fresh + 1 })
  else (.err .wrongState, s)

/-- `IGARestoreLocalVec`, petigavec.c:131-145.  The handle must be a vector the caller holds
(`PetscValidHeaderSpecific` on a released one is undefined behaviour). -/
def restore (s : State) (v : Vec) : Res Unit × State :=
  if v ∈ s.held then
    if s.ready then
      if s.nwork < cap then
        match put s.vwork s.nwork (some v) with
        | .ok w => (.ok (), { s with nwork := s.nwork + 1, vwork := w, held := s.held.erase v })
        | _ => (.ub, s)
      else (.ok (), { s with held := s.held.erase v, dead := v :: s.dead })
    else (.err .wrongState, s)
  else (.ub, s)

/-- `while (iga->nwork > 0) VecDestroy(&iga->vwork[--iga->nwork])`, petiga.c:141-142 and 1341-1342; `VecDestroy`
sets the handle to null. -/
def drain : Nat → (Nat → Option Vec) → List Vec → Res ((Nat → Option Vec) × List Vec)
  | 0, w, dead => .ok (w, dead)
  | n+1, w, dead =>
    (read w n).bind fun v => (put w n none).bind fun w' => drain n w' (v :: dead)

/-- `IGAReset`, petiga.c:111-152: the part that concerns the cache. -/
def reset (s : State) : Res Unit × State :=
  match drain s.nwork s.vwork s.dead with
  | .ok (w, d) => (.ok (), { s with ready := false, nwork := 0, vwork := w, dead := d })
  | _ => (.ub, s)

/-- `IGASetUp` reaching stage 2, petiga.c:1319, 1341-1342, for a mesh whose local size is `n`: nothing happens when
the IGA is already set up. -/
def setUp (s : State) (n : Nat) : Res Unit × State :=
  if s.ready then (.ok (), s)
  else
    match drain s.nwork s.vwork s.dead with
    | .ok (w, d) => (.ok (), { s with ready := true, lsize := n, nwork := 0, vwork := w, dead := d })
    | _ => (.ub, s)

/-- The calls a program makes. -/
inductive Op where
  | get
  | restore (v : Vec)
  | reset
  | setUp (n : Nat)

/-- One call. -/
def step (s : State) : Op → Res (Option Vec) × State
  | .get => match get s with
    | (.ok v, s') => (.ok (some v), s')
    | (.err e, s') => (.err e, s')
    | (.ub, s') => (.ub, s')
  | .restore v => match restore s v with
    | (.ok _, s') => (.ok none, s')
    | (.err e, s') => (.err e, s')
    | (.ub, s') => (.ub, s')
  | .reset => match reset s with
    | (.ok _, s') => (.ok none, s')
    | (.err e, s') => (.err e, s')
    | (.ub, s') => (.ub, s')
  | .setUp n => match setUp s n with
    | (.ok _, s') => (.ok none, s')
    | (.err e, s') => (.err e, s')
    | (.ub, s') => (.ub, s')

/-- A history of calls. -/
def run (s : State) (ops : List Op) : State := ops.foldl (fun s o => (step s o).2) s

end PetIGA.Pool
