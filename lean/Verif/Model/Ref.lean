import Verif.Model.Basic

/-!
Model of the reference counts of the library's C objects.  `IGAAxis`, `IGARule`, `IGABasis`, `IGAForm`, `IGAElement`,
`IGAPoint` and `IGAProbe` use the same three functions (petigaaxis.c:3-42, 73-79; petigarule.c:11-35, 49-55;
petigabasis.c:11-34, 55-61; petigaform.c:25-64, 80-86; petigaelem.c:3-39; petigapoint.c:3-35; petigaprobe.c:23-40, 121-180);
the form is the one that can be shared between IGA objects (`IGASetForm`, petigaform.c:1-23), so the objects are called
forms below.

The payload is left out.  The memory is a list of objects that is never reused, so that a use of a released object is
recognised (`ub`).  Handles live in program variables and in the `form` slots of the IGA objects.
-/

namespace PetIGA.Ref

/-- A C object: its counter, and whether `PetscFree` was called on it. -/
structure Obj where
  refct : Int
  freed : Bool
deriving DecidableEq, Repr

/-- What happened to which object: a creation or a reference, a destroy, the release of the memory. -/
inductive Ev where
  | acquire (o : Nat) | release (o : Nat) | free (o : Nat)
deriving DecidableEq, Repr

/-- Memory, program variables of handle type, the `form` slots of the existing IGA objects, and the events so far. -/
structure State where
  heap : List Obj
  vars : Nat → Option Nat
  igas : List (Option Nat)
  trace : List Ev

/-- The start of a program. -/
def init : State := { heap := [], vars := fun _ => none, igas := [], trace := [] }

/-- `*_form = form; form->refct = 1` after `PetscCalloc1`, petigaform.c:32-33; the new object is number
`s.heap.length`. -/
def alloc (s : State) : State :=
  { s with heap := s.heap ++ [{ refct := 1, freed := false }], trace := s.trace ++ [.acquire s.heap.length] }

/-- `form->refct++`, petigaform.c:80-86; a null or released object is undefined behaviour. -/
def reference (s : State) (h : Option Nat) : Res State :=
  match h with
  | none => .ub
  | some o => match s.heap[o]? with
    | some ⟨n, false⟩ => .ok { s with heap := s.heap.set o ⟨n+1, false⟩, trace := s.trace ++ [.acquire o] }
    | _ => .ub

/-- `if (!form) return; if (--form->refct > 0) return; … PetscFree(form)`, petigaform.c:52-62 (the caller's handle is
overwritten with null by the callers below). -/
def destroy (s : State) (h : Option Nat) : Res State :=
  match h with
  | none => .ok s
  | some o => match s.heap[o]? with
    | some ⟨n, false⟩ =>
      if n - 1 > 0 then .ok { s with heap := s.heap.set o ⟨n-1, false⟩, trace := s.trace ++ [.release o] }
      else .ok { s with heap := s.heap.set o ⟨n-1, true⟩, trace := s.trace ++ [.release o, .free o] }
    | _ => .ub

/-- Store a handle in a program variable. -/
def setVar (s : State) (v : Nat) (h : Option Nat) : State := { s with vars := fun w => if w = v then h else s.vars w }

/-- Calls of a program. -/
inductive Op where
  /-- `IGAFormCreate(&v)` -/
  | create (v : Nat)
  /-- `IGAFormReference(v)` -/
  | reference (v : Nat)
  /-- `IGAFormDestroy(&v)` -/
  | destroy (v : Nat)
  /-- `v = w` -/
  | copy (v w : Nat)
  /-- `IGACreate`: the new IGA has a form of its own, petiga.c:32-63 -/
  | igaCreate
  /-- `IGAGetForm(iga,&v)`, petigaform.c:3-10 -/
  | getForm (g v : Nat)
  /-- `IGASetForm(iga,v)`, petigaform.c:12-23 -/
  | setForm (g v : Nat)
  /-- `IGADestroy` of an IGA with no other references, petiga.c:78-109 -/
  | igaDestroy (g : Nat)
deriving DecidableEq, Repr

/-- One call.  An IGA number that does not exist (or whose IGA was destroyed) is undefined behaviour. -/
def step (s : State) : Op → Res State
  | .create v => .ok (setVar (alloc s) v (some s.heap.length))
  | .reference v => reference s (s.vars v)
  | .destroy v => destroy (setVar s v none) (s.vars v)
  | .copy v w => .ok (setVar s v (s.vars w))
  | .igaCreate => .ok { alloc s with igas := s.igas ++ [some s.heap.length] }
  | .getForm g v => match s.igas[g]? with
    | some (some o) => .ok (setVar s v (some o))
    | _ => .ub
  | .setForm g v => match s.igas[g]? with
    | some (some o) =>
      if s.vars v = some o then .ok s
      else (reference s (s.vars v)).bind fun s =>
        (destroy { s with igas := s.igas.set g none } (some o)).bind fun s => .ok { s with igas := s.igas.set g (s.vars v) }
    | _ => .ub
  | .igaDestroy g => match s.igas[g]? with
    | some (some o) => destroy { s with igas := s.igas.set g none } (some o)
    | _ => .ub

/-- A program run. -/
def run (s : State) : List Op → Res State
  | [] => .ok s
  | o :: ops => (step s o).bind fun s => run s ops

end PetIGA.Ref
