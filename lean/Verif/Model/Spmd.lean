import Verif.Model.SetUp

/-!
The same configuration program running on all processes of a communicator (src/petiga.c): every process executes the same
calls on its own copy of the `IGA` object, and stops at its first error (`CHKERRQ` after every call).
-/

namespace PetIGA.SetUp
open PetIGA.Ax PetIGA.Lay PetIGA.Rule PetIGA.Quad PetIGA.Part

variable {K V : Type} [Field K] [LinearOrder K] [IsStrictOrderedRing K]

/-- A call of the program.  `op` has the same arguments on all processes (they are logically collective, petiga.c:320-585
`PetscValidLogicalCollectiveInt`); `geo` is the part of the geometry and of the table of fixed values a process keeps for its
own box (petigaio.c:174-520, petigaform.c:273-296), so it is a function of the local layout. -/
inductive Call (K V : Type) where
  | op (o : Op K V)
  | geo (f : Layout K → Geo K × Option (List K))

/-- One call on one process; the argument of `geo` is taken for the layout the process has. -/
def call (W : World K V) (s : IGA K V) : Call K V → Res Unit × IGA K V
  | .op o => step W s o
  | .geo f => match s.layout with
    | some L => setGeo s (f L).1 (f L).2
    | none => (.err .wrongState, s)

/-- The outcomes of the calls up to and including the first that fails, and the object then: `CHKERRQ` (petiga.c, after
every call) returns from the program. -/
def program (W : World K V) : IGA K V → List (Call K V) → List (Res Unit) × IGA K V
  | s, [] => ([], s)
  | s, c :: cs =>
    match call W s c with
    | (.ok (), s') => ((.ok ()) :: (program W s' cs).1, (program W s' cs).2)
    | (r, s') => ([r], s')

end PetIGA.SetUp
