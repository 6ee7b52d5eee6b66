/-
Independent specification of tables of boundary conditions.
-/
namespace PetIGA.Spec

/-- What a client did to the conditions of one kind (Dirichlet values, or loads): set one, or clear a side. -/
inductive BCEvent (V : Type) where
  | set (axis side field : Int) (v : V)
  | clear (axis side : Int)

/-- Axes 0,1,2, sides 0,1 and fields 0..63 are legal. -/
def BCEvent.legal {V : Type} : BCEvent V → Prop
  | .set a s c _ => (0 ≤ a ∧ a < 3) ∧ (0 ≤ s ∧ s < 2) ∧ (0 ≤ c ∧ c < 64)
  | .clear a s => (0 ≤ a ∧ a < 3) ∧ (0 ≤ s ∧ s < 2)

instance {V : Type} (e : BCEvent V) : Decidable e.legal := by
  cases e <;> unfold BCEvent.legal <;> infer_instance

/-- The condition in force for `(axis, side, field)` after the events, most recent first: the value of the last
legal `set` of exactly this triple since the last legal `clear` of its side. -/
def inForce {V : Type} (axis side field : Int) : List (BCEvent V) → Option V
  | [] => none
  | .set a s c v :: es =>
    if (BCEvent.set a s c v).legal ∧ a = axis ∧ s = side ∧ c = field then some v else inForce axis side field es
  | .clear a s :: es =>
    if (BCEvent.clear a s : BCEvent V).legal ∧ a = axis ∧ s = side then none else inForce axis side field es

/-- The value stored for key `i` in a table. -/
def tableGet {V : Type} (l : List (Int × V)) (i : Int) : Option V := (l.find? (fun p => p.1 == i)).map Prod.snd

end PetIGA.Spec
