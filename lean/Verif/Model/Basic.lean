/-
Outcome type shared by all models of the C / Fortran code.

A C function that returns a `PetscErrorCode` has three outcomes here:
* `ok a`   – returned 0 with result / new state `a`;
* `err e`  – executed a `SETERRQ` with error class `e`;
* `ub`     – executed something the C standard leaves undefined (out-of-range array access,
             conversion of a non-finite `double` to an integer, integer division by zero, …).
-/
namespace PetIGA

/-- PETSc error classes used by the modelled code (`PETSC_ERR_*`). -/
inductive Err where
  | outOfRange | wrongState | order | wrong | sup | incomp | plib | fileUnexpected | null | lib | user
  deriving DecidableEq, Repr

/-- Outcome of a modelled C function. -/
inductive Res (α : Type u) where
  | ok (a : α)
  | err (e : Err)
  | ub
  deriving DecidableEq, Repr

namespace Res

/-- Sequencing: `ierr = f(); CHKERRQ(ierr);` stops at the first failure. -/
def bind {α : Type u} {β : Type v} : Res α → (α → Res β) → Res β
  | ok a, f => f a
  | err e, _ => err e
  | ub, _ => ub

instance : Monad Res where
  pure := ok
  bind := Res.bind

@[simp] theorem ok_bind {α β : Type u} (a : α) (f : α → Res β) : (Res.ok a >>= f) = f a := rfl
@[simp] theorem err_bind {α β : Type u} (e : Err) (f : α → Res β) :
    ((Res.err e : Res α) >>= f) = Res.err e := rfl
@[simp] theorem ub_bind {α β : Type u} (f : α → Res β) : ((Res.ub : Res α) >>= f) = Res.ub := rfl
@[simp] theorem pure_eq {α : Type u} (a : α) : (pure a : Res α) = Res.ok a := rfl

theorem bind_eq_ok {α β : Type u} {x : Res α} {f : α → Res β} {b : β} :
    (x >>= f) = Res.ok b ↔ ∃ a, x = Res.ok a ∧ f a = Res.ok b := by
  cases x <;> simp

/-- The call returned normally. -/
def isOk {α : Type u} : Res α → Bool
  | ok _ => true
  | _ => false

/-- Checked array read: reading outside the array is undefined behaviour. -/
def ofOption {α : Type u} : Option α → Res α
  | some a => ok a
  | none => ub

@[simp] theorem ofOption_some {α : Type u} (a : α) : ofOption (some a) = ok a := rfl
@[simp] theorem ofOption_none {α : Type u} : ofOption (none : Option α) = ub := rfl

theorem ofOption_eq_ok {α : Type u} {o : Option α} {a : α} : ofOption o = ok a ↔ o = some a := by
  cases o <;> simp

end Res

/-- `SETERRQ` guard: `if (!cond) SETERRQ(e)`. -/
def check (cond : Prop) [Decidable cond] (e : Err) : Res Unit :=
  if cond then .ok () else .err e

theorem check_eq_ok {c : Prop} [Decidable c] {e : Err} {u : Unit} : check c e = .ok u ↔ c := by
  unfold check; split <;> simp_all

end PetIGA
