import Verif.Model.Basic
/-
Model of the boundary condition tables of src/petigaform.c.
-/
namespace PetIGA.Form

variable {V : Type}

/-- `struct _IGAFormBC` (include/petiga.h:221-225): the first `count` entries of `field[64]` and `value[64]`. -/
abbrev BC (V : Type) := List (Int × V)

/-- Capacity of the arrays of `struct _IGAFormBC`. -/
def cap : Nat := 64

/-- The search and store
`for (j=0; j<count; j++) if (index[j] == i) break; if (j == count) count++; index[j] = i; value[j] = v;`
common to `IGAFormBCSetEntry` (petigaform.c:101-110) and `AddFixa` (petigaelem.c:1181-1185), in arrays with `n`
entries: storing past the end is undefined. -/
def put (n : Nat) (l : List (Int × V)) (i : Int) (v : V) : Res (List (Int × V)) :=
  let j := l.findIdx (fun p => p.1 == i)
  if j = l.length then
    if j < n then .ok (l ++ [(i, v)]) else .ub
  else .ok (l.set j (i, v))

/-- `struct _n_IGAForm` (include/petiga.h:260-268) without the callbacks and the reference count. -/
structure Form (V : Type) where
  dof : Int
  value : Int → Int → BC V
  load : Int → Int → BC V
  visit : Int → Int → Bool

/-- `IGAFormCreate`, petigaform.c:25-43. -/
def create : Form V := { dof := -1, value := fun _ _ => [], load := fun _ _ => [], visit := fun _ _ => false }

/-- `IGAFormCheckArg(arg,m)`, petigaform.c:94-98. -/
def checkArg (arg m : Int) : Res Unit := do
  check (¬ arg < 0) .outOfRange
  check (¬ arg ≥ m) .outOfRange

/-- Store in `t[axis][side]`. -/
def upd2 {α : Type} (t : Int → Int → α) (a s : Int) (x : α) : Int → Int → α :=
  fun a' s' => if a' = a ∧ s' = s then x else t a' s'

/-- `IGAFormSetBoundaryValue`, petigaform.c:112-121. -/
def setValue (f : Form V) (axis side field : Int) (v : V) : Res Unit × Form V :=
  match checkArg axis 3 >>= fun _ => checkArg side 2 >>= fun _ => checkArg field 64 with
  | .ok _ =>
    let f := { f with dof := max f.dof (field+1) }
    match put cap (f.value axis side) field v with
    | .ok bc => (.ok (), { f with value := upd2 f.value axis side bc })
    | .err e => (.err e, f)
    | .ub => (.ub, f)
  | e => (e, f)

/-- `IGAFormSetBoundaryLoad`, petigaform.c:123-132. -/
def setLoad (f : Form V) (axis side field : Int) (v : V) : Res Unit × Form V :=
  match checkArg axis 3 >>= fun _ => checkArg side 2 >>= fun _ => checkArg field 64 with
  | .ok _ =>
    let f := { f with dof := max f.dof (field+1) }
    match put cap (f.load axis side) field v with
    | .ok bc => (.ok (), { f with load := upd2 f.load axis side bc })
    | .err e => (.err e, f)
    | .ub => (.ub, f)
  | e => (e, f)

/-- `IGAFormSetBoundaryForm`, petigaform.c:134-141. -/
def setForm (f : Form V) (axis side : Int) (flag : Bool) : Res Unit × Form V :=
  match checkArg axis 3 >>= fun _ => checkArg side 2 with
  | .ok _ => (.ok (), { f with visit := upd2 f.visit axis side flag })
  | e => (e, f)

/-- `IGAFormClearBoundary`, petigaform.c:143-152. -/
def clear (f : Form V) (axis side : Int) : Res Unit × Form V :=
  match checkArg axis 3 >>= fun _ => checkArg side 2 with
  | .ok _ => (.ok (), { f with value := upd2 f.value axis side [], load := upd2 f.load axis side [],
                               visit := upd2 f.visit axis side false })
  | e => (e, f)

/-- The calls of the interface. -/
inductive Op (V : Type) where
  | setValue (axis side field : Int) (v : V)
  | setLoad (axis side field : Int) (v : V)
  | setForm (axis side : Int) (flag : Bool)
  | clear (axis side : Int)

/-- One call on a form. -/
def step (f : Form V) : Op V → Res Unit × Form V
  | .setValue a s c v => setValue f a s c v
  | .setLoad a s c v => setLoad f a s c v
  | .setForm a s b => setForm f a s b
  | .clear a s => clear f a s

/-- The same calls through the IGA object, `IGASetBoundaryValue/Load/Form`, petigaform.c:324-365: `dim` and `dof`
are those of the object, not positive as long as they are not set.  (There is no IGA-level `clear`; it is the call
on the form.) -/
def igaStep (dim dof : Int) (f : Form V) : Op V → Res Unit × Form V
  | .setValue a s c v =>
    if dim > 0 ∧ ¬ (0 ≤ a ∧ a < dim) then (.err .outOfRange, f)
    else if dof > 0 ∧ ¬ (0 ≤ c ∧ c < dof) then (.err .outOfRange, f)
    else setValue f a s c v
  | .setLoad a s c v =>
    if dim > 0 ∧ ¬ (0 ≤ a ∧ a < dim) then (.err .outOfRange, f)
    else if dof > 0 ∧ ¬ (0 ≤ c ∧ c < dof) then (.err .outOfRange, f)
    else setLoad f a s c v
  | .setForm a s b =>
    if dim > 0 ∧ ¬ (0 ≤ a ∧ a < dim) then (.err .outOfRange, f) else setForm f a s b
  | .clear a s => clear f a s

/-- A history of calls; a failing call leaves the form in the state it returned. -/
def run (f : Form V) (ops : List (Op V)) : Form V := ops.foldl (fun f o => (step f o).2) f

/-! ### `IGAFormReset`

The memory of the form: one allocation holding `refct, ops, dof, value[3][2], load[3][2], visit[3][2]`, where the
entries of `value` and `load` are pointers to tables.  `none` is a null pointer. -/

/-- Sizes in bytes of the C types, and the offset of `value` in the structure; chosen by the compiler. -/
structure ABI where
  int : Nat
  ptr : Nat
  scalar : Nat
  bool : Nat
  offValue : Nat
  /-- padding at the end of the structure -/
  pad : Nat

/-- `sizeof(struct _IGAFormBC)` without padding, include/petiga.h:221-225. -/
def ABI.bc (A : ABI) : Nat := A.int + 64 * A.int + 64 * A.scalar
/-- Offset of `load`. -/
def ABI.offLoad (A : ABI) : Nat := A.offValue + 6 * A.ptr
/-- Offset of `visit`. -/
def ABI.offVisit (A : ABI) : Nat := A.offLoad + 6 * A.ptr
/-- `sizeof(struct _n_IGAForm)`, include/petiga.h:260-268. -/
def ABI.form (A : ABI) : Nat := A.offVisit + 6 * A.bool + A.pad

/-- `PetscMemzero(base+off,len)` on an object of `size` bytes: writing past its end is undefined. -/
def memzero (size off len : Nat) : Res Unit := if off + len ≤ size then .ok () else .ub

/-- The three `PetscMemzero` calls of `IGAFormReset`, petigaform.c:72-75, on the form structure (the call on `ops`
is within its own allocation). -/
def reset (A : ABI) : Res Unit := do
  memzero A.form A.offValue (3 * 2 * A.bc)
  memzero A.form A.offLoad (3 * 2 * A.bc)
  memzero A.form A.offVisit (3 * 2 * A.bool)

/-- The pointers `value[a][s]` after `IGAFormReset` if the stray writes do no harm: all null. -/
def resetPtrs : Int → Int → Option (BC V) := fun _ _ => none

/-- `IGAFormSetBoundaryValue` through pointers: using a null pointer is undefined. -/
def setValuePtr (t : Int → Int → Option (BC V)) (axis side field : Int) (v : V) : Res (Int → Int → Option (BC V)) := do
  checkArg axis 3
  checkArg side 2
  checkArg field 64
  match t axis side with
  | none => .ub
  | some bc =>
    let bc' ← put cap bc field v
    .ok (upd2 t axis side (some bc'))

end PetIGA.Form
