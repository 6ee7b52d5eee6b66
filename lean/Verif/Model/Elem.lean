import Verif.Model.Layout
/-
Model of the element loop, the form loop, the element closure and the point loop of src/petigaelem.c.
-/
namespace PetIGA.Elem
open PetIGA.Lay

/-- The fields of `struct _n_IGAElement` (include/petiga.h) used by the element and form loops; the lists hold
the first `dim` entries of the C arrays. -/
structure Elem where
  start : List Int
  width : List Int
  sizes : List Int
  id : List Int
  index : Int
  count : Int
  boundaryId : Int
  atBoundary : Bool
  deriving DecidableEq, Repr

/-- `element->dim`. -/
def Elem.dim (e : Elem) : Int := e.width.length

/-- `nel *= width[i]`, petigaelem.c:161-172. -/
def mulAll : List Int → Int → Int
  | [], acc => acc
  | w :: ws, acc => mulAll ws (acc * w)

/-- The loop data set by `IGAElementInit`, petigaelem.c:155-182, from the layout of Stage 1 (`atb`, `bid` are
the values left in memory by `PetscCalloc`/`IGAElementReset`). -/
def init (d : List Dir) (atb : Bool) (bid : Int) : Elem :=
  { start := d.map Dir.elemStart, width := d.map Dir.elemWidth, sizes := d.map Dir.elemSize,
    id := d.map fun _ => 0, index := -1, count := mulAll (d.map Dir.elemWidth) 1,
    boundaryId := bid, atBoundary := atb }

/-- `IGABeginElement`, petigaelem.c:274-373: the part that touches the loop data.  Simplified: the checks that
rational/geometry/property arrays are present are not modelled here; re-running `IGAElementInit` because `dim`,
`dof`, `nsd` or `npd` changed is `init` again. -/
def begin_ (e : Elem) : Elem := { e with index := -1, atBoundary := false, boundaryId := -1 }

/-- Decoding of the element index, petigaelem.c:389-393. -/
def decode : List Int → List Int → Int → List Int
  | w :: ws, s :: ss, index =>
    let coord := Int.tmod index w
    (coord + s) :: decode ws ss (Int.tdiv (index - coord) w)
  | _, _, _ => []

/-- `IGANextElement`, petigaelem.c:375-410.  `bad id` tells whether building the closure or the fix tables of
element `id` reports an error. -/
def next (bad : List Int → Bool) (e : Elem) : Bool × Elem :=
  let index := e.index + 1
  if index ≥ e.count then (false, { e with index := -1 })
  else
    let id := decode e.width e.start index
    let e' := { e with index := index, id := id }
    if bad id then (false, e') else (true, e')

/-- `IGAEndElement`, petigaelem.c:412-425. -/
def end_ (e : Elem) : Res Unit × Elem :=
  if e.index ≠ -1 then (.err .plib, { e with index := -1 }) else (.ok (), e)

/-- `while (IGANextElement(iga,element)) visit(element->ID);` – the identifiers seen and the final state. -/
def run (bad : List Int → Bool) : Nat → Elem → List (List Int) × Elem
  | 0, e => ([], e)
  | fuel+1, e =>
    match next bad e with
    | (true, e') =>
      let r := run bad fuel e'
      (e'.id :: r.1, r.2)
    | (false, e') => ([], e')

/-- The whole loop `IGABeginElement; while (IGANextElement) …; IGAEndElement`.  At most `count` elements are
visited, so `count+1` calls of `IGANextElement` suffice (see `C03_loop_terminates`). -/
def loop (bad : List Int → Bool) (e : Elem) : Res Unit × List (List Int) × Elem :=
  let b := begin_ e
  let r := run bad (b.count.toNat + 1) b
  let f := end_ r.2
  (f.1, r.1, f.2)

/-! ### Form loop -/

/-- The `while (++element->boundary_id < 2*dim)` loop of `IGAElementNextForm`, petigaelem.c:431-439.  Returns
the boundary found, or the value of `boundary_id` after the loop.  `fuel` bounds the number of iterations
(`2*dim+2` is always enough). -/
def scanForm (e : Elem) (visit : Int → Int → Bool) : Nat → Int → Option Int × Int
  | 0, b => (none, b)
  | fuel+1, b0 =>
    let b := b0 + 1
    if b < 2 * e.dim then
      let i := Int.tdiv b 2
      let s := Int.tmod b 2
      let ex := if s ≠ 0 then (e.sizes.getD i.toNat 0) - 1 else 0
      if e.id.getD i.toNat 0 ≠ ex then scanForm e visit fuel b
      else if ¬ visit i s then scanForm e visit fuel b
      else (some b, b)
    else (none, b)

/-- `IGAElementNextForm`, petigaelem.c:427-447. -/
def nextForm (e : Elem) (visit : Int → Int → Bool) : Bool × Elem :=
  match scanForm e visit (2 * e.dim + 2).toNat e.boundaryId with
  | (some b, _) => (true, { e with boundaryId := b, atBoundary := true })
  | (none, b) =>
    if b = 2 * e.dim then (true, { e with boundaryId := b + 1, atBoundary := false })
    else (false, { e with boundaryId := -1, atBoundary := false })

/-- The part of `IGAElementEndPoint`, petigaelem.c:601-621, that touches the form loop: with collocation only one
form is visited per element. -/
def endPoint (colloc : Bool) (e : Elem) : Elem :=
  if e.atBoundary then
    (if colloc then { e with atBoundary := false, boundaryId := 2 * e.dim } else e)
  else e

/-- `while (IGAElementNextForm(element,visit)) { IGAElementBeginPoint; …; IGAElementEndPoint }` – for each visit
`some b` on boundary `b` and `none` in the interior. -/
def runForm (colloc : Bool) (visit : Int → Int → Bool) : Nat → Elem → List (Option Int) × Elem
  | 0, e => ([], e)
  | fuel+1, e =>
    match nextForm e visit with
    | (true, e') =>
      let r := runForm colloc visit fuel (endPoint colloc e')
      ((if e'.atBoundary then some e'.boundaryId else none) :: r.1, r.2)
    | (false, e') => ([], e')

/-! ### Closure -/

/-- Data of one direction used by `IGAElementBuildClosure`: `BD[i]->nen`, `BD[i]->offset[ID[i]]`, `ID[i]`,
`node_gstart[i]`, `node_gwidth[i]`. -/
structure CDir where
  nen : Nat
  offset : Int
  id : Int
  gstart : Int
  gwidth : Int

/-- `element->mapping` built by the three nested loops of `IGAElementBuildClosure`, petigaelem.c:702-721. -/
def closure (d0 d1 d2 : CDir) : List Int :=
  (List.range d2.nen).flatMap fun (ka : Nat) =>
    (List.range d1.nen).flatMap fun (ja : Nat) =>
      (List.range d0.nen).map fun (ia : Nat) =>
        (d0.offset + (ia:Int) - d0.gstart) + (d1.offset + (ja:Int) - d1.gstart) * d0.gwidth
          + (d2.offset + (ka:Int) - d2.gstart) * (d0.gwidth * d1.gwidth)

/-- `element->rowmap[0]` of the collocation case, petigaelem.c:722-727. -/
def rowmap (d0 d1 d2 : CDir) : Int :=
  (d0.id - d0.gstart) + (d1.id - d1.gstart) * d0.gwidth + (d2.id - d2.gstart) * (d0.gwidth * d1.gwidth)

/-- The output arguments of `IGAElementGetIndices`: `none` is a null pointer, `some v` a pointer to memory
holding `v`. -/
structure Outs where
  neq : Option Int
  rowmap : Option (List Int)
  nen : Option Int
  colmap : Option (List Int)
  deriving DecidableEq

/-- Store through a pointer that may be null. -/
def put {α : Type} (p : Option α) (v : α) : Option α := p.map fun _ => v

/-- `IGAElementGetIndices`, petigaelem.c:674-689, statement by statement. -/
def getIndices (neq : Int) (row : List Int) (nen : Int) (col : List Int) (o : Outs) : Outs :=
  let o := { o with neq := put o.neq neq }
  let o := { o with colmap := put o.colmap row }
  let o := { o with nen := put o.nen nen }
  { o with colmap := put o.colmap col }

/-! ### Point loop -/

/-- Sizes used by `IGAElementNextPoint`. -/
structure PSizes where
  nen : Nat
  dim : Nat
  nsd : Nat
  count : Nat
  geometry : Bool

/-- Which array of the element a point pointer points into. -/
inductive Arr where
  | basis (k : Nat) | shape (k : Nat) | mapU (k : Nat) | mapX (k : Nat)
  deriving DecidableEq, Repr

/-- Pointer: array and offset (in entries). -/
structure Ptr where
  arr : Arr
  off : Nat
  deriving DecidableEq, Repr

/-- The pointers `point->basis[k]`, `point->shape[k]`, `point->mapU[k]`, `point->mapX[k]` for one order `k`. -/
structure PPtr where
  basis : Ptr
  shape : Ptr
  mapU : Ptr
  mapX : Ptr
  deriving DecidableEq, Repr

/-- The pointers at the first point, petigaelem.c:540-586. -/
def ptrStart (z : PSizes) (k : Nat) : PPtr :=
  { basis := ⟨.basis k, 0⟩,
    shape := if z.geometry ∧ z.dim = z.nsd then ⟨.shape k, 0⟩ else ⟨.basis k, 0⟩,
    mapU := ⟨.mapU k, 0⟩,
    mapX := if z.geometry then ⟨.mapX k, 0⟩ else ⟨.mapU k, 0⟩ }

/-- One increment of the pointers, petigaelem.c:509-536. -/
def ptrNext (z : PSizes) (k : Nat) (p : PPtr) : PPtr :=
  { basis := ⟨p.basis.arr, p.basis.off + z.nen * z.dim^k⟩,
    shape := ⟨p.shape.arr, p.shape.off + z.nen * z.nsd^k⟩,
    mapU := ⟨p.mapU.arr, p.mapU.off + z.dim * z.nsd^k⟩,
    mapX := ⟨p.mapX.arr, p.mapX.off + z.nsd * z.dim^k⟩ }

/-- State of the point loop: index and pointers of order `k`. -/
structure PIter where
  index : Int
  ptr : PPtr
  deriving DecidableEq, Repr

/-- `IGAElementNextPoint`, petigaelem.c:481-596 (one derivative order `k`; for `k = 0` the `mapU`/`mapX`
increments are `dim` and `nsd`, lines 525, 531). -/
def nextPoint (z : PSizes) (k : Nat) (s : PIter) : Bool × PIter :=
  let index := s.index + 1
  if index = 0 then (true, ⟨0, ptrStart z k⟩)
  else if index ≥ z.count then (false, ⟨-1, s.ptr⟩)
  else (true, ⟨index, ptrNext z k s.ptr⟩)

/-- The pointers seen by `while (IGAElementNextPoint(element,point))`. -/
def runPoint (z : PSizes) (k : Nat) : Nat → PIter → List PPtr × PIter
  | 0, s => ([], s)
  | fuel+1, s =>
    match nextPoint z k s with
    | (true, s') =>
      let r := runPoint z k fuel s'
      (s'.ptr :: r.1, r.2)
    | (false, s') => ([], s')

/-- `IGABeginElement`, `IGANextElement`, `IGAEndElement`, `IGAElementNextForm`, `IGAElementEndPoint` in any order. -/
inductive Call where
  | begin_ | next (bad : List Int → Bool) | end_ | form (visit : Int → Int → Bool) | endPoint (colloc : Bool)

/-- Effect of a call on the element. -/
def call (e : Elem) : Call → Elem
  | .begin_ => begin_ e
  | .next bad => (next bad e).2
  | .end_ => (end_ e).2
  | .form v => (nextForm e v).2
  | .endPoint c => endPoint c e

end PetIGA.Elem
