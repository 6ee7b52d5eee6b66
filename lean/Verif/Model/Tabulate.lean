import Verif.Model.Integrate
import Verif.Model.Point
/-
Model of `IGAElementBuildTabulation` (src/petigaelem.c:791-1034) from the one-dimensional tables of the directions to what
the callbacks read at the points of the element: `IGA_Quadrature` (Model/Integrate), `IGA_BasisFuns`, then the kernels of
Model/Point at every point.

Simplifications: exact arithmetic; interior points (the boundary branches are those of Model/Point, with the tables
`bnd_value` of Model/Quad).
-/
namespace PetIGA.Itg
open PetIGA.Quad PetIGA.Drv PetIGA.Ker

/-- The tables of functions numbered in another way: function `a` of the result is function `f a` of `T`. -/
def renumber {K : Type} {d : Nat} {ι κ : Type} (f : ι → κ) (T : Tab K d κ) : Tab K d ι where
  t0 a := T.t0 (f a)
  t1 i a := T.t1 i (f a)
  t2 i j a := T.t2 i j (f a)
  t3 i j k a := T.t3 i j k (f a)
  t4 i j k l a := T.t4 i j k l (f a)

/-- The table `value(0:4,na)` of one point of one direction: derivative order and function. -/
abbrev Line := Nat → Nat → ℝ

/-- `IGA_BasisFuns_1D`, `_2D`, `_3D` at one point, src/petiga1d.F90:22-48, src/petiga2d.F90:27-58, src/petiga3d.F90:32-68,
chosen by the number of directions, src/petigaelem.c:839-886: `ns` are the numbers `BD[i]->nen`, `mem` the contents of the
arrays `M[0..4]` at this point, where function `(ia,ja,ka)` is at `ia + ina*(ja + jna*ka)` (dummy arguments
`N(ina*jna*kna)` seen as `N(ina,jna,kna)`). -/
def basisFuns (order : Int) : (d : Nat) → List Nat → List Line → (nen : Nat) → Tab ℝ d Nat → Option (Tab ℝ d (Fin nen))
  | 1, [_], [A], nen, mem => some (renumber (fun a : Fin nen => (a:Nat)) (tensor1 order A mem))
  | 2, [n1, _], [A, B], nen, mem =>
    some (renumber (fun a : Fin nen => ((a:Nat) % n1, (a:Nat) / n1))
      (tensor2 order A B (renumber (fun x : Nat × Nat => x.1 + n1 * x.2) mem)))
  | 3, [n1, n2, _], [A, B, C], nen, mem =>
    some (renumber (fun a : Fin nen => ((a:Nat) % n1, (a:Nat) / n1 % n2, (a:Nat) / n1 / n2))
      (tensor3 order A B C (renumber (fun x : Nat × Nat × Nat => nodePos n1 n2 x.1 x.2.1 x.2.2) mem)))
  | _, _, _, _, _ => none

/-- What a callback reads at a point: parametric coordinates (`mapU[0]`), `point->shape`, and the other arrays. -/
structure PtData (d nsd nen : Nat) where
  u : List ℝ
  shape : Tab ℝ d (Fin nen)
  arrays : PtOut d nsd (Fin nen)

/-- One point of an element: from what `IGA_Quadrature` stored and the tables of the directions to the point handed to
the callback, src/petigaelem.c:870-1033, 548-561.  A table that was not made (`none`) is uninitialised memory. -/
noncomputable def tabulatePoint {d nsd nen : Nat} (c : PtIn d nsd (Fin nen)) (ns : List Nat) (mem : Tab ℝ d Nat × PtOut d nsd (Fin nen))
    (q : QP ℝ (List ℝ × List (Option Line))) : Res (QP ℝ (PtData d nsd nen)) :=
  match Blk.sequence (q.data.2.map fun v => match v with | some A => .ok A | none => .ub) with
  | .ok As =>
    match basisFuns c.order d ns As nen mem.1 with
    | some N => (Ker.tabulate c N q.detJac mem.2).bind fun o => .ok ⟨o.detJac, q.weight, ⟨q.data.1, pointShape c o, o⟩⟩
    | none => .ub
  | .err e => .err e
  | .ub => .ub

/-- `IGAElementBuildTabulation` for the interior of the element with indices `id`: the points of the element as the
callbacks see them. -/
noncomputable def tabulateElement {d nsd nen : Nat} (c : PtIn d nsd (Fin nen)) (Bs : List (Basis ℝ Line)) (id : List Int)
    (mem : Nat → Tab ℝ d Nat × PtOut d nsd (Fin nen)) : Res (List (QP ℝ (PtData d nsd nen))) :=
  (elemPoints Bs id).bind fun qs =>
    Blk.sequence (qs.zipIdx.map fun qi => tabulatePoint c (Bs.map fun B => B.nen.toNat) (mem qi.2) qi.1)

end PetIGA.Itg
